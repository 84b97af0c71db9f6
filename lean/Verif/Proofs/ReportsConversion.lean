import Verif.Proofs.ReportsExplained

/-!
# What the reports name: the modulated Gaussian, the conversion, the files
-/

namespace OpenControls

open PyFloat Py Spec

/-! ## Files -/

section
variable {α : Type} [Add α] [Sub α] [Mul α] [Div α] [Neg α] [PyFloat α]

theorem quiet_csvRow (info : List (String × Val α)) (i : ℕ) :
    ∀ fields : List String, Quiet (csvRow info fields i)
  | [] => Quiet.ok _
  | k :: ks => by
    unfold csvRow
    rw [List.mapM_cons]
    refine Quiet.bind ?_ fun x => Quiet.bind (quiet_csvRow info i ks) fun _ => Quiet.pure _
    intro e h
    split at h
    · split at h <;> cases h
      rfl
    · cases h; rfl
    · cases h; rfl

theorem quiet_writeRows (fs : FileSystem α) (filename : String) (header : List String)
    (info : List (String × Val α)) : ∀ (is : List ℕ) (done : List (List α)),
    Quiet (writeRows fs filename header info done is).1
  | [], _ => Quiet.ok _
  | i :: is, done => by
    unfold writeRows
    split
    · exact quiet_writeRows fs filename header info is _
    · next e he => 
      intro e' h'
      cases h'
      exact quiet_csvRow info i header e he

theorem quiet_exportContent (c : DrivenControl α) (coordinates : String) : Quiet (c.exportContent coordinates) := by
  unfold DrivenControl.exportContent
  refine Quiet.bind (quiet_npAmax _) fun m => ?_
  dsimp only
  split <;> exact Quiet.pure _

theorem quiet_exportExpanded (c : DrivenControl α) (fs : FileSystem α) (filename fileType coordinates : String) :
    Quiet (c.exportExpanded fs filename fileType coordinates).1 := by
  unfold DrivenControl.exportExpanded
  split
  · next e he => intro e' h'; cases h'; exact quiet_exportContent c coordinates e he
  · split
    · split
      · intro e' h'; cases h'; rfl
      · dsimp only
        split
        · next e he => intro e' h'; cases h'; exact quiet_npAmax _ e he
        · exact quiet_writeRows _ _ _ _ _ _
    · exact Quiet.ok _

theorem sameCall_file (c : DrivenControl α) (fs : FileSystem α) (filename fileFormat fileType coordinates : String) :
    SameCall (c.exportToFileR fs filename fileFormat fileType coordinates)
      (c.exportToFile fs filename fileFormat fileType coordinates).1 := by
  unfold DrivenControl.exportToFileR DrivenControl.exportToFile
  simp only [checkR_bind]
  cases h1 : fileFormats.contains fileFormat
  · exact ⟨_, rfl⟩
  cases h2 : fileTypes.contains fileType
  · exact ⟨_, rfl⟩
  cases h3 : coordinateSystems.contains coordinates
  · exact ⟨_, rfl⟩
  simp only [if_true, Bool.not_true, Bool.false_eq_true, if_false]
  split
  · exact sameCall_lift (quiet_exportExpanded _ _ _ _ _)
  · rfl

theorem sameCall_sequenceFile (s : Sequence α) (fs : FileSystem α)
    (filename fileFormat fileType coordinates : String) (R D : α) :
    SameCall (s.exportToFileR fs filename fileFormat fileType coordinates R D)
      (s.exportToFile fs filename fileFormat fileType coordinates R D).1 := by
  have : (s.exportToFile fs filename fileFormat fileType coordinates R D).1 =
      (convertDDS s R D (lit 0) s.name >>= fun c => (c.exportToFile fs filename fileFormat fileType coordinates).1) := by
    unfold Sequence.exportToFile
    cases convertDDS s R D (lit 0) s.name <;> rfl
  rw [this]
  exact sameCall_bind (sameCall_convert _ _ _ _ _) fun c => sameCall_file _ _ _ _ _ _

omit [Add α] [Sub α] [Mul α] [Div α] [Neg α] [PyFloat α] in
theorem liftR_not_report {β : Type} (y : Except PyErr β) (r : Report α) :
    liftR (α := α) y ≠ .error (.report r) := by
  cases y <;> simp [liftR]

theorem fileR_eq (c : DrivenControl α) (fs : FileSystem α) (filename fileFormat fileType coordinates : String) :
    c.exportToFileR fs filename fileFormat fileType coordinates =
      if fileFormats.contains fileFormat then
        if fileTypes.contains fileType then
          if coordinateSystems.contains coordinates then
            if fileFormat == "Q-CTRL expanded" then liftR (c.exportExpanded fs filename fileType coordinates).1
            else .ok ()
          else .error (.report ⟨"Requested coordinate type is not supported." ++
            " Please use one of ['cartesian', 'cylindrical']", [("coordinates", .str coordinates)], none⟩)
        else .error (.report ⟨"Requested file type is not supported." ++
          " Please use one of ['JSON', 'CSV']", [("file_type", .str fileType)], none⟩)
      else .error (.report ⟨"Requested file format is not supported." ++
        " Please use one of ['Q-CTRL expanded']", [("file_format", .str fileFormat)], none⟩) := by
  unfold DrivenControl.exportToFileR
  simp only [checkR_bind]
  rfl

theorem fileR_report {c : DrivenControl α} {fs : FileSystem α} {filename fileFormat fileType coordinates : String}
    {r : Report α} (h : c.exportToFileR fs filename fileFormat fileType coordinates = .error (.report r)) :
    (r.arguments = [("file_format", .str fileFormat)] ∧ ∀ (c' : DrivenControl α) (filename' fileType' coordinates' : String),
      ∃ r', c'.exportToFileR fs filename' fileFormat fileType' coordinates' = .error (.report r')) ∨
    (r.arguments = [("file_type", .str fileType)] ∧ ∀ (c' : DrivenControl α) (filename' fileFormat' coordinates' : String),
      ∃ r', c'.exportToFileR fs filename' fileFormat' fileType coordinates' = .error (.report r')) ∨
    (r.arguments = [("coordinates", .str coordinates)] ∧ ∀ (c' : DrivenControl α) (filename' fileFormat' fileType' : String),
      ∃ r', c'.exportToFileR fs filename' fileFormat' fileType' coordinates = .error (.report r')) := by
  rw [fileR_eq] at h
  split at h
  · split at h
    · split at h
      · split at h
        · exact absurd h (liftR_not_report _ _)
        · cases h
      · next h3 =>
        cases raised_inj h
        refine .inr (.inr ⟨rfl, fun c' f' g' t' => ?_⟩)
        rw [fileR_eq, if_neg h3]
        split_ifs <;> exact ⟨_, rfl⟩
    · next h2 =>
      cases raised_inj h
      refine .inr (.inl ⟨rfl, fun c' f' g' t' => ?_⟩)
      rw [fileR_eq, if_neg h2]
      split_ifs <;> exact ⟨_, rfl⟩
  · next h1 =>
    cases raised_inj h
    refine .inl ⟨rfl, fun c' f' g' t' => ?_⟩
    rw [fileR_eq, if_neg h1]
    exact ⟨_, rfl⟩

theorem explained_file (c : DrivenControl α) (fs : FileSystem α) (a : FileArgs) :
    Explained FileArgs.parameters
      (fun a : FileArgs => c.exportToFileR fs a.filename a.fileFormat a.fileType a.coordinates) a := by
  obtain ⟨n, f, t, k⟩ := a
  intro r h
  rcases fileR_report h with ⟨hr, h'⟩ | ⟨hr, h'⟩ | ⟨hr, h'⟩ <;> rw [hr] <;>
    refine ⟨by simp, by simp [FileArgs.parameters], fun b hb => ?_⟩ <;> obtain ⟨n', f', t', k'⟩ := b <;>
    simp [FileArgs.parameters] at hb <;> subst hb
  · exact h' _ _ _ _
  · exact h' _ _ _ _
  · exact h' _ _ _ _

theorem explained_plot (c : DrivenControl α) (a : PlotArgs) :
    Explained PlotArgs.parameters (fun a : PlotArgs => c.exportPlotR a.coordinates a.dimensionless) a := by
  obtain ⟨k, d⟩ := a
  intro r h
  simp only [DrivenControl.exportPlotR, checkR_bind] at h
  split at h
  · exfalso
    revert h
    cases (if d = true then c.maximumRabiRate else Except.ok (lit 1)) with
    | ok _ => intro h; cases h
    | error _ => intro h; cases h
  · next h1 =>
    cases raised_inj h
    refine ⟨by simp, by simp [PlotArgs.parameters], fun b hb => ?_⟩
    obtain ⟨k', d'⟩ := b
    simp [PlotArgs.parameters] at hb
    subst hb
    simp only [DrivenControl.exportPlotR, checkR_bind]
    rw [if_neg h1]
    exact ⟨_, rfl⟩

end

/-! ## The modulated Gaussian -/

theorem gaussianR_eq (Ω d T f : ℝ) : ∃ rest : Except (Raised ℝ) (DrivenControl ℝ),
    newModulatedGaussianControlR Ω d T f =
      if gt Ω (lit 0) then
        if gt d (lit 0) then
          if gt T d then
            if ge Ω (sqrt (lit 2 * PyFloat.pi) / (lit (1 / 10) * T)) then rest
            else .error (.report ⟨"Maximum Rabi rate must be large enough to permit a 2Pi rotation.",
              [("maximum_rabi_rate", .num Ω)],
              some [("minimum required value for upper_bound (sqrt(2pi)/(0.1*maximum_duration))",
                .num (sqrt (lit 2 * PyFloat.pi) / (lit (1 / 10) * T)))]⟩)
          else .error (.report ⟨"Total duration must be greater than minimum segment duration.",
            [("duration", .num T), ("minimum_segment_duration", .num d)], none⟩)
        else .error (.report ⟨"Minimum segment duration must be greater than zero.",
          [("minimum_segment_duration", .num d)], none⟩)
      else .error (.report ⟨"Maximum Rabi rate must be greater than zero.",
        [("maximum_rabi_rate", .num Ω)], none⟩) := by
  unfold newModulatedGaussianControlR
  simp only [checkR_bind]
  exact ⟨_, rfl⟩

theorem explained_gaussian (a : GaussianInit ℝ)
    (ha : 0 < a.maximumRabiRate → 0 < a.minimumSegmentDuration → a.minimumSegmentDuration < a.duration →
      Real.sqrt (2 * Real.pi) / (a.duration / 10) ≤ a.maximumRabiRate) :
    Explained GaussianInit.parameters GaussianInit.call a := by
  obtain ⟨Ω, d, T, f⟩ := a
  intro r h
  dsimp only at ha
  have hok : GaussianArgs Ω d T → ∃ c, newModulatedGaussianControlR Ω d T f = .ok c := by
    intro hg
    obtain ⟨m, hm⟩ := sampleMax_exists' T ⌈T / d⌉₊ (waveform T f)
    obtain ⟨m₀, hm₀⟩ := sampleMax_exists' T ⌈T / d⌉₊ (envelope T)
    exact ⟨_, SameCall_ok (sameCall_gaussian Ω d T f) ((newModulatedGaussianControl_spec Ω d T f hm hm₀).1 hg)⟩
  obtain ⟨rest, hrest⟩ := gaussianR_eq Ω d T f
  simp only [GaussianInit.call] at h
  by_cases h1 : 0 < Ω
  · by_cases h2 : 0 < d
    · by_cases h3 : d < T
      · obtain ⟨c, hc⟩ := hok ⟨h1, h2, h3, ha h1 h2 h3⟩
        rw [hc] at h
        cases h
      · have h3' : ¬ Py.gt T d = true := by simpa using h3
        rw [hrest, if_pos (by simpa using h1), if_pos (by simpa using h2), if_neg h3'] at h
        cases raised_inj h
        refine ⟨by simp, by simp [GaussianInit.parameters], fun b hb => ?_⟩
        obtain ⟨Ω', d', T', f'⟩ := b
        simp [GaussianInit.parameters] at hb
        obtain ⟨rfl, rfl⟩ := hb
        obtain ⟨rest', hrest'⟩ := gaussianR_eq Ω' d T f'
        simp only [GaussianInit.call, hrest']
        rw [if_neg h3']
        split_ifs <;> exact ⟨_, rfl⟩
    · have h2' : ¬ Py.gt d (lit 0) = true := by simpa using h2
      rw [hrest, if_pos (by simpa using h1), if_neg h2'] at h
      cases raised_inj h
      refine ⟨by simp, by simp [GaussianInit.parameters], fun b hb => ?_⟩
      obtain ⟨Ω', d', T', f'⟩ := b
      simp [GaussianInit.parameters] at hb
      subst hb
      obtain ⟨rest', hrest'⟩ := gaussianR_eq Ω' d T' f'
      simp only [GaussianInit.call, hrest']
      rw [if_neg h2']
      split_ifs <;> exact ⟨_, rfl⟩
  · have h1' : ¬ Py.gt Ω (lit 0) = true := by simpa using h1
    rw [hrest, if_neg h1'] at h
    cases raised_inj h
    refine ⟨by simp, by simp [GaussianInit.parameters], fun b hb => ?_⟩
    obtain ⟨Ω', d', T', f'⟩ := b
    simp [GaussianInit.parameters] at hb
    subst hb
    obtain ⟨rest', hrest'⟩ := gaussianR_eq Ω d' T' f'
    simp only [GaussianInit.call, hrest']
    rw [if_neg h1']
    exact ⟨_, rfl⟩

theorem gaussian_bound {Ω d T : ℝ} (h1 : 0 < Ω) (h2 : 0 < d) (h3 : d < T)
    (h4 : Ω < Real.sqrt (2 * Real.pi) / (T / 10)) (f : ℝ) :
    ∃ r, newModulatedGaussianControlR Ω d T f = .error (.report r) ∧
      r.arguments = [("maximum_rabi_rate", .num Ω)] := by
  obtain ⟨rest, hrest⟩ := gaussianR_eq Ω d T f
  have hc : ¬ Py.ge Ω (PyFloat.sqrt (lit 2 * PyFloat.pi) / (lit (1 / 10) * T)) = true := by
    have e : (PyFloat.lit (1 / 10) : ℝ) * T = T / 10 := by simp; ring
    rw [e]
    simpa using h4
  rw [hrest, if_pos (by simpa using h1), if_pos (by simpa using h2), if_pos (by simpa using h3), if_neg hc]
  exact ⟨_, rfl, rfl⟩

/-! ## The conversion -/

theorem convertR_eq (s : Sequence ℝ) (R D m : ℝ) (name : Option String) :
    ∃ (rest : Except (Raised ℝ) (DrivenControl ℝ)) (e5 e6 e7 : Option (List (String × Reported ℝ)))
      (c6 c7 : Bool),
    convertDDSR s R D m name =
      (if gt D (lit 0) then
        if gt R (lit 0) then
          if ge m (lit 0) then
            if (s.rabiRotations.all fun r => ge r (lit 0)) then
              if checkValidOperation s.rabiRotations s.detuningRotations then
                if c6 then
                  if c7 then rest
                  else .error (.report ⟨"Distance between pulses does not respect minimum_segment_duration." ++
                    (" Try decreasing the minimum_segment_duration or increasing " ++
                      "the maximum_rabi_rate or the maximum_detuning_rate."),
                    [("dynamic_decoupling_sequence", .sequence s), ("maximum_rabi_rate", .num R),
                      ("maximum_detuning_rate", .num D), ("minimum_segment_duration", .num m)], e7⟩)
                else .error (.report ⟨"Pulse timing could not be properly deduced from the sequence offsets." ++
                  " Make sure all offsets are in increasing order.",
                  [("dynamic_decoupling_sequence", .sequence s)], e6⟩)
              else .error (.report
                ⟨"Sequence operation includes rabi rotation and detuning rotation at the same instance.",
                [("dynamic_decoupling_sequence", .sequence s)], e5⟩)
            else .error (.report ⟨"Sequence contains negative values for Rabi rotations.",
              [("dynamic_decoupling_sequence", .sequence s)], none⟩)
          else .error (.report ⟨"Minimum segment duration must be greater than or equal to 0.",
            [("minimum_segment_duration", .num m)], none⟩)
        else .error (.report ⟨"Maximum rabi rate must be positive.", [("maximum_rabi_rate", .num R)], none⟩)
      else .error (.report ⟨"Maximum detuning rate must be positive.", [("maximum_detuning_rate", .num D)], none⟩)) ∧
    c6 = (!(npDiff ((padOperations s.duration (operationsOf s.offsets s.rabiRotations s.azimuthalAngles
      s.detuningRotations)).map Operation.offset)).any (fun d => le d (lit 0))) ∧
    c7 = ((gapDurations (shiftLast s.duration (shiftFirst ((padOperations s.duration (operationsOf s.offsets
      s.rabiRotations s.azimuthalAngles s.detuningRotations)).map (pulseStartEnd R D m))))).all (fun g =>
        gt g m || isClose g m)) := by
  unfold convertDDSR
  simp only [checkR_bind]
  exact ⟨_, _, _, _, _, _, rfl, rfl, rfl⟩

/-- if all checks pass, the sequence is convertible -/
theorem convertible_of_checks {s : Sequence ℝ} (hs : s.Constructed) {R D m : ℝ} (hD : 0 < D) (hR : 0 < R)
    (hm : 0 ≤ m) (h4 : (s.rabiRotations.all fun r => ge r (lit 0)) = true)
    (h5 : checkValidOperation s.rabiRotations s.detuningRotations = true)
    (h6 : (!(npDiff ((padOperations s.duration (operationsOf s.offsets s.rabiRotations s.azimuthalAngles
      s.detuningRotations)).map Operation.offset)).any (fun d => le d (lit 0))) = true)
    (h7 : ((gapDurations (shiftLast s.duration (shiftFirst ((padOperations s.duration (operationsOf s.offsets
      s.rabiRotations s.azimuthalAngles s.detuningRotations)).map (pulseStartEnd R D m))))).all (fun g =>
        gt g m || isClose g m)) = true) : Convertible R D m s := by
  obtain ⟨hT, hb, hr, ha, hd⟩ := hs.facts
  have ho := pulseList_offsets s hr ha hd
  obtain ⟨hcr, hca, hcd⟩ := pulseList_columns s hr ha hd
  have hb' : ∀ p ∈ pulseList s, 0 ≤ p.offset ∧ p.offset ≤ s.duration := by
    intro p hp
    exact hb _ (ho ▸ List.mem_map_of_mem hp)
  have hops : padOperations s.duration (operationsOf s.offsets s.rabiRotations s.azimuthalAngles
      s.detuningRotations) = (pad s.duration (pulseList s)).map toOp := by
    rw [operationsOf_eq, ← padOperations_eq]; rfl
  rw [hops] at h6 h7
  have hoff : ((pad s.duration (pulseList s)).map toOp).map Operation.offset =
      (pad s.duration (pulseList s)).map Pulse.offset := by
    rw [List.map_map]; rfl
  have hsort : s.offsets.Pairwise (· < ·) := by
    rw [hoff, npDiff_any] at h6
    exact h6.sublist (l₁ := s.offsets) (by
      rw [← ho]; apply List.Sublist.map
      unfold pad
      exact (List.sublist_append_right _ _).trans (List.sublist_append_left _ _))
  refine ⟨hR, hD, hm, ?_, ?_, hsort, ?_⟩
  · rw [← hcr] at h4; simpa using h4
  · rw [← hcr, ← hcd] at h5; exact (checkValidOperation_iff _).mp h5
  · rw [startEnds_eq hT hm (ho ▸ hsort) hb', ← windows_eq hs] at h7
    refine (gaps_all (fun g => gt g m || isClose g m) _ (fun g => ?_) _).mp h7
    rw [Bool.or_eq_true, isClose_near, RealInst.gt_iff]

theorem convertR_ok {s : Sequence ℝ} (hs : s.Constructed) {R D m : ℝ} (h : Convertible R D m s)
    (name : Option String) : ∃ c, convertDDSR s R D m name = .ok c := by
  obtain ⟨c, hc, -⟩ := (convertDDS_returns hs R D m name).1 h
  exact ⟨c, SameCall_ok (sameCall_convert s R D m name) hc⟩

theorem convertR_report {s : Sequence ℝ} (hs : s.Constructed) {R D m : ℝ} (h : ¬ Convertible R D m s)
    (name : Option String) : ∃ r, convertDDSR s R D m name = .error (.report r) := by
  obtain ⟨d, hd⟩ := (convertDDS_returns hs R D m name).2 h
  exact SameCall_error (sameCall_convert s R D m name) hd

/-- what the conversion reports, and that it is the reason -/
theorem convertR_reason {s : Sequence ℝ} (hs : s.Constructed) {R D m : ℝ} {name : Option String} {r : Report ℝ}
    (h : convertDDSR s R D m name = .error (.report r)) :
    (¬ 0 < D ∧ r.arguments = [("maximum_detuning_rate", .num D)]) ∨
    (0 < D ∧ ¬ 0 < R ∧ r.arguments = [("maximum_rabi_rate", .num R)]) ∨
    (0 < D ∧ 0 < R ∧ ¬ 0 ≤ m ∧ r.arguments = [("minimum_segment_duration", .num m)]) ∨
    (0 < D ∧ 0 < R ∧ 0 ≤ m ∧ r.arguments = [("dynamic_decoupling_sequence", .sequence s)] ∧
      ∀ R' D' m', ¬ Convertible R' D' m' s) ∨
    (0 < D ∧ 0 < R ∧ 0 ≤ m ∧ r.arguments = [("dynamic_decoupling_sequence", .sequence s),
      ("maximum_rabi_rate", .num R), ("maximum_detuning_rate", .num D), ("minimum_segment_duration", .num m)] ∧
      ¬ Convertible R D m s) := by
  have hnc : ¬ Convertible R D m s := fun hc => by
    obtain ⟨c, hc⟩ := convertR_ok hs hc name
    rw [hc] at h
    cases h
  obtain ⟨hT, hb, hr, ha, hd⟩ := hs.facts
  have ho := pulseList_offsets s hr ha hd
  obtain ⟨hcr, hca, hcd⟩ := pulseList_columns s hr ha hd
  have hb' : ∀ p ∈ pulseList s, 0 ≤ p.offset ∧ p.offset ≤ s.duration := by
    intro p hp
    exact hb _ (ho ▸ List.mem_map_of_mem hp)
  obtain ⟨rest, e5, e6, e7, c6, c7, he, h6, h7⟩ := convertR_eq s R D m name
  rw [he] at h
  split at h
  · next hD =>
    have hD : 0 < D := by simpa using hD
    split at h
    · next hR =>
      have hR : 0 < R := by simpa using hR
      split at h
      · next hm =>
        have hm : 0 ≤ m := by simpa using hm
        split at h
        · next h4 =>
          split at h
          · next h5 =>
            split at h
            · next h6' =>
              split at h
              · next h7' =>
                exact absurd (convertible_of_checks hs hD hR hm h4 h5 (h6 ▸ h6') (h7 ▸ h7')) hnc
              · cases raised_inj h
                exact .inr (.inr (.inr (.inr ⟨hD, hR, hm, rfl, hnc⟩)))
            · next h6' =>
              cases raised_inj h
              refine .inr (.inr (.inr (.inl ⟨hD, hR, hm, rfl, fun R' D' m' hc => h6' ?_⟩)))
              have hops : padOperations s.duration (operationsOf s.offsets s.rabiRotations s.azimuthalAngles
                  s.detuningRotations) = (pad s.duration (pulseList s)).map toOp := by
                rw [operationsOf_eq, ← padOperations_eq]; rfl
              have hoff : ((pad s.duration (pulseList s)).map toOp).map Operation.offset =
                  (pad s.duration (pulseList s)).map Pulse.offset := by
                rw [List.map_map]; rfl
              rw [h6, hops, hoff, npDiff_any]
              exact (pad_shape hT _ (ho ▸ hc.2.2.2.2.2.1) hb').1
          · next h5 =>
            cases raised_inj h
            refine .inr (.inr (.inr (.inl ⟨hD, hR, hm, rfl, fun R' D' m' hc => h5 ?_⟩)))
            rw [← hcr, ← hcd]
            exact (checkValidOperation_iff _).mpr hc.2.2.2.2.1
        · next h4 =>
          cases raised_inj h
          refine .inr (.inr (.inr (.inl ⟨hD, hR, hm, rfl, fun R' D' m' hc => h4 ?_⟩)))
          rw [← hcr]
          simpa using hc.2.2.2.1
      · next hm =>
        cases raised_inj h
        exact .inr (.inr (.inl ⟨hD, hR, by simpa using hm, rfl⟩))
    · next hR =>
      cases raised_inj h
      exact .inr (.inl ⟨hD, by simpa using hR, rfl⟩)
  · next hD =>
    cases raised_inj h
    exact .inl ⟨by simpa using hD, rfl⟩

theorem explained_convert (a : ConvertArgs ℝ) : Explained ConvertArgs.parameters ConvertArgs.call a := by
  obtain ⟨⟨s, hs⟩, R, D, m, name⟩ := a
  intro r h
  simp only [ConvertArgs.call] at h
  rcases convertR_reason hs h with ⟨hD, hr⟩ | ⟨-, hR, hr⟩ | ⟨-, -, hm, hr⟩ | ⟨-, -, -, hr, hc⟩ | ⟨-, -, -, hr, hc⟩ <;>
    rw [hr] <;> refine ⟨by simp, by simp [ConvertArgs.parameters], fun b hb => ?_⟩ <;>
    obtain ⟨⟨s', hs'⟩, R', D', m', name'⟩ := b <;> simp [ConvertArgs.parameters] at hb <;>
    simp only [ConvertArgs.call]
  · subst hb
    exact convertR_report hs' (fun hc => hD hc.2.1) _
  · subst hb
    exact convertR_report hs' (fun hc => hR hc.1) _
  · subst hb
    exact convertR_report hs' (fun hc => hm hc.2.2.1) _
  · subst hb
    exact convertR_report hs' (hc _ _ _) _
  · obtain ⟨rfl, rfl, rfl, rfl⟩ := hb
    exact convertR_report hs' hc _

theorem explained_sequenceFile {s : Sequence ℝ} (hs : s.Constructed) (fs : FileSystem ℝ)
    (a : FileArgs × ℝ × ℝ) (hc : 0 < a.2.1 → 0 < a.2.2 → Convertible a.2.1 a.2.2 0 s) :
    Explained (fun a : FileArgs × ℝ × ℝ => a.1.parameters ++
        [("maximum_rabi_rate", .num a.2.1), ("maximum_detuning_rate", .num a.2.2)])
      (fun a => s.exportToFileR fs a.1.filename a.1.fileFormat a.1.fileType a.1.coordinates a.2.1 a.2.2) a := by
  obtain ⟨⟨n, f, t, k⟩, R, D⟩ := a
  intro r h
  dsimp only at h hc
  have hlit : (lit 0 : ℝ) = 0 := by simp
  have key : ∀ (R' D' : ℝ) (n' f' t' k' : String), ¬ Convertible R' D' 0 s →
      ∃ r', s.exportToFileR fs n' f' t' k' R' D' = .error (.report r') := by
    intro R' D' n' f' t' k' hn
    obtain ⟨r', hr'⟩ := convertR_report hs hn s.name
    refine ⟨r', ?_⟩
    unfold Sequence.exportToFileR
    rw [hlit, hr']
    rfl
  have key2 : ∀ (R' D' : ℝ) (n' f' t' k' : String),
      (∀ c : DrivenControl ℝ, ∃ r', c.exportToFileR fs n' f' t' k' = .error (.report r')) →
      ∃ r', s.exportToFileR fs n' f' t' k' R' D' = .error (.report r') := by
    intro R' D' n' f' t' k' hn
    by_cases hcv : Convertible R' D' 0 s
    · obtain ⟨c, hc⟩ := convertR_ok hs hcv s.name
      obtain ⟨r', hr'⟩ := hn c
      refine ⟨r', ?_⟩
      unfold Sequence.exportToFileR
      rw [hlit, hc]
      exact hr'
    · exact key R' D' n' f' t' k' hcv
  by_cases hD : 0 < D
  · by_cases hR : 0 < R
    · obtain ⟨c, hcc⟩ := convertR_ok hs (hc hR hD) s.name
      have h' : c.exportToFileR fs n f t k = .error (.report r) := by
        unfold Sequence.exportToFileR at h
        rw [hlit, hcc] at h
        exact h
      rcases fileR_report h' with ⟨hr, h''⟩ | ⟨hr, h''⟩ | ⟨hr, h''⟩ <;> rw [hr] <;>
        refine ⟨by simp, by simp [FileArgs.parameters], fun b hb => ?_⟩ <;>
        obtain ⟨⟨n', f', t', k'⟩, R', D'⟩ := b <;>
        simp [FileArgs.parameters] at hb <;> subst hb
      · exact key2 _ _ _ _ _ _ fun c' => h'' c' _ _ _
      · exact key2 _ _ _ _ _ _ fun c' => h'' c' _ _ _
      · exact key2 _ _ _ _ _ _ fun c' => h'' c' _ _ _
    · obtain ⟨r0, hr0⟩ := convertR_report hs (fun hc : Convertible R D 0 s => hR hc.1) s.name
      unfold Sequence.exportToFileR at h
      rw [hlit, hr0] at h
      cases raised_inj (β := Unit) h
      rcases convertR_reason hs hr0 with ⟨hD', hr⟩ | ⟨-, hR', hr⟩ | ⟨-, hR', -⟩ | ⟨-, hR', -⟩ | ⟨-, hR', -⟩
      · exact absurd hD hD'
      · rw [hr]
        refine ⟨by simp, by simp [FileArgs.parameters], fun b hb => ?_⟩
        obtain ⟨⟨n', f', t', k'⟩, R', D'⟩ := b
        simp [FileArgs.parameters] at hb
        subst hb
        exact key _ _ _ _ _ _ fun hc => hR hc.1
      · exact absurd hR' hR
      · exact absurd hR' hR
      · exact absurd hR' hR
  · obtain ⟨r0, hr0⟩ := convertR_report hs (fun hc : Convertible R D 0 s => hD hc.2.1) s.name
    unfold Sequence.exportToFileR at h
    rw [hlit, hr0] at h
    cases raised_inj (β := Unit) h
    rcases convertR_reason hs hr0 with ⟨hD', hr⟩ | ⟨hD', -⟩ | ⟨hD', -⟩ | ⟨hD', -⟩ | ⟨hD', -⟩
    · rw [hr]
      refine ⟨by simp, by simp [FileArgs.parameters], fun b hb => ?_⟩
      obtain ⟨⟨n', f', t', k'⟩, R', D'⟩ := b
      simp [FileArgs.parameters] at hb
      subst hb
      exact key _ _ _ _ _ _ fun hc => hD hc.2.1
    all_goals exact absurd hD' hD

theorem sequenceFile_names {s : Sequence ℝ} (hs : s.Constructed) (fs : FileSystem ℝ) {R D : ℝ} (hR : 0 < R)
    (hD : 0 < D) (hc : ¬ Convertible R D 0 s) (filename fileFormat fileType coordinates : String) :
    ∃ r, s.exportToFileR fs filename fileFormat fileType coordinates R D = .error (.report r) ∧
      "dynamic_decoupling_sequence" ∈ namedIn r := by
  have hlit : (lit 0 : ℝ) = 0 := by simp
  obtain ⟨r, hr⟩ := convertR_report hs hc s.name
  refine ⟨r, ?_, ?_⟩
  · unfold Sequence.exportToFileR
    rw [hlit, hr]
    rfl
  · rcases convertR_reason hs hr with ⟨h, -⟩ | ⟨-, h, -⟩ | ⟨-, -, h, -⟩ | ⟨-, -, -, h, -⟩ | ⟨-, -, -, h, -⟩
    · exact absurd hD h
    · exact absurd hR h
    · exact absurd le_rfl h
    · simp [namedIn, h]
    · simp [namedIn, h]

end OpenControls
