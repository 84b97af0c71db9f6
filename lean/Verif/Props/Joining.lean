import Verif.Proofs.Joining
import Verif.Props.Export
import Verif.Props.Families
import Verif.Props.Hardware

/-!
# C130: playing one control or sequence after another

`joinedControl c c'` and `joinedSequence s s'` (in `Verif/Spec/Joining.lean`) construct the control and the sequence with the
concatenated arrays.
-/

namespace OpenControls

open Spec RealInst

/-- **C130** Any two controls can be joined.  The joined control drives at each time like the first control and, when that is
over, like the second one; it performs the product of their evolutions; its arrays, amplitudes and angles are theirs, one
after the other, and the boundary times of the second control are moved by the duration of the first. -/
theorem C130_control (c c' : DrivenControl ℝ) (hc : c.Constructed) (hc' : c'.Constructed) (name : Option String) :
    ∃ j, joinedControl c c' name = .ok j ∧ j.name = name ∧ PlaysInTurn j c.duration c c' ∧
      evolution j = evolution c' * evolution c ∧ j.duration = c.duration + c'.duration ∧
      j.numberOfSegments = c.numberOfSegments + c'.numberOfSegments ∧
      j.times = c.times ++ c'.times.tail.map (fun t => t + c.duration) ∧
      j.amplitudeX = c.amplitudeX ++ c'.amplitudeX ∧ j.amplitudeY = c.amplitudeY ++ c'.amplitudeY ∧
      j.angles = c.angles ++ c'.angles := by
  obtain ⟨h1, h2, h3, h4, h5⟩ := (DrivenControl.constructed_iff c).mp hc
  have hdur : ∀ c : DrivenControl ℝ, c.duration = c.durations.sum := fun c => by simp [DrivenControl.duration]
  refine ⟨_, joinedControl_eq hc hc' name, rfl, ?_, ?_, ?_, ?_, ?_, ?_, ?_, ?_⟩
  · rw [hdur]; exact drivesAt_appended hc hc' name
  · exact controlEvolution_append _ _ _ _ _ _ _ _ h2 h3 h4
  · simp only [hdur, appended, List.sum_append]
  · simp [DrivenControl.numberOfSegments, appended, h2]
  · simp only [DrivenControl.times, appended, npCumsum_real, cumsumFrom_joined, List.cons_append, List.tail_cons, hdur]
  · exact zipWith_joined _ _ _ _ _ (by omega)
  · exact zipWith_joined _ _ _ _ _ (by omega)
  · simp only [DrivenControl.angles, DrivenControl.amplitudes, DrivenControl.amplitudeX, DrivenControl.amplitudeY, appended]
    rw [zipWith_joined _ _ _ _ _ (show c.rabiRates.length = c.azimuthalAngles.length by omega),
      zipWith_joined _ _ _ _ _ (show c.rabiRates.length = c.azimuthalAngles.length by omega),
      zipWith_joined _ _ _ _ _ (by simp), zipWith_joined _ _ _ _ _ (by simp; omega), zipWith_joined _ _ _ _ _ (by simp; omega)]

/-- **C130** The exported values of the joined control, in units of the rates, are those of the first control followed by those of
the second. -/
theorem C130_export (c c' : DrivenControl ℝ) (hc : c.Constructed) (hc' : c'.Constructed) (name : Option String)
    (j : DrivenControl ℝ) (hj : joinedControl c c' name = .ok j) (coordinates : String)
    (hco : coordinates = "cartesian" ∨ coordinates = "cylindrical") :
    ∃ p p' q, c.exportPlot coordinates false = .ok p ∧ c'.exportPlot coordinates false = .ok p' ∧
      j.exportPlot coordinates false = .ok q ∧
      q.xAmplitude = Option.map₂ (· ++ ·) p.xAmplitude p'.xAmplitude ∧
      q.yAmplitude = Option.map₂ (· ++ ·) p.yAmplitude p'.yAmplitude ∧
      q.rabiRate = Option.map₂ (· ++ ·) p.rabiRate p'.rabiRate ∧ q.detuning = p.detuning ++ p'.detuning := by
  obtain ⟨h1, h2, h3, h4, h5⟩ := (DrivenControl.constructed_iff c).mp hc
  rw [joinedControl_eq hc hc', Except.ok.injEq] at hj
  subst hj
  have e : ∀ c : DrivenControl ℝ, c.exportPlot coordinates false = .ok
      { xAmplitude := if coordinates == "cartesian" then
          some (List.zipWith (fun v t => ⟨v, t⟩) (c.amplitudeX.map fun x => x / PyFloat.lit 1) c.durations) else none
        yAmplitude := if coordinates == "cartesian" then
          some (List.zipWith (fun v t => ⟨v, t⟩) (c.amplitudeY.map fun x => x / PyFloat.lit 1) c.durations) else none
        rabiRate := if coordinates == "cylindrical" then
          some (List.zipWith (fun v t => ⟨v, t⟩)
            (List.zipWith (fun r theta => cis r theta) (c.rabiRates.map fun x => x / PyFloat.lit 1) c.azimuthalAngles)
            c.durations) else none
        detuning := List.zipWith (fun v t => ⟨v, t⟩) c.detunings c.durations } := by
    intro c
    rcases hco with rfl | rfl <;> rfl
  refine ⟨_, _, _, e c, e c', e _, ?_, ?_, ?_, ?_⟩
  · rcases hco with rfl | rfl
    · simp only [beq_self_eq_true, if_true, Option.map₂_some_some, Option.some.injEq]
      simp only [DrivenControl.amplitudeX, appended]
      rw [zipWith_joined _ _ _ _ _ (by omega), List.map_append, zipWith_joined _ _ _ _ _ (by simp; omega)]
    · rfl
  · rcases hco with rfl | rfl
    · simp only [beq_self_eq_true, if_true, Option.map₂_some_some, Option.some.injEq]
      simp only [DrivenControl.amplitudeY, appended]
      rw [zipWith_joined _ _ _ _ _ (by omega), List.map_append, zipWith_joined _ _ _ _ _ (by simp; omega)]
    · rfl
  · rcases hco with rfl | rfl
    · rfl
    · simp only [beq_self_eq_true, if_true, Option.map₂_some_some, Option.some.injEq]
      simp only [appended]
      rw [List.map_append, zipWith_joined _ _ _ _ _ (by simp; omega), zipWith_joined _ _ _ _ _ (by simp; omega)]
  · exact zipWith_joined _ _ _ _ _ (by omega)

/-- **C130** With a pulse both at the end of the first sequence and at the start of the second one the joined sequence cannot be
converted, on any hardware. -/
theorem C130_pulses_at_joint (s s' : Sequence ℝ) (hs : s.Constructed) (hs' : s'.Constructed) (h : s.duration ∈ s.offsets)
    (h' : 0 ∈ s'.offsets) (name : Option String) (j : Sequence ℝ) (hj : joinedSequence s s' name = .ok j) (R D m : ℝ)
    (name' : Option String) : ∃ description, convertDDS j R D m name' = .error (.arguments description) := by
  rw [joinedSequence_eq hs hs', Except.ok.injEq] at hj
  have hJ : j.Constructed := ⟨_, _, _, _, _, _, hj ▸ joinedSequence_eq hs hs' name⟩
  subst hj
  refine (C46_convertible _ hJ R D m name').2 fun hc => ?_
  have hp : (s.offsets ++ s'.offsets.map fun t => t + s.duration).Pairwise (· < ·) := hc.2.2.2.2.2.1
  have := (List.pairwise_append.mp hp).2.2 _ h (0 + s.duration) (List.mem_map_of_mem h')
  simp at this

/-- **C130** Any two sequences can be joined; the pulses together do the product of what they do in the two. -/
theorem C130_sequence (s s' : Sequence ℝ) (hs : s.Constructed) (hs' : s'.Constructed) (name : Option String) :
    ∃ j, joinedSequence s s' name = .ok j ∧ j.duration = s.duration + s'.duration ∧ pulses j = pulses s' * pulses s := by
  obtain ⟨-, -, hr, ha, hd⟩ := hs.facts
  exact ⟨_, joinedSequence_eq hs hs' name, rfl, pulseProduct_append _ _ _ _ _ _ (by omega) (by omega)⟩

/-- **C130** Two sequences without a pulse at the joint: if both can be converted and no windows overlap, the joined sequence can
be converted on the same hardware, and the control it gives drives at each time like the control of the first sequence and
then like that of the second. -/
theorem C130_converted (s s' : Sequence ℝ) (hs : s.Constructed) (hs' : s'.Constructed) (hj : NoPulseAtJoint s s')
    (hT : 1 / 10 ^ 8 < s.duration) (hT' : 1 / 10 ^ 8 < s'.duration) (R D m : ℝ) (hn : NoOverlap R D m s)
    (hn' : NoOverlap R D m s') (n n' : Option String) (c c' : DrivenControl ℝ) (hc : convertDDS s R D m n = .ok c)
    (hc' : convertDDS s' R D m n' = .ok c') (name : Option String) (j : Sequence ℝ) (hjs : joinedSequence s s' name = .ok j)
    (nj : Option String) :
    NoOverlap R D m j ∧ ∃ cj, convertDDS j R D m nj = .ok cj ∧ PlaysInTurn cj s.duration c c' ∧ evolution cj = evolution c' * evolution c := by
  rw [joinedSequence_eq hs hs', Except.ok.injEq] at hjs
  have hJ : j.Constructed := ⟨_, _, _, _, _, _, hjs ▸ joinedSequence_eq hs hs' name⟩
  subst hjs
  obtain ⟨hC, hcc, -⟩ := (C46_convertible s hs R D m n).ok hc
  obtain ⟨hC', hcc', -⟩ := (C46_convertible s' hs' R D m n').ok hc'
  have hnj := noOverlap_followed hs hs' hj name hn hn'
  obtain ⟨cj, hcj, hcJ, -⟩ := (C46_convertible _ hJ R D m nj).1 (convertible_followed hs hs' hj name hn hC hC')
  obtain ⟨hp, -⟩ := hs.facts
  obtain ⟨hp', -⟩ := hs'.facts
  have hTj : 1 / 10 ^ 8 < (followed s s' name).duration := by
    show _ < s.duration + s'.duration
    linarith
  have hl := pulseList_followed (s' := s') hs name
  have hdur : ∀ c : DrivenControl ℝ, c.duration = c.durations.sum := fun c => by simp [DrivenControl.duration]
  have d := (C47_duration_exact_partial s hs R D m n c hc).1 hn
  have d' := (C47_duration_exact_partial s' hs' R D m n' c' hc').1 hn'
  have dj : cj.duration = s.duration + s'.duration := (C47_duration_exact_partial _ hJ R D m nj cj hcj).1 hnj
  rw [hdur] at d d' dj
  have ho := hs.facts.2.1
  have ho' := hs'.facts.2.1
  have w1 : ∀ p ∈ pulseList s, window (followed s s' name).duration R D m p = window s.duration R D m p := fun p hp =>
    window_joined (ho _ (pulse_offset_mem hs hp)).2 (fun h => hj.1 (h ▸ pulse_offset_mem hs hp)) hp'
  have w2 : ∀ p ∈ pulseList s', window (followed s s' name).duration R D m (later s.duration p) =
      ((window s'.duration R D m p).1 + s.duration, (window s'.duration R D m p).2 + s.duration) := fun p hp_ =>
    window_later (ho' _ (pulse_offset_mem hs' hp_)).1 (fun h => hj.2 (h ▸ pulse_offset_mem hs' hp_)) hp
  have i1 := pulse_inside hs hC hn
  have i2 := pulse_inside hs' hC' hn'
  have hA : ∀ t, 0 ≤ t → t < s.duration → ∃ v, DrivesAt c t v ∧ DrivesAt cj t v := by
    intro t h0 h1
    obtain ⟨a1, a2⟩ := C51_waveform s hs hT R D m hn n c hc t
    obtain ⟨b1, b2⟩ := C51_waveform _ hJ hTj R D m hnj nj cj hcj t
    by_cases h : ∃ p ∈ pulseList s, (window s.duration R D m p).1 ≤ t ∧ t < (window s.duration R D m p).2
    · obtain ⟨p, hp, h2, h3⟩ := h
      refine ⟨_, a1 p hp h2 h3, b1 p (by rw [hl]; exact List.mem_append_left _ hp) ?_ ?_⟩ <;> rwa [w1 p hp]
    · push Not at h
      refine ⟨(0, 0, 0), a2 h0 h1 fun p hp hx => absurd hx.2 (not_lt.mpr (h p hp hx.1)), b2 h0 (by show t < _ + _; linarith) ?_⟩
      intro p hp hx
      rw [hl] at hp
      rcases List.mem_append.mp hp with hp | hp
      · rw [w1 p hp] at hx
        exact absurd hx.2 (not_lt.mpr (h p hp hx.1))
      · obtain ⟨q, hq, rfl⟩ := List.mem_map.mp hp
        rw [w2 q hq] at hx
        have := (i2 q hq).1
        simp only at hx
        linarith [hx.1]
  have hB : ∀ t, 0 ≤ t → t < s'.duration → ∃ v, DrivesAt c' t v ∧ DrivesAt cj (t + s.duration) v := by
    intro t h0 h1
    obtain ⟨a1, a2⟩ := C51_waveform s' hs' hT' R D m hn' n' c' hc' t
    obtain ⟨b1, b2⟩ := C51_waveform _ hJ hTj R D m hnj nj cj hcj (t + s.duration)
    by_cases h : ∃ p ∈ pulseList s', (window s'.duration R D m p).1 ≤ t ∧ t < (window s'.duration R D m p).2
    · obtain ⟨p, hp, h2, h3⟩ := h
      refine ⟨_, a1 p hp h2 h3, b1 (later s.duration p)
        (by rw [hl]; exact List.mem_append_right _ (List.mem_map_of_mem hp)) ?_ ?_⟩ <;> rw [w2 p hp]
      · simp only; linarith
      · simp only; linarith
    · push Not at h
      refine ⟨(0, 0, 0), a2 h0 h1 fun p hp hx => absurd hx.2 (not_lt.mpr (h p hp hx.1)), b2 (by linarith)
        (by show _ < s.duration + _; linarith) ?_⟩
      intro p hp hx
      rw [hl] at hp
      rcases List.mem_append.mp hp with hp | hp
      · rw [w1 p hp] at hx
        have := (i1 p hp).2
        linarith [hx.2]
      · obtain ⟨q, hq, rfl⟩ := List.mem_map.mp hp
        rw [w2 q hq] at hx
        simp only at hx
        exact absurd (show t < _ by linarith [hx.2]) (not_lt.mpr (h q hq (by linarith [hx.1])))
  refine ⟨hnj, cj, hcj, fun t v => ⟨fun h => ?_, ?_⟩, ?_⟩
  · obtain ⟨h0, h1⟩ := drivesAt_range hcJ h
    rw [dj] at h1
    rcases lt_or_ge t s.duration with ht | ht
    · obtain ⟨w, h2, h3⟩ := hA t h0 ht
      rw [C51_unique cj hcJ t v w h h3]
      exact .inl h2
    · obtain ⟨w, h2, h3⟩ := hB (t - s.duration) (by linarith) (by linarith)
      rw [sub_add_cancel] at h3
      rw [C51_unique cj hcJ t v w h h3]
      exact .inr h2
  · rintro (h | h)
    · obtain ⟨h0, h1⟩ := drivesAt_range hcc h
      obtain ⟨w, h2, h3⟩ := hA t h0 (d ▸ h1)
      rwa [C51_unique c hcc t v w h h2]
    · obtain ⟨h0, h1⟩ := drivesAt_range hcc' h
      obtain ⟨w, h2, h3⟩ := hB _ h0 (d' ▸ h1)
      rw [sub_add_cancel] at h3
      rwa [C51_unique c' hcc' _ v w h h2]
  · rw [C49_evolution_exact _ hJ hTj R D m nj cj hcj, C49_evolution_exact s hs hT R D m n c hc,
      C49_evolution_exact s' hs' hT' R D m n' c' hc', hl, List.map_append, productOf_append, List.map_map]
    congr 1
    unfold productOf
    simp only [List.map_map]
    congr 1 <;> refine List.map_congr_left fun p _ => ?_
    exacts [(effective_later s.duration p).1, (effective_later s.duration p).2.1, (effective_later s.duration p).2.2]

/-- **C130** The evolution of the converted joined sequence is the product of those of the two converted sequences, with or without
a pulse at the joint, and also if the three are converted for different hardware. -/
theorem C130_evolution (s s' : Sequence ℝ) (hs : s.Constructed) (hs' : s'.Constructed) (hT : 1 / 10 ^ 8 < s.duration)
    (hT' : 1 / 10 ^ 8 < s'.duration) (name : Option String) (j : Sequence ℝ) (hjs : joinedSequence s s' name = .ok j)
    (R D m R' D' m' Rj Dj mj : ℝ) (n n' nj : Option String) (c c' cj : DrivenControl ℝ) (hc : convertDDS s R D m n = .ok c)
    (hc' : convertDDS s' R' D' m' n' = .ok c') (hcj : convertDDS j Rj Dj mj nj = .ok cj) :
    evolution cj = evolution c' * evolution c := by
  rw [joinedSequence_eq hs hs', Except.ok.injEq] at hjs
  have hJ : j.Constructed := ⟨_, _, _, _, _, _, hjs ▸ joinedSequence_eq hs hs' name⟩
  subst hjs
  have hTj : 1 / 10 ^ 8 < (followed s s' name).duration := by
    show _ < s.duration + s'.duration
    linarith [hs.facts.1]
  have hl := pulseList_followed (s' := s') hs name
  rw [C49_evolution_exact _ hJ hTj Rj Dj mj nj cj hcj, C49_evolution_exact s hs hT R D m n c hc,
    C49_evolution_exact s' hs' hT' R' D' m' n' c' hc', hl, List.map_append, productOf_append, List.map_map]
  congr 1
  unfold productOf
  simp only [List.map_map]
  congr 1 <;> refine List.map_congr_left fun p _ => ?_
  exacts [(effective_later s.duration p).1, (effective_later s.duration p).2.1, (effective_later s.duration p).2.2]

/-- **C130** A pulse on one side of the joint only: alone, the sequence carries it out before its end or after its start; in the
joined sequence the pulse is carried out half before and half after the joint. -/
theorem C130_pulse_at_joint (s s' : Sequence ℝ) (hs : s.Constructed) (hs' : s'.Constructed) (hT : 1 / 10 ^ 8 < s.duration)
    (hT' : 1 / 10 ^ 8 < s'.duration) (name : Option String) (j : Sequence ℝ) (hjs : joinedSequence s s' name = .ok j)
    (R D m : ℝ) (n n' nj : Option String) (c c' cj : DrivenControl ℝ) (hc : convertDDS s R D m n = .ok c)
    (hc' : convertDDS s' R D m n' = .ok c') (hcj : convertDDS j R D m nj = .ok cj) (hn : NoOverlap R D m s)
    (hn' : NoOverlap R D m s') (hnj : NoOverlap R D m j) (t : ℝ) :
    (∀ p ∈ pulseList s, p.offset = s.duration →
      (s.duration - width R D m p ≤ t → t < s.duration → DrivesAt c t (drive R D m p)) ∧
      (s.duration - width R D m p / 2 ≤ t → t < s.duration + width R D m p / 2 → DrivesAt cj t (drive R D m p))) ∧
    ∀ p ∈ pulseList s', p.offset = 0 →
      (0 ≤ t → t < width R D m p → DrivesAt c' t (drive R D m p)) ∧
      (s.duration - width R D m p / 2 ≤ t → t < s.duration + width R D m p / 2 → DrivesAt cj t (drive R D m p)) := by
  rw [joinedSequence_eq hs hs', Except.ok.injEq] at hjs
  have hJ : j.Constructed := ⟨_, _, _, _, _, _, hjs ▸ joinedSequence_eq hs hs' name⟩
  subst hjs
  have hp := hs.facts.1
  have hp' := hs'.facts.1
  have hTj : 1 / 10 ^ 8 < (followed s s' name).duration := by
    show _ < s.duration + s'.duration
    linarith
  have hl := pulseList_followed (s' := s') hs name
  have hd : (followed s s' name).duration = s.duration + s'.duration := rfl
  have b1 := (C51_waveform _ hJ hTj R D m hnj nj cj hcj t).1
  refine ⟨fun p hm ho => ⟨fun h0 h1 => ?_, fun h0 h1 => ?_⟩, fun p hm ho => ⟨fun h0 h1 => ?_, fun h0 h1 => ?_⟩⟩
  · have e : window s.duration R D m p = (s.duration - width R D m p, s.duration) := by
      unfold window
      rw [if_neg (by rw [ho]; exact hp.ne'), if_pos ho]
    exact (C51_waveform s hs hT R D m hn n c hc t).1 p hm (by rw [e]; exact h0) (by rw [e]; exact h1)
  · have e : window (followed s s' name).duration R D m p =
        (s.duration - width R D m p / 2, s.duration + width R D m p / 2) := by
      unfold window
      rw [hd, if_neg (by rw [ho]; exact hp.ne'), if_neg (by rw [ho]; intro h; linarith), ho]
    exact b1 p (by rw [hl]; exact List.mem_append_left _ hm) (by rw [e]; exact h0) (by rw [e]; exact h1)
  · have e : window s'.duration R D m p = (0, width R D m p) := by
      unfold window
      rw [if_pos ho]
    exact (C51_waveform s' hs' hT' R D m hn' n' c' hc' t).1 p hm (by rw [e]; exact h0) (by rw [e]; exact h1)
  · have e : window (followed s s' name).duration R D m (later s.duration p) =
        (s.duration - width R D m p / 2, s.duration + width R D m p / 2) := by
      unfold window
      rw [hd, width_later, show (later s.duration p).offset = s.duration by show p.offset + _ = _; rw [ho, zero_add],
        if_neg hp.ne', if_neg (by intro h; linarith)]
    exact b1 (later s.duration p) (by rw [hl]; exact List.mem_append_right _ (List.mem_map_of_mem hm)) (by rw [e]; exact h0)
      (by rw [e]; exact h1)

/-- **C130** Under any noise the qubit evolves by the product of its evolutions during the two sequences; the noise during the
second one is that of the later time.  `free a b` is the evolution from `a` to `b` without pulses. -/
theorem C130_noise (s s' : Sequence ℝ) (hs : s.Constructed) (hs' : s'.Constructed) (name : Option String) (j : Sequence ℝ)
    (hj : joinedSequence s s' name = .ok j) (free : ℝ → ℝ → M2) (hcomp : ∀ a b c, free b c * free a b = free a c) :
    underNoise free j = underNoise (fun a b => free (a + s.duration) (b + s.duration)) s' * underNoise free s := by
  rw [joinedSequence_eq hs hs', Except.ok.injEq] at hj
  subst hj
  obtain ⟨-, -, hr, ha, hd⟩ := hs.facts
  have h := interleave_append hcomp s.duration (s.duration + s'.duration) 0 s.offsets s.rabiRotations s.azimuthalAngles
    s.detuningRotations (s'.offsets.map fun t => t + s.duration) s'.rabiRotations s'.azimuthalAngles s'.detuningRotations
    hr ha hd
  refine h.trans ?_
  congr 1
  rw [add_comm s.duration, show interleave free (s'.duration + s.duration) s.duration _ _ _ _ =
    interleave free (s'.duration + s.duration) (0 + s.duration) _ _ _ _ by rw [zero_add]]
  exact interleave_later free s.duration s'.duration 0 _ _ _ _

/-- **C130** A sequence without pulses at its ends that is played several times: if it can be converted and no windows overlap,
the sequence that plays it `k` times can be converted on the same hardware, and the control it gives is that of the sequence,
`k` times in a row. -/
theorem C130_played (s : Sequence ℝ) (hs : s.Constructed) (hj : NoPulseAtJoint s s) (hT : 1 / 10 ^ 8 < s.duration)
    (R D m : ℝ) (hn : NoOverlap R D m s) (n : Option String) (c : DrivenControl ℝ) (hc : convertDDS s R D m n = .ok c)
    (k : ℕ) (name : Option String) (sk : Sequence ℝ) (hk : playedTimes k s name = .ok sk) (nk : Option String) :
    NoOverlap R D m sk ∧ ∃ ck, convertDDS sk R D m nk = .ok ck ∧ evolution ck = evolution c ^ k ∧
      ∀ t v, DrivesAt ck t v ↔ ∃ i < k, DrivesAt c (t - (i : ℕ) * s.duration) v := by
  have h0 : k ≠ 0 := by
    rintro rfl
    obtain ⟨h, -⟩ := (C33_accepts_iff_real _ _ _ _ _ _).mp ⟨sk, hk⟩
    simp at h
  obtain ⟨k, rfl⟩ := Nat.exists_eq_succ_of_ne_zero h0
  clear h0
  obtain ⟨hp, ho, -⟩ := hs.facts
  induction k generalizing sk nk with
  | zero =>
    rw [played_eq hs (by simp), Except.ok.injEq] at hk
    have e : sk = { s with name := name } := by
      rw [← hk]
      simp [copies]
    subst e
    have hs1 : Sequence.Constructed { s with name := name } :=
      ⟨_, _, _, _, _, _, by rw [← hk]; exact played_eq hs one_ne_zero name⟩
    obtain ⟨hC, h1⟩ := (convertDDS_returns hs R D m n).ok hc
    obtain ⟨ck, hck, h2⟩ := (convertDDS_returns hs1 R D m nk).1 hC
    refine ⟨hn, ck, hck, ?_⟩
    have hd : ck = { c with name := nk } := by
      rcases h1 with ⟨h1, rfl⟩ | ⟨h1, rfl⟩ <;> rcases h2 with ⟨h2, rfl⟩ | ⟨h2, rfl⟩
      · rfl
      · exact absurd h1 h2
      · exact absurd h2 h1
      · rfl
    subst hd
    refine ⟨by rw [Nat.succ_eq_add_one, zero_add, pow_one]; rfl, fun t v => ?_⟩
    constructor
    · intro h
      refine ⟨0, by simp, ?_⟩
      rw [Nat.cast_zero, zero_mul, sub_zero]
      exact h
    · rintro ⟨i, hi, h⟩
      obtain rfl : i = 0 := by omega
      rw [Nat.cast_zero, zero_mul, sub_zero] at h
      exact h
  | succ k ih =>
    have hpk := played_eq hs (Nat.succ_ne_zero k) name
    obtain ⟨hn', ck, hck, he, hw⟩ := ih _ nk hpk
    have hsk : Sequence.Constructed _ := ⟨_, _, _, _, _, _, hpk⟩
    generalize hu : (Sequence.mk _ _ _ _ _ _ : Sequence ℝ) = u at hpk hn' hck hsk
    have hd : u.duration = (k + 1 : ℕ) * s.duration := by rw [← hu]
    have hJ : joinedSequence u s name = .ok sk := by
      rw [joinedSequence_eq hsk hs, ← hk, played_eq hs (by simp), ← hu]
      simp only [followed, copies_succ, List.replicate_succ', List.flatten_append]
      simp
      ring
    have hju : NoPulseAtJoint u s := by
      refine ⟨?_, hj.2⟩
      rw [hd, ← hu]
      intro h
      obtain ⟨i, hi, x, hx, h⟩ : ∃ i : ℕ, i < k + 1 ∧ ∃ x ∈ s.offsets, x + i * s.duration = (k + 1 : ℕ) * s.duration := by
        simpa [copies] using h
      have hlt : x < s.duration := lt_of_le_of_ne (ho x hx).2 fun h => hj.1 (h ▸ hx)
      have : ((i + 1 : ℕ) : ℝ) ≤ (k + 1 : ℕ) := by exact_mod_cast hi
      push_cast at this h
      nlinarith
    have hTu : 1 / 10 ^ 8 < u.duration := by
      rw [hd]
      push_cast
      have : (0 : ℝ) ≤ k := by positivity
      nlinarith
    obtain ⟨a1, cj, a2, a3, a4⟩ := C130_converted u s hsk hs hju hTu hT R D m hn' hn nk n ck c hck hc name sk hJ nk
    refine ⟨a1, cj, a2, by rw [a4, he, ← pow_succ'], fun t v => ?_⟩
    rw [a3, hw, hd]
    constructor
    · rintro (⟨i, hi, h⟩ | h)
      · exact ⟨i, by omega, h⟩
      · exact ⟨k + 1, by omega, h⟩
    · rintro ⟨i, hi, h⟩
      rcases Nat.lt_succ_iff_lt_or_eq.mp hi with hi | rfl
      · exact .inl ⟨i, hi, h⟩
      · exact .inr h

/-- A spin echo has no pulses at its ends, and can be converted, joined and played several times on hardware with a Rabi rate of
`4π` and segments of at least 1/10. -/
example : ∃ s c, newSpinEchoSequence (1 : ℝ) false none = .ok s ∧ s.Constructed ∧ NoPulseAtJoint s s ∧ 1 / 10 ^ 8 < s.duration ∧
    NoOverlap (4 * Real.pi) 1 (1 / 10) s ∧ convertDDS s (4 * Real.pi) 1 (1 / 10) none = .ok c ∧
    ∃ s3 c3, playedTimes 3 s none = .ok s3 ∧ convertDDS s3 (4 * Real.pi) 1 (1 / 10) none = .ok c3 ∧
      evolution c3 = evolution c ^ 3 := by
  have hv : Family.Valid .spinEcho := trivial
  have hs := Family.call_eq (family := .spinEcho) hv (T := 1) one_pos false none
  obtain ⟨-, hw⟩ := (C43_well_formed .spinEcho 1 false none).ok hs
  have hcon := hw.constructed one_pos
  have hpi := Real.pi_pos
  have ho : (finished 1 (Family.table .spinEcho 1) false none).offsets = [1 / 2] := by
    simp [finished, piSequence, Family.table, onAxis]
  have hd : (finished 1 (Family.table .spinEcho 1) false none).duration = 1 := hw.1
  obtain ⟨c, hc⟩ := (C124_spin_echo 1 false none _ hs (4 * Real.pi) 1 (1 / 10) none).mpr
    ⟨by positivity, one_pos, by norm_num, by
      have e : Real.pi / (4 * Real.pi) = 1 / 4 := by field_simp
      norm_num [piTime, endTime, shortestGap, e]⟩
  have hj : NoPulseAtJoint (finished 1 (Family.table .spinEcho 1) false none) (finished 1 (Family.table .spinEcho 1) false none) := by
    unfold NoPulseAtJoint
    rw [ho, hd]
    norm_num
  have hT : (1 : ℝ) / 10 ^ 8 < (finished 1 (Family.table .spinEcho 1) false none).duration := by
    rw [hd]; norm_num
  have hn := C47_no_overlap _ _ _ _ ((C46_convertible _ hcon _ _ _ _).ok hc).1 (by norm_num)
  obtain ⟨c3, h1, h2, -⟩ := (C130_played _ hcon hj hT _ _ _ hn none c hc 3 none _ (played_eq hcon (by norm_num) none) none).2
  exact ⟨_, c, hs, hcon, hj, hT, hn, hc, _, c3, played_eq hcon (by norm_num) none, h1, h2⟩

/-- A sequence with one pulse, at its end, followed by one without pulses: all three can be converted. -/
example : ∃ s s' j : Sequence ℝ, ∃ c c' cj : DrivenControl ℝ, s.Constructed ∧ s'.Constructed ∧ joinedSequence s s' none = .ok j ∧
    1 / 10 ^ 8 < s.duration ∧ 1 / 10 ^ 8 < s'.duration ∧ s.duration ∈ s.offsets ∧
    convertDDS s 4 1 (1 / 10) none = .ok c ∧ convertDDS s' 4 1 (1 / 10) none = .ok c' ∧
    convertDDS j 4 1 (1 / 10) none = .ok cj ∧ NoOverlap 4 1 (1 / 10) s ∧ NoOverlap 4 1 (1 / 10) s' ∧ NoOverlap 4 1 (1 / 10) j := by
  have hs : Sequence.Constructed (⟨1, [1], [1], [0], [0], none⟩ : Sequence ℝ) :=
    ⟨1, [1], [1], [0], [0], none, by rw [Sequence.new_eq]; simp⟩
  have hs' : Sequence.Constructed (⟨1, [], [], [], [], none⟩ : Sequence ℝ) :=
    ⟨1, [], [], [], [], none, by rw [Sequence.new_eq]; simp⟩
  have hJ : Sequence.Constructed (followed _ _ none) := ⟨_, _, _, _, _, _, joinedSequence_eq hs hs' none⟩
  have n1 : ¬ Negligible 1 := by unfold Negligible; norm_num
  have w : ∀ o a d : ℝ, width 4 1 (1 / 10) ⟨o, 1, a, d⟩ = 1 / 4 := fun o a d => by
    unfold width; rw [if_pos n1]; norm_num
  have k1 : Convertible 4 1 (1 / 10) (⟨1, [1], [1], [0], [0], none⟩ : Sequence ℝ) := by
    refine ⟨by norm_num, by norm_num, by norm_num, by simp [pulseList], by simp [pulseList], by simp, ?_⟩
    simp [windows, pulseList, window, EachGap]
    norm_num
    rw [w]
    norm_num
  have k2 : Convertible 4 1 (1 / 10) (⟨1, [], [], [], [], none⟩ : Sequence ℝ) := by
    refine ⟨by norm_num, by norm_num, by norm_num, by simp [pulseList], by simp [pulseList], by simp, ?_⟩
    simp [windows, pulseList, EachGap]
    norm_num
  have k3 : Convertible 4 1 (1 / 10) (followed ⟨1, [1], [1], [0], [0], none⟩ ⟨1, [], [], [], [], none⟩ none) := by
    refine ⟨by norm_num, by norm_num, by norm_num, by simp [pulseList, followed], by simp [pulseList, followed],
      by simp [followed], ?_⟩
    simp [windows, pulseList, window, EachGap, followed]
    norm_num
    rw [w]
    norm_num
  obtain ⟨c, hc, -⟩ := (C46_convertible _ hs 4 1 (1 / 10) none).1 k1
  obtain ⟨c', hc', -⟩ := (C46_convertible _ hs' 4 1 (1 / 10) none).1 k2
  obtain ⟨cj, hcj, -⟩ := (C46_convertible _ hJ 4 1 (1 / 10) none).1 k3
  exact ⟨_, _, _, c, c', cj, hs, hs', joinedSequence_eq hs hs' none, by norm_num, by norm_num, by simp, hc, hc', hcj,
    C47_no_overlap _ _ _ _ k1 (by norm_num), C47_no_overlap _ _ _ _ k2 (by norm_num), C47_no_overlap _ _ _ _ k3 (by norm_num)⟩

/-- Two spin echoes with pre and post rotations have a pulse on both sides of the joint. -/
example : ∃ s, newSpinEchoSequence (1 : ℝ) true none = .ok s ∧ s.duration ∈ s.offsets ∧ 0 ∈ s.offsets := by
  have hv : Family.Valid .spinEcho := trivial
  have hs := Family.call_eq (family := .spinEcho) hv (T := 1) one_pos true none
  refine ⟨_, hs, ?_, ?_⟩ <;> simp [finished, piSequence, Family.table, withPrePost]

/-- two controls, one of them with two segments, and noise -/
example : (∃ c c' : DrivenControl ℝ, c.Constructed ∧ c'.Constructed ∧ c.rabiRates = [1, 2] ∧ c'.durations = [3]) ∧
    ∀ a b c, staticNoise 1 2 3 b c * staticNoise 1 2 3 a b = staticNoise 1 2 3 a c :=
  ⟨⟨⟨[1, 2], [0, 1], [0, 0], [1, 1], none⟩, ⟨[0], [0], [1], [3], none⟩,
    (DrivenControl.constructed_iff _).mpr (by norm_num), (DrivenControl.constructed_iff _).mpr (by norm_num), rfl, rfl⟩,
    staticNoise_comp 1 2 3⟩

end OpenControls
