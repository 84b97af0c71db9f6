import Verif.Proofs.Extended

/-!
# The properties and exports of a control in extended arithmetic
-/

namespace OpenControls

open PyFloat Py Spec XR

/-! ### Naturality of the file layer -/

section
variable {α β : Type}

theorem dictGet_map (f : α → β) (k : String) (d : List (String × Val α)) :
    dictGet k (mapDict f d) = (dictGet k d).map (Val.map f) := by
  induction d with
  | nil => rfl
  | cons x d ih =>
    obtain ⟨k', v⟩ := x
    simp only [mapDict, List.map_cons, dictGet] at ih ⊢
    split
    · rfl
    · exact ih

theorem dictSet_map (f : α → β) (k : String) (v : Val α) (d : List (String × Val α)) :
    dictSet k (v.map f) (mapDict f d) = mapDict f (dictSet k v d) := by
  induction d with
  | nil => rfl
  | cons x d ih =>
    obtain ⟨k', v'⟩ := x
    simp only [mapDict, List.map_cons, dictSet] at ih ⊢
    split
    · rfl
    · rw [ih]; rfl

theorem dictErase_map (f : α → β) (k : String) (d : List (String × Val α)) :
    dictErase k (mapDict f d) = mapDict f (dictErase k d) := by
  induction d with
  | nil => rfl
  | cons x d ih =>
    obtain ⟨k', v'⟩ := x
    simp only [mapDict, List.map_cons, dictErase] at ih ⊢
    split
    · rfl
    · rw [ih]; rfl

theorem fst_mapDict (f : α → β) (d : List (String × Val α)) :
    (mapDict f d).map Prod.fst = d.map Prod.fst := by
  simp [mapDict, Function.comp_def]

theorem sortedItems_map (f : α → β) (d : List (String × Val α)) :
    sortedItems (mapDict f d) = mapDict f (sortedItems d) := by
  unfold sortedItems
  rw [fst_mapDict]
  conv_rhs => rw [mapDict, List.map_filterMap]
  congr 1
  funext k
  rw [dictGet_map]
  cases dictGet k d <;> rfl

theorem csvRow_map (f : α → β) (d : List (String × Val α)) (ks : List String) (i : ℕ) :
    csvRow (mapDict f d) ks i = (csvRow d ks i).map (List.map f) := by
  unfold csvRow
  induction ks with
  | nil => rfl
  | cons k ks ih =>
    rw [List.mapM_cons, List.mapM_cons, ih, map_bind, dictGet_map]
    have h : ∀ r : Except PyErr (List α), (do let l ← r.map (List.map f); pure l) =
        r.map (List.map f) := by intro r; cases r <;> rfl
    cases dictGet k d with
    | none => rfl
    | some v =>
      cases v with
      | num x => rfl
      | str x => rfl
      | arr l =>
        simp only [Option.map_some, Val.map, List.getElem?_map]
        cases l[i]? with
        | none => rfl
        | some x =>
          simp only [Option.map_some, except_ok_bind, map_bind]
          cases (ks.mapM fun k => (match dictGet k d with
            | some (.arr l) => match l[i]? with
              | some x => .ok x
              | none => .error .indexError
            | some _ => .error (.valueError "not subscriptable")
            | none => .error (.keyError k) : Except PyErr α)) <;> rfl

theorem write_map (f : α → β) (fs : FileSystem α) (n : String) (c : FileContent α) :
    (fs.map f).write n (c.map f) = (fs.write n c).map f := by
  funext g
  simp only [FileSystem.write, FileSystem.map]
  split <;> rfl

theorem writeRows_map (f : α → β) (fs : FileSystem α) (n : String) (h : List String)
    (d : List (String × Val α)) (done : List (List α)) (is : List ℕ) :
    writeRows (fs.map f) n h (mapDict f d) (done.map (List.map f)) is =
      ((writeRows fs n h d done is).1, (writeRows fs n h d done is).2.map f) := by
  induction is generalizing done with
  | nil =>
    simp only [writeRows]
    rw [← write_map]; rfl
  | cons i is ih =>
    simp only [writeRows, csvRow_map]
    cases csvRow d h i with
    | error e =>
      simp only [Except.map]
      rw [← write_map]; rfl
    | ok row =>
      simp only [Except.map]
      rw [← ih, List.map_append]; rfl

end

/-! ### Properties of a control -/

namespace DrivenControl

variable (c : DrivenControl ℝ)

theorem map_rabiRates : (c.map fin).rabiRates = c.rabiRates.map fin := rfl
theorem map_azimuthalAngles : (c.map fin).azimuthalAngles = c.azimuthalAngles.map fin := rfl
theorem map_detunings : (c.map fin).detunings = c.detunings.map fin := rfl
theorem map_durations : (c.map fin).durations = c.durations.map fin := rfl
theorem map_name : (c.map fin).name = c.name := rfl

theorem maximumRabiRate_fin : (c.map fin).maximumRabiRate = c.maximumRabiRate.map fin :=
  npAmax_fin _
theorem maximumDetuning_fin : (c.map fin).maximumDetuning = c.maximumDetuning.map fin :=
  npAmax_fin _
theorem maximumDuration_fin : (c.map fin).maximumDuration = c.maximumDuration.map fin :=
  npAmax_fin _
theorem minimumDuration_fin : (c.map fin).minimumDuration = c.minimumDuration.map fin :=
  npAmin_fin _
theorem duration_fin : (c.map fin).duration = fin c.duration := sum_fin _

theorem times_fin : (c.map fin).times = c.times.map fin := by
  simp [times, DrivenControl.map, npCumsum_fin]

theorem amplitudeX_fin : (c.map fin).amplitudeX = c.amplitudeX.map fin := by
  simp only [amplitudeX, DrivenControl.map, List.zipWith_map, List.map_zipWith, cos_fin, fin_mul]
  rfl

theorem amplitudeY_fin : (c.map fin).amplitudeY = c.amplitudeY.map fin := by
  simp only [amplitudeY, DrivenControl.map, List.zipWith_map, List.map_zipWith, sin_fin, fin_mul]
  rfl

/-- pointwise equality of two `zipWith` on lists with a property -/
theorem zipWith_congr_of {A B C : Type} {f g : A → B → C} (P : A → Prop) :
    ∀ (l : List A) (m : List B), (∀ x ∈ l, P x) → (∀ x y, P x → f x y = g x y) →
      List.zipWith f l m = List.zipWith g l m
  | [], _, _, _ => by simp
  | _ :: _, [], _, _ => by simp
  | a :: l, b :: m, hP, h => by
    rw [List.zipWith_cons_cons, List.zipWith_cons_cons, h a b (hP a (by simp)),
      zipWith_congr_of P l m (fun x hx => hP x (by simp [hx])) h]

theorem amplitudes_fin : (c.map fin).amplitudes = c.amplitudes.map fin := by
  simp only [amplitudes, amplitudeX_fin, amplitudeY_fin, map_detunings]
  simp only [List.zipWith_map, List.map_zipWith, fin_mul, fin_add]
  have e : List.zipWith (fun x y => fin (x * x + y * y)) c.amplitudeX c.amplitudeY =
      (List.zipWith (fun x y => x * x + y * y) c.amplitudeX c.amplitudeY).map fin := by
    rw [List.map_zipWith]
  rw [e, List.zipWith_map]
  refine zipWith_congr_of (fun s => 0 ≤ s) _ _ ?_ ?_
  · intro s hs
    rw [List.mem_iff_getElem] at hs
    obtain ⟨i, hi, rfl⟩ := hs
    simp only [List.getElem_zipWith]
    exact add_nonneg (mul_self_nonneg _) (mul_self_nonneg _)
  · intro s d hs
    rw [fin_mul, fin_add, sqrt_fin (add_nonneg hs (mul_self_nonneg _))]
    rfl

theorem angles_fin : (c.map fin).angles = c.angles.map fin := by
  simp only [angles, amplitudes_fin, map_durations, List.zipWith_map, List.map_zipWith, fin_mul]

theorem isCloseAtol_fin (t a b : ℝ) : isCloseAtol (fin t) (fin a) (fin b) = isCloseAtol t a b := by
  rw [Bool.eq_iff_iff]
  simp [isCloseAtol]

theorem amplitudes_nonneg {a : ℝ} (h : a ∈ c.amplitudes) : 0 ≤ a := by
  rw [List.mem_iff_getElem] at h
  obtain ⟨i, hi, rfl⟩ := h
  simp only [amplitudes, List.getElem_zipWith]
  exact Real.sqrt_nonneg _

theorem directions_fin : (c.map fin).directions =
    c.directions.map (List.map fun p => (fin p.1, fin p.2.1, fin p.2.2)) := by
  unfold directions
  simp only [amplitudes_fin, npAmax_fin, map_bind]
  cases hm : npAmax c.amplitudes with
  | error e => rfl
  | ok m =>
    rw [except_map_ok, except_ok_bind, except_ok_bind]
    have hm0 : 0 ≤ m := c.amplitudes_nonneg ((npAmax_ok_iff _ _).1 hm).1
    set t : ℝ := pyMin (lit (1 / 100000000000000000000) * m) (lit (1 / 100000000)) with ht
    have ht0 : 0 ≤ t := by
      rw [ht, pyMin]
      split
      · simp
      · have := mul_nonneg (show (0 : ℝ) ≤ (1 / 100000000000000000000) by norm_num) hm0
        simpa using this
    have e1 : pyMin (lit (1 / 100000000000000000000) * fin m) (lit (1 / 100000000)) = fin t := by
      rw [XR.lit_eq, XR.lit_eq, fin_mul, pyMin_fin, ht]
      simp
    rw [e1]
    set safe := c.amplitudes.map fun a => if isCloseAtol t a (lit 0) then lit 1 else a with hs
    have e2 : ((c.amplitudes.map fin).map fun a => if isCloseAtol (fin t) a (lit 0) then lit 1
        else a) = safe.map fin := by
      rw [hs, List.map_map, List.map_map]
      apply List.map_congr_left
      intro a _
      simp only [Function.comp_apply, XR.lit_eq, isCloseAtol_fin]
      rw [apply_ite fin]
      simp
    have hsafe : ∀ x ∈ safe, x ≠ 0 := by
      intro x hx
      rw [hs, List.mem_map] at hx
      obtain ⟨a, _, rfl⟩ := hx
      split
      · simp
      · rename_i h
        rintro rfl
        apply h
        simp [isCloseAtol, ht0]
    have e3 : ∀ l : List ℝ, List.zipWith (fun x s => x / s) (l.map fin) (safe.map fin) =
        (List.zipWith (fun x s => x / s) l safe).map fin := by
      intro l
      rw [List.zipWith_map, List.map_zipWith, List.zipWith_comm, List.zipWith_comm (as := l)]
      exact zipWith_congr_of (fun s => s ≠ 0) _ _ hsafe (fun s x h => fin_div _ h)
    simp only [e2, amplitudeX_fin, amplitudeY_fin, e3]
    have e4 : (c.map fin).detunings = c.detunings.map fin := rfl
    rw [e4, e3]
    show Except.ok _ = Except.ok _
    congr 1
    have e5 : ∀ l m n : List ℝ, List.zipWith (fun x yz => (x, yz)) (l.map fin)
        (List.zipWith (fun y z => (y, z)) (m.map fin) (n.map fin)) =
        (List.zipWith (fun x yz => (x, yz)) l (List.zipWith (fun y z => (y, z)) m n)).map
          fun p => (fin p.1, fin p.2.1, fin p.2.2) := by
      intro l
      induction l with
      | nil => intro m n; rfl
      | cons x l ih =>
        intro m n
        cases m with
        | nil => rfl
        | cons y m =>
          cases n with
          | nil => rfl
          | cons z n =>
            have := ih m n
            simp only [List.map_cons, List.zipWith_cons_cons, this]
    exact e5 _ _ _

/-! ### Exports -/

theorem div_fin_map (l : List ℝ) {m : ℝ} (hm : m ≠ 0) :
    ((l.map fin).map fun x => x / fin m) = (l.map fun x => x / m).map fin := by
  rw [List.map_map, List.map_map]
  apply List.map_congr_left
  intro x _
  exact fin_div x hm

theorem exportContent_fin (co : String) (h : c.maximumRabiRate ≠ .ok 0) :
    (c.map fin).exportContent co = (c.exportContent co).map (mapDict fin) := by
  unfold exportContent
  rw [maximumRabiRate_fin, map_bind]
  cases hm : c.maximumRabiRate with
  | error e => rfl
  | ok m =>
    have hm0 : m ≠ 0 := by rintro rfl; exact h hm
    rw [except_map_ok, except_ok_bind, except_ok_bind]
    simp only [map_detunings, map_durations, map_name, amplitudeX_fin, amplitudeY_fin,
      map_rabiRates, map_azimuthalAngles, div_fin_map _ hm0]
    cases c.name <;> cases hco : co == "cartesian" <;> rfl

theorem exportExpanded_fin (fs : FileSystem ℝ) (f ty co : String)
    (h : c.maximumRabiRate ≠ .ok 0) :
    (c.map fin).exportExpanded (fs.map fin) f ty co =
      ((c.exportExpanded fs f ty co).1, (c.exportExpanded fs f ty co).2.map fin) := by
  unfold exportExpanded
  rw [exportContent_fin c co h]
  cases c.exportContent co with
  | error e => rfl
  | ok info =>
    simp only [except_map_ok, dictGet_map, dictErase_map, maximumRabiRate_fin]
    cases hty : ty == "CSV"
    · simp only [Bool.false_eq_true, if_false]
      rw [sortedItems_map, ← write_map]; rfl
    · simp only [if_true]
      cases dictGet "name" info with
      | none => rfl
      | some v =>
        simp only [Option.map_some]
        cases c.maximumRabiRate with
        | error e => rfl
        | ok m =>
          simp only [except_map_ok]
          have e : (Val.arr (List.replicate (c.map fin).numberOfSegments (fin m))) =
              (Val.arr (List.replicate c.numberOfSegments m)).map fin := by
            simp [Val.map, numberOfSegments, map_rabiRates]
          have e' : (c.map fin).numberOfSegments = c.numberOfSegments := by
            simp [numberOfSegments, map_rabiRates]
          rw [e, dictSet_map, fst_mapDict, e']
          exact writeRows_map fin fs f _ _ [] _

theorem exportToFile_fin (fs : FileSystem ℝ) (f fmt ty co : String)
    (h : c.maximumRabiRate ≠ .ok 0) :
    (c.map fin).exportToFile (fs.map fin) f fmt ty co =
      ((c.exportToFile fs f fmt ty co).1, (c.exportToFile fs f fmt ty co).2.map fin) := by
  unfold exportToFile
  rw [exportExpanded_fin c fs f ty co h]
  split
  · rfl
  split
  · rfl
  split
  · rfl
  split
  · rfl
  · rfl

theorem exportPlot_fin (co : String) (b : Bool) (h : b = true → c.maximumRabiRate ≠ .ok 0) :
    (c.map fin).exportPlot co b = (c.exportPlot co b).map (PlotData.map fin) := by
  have key : ∀ n : ℝ, n ≠ 0 →
      ({ xAmplitude := if co == "cartesian" then
          some (List.zipWith (fun v t => ⟨v, t⟩) ((c.map fin).amplitudeX.map fun x => x / fin n)
            (c.map fin).durations) else none
         yAmplitude := if co == "cartesian" then
          some (List.zipWith (fun v t => ⟨v, t⟩) ((c.map fin).amplitudeY.map fun x => x / fin n)
            (c.map fin).durations) else none
         rabiRate := if co == "cylindrical" then
          some (List.zipWith (fun v t => ⟨v, t⟩)
            (List.zipWith (fun r theta => cis r theta)
              ((c.map fin).rabiRates.map fun r => r / fin n)
            (c.map fin).azimuthalAngles) (c.map fin).durations) else none
         detuning := List.zipWith (fun v t => ⟨v, t⟩) (c.map fin).detunings
          (c.map fin).durations } : PlotData XR) =
      PlotData.map fin
      { xAmplitude := if co == "cartesian" then
          some (List.zipWith (fun v t => ⟨v, t⟩) (c.amplitudeX.map fun x => x / n)
            c.durations) else none
        yAmplitude := if co == "cartesian" then
          some (List.zipWith (fun v t => ⟨v, t⟩) (c.amplitudeY.map fun x => x / n)
            c.durations) else none
        rabiRate := if co == "cylindrical" then
          some (List.zipWith (fun v t => ⟨v, t⟩)
            (List.zipWith (fun r theta => cis r theta) (c.rabiRates.map fun r => r / n)
            c.azimuthalAngles) c.durations) else none
        detuning := List.zipWith (fun v t => ⟨v, t⟩) c.detunings c.durations } := by
    intro n hn
    simp only [amplitudeX_fin, amplitudeY_fin, map_rabiRates, map_azimuthalAngles, map_detunings,
      map_durations, div_fin_map _ hn, PlotData.map]
    have e1 : ∀ l m : List ℝ, List.zipWith (fun v t => (⟨v, t⟩ : PlotPoint XR XR)) (l.map fin)
        (m.map fin) = (List.zipWith (fun v t => (⟨v, t⟩ : PlotPoint ℝ ℝ)) l m).map
          (PlotPoint.mapReal fin) := by
      intro l m
      rw [List.zipWith_map, List.map_zipWith]; rfl
    have e2 : ∀ l m : List ℝ, List.zipWith (fun r theta => (cis r theta : Cplx XR)) (l.map fin)
        (m.map fin) = (List.zipWith (fun r theta => (cis r theta : Cplx ℝ)) l m).map
          (fun z => (⟨fin z.re, fin z.im⟩ : Cplx XR)) := by
      intro l m
      rw [List.zipWith_map, List.map_zipWith]
      congr 1
      funext r theta
      simp only [cis, cos_fin, sin_fin, fin_mul]
      rfl
    have e3 : ∀ (l : List (Cplx ℝ)) (m : List ℝ),
        List.zipWith (fun v t => (⟨v, t⟩ : PlotPoint XR (Cplx XR)))
          (l.map (fun z => (⟨fin z.re, fin z.im⟩ : Cplx XR))) (m.map fin) =
        (List.zipWith (fun v t => (⟨v, t⟩ : PlotPoint ℝ (Cplx ℝ))) l m).map
          (PlotPoint.mapCplx fin) := by
      intro l m
      rw [List.zipWith_map, List.map_zipWith]; rfl
    simp only [e1, e2, e3]
    cases hc : co == "cartesian" <;> cases hy : co == "cylindrical" <;> rfl
  unfold exportPlot
  simp only [checkArguments_bind]
  cases coordinateSystems.contains co
  · rfl
  simp only [if_true]
  cases b
  · simp only [Bool.false_eq_true, if_false, except_ok_bind, XR.lit_eq, RealInst.lit_eq]
    have := key ((1 : ℚ) : ℝ) (by simp)
    show Except.ok _ = Except.ok _
    congr 1
  · simp only [if_true, maximumRabiRate_fin, map_bind]
    cases hm : c.maximumRabiRate with
    | error e => rfl
    | ok m =>
      have hm0 : m ≠ 0 := by rintro rfl; exact h rfl hm
      rw [except_map_ok, except_ok_bind, except_ok_bind]
      show Except.ok _ = Except.ok _
      congr 1
      exact key m hm0

theorem textData_fin (h : ∀ t ∈ c.durations, 0 < t) (hl : c.durations.length = c.rabiRates.length) :
    (c.map fin).textData = c.textData.map (ControlText.map fin) := by
  unfold textData
  rw [maximumRabiRate_fin, maximumDetuning_fin, map_bind]
  cases hm : c.maximumRabiRate with
  | error e => rfl
  | ok m =>
    rw [except_map_ok, except_ok_bind, except_ok_bind, map_bind]
    cases hd : c.maximumDetuning with
    | error e => rfl
    | ok d =>
      rw [except_map_ok, except_ok_bind, except_ok_bind]
      show Except.ok _ = Except.ok _
      congr 1
      have hsum : c.duration ≠ 0 := by
        have hne : c.rabiRates ≠ [] := by
          intro h0
          rw [maximumRabiRate, h0] at hm
          cases hm
        have hne' : c.durations ≠ [] := by
          intro h0
          rw [h0] at hl
          exact hne (List.length_eq_zero_iff.1 hl.symm)
        exact (List.sum_pos _ h hne').ne'
      have hne : ∀ x : ℝ, Py.ne (fin x) (lit 0) = Py.ne x (lit 0) := by
        intro x; rw [Bool.eq_iff_iff]; simp
      have hpi : (Real.pi : ℝ) ≠ 0 := Real.pi_ne_zero
      simp only [ControlText.map, map_rabiRates, map_azimuthalAngles, map_detunings, map_durations,
        map_name, duration_fin, List.map_map, hne]
      congr 1
      · apply List.map_congr_left
        intro x _
        simp only [Function.comp_apply]
        split
        · rename_i h0
          have h0' : m ≠ 0 := by simpa using h0
          simp [Shown.map, fin_div _ h0']
        · rfl
      · apply List.map_congr_left
        intro x _
        simp only [Function.comp_apply, XR.pi_eq, Shown.map, fin_div _ hpi]
        rfl
      · apply List.map_congr_left
        intro x _
        simp only [Function.comp_apply]
        split
        · rename_i h0
          have h0' : d ≠ 0 := by simpa using h0
          simp [Shown.map, fin_div _ h0']
        · rfl
      · apply List.map_congr_left
        intro x _
        simp only [Function.comp_apply, Shown.map, fin_div _ hsum]

end DrivenControl

end OpenControls
