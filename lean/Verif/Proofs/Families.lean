import Verif.Spec.Families
import Verif.Proofs.Walsh
import Verif.Proofs.Quadratic
import Verif.Proofs.ConcatenatedXY

/-!
# All predefined sequences as finished tables
-/

namespace OpenControls

open Spec RealInst

/-- the sequence the constructors return for a table -/
noncomputable def finished (T : ℝ) (table : List (ℝ × Axis)) (prePost : Bool)
    (name : Option String) : Sequence ℝ :=
  if prePost then withPrePost (finalAngle table) (piSequence T table name)
  else piSequence T table name

theorem finishSequence_eq {T : ℝ} (hT : 0 < T) (table : List (ℝ × Axis))
    (h : ∀ p ∈ table, 0 ≤ p.1 ∧ p.1 ≤ T) (prePost : Bool) (name : Option String) :
    finishSequence T prePost name (tablePulses table) = .ok (finished T table prePost name) := by
  unfold finishSequence finished
  cases prePost with
  | false =>
    simp only [Bool.false_eq_true, if_false, except_pure_bind]
    rw [Sequence.new_eq, if_pos (by simpa using hT), if_pos, if_pos, if_pos, if_pos]
    · rfl
    all_goals simp [tablePulses]
    intro a b hab
    exact h (a, b) hab
  | true =>
    simp only [if_true]
    rw [addPrePost_table, except_ok_bind]
    rw [Sequence.new_eq, if_pos (by simpa using hT), if_pos, if_pos, if_pos, if_pos]
    · rfl
    all_goals simp
    refine ⟨hT.le, ?_, hT.le⟩
    intro a b hab
    exact h (a, b) hab

/-- the table of π-pulses of each family -/
noncomputable def Spec.Family.table (family : Family) (T : ℝ) : List (ℝ × Axis) :=
  match family with
  | .ramsey => []
  | .spinEcho => [(T / 2, .x)]
  | .carrPurcell n => onAxis .x (cpmgTimes T ⌊n⌋₊)
  | .cpmg n => onAxis .y (cpmgTimes T ⌊n⌋₊)
  | .uhrig n => onAxis .y (uhrigTimes T ⌊n⌋₊)
  | .periodic n => onAxis .x (periodicTimes T ⌊n⌋₊)
  | .walsh k => onAxis .x (walshTimes T ⌊k⌋₊)
  | .quadratic n m => quadraticTable ⌊n⌋₊ T 0 (uhrigTimes T ⌊m⌋₊)
  | .xConcatenated l => onAxis .x (xConcatenatedOffsets T ⌊l⌋₊)
  | .xyConcatenated l => xyTable T ⌊l⌋₊

/-- is the family the XY-concatenated one -/
def Spec.Family.IsXY : Family → Prop
  | .xyConcatenated _ => True
  | _ => False

theorem ordered_onAxis {T : ℝ} {times : List ℝ} (h : Ordered T times) (a : Axis) :
    Ordered T ((onAxis a times).map fun p => p.1) := by
  have : (onAxis a times).map (fun p => p.1) = times := by simp [onAxis, Function.comp_def]
  rwa [this]

theorem Spec.Family.table_ordered {family : Family} (hv : family.Valid) (hxy : ¬ family.IsXY)
    {T : ℝ} (hT : 0 < T) : Ordered T ((family.table T).map fun p => p.1) := by
  cases family with
  | ramsey => simp [Family.table, Ordered]
  | spinEcho => simp [Family.table, Ordered, hT]
  | carrPurcell n => exact ordered_onAxis (cpmg_ordered hT _) _
  | cpmg n => exact ordered_onAxis (cpmg_ordered hT _) _
  | uhrig n => exact ordered_onAxis (uhrig_ordered hT _) _
  | periodic n => exact ordered_onAxis (periodic_ordered hT _) _
  | walsh k => exact ordered_onAxis (walsh_ordered hT _) _
  | quadratic n m => exact quadratic_times_ordered hT _ _
  | xConcatenated l => exact ordered_onAxis (xOffsets_ordered hT (Nat.floor_pos.mpr hv).ne') _
  | xyConcatenated l => exact absurd trivial hxy

theorem Spec.Family.table_bounds {family : Family} (hv : family.Valid) {T : ℝ} (hT : 0 < T) :
    ∀ p ∈ family.table T, 0 < p.1 ∧ p.1 ≤ T := by
  intro p hp
  by_cases hxy : family.IsXY
  · cases family with
    | xyConcatenated l =>
      obtain ⟨n, hn⟩ := Nat.exists_eq_succ_of_ne_zero (Nat.floor_pos.mpr hv).ne'
      simp only [Family.table, hn] at hp
      exact xyTable_bounds hT n p hp
    | _ => exact absurd hxy id
  · have := (Family.table_ordered hv hxy hT).2 p.1 (List.mem_map.mpr ⟨p, hp, rfl⟩)
    exact ⟨this.1, this.2.le⟩

theorem Spec.Family.call_eq {family : Family} (hv : family.Valid) {T : ℝ} (hT : 0 < T)
    (prePost : Bool) (name : Option String) :
    family.call T prePost name = .ok (finished T (family.table T) prePost name) := by
  have hfin := finishSequence_eq hT (family.table T)
    (fun p hp => ⟨(Family.table_bounds hv hT p hp).1.le, (Family.table_bounds hv hT p hp).2⟩)
    prePost name
  have hdur : Py.gt T (PyFloat.lit 0) = true := by simpa using hT
  cases family with
  | ramsey =>
    simp only [Family.call, newRamseySequence, checkDuration, Family.table, finished,
      checkArguments_bind, hdur, if_true]
    cases prePost with
    | false =>
      rw [if_neg (by simp), if_neg (by simp), Sequence.new_eq]
      simp [hT, piSequence]
    | true =>
      have hf : finalAngle [] = Real.pi := by simp [finalAngle, countAxes]
      rw [if_pos rfl, if_pos rfl, Sequence.new_eq, hf]
      simp [hT, hT.le, piSequence, withPrePost]
  | spinEcho =>
    simp only [Family.call, newSpinEchoSequence, checkDuration, checkArguments_bind, hdur, if_true]
    rw [← hfin]
    simp [Family.table, tablePulses, Axis.rabi, Axis.azimuthal, Axis.detuning]
  | carrPurcell n =>
    have h1 : (1 : ℝ) ≤ n := hv
    simp only [Family.call, newCarrPurcellSequence, checkDuration, checkArguments_bind, hdur, if_true]
    rw [if_pos (by simpa using h1), pyInt_of_nonneg (by linarith), except_ok_bind, ← hfin,
      cpmgOffsets_eq, ← tablePulses_onAxis_x]
    rfl
  | cpmg n =>
    have h1 : (1 : ℝ) ≤ n := hv
    simp only [Family.call, newCPMGSequence, checkDuration, checkArguments_bind, hdur, if_true]
    rw [if_pos (by simpa using h1), pyInt_of_nonneg (by linarith), except_ok_bind, ← hfin,
      cpmgOffsets_eq, ← tablePulses_onAxis_y]
    rfl
  | uhrig n =>
    have h1 : (1 : ℝ) ≤ n := hv
    simp only [Family.call, newUhrigSequence, checkDuration, checkArguments_bind, hdur, if_true]
    rw [if_pos (by simpa using h1), pyInt_of_nonneg (by linarith), except_ok_bind, ← hfin,
      uhrigOffsets_eq, ← tablePulses_onAxis_y]
    rfl
  | periodic n =>
    have h1 : (1 : ℝ) ≤ n := hv
    simp only [Family.call, newPeriodicSequence, checkDuration, checkArguments_bind, hdur, if_true]
    rw [if_pos (by simpa using h1), pyInt_of_nonneg (by linarith), except_ok_bind, ← hfin,
      periodicOffsets_eq, ← tablePulses_onAxis_x]
    rfl
  | walsh k =>
    have h1 : (1 : ℝ) ≤ k ∧ k ≤ 2000 := hv
    simp only [Family.call, newWalshSequence, checkDuration, checkArguments_bind, hdur, if_true]
    rw [if_pos (by simpa using h1), pyInt_of_nonneg (by linarith), except_ok_bind, ← hfin,
      walshOffsets_eq _ (Nat.floor_pos.mpr h1.1).ne', except_ok_bind, ← tablePulses_onAxis_x]
    rfl
  | quadratic n m =>
    have h1 : (1 : ℝ) ≤ n ∧ 1 ≤ m := hv
    simp only [Family.call, newQuadraticSequence, checkDuration, checkArguments_bind, hdur, if_true]
    rw [if_pos (by simpa using h1.1), if_pos (by simpa using h1.2),
      pyInt_of_nonneg (by linarith), except_ok_bind, pyInt_of_nonneg (by linarith), except_ok_bind,
      ← hfin, quadraticPulses_eq]
    rfl
  | xConcatenated l =>
    have h1 : (1 : ℝ) ≤ l := hv
    simp only [Family.call, newXConcatenatedSequence, checkDuration, checkArguments_bind, hdur,
      if_true]
    rw [if_pos (by simpa using h1), pyInt_of_nonneg (by linarith), except_ok_bind, ← hfin,
      ← tablePulses_onAxis_x]
    rfl
  | xyConcatenated l =>
    have h1 : (1 : ℝ) ≤ l := hv
    simp only [Family.call, newXYConcatenatedSequence, checkDuration, checkArguments_bind, hdur,
      if_true]
    obtain ⟨n, hn⟩ := Nat.exists_eq_succ_of_ne_zero (Nat.floor_pos.mpr h1).ne'
    rw [if_pos (by simpa using h1), pyInt_of_nonneg (by linarith), except_ok_bind, ← hfin, hn,
      Nat.succ_eq_add_one, xyConcatenatedPulses_eq hT]
    simp only [Family.table, hn]

/-! ## Scaling -/

/-- all times of a table multiplied by a factor -/
noncomputable def scaleTable (c : ℝ) (table : List (ℝ × Axis)) : List (ℝ × Axis) :=
  table.map fun p => (c * p.1, p.2)

theorem scaleTable_onAxis (c : ℝ) (a : Axis) (times : List ℝ) :
    scaleTable c (onAxis a times) = onAxis a (times.map (c * ·)) := by
  simp [scaleTable, onAxis, Function.comp_def]

theorem evenlyRepeated_scale {c : ℝ} (hc : 0 < c) (l : List ℝ) :
    evenlyRepeated (l.map (c * ·)) = (evenlyRepeated l).map (c * ·) := by
  have hinj : Function.Injective fun x : ℝ => c * x := fun a b h => mul_left_cancel₀ hc.ne' h
  have s1 := evenlyRepeated_sorted (l.map (c * ·))
  have s2 : ((evenlyRepeated l).map (c * ·)).Pairwise (· < ·) := by
    rw [List.pairwise_map]
    exact (evenlyRepeated_sorted l).imp fun h => mul_lt_mul_of_pos_left h hc
  refine List.Perm.eq_of_pairwise (fun a b _ _ h1 h2 => by linarith) s1 s2 ?_
  rw [List.perm_ext_iff_of_nodup (s1.imp ne_of_lt) (s2.imp ne_of_lt)]
  intro t
  rw [mem_evenlyRepeated, List.mem_map, List.mem_map]
  constructor
  · rintro ⟨⟨x, hx, rfl⟩, he⟩
    rw [List.count_map_of_injective _ _ hinj] at he
    exact ⟨x, (mem_evenlyRepeated l x).mpr ⟨hx, he⟩, rfl⟩
  · rintro ⟨x, hx, rfl⟩
    obtain ⟨h1, h2⟩ := (mem_evenlyRepeated l x).mp hx
    refine ⟨⟨x, h1, rfl⟩, ?_⟩
    rw [List.count_map_of_injective _ _ hinj]
    exact h2

theorem uhrigTimes_scale (c T : ℝ) (n : ℕ) :
    uhrigTimes (c * T) n = (uhrigTimes T n).map (c * ·) := by
  simp [uhrigTimes, Function.comp_def, mul_assoc]

theorem quadraticTable_scale (c : ℝ) (n : ℕ) (T a : ℝ) (r : List ℝ) :
    quadraticTable n (c * T) (c * a) (r.map (c * ·)) = scaleTable c (quadraticTable n T a r) := by
  have inner : ∀ a b : ℝ, onAxis .z ((uhrigTimes (c * b - c * a) n).map (c * a + ·)) =
      scaleTable c (onAxis .z ((uhrigTimes (b - a) n).map (a + ·))) := by
    intro a b
    rw [scaleTable_onAxis, ← mul_sub, uhrigTimes_scale, List.map_map, List.map_map]
    congr 1
    apply List.map_congr_left
    intro t _
    simp only [Function.comp_apply]; ring
  induction r generalizing a with
  | nil => simp only [List.map_nil, quadraticTable, inner]
  | cons b r ih =>
    simp only [List.map_cons, quadraticTable, inner, ih]
    simp [scaleTable]

theorem mergeXY_scale {c : ℝ} (hc : 0 < c) (xs ys : List ℝ) :
    mergeXY (xs.map (c * ·)) (ys.map (c * ·)) = scaleTable c (mergeXY xs ys) := by
  unfold scaleTable
  fun_induction mergeXY xs ys with
  | case1 => simp [mergeXY]
  | case2 x xs ih => simp only [List.map_cons, List.map_nil] at ih ⊢; rw [mergeXY, ih]
  | case3 y ys ih => simp only [List.map_cons, List.map_nil] at ih ⊢; rw [mergeXY, ih]
  | case4 x xs y ys h ih =>
    simp only [List.map_cons] at ih ⊢
    rw [mergeXY, if_pos (mul_lt_mul_of_pos_left h hc), ih]
  | case5 x xs y ys h ih =>
    simp only [List.map_cons] at ih ⊢
    rw [mergeXY, if_neg (by rwa [mul_lt_mul_iff_right₀ hc]), ih]

theorem mergeZ_scale {c : ℝ} (hc : 0 < c) (rest : List (ℝ × Axis)) (zs : List ℝ) :
    mergeZ (scaleTable c rest) (zs.map (c * ·)) = scaleTable c (mergeZ rest zs) := by
  unfold scaleTable
  fun_induction mergeZ rest zs with
  | case1 rest => simp [mergeZ]
  | case2 z zs => simp [mergeZ]
  | case3 r rs z zs h ih =>
    simp only [List.map_cons] at ih ⊢
    rw [mergeZ, if_pos (mul_lt_mul_of_pos_left h hc), ih]
  | case4 r rs z zs h ih =>
    simp only [List.map_cons] at ih ⊢
    rw [mergeZ, if_neg (by rwa [mul_lt_mul_iff_right₀ hc]), ih]

theorem xyOffsetsOf_scale {c : ℝ} (hc : 0 < c) (u : ℝ) (op other other' : Int) (l : List Int) :
    xyOffsetsOf (c * u) op other other' l = (xyOffsetsOf u op other other' l).map (c * ·) := by
  rw [xyOffsetsOf_eq, xyOffsetsOf_eq, ← evenlyRepeated_scale hc, List.map_map]
  congr 1
  apply List.map_congr_left
  intro k _
  simp only [Function.comp_apply]; ring

theorem xOffsets_scale {c : ℝ} (hc : 0 < c) (T : ℝ) (l : ℕ) :
    xConcatenatedOffsets (c * T) l = (xConcatenatedOffsets T l).map (c * ·) := by
  unfold xConcatenatedOffsets
  simp only [nat_eq]
  rw [npCumsum_scaled, npCumsum_scaled]
  have e : (Py.cumsumFrom 0 (concatenationX l)).map
      (fun k : ℕ => (k : ℝ) * (c * T / ((2 ^ l : ℕ) : ℝ))) =
      ((Py.cumsumFrom 0 (concatenationX l)).map
        (fun k : ℕ => (k : ℝ) * (T / ((2 ^ l : ℕ) : ℝ)))).map (c * ·) := by
    rw [List.map_map]
    apply List.map_congr_left
    intro k _
    simp only [Function.comp_apply]; ring
  rw [e, evenlyRepeated_scale hc]
  split
  · rw [List.map_dropLast]
  · rfl

theorem Spec.Family.table_scale (family : Family) {c : ℝ} (hc : 0 < c) (T : ℝ) :
    family.table (c * T) = scaleTable c (family.table T) := by
  have hm : ∀ (f g : ℕ → ℝ) (l : List ℕ), (∀ i, f i = c * g i) → l.map f = (l.map g).map (c * ·) := by
    intro f g l h
    rw [List.map_map]
    exact List.map_congr_left fun i _ => h i
  cases family with
  | ramsey => rfl
  | spinEcho => simp [Family.table, scaleTable, mul_div_assoc]
  | carrPurcell n =>
    simp only [Family.table, scaleTable_onAxis, cpmgTimes]
    congr 1; exact hm _ _ _ fun i => by ring
  | cpmg n =>
    simp only [Family.table, scaleTable_onAxis, cpmgTimes]
    congr 1; exact hm _ _ _ fun i => by ring
  | uhrig n => simp only [Family.table, scaleTable_onAxis, uhrigTimes_scale]
  | periodic n =>
    simp only [Family.table, scaleTable_onAxis, periodicTimes]
    congr 1; exact hm _ _ _ fun i => by ring
  | walsh k =>
    simp only [Family.table, scaleTable_onAxis, walshTimes]
    congr 1; exact hm _ _ _ fun i => by ring
  | quadratic n m =>
    simp only [Family.table]
    rw [uhrigTimes_scale, ← quadraticTable_scale, mul_zero]
  | xConcatenated l => simp only [Family.table, scaleTable_onAxis, xOffsets_scale hc]
  | xyConcatenated l =>
    simp only [Family.table, xyTable, mul_div_assoc, xyOffsetsOf_scale hc, mergeXY_scale hc,
      mergeZ_scale hc]

theorem finalAngle_scale (c : ℝ) (table : List (ℝ × Axis)) :
    finalAngle (scaleTable c table) = finalAngle table := by
  simp [finalAngle, countAxes, scaleTable, List.countP_map, Function.comp_def]

theorem finished_scale (c T : ℝ) (table : List (ℝ × Axis)) (prePost : Bool) (name : Option String) :
    finished (c * T) (scaleTable c table) prePost name =
      stretch c (finished T table prePost name) := by
  unfold finished
  rw [finalAngle_scale]
  cases prePost <;>
    simp [stretch, withPrePost, piSequence, scaleTable, Function.comp_def]

end OpenControls
