import Verif.Spec.Extended
import Verif.Proofs.Basic
import Verif.Proofs.Composite
import Verif.Proofs.ScrofulousBounds

/-!
# Finite arguments: the computation with infinities and NaN follows the one with real numbers
-/

namespace OpenControls

set_option linter.unusedSectionVars false

open PyFloat Py XR Spec

namespace XR

@[simp] theorem isCloseAtol_fin (t a b : ℝ) :
    isCloseAtol (fin t) (fin a) (fin b) = isCloseAtol t a b := by
  rw [Bool.eq_iff_iff, RealInst.isCloseAtol_iff]
  simp [isCloseAtol]

@[simp] theorem isClose_fin (a b : ℝ) : isClose (fin a) (fin b) = isClose a b := by
  rw [Bool.eq_iff_iff, RealInst.isClose_iff]
  simp [isClose, isCloseAtol]

@[simp] theorem pyMax_fin (a b : ℝ) : pyMax (fin a) (fin b) = fin (max a b) := by
  unfold pyMax
  by_cases h : a < b
  · simp [h, h.le]
  · simp [h, not_lt.mp h]

@[simp] theorem pyMin_fin (a b : ℝ) : pyMin (fin a) (fin b) = fin (min a b) := by
  unfold pyMin
  by_cases h : b < a
  · simp [h, h.le]
  · simp [h, not_lt.mp h]

@[simp] theorem npMaximum_fin (a b : ℝ) : npMaximum (fin a) (fin b) = fin (npMaximum a b) := by
  rw [RealInst.npMaximum_eq]
  unfold npMaximum
  by_cases h : a < b
  · simp [h, h.le]
  · simp [h, not_lt.mp h]

@[simp] theorem npMinimum_fin (a b : ℝ) : npMinimum (fin a) (fin b) = fin (npMinimum a b) := by
  rw [RealInst.npMinimum_eq]
  unfold npMinimum
  by_cases h : b < a
  · simp [h, h.le]
  · simp [h, not_lt.mp h]

@[simp] theorem npAmax_fin (l : List ℝ) : npAmax (l.map fin) = (npAmax l).map fin := by
  cases l with
  | nil => rfl
  | cons x l =>
    show Except.ok _ = Except.ok _
    congr 1
    induction l generalizing x with
    | nil => rfl
    | cons y l ih => rw [List.map_cons, List.foldl_cons, npMaximum_fin, ih, List.foldl_cons]

@[simp] theorem npAmin_fin (l : List ℝ) : npAmin (l.map fin) = (npAmin l).map fin := by
  cases l with
  | nil => rfl
  | cons x l =>
    show Except.ok _ = Except.ok _
    congr 1
    induction l generalizing x with
    | nil => rfl
    | cons y l ih => rw [List.map_cons, List.foldl_cons, npMinimum_fin, ih, List.foldl_cons]

theorem cumsumFrom_fin (a : ℝ) (l : List ℝ) :
    cumsumFrom (fin a) (l.map fin) = (cumsumFrom a l).map fin := by
  induction l generalizing a with
  | nil => rfl
  | cons x l ih => simp [cumsumFrom, ih]

@[simp] theorem npCumsum_fin (l : List ℝ) : npCumsum (l.map fin) = (npCumsum l).map fin := by
  cases l with
  | nil => rfl
  | cons x l => simp [npCumsum, cumsumFrom_fin]

@[simp] theorem npDiff_fin (l : List ℝ) : npDiff (l.map fin) = (npDiff l).map fin := by
  induction l with
  | nil => rfl
  | cons x l ih =>
    cases l with
    | nil => rfl
    | cons y l => simp only [List.map_cons, npDiff, fin_sub] at ih ⊢; rw [ih]

/-- applying `fin` to the value of a value-count pair -/
def finCount (p : ℝ × ℕ) : XR × ℕ := (fin p.1, p.2)

theorem insertCount_fin (x : ℝ) (l : List (ℝ × ℕ)) :
    insertCount (fin x) (l.map finCount) = (insertCount x l).map finCount := by
  induction l with
  | nil => rfl
  | cons p l ih =>
    obtain ⟨y, c⟩ := p
    simp only [List.map_cons, finCount, insertCount, lt_eq, lt_fin, decide_eq_true_eq, eq_eq,
      eq_fin, RealInst.lt_iff, RealInst.eq_iff]
    split
    · rfl
    · split
      · rfl
      · simp only [List.map_cons, finCount]
        rw [← ih]

@[simp] theorem npUnique_fin (l : List ℝ) : npUnique (l.map fin) = (npUnique l).map finCount := by
  unfold npUnique
  have key : ∀ acc : List (ℝ × ℕ),
      (l.map fin).foldl (fun acc x => insertCount x acc) (acc.map finCount) =
        (l.foldl (fun acc x => insertCount x acc) acc).map finCount := by
    induction l with
    | nil => intro acc; rfl
    | cons x l ih =>
      intro acc
      rw [List.map_cons, List.foldl_cons, insertCount_fin, ih, List.foldl_cons]
  exact key []

@[simp] theorem evenlyRepeated_fin (l : List ℝ) :
    evenlyRepeated (l.map fin) = (evenlyRepeated l).map fin := by
  unfold evenlyRepeated
  rw [npUnique_fin, List.filter_map, List.map_map, List.map_map]
  rfl

@[simp] theorem pyInt_fin (x : ℝ) : pyInt (fin x) = pyInt x := rfl
@[simp] theorem pyCeil_fin (x : ℝ) : pyCeil (fin x) = pyCeil x := rfl

end XR

/-- `Except.map` through a check -/
theorem map_check {β γ : Type} (f : β → γ) (c : Bool) (d : String) (k : Unit → Except PyErr β) :
    Except.map f (checkArguments c d >>= k) = (checkArguments c d >>= fun u => (k u).map f) := by
  cases c <;> rfl

theorem map_bind {β γ δ : Type} (f : β → γ) (x : Except PyErr δ) (k : δ → Except PyErr β) :
    Except.map f (x >>= k) = (x >>= fun u => (k u).map f) := by
  cases x <;> rfl

theorem all_gt_fin (l : List ℝ) :
    ((l.map fin).all fun t => Py.gt t (lit 0)) = l.all fun t => Py.gt t (lit 0) := by
  rw [List.all_map]; congr 1

theorem all_ge_fin (l : List ℝ) :
    ((l.map fin).all fun t => Py.ge t (lit 0)) = l.all fun t => Py.ge t (lit 0) := by
  rw [List.all_map]; congr 1

theorem DrivenControl.new_fin (d : List ℝ) (r a δ : Option (List ℝ)) (name : Option String) :
    DrivenControl.new (d.map fin) (r.map (List.map fin)) (a.map (List.map fin))
      (δ.map (List.map fin)) name = (DrivenControl.new d r a δ name).map (DrivenControl.map fin) := by
  have hz : ∀ n, List.replicate n (lit 0 : XR) = (List.replicate n (lit 0 : ℝ)).map fin := by
    intro n; simp
  have hg : ∀ o : Option (List ℝ), (o.map (List.map fin)).getD
      (List.replicate (d.map fin).length (lit 0)) =
      (o.getD (List.replicate d.length (lit 0))).map fin := by
    intro o; cases o <;> simp
  have hl : ∀ o : Option (List ℝ), (∀ l ∈ o.map (List.map fin), l.length = (d.map fin).length) ↔
      ∀ l ∈ o, l.length = d.length := by
    intro o; cases o <;> simp
  rw [DrivenControl.new_eq, DrivenControl.new_eq]
  simp only [hg, hl, all_gt_fin, all_ge_fin]
  split
  · split
    · split
      · rfl
      · rfl
    · rfl
  · rfl

theorem Sequence.new_fin (T : ℝ) (o r a d : List ℝ) (name : Option String) :
    Sequence.new (fin T) (o.map fin) (r.map fin) (a.map fin) (d.map fin) name =
      (Sequence.new T o r a d name).map (Sequence.map fin) := by
  have h1 : Py.gt (fin T) (lit 0) = Py.gt T (lit 0) := by rw [Bool.eq_iff_iff]; simp
  have h2 : ((o.map fin).all fun t => Py.ge t (lit 0) && Py.ge (fin T) t) =
      o.all fun t => Py.ge t (lit 0) && Py.ge T t := by
    rw [List.all_map]; congr 1
  rw [Sequence.new_eq, Sequence.new_eq]
  simp only [h1, h2, List.length_map]
  split
  · split
    · split
      · split
        · split
          · rfl
          · rfl
        · rfl
      · rfl
    · rfl
  · rfl

theorem except_map_ok {β γ : Type} (f : β → γ) (b : β) :
    Except.map f (Except.ok b : Except PyErr β) = .ok (f b) := rfl

theorem validate_fin (θ Ω : ℝ) :
    validateRabiParameters (fin θ) (fin Ω) = validateRabiParameters θ Ω := by
  unfold validateRabiParameters
  have h : Py.ne (fin θ) (lit 0) = Py.ne θ (lit 0) := by rw [Bool.eq_iff_iff]; simp
  rw [h]
  rfl

theorem validate_ok {θ Ω : ℝ} (h : validateRabiParameters θ Ω = .ok ()) : 0 < Ω ∧ θ ≠ 0 := by
  unfold validateRabiParameters at h
  rw [checkArguments_bind_ok] at h
  refine ⟨by simpa using h.1, ?_⟩
  have := h.2
  unfold checkArguments at this
  split at this
  · rename_i hne; simpa using hne
  · cases this

theorem wimperis_fin (θ : ℝ) :
    transformedRabiRotationWimperis (fin θ) = (transformedRabiRotationWimperis θ).map fin := by
  unfold transformedRabiRotationWimperis
  rw [map_check, checkArguments_bind, checkArguments_bind]
  have e : (PyFloat.le (lit (-4) * PyFloat.pi) (fin θ) && PyFloat.le (fin θ) (lit 4 * PyFloat.pi)) =
      (PyFloat.le (lit (-4) * PyFloat.pi) θ && PyFloat.le θ (lit 4 * PyFloat.pi)) := by
    rw [Bool.eq_iff_iff]; simp
  rw [e]
  split
  · rename_i h
    simp only [RealInst.le_iff, Bool.and_eq_true, RealInst.lit_eq, RealInst.pi_eq] at h
    obtain ⟨h1, h2⟩ := h
    have hp := Real.pi_pos
    have h4 : (4 * Real.pi : ℝ) ≠ 0 := by positivity
    show Except.ok _ = Except.ok _
    congr 1
    push_cast at h1 h2
    simp only [fin_neg, XR.lit_eq, XR.pi_eq, fin_mul, Rat.cast_ofNat, fin_div _ h4]
    rw [arccos_fin]
    · simp
    · rw [le_div_iff₀ (by positivity)]; linarith
    · rw [div_le_iff₀ (by positivity)]; linarith
  · rfl

theorem newPrimitiveControl_fin (θ Ω φ : ℝ) (name : Option String) :
    newPrimitiveControl (fin θ) (fin Ω) (fin φ) name =
      (newPrimitiveControl θ Ω φ name).map (DrivenControl.map fin) := by
  unfold newPrimitiveControl
  rw [validate_fin, map_bind]
  cases h : validateRabiParameters θ Ω with
  | error e => rfl
  | ok u =>
    have hΩ := (validate_ok h).1.ne'
    simp only [except_ok_bind]
    rw [← DrivenControl.new_fin]
    simp [fin_div _ hΩ]

theorem newBB1Control_fin (θ Ω φ : ℝ) (name : Option String) :
    newBB1Control (fin θ) (fin Ω) (fin φ) name =
      (newBB1Control θ Ω φ name).map (DrivenControl.map fin) := by
  unfold newBB1Control
  rw [validate_fin, map_bind]
  cases h : validateRabiParameters θ Ω with
  | error e => rfl
  | ok u =>
    have hΩ := (validate_ok h).1.ne'
    simp only [except_ok_bind, wimperis_fin, map_bind]
    cases hw : transformedRabiRotationWimperis θ with
    | error e => rfl
    | ok p =>
      simp only [except_ok_bind, except_map_ok]
      rw [← DrivenControl.new_fin]
      simp [fin_div _ hΩ]

theorem newSK1Control_fin (θ Ω φ : ℝ) (name : Option String) :
    newSK1Control (fin θ) (fin Ω) (fin φ) name =
      (newSK1Control θ Ω φ name).map (DrivenControl.map fin) := by
  unfold newSK1Control
  rw [validate_fin, map_bind]
  cases h : validateRabiParameters θ Ω with
  | error e => rfl
  | ok u =>
    have hΩ := (validate_ok h).1.ne'
    simp only [except_ok_bind, wimperis_fin, map_bind]
    cases hw : transformedRabiRotationWimperis θ with
    | error e => rfl
    | ok p =>
      simp only [except_ok_bind, except_map_ok]
      rw [← DrivenControl.new_fin]
      simp [fin_div _ hΩ]

theorem corpseK_fin (θ : ℝ) : corpseK (fin θ) = fin (corpseK θ) := by
  unfold corpseK
  have h2 : (2 : ℝ) ≠ 0 := two_ne_zero
  have h := Real.abs_sin_le_one (θ / 2)
  rw [abs_le] at h
  simp only [XR.lit_eq, Rat.cast_ofNat, fin_div _ h2, sin_fin]
  rw [arcsin_fin (by linarith [h.1]) (by linarith [h.2])]
  simp

theorem newCorpseControl_fin (θ Ω φ : ℝ) (name : Option String) :
    newCorpseControl (fin θ) (fin Ω) (fin φ) name =
      (newCorpseControl θ Ω φ name).map (DrivenControl.map fin) := by
  unfold newCorpseControl
  rw [validate_fin, map_bind]
  cases h : validateRabiParameters θ Ω with
  | error e => rfl
  | ok u =>
    have hΩ := (validate_ok h).1.ne'
    have h2 : (2 : ℝ) ≠ 0 := two_ne_zero
    simp only [except_ok_bind]
    rw [← DrivenControl.new_fin]
    simp [fin_div _ hΩ, fin_div _ h2, corpseK_fin]

theorem newCorpseInBB1Control_fin (θ Ω φ : ℝ) (name : Option String) :
    newCorpseInBB1Control (fin θ) (fin Ω) (fin φ) name =
      (newCorpseInBB1Control θ Ω φ name).map (DrivenControl.map fin) := by
  unfold newCorpseInBB1Control
  rw [validate_fin, map_bind]
  cases h : validateRabiParameters θ Ω with
  | error e => rfl
  | ok u =>
    have hΩ := (validate_ok h).1.ne'
    have h2 : (2 : ℝ) ≠ 0 := two_ne_zero
    simp only [except_ok_bind, wimperis_fin, map_bind]
    cases hw : transformedRabiRotationWimperis θ with
    | error e => rfl
    | ok p =>
      simp only [except_ok_bind, except_map_ok]
      rw [← DrivenControl.new_fin]
      simp [fin_div _ hΩ, fin_div _ h2, corpseK_fin]

theorem newCorpseInSK1Control_fin (θ Ω φ : ℝ) (name : Option String) :
    newCorpseInSK1Control (fin θ) (fin Ω) (fin φ) name =
      (newCorpseInSK1Control θ Ω φ name).map (DrivenControl.map fin) := by
  unfold newCorpseInSK1Control
  rw [validate_fin, map_bind]
  cases h : validateRabiParameters θ Ω with
  | error e => rfl
  | ok u =>
    have hΩ := (validate_ok h).1.ne'
    have h2 : (2 : ℝ) ≠ 0 := two_ne_zero
    simp only [except_ok_bind, wimperis_fin, map_bind]
    cases hw : transformedRabiRotationWimperis θ with
    | error e => rfl
    | ok p =>
      simp only [except_ok_bind, except_map_ok]
      rw [← DrivenControl.new_fin]
      simp [fin_div _ hΩ, fin_div _ h2, corpseK_fin]

theorem isSupportedRotation_fin (θ : ℝ) : isSupportedRotation (fin θ) = isSupportedRotation θ := by
  have h2 : (2 : ℝ) ≠ 0 := two_ne_zero
  have h4 : (4 : ℝ) ≠ 0 := four_ne_zero
  simp [isSupportedRotation, fin_div _ h2, fin_div _ h4]

theorem degreesToRadians_fin (x : ℝ) : degreesToRadians (fin x) = fin (degreesToRadians x) := by
  have h : (180 : ℝ) ≠ 0 := by norm_num
  simp [degreesToRadians, fin_div _ h]

theorem scrofulousTheta1_fin (θ : ℝ) : scrofulousTheta1 (fin θ) = fin (scrofulousTheta1 θ) := by
  unfold scrofulousTheta1
  simp only [XR.pi_eq, XR.lit_eq, fin_mul, isClose_fin, RealInst.pi_eq, RealInst.lit_eq,
    degreesToRadians_fin]
  split
  · rfl
  · split <;> rfl

theorem scrofulous_arccos_fin {θ : ℝ} (h : Tabulated θ) :
    arccos (scrofulousPhi1Arg (fin (scrofulousTheta1 θ)) (fin θ)) =
      fin (arccos (scrofulousPhi1Arg (scrofulousTheta1 θ) θ)) ∧
    arccos (scrofulousPhi2Arg (fin (scrofulousTheta1 θ))) =
      fin (arccos (scrofulousPhi2Arg (scrofulousTheta1 θ))) := by
  have f := scrofulousFacts h
  have hpos := scrofulousAngle_pos θ
  rw [← scrofulousTheta1_eq] at f hpos
  have h2 : (2 : ℝ) ≠ 0 := two_ne_zero
  obtain ⟨e1, e2⟩ := scrofulous_args θ (scrofulousTheta1 θ)
  have a1 := f.h1
  have a2 := f.h2
  rw [← e1, abs_le] at a1
  rw [← e2, abs_le] at a2
  have s1 : scrofulousPhi1Arg (fin (scrofulousTheta1 θ)) (fin θ) =
      fin (scrofulousPhi1Arg (scrofulousTheta1 θ) θ) := by
    simp [scrofulousPhi1Arg, fin_div _ h2, fin_div _ f.hs.ne', fin_div _ hpos.ne']
  have s2 : scrofulousPhi2Arg (fin (scrofulousTheta1 θ)) =
      fin (scrofulousPhi2Arg (scrofulousTheta1 θ)) := by
    simp [scrofulousPhi2Arg, fin_div _ h2, fin_div _ hpos.ne']
  rw [s1, s2, arccos_fin a1.1 a1.2, arccos_fin a2.1 a2.2]
  exact ⟨rfl, rfl⟩

theorem newScrofulousControl_fin (θ Ω φ : ℝ) (name : Option String) :
    newScrofulousControl (fin θ) (fin Ω) (fin φ) name =
      (newScrofulousControl θ Ω φ name).map (DrivenControl.map fin) := by
  unfold newScrofulousControl
  rw [validate_fin, map_bind]
  cases h : validateRabiParameters θ Ω with
  | error e => rfl
  | ok u =>
    have hΩ := (validate_ok h).1.ne'
    simp only [except_ok_bind, map_check, isSupportedRotation_fin, checkArguments_bind]
    split
    · rename_i hs
      obtain ⟨e1, e2⟩ := scrofulous_arccos_fin ((isSupported_iff θ).mp hs)
      rw [← DrivenControl.new_fin]
      simp only [scrofulousTheta1_fin, e1, e2]
      simp [fin_div _ hΩ]
    · rfl

theorem corpseBlock_fin (a θ φ : ℝ) :
    corpseBlock (fin a) (fin θ) (fin φ) = (corpseBlock a θ φ).map fun p => (fin p.1, fin p.2) := by
  have h2 : (2 : ℝ) ≠ 0 := two_ne_zero
  simp [corpseBlock, corpseK_fin, fin_div _ h2]

theorem newCorpseInScrofulousControl_fin (θ Ω φ : ℝ) (name : Option String) :
    newCorpseInScrofulousControl (fin θ) (fin Ω) (fin φ) name =
      (newCorpseInScrofulousControl θ Ω φ name).map (DrivenControl.map fin) := by
  unfold newCorpseInScrofulousControl
  rw [validate_fin, map_bind]
  cases h : validateRabiParameters θ Ω with
  | error e => rfl
  | ok u =>
    have hΩ := (validate_ok h).1.ne'
    simp only [except_ok_bind, map_check, isSupportedRotation_fin, checkArguments_bind]
    split
    · rename_i hs
      obtain ⟨e1, e2⟩ := scrofulous_arccos_fin ((isSupported_iff θ).mp hs)
      rw [← DrivenControl.new_fin]
      simp only [scrofulousTheta1_fin, e1, e2, fin_sub, XR.pi_eq, corpseBlock_fin,
        ← List.map_append, List.map_map, Function.comp_def, fin_div _ hΩ, Option.map_some]
      simp
    · rfl

theorem wamf1Thetas_fin (θ : ℝ) :
    wamf1Thetas (fin θ) = (fin (wamf1Thetas θ).1, fin (wamf1Thetas θ).2) := by
  have h2 : (2 : ℝ) ≠ 0 := two_ne_zero
  have h4 : (4 : ℝ) ≠ 0 := four_ne_zero
  unfold wamf1Thetas
  simp only [XR.pi_eq, XR.lit_eq, fin_mul, fin_add, fin_sub, isClose_fin, RealInst.pi_eq,
    RealInst.lit_eq, Rat.cast_ofNat, fin_div _ h2, fin_div _ h4]
  split
  · rfl
  · split <;> rfl

theorem newWamf1Control_fin (θ Ω φ : ℝ) (name : Option String) :
    newWamf1Control (fin θ) (fin Ω) (fin φ) name =
      (newWamf1Control θ Ω φ name).map (DrivenControl.map fin) := by
  unfold newWamf1Control
  rw [validate_fin, map_bind]
  cases h : validateRabiParameters θ Ω with
  | error e => rfl
  | ok u =>
    have hΩ := (validate_ok h).1.ne'
    simp only [except_ok_bind, map_check, isSupportedRotation_fin, checkArguments_bind]
    split
    · rename_i hs
      have hp : (wamf1Thetas θ).1 / Ω ≠ 0 := by
        rw [wamf1Thetas_eq]
        exact div_ne_zero (wamf1Angles_pos θ).1.ne' hΩ
      rw [← DrivenControl.new_fin]
      simp only [wamf1Thetas_fin, fin_div _ hΩ]
      simp [fin_div _ hp]
    · rfl

/-- the nine composite pulses -/
theorem scheme_fin (s : Scheme) (θ Ω φ : ℝ) (name : Option String) :
    s.call (fin θ) (fin Ω) (fin φ) name = (s.call θ Ω φ name).map (DrivenControl.map fin) := by
  cases s
  · exact newPrimitiveControl_fin θ Ω φ name
  · exact newBB1Control_fin θ Ω φ name
  · exact newSK1Control_fin θ Ω φ name
  · exact newScrofulousControl_fin θ Ω φ name
  · exact newCorpseControl_fin θ Ω φ name
  · exact newCorpseInBB1Control_fin θ Ω φ name
  · exact newCorpseInSK1Control_fin θ Ω φ name
  · exact newCorpseInScrofulousControl_fin θ Ω φ name
  · exact newWamf1Control_fin θ Ω φ name

end OpenControls
