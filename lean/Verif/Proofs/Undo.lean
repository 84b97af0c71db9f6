import Verif.Spec.Undo
import Verif.Proofs.Circuits
import Verif.Proofs.Undoing
import Verif.Proofs.NoisyControl
import Verif.Proofs.SegmentErrors

/-!
# The control that undoes another control: auxiliary results
-/

namespace OpenControls

open Spec PyFloat Py

section
variable {α : Type} [Add α] [Sub α] [Mul α] [Div α] [Neg α] [PyFloat α]

/-- the control with the arrays of `undo` -/
def undone (c : DrivenControl α) (name : Option String) : DrivenControl α where
  rabiRates := c.rabiRates.reverse
  azimuthalAngles := c.azimuthalAngles.reverse.map fun φ => φ + PyFloat.pi
  detunings := c.detunings.reverse.map fun Δ => -Δ
  durations := c.durations.reverse
  name := name

theorem undo_eq {c : DrivenControl α} (h : c.Constructed) (name : Option String) : undo c name = .ok (undone c name) := by
  obtain ⟨hd, hr, e1, e2, e3⟩ := constructed_checks h
  unfold undo
  rw [DrivenControl.new_eq, if_pos, if_pos, if_pos]
  · rfl
  · simp only [Option.getD_some, List.all_eq_true, List.mem_reverse]
    exact hr
  · refine ⟨?_, ?_, ?_⟩ <;> (rintro l ⟨⟩; simpa)
  · simp only [List.all_eq_true, List.mem_reverse]
    exact hd

theorem undo_constructed {c : DrivenControl α} (h : c.Constructed) (name : Option String) : (undone c name).Constructed :=
  ⟨_, _, _, _, _, undo_eq h name⟩

end

theorem evolution_undone {c : DrivenControl ℝ} (h : LevelArrays c) (name : Option String) :
    evolution c * evolution (undone c name) = 1 := by
  obtain ⟨h1, h2, h3⟩ := h
  have := controlEvolution_undoing (h2.trans h1.symm) (h3.trans h1.symm) h1.symm
  rw [← List.map_reverse, ← List.map_reverse] at this
  exact this

theorem undone_errors (e d : ℝ) (c : DrivenControl ℝ) (name : Option String) :
    withErrors e d (undone c name) = undone (withErrors e (-d) c) name := by
  simp only [withErrors, withDetuningError, withAmplitudeError, undone, ← List.map_reverse, List.map_map]
  congr 1
  refine List.map_congr_left fun x _ => ?_
  simp only [Function.comp]
  ring

/-- what is undone under amplitude errors and detuning errors -/
theorem undone_evolution_errors {c : DrivenControl ℝ} (h : LevelArrays c) (name : Option String) (e d : ℝ) :
    evolution (withErrors e d (undone c name)) * evolution (withErrors e (-d) c) = 1 := by
  rw [undone_errors]
  exact mul_eq_one_comm.mp (evolution_undone (h.withErrors e (-d)) name)

/-! ## The adjoint -/

theorem segmentUnitary_star (Ω φ Δ t : ℝ) : star (segmentUnitary Ω φ Δ t) * segmentUnitary Ω φ Δ t = 1 := by
  rw [← exp_drive]
  have h : t • ((-Complex.I) • hamiltonian Ω φ Δ) ∈ skewAdjoint M2 := by
    rw [skewAdjoint.mem_iff, star_smul, skew_drive, smul_neg]
    simp
  open scoped Matrix.Norms.L2Operator in
  letI : NormedAlgebra ℚ M2 := NormedAlgebra.restrictScalars ℚ ℝ M2
  exact Unitary.star_mul_self_of_mem (NormedSpace.exp_mem_unitary_of_mem_skewAdjoint h)

theorem controlEvolution_star : ∀ Ωs φs Δs ts : List ℝ,
    star (controlEvolution Ωs φs Δs ts) * controlEvolution Ωs φs Δs ts = 1 := by
  intro Ωs
  induction Ωs with
  | nil => intro φs Δs ts; simp [controlEvolution]
  | cons Ω Ωs ih =>
    intro φs Δs ts
    match φs, Δs, ts with
    | [], _, _ => simp [controlEvolution]
    | _ :: _, [], _ => simp [controlEvolution]
    | _ :: _, _ :: _, [] => simp [controlEvolution]
    | φ :: φs, Δ :: Δs, t :: ts =>
      rw [controlEvolution, star_mul, mul_assoc, ← mul_assoc (star (controlEvolution Ωs φs Δs ts)), ih, one_mul,
        segmentUnitary_star]

/-- what undoes an evolution is its adjoint -/
theorem undone_star {c : DrivenControl ℝ} (h : LevelArrays c) (name : Option String) (e d : ℝ) :
    evolution (withErrors e d (undone c name)) = star (evolution (withErrors e (-d) c)) := by
  have h1 := undone_evolution_errors h name e d
  have h2 : star (evolution (withErrors e (-d) c)) * evolution (withErrors e (-d) c) = 1 := controlEvolution_star _ _ _ _
  have h3 := mul_eq_one_comm.mp h1
  calc evolution (withErrors e d (undone c name))
      = (star (evolution (withErrors e (-d) c)) * evolution (withErrors e (-d) c)) *
          evolution (withErrors e d (undone c name)) := by rw [h2, one_mul]
    _ = _ := by rw [mul_assoc, h3, mul_one]

theorem hasMatrixDerivAt_star {U : ℝ → M2} {U' : M2} {x : ℝ} (h : HasMatrixDerivAt U U' x) :
    HasMatrixDerivAt (fun e => star (U e)) (star U') x := fun i j => by
  have := (h j i).star
  simpa [Matrix.star_apply] using this

theorem hasMatrixDerivAt_neg {U : ℝ → M2} {U' : M2} {x : ℝ} (h : HasMatrixDerivAt U U' (-x)) :
    HasMatrixDerivAt (fun e => U (-e)) (-U') x := fun i j => by
  have := (h i j).scomp x (hasDerivAt_neg x)
  simpa [Function.comp_def] using this

theorem first_star {U : ℝ → M2} (h : FirstOrderInsensitive U) : FirstOrderInsensitive fun e => star (U e) := by
  have := hasMatrixDerivAt_star h
  rwa [star_zero] at this

theorem second_star {U : ℝ → M2} (h : SecondOrderInsensitive U) : SecondOrderInsensitive fun e => star (U e) := by
  obtain ⟨U', h1, h2, h3⟩ := h
  refine ⟨fun e => star (U' e), fun e => hasMatrixDerivAt_star (h1 e), by simp only [h2, star_zero], ?_⟩
  have := hasMatrixDerivAt_star h3
  rwa [star_zero] at this

theorem first_neg {U : ℝ → M2} (h : FirstOrderInsensitive U) : FirstOrderInsensitive fun e => U (-e) := by
  have := hasMatrixDerivAt_neg (x := 0) (by rw [neg_zero]; exact h)
  rwa [neg_zero] at this

theorem second_neg {U : ℝ → M2} (h : SecondOrderInsensitive U) : SecondOrderInsensitive fun e => U (-e) := by
  obtain ⟨U', h1, h2, h3⟩ := h
  refine ⟨fun e => -U' (-e), fun e => hasMatrixDerivAt_neg (h1 (-e)), by simp only [neg_zero, h2], ?_⟩
  have := hasMatrixDerivAt_neg (x := 0) (by rw [neg_zero]; exact h3)
  intro i j
  have := (this i j).fun_neg
  simp only [neg_zero, Matrix.neg_apply, Matrix.zero_apply] at this ⊢
  exact this

/-! ## Lists of controls -/

theorem inTurn_append (l m : List M2) : inTurn (l ++ m) = inTurn m * inTurn l := by
  induction l with
  | nil => simp [inTurn]
  | cons U l ih => rw [List.cons_append, inTurn, inTurn, ih, mul_assoc]

/-- operations followed by what undoes them in opposite order -/
theorem inTurn_undone {β : Type} (l : List β) (f g : β → M2) (h : ∀ x ∈ l, g x * f x = 1) :
    inTurn (l.map f ++ (l.map g).reverse) = 1 := by
  rw [inTurn_append]
  induction l with
  | nil => simp [inTurn]
  | cons x l ih =>
    have e : inTurn [g x] = g x := by simp [inTurn]
    have e' : inTurn (f x :: l.map f) = inTurn (l.map f) * f x := rfl
    rw [List.map_cons, List.map_cons, List.reverse_cons, inTurn_append, e, e', mul_assoc, ← mul_assoc (inTurn (l.map g).reverse), ih fun y hy => h y (by simp [hy]), one_mul, h x (by simp)]

open scoped Matrix.Norms.L2Operator in
/-- wrong azimuthal angles -/
theorem controlEvolution_azimuth_dist (f g : ℝ → ℝ) (K : ℝ) (Ωs φs Δs ts : List ℝ) (hf : ∀ φ ∈ φs, |f φ - g φ| ≤ K)
    (hΩ : ∀ Ω ∈ Ωs, 0 ≤ Ω) (ht : ∀ t ∈ ts, 0 ≤ t) (h1 : φs.length = Ωs.length)
    (h2 : Δs.length = Ωs.length) (h3 : ts.length = Ωs.length) :
    ‖controlEvolution Ωs (φs.map f) Δs ts - controlEvolution Ωs (φs.map g) Δs ts‖ ≤
      K / 2 * (List.zipWith (fun Ω τ => Ω * τ) Ωs ts).sum := by
  induction Ωs generalizing φs Δs ts with
  | nil => simp [controlEvolution]
  | cons Ω Ωs ih =>
    match φs, Δs, ts, h1, h2, h3 with
    | φ :: φs, Δ :: Δs, t :: ts, h1, h2, h3 =>
      rw [List.map_cons, List.map_cons, controlEvolution, controlEvolution, List.zipWith_cons_cons, List.sum_cons]
      refine (mul_dist (by rw [segmentUnitary_norm]) (controlEvolution_norm _ _ _ _)).trans ?_
      have e1 := ih φs Δs ts (fun x hx => hf x (by simp [hx])) (fun x hx => hΩ x (by simp [hx])) (fun x hx => ht x (by simp [hx]))
        (by simpa using h1) (by simpa using h2) (by simpa using h3)
      have t0 := ht t (by simp)
      have w0 := hΩ Ω (by simp)
      have e2 := segment_dist Ω (f φ) Δ t Ω (g φ) t
      simp only [sub_self, abs_zero, mul_zero, add_zero, zero_add, abs_of_nonneg (mul_nonneg w0 t0)] at e2
      have e3 := mul_le_mul_of_nonneg_left (hf φ (by simp)) (mul_nonneg w0 t0)
      linarith

end OpenControls
