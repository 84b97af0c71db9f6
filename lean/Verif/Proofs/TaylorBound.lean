import Verif.Proofs.ExpLipschitz
import Verif.Spec.Robustness
import Mathlib.MeasureTheory.Integral.IntervalIntegral.FundThmCalculus

/-!
# Remainders of evolutions as functions of an error

`Tame b f`: the Taylor remainders of `f` at 0 of orders 0, 1 and 2 are bounded, for every argument, by those of the
exponential of `b |x|`.  Products of such functions are of the same kind, and so is the evolution under a constant
field that depends linearly on the error.
-/

namespace OpenControls

open Spec Complex

open scoped Matrix.Norms.L2Operator

/-- expansion to second order with remainders of all orders up to the third -/
structure TameAt (b : ℝ) (f : ℝ → M2) (P Q : M2) : Prop where
  pos : 0 ≤ b
  bound : ∀ x, ‖f x‖ ≤ 1
  first : ‖P‖ ≤ b
  second : ‖Q‖ ≤ b ^ 2 / 2
  r0 : ∀ x, ‖f x - f 0‖ ≤ b * |x|
  r1 : ∀ x, ‖f x - f 0 - x • P‖ ≤ b ^ 2 * |x| ^ 2 / 2
  r2 : ∀ x, ‖f x - f 0 - x • P - x ^ 2 • Q‖ ≤ b ^ 3 * |x| ^ 3 / 6

theorem norm_mul_le_mul {A B : M2} {a b : ℝ} (ha : ‖A‖ ≤ a) (hb : ‖B‖ ≤ b) : ‖A * B‖ ≤ a * b :=
  (norm_mul_le A B).trans (mul_le_mul ha hb (norm_nonneg _) ((norm_nonneg _).trans ha))

theorem TameAt.const {A : M2} (h : ‖A‖ ≤ 1) : TameAt 0 (fun _ => A) 0 0 where
  pos := le_rfl
  bound _ := h
  first := by simp
  second := by simp
  r0 _ := by simp
  r1 _ := by simp
  r2 _ := by simp

theorem TameAt.mul {b c : ℝ} {f g : ℝ → M2} {P Q P' Q' : M2} (hf : TameAt b f P Q)
    (hg : TameAt c g P' Q') : TameAt (b + c) (fun x => f x * g x) (P * g 0 + f 0 * P')
      (Q * g 0 + f 0 * Q' + P * P') where
  pos := add_nonneg hf.pos hg.pos
  bound x := by simpa using norm_mul_le_mul (hf.bound x) (hg.bound x)
  first := by
    have h1 := norm_mul_le_mul hf.first (hg.bound 0)
    have h2 := norm_mul_le_mul (hf.bound 0) hg.first
    refine (norm_add_le _ _).trans ?_
    linarith
  second := by
    have h1 := norm_mul_le_mul hf.second (hg.bound 0)
    have h2 := norm_mul_le_mul (hf.bound 0) hg.second
    have h3 := norm_mul_le_mul hf.first hg.first
    refine (norm_add₃_le).trans ?_
    nlinarith
  r0 x := by
    have e : f x * g x - f 0 * g 0 = (f x - f 0) * g x + f 0 * (g x - g 0) := by noncomm_ring
    have h1 := norm_mul_le_mul (hf.r0 x) (hg.bound x)
    have h2 := norm_mul_le_mul (hf.bound 0) (hg.r0 x)
    rw [e]
    refine (norm_add_le _ _).trans ?_
    linarith
  r1 x := by
    have e : f x * g x - f 0 * g 0 - x • (P * g 0 + f 0 * P') =
        (f x - f 0 - x • P) * g 0 + f 0 * (g x - g 0 - x • P') + (f x - f 0) * (g x - g 0) := by
      simp only [sub_mul, mul_sub, smul_add, smul_mul_assoc, mul_smul_comm]
      abel
    have h1 := norm_mul_le_mul (hf.r1 x) (hg.bound 0)
    have h2 := norm_mul_le_mul (hf.bound 0) (hg.r1 x)
    have h3 := norm_mul_le_mul (hf.r0 x) (hg.r0 x)
    rw [e]
    refine (norm_add₃_le).trans ?_
    nlinarith
  r2 x := by
    have e : f x * g x - f 0 * g 0 - x • (P * g 0 + f 0 * P') -
        x ^ 2 • (Q * g 0 + f 0 * Q' + P * P') =
        (f x - f 0 - x • P - x ^ 2 • Q) * g 0 + f 0 * (g x - g 0 - x • P' - x ^ 2 • Q') +
          ((f x - f 0 - x • P) * (g x - g 0) + (x • P) * (g x - g 0 - x • P')) := by
      simp only [sub_mul, mul_sub, smul_add, smul_sub, smul_mul_assoc, mul_smul_comm, sq, mul_smul]
      abel
    have h1 := norm_mul_le_mul (hf.r2 x) (hg.bound 0)
    have h2 := norm_mul_le_mul (hf.bound 0) (hg.r2 x)
    have h3 := norm_mul_le_mul (hf.r1 x) (hg.r0 x)
    have hxP : ‖x • P‖ ≤ |x| * b := by
      rw [norm_smul, Real.norm_eq_abs]
      exact mul_le_mul_of_nonneg_left hf.first (abs_nonneg x)
    have h4 := norm_mul_le_mul hxP (hg.r1 x)
    rw [e]
    refine (norm_add₃_le).trans ?_
    have h5 := norm_add_le ((f x - f 0 - x • P) * (g x - g 0)) ((x • P) * (g x - g 0 - x • P'))
    refine (add_le_add (add_le_add h1 h2) (h5.trans (add_le_add h3 h4))).trans (le_of_eq ?_)
    ring

/-- a continuous function has a primitive that vanishes at 0 -/
theorem exists_primitive (g : ℝ → M2) (hg : Continuous g) :
    ∃ G : ℝ → M2, G 0 = 0 ∧ ∀ s, HasDerivAt G (g s) s :=
  ⟨fun s => ∫ u in (0 : ℝ)..s, g u, by simp, fun s => hg.integral_hasStrictDerivAt 0 s |>.hasDerivAt⟩

/-- a function that starts at 0 and whose derivative is at most `C sⁿ` is at most `C sⁿ⁺¹/(n+1)` -/
theorem norm_le_of_deriv {f f' : ℝ → M2} (n : ℕ) (C : ℝ) (h0 : f 0 = 0) (hd : ∀ s, HasDerivAt f (f' s) s)
    (hb : ∀ s, 0 ≤ s → ‖f' s‖ ≤ C * s ^ n) (s : ℝ) (hs : 0 ≤ s) : ‖f s‖ ≤ C * s ^ (n + 1) / (n + 1) := by
  refine image_norm_le_of_norm_deriv_right_le_deriv_boundary (a := 0) (b := s) (f := f) (f' := f')
    (B := fun s => C * s ^ (n + 1) / (n + 1)) (B' := fun s => C * s ^ n)
    (fun s _ => (hd s).continuousAt.continuousWithinAt) (fun s _ => (hd s).hasDerivWithinAt)
    (by simp [h0]) ?_ (fun s h => hb s h.1) ⟨hs, le_rfl⟩
  intro u
  have h := ((hasDerivAt_pow (n + 1) u).const_mul C).div_const ((n : ℝ) + 1)
  refine h.congr_deriv ?_
  have : (n : ℝ) + 1 ≠ 0 := by positivity
  rw [Nat.add_sub_cancel]
  push_cast
  field_simp

theorem smul_mul_bound (x : ℝ) {M N : M2} {a b : ℝ} (h1 : ‖M‖ ≤ a) (h2 : ‖N‖ ≤ b) :
    ‖x • (M * N)‖ ≤ |x| * (a * b) := by
  rw [norm_smul, Real.norm_eq_abs]
  exact mul_le_mul_of_nonneg_left (norm_mul_le_mul h1 h2) (abs_nonneg x)

section Dyson

variable {b x : ℝ} {V K L h : ℝ → M2} (hVn : ∀ s, ‖V s‖ ≤ b) (hK0 : K 0 = 0)
  (hK : ∀ s, HasDerivAt K (V s) s) (hL0 : L 0 = 0) (hL : ∀ s, HasDerivAt L (V s * K s) s)
  (hh0 : h 0 = 1) (hd : ∀ s, HasDerivAt h (x • (V s * h s)) s) (hn : ∀ s, ‖h s‖ ≤ 1)

include hVn hK0 hK in
theorem dyson_first (s : ℝ) (hs : 0 ≤ s) : ‖K s‖ ≤ b * s := by
  have := norm_le_of_deriv 0 b hK0 hK (fun s _ => by simpa using hVn s) s hs
  simpa using this

include hVn hK0 hK hL0 hL in
theorem dyson_second (s : ℝ) (hs : 0 ≤ s) : ‖L s‖ ≤ b ^ 2 * s ^ 2 / 2 := by
  have := norm_le_of_deriv 1 (b ^ 2) hL0 hL (fun s hs => by
    refine (norm_mul_le_mul (hVn s) (dyson_first hVn hK0 hK s hs)).trans (le_of_eq ?_)
    ring) s hs
  refine this.trans (le_of_eq ?_)
  norm_num

include hVn hh0 hd hn in
theorem dyson_r0 (s : ℝ) (hs : 0 ≤ s) : ‖h s - 1‖ ≤ b * |x| * s := by
  have := norm_le_of_deriv 0 (b * |x|) (f := fun s => h s - 1) (by simp [hh0])
    (fun s => (hd s).sub_const 1) (fun s _ => by
      refine (smul_mul_bound x (hVn s) (hn s)).trans (le_of_eq ?_)
      ring) s hs
  refine this.trans (le_of_eq ?_)
  norm_num

include hVn hK0 hK hh0 hd hn in
theorem dyson_r1 (s : ℝ) (hs : 0 ≤ s) : ‖h s - 1 - x • K s‖ ≤ b ^ 2 * |x| ^ 2 * s ^ 2 / 2 := by
  have := norm_le_of_deriv 1 (b ^ 2 * |x| ^ 2) (f := fun s => h s - 1 - x • K s)
    (by simp [hh0, hK0])
    (fun s => (((hd s).sub_const 1).sub ((hK s).const_smul x)).congr_deriv
      (show _ = x • (V s * (h s - 1)) by rw [mul_sub, mul_one, smul_sub]))
    (fun s hs => by
      refine (smul_mul_bound x (hVn s) (dyson_r0 hVn hh0 hd hn s hs)).trans (le_of_eq ?_)
      ring) s hs
  refine this.trans (le_of_eq ?_)
  norm_num

include hVn hK0 hK hL0 hL hh0 hd hn in
theorem dyson_r2 (s : ℝ) (hs : 0 ≤ s) :
    ‖h s - 1 - x • K s - x ^ 2 • L s‖ ≤ b ^ 3 * |x| ^ 3 * s ^ 3 / 6 := by
  have := norm_le_of_deriv 2 (b ^ 3 * |x| ^ 3 / 2) (f := fun s => h s - 1 - x • K s - x ^ 2 • L s)
    (by simp [hh0, hK0, hL0])
    (fun s => ((((hd s).sub_const 1).sub ((hK s).const_smul x)).sub
      ((hL s).const_smul (x ^ 2))).congr_deriv
      (show _ = x • (V s * (h s - 1 - x • K s)) by
        simp only [mul_sub, mul_one, smul_sub, mul_smul_comm, smul_smul, sq]))
    (fun s hs => by
      refine (smul_mul_bound x (hVn s) (dyson_r1 hVn hK0 hK hh0 hd hn s hs)).trans (le_of_eq ?_)
      ring) s hs
  refine this.trans (le_of_eq ?_)
  norm_num
  ring

end Dyson

/-- the perturbation in the frame of the unperturbed field -/
noncomputable def frameField (A B : M2) (s : ℝ) : M2 :=
  NormedSpace.exp (s • (-A)) * B * NormedSpace.exp (s • A)

/-- the evolution in the frame of the unperturbed field -/
noncomputable def frameEvolution (A B : M2) (x s : ℝ) : M2 :=
  NormedSpace.exp (s • (-A)) * NormedSpace.exp (s • (A + x • B))

theorem exp_cancel (A : M2) (s : ℝ) : NormedSpace.exp (s • A) * NormedSpace.exp (s • (-A)) = 1 := by
  have hc : Commute (s • A) (s • (-A)) := by
    rw [smul_neg]; exact (Commute.refl (s • A)).neg_right
  letI : NormedAlgebra ℚ M2 := NormedAlgebra.restrictScalars ℚ ℂ M2
  rw [← NormedSpace.exp_add_of_commute hc, smul_neg, add_neg_cancel, NormedSpace.exp_zero]

theorem frameField_continuous (A B : M2) : Continuous (frameField A B) := by
  have hexp : ∀ (C : M2), Continuous fun s : ℝ => NormedSpace.exp (s • C) := fun C =>
    (differentiable_exp_smul_const ℝ C).continuous
  exact ((hexp (-A)).mul continuous_const).mul (hexp A)

theorem frameField_norm {A : M2} (hA : A ∈ skewAdjoint M2) (B : M2) (s : ℝ) :
    ‖frameField A B s‖ ≤ ‖B‖ := by
  have e1 := exp_norm (skewAdjoint.smul_mem s (neg_mem hA))
  have e2 := exp_norm (skewAdjoint.smul_mem s hA)
  have := norm_mul_le_mul (norm_mul_le_mul e1.le (le_refl ‖B‖)) e2.le
  rw [one_mul, mul_one] at this
  exact this

theorem frameEvolution_zero (A B : M2) (x : ℝ) : frameEvolution A B x 0 = 1 := by
  unfold frameEvolution
  rw [zero_smul, zero_smul, NormedSpace.exp_zero, one_mul]

theorem frameEvolution_deriv (A B : M2) (x s : ℝ) :
    HasDerivAt (frameEvolution A B x) (x • (frameField A B s * frameEvolution A B x s)) s := by
  have h1 := hasDerivAt_exp_smul_const (𝕂 := ℝ) (-A) s
  have h2 := hasDerivAt_exp_smul_const' (𝕂 := ℝ) (A + x • B) s
  refine (h1.mul h2).congr_deriv ?_
  have e : frameField A B s * frameEvolution A B x s = NormedSpace.exp (s • (-A)) * B *
      (NormedSpace.exp (s • A) * NormedSpace.exp (s • (-A))) * NormedSpace.exp (s • (A + x • B)) := by
    simp only [frameField, frameEvolution, mul_assoc]
  rw [e, exp_cancel, mul_one]
  simp only [add_mul, mul_add, mul_neg, neg_mul, smul_mul_assoc, mul_smul_comm, mul_assoc]
  abel

theorem frameEvolution_norm {A B : M2} (hA : A ∈ skewAdjoint M2) (hB : B ∈ skewAdjoint M2) (x s : ℝ) :
    ‖frameEvolution A B x s‖ ≤ 1 := by
  have e1 := exp_norm (skewAdjoint.smul_mem s (neg_mem hA))
  have e2 := exp_norm (skewAdjoint.smul_mem s (add_mem hA (skewAdjoint.smul_mem x hB)))
  have := norm_mul_le_mul e1.le e2.le
  rw [one_mul] at this
  exact this

theorem exp_frame (A B : M2) (x : ℝ) :
    NormedSpace.exp (A + x • B) = NormedSpace.exp A * frameEvolution A B x 1 := by
  have := exp_cancel A 1
  rw [one_smul, one_smul] at this
  unfold frameEvolution
  rw [one_smul, one_smul, ← mul_assoc, this, one_mul]

theorem norm_exp_mul {A C : M2} {c : ℝ} (hA : A ∈ skewAdjoint M2) (h : ‖C‖ ≤ c) :
    ‖NormedSpace.exp A * C‖ ≤ c := by
  have := norm_mul_le_mul (exp_norm hA).le h
  rwa [one_mul] at this

/-- Evolution under a constant field that depends linearly on the error. -/
theorem tame_exp {A B : M2} (hA : A ∈ skewAdjoint M2) (hB : B ∈ skewAdjoint M2) :
    ∃ P Q, TameAt ‖B‖ (fun x : ℝ => NormedSpace.exp (A + x • B)) P Q := by
  have hVn := frameField_norm hA B
  obtain ⟨K, hK0, hK⟩ := exists_primitive _ (frameField_continuous A B)
  have hKc : Continuous K := continuous_iff_continuousAt.2 fun s => (hK s).continuousAt
  obtain ⟨L, hL0, hL⟩ := exists_primitive _ ((frameField_continuous A B).mul hKc)
  have hh0 := frameEvolution_zero A B
  have hd := frameEvolution_deriv A B
  have hn := frameEvolution_norm hA hB
  have hz : NormedSpace.exp (A + (0 : ℝ) • B) = NormedSpace.exp A := by rw [zero_smul, add_zero]
  refine ⟨NormedSpace.exp A * K 1, NormedSpace.exp A * L 1, norm_nonneg B,
    fun x => (exp_norm (add_mem hA (skewAdjoint.smul_mem x hB))).le, norm_exp_mul hA ?_,
    norm_exp_mul hA ?_, fun x => ?_, fun x => ?_, fun x => ?_⟩
  · have := dyson_first hVn hK0 hK 1 zero_le_one
    rwa [mul_one] at this
  · have := dyson_second hVn hK0 hK hL0 hL 1 zero_le_one
    rwa [one_pow, mul_one] at this
  · have e : NormedSpace.exp (A + x • B) - NormedSpace.exp (A + (0 : ℝ) • B) =
        NormedSpace.exp A * (frameEvolution A B x 1 - 1) := by
      rw [hz, exp_frame, mul_sub, mul_one]
    show ‖NormedSpace.exp (A + x • B) - NormedSpace.exp (A + (0 : ℝ) • B)‖ ≤ _
    rw [e]
    have := dyson_r0 hVn (hh0 x) (hd x) (hn x) 1 zero_le_one
    rw [mul_one] at this
    exact norm_exp_mul hA this
  · have e : NormedSpace.exp (A + x • B) - NormedSpace.exp (A + (0 : ℝ) • B) -
        x • (NormedSpace.exp A * K 1) = NormedSpace.exp A * (frameEvolution A B x 1 - 1 - x • K 1) := by
      rw [hz, exp_frame, mul_sub, mul_sub, mul_one, mul_smul_comm]
    show ‖NormedSpace.exp (A + x • B) - NormedSpace.exp (A + (0 : ℝ) • B) - _‖ ≤ _
    rw [e]
    have := dyson_r1 hVn hK0 hK (hh0 x) (hd x) (hn x) 1 zero_le_one
    rw [one_pow, mul_one] at this
    exact norm_exp_mul hA this
  · have e : NormedSpace.exp (A + x • B) - NormedSpace.exp (A + (0 : ℝ) • B) -
        x • (NormedSpace.exp A * K 1) - x ^ 2 • (NormedSpace.exp A * L 1) =
        NormedSpace.exp A * (frameEvolution A B x 1 - 1 - x • K 1 - x ^ 2 • L 1) := by
      rw [hz, exp_frame, mul_sub, mul_sub, mul_sub, mul_one, mul_smul_comm, mul_smul_comm]
    show ‖NormedSpace.exp (A + x • B) - NormedSpace.exp (A + (0 : ℝ) • B) - _ - _‖ ≤ _
    rw [e]
    have := dyson_r2 hVn hK0 hK hL0 hL (hh0 x) (hd x) (hn x) 1 zero_le_one
    rw [one_pow, mul_one] at this
    exact norm_exp_mul hA this

/-! ### What insensitivity says about the coefficients -/

theorem entry_norm_le (A : M2) (i j : Fin 2) : ‖A i j‖ ≤ ‖A‖ := by
  have h := Matrix.l2_opNorm_mulVec A (EuclideanSpace.single j (1 : ℂ))
  rw [EuclideanSpace.norm_single, norm_one, mul_one] at h
  refine le_trans ?_ h
  have := PiLp.norm_apply_le (p := 2) ((WithLp.toLp 2 (A.mulVec (EuclideanSpace.single j (1 : ℂ)).ofLp)) :
    EuclideanSpace ℂ (Fin 2)) i
  refine le_trans (le_of_eq ?_) this
  simp

theorem TameAt.first_deriv {b : ℝ} {f : ℝ → M2} {P Q : M2} (h : TameAt b f P Q) :
    HasMatrixDerivAt f P 0 := by
  intro i j
  rw [hasDerivAt_iff_isLittleO_nhds_zero]
  have hO : (fun x : ℝ => f (0 + x) i j - f 0 i j - x • P i j) =O[nhds 0] fun x : ℝ => x ^ 2 := by
    refine Asymptotics.IsBigO.of_bound (b ^ 2 / 2) (Filter.Eventually.of_forall fun x => ?_)
    have h1 := (entry_norm_le _ i j).trans (h.r1 x)
    rw [zero_add, Real.norm_eq_abs, abs_pow]
    simp only [Matrix.sub_apply, Matrix.smul_apply] at h1
    linarith
  exact hO.trans_isLittleO (Asymptotics.isLittleO_pow_id one_lt_two)

theorem matrixDeriv_unique {f : ℝ → M2} {P P' : M2} {x : ℝ} (h : HasMatrixDerivAt f P x)
    (h' : HasMatrixDerivAt f P' x) : P = P' := by
  ext i j
  exact (h i j).unique (h' i j)

theorem TameAt.first_zero {b : ℝ} {f : ℝ → M2} {P Q : M2} (h : TameAt b f P Q)
    (hf : FirstOrderInsensitive f) : P = 0 := matrixDeriv_unique h.first_deriv hf

theorem TameAt.second_zero {b : ℝ} {f : ℝ → M2} {P Q : M2} (h : TameAt b f P Q)
    (hf : SecondOrderInsensitive f) : P = 0 ∧ Q = 0 := by
  obtain ⟨U', hU, hU0, hU2⟩ := hf
  have hP : P = 0 := h.first_zero (by have := hU 0; rwa [hU0] at this)
  refine ⟨hP, ?_⟩
  ext i j
  show Q i j = 0
  rw [← norm_eq_zero]
  refine le_antisymm (le_of_forall_pos_le_add fun ε hε => ?_) (norm_nonneg _)
  rw [zero_add]
  have hlo := (hasDerivAt_iff_isLittleO_nhds_zero.1 (hU2 i j)).def (half_pos hε)
  obtain ⟨δ, hδ, hball⟩ := Metric.eventually_nhds_iff.1 hlo
  have hb := h.pos
  let C : ℝ := b ^ 3 / 6
  have hC : 0 ≤ C := by positivity
  let x : ℝ := min (δ / 2) (ε / (2 * (C + 1)))
  have hx : 0 < x := lt_min (by positivity) (by positivity)
  have hxδ : x < δ := (min_le_left _ _).trans_lt (by linarith)
  have hxε : C * x ≤ ε / 2 := by
    have h1 : x ≤ ε / (2 * (C + 1)) := min_le_right _ _
    have h2 : C * x ≤ C * (ε / (2 * (C + 1))) := mul_le_mul_of_nonneg_left h1 hC
    refine h2.trans ?_
    rw [mul_div_assoc', div_le_div_iff₀ (by positivity) (by positivity)]
    nlinarith
  have hmv : ‖f x i j - f 0 i j‖ ≤ ε / 2 * x * (x - 0) := by
    refine norm_image_sub_le_of_norm_deriv_le_segment' (f := fun e => f e i j)
      (fun s _ => (hU s i j).hasDerivWithinAt) (fun s hs => ?_) x ⟨hx.le, le_rfl⟩
    have hs' : dist s 0 < δ := by
      rw [Real.dist_eq, sub_zero, abs_of_nonneg hs.1]
      exact hs.2.trans hxδ
    have h1 := hball hs'
    rw [zero_add, hU0] at h1
    simp only [Matrix.zero_apply, sub_zero, smul_zero, Real.norm_eq_abs, abs_of_nonneg hs.1] at h1
    refine h1.trans ?_
    have := hs.2.le
    gcongr
  have hr := (entry_norm_le _ i j).trans (h.r2 x)
  simp only [hP, Matrix.sub_apply, Matrix.smul_apply, smul_zero, Matrix.zero_apply, sub_zero] at hr
  rw [abs_of_pos hx] at hr
  have hq : ‖x ^ 2 • Q i j‖ ≤ ε / 2 * x * x + C * x ^ 3 := by
    have e : x ^ 2 • Q i j = (f x i j - f 0 i j) - (f x i j - f 0 i j - x ^ 2 • Q i j) := by abel
    rw [e]
    refine (norm_sub_le _ _).trans ?_
    have e2 : C * x ^ 3 = b ^ 3 * x ^ 3 / 6 := by simp only [C]; ring
    rw [e2]
    rw [sub_zero] at hmv
    exact add_le_add hmv hr
  rw [norm_smul, Real.norm_eq_abs, abs_of_nonneg (by positivity)] at hq
  have hx2 : 0 < x ^ 2 := by positivity
  have : x ^ 2 * ‖Q i j‖ ≤ x ^ 2 * ε := by
    refine hq.trans ?_
    nlinarith
  exact le_of_mul_le_mul_left this hx2

end OpenControls
