import Verif.Spec.Noise
import Verif.Proofs.Robustness
import Verif.Proofs.XYMoment

/-!
# Sequences of ideal pulses on a noisy qubit
-/

namespace OpenControls

open Spec RealInst

/-! ## Free evolution -/

theorem dephasing_eq (β : ℝ → ℝ) (a b : ℝ) : dephasing β a b =
    su2 (Real.cos ((∫ t in a..b, β t) / 2)) 0 0 (Real.sin ((∫ t in a..b, β t) / 2)) := by
  have h := exp_pauli ((∫ t in a..b, β t) / 2) 0 0 1 (by norm_num)
  simp only [mul_zero, mul_one] at h
  rw [← h]
  unfold dephasing
  congr 1
  simp only [Complex.ofReal_zero, zero_smul, zero_add, Complex.ofReal_one, one_smul]
  congr 1
  push_cast
  ring

/-- rotation about Z -/
noncomputable def zrot (θ : ℝ) : M2 := su2 (Real.cos (θ / 2)) 0 0 (Real.sin (θ / 2))

theorem zrot_zero : zrot 0 = 1 := by simp [zrot, ← su2_one]

theorem zrot_mul (a b : ℝ) : zrot a * zrot b = zrot (a + b) := by
  unfold zrot
  rw [su2_mul, su2_inj, add_div, Real.cos_add, Real.sin_add]
  refine ⟨by ring, by ring, by ring, by ring⟩

theorem staticNoise_eq (x y z r a b : ℝ) (hr : r ^ 2 = x ^ 2 + y ^ 2 + z ^ 2) (h0 : r ≠ 0) (e : ℝ) :
    staticNoise (e * x) (e * y) (e * z) a b =
      su2 (Real.cos (e * ((b - a) * r / 2))) (Real.sin (e * ((b - a) * r / 2)) * (x / r))
        (Real.sin (e * ((b - a) * r / 2)) * (y / r)) (Real.sin (e * ((b - a) * r / 2)) * (z / r)) := by
  rw [← exp_pauli (e * ((b - a) * r / 2)) (x / r) (y / r) (z / r)
    (by rw [div_pow, div_pow, div_pow, ← add_div, ← add_div, ← hr, div_self (pow_ne_zero _ h0)])]
  unfold staticNoise
  congr 1
  have hc : (r : ℂ) ≠ 0 := by exact_mod_cast h0
  simp only [smul_add, smul_smul]
  push_cast
  congr 1
  · congr 1 <;> (congr 1; field_simp)
  · congr 1; field_simp

theorem staticNoise_zero (a b : ℝ) : staticNoise 0 0 0 a b = 1 := by
  unfold staticNoise
  simp [NormedSpace.exp_zero]

theorem staticNoise_refl (x y z a : ℝ) : staticNoise x y z a a = 1 := by
  unfold staticNoise
  simp [NormedSpace.exp_zero]

theorem staticNoise_deriv (x y z a b : ℝ) :
    HasMatrixDerivAt (fun e => staticNoise (e * x) (e * y) (e * z) a b)
      (su2 0 (x / 2 * (b - a)) (y / 2 * (b - a)) (z / 2 * (b - a))) 0 := by
  by_cases h : x ^ 2 + y ^ 2 + z ^ 2 = 0
  · have hx : x = 0 := by nlinarith [sq_nonneg x, sq_nonneg y, sq_nonneg z]
    have hy : y = 0 := by nlinarith [sq_nonneg x, sq_nonneg y, sq_nonneg z]
    have hz : z = 0 := by nlinarith [sq_nonneg x, sq_nonneg y, sq_nonneg z]
    subst hx hy hz
    simp only [mul_zero, zero_div, zero_mul, staticNoise_zero, su2_zero]
    exact HasMatrixDerivAt.const 1 0
  · have hp : 0 < x ^ 2 + y ^ 2 + z ^ 2 := lt_of_le_of_ne (by positivity) (Ne.symm h)
    set r := Real.sqrt (x ^ 2 + y ^ 2 + z ^ 2) with hr
    have h2 : r ^ 2 = x ^ 2 + y ^ 2 + z ^ 2 := Real.sq_sqrt hp.le
    have h0 : r ≠ 0 := (Real.sqrt_pos.mpr hp).ne'
    simp only [staticNoise_eq x y z r a b h2 h0]
    have hl : HasDerivAt (fun e : ℝ => e * ((b - a) * r / 2)) ((b - a) * r / 2) 0 := by
      simpa using (hasDerivAt_id (0 : ℝ)).mul_const ((b - a) * r / 2)
    have hs := hl.sin
    have hc := hl.cos
    simp only [zero_mul, Real.sin_zero, Real.cos_zero, neg_zero, one_mul] at hs hc
    refine (HasMatrixDerivAt.su2 hc (hs.mul_const (x / r)) (hs.mul_const (y / r))
      (hs.mul_const (z / r))).congr ?_
    rw [su2_inj]
    refine ⟨rfl, ?_, ?_, ?_⟩ <;> field_simp

/-! ## Pulses -/

/-- the unitary of a π-pulse -/
noncomputable def axisPulse : Axis → M2
  | .x => su2 0 1 0 0
  | .y => su2 0 0 1 0
  | .z => su2 0 0 0 1

theorem pulseUnitary_axis (c : Axis) : pulseUnitary c.rabi c.azimuthal c.detuning = axisPulse c := by
  cases c
  · simp only [Axis.rabi, Axis.azimuthal, Axis.detuning, pulse_x, axisPulse, su2_eq]; simp
  · simp only [Axis.rabi, Axis.azimuthal, Axis.detuning, pulse_y, axisPulse, su2_eq]; simp
  · simp only [Axis.rabi, Axis.azimuthal, Axis.detuning, pulse_z, axisPulse, su2_eq]; simp

/-- a π-pulse flips the noise along the other two axes -/
def axisSign (noise pulse : Axis) : ℝ := if noise = pulse then 1 else -1

theorem su2_axisPulse (w a b c : ℝ) (p : Axis) : su2 w a b c * axisPulse p =
    axisPulse p * su2 w (axisSign .x p * a) (axisSign .y p * b) (axisSign .z p * c) := by
  cases p <;> simp only [axisPulse, su2_mul, su2_inj, axisSign] <;>
    simp

/-- all pulses of a table -/
noncomputable def tableProduct : List (ℝ × Axis) → M2
  | [] => 1
  | p :: r => tableProduct r * axisPulse p.2

/-- the evolution from `a` to `T` with the pulses of a table -/
noncomputable def tableNoise (free : ℝ → ℝ → M2) (T : ℝ) : ℝ → List (ℝ × Axis) → M2
  | a, [] => free a T
  | a, p :: r => tableNoise free T p.1 r * axisPulse p.2 * free a p.1

theorem interleave_table (free : ℝ → ℝ → M2) (T a : ℝ) (table : List (ℝ × Axis)) :
    interleave free T a (table.map fun p => p.1) (table.map fun p => p.2.rabi)
      (table.map fun p => p.2.azimuthal) (table.map fun p => p.2.detuning) =
      tableNoise free T a table := by
  induction table generalizing a with
  | nil => rfl
  | cons p r ih =>
    simp only [List.map_cons, interleave, tableNoise, ih, pulseUnitary_axis]

theorem pulses_table (T : ℝ) (table : List (ℝ × Axis)) (name : Option String) :
    pulses (piSequence T table name) = tableProduct table := by
  unfold pulses piSequence
  induction table with
  | nil => rfl
  | cons p r ih =>
    simp only [List.map_cons, pulseProduct, tableProduct, pulseUnitary_axis] at ih ⊢
    rw [ih]

theorem interleave_last (free : ℝ → ℝ → M2) (T a ω φ δ : ℝ) (ts ωs φs δs : List ℝ)
    (h1 : ωs.length = ts.length) (h2 : φs.length = ts.length) (h3 : δs.length = ts.length) :
    interleave free T a (ts ++ [T]) (ωs ++ [ω]) (φs ++ [φ]) (δs ++ [δ]) =
      free T T * pulseUnitary ω φ δ * interleave free T a ts ωs φs δs := by
  induction ts generalizing a ωs φs δs with
  | nil =>
    simp only [List.length_nil, List.length_eq_zero_iff] at h1 h2 h3
    subst h1 h2 h3
    rfl
  | cons t ts ih =>
    cases ωs with
    | nil => simp at h1
    | cons x ωs =>
    cases φs with
    | nil => simp at h2
    | cons y φs =>
    cases δs with
    | nil => simp at h3
    | cons z δs =>
      simp only [List.length_cons, add_left_inj] at h1 h2 h3
      simp only [List.cons_append, interleave, ih t ωs φs δs h1 h2 h3, mul_assoc]

theorem underNoise_table (free : ℝ → ℝ → M2) (T : ℝ) (table : List (ℝ × Axis))
    (name : Option String) :
    underNoise free (piSequence T table name) = tableNoise free T 0 table :=
  interleave_table free T 0 table

theorem underNoise_withPrePost (free : ℝ → ℝ → M2) (hf : ∀ a, free a a = 1) (T : ℝ)
    (table : List (ℝ × Axis)) (name : Option String) (φ : ℝ) :
    underNoise free (withPrePost φ (piSequence T table name)) =
      pulseUnitary (Real.pi / 2) φ 0 * tableNoise free T 0 table *
        pulseUnitary (Real.pi / 2) 0 0 := by
  unfold underNoise withPrePost
  simp only [interleave]
  rw [show (piSequence T table name).duration = T from rfl,
    interleave_last _ _ _ _ _ _ _ _ _ _ (by simp [piSequence]) (by simp [piSequence])
      (by simp [piSequence]), hf, hf, one_mul, mul_one, ← interleave_table]
  rfl

theorem pulses_withPrePost_eq (T : ℝ) (table : List (ℝ × Axis)) (name : Option String) (φ : ℝ) :
    pulses (withPrePost φ (piSequence T table name)) =
      pulseUnitary (Real.pi / 2) φ 0 * tableProduct table * pulseUnitary (Real.pi / 2) 0 0 := by
  rw [← pulses_table T table name]
  unfold pulses withPrePost
  simp only [pulseProduct]
  rw [pulseProduct_append _ _ _ _ _ _ (by simp [piSequence]) (by simp [piSequence])]
  simp [pulseProduct]

/-! ## Signed sums -/

/-- `∫ y f` for the sensitivity `y` to noise along an axis, `F` an antiderivative of `f` -/
noncomputable def axisSum (F : ℝ → ℝ) (c : Axis) (T : ℝ) : ℝ → List (ℝ × Axis) → ℝ
  | a, [] => F T - F a
  | a, p :: r => (F p.1 - F a) + axisSign c p.2 * axisSum F c T p.1 r

/-- the times of the pulses that flip noise along an axis -/
def axisFlips (c : Axis) (table : List (ℝ × Axis)) : List ℝ :=
  (table.filter fun p => p.2 ≠ c).map fun p => p.1

theorem axisFlips_z (table : List (ℝ × Axis)) : axisFlips .z table = flipTimes table := rfl

theorem axisSum_eq (F : ℝ → ℝ) (c : Axis) (T a : ℝ) (table : List (ℝ × Axis)) :
    axisSum F c T a table = altSum F T a (axisFlips c table) := by
  have hskip : ∀ (a t : ℝ) (l : List ℝ), (F t - F a) + altSum F T t l = altSum F T a l := by
    intro a t l
    cases l <;> simp only [altSum] <;> ring
  induction table generalizing a with
  | nil => rfl
  | cons p r ih =>
    obtain ⟨t, q⟩ := p
    simp only [axisSum, ih]
    by_cases h : q = c
    · subst h
      have : axisFlips q ((t, q) :: r) = axisFlips q r := by simp [axisFlips]
      rw [this, axisSign, if_pos rfl, one_mul, hskip]
    · have : axisFlips c ((t, q) :: r) = t :: axisFlips c r := by simp [axisFlips, h]
      rw [this, axisSign, if_neg (Ne.symm h), altSum]
      ring

theorem tableNoise_dephasing {β F : ℝ → ℝ} (hF : ∀ a b, ∫ t in a..b, β t = F b - F a) (T a : ℝ)
    (table : List (ℝ × Axis)) :
    tableNoise (dephasing β) T a table = tableProduct table * zrot (axisSum F .z T a table) := by
  induction table generalizing a with
  | nil =>
    simp only [tableNoise, tableProduct, axisSum, one_mul]
    rw [dephasing_eq, hF]
    rfl
  | cons p r ih =>
    simp only [tableNoise, tableProduct, axisSum, ih]
    rw [dephasing_eq, hF, mul_assoc (tableProduct r), ]
    have : zrot (axisSum F .z T p.1 r) * axisPulse p.2 =
        axisPulse p.2 * zrot (axisSign .z p.2 * axisSum F .z T p.1 r) := by
      have hs : Real.sin (axisSign .z p.2 * axisSum F .z T p.1 r / 2) =
          axisSign .z p.2 * Real.sin (axisSum F .z T p.1 r / 2) := by
        unfold axisSign; split <;> simp [neg_div]
      have hc : Real.cos (axisSign .z p.2 * axisSum F .z T p.1 r / 2) =
          Real.cos (axisSum F .z T p.1 r / 2) := by
        unfold axisSign; split <;> simp [neg_div]
      unfold zrot
      rw [su2_axisPulse, hs, hc]
      simp
    rw [this, mul_assoc, mul_assoc, mul_assoc]
    congr 2
    rw [add_comm, ← zrot_mul]
    rfl

theorem tableNoise_static_zero (T a : ℝ) (table : List (ℝ × Axis)) :
    tableNoise (staticNoise 0 0 0) T a table = tableProduct table := by
  induction table generalizing a with
  | nil => simp [tableNoise, tableProduct, staticNoise_zero]
  | cons p r ih => simp [tableNoise, tableProduct, staticNoise_zero, ih]

theorem tableNoise_static (x y z T a : ℝ) (table : List (ℝ × Axis)) :
    HasMatrixDerivAt (fun e => tableNoise (staticNoise (e * x) (e * y) (e * z)) T a table)
      (tableProduct table * su2 0 (x / 2 * axisSum id .x T a table)
        (y / 2 * axisSum id .y T a table) (z / 2 * axisSum id .z T a table)) 0 := by
  induction table generalizing a with
  | nil =>
    simp only [tableNoise, tableProduct, axisSum, one_mul, id]
    exact staticNoise_deriv x y z a T
  | cons p r ih =>
    simp only [tableNoise, tableProduct, axisSum, id]
    refine (((ih p.1).mul (HasMatrixDerivAt.const (axisPulse p.2) 0)).mul
      (staticNoise_deriv x y z a p.1)).congr ?_
    simp only [zero_mul, staticNoise_zero, tableNoise_static_zero, mul_zero, add_zero, mul_one]
    rw [mul_assoc, su2_axisPulse, mul_assoc (tableProduct r), mul_assoc (tableProduct r), ← mul_add,
      ← mul_add, su2_add]
    congr 3 <;> ring

end OpenControls
