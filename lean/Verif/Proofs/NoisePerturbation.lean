import Verif.Proofs.StaticNoise
import Verif.Proofs.RoundedPipeline

/-!
# Noisy evolutions with slightly different pulses at slightly different times
-/

namespace OpenControls

open Spec
open scoped Matrix.Norms.L2Operator

/-! ## Unitary matrices of determinant one -/

def IsSU2 (U : M2) : Prop := ∃ a b c d : ℝ, U = su2 a b c d ∧ a ^ 2 + b ^ 2 + c ^ 2 + d ^ 2 = 1

theorem IsSU2.mul {U V : M2} (hU : IsSU2 U) (hV : IsSU2 V) : IsSU2 (U * V) := by
  obtain ⟨a, b, c, d, rfl, h⟩ := hU
  obtain ⟨a', b', c', d', rfl, h'⟩ := hV
  rw [su2_mul]
  refine ⟨_, _, _, _, rfl, ?_⟩
  linear_combination (a' ^ 2 + b' ^ 2 + c' ^ 2 + d' ^ 2) * h + h'

theorem IsSU2.one : IsSU2 1 := ⟨1, 0, 0, 0, su2_one.symm, by norm_num⟩

theorem isSU2_pulse (ω φ δ : ℝ) : IsSU2 (pulseUnitary ω φ δ) := by
  rw [pulseUnitary_eq_segmentUnitary]
  by_cases h : ω ^ 2 + δ ^ 2 = 0
  · have h1 : ω = 0 := by nlinarith [sq_nonneg ω, sq_nonneg δ]
    have h2 : δ = 0 := by nlinarith [sq_nonneg ω, sq_nonneg δ]
    rw [h1, h2, segmentUnitary_idle]
    exact .one
  · have hr : √(ω ^ 2 + δ ^ 2) ^ 2 = ω ^ 2 + δ ^ 2 := Real.sq_sqrt (by positivity)
    have hr0 : √(ω ^ 2 + δ ^ 2) ≠ 0 := by
      intro h0; rw [h0] at hr; exact h (by rw [← hr]; ring)
    set q := √(ω ^ 2 + δ ^ 2)
    rw [segmentUnitary_eq ω φ δ 1 q hr hr0]
    refine ⟨_, _, _, _, rfl, ?_⟩
    have h1 : (ω * Real.cos φ / q) ^ 2 + (ω * Real.sin φ / q) ^ 2 + (δ / q) ^ 2 = 1 := by
      have := Real.cos_sq_add_sin_sq φ
      field_simp
      rw [hr]
      linear_combination ω ^ 2 * this
    linear_combination Real.cos_sq_add_sin_sq (q * 1 / 2) + Real.sin (q * 1 / 2) ^ 2 * h1

theorem isSU2_static (x y z a b : ℝ) : IsSU2 (staticNoise x y z a b) := by
  obtain ⟨p, q, s, h, -, -, -, he⟩ := static_rotation x y z
  rw [he]
  refine ⟨_, _, _, _, rfl, ?_⟩
  linear_combination Real.cos_sq_add_sin_sq ((b - a) * strength x y z / 2) +
    Real.sin ((b - a) * strength x y z / 2) ^ 2 * h

theorem isSU2_dephasing (β : ℝ → ℝ) (a b : ℝ) : IsSU2 (dephasing β a b) := by
  rw [dephasing_eq]
  refine ⟨_, _, _, _, rfl, ?_⟩
  linear_combination Real.cos_sq_add_sin_sq ((∫ t in a..b, β t) / 2)

theorem IsSU2.norm {U : M2} (h : IsSU2 U) : ‖U‖ ≤ 1 := by
  obtain ⟨a, b, c, d, rfl, h⟩ := h
  refine le_of_sq_le_sq ?_ zero_le_one
  rw [su2_norm_sq, h, one_pow]

/-- the return probability of an evolution close to the identity or Z -/
theorem IsSU2.returnProbability {U P : M2} (hU : IsSU2 U) (hP : EqUpToPhase P 1 ∨ EqUpToPhase P σz) {d : ℝ}
    (h : ‖U - P‖ ≤ d) : 1 - d ^ 2 ≤ returnProbability U := by
  have h0 : P 1 0 = 0 := by
    rcases hP with ⟨z, -, rfl⟩ | ⟨z, -, rfl⟩
    · simp
    · simp [σz]
  have h1 : ‖U 1 0‖ ≤ d := by
    have := (entry_le_norm (U - P) 1 0).trans h
    rwa [Matrix.sub_apply, h0, sub_zero] at this
  obtain ⟨a, b, c, e, rfl, hn⟩ := hU
  have e1 : ‖su2 a b c e 1 0‖ ^ 2 = c ^ 2 + b ^ 2 := by
    rw [Complex.sq_norm, Complex.normSq_apply]
    simp [su2]
    ring
  have e2 : ‖su2 a b c e 0 0‖ ^ 2 = a ^ 2 + e ^ 2 := by
    rw [Complex.sq_norm, Complex.normSq_apply]
    simp [su2]
    ring
  have h2 : ‖su2 a b c e 1 0‖ ^ 2 ≤ d ^ 2 := pow_le_pow_left₀ (norm_nonneg _) h1 2
  unfold Spec.returnProbability
  rw [e2]
  linarith

/-! ## Sequences as lists of pulses -/

noncomputable def noisy (free : ℝ → ℝ → M2) (T : ℝ) : ℝ → List Pulse → M2
  | a, [] => free a T
  | a, p :: l => noisy free T p.offset l * pulseUnitary p.rabi p.azimuthal p.detuning * free a p.offset

theorem interleave_noisy (free : ℝ → ℝ → M2) (T a : ℝ) (ts ωs φs δs : List ℝ) :
    interleave free T a ts ωs φs δs =
      noisy free T a (List.zipWith (fun t r => ⟨t, r.1, r.2.1, r.2.2⟩) ts (ωs.zip (φs.zip δs))) := by
  induction ts generalizing a ωs φs δs with
  | nil => simp [interleave, noisy]
  | cons t ts ih =>
    cases ωs with
    | nil => simp [interleave, noisy]
    | cons ω ωs =>
      cases φs with
      | nil => simp [interleave, noisy]
      | cons φ φs =>
        cases δs with
        | nil => simp [interleave, noisy]
        | cons δ δs => simp only [interleave, ih, List.zip_cons_cons, List.zipWith_cons_cons, noisy]

theorem underNoise_noisy (free : ℝ → ℝ → M2) (s : Sequence ℝ) :
    underNoise free s = noisy free s.duration 0 (pulseList s) :=
  interleave_noisy free s.duration 0 _ _ _ _

theorem isSU2_noisy {free : ℝ → ℝ → M2} (hf : ∀ a b, IsSU2 (free a b)) (T a : ℝ) (l : List Pulse) :
    IsSU2 (noisy free T a l) := by
  induction l generalizing a with
  | nil => exact hf _ _
  | cons p l ih => exact ((ih _).mul (isSU2_pulse _ _ _)).mul (hf _ _)

theorem triple_dist {A A' B B' C C' : M2} (hA' : ‖A'‖ ≤ 1) (hB : ‖B‖ ≤ 1) (hB' : ‖B'‖ ≤ 1) (hC : ‖C‖ ≤ 1) :
    ‖A' * B' * C' - A * B * C‖ ≤ ‖A' - A‖ + ‖B' - B‖ + ‖C' - C‖ := by
  have e : A' * B' * C' - A * B * C = A' * B' * (C' - C) + A' * ((B' - B) * C) + (A' - A) * (B * C) := by noncomm_ring
  rw [e]
  have h1 : ‖A' * B' * (C' - C)‖ ≤ ‖C' - C‖ :=
    (norm_mul_le _ _).trans (mul_le_of_le_one_left (norm_nonneg _)
      ((norm_mul_le _ _).trans (mul_le_one₀ hA' (norm_nonneg _) hB')))
  have h2 : ‖A' * ((B' - B) * C)‖ ≤ ‖B' - B‖ :=
    (norm_mul_le _ _).trans ((mul_le_of_le_one_left (norm_nonneg _) hA').trans
      ((norm_mul_le _ _).trans (mul_le_of_le_one_right (norm_nonneg _) hC)))
  have h3 : ‖(A' - A) * (B * C)‖ ≤ ‖A' - A‖ :=
    (norm_mul_le _ _).trans (mul_le_of_le_one_right (norm_nonneg _)
      ((norm_mul_le _ _).trans (mul_le_one₀ hB (norm_nonneg _) hC)))
  refine (norm_add_le _ _).trans ?_
  have := norm_add_le (A' * B' * (C' - C)) (A' * ((B' - B) * C))
  linarith

/-- `p'` is close to `p` -/
def ClosePulse (ε δ T : ℝ) (p' p : Pulse) : Prop :=
  ‖pulseUnitary p'.rabi p'.azimuthal p'.detuning - pulseUnitary p.rabi p.azimuthal p.detuning‖ ≤ ε ∧
    |p'.offset - p.offset| ≤ δ ∧ p'.offset ∈ Set.Icc 0 T ∧ p.offset ∈ Set.Icc 0 T

theorem noisy_dist {free : ℝ → ℝ → M2} {T Λ ε δ : ℝ} (hT : 0 ≤ T) (hΛ : 0 ≤ Λ) (hf : ∀ a b, IsSU2 (free a b))
    (hlip : ∀ a ∈ Set.Icc 0 T, ∀ b ∈ Set.Icc 0 T, ∀ a' ∈ Set.Icc 0 T, ∀ b' ∈ Set.Icc 0 T,
      ‖free a b - free a' b'‖ ≤ Λ * (|a - a'| + |b - b'|))
    {l' l : List Pulse} (h : List.Forall₂ (ClosePulse ε δ T) l' l) {a' a : ℝ} (ha' : a' ∈ Set.Icc 0 T)
    (ha : a ∈ Set.Icc 0 T) :
    ‖noisy free T a' l' - noisy free T a l‖ ≤ Λ * |a' - a| + l.length * (ε + 2 * Λ * δ) := by
  have hTT : T ∈ Set.Icc 0 T := ⟨hT, le_rfl⟩
  induction h generalizing a' a with
  | nil =>
    have := hlip a' ha' T hTT a ha T hTT
    simpa [noisy] using this
  | @cons p' p l' l hp _ ih =>
    obtain ⟨h1, h2, h3, h4⟩ := hp
    have i1 := ih h3 h4
    have i2 := hlip a' ha' p'.offset h3 a ha p.offset h4
    simp only [noisy]
    refine (triple_dist (isSU2_noisy hf _ _ _).norm (isSU2_pulse _ _ _).norm (isSU2_pulse _ _ _).norm
      (hf _ _).norm).trans ?_
    have k1 := mul_le_mul_of_nonneg_left h2 hΛ
    rw [List.length_cons]
    push_cast
    rw [mul_add] at i2
    linarith

/-! ## Dephasing -/

theorem dephasing_dist {β : ℝ → ℝ} (hβ : Continuous β) {T M : ℝ} (hM : ∀ t ∈ Set.Icc 0 T, |β t| ≤ M) {a b a' b' : ℝ}
    (ha : a ∈ Set.Icc 0 T) (hb : b ∈ Set.Icc 0 T) (ha' : a' ∈ Set.Icc 0 T) (hb' : b' ∈ Set.Icc 0 T) :
    ‖dephasing β a b - dephasing β a' b'‖ ≤ M / 2 * (|a - a'| + |b - b'|) := by
  have hint : ∀ x y, IntervalIntegrable β MeasureTheory.volume x y := fun x y => hβ.intervalIntegrable x y
  have bound : ∀ x ∈ Set.Icc 0 T, ∀ y ∈ Set.Icc 0 T, |∫ t in x..y, β t| ≤ M * |x - y| := by
    intro x hx y hy
    have := intervalIntegral.norm_integral_le_of_norm_le_const (a := x) (b := y) (f := β) (C := M) fun t ht => by
      rw [Real.norm_eq_abs]
      refine hM t ?_
      rcases Set.mem_uIoc.mp ht with h | h
      · exact ⟨by linarith [hx.1, h.1], by linarith [hy.2, h.2]⟩
      · exact ⟨by linarith [hy.1, h.1], by linarith [hx.2, h.2]⟩
    rw [Real.norm_eq_abs] at this
    rwa [abs_sub_comm x y]
  have e : (∫ t in a..b, β t) - ∫ t in a'..b', β t = (∫ t in a..a', β t) + ∫ t in b'..b, β t := by
    rw [← intervalIntegral.integral_add_adjacent_intervals (hint a a') (hint a' b),
      ← intervalIntegral.integral_add_adjacent_intervals (hint a' b') (hint b' b)]
    ring
  have h1 := bound a ha a' ha'
  have h2 := bound b' hb' b hb
  rw [abs_sub_comm b' b] at h2
  rw [dephasing_eq, dephasing_eq, su2_sub]
  have hM0 : 0 ≤ M := (abs_nonneg _).trans (hM a ha)
  refine le_of_sq_le_sq ?_ (by positivity)
  rw [su2_norm_sq]
  have hc := chord ((∫ t in a..b, β t) / 2) ((∫ t in a'..b', β t) / 2)
  have h3 : |(∫ t in a..b, β t) / 2 - (∫ t in a'..b', β t) / 2| ≤ M / 2 * (|a - a'| + |b - b'|) := by
    rw [← sub_div, e, abs_div, abs_of_pos (two_pos : (0 : ℝ) < 2)]
    have := abs_add_le (∫ t in a..a', β t) (∫ t in b'..b, β t)
    linarith
  have h4 : ((∫ t in a..b, β t) / 2 - (∫ t in a'..b', β t) / 2) ^ 2 ≤ (M / 2 * (|a - a'| + |b - b'|)) ^ 2 :=
    sq_le_sq' (by linarith [neg_abs_le ((∫ t in a..b, β t) / 2 - (∫ t in a'..b', β t) / 2)]) ((le_abs_self _).trans h3)
  simp only [sub_self, ne_eq, OfNat.ofNat_ne_zero, not_false_eq_true, zero_pow, add_zero]
  linarith

end OpenControls
