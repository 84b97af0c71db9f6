import Mathlib.Analysis.Asymptotics.Lemmas
import Mathlib.Analysis.SpecialFunctions.Trigonometric.Bounds

/-!
# Expansions up to the third order at 0
-/

namespace OpenControls

open Filter Asymptotics Topology

/-- `f e = a + b e + c e² + d e³ + O(e⁴)` -/
def Jet (f : ℝ → ℝ) (a b c d : ℝ) : Prop :=
  (fun e => f e - (a + b * e + c * e ^ 2 + d * e ^ 3)) =O[𝓝 0] fun e : ℝ => e ^ 4

namespace Jet

theorem congr {f : ℝ → ℝ} {a b c d a' b' c' d' : ℝ} (h : Jet f a b c d) (ha : a = a') (hb : b = b')
    (hc : c = c') (hd : d = d') : Jet f a' b' c' d' := by
  subst ha hb hc hd; exact h

theorem const (k : ℝ) : Jet (fun _ => k) k 0 0 0 := by
  unfold Jet
  have : (fun e : ℝ => k - (k + 0 * e + 0 * e ^ 2 + 0 * e ^ 3)) = fun _ => 0 := by
    funext e; ring
  rw [this]
  exact isBigO_zero _ _

theorem add {f g : ℝ → ℝ} {a b c d a' b' c' d' : ℝ} (h : Jet f a b c d) (h' : Jet g a' b' c' d') :
    Jet (fun e => f e + g e) (a + a') (b + b') (c + c') (d + d') := by
  unfold Jet at *
  refine (h.add h').congr_left fun e => ?_
  ring

theorem neg {f : ℝ → ℝ} {a b c d : ℝ} (h : Jet f a b c d) :
    Jet (fun e => -f e) (-a) (-b) (-c) (-d) := by
  unfold Jet at *
  refine h.neg_left.congr_left fun e => ?_
  ring

theorem sub {f g : ℝ → ℝ} {a b c d a' b' c' d' : ℝ} (h : Jet f a b c d) (h' : Jet g a' b' c' d') :
    Jet (fun e => f e - g e) (a - a') (b - b') (c - c') (d - d') := by
  unfold Jet at *
  refine (h.sub h').congr_left fun e => ?_
  ring

theorem poly_bounded {f : ℝ → ℝ} (hf : Continuous f) : f =O[𝓝 0] fun _ => (1 : ℝ) :=
  (hf.tendsto 0).isBigO_one ℝ

theorem bounded {f : ℝ → ℝ} {a b c d : ℝ} (h : Jet f a b c d) : f =O[𝓝 0] fun _ => (1 : ℝ) := by
  unfold Jet at h
  have h1 : (fun e : ℝ => e ^ 4) =O[𝓝 0] fun _ => (1 : ℝ) := poly_bounded (by fun_prop)
  have h2 : (fun e : ℝ => a + b * e + c * e ^ 2 + d * e ^ 3) =O[𝓝 0] fun _ => (1 : ℝ) :=
    poly_bounded (by fun_prop)
  refine ((h.trans h1).add h2).congr_left fun e => ?_
  ring

theorem mul {f g : ℝ → ℝ} {a b c d a' b' c' d' : ℝ} (h : Jet f a b c d) (h' : Jet g a' b' c' d') :
    Jet (fun e => f e * g e) (a * a') (a * b' + b * a') (a * c' + b * b' + c * a')
      (a * d' + b * c' + c * b' + d * a') := by
  have hf := h.bounded
  unfold Jet at *
  have h1 := hf.mul h'
  have h2 : (fun e : ℝ => a' + b' * e + c' * e ^ 2 + d' * e ^ 3) =O[𝓝 0] fun _ => (1 : ℝ) :=
    poly_bounded (by fun_prop)
  have h3 := h.mul h2
  have h4 : (fun e : ℝ => (b * d' + c * c' + d * b') + (c * d' + d * c') * e + d * d' * e ^ 2) =O[𝓝 0]
      fun _ => (1 : ℝ) := poly_bounded (by fun_prop)
  have h5 := (isBigO_refl (fun e : ℝ => e ^ 4) (𝓝 0)).mul h4
  simp only [one_mul, mul_one] at h1 h3 h5
  refine ((h1.add h3).add h5).congr_left fun e => ?_
  ring

theorem cos (k : ℝ) : Jet (fun e => Real.cos (k * e)) 1 0 (-k ^ 2 / 2) 0 := by
  unfold Jet
  refine IsBigO.of_bound (k ^ 4) ?_
  have : ∀ᶠ e : ℝ in 𝓝 0, |k * e| ≤ 1 := by
    have hc : Continuous fun e : ℝ => |k * e| := by fun_prop
    have := (hc.tendsto 0).eventually (Iic_mem_nhds (by simp : |k * 0| < (1 : ℝ)))
    exact this
  filter_upwards [this] with e he
  have hb := Real.cos_bound he
  rw [Real.norm_eq_abs, Real.norm_eq_abs,
    show Real.cos (k * e) - (1 + 0 * e + -k ^ 2 / 2 * e ^ 2 + 0 * e ^ 3) =
      Real.cos (k * e) - (1 - (k * e) ^ 2 / 2) by ring]
  refine hb.trans ?_
  rw [abs_mul, mul_pow, abs_pow, show |k| ^ 4 = k ^ 4 by rw [← abs_pow, abs_of_nonneg (by positivity)]]
  have : 0 ≤ k ^ 4 * |e| ^ 4 := by positivity
  linarith

theorem sin (k : ℝ) : Jet (fun e => Real.sin (k * e)) 0 k 0 (-k ^ 3 / 6) := by
  unfold Jet
  refine IsBigO.of_bound (k ^ 4) ?_
  have : ∀ᶠ e : ℝ in 𝓝 0, |k * e| ≤ 1 := by
    have hc : Continuous fun e : ℝ => |k * e| := by fun_prop
    have := (hc.tendsto 0).eventually (Iic_mem_nhds (by simp : |k * 0| < (1 : ℝ)))
    exact this
  filter_upwards [this] with e he
  have hb := Real.sin_bound he
  rw [Real.norm_eq_abs, Real.norm_eq_abs,
    show Real.sin (k * e) - (0 + k * e + 0 * e ^ 2 + -k ^ 3 / 6 * e ^ 3) =
      Real.sin (k * e) - (k * e - (k * e) ^ 3 / 6) by ring]
  have h5 := pow_le_pow_of_le_one (abs_nonneg (k * e)) he (show 4 ≤ 5 by norm_num)
  have h0 : 0 ≤ |k * e| ^ 5 := by positivity
  have h4 : |k * e| ^ 4 = k ^ 4 * |e ^ 4| := by
    rw [abs_mul, mul_pow, abs_pow, show |k| ^ 4 = k ^ 4 by
      rw [← abs_pow, abs_of_nonneg (by positivity)]]
  rw [← h4]
  linarith

/-- the leading coefficient is the limit of the quotient, third order -/
theorem tendsto_three {f : ℝ → ℝ} {d : ℝ} (h : Jet f 0 0 0 d) :
    Tendsto (fun e => f e / e ^ 3) (𝓝[≠] 0) (𝓝 d) := by
  unfold Jet at h
  have h0 : (fun e : ℝ => e ^ 4) =o[𝓝 0] fun e : ℝ => e ^ 3 := isLittleO_pow_pow (by norm_num)
  have h1 := (h.trans_isLittleO h0).mono (nhdsWithin_le_nhds (s := {0}ᶜ))
  have h2 := h1.tendsto_div_nhds_zero
  have h3 := h2.add_const d
  rw [zero_add] at h3
  refine h3.congr' ?_
  filter_upwards [self_mem_nhdsWithin] with e he
  have : e ≠ 0 := he
  field_simp
  ring

/-- the leading coefficient is the limit of the quotient, second order -/
theorem tendsto_two {f : ℝ → ℝ} {c d : ℝ} (h : Jet f 0 0 c d) :
    Tendsto (fun e => f e / e ^ 2) (𝓝[≠] 0) (𝓝 c) := by
  unfold Jet at h
  have h0 : (fun e : ℝ => e ^ 4) =o[𝓝 0] fun e : ℝ => e ^ 2 := isLittleO_pow_pow (by norm_num)
  have h1 := (h.trans_isLittleO h0).mono (nhdsWithin_le_nhds (s := {0}ᶜ))
  have h2 := h1.tendsto_div_nhds_zero
  have hd : Tendsto (fun e : ℝ => c + d * e) (𝓝[≠] 0) (𝓝 c) := by
    have hc : Continuous fun e : ℝ => c + d * e := by fun_prop
    have := (hc.tendsto 0).mono_left (nhdsWithin_le_nhds (s := {0}ᶜ))
    simpa using this
  have h3 := h2.add hd
  rw [zero_add] at h3
  refine h3.congr' ?_
  filter_upwards [self_mem_nhdsWithin] with e he
  have : e ≠ 0 := he
  field_simp
  ring

end Jet

end OpenControls
