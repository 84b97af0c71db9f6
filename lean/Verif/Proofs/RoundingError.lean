import Verif.Rounding
import Mathlib.Analysis.SpecialFunctions.Log.Basic
import Mathlib.Analysis.SpecialFunctions.Trigonometric.Bounds
import Mathlib.Analysis.Convex.SpecificFunctions.Deriv
import Mathlib.Analysis.Real.Pi.Bounds

/-!
# Propagation of relative errors in rounded arithmetic
-/

namespace OpenControls

variable {r : Rounding}

/-- size of one rounding on the logarithmic scale -/
noncomputable def Rounding.w (r : Rounding) : ℝ := -Real.log (1 - r.u)

theorem Rounding.u_lt_one (r : Rounding) : r.u < 1 := by
  have := r.u_le; norm_num at this; linarith

theorem Rounding.w_nonneg (r : Rounding) : 0 ≤ r.w := by
  have h := r.u_nonneg
  have h1 := r.u_lt_one
  have := Real.log_nonpos (x := 1 - r.u) (by linarith) (by linarith)
  unfold w; linarith

theorem Rounding.exp_neg_w (r : Rounding) : Real.exp (-r.w) = 1 - r.u := by
  unfold w
  rw [neg_neg, Real.exp_log]
  have := r.u_lt_one; linarith

theorem Rounding.w_le (r : Rounding) : r.w ≤ 101 / 100 * r.u := by
  have h := r.u_nonneg
  have h1 : r.u ≤ 1 / 1000 := r.u_le.trans (by norm_num)
  have h2 := Real.one_sub_inv_le_log_of_pos (x := 1 - r.u) (by linarith)
  have h3 : (1 - r.u)⁻¹ ≤ 1 + 101 / 100 * r.u := by
    rw [inv_le_comm₀ (by linarith) (by linarith), inv_le_iff_one_le_mul₀ (by linarith)]
    nlinarith
  unfold w; linarith

theorem Rounding.u_le_w (r : Rounding) : r.u ≤ r.w := by
  have h := Real.log_le_sub_one_of_pos (x := 1 - r.u) (by have := r.u_lt_one; linarith)
  unfold w; linarith

/-- `a` is `x` up to a relative error of `k` roundings -/
def Rel (r : Rounding) (k a x : ℝ) : Prop := ∃ e, |e| ≤ k * r.w ∧ a = x * Real.exp e

namespace Rel

theorem refl (x : ℝ) : Rel r 0 x x := ⟨0, by simp, by simp⟩

theorem mono {k k' a x : ℝ} (h : Rel r k a x) (hk : k ≤ k') : Rel r k' a x := by
  obtain ⟨e, he, rfl⟩ := h
  exact ⟨e, he.trans (mul_le_mul_of_nonneg_right hk r.w_nonneg), rfl⟩

theorem mul {k l a b x y : ℝ} (h : Rel r k a x) (h' : Rel r l b y) : Rel r (k + l) (a * b) (x * y) := by
  obtain ⟨e, he, rfl⟩ := h
  obtain ⟨f, hf, rfl⟩ := h'
  refine ⟨e + f, ?_, by rw [Real.exp_add]; ring⟩
  have := abs_add_le e f
  linarith

theorem inv {k a x : ℝ} (h : Rel r k a x) : Rel r k a⁻¹ x⁻¹ := by
  obtain ⟨e, he, rfl⟩ := h
  exact ⟨-e, by rwa [abs_neg], by rw [Real.exp_neg, mul_inv]⟩

theorem div {k l a b x y : ℝ} (h : Rel r k a x) (h' : Rel r l b y) : Rel r (k + l) (a / b) (x / y) := by
  rw [div_eq_mul_inv, div_eq_mul_inv]
  exact h.mul h'.inv

theorem trans {k l a b c : ℝ} (h : Rel r k a b) (h' : Rel r l b c) : Rel r (k + l) a c := by
  obtain ⟨e, he, rfl⟩ := h
  obtain ⟨f, hf, rfl⟩ := h'
  refine ⟨e + f, ?_, by rw [Real.exp_add]; ring⟩
  have := abs_add_le e f
  linarith

theorem of_close {v k a x : ℝ} (hv0 : 0 ≤ v) (hv : v < 1) (hk : Real.exp (-(k * r.w)) ≤ 1 - v)
    (h : |a - x| ≤ v * |x|) : Rel r k a x := by
  have hkw : 0 ≤ k * r.w := by
    have : Real.exp (-(k * r.w)) ≤ 1 := by linarith
    rw [Real.exp_le_one_iff] at this; linarith
  by_cases hx : x = 0
  · subst hx
    simp at h
    subst h
    exact ⟨0, by simpa using hkw, by simp⟩
  · have hq : |a / x - 1| ≤ v := by
      rw [div_sub_one hx, abs_div, div_le_iff₀ (abs_pos.mpr hx)]
      exact h
    obtain ⟨h1, h2⟩ := abs_le.mp hq
    have hpos : 0 < a / x := by linarith
    refine ⟨Real.log (a / x), ?_, by rw [Real.exp_log hpos]; field_simp⟩
    rw [abs_le]
    constructor
    · rw [Real.le_log_iff_exp_le hpos]; linarith
    · rw [Real.log_le_iff_le_exp hpos]
      have h3 : Real.exp (k * r.w) * Real.exp (-(k * r.w)) = 1 := by
        rw [← Real.exp_add, add_neg_cancel, Real.exp_zero]
      have h4 := Real.exp_pos (k * r.w)
      have h5 : 1 ≤ Real.exp (k * r.w) * (1 - v) := by
        have := mul_le_mul_of_nonneg_left hk h4.le
        linarith
      nlinarith

theorem of_rnd (x : ℝ) : Rel r 1 (r.rnd x) x :=
  of_close r.u_nonneg r.u_lt_one (by rw [one_mul, r.exp_neg_w]) (r.close x)

theorem rnd {k a x : ℝ} (h : Rel r k a x) : Rel r (k + 1) (r.rnd a) x := by
  rw [add_comm]; exact (of_rnd a).trans h

theorem lib {exact : ℝ → ℝ} (f : LibraryFunction r.rnd r.u exact) (x : ℝ) :
    Rel r 3 (f.f x) (exact x) := by
  have h0 := r.u_nonneg
  have h1 : r.u ≤ 1 / 1000 := r.u_le.trans (by norm_num)
  refine of_close (v := 2 * r.u) (by linarith) (by linarith) ?_ (f.close x)
  rw [show -(3 * r.w) = -r.w + -r.w + -r.w by ring, Real.exp_add, Real.exp_add, r.exp_neg_w]
  nlinarith [mul_nonneg h0 h0, mul_nonneg h0 (mul_nonneg h0 h0)]

theorem zero_iff {k a x : ℝ} (h : Rel r k a x) : a = 0 ↔ x = 0 := by
  obtain ⟨e, -, rfl⟩ := h
  simp

theorem pos {k a x : ℝ} (h : Rel r k a x) (hx : 0 < x) : 0 < a := by
  obtain ⟨e, -, rfl⟩ := h
  positivity

theorem nonneg {k a x : ℝ} (h : Rel r k a x) (hx : 0 ≤ x) : 0 ≤ a := by
  obtain ⟨e, -, rfl⟩ := h
  positivity

theorem bounds {k a x : ℝ} (h : Rel r k a x) (hx : 0 ≤ x) :
    x * Real.exp (-(k * r.w)) ≤ a ∧ a ≤ x * Real.exp (k * r.w) := by
  obtain ⟨e, he, rfl⟩ := h
  obtain ⟨h1, h2⟩ := abs_le.mp he
  exact ⟨mul_le_mul_of_nonneg_left (Real.exp_le_exp.mpr h1) hx,
    mul_le_mul_of_nonneg_left (Real.exp_le_exp.mpr h2) hx⟩

theorem of_bounds {k a x : ℝ} (hx : 0 < x) (h1 : x * Real.exp (-(k * r.w)) ≤ a)
    (h2 : a ≤ x * Real.exp (k * r.w)) : Rel r k a x := by
  have ha : 0 < a := lt_of_lt_of_le (by positivity) h1
  refine ⟨Real.log (a / x), ?_, by rw [Real.exp_log (by positivity)]; field_simp⟩
  rw [abs_le]
  constructor
  · rw [Real.le_log_iff_exp_le (by positivity), le_div_iff₀ hx]; linarith
  · rw [Real.log_le_iff_le_exp (by positivity), div_le_iff₀ hx]; linarith

theorem add {k a b x y : ℝ} (h : Rel r k a x) (h' : Rel r k b y) (hx : 0 ≤ x) (hy : 0 ≤ y) :
    Rel r k (a + b) (x + y) := by
  rcases hx.eq_or_lt with rfl | hx'
  · have := h.zero_iff.mpr rfl
    subst this; simpa using h'
  · have h1 := h.bounds hx
    have h2 := h'.bounds hy
    apply of_bounds (by linarith)
    · rw [add_mul]; linarith
    · rw [add_mul]; linarith

/-- absolute error -/
theorem close {k a x : ℝ} (h : Rel r k a x) (hk : k * r.w ≤ 1) : |a - x| ≤ 2 * (k * r.w) * |x| := by
  obtain ⟨e, he, rfl⟩ := h
  have h1 : |Real.exp e - 1| ≤ 2 * |e| := Real.abs_exp_sub_one_le (he.trans hk)
  rw [show x * Real.exp e - x = (Real.exp e - 1) * x by ring, abs_mul]
  refine mul_le_mul_of_nonneg_right (h1.trans ?_) (abs_nonneg x)
  linarith

/-- `sin` on `(0, π/2]` does not increase relative errors. -/
theorem sin {k a x : ℝ} (h : Rel r k a x) (hx : 0 < x) (hx' : x ≤ Real.pi / 2)
    (ha' : a ≤ Real.pi / 2) : Rel r k (Real.sin a) (Real.sin x) := by
  have ha := h.pos hx
  have hpi := Real.pi_pos
  have hsx : 0 < Real.sin x := Real.sin_pos_of_pos_of_lt_pi hx (by linarith)
  have hsa : 0 < Real.sin a := Real.sin_pos_of_pos_of_lt_pi ha (by linarith)
  have hkw : 0 ≤ k * r.w := by
    obtain ⟨e, he, -⟩ := h
    exact (abs_nonneg e).trans he
  have hle1 : 1 ≤ Real.exp (k * r.w) := Real.one_le_exp hkw
  have hle2 : Real.exp (-(k * r.w)) ≤ 1 := Real.exp_le_one_iff.mpr (by linarith)
  obtain ⟨b1, b2⟩ := h.bounds hx.le
  -- `sin t / t` decreases
  have conc : ∀ s t : ℝ, 0 < s → s ≤ t → t ≤ Real.pi / 2 → s * Real.sin t ≤ t * Real.sin s := by
    intro s t hs hst ht
    rcases hst.eq_or_lt with rfl | hst'
    · exact le_rfl
    have ht0 : 0 < t := by linarith
    have m0 : (0 : ℝ) ∈ Set.Icc 0 Real.pi := ⟨le_rfl, hpi.le⟩
    have mt : t ∈ Set.Icc 0 Real.pi := ⟨ht0.le, by linarith⟩
    have c0 : 0 ≤ 1 - s / t := by rw [sub_nonneg, div_le_one ht0]; exact hst
    have c1 : 0 ≤ s / t := by positivity
    have := strictConcaveOn_sin_Icc.concaveOn.2 m0 mt c0 c1 (by ring)
    simp at this
    rw [div_mul_cancel₀ _ (by linarith : t ≠ 0), div_mul_eq_mul_div, div_le_iff₀ (by linarith)] at this
    linarith
  apply of_bounds hsx
  · rcases le_total a x with hax | hax
    · have := conc a x ha hax hx'
      have h3 : x * (Real.sin x * Real.exp (-(k * r.w))) ≤ x * Real.sin a := by nlinarith
      exact le_of_mul_le_mul_left h3 hx
    · have := Real.sin_le_sin_of_le_of_le_pi_div_two (by linarith) ha' hax
      nlinarith
  · rcases le_total a x with hax | hax
    · have := Real.sin_le_sin_of_le_of_le_pi_div_two (by linarith) hx' hax
      nlinarith
    · have := conc x a hx hax ha'
      have h3 : x * Real.sin a ≤ x * (Real.sin x * Real.exp (k * r.w)) := by nlinarith
      exact le_of_mul_le_mul_left h3 hx

end Rel

end OpenControls
