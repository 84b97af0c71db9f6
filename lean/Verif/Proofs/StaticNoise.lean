import Verif.Proofs.SlowNoise
import Verif.Proofs.ResidualError
import Verif.Proofs.NoiseFamilies

/-!
# Static noise: distances with explicit constants
-/

namespace OpenControls

open Spec RealInst
open scoped Matrix.Norms.L2Operator

/-- the strength of static noise -/
noncomputable def strength (x y z : ℝ) : ℝ := Real.sqrt (x ^ 2 + y ^ 2 + z ^ 2)

theorem strength_nonneg (x y z : ℝ) : 0 ≤ strength x y z := Real.sqrt_nonneg _

theorem strength_sq (x y z : ℝ) : strength x y z ^ 2 = x ^ 2 + y ^ 2 + z ^ 2 := Real.sq_sqrt (by positivity)

/-- static noise as a rotation about a fixed axis -/
theorem static_rotation (x y z : ℝ) : ∃ p q s : ℝ, p ^ 2 + q ^ 2 + s ^ 2 = 1 ∧
    x = strength x y z * p ∧ y = strength x y z * q ∧ z = strength x y z * s ∧
    ∀ a b, staticNoise x y z a b =
      su2 (Real.cos ((b - a) * strength x y z / 2)) (Real.sin ((b - a) * strength x y z / 2) * p)
        (Real.sin ((b - a) * strength x y z / 2) * q) (Real.sin ((b - a) * strength x y z / 2) * s) := by
  have hw := strength_sq x y z
  by_cases h : strength x y z = 0
  · rw [h] at hw ⊢
    have hx : x = 0 := by nlinarith [sq_nonneg x, sq_nonneg y, sq_nonneg z]
    have hy : y = 0 := by nlinarith [sq_nonneg x, sq_nonneg y, sq_nonneg z]
    have hz : z = 0 := by nlinarith [sq_nonneg x, sq_nonneg y, sq_nonneg z]
    subst hx hy hz
    refine ⟨1, 0, 0, by norm_num, by simp, by simp, by simp, fun a b => ?_⟩
    rw [staticNoise_zero, ← su2_one]
    simp
  · refine ⟨x / strength x y z, y / strength x y z, z / strength x y z, ?_, ?_, ?_, ?_, fun a b => ?_⟩
    · rw [div_pow, div_pow, div_pow, ← add_div, ← add_div, ← hw, div_self (pow_ne_zero _ h)]
    · field_simp
    · field_simp
    · field_simp
    · have := staticNoise_eq x y z (strength x y z) a b hw h 1
      simpa using this

theorem static_norm (x y z a b : ℝ) : ‖staticNoise x y z a b‖ ≤ 1 := by
  obtain ⟨p, q, s, h, -, -, -, he⟩ := static_rotation x y z
  rw [he]
  refine le_of_sq_le_sq ?_ zero_le_one
  rw [su2_norm_sq]
  have := Real.cos_sq_add_sin_sq ((b - a) * strength x y z / 2)
  refine le_of_eq ?_
  linear_combination this + Real.sin ((b - a) * strength x y z / 2) ^ 2 * h

theorem static_dist (x y z a b a' b' : ℝ) :
    ‖staticNoise x y z a b - staticNoise x y z a' b'‖ ≤ strength x y z / 2 * |b - a - (b' - a')| := by
  obtain ⟨p, q, s, h, -, -, -, he⟩ := static_rotation x y z
  have hw := strength_nonneg x y z
  rw [he, he, su2_sub]
  refine le_of_sq_le_sq ?_ (by positivity)
  rw [su2_norm_sq, mul_pow, sq_abs]
  have hc := chord ((b - a) * strength x y z / 2) ((b' - a') * strength x y z / 2)
  set θ := (b - a) * strength x y z / 2
  set θ' := (b' - a') * strength x y z / 2
  have e1 : (Real.sin θ * p - Real.sin θ' * p) ^ 2 + (Real.sin θ * q - Real.sin θ' * q) ^ 2 +
      (Real.sin θ * s - Real.sin θ' * s) ^ 2 = (Real.sin θ - Real.sin θ') ^ 2 := by
    linear_combination (Real.sin θ - Real.sin θ') ^ 2 * h
  have e2 : (θ - θ') ^ 2 = (strength x y z / 2) ^ 2 * (b - a - (b' - a')) ^ 2 := by
    simp only [θ, θ']; ring
  linarith

/-- `|e^{iθ} - 1 - iθ| ≤ θ²/2` -/
theorem chord_second (θ : ℝ) : (Real.cos θ - 1) ^ 2 + (Real.sin θ - θ) ^ 2 ≤ (θ ^ 2 / 2) ^ 2 := by
  have key : ∀ x, 0 ≤ x → (Real.cos x - 1) ^ 2 + (Real.sin x - x) ^ 2 ≤ (x ^ 2 / 2) ^ 2 := by
    intro x hx
    have hd : ∀ t, HasDerivAt (fun t => (t ^ 2 / 2) ^ 2 - (Real.cos t - 1) ^ 2 - (Real.sin t - t) ^ 2)
        (t ^ 3 - 2 * t * (1 - Real.cos t)) t := by
      intro t
      have h1 := ((hasDerivAt_pow 2 t).div_const 2).pow 2
      have h2 := ((Real.hasDerivAt_cos t).sub_const 1).pow 2
      have h3 := ((Real.hasDerivAt_sin t).sub (hasDerivAt_id t)).pow 2
      refine ((h1.sub h2).sub h3).congr_deriv ?_
      simp only [id, Pi.sub_apply]
      push_cast
      have := Real.cos_sq_add_sin_sq t
      ring
    have hm : MonotoneOn (fun t => (t ^ 2 / 2) ^ 2 - (Real.cos t - 1) ^ 2 - (Real.sin t - t) ^ 2) (Set.Ici 0) := by
      refine monotoneOn_of_deriv_nonneg (convex_Ici 0) (fun t _ => (hd t).continuousAt.continuousWithinAt)
        (fun t _ => (hd t).differentiableAt.differentiableWithinAt) fun t ht => ?_
      rw [interior_Ici] at ht
      rw [(hd t).deriv]
      have h := Real.one_sub_sq_div_two_le_cos (x := t)
      have ht0 : 0 < t := ht
      nlinarith
    have := hm (Set.mem_Ici.mpr le_rfl) (Set.mem_Ici.mpr hx) hx
    simp at this
    linarith
  rcases le_total 0 θ with h | h
  · exact key θ h
  · have := key (-θ) (by linarith)
    rw [Real.cos_neg, Real.sin_neg, neg_sq] at this
    nlinarith

theorem su2_one_add (b c d : ℝ) : (1 : M2) + su2 0 b c d = su2 1 b c d := by
  rw [← su2_one, su2_add]; simp

theorem static_second (x y z a b : ℝ) :
    ‖staticNoise x y z a b - (1 + su2 0 (x / 2 * (b - a)) (y / 2 * (b - a)) (z / 2 * (b - a)))‖ ≤
      ((b - a) * strength x y z / 2) ^ 2 / 2 := by
  obtain ⟨p, q, s, h, hx, hy, hz, he⟩ := static_rotation x y z
  have hw := strength_nonneg x y z
  rw [he, su2_one_add, su2_sub]
  refine le_of_sq_le_sq ?_ (by positivity)
  rw [su2_norm_sq]
  have hc := chord_second ((b - a) * strength x y z / 2)
  set w := strength x y z
  rw [hx, hy, hz]
  set θ := (b - a) * w / 2 with hθ
  have e : ∀ v, w * v / 2 * (b - a) = θ * v := fun v => by rw [hθ]; ring
  rw [e, e, e]
  have e1 : (Real.sin θ * p - θ * p) ^ 2 + (Real.sin θ * q - θ * q) ^ 2 + (Real.sin θ * s - θ * s) ^ 2 =
      (Real.sin θ - θ) ^ 2 := by
    linear_combination (Real.sin θ - θ) ^ 2 * h
  linarith

theorem axisSum_le (c : Axis) (T a : ℝ) (table : List (ℝ × Axis)) (hs : (a :: table.map (·.1)).Pairwise (· ≤ ·))
    (ha : a ≤ T) (hT : ∀ p ∈ table, p.1 ≤ T) : |axisSum id c T a table| ≤ T - a := by
  induction table generalizing a with
  | nil => simp only [axisSum, id]; rw [abs_of_nonneg (by linarith)]
  | cons p r ih =>
    simp only [List.map_cons] at hs
    have h1 := ih p.1 (List.pairwise_cons.mp hs).2 (hT p (by simp)) fun q hq => hT q (by simp [hq])
    have h2 : a ≤ p.1 := (List.pairwise_cons.mp hs).1 p.1 (by simp)
    simp only [axisSum, id]
    have h3 : |axisSign c p.2 * axisSum id c T p.1 r| = |axisSum id c T p.1 r| := by
      rw [abs_mul]; unfold axisSign; split <;> simp
    refine (abs_add_le _ _).trans ?_
    rw [h3, abs_of_nonneg (by linarith)]
    linarith

theorem axisPulse_norm (c : Axis) : ‖axisPulse c‖ ≤ 1 := by
  rw [← pulseUnitary_axis]; exact pulse_norm _ _ _

theorem frame_norm {x y z d u v w : ℝ} (hd : 0 ≤ d) (hu : |u| ≤ d) (hv : |v| ≤ d) (hw : |w| ≤ d) :
    ‖su2 0 (x / 2 * u) (y / 2 * v) (z / 2 * w)‖ ≤ d * strength x y z / 2 := by
  have h0 := strength_nonneg x y z
  refine le_of_sq_le_sq ?_ (by positivity)
  rw [su2_norm_sq]
  have e : (d * strength x y z / 2) ^ 2 = d ^ 2 / 4 * (x ^ 2 + y ^ 2 + z ^ 2) := by
    rw [← strength_sq]; ring
  rw [e]
  have k : ∀ t : ℝ, |t| ≤ d → t ^ 2 ≤ d ^ 2 := fun t ht => sq_le_sq' (by linarith [neg_abs_le t]) ((le_abs_self t).trans ht)
  nlinarith [mul_le_mul_of_nonneg_left (k u hu) (sq_nonneg x), mul_le_mul_of_nonneg_left (k v hv) (sq_nonneg y),
    mul_le_mul_of_nonneg_left (k w hw) (sq_nonneg z)]

/-- to first order, the noise is a sum of the noises between the pulses as seen before all pulses; the rest is of second
order -/
theorem tableNoise_second (x y z T a : ℝ) (table : List (ℝ × Axis))
    (hs : (a :: table.map (·.1)).Pairwise (· ≤ ·)) (ha : a ≤ T) (hT : ∀ p ∈ table, p.1 ≤ T) :
    ‖tableNoise (staticNoise x y z) T a table - tableProduct table * (1 + su2 0 (x / 2 * axisSum id .x T a table)
      (y / 2 * axisSum id .y T a table) (z / 2 * axisSum id .z T a table))‖ ≤ ((T - a) * strength x y z / 2) ^ 2 / 2 := by
  have h0 := strength_nonneg x y z
  induction table generalizing a with
  | nil =>
    simp only [tableNoise, tableProduct, axisSum, one_mul, id]
    exact static_second x y z a T
  | cons p r ih =>
    have hs' := (List.pairwise_cons.mp hs).2
    have hap : a ≤ p.1 := (List.pairwise_cons.mp hs).1 p.1 (by simp)
    have hpT : p.1 ≤ T := hT p (by simp)
    have hr : ∀ q ∈ r, q.1 ≤ T := fun q hq => hT q (by simp [hq])
    have i1 := ih p.1 hs' hpT hr
    have i2 := static_second x y z a p.1
    have i3 := static_dist x y z a p.1 a a
    rw [staticNoise_refl, sub_self, sub_zero, abs_of_nonneg (by linarith)] at i3
    have i4 := static_norm x y z a p.1
    have bound := fun c => axisSum_le c T p.1 r hs' hpT hr
    have absS : ∀ c, |axisSign c p.2 * axisSum id c T p.1 r| ≤ T - p.1 := by
      intro c
      have : |axisSign c p.2 * axisSum id c T p.1 r| = |axisSum id c T p.1 r| := by
        rw [abs_mul]; unfold axisSign; split <;> simp
      rw [this]; exact bound c
    have i5 := frame_norm (x := x) (y := y) (z := z) (d := T - p.1) (by linarith) (absS .x) (absS .y) (absS .z)
    set F := staticNoise x y z a p.1 with hF
    set N := tableNoise (staticNoise x y z) T p.1 r with hN
    set Q := tableProduct r with hQ
    set P := axisPulse p.2 with hP
    set S := su2 0 (x / 2 * axisSum id .x T p.1 r) (y / 2 * axisSum id .y T p.1 r) (z / 2 * axisSum id .z T p.1 r) with hS
    set S' := su2 0 (x / 2 * (axisSign .x p.2 * axisSum id .x T p.1 r)) (y / 2 * (axisSign .y p.2 * axisSum id .y T p.1 r))
      (z / 2 * (axisSign .z p.2 * axisSum id .z T p.1 r)) with hS'
    set G := su2 0 (x / 2 * (p.1 - a)) (y / 2 * (p.1 - a)) (z / 2 * (p.1 - a)) with hG
    have hSP : S * P = P * S' := by
      rw [hS, hP, su2_axisPulse, hS']
      congr 2 <;> ring
    have hsum : su2 0 (x / 2 * axisSum id .x T a (p :: r)) (y / 2 * axisSum id .y T a (p :: r))
        (z / 2 * axisSum id .z T a (p :: r)) = G + S' := by
      rw [hG, hS', su2_add]
      simp only [axisSum, id]
      congr 1 <;> ring
    rw [hsum]
    have e : tableNoise (staticNoise x y z) T a (p :: r) - tableProduct (p :: r) * (1 + (G + S')) =
        (N - Q * (1 + S)) * (P * F) + Q * P * ((F - (1 + G)) + S' * (F - 1)) := by
      simp only [tableNoise, tableProduct, ← hF, ← hN, ← hQ, ← hP]
      have : Q * (1 + S) * (P * F) = Q * P * F + Q * P * S' * F := by
        calc Q * (1 + S) * (P * F) = Q * (P * F) + Q * (S * P) * F := by noncomm_ring
          _ = _ := by rw [hSP]; noncomm_ring
      rw [sub_mul, this]
      noncomm_ring
    rw [e]
    have hQ1 : ‖Q‖ ≤ 1 := tableProduct_norm r
    have hP1 : ‖P‖ ≤ 1 := axisPulse_norm _
    have hPF : ‖P * F‖ ≤ 1 := (norm_mul_le _ _).trans (mul_le_one₀ hP1 (norm_nonneg _) i4)
    have hQP : ‖Q * P‖ ≤ 1 := (norm_mul_le _ _).trans (mul_le_one₀ hQ1 (norm_nonneg _) hP1)
    have t1 : ‖(N - Q * (1 + S)) * (P * F)‖ ≤ ((T - p.1) * strength x y z / 2) ^ 2 / 2 :=
      (norm_mul_le _ _).trans ((mul_le_of_le_one_right (norm_nonneg _) hPF).trans i1)
    have t2 : ‖S' * (F - 1)‖ ≤ (T - p.1) * strength x y z / 2 * (strength x y z / 2 * (p.1 - a)) :=
      (norm_mul_le _ _).trans (mul_le_mul i5 i3 (norm_nonneg _) (by
        have : 0 ≤ T - p.1 := by linarith
        positivity))
    have t3 : ‖Q * P * ((F - (1 + G)) + S' * (F - 1))‖ ≤ ((p.1 - a) * strength x y z / 2) ^ 2 / 2 +
        (T - p.1) * strength x y z / 2 * (strength x y z / 2 * (p.1 - a)) := by
      refine (norm_mul_le _ _).trans ((mul_le_of_le_one_left (norm_nonneg _) hQP).trans ?_)
      exact (norm_add_le _ _).trans (add_le_add i2 t2)
    refine (norm_add_le _ _).trans ((add_le_add t1 t3).trans (le_of_eq ?_))
    ring

end OpenControls
