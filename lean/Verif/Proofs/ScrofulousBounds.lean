import Verif.Proofs.Scrofulous

/-!
# Numerical bounds for the tabulated SCROFULOUS angles
-/

namespace OpenControls

open Spec RealInst

/-- the facts about the tabulated angles needed for the SCROFULOUS pulse -/
structure ScrofulousFacts (θ₁ θ : ℝ) : Prop where
  b1 : |-Real.pi * Real.cos θ₁ / (2 * θ₁ * Real.sin (θ / 2))| ≤ 3 / 5
  b2 : |-Real.pi / (2 * θ₁)| ≤ 47 / 50
  bs : 19 / 50 ≤ Real.sin (θ / 2)
  dist : ∀ φ i j, ‖(tableEvolution (scrofulousTable θ₁ θ φ) - rotation θ φ) i j‖ ≤ 3 / 1000

theorem ScrofulousFacts.h1 {θ₁ θ : ℝ} (f : ScrofulousFacts θ₁ θ) :
    |-Real.pi * Real.cos θ₁ / (2 * θ₁ * Real.sin (θ / 2))| ≤ 1 := f.b1.trans (by norm_num)

theorem ScrofulousFacts.h2 {θ₁ θ : ℝ} (f : ScrofulousFacts θ₁ θ) : |-Real.pi / (2 * θ₁)| ≤ 1 :=
  f.b2.trans (by norm_num)

theorem ScrofulousFacts.hs {θ₁ θ : ℝ} (f : ScrofulousFacts θ₁ θ) : 0 < Real.sin (θ / 2) :=
  lt_of_lt_of_le (by norm_num) f.bs

theorem cos_sub_le (x y : ℝ) : |Real.cos x - Real.cos y| ≤ |x - y| := by
  rw [Real.cos_sub_cos, abs_mul, abs_mul, abs_neg, abs_two]
  have h1 := Real.abs_sin_le_one ((x + y) / 2)
  have h2 : |Real.sin ((x - y) / 2)| ≤ |(x - y) / 2| := Real.abs_sin_le_abs
  rw [abs_div, abs_two] at h2
  have h3 := abs_nonneg (Real.sin ((x - y) / 2))
  have h4 := abs_nonneg (Real.sin ((x + y) / 2))
  nlinarith

theorem sin_sub_le (x y : ℝ) : |Real.sin x - Real.sin y| ≤ |x - y| := by
  have := cos_sub_le (Real.pi / 2 - x) (Real.pi / 2 - y)
  rw [Real.cos_pi_div_two_sub, Real.cos_pi_div_two_sub] at this
  calc _ ≤ _ := this
    _ = |x - y| := by rw [abs_sub_comm]; congr 1; ring

theorem close_bound {θ a : ℝ} (h : |θ - a| ≤ 4 / 10 ^ 5) : |θ / 2 - a / 2| ≤ 2 / 10 ^ 5 := by
  have : θ / 2 - a / 2 = (θ - a) / 2 := by ring
  rw [this, abs_div, abs_two]
  norm_num at h ⊢
  linarith

theorem Spec.Close.near {θ a : ℝ} (ha : 0 < a) (ha' : a < 3.1416) (h : Close θ a) : |θ - a| ≤ 4 / 10 ^ 5 := by
  unfold Close at h
  rw [abs_of_pos ha] at h
  norm_num at h ha' ⊢
  linarith

/-- The facts, from an interval for `r = θ₁/π` and bounds on the sine and cosine. -/
theorem scrofulousFacts_of {θ₁ θ r c s ε η : ℝ} (hr : θ₁ = r * Real.pi) (hr1 : 532 / 1000 ≤ r)
    (hcos : |Real.cos θ₁| ≤ c) (hs : s ≤ Real.sin (θ / 2)) (hs0 : 19 / 50 ≤ s) (hcs : c ≤ 3 / 5 * (2 * r * s))
    (hε : |Real.sin θ₁ / (2 * r) - Real.cos (θ / 2)| ≤ ε) (hε3 : ε ≤ 3 / 1000)
    (hη : 0 < η) (hηr : η ^ 2 + (1 / (2 * r)) ^ 2 ≤ 1)
    (hb : ε * |Real.sin θ₁ / (2 * r) + Real.cos (θ / 2)| ≤ 3 / 1000 * η) :
    ScrofulousFacts θ₁ θ := by
  have hpi := Real.pi_pos
  have hr0 : 0 < r := by linarith
  have e2 : -Real.pi / (2 * θ₁) = -(1 / (2 * r)) := by rw [hr]; field_simp
  have e3 : Real.pi * Real.sin θ₁ / (2 * θ₁) = Real.sin θ₁ / (2 * r) := by
    rw [hr]; field_simp
  have e4 : Real.pi / (2 * θ₁) = 1 / (2 * r) := by rw [hr]; field_simp
  have hs' : 0 < Real.sin (θ / 2) := by linarith
  have h1 : |-Real.pi * Real.cos θ₁ / (2 * θ₁ * Real.sin (θ / 2))| ≤ 3 / 5 := by
    have e1 : -Real.pi * Real.cos θ₁ / (2 * θ₁ * Real.sin (θ / 2)) =
        -Real.cos θ₁ / (2 * r * Real.sin (θ / 2)) := by
      nth_rewrite 2 [hr]; field_simp
    rw [e1, abs_div, abs_neg, abs_of_pos (by positivity : 0 < 2 * r * Real.sin (θ / 2)),
      div_le_iff₀ (by positivity)]
    calc _ ≤ c := hcos
      _ ≤ 3 / 5 * (2 * r * s) := hcs
      _ ≤ 3 / 5 * (2 * r * Real.sin (θ / 2)) := by gcongr
  have h2 : |-Real.pi / (2 * θ₁)| ≤ 47 / 50 := by
    rw [e2, abs_neg, abs_of_pos (by positivity), div_le_iff₀ (by positivity)]; linarith
  refine ⟨h1, h2, hs0.trans hs, fun φ i j => ?_⟩
  refine tableEvolution_scrofulous_dist φ ε η (3 / 1000) (h1.trans (by norm_num))
    (h2.trans (by norm_num)) hs' ?_ hε3 hη ?_ ?_ i j
  · rw [e3]; exact hε
  · rw [e4]; linarith
  · rw [e3]; exact hb

theorem scrofulousFacts_pi {θ : ℝ} (h : |θ - Real.pi| ≤ 4 / 10 ^ 5) : ScrofulousFacts Real.pi θ := by
  have hl := Real.pi_gt_d4
  have hu := Real.pi_lt_d4
  have hb := close_bound h
  have hc := (cos_sub_le (θ / 2) (Real.pi / 2)).trans hb
  have hs := (sin_sub_le (θ / 2) (Real.pi / 2)).trans hb
  rw [Real.cos_pi_div_two, sub_zero] at hc
  rw [Real.sin_pi_div_two] at hs
  refine scrofulousFacts_of (r := 1) (c := 1) (s := 9 / 10) (ε := 2 / 10 ^ 5) (η := 1 / 2) (by ring)
    (by norm_num) (by simp) (by linarith [(abs_le.mp hs).1]) (by norm_num) (by norm_num)
    ?_ (by norm_num) (by norm_num) (by norm_num) ?_
  · simpa using hc
  · simp only [Real.sin_pi, zero_div, zero_add]
    have := abs_nonneg (Real.cos (θ / 2))
    nlinarith

theorem scrofulousFacts_pi_two {θ : ℝ} (h : |θ - Real.pi / 2| ≤ 4 / 10 ^ 5) :
    ScrofulousFacts (115.2 / 180 * Real.pi) θ := by
  have hl := Real.pi_gt_d4
  have hu := Real.pi_lt_d4
  have hb := close_bound h
  have hc := (cos_sub_le (θ / 2) (Real.pi / 2 / 2)).trans hb
  have hs := (sin_sub_le (θ / 2) (Real.pi / 2 / 2)).trans hb
  have e : Real.pi / 2 / 2 = Real.pi / 4 := by ring
  rw [e, Real.cos_pi_div_four] at hc
  rw [e, Real.sin_pi_div_four] at hs
  have hq1 : (1.41421 : ℝ) < Real.sqrt 2 := by
    rw [Real.lt_sqrt (by norm_num)]; norm_num
  have hq2 : Real.sqrt 2 < (1.41422 : ℝ) := by
    rw [Real.sqrt_lt' (by norm_num)]; norm_num
  have e1 : (115.2 / 180 * Real.pi : ℝ) = 0.14 * Real.pi + Real.pi / 2 := by ring
  have hcos1 : Real.cos (115.2 / 180 * Real.pi) = -Real.sin (0.14 * Real.pi) := by
    rw [e1, Real.cos_add_pi_div_two]
  have hsin1 : Real.sin (115.2 / 180 * Real.pi) = Real.cos (0.14 * Real.pi) := by
    rw [e1, Real.sin_add_pi_div_two]
  have hx : |0.07 * Real.pi| ≤ 1 := by rw [abs_of_pos (by linarith)]; linarith
  have hcb := Real.cos_bound hx
  rw [abs_of_pos (by linarith : 0 < 0.07 * Real.pi)] at hcb
  have h4 : (0.07 * Real.pi) ^ 4 ≤ 0.002340 := by
    have : (0.07 * Real.pi) ≤ 0.219912 := by linarith
    calc (0.07 * Real.pi) ^ 4 ≤ 0.219912 ^ 4 := pow_le_pow_left₀ (by linarith) this 4
      _ ≤ _ := by norm_num
  have h2l : (0.048358 : ℝ) ≤ (0.07 * Real.pi) ^ 2 := by
    have : (0.219905 : ℝ) ≤ (0.07 * Real.pi) := by linarith
    nlinarith
  have h2u : (0.07 * Real.pi) ^ 2 ≤ 0.048362 := by nlinarith
  have ec : Real.cos (0.14 * Real.pi) = 2 * Real.cos (0.07 * Real.pi) ^ 2 - 1 := by
    rw [← Real.cos_two_mul]; congr 1; ring
  rw [abs_le] at hcb
  have cl : (0.975697 : ℝ) ≤ Real.cos (0.07 * Real.pi) := by linarith [hcb.1]
  have cu : Real.cos (0.07 * Real.pi) ≤ 0.975943 := by linarith [hcb.2]
  have Cl : (0.903969 : ℝ) ≤ Real.cos (0.14 * Real.pi) := by rw [ec]; nlinarith
  have Cu : Real.cos (0.14 * Real.pi) ≤ 0.904930 := by rw [ec]; nlinarith
  rw [abs_le] at hc hs
  have e5 : ∀ x : ℝ, x / (2 * 0.64) = x * 0.78125 := by intro x; ring
  refine scrofulousFacts_of (r := 0.64) (c := 0.44) (s := 0.7) (ε := 0.001) (η := 0.6) (by ring)
    (by norm_num) ?_ (by linarith [hs.1]) (by norm_num) (by norm_num)
    ?_ (by norm_num) (by norm_num) (by norm_num) ?_
  · rw [hcos1, abs_neg]
    refine Real.abs_sin_le_abs.trans ?_
    rw [abs_of_pos (by linarith)]; linarith
  · rw [hsin1, e5, abs_le]
    constructor
    · linarith [hc.1, hc.2]
    · linarith [hc.1, hc.2]
  · rw [hsin1, e5, abs_of_pos]
    · linarith [hc.1, hc.2]
    · linarith [hc.1, hc.2]

theorem scrofulousFacts_pi_four {θ : ℝ} (h : |θ - Real.pi / 4| ≤ 4 / 10 ^ 5) :
    ScrofulousFacts (96.7 / 180 * Real.pi) θ := by
  have hl := Real.pi_gt_d4
  have hu := Real.pi_lt_d4
  have hb := close_bound h
  have hc := (cos_sub_le (θ / 2) (Real.pi / 4 / 2)).trans hb
  have hs := (sin_sub_le (θ / 2) (Real.pi / 4 / 2)).trans hb
  have e : Real.pi / 4 / 2 = Real.pi / 8 := by ring
  rw [e, Real.cos_pi_div_eight] at hc
  rw [e, Real.sin_pi_div_eight] at hs
  have hq1 : (1.41421 : ℝ) < Real.sqrt 2 := by
    rw [Real.lt_sqrt (by norm_num)]; norm_num
  have hq2 : Real.sqrt 2 < (1.41422 : ℝ) := by
    rw [Real.sqrt_lt' (by norm_num)]; norm_num
  have hp1 : (1.847756 : ℝ) < Real.sqrt (2 + Real.sqrt 2) := by
    rw [Real.lt_sqrt (by norm_num)]; norm_num; linarith
  have hp2 : Real.sqrt (2 + Real.sqrt 2) < (1.847763 : ℝ) := by
    rw [Real.sqrt_lt' (by norm_num)]; norm_num; linarith
  have hm1 : (0.76535 : ℝ) < Real.sqrt (2 - Real.sqrt 2) := by
    rw [Real.lt_sqrt (by norm_num)]; norm_num; linarith
  have e1 : (96.7 / 180 * Real.pi : ℝ) = 6.7 / 180 * Real.pi + Real.pi / 2 := by ring
  have hcos1 : Real.cos (96.7 / 180 * Real.pi) = -Real.sin (6.7 / 180 * Real.pi) := by
    rw [e1, Real.cos_add_pi_div_two]
  have hsin1 : Real.sin (96.7 / 180 * Real.pi) = Real.cos (6.7 / 180 * Real.pi) := by
    rw [e1, Real.sin_add_pi_div_two]
  have hx : |6.7 / 180 * Real.pi| ≤ 1 := by rw [abs_of_pos (by linarith)]; linarith
  have hcb := Real.cos_bound hx
  rw [abs_of_pos (by linarith : 0 < 6.7 / 180 * Real.pi)] at hcb
  have hxu : (6.7 / 180 * Real.pi) ≤ 0.116938 := by linarith
  have hxl : (0.116933 : ℝ) ≤ (6.7 / 180 * Real.pi) := by linarith
  have h4 : (6.7 / 180 * Real.pi) ^ 4 ≤ 0.000188 := by
    calc (6.7 / 180 * Real.pi) ^ 4 ≤ 0.116938 ^ 4 := pow_le_pow_left₀ (by linarith) hxu 4
      _ ≤ _ := by norm_num
  have h2l : (0.013673 : ℝ) ≤ (6.7 / 180 * Real.pi) ^ 2 := by nlinarith
  have h2u : (6.7 / 180 * Real.pi) ^ 2 ≤ 0.013675 := by nlinarith
  rw [abs_le] at hcb
  have Cl : (0.993152 : ℝ) ≤ Real.cos (6.7 / 180 * Real.pi) := by linarith [hcb.1]
  have Cu : Real.cos (6.7 / 180 * Real.pi) ≤ 0.993174 := by linarith [hcb.2]
  rw [abs_le] at hc hs
  have e5 : ∀ x : ℝ, x / (2 * (96.7 / 180)) = x * (180 / 193.4) := by intro x; ring
  refine scrofulousFacts_of (r := 96.7 / 180) (c := 0.12) (s := 0.38) (ε := 0.00052) (η := 0.365) (by ring)
    (by norm_num) ?_ (by linarith [hs.1]) (by norm_num) (by norm_num)
    ?_ (by norm_num) (by norm_num) (by norm_num) ?_
  · rw [hcos1, abs_neg]
    refine Real.abs_sin_le_abs.trans ?_
    rw [abs_of_pos (by linarith)]; linarith
  · rw [hsin1, e5, abs_le]
    constructor
    · linarith [hc.1, hc.2]
    · linarith [hc.1, hc.2]
  · rw [hsin1, e5, abs_of_pos]
    · linarith [hc.1, hc.2]
    · linarith [hc.1, hc.2]

theorem scrofulousFacts {θ : ℝ} (h : Tabulated θ) : ScrofulousFacts (scrofulousAngle θ) θ := by
  have hl := Real.pi_pos
  have hu := Real.pi_lt_d4
  unfold scrofulousAngle
  split
  · exact scrofulousFacts_pi (Close.near hl hu ‹_›)
  · split
    · exact scrofulousFacts_pi_two (Close.near (by linarith) (by linarith) ‹_›)
    · rcases h with h | h | h
      · contradiction
      · contradiction
      · exact scrofulousFacts_pi_four (Close.near (by linarith) (by linarith) h)

end OpenControls
