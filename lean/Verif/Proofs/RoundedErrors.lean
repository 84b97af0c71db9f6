import Verif.Proofs.SegmentErrors
import Verif.Proofs.RoundedTabulated
import Verif.Proofs.Composite

/-!
# The segments of computed composite pulses are near the exact ones
-/

namespace OpenControls

open Spec Fl

variable {r : Rounding}

/-- a computed pulse of a table near an exact one -/
def PulseNear (r : Rounding) (δ : ℝ) (p : Fl r × Fl r) (q : ℝ × ℝ) : Prop :=
  |p.1.val - q.1| + r.u * |p.1.val| ≤ δ ∧ |p.2.val - q.2| ≤ δ

theorem arcsin_dist {x y : ℝ} (hx : |x| ≤ 19 / 20) (hy : |y| ≤ 19 / 20) :
    |Real.arcsin x - Real.arcsin y| ≤ 33 / 10 * |x - y| := by
  have := arccos_dist hx hy
  rw [Real.arccos, Real.arccos, abs_sub_comm] at this
  rwa [show Real.arcsin x - Real.arcsin y = Real.pi / 2 - Real.arcsin y - (Real.pi / 2 - Real.arcsin x) by ring]

theorem sin_dist (x y : ℝ) : |Real.sin x - Real.sin y| ≤ |x - y| := by
  have := cos_sub_le (Real.pi / 2 - x) (Real.pi / 2 - y)
  rw [Real.cos_pi_div_two_sub, Real.cos_pi_div_two_sub] at this
  refine this.trans (le_of_eq ?_)
  rw [abs_sub_comm]; congr 1; ring

/-- the angle `k` of CORPSE depends on `θ` with a Lipschitz constant below 1 -/
theorem corpseAngle_dist (x y : ℝ) : |corpseAngle x - corpseAngle y| ≤ 33 / 40 * |x - y| := by
  have half : ∀ z : ℝ, |Real.sin z / 2| ≤ 19 / 20 := by
    intro z
    have := Real.abs_sin_le_one z
    rw [abs_div, abs_two]; linarith
  refine (arcsin_dist (half _) (half _)).trans ?_
  have := sin_dist (x / 2) (y / 2)
  rw [← sub_div, abs_div, abs_two] at this ⊢
  linarith

theorem corpseK_error (θ : Fl r) : |(corpseK θ).val - corpseAngle θ.val| ≤ 5 * r.u := by
  have hu0 := r.u_nonneg
  have hu := r.u_small.2
  set s := (PyFloat.sin (θ / PyFloat.lit 2) : Fl r) with hs
  have hsv : s.val = r.sin.f (θ.val / 2) := by rw [hs, val_sin, half_rounded]
  have hk : (corpseK θ).val = r.arcsin.f (s.val / 2) := by
    rw [corpseK, val_arcsin, half_rounded]
  have h1 := r.sin.close (θ.val / 2)
  rw [← hsv] at h1
  have h3 := Real.abs_sin_le_one (θ.val / 2)
  have h2 : |s.val - Real.sin (θ.val / 2)| ≤ 2 * r.u := by nlinarith
  have h4 : |s.val| ≤ 1002 / 1000 := by
    have := abs_sub_abs_le_abs_sub s.val (Real.sin (θ.val / 2))
    linarith
  have h5 : |s.val / 2| ≤ 501 / 1000 := by rw [abs_div, abs_two]; linarith
  have h6 : |Real.sin (θ.val / 2) / 2| ≤ 19 / 20 := by rw [abs_div, abs_two]; linarith
  have h7 := arcsin_dist (h5.trans (by norm_num)) h6
  rw [← sub_div, abs_div, abs_two] at h7
  have h8 := r.arcsin.close (s.val / 2)
  have hpi := Real.pi_lt_d2
  norm_num at hpi
  have h9 : |Real.arcsin (s.val / 2)| ≤ 79 / 100 := by
    refine (abs_arcsin_le (h5.trans (by norm_num))).trans ?_
    have hp2 : Real.pi / 2 ≤ 1575 / 1000 := by linarith
    exact (mul_le_mul hp2 h5 (abs_nonneg _) (by norm_num)).trans (by norm_num)
  have h10 := mul_le_mul_of_nonneg_left h9 (by linarith : 0 ≤ 2 * r.u)
  have h11 := abs_sub_le (corpseK θ).val (Real.arcsin (s.val / 2)) (corpseAngle θ.val)
  rw [hk] at h11 ⊢
  have h12 : |Real.arcsin (s.val / 2) - corpseAngle θ.val| ≤ 33 / 10 * r.u := by
    refine h7.trans ?_
    linarith
  linarith

/-- the three pulses of a CORPSE block -/
theorem corpse_near {θ p q : Fl r} {x y η δ : ℝ} (hθ : 0 < θ.val) (hx : |θ.val - x| ≤ η)
    (hδ : (2 * θ.val + 34) * r.u + 2 * η ≤ δ) (hp : |p.val - y| ≤ δ) (hq : |q.val - (y + Real.pi)| ≤ δ) :
    List.Forall₂ (PulseNear r δ) (roundedCorpse θ p q) (corpseTable x y) := by
  obtain ⟨h1, h2, h3⟩ := corpse_rounded_angles hθ
  obtain ⟨hk, -⟩ := corpseK_rounded θ
  have hke := corpseK_error θ
  have hl := corpseAngle_dist θ.val x
  have hu0 := r.u_nonneg
  have hu : r.u ≤ 1 / 100000 := r.u_le.trans (by norm_num)
  have hpi := Real.pi_lt_d2
  have hpi0 := Real.pi_pos
  norm_num at hpi
  have hθu := mul_nonneg hθ.le hu0
  have hη : 0 ≤ η := (abs_nonneg _).trans hx
  set k := (corpseK θ).val
  have hkx : |k - corpseAngle x| ≤ 5 * r.u + 33 / 40 * η := by
    have := abs_sub_le k (corpseAngle θ.val) (corpseAngle x)
    linarith
  have hku := abs_le.mp hk
  have hke' := abs_le.mp hkx
  have hx' := abs_le.mp hx
  -- size of the computed angles
  have size : ∀ {a b B E : ℝ}, |a - b| ≤ E * r.u → |b| ≤ B → 0 ≤ E → E ≤ 2 * θ.val + 40 → 
      r.u * |a| ≤ r.u * (B + (2 * θ.val + 40) / 100000) := by
    intro a b B E hE hB hE0 hE1
    have := abs_sub_abs_le_abs_sub a b
    have h4 : E * r.u ≤ (2 * θ.val + 40) * (1 / 100000) := by gcongr
    gcongr
    linarith
  have b1 : |2 * Real.pi + θ.val / 2 - k| ≤ θ.val / 2 + 72 / 10 := by
    rw [abs_le]; constructor <;> linarith
  have b2 : |2 * Real.pi - 2 * k| ≤ 81 / 10 := by
    rw [abs_le]; constructor <;> linarith
  have b3 : |θ.val / 2 - k| ≤ θ.val / 2 + 9 / 10 := by
    rw [abs_le]; constructor <;> linarith
  have s1 := size h1 b1 (by linarith) (by linarith)
  have s2 := size h2 b2 (by norm_num) (by linarith)
  have s3 := size h3 b3 (by linarith) (by linarith)
  have h1' := abs_le.mp h1
  have h2' := abs_le.mp h2
  have h3' := abs_le.mp h3
  refine .cons ⟨?_, hp⟩ (.cons ⟨?_, hq⟩ (.cons ⟨?_, hp⟩ .nil))
  · have : |(PyFloat.lit 2 * PyFloat.pi + θ / PyFloat.lit 2 - corpseK θ : Fl r).val -
        (2 * Real.pi + x / 2 - corpseAngle x)| ≤ (101 / 100 * θ.val + 20) * r.u + 5 * r.u + 2 * η := by
      rw [abs_le]; constructor <;> linarith
    simp only
    linarith
  · have : |(PyFloat.lit 2 * PyFloat.pi - PyFloat.lit 2 * corpseK θ : Fl r).val -
        (2 * Real.pi - 2 * corpseAngle x)| ≤ 145 / 10 * r.u + 10 * r.u + 2 * η := by
      rw [abs_le]; constructor <;> linarith
    simp only
    linarith
  · have : |(θ / PyFloat.lit 2 - corpseK θ : Fl r).val - (x / 2 - corpseAngle x)| ≤
        (θ.val / 2 + 9 / 10) * r.u + 5 * r.u + 2 * η := by
      rw [abs_le]; constructor <;> linarith
    simp only
    linarith

/-- the computed `φ_p` -/
theorem phiP_error {θ : Fl r} (h0 : 0 < θ.val) (h3 : θ.val ≤ 3 * Real.pi) :
    |(roundedPhiP θ).val - wimperisAngle θ.val| ≤ 17 * r.u := by
  have hu0 := r.u_nonneg
  have hu := r.u_small.1
  have hpi := Real.pi_pos
  have hr : Rel r 2 (-θ / (PyFloat.lit 4 * PyFloat.pi) : Fl r).val (-θ.val / (4 * Real.pi)) := by
    rw [val_div, val_neg, four_mul_rounded]
    have h1 : Rel r 1 (4 * (PyFloat.pi : Fl r).val) (4 * Real.pi) := by
      have := (Rel.refl (r := r) 4).mul (rel_pi (r := r))
      exact this.mono (by norm_num)
    exact ((Rel.refl (-θ.val)).div h1).rnd.mono (by norm_num)
  have hb : |-θ.val / (4 * Real.pi)| ≤ 3 / 4 := by
    rw [abs_div, abs_neg, abs_of_pos h0, abs_of_pos (by positivity), div_le_iff₀ (by positivity)]
    linarith
  have h1 := hr.abs_le_of (by norm_num) (by norm_num) hb
  set a := (-θ / (PyFloat.lit 4 * PyFloat.pi) : Fl r).val
  have ha : |a| ≤ 19 / 20 := by
    have := abs_sub_abs_le_abs_sub a (-θ.val / (4 * Real.pi))
    linarith
  have h2 := arccos_dist ha (hb.trans (by norm_num))
  have h4 := r.arccos.close a
  have h5 := arccos_abs_le a
  have h6 := mul_le_mul_of_nonneg_left h5 (by linarith : 0 ≤ 2 * r.u)
  have e : (roundedPhiP θ).val = r.arccos.f a := by rw [roundedPhiP, val_arccos]
  rw [e]
  have h7 := abs_sub_le (r.arccos.f a) (Real.arccos a) (wimperisAngle θ.val)
  have h8 : |Real.arccos a - wimperisAngle θ.val| ≤ 33 / 10 * (203 / 100 * 2 * r.u * (3 / 4)) :=
    h2.trans (by linarith)
  norm_num at h6
  linarith

theorem wimperisAngle_abs (θ : ℝ) : |wimperisAngle θ| ≤ 315 / 100 := by
  refine (arccos_abs_le (-θ / (4 * Real.pi))).trans (by norm_num)

/-- `arccos` on the whole interval -/
theorem arccos_dist_sqrt (x y : ℝ) : |Real.arccos x - Real.arccos y| ≤ Real.pi * Real.sqrt (|x - y| / 2) := by
  -- on `[-1, 1]`
  have key : ∀ α β : ℝ, 0 ≤ α → α ≤ β → β ≤ Real.pi →
      β - α ≤ Real.pi * Real.sqrt ((Real.cos α - Real.cos β) / 2) := by
    intro α β h0 hab hb
    have hpi := Real.pi_pos
    have e : (Real.cos α - Real.cos β) / 2 = Real.sin ((α + β) / 2) * Real.sin ((β - α) / 2) := by
      rw [Real.cos_sub_cos, show (β - α) / 2 = -((α - β) / 2) by ring, Real.sin_neg]
      ring
    have h1 : Real.sin ((β - α) / 2) ≤ Real.sin ((α + β) / 2) := by
      rcases le_total ((α + β) / 2) (Real.pi / 2) with h | h
      · exact Real.sin_le_sin_of_le_of_le_pi_div_two (by linarith) h (by linarith)
      · rw [← Real.sin_pi_sub ((α + β) / 2)]
        exact Real.sin_le_sin_of_le_of_le_pi_div_two (by linarith) (by linarith) (by linarith)
    have h2 : 2 / Real.pi * ((β - α) / 2) ≤ Real.sin ((β - α) / 2) :=
      Real.mul_le_sin (by linarith) (by linarith)
    have h3 : (β - α) / Real.pi ≤ Real.sin ((β - α) / 2) := by
      refine le_trans (le_of_eq ?_) h2
      ring
    have h4 : 0 ≤ (β - α) / Real.pi := by
      have : 0 ≤ β - α := by linarith
      positivity
    have h5 : ((β - α) / Real.pi) ^ 2 ≤ (Real.cos α - Real.cos β) / 2 := by
      rw [e, sq]
      exact mul_le_mul (h3.trans h1) h3 h4 (h4.trans (h3.trans h1))
    have h6 := Real.le_sqrt_of_sq_le h5
    rwa [div_le_iff₀ hpi, mul_comm] at h6
  wlog hxy : y ≤ x generalizing x y
  · have := this y x (le_of_not_ge hxy)
    rwa [abs_sub_comm, abs_sub_comm x y]
  have hle := Real.antitone_arccos hxy
  have h := key _ _ (Real.arccos_nonneg x) hle (Real.arccos_le_pi y)
  rw [abs_sub_comm, abs_of_nonneg (by linarith), abs_of_nonneg (by linarith)]
  refine h.trans (mul_le_mul_of_nonneg_left (Real.sqrt_le_sqrt ?_) Real.pi_pos.le)
  have hc : ∀ z : ℝ, Real.cos (Real.arccos z) = max (-1) (min 1 z) := by
    intro z
    rcases le_total z (-1) with h1 | h1
    · rw [Real.arccos_of_le_neg_one h1, Real.cos_pi, min_eq_right (by linarith), max_eq_left h1]
    · rcases le_total 1 z with h2 | h2
      · rw [Real.arccos_of_one_le h2, Real.cos_zero, min_eq_left h2, max_eq_right (by norm_num)]
      · rw [Real.cos_arccos h1 h2, min_eq_right h2, max_eq_right h1]
  rw [hc, hc]
  have : max (-1) (min 1 x) - max (-1) (min 1 y) ≤ x - y := by
    simp only [max_def, min_def]
    split_ifs <;> linarith
  linarith

theorem sqrt_u {r : Rounding} : Real.sqrt r.u ≤ 1 / 700 ∧ r.u ≤ 1 / 700 * Real.sqrt r.u := by
  have hu0 := r.u_nonneg
  have hu := r.u_small.1
  have h1 : Real.sqrt r.u ≤ 1 / 700 := by
    rw [Real.sqrt_le_left (by norm_num)]
    norm_num at *
    linarith
  refine ⟨h1, ?_⟩
  have h2 := Real.mul_self_sqrt hu0
  have h3 := Real.sqrt_nonneg r.u
  nlinarith

/-- the computed `φ_p` for all angles -/
theorem phiP_error_all {θ : Fl r} (h0 : 0 < θ.val) (h4 : θ.val ≤ 4 * Real.pi) :
    |(roundedPhiP θ).val - wimperisAngle θ.val| ≤ 46 / 10 * Real.sqrt r.u := by
  have hu0 := r.u_nonneg
  have hu := r.u_small.1
  have hpi := Real.pi_pos
  have hr : Rel r 2 (-θ / (PyFloat.lit 4 * PyFloat.pi) : Fl r).val (-θ.val / (4 * Real.pi)) := by
    rw [val_div, val_neg, four_mul_rounded]
    have h1 : Rel r 1 (4 * (PyFloat.pi : Fl r).val) (4 * Real.pi) := by
      have := (Rel.refl (r := r) 4).mul (rel_pi (r := r))
      exact this.mono (by norm_num)
    exact ((Rel.refl (-θ.val)).div h1).rnd.mono (by norm_num)
  have hb : |-θ.val / (4 * Real.pi)| ≤ 1 := by
    rw [abs_div, abs_neg, abs_of_pos h0, abs_of_pos (by positivity), div_le_iff₀ (by positivity)]
    linarith
  have h1 := hr.abs_le_of (by norm_num) (by norm_num) hb
  set a := (-θ / (PyFloat.lit 4 * PyFloat.pi) : Fl r).val
  have h2 := arccos_dist_sqrt a (-θ.val / (4 * Real.pi))
  have hsq : Real.sqrt (|a - -θ.val / (4 * Real.pi)| / 2) ≤ 143 / 100 * Real.sqrt r.u := by
    have e : (143 / 100 : ℝ) * Real.sqrt r.u = Real.sqrt ((143 / 100) ^ 2 * r.u) := by
      rw [Real.sqrt_mul (by norm_num), Real.sqrt_sq (by norm_num)]
    rw [e]
    apply Real.sqrt_le_sqrt
    norm_num at h1 ⊢
    linarith
  have h5 := arccos_abs_le a
  have h6 := mul_le_mul_of_nonneg_left h5 (by linarith : 0 ≤ 2 * r.u)
  have h4 := r.arccos.close a
  have e : (roundedPhiP θ).val = r.arccos.f a := by rw [roundedPhiP, val_arccos]
  rw [e]
  have h7 := abs_sub_le (r.arccos.f a) (Real.arccos a) (wimperisAngle θ.val)
  have h8 : |Real.arccos a - wimperisAngle θ.val| ≤ 315 / 100 * (143 / 100 * Real.sqrt r.u) := by
    have hp := Real.pi_lt_d2
    norm_num at hp
    refine h2.trans (mul_le_mul (by linarith) hsq (Real.sqrt_nonneg _) (by norm_num))
  have h9 := (sqrt_u (r := r)).2
  norm_num at h6
  linarith

theorem axis_of {θ φ : Fl r} {E : ℝ} (h : |(roundedPhiP θ).val - wimperisAngle θ.val| ≤ E) (hE : E ≤ 1 / 100) :
    |(φ + roundedPhiP θ : Fl r).val - (φ.val + wimperisAngle θ.val)| ≤ (|φ.val| + 4) * r.u + E ∧
    |(φ - roundedPhiP θ : Fl r).val - (φ.val - wimperisAngle θ.val)| ≤ (|φ.val| + 4) * r.u + E ∧
    |(φ + PyFloat.lit 3 * roundedPhiP θ : Fl r).val - (φ.val + 3 * wimperisAngle θ.val)| ≤
      (|φ.val| + 20) * r.u + 3 * E := by
  have hu0 := r.u_nonneg
  have hu := r.u_small.1
  have hw := wimperisAngle_abs θ.val
  set w := wimperisAngle θ.val
  have hp : |(roundedPhiP θ).val| ≤ 317 / 100 := by
    have := abs_sub_abs_le_abs_sub (roundedPhiP θ).val w
    linarith
  have hfin : ∀ (b : Fl r) (x B F : ℝ), |b.val - x| ≤ F → |b.val| ≤ B →
      |r.rnd (φ.val + b.val) - (φ.val + x)| ≤ (|φ.val| + B) * r.u + F := by
    intro b x B F h1 h2
    have h3 := r.close (φ.val + b.val)
    have h4 := abs_add_le φ.val b.val
    have h5 := abs_sub_le (r.rnd (φ.val + b.val)) (φ.val + b.val) (φ.val + x)
    rw [show φ.val + b.val - (φ.val + x) = b.val - x by ring] at h5
    have h6 : r.u * |φ.val + b.val| ≤ r.u * (|φ.val| + B) := by gcongr; linarith
    linarith
  have hφ := mul_nonneg (abs_nonneg φ.val) hu0
  refine ⟨?_, ?_, ?_⟩
  · rw [val_add]
    have := hfin _ _ _ _ h hp
    linarith
  · rw [val_sub]
    have h1 : |(-roundedPhiP θ : Fl r).val - -w| ≤ E := by
      rw [val_neg, ← abs_neg]
      refine le_trans (le_of_eq ?_) h
      congr 1; ring
    have := hfin _ _ (317 / 100) _ h1 (by rw [val_neg, abs_neg]; exact hp)
    rw [val_neg, ← sub_eq_add_neg, ← sub_eq_add_neg] at this
    linarith
  · rw [val_add]
    have e3 : (PyFloat.lit 3 * roundedPhiP θ : Fl r).val = r.rnd (3 * (roundedPhiP θ).val) := by
      rw [val_mul, val_lit]
      have := Rounding.rnd_nat (r := r) (n := 3) (by norm_num)
      push_cast at this ⊢
      rw [this]
    have h4 := r.close (3 * (roundedPhiP θ).val)
    rw [abs_mul, abs_of_pos (by norm_num : (0 : ℝ) < 3), ← e3] at h4
    have h5 := mul_le_mul_of_nonneg_left hp hu0
    have h6 := abs_sub_le (PyFloat.lit 3 * roundedPhiP θ : Fl r).val (3 * (roundedPhiP θ).val) (3 * w)
    rw [← mul_sub, abs_mul, abs_of_pos (by norm_num : (0 : ℝ) < 3)] at h6
    have h7 : |(PyFloat.lit 3 * roundedPhiP θ : Fl r).val - 3 * w| ≤ 951 / 100 * r.u + 3 * E := by linarith
    have h8 : |(PyFloat.lit 3 * roundedPhiP θ : Fl r).val| ≤ 98 / 10 := by
      have := abs_sub_abs_le_abs_sub (PyFloat.lit 3 * roundedPhiP θ : Fl r).val (3 * (roundedPhiP θ).val)
      rw [abs_mul, abs_of_pos (by norm_num : (0 : ℝ) < 3)] at this
      linarith
    have := hfin _ _ _ _ h7 h8
    linarith

/-- the error allowed for `φ_p` -/
noncomputable def phiPError (r : Rounding) (θ : ℝ) : ℝ :=
  open Classical in if 3 * Real.pi < θ then 46 / 10 * Real.sqrt r.u else 17 * r.u

theorem phiPError_spec {θ : Fl r} (h0 : 0 < θ.val) (h4 : θ.val ≤ 4 * Real.pi) :
    |(roundedPhiP θ).val - wimperisAngle θ.val| ≤ phiPError r θ.val ∧ phiPError r θ.val ≤ 1 / 100 ∧
      0 ≤ phiPError r θ.val := by
  have hu0 := r.u_nonneg
  have hu := r.u_small.1
  unfold phiPError
  split
  · exact ⟨phiP_error_all h0 h4, by linarith [(sqrt_u (r := r)).1], by positivity⟩
  · exact ⟨phiP_error h0 (by linarith), by linarith, by positivity⟩

theorem deviation_other {s : Scheme} (h : ¬ s.usesWimperis) (u θ φ : ℝ) :
    s.deviation u θ φ = s.roundoffs θ φ * u := by
  rw [Scheme.deviation, if_neg fun H => h H.1, add_zero]

theorem deviation_three {s : Scheme} {θ : ℝ} (h : θ ≤ 3 * Real.pi) (u φ : ℝ) :
    s.deviation u θ φ = s.roundoffs θ φ * u := by
  rw [Scheme.deviation, if_neg fun H => absurd H.2 (not_lt.2 h), add_zero]

theorem deviation_le (s : Scheme) (θ φ : ℝ) : s.deviation r.u θ φ ≤ s.roundoffs θ φ * r.u + 14 * Real.sqrt r.u := by
  have hs := Real.sqrt_nonneg r.u
  unfold Scheme.deviation
  split <;> linarith

theorem deviation_phiP {s : Scheme} (h : s.usesWimperis) (θ φ : ℝ) :
    (s.roundoffs θ φ - 51) * r.u + 3 * phiPError r θ ≤ s.deviation r.u θ φ ∧
      (s.roundoffs θ φ - 17) * r.u + phiPError r θ ≤ s.deviation r.u θ φ ∧
      s.roundoffs θ φ * r.u ≤ s.deviation r.u θ φ := by
  have hu0 := r.u_nonneg
  have hs := Real.sqrt_nonneg r.u
  unfold Scheme.deviation phiPError
  by_cases h3 : 3 * Real.pi < θ
  · rw [if_pos h3, if_pos ⟨h, h3⟩]
    refine ⟨?_, ?_, ?_⟩ <;> linarith
  · rw [if_neg h3, if_neg fun H => h3 H.2]
    refine ⟨?_, ?_, ?_⟩ <;> linarith

/-- the angles π and 2π -/
theorem pi_pulse {δ : ℝ} (h : 7 * r.u ≤ δ) :
    |(PyFloat.pi : Fl r).val - Real.pi| + r.u * |(PyFloat.pi : Fl r).val| ≤ δ := by
  have h1 := pi_error (r := r)
  have hb := rnd_pi_bounds (r := r)
  norm_num at hb
  have hu0 := r.u_nonneg
  rw [val_pi, abs_of_pos (by linarith : 0 < r.rnd Real.pi)]
  have := mul_le_mul_of_nonneg_left hb.2.le hu0
  linarith

theorem two_pi_pulse {δ : ℝ} (h : 14 * r.u ≤ δ) :
    |(PyFloat.lit 2 * PyFloat.pi : Fl r).val - 2 * Real.pi| + r.u * |(PyFloat.lit 2 * PyFloat.pi : Fl r).val| ≤ δ := by
  have h1 := pi_pulse (r := r) (le_refl (7 * r.u))
  rw [two_mul_rounded, ← mul_sub, abs_mul, abs_mul, abs_two]
  linarith

theorem exact_pulse {θ : Fl r} {δ : ℝ} (h0 : 0 < θ.val) (h : θ.val * r.u ≤ δ) :
    |θ.val - θ.val| + r.u * |θ.val| ≤ δ := by
  rw [sub_self, abs_zero, zero_add, abs_of_pos h0, mul_comm]
  exact h

/-- the correcting pulses of BB1 -/
theorem bb1_tail_near {θ φ : Fl r} {δ : ℝ} (h0 : 0 < θ.val) (h4 : θ.val ≤ 4 * Real.pi)
    (h : (|φ.val| + 20) * r.u + 3 * phiPError r θ.val ≤ δ) :
    List.Forall₂ (PulseNear r δ) [(PyFloat.pi, φ + roundedPhiP θ),
      (PyFloat.lit 2 * PyFloat.pi, φ + PyFloat.lit 3 * roundedPhiP θ), (PyFloat.pi, φ + roundedPhiP θ)]
      [(Real.pi, φ.val + wimperisAngle θ.val), (2 * Real.pi, φ.val + 3 * wimperisAngle θ.val),
        (Real.pi, φ.val + wimperisAngle θ.val)] := by
  have hu0 := r.u_nonneg
  have hφ := mul_nonneg (abs_nonneg φ.val) hu0
  obtain ⟨e1, e2, e3⟩ := phiPError_spec h0 h4
  obtain ⟨a, -, b⟩ := axis_of (φ := φ) e1 e2
  exact .cons ⟨pi_pulse (by linarith), by dsimp only; linarith⟩ (.cons ⟨two_pi_pulse (by linarith), by
    dsimp only; linarith⟩ (.cons ⟨pi_pulse (by linarith), by dsimp only; linarith⟩ .nil))

theorem sk1_tail_near {θ φ : Fl r} {δ : ℝ} (h0 : 0 < θ.val) (h4 : θ.val ≤ 4 * Real.pi)
    (h : (|φ.val| + 8) * r.u + phiPError r θ.val ≤ δ) (h' : 14 * r.u ≤ δ) :
    List.Forall₂ (PulseNear r δ) [(PyFloat.lit 2 * PyFloat.pi, φ - roundedPhiP θ),
      (PyFloat.lit 2 * PyFloat.pi, φ + roundedPhiP θ)]
      [(2 * Real.pi, φ.val - wimperisAngle θ.val), (2 * Real.pi, φ.val + wimperisAngle θ.val)] := by
  have hu0 := r.u_nonneg
  have hφ := mul_nonneg (abs_nonneg φ.val) hu0
  obtain ⟨e1, e2, e3⟩ := phiPError_spec h0 h4
  obtain ⟨a, b, -⟩ := axis_of (φ := φ) e1 e2
  exact .cons ⟨two_pi_pulse (by linarith), by dsimp only; linarith⟩ (.cons ⟨two_pi_pulse (by linarith), by
    dsimp only; linarith⟩ .nil)

theorem four_pi_u {θ : ℝ} (h4 : θ ≤ 4 * Real.pi) : θ * r.u ≤ 13 * r.u := by
  have hpi := Real.pi_lt_d2
  norm_num at hpi
  exact mul_le_mul_of_nonneg_right (by linarith) r.u_nonneg

theorem same_axis {φ : Fl r} {δ : ℝ} (h : 0 ≤ δ) : |φ.val - φ.val| ≤ δ := by
  rw [sub_self, abs_zero]; exact h

/-! ### The tabulated schemes -/

/-- If both the computed and the exact test accept, they agree on the tabulated angle. -/
theorem tabulated_cases {θ a : ℝ} (hT : Tabulated θ) (h : |θ - a| ≤ 4 / 10 ^ 5) :
    (a = Real.pi → Close θ Real.pi) ∧
    (a = Real.pi / 2 → ¬ Close θ Real.pi ∧ Close θ (Real.pi / 2)) ∧
    (a = Real.pi / 4 → ¬ Close θ Real.pi ∧ ¬ Close θ (Real.pi / 2)) := by
  have hl := Real.pi_gt_three
  have hu := Real.pi_lt_d2
  norm_num at hu
  have ha := abs_le.mp h
  have far : ∀ b : ℝ, 0 ≤ b → b ≤ 4 → 1 / 10 < |a - b| → ¬ Close θ b := by
    intro b hb hb4 hab hc
    unfold Close at hc
    rw [abs_of_nonneg hb] at hc
    have := abs_sub_le a θ b
    rw [abs_sub_comm a θ] at this
    norm_num at *
    linarith
  refine ⟨?_, ?_, ?_⟩
  · rintro rfl
    rcases hT with h1 | h1 | h1
    · exact h1
    · refine absurd h1 (far _ (by linarith) (by linarith) ?_)
      rw [abs_of_pos (by linarith)]; linarith
    · refine absurd h1 (far _ (by linarith) (by linarith) ?_)
      rw [abs_of_pos (by linarith)]; linarith
  · rintro rfl
    have n1 : ¬ Close θ Real.pi := far _ (by linarith) (by linarith) (by
      rw [abs_of_neg (by linarith)]; linarith)
    refine ⟨n1, ?_⟩
    rcases hT with h1 | h1 | h1
    · exact absurd h1 n1
    · exact h1
    · refine absurd h1 (far _ (by linarith) (by linarith) ?_)
      rw [abs_of_pos (by linarith)]; linarith
  · rintro rfl
    exact ⟨far _ (by linarith) (by linarith) (by rw [abs_of_neg (by linarith)]; linarith),
      far _ (by linarith) (by linarith) (by rw [abs_of_neg (by linarith)]; linarith)⟩

theorem roundedAngle_same {θ : Fl r} (h : isSupportedRotation θ = true) (hT : Tabulated θ.val) :
    RoundedAngle θ (scrofulousTheta1 θ) (scrofulousAngle θ.val) := by
  have hpi := Real.pi_gt_three
  have hpi' := Real.pi_pos
  rcases supported_cases h with ⟨c1, h⟩ | ⟨c1, c2, h⟩ | ⟨c1, c2, h⟩
  · rw [scrofulousAngle, if_pos ((tabulated_cases hT h).1 rfl)]
    refine ⟨scrofulousFacts_pi h, ?_, by linarith, le_rfl⟩
    rw [scrofulousTheta1, if_pos c1]
    have := rel_degrees (r := r) 180
    norm_num at this; exact this
  · obtain ⟨n1, n2⟩ := (tabulated_cases hT h).2.1 rfl
    rw [scrofulousAngle, if_neg n1, if_pos n2]
    refine ⟨scrofulousFacts_pi_two h, ?_, by norm_num; linarith, by norm_num; linarith⟩
    rw [scrofulousTheta1, if_neg c1, if_pos c2]
    have := rel_degrees (r := r) (1152 / 10)
    norm_num at this ⊢; exact this
  · obtain ⟨n1, n2⟩ := (tabulated_cases hT h).2.2 rfl
    rw [scrofulousAngle, if_neg n1, if_neg n2]
    refine ⟨scrofulousFacts_pi_four h, ?_, by norm_num; linarith, by norm_num; linarith⟩
    rw [scrofulousTheta1, if_neg c1, if_neg c2]
    have := rel_degrees (r := r) (967 / 10)
    norm_num at this ⊢; exact this

theorem roundedWamf_same {θ : Fl r} (h : isSupportedRotation θ = true) (hT : Tabulated θ.val) :
    RoundedWamf (wamf1Thetas θ).1 (wamf1Thetas θ).2 (wamf1Angles θ.val).1 (wamf1Angles θ.val).2 := by
  have hl := Real.pi_gt_d4
  have hu := Real.pi_lt_d4
  have hu0 := r.u_nonneg
  norm_num at hl hu
  rcases supported_cases h with ⟨c1, h⟩ | ⟨c1, c2, h⟩ | ⟨c1, c2, h⟩
  · rw [wamf1Angles, if_pos ((tabulated_cases hT h).1 rfl), wamf1Thetas, if_pos c1]
    have hp := pi_error (r := r)
    refine ⟨?_, ?_, by dsimp only; linarith, by dsimp only; linarith, by norm_num; linarith⟩
    · rw [val_pi]; linarith
    · rw [half_pi_val, ← sub_div, abs_div, abs_two]; linarith
  · obtain ⟨n1, n2⟩ := (tabulated_cases hT h).2.1 rfl
    rw [wamf1Angles, if_neg n1, if_pos n2, wamf1Thetas, if_neg c1, if_pos c2]
    obtain ⟨s1, s2⟩ := wamf_sum_rounded (r := r) (a := 5 / 2) (b := 65667825 / 100000000) (by norm_num)
      (by norm_num) (by norm_num)
    push_cast at s1 s2
    have e1 : (2.5 : ℝ) = 5 / 2 := by norm_num
    have e2 : (0.65667825 : ℝ) = 65667825 / 100000000 := by norm_num
    rw [e1, e2]
    refine ⟨wamf_angle_rounded s1 ?_, wamf_angle_rounded s2 ?_, by dsimp only; linarith, by dsimp only; linarith,
      by norm_num; linarith⟩ <;> norm_num [abs_of_pos]
  · obtain ⟨n1, n2⟩ := (tabulated_cases hT h).2.2 rfl
    rw [wamf1Angles, if_neg n1, if_neg n2, wamf1Thetas, if_neg c1, if_neg c2]
    obtain ⟨s1, s2⟩ := wamf_sum_rounded (r := r) (a := 9 / 4) (b := 36256159 / 100000000) (by norm_num)
      (by norm_num) (by norm_num)
    push_cast at s1 s2
    have e1 : (2.25 : ℝ) = 9 / 4 := by norm_num
    have e2 : (0.36256159 : ℝ) = 36256159 / 100000000 := by norm_num
    rw [e1, e2]
    refine ⟨wamf_angle_rounded s1 ?_, wamf_angle_rounded s2 ?_, by dsimp only; linarith, by dsimp only; linarith,
      by norm_num; linarith⟩ <;> norm_num [abs_of_pos]

/-- the axes of the pulses of SCROFULOUS -/
theorem scrofulous_axes {θ t : Fl r} {θ₁ : ℝ} (f : RoundedAngle θ t θ₁) (φ : Fl r) :
    |(φ + PyFloat.arccos (scrofulousPhi1Arg t θ) : Fl r).val -
      (φ.val + Real.arccos (-Real.pi * Real.cos θ₁ / (2 * θ₁ * Real.sin (θ.val / 2))))| ≤ (|φ.val| + 344) * r.u ∧
    |(φ + (PyFloat.arccos (scrofulousPhi1Arg t θ) - PyFloat.arccos (scrofulousPhi2Arg t)) : Fl r).val -
      (φ.val + (Real.arccos (-Real.pi * Real.cos θ₁ / (2 * θ₁ * Real.sin (θ.val / 2))) -
        Real.arccos (-Real.pi / (2 * θ₁))))| ≤ (|φ.val| + 411) * r.u := by
  have hu0 := r.u_nonneg
  have h1 := (add_err (a := φ) f.phi1 (arccos_abs_le _) (by norm_num) (by norm_num)).1
  have h2 := (add_err (a := φ) (sub_err f.phi1 f.phi2' (arccos_abs_le _) (arccos_abs_le _)
    (by norm_num) (by norm_num)) (arccos_sub_abs_le _ _) (by norm_num) (by norm_num)).1
  norm_num at h1 h2 ⊢
  constructor
  · refine h1.trans ?_
    linarith [mul_nonneg (abs_nonneg φ.val) hu0]
  · refine h2.trans ?_
    linarith [mul_nonneg (abs_nonneg φ.val) hu0]

theorem RoundedAngle.size {θ t : Fl r} {θ₁ : ℝ} (f : RoundedAngle θ t θ₁) : 0 < t.val ∧ t.val ≤ 316 / 100 := by
  have hu := r.u_small.1
  refine ⟨f.rel.pos (by linarith [f.lo]), ?_⟩
  have := (abs_le.mp f.err).2
  have := Real.pi_lt_d2
  have := f.hi
  norm_num at *; linarith

theorem scrofulous_near {θ t : Fl r} {θ₁ δ : ℝ} (f : RoundedAngle θ t θ₁) (φ : Fl r)
    (h : (|φ.val| + 415) * r.u ≤ δ) :
    List.Forall₂ (PulseNear r δ) (roundedScrofulous t θ φ) (scrofulousTable θ₁ θ.val φ.val) := by
  have hu0 := r.u_nonneg
  have hφ := mul_nonneg (abs_nonneg φ.val) hu0
  obtain ⟨a, b⟩ := scrofulous_axes f φ
  obtain ⟨t0, t1⟩ := f.size
  have h1 : |t.val - θ₁| + r.u * |t.val| ≤ δ := by
    rw [abs_of_pos t0]
    have := mul_le_mul_of_nonneg_left t1 hu0
    have := f.err
    linarith
  exact .cons ⟨h1, a.trans (by linarith)⟩ (.cons ⟨pi_pulse (by linarith), b.trans (by linarith)⟩
    (.cons ⟨h1, a.trans (by linarith)⟩ .nil))

theorem corpseScrofulous_near {θ t : Fl r} {θ₁ δ : ℝ} (f : RoundedAngle θ t θ₁) (φ : Fl r)
    (h : (3 * |φ.val| + 440) * r.u ≤ δ) :
    List.Forall₂ (PulseNear r δ) (roundedCorpseScrofulous t θ φ) (corpseEach (scrofulousTable θ₁ θ.val φ.val)) := by
  have hu0 := r.u_nonneg
  have hφ := mul_nonneg (abs_nonneg φ.val) hu0
  obtain ⟨a, b⟩ := scrofulous_axes f φ
  obtain ⟨t0, t1⟩ := f.size
  have hp : (PyFloat.pi : Fl r).val ≤ 316 / 100 := by
    have := (rnd_pi_bounds (r := r)).2
    rw [val_pi]; norm_num at *; linarith
  have q1 := (add_err (a := φ) f.phi1 (arccos_abs_le _) (by norm_num) (by norm_num)).2
  have q2 := (add_err (a := φ) (sub_err f.phi1 f.phi2' (arccos_abs_le _) (arccos_abs_le _)
    (by norm_num) (by norm_num)) (arccos_sub_abs_le _ _) (by norm_num) (by norm_num)).2
  have m1 := block_axis (φ := φ) (q1.trans (by norm_num))
  have m2 := block_axis (φ := φ) (q2.trans (by norm_num))
  have ht := mul_le_mul_of_nonneg_right t1 hu0
  have hp' := mul_le_mul_of_nonneg_right hp hu0
  have c1 : List.Forall₂ (PulseNear r δ) (corpseBlock φ t (PyFloat.arccos (scrofulousPhi1Arg t θ)))
      (corpseTable θ₁ (φ.val + Real.arccos (-Real.pi * Real.cos θ₁ / (2 * θ₁ * Real.sin (θ.val / 2))))) := by
    rw [corpseBlock_rounded]
    refine corpse_near t0 f.err (by linarith) (a.trans (by linarith)) ?_
    have := abs_sub_le (PyFloat.pi + PyFloat.arccos (scrofulousPhi1Arg t θ) + φ : Fl r).val
      ((φ + PyFloat.arccos (scrofulousPhi1Arg t θ) : Fl r).val + Real.pi)
      (φ.val + Real.arccos (-Real.pi * Real.cos θ₁ / (2 * θ₁ * Real.sin (θ.val / 2))) + Real.pi)
    rw [add_sub_add_right_eq_sub] at this
    linarith
  have c2 : List.Forall₂ (PulseNear r δ) (corpseBlock φ PyFloat.pi
        (PyFloat.arccos (scrofulousPhi1Arg t θ) - PyFloat.arccos (scrofulousPhi2Arg t)))
      (corpseTable Real.pi (φ.val + (Real.arccos (-Real.pi * Real.cos θ₁ / (2 * θ₁ * Real.sin (θ.val / 2))) -
        Real.arccos (-Real.pi / (2 * θ₁))))) := by
    rw [corpseBlock_rounded]
    refine corpse_near pi_val_pos (η := 22 / 7 * r.u) (by rw [val_pi]; exact pi_error) (by linarith)
      (b.trans (by linarith)) ?_
    have := abs_sub_le (PyFloat.pi + (PyFloat.arccos (scrofulousPhi1Arg t θ) -
        PyFloat.arccos (scrofulousPhi2Arg t)) + φ : Fl r).val
      ((φ + (PyFloat.arccos (scrofulousPhi1Arg t θ) - PyFloat.arccos (scrofulousPhi2Arg t)) : Fl r).val + Real.pi)
      (φ.val + (Real.arccos (-Real.pi * Real.cos θ₁ / (2 * θ₁ * Real.sin (θ.val / 2))) -
        Real.arccos (-Real.pi / (2 * θ₁))) + Real.pi)
    rw [add_sub_add_right_eq_sub] at this
    linarith
  have h := List.rel_append c1 (List.rel_append c2 c1)
  rw [roundedCorpseScrofulous, List.append_assoc]
  simp only [scrofulousTable, corpseEach, List.flatMap_cons, List.flatMap_nil, List.append_nil]
  exact h

theorem wamf_near {p m Ω φ : Fl r} {θ : ℝ} (hΩ : 0 < Ω.val)
    (f : RoundedWamf p m (wamf1Angles θ).1 (wamf1Angles θ).2) (name : Option String) :
    NearSegments (30 * r.u) Ω.val ((roundedWamf1 p m Ω φ name).map val) (wamf1Control θ Ω.val φ.val name) := by
  obtain ⟨hp, hm, hmp, hp'⟩ := f.pos
  have hu0 := r.u_nonneg
  obtain ⟨hP, hM, -, -⟩ := wamf1Angles_pos θ
  set P := (wamf1Angles θ).1
  set M := (wamf1Angles θ).2
  set d := p / Ω with hd
  have hdp : 0 < d.val := by rw [hd, val_div, rnd_pos]; positivity
  have key : ∀ x : Fl r, |(x / d : Fl r).val * d.val - x.val| ≤ r.u * |x.val| := by
    intro x
    rw [val_div]
    have h := r.close (x.val / d.val)
    have e : r.rnd (x.val / d.val) * d.val - x.val = (r.rnd (x.val / d.val) - x.val / d.val) * d.val := by
      rw [sub_mul, div_mul_cancel₀ _ hdp.ne']
    rw [e, abs_mul, abs_of_pos hdp]
    rw [abs_div, abs_of_pos hdp] at h
    calc _ ≤ r.u * (|x.val| / d.val) * d.val := by gcongr
      _ = _ := by field_simp
  have k1 := key p
  have k2 := key m
  rw [abs_of_pos hp] at k1
  rw [abs_of_pos hm] at k2
  have q1 := mul_le_mul_of_nonneg_left hp' hu0
  have q2 := mul_le_mul_of_nonneg_left (hmp.trans hp') hu0
  norm_num at q1 q2
  have e1 := f.ep
  have e2 := f.em
  have w1 : |(p / d : Fl r).val * d.val - Ω.val * (P / Ω.val)| ≤ 30 * r.u := by
    rw [mul_div_cancel₀ _ hΩ.ne']
    have := abs_sub_le ((p / d : Fl r).val * d.val) p.val P
    linarith
  have w2 : |(m / d : Fl r).val * d.val - Ω.val * M / P * (P / Ω.val)| ≤ 30 * r.u := by
    rw [show Ω.val * M / P * (P / Ω.val) = M by field_simp]
    have := abs_sub_le ((m / d : Fl r).val * d.val) m.val M
    linarith
  have w3 : Ω.val * |d.val - P / Ω.val| ≤ 30 * r.u := by
    have h := r.close (p.val / Ω.val)
    rw [← val_div, ← hd, abs_of_pos (by positivity : 0 < p.val / Ω.val)] at h
    have h2 := abs_sub_le d.val (p.val / Ω.val) (P / Ω.val)
    rw [← sub_div p.val, abs_div, abs_of_pos hΩ] at h2
    have h3 : |d.val - P / Ω.val| ≤ r.u * (p.val / Ω.val) + |p.val - P| / Ω.val := by linarith
    calc Ω.val * |d.val - P / Ω.val| ≤ Ω.val * (r.u * (p.val / Ω.val) + |p.val - P| / Ω.val) := by gcongr
      _ = r.u * p.val + |p.val - P| := by field_simp
      _ ≤ _ := by linarith
  have z : 0 ≤ 30 * r.u := by linarith
  have a0 : |φ.val - φ.val| ≤ 30 * r.u := same_axis z
  have l0 : (PyFloat.lit 0 : Fl r).val = 0 := val_lit_zero
  exact .cons ⟨w1, a0, l0, rfl, w3⟩ (.cons ⟨w2, a0, l0, rfl, w3⟩ (.cons ⟨w2, a0, l0, rfl, w3⟩
    (.cons ⟨w1, a0, l0, rfl, w3⟩ .nil)))

/-- What a scheme returns was returned by the constructor. -/
theorem call_constructed {α : Type} [Add α] [Sub α] [Mul α] [Div α] [Neg α] [PyFloat α] (s : Scheme) (θ Ω φ : α)
    (name : Option String) (c : DrivenControl α) (h : s.call θ Ω φ name = .ok c) : c.Constructed := by
  have fin : ∀ {β : Type} {c : DrivenControl α} {x : Except PyErr β} {f : β → Except PyErr (DrivenControl α)},
      (∀ b c, f b = .ok c → c.Constructed) → x >>= f = .ok c → c.Constructed := by
    intro β c x f hf hx
    cases x with
    | error e => cases hx
    | ok b => exact hf b c hx
  cases s <;> 
    simp only [Scheme.call, newPrimitiveControl, newBB1Control, newSK1Control, newScrofulousControl, newCorpseControl,
      newCorpseInBB1Control, newCorpseInSK1Control, newCorpseInScrofulousControl, newWamf1Control] at h <;>
    refine fin (fun _ c h => ?_) h
  all_goals first
    | exact ⟨_, _, _, _, _, h⟩
    | (refine fin (fun _ c h => ?_) h; exact ⟨_, _, _, _, _, h⟩)

/-- An accepted maximum Rabi rate is positive. -/
theorem call_rate (s : Scheme) (θ Ω φ : ℝ) (name : Option String) (c : DrivenControl ℝ)
    (h : s.call θ Ω φ name = .ok c) : 0 < Ω := by
  cases s
  · exact ((newPrimitiveControl_spec θ Ω φ name).ok h).1.1
  · exact ((newBB1Control_spec θ Ω φ name).ok h).1.1
  · exact ((newSK1Control_spec θ Ω φ name).ok h).1.1
  · exact ((newScrofulousControl_spec θ Ω φ name).ok h).1.1
  · exact ((newCorpseControl_spec θ Ω φ name).ok h).1.1
  · exact ((newCorpseInBB1Control_spec θ Ω φ name).ok h).1.1
  · exact ((newCorpseInSK1Control_spec θ Ω φ name).ok h).1.1
  · exact ((newCorpseInScrofulousControl_spec θ Ω φ name).ok h).1.1
  · exact ((newWamf1Control_spec θ Ω φ name).ok h).1.1

end OpenControls
