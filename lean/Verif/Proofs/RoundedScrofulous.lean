import Verif.Proofs.RoundedCorpse
import Verif.Proofs.ScrofulousBounds
import Mathlib.Analysis.SpecialFunctions.Trigonometric.InverseDeriv
import Mathlib.Analysis.Calculus.MeanValue

/-!
# SCROFULOUS and WAMF1 pulses in rounded arithmetic
-/

namespace OpenControls

open Spec Fl

open scoped Matrix.Norms.L2Operator

variable {r : Rounding}

/-- `arccos` away from the ends of its domain -/
theorem arccos_dist {x y : ℝ} (hx : |x| ≤ 19 / 20) (hy : |y| ≤ 19 / 20) :
    |Real.arccos x - Real.arccos y| ≤ 33 / 10 * |x - y| := by
  have hd : ∀ z ∈ Set.Icc (-(19 / 20) : ℝ) (19 / 20), DifferentiableAt ℝ Real.arccos z := by
    intro z hz
    exact Real.differentiableAt_arccos.mpr ⟨by rintro rfl; norm_num at hz, by rintro rfl; norm_num at hz⟩
  have hb : ∀ z ∈ Set.Icc (-(19 / 20) : ℝ) (19 / 20), ‖deriv Real.arccos z‖ ≤ 33 / 10 := by
    intro z hz
    rw [Real.deriv_arccos, norm_neg, Real.norm_eq_abs, abs_of_nonneg (by positivity)]
    have hz2 : z ^ 2 ≤ 361 / 400 := by
      have := sq_le_sq' hz.1 hz.2; norm_num at this; exact this
    have h1 : (10 / 33 : ℝ) ≤ Real.sqrt (1 - z ^ 2) := by
      apply Real.le_sqrt_of_sq_le; norm_num; linarith
    rw [div_le_iff₀ (by linarith)]
    linarith
  have := (convex_Icc (-(19 / 20) : ℝ) (19 / 20)).norm_image_sub_le_of_norm_deriv_le hd hb
    (abs_le.mp hy) (abs_le.mp hx)
  simpa [Real.norm_eq_abs] using this

theorem rel_lit (q : ℚ) : Rel r 1 (PyFloat.lit q : Fl r).val q := by
  rw [val_lit]; exact Rel.of_rnd _

theorem rel_pi : Rel r 1 (PyFloat.pi : Fl r).val Real.pi := by
  rw [val_pi]; exact Rel.of_rnd _

theorem rel_degrees (d : ℚ) : Rel r 5 (degreesToRadians (PyFloat.lit d) : Fl r).val (d / 180 * Real.pi) := by
  unfold degreesToRadians
  rw [val_mul, val_div]
  have h1 := ((rel_lit (r := r) d).div (rel_lit 180)).rnd
  have h2 := (h1.mul rel_pi).rnd
  have e : ((180 : ℚ) : ℝ) = 180 := by norm_num
  rw [e] at h2
  exact h2.mono (by norm_num)

theorem Rel.abs_le_of {k a x b : ℝ} (h : Rel r k a x) (hk : k ≤ 20) (hk0 : 0 ≤ k) (hx : |x| ≤ b) :
    |a - x| ≤ 203 / 100 * k * r.u * b := by
  have hw := r.w_le
  have hu := r.u_small.2
  have hu0 := r.u_nonneg
  have hw0 := r.w_nonneg
  have h1 := h.close (by nlinarith)
  have hb : 0 ≤ b := (abs_nonneg x).trans hx
  calc _ ≤ 2 * (k * r.w) * |x| := h1
    _ ≤ 2 * (k * (101 / 100 * r.u)) * b := by gcongr
    _ ≤ _ := by
      have := mul_nonneg (mul_nonneg hk0 hu0) hb
      linarith

/-- what is needed about the computed first angle -/
structure RoundedAngle (θ t : Fl r) (θ₁ : ℝ) : Prop where
  facts : ScrofulousFacts θ₁ θ.val
  rel : Rel r 5 t.val θ₁
  lo : 1 ≤ θ₁
  hi : θ₁ ≤ Real.pi

namespace RoundedAngle

variable {θ t : Fl r} {θ₁ : ℝ} (f : RoundedAngle θ t θ₁)
include f

theorem err : |t.val - θ₁| ≤ 32 * r.u := by
  have hpi := Real.pi_lt_d2
  norm_num at hpi
  have h0 : |θ₁| ≤ 3.15 := by
    rw [abs_of_pos (by linarith [f.lo])]; norm_num; linarith [f.hi]
  have := f.rel.abs_le_of (by norm_num) (by norm_num) h0
  have := r.u_nonneg
  norm_num at *
  linarith

theorem arg1 : |(scrofulousPhi1Arg t θ).val -
    -Real.pi * Real.cos θ₁ / (2 * θ₁ * Real.sin (θ.val / 2))| ≤ 101 * r.u := by
  have hu := r.u_small.1
  have hu0 := r.u_nonneg
  have hs := f.facts.hs
  have hlo := f.lo
  have hpi := Real.pi_pos
  set s := Real.sin (θ.val / 2)
  have r1 : Rel r 16 (scrofulousPhi1Arg t θ).val (-Real.pi * Real.cos t.val / 2 / θ₁ / s) := by
    unfold scrofulousPhi1Arg
    rw [val_div, val_div, val_div, val_mul, val_neg, val_cos, val_sin, half_rounded]
    have h1 : Rel r 1 (-(PyFloat.pi : Fl r).val) (-Real.pi) := by
      obtain ⟨e, he, h⟩ := rel_pi (r := r)
      exact ⟨e, he, by rw [h]; ring⟩
    have h2 := (h1.mul (Rel.lib r.cos t.val)).rnd
    have h3 : Rel r 0 (PyFloat.lit 2 : Fl r).val 2 := by
      rw [val_lit]; push_cast; rw [r.rnd_two]; exact Rel.refl _
    have h4 := (((h2.div h3).rnd.div f.rel).rnd.div (Rel.lib r.sin (θ.val / 2))).rnd
    exact h4.mono (by norm_num)
  -- the exact quotient at the computed angle
  have hc := cos_sub_le t.val θ₁
  have he := f.err
  have hq : 0 ≤ Real.pi / (2 * θ₁) := by positivity
  have hb2 : Real.pi / (2 * θ₁) ≤ 47 / 50 := by
    have := f.facts.b2
    rwa [neg_div, abs_neg, abs_of_nonneg hq] at this
  have hi : 1 / s ≤ 50 / 19 := by
    rw [div_le_iff₀ hs]; have := f.facts.bs; linarith
  have e1 : -Real.pi * Real.cos t.val / 2 / θ₁ / s - -Real.pi * Real.cos θ₁ / (2 * θ₁ * s) =
      -(Real.pi / (2 * θ₁) * (1 / s) * (Real.cos t.val - Real.cos θ₁)) := by
    field_simp; ring
  have d1 : |-Real.pi * Real.cos t.val / 2 / θ₁ / s - -Real.pi * Real.cos θ₁ / (2 * θ₁ * s)| ≤ 80 * r.u := by
    rw [e1, abs_neg, abs_mul, abs_of_nonneg (by positivity)]
    calc _ ≤ 47 / 50 * (50 / 19) * (32 * r.u) := by
          gcongr
          exact hc.trans he
      _ ≤ _ := by linarith
  have a1 : |-Real.pi * Real.cos t.val / 2 / θ₁ / s| ≤ 3 / 5 + 80 * r.u := by
    have := abs_sub_abs_le_abs_sub (-Real.pi * Real.cos t.val / 2 / θ₁ / s)
      (-Real.pi * Real.cos θ₁ / (2 * θ₁ * s))
    linarith [f.facts.b1]
  have d2 := r1.abs_le_of (by norm_num) (by norm_num) a1
  have d3 := abs_sub_le (scrofulousPhi1Arg t θ).val (-Real.pi * Real.cos t.val / 2 / θ₁ / s)
    (-Real.pi * Real.cos θ₁ / (2 * θ₁ * s))
  have : r.u * r.u ≤ 1 / 1000000 * 2 * r.u := mul_le_mul_of_nonneg_right hu hu0
  linarith

theorem arg2 : |(scrofulousPhi2Arg t).val - -Real.pi / (2 * θ₁)| ≤ 16 * r.u := by
  have r1 : Rel r 8 (scrofulousPhi2Arg t).val (-Real.pi / 2 / θ₁) := by
    unfold scrofulousPhi2Arg
    rw [val_div, val_div, val_neg]
    have h1 : Rel r 1 (-(PyFloat.pi : Fl r).val) (-Real.pi) := by
      obtain ⟨e, he, h⟩ := rel_pi (r := r)
      exact ⟨e, he, by rw [h]; ring⟩
    have h3 : Rel r 0 (PyFloat.lit 2 : Fl r).val 2 := by
      rw [val_lit]; push_cast; rw [r.rnd_two]; exact Rel.refl _
    exact (((h1.div h3).rnd.div f.rel).rnd).mono (by norm_num)
  rw [div_div] at r1
  have := r1.abs_le_of (by norm_num) (by norm_num) f.facts.b2
  have := r.u_nonneg
  linarith

/-- the computed `phi_1` -/
theorem phi1 : |(PyFloat.arccos (scrofulousPhi1Arg t θ) : Fl r).val -
    Real.arccos (-Real.pi * Real.cos θ₁ / (2 * θ₁ * Real.sin (θ.val / 2)))| ≤ 340 * r.u := by
  have hu := r.u_small.1
  have hu0 := r.u_nonneg
  have h1 := f.arg1
  have b1 := f.facts.b1
  set A := -Real.pi * Real.cos θ₁ / (2 * θ₁ * Real.sin (θ.val / 2))
  have ha : |(scrofulousPhi1Arg t θ).val| ≤ 19 / 20 := by
    have := abs_sub_abs_le_abs_sub (scrofulousPhi1Arg t θ).val A
    linarith
  have h2 := arccos_dist ha (b1.trans (by norm_num))
  rw [val_arccos]
  have h3 := r.arccos.close (scrofulousPhi1Arg t θ).val
  have hpi : Real.pi ≤ 3.15 := by have := Real.pi_lt_d2; norm_num at this ⊢; linarith
  rw [abs_of_nonneg (Real.arccos_nonneg _)] at h3
  have h4 := mul_le_mul_of_nonneg_left ((Real.arccos_le_pi (scrofulousPhi1Arg t θ).val).trans hpi)
    (by linarith : 0 ≤ 2 * r.u)
  have h5 := abs_sub_le (r.arccos.f (scrofulousPhi1Arg t θ).val) (Real.arccos (scrofulousPhi1Arg t θ).val)
    (Real.arccos A)
  norm_num at h4
  linarith

theorem phi2' : |(PyFloat.arccos (scrofulousPhi2Arg t) : Fl r).val -
    Real.arccos (-Real.pi / (2 * θ₁))| ≤ 60 * r.u := by
  have hu := r.u_small.1
  have hu0 := r.u_nonneg
  have h1 := f.arg2
  have b1 := f.facts.b2
  set A := -Real.pi / (2 * θ₁)
  have ha : |(scrofulousPhi2Arg t).val| ≤ 19 / 20 := by
    have := abs_sub_abs_le_abs_sub (scrofulousPhi2Arg t).val A
    linarith
  have h2 := arccos_dist ha (b1.trans (by norm_num))
  rw [val_arccos]
  have h3 := r.arccos.close (scrofulousPhi2Arg t).val
  have hpi : Real.pi ≤ 3.15 := by have := Real.pi_lt_d2; norm_num at this ⊢; linarith
  rw [abs_of_nonneg (Real.arccos_nonneg _)] at h3
  have h4 := mul_le_mul_of_nonneg_left ((Real.arccos_le_pi (scrofulousPhi2Arg t).val).trans hpi)
    (by linarith : 0 ≤ 2 * r.u)
  have h5 := abs_sub_le (r.arccos.f (scrofulousPhi2Arg t).val) (Real.arccos (scrofulousPhi2Arg t).val)
    (Real.arccos A)
  norm_num at h4
  linarith

end RoundedAngle

/-- a rounded sum -/
theorem add_err {a b : Fl r} {x e B : ℝ} (hb : |b.val - x| ≤ e * r.u) (hB : |x| ≤ B) (he : 0 ≤ e) (he' : e ≤ 1000) :
    |(a + b : Fl r).val - (a.val + x)| ≤ (|a.val| + B + e + 1 / 100) * r.u ∧
    |b.val| ≤ B + 1 / 100 := by
  have hu := r.u_small.1
  have hu0 := r.u_nonneg
  rw [val_add]
  have h1 := r.close (a.val + b.val)
  have h2 : |b.val| ≤ B + 1 / 100 := by
    have := abs_sub_abs_le_abs_sub b.val x
    have : e * r.u ≤ 1000 * r.u := mul_le_mul_of_nonneg_right he' hu0
    linarith
  refine ⟨?_, h2⟩
  have h3 := mul_le_mul_of_nonneg_left ((abs_add_le a.val b.val).trans (add_le_add le_rfl h2)) hu0
  have h4 := abs_sub_le (r.rnd (a.val + b.val)) (a.val + b.val) (a.val + x)
  rw [add_sub_add_left_eq_sub] at h4
  linarith

theorem sub_err {a b : Fl r} {x y e d : ℝ} (ha : |a.val - x| ≤ d * r.u) (hb : |b.val - y| ≤ e * r.u)
    (hx : |x| ≤ 3.15) (hy : |y| ≤ 3.15) (hd : d ≤ 1000) (he' : e ≤ 1000) :
    |(a - b : Fl r).val - (x - y)| ≤ (d + e + 7) * r.u := by
  have hu := r.u_small.1
  have hu0 := r.u_nonneg
  rw [val_sub]
  have h1 := r.close (a.val - b.val)
  have h2 : |b.val| ≤ 3.16 := by
    have := abs_sub_abs_le_abs_sub b.val y
    have : e * r.u ≤ 1000 * r.u := mul_le_mul_of_nonneg_right he' hu0
    norm_num at *; linarith
  have h2' : |a.val| ≤ 3.16 := by
    have := abs_sub_abs_le_abs_sub a.val x
    have : d * r.u ≤ 1000 * r.u := mul_le_mul_of_nonneg_right hd hu0
    norm_num at *; linarith
  have h3 := mul_le_mul_of_nonneg_left ((abs_sub a.val b.val).trans (add_le_add h2' h2)) hu0
  have h4 := abs_sub_le (r.rnd (a.val - b.val)) (a.val - b.val) (x - y)
  have h5 : |a.val - b.val - (x - y)| ≤ |a.val - x| + |b.val - y| := by
    rw [show a.val - b.val - (x - y) = (a.val - x) - (b.val - y) by ring]
    exact abs_sub _ _
  norm_num at h3
  linarith

/-- the three pulses SCROFULOUS computes -/
noncomputable def roundedScrofulous (t θ φ : Fl r) : List (Fl r × Fl r) :=
  [(t, φ + PyFloat.arccos (scrofulousPhi1Arg t θ)),
   (PyFloat.pi, φ + (PyFloat.arccos (scrofulousPhi1Arg t θ) - PyFloat.arccos (scrofulousPhi2Arg t))),
   (t, φ + PyFloat.arccos (scrofulousPhi1Arg t θ))]

theorem arccos_abs_le (x : ℝ) : |Real.arccos x| ≤ 3.15 := by
  rw [abs_of_nonneg (Real.arccos_nonneg _)]
  have := Real.pi_lt_d2
  have := Real.arccos_le_pi x
  norm_num at *; linarith

theorem arccos_sub_abs_le (x y : ℝ) : |Real.arccos x - Real.arccos y| ≤ 3.15 := by
  have := Real.pi_lt_d2
  have := Real.arccos_le_pi x
  have := Real.arccos_nonneg x
  have := Real.arccos_le_pi y
  have := Real.arccos_nonneg y
  rw [abs_le]
  norm_num at *; constructor <;> linarith

theorem scrofulous_table_dist {θ t : Fl r} {θ₁ : ℝ} (f : RoundedAngle θ t θ₁) (φ : Fl r) :
    ‖tableEvolution (realTable (roundedScrofulous t θ φ)) -
      tableEvolution (scrofulousTable θ₁ θ.val φ.val)‖ ≤ (1140 + 3 * |φ.val|) * r.u := by
  have hu0 := r.u_nonneg
  have h1 := (add_err (a := φ) f.phi1 (arccos_abs_le _) (by norm_num) (by norm_num)).1
  have h2 := (add_err (a := φ) (sub_err f.phi1 f.phi2' (arccos_abs_le _) (arccos_abs_le _)
    (by norm_num) (by norm_num)) (arccos_sub_abs_le _ _) (by norm_num) (by norm_num)).1
  have h3 := f.err
  have h4 := pi_error (r := r)
  refine (tableEvolution_dist (by simp [realTable, roundedScrofulous, scrofulousTable])).trans ?_
  simp only [realTable, roundedScrofulous, scrofulousTable, List.map_cons, List.map_nil, tableError, val_pi]
  norm_num at h1 h2 ⊢
  linarith

theorem scrofulous_total {θ t : Fl r} {θ₁ : ℝ} (f : RoundedAngle θ t θ₁) (φ : Fl r) :
    totalAngle (realTable (roundedScrofulous t θ φ)) ≤ 9.5 := by
  have hu := r.u_small.1
  have h3 := f.err
  have hb := rnd_pi_bounds (r := r)
  have hpi := Real.pi_lt_d2
  norm_num at hb hpi
  simp only [totalAngle, realTable, roundedScrofulous, List.map_cons, List.map_nil, List.sum_cons,
    List.sum_nil, val_pi]
  rw [abs_of_pos (by linarith : 0 < r.rnd Real.pi)]
  have := abs_sub_abs_le_abs_sub t.val θ₁
  rw [abs_of_pos (by linarith [f.lo] : 0 < θ₁)] at this
  norm_num
  linarith [f.hi]

/-- entrywise distance from the requested rotation -/
theorem evolution_scrofulous_rounded {θ t Ω : Fl r} (hΩ : 0 < Ω.val) {θ₁ : ℝ} (f : RoundedAngle θ t θ₁)
    (φ : Fl r) (name : Option String) (i j : Fin 2) :
    ‖(evolution ((roundedControl Ω (roundedScrofulous t θ φ) name).map val) - rotation θ.val φ.val) i j‖ ≤
      3 / 1000 + (1200 + 3 * |φ.val|) * r.u := by
  have h1 := evolution_total hΩ name (scrofulous_table_dist f φ) (scrofulous_total f φ)
  have h2 := (entry_le_norm _ i j).trans h1
  have h3 := f.facts.dist φ.val i j
  rw [Matrix.sub_apply] at h2 h3 ⊢
  have h4 := norm_sub_le_norm_sub_add_norm_sub
    (evolution ((roundedControl Ω (roundedScrofulous t θ φ) name).map val) i j)
    (tableEvolution (scrofulousTable θ₁ θ.val φ.val) i j) (rotation θ.val φ.val i j)
  have := r.u_nonneg
  norm_num at h2
  linarith

/-- the nine pulses CORPSE in SCROFULOUS computes -/
noncomputable def roundedCorpseScrofulous (t θ φ : Fl r) : List (Fl r × Fl r) :=
  corpseBlock φ t (PyFloat.arccos (scrofulousPhi1Arg t θ)) ++
  corpseBlock φ PyFloat.pi (PyFloat.arccos (scrofulousPhi1Arg t θ) - PyFloat.arccos (scrofulousPhi2Arg t)) ++
  corpseBlock φ t (PyFloat.arccos (scrofulousPhi1Arg t θ))

theorem corpseBlock_rounded (φ t ψ : Fl r) :
    corpseBlock φ t ψ = roundedCorpse t (φ + ψ) (PyFloat.pi + ψ + φ) := by
  unfold corpseBlock roundedCorpse
  rw [add_comm_rounded ψ φ]

/-- the axis of the middle pulse of a block -/
theorem block_axis {ψ φ : Fl r} (h : |ψ.val| ≤ 3.16) :
    |(PyFloat.pi + ψ + φ : Fl r).val - ((φ + ψ : Fl r).val + Real.pi)| ≤ (20 + 2 * |φ.val|) * r.u := by
  have hu := r.u_small.1
  have hu0 := r.u_nonneg
  rw [val_add, val_add, val_add, val_pi]
  have hb := rnd_pi_bounds (r := r)
  have hp := pi_error (r := r)
  norm_num at hb h
  have h1 := r.close (r.rnd Real.pi + ψ.val)
  have h2 : |r.rnd Real.pi + ψ.val| ≤ 6.31 := by
    refine (abs_add_le _ _).trans ?_
    rw [abs_of_pos (by linarith : 0 < r.rnd Real.pi)]
    norm_num; linarith
  have h1' := mul_le_mul_of_nonneg_left h2 hu0
  set x := r.rnd (r.rnd Real.pi + ψ.val)
  have h3 : |x| ≤ 6.32 := by
    have := abs_sub_abs_le_abs_sub x (r.rnd Real.pi + ψ.val)
    norm_num at *
    linarith
  have h4 := r.close (x + φ.val)
  have h5 := mul_le_mul_of_nonneg_left ((abs_add_le x φ.val).trans (add_le_add h3 le_rfl)) hu0
  have h6 := r.close (φ.val + ψ.val)
  have h7 := mul_le_mul_of_nonneg_left ((abs_add_le φ.val ψ.val).trans (add_le_add le_rfl h)) hu0
  norm_num at h1' h5 h7
  have e : r.rnd (x + φ.val) - (r.rnd (φ.val + ψ.val) + Real.pi) =
      (r.rnd (x + φ.val) - (x + φ.val)) + (x - (r.rnd Real.pi + ψ.val)) -
      (r.rnd (φ.val + ψ.val) - (φ.val + ψ.val)) + (r.rnd Real.pi - Real.pi) := by ring
  rw [e]
  have t1 := abs_add_le ((r.rnd (x + φ.val) - (x + φ.val)) + (x - (r.rnd Real.pi + ψ.val)) -
      (r.rnd (φ.val + ψ.val) - (φ.val + ψ.val))) (r.rnd Real.pi - Real.pi)
  have t2 := abs_sub ((r.rnd (x + φ.val) - (x + φ.val)) + (x - (r.rnd Real.pi + ψ.val)))
      (r.rnd (φ.val + ψ.val) - (φ.val + ψ.val))
  have t3 := abs_add_le (r.rnd (x + φ.val) - (x + φ.val)) (x - (r.rnd Real.pi + ψ.val))
  linarith

theorem block_dist {t ψ φ : Fl r} (ht : 0 < t.val) (ht' : t.val ≤ 3.16) (h : |ψ.val| ≤ 3.16) :
    ‖tableEvolution (realTable (corpseBlock φ t ψ)) - rotation t.val (φ + ψ : Fl r).val‖ ≤
      (41 + 2 * |φ.val|) * r.u ∧ totalAngle (realTable (corpseBlock φ t ψ)) ≤ 20.3 := by
  rw [corpseBlock_rounded]
  have h1 := corpse_rounded ht (φ + ψ) (PyFloat.pi + ψ + φ)
  have h2 := block_axis (φ := φ) h
  have h3 := corpse_rounded_total ht (φ + ψ) (PyFloat.pi + ψ + φ)
  have h4 := mul_le_mul_of_nonneg_right ht' r.u_nonneg
  have h5 := r.u_nonneg
  norm_num at *
  constructor <;> linarith

theorem evolution_corpseScrofulous_rounded {θ t Ω : Fl r} (hΩ : 0 < Ω.val) {θ₁ : ℝ}
    (f : RoundedAngle θ t θ₁) (φ : Fl r) (name : Option String) (i j : Fin 2) :
    ‖(evolution ((roundedControl Ω (roundedCorpseScrofulous t θ φ) name).map val) -
      rotation θ.val φ.val) i j‖ ≤ 3 / 1000 + (1300 + 9 * |φ.val|) * r.u := by
  have hu := r.u_small.1
  have hu0 := r.u_nonneg
  have ht0 : 0 < t.val := f.rel.pos (by linarith [f.lo])
  have ht : t.val ≤ 3.16 := by
    have := (abs_le.mp f.err).2
    have := Real.pi_lt_d2
    have := f.hi
    norm_num at *; linarith
  have hp : (PyFloat.pi : Fl r).val ≤ 3.16 := by
    have := (rnd_pi_bounds (r := r)).2
    rw [val_pi]; norm_num at *; linarith
  have q1 := (add_err (a := φ) f.phi1 (arccos_abs_le _) (by norm_num) (by norm_num)).2
  have q2 := (add_err (a := φ) (sub_err f.phi1 f.phi2' (arccos_abs_le _) (arccos_abs_le _)
    (by norm_num) (by norm_num)) (arccos_sub_abs_le _ _) (by norm_num) (by norm_num)).2
  obtain ⟨b1, a1⟩ := block_dist (φ := φ) ht0 ht (q1.trans (by norm_num))
  obtain ⟨b2, a2⟩ := block_dist (φ := φ) pi_val_pos hp (q2.trans (by norm_num))
  have d : ‖tableEvolution (realTable (roundedCorpseScrofulous t θ φ)) -
      tableEvolution (scrofulousTable θ₁ θ.val φ.val)‖ ≤
      (1140 + 3 * |φ.val|) * r.u + 3 * ((41 + 2 * |φ.val|) * r.u) := by
    have h1 := scrofulous_table_dist f φ
    have h2 : ‖tableEvolution (realTable (roundedCorpseScrofulous t θ φ)) -
        tableEvolution (realTable (roundedScrofulous t θ φ))‖ ≤ 3 * ((41 + 2 * |φ.val|) * r.u) := by
      rw [roundedCorpseScrofulous, realTable_append, realTable_append, tableEvolution_append,
        tableEvolution_append]
      simp only [roundedScrofulous, realTable, List.map_cons, List.map_nil, tableEvolution_cons,
        tableEvolution_nil, one_mul]
      simp only [realTable] at b1 b2
      have n1 := tableEvolution_norm ((corpseBlock φ t (PyFloat.arccos (scrofulousPhi1Arg t θ))).map
        fun p => (p.1.val, p.2.val))
      have n2 := tableEvolution_norm ((corpseBlock φ PyFloat.pi (PyFloat.arccos (scrofulousPhi1Arg t θ) -
        PyFloat.arccos (scrofulousPhi2Arg t))).map fun p => (p.1.val, p.2.val))
      rw [mul_assoc (rotation _ _)]
      have m1 := mul_dist (A := tableEvolution ((corpseBlock φ t (PyFloat.arccos (scrofulousPhi1Arg t θ))).map
        fun p => (p.1.val, p.2.val))) (A' := rotation t.val (φ + PyFloat.arccos (scrofulousPhi1Arg t θ)).val)
        (B := tableEvolution ((corpseBlock φ PyFloat.pi (PyFloat.arccos (scrofulousPhi1Arg t θ) -
        PyFloat.arccos (scrofulousPhi2Arg t))).map fun p => (p.1.val, p.2.val)) *
          tableEvolution ((corpseBlock φ t (PyFloat.arccos (scrofulousPhi1Arg t θ))).map
        fun p => (p.1.val, p.2.val)))
        (B' := rotation (PyFloat.pi : Fl r).val (φ + (PyFloat.arccos (scrofulousPhi1Arg t θ) -
        PyFloat.arccos (scrofulousPhi2Arg t))).val * rotation t.val (φ + PyFloat.arccos (scrofulousPhi1Arg t θ)).val)
        ((norm_mul_le _ _).trans (mul_le_one₀ n2 (norm_nonneg _) n1)) (rotation_norm _ _).le
      have m2 := mul_dist (A := tableEvolution ((corpseBlock φ PyFloat.pi (PyFloat.arccos (scrofulousPhi1Arg t θ) -
        PyFloat.arccos (scrofulousPhi2Arg t))).map fun p => (p.1.val, p.2.val)))
        (B' := rotation t.val (φ + PyFloat.arccos (scrofulousPhi1Arg t θ)).val)
        n1 (rotation_norm (PyFloat.pi : Fl r).val (φ + (PyFloat.arccos (scrofulousPhi1Arg t θ) -
        PyFloat.arccos (scrofulousPhi2Arg t))).val).le
      linarith
    have h3 := norm_sub_le_norm_sub_add_norm_sub (tableEvolution (realTable (roundedCorpseScrofulous t θ φ)))
      (tableEvolution (realTable (roundedScrofulous t θ φ))) (tableEvolution (scrofulousTable θ₁ θ.val φ.val))
    linarith
  have tot : totalAngle (realTable (roundedCorpseScrofulous t θ φ)) ≤ 61 := by
    rw [roundedCorpseScrofulous, realTable_append, realTable_append, totalAngle_append, totalAngle_append]
    norm_num at a1 a2
    linarith
  have h1 := evolution_total hΩ name d tot
  have h2 := (entry_le_norm _ i j).trans h1
  have h3 := f.facts.dist φ.val i j
  rw [Matrix.sub_apply] at h2 h3 ⊢
  have h4 := norm_sub_le_norm_sub_add_norm_sub
    (evolution ((roundedControl Ω (roundedCorpseScrofulous t θ φ) name).map val) i j)
    (tableEvolution (scrofulousTable θ₁ θ.val φ.val) i j) (rotation θ.val φ.val i j)
  linarith

end OpenControls
