import Verif.Proofs.ExactError

/-!
# Lemmas for C107: the size of the error of CORPSE under a small constant detuning
-/

namespace OpenControls

open Spec Filter Asymptotics Topology
open scoped Matrix.Norms.L2Operator

/-- a quaternion with its two equatorial components along and across the direction `φ` -/
noncomputable def frame (φ w x y z : ℝ) : M2 :=
  su2 w (x * Real.cos φ - y * Real.sin φ) (x * Real.sin φ + y * Real.cos φ) z

theorem frame_mul (φ a b c d a' b' c' d' : ℝ) :
    frame φ a b c d * frame φ a' b' c' d' =
      frame φ (a * a' - b * b' - c * c' - d * d') (a * b' + b * a' + c * d' - d * c')
        (a * c' - b * d' + c * a' + d * b') (a * d' + b * c' - c * b' + d * a') := by
  unfold frame
  rw [su2_mul, su2_inj]
  have q := Real.cos_sq_add_sin_sq φ
  generalize Real.cos φ = x at *
  generalize Real.sin φ = y at *
  refine ⟨?_, by ring, by ring, ?_⟩
  · linear_combination (-b * b' - c * c') * q
  · linear_combination (b * c' - c * b') * q

theorem frame_dist (φ a b c d a' b' c' d' : ℝ) :
    ‖frame φ a b c d - frame φ a' b' c' d'‖ =
      √((a - a') ^ 2 + (b - b') ^ 2 + (c - c') ^ 2 + (d - d') ^ 2) := by
  unfold frame
  rw [← Real.sqrt_sq (norm_nonneg (_ - _)), su2_sub, su2_norm_sq]
  congr 1
  linear_combination ((b - b') ^ 2 + (c - c') ^ 2) * Real.cos_sq_add_sin_sq φ

theorem rotation_frame (θ φ : ℝ) :
    rotation θ φ = frame φ (Real.cos (θ / 2)) (Real.sin (θ / 2)) 0 0 := by
  rw [rotation_eq, frame, su2_inj]
  refine ⟨rfl, by ring, by ring, rfl⟩

/-- the growth of the rotation rate under a detuning `e` times the Rabi rate -/
noncomputable def growth (e : ℝ) : ℝ := √(1 + e ^ 2)

theorem growth_pos (e : ℝ) : 0 < growth e := Real.sqrt_pos.2 (by positivity)

theorem growth_sq (e : ℝ) : growth e ^ 2 = 1 + e ^ 2 := Real.sq_sqrt (by positivity)

theorem segment_frame {Ω : ℝ} (hΩ : 0 < Ω) (φ e a : ℝ) :
    segmentUnitary Ω φ (e * Ω) (2 * a / Ω) = frame φ (Real.cos (a * growth e))
      (Real.sin (a * growth e) * (growth e)⁻¹) 0 (e * (Real.sin (a * growth e) * (growth e)⁻¹)) := by
  have hg := growth_pos e
  rw [segmentUnitary_eq Ω φ (e * Ω) (2 * a / Ω) (Ω * growth e)
    (by rw [mul_pow, growth_sq]; ring) (by positivity), frame, su2_inj]
  have e1 : Ω * growth e * (2 * a / Ω) / 2 = a * growth e := by field_simp
  rw [e1]
  refine ⟨rfl, ?_, ?_, ?_⟩ <;> field_simp <;> ring

theorem segment_frame_pi {Ω : ℝ} (hΩ : 0 < Ω) (φ e a : ℝ) :
    segmentUnitary Ω (φ + Real.pi) (e * Ω) (2 * a / Ω) = frame φ (Real.cos (a * growth e))
      (-(Real.sin (a * growth e) * (growth e)⁻¹)) 0
      (e * (Real.sin (a * growth e) * (growth e)⁻¹)) := by
  rw [segment_frame hΩ, frame, frame, su2_inj, Real.cos_add_pi, Real.sin_add_pi]
  refine ⟨rfl, by ring, by ring, rfl⟩

theorem near_zero {ε : ℝ} (h : 0 < ε) : ∀ᶠ e : ℝ in 𝓝 0, |e| ≤ ε := by
  have hc : Continuous fun e : ℝ => |e| := by fun_prop
  exact (hc.tendsto 0).eventually (Iic_mem_nhds (by simpa using h))

theorem jet_id : Jet (fun e => e) 0 1 0 0 := by
  unfold Jet
  have : (fun e : ℝ => e - (0 + 1 * e + 0 * e ^ 2 + 0 * e ^ 3)) = fun _ => 0 := by
    funext e; ring
  rw [this]
  exact isBigO_zero _ _

theorem jet_growth : Jet growth 1 0 (1 / 2) 0 := by
  refine IsBigO.of_bound 1 (Eventually.of_forall fun e => ?_)
  have h := growth_sq e
  have h0 := growth_pos e
  rw [Real.norm_eq_abs, Real.norm_eq_abs, one_mul, abs_of_nonneg (show 0 ≤ e ^ 4 by positivity)]
  have hm : (growth e - (1 + 0 * e + 1 / 2 * e ^ 2 + 0 * e ^ 3)) * (growth e + 1 + e ^ 2 / 2) =
      -e ^ 4 / 4 := by linear_combination h
  have hp : 1 ≤ growth e + 1 + e ^ 2 / 2 := by nlinarith [sq_nonneg e]
  have ha := congrArg abs hm
  rw [abs_mul, abs_of_pos (by linarith : 0 < growth e + 1 + e ^ 2 / 2), neg_div, abs_neg,
    abs_of_nonneg (by positivity : 0 ≤ e ^ 4 / 4)] at ha
  have := mul_le_mul_of_nonneg_left hp (abs_nonneg (growth e - (1 + 0 * e + 1 / 2 * e ^ 2 + 0 * e ^ 3)))
  have h4 : 0 ≤ e ^ 4 := by positivity
  linarith

theorem jet_growth_inv : Jet (fun e => (growth e)⁻¹) 1 0 (-1 / 2) 0 := by
  refine IsBigO.of_bound 2 ?_
  filter_upwards [near_zero one_pos] with e he
  have h := growth_sq e
  have h0 := growth_pos e
  have he2 : e ^ 2 ≤ 1 := by rw [← sq_abs]; nlinarith [abs_nonneg e]
  rw [Real.norm_eq_abs, Real.norm_eq_abs, abs_of_nonneg (show 0 ≤ e ^ 4 by positivity)]
  have hi : (growth e)⁻¹ ^ 2 * (1 + e ^ 2) = 1 := by rw [← h]; field_simp
  have hi0 : 0 < (growth e)⁻¹ := inv_pos.2 h0
  generalize (growth e)⁻¹ = g at *
  have hm : (g - (1 + 0 * e + -1 / 2 * e ^ 2 + 0 * e ^ 3)) * ((g + 1 - e ^ 2 / 2) * (1 + e ^ 2)) =
      e ^ 4 * (3 - e ^ 2) / 4 := by linear_combination hi
  have hp : 1 / 2 ≤ (g + 1 - e ^ 2 / 2) * (1 + e ^ 2) := by
    have : 1 / 2 ≤ g + 1 - e ^ 2 / 2 := by linarith
    nlinarith [sq_nonneg e]
  have ha := congrArg abs hm
  rw [abs_mul, abs_of_pos (by linarith : 0 < (g + 1 - e ^ 2 / 2) * (1 + e ^ 2)), abs_of_nonneg
    (by have : 0 ≤ 3 - e ^ 2 := by linarith
        positivity : 0 ≤ e ^ 4 * (3 - e ^ 2) / 4)] at ha
  have := mul_le_mul_of_nonneg_left hp (abs_nonneg (g - (1 + 0 * e + -1 / 2 * e ^ 2 + 0 * e ^ 3)))
  have h4 : 0 ≤ e ^ 4 * e ^ 2 := by positivity
  have h4' : 0 ≤ e ^ 4 := by positivity
  linarith

/-- a function of second order -/
theorem jet_small {f : ℝ → ℝ} {c d : ℝ} (h : Jet f 0 0 c d) : f =O[𝓝 0] fun e : ℝ => e ^ 2 := by
  unfold Jet at h
  have h1 : (fun e : ℝ => e ^ 4) =O[𝓝 0] fun e : ℝ => e ^ 2 :=
    (isLittleO_pow_pow (by norm_num)).isBigO
  have h2 : (fun e : ℝ => e ^ 3) =O[𝓝 0] fun e : ℝ => e ^ 2 :=
    (isLittleO_pow_pow (by norm_num)).isBigO
  have h3 := ((h.trans h1).add ((isBigO_refl (fun e : ℝ => e ^ 2) (𝓝 0)).const_mul_left c)).add
    (h2.const_mul_left d)
  refine h3.congr_left fun e => ?_
  ring

theorem jet_cos_small {f : ℝ → ℝ} {c d : ℝ} (h : Jet f 0 0 c d) :
    Jet (fun e => Real.cos (f e)) 1 0 0 0 := by
  have h2 := (jet_small h).pow 2
  have h3 : (fun e => Real.cos (f e) - 1) =O[𝓝 0] fun e => f e ^ 2 := by
    refine IsBigO.of_bound 1 (Eventually.of_forall fun e => ?_)
    rw [Real.norm_eq_abs, Real.norm_eq_abs, one_mul, abs_of_nonneg (sq_nonneg (f e)), abs_le]
    have := Real.one_sub_sq_div_two_le_cos (x := f e)
    have := Real.cos_le_one (f e)
    have := sq_nonneg (f e)
    constructor <;> linarith
  unfold Jet
  refine ((h3.trans h2).congr_left fun e => ?_).congr_right fun e => ?_
  · ring
  · ring

theorem jet_sin_small {f : ℝ → ℝ} {c d : ℝ} (h : Jet f 0 0 c d) :
    Jet (fun e => Real.sin (f e)) 0 0 c d := by
  have hs := jet_small h
  have h3 : (fun e => Real.sin (f e) - f e) =O[𝓝 0] fun e => f e ^ 2 := by
    have ht : Tendsto f (𝓝 0) (𝓝 0) := by
      refine hs.trans_tendsto ?_
      have : Continuous fun e : ℝ => e ^ 2 := by fun_prop
      simpa using this.tendsto 0
    refine IsBigO.of_bound 1 ?_
    filter_upwards [ht.eventually (near_zero one_pos)] with e he
    have hb := Real.sin_bound he
    rw [Real.norm_eq_abs, Real.norm_eq_abs, one_mul, abs_pow]
    have h1 : |Real.sin (f e) - f e| ≤ |Real.sin (f e) - (f e - f e ^ 3 / 6)| + |f e| ^ 3 / 6 := by
      rw [← abs_pow, show |f e ^ 3| / 6 = |f e ^ 3 / 6| by rw [abs_div]; norm_num]
      refine le_trans (le_of_eq ?_) (abs_sub _ _)
      congr 1; ring
    have h5 := pow_le_pow_of_le_one (abs_nonneg (f e)) he (show 2 ≤ 5 by norm_num)
    have h6 := pow_le_pow_of_le_one (abs_nonneg (f e)) he (show 2 ≤ 3 by norm_num)
    have : 0 ≤ |f e| ^ 2 := by positivity
    linarith
  have h4 := h3.trans (hs.pow 2)
  unfold Jet at *
  have h4' : (fun e => Real.sin (f e) - f e) =O[𝓝 0] fun e => e ^ 4 :=
    h4.congr_right fun e => by ring
  refine (h4'.add h).congr_left fun e => ?_
  ring

theorem jet_stretch (a : ℝ) : Jet (fun e => a * (growth e - 1)) 0 0 (a / 2) 0 :=
  ((Jet.const a).mul (jet_growth.sub (Jet.const 1))).congr (by ring) (by ring) (by ring) (by ring)

theorem jet_cos_growth (a : ℝ) :
    Jet (fun e => Real.cos (a * growth e)) (Real.cos a) 0 (-Real.sin a * a / 2) 0 := by
  have h := ((Jet.const (Real.cos a)).mul (jet_cos_small (jet_stretch a))).sub
    ((Jet.const (Real.sin a)).mul (jet_sin_small (jet_stretch a)))
  have e1 : (fun e => Real.cos (a * growth e)) = fun e =>
      Real.cos a * Real.cos (a * (growth e - 1)) - Real.sin a * Real.sin (a * (growth e - 1)) := by
    funext e; rw [← Real.cos_add]; congr 1; ring
  rw [e1]
  exact h.congr (by ring) (by ring) (by ring) (by ring)

theorem jet_sin_growth (a : ℝ) :
    Jet (fun e => Real.sin (a * growth e)) (Real.sin a) 0 (Real.cos a * a / 2) 0 := by
  have h := ((Jet.const (Real.sin a)).mul (jet_cos_small (jet_stretch a))).add
    ((Jet.const (Real.cos a)).mul (jet_sin_small (jet_stretch a)))
  have e1 : (fun e => Real.sin (a * growth e)) = fun e =>
      Real.sin a * Real.cos (a * (growth e - 1)) + Real.cos a * Real.sin (a * (growth e - 1)) := by
    funext e; rw [← Real.sin_add]; congr 1; ring
  rw [e1]
  exact h.congr (by ring) (by ring) (by ring) (by ring)

theorem jet_sin_growth_div (a : ℝ) :
    Jet (fun e => Real.sin (a * growth e) * (growth e)⁻¹) (Real.sin a) 0
      (Real.cos a * a / 2 - Real.sin a / 2) 0 :=
  ((jet_sin_growth a).mul jet_growth_inv).congr (by ring) (by ring) (by ring) (by ring)

theorem jet_sin_growth_z (a : ℝ) :
    Jet (fun e => e * (Real.sin (a * growth e) * (growth e)⁻¹)) 0 (Real.sin a) 0
      (Real.cos a * a / 2 - Real.sin a / 2) :=
  (jet_id.mul (jet_sin_growth_div a)).congr (by ring) (by ring) (by ring) (by ring)

theorem corpse_limit {Ω : ℝ} (hΩ : 0 < Ω) (θ φ : ℝ) (name : Option String) :
    Tendsto (fun e => ‖evolution (withDetuningError (e * Ω) (ofTable Ω (corpseTable θ φ) name)) -
        rotation θ φ‖ / e ^ 2) (𝓝[≠] 0)
      (𝓝 |corpseResidue θ|) := by
  have e1 : (fun e => evolution (withDetuningError (e * Ω) (ofTable Ω (corpseTable θ φ) name))) =
      fun e => segmentUnitary Ω φ (e * Ω) (2 * ((θ / 2 - corpseAngle θ) / 2) / Ω) *
        segmentUnitary Ω (φ + Real.pi) (e * Ω) (2 * (Real.pi - corpseAngle θ) / Ω) *
        segmentUnitary Ω φ (e * Ω) (2 * ((θ / 2 - corpseAngle θ) / 2 + Real.pi) / Ω) := by
    funext e
    simp only [evolution, withDetuningError, ofTable, corpseTable, List.map_cons, List.map_nil,
      controlEvolution_cons, controlEvolution_nil, one_mul, zero_add]
    congr 3 <;> ring
  have hk : Real.sin (corpseAngle θ) = Real.sin (θ / 2) / 2 := by
    apply Real.sin_arcsin
    · linarith [Real.neg_one_le_sin (θ / 2)]
    · linarith [Real.sin_le_one (θ / 2)]
  have hres : corpseResidue θ = 2 * Real.sin (corpseAngle θ) * Real.cos (corpseAngle θ) -
      Real.sin (corpseAngle θ) * Real.cos (θ / 2) - θ / 4 := by
    rw [corpseResidue, show Real.arcsin (Real.sin (θ / 2) / 2) = corpseAngle θ from rfl]
    have : Real.sin θ = 2 * Real.sin (θ / 2) * Real.cos (θ / 2) := by
      rw [← Real.sin_two_mul]; congr 1; ring
    rw [Real.sin_two_mul, this, hk]; ring
  set k := corpseAngle θ with hkdef
  set m := (θ / 2 - k) / 2 with hm
  have hθ : θ / 2 = 2 * m + k := by rw [hm]; ring
  have hθ4 : θ / 4 = m + k / 2 := by rw [hm]; ring
  simp only [segment_frame_pi hΩ] at e1
  simp only [segment_frame hΩ, frame_mul] at e1
  have c3 := jet_cos_growth m
  have x3 := jet_sin_growth_div m
  have z3 := jet_sin_growth_z m
  have c2 := jet_cos_growth (Real.pi - k)
  have x2 := (jet_sin_growth_div (Real.pi - k)).neg
  have z2 := jet_sin_growth_z (Real.pi - k)
  have c1 := jet_cos_growth (m + Real.pi)
  have x1 := jet_sin_growth_div (m + Real.pi)
  have z1 := jet_sin_growth_z (m + Real.pi)
  have o := Jet.const 0
  have w' := (((c3.mul c2).sub (x3.mul x2)).sub (o.mul o)).sub (z3.mul z2)
  have x' := (((c3.mul x2).add (x3.mul c2)).add (o.mul z2)).sub (z3.mul o)
  have y' := (((c3.mul o).sub (x3.mul z2)).add (o.mul c2)).add (z3.mul x2)
  have z' := (((c3.mul z2).add (x3.mul o)).sub (o.mul x2)).add (z3.mul c2)
  have W := (((w'.mul c1).sub (x'.mul x1)).sub (y'.mul o)).sub (z'.mul z1)
  have X := (((w'.mul x1).add (x'.mul c1)).add (y'.mul z1)).sub (z'.mul o)
  have Y := (((w'.mul o).sub (x'.mul z1)).add (y'.mul c1)).add (z'.mul x1)
  have Z := (((w'.mul z1).add (x'.mul o)).sub (y'.mul x1)).add (z'.mul c1)
  clear w' x' y' z' c1 c2 c3 x1 x2 x3 z1 z2 z3
  have hk2 := hk
  rw [hθ, Real.sin_add, Real.sin_two_mul, Real.cos_two_mul] at hk2
  have qm := Real.cos_sq_add_sin_sq m
  have qk := Real.cos_sq_add_sin_sq k
  rw [hθ4, hθ, Real.cos_add, Real.sin_two_mul, Real.cos_two_mul] at hres
  have hc : Real.cos (θ / 2) = (2 * Real.cos m ^ 2 - 1) * Real.cos k -
      2 * Real.sin m * Real.cos m * Real.sin k := by
    rw [hθ, Real.cos_add, Real.sin_two_mul, Real.cos_two_mul]
  have hs : Real.sin (θ / 2) = 2 * Real.sin k := by linarith
  have hA := Real.cos_add_pi m
  have hA' := Real.sin_add_pi m
  have hB := Real.cos_pi_sub k
  have hB' := Real.sin_pi_sub k
  rw [hA, hA', hB, hB'] at W X Y Z
  have W2 := (W.sub (Jet.const (Real.cos (θ / 2)))).congr (a' := 0) (b' := 0)
    (c' := corpseResidue θ * Real.sin (θ / 2)) (d' := 0)
    (by
      rw [hc]
      generalize Real.cos m = cm at *
      generalize Real.sin m = sm at *
      generalize Real.cos k = ck at *
      generalize Real.sin k = sk at *
      clear W X Y Z e1 o
      grind)
    (by ring)
    (by
      rw [hres, hs]
      generalize Real.cos m = cm at *
      generalize Real.sin m = sm at *
      generalize Real.cos k = ck at *
      generalize Real.sin k = sk at *
      clear W X Y Z e1 o
      grind)
    (by ring)
  have X2 := (X.sub (Jet.const (Real.sin (θ / 2)))).congr (a' := 0) (b' := 0)
    (c' := -corpseResidue θ * Real.cos (θ / 2)) (d' := 0)
    (by
      rw [hs]
      generalize Real.cos m = cm at *
      generalize Real.sin m = sm at *
      generalize Real.cos k = ck at *
      generalize Real.sin k = sk at *
      clear W X Y Z e1 o
      grind)
    (by ring)
    (by
      rw [hres, hc]
      generalize Real.cos m = cm at *
      generalize Real.sin m = sm at *
      generalize Real.cos k = ck at *
      generalize Real.sin k = sk at *
      clear W X Y Z e1 o
      grind)
    (by ring)
  have Y2 := Y.congr (a' := 0) (b' := 0) (c' := 0) (d' := _) (by ring) (by
      generalize Real.cos m = cm at *
      generalize Real.sin m = sm at *
      generalize Real.cos k = ck at *
      generalize Real.sin k = sk at *
      clear W X Y Z e1 o
      grind) (by ring) rfl
  have Z2 := Z.congr (a' := 0) (b' := 0) (c' := 0) (d' := _) (by ring) (by
      generalize Real.cos m = cm at *
      generalize Real.sin m = sm at *
      generalize Real.cos k = ck at *
      generalize Real.sin k = sk at *
      clear W X Y Z e1 o
      grind) (by ring) rfl
  have l := (((W2.tendsto_two.pow 2).add (X2.tendsto_two.pow 2)).add
    (Y2.tendsto_two.pow 2)).add (Z2.tendsto_two.pow 2)
  have l' := l.sqrt
  have hlim : (corpseResidue θ * Real.sin (θ / 2)) ^ 2 +
      (-corpseResidue θ * Real.cos (θ / 2)) ^ 2 + 0 ^ 2 + 0 ^ 2 = corpseResidue θ ^ 2 := by
    linear_combination corpseResidue θ ^ 2 * Real.cos_sq_add_sin_sq (θ / 2)
  rw [hlim, Real.sqrt_sq_eq_abs] at l'
  refine l'.congr' ?_
  filter_upwards [self_mem_nhdsWithin] with e he
  have he0 : (e : ℝ) ≠ 0 := he
  have e2 := congrFun e1 e
  rw [e2, rotation_frame, frame_dist,
    show e ^ 2 = √((e ^ 2) ^ 2) from (Real.sqrt_sq (sq_nonneg e)).symm,
    ← Real.sqrt_div' _ (sq_nonneg (e ^ 2)), Real.sqrt_sq (sq_nonneg e)]
  congr 1
  field_simp
  ring

theorem detuned_dist {Ω : ℝ} (hΩ : 0 < Ω) (θ φ e : ℝ) :
    ‖segmentUnitary Ω φ (e * Ω) (θ / Ω) - rotation θ φ‖ = √(2 - 2 * detunedOverlap θ e) := by
  have h := segment_frame hΩ φ e (θ / 2)
  rw [mul_div_cancel₀ θ two_ne_zero] at h
  rw [h, rotation_frame, frame_dist, detunedOverlap, show √(1 + e ^ 2) = growth e from rfl]
  congr 1
  have hg := growth_pos e
  have hi : (growth e)⁻¹ ^ 2 * (1 + e ^ 2) = 1 := by rw [← growth_sq e]; field_simp
  rw [div_eq_mul_inv _ (growth e)]
  have h1 := Real.cos_sq_add_sin_sq (θ / 2)
  have h2 := Real.cos_sq_add_sin_sq (θ / 2 * growth e)
  generalize Real.cos (θ / 2) = a at *
  generalize Real.sin (θ / 2) = b at *
  generalize Real.cos (θ / 2 * growth e) = c at *
  generalize Real.sin (θ / 2 * growth e) = d at *
  linear_combination h1 + h2 + d ^ 2 * hi

theorem corpseResidue_pi : corpseResidue Real.pi = √3 / 2 - Real.pi / 4 := by
  have hp := Real.pi_pos
  unfold corpseResidue
  rw [Real.sin_pi_div_two, Real.sin_pi, show (1 : ℝ) / 2 = Real.sin (Real.pi / 6) by
    rw [Real.sin_pi_div_six], Real.arcsin_sin (by linarith) (by linarith),
    show 2 * (Real.pi / 6) = Real.pi / 3 by ring, Real.sin_pi_div_three]
  ring

theorem corpseResidue_pi_pos : 0 < corpseResidue Real.pi := by
  rw [corpseResidue_pi]
  have h3 : (1.7 : ℝ) < √3 := by
    rw [Real.lt_sqrt (by norm_num)]; norm_num
  have := Real.pi_lt_d2
  linarith

/-- between `π` and `2π` there is an angle at which CORPSE cancels the detuning to second order too -/
theorem corpseResidue_zero : ∃ θ, Real.pi < θ ∧ θ < 2 * Real.pi ∧ corpseResidue θ = 0 := by
  have hp := Real.pi_pos
  have h1 := corpseResidue_pi_pos
  have h2 : corpseResidue (2 * Real.pi) < 0 := by
    have e1 : corpseResidue (2 * Real.pi) = -(Real.pi / 2) := by
      unfold corpseResidue
      rw [mul_div_cancel_left₀ _ two_ne_zero, Real.sin_pi, Real.sin_two_pi]
      simp
      ring
    rw [e1]; linarith
  have hc : ContinuousOn corpseResidue (Set.Icc Real.pi (2 * Real.pi)) := by
    unfold corpseResidue
    have := Real.continuous_arcsin
    fun_prop
  obtain ⟨θ, hθ, h0⟩ := intermediate_value_Icc' (by linarith : Real.pi ≤ 2 * Real.pi) hc
    (⟨h2.le, h1.le⟩ : (0 : ℝ) ∈ Set.Icc _ _)
  refine ⟨θ, lt_of_le_of_ne hθ.1 ?_, lt_of_le_of_ne hθ.2 ?_, h0⟩
  · rintro rfl; linarith
  · rintro rfl; linarith

end OpenControls
