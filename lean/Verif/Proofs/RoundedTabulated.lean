import Verif.Proofs.RoundedScrofulous

/-!
# The tabulated angles in rounded arithmetic
-/

namespace OpenControls

open Spec Fl

open scoped Matrix.Norms.L2Operator

variable {r : Rounding}

theorem tolerance_rounded {b : Fl r} (hb0 : 0 ≤ b.val) (hb : b.val ≤ 3.15) :
    r.rnd (r.rnd (1 / 100000000) + r.rnd (r.rnd (1 / 100000) * |b.val|)) ≤ 32 / 10 ^ 6 ∧
    99 / 10 ^ 7 * b.val ≤ r.rnd (r.rnd (1 / 100000000) + r.rnd (r.rnd (1 / 100000) * |b.val|)) := by
  have hu := r.u_small.2
  have hu0 := r.u_nonneg
  rw [abs_of_nonneg hb0]
  norm_num at hb
  have near : ∀ x : ℝ, 0 ≤ x → 999 / 1000 * x ≤ r.rnd x ∧ r.rnd x ≤ 1001 / 1000 * x := by
    intro x hx
    have h := r.close x
    rw [abs_of_nonneg hx, abs_le] at h
    have := mul_le_mul_of_nonneg_right hu hx
    constructor <;> linarith [h.1, h.2]
  have n1 := near (1 / 100000000) (by norm_num)
  have n2 := near (1 / 100000) (by norm_num)
  have p2 : 0 ≤ r.rnd (1 / 100000) := r.rnd_nonneg (by norm_num)
  have n3 := near (r.rnd (1 / 100000) * b.val) (by positivity)
  have p3 : 0 ≤ r.rnd (r.rnd (1 / 100000) * b.val) := r.rnd_nonneg (by positivity)
  have p1 : 0 ≤ r.rnd (1 / 100000000) := r.rnd_nonneg (by norm_num)
  have n4 := near (r.rnd (1 / 100000000) + r.rnd (r.rnd (1 / 100000) * b.val)) (by positivity)
  have m1 := mul_le_mul_of_nonneg_right n2.1 hb0
  have m2 := mul_le_mul_of_nonneg_right n2.2 hb0
  norm_num at *
  constructor <;> linarith [n1.1, n1.2, n3.1, n3.2, n4.1, n4.2]

/-- a number accepted as close is within `4e-5` -/
theorem isClose_within {a b : Fl r} {x : ℝ} (hb0 : 0 ≤ b.val) (hb : b.val ≤ 3.15)
    (hx : |b.val - x| ≤ 22 / 7 * r.u) (h : Py.isClose a b = true) : |a.val - x| ≤ 4 / 10 ^ 5 := by
  have hu := r.u_small.1
  have hu0 := r.u_nonneg
  rw [isClose_eq] at h
  have h1 := h.trans (tolerance_rounded hb0 hb).1
  have h2 := r.close (a.val - b.val)
  have h3 := abs_sub_abs_le_abs_sub (a.val - b.val) (r.rnd (a.val - b.val))
  rw [abs_sub_comm (a.val - b.val)] at h3
  have h4 := mul_le_mul_of_nonneg_right hu (abs_nonneg (a.val - b.val))
  have h5 := abs_sub_le a.val b.val x
  norm_num at *
  linarith

/-- a number within `5e-6` is accepted as close -/
theorem isClose_of_near {a b : Fl r} {x : ℝ} (hx0 : 3 / 4 ≤ x) (hx1 : x ≤ Real.pi)
    (hx : |b.val - x| ≤ x * r.u) (h : |a.val - x| ≤ 5 / 10 ^ 6) : Py.isClose a b = true := by
  have hu := r.u_le
  have hu0 := r.u_nonneg
  have hpi := Real.pi_lt_d4
  have e1 : x * r.u ≤ x * (1 / 1000000) := by
    apply mul_le_mul_of_nonneg_left _ (by linarith)
    refine hu.trans (by norm_num)
  have e2 := abs_le.mp hx
  norm_num at hpi
  rw [isClose_eq]
  refine le_trans ?_ (tolerance_rounded (b := b) (by linarith [e2.1]) (by norm_num; linarith [e2.2])).2
  have h1 := r.close (a.val - b.val)
  have h2 := abs_sub_abs_le_abs_sub (r.rnd (a.val - b.val)) (a.val - b.val)
  have h3 := abs_sub_le a.val x b.val
  rw [abs_sub_comm x] at h3
  have h4 : r.u * |a.val - b.val| ≤ 1 / 1000000 * |a.val - b.val| := by
    gcongr; exact hu.trans (by norm_num)
  norm_num at *
  linarith [e2.1]

theorem quarter_pi_val : (PyFloat.pi / PyFloat.lit 4 : Fl r).val = r.rnd Real.pi / 4 := by
  rw [val_div, val_lit, val_pi]
  push_cast
  rw [rnd_four]
  have := r.rnd_div_pow (r.rnd Real.pi) 2
  rw [r.idem] at this
  norm_num at this
  exact this

theorem half_pi_val : (PyFloat.pi / PyFloat.lit 2 : Fl r).val = r.rnd Real.pi / 2 := by
  rw [half_rounded, val_pi]

theorem half_lit_pi : (PyFloat.lit (1 / 2) * PyFloat.pi : Fl r) = PyFloat.pi / PyFloat.lit 2 := by
  apply Fl.ext
  rw [half_pi_val, val_mul, val_lit, val_pi]
  have : r.rnd ((1 / 2 : ℚ) : ℝ) = 1 / 2 := by push_cast; rw [r.half, r.rnd_one]
  rw [this, show (1 / 2 : ℝ) * r.rnd Real.pi = r.rnd Real.pi / 2 by ring, r.half, r.idem]

/-- which tabulated angle a supported angle is close to -/
theorem supported_cases {θ : Fl r} (h : isSupportedRotation θ = true) :
    (Py.isClose θ PyFloat.pi = true ∧ |θ.val - Real.pi| ≤ 4 / 10 ^ 5) ∨
    (¬ Py.isClose θ PyFloat.pi = true ∧ Py.isClose θ (PyFloat.lit (1 / 2) * PyFloat.pi) = true ∧
      |θ.val - Real.pi / 2| ≤ 4 / 10 ^ 5) ∨
    (¬ Py.isClose θ PyFloat.pi = true ∧ ¬ Py.isClose θ (PyFloat.lit (1 / 2) * PyFloat.pi) = true ∧
      |θ.val - Real.pi / 4| ≤ 4 / 10 ^ 5) := by
  have hb := rnd_pi_bounds (r := r)
  have hp := pi_error (r := r)
  have hu0 := r.u_nonneg
  norm_num at hb
  rw [half_lit_pi]
  have n1 : Py.isClose θ PyFloat.pi = true → |θ.val - Real.pi| ≤ 4 / 10 ^ 5 :=
    isClose_within (by rw [val_pi]; linarith) (by rw [val_pi]; norm_num; linarith) (by rw [val_pi]; exact hp)
  have n2 : Py.isClose θ (PyFloat.pi / PyFloat.lit 2) = true → |θ.val - Real.pi / 2| ≤ 4 / 10 ^ 5 := by
    refine isClose_within (by rw [half_pi_val]; linarith) (by rw [half_pi_val]; norm_num; linarith) ?_
    rw [half_pi_val, ← sub_div, abs_div, abs_two]
    linarith
  have n3 : Py.isClose θ (PyFloat.pi / PyFloat.lit 4) = true → |θ.val - Real.pi / 4| ≤ 4 / 10 ^ 5 := by
    refine isClose_within (by rw [quarter_pi_val]; linarith) (by rw [quarter_pi_val]; norm_num; linarith) ?_
    rw [quarter_pi_val, ← sub_div, abs_div, abs_of_pos (by norm_num : (0 : ℝ) < 4)]
    linarith
  simp only [isSupportedRotation, List.any_cons, List.any_nil, Bool.or_false, Bool.or_eq_true] at h
  by_cases c1 : Py.isClose θ PyFloat.pi = true
  · exact .inl ⟨c1, n1 c1⟩
  · by_cases c2 : Py.isClose θ (PyFloat.pi / PyFloat.lit 2) = true
    · exact .inr (.inl ⟨c1, c2, n2 c2⟩)
    · exact .inr (.inr ⟨c1, c2, n3 (by tauto)⟩)

theorem supported_of_near {θ : Fl r} (h : |θ.val - Real.pi| ≤ 5 / 10 ^ 6 ∨ |θ.val - Real.pi / 2| ≤ 5 / 10 ^ 6 ∨
    |θ.val - Real.pi / 4| ≤ 5 / 10 ^ 6) : isSupportedRotation θ = true := by
  have hpi := Real.pi_gt_three
  have hc := r.close Real.pi
  rw [abs_of_pos Real.pi_pos] at hc
  simp only [isSupportedRotation, List.any_cons, List.any_nil, Bool.or_false, Bool.or_eq_true]
  rcases h with h | h | h
  · exact .inl (isClose_of_near (by linarith) le_rfl (by rw [val_pi]; linarith) h)
  · refine .inr (.inl (isClose_of_near (by linarith) (by linarith) ?_ h))
    rw [half_pi_val, ← sub_div, abs_div, abs_two]
    linarith
  · refine .inr (.inr (isClose_of_near (by linarith) (by linarith) ?_ h))
    rw [quarter_pi_val, ← sub_div, abs_div, abs_of_pos (by norm_num : (0 : ℝ) < 4)]
    linarith

theorem supported_pos {θ : Fl r} (h : isSupportedRotation θ = true) : 0 < θ.val := by
  have hpi := Real.pi_gt_three
  rcases supported_cases h with ⟨-, h⟩ | ⟨-, -, h⟩ | ⟨-, -, h⟩ <;> have := (abs_le.mp h).1 <;>
    norm_num at this <;> linarith

theorem roundedAngle {θ : Fl r} (h : isSupportedRotation θ = true) :
    ∃ θ₁, RoundedAngle θ (scrofulousTheta1 θ) θ₁ := by
  have hpi := Real.pi_gt_three
  have hpi' := Real.pi_pos
  rcases supported_cases h with ⟨c1, h⟩ | ⟨c1, c2, h⟩ | ⟨c1, c2, h⟩
  · refine ⟨Real.pi, scrofulousFacts_pi h, ?_, by linarith, le_rfl⟩
    rw [scrofulousTheta1, if_pos c1]
    have := rel_degrees (r := r) 180
    norm_num at this; exact this
  · refine ⟨_, scrofulousFacts_pi_two h, ?_, by norm_num; linarith, by norm_num; linarith⟩
    rw [scrofulousTheta1, if_neg c1, if_pos c2]
    have := rel_degrees (r := r) (1152 / 10)
    norm_num at this ⊢; exact this
  · refine ⟨_, scrofulousFacts_pi_four h, ?_, by norm_num; linarith, by norm_num; linarith⟩
    rw [scrofulousTheta1, if_neg c1, if_neg c2]
    have := rel_degrees (r := r) (967 / 10)
    norm_num at this ⊢; exact this

theorem newScrofulous_rounded (θ Ω φ : Fl r) (name : Option String) :
    AcceptsExactly (newScrofulousControl θ Ω φ name) (0 < Ω.val ∧ isSupportedRotation θ = true)
      (roundedControl Ω (roundedScrofulous (scrofulousTheta1 θ) θ φ) name) := by
  refine AcceptsExactly.congr (AcceptsExactly.validateRounded fun hΩ _ =>
    AcceptsExactly.check Iff.rfl fun _ =>
    (new_rounded hΩ (roundedScrofulous (scrofulousTheta1 θ) θ φ) _ _ _ _ _ rfl rfl rfl rfl)) ?_
  constructor
  · rintro ⟨h1, h2, h3, h4⟩; exact ⟨h1, h3⟩
  · rintro ⟨h1, h2⟩
    obtain ⟨θ₁, f⟩ := roundedAngle h2
    have ht : 0 < (scrofulousTheta1 θ).val := f.rel.pos (by linarith [f.lo])
    have hp := pi_val_pos (r := r)
    refine ⟨h1, (supported_pos h2).ne', h2, ?_⟩
    simp only [roundedScrofulous, List.forall_mem_cons, List.not_mem_nil, false_imp_iff, implies_true]
    exact ⟨ht, hp, ht, trivial⟩

theorem newCorpseInScrofulous_rounded (θ Ω φ : Fl r) (name : Option String) :
    AcceptsExactly (newCorpseInScrofulousControl θ Ω φ name)
      (0 < Ω.val ∧ isSupportedRotation θ = true)
      (roundedControl Ω (roundedCorpseScrofulous (scrofulousTheta1 θ) θ φ) name) := by
  refine AcceptsExactly.congr (AcceptsExactly.validateRounded fun hΩ _ =>
    AcceptsExactly.check Iff.rfl fun _ =>
    (new_rounded hΩ (roundedCorpseScrofulous (scrofulousTheta1 θ) θ φ) _ _ _ _ _ rfl rfl rfl rfl)) ?_
  constructor
  · rintro ⟨h1, h2, h3, h4⟩; exact ⟨h1, h3⟩
  · rintro ⟨h1, h2⟩
    obtain ⟨θ₁, f⟩ := roundedAngle h2
    have ht : 0 < (scrofulousTheta1 θ).val := f.rel.pos (by linarith [f.lo])
    have hp := pi_val_pos (r := r)
    refine ⟨h1, (supported_pos h2).ne', h2, ?_⟩
    simp only [roundedCorpseScrofulous, List.forall_mem_append, corpseBlock_rounded,
      corpse_rounded_pos ht.ne', corpse_rounded_pos hp.ne']
    exact ⟨⟨ht, hp⟩, ht⟩

/-! ### WAMF1 -/

/-- the control WAMF1 computes from its two angles -/
noncomputable def roundedWamf1 (p m Ω φ : Fl r) (name : Option String) : DrivenControl (Fl r) where
  rabiRates := [p / (p / Ω), m / (p / Ω), m / (p / Ω), p / (p / Ω)]
  azimuthalAngles := [φ, φ, φ, φ]
  detunings := [PyFloat.lit 0, PyFloat.lit 0, PyFloat.lit 0, PyFloat.lit 0]
  durations := [p / Ω, p / Ω, p / Ω, p / Ω]
  name := name

/-- what is needed about the computed angles of WAMF1 -/
structure RoundedWamf (p m : Fl r) (P M : ℝ) : Prop where
  ep : |p.val - P| ≤ 11 * r.u
  em : |m.val - M| ≤ 11 * r.u
  hM : 3 / 4 ≤ M
  hMP : M + 1 / 4 ≤ P
  hP : P ≤ 3.15

namespace RoundedWamf

variable {p m : Fl r} {P M : ℝ} (f : RoundedWamf p m P M)
include f

theorem pos : 0 < p.val ∧ 0 < m.val ∧ m.val ≤ p.val ∧ p.val ≤ 3.16 := by
  have hu := r.u_small.1
  have := abs_le.mp f.ep
  have := abs_le.mp f.em
  have := f.hM
  have := f.hMP
  have := f.hP
  norm_num at *
  refine ⟨?_, ?_, ?_, ?_⟩ <;> linarith

theorem evolution (φ Ω : Fl r) (hΩ : 0 < Ω.val) (name : Option String) (a : ℝ)
    (ha : 2 * (P + M) = a + 2 * Real.pi) :
    ‖Spec.evolution ((roundedWamf1 p m Ω φ name).map val) - -rotation a φ.val‖ ≤ 30 * r.u := by
  obtain ⟨hp, hm, hmp, hp'⟩ := f.pos
  have hu0 := r.u_nonneg
  set d := p / Ω with hd
  have hdp : 0 < d.val := by rw [hd, val_div, rnd_pos]; positivity
  have key : ∀ x : Fl r, |(x / d : Fl r).val * d.val - x.val| ≤ r.u * |x.val| := by
    intro x
    rw [val_div]
    have h := r.close (x.val / d.val)
    have e : r.rnd (x.val / d.val) * d.val - x.val = (r.rnd (x.val / d.val) - x.val / d.val) * d.val := by
      rw [sub_mul, div_mul_cancel₀ _ hdp.ne']
    rw [e, abs_mul, abs_of_pos hdp]
    rw [abs_div, abs_of_pos hdp] at h
    calc _ ≤ r.u * (|x.val| / d.val) * d.val := by gcongr
      _ = _ := by field_simp
  have k1 := key p
  have k2 := key m
  rw [abs_of_pos hp] at k1
  rw [abs_of_pos hm] at k2
  have e : Spec.evolution ((roundedWamf1 p m Ω φ name).map val) =
      rotation (2 * ((p / d).val * d.val + (m / d).val * d.val)) φ.val := by
    simp only [Spec.evolution, roundedWamf1, DrivenControl.map, List.map_cons, List.map_nil,
      controlEvolution_cons, controlEvolution_nil, val_lit_zero, segmentUnitary_resonant, one_mul,
      rotation_mul_same, ← hd]
    congr 1; ring
  rw [e, ← rotation_add_two_pi, ← ha]
  refine (rotation_angle_dist _ _ _).trans ?_
  have q1 := mul_le_mul_of_nonneg_left hp' hu0
  have q2 := mul_le_mul_of_nonneg_left (hmp.trans hp') hu0
  have e1 := f.ep
  have e2 := f.em
  rw [abs_le] at k1 k2 e1 e2
  norm_num at q1 q2
  rw [div_le_iff₀ (by norm_num), abs_le]
  constructor <;> linarith [k1.1, k1.2, k2.1, k2.2, e1.1, e1.2, e2.1, e2.2]

/-- the Rabi rates exceed the maximum at most by rounding -/
theorem rates (φ Ω : Fl r) (hΩ : 0 < Ω.val) (name : Option String) :
    ∀ x ∈ (roundedWamf1 p m Ω φ name).rabiRates, 0 < x.val ∧ x.val ≤ (1 + 3 * r.u) * Ω.val := by
  obtain ⟨hp, hm, hmp, hp'⟩ := f.pos
  have hu0 := r.u_nonneg
  have hu := r.u_small.2
  set d := p / Ω with hd
  have hdp : 0 < d.val := by rw [hd, val_div, rnd_pos]; positivity
  have hdl : (1 - r.u) * (p.val / Ω.val) ≤ d.val := by
    rw [hd, val_div]
    have h := r.close (p.val / Ω.val)
    rw [abs_of_pos (by positivity : 0 < p.val / Ω.val), abs_le] at h
    linarith [h.1]
  have b1 : p.val / d.val ≤ Ω.val / (1 - r.u) := by
    rw [div_le_div_iff₀ hdp (by linarith)]
    calc p.val * (1 - r.u) = Ω.val * ((1 - r.u) * (p.val / Ω.val)) := by field_simp
      _ ≤ _ := by gcongr
  have b2 : ∀ x : Fl r, 0 < x.val → x.val ≤ p.val → 0 < (x / d : Fl r).val ∧
      (x / d : Fl r).val ≤ (1 + 3 * r.u) * Ω.val := by
    intro x hx hxp
    refine ⟨by rw [val_div, rnd_pos]; positivity, ?_⟩
    have h := r.close (x.val / d.val)
    rw [abs_of_pos (by positivity : 0 < x.val / d.val), abs_le] at h
    have h1 : x.val / d.val ≤ Ω.val / (1 - r.u) := le_trans (by gcongr) b1
    rw [val_div]
    have h2 : r.rnd (x.val / d.val) ≤ (1 + r.u) * (Ω.val / (1 - r.u)) := by
      have := mul_le_mul_of_nonneg_left h1 (by linarith : 0 ≤ 1 + r.u)
      linarith [h.2]
    refine h2.trans ?_
    rw [← mul_div_assoc, div_le_iff₀ (by linarith)]
    have : 0 ≤ r.u * Ω.val := by positivity
    nlinarith
  simp only [roundedWamf1, ← hd, List.forall_mem_cons, List.not_mem_nil, false_imp_iff, implies_true, and_true]
  exact ⟨b2 p hp le_rfl, b2 m hm hmp, b2 m hm hmp, b2 p hp le_rfl⟩

end RoundedWamf

theorem quarter_rounded (x : Fl r) : (x / PyFloat.lit 4 : Fl r).val = x.val / 4 := by
  rw [val_div, val_lit]
  push_cast
  rw [rnd_four]
  have := r.rnd_div_pow x.val 2
  rw [x.rnd_val] at this
  norm_num at this
  exact this

/-- `π * (sum) / 4` -/
theorem wamf_angle_rounded {s : Fl r} {x : ℝ} (h : |s.val - x| ≤ 65 / 10 * r.u) (hx : |x| ≤ 317 / 100) :
    |(PyFloat.pi * s / PyFloat.lit 4 : Fl r).val - Real.pi * x / 4| ≤ 11 * r.u := by
  have hu := r.u_small.1
  have hu0 := r.u_nonneg
  have hp := pi_error (r := r)
  have hb := rnd_pi_bounds (r := r)
  norm_num at hb
  rw [quarter_rounded, val_mul, val_pi]
  have h1 := r.close (r.rnd Real.pi * s.val)
  have hs : |s.val| ≤ 3171 / 1000 := by
    have := abs_sub_abs_le_abs_sub s.val x
    linarith
  have hps : |r.rnd Real.pi * s.val| ≤ 31417 / 10000 * (3171 / 1000) := by
    rw [abs_mul, abs_of_pos (by linarith : 0 < r.rnd Real.pi)]
    gcongr; exact hb.2.le
  have h2 := mul_le_mul_of_nonneg_left hps hu0
  have e : r.rnd Real.pi * s.val - Real.pi * x = r.rnd Real.pi * (s.val - x) + (r.rnd Real.pi - Real.pi) * x := by ring
  have h3 : |r.rnd Real.pi * s.val - Real.pi * x| ≤ 31417 / 10000 * (65 / 10 * r.u) + 22 / 7 * r.u * (317 / 100) := by
    rw [e]
    refine (abs_add_le _ _).trans ?_
    rw [abs_mul, abs_mul, abs_of_pos (by linarith : 0 < r.rnd Real.pi)]
    gcongr; exact hb.2.le
  have h4 := abs_sub_le (r.rnd (r.rnd Real.pi * s.val)) (r.rnd Real.pi * s.val) (Real.pi * x)
  rw [← sub_div, abs_div, abs_of_pos (by norm_num : (0 : ℝ) < 4), div_le_iff₀ (by norm_num)]
  linarith

theorem wamf_sum_rounded {a b : ℚ} (ha : 0 ≤ a) (hb : 0 ≤ b) (hab : a + b ≤ 316 / 100) :
    |(PyFloat.lit a + PyFloat.lit b : Fl r).val - (a + b : ℝ)| ≤ 65 / 10 * r.u ∧
    |(PyFloat.lit a - PyFloat.lit b : Fl r).val - (a - b : ℝ)| ≤ 65 / 10 * r.u := by
  have hu := r.u_small.1
  have hu0 := r.u_nonneg
  have ha' : (0 : ℝ) ≤ a := by exact_mod_cast ha
  have hb' : (0 : ℝ) ≤ b := by exact_mod_cast hb
  have hab' : (a + b : ℝ) ≤ 316 / 100 := by
    have : ((a + b : ℚ) : ℝ) ≤ ((316 / 100 : ℚ) : ℝ) := by exact_mod_cast hab
    push_cast at this; exact this
  have h1 := r.close (a : ℝ)
  have h2 := r.close (b : ℝ)
  rw [abs_of_nonneg ha'] at h1
  rw [abs_of_nonneg hb'] at h2
  have hk := mul_le_mul_of_nonneg_left hab' hu0
  rw [val_add, val_sub, val_lit, val_lit]
  have s1 := abs_le.mp h1
  have s2 := abs_le.mp h2
  constructor
  · have h3 := r.close (r.rnd a + r.rnd b)
    have h4 : |r.rnd a + r.rnd b - (a + b : ℝ)| ≤ r.u * (316 / 100) := by
      rw [abs_le]; constructor <;> linarith [s1.1, s1.2, s2.1, s2.2]
    have h5 := abs_sub_abs_le_abs_sub (r.rnd a + r.rnd b) (a + b : ℝ)
    rw [abs_of_nonneg (by linarith : (0 : ℝ) ≤ a + b)] at h5
    have h6 : |r.rnd a + r.rnd b| ≤ 3161 / 1000 := by linarith
    have h7 := mul_le_mul_of_nonneg_left h6 hu0
    have h8 := abs_sub_le (r.rnd (r.rnd a + r.rnd b)) (r.rnd a + r.rnd b) (a + b : ℝ)
    linarith
  · have h3 := r.close (r.rnd a - r.rnd b)
    have h4 : |r.rnd a - r.rnd b - (a - b : ℝ)| ≤ r.u * (316 / 100) := by
      rw [abs_le]; constructor <;> linarith [s1.1, s1.2, s2.1, s2.2]
    have h5 := abs_sub_abs_le_abs_sub (r.rnd a - r.rnd b) (a - b : ℝ)
    have h5' : |(a - b : ℝ)| ≤ 316 / 100 := by rw [abs_le]; constructor <;> linarith
    have h6 : |r.rnd a - r.rnd b| ≤ 3161 / 1000 := by linarith
    have h7 := mul_le_mul_of_nonneg_left h6 hu0
    have h8 := abs_sub_le (r.rnd (r.rnd a - r.rnd b)) (r.rnd a - r.rnd b) (a - b : ℝ)
    linarith

/-- the computed angles of WAMF1 -/
theorem roundedWamf {θ : Fl r} (h : isSupportedRotation θ = true) :
    ∃ a P M, (a = Real.pi ∨ a = Real.pi / 2 ∨ a = Real.pi / 4) ∧ |θ.val - a| ≤ 4 / 10 ^ 5 ∧
      2 * (P + M) = a + 2 * Real.pi ∧ RoundedWamf (wamf1Thetas θ).1 (wamf1Thetas θ).2 P M := by
  have hl := Real.pi_gt_d4
  have hu := Real.pi_lt_d4
  have hu0 := r.u_nonneg
  norm_num at hl hu
  rcases supported_cases h with ⟨c1, h⟩ | ⟨c1, c2, h⟩ | ⟨c1, c2, h⟩
  · refine ⟨_, Real.pi, Real.pi / 2, .inl rfl, h, by ring, ?_⟩
    rw [wamf1Thetas, if_pos c1]
    have hp := pi_error (r := r)
    refine ⟨?_, ?_, by linarith, by linarith, by norm_num; linarith⟩
    · rw [val_pi]; linarith
    · rw [half_pi_val, ← sub_div, abs_div, abs_two]; linarith
  · refine ⟨_, Real.pi * (5 / 2 + 65667825 / 100000000) / 4, Real.pi * (5 / 2 - 65667825 / 100000000) / 4,
      .inr (.inl rfl), h, by ring, ?_⟩
    rw [wamf1Thetas, if_neg c1, if_pos c2]
    obtain ⟨s1, s2⟩ := wamf_sum_rounded (r := r) (a := 5 / 2) (b := 65667825 / 100000000) (by norm_num)
      (by norm_num) (by norm_num)
    push_cast at s1 s2
    refine ⟨wamf_angle_rounded s1 ?_, wamf_angle_rounded s2 ?_, by linarith, by linarith, by norm_num; linarith⟩ <;>
      norm_num [abs_of_pos]
  · refine ⟨_, Real.pi * (9 / 4 + 36256159 / 100000000) / 4, Real.pi * (9 / 4 - 36256159 / 100000000) / 4,
      .inr (.inr rfl), h, by ring, ?_⟩
    rw [wamf1Thetas, if_neg c1, if_neg c2]
    obtain ⟨s1, s2⟩ := wamf_sum_rounded (r := r) (a := 9 / 4) (b := 36256159 / 100000000) (by norm_num)
      (by norm_num) (by norm_num)
    push_cast at s1 s2
    refine ⟨wamf_angle_rounded s1 ?_, wamf_angle_rounded s2 ?_, by linarith, by linarith, by norm_num; linarith⟩ <;>
      norm_num [abs_of_pos]

theorem newWamf1_rounded (θ Ω φ : Fl r) (name : Option String) :
    AcceptsExactly (newWamf1Control θ Ω φ name) (0 < Ω.val ∧ isSupportedRotation θ = true)
      (roundedWamf1 (wamf1Thetas θ).1 (wamf1Thetas θ).2 Ω φ name) := by
  refine AcceptsExactly.congr (P := 0 < Ω.val ∧ θ.val ≠ 0 ∧ isSupportedRotation θ = true ∧ True)
    (AcceptsExactly.validateRounded fun hΩ _ =>
    AcceptsExactly.check Iff.rfl fun hs => ⟨fun _ => ?_, fun h => absurd trivial h⟩) ?_
  · obtain ⟨a, P, M, -, -, -, f⟩ := roundedWamf hs
    obtain ⟨hp, hm, -, -⟩ := f.pos
    have hr := f.rates φ Ω hΩ name
    have hd : 0 < ((wamf1Thetas θ).1 / Ω).val := by rw [val_div, rnd_pos]; positivity
    simp only [roundedWamf1, List.forall_mem_cons] at hr
    have hr1 := hr.1.1.le
    have hr2 := hr.2.1.1.le
    rw [val_div, val_div] at hr1 hr2
    rw [val_div] at hd
    rw [DrivenControl.new_eq, if_pos, if_pos, if_pos]
    · simp [roundedWamf1, List.replicate]
    · simp [hr1, hr2]
    · simp
    · simp [hd]
  · constructor
    · rintro ⟨h1, h2, h3, h4⟩; exact ⟨h1, h3⟩
    · rintro ⟨h1, h2⟩; exact ⟨h1, (supported_pos h2).ne', h2, trivial⟩

end OpenControls
