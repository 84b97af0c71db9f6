import Verif.Proofs.RoundedControl

/-!
# CORPSE pulses in rounded arithmetic
-/

namespace OpenControls

open Spec Fl

open scoped Matrix.Norms.L2Operator

variable {r : Rounding}

/-- one CORPSE block, with the computed azimuthal angles `p` and `q ≈ p + π` -/
noncomputable def roundedCorpse (θ p q : Fl r) : List (Fl r × Fl r) :=
  [(PyFloat.lit 2 * PyFloat.pi + θ / PyFloat.lit 2 - corpseK θ, p),
   (PyFloat.lit 2 * PyFloat.pi - PyFloat.lit 2 * corpseK θ, q),
   (θ / PyFloat.lit 2 - corpseK θ, p)]

theorem add_comm_rounded (a b : Fl r) : a + b = b + a := Fl.ext (by rw [val_add, val_add, add_comm])

theorem abs_arcsin_le {x : ℝ} (hx : |x| ≤ 1) : |Real.arcsin x| ≤ Real.pi / 2 * |x| := by
  have key : ∀ y : ℝ, 0 ≤ y → y ≤ 1 → Real.arcsin y ≤ Real.pi / 2 * y := by
    intro y h0 h1
    have h2 := Real.mul_le_sin (Real.arcsin_nonneg.mpr h0) (Real.arcsin_le_pi_div_two y)
    rw [Real.sin_arcsin (by linarith) h1] at h2
    have := Real.pi_pos
    rw [div_mul_eq_mul_div, div_le_iff₀ this] at h2
    linarith
  rcases le_total 0 x with h | h
  · rw [abs_of_nonneg h] at hx ⊢
    rw [abs_of_nonneg (Real.arcsin_nonneg.mpr h)]
    exact key x h hx
  · rw [abs_of_nonpos h] at hx ⊢
    rw [abs_of_nonpos (Real.arcsin_nonpos.mpr h), ← Real.arcsin_neg]
    exact key _ (by linarith) hx

theorem Rounding.u_small (r : Rounding) : r.u ≤ 1 / 1000000 * 2 ∧ r.u ≤ 1 / 1000 := by
  have := r.u_le
  norm_num at this ⊢
  constructor <;> linarith

theorem corpseK_rounded (θ : Fl r) :
    |(corpseK θ).val| ≤ 9 / 10 ∧ |(corpseK θ).val| ≤ 4 / 10 * |θ.val| := by
  have hu0 := r.u_nonneg
  have hu := r.u_small.2
  set s := (PyFloat.sin (θ / PyFloat.lit 2) : Fl r) with hs
  have hsv : s.val = r.sin.f (θ.val / 2) := by rw [hs, val_sin, half_rounded]
  have hk : (corpseK θ).val = r.arcsin.f (s.val / 2) := by
    rw [corpseK, val_arcsin, half_rounded]
  have h1 := r.sin.close (θ.val / 2)
  rw [← hsv] at h1
  have h2 : |s.val| ≤ (1 + 2 * r.u) * |Real.sin (θ.val / 2)| := by
    have := abs_sub_abs_le_abs_sub s.val (Real.sin (θ.val / 2))
    linarith
  have h3 := Real.abs_sin_le_one (θ.val / 2)
  have h4 : |Real.sin (θ.val / 2)| ≤ |θ.val| / 2 := by
    have := Real.abs_sin_le_abs (x := θ.val / 2)
    rwa [abs_div, abs_two] at this
  have h5 : |s.val| ≤ 1.002 := by
    have : (1 + 2 * r.u) * |Real.sin (θ.val / 2)| ≤ (1 + 2 * r.u) * 1 := by gcongr
    norm_num; linarith
  have h6 : |s.val| ≤ 0.501 * |θ.val| := by
    have : (1 + 2 * r.u) * |Real.sin (θ.val / 2)| ≤ 1.002 * (|θ.val| / 2) := by
      gcongr; norm_num; linarith
    norm_num at this ⊢; linarith
  have h7 := r.arcsin.close (s.val / 2)
  rw [← hk] at h7
  have h8 : |s.val / 2| = |s.val| / 2 := by rw [abs_div, abs_two]
  have h9 := abs_arcsin_le (x := s.val / 2) (by rw [h8]; norm_num at h5; linarith)
  rw [h8] at h9
  have h10 : |(corpseK θ).val| ≤ (1 + 2 * r.u) * |Real.arcsin (s.val / 2)| := by
    have := abs_sub_abs_le_abs_sub (corpseK θ).val (Real.arcsin (s.val / 2))
    linarith
  have hpi := Real.pi_lt_d2
  have h11 : |Real.arcsin (s.val / 2)| ≤ 1.575 * (|s.val| / 2) := by
    refine h9.trans ?_
    gcongr; norm_num at hpi ⊢; linarith
  have h12 : |(corpseK θ).val| ≤ 1.002 * (1.575 * (|s.val| / 2)) := by
    refine h10.trans ?_
    gcongr
    norm_num; linarith
  norm_num at h12 h5 h6
  constructor
  · linarith
  · linarith [abs_nonneg θ.val]

theorem two_pi_add_rounded (a : Fl r) : |(PyFloat.lit 2 * PyFloat.pi + a : Fl r).val -
    (2 * r.rnd Real.pi + a.val)| ≤ r.u * (|a.val| + 6.2834) := by
  rw [val_add, two_mul_rounded, val_pi]
  refine (r.close _).trans ?_
  have h := rnd_pi_bounds (r := r)
  norm_num at h
  gcongr
  · exact r.u_nonneg
  · refine (abs_add_le _ _).trans ?_
    rw [abs_of_pos (by linarith)]
    norm_num; linarith

/-- the three rotation angles of a CORPSE pulse -/
theorem corpse_rounded_angles {θ : Fl r} (hθ : 0 < θ.val) :
    |(PyFloat.lit 2 * PyFloat.pi + θ / PyFloat.lit 2 - corpseK θ : Fl r).val -
        (2 * Real.pi + θ.val / 2 - (corpseK θ).val)| ≤ (101 / 100 * θ.val + 20) * r.u ∧
    |(PyFloat.lit 2 * PyFloat.pi - PyFloat.lit 2 * corpseK θ : Fl r).val -
        (2 * Real.pi - 2 * (corpseK θ).val)| ≤ 145 / 10 * r.u ∧
    |(θ / PyFloat.lit 2 - corpseK θ : Fl r).val - (θ.val / 2 - (corpseK θ).val)| ≤ (θ.val / 2 + 9 / 10) * r.u := by
  obtain ⟨hk, -⟩ := corpseK_rounded θ
  have hu0 := r.u_nonneg
  have hu := r.u_small.2
  have hpe := pi_error (r := r)
  have hpb := rnd_pi_bounds (r := r)
  norm_num at hpb
  set k := (corpseK θ).val
  refine ⟨?_, ?_, ?_⟩
  · have h1 := two_pi_add_rounded (θ / PyFloat.lit 2)
    rw [half_rounded, abs_of_pos (by linarith : 0 < θ.val / 2)] at h1
    rw [val_sub]
    set x := (PyFloat.lit 2 * PyFloat.pi + θ / PyFloat.lit 2 : Fl r).val
    have h2 := r.close (x - k)
    have h3 : |x| ≤ 1.001 * (θ.val / 2 + 6.2834) := by
      have h4 := abs_sub_abs_le_abs_sub x (2 * r.rnd Real.pi + θ.val / 2)
      have h5 : |2 * r.rnd Real.pi + θ.val / 2| ≤ θ.val / 2 + 6.2834 := by
        rw [abs_of_pos (by linarith)]; norm_num; linarith
      have h6 : r.u * (θ.val / 2 + 6.2834) ≤ 1 / 1000 * (θ.val / 2 + 6.2834) := by gcongr
      norm_num at h4 h5 h6 ⊢; linarith
    have h7 : |x - k| ≤ 1.001 * (θ.val / 2 + 6.2834) + 9 / 10 := by
      have := abs_sub x k
      linarith
    have h8 := mul_le_mul_of_nonneg_left h7 hu0
    rw [abs_le] at h1 h2 hpe ⊢
    norm_num at h1 h8 ⊢
    constructor <;> nlinarith
  · rw [val_sub, two_mul_rounded, two_mul_rounded, val_pi]
    have h2 := r.close (2 * r.rnd Real.pi - 2 * k)
    have h7 : |2 * r.rnd Real.pi - 2 * k| ≤ 6.2834 + 1.8 := by
      have := abs_sub (2 * r.rnd Real.pi) (2 * k)
      rw [abs_mul, abs_mul, abs_two, abs_of_pos (by linarith : 0 < r.rnd Real.pi)] at this
      norm_num; linarith
    have h8 := mul_le_mul_of_nonneg_left h7 hu0
    rw [abs_le] at h2 hpe ⊢
    norm_num at h8 ⊢
    constructor <;> linarith
  · rw [val_sub, half_rounded]
    refine (r.close _).trans ?_
    rw [mul_comm]
    gcongr
    have := abs_sub (θ.val / 2) k
    rw [abs_of_pos (by linarith : 0 < θ.val / 2)] at this
    linarith

theorem corpse_any (θ p k : ℝ) :
    tableEvolution [(2 * Real.pi + θ / 2 - k, p), (2 * Real.pi - 2 * k, p + Real.pi), (θ / 2 - k, p)] =
      rotation θ p := by
  simp only [tableEvolution_cons, tableEvolution_nil, one_mul]
  rw [rotation_axis_add_pi, rotation_mul_same, rotation_mul_same]
  congr 1; ring

theorem corpse_rounded {θ : Fl r} (hθ : 0 < θ.val) (p q : Fl r) :
    ‖tableEvolution (realTable (roundedCorpse θ p q)) - rotation θ.val p.val‖ ≤
      (77 / 100 * θ.val + 18) * r.u + |q.val - (p.val + Real.pi)| := by
  obtain ⟨h1, h2, h3⟩ := corpse_rounded_angles hθ
  have hd := tableEvolution_dist (t := realTable (roundedCorpse θ p q))
    (t' := [(2 * Real.pi + θ.val / 2 - (corpseK θ).val, p.val),
      (2 * Real.pi - 2 * (corpseK θ).val, p.val + Real.pi), (θ.val / 2 - (corpseK θ).val, p.val)])
    (by simp [realTable, roundedCorpse])
  rw [corpse_any] at hd
  refine hd.trans ?_
  simp only [roundedCorpse, realTable, List.map_cons, List.map_nil, tableError, sub_self, abs_zero]
  have := mul_nonneg hθ.le r.u_nonneg
  have := r.u_nonneg
  linarith

theorem corpse_rounded_total {θ : Fl r} (hθ : 0 < θ.val) (p q : Fl r) :
    totalAngle (realTable (roundedCorpse θ p q)) ≤ 102 / 100 * θ.val + 17 := by
  obtain ⟨h1, h2, h3⟩ := corpse_rounded_angles hθ
  obtain ⟨hk, -⟩ := corpseK_rounded θ
  have hpi := Real.pi_lt_d2
  have hpi0 := Real.pi_pos
  have hu := r.u_small.2
  have hu0 := r.u_nonneg
  simp only [totalAngle, roundedCorpse, realTable, List.map_cons, List.map_nil, List.sum_cons, List.sum_nil]
  have e1 := abs_sub_abs_le_abs_sub (PyFloat.lit 2 * PyFloat.pi + θ / PyFloat.lit 2 - corpseK θ : Fl r).val
    (2 * Real.pi + θ.val / 2 - (corpseK θ).val)
  have e2 := abs_sub_abs_le_abs_sub (PyFloat.lit 2 * PyFloat.pi - PyFloat.lit 2 * corpseK θ : Fl r).val
    (2 * Real.pi - 2 * (corpseK θ).val)
  have e3 := abs_sub_abs_le_abs_sub (θ / PyFloat.lit 2 - corpseK θ : Fl r).val (θ.val / 2 - (corpseK θ).val)
  have a := abs_le.mp hk
  have f1 : |2 * Real.pi + θ.val / 2 - (corpseK θ).val| ≤ 7.2 + θ.val / 2 := by
    rw [abs_le]; norm_num at hpi ⊢; constructor <;> linarith
  have f2 : |2 * Real.pi - 2 * (corpseK θ).val| ≤ 8.1 := by
    rw [abs_le]; norm_num at hpi ⊢; constructor <;> linarith
  have f3 : |θ.val / 2 - (corpseK θ).val| ≤ θ.val / 2 + 0.9 := by
    rw [abs_le]; norm_num; constructor <;> linarith
  have g := mul_le_mul_of_nonneg_left hu hθ.le
  norm_num at f1 f2 f3
  linarith

theorem corpse_rounded_pos {θ : Fl r} (hθ : θ.val ≠ 0) (p q : Fl r) :
    (∀ x ∈ roundedCorpse θ p q, 0 < x.1.val) ↔ 0 < θ.val := by
  obtain ⟨hk, hk2⟩ := corpseK_rounded θ
  have hpb := rnd_pi_bounds (r := r)
  norm_num at hpb
  simp only [roundedCorpse, List.forall_mem_cons, List.not_mem_nil, false_imp_iff, implies_true, and_true]
  have e3 : 0 < (θ / PyFloat.lit 2 - corpseK θ : Fl r).val ↔ 0 < θ.val / 2 - (corpseK θ).val := by
    rw [val_sub, rnd_pos, half_rounded]
  constructor
  · rintro ⟨-, -, h⟩
    rw [e3] at h
    by_contra hn
    rw [abs_of_neg (lt_of_le_of_ne (not_lt.mp hn) hθ), abs_le] at hk2
    linarith [hk2.1, lt_of_le_of_ne (not_lt.mp hn) hθ]
  · intro h
    rw [abs_of_pos h, abs_le] at hk2
    refine ⟨?_, ?_, ?_⟩
    · rw [val_sub, rnd_pos, val_add, two_mul_rounded, half_rounded, val_pi, sub_pos]
      have h1 : r.rnd (θ.val / 2) ≤ r.rnd (2 * r.rnd Real.pi + θ.val / 2) := r.mono (by linarith)
      rw [r.half, θ.rnd_val] at h1
      linarith [hk2.2]
    · rw [val_sub, rnd_pos, two_mul_rounded, two_mul_rounded, val_pi]
      linarith [(abs_le.mp hk).2]
    · rw [e3]; linarith [hk2.2]

theorem axis_rounded (φ : Fl r) : |(φ + PyFloat.pi : Fl r).val - (φ.val + Real.pi)| ≤
    (|φ.val| + 63 / 10) * r.u := by
  rw [val_add, val_pi]
  have h1 := r.close (φ.val + r.rnd Real.pi)
  have h2 := pi_error (r := r)
  have hpb := rnd_pi_bounds (r := r)
  norm_num at hpb
  have h3 : |φ.val + r.rnd Real.pi| ≤ |φ.val| + 3.1417 := by
    refine (abs_add_le _ _).trans ?_
    rw [abs_of_pos (by linarith : 0 < r.rnd Real.pi)]
    norm_num; linarith
  have h4 := mul_le_mul_of_nonneg_left h3 r.u_nonneg
  have h5 := abs_sub_le (r.rnd (φ.val + r.rnd Real.pi)) (φ.val + r.rnd Real.pi) (φ.val + Real.pi)
  rw [add_sub_add_left_eq_sub] at h5
  norm_num at h4
  linarith [r.u_nonneg]

theorem newCorpse_rounded (θ Ω φ : Fl r) (name : Option String) :
    AcceptsExactly (newCorpseControl θ Ω φ name) (0 < Ω.val ∧ 0 < θ.val)
      (roundedControl Ω (roundedCorpse θ φ (φ + PyFloat.pi)) name) := by
  refine AcceptsExactly.congr (AcceptsExactly.validateRounded fun hΩ _ =>
    new_rounded hΩ (roundedCorpse θ φ (φ + PyFloat.pi)) _ _ _ _ _ ?_ rfl rfl rfl) ?_
  · simp only [roundedCorpse, List.map_cons, List.map_nil]
    rw [add_comm_rounded (θ / PyFloat.lit 2)]
  · constructor
    · rintro ⟨h1, h2, h3⟩; exact ⟨h1, (corpse_rounded_pos h2 _ _).mp h3⟩
    · rintro ⟨h1, h2⟩; exact ⟨h1, h2.ne', (corpse_rounded_pos h2.ne' _ _).mpr h2⟩

/-- the table CORPSE in BB1 computes -/
noncomputable def roundedCorpseBB1 (θ φ : Fl r) : List (Fl r × Fl r) :=
  roundedCorpse θ φ (φ + PyFloat.pi) ++
  [(PyFloat.pi, φ + roundedPhiP θ), (PyFloat.lit 2 * PyFloat.pi, φ + PyFloat.lit 3 * roundedPhiP θ),
   (PyFloat.pi, φ + roundedPhiP θ)]

/-- the table CORPSE in SK1 computes -/
noncomputable def roundedCorpseSK1 (θ φ : Fl r) : List (Fl r × Fl r) :=
  roundedCorpse θ φ (φ + PyFloat.pi) ++
  [(PyFloat.lit 2 * PyFloat.pi, φ - roundedPhiP θ), (PyFloat.lit 2 * PyFloat.pi, φ + roundedPhiP θ)]

theorem newCorpseInBB1_rounded (θ Ω φ : Fl r) (name : Option String) :
    AcceptsExactly (newCorpseInBB1Control θ Ω φ name)
      (0 < Ω.val ∧ 0 < θ.val ∧ θ.val ≤ 4 * r.rnd Real.pi)
      (roundedControl Ω (roundedCorpseBB1 θ φ) name) := by
  refine AcceptsExactly.congr (AcceptsExactly.validateRounded fun hΩ _ => AcceptsExactly.wimperisRounded
    (new_rounded hΩ (roundedCorpseBB1 θ φ) _ _ _ _ _ rfl rfl rfl rfl)) ?_
  have := pi_val_pos (r := r)
  have h2 := two_pi_val_pos (r := r)
  rw [val_pi] at this
  simp only [roundedCorpseBB1, List.forall_mem_append, List.forall_mem_cons, List.not_mem_nil,
    false_imp_iff, implies_true]
  constructor
  · rintro ⟨h1, h2, ⟨h3, h4⟩, h5, -⟩; exact ⟨h1, (corpse_rounded_pos h2 _ _).mp h5, h4⟩
  · rintro ⟨h1, h2, h3⟩
    refine ⟨h1, h2.ne', ⟨by linarith, h3⟩, (corpse_rounded_pos h2.ne' _ _).mpr h2, ?_, ?_, ?_, trivial⟩ <;> assumption

theorem newCorpseInSK1_rounded (θ Ω φ : Fl r) (name : Option String) :
    AcceptsExactly (newCorpseInSK1Control θ Ω φ name)
      (0 < Ω.val ∧ 0 < θ.val ∧ θ.val ≤ 4 * r.rnd Real.pi)
      (roundedControl Ω (roundedCorpseSK1 θ φ) name) := by
  refine AcceptsExactly.congr (AcceptsExactly.validateRounded fun hΩ _ => AcceptsExactly.wimperisRounded
    (new_rounded hΩ (roundedCorpseSK1 θ φ) _ _ _ _ _ rfl rfl rfl rfl)) ?_
  have := pi_val_pos (r := r)
  have h2 := two_pi_val_pos (r := r)
  rw [val_pi] at this
  simp only [roundedCorpseSK1, List.forall_mem_append, List.forall_mem_cons, List.not_mem_nil,
    false_imp_iff, implies_true]
  constructor
  · rintro ⟨h1, h2, ⟨h3, h4⟩, h5, -⟩; exact ⟨h1, (corpse_rounded_pos h2 _ _).mp h5, h4⟩
  · rintro ⟨h1, h2, h3⟩
    refine ⟨h1, h2.ne', ⟨by linarith, h3⟩, (corpse_rounded_pos h2.ne' _ _).mpr h2, ?_, ?_, trivial⟩ <;> assumption

theorem corpse_table_rounded {θ : Fl r} (hθ : 0 < θ.val) (φ : Fl r) :
    ‖tableEvolution (realTable (roundedCorpse θ φ (φ + PyFloat.pi))) - rotation θ.val φ.val‖ ≤
      (77 / 100 * θ.val + |φ.val| + 243 / 10) * r.u := by
  have h1 := corpse_rounded hθ φ (φ + PyFloat.pi)
  have h2 := axis_rounded φ
  linarith

theorem single_table (θ φ : Fl r) (t : List (Fl r × Fl r)) :
    realTable ((θ, φ) :: t) = [(θ.val, φ.val)] ++ realTable t := rfl

theorem single_dist (θ φ : ℝ) : ‖tableEvolution [(θ, φ)] - rotation θ φ‖ ≤ 0 := by
  simp [tableEvolution_cons, tableEvolution_nil]

theorem evolution_primitive_rounded {θ Ω : Fl r} (hΩ : 0 < Ω.val) (hθ : 0 < θ.val) (φ : Fl r)
    (name : Option String) :
    ‖evolution ((roundedControl Ω [(θ, φ)] name).map val) - rotation θ.val φ.val‖ ≤ θ.val / 2 * r.u := by
  have h := single_dist θ.val φ.val
  rw [show [(θ.val, φ.val)] = realTable [(θ, φ)] by simp [realTable]] at h
  refine (evolution_total hΩ name h (A := θ.val) ?_).trans (by linarith)
  simp [realTable, totalAngle, abs_of_pos hθ]

theorem evolution_bb1_rounded {θ Ω : Fl r} (hΩ : 0 < Ω.val) (hθ : 0 < θ.val) (φ : Fl r)
    (name : Option String) :
    ‖evolution ((roundedControl Ω (roundedBB1 θ φ) name).map val) - rotation θ.val φ.val‖ ≤
      (θ.val / 2 + 13) * r.u := by
  have h := append_dist (single_dist θ.val φ.val) (bb1_tail_rounded (φ + roundedPhiP θ) (φ + PyFloat.lit 3 * roundedPhiP θ))
  rw [← single_table] at h
  refine (evolution_total hΩ name (t := roundedBB1 θ φ) h (A := θ.val + 12.57) ?_).trans ?_
  · have := totalAngle_bb1_tail (φ + roundedPhiP θ) (φ + PyFloat.lit 3 * roundedPhiP θ)
    rw [roundedBB1, single_table, totalAngle_append]
    simp only [totalAngle, List.map_cons, List.map_nil, List.sum_cons, List.sum_nil, abs_of_pos hθ] at this ⊢
    linarith
  · have := r.u_nonneg
    norm_num; linarith

theorem evolution_sk1_rounded {θ Ω : Fl r} (hΩ : 0 < Ω.val) (hθ : 0 < θ.val) (φ : Fl r)
    (name : Option String) :
    ‖evolution ((roundedControl Ω (roundedSK1 θ φ) name).map val) - rotation θ.val φ.val‖ ≤
      (θ.val / 2 + 13) * r.u := by
  have h := append_dist (single_dist θ.val φ.val) (sk1_tail_rounded (φ - roundedPhiP θ) (φ + roundedPhiP θ))
  rw [← single_table] at h
  refine (evolution_total hΩ name (t := roundedSK1 θ φ) h (A := θ.val + 12.57) ?_).trans ?_
  · have := totalAngle_sk1_tail (φ - roundedPhiP θ) (φ + roundedPhiP θ)
    rw [roundedSK1, single_table, totalAngle_append]
    simp only [totalAngle, List.map_cons, List.map_nil, List.sum_cons, List.sum_nil, abs_of_pos hθ] at this ⊢
    linarith
  · have := r.u_nonneg
    norm_num; linarith

theorem evolution_corpse_rounded {θ Ω : Fl r} (hΩ : 0 < Ω.val) (hθ : 0 < θ.val) (φ : Fl r)
    (name : Option String) :
    ‖evolution ((roundedControl Ω (roundedCorpse θ φ (φ + PyFloat.pi)) name).map val) -
      rotation θ.val φ.val‖ ≤ (2 * θ.val + |φ.val| + 33) * r.u := by
  refine (evolution_total hΩ name (corpse_table_rounded hθ φ) (corpse_rounded_total hθ _ _)).trans ?_
  have := mul_nonneg hθ.le r.u_nonneg
  have := r.u_nonneg
  linarith

theorem evolution_corpseBB1_rounded {θ Ω : Fl r} (hΩ : 0 < Ω.val) (hθ : 0 < θ.val) (φ : Fl r)
    (name : Option String) :
    ‖evolution ((roundedControl Ω (roundedCorpseBB1 θ φ) name).map val) -
      rotation θ.val φ.val‖ ≤ (2 * θ.val + |φ.val| + 46) * r.u := by
  have h1 := append_dist (corpse_table_rounded hθ φ)
    (bb1_tail_rounded (φ + roundedPhiP θ) (φ + PyFloat.lit 3 * roundedPhiP θ))
  rw [← realTable_append] at h1
  refine (evolution_total hΩ name h1 (A := 102 / 100 * θ.val + 17 + 12.57) ?_).trans ?_
  · rw [realTable_append, totalAngle_append]
    exact add_le_add (corpse_rounded_total hθ _ _) (totalAngle_bb1_tail _ _)
  · have := mul_nonneg hθ.le r.u_nonneg
    have := r.u_nonneg
    norm_num
    linarith

theorem evolution_corpseSK1_rounded {θ Ω : Fl r} (hΩ : 0 < Ω.val) (hθ : 0 < θ.val) (φ : Fl r)
    (name : Option String) :
    ‖evolution ((roundedControl Ω (roundedCorpseSK1 θ φ) name).map val) -
      rotation θ.val φ.val‖ ≤ (2 * θ.val + |φ.val| + 46) * r.u := by
  have h1 := append_dist (corpse_table_rounded hθ φ)
    (sk1_tail_rounded (φ - roundedPhiP θ) (φ + roundedPhiP θ))
  rw [← realTable_append] at h1
  refine (evolution_total hΩ name h1 (A := 102 / 100 * θ.val + 17 + 12.57) ?_).trans ?_
  · rw [realTable_append, totalAngle_append]
    exact add_le_add (corpse_rounded_total hθ _ _) (totalAngle_sk1_tail _ _)
  · have := mul_nonneg hθ.le r.u_nonneg
    have := r.u_nonneg
    norm_num
    linarith

end OpenControls
