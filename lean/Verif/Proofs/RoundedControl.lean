import Verif.Proofs.OperatorNorm
import Verif.Proofs.Composite
import Verif.Proofs.RoundedFamilies
import Verif.Spec.Extended

/-!
# Tables of pulses in rounded arithmetic
-/

namespace OpenControls

open Spec Fl

open scoped Matrix.Norms.L2Operator

variable {r : Rounding}

/-- the real numbers of a table of rounded numbers -/
def realTable (t : List (Fl r × Fl r)) : List (ℝ × ℝ) := t.map fun p => (p.1.val, p.2.val)

/-- the control made from a table of rounded numbers -/
noncomputable def roundedControl (Ω : Fl r) (t : List (Fl r × Fl r)) (name : Option String) :
    DrivenControl (Fl r) where
  rabiRates := t.map fun _ => Ω
  azimuthalAngles := t.map fun p => p.2
  detunings := t.map fun _ => PyFloat.lit 0
  durations := t.map fun p => p.1 / Ω
  name := name

theorem rnd_pos {x : ℝ} : 0 < r.rnd x ↔ 0 < x := by
  have h := Rel.of_rnd (r := r) x
  obtain ⟨e, -, he⟩ := h
  rw [he]
  constructor
  · intro h
    exact pos_of_mul_pos_left h (Real.exp_pos e).le
  · intro h; positivity

theorem new_rounded {Ω : Fl r} (hΩ : 0 < Ω.val) (t : List (Fl r × Fl r)) (name : Option String)
    (durations rates azimuths detunings : List (Fl r))
    (hd : durations = t.map fun p => p.1 / Ω) (hr : rates = t.map fun _ => Ω)
    (ha : azimuths = t.map fun p => p.2) (hdet : detunings = t.map fun _ => PyFloat.lit 0) :
    AcceptsExactly
      (DrivenControl.new durations (some rates) (some azimuths) (some detunings) name)
      (∀ p ∈ t, 0 < p.1.val) (roundedControl Ω t name) := by
  subst hd hr ha hdet
  unfold AcceptsExactly
  rw [DrivenControl.new_eq]
  have h1 : ((t.map fun p => p.1 / Ω).all fun t => Py.gt t (PyFloat.lit 0 : Fl r)) = true ↔
      ∀ p ∈ t, 0 < p.1.val := by
    simp only [List.all_eq_true, List.mem_map, forall_exists_index, and_imp,
      forall_apply_eq_imp_iff₂, gt_iff, val_lit_zero, val_div, rnd_pos, div_pos_iff_of_pos_right hΩ]
  constructor
  · intro h
    rw [if_pos (h1.mpr h), if_pos (by simp), if_pos]
    · rfl
    · simp [hΩ.le]
  · intro h
    rw [if_neg (fun hh => h (h1.mp hh))]
    exact ⟨_, rfl⟩

/-- sum of the rotation angles -/
noncomputable def totalAngle (t : List (ℝ × ℝ)) : ℝ := (t.map fun p => |p.1|).sum

/-- Dividing by the Rabi rate costs one rounding per pulse. -/
theorem evolution_rounded {Ω : Fl r} (hΩ : 0 < Ω.val) (t : List (Fl r × Fl r)) (name : Option String) :
    ‖evolution ((roundedControl Ω t name).map val) - tableEvolution (realTable t)‖ ≤
      r.u / 2 * totalAngle (realTable t) := by
  have key : ∀ t : List (Fl r × Fl r), evolution ((roundedControl Ω t name).map val) =
      tableEvolution (t.map fun p => (Ω.val * (p.1 / Ω).val, p.2.val)) := by
    intro t
    unfold evolution roundedControl DrivenControl.map
    induction t with
    | nil => rfl
    | cons p t ih =>
      simp only [List.map_cons, List.map_map] at ih ⊢
      rw [controlEvolution_cons, ih, tableEvolution_cons, val_lit_zero, segmentUnitary_resonant]
  rw [key]
  refine (tableEvolution_dist (by simp [realTable])).trans (le_of_eq_of_le ?_ ?_ (b := tableError
    (t.map fun p => (Ω.val * (p.1 / Ω).val, p.2.val)) (realTable t))) 
  · rfl
  · induction t with
    | nil => simp [tableError, realTable, totalAngle]
    | cons p t ih =>
      simp only [realTable, List.map_cons, tableError, totalAngle, List.sum_cons] at ih ⊢
      have h1 : |Ω.val * (p.1 / Ω).val - p.1.val| ≤ r.u * |p.1.val| := by
        have h := r.close (p.1.val / Ω.val)
        have e : Ω.val * (p.1 / Ω).val - p.1.val = Ω.val * (r.rnd (p.1.val / Ω.val) - p.1.val / Ω.val) := by
          rw [val_div, mul_sub, mul_div_cancel₀ _ hΩ.ne']
        rw [e, abs_mul, abs_of_pos hΩ]
        rw [abs_div, abs_of_pos hΩ] at h
        calc _ ≤ Ω.val * (r.u * (|p.1.val| / Ω.val)) := by gcongr
          _ = _ := by field_simp
      rw [sub_self, abs_zero]
      linarith

theorem rnd_mul_two (x : ℝ) : r.rnd (2 * r.rnd x) = 2 * r.rnd x := by
  have := r.rnd_mul_pow (r.rnd x) 1
  rw [pow_one, r.idem, mul_comm] at this
  rw [this, mul_comm]

theorem two_mul_rounded (x : Fl r) : (PyFloat.lit 2 * x : Fl r).val = 2 * x.val := by
  rw [val_mul, val_lit]
  push_cast
  have := rnd_mul_two (r := r) x.val
  rw [x.rnd_val] at this
  rw [r.rnd_two, this]

theorem rnd_four : r.rnd 4 = 4 := by simpa using r.rnd_nat (n := 4) (by norm_num)

theorem four_mul_rounded (x : Fl r) : (PyFloat.lit 4 * x : Fl r).val = 4 * x.val := by
  rw [val_mul, val_lit]
  push_cast
  rw [rnd_four]
  have := r.rnd_mul_pow x.val 2
  rw [x.rnd_val] at this
  norm_num at this
  rw [mul_comm, this]

theorem neg_four_mul_rounded (x : Fl r) : (PyFloat.lit (-4) * x : Fl r).val = -(4 * x.val) := by
  rw [val_mul, val_lit]
  push_cast
  rw [r.neg, rnd_four, neg_mul, r.neg]
  have := four_mul_rounded x
  rw [val_mul, val_lit] at this
  push_cast at this
  rw [rnd_four] at this
  rw [this]

theorem half_rounded (x : Fl r) : (x / PyFloat.lit 2 : Fl r).val = x.val / 2 := by
  rw [val_div, val_lit]
  push_cast
  rw [r.rnd_two, r.half, x.rnd_val]

theorem pi_error : |r.rnd Real.pi - Real.pi| ≤ 22 / 7 * r.u := by
  have h := r.close Real.pi
  rw [abs_of_pos Real.pi_pos] at h
  have h2 : Real.pi ≤ 22 / 7 := by have := Real.pi_lt_d4; norm_num at this ⊢; linarith
  have := mul_le_mul_of_nonneg_left h2 r.u_nonneg
  linarith

theorem rnd_pi_bounds : 3.14 < r.rnd Real.pi ∧ r.rnd Real.pi < 3.1417 := by
  have h := abs_le.mp (pi_error (r := r))
  have h1 := Real.pi_gt_d4
  have h2 := Real.pi_lt_d4
  have h3 := r.u_le
  have h0 := r.u_nonneg
  norm_num at h1 h2 h3 ⊢
  constructor <;> linarith [h.1, h.2]

/-- The Rabi validation in front of a call, in rounded arithmetic. -/
theorem Spec.AcceptsExactly.validateRounded {β : Type} {call : Except PyErr β} {P : Prop} {c : β}
    {θ Ω : Fl r} (h : 0 < Ω.val → θ.val ≠ 0 → AcceptsExactly call P c) :
    AcceptsExactly (validateRabiParameters θ Ω >>= fun _ => call)
      (0 < Ω.val ∧ θ.val ≠ 0 ∧ P) c := by
  have e : (validateRabiParameters θ Ω >>= fun _ => call) =
      (checkArguments (Py.gt Ω (PyFloat.lit 0))
        "Maximum rabi angular frequency should be greater than zero." >>= fun _ =>
        (checkArguments (Py.ne θ (PyFloat.lit 0)) "The rabi rotation must be non-zero." >>=
          fun _ => call)) := by
    unfold validateRabiParameters
    rw [checkArguments_bind, checkArguments_bind]
    split <;> rfl
  rw [e]
  exact AcceptsExactly.check (by simp) fun hΩ => AcceptsExactly.check (by simp) fun hθ => h hΩ hθ

/-- `_get_transformed_rabi_rotation_wimperis` in front of a call, in rounded arithmetic -/
theorem Spec.AcceptsExactly.wimperisRounded {β : Type} {call : Fl r → Except PyErr β} {P : Prop} {c : β}
    {θ : Fl r} (h : AcceptsExactly (call (PyFloat.arccos (-θ / (PyFloat.lit 4 * PyFloat.pi)))) P c) :
    AcceptsExactly (transformedRabiRotationWimperis θ >>= call)
      ((-(4 * r.rnd Real.pi) ≤ θ.val ∧ θ.val ≤ 4 * r.rnd Real.pi) ∧ P) c := by
  have e : (transformedRabiRotationWimperis θ >>= call) =
      (checkArguments (PyFloat.le (PyFloat.lit (-4) * PyFloat.pi) θ &&
        PyFloat.le θ (PyFloat.lit 4 * PyFloat.pi))
    "The polar angle must be between -4 pi and 4 pi (inclusive)." >>= fun _ =>
      call (PyFloat.arccos (-θ / (PyFloat.lit 4 * PyFloat.pi)))) := by
    unfold transformedRabiRotationWimperis
    rw [checkArguments_bind, checkArguments_bind]
    split <;> rfl
  rw [e]
  refine AcceptsExactly.check ?_ fun _ => h
  rw [Bool.and_eq_true, le_iff, le_iff, neg_four_mul_rounded, four_mul_rounded, val_pi]

/-- the azimuthal angle `φ_p` as it is computed -/
noncomputable def roundedPhiP (θ : Fl r) : Fl r := PyFloat.arccos (-θ / (PyFloat.lit 4 * PyFloat.pi))

/-- the table BB1 computes -/
noncomputable def roundedBB1 (θ φ : Fl r) : List (Fl r × Fl r) :=
  [(θ, φ), (PyFloat.pi, φ + roundedPhiP θ), (PyFloat.lit 2 * PyFloat.pi, φ + PyFloat.lit 3 * roundedPhiP θ),
   (PyFloat.pi, φ + roundedPhiP θ)]

/-- the table SK1 computes -/
noncomputable def roundedSK1 (θ φ : Fl r) : List (Fl r × Fl r) :=
  [(θ, φ), (PyFloat.lit 2 * PyFloat.pi, φ - roundedPhiP θ), (PyFloat.lit 2 * PyFloat.pi, φ + roundedPhiP θ)]

theorem newPrimitive_rounded (θ Ω φ : Fl r) (name : Option String) :
    AcceptsExactly (newPrimitiveControl θ Ω φ name) (0 < Ω.val ∧ 0 < θ.val)
      (roundedControl Ω [(θ, φ)] name) := by
  refine AcceptsExactly.congr (AcceptsExactly.validateRounded fun hΩ _ =>
    new_rounded hΩ [(θ, φ)] _ _ _ _ _ ?_ ?_ ?_ ?_) ?_
  all_goals simp
  intro _ h; exact h.ne'

theorem pi_val_pos : 0 < (PyFloat.pi : Fl r).val := by
  have := (rnd_pi_bounds (r := r)).1
  rw [val_pi]; linarith

theorem two_pi_val_pos : 0 < (PyFloat.lit 2 * PyFloat.pi : Fl r).val := by
  rw [two_mul_rounded]
  have := pi_val_pos (r := r)
  linarith

theorem newBB1_rounded (θ Ω φ : Fl r) (name : Option String) :
    AcceptsExactly (newBB1Control θ Ω φ name)
      (0 < Ω.val ∧ 0 < θ.val ∧ θ.val ≤ 4 * r.rnd Real.pi)
      (roundedControl Ω (roundedBB1 θ φ) name) := by
  refine AcceptsExactly.congr (AcceptsExactly.validateRounded fun hΩ _ => AcceptsExactly.wimperisRounded
    (new_rounded hΩ (roundedBB1 θ φ) _ _ _ _ _ rfl rfl rfl rfl)) ?_
  have := pi_val_pos (r := r)
  have h2 := two_pi_val_pos (r := r)
  rw [val_pi] at this
  simp only [roundedBB1, List.forall_mem_cons, List.not_mem_nil, false_imp_iff, implies_true]
  constructor
  · rintro ⟨h1, h2, ⟨h3, h4⟩, h5, -⟩; exact ⟨h1, h5, h4⟩
  · rintro ⟨h1, h2, h3⟩
    refine ⟨h1, h2.ne', ⟨by linarith, h3⟩, h2, ?_, ?_, ?_, trivial⟩ <;> assumption

theorem newSK1_rounded (θ Ω φ : Fl r) (name : Option String) :
    AcceptsExactly (newSK1Control θ Ω φ name)
      (0 < Ω.val ∧ 0 < θ.val ∧ θ.val ≤ 4 * r.rnd Real.pi)
      (roundedControl Ω (roundedSK1 θ φ) name) := by
  refine AcceptsExactly.congr (AcceptsExactly.validateRounded fun hΩ _ => AcceptsExactly.wimperisRounded
    (new_rounded hΩ (roundedSK1 θ φ) _ _ _ _ _ rfl rfl rfl rfl)) ?_
  have := pi_val_pos (r := r)
  have h2 := two_pi_val_pos (r := r)
  rw [val_pi] at this
  simp only [roundedSK1, List.forall_mem_cons, List.not_mem_nil, false_imp_iff, implies_true]
  constructor
  · rintro ⟨h1, h2, ⟨h3, h4⟩, h5, -⟩; exact ⟨h1, h5, h4⟩
  · rintro ⟨h1, h2, h3⟩
    refine ⟨h1, h2.ne', ⟨by linarith, h3⟩, h2, ?_, ?_, trivial⟩ <;> assumption

/-- The correcting pulses of BB1 cancel about any axes. -/
theorem bb1_tail (a b : ℝ) :
    tableEvolution [(Real.pi, a), (2 * Real.pi, b), (Real.pi, a)] = 1 := by
  simp only [tableEvolution_cons, tableEvolution_nil, one_mul]
  rw [rotation_two_pi, mul_neg_one, neg_mul, rotation_mul_same, ← two_mul, rotation_two_pi]
  simp

theorem sk1_tail (a b : ℝ) : tableEvolution [(2 * Real.pi, a), (2 * Real.pi, b)] = 1 := by
  simp only [tableEvolution_cons, tableEvolution_nil, one_mul]
  rw [rotation_two_pi, rotation_two_pi]
  simp

theorem bb1_tail_rounded (a b : Fl r) :
    ‖tableEvolution (realTable [(PyFloat.pi, a), (PyFloat.lit 2 * PyFloat.pi, b), (PyFloat.pi, a)]) - 1‖ ≤
      44 / 7 * r.u := by
  have hd := tableEvolution_dist (t := realTable (r := r)
    [(PyFloat.pi, a), (PyFloat.lit 2 * PyFloat.pi, b), (PyFloat.pi, a)])
    (t' := [(Real.pi, a.val), (2 * Real.pi, b.val), (Real.pi, a.val)]) rfl
  rw [bb1_tail] at hd
  refine hd.trans ?_
  have h := pi_error (r := r)
  simp only [realTable, List.map_cons, List.map_nil, tableError, two_mul_rounded, val_pi, sub_self, abs_zero]
  rw [← mul_sub, abs_mul, abs_two]
  linarith

theorem sk1_tail_rounded (a b : Fl r) :
    ‖tableEvolution (realTable [(PyFloat.lit 2 * PyFloat.pi, a), (PyFloat.lit 2 * PyFloat.pi, b)]) - 1‖ ≤
      44 / 7 * r.u := by
  have hd := tableEvolution_dist (t := realTable (r := r)
    [(PyFloat.lit 2 * PyFloat.pi, a), (PyFloat.lit 2 * PyFloat.pi, b)])
    (t' := [(2 * Real.pi, a.val), (2 * Real.pi, b.val)]) rfl
  rw [sk1_tail] at hd
  refine hd.trans ?_
  have h := pi_error (r := r)
  simp only [realTable, List.map_cons, List.map_nil, tableError, two_mul_rounded, val_pi, sub_self, abs_zero]
  rw [← mul_sub, abs_mul, abs_two]
  linarith

/-- a table followed by one that does nothing -/
theorem append_dist {t t' : List (ℝ × ℝ)} {U : M2} {ε ε' : ℝ} (h : ‖tableEvolution t - U‖ ≤ ε)
    (h' : ‖tableEvolution t' - 1‖ ≤ ε') : ‖tableEvolution (t ++ t') - U‖ ≤ ε + ε' := by
  rw [tableEvolution_append]
  have := mul_dist (A := tableEvolution t') (B := tableEvolution t) (A' := 1) (B' := U)
    (tableEvolution_norm t) (by rw [norm_one])
  rw [one_mul] at this
  linarith

theorem realTable_append (t t' : List (Fl r × Fl r)) : realTable (t ++ t') = realTable t ++ realTable t' := by
  simp [realTable]

theorem totalAngle_append (t t' : List (ℝ × ℝ)) : totalAngle (t ++ t') = totalAngle t + totalAngle t' := by
  simp [totalAngle]

theorem totalAngle_bb1_tail (a b : Fl r) :
    totalAngle (realTable [(PyFloat.pi, a), (PyFloat.lit 2 * PyFloat.pi, b), (PyFloat.pi, a)]) ≤ 12.57 := by
  have h := rnd_pi_bounds (r := r)
  simp only [totalAngle, realTable, List.map_cons, List.map_nil, List.sum_cons, List.sum_nil,
    two_mul_rounded, val_pi, abs_mul, abs_two]
  rw [abs_of_pos (by linarith [h.1])]
  norm_num at h ⊢
  linarith

theorem totalAngle_sk1_tail (a b : Fl r) :
    totalAngle (realTable [(PyFloat.lit 2 * PyFloat.pi, a), (PyFloat.lit 2 * PyFloat.pi, b)]) ≤ 12.57 := by
  have h := rnd_pi_bounds (r := r)
  simp only [totalAngle, realTable, List.map_cons, List.map_nil, List.sum_cons, List.sum_nil,
    two_mul_rounded, val_pi, abs_mul, abs_two]
  rw [abs_of_pos (by linarith [h.1])]
  norm_num at h ⊢
  linarith

/-- Combine the error of the table and the rounding of the durations. -/
theorem evolution_total {Ω : Fl r} (hΩ : 0 < Ω.val) {t : List (Fl r × Fl r)} (name : Option String)
    {U : M2} {ε A : ℝ} (h : ‖tableEvolution (realTable t) - U‖ ≤ ε) (hA : totalAngle (realTable t) ≤ A) :
    ‖evolution ((roundedControl Ω t name).map val) - U‖ ≤ ε + r.u / 2 * A := by
  have h1 := norm_sub_le_norm_sub_add_norm_sub (evolution ((roundedControl Ω t name).map val))
    (tableEvolution (realTable t)) U
  have h2 := evolution_rounded hΩ t name
  have h3 := mul_le_mul_of_nonneg_left hA (show 0 ≤ r.u / 2 by linarith [r.u_nonneg])
  linarith

end OpenControls
