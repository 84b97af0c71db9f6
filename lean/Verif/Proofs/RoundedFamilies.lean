import Verif.Proofs.RoundedFinish

/-!
# Evenly and unevenly spaced pulses in rounded arithmetic
-/

namespace OpenControls

open Spec Fl

variable {r : Rounding}

/-- times on one axis -/
def Times.onAxis (a : Axis) (l : List (Fl r × ℝ)) : Times r := l.map fun p => (p.1, p.2, a)

theorem Times.onAxis_exact (a : Axis) (l : List (Fl r × ℝ)) :
    (Times.onAxis a l).exact = Spec.onAxis a (l.map fun p => p.2) := by
  simp [Times.onAxis, Times.exact, Spec.onAxis, Function.comp_def]

theorem Times.onAxis_x (l : List (Fl r × ℝ)) :
    (Times.onAxis .x l).rounded = uniformPulses (l.map fun p => p.1) (PyFloat.lit 0) := by
  simp [Times.onAxis, Times.rounded, uniformPulses, Function.comp_def, Axis.rabi, Axis.azimuthal,
    Axis.detuning, lit_zero, pi_round]

theorem Times.onAxis_y (l : List (Fl r × ℝ)) :
    (Times.onAxis .y l).rounded =
      uniformPulses (l.map fun p => p.1) (PyFloat.pi / PyFloat.lit 2) := by
  rw [half_pi]
  simp [Times.onAxis, Times.rounded, uniformPulses, Function.comp_def, Axis.rabi, Axis.azimuthal,
    Axis.detuning, lit_zero, pi_round]

/-- Times with gaps larger than twice the error are still in order. -/
theorem Times.good_of_gap {T ε : ℝ} (hε : 0 ≤ ε) (hT : 0 < T) {n : ℕ} {f : ℕ → Fl r} {f' : ℕ → ℝ}
    (a : ℕ → Axis) (hclose : ∀ i, 1 ≤ i → i ≤ n → |(f i).val - f' i| ≤ ε * T)
    (hgap : ∀ i j, 1 ≤ i → i < j → j ≤ n → f' i + 2 * (ε * T) < f' j)
    (hends : ∀ i, 1 ≤ i → i ≤ n → ε * T < f' i ∧ f' i + ε * T < T) :
    Times.Good T ε ((List.range' 1 n).map fun i => (f i, f' i, a i)) := by
  have hεT : 0 ≤ ε * T := mul_nonneg hε hT.le
  have hm : ∀ p ∈ (List.range' 1 n).map (fun i => (f i, f' i, a i)),
      ∃ i, 1 ≤ i ∧ i ≤ n ∧ p = (f i, f' i, a i) := by
    intro p hp
    obtain ⟨i, hi, rfl⟩ := List.mem_map.mp hp
    rw [List.mem_range'_1] at hi
    exact ⟨i, hi.1, by omega, rfl⟩
  have hlt : ∀ i j, 1 ≤ i → i < j → j ≤ n → (f i).val < (f j).val := by
    intro i j hi hij hj
    have h1 := abs_le.mp (hclose i hi (by omega))
    have h2 := abs_le.mp (hclose j (by omega) hj)
    have := hgap i j hi hij hj
    linarith [h1.2, h2.1]
  have hlt' : ∀ i j, 1 ≤ i → i < j → j ≤ n → f' i < f' j := by
    intro i j hi hij hj
    have := hgap i j hi hij hj
    linarith
  refine Times.Good.strict ?_ ?_ ?_ ?_
  · intro p hp
    obtain ⟨i, h1, h2, rfl⟩ := hm p hp
    exact hclose i h1 h2
  · intro p hp
    obtain ⟨i, h1, h2, rfl⟩ := hm p hp
    have := abs_le.mp (hclose i h1 h2)
    have := hends i h1 h2
    constructor <;> simp only <;> linarith
  · intro p hp
    obtain ⟨i, h1, h2, rfl⟩ := hm p hp
    have := hends i h1 h2
    constructor <;> simp only <;> linarith
  · intro p hp q hq
    obtain ⟨i, h1, h2, rfl⟩ := hm p hp
    obtain ⟨j, h3, h4, rfl⟩ := hm q hq
    simp only
    rcases lt_trichotomy i j with h | rfl | h
    · exact ⟨fun _ => hlt' i j h1 h h4, fun _ => hlt i j h1 h h4⟩
    · simp
    · have e1 := hlt j i h3 h h2
      have e2 := hlt' j i h3 h h2
      exact ⟨fun h => absurd h (not_lt.mpr e1.le), fun h => absurd h (not_lt.mpr e2.le)⟩

theorem pyInt_rounded {n : Fl r} (h : 0 ≤ n.val) : Py.pyInt n = .ok ⌊n.val⌋₊ := by
  unfold Py.pyInt PyFloat.toInt
  simp only [Fl.instPyFloat, if_pos h]
  rfl

theorem val_nat {n : ℕ} (h : n * r.u ≤ 1) : (Py.nat n : Fl r).val = n := by
  unfold Py.nat
  rw [val_lit, Rat.cast_natCast, r.nat n h]

theorem Rounding.rnd_half (r : Rounding) : r.rnd (1 / 2) = 1 / 2 := by rw [r.half, r.rnd_one]

/-! ## CPMG -/

/-- one rounded CPMG time -/
noncomputable def cpmgRounded (T : Fl r) (n i : ℕ) : Fl r :=
  (PyFloat.lit 1 / Py.nat n * Py.nat (i - 1) +
    PyFloat.lit 1 / Py.nat n * PyFloat.lit (1 / 2)) * T

theorem cpmgOffsets_rounded (T : Fl r) (n : ℕ) :
    cpmgOffsets T n = (List.range' 1 n).map fun i => cpmgRounded T n i := by
  unfold cpmgOffsets cpmgRounded
  rw [List.range'_eq_map_range, List.map_map]
  apply List.map_congr_left
  intro i _
  simp

theorem cpmgRounded_rel (T : Fl r) {n i : ℕ} (h1 : 1 ≤ i) (h2 : i ≤ n) (hn : n * r.u ≤ 1) :
    Rel r 4 (cpmgRounded T n i).val (T.val / n * (i - 1 / 2)) := by
  have hn0 : (0 : ℝ) < n := by exact_mod_cast (by omega : 0 < n)
  have hu := r.u_nonneg
  have hi : ((i - 1 : ℕ) : ℝ) * r.u ≤ 1 := by
    refine le_trans (mul_le_mul_of_nonneg_right ?_ hu) hn
    exact_mod_cast (by omega : i - 1 ≤ n)
  have hlit : (PyFloat.lit (1 / 2) : Fl r).val = 1 / 2 := by
    rw [val_lit]; push_cast; exact r.rnd_half
  have hs : (PyFloat.lit 1 / Py.nat n : Fl r).val = r.rnd (1 / n) := by
    rw [val_div, val_lit, val_nat hn]; simp
  unfold cpmgRounded
  simp only [val_mul, val_add, hs, val_nat hi, hlit]
  have hhalf : r.rnd (r.rnd (1 / n) * (1 / 2)) = r.rnd (1 / n) * (1 / 2) := by
    rw [mul_one_div, r.half, r.idem]
  rw [hhalf]
  have e1 : Rel r 1 (r.rnd (1 / (n : ℝ))) (1 / n) := Rel.of_rnd _
  have e2 : Rel r 2 (r.rnd (r.rnd (1 / (n : ℝ)) * ((i - 1 : ℕ) : ℝ))) (1 / n * ((i - 1 : ℕ) : ℝ)) :=
    ((e1.mul (Rel.refl _)).rnd).mono (by norm_num)
  have e3 : Rel r 2 (r.rnd (1 / (n : ℝ)) * (1 / 2)) (1 / n * (1 / 2)) :=
    (e1.mul (Rel.refl _)).mono (by norm_num)
  have e4 := (((e2.add e3 (by positivity) (by positivity)).rnd).mul (Rel.refl T.val)).rnd
  have e5 : (1 / (n : ℝ) * ((i - 1 : ℕ) : ℝ) + 1 / n * (1 / 2)) * T.val = T.val / n * (i - 1 / 2) := by
    rw [Nat.cast_sub h1]; push_cast; ring
  rw [e5] at e4
  exact e4.mono (by norm_num)

theorem Rel.close_units {k : ℝ} (hk : 0 ≤ k) (hk' : k ≤ 1000) {a x T : ℝ} (h : Rel r k a x)
    (hx : 0 ≤ x) (hxT : x ≤ T) : |a - x| ≤ 203 / 100 * k * r.u * T := by
  have hw := r.w_le
  have hw0 := r.w_nonneg
  have hu := r.u_nonneg
  have hu' : r.u ≤ 1 / 1000000 := r.u_le.trans (by norm_num)
  have h1 : k * r.w ≤ 1 := by nlinarith
  have h2 := h.close h1
  rw [abs_of_nonneg hx] at h2
  refine h2.trans ?_
  have h3 : 2 * (k * r.w) ≤ 203 / 100 * k * r.u := by nlinarith
  have h4 : 0 ≤ 203 / 100 * k * r.u := by positivity
  nlinarith [mul_nonneg h4 hx]

theorem cpmg_good {T : Fl r} (hT : 0 < T.val) {n : ℕ} (hn : 24 * n * r.u ≤ 1) (a : Axis) :
    Times.Good T.val (9 * r.u)
      (Times.onAxis a ((List.range' 1 n).map fun i : ℕ =>
        (cpmgRounded T n i, T.val / n * ((i : ℝ) - 1 / 2)))) := by
  have hu := r.u_nonneg
  have hu' := r.u_lt_one
  unfold Times.onAxis
  rw [List.map_map]
  have hnn : (n : ℝ) * r.u ≤ 1 := by
    have : (0 : ℝ) ≤ n * r.u := by positivity
    linarith
  have key : ∀ x : ℝ, 1 / 2 ≤ x → T.val / n * x ≥ 0 := fun x hx => by positivity
  refine Times.good_of_gap (by positivity) hT (f := cpmgRounded T n)
    (f' := fun i : ℕ => T.val / n * ((i : ℝ) - 1 / 2)) (fun _ => a) ?_ ?_ ?_
  · intro i h1 h2
    have hn0 : (0 : ℝ) < n := by exact_mod_cast (by omega : 0 < n)
    have h1' : (1 : ℝ) ≤ i := by exact_mod_cast h1
    have h2' : (i : ℝ) ≤ n := by exact_mod_cast h2
    have := (cpmgRounded_rel T h1 h2 hnn).close_units (T := T.val) (by norm_num) (by norm_num)
      (key _ (by linarith))
      (by rw [div_mul_eq_mul_div, div_le_iff₀ hn0]; nlinarith)
    refine this.trans ?_
    nlinarith [mul_nonneg hu hT.le]
  · intro i j h1 hij hj
    have hn0 : (0 : ℝ) < n := by exact_mod_cast (by omega : 0 < n)
    have hij' : (i : ℝ) + 1 ≤ j := by exact_mod_cast hij
    have hTn : 0 < T.val / n := by positivity
    have e : 2 * (9 * r.u * T.val) < T.val / n := by
      rw [lt_div_iff₀ hn0]; nlinarith
    nlinarith
  · intro i h1 h2
    have hn0 : (0 : ℝ) < n := by exact_mod_cast (by omega : 0 < n)
    have h1' : (1 : ℝ) ≤ i := by exact_mod_cast h1
    have h2' : (i : ℝ) ≤ n := by exact_mod_cast h2
    have hTn : 0 < T.val / n := by positivity
    have e : 2 * (9 * r.u * T.val) < T.val / n := by
      rw [lt_div_iff₀ hn0]; nlinarith
    have e' : T.val / n * n = T.val := by field_simp
    constructor
    · nlinarith
    · nlinarith

/-! ## Periodic -/

/-- one rounded time of the periodic sequence -/
noncomputable def periodicRounded (T : Fl r) (n i : ℕ) : Fl r :=
  T * (Py.nat i * (PyFloat.lit 1 / Py.nat (n + 1)))

theorem periodicRounded_rel (T : Fl r) {n i : ℕ} (h2 : i ≤ n) (hn : (n + 1 : ℕ) * r.u ≤ 1) :
    Rel r 3 (periodicRounded T n i).val (i * (T.val / (n + 1))) := by
  have hu := r.u_nonneg
  have hi : (i : ℝ) * r.u ≤ 1 := by
    refine le_trans (mul_le_mul_of_nonneg_right ?_ hu) hn
    exact_mod_cast (by omega : i ≤ n + 1)
  have hs : (PyFloat.lit 1 / Py.nat (n + 1) : Fl r).val = r.rnd (1 / (n + 1 : ℕ)) := by
    rw [val_div, val_lit, val_nat hn]; simp
  unfold periodicRounded
  simp only [val_mul, hs, val_nat hi]
  have e1 : Rel r 1 (r.rnd (1 / ((n + 1 : ℕ) : ℝ))) (1 / (n + 1 : ℕ)) := Rel.of_rnd _
  have e4 := ((Rel.refl T.val).mul ((Rel.refl (i : ℝ)).mul e1).rnd).rnd
  have e5 : T.val * (i * (1 / ((n + 1 : ℕ) : ℝ))) = i * (T.val / (n + 1)) := by push_cast; ring
  rw [e5] at e4
  exact e4.mono (by norm_num)

theorem periodic_good {T : Fl r} (hT : 0 < T.val) {n : ℕ} (hn : 24 * (n + 1 : ℕ) * r.u ≤ 1)
    (a : Axis) :
    Times.Good T.val (7 * r.u)
      (Times.onAxis a ((List.range' 1 n).map fun i : ℕ =>
        (periodicRounded T n i, (i : ℝ) * (T.val / (n + 1))))) := by
  have hu := r.u_nonneg
  unfold Times.onAxis
  rw [List.map_map]
  have hnn : ((n + 1 : ℕ) : ℝ) * r.u ≤ 1 := by
    have : (0 : ℝ) ≤ (n + 1 : ℕ) * r.u := by positivity
    linarith
  have hn0 : (0 : ℝ) < (n : ℝ) + 1 := by positivity
  have hTn : 0 < T.val / ((n : ℝ) + 1) := by positivity
  push_cast at hn
  have e : 2 * (7 * r.u * T.val) < T.val / ((n : ℝ) + 1) := by
    rw [lt_div_iff₀ hn0]; nlinarith
  have e' : T.val / ((n : ℝ) + 1) * (n + 1) = T.val := by field_simp
  refine Times.good_of_gap (by positivity) hT (f := periodicRounded T n)
    (f' := fun i : ℕ => (i : ℝ) * (T.val / (n + 1))) (fun _ => a) ?_ ?_ ?_
  · intro i h1 h2
    have h2' : (i : ℝ) ≤ n := by exact_mod_cast h2
    have := (periodicRounded_rel T h2 hnn).close_units (T := T.val) (by norm_num) (by norm_num)
      (by positivity) (by nlinarith)
    refine this.trans ?_
    nlinarith [mul_nonneg hu hT.le]
  · intro i j h1 hij hj
    have hij' : (i : ℝ) + 1 ≤ j := by exact_mod_cast hij
    nlinarith
  · intro i h1 h2
    have h1' : (1 : ℝ) ≤ i := by exact_mod_cast h1
    have h2' : (i : ℝ) ≤ n := by exact_mod_cast h2
    constructor <;> nlinarith

/-! ## Uhrig -/

/-- one rounded Uhrig time -/
noncomputable def uhrigRounded (T : Fl r) (n i : ℕ) : Fl r :=
  T * (PyFloat.sin (PyFloat.pi * Py.nat i * (PyFloat.lit 1 / Py.nat (2 * n + 2))) *
    PyFloat.sin (PyFloat.pi * Py.nat i * (PyFloat.lit 1 / Py.nat (2 * n + 2))))

theorem uhrigRounded_rel (T : Fl r) {n i : ℕ} (h1 : 1 ≤ i) (h2 : i ≤ n)
    (hn : 24 * (n + 1 : ℕ) * r.u ≤ 1) :
    Rel r 16 (uhrigRounded T n i).val (T.val * Real.sin (i * Real.pi / (2 * (n + 1))) ^ 2) := by
  have hu := r.u_nonneg
  have hw := r.w_le
  have hw0 := r.w_nonneg
  have hpi := Real.pi_pos
  push_cast at hn
  have hn0 : (0 : ℝ) ≤ n := by positivity
  have h1' : (1 : ℝ) ≤ i := by exact_mod_cast h1
  have h2' : (i : ℝ) ≤ n := by exact_mod_cast h2
  have h2n : ((2 * n + 2 : ℕ) : ℝ) * r.u ≤ 1 := by
    push_cast
    nlinarith [mul_nonneg hn0 hu]
  have hi : (i : ℝ) * r.u ≤ 1 := by nlinarith [mul_nonneg hn0 hu]
  have hs : (PyFloat.lit 1 / Py.nat (2 * n + 2) : Fl r).val = r.rnd (1 / (2 * n + 2 : ℕ)) := by
    rw [val_div, val_lit, val_nat h2n]; simp
  unfold uhrigRounded
  simp only [val_mul, val_sin, val_pi, hs, val_nat hi]
  have e1 : Rel r 1 (r.rnd (1 / ((2 * n + 2 : ℕ) : ℝ))) (1 / (2 * n + 2 : ℕ)) := Rel.of_rnd _
  have e2 : Rel r 1 (r.rnd Real.pi) Real.pi := Rel.of_rnd _
  have e3 := (((e2.mul (Rel.refl (i : ℝ))).rnd).mul e1).rnd
  have e5 : Real.pi * i * (1 / ((2 * n + 2 : ℕ) : ℝ)) = i * Real.pi / (2 * (n + 1)) := by
    push_cast; field_simp
  rw [e5] at e3
  set x := (i : ℝ) * Real.pi / (2 * (n + 1)) with hx
  set y := r.rnd (r.rnd (r.rnd Real.pi * i) * r.rnd (1 / ((2 * n + 2 : ℕ) : ℝ))) with hy
  replace e3 : Rel r 4 y x := e3.mono (by norm_num)
  have hx0 : 0 < x := by positivity
  have hxle : x * (n + 1) ≤ Real.pi / 2 * n := by
    rw [hx, div_mul_eq_mul_div, div_le_iff₀ (by positivity)]
    have : 0 ≤ (n - i) * (Real.pi * ((n : ℝ) + 1)) :=
      mul_nonneg (by linarith) (by positivity)
    linarith
  have hxpi : x ≤ Real.pi / 2 := by nlinarith
  have hkw : 4 * r.w ≤ 1 := by nlinarith
  have hyc := e3.close hkw
  rw [abs_of_pos hx0] at hyc
  have hypi : y ≤ Real.pi / 2 := by
    have h5 := (abs_le.mp hyc).2
    have h6 : 8 * r.w * (n : ℝ) ≤ 1 := by nlinarith
    have h7 : (y - x) * (n + 1) ≤ x := by
      have h8 : 0 ≤ x * r.w := by positivity
      have h9 : 2 * (4 * r.w) * ((n : ℝ) + 1) ≤ 1 := by nlinarith
      calc (y - x) * (n + 1) ≤ 2 * (4 * r.w) * x * (n + 1) := by gcongr
        _ = (2 * (4 * r.w) * ((n : ℝ) + 1)) * x := by ring
        _ ≤ 1 * x := by gcongr
        _ = x := one_mul x
    have h10 : y * (n + 1) ≤ Real.pi / 2 * (n + 1) := by
      nlinarith
    exact le_of_mul_le_mul_right h10 (by positivity)
  have e6 : Rel r 7 (r.sin.f y) (Real.sin x) :=
    ((Rel.lib r.sin y).trans (e3.sin hx0 hxpi hypi)).mono (by norm_num)
  have e7 := ((Rel.refl T.val).mul (e6.mul e6).rnd).rnd
  rw [sq]
  exact e7.mono (by norm_num)

/-- gap between Uhrig times, the ends included -/
theorem uhrig_gap {n i j : ℕ} (hij : i < j) (hj : j ≤ n + 1) :
    Real.sin (i * Real.pi / (2 * ((n : ℝ) + 1))) ^ 2 + 1 / ((n : ℝ) + 1) ^ 2 ≤
      Real.sin (j * Real.pi / (2 * ((n : ℝ) + 1))) ^ 2 := by
  have hpi := Real.pi_pos
  have hn : (0 : ℝ) < (n : ℝ) + 1 := by positivity
  set θ := Real.pi / (2 * ((n : ℝ) + 1)) with hθ
  have hθ0 : 0 < θ := by positivity
  have hθn : θ * (n + 1) = Real.pi / 2 := by rw [hθ]; field_simp
  have e : ∀ m : ℕ, (m : ℝ) * Real.pi / (2 * ((n : ℝ) + 1)) = m * θ := fun m => by
    rw [hθ]; ring
  rw [e, e]
  have hi' : (0 : ℝ) ≤ i := by positivity
  have hij' : (i : ℝ) + 1 ≤ j := by exact_mod_cast hij
  have hj' : (j : ℝ) ≤ n + 1 := by exact_mod_cast hj
  have hsin : ∀ x, θ ≤ x → x ≤ Real.pi - θ → 1 / ((n : ℝ) + 1) ≤ Real.sin x := by
    intro x h1 h2
    have h0 : 1 / ((n : ℝ) + 1) ≤ Real.sin θ := by
      have hle : θ ≤ Real.pi / 2 := by nlinarith [(Nat.cast_nonneg n : (0 : ℝ) ≤ n)]
      have := Real.mul_le_sin hθ0.le hle
      refine le_trans (le_of_eq ?_) this
      rw [hθ]; field_simp
    rcases le_total x (Real.pi / 2) with h | h
    · exact h0.trans (Real.sin_le_sin_of_le_of_le_pi_div_two (by linarith) h h1)
    · rw [← Real.sin_pi_sub]
      exact h0.trans (Real.sin_le_sin_of_le_of_le_pi_div_two (by linarith) (by linarith) (by linarith))
  have hn1 : (1 : ℝ) ≤ (n : ℝ) + 1 := by
    have : (0 : ℝ) ≤ n := by positivity
    linarith
  have s1 := hsin ((j + i) * θ) (by nlinarith) (by nlinarith)
  have s2 := hsin ((j - i) * θ) (by nlinarith) (by nlinarith)
  have prod : Real.sin ((j + i) * θ) * Real.sin ((j - i) * θ) =
      Real.sin (j * θ) ^ 2 - Real.sin (i * θ) ^ 2 := by
    rw [add_mul, sub_mul, Real.sin_add, Real.sin_sub]
    have c1 := Real.sin_sq_add_cos_sq (j * θ)
    have c2 := Real.sin_sq_add_cos_sq (i * θ)
    linear_combination (Real.sin (j * θ)) ^ 2 * c2 - (Real.sin (i * θ)) ^ 2 * c1
  have hpos : 0 < 1 / ((n : ℝ) + 1) := by positivity
  have : (1 / ((n : ℝ) + 1)) * (1 / ((n : ℝ) + 1)) ≤
      Real.sin ((j + i) * θ) * Real.sin ((j - i) * θ) :=
    mul_le_mul s1 s2 hpos.le (hpos.le.trans s1)
  rw [prod] at this
  have e3 : (1 / ((n : ℝ) + 1)) * (1 / ((n : ℝ) + 1)) = 1 / ((n : ℝ) + 1) ^ 2 := by field_simp
  linarith

theorem uhrig_good {T : Fl r} (hT : 0 < T.val) {n : ℕ} (hn : 70 * ((n : ℝ) + 1) ^ 2 * r.u < 1)
    (a : Axis) :
    Times.Good T.val (33 * r.u)
      (Times.onAxis a ((List.range' 1 n).map fun i : ℕ =>
        (uhrigRounded T n i, T.val * Real.sin (i * Real.pi / (2 * (n + 1))) ^ 2))) := by
  have hu := r.u_nonneg
  unfold Times.onAxis
  rw [List.map_map]
  have hn0 : (0 : ℝ) ≤ n := by positivity
  have hnn : 24 * ((n + 1 : ℕ) : ℝ) * r.u ≤ 1 := by
    push_cast
    nlinarith [mul_nonneg hn0 hu, mul_nonneg (mul_nonneg hn0 hn0) hu]
  have e : 66 * r.u * T.val < T.val * (1 / ((n : ℝ) + 1) ^ 2) := by
    rw [mul_one_div, lt_div_iff₀ (by positivity)]
    have : 0 ≤ ((n : ℝ) + 1) ^ 2 * r.u := by positivity
    nlinarith
  have hsle : ∀ x : ℝ, Real.sin x ^ 2 ≤ 1 := fun x => Real.sin_sq_le_one x
  refine Times.good_of_gap (by positivity) hT (f := uhrigRounded T n)
    (f' := fun i : ℕ => T.val * Real.sin (i * Real.pi / (2 * (n + 1))) ^ 2) (fun _ => a) ?_ ?_ ?_
  · intro i h1 h2
    have := (uhrigRounded_rel T h1 h2 hnn).close_units (T := T.val) (by norm_num) (by norm_num)
      (by positivity) (by have := hsle (i * Real.pi / (2 * ((n : ℝ) + 1))); nlinarith)
    refine this.trans ?_
    nlinarith [mul_nonneg hu hT.le]
  · intro i j h1 hij hj
    have := mul_le_mul_of_nonneg_left (uhrig_gap hij (by omega : j ≤ n + 1)) hT.le
    rw [mul_add] at this
    linarith
  · intro i h1 h2
    have g1 := mul_le_mul_of_nonneg_left (uhrig_gap (n := n) (by omega : 0 < i) (by omega)) hT.le
    have g2 := mul_le_mul_of_nonneg_left (uhrig_gap (by omega : i < n + 1) le_rfl) hT.le
    have e5 : ((n + 1 : ℕ) : ℝ) * Real.pi / (2 * ((n : ℝ) + 1)) = Real.pi / 2 := by
      push_cast; field_simp
    rw [e5, Real.sin_pi_div_two] at g2
    rw [mul_add] at g1 g2
    simp at g1 g2
    have : 0 ≤ r.u * T.val := by positivity
    simp at e
    constructor <;> linarith

/-! ## The calls -/

/-- the checks of a constructor with a number of offsets -/
theorem rounded_checks {T n : Fl r} (hT : 0 < T.val) (hn : 1 ≤ n.val) (message : String)
    (rest : ℕ → Except PyErr (Sequence (Fl r))) :
    (do
      checkDuration T
      checkArguments (Py.ge n (PyFloat.lit 1)) message
      let k ← Py.pyInt n
      rest k) = rest ⌊n.val⌋₊ := by
  have h1 : Py.gt T (PyFloat.lit 0 : Fl r) = true := by simpa using hT
  have h2 : Py.ge n (PyFloat.lit 1 : Fl r) = true := by simpa using hn
  unfold checkDuration
  rw [checkArguments_bind, if_pos h1, checkArguments_bind, if_pos h2,
    pyInt_rounded (by linarith), except_ok_bind]

/-- agreement of a call with the exact call of the family -/
theorem agrees_of {family : Family} (hv : family.Valid) {T : Fl r} (hT : 0 < T.val) {ε : ℝ}
    (hε : 0 ≤ ε) {z : Times r} (hz : z.Good T.val ε) (he : z.exact = family.table T.val)
    {prePost : Bool} {name : Option String} {call : Except PyErr (Sequence (Fl r))}
    (hc : call = finishSequence T prePost name z.rounded) :
    Agrees ε call (family.call T.val prePost name) := by
  rw [Family.call_eq hv hT, hc, ← he]
  exact finish_agrees hT hε hz prePost name

end OpenControls
