import Verif.Spec.PulseErrorsXY
import Verif.Proofs.PulseErrors
import Verif.Proofs.BuiltXY
import Verif.Proofs.Families

/-!
# XY-concatenated sequences with wrong rotation angles
-/

namespace OpenControls

open Spec RealInst

/-- the error of a pulse about an axis -/
noncomputable def axisError (εx εy : ℝ) : Axis → ℝ
  | .y => εy
  | _ => εx

/-- the product of pulses with errors that depend on the axis -/
noncomputable def axisProduct (εx εy : ℝ) : List Axis → M2
  | [] => 1
  | a :: r => axisProduct εx εy r * errPulse (axisError εx εy a) a

theorem axisProduct_append (εx εy : ℝ) (a b : List Axis) :
    axisProduct εx εy (a ++ b) = axisProduct εx εy b * axisProduct εx εy a := by
  induction a with
  | nil => simp [axisProduct]
  | cons p r ih => simp [axisProduct, ih, Matrix.mul_assoc]

theorem errProduct_axis {εx εy : ℝ} {e : ℕ → ℝ} {t : List (ℝ × Axis)}
    (h : ∀ i p, t[i]? = some p → errPulse (e i) p.2 = errPulse (axisError εx εy p.2) p.2) :
    errProduct e t = axisProduct εx εy (t.map Prod.snd) := by
  induction t generalizing e with
  | nil => rfl
  | cons p r ih =>
    rw [errProduct, List.map_cons, axisProduct, ih fun i q hq => h (i + 1) q (by simpa using hq),
      h 0 p rfl]

theorem errPulse_axis {εx εy x : ℝ} {a : Axis} (h : x = if a.azimuthal = 0 then εx else εy) :
    errPulse x a = errPulse (axisError εx εy a) a := by
  subst h
  have hpi := Real.pi_pos
  cases a with
  | x => simp [Axis.azimuthal, axisError]
  | y => simp [Axis.azimuthal, axisError, hpi.ne']
  | z => rfl

theorem pulses_miscalibrated (e : ℕ → ℝ) (T : ℝ) (t : List (ℝ × Axis)) (name : Option String) :
    pulses (miscalibrated e (piSequence T t name)) = errProduct e t :=
  errProduct_pulses e t

theorem axis_plain (εx εy T : ℝ) (t : List (ℝ × Axis)) (name : Option String) :
    pulses (miscalibrated (axisErrors εx εy (piSequence T t name)) (piSequence T t name)) =
      axisProduct εx εy (t.map Prod.snd) := by
  rw [pulses_miscalibrated]
  refine errProduct_axis fun i p hp => errPulse_axis ?_
  simp [axisErrors, piSequence, hp]

theorem axis_prePost (εx εy T φ : ℝ) (t : List (ℝ × Axis)) (name : Option String) :
    pulses (miscalibrated (axisErrors εx εy (withPrePost φ (piSequence T t name)))
        (withPrePost φ (piSequence T t name))) =
      pulseUnitary (Real.pi / 2) φ 0 * axisProduct εx εy (t.map Prod.snd) *
        pulseUnitary (Real.pi / 2) 0 0 := by
  rw [miscalibrated_pulses]
  congr 2
  refine errProduct_axis fun i p hp => errPulse_axis ?_
  have hi : i < t.length := (List.getElem?_eq_some_iff.mp hp).1
  have : (withPrePost φ (piSequence T t name)).azimuthalAngles[i + 1]? = some p.2.azimuthal := by
    change (t.map (fun p => p.2.azimuthal) ++ [φ])[i]? = _
    rw [List.getElem?_append_left (by simpa using hi)]
    simp [hp]
  unfold axisErrors
  simp [this]

theorem axisProduct_exact (t : List (ℝ × Axis)) :
    axisProduct 0 0 (t.map Prod.snd) = tableProduct t := by
  induction t with
  | nil => rfl
  | cons p r ih =>
    obtain ⟨τ, a⟩ := p
    rw [List.map_cons, axisProduct, ih, tableProduct]
    congr 1
    cases a with
    | x => simp [errPulse, axisError, axisPulse_x]
    | y => simp [errPulse, axisError, axisPulse_y]
    | z => rfl

theorem unitPulses_axes (u t : ℝ) (units : List (List Axis)) :
    (unitPulses u t units).map Prod.snd = units.flatten := by
  induction units generalizing t with
  | nil => rfl
  | cons a r ih => simp [unitPulses, ih, Function.comp_def]

theorem thenZ_flatten (units : List (List Axis)) : (thenZ units).flatten = units.flatten ++ [.z] := by
  unfold thenZ
  rcases List.eq_nil_or_concat units with rfl | ⟨r, x, rfl⟩
  · simp
  · simp

theorem axis_z_twice : axisPulse .z * axisPulse .z = -1 := by
  rw [axisPulse, su2_mul, ← su2_one, su2_neg, su2_inj]
  norm_num

/-- X, Y, X, then Z, then again X, Y, X: just Z -/
theorem palindrome (εx εy : ℝ) : axisProduct εx εy [.x, .y, .x, .z, .x, .y, .x] = axisPulse .z := by
  simp only [axisProduct, errPulse, axisError, one_mul]
  rw [rotation_eq, rotation_eq, axisPulse]
  have hx := Real.cos_sq_add_sin_sq ((1 + εx) * Real.pi / 2)
  have hy := Real.cos_sq_add_sin_sq ((1 + εy) * Real.pi / 2)
  generalize Real.cos ((1 + εx) * Real.pi / 2) = c at hx ⊢
  generalize Real.sin ((1 + εx) * Real.pi / 2) = s at hx ⊢
  generalize Real.cos ((1 + εy) * Real.pi / 2) = c' at hy ⊢
  generalize Real.sin ((1 + εy) * Real.pi / 2) = s' at hy ⊢
  rw [Real.cos_zero, Real.sin_zero, Real.cos_pi_div_two, Real.sin_pi_div_two]
  simp only [su2_mul, su2_inj]
  refine ⟨by ring, by ring, by ring, ?_⟩
  have : (c ^ 2 + s ^ 2) ^ 2 * (c' ^ 2 + s' ^ 2) = 1 := by rw [hx, hy]; norm_num
  linear_combination this

/-- from the second order on, everything before the last unit is the identity -/
theorem built_axes (εx εy : ℝ) (n : ℕ) :
    axisProduct εx εy (builtXY (n + 2)).dropLast.flatten = -1 := by
  induction n with
  | zero =>
    have : (builtXY 2).dropLast.flatten =
        [.x, .y, .x, .z, .x, .y, .x] ++ [.x, .y, .x, .z, .x, .y, .x] := by decide
    rw [this, axisProduct_append, palindrome, axis_z_twice]
  | succ n ih =>
    have hz : axisProduct εx εy [.z] = axisPulse .z := by simp [axisProduct, errPulse]
    rw [builtXY]
    split
    · simp only [List.dropLast_concat, List.flatten_append, List.flatten_cons, List.flatten_nil,
        axisProduct_append, ih, List.append_nil, hz]
      simp [axis_z_twice]
    · simp only [List.dropLast_concat, List.flatten_append, thenZ_flatten, axisProduct_append, ih, hz]
      simp [axis_z_twice]

theorem built_even_axes (εx εy : ℝ) {n : ℕ} (hn : n ≠ 0) (h : n % 2 = 0) :
    axisProduct εx εy (builtXY n).flatten = -1 := by
  obtain ⟨m, rfl⟩ : ∃ m, n = m + 2 := ⟨n - 2, by omega⟩
  have he := builtXY_ends (m + 1)
  rw [if_neg (by omega)] at he
  obtain ⟨a, ha⟩ := he
  have hb := built_axes εx εy m
  rw [show m + 2 = m + 1 + 1 from rfl, ha, List.dropLast_concat] at hb
  rw [show m + 2 = m + 1 + 1 from rfl, ha, List.flatten_append, axisProduct_append, hb]
  simp [axisProduct]

theorem built_odd_axes (εx εy : ℝ) {n : ℕ} (hn : 3 ≤ n) (h : n % 2 = 1) :
    axisProduct εx εy (builtXY n).flatten =
      -1 * rotation ((1 + εy) * Real.pi) (Real.pi / 2) := by
  obtain ⟨m, rfl⟩ : ∃ m, n = m + 2 := ⟨n - 2, by omega⟩
  have he := builtXY_ends (m + 1)
  rw [if_pos (by omega)] at he
  obtain ⟨a, ha⟩ := he
  have hb := built_axes εx εy m
  rw [show m + 2 = m + 1 + 1 from rfl, ha, List.dropLast_concat] at hb
  rw [show m + 2 = m + 1 + 1 from rfl, ha, List.flatten_append, axisProduct_append, hb]
  simp [axisProduct, errPulse, axisError]

theorem xy_axes {T : ℝ} (hT : 0 < T) {n : ℕ} (hn : n ≠ 0) :
    (xyTable T n).map Prod.snd = (builtXY n).flatten := by
  obtain ⟨m, rfl⟩ := Nat.exists_eq_succ_of_ne_zero hn
  rw [Nat.succ_eq_add_one, xyTable_built hT, unitPulses_axes]

/-- the first order, with `X` and `Y` the rotations -/
theorem first_axes (εx εy : ℝ) :
    axisProduct εx εy [.x, .y, .x, .y] =
      (let c := Real.cos ((1 + εx) * Real.pi / 2)
       let s := Real.sin ((1 + εx) * Real.pi / 2)
       let c' := Real.cos ((1 + εy) * Real.pi / 2)
       let s' := Real.sin ((1 + εy) * Real.pi / 2)
       su2 (2 * (c * c') ^ 2 - 1) (2 * (c * c') * (s * c')) (2 * (c * c') * (c * s'))
        (-(2 * (c * c') * (s * s')))) := by
  simp only [axisProduct, errPulse, axisError, one_mul]
  rw [rotation_eq, rotation_eq]
  have hx := Real.cos_sq_add_sin_sq ((1 + εx) * Real.pi / 2)
  have hy := Real.cos_sq_add_sin_sq ((1 + εy) * Real.pi / 2)
  generalize Real.cos ((1 + εx) * Real.pi / 2) = c at hx ⊢
  generalize Real.sin ((1 + εx) * Real.pi / 2) = s at hx ⊢
  generalize Real.cos ((1 + εy) * Real.pi / 2) = c' at hy ⊢
  generalize Real.sin ((1 + εy) * Real.pi / 2) = s' at hy ⊢
  rw [Real.cos_zero, Real.sin_zero, Real.cos_pi_div_two, Real.sin_pi_div_two]
  simp only [su2_mul, su2_inj]
  have : (c ^ 2 + s ^ 2) * (c' ^ 2 + s' ^ 2) = 1 := by rw [hx, hy]; norm_num
  refine ⟨?_, by ring, by ring, by ring⟩
  linear_combination -this

theorem cos_error (ε : ℝ) : Real.cos ((1 + ε) * Real.pi / 2) = -Real.sin (Real.pi * ε / 2) := by
  rw [show (1 + ε) * Real.pi / 2 = Real.pi * ε / 2 + Real.pi / 2 by ring, Real.cos_add_pi_div_two]

theorem sin_error (ε : ℝ) : Real.sin ((1 + ε) * Real.pi / 2) = Real.cos (Real.pi * ε / 2) := by
  rw [show (1 + ε) * Real.pi / 2 = Real.pi * ε / 2 + Real.pi / 2 by ring, Real.sin_add_pi_div_two]

end OpenControls
