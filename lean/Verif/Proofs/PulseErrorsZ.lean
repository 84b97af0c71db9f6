import Verif.Spec.PulseErrorsZ
import Verif.Proofs.PulseErrors
import Verif.Proofs.PulseErrorsXY
import Verif.Proofs.XYResidual

/-!
# Products of pulses with wrong Z pulses
-/

namespace OpenControls

open Spec RealInst

/-- a pulse, with relative error `ε` if it is about Z -/
noncomputable def zErrPulse (ε : ℝ) : Axis → M2
  | .z => zrot ((1 + ε) * Real.pi)
  | a => axisPulse a

/-- the product of the pulses of a table with errors of the Z pulses -/
noncomputable def zErrProduct : (ℕ → ℝ) → List (ℝ × Axis) → M2
  | _, [] => 1
  | e, p :: r => zErrProduct (fun i => e (i + 1)) r * zErrPulse (e 0) p.2

/-- the signed sum of errors -/
noncomputable def signedZ : (ℕ → ℝ) → List (ℝ × Axis) → ℝ
  | _, [] => 0
  | e, (_, .z) :: r => e 0 + signedZ (fun i => e (i + 1)) r
  | e, (_, _) :: r => -signedZ (fun i => e (i + 1)) r

theorem zrot_pi : axisPulse .z = zrot Real.pi := by
  rw [axisPulse, zrot, su2_inj]; simp

theorem zrot_flip {a : Axis} (ha : a ≠ .z) (θ : ℝ) : zrot θ * axisPulse a = axisPulse a * zrot (-θ) := by
  unfold zrot
  rw [su2_axisPulse, neg_div, Real.cos_neg, Real.sin_neg,
    show axisSign .z a = -1 from if_neg (Ne.symm ha)]
  simp

theorem zErrProduct_eq (e : ℕ → ℝ) (t : List (ℝ × Axis)) :
    zErrProduct e t = tableProduct t * zrot (Real.pi * signedZ e t) := by
  induction t generalizing e with
  | nil => simp [zErrProduct, tableProduct, signedZ, zrot_zero]
  | cons p r ih =>
    obtain ⟨τ, a⟩ := p
    cases a with
    | x =>
      simp only [zErrProduct, tableProduct, signedZ, zErrPulse, ih, Matrix.mul_assoc]
      rw [zrot_flip (by decide), mul_neg]
    | y =>
      simp only [zErrProduct, tableProduct, signedZ, zErrPulse, ih, Matrix.mul_assoc]
      rw [zrot_flip (by decide), mul_neg]
    | z =>
      simp only [zErrProduct, tableProduct, signedZ, zErrPulse, ih, Matrix.mul_assoc, zrot_pi, zrot_mul]
      congr 2; ring

theorem pulseUnitary_detuned (δ : ℝ) : pulseUnitary 0 0 δ = zrot δ := by
  have h := exp_pauli (δ / 2) 0 0 1 (by norm_num)
  rw [mul_zero, mul_one] at h
  rw [zrot, ← h]
  unfold pulseUnitary hamiltonian
  congr 1
  ext i j
  fin_cases i <;> fin_cases j <;> simp [σx, σy, σz, Complex.ext_iff]
  all_goals ring

theorem zErrProduct_pulses (e : ℕ → ℝ) (t : List (ℝ × Axis)) :
    pulseProduct (t.map fun p => p.2.rabi) (t.map fun p => p.2.azimuthal)
      ((t.map fun p => p.2.detuning).mapIdx fun i d => if d = Real.pi then (1 + e i) * d else d) =
      zErrProduct e t := by
  have hpi := Real.pi_pos
  induction t generalizing e with
  | nil => rfl
  | cons p r ih =>
    rw [List.map_cons, List.map_cons, List.map_cons, List.mapIdx_cons, pulseProduct,
      ih (fun i => e (i + 1)), zErrProduct]
    congr 1
    obtain ⟨τ, a⟩ := p
    cases a with
    | x =>
      rw [zErrPulse, ← pulseUnitary_axis]
      · simp [Axis.rabi, Axis.azimuthal, Axis.detuning, hpi.ne]
      · simp
    | y =>
      rw [zErrPulse, ← pulseUnitary_axis]
      · simp [Axis.rabi, Axis.azimuthal, Axis.detuning, hpi.ne]
      · simp
    | z => simp [Axis.rabi, Axis.azimuthal, Axis.detuning, zErrPulse, pulseUnitary_detuned]

theorem miscalibratedZ_plain (e : ℕ → ℝ) (T : ℝ) (t : List (ℝ × Axis)) (name : Option String) :
    pulses (miscalibratedZ e (piSequence T t name)) = zErrProduct e t :=
  zErrProduct_pulses e t

theorem miscalibratedZ_prePost (e : ℕ → ℝ) (T : ℝ) (t : List (ℝ × Axis)) (name : Option String) (φ : ℝ) :
    pulses (miscalibratedZ e (withPrePost φ (piSequence T t name))) =
      pulseUnitary (Real.pi / 2) φ 0 * zErrProduct (fun i => e (i + 1)) t *
        pulseUnitary (Real.pi / 2) 0 0 := by
  have hpi := Real.pi_pos
  unfold pulses miscalibratedZ withPrePost piSequence
  simp only [List.mapIdx_cons, List.mapIdx_append, List.mapIdx_nil, if_neg hpi.ne, pulseProduct]
  rw [pulseProduct_append _ _ _ _ _ _ (by simp) (by simp), zErrProduct_pulses fun i => e (i + 1)]
  simp [pulseProduct]

/-! ### the signed sum -/

/-- one term of the signed sum -/
noncomputable def zTerm (e : ℕ → ℝ) (rabi detuning : List ℝ) (i : ℕ) : ℝ :=
  if detuning[i]? = some Real.pi then (-1) ^ (rabi.take i).count Real.pi * e i else 0

theorem zTerm_succ (e : ℕ → ℝ) (r d : ℝ) (rabi detuning : List ℝ) (i : ℕ) :
    zTerm e (r :: rabi) (d :: detuning) (i + 1) =
      (if r = Real.pi then -1 else 1) * zTerm (fun i => e (i + 1)) rabi detuning i := by
  unfold zTerm
  simp only [List.getElem?_cons_succ, List.take_succ_cons, List.count_cons]
  by_cases hd : r = Real.pi
  · subst hd
    split <;> simp [pow_succ]
  · split <;> simp [hd]

theorem sum_signedZ (e : ℕ → ℝ) (t : List (ℝ × Axis)) (ω : ℝ) :
    ∑ i ∈ Finset.range (t.length + 1),
      zTerm e (t.map (fun p => p.2.rabi) ++ [ω]) (t.map (fun p => p.2.detuning) ++ [0]) i = signedZ e t := by
  have hpi := Real.pi_pos
  induction t generalizing e with
  | nil => simp [signedZ, hpi.ne, zTerm]
  | cons p r ih =>
    rw [List.length_cons, Finset.sum_range_succ']
    simp only [List.map_cons, List.cons_append, zTerm_succ]
    rw [← Finset.mul_sum, ih fun i => e (i + 1)]
    obtain ⟨τ, a⟩ := p
    cases a <;>
      simp [zTerm, Axis.rabi, Axis.detuning, signedZ, hpi.ne, add_comm]

theorem sum_signedZ_plain (e : ℕ → ℝ) (t : List (ℝ × Axis)) :
    ∑ i ∈ Finset.range t.length,
      zTerm e (t.map (fun p => p.2.rabi)) (t.map (fun p => p.2.detuning)) i = signedZ e t := by
  have hpi := Real.pi_pos
  induction t generalizing e with
  | nil => simp [signedZ]
  | cons p r ih =>
    rw [List.length_cons, Finset.sum_range_succ']
    simp only [List.map_cons, zTerm_succ]
    rw [← Finset.mul_sum, ih fun i => e (i + 1)]
    obtain ⟨τ, a⟩ := p
    cases a <;>
      simp [zTerm, Axis.rabi, Axis.detuning, signedZ, hpi.ne, add_comm]

theorem netErrorZ_plain (e : ℕ → ℝ) (T : ℝ) (t : List (ℝ × Axis)) (name : Option String) :
    netErrorZ e (piSequence T t name) = signedZ e t := by
  rw [← sum_signedZ_plain]
  simp only [netErrorZ, piSequence, zTerm, List.length_map]
  congr!

theorem netErrorZ_prePost (e : ℕ → ℝ) (T : ℝ) (t : List (ℝ × Axis)) (name : Option String) (φ : ℝ) :
    netErrorZ e (withPrePost φ (piSequence T t name)) = signedZ (fun i => e (i + 1)) t := by
  have hpi := Real.pi_pos
  have h : netErrorZ e (withPrePost φ (piSequence T t name)) =
      ∑ i ∈ Finset.range (t.length + 1 + 1),
        zTerm e (Real.pi / 2 :: (t.map (fun p => p.2.rabi) ++ [Real.pi / 2]))
          (0 :: (t.map (fun p => p.2.detuning) ++ [0])) i := by
    simp only [netErrorZ, withPrePost, piSequence, zTerm, List.length_cons, List.length_append,
      List.length_map, List.length_nil, zero_add]
    congr!
  rw [h, Finset.sum_range_succ']
  simp only [zTerm_succ, if_neg pi_div_two_ne, one_mul]
  rw [sum_signedZ]
  simp [zTerm, hpi.ne]

/-! ### the same error for all Z pulses -/

/-- the Z pulses, each with its sign -/
noncomputable def countZ : List Axis → ℝ
  | [] => 0
  | .z :: r => 1 + countZ r
  | _ :: r => -countZ r

theorem signedZ_common (ε : ℝ) (t : List (ℝ × Axis)) :
    signedZ (fun _ => ε) t = ε * countZ (t.map Prod.snd) := by
  induction t with
  | nil => simp [signedZ, countZ]
  | cons p r ih =>
    obtain ⟨τ, a⟩ := p
    cases a <;> simp only [signedZ, countZ, List.map_cons, ih] <;> ring

theorem countZ_append (a b : List Axis) : countZ (a ++ b) = countZ a + runSign .z a * countZ b := by
  induction a with
  | nil => simp [countZ, runSign]
  | cons p r ih =>
    have : runSign .z (p :: r) = axisSign .z p * runSign .z r := by simp [runSign]
    cases p <;> simp only [List.cons_append, countZ, ih, this, axisSign, reduceCtorEq, if_true, if_false] <;> ring

theorem countZ_block (ts : List ℝ) (r : List Axis) :
    countZ ((onAxis .z ts).map Prod.snd ++ r) = ts.length + countZ r := by
  induction ts with
  | nil => simp [onAxis]
  | cons t ts ih =>
    have : (onAxis .z (t :: ts)).map Prod.snd ++ r = .z :: ((onAxis .z ts).map Prod.snd ++ r) := rfl
    rw [this, countZ, ih, List.length_cons]
    push_cast; ring

theorem countZ_quadratic (n : ℕ) (T a : ℝ) (l : List ℝ) :
    countZ ((quadraticTable n T a l).map Prod.snd) = if l.length % 2 = 0 then (n : ℝ) else 0 := by
  induction l generalizing a with
  | nil =>
    have := countZ_block ((uhrigTimes (T - a) n).map (a + ·)) []
    rw [List.append_nil] at this
    rw [quadraticTable, this]
    simp [countZ, uhrigTimes]
  | cons b r ih =>
    rw [quadraticTable, List.map_append, countZ_block, List.map_cons, countZ, ih, List.length_map]
    · simp only [uhrigTimes, List.length_map, List.length_range', List.length_cons]
      by_cases h : r.length % 2 = 0
      · rw [if_pos h, if_neg (by omega)]; ring
      · rw [if_neg h, if_pos (by omega)]; ring
    · simp

theorem built_countZ (n : ℕ) :
    countZ (builtXY (n + 2)).dropLast.flatten = -((4 ^ (n + 1) + 2) / 3) := by
  induction n with
  | zero =>
    have : (builtXY 2).dropLast.flatten =
        [.x, .y, .x, .z, .x, .y, .x, .x, .y, .x, .z, .x, .y, .x] := by decide
    rw [this]
    norm_num [countZ]
  | succ n ih =>
    obtain ⟨h1, -⟩ := built_signed n .z
    have hz : countZ [.z] = 1 := by norm_num [countZ]
    have hs : runSign .z [.z] = 1 := by simp [runSign, axisSign]
    rw [builtXY]
    split
    · simp only [List.dropLast_concat, List.flatten_append, List.flatten_cons, List.flatten_nil,
        countZ_append, runSign_append, ih, List.append_nil, hz, hs, h1]
      rw [pow_succ (4 : ℝ) (n + 1)]
      ring
    · simp only [List.dropLast_concat, List.flatten_append, thenZ_flatten, countZ_append, runSign_append, ih, hz,
        hs, h1]
      rw [pow_succ (4 : ℝ) (n + 1)]
      ring

theorem countZ_built (n : ℕ) : countZ (builtXY (n + 2)).flatten = -((4 ^ (n + 1) + 2) / 3) := by
  have he := builtXY_ends (n + 1)
  have hb := built_countZ n
  rw [show n + 2 = n + 1 + 1 from rfl] at *
  split at he
  all_goals
    obtain ⟨a, ha⟩ := he
    rw [ha, List.dropLast_concat] at hb
    rw [ha, List.flatten_append, countZ_append, hb]
    simp [countZ]

end OpenControls
