import Verif.Spec.SpeedLimit
import Verif.Proofs.Pauli
import Mathlib.Analysis.Convex.SpecificFunctions.Deriv
import Mathlib.Analysis.SpecialFunctions.Trigonometric.Bounds

/-!
# How fast a control can flip a qubit: auxiliary results
-/

namespace OpenControls

open Spec

/-- `sin y / y ≤ sin x / x` for `0 ≤ x ≤ π / 2`, `x ≤ y`, in absolute value -/
theorem abs_sin_mul_le {x y : ℝ} (hx : 0 ≤ x) (hx' : x ≤ Real.pi / 2) (hxy : x ≤ y) : |Real.sin y| * x ≤ Real.sin x * y := by
  have hpi := Real.pi_pos
  rcases le_or_gt y Real.pi with hy | hy
  · have hy0 : 0 ≤ y := hx.trans hxy
    rw [abs_of_nonneg (Real.sin_nonneg_of_nonneg_of_le_pi hy0 hy)]
    rcases hy0.eq_or_lt with rfl | hpos
    · have : x = 0 := le_antisymm hxy hx
      simp [this]
    · have h := strictConcaveOn_sin_Icc.concaveOn.2 (show (0 : ℝ) ∈ Set.Icc 0 Real.pi from ⟨le_refl _, hpi.le⟩)
        (show y ∈ Set.Icc 0 Real.pi from ⟨hy0, hy⟩) (show 0 ≤ 1 - x / y by rw [sub_nonneg, div_le_one hpos]; exact hxy)
        (show 0 ≤ x / y by positivity) (by ring)
      simp only [smul_eq_mul, mul_zero, Real.sin_zero, zero_add, div_mul_cancel₀ _ hpos.ne'] at h
      rw [div_mul_eq_mul_div, div_le_iff₀ hpos] at h
      linarith
  · have h1 := Real.mul_le_sin hx hx'
    have h2 := Real.abs_sin_le_one y
    have h3 : 2 * x ≤ Real.sin x * Real.pi := by
      have := mul_le_mul_of_nonneg_right h1 hpi.le
      rwa [div_mul_eq_mul_div, div_mul_cancel₀ _ hpi.ne'] at this
    have h4 : 0 ≤ Real.sin x := Real.sin_nonneg_of_nonneg_of_le_pi hx (by linarith)
    nlinarith

/-- a special unitary matrix that flips with amplitude at most `sin β` -/
def Flips (β : ℝ) (U : M2) : Prop :=
  ∃ a b c d : ℝ, U = su2 a b c d ∧ a ^ 2 + d ^ 2 + (b ^ 2 + c ^ 2) = 1 ∧ Real.sqrt (b ^ 2 + c ^ 2) ≤ Real.sin β

theorem norm_flip (a b c d : ℝ) : ‖su2 a b c d 1 0‖ = Real.sqrt (b ^ 2 + c ^ 2) := by
  show ‖(⟨c, -b⟩ : ℂ)‖ = _
  rw [Complex.norm_def, Complex.normSq_mk]
  congr 1; ring

theorem Flips.norm {β : ℝ} {U : M2} (h : Flips β U) : ‖U 1 0‖ ≤ Real.sin β := by
  obtain ⟨a, b, c, d, rfl, -, h⟩ := h
  rwa [norm_flip]

theorem flips_one : Flips 0 1 := ⟨1, 0, 0, 0, su2_one.symm, by norm_num, by simp⟩

theorem Flips.mul {β γ : ℝ} {U V : M2} (hU : Flips β U) (hV : Flips γ V) (hβ : 0 ≤ β) (hγ : 0 ≤ γ)
    (hs : β + γ ≤ Real.pi / 2) : Flips (β + γ) (U * V) := by
  obtain ⟨a, b, c, d, rfl, h1, h2⟩ := hU
  obtain ⟨a', b', c', d', rfl, h1', h2'⟩ := hV
  refine ⟨_, _, _, _, su2_mul _ _ _ _ _ _ _ _, ?_, ?_⟩
  · have : (a ^ 2 + d ^ 2 + (b ^ 2 + c ^ 2)) * (a' ^ 2 + d' ^ 2 + (b' ^ 2 + c' ^ 2)) = 1 := by rw [h1, h1']; norm_num
    rw [← this]; ring
  · have hpi := Real.pi_pos
    set B := Real.sqrt (b ^ 2 + c ^ 2) with hB
    set B' := Real.sqrt (b' ^ 2 + c' ^ 2) with hB'
    have B0 : 0 ≤ B := Real.sqrt_nonneg _
    have B0' : 0 ≤ B' := Real.sqrt_nonneg _
    have Bs : B ^ 2 = b ^ 2 + c ^ 2 := Real.sq_sqrt (by positivity)
    have Bs' : B' ^ 2 = b' ^ 2 + c' ^ 2 := Real.sq_sqrt (by positivity)
    set x := Real.arcsin B with hx
    set y := Real.arcsin B' with hy
    have B1 : B ≤ 1 := h2.trans (Real.sin_le_one _)
    have B1' : B' ≤ 1 := h2'.trans (Real.sin_le_one _)
    have sx : Real.sin x = B := Real.sin_arcsin (by linarith) B1
    have sy : Real.sin y = B' := Real.sin_arcsin (by linarith) B1'
    have x0 : 0 ≤ x := Real.arcsin_nonneg.mpr B0
    have y0 : 0 ≤ y := Real.arcsin_nonneg.mpr B0'
    have xb : x ≤ β := by
      rw [hx]
      calc Real.arcsin B ≤ Real.arcsin (Real.sin β) := Real.monotone_arcsin h2
        _ = β := Real.arcsin_sin (by linarith) (by linarith)
    have yb : y ≤ γ := by
      rw [hy]
      calc Real.arcsin B' ≤ Real.arcsin (Real.sin γ) := Real.monotone_arcsin h2'
        _ = γ := Real.arcsin_sin (by linarith) (by linarith)
    have cx : 0 ≤ Real.cos x := Real.cos_nonneg_of_mem_Icc ⟨by linarith, by linarith⟩
    have cy : 0 ≤ Real.cos y := Real.cos_nonneg_of_mem_Icc ⟨by linarith, by linarith⟩
    have cxs : Real.cos x ^ 2 = a ^ 2 + d ^ 2 := by
      have := Real.sin_sq_add_cos_sq x
      rw [sx, Bs] at this
      linarith
    have cys : Real.cos y ^ 2 = a' ^ 2 + d' ^ 2 := by
      have := Real.sin_sq_add_cos_sq y
      rw [sy, Bs'] at this
      linarith
    refine le_trans ?_ (Real.sin_le_sin_of_le_of_le_pi_div_two (x := x + y) (by linarith) hs (by linarith))
    rw [Real.sin_add, sx, sy]
    refine Real.sqrt_le_left (by positivity) |>.mpr ?_
    -- the vector is a sum of two vectors of lengths `cos x * B'` and `B * cos y`
    have e1 : (a * b' - d * c') ^ 2 + (a * c' + d * b') ^ 2 = (Real.cos x * B') ^ 2 := by
      rw [mul_pow, cxs, Bs']; ring
    have e2 : (b * a' + c * d') ^ 2 + (c * a' - b * d') ^ 2 = (B * Real.cos y) ^ 2 := by
      rw [mul_pow, cys, Bs]; ring
    have cs : (a * b' - d * c') * (b * a' + c * d') + (a * c' + d * b') * (c * a' - b * d') ≤
        (Real.cos x * B') * (B * Real.cos y) := by
      refine abs_le_of_sq_le_sq' ?_ (by positivity) |>.2
      rw [mul_pow, ← e1, ← e2]
      nlinarith [sq_nonneg ((a * b' - d * c') * (c * a' - b * d') - (a * c' + d * b') * (b * a' + c * d'))]
    have e3 : (a * b' + b * a' + c * d' - d * c') ^ 2 + (a * c' - b * d' + c * a' + d * b') ^ 2 =
        (Real.cos x * B') ^ 2 + (B * Real.cos y) ^ 2 +
          2 * ((a * b' - d * c') * (b * a' + c * d') + (a * c' + d * b') * (c * a' - b * d')) := by
      rw [← e1, ← e2]; ring
    rw [e3, add_sq]
    linarith

theorem flips_segment {Ω φ Δ t : ℝ} (hΩ : 0 ≤ Ω) (ht : 0 ≤ t) (hs : Ω * t / 2 ≤ Real.pi / 2) :
    Flips (Ω * t / 2) (segmentUnitary Ω φ Δ t) := by
  rcases eq_or_ne (Ω ^ 2 + Δ ^ 2) 0 with h0 | h0
  · have e1 : Ω = 0 := by nlinarith [sq_nonneg Δ, sq_nonneg Ω]
    have e2 : Δ = 0 := by nlinarith [sq_nonneg Δ, sq_nonneg Ω]
    subst e1 e2
    rw [segmentUnitary_idle]
    simpa using flips_one
  · set r := Real.sqrt (Ω ^ 2 + Δ ^ 2) with hr
    have hpos : 0 < r := Real.sqrt_pos.mpr (lt_of_le_of_ne (by positivity) h0.symm)
    have hr2 : r ^ 2 = Ω ^ 2 + Δ ^ 2 := Real.sq_sqrt (by positivity)
    have hle : Ω ≤ r := Real.le_sqrt_of_sq_le (by nlinarith [sq_nonneg Δ])
    refine ⟨_, _, _, _, segmentUnitary_eq Ω φ Δ t r hr2 hpos.ne', ?_, ?_⟩
    · have h1 := Real.cos_sq_add_sin_sq φ
      have h2 := Real.cos_sq_add_sin_sq (r * t / 2)
      field_simp
      rw [hr2]
      rw [hr2.symm]
      linear_combination (Real.sin (r * t / 2)) ^ 2 * Ω ^ 2 * h1 + r ^ 2 * h2 - (Real.sin (r * t / 2)) ^ 2 * hr2
    · have e : (Real.sin (r * t / 2) * (Ω * Real.cos φ / r)) ^ 2 + (Real.sin (r * t / 2) * (Ω * Real.sin φ / r)) ^ 2 =
          (|Real.sin (r * t / 2)| * Ω / r) ^ 2 := by
        have h1 := Real.cos_sq_add_sin_sq φ
        rw [div_pow, mul_pow (|_|), sq_abs]
        field_simp
        linear_combination Real.sin (r * t / 2) ^ 2 * Ω ^ 2 * h1
      rw [e, Real.sqrt_sq (by positivity), div_le_iff₀ hpos]
      rcases ht.eq_or_lt with rfl | ht'
      · simp
      · have := abs_sin_mul_le (x := Ω * t / 2) (y := r * t / 2) (by positivity) hs (by nlinarith)
        have h2 : (|Real.sin (r * t / 2)| * Ω) * (t / 2) ≤ (Real.sin (Ω * t / 2) * r) * (t / 2) := by
          calc _ = |Real.sin (r * t / 2)| * (Ω * t / 2) := by ring
            _ ≤ _ := this
            _ = _ := by ring
        exact le_of_mul_le_mul_right h2 (by positivity)

theorem flips_control : ∀ (rs as ds ts : List ℝ), (∀ x ∈ rs, 0 ≤ x) → (∀ x ∈ ts, 0 ≤ x) →
    rs.length = ts.length → as.length = ts.length → ds.length = ts.length →
    0 ≤ (List.zipWith (· * ·) rs ts).sum ∧ ((List.zipWith (· * ·) rs ts).sum / 2 ≤ Real.pi / 2 →
      Flips ((List.zipWith (· * ·) rs ts).sum / 2) (controlEvolution rs as ds ts))
  | [], as, ds, [], _, _, _, ha, hd => by
    have : as = [] := List.length_eq_zero_iff.mp ha
    have : ds = [] := List.length_eq_zero_iff.mp hd
    subst as ds
    refine ⟨by simp, fun _ => ?_⟩
    simpa [controlEvolution] using flips_one
  | r :: rs, a :: as, d :: ds, t :: ts, hr, ht, h1, h2, h3 => by
    obtain ⟨i1, i2⟩ := flips_control rs as ds ts (fun x hx => hr x (List.mem_cons_of_mem _ hx))
      (fun x hx => ht x (List.mem_cons_of_mem _ hx)) (by simpa using h1) (by simpa using h2) (by simpa using h3)
    have r0 := hr r (by simp)
    have t0 := ht t (by simp)
    have p0 : 0 ≤ r * t := mul_nonneg r0 t0
    simp only [List.zipWith_cons_cons, List.sum_cons]
    refine ⟨by linarith, fun h => ?_⟩
    have := (i2 (by linarith)).mul (flips_segment (φ := a) (Δ := d) r0 t0 (by linarith)) (by linarith) (by linarith)
      (by linarith)
    rw [controlEvolution_cons]
    convert this using 1
    ring
  | _ :: _, [], _, _ :: _, _, _, _, h2, _ => by simp at h2
  | _ :: _, _ :: _, [], _ :: _, _, _, _, _, h3 => by simp at h3
  | [], _, _, _ :: _, _, _, h1, _, _ => by simp at h1
  | _ :: _, _, _, [], _, _, h1, _, _ => by simp at h1

end OpenControls
