import Verif.Proofs.XYResidual
import Verif.Props.Noise

/-!
# C127: how much of static noise the XY-concatenated sequences leave
-/

namespace OpenControls

open Spec RealInst

theorem xy_sensitivity {T l : ℝ} {prePost : Bool} {name : Option String} {s : Sequence ℝ}
    (hs : newXYConcatenatedSequence T l prePost name = .ok s) (c : Axis) :
    0 < T ∧ ∫ t in 0..T, sensitivityAlong c s t = axisSum id c T 0 (xyTable T ⌊l⌋₊) := by
  have hs' : Family.call (.xyConcatenated l) T prePost name = .ok s := hs
  obtain ⟨⟨hT, hv⟩, -⟩ := (C43_well_formed (.xyConcatenated l) T prePost name).ok hs'
  rw [Family.call_eq hv hT, Except.ok.injEq] at hs'
  subst hs'
  refine ⟨hT, ?_⟩
  simp only [sensitivityAlong_finished]
  have := axisSum_integral hv hT c (F := id) (f := fun _ => 1) (fun x => hasDerivAt_id x) continuous_const
  rw [show Family.table (.xyConcatenated l) T = xyTable T ⌊l⌋₊ from rfl] at this
  rw [this, show Family.table (.xyConcatenated l) T = xyTable T ⌊l⌋₊ from rfl]
  simp

/-- **C127**, even orders `2k + 2`: static noise along z is refocused; of noise along x and y the fraction
`(1 - 16⁻ᵏ) / 20` is left. -/
theorem C127_even (T l : ℝ) (prePost : Bool) (name : Option String) (s : Sequence ℝ)
    (hs : newXYConcatenatedSequence T l prePost name = .ok s) (k : ℕ) (hl : ⌊l⌋₊ = 2 * k + 2) :
    (∫ t in 0..T, sensitivityAlong .x s t = T * (1 - 1 / 16 ^ k) / 20) ∧
    (∫ t in 0..T, sensitivityAlong .y s t = T * (1 - 1 / 16 ^ k) / 20) ∧
    (∫ t in 0..T, sensitivityAlong .z s t = 0) := by
  have hT := (xy_sensitivity hs .x).1
  rw [(xy_sensitivity hs .x).2, (xy_sensitivity hs .y).2, (xy_sensitivity hs .z).2, hl, xy_sum_even hT,
    xy_sum_even hT, xy_sum_even hT]
  exact ⟨rfl, rfl, rfl⟩

/-- **C127**, odd orders `2k + 1` from three on: something of the noise along every axis is left. -/
theorem C127_odd (T l : ℝ) (prePost : Bool) (name : Option String) (s : Sequence ℝ)
    (hs : newXYConcatenatedSequence T l prePost name = .ok s) (k : ℕ) (hk : 1 ≤ k) (hl : ⌊l⌋₊ = 2 * k + 1) :
    (∫ t in 0..T, sensitivityAlong .x s t = T * (6 / 16 ^ k - 1) / 20) ∧
    (∫ t in 0..T, sensitivityAlong .y s t = T * (4 / 16 ^ k + 1) / 20) ∧
    (∫ t in 0..T, sensitivityAlong .z s t = -(T * (1 - 1 / 16 ^ k) / 10)) := by
  have hT := (xy_sensitivity hs .x).1
  obtain ⟨j, rfl⟩ : ∃ j, k = j + 1 := ⟨k - 1, by omega⟩
  rw [(xy_sensitivity hs .x).2, (xy_sensitivity hs .y).2, (xy_sensitivity hs .z).2, hl, xy_sum_odd hT,
    xy_sum_odd hT, xy_sum_odd hT]
  exact ⟨rfl, rfl, rfl⟩

/-- **C127.** A higher order does not help: from the third on at least 3/64 of static noise along y is left, and never more
than 1/16 of it. -/
theorem C127_floor (T l : ℝ) (prePost : Bool) (name : Option String) (s : Sequence ℝ)
    (hs : newXYConcatenatedSequence T l prePost name = .ok s) (h3 : 3 ≤ l) :
    3 / 64 * T ≤ ∫ t in 0..T, sensitivityAlong .y s t ∧
    ∫ t in 0..T, sensitivityAlong .y s t ≤ 1 / 16 * T := by
  have hT := (xy_sensitivity hs .x).1
  have hn : 3 ≤ ⌊l⌋₊ := Nat.le_floor (by exact_mod_cast h3)
  have hp : ∀ k, 1 ≤ k → 0 < 1 / (16 : ℝ) ^ k ∧ 1 / (16 : ℝ) ^ k ≤ 1 / 16 := by
    intro k hk
    refine ⟨by positivity, ?_⟩
    apply one_div_le_one_div_of_le (by norm_num)
    calc (16 : ℝ) = 16 ^ 1 := by norm_num
      _ ≤ 16 ^ k := pow_le_pow_right₀ (by norm_num) hk
  rcases Nat.even_or_odd' ⌊l⌋₊ with ⟨m, h | h⟩
  · obtain ⟨k, rfl⟩ : ∃ k, m = k + 1 := ⟨m - 1, by omega⟩
    obtain ⟨-, hy, -⟩ := C127_even T l prePost name s hs k (by omega)
    obtain ⟨p1, p2⟩ := hp k (by omega)
    rw [hy]
    generalize 1 / (16 : ℝ) ^ k = q at p1 p2 ⊢
    constructor <;> nlinarith
  · obtain ⟨-, hy, -⟩ := C127_odd T l prePost name s hs m (by omega) h
    obtain ⟨p1, p2⟩ := hp m (by omega)
    rw [hy, show (4 : ℝ) / 16 ^ m = 4 * (1 / 16 ^ m) by ring]
    generalize 1 / (16 : ℝ) ^ m = q at p1 p2 ⊢
    constructor <;> nlinarith

/-! ### Non-vacuity -/

/-- the orders 2, 3 and 4 -/
example : ∃ s2 s3 s4, newXYConcatenatedSequence (64 : ℝ) 2 false none = .ok s2 ∧
    newXYConcatenatedSequence (64 : ℝ) 3 false none = .ok s3 ∧
    newXYConcatenatedSequence (64 : ℝ) 4 true none = .ok s4 ∧
    (∫ t in (0 : ℝ)..64, sensitivityAlong .y s2 t = 0) ∧
    (∫ t in (0 : ℝ)..64, sensitivityAlong .x s3 t = -2) ∧ (∫ t in (0 : ℝ)..64, sensitivityAlong .y s3 t = 4) ∧
    (∫ t in (0 : ℝ)..64, sensitivityAlong .z s3 t = -6) ∧ (∫ t in (0 : ℝ)..64, sensitivityAlong .y s4 t = 3) := by
  obtain ⟨s2, h2, -⟩ := (C43_well_formed (.xyConcatenated 2) 64 false none).1
    ⟨by norm_num, show (1 : ℝ) ≤ 2 by norm_num⟩
  obtain ⟨s3, h3, -⟩ := (C43_well_formed (.xyConcatenated 3) 64 false none).1
    ⟨by norm_num, show (1 : ℝ) ≤ 3 by norm_num⟩
  obtain ⟨s4, h4, -⟩ := (C43_well_formed (.xyConcatenated 4) 64 true none).1
    ⟨by norm_num, show (1 : ℝ) ≤ 4 by norm_num⟩
  obtain ⟨-, e2, -⟩ := C127_even 64 2 false none s2 h2 0 (by norm_num)
  obtain ⟨x3, y3, z3⟩ := C127_odd 64 3 false none s3 h3 1 le_rfl (by norm_num)
  obtain ⟨-, e4, -⟩ := C127_even 64 4 true none s4 h4 1 (by norm_num)
  refine ⟨s2, s3, s4, h2, h3, h4, ?_, ?_, ?_, ?_, ?_⟩
  · rw [e2]; norm_num
  · rw [x3]; norm_num
  · rw [y3]; norm_num
  · rw [z3]; norm_num
  · rw [e4]; norm_num

end OpenControls
