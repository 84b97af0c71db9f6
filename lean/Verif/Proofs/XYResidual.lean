import Verif.Proofs.BuiltXY
import Verif.Proofs.NoiseFamilies

/-!
# Signed sums over the units of XY-concatenated sequences
-/

namespace OpenControls

open Spec RealInst

/-- the sign of noise along an axis after some pulses -/
def runSign (c : Axis) (p : List Axis) : ℝ := (p.map (axisSign c)).prod

theorem runSign_append (c : Axis) (p q : List Axis) : runSign c (p ++ q) = runSign c p * runSign c q := by
  simp [runSign]

/-- the units, each with the sign of noise along an axis -/
noncomputable def unitSigned (c : Axis) : List (List Axis) → ℝ
  | [] => 0
  | p :: r => 1 + runSign c p * unitSigned c r

theorem unitSigned_append (c : Axis) (a b : List (List Axis)) :
    unitSigned c (a ++ b) = unitSigned c a + runSign c a.flatten * unitSigned c b := by
  induction a with
  | nil => simp [unitSigned, runSign]
  | cons p r ih =>
    rw [List.cons_append, unitSigned, ih, unitSigned, List.flatten_cons, runSign_append]
    ring

theorem axisSum_from (c : Axis) (T a b : ℝ) (r : List (ℝ × Axis)) :
    axisSum id c T a r = (b - a) + axisSum id c T b r := by
  cases r <;> simp only [axisSum, id] <;> ring

theorem axisSum_run (c : Axis) (T b : ℝ) (p : List Axis) (r : List (ℝ × Axis)) :
    axisSum id c T b (p.map (fun q => (b, q)) ++ r) = runSign c p * axisSum id c T b r := by
  induction p with
  | nil => simp [runSign]
  | cons q p ih =>
    rw [List.map_cons, List.cons_append, axisSum, ih, sub_self, zero_add, ← mul_assoc]
    rfl

theorem axisSum_units (c : Axis) (T u a : ℝ) (units : List (List Axis)) :
    axisSum id c T a (unitPulses u a units) =
      u * unitSigned c units + runSign c units.flatten * (T - a - u * units.length) := by
  induction units generalizing a with
  | nil => simp [unitPulses, axisSum, unitSigned, runSign]
  | cons p r ih =>
    rw [unitPulses, axisSum_from c T a (a + u), axisSum_run, ih, unitSigned, List.flatten_cons, runSign_append,
      List.length_cons]
    push_cast
    ring

theorem built_length_even (k : ℕ) :
    (builtXY (2 * k + 2)).length = 4 * (builtXY (2 * k + 1)).length := by
  have := builtXY_length_step (2 * k)
  rwa [if_pos (by omega)] at this

/-- all units but the last, from the second order on -/
theorem built_signed (n : ℕ) (c : Axis) :
    runSign c (builtXY (n + 2)).dropLast.flatten = 1 ∧
    unitSigned c (builtXY (n + 2)).dropLast =
      if c = .z then ((builtXY (n + 2)).dropLast.length : ℝ) - 4 ^ (n + 2) else if n % 2 = 0 then -1 else 0 := by
  induction n with
  | zero =>
    have : (builtXY 2).dropLast = [[.x], [.y], [.x], [.z], [.x], [.y], [.x], [], [.x], [.y], [.x], [.z], [.x], [.y],
      [.x]] := by decide
    rw [this]
    cases c <;> constructor <;>
      simp only [runSign, unitSigned, axisSign, List.map_cons, List.map_nil, List.prod_cons, List.prod_nil,
        List.flatten_cons, List.flatten_nil, List.cons_append, List.nil_append, List.length_cons, List.length_nil,
        reduceCtorEq, if_true, if_false] <;> norm_num
  | succ n ih =>
    obtain ⟨ih1, ih2⟩ := ih
    obtain ⟨a, b, ha⟩ : ∃ a b, (builtXY (n + 2)).dropLast = a ++ [b] := by
      have he := builtXY_ends (n + 1)
      split at he
      · obtain ⟨a, ha⟩ := he; exact ⟨a, [.x], by rw [ha, List.dropLast_concat]⟩
      · obtain ⟨a, ha⟩ := he; exact ⟨a, [.x], by rw [ha, List.dropLast_concat]⟩
    rw [builtXY]
    generalize (builtXY (n + 2)).dropLast = l at ih1 ih2 ha ⊢
    have hz : runSign c [.z] * runSign c [.z] = 1 := by cases c <;> simp [runSign, axisSign]
    have hzz : c = .z → runSign c [.z] = 1 := by rintro rfl; simp [runSign, axisSign]
    have hz' : c ≠ .z → runSign c [.z] = -1 := by intro h; simp [runSign, axisSign, h]
    have htf : (thenZ l).flatten = l.flatten ++ [.z] := by rw [ha, thenZ_concat]; simp
    have htl : (thenZ l).length = l.length := by rw [ha, thenZ_concat]; simp
    have hone : ∀ p, unitSigned c [p] = 1 := by intro p; simp [unitSigned]
    have hts : unitSigned c (thenZ l) = unitSigned c l := by
      rw [ha, thenZ_concat, unitSigned_append, unitSigned_append, hone, hone]
    by_cases h : (n + 1) % 2 = 0
    · rw [if_pos h]
      simp only [List.dropLast_concat, List.flatten_append, List.flatten_cons, List.flatten_nil, List.append_nil,
        runSign_append, unitSigned_append, hone, ih1, ih2, List.length_append, List.length_cons,
        List.length_nil]
      refine ⟨by simpa using hz, ?_⟩
      by_cases hc : c = .z
      · rw [hzz hc, if_pos hc, if_pos hc, pow_succ (4 : ℝ) (n + 1 + 1)]
        push_cast
        ring
      · rw [hz' hc, if_neg hc, if_neg hc, if_neg (by omega), if_pos h]
        ring
    · rw [if_neg h]
      simp only [List.dropLast_concat, List.flatten_append, htf, runSign_append, unitSigned_append, hts, ih1, ih2,
        List.length_append, htl]
      refine ⟨by simpa using hz, ?_⟩
      by_cases hc : c = .z
      · rw [hzz hc, if_pos hc, if_pos hc, pow_succ (4 : ℝ) (n + 1 + 1)]
        push_cast
        ring
      · rw [hz' hc, if_neg hc, if_neg hc, if_pos (by omega), if_neg h]
        ring

theorem xy_sum_even {T : ℝ} (hT : 0 < T) (k : ℕ) (c : Axis) :
    axisSum id c T 0 (xyTable T (2 * k + 2)) =
      if c = .z then 0 else T * (1 - 1 / 16 ^ k) / 20 := by
  have he := builtXY_ends (2 * k + 1)
  rw [if_neg (by omega)] at he
  obtain ⟨a, ha⟩ := he
  generalize a ++ [[Axis.x]] = b at ha
  obtain ⟨h1, h2⟩ := built_signed (2 * k) c
  have hl := builtXY_length k
  have hl' := built_length_even k
  rw [show 2 * k + 2 = 2 * k + 1 + 1 from rfl] at *
  rw [xyTable_built hT, axisSum_units]
  rw [ha, List.dropLast_concat] at h1 h2
  rw [ha] at hl' ⊢
  rw [unitSigned_append, List.flatten_append, runSign_append, h1, h2, if_pos (show 2 * k % 2 = 0 by omega)]
  have hlen : ((b ++ [[]]).length : ℝ) = b.length + 1 := by simp
  have hL : 5 * ((b.length : ℝ) + 1) = 4 * (19 * 16 ^ k + 1) := by
    rw [← hlen]
    have : 5 * (b ++ [[]]).length = 4 * (19 * 16 ^ k + 1) := by omega
    exact_mod_cast this
  rw [hlen]
  have e4 : (4 : ℝ) ^ (2 * k + 1 + 1) = 16 * 16 ^ k := by
    rw [show 2 * k + 1 + 1 = 2 * (k + 1) by ring, pow_mul, pow_succ]; norm_num; ring
  have hq : (0 : ℝ) < 16 ^ k := by positivity
  generalize (b.length : ℝ) = L at hL ⊢
  simp only [unitSigned, List.flatten_cons, List.flatten_nil, List.append_nil, e4]
  rw [show runSign c [] = 1 from rfl]
  obtain rfl : L = 4 * (19 * 16 ^ k + 1) / 5 - 1 := by linarith
  generalize (16 : ℝ) ^ k = q at hq ⊢
  split
  · field_simp; ring
  · field_simp; ring

theorem xy_sum_odd {T : ℝ} (hT : 0 < T) (k : ℕ) (c : Axis) :
    axisSum id c T 0 (xyTable T (2 * (k + 1) + 1)) =
      match c with
      | .x => T * (6 / 16 ^ (k + 1) - 1) / 20
      | .y => T * (4 / 16 ^ (k + 1) + 1) / 20
      | .z => -(T * (1 - 1 / 16 ^ (k + 1)) / 10) := by
  have he := builtXY_ends (2 * (k + 1))
  rw [if_pos (by omega)] at he
  obtain ⟨a, ha⟩ := he
  generalize a ++ [[Axis.x]] = b at ha
  obtain ⟨h1, h2⟩ := built_signed (2 * k + 1) c
  have hl := builtXY_length (k + 1)
  rw [show 2 * k + 1 + 2 = 2 * (k + 1) + 1 by ring] at h1 h2
  rw [xyTable_built hT, axisSum_units]
  rw [ha, List.dropLast_concat] at h1 h2
  rw [ha] at hl ⊢
  rw [unitSigned_append, List.flatten_append, runSign_append, h1, h2, if_neg (show ¬ (2 * k + 1) % 2 = 0 by omega)]
  have hlen : ((b ++ [[Axis.y]]).length : ℝ) = b.length + 1 := by simp
  have hL : 5 * ((b.length : ℝ) + 1) = 19 * 16 ^ (k + 1) + 1 := by
    rw [← hlen]
    exact_mod_cast hl
  rw [hlen]
  have e4 : (4 : ℝ) ^ (2 * (k + 1) + 1) = 4 * 16 ^ (k + 1) := by
    rw [pow_succ, pow_mul]; norm_num; ring
  have hq : (0 : ℝ) < 16 ^ (k + 1) := by positivity
  generalize (b.length : ℝ) = L at hL ⊢
  simp only [unitSigned, List.flatten_cons, List.flatten_nil, List.append_nil, e4]
  obtain rfl : L = (19 * 16 ^ (k + 1) + 1) / 5 - 1 := by linarith
  generalize (16 : ℝ) ^ (k + 1) = q at hq ⊢
  cases c
  · rw [show runSign .x [.y] = -1 by simp [runSign, axisSign], if_neg (by decide)]
    field_simp; ring
  · rw [show runSign .y [.y] = 1 by simp [runSign, axisSign], if_neg (by decide)]
    field_simp; ring
  · rw [show runSign .z [.y] = -1 by simp [runSign, axisSign], if_pos rfl]
    field_simp; ring

end OpenControls
