import Verif.Props.Noise
import Verif.Proofs.Reversal

/-! # Helpers for noise with a symmetry in time (C142) -/

namespace OpenControls

open Spec MeasureTheory

theorem flipTimes_mirrorTable (T : ℝ) (table : List (ℝ × Axis)) :
    flipTimes (mirrorTable T table) = ((flipTimes table).map fun s => T - s).reverse := by
  unfold flipTimes mirrorTable
  rw [List.filter_reverse, List.map_reverse, List.filter_map, List.map_map, List.map_map]
  rfl

/-- after a reflection of time the sign is the same up to the sign at the end, except at the flips themselves -/
theorem switching_mirror {T : ℝ} {l : List ℝ} (h : (l.map fun s => T - s).reverse = l) {t : ℝ} (ht : t ∉ l) :
    switching l (T - t) = (-1) ^ l.length * switching l t := by
  have h1 : l.countP (fun s => decide (s < T - t)) = l.countP fun s => decide (t < s) := by
    conv_lhs => rw [← h]
    rw [List.countP_reverse, List.countP_map]
    congr 1
    funext s
    simp only [Function.comp_apply]
    exact decide_eq_decide.mpr ⟨fun h => by linarith, fun h => by linarith⟩
  have h2 : l.length = l.countP (fun s => decide (s < t)) + l.countP fun s => decide (t < s) := by
    rw [List.length_eq_countP_add_countP (fun s => decide (s < t))]
    congr 1
    refine List.countP_congr fun s hs => ?_
    have : s ≠ t := fun e => ht (e ▸ hs)
    simp only [Bool.not_eq_true, decide_eq_false_iff_not, not_lt, decide_eq_true_eq]
    exact ⟨fun h => lt_of_le_of_ne h this.symm, fun h => h.le⟩
  unfold switching
  rw [h1, h2, pow_add, mul_right_comm, ← pow_add, ← two_mul, pow_mul]
  norm_num

theorem switching_mirror_integral {T : ℝ} {l : List ℝ} (h : (l.map fun s => T - s).reverse = l) (β : ℝ → ℝ) :
    ∫ t in 0..T, switching l t * β (T - t) = (-1) ^ l.length * ∫ t in 0..T, switching l t * β t := by
  have e := intervalIntegral.integral_comp_sub_left (a := 0) (b := T) (fun x => switching l (T - x) * β x) T
  simp only [sub_sub_cancel, sub_self, sub_zero] at e
  rw [e, ← intervalIntegral.integral_const_mul]
  refine intervalIntegral.integral_congr_ae ?_
  have hn : (volume : Measure ℝ) {t | t ∈ l} = 0 := by
    have : {t : ℝ | t ∈ l} = ↑l.toFinset := by ext; simp
    rw [this]
    exact Finset.measure_zero _ _
  filter_upwards [compl_mem_ae_iff.mpr hn] with t ht _
  rw [switching_mirror h ht, mul_assoc]

theorem count_finished (T : ℝ) (table : List (ℝ × Axis)) (prePost : Bool) (name : Option String) :
    (finished T table prePost name).rabiRotations.count Real.pi = (flipTimes table).length := by
  have hne : ¬ Real.pi / 2 = Real.pi := by
    have := Real.pi_pos
    intro h; linarith
  have h0 : ¬ (0 : ℝ) = Real.pi := Real.pi_pos.ne
  have key : (table.map fun p => p.2.rabi).count Real.pi = (flipTimes table).length := by
    unfold flipTimes
    induction table with
    | nil => rfl
    | cons p table ih =>
      obtain ⟨s, a⟩ := p
      rw [List.map_cons, List.count_cons, ih]
      cases a <;> simp [Axis.rabi, h0]
  unfold finished
  cases prePost with
  | false => exact key
  | true =>
    simp only [if_true, withPrePost, piSequence, List.count_cons, List.count_append, List.count_nil, key]
    simp [hne]

end OpenControls
