import Verif.Proofs.NoisyControl
import Mathlib.Analysis.ODE.ExistUnique

/-!
# Schrödinger's equation has a solution
-/

namespace OpenControls

open Spec Set
open scoped Matrix.Norms.L2Operator

theorem solves_short {B : ℝ → M2} {a b K : ℝ} (hab : a ≤ b) (hB : ContinuousOn B (Icc a b))
    (hK : ∀ t ∈ Icc a b, ‖B t‖ ≤ K) (hshort : 2 * K * (b - a) ≤ 1) {V : M2} (hV : ‖V‖ ≤ 1) :
    ∃ U, U a = V ∧ Solves B a b U := by
  have hK0 : 0 ≤ K := (norm_nonneg _).trans (hK a ⟨le_rfl, hab⟩)
  have hp : IsPicardLindelof (fun t (X : M2) => B t * X) (tmin := a) (tmax := b) ⟨a, le_rfl, hab⟩ V 1 0
      ⟨2 * K, by positivity⟩ ⟨K, hK0⟩ := by
    refine ⟨fun t ht => ?_, fun X _ => hB.mul continuousOn_const, fun t ht X hX => ?_, ?_⟩
    · refine LipschitzOnWith.of_dist_le_mul fun X _ Y _ => ?_
      rw [dist_eq_norm, dist_eq_norm, ← mul_sub]
      exact (norm_mul_le _ _).trans (mul_le_mul_of_nonneg_right (hK t ht) (norm_nonneg _))
    · have h1 : ‖X‖ ≤ 2 := by
        have : ‖X - V‖ ≤ 1 := by simpa [dist_eq_norm] using hX
        have := norm_add_le (X - V) V
        rw [sub_add_cancel] at this
        linarith
      refine (norm_mul_le _ _).trans ?_
      have := mul_le_mul (hK t ht) h1 (norm_nonneg _) hK0
      show _ ≤ 2 * K
      linarith
    · simp [max_eq_left (sub_nonneg.mpr hab)]
      exact hshort
  obtain ⟨U, h1, h2⟩ := hp.exists_eq_forall_mem_Icc_hasDerivWithinAt₀
  refine ⟨U, h1, fun t ht => (h2 t ht).continuousWithinAt, fun t ht => ?_⟩
  refine (h2 t ⟨ht.1, ht.2.le⟩).mono_of_mem_nhdsWithin ?_
  exact Icc_mem_nhdsGE_of_mem ht

theorem Solves.congr {B B' : ℝ → M2} {a b : ℝ} {U V : ℝ → M2} (h : Solves B a b U) (hB : ∀ t ∈ Ico a b, B t = B' t)
    (hV : ∀ t ∈ Icc a b, V t = U t) : Solves B' a b V := by
  refine ⟨h.1.congr hV, fun t ht => ?_⟩
  rw [← hB t ht, hV t ⟨ht.1, ht.2.le⟩]
  refine (h.2 t ht).congr_of_eventuallyEq ?_ (hV t ⟨ht.1, ht.2.le⟩)
  filter_upwards [Icc_mem_nhdsGE_of_mem ht] with s hs using hV s hs

open Classical in
theorem Solves.glue {B : ℝ → M2} {a b c : ℝ} {U V : ℝ → M2} (hab : a ≤ b) (hbc : b ≤ c) (hU : Solves B a b U)
    (hV : Solves B b c V) (h : U b = V b) : Solves B a c fun t => if t ≤ b then U t else V t := by
  have h1 : Solves B a b fun t => if t ≤ b then U t else V t :=
    hU.congr (fun _ _ => rfl) fun t ht => if_pos ht.2
  have h2 : Solves B b c fun t => if t ≤ b then U t else V t := by
    refine hV.congr (fun _ _ => rfl) fun t ht => ?_
    split
    · rename_i hle
      rw [le_antisymm hle ht.1, h]
    · rfl
  refine ⟨?_, fun t ht => ?_⟩
  · rw [← Icc_union_Icc_eq_Icc hab hbc]
    exact h1.1.union_of_isClosed h2.1 isClosed_Icc isClosed_Icc
  · rcases lt_or_ge t b with hb | hb
    · exact h1.2 t ⟨ht.1, hb⟩
    · exact h2.2 t ⟨hb, ht.2⟩

theorem solves_exists {B : ℝ → M2} {a b : ℝ} (hab : a ≤ b) (hB : ContinuousOn B (Icc a b))
    (hs : ∀ t ∈ Icc a b, star (B t) = -B t) {V : M2} (hV : star V * V = 1) : ∃ U, U a = V ∧ Solves B a b U := by
  obtain ⟨K, hK⟩ := isCompact_Icc.exists_bound_of_continuousOn hB
  obtain ⟨n, hn⟩ := exists_nat_ge (2 * K * (b - a))
  induction n generalizing b with
  | zero => exact solves_short hab hB hK (by push_cast at hn; linarith) (norm_of_isometry hV)
  | succ n ih =>
    have hn1 : (0 : ℝ) < n + 1 := by positivity
    set c := b - (b - a) / (n + 1) with hc
    have h0 : 0 ≤ (b - a) / (n + 1) := div_nonneg (sub_nonneg.mpr hab) hn1.le
    have hcb : c ≤ b := by linarith
    have hac : a ≤ c := by
      have : (b - a) / (n + 1) ≤ b - a := div_le_self (sub_nonneg.mpr hab) (by linarith [Nat.cast_nonneg (α := ℝ) n])
      linarith
    have e : (b - a) = (b - a) / (n + 1) * (n + 1) := by field_simp
    push_cast at hn
    have hd : 2 * K * ((b - a) / (n + 1)) ≤ 1 := by
      rw [mul_div_assoc', div_le_one hn1]
      exact hn
    obtain ⟨U, hU, hUs⟩ := ih hac (hB.mono (Icc_subset_Icc le_rfl hcb))
      (fun t ht => hs t ⟨ht.1, ht.2.trans hcb⟩) (fun t ht => hK t ⟨ht.1, ht.2.trans hcb⟩) (by
        have : c - a = (b - a) / (n + 1) * n := by rw [hc]; linarith
        rw [this, ← mul_assoc]
        exact mul_le_of_le_one_left (Nat.cast_nonneg n) hd)
    have hu := hUs.unitary (fun t ht => hs t ⟨ht.1, ht.2.le.trans hcb⟩) (by rw [hU, hV]) c ⟨hac, le_rfl⟩
    obtain ⟨W, hW, hWs⟩ := solves_short hcb (hB.mono (Icc_subset_Icc hac le_rfl))
      (fun t ht => hK t ⟨hac.trans ht.1, ht.2⟩) (by
        have : b - c = (b - a) / (n + 1) := by rw [hc]; ring
        rw [this]; exact hd) (norm_of_isometry hu)
    classical
    exact ⟨_, by simp only [if_pos hac]; exact hU, hUs.glue hac hcb hWs hW.symm⟩

end OpenControls
