import Verif.Proofs.SymmetricControls
import Verif.Proofs.Gaussian

/-!
# Signed controls with errors that are symmetric in time
-/

namespace OpenControls

open Spec RealInst

theorem mirror_segment {φ s : ℝ} (hc : Real.cos (2 * φ) = s) (hs : Real.sin (2 * φ) = 0) (hs2 : s ^ 2 = 1) (Ω Δ t : ℝ) :
    mirrorAxis φ (segmentUnitary Ω 0 Δ t) = segmentUnitary (s * Ω) 0 Δ t := by
  by_cases h : Ω ^ 2 + Δ ^ 2 = 0
  · have hΩ : Ω = 0 := by nlinarith [sq_nonneg Ω, sq_nonneg Δ]
    have hΔ : Δ = 0 := by nlinarith [sq_nonneg Ω, sq_nonneg Δ]
    subst hΩ hΔ
    rw [mul_zero, segmentUnitary_idle, mirrorAxis_one]
  · have hp : 0 < Ω ^ 2 + Δ ^ 2 := lt_of_le_of_ne (by positivity) (Ne.symm h)
    have hr := Real.sq_sqrt hp.le
    have hr0 : Real.sqrt (Ω ^ 2 + Δ ^ 2) ≠ 0 := (Real.sqrt_pos.mpr hp).ne'
    rw [segmentUnitary_eq Ω 0 Δ t _ hr hr0, segmentUnitary_eq (s * Ω) 0 Δ t (Real.sqrt (Ω ^ 2 + Δ ^ 2))
      (by rw [hr]; linear_combination -Ω ^ 2 * hs2) hr0, mirrorAxis_su2, hc, hs, su2_inj]
    refine ⟨rfl, ?_, ?_, rfl⟩
    · rw [Real.cos_zero]; ring
    · rw [Real.sin_zero]; ring

/-- the segments with signed rates and errors -/
noncomputable def signedSegments (T : ℝ) (n : ℕ) (v a d : ℕ → ℝ) : List (Segment ℝ) :=
  (List.range n).map fun i => ⟨(1 + a i) * v i, 0, d i, T / n⟩

theorem hamiltonian_signed (x v Δ : ℝ) :
    hamiltonian (x * |v|) (if 0 ≤ v then 0 else Real.pi) Δ = hamiltonian (x * v) 0 Δ := by
  unfold hamiltonian
  split
  · rw [abs_of_nonneg ‹_›]
  · rw [abs_of_neg (not_le.mp ‹_›), Real.cos_pi, Real.sin_pi, Real.cos_zero, Real.sin_zero]
    rw [show x * -v * -1 = x * v * 1 by ring, mul_zero, mul_zero]

theorem signed_errors_evolution (T : ℝ) (n : ℕ) (v a d : ℕ → ℝ) :
    evolution (withSegmentErrors a d (signedControl T n v)) = evolution (ofSegments (signedSegments T n v a d) none) := by
  have e : withSegmentErrors a d (signedControl T n v) = ofSegments ((List.range n).map fun i =>
      ⟨(1 + a i) * |v i|, if 0 ≤ v i then 0 else Real.pi, d i, T / n⟩) none := by
    simp only [withSegmentErrors, signedControl, ofSegments, DrivenControl.mk.injEq, and_true]
    refine ⟨?_, ?_, ?_, ?_⟩ <;> apply List.ext_getElem <;> simp
  rw [e]
  unfold signedSegments
  induction List.range n with
  | nil => rfl
  | cons i l ih =>
    simp only [List.map_cons, evolution_ofSegments_cons, ih]
    congr 1
    unfold segmentUnitary
    rw [hamiltonian_signed]

theorem evolution_mirrored {φ s : ℝ} (hc : Real.cos (2 * φ) = s) (hs : Real.sin (2 * φ) = 0) (hs2 : s ^ 2 = 1)
    (gs : List (Segment ℝ)) (hz : ∀ g ∈ gs, g.azimuthal = 0) :
    mirrorAxis φ (evolution (ofSegments gs none)) =
      evolution (ofSegments (gs.map fun g => { g with rabi := s * g.rabi }).reverse none) := by
  induction gs with
  | nil => exact mirrorAxis_one φ
  | cons g gs ih =>
    rw [evolution_ofSegments_cons, mirrorAxis_mul, ih fun g' hg' => hz g' (List.mem_cons_of_mem _ hg'), List.map_cons,
      List.reverse_cons, evolution_snoc, hz g List.mem_cons_self, mirror_segment hc hs hs2]

theorem signedSegments_mirror {T s : ℝ} {n : ℕ} {v a d : ℕ → ℝ} (hv : ∀ i < n, v (n - 1 - i) = s * v i)
    (ha : SymmetricErrors n a) (hd : SymmetricErrors n d) :
    ((signedSegments T n v a d).map fun g => { g with rabi := s * g.rabi }).reverse = signedSegments T n v a d := by
  unfold signedSegments
  refine List.ext_getElem (by simp) fun i hi hi' => ?_
  have hi'' : i < n := by simpa using hi'
  rw [List.getElem_reverse]
  simp only [List.getElem_map, List.getElem_range, List.length_map, List.length_range, Segment.mk.injEq, and_true, true_and]
  have hm := hv (n - 1 - i) (by omega)
  rw [show n - 1 - (n - 1 - i) = i by omega] at hm
  exact ⟨by rw [ha i hi'', hm]; ring, hd i hi''⟩

/-- a signed control whose rates are the same run backwards (`s = 1`) or change their sign (`s = -1`) -/
theorem signed_errors_plane {T φ s : ℝ} {n : ℕ} {v a d : ℕ → ℝ} (hc : Real.cos (2 * φ) = s) (hs : Real.sin (2 * φ) = 0)
    (hs2 : s ^ 2 = 1) (hv : ∀ i < n, v (n - 1 - i) = s * v i) (ha : SymmetricErrors n a) (hd : SymmetricErrors n d) :
    ∃ ω δ, evolution (withSegmentErrors a d (signedControl T n v)) = pulseUnitary ω φ δ := by
  rw [signed_errors_evolution]
  obtain ⟨w, x, y, z, hn, hu⟩ := evolution_quaternion (signedSegments T n v a d) none
  have h := evolution_mirrored hc hs hs2 (signedSegments T n v a d) fun g hg => by
    obtain ⟨i, -, rfl⟩ := List.mem_map.mp hg
    rfl
  rw [signedSegments_mirror hv ha hd, hu] at h
  rw [hu]
  exact su2_axis_pulse hn (mirrorAxis_fixed.mp h)

end OpenControls
