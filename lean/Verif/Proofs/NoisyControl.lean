import Verif.Spec.NoisyControl
import Verif.Proofs.NoisePerturbation
import Verif.Proofs.FiniteWidth
import Mathlib.Analysis.SpecialFunctions.Exponential
import Mathlib.Analysis.Calculus.Deriv.Star
import Mathlib.Analysis.Calculus.MeanValue

/-!
# Solutions of Schrödinger's equation
-/

namespace OpenControls

open Spec Set
open scoped Matrix.Norms.L2Operator

theorem hasRightDeriv_iff {U : ℝ → M2} {U' : M2} {t : ℝ} :
    HasRightDeriv U U' t ↔ HasDerivWithinAt U U' (Ici t) t := by
  constructor
  · intro h
    exact hasDerivWithinAt_pi.mpr fun i => hasDerivWithinAt_pi.mpr fun j => h i j
  · intro h i j
    exact (hasDerivWithinAt_pi.mp (hasDerivWithinAt_pi.mp h i)) j

theorem continuousOn_entries {U : ℝ → M2} {s : Set ℝ} :
    (∀ i j, ContinuousOn (fun t => U t i j) s) ↔ ContinuousOn U s := by
  constructor
  · intro h
    exact continuousOn_pi.mpr fun i => continuousOn_pi.mpr fun j => h i j
  · intro h i j
    exact (continuousOn_pi.mp (continuousOn_pi.mp h i)) j

/-- `U' = B U` on `[a, b]` -/
def Solves (B : ℝ → M2) (a b : ℝ) (U : ℝ → M2) : Prop :=
  ContinuousOn U (Icc a b) ∧ ∀ t ∈ Ico a b, HasDerivWithinAt U (B t * U t) (Ici t) t

theorem Solves.mono {B : ℝ → M2} {a b a' b' : ℝ} {U : ℝ → M2} (h : Solves B a b U) (ha : a ≤ a') (hb : b' ≤ b) :
    Solves B a' b' U :=
  ⟨h.1.mono (Icc_subset_Icc ha hb), fun t ht => h.2 t ⟨ha.trans ht.1, ht.2.trans_le hb⟩⟩

theorem Solves.unitary {B : ℝ → M2} {a b : ℝ} {U : ℝ → M2} (h : Solves B a b U) (hB : ∀ t ∈ Ico a b, star (B t) = -B t)
    (ha : star (U a) * U a = 1) : ∀ t ∈ Icc a b, star (U t) * U t = 1 := by
  intro t ht
  rw [← ha]
  refine constant_of_has_deriv_right_zero (f := fun t => star (U t) * U t) (h.1.star.mul h.1) (fun s hs => ?_) t ht
  have h1 := h.2 s hs
  have h2 := h1.star.mul h1
  refine h2.congr_deriv ?_
  rw [star_mul, hB s hs]
  noncomm_ring

theorem norm_of_isometry {U : M2} (h : star U * U = 1) : ‖U‖ ≤ 1 := by
  have h1 := CStarRing.norm_star_mul_self (x := U)
  rw [h, CStarRing.norm_one] at h1
  nlinarith [norm_nonneg U]

/-- two solutions differ by a constant factor -/
theorem Solves.unique {B : ℝ → M2} {a b : ℝ} {U V : ℝ → M2} (hU : Solves B a b U) (hV : Solves B a b V)
    (hB : ∀ t ∈ Ico a b, star (B t) = -B t) (ha : V a = 1) : ∀ t ∈ Icc a b, U t = V t * U a := by
  intro t ht
  have hu := hV.unitary hB (by rw [ha, star_one, one_mul]) t ht
  have hc : star (V t) * U t = star (V a) * U a := by
    refine constant_of_has_deriv_right_zero (f := fun t => star (V t) * U t) (hV.1.star.mul hU.1) (fun s hs => ?_) t ht
    refine ((hV.2 s hs).star.mul (hU.2 s hs)).congr_deriv ?_
    rw [star_mul, hB s hs]
    noncomm_ring
  rw [ha, star_one, one_mul] at hc
  rw [← hc, ← mul_assoc, mul_eq_one_comm.mp hu, one_mul]

theorem exp_skew_norm {B : M2} (hB : star B = -B) (t : ℝ) : ‖NormedSpace.exp (t • B)‖ ≤ 1 := by
  have h : t • B ∈ skewAdjoint M2 := by
    rw [skewAdjoint.mem_iff, star_smul, hB, smul_neg]
    simp
  letI : NormedAlgebra ℚ M2 := NormedAlgebra.restrictScalars ℚ ℝ M2
  have := NormedSpace.exp_mem_unitary_of_mem_skewAdjoint h
  exact norm_of_isometry (Unitary.star_mul_self_of_mem this)

/-- how far a solution is from the one without the perturbation -/
theorem Solves.near {B₀ : M2} {B N : ℝ → M2} {a b M : ℝ} {U : ℝ → M2} (hU : Solves B a b U) (hab : a ≤ b)
    (hB : ∀ t ∈ Ico a b, B t = B₀ + N t) (h0 : star B₀ = -B₀) (hN : ∀ t ∈ Ico a b, ‖N t‖ ≤ M)
    (hn : ∀ t ∈ Icc a b, ‖U t‖ ≤ 1) : ‖U b - NormedSpace.exp ((b - a) • B₀) * U a‖ ≤ M * (b - a) := by
  have hneg : star (-B₀) = - -B₀ := by rw [star_neg, h0]
  have hE : ∀ t, HasDerivAt (fun t => NormedSpace.exp ((t - a) • -B₀)) (NormedSpace.exp ((t - a) • -B₀) * -B₀) t := by
    intro t
    exact (hasDerivAt_exp_smul_const (-B₀) (t - a)).comp_sub_const t a
  have key := norm_image_sub_le_of_norm_deriv_right_le_segment (a := a) (b := b) (C := M)
    (f := fun t => NormedSpace.exp ((t - a) • -B₀) * U t) (f' := fun t => NormedSpace.exp ((t - a) • -B₀) * (N t * U t))
    ((continuous_iff_continuousAt.mpr fun t => (hE t).continuousAt).continuousOn.mul hU.1) (fun t ht => by
      refine ((hE t).hasDerivWithinAt.mul (hU.2 t ht)).congr_deriv ?_
      rw [hB t ht]
      noncomm_ring) (fun t ht => by
      have h1 := exp_skew_norm hneg (t - a)
      have h2 := hN t ht
      have h3 := hn t ⟨ht.1, ht.2.le⟩
      refine (norm_mul_le _ _).trans ((mul_le_of_le_one_left (norm_nonneg _) h1).trans ?_)
      exact (norm_mul_le _ _).trans ((mul_le_of_le_one_right (norm_nonneg _) h3).trans h2)) b ⟨hab, le_rfl⟩
  have hinv : NormedSpace.exp ((b - a) • B₀) * NormedSpace.exp ((b - a) • -B₀) = 1 := by
    rw [← Matrix.exp_add_of_commute, smul_neg, add_neg_cancel, NormedSpace.exp_zero]
    rw [smul_neg]
    exact (Commute.refl _).neg_right
  have e : U b - NormedSpace.exp ((b - a) • B₀) * U a =
      NormedSpace.exp ((b - a) • B₀) * (NormedSpace.exp ((b - a) • -B₀) * U b - NormedSpace.exp ((a - a) • -B₀) * U a) := by
    rw [mul_sub, ← mul_assoc, hinv, one_mul, sub_self, zero_smul, NormedSpace.exp_zero, one_mul]
  rw [e]
  exact (norm_mul_le _ _).trans ((mul_le_of_le_one_left (norm_nonneg _) (exp_skew_norm h0 _)).trans key)

/-! ## The Hamiltonians of the qubit -/

theorem generator_noise (N : QubitNoise) (t : ℝ) :
    (-Complex.I) • N.at t = su2 0 (N.x t / 2) (N.y t / 2) (N.z t / 2) := by
  ext i j
  fin_cases i <;> fin_cases j <;> simp [su2, QubitNoise.at, σx, σy, σz, Complex.ext_iff] <;> ring_nf <;> simp

theorem generator_drive (Ω φ Δ : ℝ) :
    (-Complex.I) • hamiltonian Ω φ Δ = su2 0 (Ω * Real.cos φ / 2) (Ω * Real.sin φ / 2) (Δ / 2) := by
  ext i j
  fin_cases i <;> fin_cases j <;> simp [su2, hamiltonian, σx, σy, σz, Complex.ext_iff] <;> ring_nf <;> simp <;>
    exact ⟨.inl rfl, .inl rfl⟩

theorem skew_su2 (b c d : ℝ) : star (su2 0 b c d) = -su2 0 b c d := by
  rw [su2_star]
  ext i j
  fin_cases i <;> fin_cases j <;> simp [su2, Complex.ext_iff]

theorem skew_noise (N : QubitNoise) (t : ℝ) : star ((-Complex.I) • N.at t) = -((-Complex.I) • N.at t) := by
  rw [generator_noise, skew_su2]

theorem skew_drive (Ω φ Δ : ℝ) : star ((-Complex.I) • hamiltonian Ω φ Δ) = -((-Complex.I) • hamiltonian Ω φ Δ) := by
  rw [generator_drive, skew_su2]

theorem noise_norm {N : QubitNoise} {T M t : ℝ} (h : N.Bounded T M) (ht : t ∈ Icc 0 T) :
    ‖(-Complex.I) • N.at t‖ ≤ M / 2 := by
  have h1 := h t ht
  have h2 : 0 ≤ √(N.x t ^ 2 + N.y t ^ 2 + N.z t ^ 2) := Real.sqrt_nonneg _
  rw [generator_noise]
  refine le_of_sq_le_sq ?_ (by linarith)
  rw [su2_norm_sq]
  have h3 := Real.sq_sqrt (show 0 ≤ N.x t ^ 2 + N.y t ^ 2 + N.z t ^ 2 by positivity)
  have h4 := pow_le_pow_left₀ h2 h1 2
  rw [h3] at h4
  linarith

theorem exp_drive (Ω φ Δ t : ℝ) : NormedSpace.exp (t • ((-Complex.I) • hamiltonian Ω φ Δ)) = segmentUnitary Ω φ Δ t := by
  unfold segmentUnitary
  congr 1
  ext i j
  simp
  ring

/-! ## Evolution without a control -/

section Free
variable {N : QubitNoise} {T M : ℝ} {free : ℝ → ℝ → M2}

theorem Spec.FreeEvolution.solves (h : FreeEvolution N T free) {a : ℝ} (ha : a ∈ Icc 0 T) :
    Solves (fun t => (-Complex.I) • N.at t) a T (free a) := by
  obtain ⟨-, h2, h3⟩ := h a ha
  refine ⟨continuousOn_entries.mp h2, fun t ht => ?_⟩
  rw [smul_mul_assoc]
  exact hasRightDeriv_iff.mp (h3 t ht)

theorem Spec.FreeEvolution.unitary (h : FreeEvolution N T free) {a b : ℝ} (ha : 0 ≤ a) (hab : a ≤ b) (hb : b ≤ T) :
    star (free a b) * free a b = 1 :=
  (h.solves ⟨ha, hab.trans hb⟩).unitary (fun t _ => skew_noise N t)
    (by rw [(h a ⟨ha, hab.trans hb⟩).1, star_one, one_mul]) b ⟨hab, hb⟩

theorem Spec.FreeEvolution.norm (h : FreeEvolution N T free) {a b : ℝ} (ha : 0 ≤ a) (hab : a ≤ b) (hb : b ≤ T) :
    ‖free a b‖ ≤ 1 := norm_of_isometry (h.unitary ha hab hb)

theorem Spec.FreeEvolution.comp (h : FreeEvolution N T free) {a b c : ℝ} (ha : 0 ≤ a) (hab : a ≤ b) (hbc : b ≤ c)
    (hc : c ≤ T) : free a c = free b c * free a b :=
  ((h.solves ⟨ha, (hab.trans hbc).trans hc⟩).mono hab le_rfl).unique (h.solves ⟨ha.trans hab, hbc.trans hc⟩)
    (fun t _ => skew_noise N t) (h b ⟨ha.trans hab, hbc.trans hc⟩).1 c ⟨hbc, hc⟩

theorem Spec.FreeEvolution.near (h : FreeEvolution N T free) (hN : N.Bounded T M) {a b : ℝ} (ha : 0 ≤ a) (hab : a ≤ b)
    (hb : b ≤ T) : ‖free a b - 1‖ ≤ M / 2 * (b - a) := by
  have := ((h.solves ⟨ha, hab.trans hb⟩).mono le_rfl hb).near hab (B₀ := 0) (N := fun t => (-Complex.I) • N.at t)
    (fun t _ => (zero_add _).symm) (by simp) (fun t ht => noise_norm hN ⟨ha.trans ht.1, ht.2.le.trans hb⟩)
    (fun t ht => h.norm ha ht.1 (ht.2.trans hb))
  rwa [smul_zero, NormedSpace.exp_zero, one_mul, (h a ⟨ha, hab.trans hb⟩).1] at this

end Free

/-! ## Converted sequences -/

variable {T R D m : ℝ}

theorem window_order (hm : 0 ≤ m) {p : Pulse} (h0 : 0 ≤ p.offset) (h1 : p.offset ≤ T) :
    (window T R D m p).1 ≤ p.offset ∧ p.offset ≤ (window T R D m p).2 := by
  have hw := width_nonneg hm R D p
  unfold window
  split
  · rename_i h; simp only [h]; exact ⟨le_rfl, hw⟩
  · split
    · rename_i h; simp only [h]; constructor <;> linarith
    · constructor <;> simp only <;> linarith

theorem fitsFrom_le (hm : 0 ≤ m) (l : List Pulse) (a : ℝ) (h : fitsFrom T R D m a l) : a ≤ T := by
  induction l generalizing a with
  | nil => exact h
  | cons p r ih =>
    have := ih _ h.2
    have h1 := h.1
    have h2 := window_width T R D m p
    have h3 := width_nonneg hm R D p
    linarith

theorem noisy_norm {N : QubitNoise} {free : ℝ → ℝ → M2} (hfree : FreeEvolution N T free) (hm : 0 ≤ m) (l : List Pulse)
    (hl : ∀ p ∈ l, 0 ≤ p.offset ∧ p.offset ≤ T) (a : ℝ) (ha : 0 ≤ a) (h : fitsFrom T R D m a l) :
    ‖noisy free T a l‖ ≤ 1 ∧ ∀ a', 0 ≤ a' → a' ≤ a → noisy free T a' l = noisy free T a l * free a' a := by
  induction l generalizing a with
  | nil => exact ⟨hfree.norm ha h le_rfl, fun a' h0 h1 => hfree.comp h0 h1 h le_rfl⟩
  | cons p r ih =>
    have hp := hl p (by simp)
    obtain ⟨w1, w2⟩ := window_order (T := T) (R := R) (D := D) hm hp.1 hp.2
    have ho := h.1.trans w1
    have hv := fitsFrom_le hm r _ h.2
    obtain ⟨i1, i2⟩ := ih (fun q hq => hl q (by simp [hq])) _ (hp.1.trans w2) h.2
    refine ⟨?_, fun a' h0 h1 => ?_⟩
    · simp only [noisy]
      rw [i2 _ hp.1 w2]
      have k1 := hfree.norm ha ho hp.2
      have k2 := hfree.norm hp.1 w2 hv
      have k3 := (isSU2_pulse p.rabi p.azimuthal p.detuning).norm
      refine (norm_mul_le _ _).trans (mul_le_one₀ ((norm_mul_le _ _).trans (mul_le_one₀ ((norm_mul_le _ _).trans
        (mul_le_one₀ i1 (norm_nonneg _) k2)) (norm_nonneg _) k3)) (norm_nonneg _) k1)
    · simp only [noisy]
      rw [hfree.comp h0 h1 ho hp.2, mul_assoc]
      noncomm_ring

/-- `U` follows the segments of a list from the time `a` on -/
def Follows (N : QubitNoise) (U : ℝ → M2) (a : ℝ) (gs : List (Segment ℝ)) : Prop :=
  ∀ t v, DrivesList gs (t - a) v →
    HasDerivWithinAt U (((-Complex.I) • (hamiltonian v.1 v.2.1 v.2.2 + N.at t)) * U t) (Ici t) t

theorem Follows.step {N : QubitNoise} {U : ℝ → M2} {a b : ℝ} {g : Segment ℝ} {gs : List (Segment ℝ)}
    (h : Follows N U a (keep g ++ gs)) (hg : 0 ≤ g.duration) (hb : a + g.duration = b) :
    (∀ t ∈ Ico a b, HasDerivWithinAt U
      (((-Complex.I) • (hamiltonian g.rabi g.azimuthal g.detuning + N.at t)) * U t) (Ici t) t) ∧ Follows N U b gs := by
  refine ⟨fun t ht => ?_, fun t v hv => ?_⟩
  · exact h t g.value (DrivesList.here (by linarith [ht.1]) (by linarith [ht.2]))
  · refine h t v (DrivesList.skip hg ?_)
    rwa [sub_sub, hb]

theorem hamiltonian_idle : hamiltonian 0 0 0 = 0 := by simp [hamiltonian]

theorem converted_near {N : QubitNoise} {M : ℝ} {free : ℝ → ℝ → M2} (hfree : FreeEvolution N T free)
    (hN : N.Bounded T M) (hR : 0 < R) (hD : 0 < D) (hm : 0 ≤ m) {U : ℝ → M2} (hU : ContinuousOn U (Icc 0 T))
    (l : List Pulse) (hl : ∀ p ∈ l, (0 ≤ p.offset ∧ p.offset ≤ T) ∧ 0 ≤ p.rabi ∧ PurePulse p) (a : ℝ) (ha : 0 ≤ a)
    (hfit : fitsFrom T R D m a l) (hfol : Follows N U a (keptFrom T R D m a l)) (hua : star (U a) * U a = 1) :
    ‖U T - noisy free T a l * U a‖ ≤ M * (l.map (width R D m)).sum := by
  have idle : ∀ {a b : ℝ}, 0 ≤ a → a ≤ b → b ≤ T → (∀ t ∈ Ico a b, HasDerivWithinAt U
      (((-Complex.I) • (hamiltonian 0 0 0 + N.at t)) * U t) (Ici t) t) → U b = free a b * U a := by
    intro a b h0 hab hbT h
    refine Solves.unique (B := fun t => (-Complex.I) • N.at t) (b := b)
      ⟨hU.mono (Icc_subset_Icc h0 hbT), fun t ht => ?_⟩
      ((hfree.solves ⟨h0, hab.trans hbT⟩).mono le_rfl hbT) (fun t _ => skew_noise N t)
      (hfree a ⟨h0, hab.trans hbT⟩).1 b ⟨hab, le_rfl⟩
    have := h t ht
    rwa [hamiltonian_idle, zero_add] at this
  induction l generalizing a with
  | nil =>
    have hfol' : Follows N U a (keep ⟨0, 0, 0, T - a⟩ ++ []) := by simpa [keptFrom] using hfol
    have h1 := (hfol'.step (b := T) (sub_nonneg.mpr hfit) (by simp)).1
    rw [idle ha hfit le_rfl h1]
    simp [noisy]
  | cons p r ih =>
    obtain ⟨hpo, hpr, hpp⟩ := hl p (by simp)
    obtain ⟨w1, w2⟩ := window_order (T := T) (R := R) (D := D) hm hpo.1 hpo.2
    have hww := window_width T R D m p
    have hv := fitsFrom_le hm r _ hfit.2
    have hau := hfit.1
    simp only [keptFrom] at hfol
    obtain ⟨f1, hfol⟩ := hfol.step (b := (window T R D m p).1) (sub_nonneg.mpr hau) (by simp)
    obtain ⟨f2, hfol3⟩ := hfol.step (b := (window T R D m p).2) (width_nonneg hm R D p) (by
      simp only [pulseSeg]; linarith)
    have hfit2 := hfit.2
    set u := (window T R D m p).1
    set v := (window T R D m p).2
    have hu0 : 0 ≤ u := ha.trans hau
    have huv : u ≤ v := w1.trans w2
    have hv0 : 0 ≤ v := hu0.trans huv
    have eu := idle ha hau (huv.trans hv) f1
    have huu : star (U u) * U u = 1 := by
      rw [eu, star_mul]
      have := hfree.unitary ha hau (huv.trans hv)
      calc star (U a) * star (free a u) * (free a u * U a) = star (U a) * (star (free a u) * free a u) * U a := by
            noncomm_ring
        _ = 1 := by rw [this, mul_one, hua]
    have hsol : Solves (fun t => (-Complex.I) • (hamiltonian (pulseSeg R D m p).rabi (pulseSeg R D m p).azimuthal
        (pulseSeg R D m p).detuning + N.at t)) u v U := ⟨hU.mono (Icc_subset_Icc hu0 hv), f2⟩
    have hun := hsol.unitary (fun t _ => by
      rw [smul_add, star_add, skew_drive, skew_noise]; abel) huu
    have hpulse := hsol.near huv (fun t _ => smul_add _ _ _) (skew_drive _ _ _)
      (fun t ht => noise_norm hN ⟨hu0.trans ht.1, ht.2.le.trans hv⟩) (fun t ht => norm_of_isometry (hun t ht))
    have eP : segmentUnitary (pulseSeg R D m p).rabi (pulseSeg R D m p).azimuthal (pulseSeg R D m p).detuning (v - u) =
        pulseUnitary p.rabi p.azimuthal p.detuning := by
      rw [hww, ← realised_pure hpp, ← segmentUnitary_pulseSeg (m := m) hR hD hpr]
      rfl
    rw [exp_drive, eP] at hpulse
    set P := pulseUnitary p.rabi p.azimuthal p.detuning
    have hP : ‖P‖ ≤ 1 := (isSU2_pulse _ _ _).norm
    have hi := ih (fun q hq => hl q (by simp [hq])) v hv0 hfit2 hfol3 (hun v ⟨huv, le_rfl⟩)
    obtain ⟨hA, hs⟩ := noisy_norm hfree hm r (fun q hq => (hl q (by simp [hq])).1) v hv0 hfit2
    have e : noisy free T a (p :: r) * U a = noisy free T v r * (free p.offset v * P * free u p.offset * U u) := by
      simp only [noisy]
      rw [hs _ hpo.1 w2, hfree.comp ha hau w1 hpo.2, eu]
      noncomm_ring
    rw [e]
    set A := noisy free T v r
    have n1 := hfree.near hN hpo.1 w2 hv
    have n2 := hfree.near hN hu0 w1 hpo.2
    have n3 : ‖free p.offset v * P * free u p.offset - 1 * P * 1‖ ≤ ‖free p.offset v - 1‖ + ‖P - P‖ +
        ‖free u p.offset - 1‖ :=
      triple_dist (hfree.norm hpo.1 w2 hv) hP hP (by rw [CStarRing.norm_one])
    rw [sub_self, norm_zero, one_mul, mul_one] at n3
    have hUu := norm_of_isometry huu
    have e2 : U T - A * (free p.offset v * P * free u p.offset * U u) = (U T - A * U v) + A * ((U v - P * U u) -
        (free p.offset v * P * free u p.offset - P) * U u) := by noncomm_ring
    rw [e2, List.map_cons, List.sum_cons]
    refine (norm_add_le _ _).trans ?_
    have k1 : ‖A * ((U v - P * U u) - (free p.offset v * P * free u p.offset - P) * U u)‖ ≤ ‖U v - P * U u‖ +
        ‖free p.offset v * P * free u p.offset - P‖ := by
      refine (norm_mul_le _ _).trans ((mul_le_of_le_one_left (norm_nonneg _) hA).trans ((norm_sub_le _ _).trans ?_))
      gcongr
      exact (norm_mul_le _ _).trans (mul_le_of_le_one_right (norm_nonneg _) hUu)
    rw [← hww]
    linarith

end OpenControls
