import Mathlib.Analysis.SpecialFunctions.Bernstein
import Mathlib.MeasureTheory.Constructions.BorelSpace.Metrizable
import Verif.Props.NoisyControl

/-!
# The evolution depends continuously on the noise
-/

namespace OpenControls

open Spec RealInst MeasureTheory Set
open scoped Matrix.Norms.L2Operator Topology unitInterval

/-- two noises that are close give evolutions that are close -/
theorem follows_stable {N N' : QubitNoise} {gs : List (Segment ℝ)} (h0 : 0 ≤ total gs) {U V : ℝ → M2}
    (hU : ContinuousOn U (Icc 0 (total gs))) (hV : ContinuousOn V (Icc 0 (total gs))) (fU : Follows N U 0 gs)
    (fV : Follows N' V 0 gs) (u0 : U 0 = 1) (v0 : V 0 = 1) {δ : ℝ}
    (hd : ∀ t ∈ Icc 0 (total gs), ‖(-Complex.I) • (N.at t - N'.at t)‖ ≤ δ) :
    ‖U (total gs) - V (total gs)‖ ≤ δ * total gs := by
  have nU : ∀ t ∈ Icc 0 (total gs), ‖U t‖ ≤ 1 := fun t ht =>
    norm_of_isometry (by rw [follows_unique hU hU fU fU t ht, u0]; simp)
  have iV : ∀ t ∈ Icc 0 (total gs), star (V t) * V t = 1 := fun t ht => by
    rw [follows_unique hV hV fV fV t ht, v0]; simp
  have key := norm_image_sub_le_of_norm_deriv_right_le_segment (a := 0) (b := total gs) (C := δ)
    (f := fun t => star (V t) * U t)
    (f' := fun t => star (V t) * (((-Complex.I) • (N.at t - N'.at t)) * U t)) (hV.star.mul hU) (fun s hs => by
      obtain ⟨v, hv⟩ := drivesList_exists hs.1 hs.2
      have h1 := fU s v (by rw [sub_zero]; exact hv)
      have h2 := fV s v (by rw [sub_zero]; exact hv)
      refine (h2.star.mul h1).congr_deriv ?_
      rw [star_mul, skew_total, smul_sub, smul_add, smul_add]
      noncomm_ring) (fun s hs => by
      have hs' : s ∈ Icc 0 (total gs) := ⟨hs.1, hs.2.le⟩
      have hV1 : ‖star (V s)‖ ≤ 1 := by rw [norm_star]; exact norm_of_isometry (iV s hs')
      have hd' := hd s hs'
      have hδ : 0 ≤ δ := (norm_nonneg _).trans hd'
      calc _ ≤ ‖star (V s)‖ * (‖(-Complex.I) • (N.at s - N'.at s)‖ * ‖U s‖) :=
            (norm_mul_le _ _).trans (mul_le_mul_of_nonneg_left (norm_mul_le _ _) (norm_nonneg _))
        _ ≤ 1 * (δ * 1) := by
            refine mul_le_mul hV1 (mul_le_mul hd' (nU s hs') (norm_nonneg _) hδ) (by positivity) zero_le_one
        _ = δ := by ring) (total gs) ⟨h0, le_rfl⟩
  simp only [u0, v0, star_one, one_mul, sub_zero] at key
  have hi := iV (total gs) ⟨h0, le_rfl⟩
  have hi' : V (total gs) * star (V (total gs)) = 1 := mul_eq_one_comm.mp hi
  have e : U (total gs) - V (total gs) = V (total gs) * (star (V (total gs)) * U (total gs) - 1) := by
    rw [mul_sub, ← mul_assoc, hi', one_mul, mul_one]
  rw [e]
  refine (norm_mul_le _ _).trans ?_
  calc _ ≤ 1 * (δ * total gs) := mul_le_mul (norm_of_isometry hi) key (norm_nonneg _) zero_le_one
    _ = _ := one_mul _

/-- dephasing noises -/
theorem dephasing_stable {gs : List (Segment ℝ)} (h0 : 0 ≤ total gs) (name : Option String) {β β' : ℝ → ℝ} {U V : ℝ → M2}
    (hU : NoisyEvolution (ofSegments gs name) ⟨fun _ => 0, fun _ => 0, β⟩ U)
    (hV : NoisyEvolution (ofSegments gs name) ⟨fun _ => 0, fun _ => 0, β'⟩ V) {δ : ℝ}
    (hd : ∀ t ∈ Icc 0 (total gs), |β t - β' t| ≤ δ) : ‖U (total gs) - V (total gs)‖ ≤ δ / 2 * total gs := by
  obtain ⟨u0, u1, u2⟩ := noisyEvolution_follows.mp hU
  obtain ⟨v0, v1, v2⟩ := noisyEvolution_follows.mp hV
  refine follows_stable h0 u1 v1 u2 v2 u0 v0 fun t ht => ?_
  have hb : (⟨fun _ => 0, fun _ => 0, fun t => β t - β' t⟩ : QubitNoise).Bounded (total gs) δ := by
    intro t ht
    simp only [ne_eq, OfNat.ofNat_ne_zero, not_false_eq_true, zero_pow, add_zero, zero_add, Real.sqrt_sq_eq_abs]
    exact hd t ht
  have e : QubitNoise.at ⟨fun _ => 0, fun _ => 0, β⟩ t - QubitNoise.at ⟨fun _ => 0, fun _ => 0, β'⟩ t =
      QubitNoise.at ⟨fun _ => 0, fun _ => 0, fun t => β t - β' t⟩ t := by
    ext i j
    fin_cases i <;> fin_cases j <;> simp [QubitNoise.at, σx, σy, σz] <;> ring
  rw [e]
  exact noise_norm hb ht

theorem returnProbability_continuous : Continuous returnProbability := by
  unfold returnProbability
  exact ((continuous_apply_apply (ρ := fun _ _ => ℂ) (0 : Fin 2) (0 : Fin 2)).norm).pow 2

/-- a polynomial in time with the given values of Bernstein's coefficients -/
noncomputable def bernsteinNoise (L : ℝ) (n : ℕ) (a : Fin (n + 1) → ℝ) (t : ℝ) : ℝ :=
  ∑ k : Fin (n + 1), ((n.choose k : ℝ) * (t / L) ^ (k : ℕ) * (1 - t / L) ^ (n - k)) * a k

theorem bernsteinNoise_continuous (L : ℝ) (n : ℕ) (a : Fin (n + 1) → ℝ) : Continuous (bernsteinNoise L n a) := by
  unfold bernsteinNoise
  fun_prop

theorem bernsteinNoise_eq {L : ℝ} (n : ℕ) (a : Fin (n + 1) → ℝ) {t : ℝ} (τ : I) (ht : t / L = τ) :
    bernsteinNoise L n a t = ∑ k : Fin (n + 1), bernstein n k τ * a k := by
  unfold bernsteinNoise
  simp only [bernstein_apply, ht]

theorem bernsteinNoise_dist {L : ℝ} (hL : 0 < L) (n : ℕ) (a b : Fin (n + 1) → ℝ) {t : ℝ} (ht : t ∈ Icc 0 L) :
    |bernsteinNoise L n a t - bernsteinNoise L n b t| ≤ dist a b := by
  have hτ : t / L ∈ I := ⟨div_nonneg ht.1 hL.le, (div_le_one hL).mpr ht.2⟩
  rw [bernsteinNoise_eq n a ⟨_, hτ⟩ rfl, bernsteinNoise_eq n b ⟨_, hτ⟩ rfl, ← Finset.sum_sub_distrib]
  refine (Finset.abs_sum_le_sum_abs _ _).trans ?_
  calc _ ≤ ∑ k : Fin (n + 1), bernstein n k ⟨_, hτ⟩ * dist a b := Finset.sum_le_sum fun k _ => by
        rw [← mul_sub, abs_mul, abs_of_nonneg bernstein_nonneg]
        exact mul_le_mul_of_nonneg_left (dist_le_pi_dist a b k) bernstein_nonneg
    _ = dist a b := by rw [← Finset.sum_mul, bernstein.probability, one_mul]

theorem bernsteinNoise_tendsto {L : ℝ} (hL : 0 < L) {β : ℝ → ℝ} (hβ : Continuous β) :
    ∃ δ : ℕ → ℝ, Filter.Tendsto δ Filter.atTop (𝓝 0) ∧ ∀ n, ∀ t ∈ Icc 0 L,
      |bernsteinNoise L n (fun k => β (L * (bernstein.z k : ℝ))) t - β t| ≤ δ n := by
  let f : C(I, ℝ) := ⟨fun τ => β (L * τ), by fun_prop⟩
  have h := bernsteinApproximation_uniform f
  refine ⟨fun n => dist (bernsteinApproximation n f) f, (tendsto_iff_dist_tendsto_zero).mp h, fun n t ht => ?_⟩
  have hτ : t / L ∈ I := ⟨div_nonneg ht.1 hL.le, (div_le_one hL).mpr ht.2⟩
  have := ContinuousMap.dist_apply_le_dist (f := bernsteinApproximation n f) (g := f) ⟨_, hτ⟩
  rw [Real.dist_eq, bernsteinApproximation.apply] at this
  rw [bernsteinNoise_eq n _ ⟨_, hτ⟩ rfl]
  have e : f ⟨t / L, hτ⟩ = β t := by
    show β (L * (t / L)) = β t
    congr 1
    field_simp
  rw [e] at this
  exact this

/-- functions of the evolution are random variables -/
theorem evolution_measurable {Ω : Type} [MeasurableSpace Ω] {β : Ω → ℝ → ℝ} (hc : ∀ x, Continuous (β x))
    (hm : ∀ t, Measurable fun x => β x t) {gs : List (Segment ℝ)} (hg : ∀ g ∈ gs, 0 < g.duration)
    (name : Option String) {F : M2 → ℝ} (hF : Continuous F) {U : Ω → ℝ → M2}
    (hU : ∀ x, NoisyEvolution (ofSegments gs name) ⟨fun _ => 0, fun _ => 0, β x⟩ (U x)) :
    Measurable fun x => F (U x (total gs)) := by
  rcases (total_nonneg hg).eq_or_lt with h0 | h0
  · have e : ∀ x, U x (total gs) = 1 := fun x => by rw [← h0]; exact (hU x).1
    simp only [e, measurable_const]
  have hex : ∀ (n : ℕ) (a : Fin (n + 1) → ℝ), ∃ V, NoisyEvolution (ofSegments gs name)
      ⟨fun _ => 0, fun _ => 0, bernsteinNoise (total gs) n a⟩ V := by
    intro n a
    obtain ⟨V, h1, h2, h3⟩ := follows_exists (QubitNoise.continuous (N := ⟨fun _ => 0, fun _ => 0,
      bernsteinNoise (total gs) n a⟩) continuous_const continuous_const (bernsteinNoise_continuous _ n a)) hg 0 (V := 1) (by simp)
    rw [zero_add] at h2
    exact ⟨V, noisyEvolution_follows.mpr ⟨h1, h2, h3⟩⟩
  choose V hV using hex
  have hcont : ∀ n, Continuous fun a => V n a (total gs) := by
    intro n
    refine LipschitzWith.continuous (K := ⟨total gs / 2, by positivity⟩) (LipschitzWith.of_dist_le_mul fun a b => ?_)
    rw [dist_eq_norm]
    refine (dephasing_stable h0.le name (hV n a) (hV n b) fun t ht => bernsteinNoise_dist h0 n a b ht).trans (le_of_eq ?_)
    show _ = total gs / 2 * dist a b
    ring
  refine measurable_of_tendsto_metrizable (f := fun n x => F
    (V n (fun k => β x (total gs * (bernstein.z k : ℝ))) (total gs))) (fun n => ?_) ?_
  · exact (hF.comp (hcont n)).measurable.comp (measurable_pi_lambda _ fun k => hm _)
  · rw [tendsto_pi_nhds]
    intro x
    refine (hF.tendsto _).comp ?_
    obtain ⟨δ, hδ, hb⟩ := bernsteinNoise_tendsto h0 (hc x)
    rw [tendsto_iff_norm_sub_tendsto_zero]
    refine squeeze_zero (fun _ => norm_nonneg _) (fun n => dephasing_stable h0.le name (hV n _) (hU x) (hb n)) ?_
    simpa using (hδ.div_const 2).mul_const (total gs)

/-- bounded functions of the evolution are integrable -/
theorem evolution_integrable {Ω : Type} [MeasurableSpace Ω] {P : Measure Ω} [IsFiniteMeasure P] {β : Ω → ℝ → ℝ}
    (hc : ∀ x, Continuous (β x))
    (hm : ∀ t, Measurable fun x => β x t) {gs : List (Segment ℝ)} (hg : ∀ g ∈ gs, 0 < g.duration)
    (name : Option String) {F : M2 → ℝ} (hF : Continuous F) {C : ℝ}
    (hC : ∀ A : M2, ‖A‖ ≤ 1 → |F A| ≤ C) {U : Ω → ℝ → M2}
    (hU : ∀ x, NoisyEvolution (ofSegments gs name) ⟨fun _ => 0, fun _ => 0, β x⟩ (U x)) :
    Integrable (fun x => F (U x (total gs))) P := by
  refine (integrable_const C).mono' (evolution_measurable hc hm hg name hF hU).aestronglyMeasurable
    (Filter.Eventually.of_forall fun x => ?_)
  obtain ⟨u0, u1, u2⟩ := noisyEvolution_follows.mp (hU x)
  have hi : star (U x (total gs)) * U x (total gs) = 1 := by
    rw [follows_unique u1 u1 u2 u2 _ ⟨total_nonneg hg, le_rfl⟩, u0]; simp
  rw [Real.norm_eq_abs]
  exact hC _ (norm_of_isometry hi)

end OpenControls
