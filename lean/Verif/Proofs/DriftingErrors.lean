import Verif.Spec.DriftingErrors
import Verif.Proofs.NoisySegments
import Verif.Proofs.ResidualError

/-!
# Schrödinger's equation with errors that change
-/

namespace OpenControls

open Spec Set
open scoped Matrix.Norms.L2Operator

/-! ## Generators that depend on the time and on the values of the control -/

/-- `U` follows the segments of a list from the time `a` on -/
def Obeys (G : ℝ → ℝ × ℝ × ℝ → M2) (U : ℝ → M2) (a : ℝ) (gs : List (Segment ℝ)) : Prop :=
  ∀ t v, DrivesList gs (t - a) v → HasDerivWithinAt U (G t v * U t) (Ici t) t

theorem Obeys.step {G : ℝ → ℝ × ℝ × ℝ → M2} {U : ℝ → M2} {a : ℝ} {g : Segment ℝ} {gs : List (Segment ℝ)}
    (h : Obeys G U a (g :: gs)) (hg : 0 < g.duration) :
    (∀ t ∈ Ico a (a + g.duration), HasDerivWithinAt U (G t g.value * U t) (Ici t) t) ∧ Obeys G U (a + g.duration) gs := by
  refine ⟨fun t ht => h t g.value (DrivesList.head (by linarith [ht.1]) (by linarith [ht.2])), fun t v hv => ?_⟩
  refine h t v (DrivesList.tail ?_)
  rwa [sub_sub]

theorem obeys_exists {G : ℝ → ℝ × ℝ × ℝ → M2} (hc : ∀ v, Continuous fun t => G t v) (hs : ∀ t v, star (G t v) = -G t v)
    {gs : List (Segment ℝ)} (hg : ∀ g ∈ gs, 0 < g.duration) (a : ℝ) {V : M2} (hV : star V * V = 1) :
    ∃ U, U a = V ∧ ContinuousOn U (Icc a (a + total gs)) ∧ Obeys G U a gs := by
  induction gs generalizing a V with
  | nil =>
    refine ⟨fun _ => V, rfl, continuousOn_const, fun t v h => ?_⟩
    obtain ⟨k, g, h, -⟩ := h
    simp at h
  | cons g gs ih =>
    have hg0 := hg g (by simp)
    have hb : a ≤ a + g.duration := by linarith
    obtain ⟨U, hU, hUs⟩ := solves_exists hb (B := fun t => G t g.value) (hc g.value).continuousOn
      (fun t _ => hs t g.value) hV
    have hu := hUs.unitary (fun t _ => hs t g.value) (by rw [hU, hV]) _ ⟨hb, le_rfl⟩
    obtain ⟨W, hW, hWc, hWf⟩ := ih (fun x hx => hg x (by simp [hx])) (a + g.duration) hu
    have ht := total_nonneg (gs := gs) fun x hx => hg x (by simp [hx])
    classical
    set Z : ℝ → M2 := fun t => if t ≤ a + g.duration then U t else W t with hZ
    have z1 : ∀ t, t ≤ a + g.duration → Z t = U t := fun t h => if_pos h
    have z2 : ∀ t, a + g.duration ≤ t → Z t = W t := by
      intro t h
      by_cases h' : t ≤ a + g.duration
      · rw [z1 t h', le_antisymm h' h, hW]
      · exact if_neg h'
    refine ⟨Z, by rw [z1 a hb, hU], ?_, fun t v hv => ?_⟩
    · rw [total_cons, ← add_assoc, ← Icc_union_Icc_eq_Icc hb (show a + g.duration ≤ a + g.duration + total gs by linarith)]
      exact (hUs.1.congr fun t h => z1 t h.2).union_of_isClosed (hWc.congr fun t h => z2 t h.1) isClosed_Icc isClosed_Icc
    · rcases drivesList_cons hg hv with ⟨h1, h2, rfl⟩ | ⟨h1, h2, h3⟩
      · have htm : t ∈ Ico a (a + g.duration) := ⟨by linarith, by linarith⟩
        rw [z1 t htm.2.le]
        refine (hUs.2 t htm).congr_of_eventuallyEq ?_ (z1 t htm.2.le)
        filter_upwards [Icc_mem_nhdsGE_of_mem htm] with s hs using z1 s hs.2
      · have htm : a + g.duration ≤ t := by linarith
        rw [z2 t htm]
        rw [sub_sub] at h3
        refine (hWf t v h3).congr_of_eventuallyEq ?_ (z2 t htm)
        filter_upwards [self_mem_nhdsWithin] with s hs using z2 s (htm.trans hs)

theorem obeys_unique {G : ℝ → ℝ × ℝ × ℝ → M2} (hs : ∀ t v, star (G t v) = -G t v) {gs : List (Segment ℝ)} {U V : ℝ → M2}
    (hU : ContinuousOn U (Icc 0 (total gs))) (hV : ContinuousOn V (Icc 0 (total gs))) (fU : Obeys G U 0 gs)
    (fV : Obeys G V 0 gs) : ∀ t ∈ Icc 0 (total gs), star (V t) * U t = star (V 0) * U 0 := by
  refine constant_of_has_deriv_right_zero (f := fun t => star (V t) * U t) (hV.star.mul hU) fun s h => ?_
  obtain ⟨v, hv⟩ := drivesList_exists h.1 h.2
  have h1 := fU s v (by rw [sub_zero]; exact hv)
  have h2 := fV s v (by rw [sub_zero]; exact hv)
  refine (h2.star.mul h1).congr_deriv ?_
  rw [star_mul, hs]
  noncomm_ring

/-- two solutions with different generators -/
theorem Solves.apart {B B' : ℝ → M2} {a b K : ℝ} {U V : ℝ → M2} (hU : Solves B a b U) (hV : Solves B' a b V) (hab : a ≤ b)
    (hB' : ∀ t ∈ Ico a b, star (B' t) = -B' t) (hK : ∀ t ∈ Ico a b, ‖B t - B' t‖ ≤ K)
    (hu : ∀ t ∈ Icc a b, ‖U t‖ ≤ 1) (hv : ∀ t ∈ Icc a b, star (V t) * V t = 1) :
    ‖U b - V b‖ ≤ ‖U a - V a‖ + K * (b - a) := by
  have nv : ∀ t ∈ Icc a b, ‖V t‖ ≤ 1 := fun t ht => norm_of_isometry (hv t ht)
  have key := norm_image_sub_le_of_norm_deriv_right_le_segment (a := a) (b := b) (C := K)
    (f := fun t => star (V t) * U t) (f' := fun t => star (V t) * ((B t - B' t) * U t)) (hV.1.star.mul hU.1)
    (fun t ht => by
      refine ((hV.2 t ht).star.mul (hU.2 t ht)).congr_deriv ?_
      rw [star_mul, hB' t ht]
      noncomm_ring)
    (fun t ht => by
      have h1 := nv t ⟨ht.1, ht.2.le⟩
      have h2 := hu t ⟨ht.1, ht.2.le⟩
      rw [← norm_star] at h1
      refine (norm_mul_le _ _).trans ((mul_le_of_le_one_left (norm_nonneg _) h1).trans ?_)
      exact (norm_mul_le _ _).trans ((mul_le_of_le_one_right (norm_nonneg _) h2).trans (hK t ht))) b ⟨hab, le_rfl⟩
  have ea : star (V a) * U a - 1 = star (V a) * (U a - V a) := by rw [mul_sub, hv a ⟨le_rfl, hab⟩]
  have eb : U b - V b = V b * (star (V b) * U b - 1) := by
    rw [mul_sub, ← mul_assoc, mul_eq_one_comm.mp (hv b ⟨hab, le_rfl⟩), one_mul, mul_one]
  have na : ‖star (V a) * U a - 1‖ ≤ ‖U a - V a‖ := by
    rw [ea]
    refine (norm_mul_le _ _).trans (mul_le_of_le_one_left (norm_nonneg _) ?_)
    rw [norm_star]
    exact nv a ⟨le_rfl, hab⟩
  rw [eb]
  refine (norm_mul_le _ _).trans ((mul_le_of_le_one_left (norm_nonneg _) (nv b ⟨hab, le_rfl⟩)).trans ?_)
  have := norm_sub_le_norm_sub_add_norm_sub (star (V b) * U b) (star (V a) * U a) 1
  linarith

/-- ... along all segments of a control -/
theorem obeys_apart {G G' : ℝ → ℝ × ℝ × ℝ → M2} (hs : ∀ t v, star (G t v) = -G t v) (hs' : ∀ t v, star (G' t v) = -G' t v)
    {k : ℝ × ℝ × ℝ → ℝ} {gs : List (Segment ℝ)} (hg : ∀ g ∈ gs, 0 < g.duration) (a : ℝ) {U V : ℝ → M2}
    (hk : ∀ g ∈ gs, ∀ t ∈ Ico a (a + total gs), ‖G t g.value - G' t g.value‖ ≤ k g.value)
    (hU : ContinuousOn U (Icc a (a + total gs))) (hV : ContinuousOn V (Icc a (a + total gs)))
    (fU : Obeys G U a gs) (fV : Obeys G' V a gs) (uU : star (U a) * U a = 1) (uV : star (V a) * V a = 1) :
    ‖U (a + total gs) - V (a + total gs)‖ ≤ ‖U a - V a‖ + (gs.map fun g => k g.value * g.duration).sum := by
  induction gs generalizing a with
  | nil => simp [total]
  | cons g gs ih =>
    have hg0 := hg g (by simp)
    have ht := total_nonneg (gs := gs) fun x hx => hg x (by simp [hx])
    have hb : a ≤ a + g.duration := by linarith
    have hbc : a + g.duration + total gs = a + total (g :: gs) := by rw [total_cons]; ring
    obtain ⟨fU1, fU2⟩ := fU.step hg0
    obtain ⟨fV1, fV2⟩ := fV.step hg0
    have sU : Solves (fun t => G t g.value) a (a + g.duration) U :=
      ⟨hU.mono (Icc_subset_Icc le_rfl (by linarith)), fU1⟩
    have sV : Solves (fun t => G' t g.value) a (a + g.duration) V :=
      ⟨hV.mono (Icc_subset_Icc le_rfl (by linarith)), fV1⟩
    have iU := sU.unitary (fun t _ => hs t _) uU
    have iV := sV.unitary (fun t _ => hs' t _) uV
    have h1 := sU.apart sV hb (fun t _ => hs' t _)
      (fun t h => hk g (by simp) t ⟨h.1, by linarith [h.2]⟩) (fun t h => norm_of_isometry (iU t h)) iV
    have h2 := ih (fun x hx => hg x (by simp [hx])) (a + g.duration)
      (fun x hx t h => hk x (by simp [hx]) t ⟨by linarith [h.1], by linarith [h.2]⟩)
      (hU.mono (Icc_subset_Icc hb hbc.le)) (hV.mono (Icc_subset_Icc hb hbc.le)) fU2 fV2
      (iU _ ⟨hb, le_rfl⟩) (iV _ ⟨hb, le_rfl⟩)
    rw [hbc] at h2
    rw [List.map_cons, List.sum_cons]
    rw [add_sub_cancel_left] at h1
    linarith

/-! ## The errors of the hardware -/

theorem skew_errors (e : DriftingErrors) (t : ℝ) (v : ℝ × ℝ × ℝ) :
    star ((-Complex.I) • e.hamiltonian t v) = -((-Complex.I) • e.hamiltonian t v) := skew_drive _ _ _

theorem errors_continuous {e : DriftingErrors} (ha : Continuous e.amplitude) (hp : Continuous e.phase)
    (hd : Continuous e.detuning) (v : ℝ × ℝ × ℝ) : Continuous fun t => (-Complex.I) • e.hamiltonian t v := by
  unfold DriftingErrors.hamiltonian hamiltonian
  have h : ∀ f : ℝ → ℝ, Continuous f → Continuous fun t => (f t : ℂ) := fun f hf => Complex.continuous_ofReal.comp hf
  have h1 := h (fun t => (1 + e.amplitude t) * v.1 * Real.cos (v.2.1 + e.phase t)) (by fun_prop)
  have h2 := h (fun t => (1 + e.amplitude t) * v.1 * Real.sin (v.2.1 + e.phase t)) (by fun_prop)
  have h3 := h (fun t => v.2.2 + e.detuning t) (by fun_prop)
  fun_prop

theorem errant_obeys {gs : List (Segment ℝ)} {name : Option String} {e : DriftingErrors} {U : ℝ → M2} :
    ErrantEvolution (ofSegments gs name) e U ↔ U 0 = 1 ∧ ContinuousOn U (Icc 0 (total gs)) ∧
      Obeys (fun t v => (-Complex.I) • e.hamiltonian t v) U 0 gs := by
  unfold ErrantEvolution
  rw [continuousOn_entries]
  have eq : (ofSegments gs name).durations.sum = total gs := rfl
  rw [eq]
  refine and_congr_right fun _ => and_congr_right fun _ => ⟨fun h t v hv => ?_, fun h t v hv => ?_⟩
  · rw [sub_zero] at hv
    have := hasRightDeriv_iff.mp (h t v (drivesAt_ofSegments gs name t v hv))
    rwa [← smul_mul_assoc] at this
  · have := h t v (by rw [sub_zero]; exact drivesList_ofSegments hv)
    rw [hasRightDeriv_iff, ← smul_mul_assoc]
    exact this

/-- how far two Hamiltonians of the drive are apart -/
theorem drive_distance (Ω Ω' φ φ' Δ Δ' : ℝ) :
    ‖(-Complex.I) • hamiltonian Ω φ Δ - (-Complex.I) • hamiltonian Ω' φ' Δ'‖ ≤
      (|Ω - Ω'| + |Ω'| * |φ - φ'| + |Δ - Δ'|) / 2 := by
  have e : (-Complex.I) • hamiltonian Ω φ Δ - (-Complex.I) • hamiltonian Ω' φ' Δ' =
      su2 0 ((Ω - Ω') * Real.cos φ / 2) ((Ω - Ω') * Real.sin φ / 2) ((Δ - Δ') / 2) +
        su2 0 (Ω' * (Real.cos φ - Real.cos φ') / 2) (Ω' * (Real.sin φ - Real.sin φ') / 2) 0 := by
    rw [generator_drive, generator_drive]
    ext i j
    fin_cases i <;> fin_cases j <;> simp [su2, Complex.ext_iff] <;> ring_nf <;> simp
  rw [e]
  have n1 : ‖su2 0 ((Ω - Ω') * Real.cos φ / 2) ((Ω - Ω') * Real.sin φ / 2) ((Δ - Δ') / 2)‖ ≤ (|Ω - Ω'| + |Δ - Δ'|) / 2 := by
    refine le_of_sq_le_sq ?_ (by positivity)
    rw [su2_norm_sq]
    have := Real.sin_sq_add_cos_sq φ
    have h1 := sq_abs (Ω - Ω')
    have h2 := sq_abs (Δ - Δ')
    have h3 := mul_nonneg (abs_nonneg (Ω - Ω')) (abs_nonneg (Δ - Δ'))
    have h4 : (Ω - Ω') ^ 2 * (Real.sin φ ^ 2 + Real.cos φ ^ 2) = (Ω - Ω') ^ 2 := by rw [this, mul_one]
    nlinarith
  have n2 : ‖su2 0 (Ω' * (Real.cos φ - Real.cos φ') / 2) (Ω' * (Real.sin φ - Real.sin φ') / 2) 0‖ ≤
      |Ω'| * |φ - φ'| / 2 := by
    refine le_of_sq_le_sq ?_ (by positivity)
    rw [su2_norm_sq]
    have h1 := sq_abs Ω'
    have h2 := sq_abs (φ - φ')
    have h3 : (Real.cos φ - Real.cos φ') ^ 2 + (Real.sin φ - Real.sin φ') ^ 2 ≤ (φ - φ') ^ 2 := by
      have c1 := Real.one_sub_sq_div_two_le_cos (x := φ - φ')
      rw [Real.cos_sub] at c1
      have c2 := Real.sin_sq_add_cos_sq φ
      have c3 := Real.sin_sq_add_cos_sq φ'
      nlinarith
    have h4 := mul_le_mul_of_nonneg_left h3 (sq_nonneg Ω')
    have h5 : (|Ω'| * |φ - φ'| / 2) ^ 2 = Ω' ^ 2 * (φ - φ') ^ 2 / 4 := by rw [← h1, ← h2]; ring
    rw [h5]
    nlinarith
  have := norm_add_le (su2 0 ((Ω - Ω') * Real.cos φ / 2) ((Ω - Ω') * Real.sin φ / 2) ((Δ - Δ') / 2))
    (su2 0 (Ω' * (Real.cos φ - Real.cos φ') / 2) (Ω' * (Real.sin φ - Real.sin φ') / 2) 0)
  linarith

/-! ## Constant errors -/

/-- a segment on hardware with constant errors -/
def errantSegment (a p d : ℝ) (g : Segment ℝ) : Segment ℝ :=
  ⟨(1 + a) * g.rabi, g.azimuthal + p, g.detuning + d, g.duration⟩

theorem ofSegments_errors (a p d : ℝ) (gs : List (Segment ℝ)) (name : Option String) :
    withAmplitudeError a (withPhaseError p (withDetuningError d (ofSegments gs name))) =
      ofSegments (gs.map (errantSegment a p d)) name := by
  simp [withAmplitudeError, withPhaseError, withDetuningError, ofSegments, errantSegment, Function.comp_def]

theorem obeys_constant {a p d : ℝ} {U : ℝ → M2} {gs : List (Segment ℝ)} (hg : ∀ g ∈ gs, 0 < g.duration)
    (name : Option String) (s : ℝ) (hU : ContinuousOn U (Icc s (s + total gs)))
    (hf : Obeys (fun t v => (-Complex.I) • (⟨fun _ => a, fun _ => p, fun _ => d⟩ : DriftingErrors).hamiltonian t v) U s gs)
    (uU : star (U s) * U s = 1) :
    U (s + total gs) = evolution (ofSegments (gs.map (errantSegment a p d)) name) * U s := by
  induction gs generalizing s with
  | nil => simp [total, evolution, ofSegments, controlEvolution]
  | cons g gs ih =>
    have hg0 := hg g (by simp)
    have ht := total_nonneg (gs := gs) fun x hx => hg x (by simp [hx])
    have hb : s ≤ s + g.duration := by linarith
    have hbc : s + g.duration + total gs = s + total (g :: gs) := by rw [total_cons]; ring
    obtain ⟨f1, f2⟩ := hf.step hg0
    have sU : Solves (fun _ => (-Complex.I) • hamiltonian ((1 + a) * g.rabi) (g.azimuthal + p) (g.detuning + d)) s
      (s + g.duration) U := ⟨hU.mono (Icc_subset_Icc le_rfl (by linarith)), f1⟩
    have iU := sU.unitary (fun t _ => skew_drive _ _ _) uU
    have i := ih (fun x hx => hg x (by simp [hx])) (s + g.duration) (hU.mono (Icc_subset_Icc hb hbc.le)) f2
      (iU _ ⟨hb, le_rfl⟩)
    have := sU.near hb (B₀ := (-Complex.I) • hamiltonian ((1 + a) * g.rabi) (g.azimuthal + p) (g.detuning + d))
      (N := fun _ => 0) (M := 0) (fun t _ => by rw [add_zero]) (skew_drive _ _ _) (fun _ _ => by simp)
      (fun t h => norm_of_isometry (iU t h))
    rw [zero_mul, norm_le_zero_iff, sub_eq_zero, exp_drive] at this
    rw [← hbc, i, this, List.map_cons, evolution_ofSegments_cons, add_sub_cancel_left, mul_assoc]
    rfl

/-! ## Amplitude errors alone: only their averages matter -/

/-- a list of segments with the averages of the relative error in the Rabi rates -/
noncomputable def averagedSegments (a : ℝ → ℝ) : ℝ → List (Segment ℝ) → List (Segment ℝ)
  | _, [] => []
  | s, g :: gs => ⟨(1 + (∫ x in s..s + g.duration, a x) / g.duration) * g.rabi, g.azimuthal, g.detuning, g.duration⟩ ::
      averagedSegments a (s + g.duration) gs

theorem ofSegments_averaged (a : ℝ → ℝ) (gs : List (Segment ℝ)) (name : Option String) :
    withAveragedError a (ofSegments gs name) = ofSegments (averagedSegments a 0 gs) name := by
  have h : ∀ s, averagedRates a s (gs.map Segment.rabi) (gs.map Segment.duration) =
        (averagedSegments a s gs).map Segment.rabi ∧
      gs.map Segment.azimuthal = (averagedSegments a s gs).map Segment.azimuthal ∧
      gs.map Segment.detuning = (averagedSegments a s gs).map Segment.detuning ∧
      gs.map Segment.duration = (averagedSegments a s gs).map Segment.duration := by
    induction gs with
    | nil => intro s; simp [averagedRates, averagedSegments]
    | cons g gs ih =>
      intro s
      obtain ⟨h1, h2, h3, h4⟩ := ih (s + g.duration)
      refine ⟨?_, ?_, ?_, ?_⟩ <;> simp only [List.map_cons, averagedRates, averagedSegments, h1, ← h2, ← h3, ← h4]
  obtain ⟨h1, h2, h3, h4⟩ := h 0
  simp only [withAveragedError, ofSegments, DrivenControl.mk.injEq, and_true]
  exact ⟨h1, h2, h3, h4⟩

theorem obeys_averaged {a : ℝ → ℝ} (ha : Continuous a) {U : ℝ → M2} {gs : List (Segment ℝ)}
    (hg : ∀ g ∈ gs, 0 < g.duration) (hd : ∀ g ∈ gs, g.detuning = 0)
    (name : Option String) (s : ℝ) (hU : ContinuousOn U (Icc s (s + total gs)))
    (hf : Obeys (fun t v => (-Complex.I) • (⟨a, fun _ => 0, fun _ => 0⟩ : DriftingErrors).hamiltonian t v) U s gs) :
    U (s + total gs) = evolution (ofSegments (averagedSegments a s gs) name) * U s := by
  induction gs generalizing s with
  | nil => simp [total, evolution, ofSegments, controlEvolution, averagedSegments]
  | cons g gs ih =>
    have hg0 := hg g (by simp)
    have ht := total_nonneg (gs := gs) fun x hx => hg x (by simp [hx])
    have hb : s ≤ s + g.duration := by linarith
    have hbc : s + g.duration + total gs = s + total (g :: gs) := by rw [total_cons]; ring
    obtain ⟨f1, f2⟩ := hf.step hg0
    have i := ih (fun x hx => hg x (by simp [hx])) (fun x hx => hd x (by simp [hx])) (s + g.duration)
      (hU.mono (Icc_subset_Icc hb hbc.le)) f2
    set B₀ : M2 := (-Complex.I) • hamiltonian g.rabi g.azimuthal 0 with hB₀
    have eB : ∀ x : ℝ, (-Complex.I) • hamiltonian (x * g.rabi) g.azimuthal 0 = x • B₀ := by
      intro x
      rw [hB₀, generator_drive, generator_drive]
      ext i j
      fin_cases i <;> fin_cases j <;> simp [su2, Complex.ext_iff] <;> refine ⟨?_, ?_⟩ <;> ring
    have sU : Solves (fun t => (1 + a t) • B₀) s (s + g.duration) U := by
      refine ⟨hU.mono (Icc_subset_Icc le_rfl (by linarith)), fun t h => ?_⟩
      have := f1 t h
      simp only [DriftingErrors.hamiltonian, Segment.value, hd g (by simp), add_zero] at this
      rwa [eB] at this
    have hV : ∀ t, HasDerivAt (fun b => NormedSpace.exp ((∫ x in s..b, (1 + a x)) • B₀))
        ((1 + a t) • B₀ * NormedSpace.exp ((∫ x in s..t, (1 + a x)) • B₀)) t := by
      intro t
      have h1 : HasDerivAt (fun b => ∫ x in s..b, (1 + a x)) (1 + a t) t :=
        ((continuous_const.add ha).integral_hasStrictDerivAt s t).hasDerivAt
      have h2 := (hasDerivAt_exp_smul_const' (𝕂 := ℝ) B₀ (∫ x in s..t, (1 + a x))).scomp t h1
      refine h2.congr_deriv ?_
      exact (smul_mul_assoc (1 + a t) B₀ _).symm
    have sV : Solves (fun t => (1 + a t) • B₀) s (s + g.duration)
        (fun b => NormedSpace.exp ((∫ x in s..b, (1 + a x)) • B₀)) :=
      ⟨fun t _ => (hV t).continuousAt.continuousWithinAt, fun t _ => (hV t).hasDerivWithinAt⟩
    have u := sU.unique sV (fun t _ => by
      rw [← eB]
      exact skew_drive _ _ _) (by simp) (s + g.duration) ⟨hb, le_rfl⟩
    have eI : (∫ x in s..s + g.duration, (1 + a x)) • B₀ = g.duration •
        ((-Complex.I) • hamiltonian ((1 + (∫ x in s..s + g.duration, a x) / g.duration) * g.rabi) g.azimuthal 0) := by
      rw [eB, smul_smul, intervalIntegral.integral_add (by simp) (ha.intervalIntegrable _ _)]
      congr 1
      simp
      field_simp
    rw [eI, exp_drive] at u
    rw [← hbc, i, u, averagedSegments, evolution_ofSegments_cons, mul_assoc, hd g (by simp)]

end OpenControls
