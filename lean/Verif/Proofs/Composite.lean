import Verif.Proofs.Rotation
import Verif.Spec.Outcome
import Verif.Model.DrivenPredefined
import Mathlib.Analysis.Real.Pi.Bounds

/-!
# The composite-pulse constructors at exact arithmetic
-/

namespace OpenControls

open Spec RealInst

theorem Spec.AcceptsExactly.congr {β : Type} {call : Except PyErr β} {P Q : Prop} {c : β}
    (h : AcceptsExactly call P c) (hPQ : P ↔ Q) : AcceptsExactly call Q c := by
  rwa [propext hPQ] at h

theorem Spec.AcceptsExactly.iff {β : Type} {call : Except PyErr β} {P : Prop} {c : β}
    (h : AcceptsExactly call P c) : (∃ c', call = .ok c') ↔ P := by
  constructor
  · rintro ⟨c', hc⟩
    by_contra hP
    obtain ⟨d, hd⟩ := h.2 hP
    rw [hc] at hd; cases hd
  · intro hP; exact ⟨c, h.1 hP⟩

theorem Spec.AcceptsExactly.ok {β : Type} {call : Except PyErr β} {P : Prop} {c c' : β}
    (h : AcceptsExactly call P c) (hc : call = .ok c') : P ∧ c' = c := by
  have hP : P := h.iff.mp ⟨c', hc⟩
  refine ⟨hP, ?_⟩
  have := h.1 hP
  rw [hc] at this
  injection this

/-- A validation in front of a call. -/
theorem Spec.AcceptsExactly.check {β : Type} {call : Except PyErr β} {P Q : Prop} {c : β} {b : Bool}
    {d : String} (hb : b = true ↔ Q) (h : Q → AcceptsExactly call P c) :
    AcceptsExactly (checkArguments b d >>= fun _ => call) (Q ∧ P) c := by
  rw [checkArguments_bind]
  by_cases hQ : Q
  · rw [if_pos (hb.mpr hQ)]
    exact (h hQ).congr ⟨fun hP => ⟨hQ, hP⟩, fun hP => hP.2⟩
  · rw [if_neg (fun hh => hQ (hb.mp hh))]
    exact ⟨fun hP => absurd hP.1 hQ, fun _ => ⟨_, rfl⟩⟩

theorem new_ofTable' {Ω : ℝ} (hΩ : 0 < Ω) (table : List (ℝ × ℝ)) (name : Option String)
    (durations rates azimuths detunings : List ℝ)
    (hd : durations = table.map fun p => p.1 / Ω) (hr : rates = table.map fun _ => Ω)
    (ha : azimuths = table.map fun p => p.2) (hdet : detunings = table.map fun _ => 0) :
    AcceptsExactly
      (DrivenControl.new durations (some rates) (some azimuths) (some detunings) name)
      (∀ p ∈ table, 0 < p.1) (ofTable Ω table name) :=
  new_ofTable hΩ table name durations rates azimuths detunings hd hr ha hdet

theorem validate_bind {β : Type} (θ Ω : ℝ) (f : Unit → Except PyErr β) :
    (validateRabiParameters θ Ω >>= f) =
      (checkArguments (Py.gt Ω (PyFloat.lit 0))
        "Maximum rabi angular frequency should be greater than zero." >>= fun _ =>
        (checkArguments (Py.ne θ (PyFloat.lit 0)) "The rabi rotation must be non-zero." >>= f)) := by
  unfold validateRabiParameters
  rw [checkArguments_bind, checkArguments_bind]
  split <;> rfl

/-- The Rabi validation in front of a call. -/
theorem Spec.AcceptsExactly.validate {β : Type} {call : Except PyErr β} {P : Prop} {c : β} {θ Ω : ℝ}
    (h : 0 < Ω → θ ≠ 0 → AcceptsExactly call P c) :
    AcceptsExactly (validateRabiParameters θ Ω >>= fun _ => call) (0 < Ω ∧ θ ≠ 0 ∧ P) c := by
  rw [validate_bind]
  exact AcceptsExactly.check (by simp) fun hΩ => AcceptsExactly.check (by simp) fun hθ => h hΩ hθ

theorem Spec.AcceptsExactly.wimperis {β : Type} {call : ℝ → Except PyErr β} {P : Prop} {c : β} {θ : ℝ}
    (h : AcceptsExactly (call (wimperisAngle θ)) P c) :
    AcceptsExactly (transformedRabiRotationWimperis θ >>= call)
      ((-4 * Real.pi ≤ θ ∧ θ ≤ 4 * Real.pi) ∧ P) c := by
  have e : (transformedRabiRotationWimperis θ >>= call) =
      (checkArguments (PyFloat.le (PyFloat.lit (-4) * PyFloat.pi) θ &&
        PyFloat.le θ (PyFloat.lit 4 * PyFloat.pi))
    "The polar angle must be between -4 pi and 4 pi (inclusive)." >>= fun _ =>
      call (wimperisAngle θ)) := by
    unfold transformedRabiRotationWimperis
    rw [checkArguments_bind, checkArguments_bind]
    split
    · simp [wimperisAngle]
    · rfl
  rw [e]
  exact AcceptsExactly.check (by simp) fun _ => h

theorem newPrimitiveControl_spec (θ Ω φ : ℝ) (name : Option String) :
    AcceptsExactly (newPrimitiveControl θ Ω φ name) (0 < Ω ∧ 0 < θ)
      (ofTable Ω (primitiveTable θ φ) name) := by
  refine AcceptsExactly.congr (AcceptsExactly.validate fun hΩ _ =>
    new_ofTable' hΩ (primitiveTable θ φ) _ _ _ _ _ ?_ ?_ ?_ ?_) ?_
  all_goals simp [primitiveTable]
  intro _ h; exact h.ne'

theorem newBB1Control_spec (θ Ω φ : ℝ) (name : Option String) :
    AcceptsExactly (newBB1Control θ Ω φ name) (0 < Ω ∧ 0 < θ ∧ θ ≤ 4 * Real.pi)
      (ofTable Ω (bb1Table θ φ) name) := by
  refine AcceptsExactly.congr (AcceptsExactly.validate fun hΩ _ => AcceptsExactly.wimperis
    (new_ofTable' hΩ (bb1Table θ φ) _ _ _ _ _ ?_ ?_ ?_ ?_)) ?_
  · simp [bb1Table]
  · simp [bb1Table]
  · simp [bb1Table]
  · simp [bb1Table]
  · have := Real.pi_pos
    simp only [bb1Table, List.forall_mem_cons, List.not_mem_nil, false_imp_iff, implies_true]
    constructor
    · rintro ⟨h1, h2, ⟨h3, h4⟩, h5, -⟩; exact ⟨h1, h5, h4⟩
    · rintro ⟨h1, h2, h3⟩; refine ⟨h1, h2.ne', ⟨by linarith, h3⟩, h2, by linarith, by linarith, by linarith, trivial⟩

theorem newSK1Control_spec (θ Ω φ : ℝ) (name : Option String) :
    AcceptsExactly (newSK1Control θ Ω φ name) (0 < Ω ∧ 0 < θ ∧ θ ≤ 4 * Real.pi)
      (ofTable Ω (sk1Table θ φ) name) := by
  refine AcceptsExactly.congr (AcceptsExactly.validate fun hΩ _ => AcceptsExactly.wimperis
    (new_ofTable' hΩ (sk1Table θ φ) _ _ _ _ _ ?_ ?_ ?_ ?_)) ?_
  · simp [sk1Table]
  · simp [sk1Table]
  · simp [sk1Table]
  · simp [sk1Table]
  · have := Real.pi_pos
    simp only [sk1Table, List.forall_mem_cons, List.not_mem_nil, false_imp_iff, implies_true]
    constructor
    · rintro ⟨h1, h2, ⟨h3, h4⟩, h5, -⟩; exact ⟨h1, h5, h4⟩
    · rintro ⟨h1, h2, h3⟩; refine ⟨h1, h2.ne', ⟨by linarith, h3⟩, h2, by linarith, by linarith, trivial⟩

theorem corpseAngle_lt_half_pi (θ : ℝ) : corpseAngle θ < Real.pi / 2 := by
  unfold corpseAngle
  refine lt_of_le_of_ne (Real.arcsin_le_pi_div_two _) fun h => ?_
  rw [Real.arcsin_eq_pi_div_two] at h
  have := Real.sin_le_one (θ / 2)
  linarith

theorem corpseAngle_lt {θ : ℝ} (h : 0 < θ) : corpseAngle θ < θ / 2 := by
  by_cases h2 : Real.pi / 2 ≤ θ / 2
  · exact lt_of_lt_of_le (corpseAngle_lt_half_pi θ) h2
  · push Not at h2
    have hs : 0 < Real.sin (θ / 2) := Real.sin_pos_of_pos_of_lt_pi (by linarith) (by linarith [Real.pi_pos])
    unfold corpseAngle
    rw [Real.arcsin_lt_iff_lt_sin' ⟨by linarith [Real.pi_pos], h2.le⟩]
    linarith

theorem corpseAngle_neg (θ : ℝ) : corpseAngle (-θ) = -corpseAngle θ := by
  simp [corpseAngle, neg_div, Real.arcsin_neg]

theorem corpse_pos_iff {θ : ℝ} (h : θ ≠ 0) : (∀ p ∈ corpseTable θ φ, 0 < p.1) ↔ 0 < θ := by
  simp only [corpseTable, List.forall_mem_cons, List.not_mem_nil, false_imp_iff, implies_true,
    and_true]
  constructor
  · rintro ⟨-, -, h3⟩
    by_contra hn
    have h4 : 0 < -θ := by
      rcases lt_or_gt_of_ne h with h' | h'
      · linarith
      · exact absurd h' hn
    have := corpseAngle_lt h4
    rw [corpseAngle_neg] at this
    linarith
  · intro h
    have h1 := corpseAngle_lt h
    have h2 := corpseAngle_lt_half_pi θ
    have := Real.pi_pos
    exact ⟨by linarith, by linarith, by linarith⟩

theorem newCorpseControl_spec (θ Ω φ : ℝ) (name : Option String) :
    AcceptsExactly (newCorpseControl θ Ω φ name) (0 < Ω ∧ 0 < θ)
      (ofTable Ω (corpseTable θ φ) name) := by
  refine AcceptsExactly.congr (AcceptsExactly.validate fun hΩ _ =>
    new_ofTable' hΩ (corpseTable θ φ) _ _ _ _ _ ?_ ?_ ?_ ?_) ?_
  · simp [corpseTable, corpseK, corpseAngle, add_comm]
  · simp [corpseTable]
  · simp [corpseTable]
  · simp [corpseTable]
  · constructor
    · rintro ⟨h1, h2, h3⟩; exact ⟨h1, (corpse_pos_iff h2).mp h3⟩
    · rintro ⟨h1, h2⟩; exact ⟨h1, h2.ne', (corpse_pos_iff h2.ne').mpr h2⟩

theorem newCorpseInBB1Control_spec (θ Ω φ : ℝ) (name : Option String) :
    AcceptsExactly (newCorpseInBB1Control θ Ω φ name) (0 < Ω ∧ 0 < θ ∧ θ ≤ 4 * Real.pi)
      (ofTable Ω (corpseFirst (bb1Table θ φ)) name) := by
  refine AcceptsExactly.congr (AcceptsExactly.validate fun hΩ _ => AcceptsExactly.wimperis
    (new_ofTable' hΩ (corpseFirst (bb1Table θ φ)) _ _ _ _ _ ?_ ?_ ?_ ?_)) ?_
  · simp [corpseFirst, bb1Table, corpseTable, corpseK, corpseAngle]
  · simp [corpseFirst, bb1Table, corpseTable]
  · simp [corpseFirst, bb1Table, corpseTable]
  · simp [corpseFirst, bb1Table, corpseTable]
  · have := Real.pi_pos
    simp only [corpseFirst, bb1Table, List.forall_mem_append, List.forall_mem_cons, List.not_mem_nil, false_imp_iff, implies_true]
    constructor
    · rintro ⟨h1, h2, ⟨h3, h4⟩, h5, -⟩; exact ⟨h1, (corpse_pos_iff h2).mp h5, h4⟩
    · rintro ⟨h1, h2, h3⟩; refine ⟨h1, h2.ne', ⟨by linarith, h3⟩, (corpse_pos_iff h2.ne').mpr h2, by linarith, by linarith, by linarith, trivial⟩

theorem newCorpseInSK1Control_spec (θ Ω φ : ℝ) (name : Option String) :
    AcceptsExactly (newCorpseInSK1Control θ Ω φ name) (0 < Ω ∧ 0 < θ ∧ θ ≤ 4 * Real.pi)
      (ofTable Ω (corpseFirst (sk1Table θ φ)) name) := by
  refine AcceptsExactly.congr (AcceptsExactly.validate fun hΩ _ => AcceptsExactly.wimperis
    (new_ofTable' hΩ (corpseFirst (sk1Table θ φ)) _ _ _ _ _ ?_ ?_ ?_ ?_)) ?_
  · simp [corpseFirst, sk1Table, corpseTable, corpseK, corpseAngle]
  · simp [corpseFirst, sk1Table, corpseTable]
  · simp [corpseFirst, sk1Table, corpseTable]
  · simp [corpseFirst, sk1Table, corpseTable]
  · have := Real.pi_pos
    simp only [corpseFirst, sk1Table, List.forall_mem_append, List.forall_mem_cons, List.not_mem_nil, false_imp_iff, implies_true]
    constructor
    · rintro ⟨h1, h2, ⟨h3, h4⟩, h5, -⟩; exact ⟨h1, (corpse_pos_iff h2).mp h5, h4⟩
    · rintro ⟨h1, h2, h3⟩; refine ⟨h1, h2.ne', ⟨by linarith, h3⟩, (corpse_pos_iff h2.ne').mpr h2, by linarith, by linarith, trivial⟩

theorem isClose_iff_close (θ a : ℝ) : Py.isClose θ a = true ↔ Close θ a := by
  rw [isClose_iff, Close]; norm_num

theorem isSupported_iff (θ : ℝ) : isSupportedRotation θ = true ↔ Tabulated θ := by
  simp [isSupportedRotation, isClose_iff_close, Tabulated]

theorem half_pi_eq : (PyFloat.lit (1 / 2) * PyFloat.pi : ℝ) = Real.pi / 2 := by
  simp; ring

theorem scrofulousTheta1_eq (θ : ℝ) : scrofulousTheta1 θ = scrofulousAngle θ := by
  unfold scrofulousTheta1 scrofulousAngle
  rw [half_pi_eq]
  simp only [pi_eq, degreesToRadians, lit_eq]
  by_cases h1 : Close θ Real.pi <;> by_cases h2 : Close θ (Real.pi / 2) <;>
    simp [h1, h2, isClose_iff_close] <;> norm_num

theorem Spec.Close.pos {θ a : ℝ} (ha : 1 / 2 < a) (h : Close θ a) : 0 < θ := by
  unfold Close at h
  rw [abs_of_pos (by linarith : 0 < a)] at h
  have := (abs_le.mp h).1
  norm_num at this
  linarith

theorem Spec.Tabulated.pos {θ : ℝ} (h : Tabulated θ) : 0 < θ := by
  have := Real.pi_gt_three
  rcases h with h | h | h
  · exact h.pos (by linarith)
  · exact h.pos (by linarith)
  · exact h.pos (by linarith)

theorem scrofulousAngle_pos (θ : ℝ) : 0 < scrofulousAngle θ := by
  have := Real.pi_pos
  unfold scrofulousAngle; split
  · exact this
  · split <;> positivity

/-- the two `arccos` arguments, as in the table -/
theorem scrofulous_args (θ θ₁ : ℝ) :
    scrofulousPhi1Arg θ₁ θ = -Real.pi * Real.cos θ₁ / (2 * θ₁ * Real.sin (θ / 2)) ∧
    scrofulousPhi2Arg θ₁ = -Real.pi / (2 * θ₁) := by
  simp [scrofulousPhi1Arg, scrofulousPhi2Arg, div_div]

theorem newScrofulousControl_spec (θ Ω φ : ℝ) (name : Option String) :
    AcceptsExactly (newScrofulousControl θ Ω φ name) (0 < Ω ∧ Tabulated θ)
      (ofTable Ω (scrofulousTable (scrofulousAngle θ) θ φ) name) := by
  refine AcceptsExactly.congr (AcceptsExactly.validate fun hΩ _ =>
    AcceptsExactly.check (isSupported_iff θ) fun _ =>
    (new_ofTable' hΩ (scrofulousTable (scrofulousAngle θ) θ φ) _ _ _ _ _ ?_ ?_ ?_ ?_)) ?_
  · simp [scrofulousTable, scrofulousTheta1_eq]
  · simp [scrofulousTable]
  · simp [scrofulousTable, scrofulousTheta1_eq, scrofulous_args θ]
  · simp [scrofulousTable]
  · have := Real.pi_pos
    have h1 := scrofulousAngle_pos θ
    simp only [scrofulousTable, List.forall_mem_cons, List.not_mem_nil, false_imp_iff, implies_true]
    constructor
    · rintro ⟨h1, h2, h3, h4⟩; exact ⟨h1, h3⟩
    · rintro ⟨h1, h2⟩; refine ⟨h1, h2.pos.ne', h2, by assumption, this, by assumption, trivial⟩

theorem newCorpseInScrofulousControl_spec (θ Ω φ : ℝ) (name : Option String) :
    AcceptsExactly (newCorpseInScrofulousControl θ Ω φ name) (0 < Ω ∧ Tabulated θ)
      (ofTable Ω (corpseEach (scrofulousTable (scrofulousAngle θ) θ φ)) name) := by
  refine AcceptsExactly.congr (AcceptsExactly.validate fun hΩ _ =>
    AcceptsExactly.check (isSupported_iff θ) fun _ =>
    (new_ofTable' hΩ (corpseEach (scrofulousTable (scrofulousAngle θ) θ φ)) _ _ _ _ _ ?_ ?_ ?_ ?_)) ?_
  · simp [scrofulousTable, scrofulousTheta1_eq, corpseEach, corpseTable, corpseBlock, corpseK, corpseAngle]
  · simp [scrofulousTable, corpseEach, corpseTable]
  · simp [scrofulousTable, scrofulousTheta1_eq, scrofulous_args θ, corpseEach, corpseTable, corpseBlock]
    refine ⟨?_, ?_, ?_, ?_, ?_, ?_, ?_, ?_, ?_⟩ <;> ring
  · simp [scrofulousTable, corpseEach, corpseTable]
  · have := Real.pi_pos
    have h1 := scrofulousAngle_pos θ
    simp only [scrofulousTable, corpseEach, List.flatMap_cons, List.flatMap_nil,
      List.forall_mem_append, corpse_pos_iff h1.ne', corpse_pos_iff this.ne', List.not_mem_nil, false_imp_iff, implies_true]
    constructor
    · rintro ⟨h1, h2, h3, h4⟩; exact ⟨h1, h3⟩
    · rintro ⟨h1, h2⟩; refine ⟨h1, h2.pos.ne', h2, by assumption, this, by assumption, trivial⟩

theorem wamf1Thetas_eq (θ : ℝ) : wamf1Thetas θ = wamf1Angles θ := by
  unfold wamf1Thetas wamf1Angles
  rw [half_pi_eq]
  simp only [pi_eq, lit_eq]
  by_cases h1 : Close θ Real.pi <;> by_cases h2 : Close θ (Real.pi / 2) <;>
    simp [h1, h2, isClose_iff_close] <;> norm_num

theorem wamf1Angles_pos (θ : ℝ) : 0 < (wamf1Angles θ).1 ∧ 0 < (wamf1Angles θ).2 ∧
    (wamf1Angles θ).2 ≤ (wamf1Angles θ).1 ∧
    2 * ((wamf1Angles θ).1 + (wamf1Angles θ).2) = nominalAngle θ + 2 * Real.pi := by
  have := Real.pi_pos
  unfold wamf1Angles nominalAngle
  split
  · simp only; refine ⟨by linarith, by linarith, by linarith, by ring⟩
  · split
    · simp only; refine ⟨by norm_num; linarith, by norm_num; linarith, by norm_num; linarith, by ring⟩
    · simp only; refine ⟨by norm_num; linarith, by norm_num; linarith, by norm_num; linarith, by ring⟩

theorem newWamf1Control_spec (θ Ω φ : ℝ) (name : Option String) :
    AcceptsExactly (newWamf1Control θ Ω φ name) (0 < Ω ∧ Tabulated θ)
      (wamf1Control θ Ω φ name) := by
  obtain ⟨hp, hm, hle, -⟩ := wamf1Angles_pos θ
  refine AcceptsExactly.congr (P := 0 < Ω ∧ θ ≠ 0 ∧ Tabulated θ ∧ True) (AcceptsExactly.validate fun hΩ _ =>
    AcceptsExactly.check (isSupported_iff θ) fun _ => ⟨fun _ => ?_, fun h => absurd trivial h⟩) ?_
  · rw [DrivenControl.new_eq, if_pos, if_pos, if_pos]
    · simp [wamf1Thetas_eq, wamf1Control, List.replicate]
      constructor
      · field_simp
      · field_simp; simp
    · have h1 : 0 ≤ (wamf1Angles θ).1 / ((wamf1Angles θ).1 / Ω) := by positivity
      have h2 : 0 ≤ (wamf1Angles θ).2 / ((wamf1Angles θ).1 / Ω) := by positivity
      simp [wamf1Thetas_eq, h1, h2]
    · simp
    · simp [wamf1Thetas_eq]; positivity
  · constructor
    · rintro ⟨h1, h2, h3, h4⟩; exact ⟨h1, h3⟩
    · rintro ⟨h1, h2⟩; exact ⟨h1, h2.pos.ne', h2, trivial⟩

theorem evolution_wamf1 (θ φ : ℝ) {Ω : ℝ} (hΩ : Ω ≠ 0) (name : Option String) :
    evolution (wamf1Control θ Ω φ name) = -rotation (nominalAngle θ) φ := by
  obtain ⟨hp, hm, hle, hsum⟩ := wamf1Angles_pos θ
  simp only [evolution, wamf1Control, List.replicate, controlEvolution_cons, controlEvolution_nil,
    segmentUnitary_resonant, one_mul, rotation_mul_same]
  rw [← rotation_add_two_pi, ← hsum]
  congr 1
  field_simp
  ring

end OpenControls
