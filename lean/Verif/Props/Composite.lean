import Verif.Proofs.ScrofulousBounds
import Verif.Proofs.Azimuth

/-!
# C16-C25, C32: the predefined composite pulses perform the requested rotation
-/

namespace OpenControls

open Spec RealInst

/-- **C16.** The primitive control: accepted exactly for positive arguments, one segment, evolution
the requested rotation. -/
theorem C16_primitive (θ Ω φ : ℝ) (name : Option String) :
    AcceptsExactly (newPrimitiveControl θ Ω φ name) (0 < Ω ∧ 0 < θ)
      ⟨[Ω], [φ], [0], [θ / Ω], name⟩ ∧
    ∀ c, newPrimitiveControl θ Ω φ name = .ok c → evolution c = rotation θ φ := by
  have h := newPrimitiveControl_spec θ Ω φ name
  refine ⟨h, fun c hc => ?_⟩
  obtain ⟨⟨hΩ, -⟩, rfl⟩ := h.ok hc
  rw [evolution_ofTable hΩ.ne']
  simp [primitiveTable, tableEvolution]

/-- **C17.** BB1. -/
theorem C17_bb1 (θ Ω φ : ℝ) (name : Option String) :
    AcceptsExactly (newBB1Control θ Ω φ name) (0 < Ω ∧ 0 < θ ∧ θ ≤ 4 * Real.pi)
      (ofTable Ω (bb1Table θ φ) name) ∧
    ∀ c, newBB1Control θ Ω φ name = .ok c → evolution c = rotation θ φ := by
  have h := newBB1Control_spec θ Ω φ name
  refine ⟨h, fun c hc => ?_⟩
  obtain ⟨⟨hΩ, -⟩, rfl⟩ := h.ok hc
  rw [evolution_ofTable hΩ.ne', tableEvolution_bb1]

/-- **C18.** SK1. -/
theorem C18_sk1 (θ Ω φ : ℝ) (name : Option String) :
    AcceptsExactly (newSK1Control θ Ω φ name) (0 < Ω ∧ 0 < θ ∧ θ ≤ 4 * Real.pi)
      (ofTable Ω (sk1Table θ φ) name) ∧
    ∀ c, newSK1Control θ Ω φ name = .ok c → evolution c = rotation θ φ := by
  have h := newSK1Control_spec θ Ω φ name
  refine ⟨h, fun c hc => ?_⟩
  obtain ⟨⟨hΩ, -⟩, rfl⟩ := h.ok hc
  rw [evolution_ofTable hΩ.ne', tableEvolution_sk1]

/-- **C19.** CORPSE. -/
theorem C19_corpse (θ Ω φ : ℝ) (name : Option String) :
    AcceptsExactly (newCorpseControl θ Ω φ name) (0 < Ω ∧ 0 < θ)
      (ofTable Ω (corpseTable θ φ) name) ∧
    ∀ c, newCorpseControl θ Ω φ name = .ok c → evolution c = rotation θ φ := by
  have h := newCorpseControl_spec θ Ω φ name
  refine ⟨h, fun c hc => ?_⟩
  obtain ⟨⟨hΩ, -⟩, rfl⟩ := h.ok hc
  rw [evolution_ofTable hΩ.ne', tableEvolution_corpse]

/-- **C20.** SCROFULOUS: accepted exactly for the tabulated angles; all `arccos` arguments are in
range; the evolution is within `3e-3` (per matrix entry) of the requested rotation for every
accepted angle, and equal to it for `θ = π`. -/
theorem C20_scrofulous (θ Ω φ : ℝ) (name : Option String) :
    AcceptsExactly (newScrofulousControl θ Ω φ name) (0 < Ω ∧ Tabulated θ)
      (ofTable Ω (scrofulousTable (scrofulousAngle θ) θ φ) name) ∧
    (Tabulated θ → |scrofulousPhi1Arg (scrofulousTheta1 θ) θ| ≤ 1 ∧
      |scrofulousPhi2Arg (scrofulousTheta1 θ)| ≤ 1) ∧
    (∀ c, newScrofulousControl θ Ω φ name = .ok c →
      (∀ i j, ‖(evolution c - rotation θ φ) i j‖ ≤ 3 / 1000) ∧
      (θ = Real.pi → evolution c = rotation θ φ)) := by
  have h := newScrofulousControl_spec θ Ω φ name
  refine ⟨h, fun ht => ?_, fun c hc => ?_⟩
  · have f := scrofulousFacts ht
    rw [scrofulousTheta1_eq, (scrofulous_args θ _).1, (scrofulous_args θ _).2]
    exact ⟨f.h1, f.h2⟩
  · obtain ⟨⟨hΩ, ht⟩, rfl⟩ := h.ok hc
    rw [evolution_ofTable hΩ.ne']
    have f := scrofulousFacts ht
    refine ⟨f.dist φ, fun hθ => ?_⟩
    refine tableEvolution_scrofulous_exact φ f.h1 f.h2 f.hs ?_
    have hcl : Close Real.pi Real.pi := by unfold Close; simp; positivity
    subst hθ
    rw [scrofulousAngle, if_pos hcl]
    simp

/-- **C20** (the documented equations).  Whenever the first angle solves the documented equation
`sinc θ₁ = 2 cos(θ/2)/π`, the SCROFULOUS table performs exactly the requested rotation. -/
theorem C20_scrofulous_sinc {θ₁ θ : ℝ} (φ : ℝ)
    (h1 : |-Real.pi * Real.cos θ₁ / (2 * θ₁ * Real.sin (θ / 2))| ≤ 1)
    (h2 : |-Real.pi / (2 * θ₁)| ≤ 1) (hs : 0 < Real.sin (θ / 2))
    (heq : Real.sin θ₁ / θ₁ = 2 * Real.cos (θ / 2) / Real.pi) {Ω : ℝ} (hΩ : 0 < Ω) :
    evolution (ofTable Ω (scrofulousTable θ₁ θ φ) none) = rotation θ φ := by
  rw [evolution_ofTable hΩ.ne', tableEvolution_scrofulous_exact φ h1 h2 hs heq]

/-- **C21.** CORPSE in BB1. -/
theorem C21_corpse_in_bb1 (θ Ω φ : ℝ) (name : Option String) :
    AcceptsExactly (newCorpseInBB1Control θ Ω φ name) (0 < Ω ∧ 0 < θ ∧ θ ≤ 4 * Real.pi)
      (ofTable Ω (corpseFirst (bb1Table θ φ)) name) ∧
    ∀ c, newCorpseInBB1Control θ Ω φ name = .ok c → evolution c = rotation θ φ := by
  have h := newCorpseInBB1Control_spec θ Ω φ name
  refine ⟨h, fun c hc => ?_⟩
  obtain ⟨⟨hΩ, -⟩, rfl⟩ := h.ok hc
  rw [evolution_ofTable hΩ.ne', tableEvolution_corpseFirst, tableEvolution_bb1]

/-- **C22.** CORPSE in SK1. -/
theorem C22_corpse_in_sk1 (θ Ω φ : ℝ) (name : Option String) :
    AcceptsExactly (newCorpseInSK1Control θ Ω φ name) (0 < Ω ∧ 0 < θ ∧ θ ≤ 4 * Real.pi)
      (ofTable Ω (corpseFirst (sk1Table θ φ)) name) ∧
    ∀ c, newCorpseInSK1Control θ Ω φ name = .ok c → evolution c = rotation θ φ := by
  have h := newCorpseInSK1Control_spec θ Ω φ name
  refine ⟨h, fun c hc => ?_⟩
  obtain ⟨⟨hΩ, -⟩, rfl⟩ := h.ok hc
  rw [evolution_ofTable hΩ.ne', tableEvolution_corpseFirst, tableEvolution_sk1]

/-- **C23.** CORPSE in SCROFULOUS: accepted exactly when SCROFULOUS is, each segment of SCROFULOUS
replaced by the three segments of CORPSE, same evolution. -/
theorem C23_corpse_in_scrofulous (θ Ω φ : ℝ) (name : Option String) :
    AcceptsExactly (newCorpseInScrofulousControl θ Ω φ name) (0 < Ω ∧ Tabulated θ)
      (ofTable Ω (corpseEach (scrofulousTable (scrofulousAngle θ) θ φ)) name) ∧
    ((∃ c, newCorpseInScrofulousControl θ Ω φ name = .ok c) ↔
      ∃ c, newScrofulousControl θ Ω φ name = .ok c) ∧
    ∀ c c', newCorpseInScrofulousControl θ Ω φ name = .ok c →
      newScrofulousControl θ Ω φ name = .ok c' →
      c.durations.length = 9 ∧ evolution c = evolution c' := by
  have h := newCorpseInScrofulousControl_spec θ Ω φ name
  have h' := newScrofulousControl_spec θ Ω φ name
  refine ⟨h, h.iff.trans h'.iff.symm, fun c c' hc hc' => ?_⟩
  obtain ⟨⟨hΩ, -⟩, rfl⟩ := h.ok hc
  obtain ⟨-, rfl⟩ := h'.ok hc'
  rw [evolution_ofTable hΩ.ne', evolution_ofTable hΩ.ne', tableEvolution_corpseEach]
  refine ⟨?_, rfl⟩
  simp [ofTable, corpseEach, scrofulousTable, corpseTable]

theorem far_not_close {x y : ℝ} (hy : 1 < y) (hxy : x < 3 / 4 * y) : ¬ Close x y := by
  intro hcl
  unfold Close at hcl
  rw [abs_of_neg (by linarith), abs_of_pos (by linarith)] at hcl
  norm_num at hcl
  nlinarith

theorem close_self (y : ℝ) : Close y y := by unfold Close; simp; positivity

/-- The angle WAMF1 is tabulated for: one of `π`, `π/2`, `π/4`, within the `np.isclose` tolerance
of the requested one, and the requested one if that is one of the three. -/
theorem nominalAngle_spec {θ : ℝ} (h : Tabulated θ) :
    nominalAngle θ ∈ [Real.pi, Real.pi / 2, Real.pi / 4] ∧ Close θ (nominalAngle θ) ∧
    (θ ∈ [Real.pi, Real.pi / 2, Real.pi / 4] → nominalAngle θ = θ) := by
  have hl := Real.pi_gt_three
  refine ⟨?_, ?_, ?_⟩
  · unfold nominalAngle; split
    · simp
    · split <;> simp
  · unfold nominalAngle
    by_cases h1 : Close θ Real.pi
    · rw [if_pos h1]; exact h1
    · rw [if_neg h1]
      by_cases h2 : Close θ (Real.pi / 2)
      · rw [if_pos h2]; exact h2
      · rw [if_neg h2]
        rcases h with h | h | h
        · contradiction
        · contradiction
        · exact h
  · intro ha
    simp only [List.mem_cons, List.not_mem_nil, or_false] at ha
    rcases ha with rfl | rfl | rfl
    · rw [nominalAngle, if_pos (close_self _)]
    · rw [nominalAngle, if_neg (far_not_close (by linarith) (by linarith)), if_pos (close_self _)]
    · rw [nominalAngle, if_neg (far_not_close (by linarith) (by linarith)),
        if_neg (far_not_close (by linarith) (by linarith))]

/-- **C24.** WAMF1: the evolution is minus the rotation by the tabulated angle. -/
theorem C24_wamf1 (θ Ω φ : ℝ) (name : Option String) :
    AcceptsExactly (newWamf1Control θ Ω φ name) (0 < Ω ∧ Tabulated θ)
      (wamf1Control θ Ω φ name) ∧
    ∀ c, newWamf1Control θ Ω φ name = .ok c →
      evolution c = -rotation (nominalAngle θ) φ ∧
      EqUpToPhase (evolution c) (rotation (nominalAngle θ) φ) ∧
      (θ ∈ [Real.pi, Real.pi / 2, Real.pi / 4] →
        EqUpToPhase (evolution c) (rotation θ φ)) ∧
      |θ - nominalAngle θ| ≤ 1 / 10 ^ 8 + 1 / 10 ^ 5 * |nominalAngle θ| := by
  have h := newWamf1Control_spec θ Ω φ name
  refine ⟨h, fun c hc => ?_⟩
  obtain ⟨⟨hΩ, ht⟩, rfl⟩ := h.ok hc
  have e := evolution_wamf1 θ φ hΩ.ne' name
  obtain ⟨-, n2, n3⟩ := nominalAngle_spec ht
  have p : EqUpToPhase (evolution (wamf1Control θ Ω φ name)) (rotation (nominalAngle θ) φ) :=
    ⟨-1, by simp, by rw [e]; simp⟩
  refine ⟨e, p, fun hm => ?_, n2⟩
  rwa [n3 hm] at p

/-! ### All nine constructors -/

/-- the model's constructor for a scheme -/
noncomputable def build : Scheme → ℝ → ℝ → ℝ → Option String → Except PyErr (DrivenControl ℝ)
  | .primitive => newPrimitiveControl
  | .bb1 => newBB1Control
  | .sk1 => newSK1Control
  | .scrofulous => newScrofulousControl
  | .corpse => newCorpseControl
  | .corpseInBB1 => newCorpseInBB1Control
  | .corpseInSK1 => newCorpseInSK1Control
  | .corpseInScrofulous => newCorpseInScrofulousControl
  | .wamf1 => newWamf1Control

/-- the angles a scheme accepts -/
def accepts : Scheme → ℝ → Prop
  | .primitive, θ | .corpse, θ => 0 < θ
  | .bb1, θ | .sk1, θ | .corpseInBB1, θ | .corpseInSK1, θ => 0 < θ ∧ θ ≤ 4 * Real.pi
  | .scrofulous, θ | .corpseInScrofulous, θ | .wamf1, θ => Tabulated θ

/-- what a scheme returns -/
noncomputable def result : Scheme → ℝ → ℝ → ℝ → Option String → DrivenControl ℝ
  | .primitive, θ, Ω, φ, n => ofTable Ω (primitiveTable θ φ) n
  | .bb1, θ, Ω, φ, n => ofTable Ω (bb1Table θ φ) n
  | .sk1, θ, Ω, φ, n => ofTable Ω (sk1Table θ φ) n
  | .scrofulous, θ, Ω, φ, n => ofTable Ω (scrofulousTable (scrofulousAngle θ) θ φ) n
  | .corpse, θ, Ω, φ, n => ofTable Ω (corpseTable θ φ) n
  | .corpseInBB1, θ, Ω, φ, n => ofTable Ω (corpseFirst (bb1Table θ φ)) n
  | .corpseInSK1, θ, Ω, φ, n => ofTable Ω (corpseFirst (sk1Table θ φ)) n
  | .corpseInScrofulous, θ, Ω, φ, n =>
    ofTable Ω (corpseEach (scrofulousTable (scrofulousAngle θ) θ φ)) n
  | .wamf1, θ, Ω, φ, n => wamf1Control θ Ω φ n

theorem build_spec (s : Scheme) (θ Ω φ : ℝ) (name : Option String) :
    AcceptsExactly (build s θ Ω φ name) (0 < Ω ∧ accepts s θ) (result s θ Ω φ name) := by
  cases s
  · exact newPrimitiveControl_spec θ Ω φ name
  · exact newBB1Control_spec θ Ω φ name
  · exact newSK1Control_spec θ Ω φ name
  · exact newScrofulousControl_spec θ Ω φ name
  · exact newCorpseControl_spec θ Ω φ name
  · exact newCorpseInBB1Control_spec θ Ω φ name
  · exact newCorpseInSK1Control_spec θ Ω φ name
  · exact newCorpseInScrofulousControl_spec θ Ω φ name
  · exact newWamf1Control_spec θ Ω φ name

/-- a control with all Rabi rates multiplied by `k` and all durations divided by `k` -/
noncomputable def speedUp (k : ℝ) (c : DrivenControl ℝ) : DrivenControl ℝ :=
  { c with rabiRates := c.rabiRates.map (k * ·), durations := c.durations.map (· / k) }

/-- a control with `a` added to every azimuthal angle -/
noncomputable def shiftAzimuth (a : ℝ) (c : DrivenControl ℝ) : DrivenControl ℝ :=
  { c with azimuthalAngles := c.azimuthalAngles.map (· + a) }

theorem ofTable_rates {Ω : ℝ} (hΩ : 0 < Ω) {t : List (ℝ × ℝ)} (ht : t ≠ []) (name : Option String) :
    (∀ r ∈ (ofTable Ω t name).rabiRates, 0 < r ∧ r ≤ Ω) ∧ Ω ∈ (ofTable Ω t name).rabiRates ∧
    (∀ d ∈ (ofTable Ω t name).detunings, d = 0) := by
  cases t with
  | nil => contradiction
  | cons p t => simp [ofTable, hΩ]

theorem ofTable_speedUp (Ω k : ℝ) (t : List (ℝ × ℝ)) (name : Option String) :
    ofTable (k * Ω) t name = speedUp k (ofTable Ω t name) := by
  simp [ofTable, speedUp, List.map_map, Function.comp_def, mul_comm, div_div]

theorem result_rates (s : Scheme) {θ Ω φ : ℝ} (hΩ : 0 < Ω) (name : Option String) :
    (∀ r ∈ (result s θ Ω φ name).rabiRates, 0 < r ∧ r ≤ Ω) ∧
    Ω ∈ (result s θ Ω φ name).rabiRates ∧
    (∀ d ∈ (result s θ Ω φ name).detunings, d = 0) := by
  cases s
  case wamf1 =>
    obtain ⟨hp, hm, hle, -⟩ := wamf1Angles_pos θ
    have h1 : 0 < Ω * (wamf1Angles θ).2 / (wamf1Angles θ).1 := by positivity
    have h2 : Ω * (wamf1Angles θ).2 / (wamf1Angles θ).1 ≤ Ω := by
      rw [div_le_iff₀ hp]; nlinarith
    simp [result, wamf1Control, hΩ, h1, h2]
  all_goals exact ofTable_rates hΩ (by simp [primitiveTable, bb1Table, sk1Table, scrofulousTable, corpseTable, corpseFirst, corpseEach]) name

theorem result_speedUp (s : Scheme) (θ Ω φ k : ℝ) (name : Option String) :
    result s θ (k * Ω) φ name = speedUp k (result s θ Ω φ name) := by
  cases s
  case wamf1 =>
    simp only [result, wamf1Control, speedUp, List.map_cons, List.map_nil, List.map_replicate,
      div_div, mul_comm Ω k]
    simp only [mul_div_assoc, mul_assoc]
  all_goals exact ofTable_speedUp Ω k _ name

/-- **C25.** For every composite constructor and all arguments it accepts: Rabi rates lie in
`(0, Ω]`, the maximum is attained, there is no detuning; and using the rate `k * Ω` instead
multiplies all rates and divides all durations by `k`, changing nothing else. -/
theorem C25_rate_limits (s : Scheme) (θ Ω φ : ℝ) (name : Option String) (c : DrivenControl ℝ)
    (hc : build s θ Ω φ name = .ok c) :
    (∀ r ∈ c.rabiRates, 0 < r ∧ r ≤ Ω) ∧ Ω ∈ c.rabiRates ∧ (∀ d ∈ c.detunings, d = 0) ∧
    (∀ k : ℝ, 0 < k → build s θ (k * Ω) φ name = .ok (speedUp k c)) := by
  obtain ⟨⟨hΩ, ha⟩, rfl⟩ := (build_spec s θ Ω φ name).ok hc
  obtain ⟨h1, h2, h3⟩ := result_rates s (θ := θ) (φ := φ) hΩ name
  refine ⟨h1, h2, h3, fun k hk => ?_⟩
  rw [← result_speedUp s θ Ω φ k]
  exact (build_spec s θ (k * Ω) φ name).1 ⟨mul_pos hk hΩ, ha⟩

theorem result_shift (s : Scheme) (θ Ω φ a : ℝ) (name : Option String) :
    result s θ Ω (φ + a) name = shiftAzimuth a (result s θ Ω φ name) := by
  cases s <;> simp [result, ofTable, shiftAzimuth, primitiveTable, bb1Table, sk1Table,
    scrofulousTable, corpseTable, corpseFirst, corpseEach, wamf1Control, add_right_comm, add_assoc, add_comm a, sub_eq_add_neg]

/-- **C32.** Adding `a` to the azimuthal angle of any composite constructor adds `a` to every
azimuthal angle of the control (and changes neither the other arrays nor whether the call is
accepted); the evolution is conjugated by the z-rotation by `a`. -/
theorem C32_azimuthal_angle (s : Scheme) (θ Ω φ a : ℝ) (name : Option String) :
    (∀ c, build s θ Ω φ name = .ok c →
      build s θ Ω (φ + a) name = .ok (shiftAzimuth a c) ∧
      evolution (shiftAzimuth a c) =
        pulseUnitary 0 0 a * evolution c * pulseUnitary 0 0 (-a)) ∧
    (∀ e, build s θ Ω φ name = .error e → ∃ e', build s θ Ω (φ + a) name = .error e') := by
  refine ⟨fun c hc => ?_, fun e he => ?_⟩
  · obtain ⟨h, rfl⟩ := (build_spec s θ Ω φ name).ok hc
    refine ⟨?_, controlEvolution_shift _ _ _ _ a⟩
    rw [← result_shift]
    exact (build_spec s θ Ω (φ + a) name).1 h
  · have hn : ¬ (0 < Ω ∧ accepts s θ) := fun hP => by
      have := (build_spec s θ Ω φ name).1 hP
      rw [he] at this; cases this
    obtain ⟨d, hd⟩ := (build_spec s θ Ω (φ + a) name).2 hn
    exact ⟨_, hd⟩

/-! ### Non-vacuity: every constructor accepts something -/

theorem tabulated_pi : Tabulated Real.pi := Or.inl (close_self _)

/-- Every constructor accepts the rotation by `π` at rate 2 about the axis at angle 1. -/
theorem build_pi_ok (s : Scheme) : ∃ c, build s Real.pi 2 1 none = .ok c := by
  rw [(build_spec s Real.pi 2 1 none).iff]
  have := Real.pi_pos
  refine ⟨by norm_num, ?_⟩
  cases s <;> first | exact tabulated_pi | exact this | exact ⟨this, by linarith⟩

example : ∃ c, newBB1Control Real.pi 2 1 none = .ok c ∧ evolution c = rotation Real.pi 1 := by
  obtain ⟨c, hc⟩ := build_pi_ok .bb1
  exact ⟨c, hc, (C17_bb1 _ _ _ _).2 c hc⟩

example : ∃ c, newScrofulousControl Real.pi 2 1 none = .ok c ∧
    evolution c = rotation Real.pi 1 := by
  obtain ⟨c, hc⟩ := build_pi_ok .scrofulous
  exact ⟨c, hc, ((C20_scrofulous _ _ _ _).2.2 c hc).2 rfl⟩

/-- `θ₁ = π` solves the documented equation for `θ = π`. -/
example : evolution (ofTable 1 (scrofulousTable Real.pi Real.pi 0) none) = rotation Real.pi 0 := by
  have f := scrofulousFacts tabulated_pi
  rw [scrofulousAngle, if_pos (close_self _)] at f
  exact C20_scrofulous_sinc 0 f.h1 f.h2 f.hs (by simp) one_pos

/-- rejected arguments: a negative rotation angle, and an angle above `4π` -/
example : ∃ d, newCorpseControl (-1 : ℝ) 1 0 none = .error (.arguments d) :=
  (C19_corpse (-1) 1 0 none).1.2 (by norm_num)

example : ∃ d, newSK1Control (5 * Real.pi) 1 0 none = .error (.arguments d) :=
  (C18_sk1 _ _ _ _).1.2 (by rintro ⟨-, -, h⟩; linarith [Real.pi_pos])

/-- **C69.** `_derive_segments`: for every non-zero amplitude, one segment per pair of angles; the
segments perform the given rotations one after the other, without detuning, with total amplitude
`|amplitude|` and for a time `θ / amplitude`. -/
theorem C69_derive_segments (angles : List (ℝ × ℝ)) (amplitude : ℝ) (h : amplitude ≠ 0) :
    cartesianEvolution (deriveSegments angles amplitude) = rotationsInOrder angles ∧
    (deriveSegments angles amplitude).map (fun s => s.2.2.2) =
      angles.map (fun p => p.1 / amplitude) ∧
    ∀ s ∈ deriveSegments angles amplitude, s.1 ^ 2 + s.2.1 ^ 2 = amplitude ^ 2 ∧ s.2.2.1 = 0 := by
  refine ⟨?_, by simp [deriveSegments], ?_⟩
  · induction angles with
    | nil => rfl
    | cons p rest ih =>
      obtain ⟨θ, φ⟩ := p
      show cartesianEvolution (deriveSegments rest amplitude) * _ = rotationsInOrder rest * _
      rw [ih]
      congr 1
      have e := segmentUnitary_resonant amplitude φ (θ / amplitude)
      rw [mul_div_cancel₀ _ h] at e
      rw [← e, segmentUnitary, hamiltonian]
      simp only [cos_eq, sin_eq, lit_eq, Rat.cast_zero]
  · intro s hs
    simp only [deriveSegments, List.mem_map] at hs
    obtain ⟨⟨θ, φ⟩, -, rfl⟩ := hs
    refine ⟨?_, by simp⟩
    have := Real.cos_sq_add_sin_sq φ
    simp only [cos_eq, sin_eq]
    linear_combination amplitude ^ 2 * this

/-- **C69**, default: when the amplitude is left out, it is `2π` (not 1 as documented), so a full
turn takes one unit of time. -/
theorem C69_default_amplitude (φ : ℝ) :
    deriveSegments [(2 * Real.pi, φ)] =
      [(2 * Real.pi * Real.cos φ, 2 * Real.pi * Real.sin φ, 0, 1)] := by
  have := Real.pi_pos
  simp [deriveSegments, defaultAmplitude]

example : cartesianEvolution (deriveSegments [(Real.pi, 0), (Real.pi / 2, 1)] 3) =
    rotation (Real.pi / 2) 1 * rotation Real.pi 0 := by
  rw [(C69_derive_segments _ 3 (by norm_num)).1]
  simp [rotationsInOrder]

end OpenControls
