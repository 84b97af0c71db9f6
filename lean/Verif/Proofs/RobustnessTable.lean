import Verif.Spec.RobustnessTable
import Verif.Proofs.Robustness
import Verif.Proofs.Wamf
import Verif.Proofs.ScrofulousBounds

/-!
# Exact classification of the first- and second-order responses
-/

namespace OpenControls

open Spec RealInst

theorem Spec.HasMatrixDerivAt.unique {U : ℝ → M2} {A B : M2} {x : ℝ} (h : HasMatrixDerivAt U A x)
    (h' : HasMatrixDerivAt U B x) : A = B := by
  ext i j; exact (h i j).unique (h' i j)

theorem firstOrder_iff_of_deriv {U : ℝ → M2} {A : M2} (h : HasMatrixDerivAt U A 0) :
    FirstOrderInsensitive U ↔ A = 0 :=
  ⟨fun h' => h.unique h', fun e => by rw [e] at h; exact h⟩

theorem rotation_right_cancel {A : M2} {θ φ : ℝ} (h : A * rotation θ φ = 0) : A = 0 := by
  have e : rotation θ φ * rotation (-θ) φ = 1 := by
    rw [rotation_mul_same, add_neg_cancel, rotation_zero]
  calc A = A * (rotation θ φ * rotation (-θ) φ) := by rw [e, Matrix.mul_one]
    _ = (A * rotation θ φ) * rotation (-θ) φ := by rw [Matrix.mul_assoc]
    _ = 0 := by rw [h, Matrix.zero_mul]

theorem tableEvolution_left_cancel {A : M2} (t : List (ℝ × ℝ)) (h : tableEvolution t * A = 0) :
    A = 0 := by
  induction t generalizing A with
  | nil => simpa [tableEvolution_nil] using h
  | cons p t ih =>
    rw [tableEvolution_cons, Matrix.mul_assoc] at h
    have h2 := ih h
    have e : rotation (-p.1) p.2 * rotation p.1 p.2 = 1 := by
      rw [rotation_mul_same, neg_add_cancel, rotation_zero]
    calc A = rotation (-p.1) p.2 * rotation p.1 p.2 * A := by rw [e, Matrix.one_mul]
      _ = rotation (-p.1) p.2 * (rotation p.1 p.2 * A) := by rw [Matrix.mul_assoc]
      _ = 0 := by rw [h2, Matrix.mul_zero]

theorem generator_eq_zero {θ φ : ℝ} : generator θ φ = 0 ↔ θ = 0 := by
  rw [generator, ← su2_zero, su2_inj]
  constructor
  · rintro ⟨-, h1, h2, -⟩
    have q := Real.cos_sq_add_sin_sq φ
    linear_combination (-2) * (θ / 2) * q + 2 * Real.cos φ * h1 + 2 * Real.sin φ * h2
  · rintro rfl; simp

theorem Spec.SecondOrderInsensitive.first {U : ℝ → M2} (h : SecondOrderInsensitive U) :
    FirstOrderInsensitive U := by
  obtain ⟨U', h1, h2, -⟩ := h
  have := h1 0
  rwa [h2] at this

/-- a single rotation with amplitude error is first-order sensitive -/
theorem rotation_sensitive {θ : ℝ} (hθ : θ ≠ 0) (φ : ℝ) :
    ¬ FirstOrderInsensitive fun e => rotation ((1 + e) * θ) φ := by
  rw [firstOrder_iff_of_deriv (rotation_deriv θ φ 1 0)]
  exact fun h => hθ (generator_eq_zero.1 (rotation_right_cancel h))

theorem wamf1_amplitude (θ φ : ℝ) {Ω : ℝ} (hΩ : 0 < Ω) (name : Option String) (e : ℝ) :
    evolution (withAmplitudeError e (wamf1Control θ Ω φ name)) =
      rotation ((1 + e) * (2 * ((wamf1Angles θ).1 + (wamf1Angles θ).2))) φ := by
  obtain ⟨ha, hb, -, -⟩ := wamf1Angles_pos θ
  simp only [evolution, withAmplitudeError, wamf1Control, List.map_cons, List.map_nil,
    List.replicate_succ, List.replicate_zero, controlEvolution_cons, controlEvolution_nil, one_mul,
    segmentUnitary_resonant, rotation_mul_same]
  congr 1
  field_simp
  ring

theorem su2_z_eq_zero {w : ℝ} : su2 0 0 0 w = 0 ↔ w = 0 := by
  rw [← su2_zero, su2_inj]; simp

/-! ### detuning -/

theorem detuning_zero {Ω : ℝ} (hΩ : Ω ≠ 0) (t : List (ℝ × ℝ)) (name : Option String) :
    evolution (withDetuningError 0 (ofTable Ω t name)) = tableEvolution t := by
  rw [← evolution_ofTable hΩ t name]
  simp [withDetuningError]

/-- appending pulses that are insensitive to detuning errors changes nothing to first order -/
theorem detuning_append_iff {Ω : ℝ} (hΩ : Ω ≠ 0) (t t' : List (ℝ × ℝ)) (name : Option String) {A : M2}
    (ht : HasMatrixDerivAt (fun d => evolution (withDetuningError d (ofTable Ω t name))) A 0)
    (h : FirstOrderInsensitive fun d => evolution (withDetuningError d (ofTable Ω t' name))) :
    FirstOrderInsensitive (fun d => evolution (withDetuningError d (ofTable Ω (t ++ t') name))) ↔
      A = 0 := by
  have hp := HasMatrixDerivAt.mul h ht
  simp only [detuning_zero hΩ, Matrix.zero_mul, zero_add] at hp
  simp only [evolution_detuning_append]
  rw [firstOrder_iff_of_deriv hp]
  exact ⟨tableEvolution_left_cancel t', fun h => by rw [h, Matrix.mul_zero]⟩

theorem detuning_singleton {Ω : ℝ} (hΩ : 0 < Ω) (p : ℝ × ℝ) (name : Option String) :
    HasMatrixDerivAt (fun d => evolution (withDetuningError d (ofTable Ω [p] name)))
      (su2 0 0 0 (Real.sin (p.1 / 2) / Ω)) 0 :=
  primitive_detuning_deriv p.1 p.2 hΩ name

theorem detuning_full_turn {Ω : ℝ} (hΩ : 0 < Ω) (φ : ℝ) (name : Option String) :
    FirstOrderInsensitive fun d =>
      evolution (withDetuningError d (ofTable Ω [(2 * Real.pi, φ)] name)) := by
  rw [firstOrder_iff_of_deriv (detuning_singleton hΩ _ name), su2_z_eq_zero]
  simp

theorem sk1_tail_detuning {Ω : ℝ} (hΩ : 0 < Ω) (a b : ℝ) (name : Option String) :
    FirstOrderInsensitive fun d =>
      evolution (withDetuningError d (ofTable Ω [(2 * Real.pi, a), (2 * Real.pi, b)] name)) :=
  (detuning_append_iff hΩ.ne' [(2 * Real.pi, a)] [(2 * Real.pi, b)] name
    (detuning_full_turn hΩ a name) (detuning_full_turn hΩ b name)).2 rfl

/-- derivative of three pulses -/
theorem three_deriv {Ω : ℝ} (hΩ : 0 < Ω) (x y a b : ℝ) (name : Option String) :
    HasMatrixDerivAt (fun d => evolution (withDetuningError d (ofTable Ω [(x, a), (y, b), (x, a)] name)))
      (su2 0 0 0 ((Real.sin (y / 2) + 2 * Real.sin (x / 2) * Real.cos (x / 2) * Real.cos (y / 2)
        - 2 * Real.sin (x / 2) ^ 2 * Real.sin (y / 2) * Real.cos (b - a)) / Ω)) 0 := by
  have h1 := detuning_singleton hΩ (x, a) name
  have h2 := detuning_singleton hΩ (y, b) name
  have hp := (h1.mul h2).mul h1
  have e1 : (fun d => evolution (withDetuningError d (ofTable Ω [(x, a), (y, b), (x, a)] name))) =
      fun d => evolution (withDetuningError d (ofTable Ω [(x, a)] name)) *
        evolution (withDetuningError d (ofTable Ω [(y, b)] name)) *
        evolution (withDetuningError d (ofTable Ω [(x, a)] name)) := by
    funext d
    have := evolution_detuning_append Ω d [(x, a)] [(y, b), (x, a)] name
    have h' := evolution_detuning_append Ω d [(y, b)] [(x, a)] name
    simp only [List.cons_append, List.nil_append] at this h'
    rw [this, h']
  rw [e1]
  refine hp.congr ?_
  simp only [detuning_zero hΩ.ne', tableEvolution_cons, tableEvolution_nil, one_mul, rotation_eq,
    su2_mul, su2_add, su2_inj, Real.cos_sub]
  have qa := Real.cos_sq_add_sin_sq a
  have qx := Real.cos_sq_add_sin_sq (x / 2)
  generalize Real.cos a = ca at *
  generalize Real.sin a = sa at *
  generalize Real.cos b = cb at *
  generalize Real.sin b = sb at *
  generalize Real.cos (x / 2) = cx at *
  generalize Real.sin (x / 2) = sx at *
  generalize Real.cos (y / 2) = cy at *
  generalize Real.sin (y / 2) = sy at *
  refine ⟨?_, ?_, ?_, ?_⟩
  · field_simp; ring
  · field_simp; ring
  · field_simp; ring
  · field_simp
    linear_combination sy * qx + sx ^ 2 * sy * qa

theorem bb1_tail_detuning {Ω : ℝ} (hΩ : 0 < Ω) (a b : ℝ) (name : Option String) :
    FirstOrderInsensitive fun d => evolution (withDetuningError d
      (ofTable Ω [(Real.pi, a), (2 * Real.pi, b), (Real.pi, a)] name)) := by
  rw [firstOrder_iff_of_deriv (three_deriv hΩ Real.pi (2 * Real.pi) a b name), su2_z_eq_zero]
  simp

theorem whole_turns {θ Ω : ℝ} (hΩ : 0 < Ω) :
    su2 0 0 0 (Real.sin (θ / 2) / Ω) = 0 ↔ ∃ n : ℤ, θ = n * (2 * Real.pi) := by
  rw [su2_z_eq_zero, div_eq_zero_iff, or_iff_left hΩ.ne', Real.sin_eq_zero_iff]
  constructor
  · rintro ⟨n, hn⟩; exact ⟨n, by linarith⟩
  · rintro ⟨n, hn⟩; exact ⟨n, by linarith⟩

theorem scrofulous_detuning {θ₁ : ℝ} (hθ : 0 < θ₁) (h2 : |-Real.pi / (2 * θ₁)| ≤ 1) (θ φ : ℝ)
    {Ω : ℝ} (hΩ : 0 < Ω) (name : Option String) :
    ¬ FirstOrderInsensitive fun d =>
      evolution (withDetuningError d (ofTable Ω (scrofulousTable θ₁ θ φ) name)) := by
  unfold scrofulousTable
  dsimp only
  rw [firstOrder_iff_of_deriv (three_deriv hΩ θ₁ Real.pi _ _ name), su2_z_eq_zero]
  set φ₁ := Real.arccos (-Real.pi * Real.cos θ₁ / (2 * θ₁ * Real.sin (θ / 2)))
  have e : φ + (φ₁ - Real.arccos (-Real.pi / (2 * θ₁))) - (φ + φ₁) =
      -Real.arccos (-Real.pi / (2 * θ₁)) := by ring
  rw [abs_le] at h2
  rw [e, Real.cos_neg, Real.cos_arccos h2.1 h2.2, Real.sin_pi_div_two, Real.cos_pi_div_two]
  have : 0 ≤ Real.sin (θ₁ / 2) ^ 2 * (Real.pi / (2 * θ₁)) := by positivity
  have h3 : -Real.pi / (2 * θ₁) = -(Real.pi / (2 * θ₁)) := by ring
  rw [h3]
  refine div_ne_zero (ne_of_gt ?_) hΩ.ne'
  nlinarith

/-! ### second order in the amplitude -/

/-- the second-order response of SK1 is a commutator -/
theorem sk1_second_iff {θ : ℝ} (h0 : 0 < θ) (h : θ ≤ 4 * Real.pi) (φ : ℝ) :
    SecondOrderInsensitive (fun e =>
      tableEvolution ((sk1Table θ φ).map fun p => ((1 + e) * p.1, p.2))) ↔ θ = 4 * Real.pi := by
  have h1 := rotation_deriv θ φ 1
  have h2 := rotation_deriv (2 * Real.pi) (φ - wimperisAngle θ) 1
  have h3 := rotation_deriv (2 * Real.pi) (φ + wimperisAngle θ) 1
  have e1 : (fun e => tableEvolution ((sk1Table θ φ).map fun p => ((1 + e) * p.1, p.2))) =
      fun e => rotation ((1 + e) * (2 * Real.pi)) (φ + wimperisAngle θ) *
        rotation ((1 + e) * (2 * Real.pi)) (φ - wimperisAngle θ) * rotation ((1 + e) * θ) φ := by
    funext e
    simp only [sk1Table, List.map_cons, List.map_nil, tableEvolution_cons, tableEvolution_nil,
      one_mul]
  rw [e1]
  have hg : generator (2 * Real.pi) (φ + wimperisAngle θ) +
      generator (2 * Real.pi) (φ - wimperisAngle θ) + generator θ φ = 0 := by
    rw [generator, generator, generator, su2_add, su2_add, ← su2_zero, su2_inj, Real.cos_add,
      Real.cos_sub, Real.sin_add, Real.sin_sub, cos_wimperisAngle h0 h]
    have := Real.pi_pos
    refine ⟨by ring, ?_, ?_, by ring⟩ <;> field_simp <;> ring
  have hcomm : generator (2 * Real.pi) (φ + wimperisAngle θ) *
      generator (2 * Real.pi) (φ - wimperisAngle θ) -
      generator (2 * Real.pi) (φ - wimperisAngle θ) *
      generator (2 * Real.pi) (φ + wimperisAngle θ) = 0 ↔ θ = 4 * Real.pi := by
    rw [sub_eq_zero, generator, generator, su2_mul, su2_mul, su2_inj]
    have hpi := Real.pi_pos
    have hc := cos_wimperisAngle h0 h
    have hk : Real.cos (φ + wimperisAngle θ) * Real.sin (φ - wimperisAngle θ) -
        Real.sin (φ + wimperisAngle θ) * Real.cos (φ - wimperisAngle θ) =
        -(2 * Real.sin (wimperisAngle θ) * Real.cos (wimperisAngle θ)) := by
      rw [Real.cos_add, Real.cos_sub, Real.sin_add, Real.sin_sub]
      have q := Real.cos_sq_add_sin_sq φ
      linear_combination (-2 * Real.sin (wimperisAngle θ) * Real.cos (wimperisAngle θ)) * q
    have hq := Real.cos_sq_add_sin_sq (wimperisAngle θ)
    constructor
    · rintro ⟨-, -, -, h4⟩
      have h5 : Real.pi ^ 2 * (2 * Real.sin (wimperisAngle θ) * Real.cos (wimperisAngle θ)) = 0 := by
        linear_combination Real.pi ^ 2 * hk - h4 / 2
      have hcne : Real.cos (wimperisAngle θ) ≠ 0 := by
        rw [hc]; exact div_ne_zero (by linarith) (by positivity)
      have hs : Real.sin (wimperisAngle θ) = 0 := by
        have : Real.pi ^ 2 ≠ 0 := by positivity
        simpa [hcne, hpi.ne'] using h5
      rw [hs, hc] at hq
      have h6 : θ ^ 2 = (4 * Real.pi) ^ 2 := by
        rw [div_pow, zero_pow (by norm_num), add_zero, div_eq_iff (by positivity)] at hq
        linarith
      exact (pow_left_inj₀ h0.le (by positivity) (by norm_num)).1 h6
    · intro h4
      have hs : Real.sin (wimperisAngle θ) = 0 := by
        have hm : Real.cos (wimperisAngle θ) = -1 := by
          rw [hc, div_eq_iff (by positivity)]; linarith
        rw [hm] at hq
        have : Real.sin (wimperisAngle θ) ^ 2 = 0 := by linarith
        exact pow_eq_zero_iff (by norm_num) |>.1 this
      rw [hs] at hk
      refine ⟨by ring, by ring, by ring, ?_⟩
      linear_combination (2 * Real.pi ^ 2) * hk
  set G1 := generator (2 * Real.pi) (φ + wimperisAngle θ) with hG1
  set G2 := generator (2 * Real.pi) (φ - wimperisAngle θ) with hG2
  set G4 := generator θ φ with hG4
  set E1 := fun e => rotation ((1 + e) * (2 * Real.pi)) (φ + wimperisAngle θ) with hE1
  set E2 := fun e => rotation ((1 + e) * (2 * Real.pi)) (φ - wimperisAngle θ) with hE2
  set E4 := fun e => rotation ((1 + e) * θ) φ with hE4
  have z1 : E1 0 = -1 := by simp [hE1, rotation_two_pi]
  have z2 : E2 0 = -1 := by simp [hE2, rotation_two_pi]
  have z4 : E4 0 = rotation θ φ := by simp [hE4]
  have hG4' : G4 = -(G1 + G2) := by rw [eq_neg_iff_add_eq_zero, add_comm]; exact hg
  change (∃ U' : ℝ → M2, (∀ e, HasMatrixDerivAt (fun e => E1 e * E2 e * E4 e) (U' e) e) ∧
    U' 0 = 0 ∧ HasMatrixDerivAt U' 0 0) ↔ _
  have d1 : ∀ e, HasMatrixDerivAt E1 (G1 * E1 e) e := h3
  have d2 : ∀ e, HasMatrixDerivAt E2 (G2 * E2 e) e := h2
  have d4 : ∀ e, HasMatrixDerivAt E4 (G4 * E4 e) e := h1
  have dc : ∀ (A : M2) e, HasMatrixDerivAt (fun _ => A) 0 e := HasMatrixDerivAt.const
  have D : ∀ e, HasMatrixDerivAt (fun e => E1 e * E2 e * E4 e)
      ((G1 * E1 e * E2 e + E1 e * (G2 * E2 e)) * E4 e + E1 e * E2 e * (G4 * E4 e)) e :=
    fun e => ((d1 e).mul (d2 e)).mul (d4 e)
  have D0 : (G1 * E1 0 * E2 0 + E1 0 * (G2 * E2 0)) * E4 0 + E1 0 * E2 0 * (G4 * E4 0) = 0 := by
    rw [z1, z2, hG4']
    noncomm_ring
  have DD : HasMatrixDerivAt (fun e =>
      (G1 * E1 e * E2 e + E1 e * (G2 * E2 e)) * E4 e + E1 e * E2 e * (G4 * E4 e))
      ((G1 * G2 - G2 * G1) * rotation θ φ) 0 := by
    have g1 : HasMatrixDerivAt (fun e => G1 * E1 e) (0 * E1 0 + G1 * (G1 * E1 0)) 0 :=
      (dc G1 0).mul (d1 0)
    have g2 : HasMatrixDerivAt (fun e => G2 * E2 e) (0 * E2 0 + G2 * (G2 * E2 0)) 0 :=
      (dc G2 0).mul (d2 0)
    have g4 : HasMatrixDerivAt (fun e => G4 * E4 e) (0 * E4 0 + G4 * (G4 * E4 0)) 0 :=
      (dc G4 0).mul (d4 0)
    have a12 := (g1.mul (d2 0)).add ((d1 0).mul g2)
    have p12 := (d1 0).mul (d2 0)
    have fin := (a12.mul (d4 0)).add (p12.mul g4)
    refine fin.congr ?_
    rw [z1, z2, z4, hG4']
    noncomm_ring
  rw [← hcomm]
  constructor
  · rintro ⟨U', hU, -, hU2⟩
    have : U' = _ := funext fun e => (hU e).unique (D e)
    rw [this] at hU2
    exact rotation_right_cancel (DD.unique hU2)
  · intro hz
    refine ⟨_, D, D0, ?_⟩
    rw [hz, Matrix.zero_mul] at DD
    exact DD

/-- real and imaginary parts inherit second-order insensitivity -/
theorem Spec.SecondOrderInsensitive.proj {U : ℝ → M2} (h : SecondOrderInsensitive U) (i j : Fin 2)
    (l : ℂ →L[ℝ] ℝ) : ∃ g : ℝ → ℝ, (∀ e, HasDerivAt (fun e => l (U e i j)) (g e) e) ∧
      HasDerivAt g 0 0 := by
  obtain ⟨U', h1, -, h3⟩ := h
  refine ⟨fun e => l (U' e i j), fun e => l.hasFDerivAt.comp_hasDerivAt e (h1 e i j), ?_⟩
  have := l.hasFDerivAt.comp_hasDerivAt (0 : ℝ) (h3 i j)
  rw [Matrix.zero_apply, map_zero] at this
  exact this

/-- component of three pulses orthogonal to the outer axis -/
theorem three_component (x y a b : ℝ) :
    (Real.sin a * ((rotation x a * rotation y b * rotation x a) 0 1).im -
      Real.cos a * ((rotation x a * rotation y b * rotation x a) 0 1).re) =
      Real.sin (b - a) * Real.sin (y / 2) := by
  rw [rotation_eq, rotation_eq, su2_mul, su2_mul, Real.sin_sub]
  have qa := Real.cos_sq_add_sin_sq a
  have qx := Real.cos_sq_add_sin_sq (x / 2)
  generalize Real.cos a = ca at *
  generalize Real.sin a = sa at *
  generalize Real.cos b = cb at *
  generalize Real.sin b = sb at *
  generalize Real.cos (x / 2) = cx at *
  generalize Real.sin (x / 2) = sx at *
  generalize Real.cos (y / 2) = cy at *
  generalize Real.sin (y / 2) = sy at *
  simp [su2]
  linear_combination (sy * (ca * sb - cb * sa)) * qx + (sy * sx ^ 2 * (ca * sb - cb * sa)) * qa

theorem scrofulous_not_second {θ₁ : ℝ} (hθ : Real.pi / 2 < θ₁) (θ φ : ℝ) :
    ¬ SecondOrderInsensitive (fun e =>
      tableEvolution ((scrofulousTable θ₁ θ φ).map fun p => ((1 + e) * p.1, p.2))) := by
  intro h
  have hpi := Real.pi_pos
  have hθ0 : 0 < θ₁ := by linarith
  set φ₁ := Real.arccos (-Real.pi * Real.cos θ₁ / (2 * θ₁ * Real.sin (θ / 2))) with hφ₁
  set δ := Real.arccos (-Real.pi / (2 * θ₁)) with hδ
  have hlt : Real.pi / (2 * θ₁) < 1 := by rw [div_lt_one (by positivity)]; linarith
  have hpos : 0 < Real.pi / (2 * θ₁) := by positivity
  have hneg : -Real.pi / (2 * θ₁) = -(Real.pi / (2 * θ₁)) := by ring
  have hs : 0 < Real.sin δ := by
    refine Real.sin_pos_of_pos_of_lt_pi (Real.arccos_pos.2 (by rw [hneg]; linarith)) ?_
    rw [hδ]
    conv_rhs => rw [← Real.arccos_neg_one]
    exact Real.strictAntiOn_arccos (by constructor <;> norm_num)
      (by rw [hneg]; constructor <;> linarith) (by rw [hneg]; linarith)
  obtain ⟨g, hg1, hg2⟩ := Spec.SecondOrderInsensitive.proj h 0 1
    (Real.sin (φ + φ₁) • Complex.imCLM - Real.cos (φ + φ₁) • Complex.reCLM)
  have e1 : ∀ e : ℝ, (Real.sin (φ + φ₁) • Complex.imCLM - Real.cos (φ + φ₁) • Complex.reCLM)
      ((tableEvolution ((scrofulousTable θ₁ θ φ).map fun p => ((1 + e) * p.1, p.2))) 0 1) =
      -Real.sin δ * Real.sin ((1 + e) * Real.pi / 2) := by
    intro e
    have h3 := three_component ((1 + e) * θ₁) ((1 + e) * Real.pi) (φ + φ₁) (φ + (φ₁ - δ))
    have ha : φ + (φ₁ - δ) - (φ + φ₁) = -δ := by ring
    rw [ha, Real.sin_neg] at h3
    rw [← h3]
    simp only [scrofulousTable, List.map_cons, List.map_nil, tableEvolution_cons,
      tableEvolution_nil, one_mul, Matrix.mul_assoc]
    simp [hφ₁, hδ, Matrix.mul_assoc]
  have hl : ∀ e : ℝ, HasDerivAt (fun e : ℝ => (1 + e) * Real.pi / 2) (Real.pi / 2) e := by
    intro e
    have := (((hasDerivAt_id e).const_add 1).mul_const Real.pi).div_const 2
    simpa using this
  have hd : ∀ e : ℝ, HasDerivAt (fun e => -Real.sin δ * Real.sin ((1 + e) * Real.pi / 2))
      (-Real.sin δ * (Real.cos ((1 + e) * Real.pi / 2) * (Real.pi / 2))) e :=
    fun e => (hl e).sin.const_mul _
  have hgeq : g = fun e => -Real.sin δ * (Real.cos ((1 + e) * Real.pi / 2) * (Real.pi / 2)) := by
    funext e
    have := hg1 e
    simp only [e1] at this
    exact this.unique (hd e)
  rw [hgeq] at hg2
  have hd2 := ((hl 0).cos.mul_const (Real.pi / 2)).const_mul (-Real.sin δ)
  have := hg2.unique hd2
  rw [add_zero, one_mul, Real.sin_pi_div_two] at this
  have : Real.sin δ * (Real.pi / 2) ^ 2 = 0 := by linarith
  have h2 : 0 < Real.sin δ * (Real.pi / 2) ^ 2 := by positivity
  linarith

theorem scrofulousAngle_gt (θ : ℝ) : Real.pi / 2 < scrofulousAngle θ := by
  have := Real.pi_pos
  unfold scrofulousAngle
  split
  · linarith
  · split <;> norm_num <;> linarith

end OpenControls
