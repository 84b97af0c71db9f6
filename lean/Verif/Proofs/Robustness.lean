import Verif.Spec.Robustness
import Verif.Proofs.Composite
import Mathlib.Analysis.SpecialFunctions.Trigonometric.Deriv
import Mathlib.Analysis.SpecialFunctions.Sqrt
import Mathlib.Analysis.Complex.RealDeriv

/-!
# Derivatives of evolutions with respect to systematic errors
-/

namespace OpenControls

open Spec RealInst

theorem Spec.HasMatrixDerivAt.mul {U V : ℝ → M2} {U' V' : M2} {x : ℝ} (hU : HasMatrixDerivAt U U' x)
    (hV : HasMatrixDerivAt V V' x) :
    HasMatrixDerivAt (fun e => U e * V e) (U' * V x + U x * V') x := by
  intro i j
  have h := ((hU i 0).fun_mul (hV 0 j)).fun_add ((hU i 1).fun_mul (hV 1 j))
  have e1 : (fun e => (U e * V e) i j) = fun e => U e i 0 * V e 0 j + U e i 1 * V e 1 j := by
    funext e; rw [Matrix.mul_apply, Fin.sum_univ_two]
  rw [e1]
  refine h.congr_deriv ?_
  rw [Matrix.add_apply, Matrix.mul_apply, Matrix.mul_apply, Fin.sum_univ_two, Fin.sum_univ_two]
  ring

theorem Spec.HasMatrixDerivAt.add {U V : ℝ → M2} {U' V' : M2} {x : ℝ} (hU : HasMatrixDerivAt U U' x)
    (hV : HasMatrixDerivAt V V' x) :
    HasMatrixDerivAt (fun e => U e + V e) (U' + V') x := fun i j => (hU i j).add (hV i j)

theorem Spec.HasMatrixDerivAt.const (A : M2) (x : ℝ) : HasMatrixDerivAt (fun _ => A) 0 x :=
  fun i j => hasDerivAt_const x (A i j)

theorem Spec.HasMatrixDerivAt.congr {U : ℝ → M2} {U' V' : M2} {x : ℝ} (hU : HasMatrixDerivAt U U' x)
    (h : U' = V') : HasMatrixDerivAt U V' x := h ▸ hU

theorem Spec.HasMatrixDerivAt.su2 {a b c d : ℝ → ℝ} {a' b' c' d' x : ℝ} (ha : HasDerivAt a a' x)
    (hb : HasDerivAt b b' x) (hc : HasDerivAt c c' x) (hd : HasDerivAt d d' x) :
    HasMatrixDerivAt (fun e => su2 (a e) (b e) (c e) (d e)) (su2 a' b' c' d') x := by
  have key : ∀ {f g : ℝ → ℝ} {f' g' : ℝ}, HasDerivAt f f' x → HasDerivAt g g' x →
      HasDerivAt (fun e => (⟨f e, g e⟩ : ℂ)) ⟨f', g'⟩ x := by
    intro f g f' g' hf hg
    have h := hf.ofReal_comp.fun_add (hg.ofReal_comp.mul_const Complex.I)
    have e1 : (fun e => (⟨f e, g e⟩ : ℂ)) = fun e => (f e : ℂ) + (g e : ℂ) * Complex.I := by
      funext e; simp [Complex.ext_iff]
    rw [e1]
    refine h.congr_deriv ?_
    simp [Complex.ext_iff]
  intro i j
  fin_cases i <;> fin_cases j <;>
    simp only [OpenControls.su2, Fin.zero_eta, Fin.mk_one, Matrix.of_apply, Matrix.cons_val',
      Matrix.cons_val_zero, Matrix.cons_val_one, Matrix.cons_val_fin_one]
  · exact key ha hd.neg
  · exact key hc.neg hb.neg
  · exact key hc hb.neg
  · exact key ha hd

/-- generator of a rotation: `-i θ/2 (cos φ σx + sin φ σy)` -/
noncomputable def generator (θ φ : ℝ) : M2 :=
  su2 0 (θ / 2 * Real.cos φ) (θ / 2 * Real.sin φ) 0

theorem su2_add (a b c d a' b' c' d' : ℝ) :
    su2 a b c d + su2 a' b' c' d' = su2 (a + a') (b + b') (c + c') (d + d') := by
  ext i j
  fin_cases i <;> fin_cases j <;> simp [su2, Complex.ext_iff, add_comm]

theorem su2_zero : su2 0 0 0 0 = 0 := by
  ext i j
  fin_cases i <;> fin_cases j <;> simp [su2, Complex.ext_iff]

theorem rotation_deriv (θ φ s e : ℝ) : HasMatrixDerivAt (fun e => rotation ((s + e) * θ) φ)
    (generator θ φ * rotation ((s + e) * θ) φ) e := by
  have h : ∀ x, HasDerivAt (fun x : ℝ => (s + x) * θ / 2) (θ / 2) x := by
    intro x
    have := (((hasDerivAt_id x).const_add s).mul_const θ).div_const 2
    simpa using this
  have hc := (h e).cos
  have hs := (h e).sin
  have hd := HasMatrixDerivAt.su2 hc (hs.mul_const (Real.cos φ)) (hs.mul_const (Real.sin φ))
    (hasDerivAt_const e (0 : ℝ))
  have e1 : (fun e => rotation ((s + e) * θ) φ) = fun x => su2 (Real.cos ((s + x) * θ / 2))
      (Real.sin ((s + x) * θ / 2) * Real.cos φ) (Real.sin ((s + x) * θ / 2) * Real.sin φ) 0 := by
    funext x; rw [rotation_eq]
  rw [e1]
  refine hd.congr ?_
  have q := Real.cos_sq_add_sin_sq φ
  rw [generator, rotation_eq, su2_mul, su2_inj]
  refine ⟨?_, by ring, by ring, by ring⟩
  linear_combination (θ / 2 * Real.sin ((s + e) * θ / 2)) * q

/-- evolution of a table under an amplitude error -/
theorem evolution_amplitude {Ω : ℝ} (hΩ : Ω ≠ 0) (t : List (ℝ × ℝ)) (name : Option String) (e : ℝ) :
    evolution (withAmplitudeError e (ofTable Ω t name)) =
      tableEvolution (t.map fun p => ((1 + e) * p.1, p.2)) := by
  unfold evolution withAmplitudeError ofTable
  induction t with
  | nil => rfl
  | cons p t ih =>
    simp only [List.map_cons] at ih ⊢
    rw [controlEvolution_cons, ih, tableEvolution_cons, segmentUnitary_resonant]
    congr 2
    field_simp

theorem cos_wimperisAngle {θ : ℝ} (h0 : 0 < θ) (h : θ ≤ 4 * Real.pi) :
    Real.cos (wimperisAngle θ) = -θ / (4 * Real.pi) := by
  have := Real.pi_pos
  apply Real.cos_arccos
  · rw [le_div_iff₀ (by positivity)]; linarith
  · rw [div_le_iff₀ (by positivity)]; linarith

/-- CORPSE responds to an amplitude error exactly like a primitive pulse. -/
theorem corpse_amplitude (θ φ k : ℝ) :
    tableEvolution ((corpseTable θ φ).map fun p => (k * p.1, p.2)) = rotation (k * θ) φ := by
  simp only [corpseTable, List.map_cons, List.map_nil, tableEvolution_cons, tableEvolution_nil,
    one_mul]
  rw [rotation_axis_add_pi, rotation_mul_same, rotation_mul_same]
  congr 1; ring

theorem corpseEach_amplitude (t : List (ℝ × ℝ)) (k : ℝ) :
    tableEvolution ((corpseEach t).map fun p => (k * p.1, p.2)) =
      tableEvolution (t.map fun p => (k * p.1, p.2)) := by
  induction t with
  | nil => rfl
  | cons p t ih =>
    have : corpseEach (p :: t) = corpseTable p.1 p.2 ++ corpseEach t := by simp [corpseEach]
    rw [this, List.map_append, tableEvolution_append, ih, corpse_amplitude, List.map_cons,
      tableEvolution_cons]

theorem corpseFirst_amplitude (t : List (ℝ × ℝ)) (k : ℝ) :
    tableEvolution ((corpseFirst t).map fun p => (k * p.1, p.2)) =
      tableEvolution (t.map fun p => (k * p.1, p.2)) := by
  cases t with
  | nil => rfl
  | cons p t =>
    rw [corpseFirst, List.map_append, tableEvolution_append, corpse_amplitude, List.map_cons,
      tableEvolution_cons]

theorem sk1_first_order {θ : ℝ} (h0 : 0 < θ) (h : θ ≤ 4 * Real.pi) (φ : ℝ) :
    FirstOrderInsensitive fun e =>
      tableEvolution ((sk1Table θ φ).map fun p => ((1 + e) * p.1, p.2)) := by
  have h1 := rotation_deriv θ φ 1 0
  have h2 := rotation_deriv (2 * Real.pi) (φ - wimperisAngle θ) 1 0
  have h3 := rotation_deriv (2 * Real.pi) (φ + wimperisAngle θ) 1 0
  have hp := HasMatrixDerivAt.mul (HasMatrixDerivAt.mul h3 h2) h1
  have e1 : (fun e => tableEvolution ((sk1Table θ φ).map fun p => ((1 + e) * p.1, p.2))) =
      fun e => rotation ((1 + e) * (2 * Real.pi)) (φ + wimperisAngle θ) *
        rotation ((1 + e) * (2 * Real.pi)) (φ - wimperisAngle θ) * rotation ((1 + e) * θ) φ := by
    funext e
    simp only [sk1Table, List.map_cons, List.map_nil, tableEvolution_cons, tableEvolution_nil,
      one_mul]
  rw [FirstOrderInsensitive, e1]
  refine hp.congr ?_
  simp only [add_zero, one_mul, rotation_two_pi]
  have hg : generator (2 * Real.pi) (φ + wimperisAngle θ) +
      generator (2 * Real.pi) (φ - wimperisAngle θ) + generator θ φ = 0 := by
    rw [generator, generator, generator, su2_add, su2_add, ← su2_zero, su2_inj, Real.cos_add,
      Real.cos_sub, Real.sin_add, Real.sin_sub, cos_wimperisAngle h0 h]
    have := Real.pi_pos
    refine ⟨by ring, ?_, ?_, by ring⟩ <;> field_simp <;> ring
  have : (generator (2 * Real.pi) (φ + wimperisAngle θ) * -1 * -1 +
      -1 * (generator (2 * Real.pi) (φ - wimperisAngle θ) * -1)) * rotation θ φ +
      -1 * -1 * (generator θ φ * rotation θ φ) =
      (generator (2 * Real.pi) (φ + wimperisAngle θ) +
      generator (2 * Real.pi) (φ - wimperisAngle θ) + generator θ φ) * rotation θ φ := by
    noncomm_ring
  rw [this, hg, Matrix.zero_mul]

/-- a pulse between two `π` pulses about the same axis is a pulse about the reflected axis -/
theorem rotation_reflect (x a b : ℝ) :
    rotation Real.pi a * rotation x b * rotation Real.pi a = -rotation x (2 * a - b) := by
  rw [rotation_eq, rotation_eq, rotation_eq, su2_mul, su2_mul, su2_neg, su2_inj,
    Real.cos_pi_div_two, Real.sin_pi_div_two, Real.cos_sub, Real.sin_sub, Real.cos_two_mul,
    Real.sin_two_mul]
  have q := Real.cos_sq_add_sin_sq a
  generalize Real.cos a = c at *
  generalize Real.sin a = s at *
  refine ⟨?_, ?_, ?_, by ring⟩
  · linear_combination (-Real.cos (x / 2)) * q
  · linear_combination (Real.sin (x / 2) * Real.cos b) * q
  · linear_combination (-Real.sin (x / 2) * Real.sin b) * q

theorem bb1_amplitude (θ φ e : ℝ) :
    tableEvolution ((bb1Table θ φ).map fun p => ((1 + e) * p.1, p.2)) =
      rotation ((0 + e) * Real.pi) (φ + wimperisAngle θ) *
      rotation ((0 + e) * (2 * Real.pi)) (φ - wimperisAngle θ) *
      rotation ((0 + e) * Real.pi) (φ + wimperisAngle θ) *
      rotation ((0 + e) * θ) φ * rotation θ φ := by
  simp only [bb1Table, List.map_cons, List.map_nil, tableEvolution_cons, tableEvolution_nil,
    one_mul]
  have e1 : ∀ x y, rotation ((1 + e) * x) y = rotation ((0 + e) * x) y * rotation x y := by
    intro x y; rw [rotation_mul_same]; congr 1; ring
  have e2 : rotation ((1 + e) * Real.pi) (φ + wimperisAngle θ) =
      rotation Real.pi (φ + wimperisAngle θ) *
        rotation ((0 + e) * Real.pi) (φ + wimperisAngle θ) := by
    rw [rotation_mul_same]; congr 1; ring
  have e3 : φ - wimperisAngle θ =
      2 * (φ + wimperisAngle θ) - (φ + 3 * wimperisAngle θ) := by ring
  rw [e1 θ φ, e1 (2 * Real.pi), rotation_two_pi, e3]
  have e4 := rotation_reflect ((0 + e) * (2 * Real.pi)) (φ + wimperisAngle θ)
    (φ + 3 * wimperisAngle θ)
  have e5 : rotation ((0 + e) * (2 * Real.pi)) (2 * (φ + wimperisAngle θ) -
      (φ + 3 * wimperisAngle θ)) = -(rotation Real.pi (φ + wimperisAngle θ) *
        rotation ((0 + e) * (2 * Real.pi)) (φ + 3 * wimperisAngle θ) *
        rotation Real.pi (φ + wimperisAngle θ)) := by rw [e4, neg_neg]
  rw [e5]
  conv_lhs => rw [e2]
  nth_rewrite 1 [← e2]
  rw [e1 Real.pi]
  noncomm_ring

theorem bb1_second_order {θ : ℝ} (h0 : 0 < θ) (h : θ ≤ 4 * Real.pi) (φ : ℝ) :
    SecondOrderInsensitive fun e =>
      tableEvolution ((bb1Table θ φ).map fun p => ((1 + e) * p.1, p.2)) := by
  have e0 : (fun e => tableEvolution ((bb1Table θ φ).map fun p => ((1 + e) * p.1, p.2))) = _ :=
    funext fun e => bb1_amplitude θ φ e
  rw [SecondOrderInsensitive, e0]
  have h1 := rotation_deriv Real.pi (φ + wimperisAngle θ) 0
  have h2 := rotation_deriv (2 * Real.pi) (φ - wimperisAngle θ) 0
  have h4 := rotation_deriv θ φ 0
  have hg : generator Real.pi (φ + wimperisAngle θ) +
      generator (2 * Real.pi) (φ - wimperisAngle θ) + generator Real.pi (φ + wimperisAngle θ) +
      generator θ φ = 0 := by
    rw [generator, generator, generator, su2_add, su2_add, su2_add, ← su2_zero, su2_inj,
      Real.cos_add, Real.cos_sub, Real.sin_add, Real.sin_sub, cos_wimperisAngle h0 h]
    have := Real.pi_pos
    refine ⟨by ring, ?_, ?_, by ring⟩ <;> field_simp <;> ring
  set G1 := generator Real.pi (φ + wimperisAngle θ) with hG1
  set G2 := generator (2 * Real.pi) (φ - wimperisAngle θ) with hG2
  set G4 := generator θ φ with hG4
  set E1 := fun e => rotation ((0 + e) * Real.pi) (φ + wimperisAngle θ) with hE1
  set E2 := fun e => rotation ((0 + e) * (2 * Real.pi)) (φ - wimperisAngle θ) with hE2
  set E4 := fun e => rotation ((0 + e) * θ) φ with hE4
  set R := rotation θ φ with hR
  have z1 : E1 0 = 1 := by simp [hE1, rotation_zero]
  have z2 : E2 0 = 1 := by simp [hE2, rotation_zero]
  have z4 : E4 0 = 1 := by simp [hE4, rotation_zero]
  have hG4' : G4 = -(G1 + G2 + G1) := by rw [eq_neg_iff_add_eq_zero, add_comm]; exact hg
  change ∃ U' : ℝ → M2, (∀ e, HasMatrixDerivAt (fun e => E1 e * E2 e * E1 e * E4 e * R) (U' e) e) ∧
    U' 0 = 0 ∧ HasMatrixDerivAt U' 0 0
  have d1 : ∀ e, HasMatrixDerivAt E1 (G1 * E1 e) e := h1
  have d2 : ∀ e, HasMatrixDerivAt E2 (G2 * E2 e) e := h2
  have d4 : ∀ e, HasMatrixDerivAt E4 (G4 * E4 e) e := h4
  have dc : ∀ (A : M2) e, HasMatrixDerivAt (fun _ => A) 0 e := HasMatrixDerivAt.const
  refine ⟨fun e => _, fun e => ((((d1 e).mul (d2 e)).mul (d1 e)).mul (d4 e)).mul (dc R e), ?_, ?_⟩
  · simp only [z1, z2, z4]
    rw [hG4']
    noncomm_ring
  · have g1 : HasMatrixDerivAt (fun e => G1 * E1 e) (0 * E1 0 + G1 * (G1 * E1 0)) 0 :=
      (dc G1 0).mul (d1 0)
    have g2 : HasMatrixDerivAt (fun e => G2 * E2 e) (0 * E2 0 + G2 * (G2 * E2 0)) 0 :=
      (dc G2 0).mul (d2 0)
    have g4 : HasMatrixDerivAt (fun e => G4 * E4 e) (0 * E4 0 + G4 * (G4 * E4 0)) 0 :=
      (dc G4 0).mul (d4 0)
    have a12 := (g1.mul (d2 0)).add ((d1 0).mul g2)
    have p12 := (d1 0).mul (d2 0)
    have a123 := (a12.mul (d1 0)).add (p12.mul g1)
    have p123 := p12.mul (d1 0)
    have a1234 := (a123.mul (d4 0)).add (p123.mul g4)
    have p1234 := p123.mul (d4 0)
    have fin := (a1234.mul (dc R 0)).add (p1234.mul (dc (0 : M2) 0))
    refine fin.congr ?_
    simp only [z1, z2, z4]
    rw [hG4']
    noncomm_ring

/-- derivative of a resonant segment with respect to the detuning -/
theorem segment_detuning_deriv {Ω : ℝ} (hΩ : 0 < Ω) (φ t : ℝ) :
    HasMatrixDerivAt (fun d => segmentUnitary Ω φ (0 + d) t)
      (su2 0 0 0 (Real.sin (Ω * t / 2) / Ω)) 0 := by
  have hpos : ∀ d : ℝ, 0 < Ω ^ 2 + d ^ 2 := fun d => by positivity
  have e1 : (fun d => segmentUnitary Ω φ (0 + d) t) = fun d =>
      su2 (Real.cos (Real.sqrt (Ω ^ 2 + d ^ 2) * t / 2))
        (Ω * Real.cos φ / Real.sqrt (Ω ^ 2 + d ^ 2) * Real.sin (Real.sqrt (Ω ^ 2 + d ^ 2) * t / 2))
        (Ω * Real.sin φ / Real.sqrt (Ω ^ 2 + d ^ 2) * Real.sin (Real.sqrt (Ω ^ 2 + d ^ 2) * t / 2))
        (d / Real.sqrt (Ω ^ 2 + d ^ 2) * Real.sin (Real.sqrt (Ω ^ 2 + d ^ 2) * t / 2)) := by
    funext d
    rw [zero_add, segmentUnitary_eq Ω φ d t (Real.sqrt (Ω ^ 2 + d ^ 2))
      (Real.sq_sqrt (hpos d).le) (Real.sqrt_pos.mpr (hpos d)).ne', su2_inj]
    refine ⟨rfl, by ring, by ring, by ring⟩
  rw [e1]
  have hq : Real.sqrt (Ω ^ 2 + 0 ^ 2) = Ω := by
    rw [zero_pow (by norm_num), add_zero, Real.sqrt_sq hΩ.le]
  have hr : HasDerivAt (fun d : ℝ => Real.sqrt (Ω ^ 2 + d ^ 2)) 0 0 := by
    have h1 : HasDerivAt (fun d : ℝ => Ω ^ 2 + d ^ 2) 0 0 := by
      have := ((hasDerivAt_id (0 : ℝ)).pow 2).const_add (Ω ^ 2)
      simpa using this
    have := h1.sqrt (hpos 0).ne'
    simpa using this
  have hrt : HasDerivAt (fun d : ℝ => Real.sqrt (Ω ^ 2 + d ^ 2) * t / 2) 0 0 := by
    have := (hr.mul_const t).div_const 2
    simpa using this
  have hcos := hrt.cos
  have hsin := hrt.sin
  have hne : Real.sqrt (Ω ^ 2 + 0 ^ 2) ≠ 0 := by rw [hq]; exact hΩ.ne'
  have hb := ((hasDerivAt_const (0 : ℝ) (Ω * Real.cos φ)).div hr hne).mul hsin
  have hc := ((hasDerivAt_const (0 : ℝ) (Ω * Real.sin φ)).div hr hne).mul hsin
  have hd := ((hasDerivAt_id (0 : ℝ)).div hr hne).mul hsin
  refine (HasMatrixDerivAt.su2 hcos hb hc hd).congr ?_
  rw [su2_inj]
  simp only [hq]
  refine ⟨by simp, by simp, by simp, ?_⟩
  simp
  field_simp

theorem corpse_first_order {Ω : ℝ} (hΩ : 0 < Ω) (θ φ : ℝ) (name : Option String) :
    FirstOrderInsensitive fun d => evolution (withDetuningError d (ofTable Ω (corpseTable θ φ) name)) := by
  have h1 := segment_detuning_deriv hΩ φ ((2 * Real.pi + θ / 2 - corpseAngle θ) / Ω)
  have h2 := segment_detuning_deriv hΩ (φ + Real.pi) ((2 * Real.pi - 2 * corpseAngle θ) / Ω)
  have h3 := segment_detuning_deriv hΩ φ ((θ / 2 - corpseAngle θ) / Ω)
  have hp := (HasMatrixDerivAt.mul h3 h2).mul h1
  have e1 : (fun d => evolution (withDetuningError d (ofTable Ω (corpseTable θ φ) name))) =
      fun d => segmentUnitary Ω φ (0 + d) ((θ / 2 - corpseAngle θ) / Ω) *
        segmentUnitary Ω (φ + Real.pi) (0 + d) ((2 * Real.pi - 2 * corpseAngle θ) / Ω) *
        segmentUnitary Ω φ (0 + d) ((2 * Real.pi + θ / 2 - corpseAngle θ) / Ω) := by
    funext d
    simp only [evolution, withDetuningError, ofTable, corpseTable, List.map_cons, List.map_nil,
      controlEvolution_cons, controlEvolution_nil, one_mul]
  rw [FirstOrderInsensitive, e1]
  refine hp.congr ?_
  rw [zero_add]
  simp only [segmentUnitary_resonant, mul_div_cancel₀ _ hΩ.ne', rotation_axis_add_pi]
  rw [rotation_eq, rotation_eq, rotation_eq]
  have hk : Real.sin (corpseAngle θ) = Real.sin (θ / 2) / 2 := by
    apply Real.sin_arcsin
    · linarith [Real.neg_one_le_sin (θ / 2)]
    · linarith [Real.sin_le_one (θ / 2)]
  set k := corpseAngle θ with hkdef
  set m := (θ / 2 - k) / 2 with hm
  have a1 : (2 * Real.pi + θ / 2 - k) / 2 = m + Real.pi := by rw [hm]; ring
  have a2 : (2 * Real.pi - 2 * k) / 2 = Real.pi - k := by ring
  have a2' : -(2 * Real.pi - 2 * k) / 2 = -(Real.pi - k) := by ring
  have hθ : θ / 2 = 2 * m + k := by rw [hm]; ring
  rw [hθ, Real.sin_add, Real.sin_two_mul, Real.cos_two_mul] at hk
  have q := Real.cos_sq_add_sin_sq φ
  have qm := Real.cos_sq_add_sin_sq m
  rw [a1, a2, a2', ← su2_zero]
  simp only [su2_mul, su2_add, Real.cos_add_pi, Real.sin_add_pi, Real.cos_neg, Real.sin_neg,
    Real.cos_pi_sub, Real.sin_pi_sub, su2_inj]
  generalize Real.cos φ = x at *
  generalize Real.sin φ = y at *
  generalize Real.cos m = cm at *
  generalize Real.sin m = sm at *
  generalize Real.cos k = ck at *
  generalize Real.sin k = sk at *
  refine ⟨?_, ?_, ?_, ?_⟩
  · field_simp; ring
  · field_simp; ring
  · field_simp; ring
  · field_simp
    linear_combination (-2) * hk - 3 * sk * sm ^ 2 * q - 3 * sk * qm

theorem evolution_detuning_append (Ω d : ℝ) (t t' : List (ℝ × ℝ)) (name : Option String) :
    evolution (withDetuningError d (ofTable Ω (t ++ t') name)) =
      evolution (withDetuningError d (ofTable Ω t' name)) *
        evolution (withDetuningError d (ofTable Ω t name)) := by
  unfold evolution withDetuningError ofTable
  induction t with
  | nil => simp [controlEvolution_nil]
  | cons p t ih =>
    simp only [List.cons_append, List.map_cons] at ih ⊢
    rw [controlEvolution_cons, controlEvolution_cons, ih, Matrix.mul_assoc]

/-- If every pulse is replaced by CORPSE, detuning errors cancel to first order. -/
theorem corpseEach_detuning {Ω : ℝ} (hΩ : 0 < Ω) (t : List (ℝ × ℝ)) (name : Option String) :
    FirstOrderInsensitive fun d =>
      evolution (withDetuningError d (ofTable Ω (corpseEach t) name)) := by
  induction t with
  | nil => exact HasMatrixDerivAt.const 1 0
  | cons p t ih =>
    have e1 : (fun d => evolution (withDetuningError d (ofTable Ω (corpseEach (p :: t)) name))) =
        fun d => evolution (withDetuningError d (ofTable Ω (corpseEach t) name)) *
          evolution (withDetuningError d (ofTable Ω (corpseTable p.1 p.2) name)) := by
      funext d
      have : corpseEach (p :: t) = corpseTable p.1 p.2 ++ corpseEach t := by simp [corpseEach]
      rw [this, evolution_detuning_append]
    rw [FirstOrderInsensitive, e1]
    refine (HasMatrixDerivAt.mul ih (corpse_first_order hΩ p.1 p.2 name)).congr ?_
    simp

/-- SCROFULOUS is insensitive to amplitude errors to first order, for every first angle for which
the second `arccos` argument is in range. -/
theorem scrofulous_first_order {θ₁ : ℝ} (hθ : θ₁ ≠ 0) (h2 : |-Real.pi / (2 * θ₁)| ≤ 1) (θ φ : ℝ) :
    FirstOrderInsensitive fun e =>
      tableEvolution ((scrofulousTable θ₁ θ φ).map fun p => ((1 + e) * p.1, p.2)) := by
  set φ₁ := Real.arccos (-Real.pi * Real.cos θ₁ / (2 * θ₁ * Real.sin (θ / 2))) with hφ₁
  set δ := Real.arccos (-Real.pi / (2 * θ₁)) with hδ
  have hcδ : Real.cos δ = -Real.pi / (2 * θ₁) := by
    rw [abs_le] at h2; exact Real.cos_arccos h2.1 h2.2
  have h1 := rotation_deriv θ₁ (φ + φ₁) 1 0
  have h2 := rotation_deriv Real.pi (φ + (φ₁ - δ)) 1 0
  have hp := (HasMatrixDerivAt.mul h1 h2).mul h1
  have e1 : (fun e => tableEvolution ((scrofulousTable θ₁ θ φ).map fun p => ((1 + e) * p.1, p.2))) =
      fun e => rotation ((1 + e) * θ₁) (φ + φ₁) * rotation ((1 + e) * Real.pi) (φ + (φ₁ - δ)) *
        rotation ((1 + e) * θ₁) (φ + φ₁) := by
    funext e
    simp only [scrofulousTable, List.map_cons, List.map_nil, tableEvolution_cons,
      tableEvolution_nil, one_mul]
    rfl
  rw [FirstOrderInsensitive, e1]
  refine hp.congr ?_
  simp only [add_zero, one_mul]
  have ea : φ + (φ₁ - δ) = (φ + φ₁) - δ := by ring
  rw [ea, generator, generator, rotation_eq, rotation_eq, Real.cos_pi_div_two,
    Real.sin_pi_div_two, Real.cos_sub, Real.sin_sub, ← su2_zero]
  have hr : Real.pi / 2 = -θ₁ * Real.cos δ := by rw [hcδ]; field_simp
  rw [hr]
  simp only [su2_mul, su2_add, su2_inj]
  have q1 := Real.cos_sq_add_sin_sq (φ + φ₁)
  have qd := Real.cos_sq_add_sin_sq δ
  have qt := Real.cos_sq_add_sin_sq (θ₁ / 2)
  generalize Real.cos (φ + φ₁) = x at *
  generalize Real.sin (φ + φ₁) = y at *
  generalize Real.cos (θ₁ / 2) = c at *
  generalize Real.sin (θ₁ / 2) = s at *
  generalize Real.cos δ = p at *
  generalize Real.sin δ = r at *
  refine ⟨?_, ?_, ?_, ?_⟩
  · linear_combination (c ^ 2 * θ₁ * (x ^ 2 + y ^ 2) * p - θ₁ * s ^ 2 * p * (x ^ 2 + y ^ 2) ^ 2) * qd
  · linear_combination (2 * c * θ₁ * x * s * p * (x ^ 2 + y ^ 2)) * qd
  · linear_combination (2 * c * θ₁ * s * y * p * (x ^ 2 + y ^ 2)) * qd
  · ring

end OpenControls
