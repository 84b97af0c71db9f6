import Verif.Proofs.Pauli
import Verif.Proofs.Control
import Verif.Spec.Composite

/-!
# Algebra of rotations and the evolution of tables of pulses
-/

namespace OpenControls

open Spec

theorem rotation_mul_same (a b φ : ℝ) : rotation a φ * rotation b φ = rotation (a + b) φ := by
  rw [rotation_eq, rotation_eq, rotation_eq, su2_mul, su2_inj, add_div, Real.cos_add, Real.sin_add]
  have := Real.cos_sq_add_sin_sq φ
  refine ⟨?_, by ring, by ring, by ring⟩
  linear_combination (-Real.sin (a / 2) * Real.sin (b / 2)) * this

theorem rotation_zero (φ : ℝ) : rotation 0 φ = 1 := by
  rw [rotation_eq, ← su2_one]; simp

theorem rotation_two_pi (φ : ℝ) : rotation (2 * Real.pi) φ = -1 := by
  rw [rotation_eq, ← su2_one, su2_neg]
  have : 2 * Real.pi / 2 = Real.pi := by ring
  simp [this]

theorem rotation_add_two_pi (θ φ : ℝ) : rotation (θ + 2 * Real.pi) φ = -rotation θ φ := by
  rw [← rotation_mul_same, rotation_two_pi]; simp

theorem rotation_axis_add_pi (θ φ : ℝ) : rotation θ (φ + Real.pi) = rotation (-θ) φ := by
  rw [rotation_eq, rotation_eq, su2_inj]
  simp [neg_div]

theorem rotation_axis_add_two_pi (θ φ : ℝ) : rotation θ (φ + 2 * Real.pi) = rotation θ φ := by
  rw [rotation_eq, rotation_eq]; simp

/-- The evolution of a table of pulses: the product of the rotations, the first one rightmost. -/
noncomputable def tableEvolution (table : List (ℝ × ℝ)) : M2 :=
  (table.map fun p => rotation p.1 p.2).reverse.prod

theorem tableEvolution_nil : tableEvolution [] = 1 := rfl

theorem tableEvolution_cons (p : ℝ × ℝ) (t : List (ℝ × ℝ)) :
    tableEvolution (p :: t) = tableEvolution t * rotation p.1 p.2 := by
  simp [tableEvolution]

theorem tableEvolution_append (t t' : List (ℝ × ℝ)) :
    tableEvolution (t ++ t') = tableEvolution t' * tableEvolution t := by
  simp [tableEvolution]

theorem evolution_ofTable {Ω : ℝ} (hΩ : Ω ≠ 0) (table : List (ℝ × ℝ)) (name : Option String) :
    evolution (ofTable Ω table name) = tableEvolution table := by
  unfold evolution ofTable
  induction table with
  | nil => rfl
  | cons p t ih =>
    simp only [List.map_cons] at ih ⊢
    rw [controlEvolution_cons, ih, tableEvolution_cons, segmentUnitary_resonant,
      mul_div_cancel₀ _ hΩ]

theorem tableEvolution_corpse (θ φ : ℝ) : tableEvolution (corpseTable θ φ) = rotation θ φ := by
  simp only [corpseTable, tableEvolution_cons, tableEvolution_nil, one_mul]
  rw [rotation_axis_add_pi, rotation_mul_same, rotation_mul_same]
  congr 1; ring

theorem tableEvolution_corpseEach (t : List (ℝ × ℝ)) :
    tableEvolution (corpseEach t) = tableEvolution t := by
  induction t with
  | nil => rfl
  | cons p t ih =>
    have : corpseEach (p :: t) = corpseTable p.1 p.2 ++ corpseEach t := by simp [corpseEach]
    rw [this, tableEvolution_append, ih, tableEvolution_corpse, tableEvolution_cons]

theorem tableEvolution_corpseFirst (t : List (ℝ × ℝ)) :
    tableEvolution (corpseFirst t) = tableEvolution t := by
  cases t with
  | nil => rfl
  | cons p t =>
    rw [corpseFirst, tableEvolution_append, tableEvolution_corpse, tableEvolution_cons]

theorem tableEvolution_bb1 (θ φ : ℝ) : tableEvolution (bb1Table θ φ) = rotation θ φ := by
  simp only [bb1Table, tableEvolution_cons, tableEvolution_nil, one_mul]
  rw [rotation_two_pi, mul_neg_one, neg_mul, rotation_mul_same, ← two_mul, rotation_two_pi]
  simp

theorem tableEvolution_sk1 (θ φ : ℝ) : tableEvolution (sk1Table θ φ) = rotation θ φ := by
  simp only [sk1Table, tableEvolution_cons, tableEvolution_nil, one_mul]
  rw [rotation_two_pi, rotation_two_pi]
  simp

/-- Constructing a control from a table at a positive Rabi rate succeeds exactly if all rotation
angles are positive. -/
theorem new_ofTable {Ω : ℝ} (hΩ : 0 < Ω) (table : List (ℝ × ℝ)) (name : Option String)
    (durations rates azimuths detunings : List ℝ)
    (hd : durations = table.map fun p => p.1 / Ω) (hr : rates = table.map fun _ => Ω)
    (ha : azimuths = table.map fun p => p.2) (hdet : detunings = table.map fun _ => 0) :
    ((∀ p ∈ table, 0 < p.1) →
      DrivenControl.new durations (some rates) (some azimuths) (some detunings) name =
        .ok (ofTable Ω table name)) ∧
    (¬ (∀ p ∈ table, 0 < p.1) →
      ∃ d, DrivenControl.new durations (some rates) (some azimuths) (some detunings) name =
        .error (.arguments d)) := by
  subst hd hr ha hdet
  rw [DrivenControl.new_eq]
  have h1 : ((table.map fun p => p.1 / Ω).all fun t => Py.gt t (PyFloat.lit 0)) = true ↔
      ∀ p ∈ table, 0 < p.1 := by
    simp [List.all_eq_true, hΩ]
  constructor
  · intro h
    rw [if_pos (h1.mpr h), if_pos (by simp), if_pos]
    · rfl
    · simp [hΩ.le]
  · intro h
    rw [if_neg (fun hh => h (h1.mp hh))]
    exact ⟨_, rfl⟩

end OpenControls
