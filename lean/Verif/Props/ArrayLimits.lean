import Verif.Proofs.ArrayLimits
import Verif.Props.Conversion

/-!
# C134: the conversion called with arrays as limits

`convertArrays s R D m name` calls `convert_dds_to_driven_control` with numpy arrays of any shape as maximum Rabi rate, maximum detuning
rate and minimum segment duration, `s.exportToFileArrays` exports with arrays as rates; `convertDDS` and `s.exportToFile` are the calls with
numbers.  Only the items (`data`) of the arrays appear below: their axes make no difference.
-/

namespace OpenControls

open Spec PyFloat Py NdArray

section

variable {α : Type} [Add α] [Sub α] [Mul α] [Div α] [Neg α] [PyFloat α]

/-- **C134** Arrays with one item count as this item, exceptions included. -/
theorem C134_numbers (s : Sequence α) (R D m : NdArray α) (R₀ D₀ m₀ : α) (hR : R.data = [R₀]) (hD : D.data = [D₀])
    (hm : m.data = [m₀]) (name : Option String) : convertArrays s R D m name = convertDDS s R₀ D₀ m₀ name :=
  convertArrays_single s hR hD hm name

/-- **C134** Which exception arrays with several items or none raise; the detuning rate is looked at first, then the Rabi rate, then the
minimum segment duration. -/
theorem C134_exceptions (s : Sequence α) (R D m : NdArray α) (name : Option String) :
    (2 ≤ D.data.length → ∃ e, convertArrays s R D m name = .error (.valueError e)) ∧
    (D.data = [] → convertArrays s R D m name = .error (.arguments "Maximum detuning rate must be positive.")) ∧
    (∀ D₀, D.data = [D₀] → gt D₀ (lit 0) = true →
      (2 ≤ R.data.length → ∃ e, convertArrays s R D m name = .error (.valueError e)) ∧
      (R.data = [] → convertArrays s R D m name = .error (.arguments "Maximum rabi rate must be positive.")) ∧
      (∀ R₀, R.data = [R₀] → gt R₀ (lit 0) = true →
        (2 ≤ m.data.length → ∃ e, convertArrays s R D m name = .error (.valueError e)) ∧
        (m.data = [] → convertArrays s R D m name =
          .error (.arguments "Minimum segment duration must be greater than or equal to 0.")))) := by
  refine ⟨fun h => ?_, fun h => ?_, fun D₀ hD pD => ⟨fun h => ?_, fun h => ?_, fun R₀ hR pR => ⟨fun h => ?_, fun h => ?_⟩⟩⟩
  · unfold convertArrays
    rw [truth_several _ h]
    exact ⟨_, rfl⟩
  · unfold convertArrays
    rw [truth_none _ h]
    rfl
  · unfold convertArrays
    rw [truth_single _ hD, truth_several _ h, pD]
    exact ⟨_, rfl⟩
  · unfold convertArrays
    rw [truth_single _ hD, truth_none _ h, pD]
    rfl
  · unfold convertArrays
    rw [truth_single _ hD, truth_single _ hR, truth_several _ h, pD, pR]
    exact ⟨_, rfl⟩
  · unfold convertArrays
    rw [truth_single _ hD, truth_single _ hR, truth_none _ h, pD, pR]
    rfl

/-- **C134** No conversion is vectorised: a control is returned only if all three limits have one item, and then it is that of the numbers. -/
theorem C134_control (s : Sequence α) (R D m : NdArray α) (name : Option String) (c : DrivenControl α) :
    convertArrays s R D m name = .ok c ↔ ∃ R₀ D₀ m₀, R.data = [R₀] ∧ D.data = [D₀] ∧ m.data = [m₀] ∧
      convertDDS s R₀ D₀ m₀ name = .ok c := by
  constructor
  · intro h
    have h' := h
    unfold convertArrays at h'
    obtain ⟨D₀, hD, -, h'⟩ := truth_ok h'
    obtain ⟨R₀, hR, -, h'⟩ := truth_ok h'
    obtain ⟨m₀, hm, -, h'⟩ := truth_ok h'
    refine ⟨R₀, D₀, m₀, hR, hD, hm, ?_⟩
    rw [← C134_numbers s R D m R₀ D₀ m₀ hR hD hm]
    assumption
  · rintro ⟨R₀, D₀, m₀, hR, hD, hm, h⟩
    rw [C134_numbers s R D m R₀ D₀ m₀ hR hD hm, h]

/-- **C134** The export with arrays as rates: with one item each it is the export with the numbers; otherwise no file is written and an
exception is raised. -/
theorem C134_export (s : Sequence α) (fs : FileSystem α) (filename fileFormat fileType coordinates : String) (R D : NdArray α) :
    (∀ R₀ D₀, R.data = [R₀] → D.data = [D₀] →
      s.exportToFileArrays fs filename fileFormat fileType coordinates R D =
        s.exportToFile fs filename fileFormat fileType coordinates R₀ D₀) ∧
    (R.data.length ≠ 1 ∨ D.data.length ≠ 1 → ∃ e,
      s.exportToFileArrays fs filename fileFormat fileType coordinates R D = (.error e, fs)) := by
  constructor
  · intro R₀ D₀ hR hD
    unfold Sequence.exportToFileArrays Sequence.exportToFile
    rw [C134_numbers s R D _ R₀ D₀ (lit 0) hR hD rfl]
    cases convertDDS s R₀ D₀ (lit 0) s.name <;> rfl
  · intro h
    unfold Sequence.exportToFileArrays
    cases hc : convertArrays s R D ⟨[], [lit 0]⟩ s.name with
    | error e => exact ⟨e, rfl⟩
    | ok c =>
      obtain ⟨R₀, D₀, -, hR, hD, -⟩ := (C134_control s R D _ s.name c).mp hc
      rw [hR, hD] at h
      simp at h

end

/-- **C134** In exact arithmetic arrays as limits are accepted exactly if they have one item each and the sequence can be carried out with
these numbers. -/
theorem C134_accepts (s : Sequence ℝ) (hs : s.Constructed) (R D m : NdArray ℝ) (name : Option String) :
    (∃ c, convertArrays s R D m name = .ok c) ↔
      ∃ R₀ D₀ m₀, R.data = [R₀] ∧ D.data = [D₀] ∧ m.data = [m₀] ∧ Convertible R₀ D₀ m₀ s := by
  constructor
  · rintro ⟨c, h⟩
    obtain ⟨R₀, D₀, m₀, hR, hD, hm, h⟩ := (C134_control s R D m name c).mp h
    exact ⟨R₀, D₀, m₀, hR, hD, hm, ((C46_convertible s hs R₀ D₀ m₀ name).ok h).1⟩
  · rintro ⟨R₀, D₀, m₀, hR, hD, hm, h⟩
    obtain ⟨c, hc, -⟩ := (C46_convertible s hs R₀ D₀ m₀ name).1 h
    exact ⟨c, (C134_control s R D m name c).mpr ⟨R₀, D₀, m₀, hR, hD, hm, hc⟩⟩

/-- A spin echo is converted with arrays of shapes 1, 1 × 1 and no axes as limits, but not with two Rabi rates. -/
example : ∃ (s : Sequence ℝ) (c : DrivenControl ℝ), s.Constructed ∧ s.offsets ≠ [] ∧
    convertArrays s ⟨[1], [10 * Real.pi]⟩ ⟨[1, 1], [1]⟩ ⟨[], [1 / 10]⟩ none = .ok c ∧
    ∃ e, convertArrays s ⟨[2], [10 * Real.pi, 1]⟩ ⟨[1, 1], [1]⟩ ⟨[], [1 / 10]⟩ none = .error (.valueError e) := by
  obtain ⟨s, c, hs, -, -, -, -, hp, h⟩ := conversion_witness
  refine ⟨s, c, hs, ?_, (C134_control s _ _ _ none c).mpr ⟨_, _, _, rfl, rfl, rfl, h⟩,
    (((C134_exceptions s _ _ _ none).2.2 1 rfl ?_).1 (by simp))⟩
  · intro h0
    apply hp
    simp [pulseList, h0]
  · simp

end OpenControls
