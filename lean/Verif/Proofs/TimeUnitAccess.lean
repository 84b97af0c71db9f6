import Verif.Proofs.TimeUnit
import Verif.Spec.RoundedErrors

/-!
# Changing the unit of time: reading a control
-/

namespace OpenControls

open Spec PyFloat Py

variable {α : Type} [Add α] [Sub α] [Mul α] [Div α] [Neg α] [PyFloat α]

namespace Rescaling

variable (u : Rescaling α) (c : DrivenControl α)

theorem amplitudeX : (u.control c).amplitudeX = c.amplitudeX.map u.down := by
  unfold DrivenControl.amplitudeX control
  simp only [List.zipWith_map_left, List.map_zipWith, u.down_mul]

theorem amplitudeY : (u.control c).amplitudeY = c.amplitudeY.map u.down := by
  unfold DrivenControl.amplitudeY control
  simp only [List.zipWith_map_left, List.map_zipWith, u.down_mul]

theorem amplitudes : (u.control c).amplitudes = c.amplitudes.map u.down := by
  unfold DrivenControl.amplitudes
  rw [amplitudeX, amplitudeY]
  simp only [control, List.zipWith_map, List.map_zipWith, u.down_mul, u.mul_down, u.add_down]
  rw [show (fun x y => u.down (u.down (x * x + y * y))) = fun x y => (u.down ∘ u.down) (x * x + y * y) from rfl,
    ← List.map_zipWith (g := fun x y : α => x * x + y * y), List.zipWith_map_left]
  simp only [Function.comp_def, List.zipWith_map_right, u.down_mul, u.mul_down, u.add_down, u.sqrt_down]

theorem angles : (u.control c).angles = c.angles := by
  unfold DrivenControl.angles
  rw [amplitudes]
  simp only [control, List.zipWith_map, u.down_mul, u.mul_up, u.down_up]

theorem times : (u.control c).times = c.times.map u.up := by
  unfold DrivenControl.times
  rw [List.map_cons, u.up_zero, ← cumsum]
  rfl

theorem maximum_down (x y : α) : npMaximum (u.down x) (u.down y) = u.down (npMaximum x y) := by
  unfold npMaximum
  simp only [u.eq_down, u.lt_down]
  split
  · rfl
  · split
    · rfl
    · split <;> rfl

theorem maximumRabiRate : (u.control c).maximumRabiRate = c.maximumRabiRate.map u.down :=
  npAmax_map u.down u.maximum_down c.rabiRates

theorem exportContent (coordinates : String) :
    (u.control c).exportContent coordinates = (c.exportContent coordinates).map (List.map (inUnits u.down u.up)) := by
  unfold DrivenControl.exportContent
  rw [maximumRabiRate, amplitudeX, amplitudeY]
  cases c.maximumRabiRate with
  | error e => rfl
  | ok m =>
    have e1 : ∀ x : α, u.down x / u.down m = x / m := fun x => by rw [u.down_div, u.div_down, u.down_up]
    simp only [Except.map, bind, Except.bind, List.map_map, Function.comp_def, e1, control]
    cases c.name with
    | none => split <;> simp [dictSet, inUnits, pure, Except.pure]
    | some n => split <;> simp [dictSet, inUnits, pure, Except.pure]

end Rescaling

theorem segmentUnitary_unit {k : ℝ} (hk : k ≠ 0) (Ω φ Δ t : ℝ) :
    segmentUnitary (Ω / k) φ (Δ / k) (k * t) = segmentUnitary Ω φ Δ t := by
  have hk' : (k : ℂ) ≠ 0 := by exact_mod_cast hk
  unfold segmentUnitary hamiltonian
  congr 1
  ext i j
  fin_cases i <;> fin_cases j <;> simp [σx, σy, σz] <;> field_simp

theorem evolution_unit {k : ℝ} (hk : k ≠ 0) (c : DrivenControl ℝ) : evolution (slowDown k c) = evolution c := by
  have : ∀ Ωs φs Δs ts : List ℝ, controlEvolution (Ωs.map (· / k)) φs (Δs.map (· / k)) (ts.map (k * ·)) =
      controlEvolution Ωs φs Δs ts := by
    intro Ωs
    induction Ωs with
    | nil => intro φs Δs ts; simp [controlEvolution]
    | cons Ω Ωs ih =>
      intro φs Δs ts
      cases φs with
      | nil => simp [controlEvolution]
      | cons φ φs =>
        cases Δs with
        | nil => simp [controlEvolution]
        | cons Δ Δs =>
          cases ts with
          | nil => simp [controlEvolution]
          | cons t ts => simp only [List.map_cons, controlEvolution, ih, segmentUnitary_unit hk]
  exact this _ _ _ _

end OpenControls
