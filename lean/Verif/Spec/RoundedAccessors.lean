import Verif.Model.DrivenControl
import Verif.Spec.Composite
import Verif.Spec.Files

/-!
# Specification: reading an exported control back
-/

namespace OpenControls.Spec

/-- sum of the rotation angles `Ω τ` of the segments of a control -/
noncomputable def totalRotation (c : DrivenControl ℝ) : ℝ :=
  (List.zipWith (fun Ω τ => Ω * τ) c.rabiRates c.durations).sum

/-- the entries of a CSV file under a title, from top to bottom -/
def csvColumn {β : Type} (header : List String) (rows : List (List β)) (title : String) : List β :=
  rows.filterMap fun row => cell header row title

/-- segments `(x, y, Δ, τ)` from four arrays -/
def cartesianSegments {β : Type} : List β → List β → List β → List β → List (β × β × β × β)
  | x :: xs, y :: ys, Δ :: Δs, τ :: τs => (x, y, Δ, τ) :: cartesianSegments xs ys Δs τs
  | _, _, _, _ => []

end OpenControls.Spec
