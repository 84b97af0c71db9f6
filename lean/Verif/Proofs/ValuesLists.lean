import Verif.Spec.ValuesLists
import Verif.Proofs.ValuesCalls
import Verif.Props.ValuesCalls

/-!
# Lists, tuples and complex numbers as arguments: lemmas for C141
-/

namespace OpenControls

open PyFloat Py Spec

set_option linter.unusedSectionVars false

variable {α : Type} [Add α] [Sub α] [Mul α] [Div α] [Neg α] [PyFloat α]

/-- an object without arithmetic that has the same truth value -/
def PyArgument.opaque : PyArgument α → PyScalar α
  | .scalar v => v
  | .complex re im => .other (ne re (lit 0) || ne im (lit 0))
  | .list n => .other (n != 0)

theorem opaque_real (v : PyArgument α) : v.real = v.opaque.real := by cases v <;> rfl

theorem opaque_truth (v : PyArgument α) : v.truth = v.opaque.truth := by cases v <;> rfl

theorem opaque_keyword (l : List String) (v : PyArgument α) : v.keyword l = v.opaque.keyword l := by cases v <;> rfl

theorem argumentReal_opaque (v : PyArgument α) (x : α) : ArgumentReal v x ↔ ScalarReal v.opaque x := by
  constructor
  · rintro ⟨h⟩; exact h
  · intro h
    cases v with
    | scalar v => exact .scalar h
    | complex _ _ => cases h
    | list _ => cases h

theorem argumentStands_opaque (v : PyArgument α) (x : α) : ArgumentStands v x ↔ Stands v.opaque x := by
  unfold ArgumentStands Stands
  simp only [argumentReal_opaque]

theorem argumentTruthy_opaque (v : PyArgument α) : ArgumentTruthy v ↔ Truthy v.opaque := by
  cases v with
  | scalar v =>
    constructor
    · rintro ⟨h⟩; exact h
    · exact .scalar
  | complex x y =>
    constructor
    · intro h
      rw [← truth_iff]
      cases h with
      | re h => simp [PyArgument.opaque, PyScalar.truth, h]
      | im h => simp [PyArgument.opaque, PyScalar.truth, h]
    · intro h
      rw [← truth_iff] at h
      simp only [PyArgument.opaque, PyScalar.truth, Bool.or_eq_true] at h
      rcases h with h | h
      · exact .re h
      · exact .im h
  | list n =>
    constructor
    · intro h
      rw [← truth_iff]
      cases h with
      | list h => simpa [PyArgument.opaque, PyScalar.truth] using (Nat.pos_iff_ne_zero.mp h)
    · intro h
      rw [← truth_iff] at h
      refine .list (Nat.pos_of_ne_zero ?_)
      simpa [PyArgument.opaque, PyScalar.truth] using h

theorem predefined_opaque (p : Predefined (PyArgument α)) (T pp : PyArgument α) (name : Option String) :
    p.callLists T pp name = (p.map PyArgument.opaque).callValues T.opaque pp.opaque name := by
  cases p <;>
    simp only [Predefined.callLists, Predefined.callValues, Predefined.map, newRamseyLists, newSpinEchoLists,
      newCarrPurcellLists, newCPMGLists, newUhrigLists, newPeriodicLists, newWalshLists, newQuadraticLists,
      newXConcatenatedLists, newXYConcatenatedLists, countedLists, newRamseyValues, newSpinEchoValues,
      newCarrPurcellValues, newCPMGValues, newUhrigValues, newPeriodicValues, newWalshValues, newQuadraticValues,
      newXConcatenatedValues, newXYConcatenatedValues, countedValues, opaque_real, opaque_truth]

theorem rel_opaque {R : PyArgument α → α → Prop} {Q : PyScalar α → α → Prop} (h : ∀ v x, R v x ↔ Q v.opaque x)
    (p : Predefined (PyArgument α)) (q : Predefined α) : p.Rel R q ↔ (p.map PyArgument.opaque).Rel Q q := by
  cases p <;> cases q <;> simp only [Predefined.map, Predefined.Rel, h]

theorem gaussian_opaque (Ω m T : PyArgument α) (f : PyScalar α ⊕ Nat) :
    newModulatedGaussianLists Ω m T f = newModulatedGaussianValues Ω.opaque m.opaque T.opaque
      (f.elim id fun n => (PyArgument.list n).opaque) := by
  cases f <;>
    simp only [newModulatedGaussianLists, newModulatedGaussianValues, opaque_real, Sum.elim_inl, Sum.elim_inr, id]

theorem convert_opaque (s : Sequence α) (Ω δ m : PyArgument α) (name : Option String) :
    convertLists s Ω δ m name = convertValues s Ω.opaque δ.opaque m.opaque name := by
  simp only [convertLists, convertValues, opaque_real]

theorem plot_opaque (c : DrivenControl α) (k b : PyArgument α) :
    exportPlotLists c k b = exportPlotValues c k.opaque b.opaque := by
  simp only [exportPlotLists, exportPlotValues, opaque_keyword, opaque_truth]
  rfl

theorem file_opaque (c : DrivenControl α) (fs : FileSystem α) (filename : String) (f t k : PyArgument α) :
    exportToFileLists c fs filename f t k = exportToFileValues c fs filename f.opaque t.opaque k.opaque := by
  simp only [exportToFileLists, exportToFileValues, opaque_keyword]
  rfl

theorem opaque_str (v : PyArgument α) (s : String) : v.opaque = .str s ↔ v = .scalar (.str s) := by
  cases v <;> simp [PyArgument.opaque]

end OpenControls
