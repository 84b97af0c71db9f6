import Verif.Spec.ArrayCounts
import Verif.Proofs.ArrayLimits

/-!
# The predefined sequences called with arrays as counts and orders
-/

namespace OpenControls

open Spec PyFloat Py NdArray

variable {α : Type} [Add α] [Sub α] [Mul α] [Div α] [Neg α] [PyFloat α]

theorem toInt_single {a : NdArray α} {x : α} (h : a.data = [x]) : a.toInt = pyInt x := by
  unfold NdArray.toInt NdArray.stored
  rw [h]
  rfl

theorem checkArrayCount_single {a : NdArray α} {x : α} (h : a.data = [x]) (d : String) :
    checkArrayCount a d = checkArguments (ge x (lit 1)) d := by
  unfold checkArrayCount
  rw [truth_single _ h]
  rfl

theorem checkArrayCount_none {a : NdArray α} (h : a.data = []) (d : String) :
    checkArrayCount a d = .error (.arguments d) := by
  unfold checkArrayCount
  rw [truth_none _ h]
  rfl

theorem checkArrayCount_several {a : NdArray α} (h : 2 ≤ a.data.length) (d : String) :
    checkArrayCount a d =
      .error (.valueError "The truth value of an array with more than one element is ambiguous.") := by
  unfold checkArrayCount
  rw [truth_several _ h]
  rfl

theorem checkArrayCount_ok {a : NdArray α} {d : String} {u : Unit} (h : checkArrayCount a d = .ok u) :
    ∃ x, a.data = [x] := by
  match hd : a.data with
  | [] => rw [checkArrayCount_none hd] at h; cases h
  | [x] => exact ⟨x, rfl⟩
  | x :: y :: l => rw [checkArrayCount_several (by rw [hd]; simp)] at h; cases h

theorem finishArrays_single (T : α) {b : NdArray Bool} {x : Bool} (h : b.data = [x]) (name : Option String)
    (p : Pulses α) : finishArrays T b name p = finishSequence T x name p := by
  unfold finishArrays NdArray.truth
  rw [h]
  rfl

theorem finishArrays_none (T : α) {b : NdArray Bool} (h : b.data = []) (name : Option String)
    (p : Pulses α) : finishArrays T b name p = finishSequence T false name p := by
  unfold finishArrays NdArray.truth
  rw [h]
  rfl

theorem switch_several {b : NdArray Bool} (h : 2 ≤ b.data.length) : b.truth id =
    .error (.valueError "The truth value of an array with more than one element is ambiguous.") := by
  match hd : b.data with
  | [] => rw [hd] at h; cases h
  | [x] => rw [hd] at h; simp at h
  | x :: y :: l => unfold NdArray.truth; rw [hd]

theorem finishArrays_several (T : α) {b : NdArray Bool} (h : 2 ≤ b.data.length) (name : Option String)
    (p : Pulses α) : finishArrays T b name p =
      .error (.valueError "The truth value of an array with more than one element is ambiguous.") := by
  unfold finishArrays
  rw [switch_several h]
  rfl

theorem checkArrayOrder_single {a : NdArray α} {x : α} (h : a.data = [x]) : checkArrayOrder a =
    checkArguments (le (lit 1) x && le x (lit 2000)) "Paley order must be between 1 and 2000." := by
  unfold checkArrayOrder
  rw [truth_single _ h, truth_single _ h]
  show (if le (lit 1) x = true then checkArguments (le x (lit 2000)) _ else checkArguments false _) = _
  cases le (lit 1) x <;> rfl

theorem checkArrayOrder_none {a : NdArray α} (h : a.data = []) : checkArrayOrder a =
    .error (.arguments "Paley order must be between 1 and 2000.") := by
  unfold checkArrayOrder
  rw [truth_none _ h]
  rfl

theorem checkArrayOrder_several {a : NdArray α} (h : 2 ≤ a.data.length) : checkArrayOrder a =
    .error (.valueError "The truth value of an array with more than one element is ambiguous.") := by
  unfold checkArrayOrder
  rw [truth_several _ h]
  rfl

theorem checkArrayOrder_ok {a : NdArray α} {u : Unit} (h : checkArrayOrder a = .ok u) : ∃ x, a.data = [x] := by
  match hd : a.data with
  | [] => rw [checkArrayOrder_none hd] at h; cases h
  | [x] => exact ⟨x, rfl⟩
  | x :: y :: l => rw [checkArrayOrder_several (by rw [hd]; simp)] at h; cases h

end OpenControls
