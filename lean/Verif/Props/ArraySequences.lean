import Verif.Proofs.ArraySequences
import Verif.Props.Families

/-!
# C131: predefined sequences called with an array as duration

`p.callArray T name` calls one of nine predefined functions (all but the quadratic one, without pre and post rotation) with a numpy array of
any shape as duration; `p.predefined.call` is the call with a number.  An array without axes (`shape = []`) is a number.
-/

namespace OpenControls

open Spec PyFloat Py

section

variable {α : Type} [Add α] [Sub α] [Mul α] [Div α] [Neg α] [PyFloat α]

/-- **C131** In any arithmetic: the call with an array is accepted exactly if the array has one item and the call with this number is
accepted.  The result has the values of the sequence for the number, in arrays whose shapes are given by `offsetShape` and `rotationShape`,
and the array itself as duration. -/
theorem C131_sequence (p : PlainSequence α) (T : NdArray α) (hT : Regular T) (name : Option String) (q : ArraySequence α) :
    p.callArray T name = .ok q ↔
      ∃ T₀ s, T.data = [T₀] ∧ p.predefined.call T₀ false name = .ok s ∧ q = p.shaped T s := by
  constructor
  · intro h
    match hd : T.data with
    | [] =>
      rw [callArray_check T p name (e := .arguments "Sequence duration must be greater than zero.") (by
        unfold checkArrayDuration NdArray.truth; rw [hd]; rfl)] at h
      cases h
    | [T₀] =>
      rw [callArray_single hd hT] at h
      cases hs : p.predefined.call T₀ false name with
      | error e => rw [hs] at h; cases h
      | ok s => rw [hs] at h; cases h; exact ⟨T₀, s, rfl, hs, rfl⟩
    | x :: y :: r =>
      rw [callArray_check T p name (e := .valueError
        "The truth value of an array with more than one element is ambiguous.") (by
        unfold checkArrayDuration NdArray.truth; rw [hd]; rfl)] at h
      cases h
  · rintro ⟨T₀, s, hd, hs, rfl⟩
    rw [callArray_single hd hT, hs]
    rfl

/-- **C131** What is raised otherwise: `ValueError` (not the `ArgumentsValueError` of the library) for several items,
`ArgumentsValueError` for none, and for one item what the call with the number raises. -/
theorem C131_exceptions (p : PlainSequence α) (T : NdArray α) (hT : Regular T) (name : Option String) :
    (2 ≤ T.data.length → p.callArray T name = .error (.valueError
      "The truth value of an array with more than one element is ambiguous.")) ∧
    (T.data = [] → p.callArray T name = .error (.arguments "Sequence duration must be greater than zero.")) ∧
    ∀ T₀ e, T.data = [T₀] → (p.callArray T name = .error e ↔ p.predefined.call T₀ false name = .error e) := by
  refine ⟨fun h => ?_, fun h => ?_, fun T₀ e h => ?_⟩
  · refine callArray_check T p name ?_
    unfold checkArrayDuration NdArray.truth
    match hd : T.data with
    | [] => rw [hd] at h; simp at h
    | [_] => rw [hd] at h; simp at h
    | x :: y :: r => rfl
  · refine callArray_check T p name ?_
    unfold checkArrayDuration NdArray.truth
    rw [h]; rfl
  · rw [callArray_single h hT]
    cases p.predefined.call T₀ false name with
    | error e' => exact ⟨fun h => by cases h; rfl, fun h => by cases h; rfl⟩
    | ok s => exact iff_of_false (fun h => nomatch h) (fun h => nomatch h)

/-- **C131** A number in an array with no axis or one axis gives 1-D offsets and rotations with the places of the sequence for the number,
except that the spin echo for an array with one axis has a `1 × 1` array of offsets. -/
theorem C131_one_axis (p : PlainSequence α) (T₀ : α) (shape : List ℕ) (h : shape = [] ∨ shape = [1]) (name : Option String)
    (s : Sequence α) (hs : p.predefined.call T₀ false name = .ok s) :
    p.callArray ⟨shape, [T₀]⟩ name = .ok {
      duration := ⟨shape, [T₀]⟩
      offsets := if (match p with | .spinEcho => true | _ => false) then ⟨s.offsets.length :: shape, s.offsets⟩
        else ⟨[s.offsets.length], s.offsets⟩
      rabiRotations := ⟨[s.offsets.length], s.rabiRotations⟩
      azimuthalAngles := ⟨[s.offsets.length], s.azimuthalAngles⟩
      detuningRotations := ⟨[s.offsets.length], s.detuningRotations⟩
      name := s.name } := by
  have hreg : Regular (⟨shape, [T₀]⟩ : NdArray α) := by
    rcases h with rfl | rfl <;> rfl
  rw [callArray_single rfl hreg, hs]
  rcases h with rfl | rfl <;> cases p <;> rfl

/-- **C131** With a duration of two or more axes, a Carr-Purcell, CPMG, Uhrig, periodic or Walsh sequence is accepted with arrays whose first
axis has length 1, however many pulses there are: for the constructor, `len(offsets)` is 1. -/
theorem C131_first_axis (p : PlainSequence α) (k : ℕ) (T₀ : α) (name : Option String) (s : Sequence α)
    (hp : match p with
      | .carrPurcell _ | .cpmg _ | .uhrig _ | .periodic _ | .walsh _ => True
      | _ => False)
    (hs : p.predefined.call T₀ false name = .ok s) :
    ∃ q, p.callArray ⟨List.replicate (k + 2) 1, [T₀]⟩ name = .ok q ∧ q.offsets.data = s.offsets ∧
      q.offsets.shape = List.replicate (k + 1) 1 ++ [s.offsets.length] ∧ q.offsets.len = .ok 1 ∧
      q.rabiRotations.shape = q.offsets.shape := by
  have hreg : Regular (⟨List.replicate (k + 2) 1, [T₀]⟩ : NdArray α) := by simp [Regular]
  refine ⟨_, (C131_sequence p _ hreg name _).mpr ⟨T₀, s, rfl, hs, rfl⟩, rfl, ?_, ?_, ?_⟩
  · cases p <;> first | exact hp.elim | simp [PlainSequence.shaped, PlainSequence.offsetShape, List.dropLast_replicate]
  · cases p <;> first | exact hp.elim |
      simp [PlainSequence.shaped, PlainSequence.offsetShape, NdArray.len, List.replicate_succ]
  · cases p <;> first | exact hp.elim | rfl

end

/-- **C131** In the reals: the call is accepted exactly if the array has one item, which is positive, and the count satisfies the documented
condition. -/
theorem C131_accepts (p : PlainSequence ℝ) (T : NdArray ℝ) (hT : Regular T) (name : Option String) :
    (∃ q, p.callArray T name = .ok q) ↔ ∃ T₀, T.data = [T₀] ∧ 0 < T₀ ∧ p.family.Valid := by
  have hf : ∀ T₀, p.predefined.call T₀ false name = p.family.call T₀ false name := fun T₀ => by cases p <;> rfl
  constructor
  · rintro ⟨q, hq⟩
    obtain ⟨T₀, s, h1, hs, -⟩ := (C131_sequence _ T hT name q).mp hq
    refine ⟨T₀, h1, ?_⟩
    by_contra hc
    obtain ⟨e, he⟩ := (C43_well_formed p.family T₀ false name).2 hc
    rw [← hf, hs] at he
    cases he
  · rintro ⟨T₀, h1, hv⟩
    obtain ⟨s, hs, -⟩ := (C43_well_formed p.family T₀ false name).1 hv
    rw [← hf] at hs
    exact ⟨_, (C131_sequence _ T hT name _).mpr ⟨T₀, s, h1, hs, rfl⟩⟩

/-- A CPMG sequence of two pulses with durations of shape `1 × 1`, `2` and `0`. -/
example : (∃ s q, (Family.cpmg 2).call 3 false none = .ok s ∧ s.offsets.length = 2 ∧
      (PlainSequence.cpmg (2 : ℝ)).callArray ⟨[1, 1], [3]⟩ none = .ok q ∧ q.offsets = ⟨[1, 2], s.offsets⟩ ∧
      q.duration = ⟨[1, 1], [3]⟩) ∧
    (PlainSequence.cpmg (2 : ℝ)).callArray ⟨[2], [3, 4]⟩ none = .error (.valueError
      "The truth value of an array with more than one element is ambiguous.") ∧
    (PlainSequence.cpmg (2 : ℝ)).callArray ⟨[0], []⟩ none =
      .error (.arguments "Sequence duration must be greater than zero.") := by
  refine ⟨?_, (C131_exceptions _ ⟨[2], [3, 4]⟩ rfl none).1 (by simp), (C131_exceptions _ ⟨[0], []⟩ rfl none).2.1 rfl⟩
  have hv : (Family.cpmg 2).Valid := by simp [Family.Valid]
  have hs := Family.call_eq hv (by norm_num : (0 : ℝ) < 3) false none
  have h2 : ((finished 3 ((Family.cpmg 2).table 3) false none).offsets).length = 2 := by
    simp [finished, piSequence, Family.table, onAxis, cpmgTimes]
  refine ⟨_, _, hs, h2, (C131_sequence _ ⟨[1, 1], [3]⟩ rfl none _).mpr ⟨3, _, rfl, hs, rfl⟩, ?_, rfl⟩
  simp only [PlainSequence.shaped, PlainSequence.offsetShape, h2]
  rfl

end OpenControls
