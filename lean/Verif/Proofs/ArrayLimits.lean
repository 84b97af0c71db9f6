import Verif.Model.ArrayLimits
import Verif.Proofs.Conversion

/-!
# The conversion called with arrays as limits: auxiliary results
-/

namespace OpenControls

open PyFloat Py NdArray

variable {α : Type} [Add α] [Sub α] [Mul α] [Div α] [Neg α] [PyFloat α]

theorem pulseStartEndArray_single {R D m : NdArray α} {R₀ D₀ m₀ : α} (hR : R.data = [R₀]) (hD : D.data = [D₀]) (hm : m.data = [m₀])
    (o : Operation α) : pulseStartEndArray R D m o = .ok (pulseStartEnd R₀ D₀ m₀ o) := by
  unfold pulseStartEndArray halfPulseArray pulseStartEnd halfPulseDuration
  have key : ∀ (f : α → α) (A : NdArray α) (A₀ : α), A.data = [A₀] →
      maxArrays (un f A) m = .ok (if gt m₀ (f A₀) then m else un f A) := by
    intro f A A₀ hA
    unfold maxArrays
    simp only [un, hA, hm, List.map_cons, List.map_nil]
  have key' : ∀ (f : α → α) (A : NdArray α) (A₀ : α), A.data = [A₀] →
      (if gt m₀ (f A₀) then m else un f A).data = [pyMax (f A₀) m₀] := by
    intro f A A₀ hA
    unfold pyMax
    change _ = [if gt m₀ (f A₀) then m₀ else f A₀]
    by_cases h : gt m₀ (f A₀) = true
    · simp [h, hm]
    · simp [h, un, hA]
  have st : ∀ (f g : α → α) (A : NdArray α) (x : α), A.data = [x] → (un f (un g A)).stored = .ok (f (g x)) := by
    intro f g A x hA
    simp only [stored, un, hA, List.map_cons, List.map_nil]
  by_cases h1 : isClose o.rabi (lit 0) = true
  · by_cases h2 : isClose o.detuning (lit 0) = true
    · simp only [h1, h2, Bool.not_true, Bool.false_eq_true, if_false]
      rfl
    · simp only [h1, h2, Bool.not_true, Bool.not_false, Bool.false_eq_true, if_false, if_true]
      rw [key _ D D₀ hD]
      simp only [bind, Except.bind, pure, Except.pure, st _ _ _ _ (key' _ D D₀ hD)]
  · simp only [h1, Bool.not_false, if_true]
    rw [key _ R R₀ hR]
    simp only [bind, Except.bind, pure, Except.pure, st _ _ _ _ (key' _ R R₀ hR)]

theorem mapM_ok {β γ : Type} (f : β → Except PyErr γ) (g : β → γ) (l : List β) (h : ∀ x ∈ l, f x = .ok (g x)) :
    l.mapM f = .ok (l.map g) := by
  induction l with
  | nil => rfl
  | cons x l ih =>
    rw [List.mapM_cons, h x (by simp), ih fun y hy => h y (by simp [hy])]
    rfl

theorem truth_single (p : α → Bool) {a : NdArray α} {x : α} (h : a.data = [x]) : a.truth p = .ok (p x) := by
  unfold truth
  rw [h]

theorem truth_none (p : α → Bool) {a : NdArray α} (h : a.data = []) : a.truth p = .ok false := by
  unfold truth
  rw [h]

theorem truth_several (p : α → Bool) {a : NdArray α} (h : 2 ≤ a.data.length) : a.truth p =
    .error (.valueError "The truth value of an array with more than one element is ambiguous.") := by
  unfold truth
  match hd : a.data with
  | [] => rw [hd] at h; cases h
  | [x] => rw [hd] at h; simp at h
  | x :: y :: l => rfl

/-- a function that checks an array and succeeds was given an array with one item -/
theorem truth_ok {β : Type} {p : α → Bool} {a : NdArray α} {msg : String} {f : Except PyErr β} {c : β}
    (h : (do let b ← a.truth p; checkArguments b msg; f) = .ok c) : ∃ x, a.data = [x] ∧ p x = true ∧ f = .ok c := by
  match hd : a.data with
  | [] => rw [truth_none p hd] at h; cases h
  | [x] =>
    rw [truth_single p hd] at h
    cases hp : p x with
    | false => simp only [hp] at h; cases h
    | true => simp only [hp] at h; exact ⟨x, rfl, hp, h⟩
  | x :: y :: l => rw [truth_several p (by rw [hd]; simp)] at h; cases h

theorem convertArrays_single (s : Sequence α) {R D m : NdArray α} {R₀ D₀ m₀ : α} (hR : R.data = [R₀]) (hD : D.data = [D₀])
    (hm : m.data = [m₀]) (name : Option String) : convertArrays s R D m name = convertDDS s R₀ D₀ m₀ name := by
  rw [convertDDS_eq]
  unfold convertArrays
  rw [truth_single _ hD, truth_single _ hR, truth_single _ hm]
  have e : ∀ l : List (Operation α), l.mapM (pulseStartEndArray R D m) = .ok (l.map (pulseStartEnd R₀ D₀ m₀)) := fun l =>
    mapM_ok _ _ l fun o _ => pulseStartEndArray_single hR hD hm o
  simp only [e, hm, List.all_cons, List.all_nil, Bool.and_true]
  rfl

end OpenControls
