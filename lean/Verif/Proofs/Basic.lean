import Verif.Model.Sequence
import Mathlib.Data.List.Nodup
import Mathlib.Tactic.Linarith

/-!
# Helper lemmas about the Python primitives and the two constructors
-/

namespace OpenControls

set_option linter.unusedSectionVars false

open PyFloat Py

theorem checkArguments_bind {β : Type} (c : Bool) (d : String) (f : Unit → Except PyErr β) :
    (checkArguments c d >>= f) = if c then f () else .error (.arguments d) := by
  cases c <;> rfl

theorem checkArguments_bind_ok {β : Type} {c : Bool} {d : String} {f : Unit → Except PyErr β}
    {b : β} : (checkArguments c d >>= f) = .ok b ↔ c = true ∧ f () = .ok b := by
  rw [checkArguments_bind]; cases c <;> simp

theorem except_bind_ok {β γ : Type} {x : Except PyErr β} {f : β → Except PyErr γ} {c : γ} :
    (x >>= f) = .ok c ↔ ∃ b, x = .ok b ∧ f b = .ok c := by
  cases x with
  | error e => constructor
               · intro h; cases h
               · rintro ⟨b, h, -⟩; cases h
  | ok b => constructor
            · intro h; exact ⟨b, rfl, h⟩
            · rintro ⟨b', h, h'⟩; cases h; exact h'

@[simp] theorem except_ok_bind {β γ : Type} (b : β) (f : β → Except PyErr γ) :
    ((Except.ok b : Except PyErr β) >>= f) = f b := rfl

@[simp] theorem except_pure_bind {β γ : Type} (b : β) (f : β → Except PyErr γ) :
    ((pure b : Except PyErr β) >>= f) = f b := rfl

@[simp] theorem except_error_bind {β γ : Type} (e : PyErr) (f : β → Except PyErr γ) :
    ((Except.error e : Except PyErr β) >>= f) = .error e := rfl

theorem mem_pySet {x : Nat} {l : List Nat} : x ∈ pySet l ↔ x ∈ l := by
  induction l with
  | nil => simp [pySet]
  | cons y ys ih =>
    unfold pySet
    split
    · rename_i h
      rw [List.contains_iff_mem] at h
      simp only [List.mem_cons, ih]
      constructor
      · exact Or.inr
      · rintro (rfl | h')
        · exact ih.mp h
        · exact h'
    · simp [ih]

theorem nodup_pySet (l : List Nat) : (pySet l).Nodup := by
  induction l with
  | nil => simp [pySet]
  | cons y ys ih =>
    unfold pySet
    split
    · exact ih
    · rename_i h
      rw [List.nodup_cons]
      refine ⟨?_, ih⟩
      intro hm; exact h (List.contains_iff_mem.mpr hm)

/-- A set built from a list containing `n` has one element exactly if all entries are `n`. -/
theorem pySet_length_one {l : List Nat} {n : Nat} (hn : n ∈ l) :
    (pySet l).length = 1 ↔ ∀ x ∈ l, x = n := by
  constructor
  · intro h x hx
    obtain ⟨a, ha⟩ := List.length_eq_one_iff.mp h
    have h1 : n ∈ pySet l := mem_pySet.mpr hn
    have h2 : x ∈ pySet l := mem_pySet.mpr hx
    rw [ha] at h1 h2
    simp at h1 h2
    rw [h1, h2]
  · intro h
    have hmem : n ∈ pySet l := mem_pySet.mpr hn
    have hall : ∀ x ∈ pySet l, x = n := fun x hx => h x (mem_pySet.mp hx)
    have hnd := nodup_pySet l
    rcases hp : pySet l with _ | ⟨a, _ | ⟨b, r⟩⟩
    · rw [hp] at hmem; simp at hmem
    · rfl
    · rw [hp] at hall hnd
      have ha := hall a (by simp)
      have hb := hall b (by simp)
      simp [ha, hb] at hnd

section
variable {α : Type} [Add α] [Sub α] [Mul α] [Div α] [Neg α] [PyFloat α]

/-- What the constructor computes, as one conditional expression. -/
theorem DrivenControl.new_eq (durations : List α) (r a d : Option (List α))
    (name : Option String) :
    DrivenControl.new durations r a d name =
      if (durations.all fun t => Py.gt t (lit 0)) = true then
        if (∀ l ∈ r, l.length = durations.length) ∧ (∀ l ∈ a, l.length = durations.length) ∧
            (∀ l ∈ d, l.length = durations.length) then
          if ((r.getD (List.replicate durations.length (lit 0))).all
              fun x => Py.ge x (lit 0)) = true then
            .ok ⟨r.getD (List.replicate durations.length (lit 0)),
              a.getD (List.replicate durations.length (lit 0)),
              d.getD (List.replicate durations.length (lit 0)), durations, name⟩
          else .error (.arguments "All rabi rates must be greater than zero.")
        else .error (.arguments "If set, rabi rates, azimuthal angles, detunings and durations must be of same length")
      else .error (.arguments
        "Duration of driven control segments must all be greater than zero.") := by
  have key : ((pySet ([r, a, d, some durations].filterMap (Option.map List.length))).length == 1)
      = true ↔ ((∀ l ∈ r, l.length = durations.length) ∧ (∀ l ∈ a, l.length = durations.length) ∧
            (∀ l ∈ d, l.length = durations.length)) := by
    rw [beq_iff_eq, pySet_length_one (n := durations.length)
      (List.mem_filterMap.mpr ⟨some durations, by simp, rfl⟩)]
    cases r <;> cases a <;> cases d <;> simp
  unfold DrivenControl.new
  simp only [checkArguments_bind]
  split
  · by_cases hk : ((∀ l ∈ r, l.length = durations.length) ∧ (∀ l ∈ a, l.length = durations.length) ∧
            (∀ l ∈ d, l.length = durations.length))
    · rw [if_pos hk, if_pos (key.mpr hk)]; rfl
    · rw [if_neg hk, if_neg (fun h => hk (key.mp h))]
  · rfl

/-- What the sequence constructor computes, as one conditional expression. -/
theorem Sequence.new_eq (T : α) (o r a d : List α) (name : Option String) :
    Sequence.new T o r a d name =
      if Py.gt T (lit 0) = true then
        if (o.all fun t => Py.ge t (lit 0) && Py.ge T t) = true then
          if r.length = o.length then
            if a.length = o.length then
              if d.length = o.length then .ok ⟨T, o, r, a, d, name⟩
              else .error (.arguments "detuning rotations must have the same length as offsets. ")
            else .error (.arguments "azimuthal angles must have the same length as offsets. ")
          else .error (.arguments "rabi rotations must have the same length as offsets. ")
        else .error (.arguments "Offsets for dynamic decoupling sequence must be between 0 and the sequence duration (inclusive). ")
      else .error (.arguments "Sequence duration must be above zero.") := by
  unfold Sequence.new
  simp only [checkArguments_bind, beq_iff_eq]
  rfl

end

end OpenControls
