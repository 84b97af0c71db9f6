import Verif.Proofs.Basic
import Verif.Spec.WellFormed
import Verif.RealInst

/-!
# C01, C02, C33: the two constructors

Any arithmetic: `α` is an arbitrary number type without laws (IEEE doubles with NaN included).
The only fact used is `0 <= 0` when Rabi rates are omitted.
-/

namespace OpenControls

set_option linter.unusedSectionVars false

open PyFloat Spec

section anyArithmetic
variable {α : Type} [Add α] [Sub α] [Mul α] [Div α] [Neg α] [PyFloat α]

/-- **C01** The constructor returns a control exactly for well-formed arguments. -/
theorem C01_accepts_iff (h0 : PyFloat.le (lit 0 : α) (lit 0) = true)
    (durations : List α) (r a d : Option (List α)) (name : Option String) :
    (∃ c, DrivenControl.new durations r a d name = .ok c) ↔ ControlArgsOk durations r a d := by
  rw [DrivenControl.new_eq]
  unfold ControlArgsOk
  by_cases h1 : (durations.all fun t => Py.gt t (lit 0)) = true
  · rw [if_pos h1]
    have h1' : ∀ t ∈ durations, PyFloat.lt (lit 0) t = true := by
      simpa [List.all_eq_true, Py.gt] using h1
    by_cases h2 : ((∀ l ∈ r, l.length = durations.length) ∧ (∀ l ∈ a, l.length = durations.length) ∧
            (∀ l ∈ d, l.length = durations.length))
    · rw [if_pos h2]
      have h3 : ((r.getD (List.replicate durations.length (lit 0))).all
              fun x => Py.ge x (lit 0)) = true ↔
          ∀ l, r = some l → ∀ x ∈ l, PyFloat.le (lit 0) x = true := by
        cases r with
        | none =>
          constructor
          · intro _ l hl; cases hl
          · intro _
            rw [List.all_eq_true]
            intro x hx
            rw [List.eq_of_mem_replicate hx]
            exact h0
        | some l => simp [List.all_eq_true, Py.ge]
      constructor
      · rintro ⟨c, hc⟩
        refine ⟨h1', fun l hl => h2.1 l (by simp [hl]), fun l hl => h2.2.1 l (by simp [hl]),
          fun l hl => h2.2.2 l (by simp [hl]), h3.mp ?_⟩
        by_contra hn
        rw [if_neg hn] at hc
        cases hc
      · rintro ⟨-, -, -, -, h5⟩
        rw [if_pos (h3.mpr h5)]
        exact ⟨_, rfl⟩
    · rw [if_neg h2]
      constructor
      · rintro ⟨c, hc⟩; cases hc
      · rintro ⟨-, hr, ha, hd, -⟩
        exact absurd ⟨fun l hl => hr l (by simpa using hl), fun l hl => ha l (by simpa using hl),
          fun l hl => hd l (by simpa using hl)⟩ h2
  · rw [if_neg h1]
    constructor
    · rintro ⟨c, hc⟩; cases hc
    · rintro ⟨h, -⟩
      exact absurd (by simpa [List.all_eq_true, Py.gt] using h) h1

/-- **C01** Whatever the arguments, the only exception the constructor raises is
`ArgumentsValueError`. -/
theorem C01_only_arguments_error (durations : List α) (r a d : Option (List α))
    (name : Option String) (e : PyErr) (h : DrivenControl.new durations r a d name = .error e) :
    e.isArguments = true := by
  rw [DrivenControl.new_eq] at h
  split at h
  · split at h
    · split at h
      · cases h
      · cases h; rfl
    · cases h; rfl
  · cases h; rfl

/-- **C01** Malformed arguments raise `ArgumentsValueError`. -/
theorem C01_rejects (h0 : PyFloat.le (lit 0 : α) (lit 0) = true)
    (durations : List α) (r a d : Option (List α)) (name : Option String)
    (h : ¬ ControlArgsOk durations r a d) :
    ∃ e, DrivenControl.new durations r a d name = .error e ∧ e.isArguments = true := by
  cases hc : DrivenControl.new durations r a d name with
  | ok c => exact absurd ((C01_accepts_iff h0 durations r a d name).mp ⟨c, hc⟩) h
  | error e => exact ⟨e, rfl, C01_only_arguments_error _ _ _ _ _ _ hc⟩

/-- **C02** An accepted control stores its arguments; omitted arrays read back as zeros; all arrays
have `number_of_segments` entries. -/
theorem C02_stores_arguments (durations : List α) (r a d : Option (List α))
    (name : Option String) (c : DrivenControl α)
    (h : DrivenControl.new durations r a d name = .ok c) :
    c.durations = durations ∧ c.rabiRates = orZeros durations.length r ∧
    c.azimuthalAngles = orZeros durations.length a ∧ c.detunings = orZeros durations.length d ∧
    c.name = name ∧
    c.numberOfSegments = durations.length ∧ c.rabiRates.length = c.numberOfSegments ∧
    c.azimuthalAngles.length = c.numberOfSegments ∧ c.detunings.length = c.numberOfSegments ∧
    c.durations.length = c.numberOfSegments := by
  rw [DrivenControl.new_eq] at h
  split at h
  · split at h
    · rename_i h2
      obtain ⟨hr, ha, hd⟩ := h2
      split at h
      · cases h
        have hlr : (r.getD (List.replicate durations.length (lit 0))).length
            = durations.length := by
          cases r with
          | none => simp
          | some l => exact hr l (by simp)
        have hla : (a.getD (List.replicate durations.length (lit 0))).length
            = durations.length := by
          cases a with
          | none => simp
          | some l => exact ha l (by simp)
        have hld : (d.getD (List.replicate durations.length (lit 0))).length
            = durations.length := by
          cases d with
          | none => simp
          | some l => exact hd l (by simp)
        refine ⟨rfl, by cases r <;> rfl, by cases a <;> rfl, by cases d <;> rfl, rfl, hlr, rfl,
          hla.trans hlr.symm, hld.trans hlr.symm, hlr.symm⟩
      · cases h
    · cases h
  · cases h

/-- **C33** The sequence constructor returns a sequence exactly for well-formed arguments. -/
theorem C33_accepts_iff (T : α) (o r a d : List α) (name : Option String) :
    (∃ s, Sequence.new T o r a d name = .ok s) ↔ SequenceArgsOk T o r a d := by
  rw [Sequence.new_eq]
  unfold SequenceArgsOk
  constructor
  · rintro ⟨s, hs⟩
    split at hs
    · rename_i h1
      split at hs
      · rename_i h2
        split at hs
        · rename_i h3
          split at hs
          · rename_i h4
            split at hs
            · rename_i h5
              exact ⟨h1, by simpa [List.all_eq_true, Py.ge, Bool.and_eq_true] using h2, h3, h4, h5⟩
            · cases hs
          · cases hs
        · cases hs
      · cases hs
    · cases hs
  · rintro ⟨h1, h2, h3, h4, h5⟩
    rw [if_pos (show Py.gt T (lit 0) = true from h1),
      if_pos (show (o.all fun t => Py.ge t (lit 0) && Py.ge T t) = true by
        simpa [List.all_eq_true, Py.ge, Bool.and_eq_true] using h2), if_pos h3, if_pos h4, if_pos h5]
    exact ⟨_, rfl⟩

/-- **C33** The only exception is `ArgumentsValueError`. -/
theorem C33_only_arguments_error (T : α) (o r a d : List α) (name : Option String) (e : PyErr)
    (h : Sequence.new T o r a d name = .error e) : e.isArguments = true := by
  rw [Sequence.new_eq] at h
  repeat' split at h
  all_goals first | (cases h; rfl) | cases h

/-- **C33** Malformed arguments raise `ArgumentsValueError`. -/
theorem C33_rejects (T : α) (o r a d : List α) (name : Option String)
    (h : ¬ SequenceArgsOk T o r a d) :
    ∃ e, Sequence.new T o r a d name = .error e ∧ e.isArguments = true := by
  cases hc : Sequence.new T o r a d name with
  | ok s => exact absurd ((C33_accepts_iff T o r a d name).mp ⟨s, hc⟩) h
  | error e => exact ⟨e, rfl, C33_only_arguments_error _ _ _ _ _ _ _ hc⟩

/-- **C33** An accepted sequence stores its arguments. -/
theorem C33_stores_arguments (T : α) (o r a d : List α) (name : Option String) (s : Sequence α)
    (h : Sequence.new T o r a d name = .ok s) :
    s.duration = T ∧ s.offsets = o ∧ s.rabiRotations = r ∧ s.azimuthalAngles = a ∧
    s.detuningRotations = d ∧ s.name = name := by
  rw [Sequence.new_eq] at h
  repeat' split at h
  all_goals first | (cases h; exact ⟨rfl, rfl, rfl, rfl, rfl, rfl⟩) | cases h

end anyArithmetic

/-- **C01** at exact arithmetic, with ordinary inequalities. -/
theorem C01_accepts_iff_real (durations : List ℝ) (r a d : Option (List ℝ))
    (name : Option String) :
    (∃ c, DrivenControl.new durations r a d name = .ok c) ↔
      (∀ t ∈ durations, 0 < t) ∧ (∀ l, r = some l → l.length = durations.length) ∧
      (∀ l, a = some l → l.length = durations.length) ∧
      (∀ l, d = some l → l.length = durations.length) ∧
      (∀ l, r = some l → ∀ x ∈ l, 0 ≤ x) := by
  rw [C01_accepts_iff (by simp)]
  simp [ControlArgsOk]

/-- **C33** at exact arithmetic, with ordinary inequalities. -/
theorem C33_accepts_iff_real (T : ℝ) (o r a d : List ℝ) (name : Option String) :
    (∃ s, Sequence.new T o r a d name = .ok s) ↔
      0 < T ∧ (∀ t ∈ o, 0 ≤ t ∧ t ≤ T) ∧ r.length = o.length ∧ a.length = o.length ∧
      d.length = o.length := by
  rw [C33_accepts_iff]
  simp [SequenceArgsOk]

/-- a two-segment control with omitted detunings is well formed -/
example : ControlArgsOk [(1 : ℝ), 2] (some [3, 0]) (some [-1, 7]) none := by
  simp [ControlArgsOk]

/-- a negative Rabi rate is not -/
example : ¬ ControlArgsOk [(1 : ℝ), 2] (some [3, -1]) none none := by
  simp [ControlArgsOk]

example : SequenceArgsOk (2 : ℝ) [0, 1, 2] [1, 1, 1] [0, 0, 0] [0, 0, 0] := by
  simp [SequenceArgsOk]

example : ¬ SequenceArgsOk (2 : ℝ) [0, 3] [1, 1] [0, 0] [0, 0] := by
  simp only [SequenceArgsOk, not_and]
  intro _ h
  have := (h 3 (by simp)).2
  simp at this
  linarith

end OpenControls
