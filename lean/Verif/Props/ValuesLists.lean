import Verif.Proofs.ValuesLists

/-!
# C141: lists, tuples and complex numbers as arguments

The predefined sequences, the Gaussian control, the conversion and the exports (`Verif/Model/ValuesLists.lean`).
-/

namespace OpenControls

open PyFloat Py Spec

section Any
variable {α : Type} [Add α] [Sub α] [Mul α] [Div α] [Neg α] [PyFloat α]

/-- **C141** A predefined sequence is made exactly from a duration and further arguments that are real numbers such that
the sequence with these numbers is made; for the flag the truth value counts, so that `[False]` switches it on. -/
theorem C141_sequence (p : Predefined (PyArgument α)) (T pp : PyArgument α) (name : Option String) (s : Sequence α) :
    p.callLists T pp name = .ok s ↔
      ∃ T' q b, ArgumentReal T T' ∧ p.Rel ArgumentReal q ∧ (b = true ↔ ArgumentTruthy pp) ∧
        q.call T' b name = .ok s := by
  rw [predefined_opaque, C108_sequence]
  simp only [argumentReal_opaque, argumentTruthy_opaque, rel_opaque (α := α) argumentReal_opaque]

/-- **C141** With lists, tuples, complex numbers or other objects in place of numbers the sequence would be made with,
`TypeError` is raised, not `ArgumentsValueError`. -/
theorem C141_exception (p : Predefined (PyArgument α)) (q : Predefined α) (T pp : PyArgument α) (T' : α) (b : Bool)
    (name : Option String) (hT : ArgumentStands T T') (hp : p.Rel ArgumentStands q)
    (hb : b = true ↔ ArgumentTruthy pp) (s : Sequence α) (h : q.call T' b name = .ok s) :
    p.callLists T pp name = .ok s ∨ ∃ m, p.callLists T pp name = .error (.typeError m) := by
  rw [predefined_opaque]
  exact C108_sequence_exception _ q _ _ T' b name ((argumentStands_opaque T T').mp hT)
    ((rel_opaque argumentStands_opaque p q).mp hp) (hb.trans (argumentTruthy_opaque pp)) s h

/-- **C141** A list, a tuple or a complex number as duration raises `TypeError`, whatever else is given. -/
theorem C141_duration (p : Predefined (PyArgument α)) (T pp : PyArgument α) (name : Option String)
    (h : ∀ x, ¬ ArgumentReal T x) : ∃ m, p.callLists T pp name = .error (.typeError m) := by
  have hr : T.real = .error (.typeError "unsupported operand type(s)") := by
    rw [opaque_real]
    exact not_real_error fun x hx => h x ((argumentReal_opaque T x).mpr hx)
  refine ⟨"unsupported operand type(s)", ?_⟩
  cases p <;>
    simp only [Predefined.callLists, newRamseyLists, newSpinEchoLists, newCarrPurcellLists, newCPMGLists, newUhrigLists,
      newPeriodicLists, newWalshLists, newQuadraticLists, newXConcatenatedLists, newXYConcatenatedLists, countedLists,
      hr, bind, Except.bind]

/-- **C141** A number that is not positive as duration raises `ArgumentsValueError`, whatever else is given: the duration is
looked at first. -/
theorem C141_duration_first (p : Predefined (PyArgument α)) (T pp : PyArgument α) (T' : α) (name : Option String)
    (hT : ArgumentReal T T') (h : gt T' (lit 0) = false) :
    p.callLists T pp name = .error (.arguments "Sequence duration must be greater than zero.") := by
  have hr : T.real = .ok T' := by
    rw [opaque_real]
    exact (scalarReal_iff _ _).mpr ((argumentReal_opaque T T').mp hT)
  cases p <;>
    simp only [Predefined.callLists, newRamseyLists, newSpinEchoLists, newCarrPurcellLists, newCPMGLists, newUhrigLists,
      newPeriodicLists, newWalshLists, newQuadraticLists, newXConcatenatedLists, newXYConcatenatedLists, countedLists,
      newRamseySequence, newSpinEchoSequence, checkDuration, checkArguments, hr, h, bind, Except.bind] <;> rfl

/-- **C141** The Gaussian control: the same. A list as frequency raises `TypeError` too, even an empty one. -/
theorem C141_gaussian (Ω m T : PyArgument α) (f : PyScalar α ⊕ Nat) (c : DrivenControl α) :
    (newModulatedGaussianLists Ω m T f = .ok c ↔
      ∃ Ω' m' T' v f', ArgumentReal Ω Ω' ∧ ArgumentReal m m' ∧ ArgumentReal T T' ∧ f = .inl v ∧ ScalarReal v f' ∧
        newModulatedGaussianControl Ω' m' T' f' = .ok c) ∧
    ∀ Ω' m' T' f', ArgumentStands Ω Ω' → ArgumentStands m m' → ArgumentStands T T' →
      (∀ v, f = .inl v → Stands v f') → newModulatedGaussianControl Ω' m' T' f' = .ok c →
      newModulatedGaussianLists Ω m T f = .ok c ∨
        ∃ e, newModulatedGaussianLists Ω m T f = .error (.typeError e) := by
  rw [gaussian_opaque]
  constructor
  · rw [(C108_gaussian _ _ _ _ c).1]
    simp only [argumentReal_opaque]
    constructor
    · rintro ⟨Ω', m', T', f', h1, h2, h3, h4, h⟩
      cases f with
      | inl v => exact ⟨Ω', m', T', v, f', h1, h2, h3, rfl, h4, h⟩
      | inr n => cases h4
    · rintro ⟨Ω', m', T', v, f', h1, h2, h3, rfl, h4, h⟩
      exact ⟨Ω', m', T', f', h1, h2, h3, h4, h⟩
  · intro Ω' m' T' f' h1 h2 h3 h4 h
    refine (C108_gaussian _ _ _ _ c).2 Ω' m' T' f' ((argumentStands_opaque _ _).mp h1) ((argumentStands_opaque _ _).mp h2)
      ((argumentStands_opaque _ _).mp h3) ?_ h
    cases f with
    | inl v => exact h4 v rfl
    | inr n => exact .inr fun y hy => by cases hy

/-- **C141** The conversion to a driven control: the same for its two rates and the minimum duration. -/
theorem C141_conversion (s : Sequence α) (Ω δ m : PyArgument α) (name : Option String) (c : DrivenControl α) :
    (convertLists s Ω δ m name = .ok c ↔
      ∃ Ω' δ' m', ArgumentReal Ω Ω' ∧ ArgumentReal δ δ' ∧ ArgumentReal m m' ∧ convertDDS s Ω' δ' m' name = .ok c) ∧
    ∀ Ω' δ' m', ArgumentStands Ω Ω' → ArgumentStands δ δ' → ArgumentStands m m' → convertDDS s Ω' δ' m' name = .ok c →
      convertLists s Ω δ m name = .ok c ∨ ∃ e, convertLists s Ω δ m name = .error (.typeError e) := by
  rw [convert_opaque]
  simp only [argumentReal_opaque, argumentStands_opaque]
  exact C108_conversion s _ _ _ name c

/-- **C141** Plot data and files: a list, a tuple or a complex number as selector raises `ArgumentsValueError` and changes no
file; the strings give what they give. -/
theorem C141_export (c : DrivenControl α) (fs : FileSystem α) (filename : String) (f t k flag : PyArgument α) (b : Bool)
    (hb : b = true ↔ ArgumentTruthy flag) :
    ((∀ s, s = "cartesian" ∨ s = "cylindrical" → k = .scalar (.str s) → exportPlotLists c k flag = c.exportPlot s b) ∧
      (k ≠ .scalar (.str "cartesian") → k ≠ .scalar (.str "cylindrical") →
        ∃ m, exportPlotLists c k flag = .error (.arguments m))) ∧
    (∀ f' t' k', f = .scalar (.str f') → t = .scalar (.str t') → k = .scalar (.str k') →
      f' = "Q-CTRL expanded" → t' = "JSON" ∨ t' = "CSV" → k' = "cartesian" ∨ k' = "cylindrical" →
      exportToFileLists c fs filename f t k = c.exportToFile fs filename f' t' k') ∧
    ((f ≠ .scalar (.str "Q-CTRL expanded") ∨ (t ≠ .scalar (.str "JSON") ∧ t ≠ .scalar (.str "CSV")) ∨
        (k ≠ .scalar (.str "cartesian") ∧ k ≠ .scalar (.str "cylindrical"))) →
      ∃ m, exportToFileLists c fs filename f t k = (.error (.arguments m), fs)) := by
  rw [plot_opaque, file_opaque]
  simp only [← opaque_str, ne_eq]
  exact ⟨C108_plot c _ _ b (hb.trans (argumentTruthy_opaque flag)), C108_file c fs filename _ _ _⟩

end Any

/-- `[False]` as the flag adds the rotations, `[]` and `0j` do not; a list as duration or count and a complex number as rate
raise `TypeError`. -/
example : newSpinEchoLists (.scalar (.float 1)) (.list 1) none = newSpinEchoSequence (1 : ℝ) true none ∧
    newSpinEchoLists (.scalar (.float 1)) (.list 0) none = newSpinEchoSequence (1 : ℝ) false none ∧
    newSpinEchoLists (.scalar (.float 1)) (.complex 0 0) none = newSpinEchoSequence (1 : ℝ) false none ∧
    (∃ m, newCPMGLists (.list 1) (.scalar (.int 2)) (.list 0) none =
      (.error (.typeError m) : Except PyErr (Sequence ℝ))) ∧
    ∃ m, newCPMGLists (.scalar (.float 1)) (.complex 2 0) (.list 0) none =
      (.error (.typeError m) : Except PyErr (Sequence ℝ)) := by
  refine ⟨rfl, rfl, ?_, C141_duration (.cpmg _) _ _ none fun x h => (by cases h), ?_⟩
  · have : (PyArgument.complex (0 : ℝ) 0).truth = false := by
      rw [← Bool.not_eq_true, opaque_truth, truth_iff, ← argumentTruthy_opaque]
      intro h
      cases h with
      | re h => simp at h
      | im h => simp at h
    simp only [newSpinEchoLists, this]
    rfl
  · obtain ⟨s, h1, -⟩ := (C36_cpmg 1 1 false none).1 ⟨one_pos, le_rfl⟩
    rcases C141_exception (.cpmg (.complex 2 0)) (.cpmg 1) (.scalar (.float 1)) (.list 0) 1 false none
      (.inl (.scalar (.float 1))) (.inr fun y h => by cases h)
      ⟨(fun h => by cases h), fun h => by cases h with | list h => exact absurd h (lt_irrefl _)⟩ s h1 with h | h
    · obtain ⟨_, q, _, _, hq, _⟩ := (C141_sequence _ _ _ _ _).mp h
      cases q <;> simp only [Predefined.Rel] at hq
      cases hq
    · exact h

/-- With a negative duration the list as count is not looked at. -/
example : newCPMGLists (.scalar (.int (-1))) (.list 1) (.list 0) none =
    (.error (.arguments "Sequence duration must be greater than zero.") : Except PyErr (Sequence ℝ)) :=
  C141_duration_first (.cpmg (.list 1)) _ _ (lit ((-1 : ℤ) : ℚ)) none (.scalar (.int (-1))) (by
    rw [← Bool.not_eq_true, RealInst.gt_iff]
    simp)

/-- A list as selector is refused. -/
example (c : DrivenControl ℝ) : (∃ m, exportPlotLists c (.list 1) (.list 1) = .error (.arguments m)) ∧
    exportPlotLists c (.scalar (.str "cartesian")) (.list 2) = c.exportPlot "cartesian" true :=
  ⟨(C141_export c (fun _ => none) "" (.list 0) (.list 0) (.list 1) (.list 1) true
      ⟨fun _ => .list one_pos, fun _ => rfl⟩).1.2 (by simp) (by simp),
    (C141_export c (fun _ => none) "" (.list 0) (.list 0) (.scalar (.str "cartesian")) (.list 2) true
      ⟨fun _ => .list two_pos, fun _ => rfl⟩).1.1 _ (.inl rfl) rfl⟩

end OpenControls
