import Verif.Spec.HeapPredefined
import Verif.Proofs.HeapWalsh
import Verif.Proofs.HeapQuadratic
import Verif.Proofs.HeapXY
import Verif.Props.Families

/-!
# C80: the predefined sequences as statements on shared arrays

The theorems are about the statement-level model of the ten constructors (`Verif/Model/HeapPredefined.lean`), with
its loops, indices, item and slice assignments, and hold for every arithmetic `α`.
-/

namespace OpenControls

open PyM Spec

variable {α : Type} [Add α] [Sub α] [Mul α] [Div α] [Neg α] [PyFloat α]

theorem predefined_run (s : Predefined α) (h : Heap α) (T : α) (prePost : Bool)
    (name : Option String) :
    PredefinedRun h (s.run T prePost name h) (s.call T prePost name) := by
  cases s with
  | ramsey => exact newRamseyH_run h T prePost name
  | spinEcho => exact newSpinEchoH_run h T prePost name
  | carrPurcell n => exact newCarrPurcellH_run h T n prePost name
  | cpmg n => exact newCPMGH_run h T n prePost name
  | uhrig n => exact newUhrigH_run h T n prePost name
  | periodic n => exact newPeriodicH_run h T n prePost name
  | walsh k => exact newWalshH_run h T k prePost name
  | quadratic n m => exact newQuadraticH_run h T n m prePost name
  | xConcatenated l => exact newXConcatenatedH_run h T l prePost name
  | xyConcatenated l => exact newXYConcatenatedH_run h T l prePost name

/-- **C80.** A call of a predefined constructor changes no array that existed before, whether it returns or
raises, and its outcome is the one of the value-level model: the loops over indices write every item that
they should, and none outside the arrays. -/
theorem C80_predefined_pure (s : Predefined α) (h : Heap α) (T : α) (prePost : Bool)
    (name : Option String) :
    let run := s.run T prePost name h
    (∀ r < h.length, run.2.items r = h.items r) ∧
    run.1.map (SequenceObj.value run.2) = s.call T prePost name := by
  intro run
  obtain ⟨⟨e, he⟩, hv, -, -, -⟩ := predefined_run s h T prePost name
  refine ⟨fun r hr => ?_, hv⟩
  show (s.run T prePost name h).2.items r = _
  rw [he, items_append _ _ hr]

/-- **C80.** A predefined sequence owns its arrays: they exist, none of them existed before the call,
and no two are the same.  Hence assignments to items of earlier arrays do not change the sequence,
assignments to items of its arrays change no earlier array, and assignments to one of its arrays change no other
one. -/
theorem C80_predefined_isolated (s : Predefined α) (h : Heap α) (T : α) (prePost : Bool)
    (name : Option String) (x : SequenceObj α) (h' : Heap α)
    (hx : s.run T prePost name h = (.ok x, h')) :
    x.WellFormed h' ∧ (∀ r ∈ x.refs, h.length ≤ r) ∧ x.refs.Nodup ∧
    (∀ ws : List (Nat × Nat × α), (∀ w ∈ ws, w.1 < h.length) →
      x.value (Heap.writes ws h') = x.value h') ∧
    (∀ ws : List (Nat × Nat × α), (∀ w ∈ ws, w.1 ∈ x.refs) →
      ∀ r < h.length, (Heap.writes ws h').items r = h.items r) ∧
    (∀ r ∈ x.refs, ∀ ws : List (Nat × Nat × α), (∀ w ∈ ws, w.1 = r) →
      ∀ r' ∈ x.refs, r' ≠ r → (Heap.writes ws h').items r' = h'.items r') := by
  obtain ⟨⟨e, he⟩, -, hw, hf, hn⟩ := predefined_run s h T prePost name
  rw [hx] at he hw hf hn
  change h' = h ++ e at he
  have hf := hf x rfl
  refine ⟨hw x rfl, hf, hn x rfl, fun ws hws => ?_, fun ws hws r hr => ?_,
    fun r _ ws hws r' _ hne => ?_⟩
  · have : ∀ r ∈ x.refs, (Heap.writes ws h').items r = h'.items r := fun r hr =>
      writes_other ws h' r fun w hwm e => by
        have := hws w hwm; have := hf r hr; omega
    simp only [SequenceObj.refs, List.mem_cons, List.not_mem_nil, or_false, forall_eq_or_imp,
      forall_eq] at this
    simp only [SequenceObj.value, this.1, this.2.1, this.2.2.1, this.2.2.2]
  · rw [writes_other ws h' r fun w hwm e => by
      have := hf _ (hws w hwm); omega, he, items_append _ _ hr]
  · exact writes_other ws h' r' fun w hwm e => hne (by rw [← e, hws w hwm])

/-- **C80.** Two predefined sequences never share an array: after two calls, no assignments to
the arrays of one of the sequences change the other. -/
theorem C80_two_sequences (s₁ s₂ : Predefined α) (h : Heap α) (T₁ T₂ : α) (p₁ p₂ : Bool)
    (name₁ name₂ : Option String) (x y : SequenceObj α) (h₁ h₂ : Heap α)
    (hx : s₁.run T₁ p₁ name₁ h = (.ok x, h₁)) (hy : s₂.run T₂ p₂ name₂ h₁ = (.ok y, h₂)) :
    (∀ r ∈ x.refs, r ∉ y.refs) ∧ x.value h₂ = x.value h₁ ∧
    (∀ ws : List (Nat × Nat × α), (∀ w ∈ ws, w.1 ∈ x.refs) →
      y.value (Heap.writes ws h₂) = y.value h₂) ∧
    (∀ ws : List (Nat × Nat × α), (∀ w ∈ ws, w.1 ∈ y.refs) →
      x.value (Heap.writes ws h₂) = x.value h₁) := by
  obtain ⟨hw, -⟩ := C80_predefined_isolated s₁ h T₁ p₁ name₁ x h₁ hx
  obtain ⟨-, hf, -, h4, h5, -⟩ := C80_predefined_isolated s₂ h₁ T₂ p₂ name₂ y h₂ hy
  have keep := (C80_predefined_pure s₂ h₁ T₂ p₂ name₂).1
  simp only [hy] at keep
  have val : ∀ h' : Heap α, (∀ r < h₁.length, h'.items r = h₁.items r) →
      x.value h' = x.value h₁ := by
    intro h' hh
    have := fun r hr => hh r (hw.exist r hr)
    simp only [SequenceObj.refs, List.mem_cons, List.not_mem_nil, or_false, forall_eq_or_imp,
      forall_eq] at this
    simp only [SequenceObj.value, this.1, this.2.1, this.2.2.1, this.2.2.2]
  refine ⟨fun r hr hr' => ?_, val _ keep, fun ws hws => h4 ws fun w hwm => hw.exist _ (hws w hwm),
    fun ws hws => val _ (h5 ws hws)⟩
  have := hw.exist r hr
  have := hf r hr'
  omega

/-- **C80.** In exact arithmetic the only exception is the argument check: no index is out of range, no
slice has the wrong length, no conversion to an integer fails. -/
theorem C80_no_index_error (s : Predefined ℝ) (h : Heap ℝ) (T : ℝ) (prePost : Bool)
    (name : Option String) (e : PyErr) (he : (s.run T prePost name h).1 = .error e) :
    ∃ description, e = .arguments description := by
  have hv := (C80_predefined_pure s h T prePost name).2
  rw [he] at hv
  have hv : s.call T prePost name = .error e := hv.symm
  have key : ∀ {P : Prop} {Q : Sequence ℝ → Prop}, Returns (s.call T prePost name) P Q →
      ∃ description, e = .arguments description := by
    intro P Q hr
    rw [hv] at hr
    by_cases hP : P
    · obtain ⟨c, hc, -⟩ := hr.1 hP
      simp at hc
    · obtain ⟨d, hd⟩ := hr.2 hP
      exact ⟨d, by simpa using hd⟩
  cases s with
  | ramsey => exact key (C35_ramsey T prePost name)
  | spinEcho => exact key (C35_spin_echo T prePost name)
  | carrPurcell n => exact key (C36_carr_purcell T n prePost name)
  | cpmg n => exact key (C36_cpmg T n prePost name)
  | uhrig n => exact key (C37_uhrig T n prePost name)
  | periodic n => exact key (C38_periodic T n prePost name)
  | walsh k => exact key (C39_walsh T k prePost name)
  | quadratic n m => exact key (C40_quadratic T n m prePost name)
  | xConcatenated l => exact key (C41_x_concatenated T l prePost name)
  | xyConcatenated l => exact key (C42_returns T l prePost name)

/-- The hypotheses of C80 are met by every family: on any heap each call with a positive duration and
valid arguments returns a sequence, e.g. an XY-concatenated one of order 3, which has Z pulses. -/
example (h : Heap ℝ) : ∃ x h', (Predefined.xyConcatenated (3 : ℝ)).run 1 true none h = (.ok x, h') := by
  obtain ⟨s, hs, -⟩ := (C42_returns 1 3 true none).1 ⟨by norm_num, by norm_num⟩
  have hv := (C80_predefined_pure (Predefined.xyConcatenated (3 : ℝ)) h 1 true none).2
  generalize hrun : (Predefined.xyConcatenated (3 : ℝ)).run 1 true none h = run at hv
  obtain ⟨res, h'⟩ := run
  cases res with
  | error e =>
    have : (Except.error e : Except PyErr (Sequence ℝ)) = .ok s := hv.trans hs
    simp at this
  | ok x => exact ⟨x, h', rfl⟩

end OpenControls
