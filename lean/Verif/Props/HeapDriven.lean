import Verif.Proofs.HeapDriven
import Verif.Props.Composite
import Verif.Props.Gaussian

/-!
# C89: the predefined driven controls as statements on shared arrays

The theorems are about the statement-level model of the ten functions (`Verif/Model/HeapDriven.lean`) and hold for
every arithmetic `α`.
-/

namespace OpenControls

open PyM Spec

section
variable {α : Type} [Add α] [Sub α] [Mul α] [Div α] [Neg α] [PyFloat α]

theorem controlCall_run (call : ControlCall α) (h : Heap α) :
    ControlOwns h (call.run h) call.result := by
  cases call with
  | composite scheme θ Ω φ name =>
    cases scheme with
    | primitive => exact newPrimitiveH_run h θ Ω φ name
    | bb1 => exact newBB1H_run h θ Ω φ name
    | sk1 => exact newSK1H_run h θ Ω φ name
    | scrofulous => exact newScrofulousH_run h θ Ω φ name
    | corpse => exact newCorpseH_run h θ Ω φ name
    | corpseInBB1 => exact newCorpseInBB1H_run h θ Ω φ name
    | corpseInSK1 => exact newCorpseInSK1H_run h θ Ω φ name
    | corpseInScrofulous => exact newCorpseInScrofulousH_run h θ Ω φ name
    | wamf1 => exact newWamf1H_run h θ Ω φ name
  | gaussian Ω d T f => exact newModulatedGaussianH_run h Ω d T f

/-- **C89.** A call of a function that creates a driven control changes no array that existed before, whether it
returns or raises, and its outcome is the one of the value-level model. -/
theorem C89_controls_pure (call : ControlCall α) (h : Heap α) :
    (∀ r < h.length, (call.run h).2.items r = h.items r) ∧
    (call.run h).1.map (ControlObj.value (call.run h).2) = call.result := by
  obtain ⟨⟨e, he⟩, hv, -, -, -⟩ := controlCall_run call h
  exact ⟨fun r hr => by rw [he, items_append _ _ hr], hv⟩

/-- **C89.** A predefined control owns its arrays: they exist, none of them existed before the call, and no
two are the same. Hence assignments to items of earlier arrays do not change the control, assignments to items of its
arrays change no earlier array, and assignments to one of its arrays change no other one. -/
theorem C89_controls_isolated (call : ControlCall α) (h : Heap α) (c : ControlObj) (h' : Heap α)
    (hc : call.run h = (.ok c, h')) :
    (∀ r ∈ c.refs, h.length ≤ r ∧ r < h'.length) ∧ c.refs.Nodup ∧
    (∀ ws : List (Nat × Nat × α), (∀ w ∈ ws, w.1 < h.length) →
      c.value (Heap.writes ws h') = c.value h') ∧
    (∀ ws : List (Nat × Nat × α), (∀ w ∈ ws, w.1 ∈ c.refs) →
      ∀ r < h.length, (Heap.writes ws h').items r = h.items r) ∧
    (∀ r ∈ c.refs, ∀ ws : List (Nat × Nat × α), (∀ w ∈ ws, w.1 = r) →
      ∀ r' ∈ c.refs, r' ≠ r → (Heap.writes ws h').items r' = h'.items r') := by
  obtain ⟨⟨e, he⟩, -, hx, hf, hn⟩ := controlCall_run call h
  rw [hc] at he hx hf hn
  change h' = h ++ e at he
  have hf := hf c rfl
  refine ⟨fun r hr => ⟨hf r hr, hx c rfl r hr⟩, hn c rfl, fun ws hws => ?_, fun ws hws r hr => ?_,
    fun r _ ws hws r' _ hne => ?_⟩
  · have : ∀ r ∈ c.refs, (Heap.writes ws h').items r = h'.items r := fun r hr =>
      writes_other ws h' r fun w hwm e => by
        have := hws w hwm; have := hf r hr; omega
    simp only [ControlObj.refs, List.mem_cons, List.not_mem_nil, or_false, forall_eq_or_imp,
      forall_eq] at this
    simp only [ControlObj.value, this.1, this.2.1, this.2.2.1, this.2.2.2]
  · rw [writes_other ws h' r fun w hwm e => by
      have := hf _ (hws w hwm); omega, he, items_append _ _ hr]
  · exact writes_other ws h' r' fun w hwm e => hne (by rw [← e, hws w hwm])

/-- **C89.** Two controls created by two calls never share an array, so no assignments to the arrays of one of
them change the other. -/
theorem C89_two_controls (call₁ call₂ : ControlCall α) (h : Heap α) (c₁ c₂ : ControlObj) (h₁ h₂ : Heap α)
    (hc₁ : call₁.run h = (.ok c₁, h₁)) (hc₂ : call₂.run h₁ = (.ok c₂, h₂)) :
    (∀ r ∈ c₁.refs, r ∉ c₂.refs) ∧ c₁.value h₂ = c₁.value h₁ ∧
    (∀ ws : List (Nat × Nat × α), (∀ w ∈ ws, w.1 ∈ c₁.refs) →
      c₂.value (Heap.writes ws h₂) = c₂.value h₂) ∧
    (∀ ws : List (Nat × Nat × α), (∀ w ∈ ws, w.1 ∈ c₂.refs) →
      c₁.value (Heap.writes ws h₂) = c₁.value h₁) := by
  obtain ⟨hw, -⟩ := C89_controls_isolated call₁ h c₁ h₁ hc₁
  obtain ⟨hf, -, h4, h5, -⟩ := C89_controls_isolated call₂ h₁ c₂ h₂ hc₂
  have keep := (C89_controls_pure call₂ h₁).1
  simp only [hc₂] at keep
  have val : ∀ h' : Heap α, (∀ r < h₁.length, h'.items r = h₁.items r) →
      c₁.value h' = c₁.value h₁ := by
    intro h' hh
    have := fun r hr => hh r (hw r hr).2
    simp only [ControlObj.refs, List.mem_cons, List.not_mem_nil, or_false, forall_eq_or_imp,
      forall_eq] at this
    simp only [ControlObj.value, this.1, this.2.1, this.2.2.1, this.2.2.2]
  refine ⟨fun r hr hr' => ?_, val _ keep, fun ws hws => h4 ws fun w hwm => (hw _ (hws w hwm)).2,
    fun ws hws => val _ (h5 ws hws)⟩
  have := (hw r hr).2
  have := (hf r hr').1
  omega

end

/-- A call that returns meets the hypotheses of C89, on any heap: CORPSE in SCROFULOUS, which hands an array of its
own to the constructor. -/
example (h : Heap ℝ) :
    ∃ c h', (ControlCall.composite .corpseInScrofulous Real.pi 1 0 none).run h = (.ok c, h') := by
  have ht : Tabulated Real.pi := .inl (by unfold Close; rw [sub_self, abs_zero]; positivity)
  have hs := (C23_corpse_in_scrofulous Real.pi 1 0 none).1.1 ⟨one_pos, ht⟩
  have hv := (C89_controls_pure (ControlCall.composite .corpseInScrofulous Real.pi 1 0 none) h).2
  generalize hrun : (ControlCall.composite .corpseInScrofulous Real.pi 1 0 none).run h = run at hv
  obtain ⟨res, h'⟩ := run
  cases res with
  | error e =>
    have : (Except.error e : Except PyErr (DrivenControl ℝ)) = .ok _ := hv.trans hs
    simp at this
  | ok x => exact ⟨x, h', rfl⟩

end OpenControls
