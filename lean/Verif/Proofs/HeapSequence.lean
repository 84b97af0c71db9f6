import Verif.Proofs.HeapConvert

/-!
# The sequence constructor on the heap, and item assignments
-/

namespace OpenControls

open PyFloat Py PyM

section Writes
variable {α : Type}

theorem setItem_snd (r : Ref) (i : Nat) (v : α) (h : Heap α) :
    (PyM.setItem r i v h).2 = h.set r ((h.items r).set i v) := by
  unfold PyM.setItem Heap.items
  split
  · rfl
  · rename_i hi
    have e : (h[r]?.getD []).set i v = h[r]?.getD [] := List.set_eq_of_length_le (by omega)
    rw [e]
    show h = _
    by_cases hr : r < h.length
    · rw [List.getElem?_eq_getElem hr]; simp
    · rw [List.set_eq_of_length_le (by omega)]

theorem items_set (h : Heap α) (r r' : Ref) (xs : List α) :
    Heap.items (h.set r xs) r' = if r = r' ∧ r < h.length then xs else h.items r' := by
  unfold Heap.items
  rw [List.getElem?_set]
  by_cases e : r = r'
  · subst e
    by_cases hr : r < h.length
    · simp [hr]
    · simp [hr]
  · simp [e]

theorem writes_length (ws : List (Ref × Nat × α)) (h : Heap α) :
    (Heap.writes ws h).length = h.length := by
  induction ws generalizing h with
  | nil => rfl
  | cons w ws ih =>
    obtain ⟨r, i, v⟩ := w
    rw [Heap.writes, ih, setItem_snd, List.length_set]

theorem writes_items_length (ws : List (Ref × Nat × α)) (h : Heap α) (r : Ref) :
    ((Heap.writes ws h).items r).length = (h.items r).length := by
  induction ws generalizing h with
  | nil => rfl
  | cons w ws ih =>
    obtain ⟨r', i, v⟩ := w
    rw [Heap.writes, ih, setItem_snd, items_set]
    split
    · rename_i e; rw [List.length_set, e.1]
    · rfl

theorem writes_other (ws : List (Ref × Nat × α)) (h : Heap α) (r : Ref)
    (hr : ∀ w ∈ ws, w.1 ≠ r) : (Heap.writes ws h).items r = h.items r := by
  induction ws generalizing h with
  | nil => rfl
  | cons w ws ih =>
    obtain ⟨r', i, v⟩ := w
    rw [Heap.writes, ih _ (fun w hw => hr w (List.mem_cons_of_mem _ hw)), setItem_snd, items_set]
    have := hr (r', i, v) List.mem_cons_self
    simp only at this
    simp [this]

theorem SequenceObj.WellFormed.writes {h : Heap α} {s : SequenceObj α} (w : s.WellFormed h)
    (ws : List (Ref × Nat × α)) : s.WellFormed (Heap.writes ws h) where
  exist r hr := by rw [writes_length]; exact w.exist r hr
  rabi := by rw [writes_items_length, writes_items_length]; exact w.rabi
  azimuthal := by rw [writes_items_length, writes_items_length]; exact w.azimuthal
  detuning := by rw [writes_items_length, writes_items_length]; exact w.detuning

end Writes

set_option linter.unusedSectionVars false

variable {α : Type} [Add α] [Sub α] [Mul α] [Div α] [Neg α] [PyFloat α]

structure SequenceRun (h : Heap α) (run : Except PyErr (SequenceObj α) × Heap α)
    (m : Except PyErr (Sequence α)) : Prop where
  ext : ∃ e, run.2 = h ++ e
  value : run.1.map (SequenceObj.value run.2) = m
  wellFormed : ∀ o, run.1 = .ok o → o.WellFormed run.2

theorem newSequenceH_run (T : α) (o r a d : Arg α) (name : Option String) (h : Heap α)
    (ho : o.Valid h) (hr : r.Valid h) (ha : a.Valid h) (hd : d.Valid h) :
    SequenceRun h (newSequenceH T o r a d name h)
      (Sequence.new T (o.items h) (r.items h) (a.items h) (d.items h) name) ∧
    ∀ s, (newSequenceH T o r a d name h).1 = .ok s →
      FieldRef h (some o) s.offsets ∧ FieldRef h (some r) s.rabiRotations ∧
      FieldRef h (some a) s.azimuthalAngles ∧ FieldRef h (some d) s.detuningRotations := by
  have err : ∀ (e : Heap α) (x : PyErr), SequenceRun h (.error x, h ++ e) (.error x) ∧
      ∀ s, ((Except.error x, h ++ e) : Except PyErr (SequenceObj α) × Heap α).1 = .ok s →
      FieldRef h (some o) s.offsets ∧ FieldRef h (some r) s.rabiRotations ∧
      FieldRef h (some a) s.azimuthalAngles ∧ FieldRef h (some d) s.detuningRotations :=
    fun e x => ⟨⟨⟨e, rfl⟩, rfl, fun o h => by simp at h⟩, fun o h => by simp at h⟩
  obtain ⟨r0, e0, w0, i0, l0, g0, f0⟩ := asarray_run o h ho
  unfold newSequenceH Sequence.new
  cases b1 : gt T (lit 0) with
  | false => rw [bind_check_false rfl]; have := err [] (.arguments "Sequence duration must be above zero."); rw [List.append_nil] at this; exact this
  | true =>
  rw [bind_check_true rfl, bind_ok w0, bind_load, i0]
  cases b2 : (o.items h).all fun t => ge t (lit 0) && ge T t with
  | false => rw [bind_check_false rfl]; exact err e0 _
  | true =>
  rw [bind_check_true rfl, bind_ok (argSize_run r _), Arg.items_append e0 hr]
  cases b3 : (r.items h).length == (o.items h).length with
  | false => rw [bind_check_false rfl]; exact err e0 _
  | true =>
  rw [bind_check_true rfl, bind_ok (argSize_run a _), Arg.items_append e0 ha]
  cases b4 : (a.items h).length == (o.items h).length with
  | false => rw [bind_check_false rfl]; exact err e0 _
  | true =>
  rw [bind_check_true rfl, bind_ok (argSize_run d _), Arg.items_append e0 hd]
  cases b5 : (d.items h).length == (o.items h).length with
  | false => rw [bind_check_false rfl]; exact err e0 _
  | true =>
  obtain ⟨r1, e1, w1, i1, l1, g1, f1⟩ := asarray_run r _ (hr.append e0)
  obtain ⟨r2, e2, w2, i2, l2, g2, f2⟩ := asarray_run a _ ((ha.append e0).append e1)
  obtain ⟨r3, e3, w3, i3, l3, g3, f3⟩ := asarray_run d _ (((hd.append e0).append e1).append e2)
  rw [bind_check_true rfl, bind_ok w1, bind_ok w2, bind_ok w3, pure_apply]
  rw [Arg.items_append _ hr] at i1
  rw [Arg.items_append _ (ha.append e0), Arg.items_append _ ha] at i2
  rw [Arg.items_append _ ((hd.append e0).append e1), Arg.items_append _ (hd.append e0),
    Arg.items_append _ hd] at i3
  have j0 : (h ++ e0 ++ e1 ++ e2 ++ e3).items r0 = o.items h := by
    rw [items_append, items_append, items_append _ _ l0, i0] <;>
      (simp only [List.length_append] at *; omega)
  have j1 : (h ++ e0 ++ e1 ++ e2 ++ e3).items r1 = r.items h := by
    rw [items_append, items_append _ _ l1, i1]; (simp only [List.length_append] at *; omega)
  have j2 : (h ++ e0 ++ e1 ++ e2 ++ e3).items r2 = a.items h := by
    rw [items_append _ _ l2, i2]
  refine ⟨⟨⟨e0 ++ e1 ++ e2 ++ e3, by simp⟩, ?_, ?_⟩, ?_⟩
  · simp only [Except.map, SequenceObj.value, j0, j1, j2, i3]; rfl
  · intro s hs
    simp only [Except.ok.injEq] at hs
    subst hs
    refine ⟨?_, ?_, ?_, ?_⟩
    · intro r' hr'
      simp only [SequenceObj.refs, List.mem_cons, List.not_mem_nil, or_false] at hr'
      simp only [List.length_append] at *
      omega
    · simp only [j0, j1]; simpa using b3
    · simp only [j0, j2]; simpa using b4
    · simp only [j0, i3]; simpa using b5
  · intro s hs
    simp only [Except.ok.injEq] at hs
    subst hs
    simp only [List.length_append] at l0 l1 l2 l3 f1 f2 f3
    refine ⟨⟨g0, f0⟩, ⟨g1, fun h' => ?_⟩, ⟨g2, fun h' => ?_⟩, ⟨g3, fun h' => ?_⟩⟩
    · have := f1 h'; show h.length ≤ r1; omega
    · have := f2 h'; show h.length ≤ r2; omega
    · have := f3 h'; show h.length ≤ r3; omega

end OpenControls
