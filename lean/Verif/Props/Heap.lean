import Verif.Proofs.HeapSequence
import Verif.Props.Conversion

/-!
# C70, C71: arrays as shared objects

The theorems are about the statement-level model over a heap of arrays (`Verif/Model/Heap.lean`) and hold for
every arithmetic `α`.
-/

namespace OpenControls

open PyM

variable {α : Type} [Add α] [Sub α] [Mul α] [Div α] [Neg α] [PyFloat α]

/-- **C70.** Converting a sequence changes no array that existed before the call (in particular not
the sequence), whether it returns or raises, and its outcome is the one of the value-level model.  The
sequence is any that a constructor call returned, after any further assignments to array items. -/
theorem C70_conversion_pure (h₀ : Heap α) (T : α) (o r a d : Arg α) (name : Option String)
    (ho : o.Valid h₀) (hr : r.Valid h₀) (ha : a.Valid h₀) (hd : d.Valid h₀)
    (s : SequenceObj α) (h₁ : Heap α) (hs : newSequenceH T o r a d name h₀ = (.ok s, h₁))
    (ws : List (Nat × Nat × α)) (Ωm Δm tm : α) (newName : Option String) :
    let h := Heap.writes ws h₁
    let run := convertH s Ωm Δm tm newName h
    (∀ r < h.length, run.2.items r = h.items r) ∧
    s.value run.2 = s.value h ∧
    run.1.map (ControlObj.value run.2) = convertDDS (s.value h) Ωm Δm tm newName := by
  intro h run
  have w := ((newSequenceH_run T o r a d name h₀ ho hr ha hd).1.wellFormed s (by rw [hs])).writes ws
  rw [hs] at w
  change s.WellFormed h at w
  have key := convertH_run h s w.exist w.rabi w.azimuthal w.detuning Ωm Δm tm newName
  obtain ⟨e, he⟩ := key.ext
  change run.2 = h ++ e at he
  have keep : ∀ r < h.length, run.2.items r = h.items r := fun r hr => by
    rw [he, items_append _ _ hr]
  refine ⟨keep, ?_, key.value⟩
  have := fun r hr => keep r (w.exist r hr)
  simp only [SequenceObj.refs, List.mem_cons, List.not_mem_nil, or_false, forall_eq_or_imp,
    forall_eq] at this
  simp only [SequenceObj.value, this.1, this.2.1, this.2.2.1, this.2.2.2]

/-- **C70.** The converted control shares no array with anything that existed before: later
assignments to earlier arrays (such as those of the sequence) do not change the control, later
assignments to the arrays of the control do not change earlier arrays, and no two of its four arrays are
the same. -/
theorem C70_conversion_isolated (h : Heap α) (s : SequenceObj α) (w : s.WellFormed h)
    (Ωm Δm tm : α) (newName : Option String) (c : ControlObj) (h' : Heap α)
    (hc : convertH s Ωm Δm tm newName h = (.ok c, h')) :
    (∀ ws : List (Nat × Nat × α), (∀ x ∈ ws, x.1 < h.length) →
      c.value (Heap.writes ws h') = c.value h') ∧
    (∀ ws : List (Nat × Nat × α), (∀ x ∈ ws, x.1 ∈ c.refs) →
      (∀ r < h.length, (Heap.writes ws h').items r = h.items r) ∧
      s.value (Heap.writes ws h') = s.value h) ∧
    c.refs.Nodup := by
  have key := convertH_run h s w.exist w.rabi w.azimuthal w.detuning Ωm Δm tm newName
  rw [hc] at key
  obtain ⟨⟨e, he⟩, -, hf⟩ := key
  change h' = h ++ e at he
  obtain ⟨hf, hn⟩ := hf c rfl
  refine ⟨fun ws hws => ?_, fun ws hws => ?_, hn⟩
  · have : ∀ r ∈ c.refs, (Heap.writes ws h').items r = h'.items r := fun r hr =>
      writes_other ws h' r fun x hx e => by
        have := hws x hx; have := (hf r hr).1; omega
    simp only [ControlObj.refs, List.mem_cons, List.not_mem_nil, or_false, forall_eq_or_imp,
      forall_eq] at this
    simp only [ControlObj.value, this.1, this.2.1, this.2.2.1, this.2.2.2]
  · have keep : ∀ r < h.length, (Heap.writes ws h').items r = h.items r := fun r hr => by
      rw [writes_other ws h' r fun x hx e => by
        have := (hf _ (hws x hx)).1; omega, he, items_append _ _ hr]
    refine ⟨keep, ?_⟩
    have := fun r hr => keep r (w.exist r hr)
    simp only [SequenceObj.refs, List.mem_cons, List.not_mem_nil, or_false, forall_eq_or_imp,
      forall_eq] at this
    simp only [SequenceObj.value, this.1, this.2.1, this.2.2.1, this.2.2.2]

/-- **C71.** The constructors do not change any array, and accept and reject as the value-level
model does on the items of the given arrays. -/
theorem C71_constructors_pure (h : Heap α) :
    (∀ (durations : Arg α) (rabi az det : Option (Arg α)) (name : Option String),
      durations.Valid h → (∀ a ∈ [rabi, az, det], ∀ x, a = some x → x.Valid h) →
      let run := newControlH durations rabi az det name h
      (∀ r < h.length, run.2.items r = h.items r) ∧
      run.1.map (ControlObj.value run.2) = DrivenControl.new (durations.items h)
        (rabi.map (Arg.items h)) (az.map (Arg.items h)) (det.map (Arg.items h)) name) ∧
    (∀ (T : α) (o r a d : Arg α) (name : Option String),
      o.Valid h → r.Valid h → a.Valid h → d.Valid h →
      let run := newSequenceH T o r a d name h
      (∀ r < h.length, run.2.items r = h.items r) ∧
      run.1.map (SequenceObj.value run.2) =
        Sequence.new T (o.items h) (r.items h) (a.items h) (d.items h) name) := by
  constructor
  · intro durations rabi az det name hd hv run
    have key := (newControlH_run durations rabi az det name h hd (hv rabi (by simp))
      (hv az (by simp)) (hv det (by simp))).1
    obtain ⟨⟨e, he⟩, hval, -⟩ := key
    refine ⟨fun r hr => ?_, hval⟩
    change run.2 = h ++ e at he
    rw [he, items_append _ _ hr]
  · intro T o r a d name ho hr ha hd run
    have key := (newSequenceH_run T o r a d name h ho hr ha hd).1
    obtain ⟨⟨e, he⟩, hval, -⟩ := key
    refine ⟨fun r hr => ?_, hval⟩
    change run.2 = h ++ e at he
    rw [he, items_append _ _ hr]

/-- **C71.** A control keeps the float arrays it is given, without copying: every later assignment
to such an array is an assignment to the control. -/
theorem C71_control_aliases (h : Heap α) (durations rabi az det : Nat) (name : Option String)
    (hd : durations < h.length) (hr : rabi < h.length) (ha : az < h.length) (ht : det < h.length)
    (c : ControlObj) (h' : Heap α)
    (hc : newControlH (.array durations) (some (.array rabi)) (some (.array az))
      (some (.array det)) name h = (.ok c, h')) (ws : List (Nat × Nat × α)) :
    c.value (Heap.writes ws h') =
      ⟨(Heap.writes ws h').items rabi, (Heap.writes ws h').items az, (Heap.writes ws h').items det,
        (Heap.writes ws h').items durations, name⟩ ∧
    ∀ i v, i < (h'.items durations).length →
      (c.value (setItem durations i v h').2).durations = (h'.items durations).set i v := by
  have hv : ∀ k, k < h.length → (Arg.array k : Arg α).Valid h := fun k hk r hr => by
    simp only [Arg.ref?, Option.some.injEq] at hr; omega
  have ov : ∀ k, k < h.length → OptValid h (some (Arg.array k : Arg α)) := fun k hk x hx => by
    cases hx; exact hv k hk
  have key := newControlH_run (.array durations) (some (.array rabi)) (some (.array az))
      (some (.array det)) name h (hv _ hd) (ov _ hr) (ov _ ha) (ov _ ht)
  rw [hc] at key
  obtain ⟨⟨⟨e, he⟩, hval, -⟩, hf⟩ := key
  obtain ⟨⟨f1, -⟩, ⟨f2, -⟩, ⟨f3, -⟩, ⟨f4, -⟩, -⟩ := hf c rfl
  have f1 := f1 _ rfl; have f2 := f2 _ rfl; have f3 := f3 _ rfl; have f4 := f4 _ rfl
  have hname : c.name = name := by
    have hval : Except.ok (c.value h') = _ := hval
    rw [eq_comm, DrivenControl.new_eq] at hval
    split at hval <;> try split at hval
    all_goals try split at hval
    all_goals simp at hval
    exact (congrArg DrivenControl.name hval).symm
  refine ⟨by simp only [ControlObj.value, f1, f2, f3, f4, hname], fun i v hi => ?_⟩
  change h' = h ++ e at he
  have hd' : durations < h'.length := by rw [he, List.length_append]; omega
  simp only [ControlObj.value, f1, setItem_snd, items_set, hd', and_self, if_true]

/-- **C71.** The same for sequences. -/
theorem C71_sequence_aliases (h : Heap α) (T : α) (o r a d : Nat) (name : Option String)
    (ho : o < h.length) (hr : r < h.length) (ha : a < h.length) (hd : d < h.length)
    (s : SequenceObj α) (h' : Heap α)
    (hs : newSequenceH T (.array o) (.array r) (.array a) (.array d) name h = (.ok s, h'))
    (ws : List (Nat × Nat × α)) :
    s.value (Heap.writes ws h') =
      ⟨T, (Heap.writes ws h').items o, (Heap.writes ws h').items r, (Heap.writes ws h').items a,
        (Heap.writes ws h').items d, name⟩ ∧
    ∀ i v, i < (h'.items o).length →
      (s.value (setItem o i v h').2).offsets = (h'.items o).set i v := by
  have hv : ∀ k, k < h.length → (Arg.array k : Arg α).Valid h := fun k hk r hr => by
    simp only [Arg.ref?, Option.some.injEq] at hr; omega
  have key := newSequenceH_run T (.array o) (.array r) (.array a) (.array d) name h (hv _ ho)
    (hv _ hr) (hv _ ha) (hv _ hd)
  rw [hs] at key
  obtain ⟨⟨⟨e, he⟩, hval, -⟩, hf⟩ := key
  obtain ⟨⟨f1, -⟩, ⟨f2, -⟩, ⟨f3, -⟩, ⟨f4, -⟩⟩ := hf s rfl
  have f1 := f1 _ rfl; have f2 := f2 _ rfl; have f3 := f3 _ rfl; have f4 := f4 _ rfl
  have hname : s.duration = T ∧ s.name = name := by
    have hval : Except.ok (s.value h') = _ := hval
    rw [eq_comm, Sequence.new_eq] at hval
    split at hval <;> try split at hval
    all_goals try split at hval
    all_goals try split at hval
    all_goals try split at hval
    all_goals simp at hval
    exact ⟨(congrArg Sequence.duration hval).symm, (congrArg Sequence.name hval).symm⟩
  refine ⟨by simp only [SequenceObj.value, f1, f2, f3, f4, hname], fun i v hi => ?_⟩
  change h' = h ++ e at he
  have hd' : o < h'.length := by rw [he, List.length_append]; omega
  simp only [SequenceObj.value, f1, setItem_snd, items_set, hd', and_self, if_true]

/-- **C71.** An object made from lists (or defaults) shares no array with anything that existed before:
later assignments to earlier arrays do not change it. -/
theorem C71_lists_isolated (h : Heap α) :
    (∀ (durations : List α) (rabi az det : Option (List α)) (name : Option String) (c : ControlObj)
        (h' : Heap α), newControlH (.list durations) (rabi.map .list) (az.map .list)
          (det.map .list) name h = (.ok c, h') →
      c.refs.Nodup ∧ ∀ ws : List (Nat × Nat × α), (∀ x ∈ ws, x.1 < h.length) →
        c.value (Heap.writes ws h') = c.value h') ∧
    (∀ (T : α) (o r a d : List α) (name : Option String) (s : SequenceObj α) (h' : Heap α),
        newSequenceH T (.list o) (.list r) (.list a) (.list d) name h = (.ok s, h') →
      ∀ ws : List (Nat × Nat × α), (∀ x ∈ ws, x.1 < h.length) →
        s.value (Heap.writes ws h') = s.value h') := by
  have lv : ∀ l : List α, (Arg.list l : Arg α).Valid h := fun l r hr => by simp [Arg.ref?] at hr
  constructor
  · intro durations rabi az det name c h' hc
    have ov : ∀ l : Option (List α), OptValid h (l.map Arg.list) := fun l x hx => by
      obtain ⟨l, -, rfl⟩ := Option.map_eq_some_iff.mp hx; exact lv l
    have on : ∀ l : Option (List α), (l.map (Arg.list : List α → Arg α)).bind Arg.ref? = none := by
      intro l; cases l <;> rfl
    have key := (newControlH_run (.list durations) (rabi.map .list) (az.map .list)
          (det.map .list) name h (lv _) (ov _) (ov _) (ov _)).2 c (by rw [hc])
    obtain ⟨⟨-, f1⟩, ⟨-, f2⟩, ⟨-, f3⟩, ⟨-, f4⟩, hn⟩ := key
    have f1 := f1 rfl; have f2 := f2 (on _); have f3 := f3 (on _); have f4 := f4 (on _)
    refine ⟨hn (by simp [List.filterMap_cons, on, Arg.ref?]), fun ws hws => ?_⟩
    have e : ∀ r, h.length ≤ r → (Heap.writes ws h').items r = h'.items r := fun r hr =>
      writes_other ws h' r fun x hx e => by have := hws x hx; omega
    simp only [ControlObj.value, e _ f1, e _ f2, e _ f3, e _ f4]
  · intro T o r a d name s h' hs ws hws
    have key := (newSequenceH_run T (.list o) (.list r) (.list a) (.list d) name h (lv _) (lv _)
      (lv _) (lv _)).2 s (by rw [hs])
    obtain ⟨⟨-, f1⟩, ⟨-, f2⟩, ⟨-, f3⟩, ⟨-, f4⟩⟩ := key
    have f1 := f1 rfl; have f2 := f2 rfl; have f3 := f3 rfl; have f4 := f4 rfl
    have e : ∀ r, h.length ≤ r → (Heap.writes ws h').items r = h'.items r := fun r hr =>
      writes_other ws h' r fun x hx e => by have := hws x hx; omega
    simp only [SequenceObj.value, e _ f1, e _ f2, e _ f3, e _ f4]

/-- **C71.** Because of the sharing, validation at construction is not a lasting guarantee: there are a
control and a sequence that were accepted, and one assignment to the caller's array after which the
constructor would reject the attributes they have. -/
theorem C71_validity_can_be_lost :
    (∃ (h : Heap ℝ) (durations : Nat) (c : ControlObj) (h' : Heap ℝ) (i : Nat) (v : ℝ),
      durations < h.length ∧ newControlH (.array durations) none none none none h = (.ok c, h') ∧
      let x := c.value (setItem durations i v h').2
      ∃ msg, DrivenControl.new x.durations (some x.rabiRates) (some x.azimuthalAngles)
        (some x.detunings) x.name = .error (.arguments msg)) ∧
    (∃ (h : Heap ℝ) (o : Nat) (s : SequenceObj ℝ) (h' : Heap ℝ) (i : Nat) (v : ℝ),
      o < h.length ∧
      newSequenceH 1 (.array o) (.list [1]) (.list [0]) (.list [0]) none h = (.ok s, h') ∧
      let x := s.value (setItem o i v h').2
      ∃ msg, Sequence.new x.duration x.offsets x.rabiRotations x.azimuthalAngles
        x.detuningRotations x.name = .error (.arguments msg)) := by
  constructor
  · refine ⟨[[1]], 0, ⟨1, 2, 3, 0, none⟩, [[1], [0], [0], [0]], 0, -1, by simp, ?_, ?_⟩
    · simp [newControlH, asarray, bind_def, PyM.andThen, pure_apply, PyM.load, PyM.check,
        checkArguments, optSize, defaultArray, PyM.alloc, Py.pySet, Py.gt, Py.ge]
    · refine ⟨"Duration of driven control segments must all be greater than zero.", ?_⟩
      simp [DrivenControl.new_eq, ControlObj.value, setItem_snd, Heap.items]
  · refine ⟨[[1]], 0, ⟨1, 0, 1, 2, 3, none⟩, [[1], [1], [0], [0]], 0, 2, by simp, ?_, ?_⟩
    · simp [newSequenceH, asarray, bind_def, PyM.andThen, pure_apply, PyM.load, PyM.check,
        checkArguments, argSize, PyM.alloc]
    · refine ⟨"Offsets for dynamic decoupling sequence must be between 0 and the sequence duration (inclusive). ", ?_⟩
      simp [Sequence.new_eq, SequenceObj.value, setItem_snd, Heap.items]

/-- The hypotheses of C70 and C71 are met: a spin echo made from four arrays of the caller, and its
conversion. -/
example : ∃ (h : Heap ℝ) (s : SequenceObj ℝ) (h₁ : Heap ℝ) (c : ControlObj) (h₂ : Heap ℝ),
    newSequenceH s.duration (.array 0) (.array 1) (.array 2) (.array 3) s.name h = (.ok s, h₁) ∧
    h.length = 4 ∧ h.items 0 ≠ [] ∧ s.WellFormed h₁ ∧
    convertH s (10 * Real.pi) 1 (1 / 10) none h₁ = (.ok c, h₂) := by
  obtain ⟨x, y, ⟨T, o, r, a, d, name, hx⟩, -, -, -, -, hne, hy⟩ := conversion_witness
  have v : ∀ k < 4, (Arg.array k : Arg ℝ).Valid [o, r, a, d] := fun k hk r' hr' => by
    simp only [Arg.ref?, Option.some.injEq] at hr'
    simp only [List.length_cons, List.length_nil]; omega
  have key := (newSequenceH_run T (.array 0) (.array 1) (.array 2) (.array 3) name [o, r, a, d]
    (v 0 (by omega)) (v 1 (by omega)) (v 2 (by omega)) (v 3 (by omega))).1
  have hx' : Sequence.new T (Arg.items [o, r, a, d] (.array 0)) (Arg.items [o, r, a, d] (.array 1))
    (Arg.items [o, r, a, d] (.array 2)) (Arg.items [o, r, a, d] (.array 3)) name = .ok x := hx
  rw [hx'] at key
  have hxe : x = ⟨T, o, r, a, d, name⟩ := by
    rw [Sequence.new_eq] at hx
    split at hx <;> try split at hx
    all_goals try split at hx
    all_goals try split at hx
    all_goals try split at hx
    all_goals simp at hx
    exact hx.symm
  obtain ⟨-, hval, hwf⟩ := key
  generalize hrun : newSequenceH T (.array 0) (.array 1) (.array 2) (.array 3) name
    [o, r, a, d] = run at hval hwf
  obtain ⟨res, h₁⟩ := run
  cases res with
  | error e => simp [Except.map] at hval
  | ok s =>
    have hw := hwf s rfl
    have hv : s.value h₁ = x := by simpa [Except.map] using hval
    have key := convertH_run h₁ s hw.exist hw.rabi hw.azimuthal hw.detuning (10 * Real.pi) 1
      (1 / 10) none
    rw [hv, hy] at key
    obtain ⟨-, hval', -⟩ := key
    generalize hrun' : convertH s (10 * Real.pi) 1 (1 / 10) none h₁ = run at hval'
    obtain ⟨res, h₂⟩ := run
    cases res with
    | error e => simp [Except.map] at hval'
    | ok c =>
      refine ⟨[o, r, a, d], s, h₁, c, h₂, ?_, rfl, ?_, hw, hrun'⟩
      · have e1 : s.duration = T := by
          have := congrArg Sequence.duration hv; rw [hxe] at this; exact this
        have e2 : s.name = name := by
          have := congrArg Sequence.name hv; rw [hxe] at this; exact this
        rw [e1, e2, hrun]
      · intro ho
        have ho : o = [] := ho
        rw [hxe, ho] at hne
        exact hne rfl

end OpenControls
