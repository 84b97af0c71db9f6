import Verif.Model.HeapPredefined
import Verif.Proofs.HeapSequence

/-!
# The predefined sequences on the heap: building blocks and the vectorised families
-/

namespace OpenControls

open PyFloat Py PyM

section Basic
variable {α β γ : Type}

theorem bind_lift_ok (x : β) (f : β → PyM α γ) (h : Heap α) :
    (PyM.lift (.ok x) >>= f) h = f x h := rfl

theorem bind_lift_error (x : PyErr) (f : β → PyM α γ) (h : Heap α) :
    (PyM.lift (.error x) >>= f) h = (.error x, h) := rfl

theorem bind_listItem {l : List β} {i : Nat} {x : β} (f : β → PyM α γ) (h : Heap α)
    (e : l[i]? = some x) : (listItem l i >>= f) h = f x h := by
  unfold listItem
  rw [e]
  rfl

theorem bind_alloc_at (xs : List α) (f : Ref → PyM α γ) (h e : Heap α) :
    (alloc xs >>= f) (h ++ e) = f (h.length + e.length) (h ++ (e ++ [xs])) := by
  rw [bind_alloc, List.length_append, List.append_assoc]

theorem alloc_at (xs : List α) (h e : Heap α) :
    alloc xs (h ++ e) = (.ok (h.length + e.length), h ++ (e ++ [xs])) := by
  unfold alloc
  rw [List.length_append, List.append_assoc]

theorem bind_load_at {h e : Heap α} {k : Nat} {xs : List α} (f : List α → PyM α γ)
    (he : e[k]? = some xs) : (load (h.length + k) >>= f) (h ++ e) = f xs (h ++ e) := by
  rw [bind_load, items_at _ _ _ _ he]

theorem bind_getAt {h e : Heap α} {k i : Nat} {xs : List α} {x : α} (f : α → PyM α γ)
    (he : e[k]? = some xs) (hx : xs[i]? = some x) :
    (getItem (h.length + k) i >>= f) (h ++ e) = f x (h ++ e) := by
  rw [bind_getItem _ (by rw [items_at _ _ _ _ he]; exact hx)]

theorem setAt {h e : Heap α} {k i : Nat} {xs : List α} (v : α)
    (he : e[k]? = some xs) (hi : i < xs.length) :
    setItem (h.length + k) i v (h ++ e) = (.ok (), h ++ e.set k (xs.set i v)) := by
  rw [setItem_run _ (by rw [items_at _ _ _ _ he]; exact hi), items_at _ _ _ _ he, set_at]

theorem bind_setAt {h e : Heap α} {k i : Nat} {xs : List α} {v : α} (f : Unit → PyM α γ)
    (he : e[k]? = some xs) (hi : i < xs.length) :
    (setItem (h.length + k) i v >>= f) (h ++ e) = f () (h ++ e.set k (xs.set i v)) :=
  bind_ok (setAt v he hi)

theorem setSlice_at {h e : Heap α} {k i : Nat} {xs ys : List α}
    (he : e[k]? = some xs) (hi : i + ys.length ≤ xs.length) :
    setSlice (h.length + k) i ys (h ++ e) =
      (.ok (), h ++ e.set k (xs.take i ++ ys ++ xs.drop (i + ys.length))) := by
  unfold setSlice
  have e' : ((h ++ e)[h.length + k]?.getD []) = xs := items_at _ _ _ _ he
  rw [e', if_pos hi, set_at]

theorem bind_setSlice_at {h e : Heap α} {k i : Nat} {xs ys : List α} (f : Unit → PyM α γ)
    (he : e[k]? = some xs) (hi : i + ys.length ≤ xs.length) :
    (setSlice (h.length + k) i ys >>= f) (h ++ e) =
      f () (h ++ e.set k (xs.take i ++ ys ++ xs.drop (i + ys.length))) :=
  bind_ok (setSlice_at he hi)

theorem bind_fill_at {h e : Heap α} {k : Nat} {xs : List α} {v : α} (f : Unit → PyM α γ)
    (he : e[k]? = some xs) :
    (fill (h.length + k) v >>= f) (h ++ e) = f () (h ++ e.set k (List.replicate xs.length v)) := by
  apply bind_ok
  unfold fill
  rw [bind_load_at _ he, setSlice_at he (by simp)]
  simp

end Basic

set_option linter.unusedSectionVars false

variable {α : Type} [Add α] [Sub α] [Mul α] [Div α] [Neg α] [PyFloat α]

/-- four arrays above the heap `h`, pairwise different, with the given items -/
structure Holds (h e : Heap α) (a : OpArrays) (p : Pulses α) : Prop where
  offsets : (h ++ e)[a.offsets]? = some p.offsets
  rabi : (h ++ e)[a.rabi]? = some p.rabiRotations
  azimuthal : (h ++ e)[a.azimuthal]? = some p.azimuthalAngles
  detuning : (h ++ e)[a.detuning]? = some p.detuningRotations
  new : ∀ r ∈ [a.offsets, a.rabi, a.azimuthal, a.detuning], h.length ≤ r
  nodup : [a.offsets, a.rabi, a.azimuthal, a.detuning].Nodup

/-- four cells among the new ones -/
theorem Holds.of (h e : Heap α) (i j k l : Nat) (p : Pulses α) (hi : e[i]? = some p.offsets)
    (hj : e[j]? = some p.rabiRotations) (hk : e[k]? = some p.azimuthalAngles)
    (hl : e[l]? = some p.detuningRotations) (hn : [i, j, k, l].Nodup) :
    Holds h e ⟨h.length + i, h.length + j, h.length + k, h.length + l⟩ p := by
  have at' : ∀ m (xs : List α), e[m]? = some xs → (h ++ e)[h.length + m]? = some xs := by
    intro m xs hm
    rw [List.getElem?_append_right (by omega), Nat.add_sub_cancel_left, hm]
  refine ⟨at' _ _ hi, at' _ _ hj, at' _ _ hk, at' _ _ hl, ?_, ?_⟩
  · intro r hr
    simp only [List.mem_cons, List.not_mem_nil, or_false] at hr
    omega
  · simp only [List.nodup_cons, List.mem_cons, List.not_mem_nil, or_false, not_or,
      List.nodup_nil, and_true, not_false_eq_true] at hn ⊢
    omega

/-- what the call of a predefined constructor does: existing arrays are kept, the outcome is that of the
value-level model, and a returned sequence has four new arrays -/
structure PredefinedRun (h : Heap α) (run : Except PyErr (SequenceObj α) × Heap α)
    (m : Except PyErr (Sequence α)) : Prop where
  ext : ∃ e, run.2 = h ++ e
  value : run.1.map (SequenceObj.value run.2) = m
  wellFormed : ∀ s, run.1 = .ok s → s.WellFormed run.2
  new : ∀ s, run.1 = .ok s → ∀ r ∈ s.refs, h.length ≤ r
  nodup : ∀ s, run.1 = .ok s → s.refs.Nodup

theorem PredefinedRun.error (h e : Heap α) (x : PyErr) :
    PredefinedRun h (.error x, h ++ e) (.error x) :=
  ⟨⟨e, rfl⟩, rfl, fun s hs => by simp at hs, fun s hs => by simp at hs, fun s hs => by simp at hs⟩

theorem PredefinedRun.error' (h : Heap α) (x : PyErr) :
    PredefinedRun h (.error x, h) (.error x) := by
  have := PredefinedRun.error h [] x
  rwa [List.append_nil] at this

/-- the constructor call on four new arrays -/
theorem newSequenceH_new {h e : Heap α} {a : OpArrays} {p : Pulses α} (hp : Holds h e a p) (T : α)
    (name : Option String) :
    PredefinedRun h (newSequenceH T (.array a.offsets) (.array a.rabi) (.array a.azimuthal)
        (.array a.detuning) name (h ++ e))
      (Sequence.new T p.offsets p.rabiRotations p.azimuthalAngles p.detuningRotations name) := by
  have valid : ∀ (r : Nat) (xs : List α), (h ++ e)[r]? = some xs →
      (Arg.array (α := α) r).Valid (h ++ e) := by
    intro r xs hx r' hr'
    simp only [Arg.ref?, Option.some.injEq] at hr'
    subst hr'
    by_contra hh
    rw [List.getElem?_eq_none (by omega)] at hx
    simp at hx
  obtain ⟨run, refs⟩ := newSequenceH_run T (.array a.offsets) (.array a.rabi) (.array a.azimuthal)
    (.array a.detuning) name (h ++ e) (valid _ _ hp.offsets) (valid _ _ hp.rabi)
    (valid _ _ hp.azimuthal) (valid _ _ hp.detuning)
  have hv := run.value
  simp only [Arg.items, items_of_some hp.offsets, items_of_some hp.rabi,
    items_of_some hp.azimuthal, items_of_some hp.detuning] at hv
  have eqs : ∀ s, (newSequenceH T (.array a.offsets) (.array a.rabi) (.array a.azimuthal)
      (.array a.detuning) name (h ++ e)).1 = .ok s →
      s.refs = [a.offsets, a.rabi, a.azimuthal, a.detuning] := by
    intro s hs
    obtain ⟨h1, h2, h3, h4⟩ := refs s hs
    unfold SequenceObj.refs
    rw [h1.1 a.offsets rfl, h2.1 a.rabi rfl, h3.1 a.azimuthal rfl, h4.1 a.detuning rfl]
  obtain ⟨e', he'⟩ := run.ext
  refine ⟨⟨e ++ e', by rw [he', List.append_assoc]⟩, hv, run.wellFormed, ?_, ?_⟩
  · intro s hs; rw [eqs s hs]; exact hp.new
  · intro s hs; rw [eqs s hs]; exact hp.nodup

/-- four arrays appended one after the other -/
theorem Holds.alloc4 (h e : Heap α) (p : Pulses α) :
    Holds h (e ++ [p.offsets] ++ [p.rabiRotations] ++ [p.azimuthalAngles] ++ [p.detuningRotations])
      ⟨h.length + e.length, h.length + (e ++ [p.offsets]).length,
        h.length + (e ++ [p.offsets] ++ [p.rabiRotations]).length,
        h.length + (e ++ [p.offsets] ++ [p.rabiRotations] ++ [p.azimuthalAngles]).length⟩ p :=
  Holds.of h _ _ _ _ _ p (by simp) (by simp [List.getElem?_append])
    (by simp [List.getElem?_append]) (by simp [List.getElem?_append]) (by simp)

/-- an existing new array and three appended ones -/
theorem Holds.alloc3 (h e : Heap α) (k : Nat) (p : Pulses α) (hk : e[k]? = some p.offsets) :
    Holds h (e ++ [p.rabiRotations] ++ [p.azimuthalAngles] ++ [p.detuningRotations])
      ⟨h.length + k, h.length + e.length, h.length + (e ++ [p.rabiRotations]).length,
        h.length + (e ++ [p.rabiRotations] ++ [p.azimuthalAngles]).length⟩ p := by
  have hlt : k < e.length := by
    by_contra hh
    rw [List.getElem?_eq_none (by omega)] at hk
    simp at hk
  refine Holds.of h _ _ _ _ _ p ?_ ?_ ?_ ?_ ?_
  · rw [List.append_assoc, List.append_assoc, List.getElem?_append_left hlt, hk]
  · simp [List.getElem?_append]
  · simp [List.getElem?_append]
  · simp [List.getElem?_append]
  · simp only [List.nodup_cons, List.mem_cons, List.not_mem_nil, or_false, not_or,
      List.nodup_nil, and_true, not_false_eq_true, List.length_append, List.length_cons,
      List.length_nil]
    omega

theorem set_concat (e : Heap α) (xs ys : List α) : (e ++ [xs]).set e.length ys = e ++ [ys] := by
  rw [List.set_append_right _ _ (Nat.le_refl _), Nat.sub_self]
  rfl

theorem set_concat2 (e : Heap α) (xs ys zs : List α) :
    (e ++ [xs] ++ [ys]).set e.length zs = e ++ [zs] ++ [ys] := by
  rw [List.set_append_left _ _ (by simp), set_concat]

theorem addPrePostH_run {h e : Heap α} {a : OpArrays} {p : Pulses α} (hp : Holds h e a p) (T : α) :
    (∃ x, addPrePostRotations T p = .error x ∧ addPrePostH T a (h ++ e) = (.error x, h ++ e)) ∨
    ∃ q a' e', addPrePostRotations T p = .ok q ∧ addPrePostH T a (h ++ e) = (.ok a', h ++ e') ∧
      Holds h e' a' q := by
  unfold addPrePostRotations addPrePostH
  rw [bind_load, bind_load, bind_load, bind_load, items_of_some hp.offsets, items_of_some hp.rabi,
    items_of_some hp.azimuthal, items_of_some hp.detuning]
  dsimp only
  generalize countPulses _ _ _ p.rabiRotations p.azimuthalAngles p.detuningRotations = x
  generalize countPulses _ _ _ p.rabiRotations p.azimuthalAngles p.detuningRotations = y
  generalize countPulses _ _ _ p.rabiRotations p.azimuthalAngles p.detuningRotations = z
  cases hb : p.offsets.length == x + y + z with
  | false =>
    rw [bind_check_false rfl]
    exact Or.inl ⟨_, rfl, rfl⟩
  | true =>
    rw [bind_check_true rfl, bind_alloc_at, bind_alloc_at, bind_alloc_at, bind_alloc_at,
      pure_apply]
    exact Or.inr ⟨_, _, _, rfl, rfl, Holds.alloc4 h e ⟨_, _, _, _⟩⟩

theorem finishH_run {h e : Heap α} {a : OpArrays} {p : Pulses α} (hp : Holds h e a p) (T : α)
    (prePost : Bool) (name : Option String) :
    PredefinedRun h (finishH T prePost name a (h ++ e)) (finishSequence T prePost name p) := by
  unfold finishH finishSequence
  cases prePost with
  | false =>
    show PredefinedRun h (newSequenceH T _ _ _ _ name (h ++ e)) _
    exact newSequenceH_new hp T name
  | true =>
    simp only [if_true]
    rcases addPrePostH_run hp T with ⟨x, h1, h2⟩ | ⟨q, a', e', h1, h2, h3⟩
    · rw [bind_error h2, h1]
      exact PredefinedRun.error h e _
    · rw [bind_ok h2, h1]
      exact newSequenceH_new h3 T name

/-- a sequence built by arrays that are filled, then finished -/
theorem build_run {h : Heap α} {m : PyM α OpArrays} {p : Pulses α} (T : α) (prePost : Bool)
    (name : Option String) (hm : ∃ a e, m h = (.ok a, h ++ e) ∧ Holds h e a p) :
    PredefinedRun h ((m >>= finishH T prePost name) h) (finishSequence T prePost name p) := by
  obtain ⟨a, e, hr, hp⟩ := hm
  rw [bind_ok hr]
  exact finishH_run hp T prePost name

theorem newRamseyH_run (h : Heap α) (T : α) (prePost : Bool) (name : Option String) :
    PredefinedRun h (newRamseyH T prePost name h) (newRamseySequence T prePost name) := by
  unfold newRamseyH newRamseySequence checkDurationH checkDuration
  cases b1 : gt T (lit 0) with
  | false => rw [bind_check_false rfl]; exact PredefinedRun.error' h _
  | true =>
  rw [bind_check_true rfl]
  cases prePost with
  | true =>
    simp only [if_true]
    rw [bind_alloc, bind_alloc, bind_alloc, bind_alloc]
    rw [four_append]
    simp only [List.length_append, List.length_cons, List.length_nil]
    refine newSequenceH_new (h := h) (a := ⟨_, _, _, _⟩) (p := ⟨_, _, _, _⟩) ?_ T name
    exact Holds.of h _ 0 1 2 3 _ rfl rfl rfl rfl (by decide)
  | false =>
    simp only [Bool.false_eq_true, if_false]
    have run : newSequenceH T (.list []) (.list []) (.list []) (.list []) name h =
        (.ok ⟨T, h.length, h.length + 1, h.length + 2, h.length + 3, name⟩,
          h ++ [[], [], [], []]) := by
      unfold newSequenceH
      rw [bind_check_true b1, show (asarray (Arg.list ([] : List α)) : PyM α Nat) = alloc [] from rfl,
        bind_alloc, bind_load, items_new, bind_check_true (List.all_nil), bind_ok (argSize_run _ _),
        bind_check_true (by rfl), bind_ok (argSize_run _ _), bind_check_true (by rfl),
        bind_ok (argSize_run _ _), bind_check_true (by rfl), bind_alloc, bind_alloc, bind_alloc,
        pure_apply, four_append]
      simp only [List.length_append, List.length_cons, List.length_nil]
    have value : Sequence.new T [] [] [] [] name = .ok ⟨T, [], [], [], [], name⟩ := by
      unfold Sequence.new
      rw [b1]
      rfl
    show PredefinedRun h _ (Sequence.new T [] [] [] [] name)
    rw [run, value]
    have at' := fun k (hk : ([[], [], [], []] : Heap α)[k]? = some []) =>
      items_at h _ k [] hk
    have at0 : Heap.items (h ++ [[], [], [], []]) h.length = [] := at' 0 rfl
    refine ⟨⟨[[], [], [], []], rfl⟩, ?_, ?_, ?_, ?_⟩
    · simp only [Except.map, SequenceObj.value]
      rw [at' 1 rfl, at' 2 rfl, at' 3 rfl, at0]
    · intro s hs
      simp only [Except.ok.injEq] at hs
      subst hs
      constructor
      · intro r hr
        simp only [SequenceObj.refs, List.mem_cons, List.not_mem_nil, or_false] at hr
        simp only [List.length_append, List.length_cons, List.length_nil] at hr ⊢
        omega
      · dsimp only
        rw [at' 1 rfl, at0]
      · dsimp only
        rw [at' 2 rfl, at0]
      · dsimp only
        rw [at' 3 rfl, at0]
    · intro s hs r hr
      simp only [Except.ok.injEq] at hs
      subst hs
      simp only [SequenceObj.refs, List.mem_cons, List.not_mem_nil, or_false] at hr
      omega
    · intro s hs
      simp only [Except.ok.injEq] at hs
      subst hs
      simp [SequenceObj.refs]

theorem newSpinEchoH_run (h : Heap α) (T : α) (prePost : Bool) (name : Option String) :
    PredefinedRun h (newSpinEchoH T prePost name h) (newSpinEchoSequence T prePost name) := by
  unfold newSpinEchoH newSpinEchoSequence checkDurationH checkDuration
  cases b1 : gt T (lit 0) with
  | false => rw [bind_check_false rfl]; exact PredefinedRun.error' h _
  | true =>
  rw [bind_check_true rfl, bind_alloc, bind_alloc, bind_alloc, bind_alloc, four_append]
  simp only [List.length_append, List.length_cons, List.length_nil]
  refine finishH_run (h := h) ?_ T prePost name
  exact Holds.of h _ 0 1 2 3 _ rfl rfl rfl rfl (by decide)

theorem cpmgOffsetsH_run (h : Heap α) (T : α) (n : Nat) :
    ∃ x, cpmgOffsetsH T n h = (.ok (h.length + 1), h ++ [x, cpmgOffsets T n]) := by
  refine ⟨(List.range n).map fun i => lit 1 / nat n * nat i + lit 1 / nat n * lit (1 / 2), ?_⟩
  unfold cpmgOffsetsH cpmgOffsets
  dsimp only
  rw [bind_alloc]
  show (load (h.length + 0) >>= _) _ = _
  rw [bind_load_at _ rfl]
  show (setSlice (h.length + 0) 0 _ >>= _) _ = _
  rw [bind_setSlice_at _ rfl (by simp)]
  show (load (h.length + 0) >>= _) _ = _
  rw [bind_load_at _ rfl, alloc_at]
  simp [Function.comp_def]

theorem uhrigOffsetsH_at (h e : Heap α) (T : α) (n : Nat) :
    ∃ x, uhrigOffsetsH T n (h ++ e) =
      (.ok (h.length + (e.length + 1)), h ++ (e ++ [x, uhrigOffsets T n])) := by
  refine ⟨(List.range' 1 n).map fun k =>
    sin (PyFloat.pi * nat k * (lit 1 / nat (2 * n + 2))) *
      sin (PyFloat.pi * nat k * (lit 1 / nat (2 * n + 2))), ?_⟩
  unfold uhrigOffsetsH uhrigOffsets
  dsimp only
  rw [bind_alloc_at, bind_load_at _ List.getElem?_concat_length, alloc_at]
  simp [Function.comp_def]

theorem uhrigOffsetsH_run (h : Heap α) (T : α) (n : Nat) :
    ∃ x, uhrigOffsetsH T n h = (.ok (h.length + 1), h ++ [x, uhrigOffsets T n]) := by
  have := uhrigOffsetsH_at h [] T n
  simpa using this

theorem xPulsesH_run (h e : Heap α) (k : Nat) (os : List α) (hk : e[k]? = some os) :
    ∃ a e', xPulsesH (h.length + k) (h ++ e) = (.ok a, h ++ e') ∧
      Holds h e' a (uniformPulses os (lit 0)) := by
  unfold xPulsesH
  rw [bind_load_at _ hk, bind_alloc_at, bind_fill_at _ List.getElem?_concat_length, set_concat,
    bind_alloc_at, bind_alloc_at, pure_apply, List.length_replicate]
  exact ⟨_, _, rfl, Holds.alloc3 h e k (uniformPulses os (lit 0)) hk⟩

theorem yPulsesH_run (h e : Heap α) (k : Nat) (os : List α) (hk : e[k]? = some os) :
    ∃ a e', yPulsesH (h.length + k) (h ++ e) = (.ok a, h ++ e') ∧
      Holds h e' a (uniformPulses os (PyFloat.pi / lit 2)) := by
  unfold yPulsesH
  rw [bind_load_at _ hk, bind_alloc_at, bind_alloc_at,
    bind_fill_at (xs := List.replicate os.length (lit 0)) _ (by simp [List.getElem?_append]),
    set_concat2, List.length_replicate,
    show h.length + (e ++ [List.replicate os.length (lit 0 : α)]).length =
      h.length + (e ++ [List.replicate os.length (PyFloat.pi : α)]).length by simp,
    bind_fill_at _ List.getElem?_concat_length, set_concat,
    bind_alloc_at, pure_apply, List.length_replicate]
  exact ⟨_, _, rfl, Holds.alloc3 h e k (uniformPulses os (PyFloat.pi / lit 2)) hk⟩

theorem newCarrPurcellH_run (h : Heap α) (T n : α) (prePost : Bool) (name : Option String) :
    PredefinedRun h (newCarrPurcellH T n prePost name h)
      (newCarrPurcellSequence T n prePost name) := by
  unfold newCarrPurcellH newCarrPurcellSequence checkDurationH checkDuration
  cases b1 : gt T (lit 0) with
  | false => rw [bind_check_false rfl]; exact PredefinedRun.error' h _
  | true =>
  rw [bind_check_true rfl]
  cases b2 : ge n (lit 1) with
  | false => rw [bind_check_false rfl]; exact PredefinedRun.error' h _
  | true =>
  rw [bind_check_true rfl]
  cases b3 : pyInt n with
  | error x => rw [bind_lift_error]; exact PredefinedRun.error' h _
  | ok n =>
  rw [bind_lift_ok]
  obtain ⟨x, hx⟩ := cpmgOffsetsH_run h T n
  obtain ⟨a, e, hr, hp⟩ := xPulsesH_run h [x, cpmgOffsets T n] 1 _ rfl
  rw [bind_ok hx, bind_ok hr]
  exact finishH_run hp T prePost name

theorem newCPMGH_run (h : Heap α) (T n : α) (prePost : Bool) (name : Option String) :
    PredefinedRun h (newCPMGH T n prePost name h) (newCPMGSequence T n prePost name) := by
  unfold newCPMGH newCPMGSequence checkDurationH checkDuration
  cases b1 : gt T (lit 0) with
  | false => rw [bind_check_false rfl]; exact PredefinedRun.error' h _
  | true =>
  rw [bind_check_true rfl]
  cases b2 : ge n (lit 1) with
  | false => rw [bind_check_false rfl]; exact PredefinedRun.error' h _
  | true =>
  rw [bind_check_true rfl]
  cases b3 : pyInt n with
  | error x => rw [bind_lift_error]; exact PredefinedRun.error' h _
  | ok n =>
  rw [bind_lift_ok]
  obtain ⟨x, hx⟩ := cpmgOffsetsH_run h T n
  obtain ⟨a, e, hr, hp⟩ := yPulsesH_run h [x, cpmgOffsets T n] 1 _ rfl
  rw [bind_ok hx, bind_ok hr]
  exact finishH_run hp T prePost name

theorem newUhrigH_run (h : Heap α) (T n : α) (prePost : Bool) (name : Option String) :
    PredefinedRun h (newUhrigH T n prePost name h) (newUhrigSequence T n prePost name) := by
  unfold newUhrigH newUhrigSequence checkDurationH checkDuration
  cases b1 : gt T (lit 0) with
  | false => rw [bind_check_false rfl]; exact PredefinedRun.error' h _
  | true =>
  rw [bind_check_true rfl]
  cases b2 : ge n (lit 1) with
  | false => rw [bind_check_false rfl]; exact PredefinedRun.error' h _
  | true =>
  rw [bind_check_true rfl]
  cases b3 : pyInt n with
  | error x => rw [bind_lift_error]; exact PredefinedRun.error' h _
  | ok n =>
  rw [bind_lift_ok]
  obtain ⟨x, hx⟩ := uhrigOffsetsH_run h T n
  obtain ⟨a, e, hr, hp⟩ := yPulsesH_run h [x, uhrigOffsets T n] 1 _ rfl
  rw [bind_ok hx, bind_ok hr]
  exact finishH_run hp T prePost name

theorem newPeriodicH_run (h : Heap α) (T n : α) (prePost : Bool) (name : Option String) :
    PredefinedRun h (newPeriodicH T n prePost name h) (newPeriodicSequence T n prePost name) := by
  unfold newPeriodicH newPeriodicSequence checkDurationH checkDuration
  cases b1 : gt T (lit 0) with
  | false => rw [bind_check_false rfl]; exact PredefinedRun.error' h _
  | true =>
  rw [bind_check_true rfl]
  cases b2 : ge n (lit 1) with
  | false => rw [bind_check_false rfl]; exact PredefinedRun.error' h _
  | true =>
  rw [bind_check_true rfl]
  cases b3 : pyInt n with
  | error x => rw [bind_lift_error]; exact PredefinedRun.error' h _
  | ok n =>
  rw [bind_lift_ok]
  rw [bind_alloc, bind_load, items_new, bind_alloc_at]
  obtain ⟨a, e, hr, hp⟩ := xPulsesH_run h
    ([(List.range' 1 n).map fun k => nat k * (lit 1 / nat (n + 1))] ++ [periodicOffsets T n]) 1 _ rfl
  have e1 : List.map (fun x => T * x) (List.map (fun k => nat k * (lit 1 / nat (n + 1)))
      (List.range' 1 n)) = periodicOffsets T n := by
    rw [List.map_map]; rfl
  rw [e1, show h.length + [(List.range' 1 n).map fun k => (nat k * (lit 1 / nat (n + 1)) : α)].length =
    h.length + 1 from rfl, bind_ok hr]
  exact finishH_run hp T prePost name

theorem newXConcatenatedH_run (h : Heap α) (T n : α) (prePost : Bool) (name : Option String) :
    PredefinedRun h (newXConcatenatedH T n prePost name h)
      (newXConcatenatedSequence T n prePost name) := by
  unfold newXConcatenatedH newXConcatenatedSequence checkDurationH checkDuration
  cases b1 : gt T (lit 0) with
  | false => rw [bind_check_false rfl]; exact PredefinedRun.error' h _
  | true =>
  rw [bind_check_true rfl]
  cases b2 : ge n (lit 1) with
  | false => rw [bind_check_false rfl]; exact PredefinedRun.error' h _
  | true =>
  rw [bind_check_true rfl]
  cases b3 : pyInt n with
  | error x => rw [bind_lift_error]; exact PredefinedRun.error' h _
  | ok n =>
  rw [bind_lift_ok]
  dsimp only
  rw [bind_alloc, bind_load, items_new]
  show PredefinedRun h _ (finishSequence T prePost name
    (uniformPulses (xConcatenatedOffsets T n) (lit 0)))
  unfold xConcatenatedOffsets
  dsimp only
  generalize evenlyRepeated (α := α) _ = os
  by_cases b4 : (n % 2 == 1) = true
  · rw [if_pos b4, if_pos b4, bind_alloc_at]
    obtain ⟨a, e, hr, hp⟩ := xPulsesH_run h ([os] ++ [os.dropLast]) 1 _ rfl
    rw [show h.length + [os].length = h.length + 1 from rfl, bind_ok hr]
    exact finishH_run hp T prePost name
  · rw [if_neg b4, if_neg b4, bind_ok (pure_apply _ _)]
    obtain ⟨a, e, hr, hp⟩ := xPulsesH_run h [os] 0 _ rfl
    rw [show h.length = h.length + 0 from rfl, bind_ok hr]
    exact finishH_run hp T prePost name

end OpenControls
