import Verif.Spec.HeapDriven
import Verif.Proofs.HeapPredefined

/-!
# The predefined driven controls on the heap
-/

namespace OpenControls

open PyFloat Py PyM Spec

set_option linter.unusedSectionVars false

variable {α β : Type} [Add α] [Sub α] [Mul α] [Div α] [Neg α] [PyFloat α]

/-- what the call of a predefined constructor does: existing arrays are kept, the outcome is that of the
value-level model, and a returned control has four new arrays -/
structure ControlOwns (h : Heap α) (run : Except PyErr ControlObj × Heap α)
    (m : Except PyErr (DrivenControl α)) : Prop where
  ext : ∃ e, run.2 = h ++ e
  value : run.1.map (ControlObj.value run.2) = m
  exist : ∀ c, run.1 = .ok c → ∀ r ∈ c.refs, r < run.2.length
  new : ∀ c, run.1 = .ok c → ∀ r ∈ c.refs, h.length ≤ r
  nodup : ∀ c, run.1 = .ok c → c.refs.Nodup

theorem ControlOwns.error (h e : Heap α) (x : PyErr) :
    ControlOwns h (.error x, h ++ e) (.error x) :=
  ⟨⟨e, rfl⟩, rfl, fun s hs => by simp at hs, fun s hs => by simp at hs, fun s hs => by simp at hs⟩

theorem ControlOwns.lift {h e : Heap α} {m : Except PyErr β} {f : β → PyM α ControlObj}
    {g : β → Except PyErr (DrivenControl α)} (hfg : ∀ x, m = .ok x → ControlOwns h (f x (h ++ e)) (g x)) :
    ControlOwns h ((PyM.lift m >>= f) (h ++ e)) (m >>= g) := by
  cases m with
  | error x => exact ControlOwns.error h e x
  | ok x => exact hfg x rfl

/-- an argument is a list or an array above the heap `h` -/
def Arg.New (h e : Heap α) (a : Arg α) : Prop :=
  ∀ r, a.ref? = some r → h.length ≤ r ∧ r < (h ++ e).length

theorem newControlH_new {h e : Heap α} {d r a t : Arg α} (hd : d.New h e) (hr : r.New h e)
    (ha : a.New h e) (ht : t.New h e)
    (hn : ([some r, some a, some t, some d].filterMap (·.bind Arg.ref?)).Nodup) (name : Option String) :
    ControlOwns h (newControlH d (some r) (some a) (some t) name (h ++ e))
      (DrivenControl.new (d.items (h ++ e)) (some (r.items (h ++ e))) (some (a.items (h ++ e)))
        (some (t.items (h ++ e))) name) := by
  have v : ∀ {x : Arg α}, x.New h e → x.Valid (h ++ e) := fun hx r hr => (hx r hr).2
  have ov : ∀ {x : Arg α}, x.New h e → OptValid (h ++ e) (some x) := fun hx y hy => by
    cases hy; exact v hx
  obtain ⟨run, refs⟩ := newControlH_run d (some r) (some a) (some t) name (h ++ e) (v hd) (ov hr)
    (ov ha) (ov ht)
  obtain ⟨e', he'⟩ := run.ext
  refine ⟨⟨e ++ e', by rw [he', List.append_assoc]⟩, run.value, run.valid, fun c hc => ?_,
    fun c hc => (refs c hc).2.2.2.2 hn⟩
  obtain ⟨f0, f1, f2, f3, -⟩ := refs c hc
  have key : ∀ {x : Arg α} {k : Nat}, x.New h e → FieldRef (h ++ e) (some x) k → h.length ≤ k := by
    intro x k hx hf
    cases hxr : x.ref? with
    | some r' => rw [hf.1 r' hxr]; exact (hx r' hxr).1
    | none =>
      have := hf.2 hxr
      rw [List.length_append] at this
      omega
  intro k hk
  simp only [ControlObj.refs, List.mem_cons, List.not_mem_nil, or_false] at hk
  rcases hk with rfl | rfl | rfl | rfl
  · exact key hr f1
  · exact key ha f2
  · exact key ht f3
  · exact key hd f0

theorem list_new (h e : Heap α) (xs : List α) : (Arg.list xs).New h e := fun r hr => by
  simp [Arg.ref?] at hr

theorem array_new {h e : Heap α} {k : Nat} (hk : k < e.length) : (Arg.array (α := α) (h.length + k)).New h e :=
  fun r hr => by
    simp only [Arg.ref?, Option.some.injEq] at hr
    subst hr
    rw [List.length_append]
    omega

theorem controlFromLists_run (h : Heap α) (r a t d : List α) (name : Option String) :
    ControlOwns h (controlFromLists r a t d name (h ++ []))
      (DrivenControl.new d (some r) (some a) (some t) name) :=
  newControlH_new (list_new _ _ _) (list_new _ _ _) (list_new _ _ _) (list_new _ _ _) List.nodup_nil name

theorem run_nil {h : Heap α} {f : PyM α ControlObj} {m : Except PyErr (DrivenControl α)}
    (hf : ControlOwns h (f (h ++ [])) m) : ControlOwns h (f h) m := by
  rwa [List.append_nil] at hf

theorem newPrimitiveH_run (h : Heap α) (θ Ω φ : α) (name : Option String) :
    ControlOwns h (newPrimitiveH θ Ω φ name h) (newPrimitiveControl θ Ω φ name) :=
  run_nil (ControlOwns.lift fun _ _ => controlFromLists_run _ _ _ _ _ _)

theorem newBB1H_run (h : Heap α) (θ Ω φ : α) (name : Option String) :
    ControlOwns h (newBB1H θ Ω φ name h) (newBB1Control θ Ω φ name) :=
  run_nil (ControlOwns.lift fun _ _ => ControlOwns.lift fun _ _ => controlFromLists_run _ _ _ _ _ _)

theorem newSK1H_run (h : Heap α) (θ Ω φ : α) (name : Option String) :
    ControlOwns h (newSK1H θ Ω φ name h) (newSK1Control θ Ω φ name) :=
  run_nil (ControlOwns.lift fun _ _ => ControlOwns.lift fun _ _ => controlFromLists_run _ _ _ _ _ _)

theorem newScrofulousH_run (h : Heap α) (θ Ω φ : α) (name : Option String) :
    ControlOwns h (newScrofulousH θ Ω φ name h) (newScrofulousControl θ Ω φ name) :=
  run_nil (ControlOwns.lift fun _ _ => ControlOwns.lift (m := checkArguments _ _) fun _ _ =>
    controlFromLists_run _ _ _ _ _ _)

theorem newCorpseH_run (h : Heap α) (θ Ω φ : α) (name : Option String) :
    ControlOwns h (newCorpseH θ Ω φ name h) (newCorpseControl θ Ω φ name) :=
  run_nil (ControlOwns.lift fun _ _ => controlFromLists_run _ _ _ _ _ _)

theorem newCorpseInBB1H_run (h : Heap α) (θ Ω φ : α) (name : Option String) :
    ControlOwns h (newCorpseInBB1H θ Ω φ name h) (newCorpseInBB1Control θ Ω φ name) :=
  run_nil (ControlOwns.lift fun _ _ => ControlOwns.lift fun _ _ => controlFromLists_run _ _ _ _ _ _)

theorem newCorpseInSK1H_run (h : Heap α) (θ Ω φ : α) (name : Option String) :
    ControlOwns h (newCorpseInSK1H θ Ω φ name h) (newCorpseInSK1Control θ Ω φ name) :=
  run_nil (ControlOwns.lift fun _ _ => ControlOwns.lift fun _ _ => controlFromLists_run _ _ _ _ _ _)

theorem newWamf1H_run (h : Heap α) (θ Ω φ : α) (name : Option String) :
    ControlOwns h (newWamf1H θ Ω φ name h) (newWamf1Control θ Ω φ name) :=
  run_nil (ControlOwns.lift fun _ _ => ControlOwns.lift (m := checkArguments _ _) fun _ _ =>
    controlFromLists_run _ _ _ _ _ _)

/-- the six items of one block -/
def blockItems (φ θ p : α) : List α :=
  [lit 2 * PyFloat.pi + θ / lit 2 - corpseK θ, p + φ, lit 2 * PyFloat.pi - lit 2 * corpseK θ,
    PyFloat.pi + p + φ, θ / lit 2 - corpseK θ, p + φ]

theorem corpseBlocks_run (h : Heap α) (φ a p b q c r : α) :
    [(a, p), (b, q), (c, r)].foldlM (corpseBlockH φ) [] (h ++ []) =
      (.ok [h.length, h.length + 1, h.length + 2],
        h ++ [blockItems φ a p, blockItems φ b q, blockItems φ c r]) := by
  simp [List.foldlM, bind_def, PyM.andThen, corpseBlockH, alloc, pure_apply, blockItems]

theorem vstack_run (h : Heap α) (x y z : List α) :
    vstackH [h.length, h.length + 1, h.length + 2] (h ++ [x, y, z]) =
      (.ok (h.length + 3), h ++ [x, y, z, x ++ y ++ z]) := by
  simp [vstackH, List.foldlM, bind_def, PyM.andThen, load, alloc, pure_apply]

theorem columns_run (h : Heap α) (x y z w : List α) (Ω : α) (name : Option String) :
    ControlOwns h ((do
        let xs ← load (h.length + 3)
        let rabiRotations ← alloc (columnOf 0 xs)
        let azimuthalAngles ← alloc (columnOf 1 xs)
        let rotations ← load rabiRotations
        newControlH (.list (rotations.map fun r => r / Ω))
          (some (.list (List.replicate 9 Ω))) (some (.array azimuthalAngles))
          (some (.list (List.replicate 9 (lit 0)))) name : PyM α ControlObj) (h ++ [x, y, z, w]))
      (DrivenControl.new ((columnOf 0 w).map fun r => r / Ω) (some (List.replicate 9 Ω))
        (some (columnOf 1 w)) (some (List.replicate 9 (lit 0))) name) := by
  rw [bind_load_at (k := 3) (xs := w) _ rfl, bind_alloc_at, bind_alloc_at]
  change ControlOwns h ((load (h.length + 4) >>= _) (h ++ [x, y, z, w, columnOf 0 w, columnOf 1 w])) _
  rw [bind_load_at (k := 4) (xs := columnOf 0 w) _ rfl]
  have := newControlH_new (h := h) (e := [x, y, z, w, columnOf 0 w, columnOf 1 w])
    (d := .list ((columnOf 0 w).map fun r => r / Ω)) (r := .list (List.replicate 9 Ω))
    (a := .array (h.length + 5)) (t := .list (List.replicate 9 (lit 0)))
    (list_new h _ _) (list_new h _ _) (array_new (k := 5) (by simp))
    (list_new h _ _) (List.nodup_singleton _) name
  have hi : (Arg.array (α := α) (h.length + 5)).items (h ++ [x, y, z, w, columnOf 0 w, columnOf 1 w]) =
      columnOf 1 w := items_at _ _ _ _ rfl
  rw [hi] at this
  exact this

theorem columns_blocks (φ t p t' q t'' r : α) :
    columnOf 0 (blockItems φ t p ++ blockItems φ t' q ++ blockItems φ t'' r) =
      (corpseBlock φ t p ++ corpseBlock φ t' q ++ corpseBlock φ t'' r).map Prod.fst := by
  simp [columnOf, blockItems, corpseBlock, List.range_succ]

theorem columns_blocks' (φ t p t' q t'' r : α) :
    columnOf 1 (blockItems φ t p ++ blockItems φ t' q ++ blockItems φ t'' r) =
      (corpseBlock φ t p ++ corpseBlock φ t' q ++ corpseBlock φ t'' r).map Prod.snd := by
  simp [columnOf, blockItems, corpseBlock, List.range_succ]

theorem newCorpseInScrofulousH_run (h : Heap α) (θ Ω φ : α) (name : Option String) :
    ControlOwns h (newCorpseInScrofulousH θ Ω φ name h) (newCorpseInScrofulousControl θ Ω φ name) := by
  refine run_nil (ControlOwns.lift fun _ _ => ControlOwns.lift (m := checkArguments _ _) fun _ _ => ?_)
  rw [bind_ok (corpseBlocks_run h φ _ _ _ _ _ _), bind_ok (vstack_run h _ _ _)]
  let t : α := scrofulousTheta1 θ
  let p : α := arccos (scrofulousPhi1Arg t θ)
  let q : α := p - arccos (scrofulousPhi2Arg t)
  have := columns_run h (blockItems φ t p) (blockItems φ PyFloat.pi q) (blockItems φ t p)
    (blockItems φ t p ++ blockItems φ PyFloat.pi q ++ blockItems φ t p) Ω name
  rw [columns_blocks, columns_blocks'] at this
  rw [List.map_map] at this
  exact this

/-- a computation that returns a new array, with the items that a computation on values returns -/
def ArrayRun (h : Heap α) (run : Except PyErr Ref × Heap α) (m : Except PyErr (List α)) : Prop :=
  (∃ e k xs, run = (.ok (h.length + k), h ++ e) ∧ e[k]? = some xs ∧ m = .ok xs) ∨
  ∃ e x, run = (.error x, h ++ e) ∧ m = .error x

theorem ArrayRun.bind {h : Heap α} {f : PyM α Ref} {h' : Heap α} {m : Except PyErr (List α)}
    (hf : ArrayRun h (f h') m) {g : Ref → PyM α ControlObj} {g' : List α → Except PyErr (DrivenControl α)}
    (hg : ∀ (e : Heap α) (k : Nat) (xs : List α), e[k]? = some xs →
      ControlOwns h (g (h.length + k) (h ++ e)) (g' xs)) :
    ControlOwns h ((f >>= g) h') (m >>= g') := by
  rcases hf with ⟨e, k, xs, hr, hk, rfl⟩ | ⟨e, x, hr, rfl⟩
  · rw [bind_ok hr]; exact hg e k xs hk
  · rw [bind_error hr]; exact ControlOwns.error h e x

theorem modulatedSegmentsH_run (h : Heap α) (Ω T f : α) (s t g : List α) :
    ArrayRun h (modulatedSegmentsH Ω T f (h.length + 1) (h.length + 2) (h ++ [s, t, g]))
      (modulatedSegments Ω T f t g) := by
  unfold modulatedSegmentsH modulatedSegments
  rw [bind_load_at (k := 1) (xs := t) _ rfl, bind_alloc_at]
  change ArrayRun h ((load (h.length + 2) >>= _) (h ++ [s, t, g, _])) _
  rw [bind_load_at (k := 2) (xs := g) _ rfl]
  change ArrayRun h ((load (h.length + 3) >>= _) (h ++ [s, t, g, _])) _
  rw [bind_load_at (k := 3) _ rfl, bind_alloc_at]
  change ArrayRun h ((load (h.length + 4) >>= _) (h ++ [s, t, g, _, _])) _
  rw [bind_load_at (k := 4) _ rfl]
  cases hm : npAmax (List.zipWith (fun g s => g * s) g (t.map fun t =>
      sin (lit 2 * PyFloat.pi * f * (t - T / lit 2)))) with
  | error x => exact .inr ⟨_, x, by rw [bind_lift_error], by simp only [hm]; rfl⟩
  | ok m =>
    refine .inl ⟨_, 5, _, by rw [bind_lift_ok, alloc_at]; rfl, rfl, by simp only [hm]; rfl⟩

theorem unmodulatedSegmentsH_run (h : Heap α) (Ω d : α) (s t g : List α) :
    ArrayRun h (unmodulatedSegmentsH Ω d (h.length + 2) (h ++ [s, t, g]))
      (unmodulatedSegments Ω d g) := by
  unfold unmodulatedSegmentsH unmodulatedSegments
  rw [bind_load_at (k := 2) (xs := g) _ rfl]
  cases hm : npAmax g with
  | error x => exact .inr ⟨_, x, by rw [bind_lift_error], rfl⟩
  | ok m =>
    rw [bind_lift_ok, bind_alloc_at]
    change ArrayRun h ((load (h.length + 3) >>= _) (h ++ [s, t, g, _])) _
    rw [bind_load_at (k := 3) _ rfl]
    refine .inl ⟨_, 4, _, by rw [alloc_at]; rfl, rfl, rfl⟩

theorem gaussianTail_run (h e : Heap α) (k : Nat) (v : List α) (hk : e[k]? = some v) (n : Nat) (d : α) :
    ControlOwns h ((do
        let v ← load (h.length + k)
        let azimuthalAngles := v.map fun v => if ge v (lit 0) then lit 0 else PyFloat.pi
        let rabiRates ← alloc (v.map PyFloat.abs)
        let detunings ← alloc (List.replicate n (lit 0))
        let durations ← alloc (List.replicate n d)
        newControlH (.array durations) (some (.array rabiRates)) (some (.list azimuthalAngles))
          (some (.array detunings)) none : PyM α ControlObj) (h ++ e))
      (DrivenControl.new (durations := List.replicate n d)
        (rabiRates := some (v.map PyFloat.abs))
        (azimuthalAngles := some (v.map fun v => if ge v (lit 0) then lit 0 else PyFloat.pi))
        (detunings := some (List.replicate n (lit 0))) (name := none)) := by
  rw [bind_load_at _ hk]
  rw [bind_alloc_at, bind_alloc_at, bind_alloc_at]
  simp only [List.length_append, List.length_cons, List.length_nil, List.append_assoc, List.cons_append,
    List.nil_append, zero_add]
  have := newControlH_new (h := h)
    (e := e ++ [v.map PyFloat.abs, List.replicate n (lit 0), List.replicate n d])
    (d := .array (h.length + (e.length + (1 + 1)))) (r := .array (h.length + e.length))
    (a := .list (v.map fun v => if ge v (lit 0) then lit 0 else PyFloat.pi))
    (t := .array (h.length + (e.length + 1)))
    (array_new (by simp)) (array_new (by simp)) (list_new h _ _) (array_new (by simp))
    (by
      show [h.length + e.length, h.length + (e.length + 1), h.length + (e.length + (1 + 1))].Nodup
      simp) none
  have h1 : (Arg.array (α := α) (h.length + e.length)).items
      (h ++ (e ++ [v.map PyFloat.abs, List.replicate n (lit 0), List.replicate n d])) =
      v.map PyFloat.abs := items_at _ _ _ _ (by simp)
  have h2 : (Arg.array (α := α) (h.length + (e.length + 1))).items
      (h ++ (e ++ [v.map PyFloat.abs, List.replicate n (lit 0), List.replicate n d])) =
      List.replicate n (lit 0) := items_at _ _ _ _ (by simp)
  have h3 : (Arg.array (α := α) (h.length + (e.length + (1 + 1)))).items
      (h ++ (e ++ [v.map PyFloat.abs, List.replicate n (lit 0), List.replicate n d])) =
      List.replicate n d := items_at _ _ _ _ (by simp)
  rw [h1, h2, h3] at this
  exact this

theorem newModulatedGaussianH_run (h : Heap α) (Ω d T f : α) :
    ControlOwns h (newModulatedGaussianH Ω d T f h) (newModulatedGaussianControl Ω d T f) := by
  refine run_nil (ControlOwns.lift (m := checkArguments _ _) fun _ _ =>
    ControlOwns.lift (m := checkArguments _ _) fun _ _ =>
    ControlOwns.lift (m := checkArguments _ _) fun _ _ =>
    ControlOwns.lift (m := checkArguments _ _) fun _ _ => ControlOwns.lift fun n _ => ?_)
  rw [bind_alloc_at]
  change ControlOwns h ((load (h.length + 0) >>= _) (h ++ [_])) _
  rw [bind_load_at (k := 0) _ rfl, bind_alloc_at]
  change ControlOwns h ((load (h.length + 1) >>= _) (h ++ [_, _])) _
  rw [bind_load_at (k := 1) _ rfl, bind_alloc_at]
  have hm : ((List.range n).map fun i => nat i * (T / nat n)).map (fun t => t + T / nat n / lit 2) =
      gaussianMidpoints n (T / nat n) := by
    simp [gaussianMidpoints]
  simp only [hm]
  refine ArrayRun.bind (m := if ne f (lit 0)
    then modulatedSegments Ω T f (gaussianMidpoints n (T / nat n))
      (baseGaussian T (gaussianMidpoints n (T / nat n)))
    else unmodulatedSegments Ω (T / nat n) (baseGaussian T (gaussianMidpoints n (T / nat n)))) ?_
    fun e k xs hk => gaussianTail_run h e k xs hk n (T / nat n)
  split
  · exact modulatedSegmentsH_run h Ω T f _ _ _
  · exact unmodulatedSegmentsH_run h Ω (T / nat n) _ _ _

end OpenControls
