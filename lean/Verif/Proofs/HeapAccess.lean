import Verif.Spec.HeapAccess
import Verif.Proofs.HeapPredefined

/-!
# Reading a control or a sequence on the heap
-/

namespace OpenControls

open PyFloat Py PyM Spec

set_option linter.unusedSectionVars false

variable {α β γ : Type} [Add α] [Sub α] [Mul α] [Div α] [Neg α] [PyFloat α]

/-- the arrays of the first heap are unchanged in the second -/
structure Extends (h h' : Heap α) : Prop where
  length : h.length ≤ h'.length
  items : ∀ r < h.length, h'.items r = h.items r

theorem Extends.refl (h : Heap α) : Extends h h := ⟨le_refl _, fun _ _ => rfl⟩

theorem Extends.trans {h h' h'' : Heap α} (a : Extends h h') (b : Extends h' h'') : Extends h h'' :=
  ⟨a.length.trans b.length, fun r hr => by rw [b.items r (by have := a.length; omega), a.items r hr]⟩

theorem Extends.append (h e : Heap α) : Extends h (h ++ e) :=
  ⟨by simp, fun _ hr => items_append _ _ hr⟩

/-! ## Any objects: existing arrays are kept -/

/-- a computation that keeps all existing arrays -/
def Grows (m : PyM α β) : Prop := ∀ h, Extends h (m h).2

/-- a computation that keeps all existing arrays and returns a new one -/
def GrowsNew (m : PyM α Ref) : Prop :=
  ∀ h, Extends h (m h).2 ∧ ∀ k, (m h).1 = .ok k → h.length ≤ k ∧ k < (m h).2.length

theorem GrowsNew.grows {m : PyM α Ref} (g : GrowsNew m) : Grows m := fun h => (g h).1

theorem Grows.pure (x : β) : Grows (α := α) (Pure.pure x) := fun h => Extends.refl h

theorem Grows.raise (x : PyErr) : Grows (α := α) (β := β) (PyM.raise x) := fun h => Extends.refl h

theorem Grows.lift (x : Except PyErr β) : Grows (α := α) (PyM.lift x) := fun h => Extends.refl h

theorem Grows.check (b : Bool) (d : String) : Grows (α := α) (PyM.check b d) := fun h => Extends.refl h

theorem Grows.load (r : Nat) : Grows (α := α) (PyM.load r) := fun h => Extends.refl h

theorem GrowsNew.alloc (xs : List α) : GrowsNew (PyM.alloc xs) := fun h =>
  ⟨Extends.append h _, fun k hk => by
    simp only [PyM.alloc, Except.ok.injEq] at hk
    subst hk
    simp [PyM.alloc]⟩

theorem GrowsNew.raise (x : PyErr) : GrowsNew (α := α) (PyM.raise x) := fun h =>
  ⟨Extends.refl h, fun k hk => by simp [PyM.raise] at hk⟩

theorem Grows.bind {m : PyM α β} {f : β → PyM α γ} (hm : Grows m) (hf : ∀ x, Grows (f x)) :
    Grows (m >>= f) := fun h => by
  have hm := hm h
  rcases hr : m h with ⟨r, h'⟩
  rw [hr] at hm
  cases r with
  | error x => rw [bind_error hr]; exact hm
  | ok x => rw [bind_ok hr]; exact hm.trans (hf x h')

theorem GrowsNew.bind {m : PyM α β} {f : β → PyM α Ref} (hm : Grows m) (hf : ∀ x, GrowsNew (f x)) :
    GrowsNew (m >>= f) := fun h => by
  have hm := hm h
  rcases hr : m h with ⟨r, h'⟩
  rw [hr] at hm
  cases r with
  | error x => rw [bind_error hr]; exact ⟨hm, fun k hk => by simp at hk⟩
  | ok x =>
    rw [bind_ok hr]
    have := hf x h'
    exact ⟨hm.trans this.1, fun k hk => ⟨hm.length.trans (this.2 k hk).1, (this.2 k hk).2⟩⟩

theorem unaryH_grows (f : α → α) (a : Nat) : GrowsNew (unaryH f a) :=
  .bind (.load a) fun _ => .alloc _

theorem binaryH_grows (f : α → α → α) (a b : Nat) : GrowsNew (binaryH f a b) := by
  refine .bind (.load a) fun xs => .bind (.load b) fun ys => ?_
  split
  · exact .alloc _
  · split
    · exact .alloc _
    · exact .alloc _
    · exact .raise _

theorem amplitudeXH_grows (c : ControlObj) : GrowsNew (amplitudeXH (α := α) c) :=
  .bind (unaryH_grows _ _).grows fun _ => binaryH_grows _ _ _

theorem amplitudeYH_grows (c : ControlObj) : GrowsNew (amplitudeYH (α := α) c) :=
  .bind (unaryH_grows _ _).grows fun _ => binaryH_grows _ _ _

theorem amplitudesH_grows (c : ControlObj) : GrowsNew (amplitudesH (α := α) c) :=
  .bind (amplitudeXH_grows c).grows fun _ => .bind (unaryH_grows _ _).grows fun _ =>
  .bind (amplitudeYH_grows c).grows fun _ => .bind (unaryH_grows _ _).grows fun _ =>
  .bind (binaryH_grows _ _ _).grows fun _ => .bind (unaryH_grows _ _).grows fun _ =>
  .bind (binaryH_grows _ _ _).grows fun _ => unaryH_grows _ _

theorem anglesH_grows (c : ControlObj) : GrowsNew (anglesH (α := α) c) :=
  .bind (amplitudesH_grows c).grows fun _ => binaryH_grows _ _ _

theorem hstackH_grows (x y z : Nat) : GrowsNew (hstackH (α := α) x y z) := by
  refine .bind (.load x) fun xs => .bind (.load y) fun ys => .bind (.load z) fun zs => ?_
  split
  · exact .alloc _
  · exact .raise _

theorem directionsH_grows (c : ControlObj) : GrowsNew (directionsH (α := α) c) :=
  .bind (amplitudesH_grows c).grows fun _ => .bind (.load _) fun _ => .bind (.lift _) fun _ =>
  .bind (unaryH_grows _ _).grows fun _ => .bind (amplitudeXH_grows c).grows fun _ =>
  .bind (binaryH_grows _ _ _).grows fun _ => .bind (amplitudeYH_grows c).grows fun _ =>
  .bind (binaryH_grows _ _ _).grows fun _ => .bind (binaryH_grows _ _ _).grows fun _ => hstackH_grows _ _ _

theorem timesH_grows (c : ControlObj) : GrowsNew (timesH (α := α) c) :=
  .bind (.load _) fun _ => .bind (GrowsNew.alloc _).grows fun _ => .bind (.load _) fun _ => .alloc _

theorem maximumRabiRateH_grows (c : ControlObj) : Grows (maximumRabiRateH (α := α) c) :=
  .bind (.load _) fun _ => .lift _

theorem exportContentH_grows (c : ControlObj) (k : String) : Grows (exportContentH (α := α) c k) := by
  refine .bind (maximumRabiRateH_grows c) fun m => .bind (.load _) fun _ => .bind (.load _) fun _ => ?_
  extract_lets
  split
  · exact .bind (amplitudeXH_grows c).grows fun _ => .bind (maximumRabiRateH_grows c) fun _ =>
      .bind (unaryH_grows _ _).grows fun _ => .bind (.load _) fun _ =>
      .bind (amplitudeYH_grows c).grows fun _ => .bind (maximumRabiRateH_grows c) fun _ =>
      .bind (unaryH_grows _ _).grows fun _ => .bind (.load _) fun _ => .pure _
  · exact .bind (maximumRabiRateH_grows c) fun _ => .bind (unaryH_grows _ _).grows fun _ =>
      .bind (.load _) fun _ => .bind (.load _) fun _ => .pure _

theorem maximumRabiRateH_run (c : ControlObj) (h : Heap α) :
    maximumRabiRateH c h = ((c.value h).maximumRabiRate, h) := rfl

theorem exportExpandedH_grows (c : ControlObj) (fs : FileSystem α) (f t k : String) :
    Grows (exportExpandedH c fs f t k) := fun h => by
  have g := exportContentH_grows c k h
  unfold exportExpandedH
  revert g
  rcases exportContentH c k h with ⟨r, h'⟩
  intro g
  cases r with
  | error x => exact g
  | ok info =>
    simp only
    split
    · split
      · exact g
      · rw [maximumRabiRateH_run]
        cases (c.value h').maximumRabiRate with
        | error x => exact g
        | ok m => exact g
    · exact g

theorem exportToFileH_grows (c : ControlObj) (fs : FileSystem α) (f a t k : String) :
    Grows (exportToFileH c fs f a t k) := by
  unfold exportToFileH
  split
  · exact .pure _
  · split
    · exact .pure _
    · split
      · exact .pure _
      · split
        · exact exportExpandedH_grows c fs f t k
        · exact .pure _

theorem normalizerH_grows (c : ControlObj) (b : Bool) : Grows (normalizerH (α := α) c b) := by
  unfold normalizerH
  split
  · exact maximumRabiRateH_grows c
  · exact .pure _

theorem exportPlotH_grows (c : ControlObj) (k : String) (b : Bool) : Grows (exportPlotH (α := α) c k b) :=
  .bind (.check _ _) fun _ => .bind (normalizerH_grows c b) fun _ =>
  .bind (amplitudeXH_grows c).grows fun _ => .bind (unaryH_grows _ _).grows fun _ =>
  .bind (amplitudeYH_grows c).grows fun _ => .bind (unaryH_grows _ _).grows fun _ =>
  .bind (unaryH_grows _ _).grows fun _ =>
  .bind (.load _) fun _ => .bind (.load _) fun _ => .bind (.load _) fun _ => .bind (.load _) fun _ =>
  .bind (.load _) fun _ => .bind (.load _) fun _ => .pure _

theorem controlTextH_grows (c : ControlObj) : Grows (controlTextH (α := α) c) :=
  .bind (maximumRabiRateH_grows c) fun _ => .bind (.bind (.load _) fun _ => .lift _) fun _ =>
  .bind (.bind (.load _) fun _ => .pure _) fun _ =>
  .bind (.load _) fun _ => .bind (.load _) fun _ => .bind (.load _) fun _ => .bind (.load _) fun _ => .pure _

theorem controlRead_grows (c : ControlObj) (read : ControlRead α) : Grows (read.run c) := by
  cases read with
  | numberOfSegments => exact .bind (.bind (.load _) fun _ => .pure _) fun _ => .pure _
  | maximumRabiRate => exact .bind (maximumRabiRateH_grows c) fun _ => .pure _
  | maximumDetuning => exact .bind (.bind (.load _) fun _ => .lift _) fun _ => .pure _
  | amplitudeX => exact .bind (amplitudeXH_grows c).grows fun _ => .pure _
  | amplitudeY => exact .bind (amplitudeYH_grows c).grows fun _ => .pure _
  | angles => exact .bind (anglesH_grows c).grows fun _ => .pure _
  | directions => exact .bind (directionsH_grows c).grows fun _ => .pure _
  | times => exact .bind (timesH_grows c).grows fun _ => .pure _
  | maximumDuration => exact .bind (.bind (.load _) fun _ => .lift _) fun _ => .pure _
  | minimumDuration => exact .bind (.bind (.load _) fun _ => .lift _) fun _ => .pure _
  | duration => exact .bind (.bind (.load _) fun _ => .pure _) fun _ => .pure _
  | «export» k b => exact .bind (exportPlotH_grows c k b) fun _ => .pure _
  | text => exact .bind (controlTextH_grows c) fun _ => .pure _
  | toFile fs f a t k => exact .bind (exportToFileH_grows c fs f a t k) fun _ => .pure _

/-! ## An answer that is an array is a new array -/

/-- a computation whose answer, if an array, is new -/
def AnswersNew (m : PyM α (Answer α)) : Prop :=
  ∀ h r, (m h).1 = .ok (.array r) → h.length ≤ r ∧ r < (m h).2.length

theorem AnswersNew.array {m : PyM α Ref} (g : GrowsNew m) :
    AnswersNew (m >>= fun x => (pure (.array x) : PyM α (Answer α))) := fun h r hr => by
  have := (g h).2
  rcases hm : m h with ⟨x, h'⟩
  rw [hm] at this
  cases x with
  | error x => rw [bind_error hm] at hr; simp at hr
  | ok x =>
    rw [bind_ok hm, pure_apply] at hr ⊢
    simp only [Except.ok.injEq, Answer.array.injEq] at hr
    subst hr
    exact this x rfl

theorem AnswersNew.plain {m : PyM α β} (f : β → Reading α) :
    AnswersNew (m >>= fun x => (pure (.plain (f x)) : PyM α (Answer α))) := fun h r hr => by
  rcases hm : m h with ⟨x, h'⟩
  cases x with
  | error x => rw [bind_error hm] at hr; simp at hr
  | ok x => rw [bind_ok hm, pure_apply] at hr; simp at hr

theorem controlRead_new (c : ControlObj) (read : ControlRead α) : AnswersNew (read.run c) := by
  cases read with
  | amplitudeX => exact .array (amplitudeXH_grows c)
  | amplitudeY => exact .array (amplitudeYH_grows c)
  | angles => exact .array (anglesH_grows c)
  | directions => exact .array (directionsH_grows c)
  | times => exact .array (timesH_grows c)
  | _ => exact .plain _

theorem sequenceRead_new (s : SequenceObj α) (read : SequenceRead α) : AnswersNew (read.run s) := by
  cases read <;> exact .plain _

/-! ## Values -/

theorem ControlObj.WellFormed.extend {h h' : Heap α} {c : ControlObj} (w : c.WellFormed h)
    (x : Extends h h') : c.WellFormed h' ∧ c.value h' = c.value h := by
  have e := fun r hr => x.items r (w.exist r hr)
  have l := w.exist
  simp only [ControlObj.refs, List.mem_cons, List.not_mem_nil, or_false, forall_eq_or_imp, forall_eq] at e l
  obtain ⟨e1, e2, e3, e4⟩ := e
  have := x.length
  refine ⟨⟨fun r hr => (w.exist r hr).trans_le this, ?_, ?_, ?_⟩, ?_⟩
  · rw [e1, e2, w.azimuthal]
  · rw [e1, e3, w.detuning]
  · rw [e1, e4, w.durations]
  · simp only [ControlObj.value, e1, e2, e3, e4]

/-- the outcome of a computation that returns an array: existing arrays are kept, and the items of the result
are as given -/
structure Gives (h : Heap α) (run : Except PyErr Ref × Heap α) (v : Except PyErr (List α)) : Prop where
  ext : Extends h run.2
  value : run.1.map run.2.items = v
  exist : ∀ k, run.1 = .ok k → k < run.2.length

theorem Gives.weaken {h h' : Heap α} {run : Except PyErr Ref × Heap α} {v : Except PyErr (List α)}
    (x : Extends h h') (g : Gives h' run v) : Gives h run v := ⟨x.trans g.ext, g.value, g.exist⟩

theorem Gives.run {h : Heap α} {m : PyM α Ref} {xs : List α} (g : Gives h (m h) (.ok xs)) :
    ∃ h' k, m h = (.ok k, h') ∧ Extends h h' ∧ k < h'.length ∧ h'.items k = xs := by
  rcases hm : m h with ⟨r, h'⟩
  rw [hm] at g
  cases r with
  | error x => simpa [Except.map] using g.value
  | ok k => exact ⟨h', k, rfl, g.ext, g.exist k rfl, by simpa [Except.map] using g.value⟩

/-- continue after a computation that returns an array -/
theorem Gives.then {h₀ h : Heap α} {m : PyM α Ref} {xs : List α} (g : Gives h (m h) (.ok xs))
    {f : Ref → PyM α Ref} {v : Except PyErr (List α)}
    (hf : ∀ (h' : Heap α) (k : Nat), Extends h h' → k < h'.length → h'.items k = xs → Gives h₀ (f k h') v) :
    Gives h₀ ((m >>= f) h) v := by
  obtain ⟨h', k, hm, x, hk, hv⟩ := g.run
  rw [bind_ok hm]
  exact hf h' k x hk hv

/-- the outcome of a computation that returns no array -/
structure Shows (h : Heap α) (run : Except PyErr β × Heap α) (v : Except PyErr β) : Prop where
  ext : Extends h run.2
  value : run.1 = v

/-- continue after a computation that returns an array -/
theorem Gives.thenShows {h₀ h : Heap α} {m : PyM α Ref} {xs : List α} (g : Gives h (m h) (.ok xs))
    {f : Ref → PyM α β} {v : Except PyErr β}
    (hf : ∀ (h' : Heap α) (k : Nat), Extends h h' → k < h'.length → h'.items k = xs → Shows h₀ (f k h') v) :
    Shows h₀ ((m >>= f) h) v := by
  obtain ⟨h', k, hm, x, hk, hv⟩ := g.run
  rw [bind_ok hm]
  exact hf h' k x hk hv

theorem alloc_gives (h : Heap α) (xs : List α) : Gives h (alloc xs h) (.ok xs) :=
  ⟨Extends.append h _, by simp [alloc, Except.map, items_new], fun k hk => by
    simp only [alloc, Except.ok.injEq] at hk; subst hk; simp [alloc]⟩

theorem unaryH_gives (h : Heap α) (f : α → α) (a : Nat) :
    Gives h (unaryH f a h) (.ok ((h.items a).map f)) := by
  unfold unaryH
  rw [bind_load]
  exact alloc_gives _ _

theorem binaryH_gives (h : Heap α) (f : α → α → α) (a b : Nat)
    (e : (h.items a).length = (h.items b).length) :
    Gives h (binaryH f a b h) (.ok (List.zipWith f (h.items a) (h.items b))) := by
  unfold binaryH
  rw [bind_load, bind_load, if_pos (by simpa using e)]
  exact alloc_gives _ _

theorem ControlObj.WellFormed.lengths {h : Heap α} {c : ControlObj} (w : c.WellFormed h) :
    (c.value h).azimuthalAngles.length = (c.value h).rabiRates.length ∧
    (c.value h).detunings.length = (c.value h).rabiRates.length ∧
    (c.value h).durations.length = (c.value h).rabiRates.length := ⟨w.azimuthal, w.detuning, w.durations⟩

theorem amplitudeXH_gives {h : Heap α} {c : ControlObj} (w : c.WellFormed h) :
    Gives h (amplitudeXH c h) (.ok (c.value h).amplitudeX) := by
  refine (unaryH_gives h _ _).then fun h' k x hk hv => ?_
  have e := x.items _ (w.exist c.rabiRates (by simp [ControlObj.refs]))
  have := binaryH_gives h' (fun r x => r * x) c.rabiRates k (by
    rw [hv, e, List.length_map, w.azimuthal])
  rw [hv, e, List.zipWith_map_right] at this
  exact this.weaken x

theorem amplitudeYH_gives {h : Heap α} {c : ControlObj} (w : c.WellFormed h) :
    Gives h (amplitudeYH c h) (.ok (c.value h).amplitudeY) := by
  refine (unaryH_gives h _ _).then fun h' k x hk hv => ?_
  have e := x.items _ (w.exist c.rabiRates (by simp [ControlObj.refs]))
  have := binaryH_gives h' (fun r x => r * x) c.rabiRates k (by
    rw [hv, e, List.length_map, w.azimuthal])
  rw [hv, e, List.zipWith_map_right] at this
  exact this.weaken x

theorem amplitude_lengths {h : Heap α} {c : ControlObj} (w : c.WellFormed h) :
    (c.value h).amplitudeX.length = (h.items c.rabiRates).length ∧
    (c.value h).amplitudeY.length = (h.items c.rabiRates).length ∧
    (c.value h).amplitudes.length = (h.items c.rabiRates).length := by
  obtain ⟨l1, l2, l3⟩ := w.lengths
  have e : (c.value h).rabiRates = h.items c.rabiRates := rfl
  rw [e] at l1 l2 l3
  refine ⟨?_, ?_, ?_⟩ <;>
    simp [DrivenControl.amplitudes, DrivenControl.amplitudeX, DrivenControl.amplitudeY, e, l1, l2]

theorem amplitudesH_gives {h : Heap α} {c : ControlObj} (w : c.WellFormed h) :
    Gives h (amplitudesH c h) (.ok (c.value h).amplitudes) := by
  obtain ⟨lx, ly, -⟩ := amplitude_lengths w
  refine (amplitudeXH_gives w).then fun h1 k1 x1 b1 v1 => ?_
  refine (unaryH_gives h1 _ _).then fun h2 k2 x2 b2 v2 => ?_
  rw [v1] at v2
  obtain ⟨w2, c2⟩ := w.extend (x1.trans x2)
  refine (amplitudeYH_gives w2).then fun h3 k3 x3 b3 v3 => ?_
  rw [c2] at v3
  refine (unaryH_gives h3 _ _).then fun h4 k4 x4 b4 v4 => ?_
  rw [v3] at v4
  have v2' : h4.items k2 = _ := ((x3.trans x4).items k2 b2).trans v2
  refine (binaryH_gives h4 _ _ _ (by rw [v2', v4, List.length_map, List.length_map, lx, ly])).then
    fun h5 k5 x5 b5 v5 => ?_
  rw [v2', v4] at v5
  obtain ⟨w5, c5⟩ := w2.extend (x3.trans (x4.trans x5))
  rw [c2] at c5
  refine (unaryH_gives h5 _ _).then fun h6 k6 x6 b6 v6 => ?_
  have d : h5.items c.detunings = (c.value h).detunings := by
    rw [← c5]; rfl
  rw [d] at v6
  have v5' : h6.items k5 = _ := (x6.items k5 b5).trans v5
  refine (binaryH_gives h6 _ _ _ (by
    rw [v5', v6, List.length_map, List.length_zipWith, List.length_map, List.length_map, lx, ly,
      Nat.min_self, ← w.detuning]; rfl)).then fun h7 k7 x7 b7 v7 => ?_
  rw [v5', v6] at v7
  have := unaryH_gives h7 sqrt k7
  rw [v7] at this
  have e : (List.zipWith (fun x d => x + d) (List.zipWith (fun x y => x + y)
      ((c.value h).amplitudeX.map fun x => x * x) ((c.value h).amplitudeY.map fun y => y * y))
      ((c.value h).detunings.map fun d => d * d)).map sqrt = (c.value h).amplitudes := by
    rw [DrivenControl.amplitudes, List.zipWith_map, List.zipWith_map_right, List.map_zipWith]
  rw [e] at this
  exact this.weaken (x1.trans (x2.trans (x3.trans (x4.trans (x5.trans (x6.trans x7))))))

theorem anglesH_gives {h : Heap α} {c : ControlObj} (w : c.WellFormed h) :
    Gives h (anglesH c h) (.ok (c.value h).angles) := by
  obtain ⟨-, -, la⟩ := amplitude_lengths w
  refine (amplitudesH_gives w).then fun h1 k1 x1 b1 v1 => ?_
  have e := x1.items _ (w.exist c.durations (by simp [ControlObj.refs]))
  have := binaryH_gives h1 (fun a t => a * t) k1 c.durations (by rw [v1, e, la, w.durations])
  rw [v1, e] at this
  exact this.weaken x1

theorem hstackH_gives (h : Heap α) (x y z : Nat) (e1 : (h.items y).length = (h.items x).length)
    (e2 : (h.items z).length = (h.items x).length) :
    Gives h (hstackH x y z h) (.ok (List.zipWith (fun x yz => x :: yz) (h.items x)
      (List.zipWith (fun y z => [y, z]) (h.items y) (h.items z))).flatten) := by
  unfold hstackH
  rw [bind_load, bind_load, bind_load, if_pos (by simpa [Heap.items] using ⟨e1, e2⟩)]
  exact alloc_gives _ _

theorem rows_flatten (xs ys zs : List α) :
    (List.zipWith (fun x yz => x :: yz) xs (List.zipWith (fun y z => [y, z]) ys zs)).flatten =
      (List.zipWith (fun x yz => (x, yz)) xs (List.zipWith (fun y z => (y, z)) ys zs)).flatMap
        fun (x, y, z) => [x, y, z] := by
  induction xs generalizing ys zs with
  | nil => rfl
  | cons x xs ih =>
    cases ys with
    | nil => rfl
    | cons y ys =>
      cases zs with
      | nil => rfl
      | cons z zs =>
        simp only [List.zipWith_cons_cons, List.flatten_cons, List.flatMap_cons, ih]

theorem directionsH_gives {h : Heap α} {c : ControlObj} (w : c.WellFormed h) :
    Gives h (directionsH c h)
      ((c.value h).directions.map fun v => v.flatMap fun (x, y, z) => [x, y, z]) := by
  obtain ⟨lx, ly, la⟩ := amplitude_lengths w
  refine (amplitudesH_gives w).then fun h1 k1 x1 b1 v1 => ?_
  rw [bind_load]
  rw [v1]
  unfold DrivenControl.directions
  cases hm : npAmax (c.value h).amplitudes with
  | error x => rw [bind_lift_error]; exact ⟨x1, by simp [hm, bind, Except.bind, Except.map], fun k hk => by simp at hk⟩
  | ok m =>
    rw [bind_lift_ok]
    extract_lets tolerance
    refine (unaryH_gives h1 _ _).then fun h2 k2 x2 b2 v2 => ?_
    rw [v1] at v2
    have x02 := x1.trans x2
    obtain ⟨w2, c2⟩ := w.extend x02
    refine (amplitudeXH_gives w2).then fun h3 k3 x3 b3 v3 => ?_
    rw [c2] at v3
    have s3 : h3.items k2 = _ := (x3.items k2 b2).trans v2
    refine (binaryH_gives h3 _ _ _ (by rw [v3, s3, List.length_map, lx, la])).then fun h4 k4 x4 b4 v4 => ?_
    rw [v3, s3] at v4
    have x04 := x02.trans (x3.trans x4)
    obtain ⟨w4, c4⟩ := w.extend x04
    refine (amplitudeYH_gives w4).then fun h5 k5 x5 b5 v5 => ?_
    rw [c4] at v5
    have s5 : h5.items k2 = _ := ((x3.trans (x4.trans x5)).items k2 b2).trans v2
    refine (binaryH_gives h5 _ _ _ (by rw [v5, s5, List.length_map, ly, la])).then fun h6 k6 x6 b6 v6 => ?_
    rw [v5, s5] at v6
    have x06 := x04.trans (x5.trans x6)
    obtain ⟨w6, c6⟩ := w.extend x06
    have s6 : h6.items k2 = _ := ((x3.trans (x4.trans (x5.trans x6))).items k2 b2).trans v2
    have d6 : h6.items c.detunings = (c.value h).detunings := by rw [← c6]; rfl
    refine (binaryH_gives h6 _ _ _ (by rw [d6, s6, List.length_map, la, ← w.detuning]; rfl)).then
      fun h7 k7 x7 b7 v7 => ?_
    rw [d6, s6] at v7
    have v4' : h7.items k4 = _ := ((x5.trans (x6.trans x7)).items k4 b4).trans v4
    have v6' : h7.items k6 = _ := (x7.items k6 b6).trans v6
    have := hstackH_gives h7 k4 k6 k7
      (by rw [v4', v6', List.length_zipWith, List.length_zipWith, List.length_map, lx, ly, la])
      (by rw [v4', v7, List.length_zipWith, List.length_zipWith, List.length_map, lx, la, ← w.detuning]; rfl)
    rw [v4', v6', v7, rows_flatten] at this
    simpa [hm, bind, Except.bind, Except.map, pure, Except.pure, tolerance] using this.weaken (x06.trans x7)

theorem timesH_gives (h : Heap α) (c : ControlObj) :
    Gives h (timesH c h) (.ok (c.value h).times) := by
  unfold timesH
  rw [bind_load]
  refine (alloc_gives h _).then fun h1 k1 x1 b1 v1 => ?_
  rw [bind_load]
  have := alloc_gives h1 (lit 0 :: h1.items k1)
  rw [v1] at this
  exact (show Gives h1 (alloc (lit 0 :: h1.items k1) h1) _ by rw [v1]; exact this).weaken x1

theorem exportContentH_shows {h : Heap α} {c : ControlObj} (w : c.WellFormed h) (k : String) :
    Shows h (exportContentH c k h) ((c.value h).exportContent k) := by
  unfold exportContentH DrivenControl.exportContent
  cases hm : (c.value h).maximumRabiRate with
  | error x =>
    rw [bind_error (show maximumRabiRateH c h = (.error x, h) by rw [maximumRabiRateH_run, hm])]
    exact ⟨Extends.refl h, rfl⟩
  | ok m =>
    have run : ∀ {h' : Heap α}, Extends h h' → maximumRabiRateH c h' = (.ok m, h') := fun x => by
      rw [maximumRabiRateH_run, (w.extend x).2, hm]
    rw [bind_ok (run (Extends.refl h)), bind_load, bind_load]
    change Shows h _ (if k == "cartesian" then _ else _)
    split
    · refine (amplitudeXH_gives w).thenShows fun h1 k1 x1 b1 v1 => ?_
      rw [bind_ok (run x1)]
      refine (unaryH_gives h1 _ _).thenShows fun h2 k2 x2 b2 v2 => ?_
      rw [v1] at v2
      rw [bind_load, v2]
      have x02 := x1.trans x2
      obtain ⟨w2, c2⟩ := w.extend x02
      refine (amplitudeYH_gives w2).thenShows fun h3 k3 x3 b3 v3 => ?_
      rw [c2] at v3
      rw [bind_ok (run (x02.trans x3))]
      refine (unaryH_gives h3 _ _).thenShows fun h4 k4 x4 b4 v4 => ?_
      rw [v3] at v4
      rw [bind_load, v4]
      exact ⟨x02.trans (x3.trans x4), rfl⟩
    · rw [bind_ok (run (Extends.refl h))]
      refine (unaryH_gives h _ _).thenShows fun h1 k1 x1 b1 v1 => ?_
      rw [bind_load, v1]
      rw [bind_load, x1.items _ (w.exist c.azimuthalAngles (by simp [ControlObj.refs]))]
      exact ⟨x1, rfl⟩

theorem exportExpandedH_shows {h : Heap α} {c : ControlObj} (w : c.WellFormed h) (fs : FileSystem α)
    (f t k : String) :
    Shows h (exportExpandedH c fs f t k h) (.ok ((c.value h).exportExpanded fs f t k)) := by
  have g := exportContentH_shows w k
  unfold exportExpandedH DrivenControl.exportExpanded
  revert g
  rcases exportContentH c k h with ⟨r, h'⟩
  rintro ⟨x, v⟩
  rw [← v]
  change Extends h h' at x
  cases r with
  | error x' => exact ⟨x, rfl⟩
  | ok info =>
    simp only
    split
    · cases hn : dictGet "name" info with
      | none => exact ⟨x, rfl⟩
      | some _ =>
        simp only
        rw [maximumRabiRateH_run, (w.extend x).2]
        cases (c.value h).maximumRabiRate with
        | error x' => exact ⟨x, rfl⟩
        | ok m =>
          refine ⟨x, ?_⟩
          have e : numberOfSegmentsH c h' = (.ok (c.value h).numberOfSegments, h') := by
            rw [← (w.extend x).2]; rfl
          simp only [e]
    · exact ⟨x, rfl⟩

theorem exportToFileH_shows {h : Heap α} {c : ControlObj} (w : c.WellFormed h) (fs : FileSystem α)
    (f a t k : String) :
    Shows h (exportToFileH c fs f a t k h) (.ok ((c.value h).exportToFile fs f a t k)) := by
  unfold exportToFileH DrivenControl.exportToFile
  split
  · exact ⟨Extends.refl h, rfl⟩
  · split
    · exact ⟨Extends.refl h, rfl⟩
    · split
      · exact ⟨Extends.refl h, rfl⟩
      · split
        · exact exportExpandedH_shows w fs f t k
        · exact ⟨Extends.refl h, rfl⟩

theorem normalizerH_run (c : ControlObj) (h : Heap α) (b : Bool) :
    normalizerH c b h = (if b then (c.value h).maximumRabiRate else .ok (lit 1), h) := by
  cases b <;> rfl

theorem exportPlotH_shows {h : Heap α} {c : ControlObj} (w : c.WellFormed h) (k : String) (b : Bool) :
    Shows h (exportPlotH c k b h) ((c.value h).exportPlot k b) := by
  unfold exportPlotH DrivenControl.exportPlot
  cases hk : coordinateSystems.contains k with
  | false => rw [bind_check_false rfl]; exact ⟨Extends.refl h, rfl⟩
  | true =>
    rw [bind_check_true rfl]
    cases hm : (if b then (c.value h).maximumRabiRate else .ok (lit 1) : Except PyErr α) with
    | error x =>
      rw [bind_error (show normalizerH c b h = (.error x, h) by rw [normalizerH_run, hm])]
      exact ⟨Extends.refl h, by simp [checkArguments, bind, Except.bind]⟩
    | ok m =>
      rw [bind_ok (show normalizerH c b h = (.ok m, h) by rw [normalizerH_run, hm])]
      refine (amplitudeXH_gives w).thenShows fun h1 k1 x1 b1 v1 => ?_
      refine (unaryH_gives h1 _ _).thenShows fun h2 k2 x2 b2 v2 => ?_
      rw [v1] at v2
      have x02 := x1.trans x2
      obtain ⟨w2, c2⟩ := w.extend x02
      refine (amplitudeYH_gives w2).thenShows fun h3 k3 x3 b3 v3 => ?_
      rw [c2] at v3
      refine (unaryH_gives h3 _ _).thenShows fun h4 k4 x4 b4 v4 => ?_
      rw [v3] at v4
      have x04 := x02.trans (x3.trans x4)
      refine (unaryH_gives h4 _ _).thenShows fun h5 k5 x5 b5 v5 => ?_
      rw [x04.items _ (w.exist c.rabiRates (by simp [ControlObj.refs]))] at v5
      have x05 := x04.trans x5
      have e2 : h5.items k2 = _ := ((x3.trans (x4.trans x5)).items k2 b2).trans v2
      have e4 : h5.items k4 = _ := (x5.items k4 b4).trans v4
      rw [bind_load, bind_load, bind_load, bind_load, bind_load, bind_load, e2, e4, v5,
        x05.items _ (w.exist c.azimuthalAngles (by simp [ControlObj.refs])),
        x05.items _ (w.exist c.durations (by simp [ControlObj.refs])),
        x05.items _ (w.exist c.detunings (by simp [ControlObj.refs]))]
      exact ⟨x05, rfl⟩

theorem controlTextH_shows (h : Heap α) (c : ControlObj) :
    Shows h (controlTextH c h) (c.value h).textData := by
  unfold controlTextH DrivenControl.textData
  cases hm : (c.value h).maximumRabiRate with
  | error x =>
    rw [bind_error (show maximumRabiRateH c h = (.error x, h) by rw [maximumRabiRateH_run, hm])]
    exact ⟨Extends.refl h, rfl⟩
  | ok m =>
    rw [bind_ok (show maximumRabiRateH c h = (.ok m, h) by rw [maximumRabiRateH_run, hm])]
    have run : maximumDetuningH c h = ((c.value h).maximumDetuning, h) := rfl
    cases hd : (c.value h).maximumDetuning with
    | error x =>
      rw [bind_error (show maximumDetuningH c h = (.error x, h) by rw [run, hd])]
      exact ⟨Extends.refl h, rfl⟩
    | ok d =>
      rw [bind_ok (show maximumDetuningH c h = (.ok d, h) by rw [run, hd])]
      exact ⟨Extends.refl h, rfl⟩

theorem sequenceTextH_shows {h : Heap α} {s : SequenceObj α} (w : ∀ r ∈ s.refs, r < h.length) :
    Shows h (sequenceTextH s h) (.ok (s.value h).textData) := by
  refine (unaryH_gives h _ _).thenShows fun h1 k1 x1 b1 v1 => ?_
  rw [bind_load, v1]
  refine (unaryH_gives h1 _ _).thenShows fun h2 k2 x2 b2 v2 => ?_
  have x02 := x1.trans x2
  rw [x1.items _ (w s.rabiRotations (by simp [SequenceObj.refs]))] at v2
  rw [bind_load, v2]
  refine (unaryH_gives h2 _ _).thenShows fun h3 k3 x3 b3 v3 => ?_
  have x03 := x02.trans x3
  rw [x02.items _ (w s.azimuthalAngles (by simp [SequenceObj.refs]))] at v3
  rw [bind_load, v3]
  refine (unaryH_gives h3 _ _).thenShows fun h4 k4 x4 b4 v4 => ?_
  rw [x03.items _ (w s.detuningRotations (by simp [SequenceObj.refs]))] at v4
  rw [bind_load, v4]
  exact ⟨x03.trans x4, rfl⟩

end OpenControls
