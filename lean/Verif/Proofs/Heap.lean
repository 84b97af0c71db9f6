import Verif.Spec.Heap
import Mathlib.Tactic.Linarith

/-!
# The statement-level model refines the value-level model
-/

namespace OpenControls

open PyFloat Py PyM

section Basic
variable {α β γ : Type}

theorem bind_def (m : PyM α β) (f : β → PyM α γ) (h : Heap α) :
    (m >>= f) h = PyM.andThen m f h := rfl

theorem bind_ok {m : PyM α β} {f : β → PyM α γ} {h h' : Heap α} {x : β}
    (e : m h = (.ok x, h')) : (m >>= f) h = f x h' := by
  simp only [bind_def, PyM.andThen, e]

theorem bind_error {m : PyM α β} {f : β → PyM α γ} {h h' : Heap α} {x : PyErr}
    (e : m h = (.error x, h')) : (m >>= f) h = (.error x, h') := by
  simp only [bind_def, PyM.andThen, e]

theorem pure_apply (x : β) (h : Heap α) : (pure x : PyM α β) h = (.ok x, h) := rfl

theorem bind_alloc (xs : List α) (f : Ref → PyM α γ) (h : Heap α) :
    (alloc xs >>= f) h = f h.length (h ++ [xs]) := rfl

theorem bind_load (r : Ref) (f : List α → PyM α γ) (h : Heap α) :
    (load r >>= f) h = f (h.items r) h := rfl

theorem bind_check_true {b : Bool} (hb : b = true) (d : String) (f : Unit → PyM α γ) (h : Heap α) :
    (check b d >>= f) h = f () h := by subst hb; rfl

theorem bind_check_false {b : Bool} (hb : b = false) (d : String) (f : Unit → PyM α γ)
    (h : Heap α) : (check b d >>= f) h = (.error (.arguments d), h) := by subst hb; rfl

theorem items_append (h e : Heap α) {r : Ref} (hr : r < h.length) :
    (h ++ e).items r = h.items r := by
  simp [Heap.items, List.getElem?_append_left hr]

theorem items_new (h : Heap α) (xs : List α) (e : Heap α) :
    (h ++ xs :: e).items h.length = xs := by
  simp [Heap.items]

theorem Arg.items_append {a : Arg α} {h : Heap α} (e : Heap α) (ha : a.Valid h) :
    a.items (h ++ e) = a.items h := by
  cases a with
  | array r => exact OpenControls.items_append h e (ha r rfl)
  | list xs => rfl

theorem Arg.Valid.append {a : Arg α} {h : Heap α} (e : Heap α) (ha : a.Valid h) :
    a.Valid (h ++ e) := fun r hr => by
  have := ha r hr
  simp only [List.length_append]; omega

theorem asarray_run (a : Arg α) (h : Heap α) (ha : a.Valid h) :
    ∃ r e, asarray a h = (.ok r, h ++ e) ∧ (h ++ e).items r = a.items h ∧ r < (h ++ e).length ∧
      (∀ r', a.ref? = some r' → r = r') ∧ (a.ref? = none → h.length ≤ r) := by
  cases a with
  | array r =>
    refine ⟨r, [], by simp [asarray, pure_apply], by simp [Arg.items], ?_, ?_, ?_⟩
    · simpa using ha r rfl
    · intro r' hr'; simpa [Arg.ref?] using hr'
    · intro h; simp [Arg.ref?] at h
  | list xs =>
    refine ⟨h.length, [xs], rfl, items_new h xs [], by simp, ?_, ?_⟩
    · intro r' hr'; simp [Arg.ref?] at hr'
    · simp

theorem argSize_run (a : Arg α) (h : Heap α) : argSize a h = (.ok (a.items h).length, h) := by
  cases a <;> rfl

end Basic

set_option linter.unusedSectionVars false

variable {α : Type} [Add α] [Sub α] [Mul α] [Div α] [Neg α] [PyFloat α]

/-- items of an optional argument -/
def optItems (h : Heap α) (a : Option (Arg α)) : Option (List α) := a.map (Arg.items h)

/-- validity of an optional argument -/
def OptValid (h : Heap α) (a : Option (Arg α)) : Prop := ∀ x, a = some x → x.Valid h

theorem optSize_run (a : Option (Arg α)) (h : Heap α) :
    optSize a h = (.ok ((optItems h a).map List.length), h) := by
  cases a with
  | none => rfl
  | some a => cases a <;> rfl

theorem defaultArray_run (n : Nat) (a : Option (Arg α)) (h : Heap α) (ha : OptValid h a) :
    ∃ r e, defaultArray n a h = (.ok r, h ++ e) ∧
      (h ++ e).items r = (optItems h a).getD (List.replicate n (lit 0)) ∧ r < (h ++ e).length ∧
      (∀ r', a.bind Arg.ref? = some r' → r = r') ∧ (a.bind Arg.ref? = none → h.length ≤ r) := by
  cases a with
  | none => exact ⟨h.length, [List.replicate n (lit 0)], rfl, items_new _ _ _, by simp,
      by simp, by simp⟩
  | some a => exact asarray_run a h (ha a rfl)

theorem optItems_append {a : Option (Arg α)} {h : Heap α} (e : Heap α) (ha : OptValid h a) :
    optItems (h ++ e) a = optItems h a := by
  cases a with
  | none => rfl
  | some a => simp [optItems, Arg.items_append e (ha a rfl)]

theorem OptValid.append {a : Option (Arg α)} {h : Heap α} (e : Heap α) (ha : OptValid h a) :
    OptValid (h ++ e) a := fun x hx => (ha x hx).append e

/-- what a constructor call does: `h` is extended, existing arrays are not touched, and the outcome is
that of the value-level model -/
structure ControlRun (h : Heap α) (run : Except PyErr ControlObj × Heap α)
    (m : Except PyErr (DrivenControl α)) : Prop where
  ext : ∃ e, run.2 = h ++ e
  value : run.1.map (ControlObj.value run.2) = m
  valid : ∀ o, run.1 = .ok o → ∀ r ∈ o.refs, r < run.2.length

/-- address of a field: the given array, or a new one -/
def FieldRef (h : Heap α) (a : Option (Arg α)) (r : Ref) : Prop :=
  (∀ r', a.bind Arg.ref? = some r' → r = r') ∧ (a.bind Arg.ref? = none → h.length ≤ r)

theorem newControlH_run (durations : Arg α) (rabi az det : Option (Arg α)) (name : Option String)
    (h : Heap α) (hd : durations.Valid h) (hr : OptValid h rabi) (ha : OptValid h az)
    (ht : OptValid h det) :
    ControlRun h (newControlH durations rabi az det name h)
      (DrivenControl.new (durations.items h) (optItems h rabi) (optItems h az) (optItems h det)
        name) ∧
    ∀ o, (newControlH durations rabi az det name h).1 = .ok o →
      FieldRef h (some durations) o.durations ∧ FieldRef h rabi o.rabiRates ∧
      FieldRef h az o.azimuthalAngles ∧ FieldRef h det o.detunings ∧
      (([rabi, az, det, some durations].filterMap (·.bind Arg.ref?)).Nodup → o.refs.Nodup) := by
  obtain ⟨r0, e0, w0, i0, l0, g0, f0⟩ := asarray_run durations h hd
  have v0 := fun (a : Option (Arg α)) (h' : OptValid h a) => h'.append e0
  unfold newControlH DrivenControl.new
  rw [bind_ok w0, bind_load, i0]
  cases hb0 : ((durations.items h).all fun d => gt d (lit 0)) with
  | false =>
    rw [bind_check_false rfl]
    exact ⟨⟨⟨e0, rfl⟩, rfl, fun o h => by simp at h⟩, fun o h => by simp at h⟩
  | true =>
    rw [bind_check_true rfl, bind_ok (optSize_run rabi _), bind_ok (optSize_run az _),
      bind_ok (optSize_run det _), optItems_append e0 hr, optItems_append e0 ha,
      optItems_append e0 ht]
    have hl : ([(optItems h rabi).map List.length, (optItems h az).map List.length,
        (optItems h det).map List.length, some (durations.items h).length].filterMap id) =
        [optItems h rabi, optItems h az, optItems h det, some (durations.items h)].filterMap
          (Option.map List.length) := by
      cases optItems h rabi <;> cases optItems h az <;> cases optItems h det <;> rfl
    rw [hl]
    cases hb1 : ((pySet ([optItems h rabi, optItems h az, optItems h det,
        some (durations.items h)].filterMap (Option.map List.length))).length == 1) with
    | false =>
      rw [bind_check_false rfl]
      refine ⟨⟨⟨e0, rfl⟩, ?_, fun o h => by simp at h⟩, fun o h => by simp at h⟩
      simp only [hb1]
      rfl
    | true =>
      obtain ⟨r1, e1, w1, i1, l1, g1, f1⟩ := defaultArray_run (durations.items h).length rabi _
        (hr.append e0)
      obtain ⟨r2, e2, w2, i2, l2, g2, f2⟩ := defaultArray_run (durations.items h).length az _
        ((ha.append e0).append e1)
      obtain ⟨r3, e3, w3, i3, l3, g3, f3⟩ := defaultArray_run (durations.items h).length det _
        (((ht.append e0).append e1).append e2)
      rw [bind_check_true rfl, bind_ok w1, bind_ok w2, bind_ok w3, bind_load]
      rw [optItems_append _ hr] at i1
      rw [optItems_append _ (ha.append e0), optItems_append _ ha] at i2
      rw [optItems_append _ ((ht.append e0).append e1), optItems_append _ (ht.append e0),
        optItems_append _ ht] at i3
      have l1' : r1 < (h ++ e0 ++ e1 ++ e2).length := by
        rw [List.length_append]; omega
      have j1 : (h ++ e0 ++ e1 ++ e2 ++ e3).items r1 =
          (optItems h rabi).getD (List.replicate (durations.items h).length (lit 0)) := by
        rw [items_append _ _ l1', items_append _ _ l1, i1]
      have j2 : (h ++ e0 ++ e1 ++ e2 ++ e3).items r2 =
          (optItems h az).getD (List.replicate (durations.items h).length (lit 0)) := by
        rw [items_append _ _ l2, i2]
      have j0 : (h ++ e0 ++ e1 ++ e2 ++ e3).items r0 = durations.items h := by
        rw [items_append, items_append, items_append _ _ l0, i0]
        · rw [List.length_append]; omega
        · simp only [List.length_append] at *; omega
      rw [j1]
      cases hb2 : (((optItems h rabi).getD (List.replicate (durations.items h).length
          (lit 0))).all fun r => ge r (lit 0)) with
      | false =>
        rw [bind_check_false rfl]
        refine ⟨⟨⟨e0 ++ e1 ++ e2 ++ e3, by simp⟩, ?_, fun o h => by simp at h⟩,
          fun o h => by simp at h⟩
        simp only [checkArguments, hb1, hb2]
        rfl
      | true =>
        rw [bind_check_true rfl, pure_apply]
        refine ⟨⟨⟨e0 ++ e1 ++ e2 ++ e3, by simp⟩, ?_, ?_⟩, ?_⟩
        · simp only [checkArguments, hb1, hb2]
          simp only [Except.map, ControlObj.value, j0, j1, j2, i3]
          rfl
        · intro o ho r hr'
          simp only [Except.ok.injEq] at ho
          subst ho
          simp only [ControlObj.refs, List.mem_cons, List.not_mem_nil, or_false] at hr'
          simp only [List.length_append] at *
          omega
        · intro o ho
          simp only [Except.ok.injEq] at ho
          subst ho
          simp only [List.length_append] at l0 l1 l2 l3 f1 f2 f3
          refine ⟨⟨g0, f0⟩, ⟨g1, fun h' => ?_⟩, ⟨g2, fun h' => ?_⟩, ⟨g3, fun h' => ?_⟩, ?_⟩
          · have := f1 h'; show h.length ≤ r1; omega
          · have := f2 h'; show h.length ≤ r2; omega
          · have := f3 h'; show h.length ≤ r3; omega
          intro hn
          have d0 : durations.ref? = some r0 ∧ r0 < h.length ∨
              durations.ref? = none ∧ h.length ≤ r0 := by
            cases k : durations.ref? with
            | none => exact Or.inr ⟨rfl, f0 k⟩
            | some r' => rw [g0 r' k]; exact Or.inl ⟨rfl, hd r' k⟩
          have opt : ∀ (a : Option (Arg α)), OptValid h a → ∀ r',
              a.bind Arg.ref? = some r' → r' < h.length := by
            intro a hv r' hr'
            cases a with
            | none => simp at hr'
            | some a => exact hv a rfl r' hr'
          have dd : ∀ (a : Option (Arg α)), OptValid h a → ∀ (r l : Nat),
              (∀ r', a.bind Arg.ref? = some r' → r = r') → (a.bind Arg.ref? = none → l ≤ r) →
              a.bind Arg.ref? = some r ∧ r < h.length ∨ a.bind Arg.ref? = none ∧ l ≤ r := by
            intro a hv r l g f
            cases k : a.bind Arg.ref? with
            | none => exact Or.inr ⟨rfl, f k⟩
            | some r' => rw [g r' k]; exact Or.inl ⟨rfl, opt a hv r' k⟩
          have d1 := dd rabi hr r1 _ g1 f1
          have d2 := dd az ha r2 _ g2 f2
          have d3 := dd det ht r3 _ g3 f3
          have k0 : (some durations).bind Arg.ref? = durations.ref? := rfl
          simp only [List.filterMap_cons, List.filterMap_nil, k0] at hn
          clear * - d0 d1 d2 d3 hn l0 l1 l2 l3
          rcases d0 with ⟨k0, b0⟩ | ⟨k0, b0⟩ <;> rcases d1 with ⟨k1, b1⟩ | ⟨k1, b1⟩ <;>
            rcases d2 with ⟨k2, b2⟩ | ⟨k2, b2⟩ <;> rcases d3 with ⟨k3, b3⟩ | ⟨k3, b3⟩ <;>
            simp only [k0, k1, k2, k3, List.nodup_cons, List.mem_cons, List.not_mem_nil, or_false,
              not_or, List.nodup_nil, not_false_eq_true, and_true, ControlObj.refs] at hn ⊢ <;>
            omega

end OpenControls
