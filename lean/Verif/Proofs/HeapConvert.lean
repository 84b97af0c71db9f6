import Verif.Proofs.Heap
import Verif.Proofs.Conversion

/-!
# The statement-level conversion refines the value-level conversion
-/

namespace OpenControls

open PyFloat Py PyM

set_option linter.unusedSectionVars false

section Basic
variable {α γ : Type}

theorem bind_getItem {r i : Nat} {x : α} {h : Heap α} (f : α → PyM α γ)
    (e : (h.items r)[i]? = some x) : (getItem r i >>= f) h = f x h := by
  apply bind_ok
  unfold getItem
  rw [show (h[r]?.getD [])[i]? = some x from e]

theorem setItem_run {r i : Nat} (v : α) {h : Heap α} (e : i < (h.items r).length) :
    setItem r i v h = (.ok (), h.set r ((h.items r).set i v)) := by
  unfold setItem
  rw [if_pos (show i < (h[r]?.getD []).length from e)]
  rfl

/-- heap with named new cells: reading and writing the `k`-th new array -/
theorem items_at (h e : Heap α) (k : Nat) (xs : List α) (he : e[k]? = some xs) :
    (h ++ e).items (h.length + k) = xs := by
  unfold Heap.items
  rw [List.getElem?_append_right (by omega), Nat.add_sub_cancel_left, he]
  rfl

theorem set_at (h e : Heap α) (k : Nat) (xs : List α) :
    (h ++ e).set (h.length + k) xs = h ++ e.set k xs := by
  rw [List.set_append_right _ _ (by omega), Nat.add_sub_cancel_left]

end Basic

variable {α : Type} [Add α] [Sub α] [Mul α] [Div α] [Neg α] [PyFloat α]

/-- the four arrays hold the columns of a list of operations -/
structure Cols (h : Heap α) (a : OpArrays) (L : List (Operation α)) : Prop where
  offsets : h[a.offsets]? = some (L.map Operation.offset)
  rabi : h[a.rabi]? = some (L.map Operation.rabi)
  azimuthal : h[a.azimuthal]? = some (L.map Operation.azimuthal)
  detuning : h[a.detuning]? = some (L.map Operation.detuning)

theorem items_of_some {h : Heap α} {r : Nat} {xs : List α} (e : h[r]? = some xs) :
    h.items r = xs := by simp [Heap.items, e]

theorem some_append {h : Heap α} {r : Nat} {xs : List α} (e : h[r]? = some xs) (e' : Heap α) :
    (h ++ e')[r]? = some xs := by
  have : r < h.length := by
    by_contra hh
    rw [List.getElem?_eq_none (by omega)] at e
    simp at e
  rw [List.getElem?_append_left this, e]

theorem bind_appendFront {γ : Type} {h : Heap α} {r : Nat} {xs : List α} (x : α)
    (f : Nat → PyM α γ) (e : h[r]? = some xs) :
    (appendFront x r >>= f) h = f h.length (h ++ [x :: xs]) := by
  apply bind_ok
  unfold appendFront
  rw [bind_load, items_of_some e]
  rfl

theorem bind_appendBack {γ : Type} {h : Heap α} {r : Nat} {xs : List α} (x : α)
    (f : Nat → PyM α γ) (e : h[r]? = some xs) :
    (appendBack r x >>= f) h = f h.length (h ++ [xs ++ [x]]) := by
  apply bind_ok
  unfold appendBack
  rw [bind_load, items_of_some e]
  rfl

/-- four new arrays -/
theorem Cols.four (h : Heap α) (a b c d : List α) (L : List (Operation α))
    (ha : a = L.map Operation.offset) (hb : b = L.map Operation.rabi)
    (hc : c = L.map Operation.azimuthal) (hd : d = L.map Operation.detuning) :
    Cols (h ++ [a, b, c, d]) ⟨h.length, h.length + 1, h.length + 2, h.length + 3⟩ L := by
  subst ha hb hc hd
  constructor
  · rw [List.getElem?_append_right (Nat.le_refl _)]; simp
  · rw [List.getElem?_append_right (Nat.le_add_right _ _), Nat.add_sub_cancel_left]; rfl
  · rw [List.getElem?_append_right (Nat.le_add_right _ _), Nat.add_sub_cancel_left]; rfl
  · rw [List.getElem?_append_right (Nat.le_add_right _ _), Nat.add_sub_cancel_left]; rfl

theorem four_append (h : Heap α) (a b c d : List α) :
    h ++ [a] ++ [b] ++ [c] ++ [d] = h ++ [a, b, c, d] := by simp

theorem padEmptyH_run {h : Heap α} {a : OpArrays} {L : List (Operation α)} (hc : Cols h a L)
    (T : α) : ∃ a' e, padEmptyH T a h = (.ok a', h ++ e) ∧
      Cols (h ++ e) a' (if L.isEmpty then [idleAt (lit 0), idleAt T] else L) := by
  unfold padEmptyH
  rw [bind_load, items_of_some hc.offsets]
  cases L with
  | nil =>
    refine ⟨⟨h.length, h.length + 1, h.length + 2, h.length + 3⟩,
      [[lit 0, T], [lit 0, lit 0], [lit 0, lit 0], [lit 0, lit 0]], ?_,
      Cols.four h _ _ _ _ _ rfl rfl rfl rfl⟩
    rw [← four_append]
    show (alloc [lit 0, T] >>= _) h = _
    rw [bind_alloc, bind_alloc, bind_alloc, bind_alloc, pure_apply]
    simp only [List.length_append, List.length_cons, List.length_nil]
  | cons o L => exact ⟨a, [], by simp [pure_apply], by simpa using hc⟩

theorem padFrontH_run {h : Heap α} {a : OpArrays} {o : Operation α} {L : List (Operation α)}
    (hc : Cols h a (o :: L)) : ∃ a' e, padFrontH a h = (.ok a', h ++ e) ∧
      Cols (h ++ e) a' (if ne o.offset (lit 0) then idleAt (lit 0) :: o :: L else o :: L) := by
  unfold padFrontH
  rw [bind_getItem (x := o.offset) _ (by rw [items_of_some hc.offsets]; simp)]
  cases hb : ne o.offset (lit 0) with
  | true =>
    refine ⟨⟨h.length, h.length + 1, h.length + 2, h.length + 3⟩,
      [lit 0 :: (o :: L).map Operation.offset, lit 0 :: (o :: L).map Operation.rabi,
      lit 0 :: (o :: L).map Operation.azimuthal, lit 0 :: (o :: L).map Operation.detuning], ?_,
      Cols.four h _ _ _ _ _ rfl rfl rfl rfl⟩
    rw [← four_append, if_pos rfl, bind_appendFront _ _ hc.offsets,
      bind_appendFront _ _ (some_append hc.rabi _),
      bind_appendFront _ _ (some_append (some_append hc.azimuthal _) _),
      bind_appendFront _ _ (some_append (some_append (some_append hc.detuning _) _) _), pure_apply]
    simp only [List.length_append, List.length_cons, List.length_nil]
  | false => exact ⟨a, [], by simp [pure_apply], by simpa using hc⟩

theorem padBackH_run {h : Heap α} {a : OpArrays} {L : List (Operation α)} {o : Operation α}
    (hc : Cols h a L) (T : α) (hl : L.getLast? = some o) :
    ∃ a' e, padBackH T a h = (.ok a', h ++ e) ∧
      Cols (h ++ e) a' (if ne o.offset T then L ++ [idleAt T] else L) := by
  unfold padBackH
  rw [bind_load, bind_getItem (x := o.offset) _ (by
    rw [items_of_some hc.offsets, List.length_map, List.getElem?_map, ← List.getLast?_eq_getElem?, hl]
    rfl)]
  cases hb : ne o.offset T with
  | true =>
    refine ⟨⟨h.length, h.length + 1, h.length + 2, h.length + 3⟩,
      [L.map Operation.offset ++ [T], L.map Operation.rabi ++ [lit 0],
      L.map Operation.azimuthal ++ [lit 0], L.map Operation.detuning ++ [lit 0]], ?_,
      Cols.four h _ _ _ _ _ (by simp [idleAt]) (by simp [idleAt]) (by simp [idleAt])
        (by simp [idleAt])⟩
    rw [← four_append, if_pos rfl, bind_appendBack _ _ hc.offsets,
      bind_appendBack _ _ (some_append hc.rabi _),
      bind_appendBack _ _ (some_append (some_append hc.azimuthal _) _),
      bind_appendBack _ _ (some_append (some_append (some_append hc.detuning _) _) _), pure_apply]
    simp only [List.length_append, List.length_cons, List.length_nil]
  | false => exact ⟨a, [], by simp [pure_apply], by simpa using hc⟩

/-- row-major items of the `4 × n` array `operations` -/
def flatOps (L : List (Operation α)) : List α :=
  L.map Operation.offset ++ L.map Operation.rabi ++ L.map Operation.azimuthal ++
    L.map Operation.detuning

theorem concatenateH_run {h : Heap α} {a : OpArrays} {L : List (Operation α)} (hc : Cols h a L) :
    concatenateH a h = (.ok h.length, h ++ [flatOps L]) := by
  unfold concatenateH
  rw [bind_load, bind_load, bind_load, bind_load, items_of_some hc.offsets, items_of_some hc.rabi,
    items_of_some hc.azimuthal, items_of_some hc.detuning]
  simp only [List.length_map, beq_self_eq_true, Bool.and_self, if_true]
  rfl

theorem flatOps_get {L : List (Operation α)} {i : Nat} {o : Operation α} (hi : L[i]? = some o) :
    (flatOps L)[0 * L.length + i]? = some o.offset ∧ (flatOps L)[1 * L.length + i]? = some o.rabi ∧
    (flatOps L)[2 * L.length + i]? = some o.azimuthal ∧
    (flatOps L)[3 * L.length + i]? = some o.detuning := by
  have hl : i < L.length := by
    by_contra hh
    rw [List.getElem?_eq_none (by omega)] at hi
    simp at hi
  unfold flatOps
  refine ⟨?_, ?_, ?_, ?_⟩
  · rw [List.getElem?_append_left (by simp; omega), List.getElem?_append_left (by simp; omega),
      List.getElem?_append_left (by simp; omega)]
    simp [hi]
  · rw [List.getElem?_append_left (by simp; omega), List.getElem?_append_left (by simp; omega),
      List.getElem?_append_right (by simp)]
    simp [hi]
  · rw [List.getElem?_append_left (by simp; omega), List.getElem?_append_right (by simp; omega)]
    simp only [List.length_append, List.length_map, List.getElem?_map]
    rw [show 2 * L.length + i - (L.length + L.length) = i by omega, hi]
    rfl
  · rw [List.getElem?_append_right (by simp; omega)]
    simp only [List.length_append, List.length_map, List.getElem?_map]
    rw [show 3 * L.length + i - (L.length + L.length + L.length) = i by omega, hi]
    rfl

/-- row-major items of an `n × 2` array -/
def flatPairs : List (α × α) → List α
  | [] => []
  | p :: ps => p.1 :: p.2 :: flatPairs ps

@[simp] theorem flatPairs_length (ps : List (α × α)) : (flatPairs ps).length = 2 * ps.length := by
  induction ps with
  | nil => rfl
  | cons p ps ih => simp only [flatPairs, List.length_cons, ih]; omega

theorem flatPairs_append (ps qs : List (α × α)) :
    flatPairs (ps ++ qs) = flatPairs ps ++ flatPairs qs := by
  induction ps with
  | nil => rfl
  | cons p ps ih => simp [flatPairs, ih]

theorem flatPairs_get {ps : List (α × α)} {i : Nat} {p : α × α} (hi : ps[i]? = some p) :
    (flatPairs ps)[2 * i]? = some p.1 ∧ (flatPairs ps)[2 * i + 1]? = some p.2 := by
  induction ps generalizing i with
  | nil => simp at hi
  | cons q ps ih =>
    cases i with
    | zero => simp at hi; subst hi; simp [flatPairs]
    | succ i => simpa [flatPairs, Nat.mul_succ] using ih (i := i) (by simpa using hi)

/-- writing row `|done|` -/
theorem flatPairs_set (done : List (α × α)) (a b : α) (zs : List α) (x y : α) :
    ((flatPairs done ++ a :: b :: zs).set (2 * done.length) x).set (2 * done.length + 1) y =
      flatPairs (done ++ [(x, y)]) ++ zs := by
  rw [List.set_append_right _ _ (by simp), List.set_append_right _ _ (by simp), flatPairs_length,
    Nat.sub_self, Nat.add_sub_cancel_left, flatPairs_append]
  simp [flatPairs]

theorem halfPulseH_run (Ωm Δm tm : α) {h : Heap α} {L : List (Operation α)} {i r : Nat}
    {o : Operation α} (hr : h.items r = flatOps L) (hi : L[i]? = some o) :
    halfPulseH Ωm Δm tm r L.length i h = (.ok (halfPulseDuration Ωm Δm tm o), h) := by
  obtain ⟨-, h1, -, h3⟩ := flatOps_get hi
  unfold halfPulseH halfPulseDuration
  rw [bind_getItem (x := o.rabi) _ (by rw [hr]; exact h1)]
  cases isClose o.rabi (lit 0) with
  | false => rfl
  | true =>
    simp only [Bool.not_true, Bool.false_eq_true, if_false]
    rw [bind_getItem (x := o.detuning) _ (by rw [hr]; exact h3)]
    cases isClose o.detuning (lit 0) <;> rfl

theorem startEndLoop_run (Ωm Δm tm : α) (h : Heap α) (L : List (Operation α)) :
    ∀ (rest done : List (Operation α)), L = done ++ rest →
    forFrom (startEndBody Ωm Δm tm h.length (h.length + 1) L.length) done.length rest.length
      (h ++ [flatOps L, flatPairs (done.map (pulseStartEnd Ωm Δm tm)) ++
        List.replicate (rest.length * 2) (lit 0)]) =
      (.ok (), h ++ [flatOps L, flatPairs (L.map (pulseStartEnd Ωm Δm tm))])
  | [], done, hL => by
    subst hL
    simp [forFrom, pure_apply]
  | o :: rest, done, hL => by
    have hi : L[done.length]? = some o := by subst hL; simp
    have ih := startEndLoop_run Ωm Δm tm h L rest (done ++ [o]) (by simp [hL])
    rw [List.length_append, List.length_singleton] at ih
    show (startEndBody Ωm Δm tm h.length (h.length + 1) L.length done.length >>= fun _ => _) _ = _
    rw [bind_ok (h' := h ++ [flatOps L, flatPairs ((done ++ [o]).map (pulseStartEnd Ωm Δm tm)) ++
        List.replicate (rest.length * 2) (lit 0)]) (x := ())]
    · exact ih
    · have hz : List.replicate ((o :: rest).length * 2) (lit 0 : α) =
          lit 0 :: lit 0 :: List.replicate (rest.length * 2) (lit 0) := by
        rw [List.length_cons, show (rest.length + 1) * 2 = rest.length * 2 + 2 by omega]
        rfl
      rw [hz]
      unfold startEndBody
      have i0 := items_new h (flatOps L) [flatPairs (done.map (pulseStartEnd Ωm Δm tm)) ++
        lit 0 :: lit 0 :: List.replicate (rest.length * 2) (lit 0)]
      have i1 := items_at h [flatOps L, flatPairs (done.map (pulseStartEnd Ωm Δm tm)) ++
        lit 0 :: lit 0 :: List.replicate (rest.length * 2) (lit 0)] 1 _ rfl
      rw [bind_ok (halfPulseH_run Ωm Δm tm i0 hi),
        bind_getItem (x := o.offset) _ (by rw [i0]; exact (flatOps_get hi).1)]
      rw [bind_ok (setItem_run _ (by rw [i1]; simp)), i1, set_at]
      have i2 := items_at h ([flatOps L, flatPairs (done.map (pulseStartEnd Ωm Δm tm)) ++
        lit 0 :: lit 0 :: List.replicate (rest.length * 2) (lit 0)].set 1
          ((flatPairs (done.map (pulseStartEnd Ωm Δm tm)) ++
        lit 0 :: lit 0 :: List.replicate (rest.length * 2) (lit 0)).set (2 * done.length)
          (o.offset - halfPulseDuration Ωm Δm tm o))) 1 _ rfl
      rw [setItem_run _ (by rw [i2]; simp), i2, set_at]
      have := flatPairs_set (done.map (pulseStartEnd Ωm Δm tm)) (lit 0) (lit 0)
        (List.replicate (rest.length * 2) (lit 0)) (o.offset - halfPulseDuration Ωm Δm tm o)
        (o.offset + halfPulseDuration Ωm Δm tm o)
      rw [List.length_map] at this
      rw [this, List.map_append]
      rfl

section At
variable {γ : Type} {h e : Heap α} {k i : Nat} {xs : List α} {x : α}

theorem bind_getItem_at (f : α → PyM α γ) (he : e[k]? = some xs) (hx : xs[i]? = some x) :
    (getItem (h.length + k) i >>= f) (h ++ e) = f x (h ++ e) :=
  bind_getItem f (by rw [items_at h e k xs he]; exact hx)

theorem bind_getItem_new {e' : Heap α} (f : α → PyM α γ) (hx : xs[i]? = some x) :
    (getItem h.length i >>= f) (h ++ xs :: e') = f x (h ++ xs :: e') :=
  bind_getItem f (by rw [items_new]; exact hx)

theorem setItem_at (v : α) (he : e[k]? = some xs) (hi : i < xs.length) :
    setItem (h.length + k) i v (h ++ e) = (.ok (), h ++ e.set k (xs.set i v)) := by
  rw [setItem_run v (by rw [items_at h e k xs he]; exact hi), items_at h e k xs he, set_at]

theorem bind_setItem_at (v : α) (f : Unit → PyM α γ) (he : e[k]? = some xs) (hi : i < xs.length) :
    (setItem (h.length + k) i v >>= f) (h ++ e) = f () (h ++ e.set k (xs.set i v)) :=
  bind_ok (setItem_at v he hi)

end At

theorem shiftFirstH_run (h : Heap α) (f : List α) (p : α × α) (ps : List (α × α)) :
    shiftFirstH (h.length + 1) (h ++ [f, flatPairs (p :: ps)]) =
      (.ok (), h ++ [f, flatPairs (shiftFirst (p :: ps))]) := by
  obtain ⟨s, e⟩ := p
  unfold shiftFirstH
  rw [bind_getItem_at (xs := flatPairs ((s, e) :: ps)) (x := s) _ rfl rfl]
  cases hb : lt s (lit 0) with
  | false => simp only [shiftFirst, hb]; rfl
  | true =>
    simp only [if_true, shiftFirst, hb]
    rw [bind_getItem_at (xs := flatPairs ((s, e) :: ps)) (x := e) _ rfl rfl,
      bind_setItem_at (xs := flatPairs ((s, e) :: ps)) _ _ rfl (by simp),
      setItem_at (xs := (flatPairs ((s, e) :: ps)).set 0 _) _ rfl (by simp; omega)]
    rfl

theorem shiftLast_snoc (T : α) (init : List (α × α)) (s e : α) :
    shiftLast T (init ++ [(s, e)]) = init ++
      [if gt e T then (s - (e - T), e - (e - T)) else (s, e)] := by
  induction init with
  | nil => simp only [List.nil_append, shiftLast]; split <;> rfl
  | cons p init ih =>
    cases init with
    | nil =>
      simp only [List.cons_append, List.nil_append, shiftLast]
      split <;> rfl
    | cons q init => simpa [shiftLast] using ih

theorem shiftLastH_run (h : Heap α) (f : List α) (T : α) (ps : List (α × α)) (hp : ps ≠ []) :
    shiftLastH (h.length + 1) ps.length T (h ++ [f, flatPairs ps]) =
      (.ok (), h ++ [f, flatPairs (shiftLast T ps)]) := by
  obtain ⟨init, p, rfl⟩ : ∃ init p, ps = init ++ [p] :=
    ⟨ps.dropLast, ps.getLast hp, (List.dropLast_concat_getLast hp).symm⟩
  obtain ⟨s, e⟩ := p
  have hg := flatPairs_get (ps := init ++ [(s, e)]) (i := init.length) (p := (s, e)) (by simp)
  rw [shiftLast_snoc]
  unfold shiftLastH
  rw [show (init ++ [(s, e)]).length - 1 = init.length by simp]
  rw [bind_getItem_at (xs := flatPairs (init ++ [(s, e)])) (x := e) _ rfl hg.2]
  cases gt e T with
  | false => rfl
  | true =>
    simp only [if_true]
    rw [bind_getItem_at (xs := flatPairs (init ++ [(s, e)])) (x := s) _ rfl hg.1,
      bind_setItem_at (xs := flatPairs (init ++ [(s, e)])) _ _ rfl (by simp),
      setItem_at (xs := (flatPairs (init ++ [(s, e)])).set (2 * init.length) _) _ rfl
        (by simp; omega)]
    have := flatPairs_set init s e [] (s - (e - T)) (e - (e - T))
    rw [List.append_nil] at this
    rw [← this, flatPairs_append]
    rfl

theorem column2_flatPairs (ps : List (α × α)) :
    column2 0 ps.length (flatPairs ps) = ps.map Prod.fst ∧
    column2 1 ps.length (flatPairs ps) = ps.map Prod.snd := by
  unfold column2
  induction ps with
  | nil => simp
  | cons p ps ih =>
    rw [List.length_cons, List.range_succ_eq_map]
    simp only [List.filterMap_cons, List.filterMap_map, Function.comp_def, flatPairs, Nat.mul_succ]
    exact ⟨by simpa using ih.1, by simpa using ih.2⟩

theorem gapsOf_flatPairs (ps : List (α × α)) : gapsOf ps.length (flatPairs ps) = gapDurations ps := by
  unfold gapsOf
  rw [(column2_flatPairs ps).1, (column2_flatPairs ps).2]
  induction ps with
  | nil => rfl
  | cons p ps ih =>
    cases ps with
    | nil => rfl
    | cons q ps => simpa [gapDurations] using ih

theorem all_flatPairs (f : α → Bool) (ps : List (α × α)) :
    (flatPairs ps).all f = ps.all fun p => f p.1 && f p.2 := by
  induction ps with
  | nil => rfl
  | cons p ps ih => simp [flatPairs, ih, Bool.and_assoc]

theorem set_slot {A : List α} {j : Nat} (hA : A.length = j) (a : α) (z : List α) (x : α) :
    (A ++ a :: z).set j x = A ++ x :: z := by
  subst hA
  rw [List.set_append_right _ _ (Nat.le_refl _), Nat.sub_self]
  rfl

/-- the cells used by the second loop -/
abbrev cells (f p g a b c d : List α) : Heap α := [f, p, g, a, b, c, d]

theorem segmentPulseH_run (h : Heap α) (L : List (Operation α)) (P : List (α × α)) (g : List α)
    {i j : Nat} {o : Operation α} {p : α × α} (ho : L[i]? = some o) (hp : P[i]? = some p)
    {A1 A2 A3 A4 z1 z2 z3 z4 : List α} (h1 : A1.length = j) (h2 : A2.length = j)
    (h3 : A3.length = j) (h4 : A4.length = j) :
    segmentPulseH h.length (h.length + 1)
      ⟨h.length + 3, h.length + 4, h.length + 5, h.length + 6⟩ L.length i j
      (h ++ cells (flatOps L) (flatPairs P) g (A1 ++ lit 0 :: z1) (A2 ++ lit 0 :: z2)
        (A3 ++ lit 0 :: z3) (A4 ++ lit 0 :: z4)) =
      (.ok (), h ++ cells (flatOps L) (flatPairs P) g (A1 ++ (pulseSegment o p).rabi :: z1)
        (A2 ++ (pulseSegment o p).azimuthal :: z2) (A3 ++ (pulseSegment o p).detuning :: z3)
        (A4 ++ (pulseSegment o p).duration :: z4)) := by
  obtain ⟨s, e⟩ := p
  obtain ⟨-, g1, g2, g3⟩ := flatOps_get ho
  have hp' := flatPairs_get hp
  unfold segmentPulseH pulseSegment
  rw [bind_getItem_at (xs := flatPairs P) (x := e) _ rfl hp'.2,
    bind_getItem_at (xs := flatPairs P) (x := s) _ rfl hp'.1]
  simp only
  rw [bind_setItem_at (xs := A4 ++ lit 0 :: z4) _ _ rfl (by simp; omega), set_slot h4]
  simp only [List.set]
  cases gt (e - s) (lit 0) with
  | false => rfl
  | true =>
    simp only [if_true]
    rw [bind_getItem_new (xs := flatOps L) (x := o.rabi) _ g1]
    cases isClose o.rabi (lit 0) with
    | false =>
      simp only [Bool.not_false, if_true]
      rw [bind_setItem_at (xs := A1 ++ lit 0 :: z1) _ _ rfl (by simp; omega), set_slot h1,
        show ∀ (x : List α), (h ++ [flatOps L, flatPairs P, g, A1 ++ lit 0 :: z1, A2 ++ lit 0 :: z2,
          A3 ++ lit 0 :: z3, A4 ++ (e - s) :: z4].set 3 x) = h ++ flatOps L :: [flatPairs P, g, x,
          A2 ++ lit 0 :: z2, A3 ++ lit 0 :: z3, A4 ++ (e - s) :: z4] from fun _ => rfl,
        bind_getItem_new (xs := flatOps L) (x := o.azimuthal) _ g2,
        setItem_at (xs := A2 ++ lit 0 :: z2) _ rfl (by simp; omega), set_slot h2]
      rfl
    | true =>
      simp only [Bool.not_true, Bool.false_eq_true, if_false]
      rw [bind_getItem_new (xs := flatOps L) (x := o.detuning) _ g3]
      cases isClose o.detuning (lit 0) with
      | false =>
        simp only [Bool.not_false, if_true]
        rw [setItem_at (xs := A3 ++ lit 0 :: z3) _ rfl (by simp; omega), set_slot h3]
        rfl
      | true => rfl

theorem set_slot' {A : List α} {j : Nat} (hA : A.length = j) (x a : α) (z : List α) (y : α) :
    (A ++ x :: a :: z).set (j + 1) y = A ++ x :: y :: z := by
  have := set_slot (A := A ++ [x]) (j := j + 1) (by simp [hA]) a z y
  simpa using this

theorem segmentGapH_run (h : Heap α) (f : List α) (P : List (α × α)) (g : List α)
    {n i j : Nat} {p p' : α × α} (hn : i ≠ n - 1) (hp : P[i]? = some p)
    (hp' : P[i + 1]? = some p') {A1 A2 A3 A4 z1 z2 z3 z4 : List α} (x1 x2 x3 x4 : α)
    (h1 : A1.length = j) (h2 : A2.length = j) (h3 : A3.length = j) (h4 : A4.length = j) :
    segmentGapH (h.length + 1)
      ⟨h.length + 3, h.length + 4, h.length + 5, h.length + 6⟩ n i j
      (h ++ cells f (flatPairs P) g (A1 ++ x1 :: lit 0 :: z1) (A2 ++ x2 :: lit 0 :: z2)
        (A3 ++ x3 :: lit 0 :: z3) (A4 ++ x4 :: lit 0 :: z4)) =
      (.ok (), h ++ cells f (flatPairs P) g (A1 ++ x1 :: lit 0 :: z1) (A2 ++ x2 :: lit 0 :: z2)
        (A3 ++ x3 :: lit 0 :: z3) (A4 ++ x4 :: (p'.1 - p.2) :: z4)) := by
  have q := flatPairs_get hp
  have q' := flatPairs_get hp'
  unfold segmentGapH
  rw [if_pos (by simpa using hn)]
  rw [bind_setItem_at (xs := A1 ++ x1 :: lit 0 :: z1) _ _ rfl (by simp; omega), set_slot' h1]
  simp only [List.set]
  rw [bind_setItem_at (xs := A2 ++ x2 :: lit 0 :: z2) _ _ rfl (by simp; omega), set_slot' h2]
  simp only [List.set]
  rw [bind_setItem_at (xs := A3 ++ x3 :: lit 0 :: z3) _ _ rfl (by simp; omega), set_slot' h3]
  simp only [List.set]
  rw [bind_getItem_at (xs := flatPairs P) (x := p'.1) _ rfl q'.1,
    bind_getItem_at (xs := flatPairs P) (x := p.2) _ rfl q.2,
    setItem_at (xs := A4 ++ x4 :: lit 0 :: z4) _ rfl (by simp; omega), set_slot' h4]
  rfl

theorem segmentGapH_last (h : Heap α) (r : Nat) (c : ControlArrays) (n i j : Nat)
    (hn : i = n - 1) : segmentGapH r c n i j h = (.ok (), h) := by
  unfold segmentGapH
  rw [if_neg (by simpa using hn)]
  rfl

theorem segmentLoop_run (h : Heap α) (g : List α) (Z : List (Operation α × (α × α))) :
    ∀ (rest done : List (Operation α × (α × α))) (S : List (Segment α)), Z = done ++ rest →
    S.length = 2 * done.length →
    segmentLoop h.length (h.length + 1)
      ⟨h.length + 3, h.length + 4, h.length + 5, h.length + 6⟩ Z.length done.length
      (2 * done.length) rest.length
      (h ++ cells (flatOps (Z.map Prod.fst)) (flatPairs (Z.map Prod.snd)) g
        (S.map Segment.rabi ++ List.replicate (rest.length * 2) (lit 0))
        (S.map Segment.azimuthal ++ List.replicate (rest.length * 2) (lit 0))
        (S.map Segment.detuning ++ List.replicate (rest.length * 2) (lit 0))
        (S.map Segment.duration ++ List.replicate (rest.length * 2) (lit 0))) =
      (.ok (), h ++ cells (flatOps (Z.map Prod.fst)) (flatPairs (Z.map Prod.snd)) g
        ((S ++ buildSegments rest).map Segment.rabi)
        ((S ++ buildSegments rest).map Segment.azimuthal)
        ((S ++ buildSegments rest).map Segment.detuning)
        ((S ++ buildSegments rest).map Segment.duration))
  | [], done, S, hZ, hS => by
    simp [segmentLoop, pure_apply, buildSegments]
  | (o, p) :: rest, done, S, hZ, hS => by
    have ho : (Z.map Prod.fst)[done.length]? = some o := by subst hZ; simp
    have hp : (Z.map Prod.snd)[done.length]? = some p := by subst hZ; simp
    have hz : List.replicate (((o, p) :: rest).length * 2) (lit 0 : α) =
        lit 0 :: lit 0 :: List.replicate (rest.length * 2) (lit 0) := by
      rw [List.length_cons, show (rest.length + 1) * 2 = rest.length * 2 + 2 by omega]
      rfl
    have e1 := segmentPulseH_run h (Z.map Prod.fst) (Z.map Prod.snd) g ho hp
      (j := 2 * done.length) (A1 := S.map Segment.rabi) (A2 := S.map Segment.azimuthal)
      (A3 := S.map Segment.detuning) (A4 := S.map Segment.duration)
      (z1 := lit 0 :: List.replicate (rest.length * 2) (lit 0))
      (z2 := lit 0 :: List.replicate (rest.length * 2) (lit 0))
      (z3 := lit 0 :: List.replicate (rest.length * 2) (lit 0))
      (z4 := lit 0 :: List.replicate (rest.length * 2) (lit 0))
      (by simp [hS]) (by simp [hS]) (by simp [hS]) (by simp [hS])
    rw [List.length_map] at e1
    rw [hz]
    show (segmentPulseH _ _ _ _ _ _ >>= fun _ => _ >>= fun _ => _) _ = _
    rw [bind_ok e1]
    cases rest with
    | nil =>
      rw [bind_ok (segmentGapH_last _ _ _ _ _ _ (by subst hZ; simp))]
      simp [segmentLoop, pure_apply, buildSegments]
    | cons q rest =>
      obtain ⟨o', p'⟩ := q
      have hp' : (Z.map Prod.snd)[done.length + 1]? = some p' := by subst hZ; simp
      rw [bind_ok (segmentGapH_run h (flatOps (Z.map Prod.fst)) (Z.map Prod.snd) g
        (by subst hZ; simp) hp hp'
        (pulseSegment o p).rabi (pulseSegment o p).azimuthal (pulseSegment o p).detuning
        (pulseSegment o p).duration (by simp [hS]) (by simp [hS]) (by simp [hS]) (by simp [hS]))]
      have ih := segmentLoop_run h g Z ((o', p') :: rest) (done ++ [(o, p)])
        (S ++ [pulseSegment o p, ⟨lit 0, lit 0, lit 0, p'.1 - p.2⟩]) (by simp [hZ])
        (by simp [hS]; omega)
      simp only [List.length_append, List.length_singleton, List.map_append, List.map_cons,
        List.map_nil, List.append_assoc, List.cons_append, List.nil_append, Nat.mul_add,
        Nat.mul_one] at ih ⊢
      simp only [List.map_append, buildSegments, List.map_cons]
      exact ih

theorem selectPositive_map (f : Segment α → α) (S : List (Segment α)) :
    selectPositive (S.map f) (S.map Segment.duration) =
      (S.filter fun g => gt g.duration (lit 0)).map f := by
  unfold selectPositive
  induction S with
  | nil => rfl
  | cons s S ih =>
    simp only [List.map_cons, List.zip_cons_cons, List.filter_cons]
    split
    · rw [List.map_cons, ih]; rfl
    · exact ih

/-- the result of a conversion: outcome of the value-level model, existing arrays untouched, and a
control made of new arrays, all different -/
structure FreshRun (h : Heap α) (run : Except PyErr ControlObj × Heap α)
    (m : Except PyErr (DrivenControl α)) : Prop where
  ext : ∃ e, run.2 = h ++ e
  value : run.1.map (ControlObj.value run.2) = m
  fresh : ∀ o, run.1 = .ok o → (∀ r ∈ o.refs, h.length ≤ r ∧ r < run.2.length) ∧ o.refs.Nodup

theorem FreshRun.mono {h e : Heap α} {run : Except PyErr ControlObj × Heap α}
    {m : Except PyErr (DrivenControl α)} (hr : FreshRun (h ++ e) run m) : FreshRun h run m := by
  obtain ⟨⟨e', he'⟩, hv, hf⟩ := hr
  refine ⟨⟨e ++ e', by rw [he', List.append_assoc]⟩, hv, fun o ho => ⟨fun r hr => ?_, (hf o ho).2⟩⟩
  have := (hf o ho).1 r hr
  rw [List.length_append] at this
  omega

theorem FreshRun.error {h : Heap α} (e : Heap α) (x : PyErr) :
    FreshRun h (.error x, h ++ e) (.error x) :=
  ⟨⟨e, rfl⟩, rfl, fun o h => by simp at h⟩

theorem bind_maskH {γ : Type} {h e : Heap α} {k k' : Nat} {S : List (Segment α)}
    (f : Segment α → α) (F : Nat → PyM α γ) (h1 : e[k]? = some (S.map f))
    (h2 : e[k']? = some (S.map Segment.duration)) :
    (maskH (h.length + k) (h.length + k') >>= F) (h ++ e) =
      F (h.length + e.length)
        (h ++ (e ++ [(S.filter fun g => gt g.duration (lit 0)).map f])) := by
  unfold maskH
  have : ((load (h.length + k) >>= fun xs => load (h.length + k') >>= fun m =>
      alloc (selectPositive xs m)) : PyM α Nat) (h ++ e) = (.ok (h.length + e.length),
      h ++ (e ++ [(S.filter fun g => gt g.duration (lit 0)).map f])) := by
    rw [bind_load, bind_load, items_at h e k _ h1, items_at h e k' _ h2, selectPositive_map]
    unfold alloc
    rw [List.length_append, List.append_assoc]
  exact bind_ok this

theorem fillControlH_run (h : Heap α) (g : List α) (Z : List (Operation α × (α × α)))
    (name : Option String) :
    FreshRun h (fillControlH h.length (h.length + 1) Z.length name
      (h ++ [flatOps (Z.map Prod.fst), flatPairs (Z.map Prod.snd), g]))
      (DrivenControl.new
        (((buildSegments Z).filter fun g => gt g.duration (lit 0)).map Segment.duration)
        (some (((buildSegments Z).filter fun g => gt g.duration (lit 0)).map Segment.rabi))
        (some (((buildSegments Z).filter fun g => gt g.duration (lit 0)).map Segment.azimuthal))
        (some (((buildSegments Z).filter fun g => gt g.duration (lit 0)).map Segment.detuning))
        name) := by
  have e1 := segmentLoop_run h g Z Z [] [] rfl rfl
  simp only [List.map_nil, List.nil_append, List.length_nil, Nat.mul_zero] at e1
  unfold fillControlH
  rw [bind_alloc, bind_alloc, bind_alloc, bind_alloc]
  simp only [List.length_append, List.length_cons, List.length_nil, List.append_assoc,
    List.cons_append, List.nil_append, Nat.add_assoc, Nat.zero_add, Nat.reduceAdd]
  rw [bind_ok e1]
  rw [bind_maskH (k := 3) (k' := 6) (S := buildSegments Z) Segment.rabi _ rfl rfl,
    bind_maskH (k := 4) (k' := 6) (S := buildSegments Z) Segment.azimuthal _ rfl rfl,
    bind_maskH (k := 5) (k' := 6) (S := buildSegments Z) Segment.detuning _ rfl rfl,
    bind_maskH (k := 6) (k' := 6) (S := buildSegments Z) Segment.duration _ rfl rfl]
  simp only [List.length_append, List.length_cons, List.length_nil, List.append_assoc,
    List.cons_append, List.nil_append, Nat.reduceAdd]
  generalize hF : ((buildSegments Z).filter fun g => gt g.duration (lit 0)) = F
  generalize he : ([flatOps (Z.map Prod.fst), flatPairs (Z.map Prod.snd), g,
    (buildSegments Z).map Segment.rabi, (buildSegments Z).map Segment.azimuthal,
    (buildSegments Z).map Segment.detuning, (buildSegments Z).map Segment.duration,
    F.map Segment.rabi, F.map Segment.azimuthal, F.map Segment.detuning,
    F.map Segment.duration] : Heap α) = e
  have hl : e.length = 11 := by rw [← he]; rfl
  have i7 := items_at h e 7 (F.map Segment.rabi) (by rw [← he]; rfl)
  have i8 := items_at h e 8 (F.map Segment.azimuthal) (by rw [← he]; rfl)
  have i9 := items_at h e 9 (F.map Segment.detuning) (by rw [← he]; rfl)
  have i10 := items_at h e 10 (F.map Segment.duration) (by rw [← he]; rfl)
  have key := newControlH_run (.array (h.length + 10)) (some (.array (h.length + 7)))
    (some (.array (h.length + 8))) (some (.array (h.length + 9))) name (h ++ e)
    (by intro r hr; cases hr; simp [hl])
    (by intro x hx; cases hx; intro r hr; cases hr; simp [hl])
    (by intro x hx; cases hx; intro r hr; cases hr; simp [hl])
    (by intro x hx; cases hx; intro r hr; cases hr; simp [hl])
  simp only [Arg.items, optItems, Option.map_some, i7, i8, i9, i10] at key
  obtain ⟨⟨⟨e', he'⟩, hv, hval⟩, hfield⟩ := key
  refine ⟨⟨e ++ e', by rw [he', List.append_assoc]⟩, hv, fun o ho => ?_⟩
  obtain ⟨f1, f2, f3, f4, hn⟩ := hfield o ho
  refine ⟨fun r hr => ⟨?_, hval o ho r hr⟩, hn (by simp [Arg.ref?])⟩
  have := f1.1 _ rfl; have := f2.1 _ rfl; have := f3.1 _ rfl; have := f4.1 _ rfl
  simp only [ControlObj.refs, List.mem_cons, List.not_mem_nil, or_false] at hr
  omega

theorem shiftFirst_length (ps : List (α × α)) : (shiftFirst ps).length = ps.length := by
  cases ps with
  | nil => rfl
  | cons p ps =>
    obtain ⟨s, e⟩ := p
    simp only [shiftFirst]
    split <;> rfl

theorem shiftLast_length (T : α) : ∀ ps : List (α × α), (shiftLast T ps).length = ps.length
  | [] => rfl
  | [(s, e)] => by unfold shiftLast; split <;> rfl
  | p :: q :: r => by
    unfold shiftLast
    rw [List.length_cons, shiftLast_length T (q :: r)]
    rfl

theorem convertOperationsH_run {h : Heap α} {a : OpArrays} {L : List (Operation α)}
    (hc : Cols h a L) (hL : L ≠ []) (T Ωm Δm tm : α) (name : Option String) (P : List (α × α))
    (hP : P = shiftLast T (shiftFirst (L.map (pulseStartEnd Ωm Δm tm)))) :
    FreshRun h (convertOperationsH T a L.length Ωm Δm tm name h)
      (if !(gapDurations P).all (fun g => gt g tm || isClose g tm) then
         .error (.arguments "Distance between pulses does not respect minimum_segment_duration.")
       else if P.all (fun p => isClose p.1 (lit 0) && isClose p.2 (lit 0)) then
         DrivenControl.new [T] (some [lit 0]) (some [lit 0]) (some [lit 0]) name
       else
         DrivenControl.new
           (((buildSegments (L.zip P)).filter fun g => gt g.duration (lit 0)).map Segment.duration)
           (some (((buildSegments (L.zip P)).filter fun g => gt g.duration (lit 0)).map Segment.rabi))
           (some (((buildSegments (L.zip P)).filter fun g => gt g.duration (lit 0)).map
             Segment.azimuthal))
           (some (((buildSegments (L.zip P)).filter fun g => gt g.duration (lit 0)).map
             Segment.detuning)) name) := by
  have hlen : P.length = L.length := by
    rw [hP, shiftLast_length, shiftFirst_length, List.length_map]
  have hrun : ∀ (F : Unit → PyM α ControlObj),
      (forFrom (startEndBody Ωm Δm tm h.length (h.length + 1) L.length) 0 L.length >>= fun _ =>
        shiftFirstH (h.length + 1) >>= fun _ => shiftLastH (h.length + 1) L.length T >>= F)
        (h ++ [flatOps L, List.replicate (L.length * 2) (lit 0)]) =
      F () (h ++ [flatOps L, flatPairs P]) := by
    intro F
    have l1 := startEndLoop_run Ωm Δm tm h L L [] rfl
    simp only [List.map_nil, flatPairs, List.nil_append, List.length_nil] at l1
    rw [bind_ok l1]
    obtain ⟨o, L', rfl⟩ : ∃ o L', L = o :: L' := by
      cases L with
      | nil => exact absurd rfl hL
      | cons o L' => exact ⟨o, L', rfl⟩
    have l2 := shiftFirstH_run h (flatOps (o :: L')) (pulseStartEnd Ωm Δm tm o)
      (L'.map (pulseStartEnd Ωm Δm tm))
    rw [← List.map_cons] at l2
    rw [bind_ok l2]
    have hne : shiftFirst ((o :: L').map (pulseStartEnd Ωm Δm tm)) ≠ [] := by
      intro h0
      have := congrArg List.length h0
      rw [shiftFirst_length] at this
      simp at this
    have l3 := shiftLastH_run h (flatOps (o :: L')) T _ hne
    rw [shiftFirst_length, List.length_map] at l3
    rw [bind_ok l3, hP]
  unfold convertOperationsH
  rw [bind_ok (concatenateH_run hc), bind_alloc]
  simp only [List.length_append, List.length_singleton, List.append_assoc, List.cons_append,
    List.nil_append]
  rw [hrun, bind_load, items_at h _ 1 _ rfl, bind_alloc, bind_load, items_new, ← hlen,
    gapsOf_flatPairs, all_flatPairs, hlen]
  cases hb : (gapDurations P).all (fun g => gt g tm || isClose g tm) with
  | false =>
    simp only [Bool.not_false, if_true]
    have := FreshRun.error (h := h) ([flatOps L, flatPairs P] ++ [gapDurations P])
      (.arguments "Distance between pulses does not respect minimum_segment_duration.")
    rw [← List.append_assoc] at this
    exact this
  | true =>
    simp only [Bool.not_true, Bool.false_eq_true, if_false]
    cases hb2 : P.all (fun p => isClose p.1 (lit 0) && isClose p.2 (lit 0)) with
    | true =>
      simp only [if_true]
      have key := newControlH_run (.list [T]) (some (.list [lit 0])) (some (.list [lit 0]))
        (some (.list [lit 0])) name (h ++ [flatOps L, flatPairs P] ++ [gapDurations P])
        (by intro r hr; cases hr) (by intro x hx; cases hx; intro r hr; cases hr)
        (by intro x hx; cases hx; intro r hr; cases hr)
        (by intro x hx; cases hx; intro r hr; cases hr)
      obtain ⟨⟨⟨e', he'⟩, hv, hval⟩, hfield⟩ := key
      rw [List.append_assoc] at *
      refine FreshRun.mono (e := [flatOps L, flatPairs P] ++ [gapDurations P])
        ⟨⟨e', he'⟩, hv, fun o ho => ?_⟩
      obtain ⟨f1, f2, f3, f4, hn⟩ := hfield o ho
      refine ⟨fun r hr => ⟨?_, hval o ho r hr⟩, hn List.nodup_nil⟩
      have := f1.2 rfl; have := f2.2 rfl; have := f3.2 rfl; have := f4.2 rfl
      simp only [ControlObj.refs, List.mem_cons, List.not_mem_nil, or_false] at hr
      omega
    | false =>
      simp only [Bool.false_eq_true, if_false]
      have key := fillControlH_run h (gapDurations P) (L.zip P) name
      rw [List.length_zip, hlen, Nat.min_self, List.map_fst_zip (by omega),
        List.map_snd_zip (by omega)] at key
      rw [List.append_assoc]
      exact key

theorem operationsOf_cols : ∀ (o r p d : List α), r.length = o.length → p.length = o.length →
    d.length = o.length →
    (operationsOf o r p d).map Operation.offset = o ∧ (operationsOf o r p d).map Operation.rabi = r ∧
    (operationsOf o r p d).map Operation.azimuthal = p ∧
    (operationsOf o r p d).map Operation.detuning = d
  | [], [], [], [], _, _, _ => by simp [operationsOf]
  | o :: os, r :: rs, p :: ps, d :: ds, h1, h2, h3 => by
    have := operationsOf_cols os rs ps ds (by simpa using h1) (by simpa using h2) (by simpa using h3)
    simp [operationsOf, this]
  | [], _ :: _, _, _, h1, _, _ => by simp at h1
  | [], [], _ :: _, _, _, h2, _ => by simp at h2
  | [], [], [], _ :: _, _, _, h3 => by simp at h3
  | _ :: _, [], _, _, h1, _, _ => by simp at h1
  | _ :: _, _ :: _, [], _, _, h2, _ => by simp at h2
  | _ :: _, _ :: _, _ :: _, [], _, _, h3 => by simp at h3

theorem FreshRun.error' {h : Heap α} (x : PyErr) : FreshRun h (.error x, h) (.error x) :=
  ⟨⟨[], by simp⟩, rfl, fun o h => by simp at h⟩

theorem pad_run {γ : Type} {h : Heap α} {a : OpArrays} {L : List (Operation α)} (hc : Cols h a L)
    (T : α) : ∃ a' e, (∀ F : OpArrays → PyM α γ,
      (padEmptyH T a >>= fun a => padFrontH a >>= fun a => padBackH T a >>= F) h = F a' (h ++ e)) ∧
      Cols (h ++ e) a' (padOperations T L) ∧ padOperations T L ≠ [] := by
  obtain ⟨a1, e1, w1, c1⟩ := padEmptyH_run hc T
  have hne : ∃ o L1, (if L.isEmpty then [idleAt (lit 0), idleAt T] else L) = o :: L1 := by
    cases L with
    | nil => exact ⟨_, _, rfl⟩
    | cons o L => exact ⟨o, L, rfl⟩
  obtain ⟨o, L1, hL1⟩ := hne
  rw [hL1] at c1
  obtain ⟨a2, e2, w2, c2⟩ := padFrontH_run c1
  generalize hL2 : (if ne o.offset (lit 0) then idleAt (lit 0) :: o :: L1 else o :: L1) = L2 at c2
  have hne2 : L2 ≠ [] := by rw [← hL2]; split <;> simp
  obtain ⟨a3, e3, w3, c3⟩ := padBackH_run c2 T (List.getLast?_eq_some_getLast hne2)
  have hpad : padOperations T L = if ne (L2.getLast hne2).offset T then L2 ++ [idleAt T] else L2 := by
    simp only [padOperations, hL1, hL2, List.getLast?_eq_some_getLast hne2]
  refine ⟨a3, e1 ++ (e2 ++ e3), fun F => ?_, ?_, ?_⟩
  · rw [bind_ok w1, bind_ok w2, bind_ok w3, ← List.append_assoc, ← List.append_assoc]
  · rw [hpad, ← List.append_assoc, ← List.append_assoc]; exact c3
  · rw [hpad]; split <;> simp [hne2]

/-- The statement-level conversion of a sequence object whose arrays exist and have equal lengths. -/
theorem convertH_run (h : Heap α) (s : SequenceObj α) (hs : ∀ r ∈ s.refs, r < h.length)
    (h1 : (h.items s.rabiRotations).length = (h.items s.offsets).length)
    (h2 : (h.items s.azimuthalAngles).length = (h.items s.offsets).length)
    (h3 : (h.items s.detuningRotations).length = (h.items s.offsets).length)
    (Ωm Δm tm : α) (name : Option String) :
    FreshRun h (convertH s Ωm Δm tm name h) (convertDDS (s.value h) Ωm Δm tm name) := by
  rw [convertDDS_eq]
  unfold convertH
  simp only [SequenceObj.value]
  cases b1 : gt Δm (lit 0) with
  | false => rw [bind_check_false rfl]; exact FreshRun.error' _
  | true =>
  rw [bind_check_true rfl]
  cases b2 : gt Ωm (lit 0) with
  | false => rw [bind_check_false rfl]; exact FreshRun.error' _
  | true =>
  rw [bind_check_true rfl]
  cases b3 : ge tm (lit 0) with
  | false => rw [bind_check_false rfl]; exact FreshRun.error' _
  | true =>
  rw [bind_check_true rfl, bind_load]
  cases b4 : ((h.items s.rabiRotations).all fun r => ge r (lit 0)) with
  | false => rw [bind_check_false rfl]; exact FreshRun.error' _
  | true =>
  rw [bind_check_true rfl, bind_load]
  cases b5 : checkValidOperation (h.items s.rabiRotations) (h.items s.detuningRotations) with
  | false => rw [bind_check_false rfl]; exact FreshRun.error' _
  | true =>
  rw [bind_check_true rfl]
  have hitems : ∀ r ∈ s.refs, h[r]? = some (h.items r) := by
    intro r hr
    have := hs r hr
    simp [Heap.items, List.getElem?_eq_getElem this]
  obtain ⟨q1, q2, q3, q4⟩ := operationsOf_cols _ _ _ _ h1 h2 h3
  have hc : Cols h ⟨s.offsets, s.rabiRotations, s.azimuthalAngles, s.detuningRotations⟩
      (operationsOf (h.items s.offsets) (h.items s.rabiRotations) (h.items s.azimuthalAngles)
        (h.items s.detuningRotations)) := by
    constructor
    · rw [q1]; exact hitems _ (by simp [SequenceObj.refs])
    · rw [q2]; exact hitems _ (by simp [SequenceObj.refs])
    · rw [q3]; exact hitems _ (by simp [SequenceObj.refs])
    · rw [q4]; exact hitems _ (by simp [SequenceObj.refs])
  obtain ⟨a', e, hrun, hc', hne⟩ := pad_run (γ := ControlObj) hc s.duration
  rw [hrun, bind_load, items_of_some hc'.offsets]
  cases b6 : (npDiff ((padOperations s.duration (operationsOf (h.items s.offsets)
      (h.items s.rabiRotations) (h.items s.azimuthalAngles)
      (h.items s.detuningRotations))).map Operation.offset)).any (fun d => le d (lit 0)) with
  | true => exact FreshRun.error e _
  | false =>
    have key := (convertOperationsH_run hc' hne s.duration Ωm Δm tm name _ rfl).mono
    simp only [Bool.false_eq_true, if_false, List.length_map, Bool.not_false]
    refine Eq.subst (motive := fun m => FreshRun h _ m) ?_ key
    simp only [checkArguments_bind]
    simp only [if_true]
    cases hg : (gapDurations (shiftLast s.duration (shiftFirst (List.map (pulseStartEnd Ωm Δm tm)
      (padOperations s.duration (operationsOf (h.items s.offsets) (h.items s.rabiRotations)
        (h.items s.azimuthalAngles) (h.items s.detuningRotations))))))).all
          (fun g => gt g tm || isClose g tm) with
    | false => rfl
    | true => rfl

end OpenControls
