import Verif.Spec.Broadcast
import Verif.Proofs.Shapes

/-!
# Lemmas about broadcasting
-/

namespace OpenControls

open PyFloat Py Spec NdArray

set_option linter.unusedSectionVars false

variable {α : Type} [Add α] [Sub α] [Mul α] [Div α] [Neg α] [PyFloat α]

/-! ## Shapes, last axis first -/

/-- `Fits` with the last axis first -/
def FitsR : List ℕ → List ℕ → Prop
  | [], _ => True
  | _ :: _, [] => False
  | a :: s, b :: S => (a = b ∨ a = 1) ∧ FitsR s S

theorem fitsR_iff (s S : List ℕ) :
    FitsR s S ↔ ∃ t extra, S = t ++ extra ∧ List.Forall₂ (fun a b => a = b ∨ a = 1) s t := by
  induction s generalizing S with
  | nil =>
    refine ⟨fun _ => ⟨[], S, rfl, .nil⟩, fun _ => by cases S <;> trivial⟩
  | cons a s ih =>
    cases S with
    | nil =>
      refine ⟨fun h => h.elim, ?_⟩
      rintro ⟨t, extra, h1, h2⟩
      cases h2
      simp at h1
    | cons b S =>
      constructor
      · rintro ⟨h1, h2⟩
        obtain ⟨t, extra, rfl, h3⟩ := (ih S).mp h2
        exact ⟨b :: t, extra, rfl, .cons h1 h3⟩
      · rintro ⟨t, extra, h1, h2⟩
        cases h2 with
        | cons h3 h4 =>
          rw [List.cons_append, List.cons.injEq] at h1
          obtain ⟨rfl, rfl⟩ := h1
          exact ⟨h3, (ih _).mpr ⟨_, _, rfl, h4⟩⟩

theorem fits_iff (s S : List ℕ) : Fits s S ↔ FitsR s.reverse S.reverse := by
  rw [fitsR_iff]
  constructor
  · rintro ⟨extra, t, rfl, h⟩
    exact ⟨t.reverse, extra.reverse, List.reverse_append, List.forall₂_reverse_iff.mpr h⟩
  · rintro ⟨t, extra, h1, h2⟩
    refine ⟨extra.reverse, t.reverse, ?_, ?_⟩
    · rw [← List.reverse_append, ← h1, List.reverse_reverse]
    · rw [← List.forall₂_reverse_iff, List.reverse_reverse]; exact h2

theorem FitsR.refl (S : List ℕ) : FitsR S S := by
  induction S with
  | nil => trivial
  | cons a S ih => exact ⟨.inl rfl, ih⟩

theorem FitsR.trans {s t u : List ℕ} (h : FitsR s t) (h' : FitsR t u) : FitsR s u := by
  induction s generalizing t u with
  | nil => cases u <;> trivial
  | cons a s ih =>
    cases t with
    | nil => exact h.elim
    | cons b t =>
      cases u with
      | nil => exact h'.elim
      | cons c u =>
        refine ⟨?_, ih h.2 h'.2⟩
        rcases h.1 with rfl | rfl
        · exact h'.1
        · exact .inr rfl

theorem FitsR.antisymm {s t : List ℕ} (h : FitsR s t) (h' : FitsR t s) : s = t := by
  induction s generalizing t with
  | nil =>
    cases t with
    | nil => rfl
    | cons b t => exact h'.elim
  | cons a s ih =>
    cases t with
    | nil => exact h.elim
    | cons b t =>
      rw [ih h.2 h'.2]
      congr 1
      rcases h.1 with h1 | h1
      · exact h1
      · rcases h'.1 with h2 | h2
        · exact h2.symm
        · exact h1.trans h2.symm

theorem broadcast_fits {s t u : List ℕ} (h : broadcast s t = some u) : FitsR s u ∧ FitsR t u := by
  induction s generalizing t u with
  | nil =>
    cases t <;> simp only [broadcast, Option.some.injEq] at h <;> subst h
    · exact ⟨trivial, trivial⟩
    · exact ⟨trivial, FitsR.refl _⟩
  | cons a s ih =>
    cases t with
    | nil =>
      simp only [broadcast, Option.some.injEq] at h
      subst h
      exact ⟨FitsR.refl _, trivial⟩
    | cons b t =>
      rw [broadcast] at h
      split_ifs at h with h1 h2 h3
      all_goals
        obtain ⟨v, hv, rfl⟩ := Option.map_eq_some_iff.mp h
        obtain ⟨i1, i2⟩ := ih hv
      · exact ⟨⟨.inl rfl, i1⟩, ⟨.inl h1.symm, i2⟩⟩
      · exact ⟨⟨.inr h2, i1⟩, ⟨.inl rfl, i2⟩⟩
      · exact ⟨⟨.inl rfl, i1⟩, ⟨.inr h3, i2⟩⟩

theorem broadcast_least {s t S : List ℕ} (h1 : FitsR s S) (h2 : FitsR t S) :
    ∃ u, broadcast s t = some u ∧ FitsR u S := by
  induction s generalizing t S with
  | nil => exact ⟨t, by cases t <;> rfl, h2⟩
  | cons a s ih =>
    cases t with
    | nil => exact ⟨_, rfl, h1⟩
    | cons b t =>
      cases S with
      | nil => exact h1.elim
      | cons c S =>
        obtain ⟨u, hu, hS⟩ := ih h1.2 h2.2
        rw [broadcast]
        by_cases hab : a = b
        · rw [if_pos hab, hu]
          exact ⟨_, rfl, h1.1, hS⟩
        · rw [if_neg hab]
          by_cases ha : a = 1
          · rw [if_pos ha, hu]
            exact ⟨_, rfl, h2.1, hS⟩
          · rw [if_neg ha]
            have hac : a = c := h1.1.resolve_right ha
            have hb : b = 1 := h2.1.resolve_left fun h => hab (hac.trans h.symm)
            rw [if_pos hb, hu]
            exact ⟨_, rfl, h1.1, hS⟩

/-! ## Places -/

/-- a multi-index of a shape, last axis first -/
def Within (index S : List ℕ) : Prop := List.Forall₂ (· < ·) index S

theorem unravel_within {S : List ℕ} {m : ℕ} (h : m < S.prod) : Within (unravel S m) S := by
  induction S generalizing m with
  | nil => exact .nil
  | cons a S ih =>
    rw [List.prod_cons] at h
    have ha : 0 < a := Nat.pos_of_ne_zero fun h0 => by simp [h0] at h
    exact .cons (Nat.mod_lt _ ha) (ih (Nat.div_lt_of_lt_mul h))

theorem ravel_lt {s S index : List ℕ} (h : FitsR s S) (hi : Within index S) : ravel s index < s.prod := by
  induction s generalizing S index with
  | nil => simp [ravel]
  | cons a s ih =>
    cases S with
    | nil => exact h.elim
    | cons b S =>
      cases hi with
      | @cons i _ j _ h1 h2 =>
        have := ih h.2 h2
        rw [ravel, List.prod_cons]
        have hx : (if a = 1 then 0 else i) < a := by
          rcases h.1 with rfl | rfl
          · split
            · omega
            · exact h1
          · simp
        have h3 : a * (ravel s j + 1) ≤ a * s.prod := Nat.mul_le_mul_left _ this
        rw [mul_add, mul_one] at h3
        omega

theorem ravel_unravel {s u S index : List ℕ} (h : FitsR s u) (h' : FitsR u S) (hi : Within index S) :
    ravel s (unravel u (ravel u index)) = ravel s index := by
  induction u generalizing s S index with
  | nil =>
    cases s with
    | nil => rfl
    | cons a s => exact h.elim
  | cons b u ih =>
    cases S with
    | nil => exact h'.elim
    | cons c S =>
      cases hi with
      | @cons i _ j _ h1 h2 =>
        cases s with
        | nil => rfl
        | cons a s =>
          have hx : (if b = 1 then 0 else i) < b := by
            rcases h'.1 with rfl | rfl
            · split
              · omega
              · exact h1
            · simp
          rw [ravel, unravel, Nat.add_mul_mod_self_left, Nat.mod_eq_of_lt hx,
            Nat.add_mul_div_left _ _ (by omega), Nat.div_eq_of_lt hx, zero_add, ravel, ravel,
            ih h.2 h'.2 h2]
          congr 1
          rcases h.1 with rfl | rfl
          · split <;> rfl
          · simp

theorem ravel_self {S : List ℕ} {m : ℕ} (h : m < S.prod) : ravel S (unravel S m) = m := by
  induction S generalizing m with
  | nil => simp at h; simp [ravel, unravel, h]
  | cons a S ih =>
    rw [List.prod_cons] at h
    have ha : 0 < a := Nat.pos_of_ne_zero fun h0 => by simp [h0] at h
    rw [unravel, ravel, ih (Nat.div_lt_of_lt_mul h)]
    have : (if a = 1 then 0 else m % a) = m % a := by
      split
      · subst_vars; omega
      · rfl
    rw [this]
    exact Nat.mod_add_div m a

/-! ## Stretching -/

/-- `stretchTo` by places -/
def spread (a : NdArray α) (S : List ℕ) : List α :=
  (List.range S.prod).filterMap fun m => a.data[ravel a.shape.reverse (unravel S m)]?

theorem spread_spec {a : NdArray α} (ha : Regular a) {S : List ℕ} (h : FitsR a.shape.reverse S) :
    (spread a S).length = S.prod ∧ ∀ m < S.prod,
      (spread a S)[m]? = a.data[ravel a.shape.reverse (unravel S m)]? := by
  refine filterMap_range _ _ fun m hm => ?_
  have := ravel_lt h (unravel_within hm)
  rw [List.prod_reverse, ← ha] at this
  rw [List.getElem?_eq_getElem this]
  rfl

theorem spread_self {a : NdArray α} (ha : Regular a) : spread a a.shape.reverse = a.data := by
  obtain ⟨h1, h2⟩ := spread_spec ha (FitsR.refl _)
  rw [List.prod_reverse, ← ha] at h1 h2
  refine List.ext_getElem? fun m => ?_
  by_cases hm : m < a.data.length
  · rw [h2 m hm, ravel_self (by rw [List.prod_reverse, ← ha]; exact hm)]
  · rw [List.getElem?_eq_none (by omega), List.getElem?_eq_none (by omega)]

theorem spread_un (f : α → α) (a : NdArray α) (S : List ℕ) : spread (a.un f) S = (spread a S).map f := by
  unfold spread un
  rw [List.map_filterMap]
  refine List.filterMap_congr fun m _ => ?_
  rw [List.getElem?_map]

theorem regular_un {f : α → α} {a : NdArray α} (h : Regular a) : Regular (a.un f) := by
  unfold Regular un at *
  simpa using h

/-- what an elementwise operation computes -/
theorem bin_spread {f : α → α → α} {a b : NdArray α} (ha : Regular a) (hb : Regular b) {u : List ℕ}
    (h : broadcast a.shape.reverse b.shape.reverse = some u) :
    ∃ c, NdArray.bin f a b = .ok c ∧ c.shape = u.reverse ∧ Regular c ∧
      ∀ S, FitsR u S → spread c S = List.zipWith f (spread a S) (spread b S) := by
  obtain ⟨fa, fb⟩ := broadcast_fits h
  obtain ⟨la, ia⟩ := spread_spec ha fa
  obtain ⟨lb, ib⟩ := spread_spec hb fb
  have hsome : ∀ m < u.prod, ∃ x y, a.data[ravel a.shape.reverse (unravel u m)]? = some x ∧
      b.data[ravel b.shape.reverse (unravel u m)]? = some y := by
    intro m hm
    have h1 := ravel_lt fa (unravel_within hm)
    have h2 := ravel_lt fb (unravel_within hm)
    rw [List.prod_reverse, ← ha] at h1
    rw [List.prod_reverse, ← hb] at h2
    exact ⟨_, _, List.getElem?_eq_getElem h1, List.getElem?_eq_getElem h2⟩
  obtain ⟨l, i⟩ := filterMap_range (fun m => (a.data[ravel a.shape.reverse (unravel u m)]?).bind fun x =>
    (b.data[ravel b.shape.reverse (unravel u m)]?).map fun y => f x y) u.prod fun m hm => by
      obtain ⟨x, y, hx, hy⟩ := hsome m hm
      rw [hx, hy]; rfl
  refine ⟨_, by unfold NdArray.bin; rw [h], rfl, ?_, ?_⟩
  · unfold Regular
    rw [l]
    simp
  · intro S hS
    obtain ⟨la', ia'⟩ := spread_spec ha (fa.trans hS)
    obtain ⟨lb', ib'⟩ := spread_spec hb (fb.trans hS)
    unfold spread
    rw [List.reverse_reverse]
    obtain ⟨l', i'⟩ := filterMap_range (fun m => (((List.range u.prod).filterMap fun m =>
      (a.data[ravel a.shape.reverse (unravel u m)]?).bind fun x =>
        (b.data[ravel b.shape.reverse (unravel u m)]?).map fun y => f x y))[ravel u (unravel S m)]?) S.prod (by
        intro m hm
        have := ravel_lt hS (unravel_within hm)
        rw [i _ this]
        obtain ⟨x, y, hx, hy⟩ := hsome _ this
        rw [hx, hy]; rfl)
    refine List.ext_getElem? fun m => ?_
    by_cases hm : m < S.prod
    · have hlt := ravel_lt hS (unravel_within hm)
      have h1 := ia' m hm
      have h2 := ib' m hm
      unfold spread at h1 h2
      rw [i' m hm, i _ hlt, ravel_unravel fa hS (unravel_within hm), ravel_unravel fb hS (unravel_within hm),
        List.getElem?_zipWith, h1, h2]
      cases a.data[ravel a.shape.reverse (unravel S m)]? <;>
        cases b.data[ravel b.shape.reverse (unravel S m)]? <;> rfl
    · unfold spread at la' lb'
      rw [List.getElem?_eq_none (by rw [l']; omega), List.getElem?_eq_none]
      rw [List.length_zipWith, la', lb', Nat.min_self]
      omega

theorem bin_none {f : α → α → α} {a b : NdArray α}
    (h : broadcast a.shape.reverse b.shape.reverse = none) :
    ∃ m, NdArray.bin f a b = .error (.valueError m) :=
  ⟨_, by unfold NdArray.bin; rw [h]⟩

/-! ## The specification -/

theorem unravel_append (s : List ℕ) (n m : ℕ) : unravel (s ++ [n]) m = unravel s m ++ [m / s.prod % n] := by
  induction s generalizing m with
  | nil => simp [unravel]
  | cons a s ih => rw [List.cons_append, unravel, ih, unravel, List.prod_cons, Nat.div_div_eq_div_mul]; rfl

theorem unravel_add (s : List ℕ) (i m : ℕ) : unravel s (i * s.prod + m) = unravel s m := by
  induction s generalizing m with
  | nil => rfl
  | cons a s ih =>
    rw [unravel, unravel, List.prod_cons]
    have e : i * (a * s.prod) + m = m + a * (i * s.prod) := by ring
    rw [e, Nat.add_mul_mod_self_left]
    congr 1
    rcases Nat.eq_zero_or_pos a with rfl | ha
    · simp only [Nat.div_zero]
    · rw [Nat.add_mul_div_left _ _ ha, add_comm, ih]

theorem range_mul (n p : ℕ) : List.range (n * p) = (List.range n).flatMap fun i => (List.range p).map (i * p + ·) := by
  induction n with
  | zero => simp
  | succ n ih => rw [Nat.succ_mul, List.range_add, ih, List.range_succ, List.flatMap_append]; simp

theorem indices_eq (S : List ℕ) :
    indices S = (List.range S.prod).map fun m => (unravel S.reverse m).reverse := by
  induction S with
  | nil => rfl
  | cons n rest ih =>
    rw [indices, List.prod_cons, range_mul, List.map_flatMap, ih]
    refine List.flatMap_congr fun i hi => ?_
    rw [List.map_map, List.map_map]
    refine List.map_congr_left fun m hm => ?_
    have hi := List.mem_range.mp hi
    have hm := List.mem_range.mp hm
    simp only [Function.comp]
    rw [List.reverse_cons, unravel_append, List.reverse_append, List.reverse_singleton, List.singleton_append]
    have e : i * rest.prod + m = i * rest.reverse.prod + m := by rw [List.prod_reverse]
    rw [e, unravel_add, List.prod_reverse, mul_comm, Nat.mul_add_div (by omega), Nat.div_eq_of_lt hm, add_zero,
      Nat.mod_eq_of_lt hi]

theorem ravel_append (s index : List ℕ) (a i : ℕ) (h : index.length = s.length) (more : List ℕ) :
    ravel (s ++ [a]) (index ++ i :: more) = ravel s index + s.prod * (if a = 1 then 0 else i) := by
  induction s generalizing index with
  | nil =>
    cases index with
    | nil => simp [ravel]
    | cons j index => simp at h
  | cons b s ih =>
    cases index with
    | nil => simp at h
    | cons j index =>
      rw [List.cons_append, List.cons_append, ravel, ih index (by simpa using h), ravel, List.prod_cons]
      ring

theorem place_eq (s index : List ℕ) (h : index.length = s.length) (more : List ℕ) :
    place s index = ravel s.reverse (index.reverse ++ more) := by
  induction s generalizing index more with
  | nil =>
    cases index with
    | nil => simp [place, ravel]
    | cons i index => simp at h
  | cons a s ih =>
    cases index with
    | nil => simp at h
    | cons i index =>
      have hl : index.length = s.length := by simpa using h
      rw [place, List.reverse_cons, List.reverse_cons, List.append_assoc, List.singleton_append,
        ravel_append _ _ _ _ (by simp [hl]), List.prod_reverse, ih index hl []]
      rw [List.append_nil]
      ring

theorem itemAt_eq (a : NdArray α) {index S : List ℕ} (h : FitsR a.shape.reverse S) (hi : Within index S) :
    itemAt a index.reverse = a.data[ravel a.shape.reverse index]? := by
  have hl : a.shape.length ≤ index.length := by
    have h1 : index.length = S.length := hi.length_eq
    obtain ⟨t, extra, rfl, h2⟩ := (fitsR_iff _ _).mp h
    have h3 := h2.length_eq
    rw [List.length_reverse] at h3
    rw [h1, List.length_append]
    omega
  unfold itemAt
  rw [List.length_reverse, place_eq _ _ (by simp; omega) (index.drop a.shape.length)]
  congr 2
  rw [List.reverse_drop, List.reverse_reverse, List.length_reverse]
  have : index.length - (index.length - a.shape.length) = a.shape.length := by omega
  rw [this, List.take_append_drop]

theorem stretchTo_eq (a : NdArray α) {S : List ℕ} (h : Fits a.shape S) : stretchTo a S = spread a S.reverse := by
  unfold stretchTo spread
  rw [indices_eq, List.filterMap_map, List.prod_reverse]
  refine List.filterMap_congr fun m hm => ?_
  exact itemAt_eq a ((fits_iff _ _).mp h)
    (unravel_within (by rw [List.prod_reverse]; exact List.mem_range.mp hm))

end OpenControls
