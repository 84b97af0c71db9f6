import Verif.Proofs.HeapConvert
import Verif.Proofs.Reversal

/-!
# Converting a sequence whose attributes were reassigned or whose arrays were written to
-/

namespace OpenControls

open Py PyFloat

section Heap

variable {α : Type} [Add α] [Sub α] [Mul α] [Div α] [Neg α] [PyFloat α]

/-- the four arrays of a list of operations, of any lengths -/
structure Rows (h : Heap α) (a : OpArrays) (o r p d : List α) : Prop where
  offsets : h[a.offsets]? = some o
  rabi : h[a.rabi]? = some r
  azimuthal : h[a.azimuthal]? = some p
  detuning : h[a.detuning]? = some d

theorem Rows.four (h : Heap α) (o r p d : List α) :
    Rows (h ++ [o, r, p, d]) ⟨h.length, h.length + 1, h.length + 2, h.length + 3⟩ o r p d := by
  constructor <;> simp

theorem padFrontH_rows {h : Heap α} {a : OpArrays} {x : α} {o r p d : List α}
    (hc : Rows h a (x :: o) r p d) : ∃ a' e y, padFrontH a h = (.ok a', h ++ e) ∧
      Rows (h ++ e) a' (y ++ x :: o) (y ++ r) (y ++ p) (y ++ d) := by
  unfold padFrontH
  rw [bind_getItem (x := x) _ (by rw [items_of_some hc.offsets]; simp)]
  cases hb : ne x (lit 0) with
  | true =>
    refine ⟨⟨h.length, h.length + 1, h.length + 2, h.length + 3⟩,
      [lit 0 :: x :: o, lit 0 :: r, lit 0 :: p, lit 0 :: d], [lit 0], ?_, Rows.four h _ _ _ _⟩
    rw [← four_append, if_pos rfl, bind_appendFront _ _ hc.offsets,
      bind_appendFront _ _ (some_append hc.rabi _),
      bind_appendFront _ _ (some_append (some_append hc.azimuthal _) _),
      bind_appendFront _ _ (some_append (some_append (some_append hc.detuning _) _) _), pure_apply]
    simp only [List.length_append, List.length_cons, List.length_nil]
  | false => exact ⟨a, [], [], by simp [pure_apply], by simpa using hc⟩

theorem padBackH_rows {h : Heap α} {a : OpArrays} {o r p d : List α}
    (hc : Rows h a o r p d) (T : α) (hne : o ≠ []) :
    ∃ a' e y z, padBackH T a h = (.ok a', h ++ e) ∧ y.length = z.length ∧
      Rows (h ++ e) a' (o ++ y) (r ++ z) (p ++ z) (d ++ z) := by
  unfold padBackH
  rw [bind_load, bind_getItem (x := o.getLast hne) _ (by
    rw [items_of_some hc.offsets, ← List.getLast?_eq_getElem?, List.getLast?_eq_some_getLast hne])]
  cases hb : ne (o.getLast hne) T with
  | true =>
    refine ⟨⟨h.length, h.length + 1, h.length + 2, h.length + 3⟩,
      [o ++ [T], r ++ [lit 0], p ++ [lit 0], d ++ [lit 0]], [T], [lit 0], ?_, rfl, Rows.four h _ _ _ _⟩
    rw [← four_append, if_pos rfl, bind_appendBack _ _ hc.offsets,
      bind_appendBack _ _ (some_append hc.rabi _),
      bind_appendBack _ _ (some_append (some_append hc.azimuthal _) _),
      bind_appendBack _ _ (some_append (some_append (some_append hc.detuning _) _) _), pure_apply]
    simp only [List.length_append, List.length_cons, List.length_nil]
  | false => exact ⟨a, [], [], [], by simp [pure_apply], rfl, by simpa using hc⟩

theorem concatenateH_error {h : Heap α} {a : OpArrays} {o r p d : List α} (hc : Rows h a o r p d)
    (hne : ¬ (r.length = o.length ∧ p.length = o.length ∧ d.length = o.length)) {γ : Type}
    (F : Ref → PyM α γ) : ∃ t, (concatenateH a >>= F) h = (.error (.valueError t), h) := by
  refine ⟨"all the input array dimensions for the concatenation axis must match exactly", bind_error ?_⟩
  unfold concatenateH
  rw [bind_load, bind_load, bind_load, bind_load, items_of_some hc.offsets, items_of_some hc.rabi,
    items_of_some hc.azimuthal, items_of_some hc.detuning, if_neg]
  · rfl
  · simpa [and_assoc] using hne

/-- the conversion raises if there are offsets and the arrays differ in length -/
theorem convertH_mismatched (h : Heap α) (s : SequenceObj α) (hs : ∀ r ∈ s.refs, r < h.length)
    (ho : h.items s.offsets ≠ [])
    (hne : ¬ ((h.items s.rabiRotations).length = (h.items s.offsets).length ∧
      (h.items s.azimuthalAngles).length = (h.items s.offsets).length ∧
      (h.items s.detuningRotations).length = (h.items s.offsets).length))
    (R D m : α) (name : Option String) :
    ∃ x e, convertH s R D m name h = (.error x, h ++ e) ∧
      ((∃ t, x = .arguments t) ∨ ∃ t, x = .valueError t) := by
  have herr : ∀ t e, ∃ x e', ((.error (.arguments t), h ++ e) : Except PyErr ControlObj × Heap α) =
      (.error x, h ++ e') ∧ ((∃ t, x = .arguments t) ∨ ∃ t, x = .valueError t) :=
    fun t e => ⟨_, e, rfl, .inl ⟨t, rfl⟩⟩
  have herr0 : ∀ t, ∃ x e', ((.error (.arguments t), h) : Except PyErr ControlObj × Heap α) =
      (.error x, h ++ e') ∧ ((∃ t, x = .arguments t) ∨ ∃ t, x = .valueError t) := fun t => by
    simpa using herr t []
  unfold convertH
  cases b1 : gt D (lit 0) with
  | false => rw [bind_check_false rfl]; exact herr0 _
  | true =>
  rw [bind_check_true rfl]
  cases b2 : gt R (lit 0) with
  | false => rw [bind_check_false rfl]; exact herr0 _
  | true =>
  rw [bind_check_true rfl]
  cases b3 : ge m (lit 0) with
  | false => rw [bind_check_false rfl]; exact herr0 _
  | true =>
  rw [bind_check_true rfl, bind_load]
  cases b4 : ((h.items s.rabiRotations).all fun r => ge r (lit 0)) with
  | false => rw [bind_check_false rfl]; exact herr0 _
  | true =>
  rw [bind_check_true rfl, bind_load]
  cases b5 : checkValidOperation (h.items s.rabiRotations) (h.items s.detuningRotations) with
  | false => rw [bind_check_false rfl]; exact herr0 _
  | true =>
  rw [bind_check_true rfl]
  have hitems : ∀ r ∈ s.refs, h[r]? = some (h.items r) := by
    intro r hr
    have := hs r hr
    simp [Heap.items, List.getElem?_eq_getElem this]
  obtain ⟨x, o, hxo⟩ := List.exists_cons_of_ne_nil ho
  have hc : Rows h ⟨s.offsets, s.rabiRotations, s.azimuthalAngles, s.detuningRotations⟩
      (h.items s.offsets) (h.items s.rabiRotations) (h.items s.azimuthalAngles)
      (h.items s.detuningRotations) :=
    ⟨hitems _ (by simp [SequenceObj.refs]), hitems _ (by simp [SequenceObj.refs]),
      hitems _ (by simp [SequenceObj.refs]), hitems _ (by simp [SequenceObj.refs])⟩
  have hempty : padEmptyH s.duration
      ⟨s.offsets, s.rabiRotations, s.azimuthalAngles, s.detuningRotations⟩ h =
      (.ok ⟨s.offsets, s.rabiRotations, s.azimuthalAngles, s.detuningRotations⟩, h) := by
    unfold padEmptyH
    rw [bind_load, hxo]
    rfl
  rw [bind_ok hempty]
  rw [hxo] at hc hne
  obtain ⟨a1, e1, y1, w1, c1⟩ := padFrontH_rows hc
  rw [bind_ok w1]
  obtain ⟨a2, e2, y2, z2, w2, hyz, c2⟩ := padBackH_rows c1 s.duration (by simp)
  rw [bind_ok w2, bind_load, items_of_some c2.offsets]
  split
  · rw [List.append_assoc]; exact herr _ _
  · unfold convertOperationsH
    obtain ⟨t, ht⟩ := concatenateH_error c2 (by
      simp only [List.length_append, hyz] at hne ⊢
      omega) (γ := ControlObj) _
    rw [ht, List.append_assoc]
    exact ⟨_, _, rfl, .inr ⟨t, rfl⟩⟩

/-- without offsets the conversion looks at the other arrays only to check them -/
theorem convertH_empty (h : Heap α) (s : SequenceObj α) (ho : h.items s.offsets = [])
    (R D m : α) (name : Option String) :
    ((∃ t, convertH s R D m name h = (.error (.arguments t), h)) ∧
      ¬ (gt D (lit 0) = true ∧ gt R (lit 0) = true ∧ ge m (lit 0) = true ∧
        ((h.items s.rabiRotations).all fun r => ge r (lit 0)) = true ∧
        checkValidOperation (h.items s.rabiRotations) (h.items s.detuningRotations) = true)) ∨
    (convertH s R D m name h =
      convertH ⟨s.duration, s.offsets, s.offsets, s.offsets, s.offsets, s.name⟩ R D m name h ∧
      (gt D (lit 0) = true ∧ gt R (lit 0) = true ∧ ge m (lit 0) = true ∧
        ((h.items s.rabiRotations).all fun r => ge r (lit 0)) = true ∧
        checkValidOperation (h.items s.rabiRotations) (h.items s.detuningRotations) = true)) := by
  unfold convertH
  cases b1 : gt D (lit 0) with
  | false => rw [bind_check_false rfl]; exact .inl ⟨⟨_, rfl⟩, by simp⟩
  | true =>
  rw [bind_check_true rfl, bind_check_true rfl]
  cases b2 : gt R (lit 0) with
  | false => rw [bind_check_false rfl]; exact .inl ⟨⟨_, rfl⟩, by simp⟩
  | true =>
  rw [bind_check_true rfl, bind_check_true rfl]
  cases b3 : ge m (lit 0) with
  | false => rw [bind_check_false rfl]; exact .inl ⟨⟨_, rfl⟩, by simp⟩
  | true =>
  rw [bind_check_true rfl, bind_load, bind_check_true rfl, bind_load]
  cases b4 : ((h.items s.rabiRotations).all fun r => ge r (lit 0)) with
  | false => rw [bind_check_false rfl]; exact .inl ⟨⟨_, rfl⟩, by simp⟩
  | true =>
  rw [bind_check_true rfl, bind_load]
  cases b5 : checkValidOperation (h.items s.rabiRotations) (h.items s.detuningRotations) with
  | false => rw [bind_check_false rfl]; exact .inl ⟨⟨_, rfl⟩, by simp⟩
  | true =>
  rw [bind_check_true rfl]
  refine .inr ⟨?_, rfl, rfl, rfl, rfl, rfl⟩
  dsimp only
  rw [ho, bind_check_true (b := [].all _) rfl, bind_load, ho,
    bind_check_true (b := checkValidOperation [] []) rfl]
  have hpad : ∀ a b : OpArrays, a.offsets = s.offsets → b.offsets = s.offsets →
      padEmptyH s.duration a h = padEmptyH s.duration b h := by
    intro a b ha hb
    unfold padEmptyH
    rw [bind_load, bind_load, ha, hb, ho]
    rfl
  have hrun : ∀ (a : OpArrays), a.offsets = s.offsets → ∃ a' h',
      padEmptyH s.duration a h = (.ok a', h') := by
    intro a ha
    unfold padEmptyH
    rw [bind_load, ha, ho]
    exact ⟨_, _, rfl⟩
  obtain ⟨a', h', e⟩ := hrun ⟨s.offsets, s.rabiRotations, s.azimuthalAngles, s.detuningRotations⟩ rfl
  rw [bind_ok e, bind_ok ((hpad _ _ rfl rfl).symm.trans e)]

end Heap

open Spec RealInst

/-- a conversion of arrays of equal length that returns has checked what the constructor checks, except for
a single pulse at 0 in a sequence of duration 0 -/
theorem convertDDS_validates {s : Sequence ℝ} (hr : s.rabiRotations.length = s.offsets.length)
    (ha : s.azimuthalAngles.length = s.offsets.length)
    (hd : s.detuningRotations.length = s.offsets.length) {R D m : ℝ} {name : Option String}
    {c : DrivenControl ℝ} (h : convertDDS s R D m name = .ok c) :
    s.Constructed ∨ (s.duration = 0 ∧ s.offsets = [0]) := by
  have hdiff : (npDiff ((padOperations s.duration (operationsOf s.offsets s.rabiRotations s.azimuthalAngles
      s.detuningRotations)).map Operation.offset)).any (fun d => le d (lit 0)) = false := by
    rw [convertDDS_eq] at h
    by_contra hn
    rw [Bool.not_eq_false] at hn
    simp only [hn] at h
    simp only [checkArguments_bind] at h
    split at h
    · split at h
      · split at h
        · split at h
          · split at h
            · simp at h
            · cases h
          · cases h
        · cases h
      · cases h
    · cases h
  have hops : padOperations s.duration (operationsOf s.offsets s.rabiRotations s.azimuthalAngles
      s.detuningRotations) = (pad s.duration (pulseList s)).map toOp := by
    rw [operationsOf_eq, ← padOperations_eq]; rfl
  have hoff : ((pad s.duration (pulseList s)).map toOp).map Operation.offset =
      (pad s.duration (pulseList s)).map Pulse.offset := by
    rw [List.map_map]; rfl
  rw [hops, hoff] at hdiff
  have hpw : ((pad s.duration (pulseList s)).map Pulse.offset).Pairwise (· < ·) := by
    rw [← npDiff_any, hdiff]; rfl
  have ho := pulseList_offsets s hr ha hd
  unfold pad at hpw
  rw [List.map_append, List.map_append, ho] at hpw
  have hi : ∀ (c : Prop) [Decidable c] (t : ℝ), (if c then [] else [idlePulse t]).map Pulse.offset =
      if c then [] else [t] := by
    intro c _ t; split <;> rfl
  rw [hi, hi] at hpw
  have hb0 : ∀ t ∈ s.offsets, 0 ≤ t := by
    intro t ht
    by_cases h0 : s.offsets.head? = some 0
    · obtain ⟨l, hl⟩ : ∃ l, s.offsets = 0 :: l := by
        cases hs : s.offsets with
        | nil => rw [hs] at h0; simp at h0
        | cons x l => rw [hs] at h0; simp at h0; exact ⟨l, by rw [h0]⟩
      rw [if_pos h0, List.nil_append, hl, List.cons_append, List.pairwise_cons] at hpw
      rw [hl] at ht
      rcases List.mem_cons.mp ht with rfl | ht
      · exact le_rfl
      · exact (hpw.1 t (by simp [ht])).le
    · rw [if_neg h0, List.append_assoc, List.singleton_append, List.pairwise_cons] at hpw
      exact (hpw.1 t (by simp [ht])).le
  have hbT : ∀ t ∈ s.offsets, t ≤ s.duration := by
    intro t ht
    by_cases h1 : s.offsets.getLast? = some s.duration
    · obtain ⟨l, hl⟩ := List.getLast?_eq_some_iff.mp h1
      rw [if_pos h1, List.append_nil, hl, ← List.append_assoc, List.pairwise_append] at hpw
      rw [hl] at ht
      rcases List.mem_append.mp ht with ht | ht
      · exact (hpw.2.2 t (by simp [ht]) _ (by simp)).le
      · simp at ht; exact ht.le
    · rw [if_neg h1, List.pairwise_append] at hpw
      exact (hpw.2.2 t (by simp [ht]) _ (by simp)).le
  by_cases hT : 0 < s.duration
  · exact .inl (constructed_of_facts hT (fun t ht => ⟨hb0 t ht, hbT t ht⟩) hr ha hd)
  · refine .inr ?_
    push Not at hT
    have h0 : s.offsets.head? = some 0 := by
      by_contra h0
      rw [if_neg h0] at hpw
      by_cases h1 : s.offsets.getLast? = some s.duration
      · obtain ⟨l, hl⟩ := List.getLast?_eq_some_iff.mp h1
        rw [if_pos h1, List.append_nil, List.singleton_append, List.pairwise_cons, hl] at hpw
        exact absurd (hpw.1 s.duration (by simp)) (not_lt.mpr hT)
      · rw [if_neg h1, List.append_assoc, List.singleton_append, List.pairwise_cons] at hpw
        exact absurd (hpw.1 s.duration (by simp)) (not_lt.mpr hT)
    obtain ⟨l, hl⟩ : ∃ l, s.offsets = 0 :: l := by
      cases hs : s.offsets with
      | nil => rw [hs] at h0; simp at h0
      | cons x l => rw [hs] at h0; simp at h0; exact ⟨l, by rw [h0]⟩
    have hT0 : s.duration = 0 := le_antisymm hT (hbT 0 (by simp [hl]))
    refine ⟨hT0, ?_⟩
    cases l with
    | nil => exact hl
    | cons y l =>
      rw [if_pos h0, List.nil_append, hl, List.cons_append, List.pairwise_cons] at hpw
      have h2 := hpw.1 y (by simp)
      have h3 := hbT y (by simp [hl])
      rw [hT0] at h3
      exact absurd h2 (not_lt.mpr h3)

end OpenControls
