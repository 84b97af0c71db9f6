import Verif.Spec.Values
import Verif.Proofs.Shapes

/-!
# Lemmas for C106: which array an object stands for
-/

namespace OpenControls

open PyFloat Py NdArray Spec PyValue

variable {α β : Type}

section Arrays

theorem commonPrefix_self (s : List Nat) : commonPrefix s s = s := by
  induction s with
  | nil => rfl
  | cons a s ih => simp [commonPrefix, ih]

theorem commonPrefix_left (s t : List Nat) : commonPrefix s t <+: s := by
  induction s generalizing t with
  | nil => simp [commonPrefix]
  | cons a s ih =>
    cases t with
    | nil => simp [commonPrefix]
    | cons b t =>
      unfold commonPrefix
      split
      · exact (List.prefix_cons_inj a).mpr (ih t)
      · exact List.nil_prefix

theorem commonPrefix_right (s t : List Nat) : commonPrefix s t <+: t := by
  induction s generalizing t with
  | nil => simp [commonPrefix]
  | cons a s ih =>
    cases t with
    | nil => simp [commonPrefix]
    | cons b t =>
      unfold commonPrefix
      split
      · rename_i h; subst h; exact (List.prefix_cons_inj a).mpr (ih t)
      · exact List.nil_prefix

theorem commonShape_prefix : ∀ (l : List (PyValue α)) (v : PyValue α), v ∈ l →
    commonShape l <+: v.shape
  | [], v, h => by simp at h
  | [w], v, h => by
    rw [List.mem_singleton.mp h]; simp [commonShape]
  | u :: w :: l, v, h => by
    rw [commonShape]
    rcases List.mem_cons.mp h with h | h
    · subst h; exact commonPrefix_left _ _
    · exact (commonPrefix_right _ _).trans (commonShape_prefix (w :: l) v h)

theorem convertAll_append (item : PyValue α → Except PyErr β) (l m : List (PyValue α)) (x y : List β)
    (hl : convertAll item l = .ok x) (hm : convertAll item m = .ok y) :
    convertAll item (l ++ m) = .ok (x ++ y) := by
  induction l generalizing x with
  | nil =>
    simp only [convertAll, Except.ok.injEq] at hl
    subst hl; simpa using hm
  | cons v l ih =>
    simp only [convertAll, bind, Except.bind, List.cons_append] at hl ⊢
    cases hv : item v with
    | error e => rw [hv] at hl; cases hl
    | ok a =>
      rw [hv] at hl
      simp only at hl ⊢
      cases hr : convertAll item l with
      | error e => rw [hr] at hl; cases hl
      | ok r =>
        rw [hr] at hl
        simp only [pure, Except.pure, Except.ok.injEq] at hl
        rw [ih r hr]
        subst hl; rfl

theorem convertAll_append_inv (item : PyValue α → Except PyErr β) (l m : List (PyValue α)) (z : List β)
    (h : convertAll item (l ++ m) = .ok z) :
    ∃ x y, convertAll item l = .ok x ∧ convertAll item m = .ok y ∧ z = x ++ y := by
  induction l generalizing z with
  | nil => exact ⟨[], z, rfl, h, rfl⟩
  | cons v l ih =>
    simp only [convertAll, bind, Except.bind, List.cons_append] at h ⊢
    cases hv : item v with
    | error e => rw [hv] at h; cases h
    | ok a =>
      rw [hv] at h
      simp only at h ⊢
      cases hr : convertAll item (l ++ m) with
      | error e => rw [hr] at h; cases h
      | ok r =>
        rw [hr] at h
        simp only [pure, Except.pure, Except.ok.injEq] at h
        obtain ⟨x, y, h1, h2, h3⟩ := ih r hr
        exact ⟨a :: x, y, by rw [h1]; rfl, h2, by rw [← h, h3]; rfl⟩

theorem convertAll_mem (item : PyValue α → Except PyErr β) (l : List (PyValue α)) (z : List β)
    (h : convertAll item l = .ok z) (v : PyValue α) (hv : v ∈ l) : ∃ x, item v = .ok x := by
  obtain ⟨s, t, rfl⟩ := List.append_of_mem hv
  obtain ⟨x, y, -, h2, -⟩ := convertAll_append_inv item s (v :: t) z h
  simp only [convertAll, bind, Except.bind] at h2
  cases hx : item v with
  | error e => rw [hx] at h2; cases h2
  | ok a => exact ⟨a, rfl⟩

/-- above the last axis there are lists only -/
theorem items_lists : ∀ (p : List Nat) (v : PyValue α) (m : Nat) (q : List Nat),
    v.shape = p ++ m :: q → ∃ l, PyValue.list l ∈ v.items p.length
  | [], v, m, q, h => by
    cases v <;> simp [PyValue.shape] at h
    exact ⟨_, List.mem_singleton.mpr rfl⟩
  | a :: p, v, m, q, h => by
    cases v with
    | list l =>
      rw [PyValue.shape, List.cons_append, List.cons.injEq] at h
      cases l with
      | nil => simp [commonShape] at h
      | cons w l =>
        obtain ⟨r, hr⟩ := commonShape_prefix (w :: l) w List.mem_cons_self
        rw [h.2] at hr
        obtain ⟨k, hk⟩ := items_lists p w m (q ++ r) (by rw [← hr]; simp)
        exact ⟨k, by
          simp only [List.length_cons, items, List.flatMap_cons, List.mem_append]
          exact Or.inl hk⟩
    | _ => simp [PyValue.shape] at h

/-- how the conversion of items matches the description of items; lists are not items -/
structure Converts (item : PyValue α → Except PyErr β) (is : PyValue α → β → Prop) : Prop where
  iff : ∀ v x, item v = .ok x ↔ is v x
  list : ∀ l x, ¬ is (.list l) x

theorem shape_single {item : PyValue α → Except PyErr β} {is : PyValue α → β → Prop}
    (hc : Converts item is) {v : PyValue α} {x : β} (h : is v x) : v.shape = [] := by
  cases v with
  | list l => exact (hc.list l x h).elim
  | _ => rfl

theorem denotes_toArray {item : PyValue α → Except PyErr β} {is : PyValue α → β → Prop}
    (hc : Converts item is) {v : PyValue α} {a : NdArray β} (h : Denotes is v a) :
    v.shape = a.shape ∧ convertAll item (v.items v.shape.length) = .ok a.data := by
  induction h with
  | single h =>
    refine ⟨shape_single hc h, ?_⟩
    rw [shape_single hc h]
    simp only [List.length_nil, items, convertAll, bind, Except.bind, (hc.iff _ _).mpr h]
    rfl
  | empty => exact ⟨rfl, rfl⟩
  | @one v s d _ ih =>
    obtain ⟨h1, h2⟩ := ih
    have hs : (PyValue.list [v]).shape = 1 :: s := by
      rw [PyValue.shape, commonShape, h1]; rfl
    refine ⟨hs, ?_⟩
    rw [hs]
    simp only at h1
    rw [h1] at h2
    simpa [items] using h2
  | @more v w l n s d e _ _ ih1 ih2 =>
    obtain ⟨h1, h2⟩ := ih1
    obtain ⟨h3, h4⟩ := ih2
    simp only at h1 h3
    rw [h1] at h2
    rw [h3] at h4
    rw [PyValue.shape, List.cons.injEq] at h3
    have hs : (PyValue.list (v :: w :: l)).shape = (n + 1) :: s := by
      rw [PyValue.shape, commonShape, h1, h3.2, commonPrefix_self, ← h3.1]; rfl
    refine ⟨hs, ?_⟩
    rw [hs]
    have : (PyValue.list (v :: w :: l)).items ((n + 1) :: s).length =
        v.items s.length ++ (PyValue.list (w :: l)).items (n :: s).length := rfl
    rw [this]
    exact convertAll_append item _ _ _ _ h2 h4

/-- a list of objects of the same shape -/
theorem denotes_list {is : PyValue α → β → Prop} {item : PyValue α → Except PyErr β} (s : List Nat) :
    ∀ (l : List (PyValue α)) (z : List β), l ≠ [] →
      (∀ v ∈ l, ∀ d, convertAll item (v.items s.length) = .ok d → Denotes is v ⟨s, d⟩) →
      convertAll item (l.flatMap (items s.length)) = .ok z → Denotes is (.list l) ⟨l.length :: s, z⟩
  | [], z, h, _, _ => (h rfl).elim
  | [v], z, _, h, hz => .one (h v List.mem_cons_self z (by simpa using hz))
  | v :: w :: l, z, _, h, hz => by
    rw [List.flatMap_cons] at hz
    obtain ⟨x, y, h1, h2, rfl⟩ := convertAll_append_inv item _ _ z hz
    exact .more (h v List.mem_cons_self x h1)
      (denotes_list s (w :: l) y (by simp) (fun u hu => h u (List.mem_cons_of_mem v hu)) h2)

theorem toArray_denotes {item : PyValue α → Except PyErr β} {is : PyValue α → β → Prop}
    (hc : Converts item is) (v : PyValue α) (d : List β)
    (h : convertAll item (v.items v.shape.length) = .ok d) : Denotes is v ⟨v.shape, d⟩ := by
  have leaf : v.shape = [] → Denotes is v ⟨v.shape, d⟩ := by
    intro hs
    rw [hs] at h ⊢
    simp only [List.length_nil, items, convertAll, bind, Except.bind] at h
    cases hx : item v with
    | error e => rw [hx] at h; cases h
    | ok x =>
      rw [hx] at h
      simp only [pure, Except.pure, Except.ok.injEq] at h
      rw [← h]
      exact .single ((hc.iff _ _).mp hx)
  cases v with
  | list l =>
    rw [PyValue.shape] at h ⊢
    cases hl : l with
    | nil =>
      subst hl
      simp only [commonShape, List.length_nil, List.length_cons, items, List.flatMap_nil, convertAll,
        Except.ok.injEq] at h
      subst h
      exact .empty
    | cons w m =>
      rw [← hl]
      have hz : convertAll item (l.flatMap (items (commonShape l).length)) = .ok d := h
      refine denotes_list (item := item) (commonShape l) l d (by simp [hl]) ?_ hz
      intro v hv e he
      -- a longer shape would leave lists as items
      have hsh : v.shape = commonShape l := by
        obtain ⟨r, hr⟩ := commonShape_prefix l v hv
        cases r with
        | nil => rw [← hr]; simp
        | cons m q =>
          obtain ⟨k, hk⟩ := items_lists (commonShape l) v m q hr.symm
          obtain ⟨x, hx⟩ := convertAll_mem item _ e he _ hk
          exact (hc.list k x ((hc.iff _ _).mp hx)).elim
      have : sizeOf v < 1 + sizeOf l := by have := List.sizeOf_lt_of_mem hv; omega
      rw [← hsh] at he ⊢
      exact toArray_denotes hc v e he
  | _ => exact leaf rfl
termination_by sizeOf v

/-- the conversion finds the array an object stands for, and fails if there is none -/
theorem toArray_iff {item : PyValue α → Except PyErr β} {is : PyValue α → β → Prop}
    (hc : Converts item is) (v : PyValue α) (a : NdArray β) :
    v.toArray item = .ok a ↔ Denotes is v a := by
  constructor
  · intro h
    unfold PyValue.toArray at h
    simp only [bind, Except.bind] at h
    cases hd : convertAll item (v.items v.shape.length) with
    | error e => rw [hd] at h; cases h
    | ok d =>
      rw [hd] at h
      simp only [pure, Except.pure, Except.ok.injEq] at h
      rw [← h]
      exact toArray_denotes hc v d hd
  · intro h
    obtain ⟨h1, h2⟩ := denotes_toArray hc h
    unfold PyValue.toArray
    rw [h2, h1]
    rfl

end Arrays

section Items
variable [Add α] [Sub α] [Mul α] [Div α] [Neg α] [PyFloat α]

theorem isReal_iff (v : PyValue α) (x : α) : v.real = .ok x ↔ IsReal v x := by
  constructor
  · intro h
    cases v <;> simp only [PyValue.real, Except.ok.injEq, reduceCtorEq] at h
    · rename_i b; subst h; cases b
      · exact .false
      · exact .true
    · subst h; exact .int _
    · subst h; exact .float _
  · intro h
    cases h <;> simp [PyValue.real]

theorem isFloat_converts (np : Numpy α) : Converts np.item (IsFloat np) where
  iff v x := by
    constructor
    · intro h
      cases v with
      | none => simp only [Numpy.item, Except.ok.injEq] at h; subst h; exact .none
      | bool b => exact .real ((isReal_iff _ _).mp h)
      | int n => exact .real ((isReal_iff _ _).mp h)
      | float y => exact .real ((isReal_iff _ _).mp h)
      | str s =>
        simp only [Numpy.item] at h
        split at h
        · rename_i y hy
          simp only [Except.ok.injEq] at h; subst h; exact .str hy
        · cases h
      | complex _ _ => cases h
      | other _ => cases h
      | list _ => cases h
    · intro h
      cases h with
      | real h => cases h <;> simp [Numpy.item]
      | none => rfl
      | str h => simp [Numpy.item, h]
  list l x h := by
    cases h with
    | real h => cases h

theorem isNumber_converts : Converts (PyValue.number (α := α)) IsNumber where
  iff v x := by
    constructor
    · intro h
      cases v <;> simp only [PyValue.number, Except.ok.injEq, reduceCtorEq] at h
      · rename_i b; subst h; cases b
        · exact .real .false
        · exact .real .true
      · subst h; exact .real (.int _)
      · subst h; exact .real (.float _)
      · subst h; exact .complex _ _
    · intro h
      cases h with
      | real h => cases h <;> simp [PyValue.number]
      | complex => rfl
  list l x h := by
    cases h with
    | real h => cases h

theorem asFloat_iff (np : Numpy α) (v : PyValue α) (a : NdArray α) :
    np.asFloat v = .ok a ↔ Denotes (IsFloat np) v a := toArray_iff (isFloat_converts np) v a

/-- the exceptions of a conversion are numpy's, never the library's -/
theorem convertAll_error (item : PyValue α → Except PyErr β)
    (h : ∀ v e, item v = .error e → e.isArguments = false) (l : List (PyValue α)) (e : PyErr)
    (he : convertAll item l = .error e) : e.isArguments = false := by
  induction l with
  | nil => cases he
  | cons v l ih =>
    simp only [convertAll, bind, Except.bind] at he
    cases hv : item v with
    | error e' => rw [hv] at he; cases he; exact h v _ hv
    | ok x =>
      rw [hv] at he
      simp only at he
      cases hl : convertAll item l with
      | error e' => rw [hl] at he; cases he; exact ih hl
      | ok y => rw [hl] at he; cases he

theorem item_error (np : Numpy α) (v : PyValue α) (e : PyErr) (h : np.item v = .error e) :
    e.isArguments = false := by
  cases v with
  | str s =>
    simp only [Numpy.item] at h
    split at h
    · cases h
    · cases h; rfl
  | complex _ _ => cases h; rfl
  | other _ => cases h; rfl
  | list _ => cases h; rfl
  | _ => cases h

theorem asFloat_error (np : Numpy α) (v : PyValue α) (e : PyErr) (h : np.asFloat v = .error e) :
    e.isArguments = false := by
  unfold Numpy.asFloat PyValue.toArray at h
  simp only [bind, Except.bind] at h
  cases hd : convertAll np.item (v.items v.shape.length) with
  | error e' => rw [hd] at h; cases h; exact convertAll_error _ (item_error np) _ _ hd
  | ok d => rw [hd] at h; cases h

theorem denotes_unique (np : Numpy α) {v : PyValue α} {a b : NdArray α} (ha : Denotes (IsFloat np) v a)
    (hb : Denotes (IsFloat np) v b) : a = b := by
  have h1 := (asFloat_iff np v a).mpr ha
  rw [(asFloat_iff np v b).mpr hb] at h1
  cases h1; rfl

/-- the shape of an object that stands for an array -/
theorem denotes_size (np : Numpy α) {v : PyValue α} {a : NdArray α} (h : Denotes (IsFloat np) v a) :
    v.size = a.size := by
  unfold PyValue.size NdArray.size
  rw [(denotes_toArray (isFloat_converts np) h).1]

end Items

end OpenControls

namespace OpenControls

open PyFloat Py NdArray Spec PyValue

variable {α : Type} [Add α] [Sub α] [Mul α] [Div α] [Neg α] [PyFloat α]

theorem orZeros_given (np : Numpy α) (n : ℕ) {v : PyValue α} {o : Option (NdArray α)}
    (h : DenotesOptional np v o) :
    np.orZeros n v = .ok (o.getD (vec (List.replicate n (lit 0)))) := by
  cases h with
  | omitted => rfl
  | given h1 h2 =>
    have : v.isNone = false := by
      cases v <;> first | rfl | exact (h1 rfl).elim
    unfold Numpy.orZeros
    rw [this]
    simpa using (asFloat_iff np _ _).mpr h2

theorem orZeros_inv (np : Numpy α) (n : ℕ) {v : PyValue α} {b : NdArray α}
    (h : np.orZeros n v = .ok b) : ∃ o, DenotesOptional np v o := by
  by_cases hv : v = .none
  · subst hv; exact ⟨none, .omitted⟩
  · have : v.isNone = false := by
      cases v <;> first | rfl | exact (hv rfl).elim
    unfold Numpy.orZeros at h
    rw [this] at h
    exact ⟨some b, .given hv ((asFloat_iff np _ _).mp (by simpa using h))⟩

theorem optional_sizes (np : Numpy α) : ∀ (vs : List (PyValue α)) (os : List (Option (NdArray α))),
    List.Forall₂ (DenotesOptional np) vs os →
    (vs.filter fun v => !v.isNone).map PyValue.size = os.filterMap (Option.map NdArray.size)
  | _, _, .nil => rfl
  | v :: _, _ :: _, .cons (l₁ := vs) (l₂ := os) h hs => by
    have ih := optional_sizes np vs os hs
    cases h with
    | omitted => simpa [PyValue.isNone] using ih
    | given h1 h2 =>
      have : v.isNone = false := by
        cases v <;> first | rfl | exact (h1 rfl).elim
      simp [this, denotes_size np h2, ih]

/-- the constructor on objects that stand for arrays -/
theorem ofValues_eq (np : Numpy α) {d r a δ : PyValue α} {d' : NdArray α}
    {r' a' δ' : Option (NdArray α)} (hd : Denotes (IsFloat np) d d') (hr : DenotesOptional np r r')
    (ha : DenotesOptional np a a') (hδ : DenotesOptional np δ δ') (name : Option String) :
    NdControl.ofValues np d r a δ name = NdControl.new d' r' a' δ' name := by
  have hs := optional_sizes np [r, a, δ] [r', a', δ'] (.cons hr (.cons ha (.cons hδ .nil)))
  have hs' : ([r, a, δ].filter fun v => !v.isNone).map PyValue.size ++ [d'.size] =
      [r', a', δ', some d'].filterMap (Option.map NdArray.size) := by
    rw [hs, show [r', a', δ', some d'] = [r', a', δ'] ++ [some d'] from rfl, List.filterMap_append]
    rfl
  unfold NdControl.ofValues NdControl.new
  rw [(asFloat_iff np d d').mpr hd]
  simp only [bind, Except.bind, hs', orZeros_given np _ hr, orZeros_given np _ ha,
    orZeros_given np _ hδ]

/-- a control is made of objects that stand for arrays only -/
theorem ofValues_inv (np : Numpy α) {d r a δ : PyValue α} {name : Option String} {c : NdControl α}
    (h : NdControl.ofValues np d r a δ name = .ok c) :
    ∃ d' r' a' δ', Denotes (IsFloat np) d d' ∧ DenotesOptional np r r' ∧ DenotesOptional np a a' ∧
      DenotesOptional np δ δ' := by
  unfold NdControl.ofValues at h
  simp only [bind, Except.bind] at h
  cases h1 : np.asFloat d with
  | error e => rw [h1] at h; cases h
  | ok d' =>
    rw [h1] at h; simp only at h
    split at h
    · cases h
    · split at h
      · cases h
      · split at h
        · cases h
        · split at h
          · cases h
          · split at h
            · cases h
            · rename_i h2
              split at h
              · cases h
              · rename_i h3
                split at h
                · cases h
                · rename_i h4
                  obtain ⟨r', hr⟩ := orZeros_inv np _ h2
                  obtain ⟨a', ha⟩ := orZeros_inv np _ h3
                  obtain ⟨δ', hδ⟩ := orZeros_inv np _ h4
                  exact ⟨d', r', a', δ', (asFloat_iff np d d').mp h1, hr, ha, hδ⟩

theorem checkArguments_inv {b : Bool} {m : String} {u : Unit} (h : checkArguments b m = .ok u) :
    b = true := by
  cases b with
  | true => rfl
  | false => cases h

/-- the constructor of sequences, as conditions on the arguments -/
theorem ofValues_sequence (np : Numpy α) (T o r a δ : PyValue α) (name : Option String)
    (q : ValueSequence α) :
    ValueSequence.ofValues np T o r a δ name = .ok q ↔
      T.real = .ok q.duration ∧ gt q.duration (lit 0) = true ∧
      o.toArray PyValue.number = .ok q.offsets ∧
      (∀ t ∈ q.offsets.data, t.geZero = true ∧ t.leReal q.duration = true) ∧
      (∃ n, q.offsets.len = .ok n ∧ r.len = .ok n ∧ a.len = .ok n ∧ δ.len = .ok n) ∧
      np.asFloat r = .ok q.rabiRotations ∧ np.asFloat a = .ok q.azimuthalAngles ∧
      np.asFloat δ = .ok q.detuningRotations ∧ name = q.name := by
  constructor
  · intro h
    unfold ValueSequence.ofValues at h
    simp only [bind, Except.bind] at h
    cases h1 : T.real with
    | error e => rw [h1] at h; cases h
    | ok t =>
      rw [h1] at h; simp only at h
      split at h
      · cases h
      · rename_i h2
        cases h3 : o.toArray PyValue.number with
        | error e => rw [h3] at h; cases h
        | ok o' =>
          rw [h3] at h; simp only at h
          split at h
          · cases h
          · rename_i h4
            cases h5 : o'.len with
            | error e => rw [h5] at h; cases h
            | ok n =>
              rw [h5] at h; simp only at h
              cases h6 : r.len with
              | error e => rw [h6] at h; cases h
              | ok n1 =>
                rw [h6] at h; simp only at h
                split at h
                · cases h
                · rename_i h7
                  cases h8 : a.len with
                  | error e => rw [h8] at h; cases h
                  | ok n2 =>
                    rw [h8] at h; simp only at h
                    split at h
                    · cases h
                    · rename_i h9
                      cases h10 : δ.len with
                      | error e => rw [h10] at h; cases h
                      | ok n3 =>
                        rw [h10] at h; simp only at h
                        split at h
                        · cases h
                        · rename_i h11
                          cases h12 : np.asFloat r with
                          | error e => rw [h12] at h; cases h
                          | ok r' =>
                            rw [h12] at h; simp only at h
                            cases h13 : np.asFloat a with
                            | error e => rw [h13] at h; cases h
                            | ok a' =>
                              rw [h13] at h; simp only at h
                              cases h14 : np.asFloat δ with
                              | error e => rw [h14] at h; cases h
                              | ok δ' =>
                                rw [h14] at h
                                simp only [pure, Except.pure, Except.ok.injEq] at h
                                subst h
                                have e1 := checkArguments_inv h7
                                have e2 := checkArguments_inv h9
                                have e3 := checkArguments_inv h11
                                rw [beq_iff_eq] at e1 e2 e3
                                subst e1 e2 e3
                                refine ⟨rfl, checkArguments_inv h2, rfl, ?_,
                                  ⟨_, h5, rfl, rfl, rfl⟩, rfl, rfl, rfl, rfl⟩
                                intro x hx
                                have := List.all_eq_true.mp (checkArguments_inv h4) x hx
                                simpa using this
  · rintro ⟨h1, h2, h3, h4, ⟨n, h5, h6, h7, h8⟩, h9, h10, h11, h12⟩
    have hall : (q.offsets.data.all fun t => t.geZero && t.leReal q.duration) = true := by
      rw [List.all_eq_true]
      intro t ht
      simp [h4 t ht]
    unfold ValueSequence.ofValues
    simp only [bind, Except.bind, h1, h2, h3, hall, h5, h6, h7, h8, h9, h10, h11, h12,
      checkArguments, beq_self_eq_true, if_true]
    rfl

end OpenControls
