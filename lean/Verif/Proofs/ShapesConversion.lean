import Verif.Spec.ShapesConversion
import Verif.Proofs.Reassigned

namespace OpenControls

open PyFloat Py NdArray Spec

section Any

variable {α : Type} [Add α] [Sub α] [Mul α] [Div α] [Neg α] [PyFloat α]

theorem convertDDS_operations (s : Sequence α) (R D m : α) (name : Option String) :
    convertDDS s R D m name =
      (do
        checkArguments (gt D (lit 0)) "Maximum detuning rate must be positive."
        checkArguments (gt R (lit 0)) "Maximum rabi rate must be positive."
        checkArguments (ge m (lit 0)) "Minimum segment duration must be greater than or equal to 0."
        checkArguments (s.rabiRotations.all fun r => ge r (lit 0))
          "Sequence contains negative values for Rabi rotations."
        checkArguments (checkValidOperation s.rabiRotations s.detuningRotations)
          "Sequence operation includes rabi rotation and detuning rotation at the same instance."
        let operations := padOperations s.duration
          (operationsOf s.offsets s.rabiRotations s.azimuthalAngles s.detuningRotations)
        if (npDiff (operations.map Operation.offset)).any (fun d => le d (lit 0)) then
          throw (.arguments "Pulse timing could not be properly deduced from the sequence offsets.")
        convertOperations s.duration operations R D m name) := by
  rfl

theorem positiveRows_line (a : NdArray α) (h : rowSize a = 1) :
    a.positiveRows = (List.range a.data.length).filter fun j => (a.data[j]?).any fun x => gt x (lit 0) := by
  unfold positiveRows
  rw [show a.shape.tail.prod = 1 from h]
  simp

theorem checkValidOperationNd_iff (r d : NdArray α) : checkValidOperationNd r d = true ↔
    ∀ (i j : ℕ) (x y : α), r.data[i]? = some x → d.data[j]? = some y → gt x (lit 0) = true →
      gt y (lit 0) = true → i / rowSize r ≠ j / rowSize d := by
  have hm : ∀ (a : NdArray α) k, k ∈ a.positiveRows ↔
      ∃ (i : ℕ) (x : α), a.data[i]? = some x ∧ gt x (lit 0) = true ∧ i / rowSize a = k := by
    intro a k
    unfold positiveRows rowSize
    simp only [List.mem_map, List.mem_filter, List.mem_range, Option.any_eq_true]
    constructor
    · rintro ⟨i, ⟨-, x, hx, hg⟩, hk⟩; exact ⟨i, x, hx, hg, hk⟩
    · rintro ⟨i, x, hx, hg, hk⟩
      exact ⟨i, ⟨(List.getElem?_eq_some_iff.mp hx).1, x, hx, hg⟩, hk⟩
  unfold checkValidOperationNd
  simp only [Bool.not_eq_true', List.any_eq_false, List.contains_eq_mem, decide_eq_true_eq, hm]
  constructor
  · intro h i j x y hx hy gx gy e
    exact h _ ⟨i, x, hx, gx, rfl⟩ ⟨j, y, hy, gy, e.symm⟩
  · rintro h k ⟨i, x, hx, gx, rfl⟩ ⟨j, y, hy, gy, e⟩
    exact h i j x y hx hy gx gy e.symm

theorem checkValidOperation_iff_items (r d : List α) : checkValidOperation r d = true ↔
    ∀ (i : ℕ) (x y : α), r[i]? = some x → d[i]? = some y → gt x (lit 0) = true →
      gt y (lit 0) = true → False := by
  unfold checkValidOperation
  simp only [Bool.not_eq_true', List.any_eq_false, id_eq]
  constructor
  · intro h i x y hx hy gx gy
    refine h true ?_ rfl
    rw [List.mem_iff_getElem?]
    exact ⟨i, by simp [List.getElem?_zipWith, hx, hy, gx, gy]⟩
  · intro h b hb hb'
    rw [List.mem_iff_getElem?] at hb
    obtain ⟨i, hi⟩ := hb
    rw [List.getElem?_zipWith] at hi
    cases hx : r[i]? with
    | none => simp [hx] at hi
    | some x =>
      cases hy : d[i]? with
      | none => simp [hx, hy] at hi
      | some y =>
        simp only [hx, hy, Option.some.injEq] at hi
        rw [← hi] at hb'
        simp only [Bool.and_eq_true] at hb'
        exact h i x y hx hy hb'.1 hb'.2

theorem checkValidOperationNd_line (r d : NdArray α) (hr : rowSize r = 1) (hd : rowSize d = 1) :
    checkValidOperationNd r d = checkValidOperation r.data d.data := by
  rw [Bool.eq_iff_iff, checkValidOperationNd_iff, checkValidOperation_iff_items, hr, hd]
  simp only [Nat.div_one]
  constructor
  · intro h i x y hx hy gx gy; exact h i i x y hx hy gx gy rfl
  · rintro h i j x y hx hy gx gy rfl; exact h i x y hx hy gx gy

/-- an array after the paddings -/
def padArray (front back : Bool) (v w : α) (x : NdArray α) : NdArray α :=
  if front || back then vec ((if front then [v] else []) ++ x.data ++ (if back then [w] else [])) else x

theorem padNd_line (T : α) (a : NdOps α) {n : ℕ} {rest : List ℕ} (hs : a.offsets.shape = n :: rest)
    (hn : n ≠ 0) (h1 : rest.prod = 1) {t e : α} (ht : a.offsets.data.head? = some t)
    (he : a.offsets.data.getLast? = some e) :
    padNd T a = .ok ⟨padArray (ne t (lit 0)) (ne e T) (lit 0) T a.offsets,
      padArray (ne t (lit 0)) (ne e T) (lit 0) (lit 0) a.rabi,
      padArray (ne t (lit 0)) (ne e T) (lit 0) (lit 0) a.azimuthal,
      padArray (ne t (lit 0)) (ne e T) (lit 0) (lit 0) a.detuning⟩ := by
  obtain ⟨o, r, p, d⟩ := a
  simp only at hs ht he
  have hsize : o.size ≠ 0 := by
    unfold NdArray.size; rw [hs, List.prod_cons, h1]; simpa using hn
  have hlast : ∀ v : α, (v :: o.data).getLast? = some e := by
    intro v
    rw [List.getLast?_cons, he]; rfl
  unfold padNd
  simp only [if_neg hsize, itemDiffers, hs, ht, if_pos h1]
  cases hF : ne t (lit 0)
  · simp only [except_ok_bind, Bool.false_eq_true, if_false, hs, he, if_pos h1]
    cases hB : ne e T <;> simp [padArray, NdArray.appendBack, pure, Except.pure]
  · simp only [except_ok_bind, if_true, NdArray.appendFront, vec, hlast, List.prod_nil]
    cases hB : ne e T <;> simp [padArray, NdArray.appendBack, pure, Except.pure, vec]

theorem padNd_rows (T : α) (a : NdOps α) {n : ℕ} {rest : List ℕ} (hs : a.offsets.shape = n :: rest)
    (hsize : a.offsets.size ≠ 0) (h1 : rest.prod ≠ 1) {t : α} (ht : a.offsets.data.head? = some t) :
    ∃ text, padNd T a = .error (.valueError text) := by
  obtain ⟨o, r, p, d⟩ := a
  simp only at hs ht hsize
  have h0 : rest.prod ≠ 0 := by
    intro h; apply hsize; unfold NdArray.size; rw [hs, List.prod_cons, h, mul_zero]
  unfold padNd
  simp only [if_neg hsize, itemDiffers, hs, ht, if_neg h1, if_neg h0]
  exact ⟨_, rfl⟩

theorem pad_eq_of_ends (T : α) {ops : List (Operation α)} {t e : α}
    (ht : (ops.map Operation.offset).head? = some t) (he : (ops.map Operation.offset).getLast? = some e) :
    padOperations T ops = (if ne t (lit 0) then [idleAt (lit 0)] else []) ++ ops ++
      (if ne e T then [idleAt T] else []) := by
  cases ops with
  | nil => simp at ht
  | cons o ops =>
    simp only [List.map_cons, List.head?_cons, Option.some.injEq] at ht
    have hl : ∃ l, (o :: ops).getLast? = some l ∧ l.offset = e := by
      rw [List.getLast?_map, Option.map_eq_some_iff] at he
      exact he
    obtain ⟨l, hl, hle⟩ := hl
    unfold padOperations
    simp only [List.isEmpty_cons, Bool.false_eq_true, if_false, ht]
    cases hF : ne t (lit 0)
    · simp only [Bool.false_eq_true, if_false, hl, hle, List.nil_append]
      cases hB : ne e T <;> simp
    · have : (idleAt (lit 0) :: o :: ops).getLast? = some l := by
        rw [List.getLast?_cons, hl]; rfl
      simp only [if_true, this, hle]
      cases hB : ne e T <;> simp

theorem operationsOf_append (o r a d : List α) (ho : r.length = o.length) (ha : a.length = o.length)
    (hd : d.length = o.length) (o' r' a' d' : List α) :
    operationsOf (o ++ o') (r ++ r') (a ++ a') (d ++ d') =
      operationsOf o r a d ++ operationsOf o' r' a' d' := by
  induction o generalizing r a d with
  | nil =>
    rw [List.length_nil, List.length_eq_zero_iff] at ho ha hd
    subst ho ha hd
    rfl
  | cons t o ih =>
    cases r with
    | nil => cases ho
    | cons x r =>
    cases a with
    | nil => cases ha
    | cons y a =>
    cases d with
    | nil => cases hd
    | cons z d =>
      simp only [List.cons_append, operationsOf]
      rw [ih r a d (by simpa using ho) (by simpa using ha) (by simpa using hd)]

theorem operationsOf_offsets (o r a d : List α) (ho : r.length = o.length) (ha : a.length = o.length)
    (hd : d.length = o.length) : (operationsOf o r a d).map Operation.offset = o := by
  induction o generalizing r a d with
  | nil => rfl
  | cons t o ih =>
    cases r with
    | nil => cases ho
    | cons x r =>
    cases a with
    | nil => cases ha
    | cons y a =>
    cases d with
    | nil => cases hd
    | cons z d =>
      simp only [operationsOf, List.map_cons]
      rw [ih r a d (by simpa using ho) (by simpa using ha) (by simpa using hd)]

theorem operationsOf_padArray (T : α) {o r a d : NdArray α} {t e : α} (ht : o.data.head? = some t)
    (he : o.data.getLast? = some e) (hr : r.data.length = o.data.length)
    (ha : a.data.length = o.data.length) (hd : d.data.length = o.data.length) :
    operationsOf (padArray (ne t (lit 0)) (ne e T) (lit 0) T o).data
      (padArray (ne t (lit 0)) (ne e T) (lit 0) (lit 0) r).data
      (padArray (ne t (lit 0)) (ne e T) (lit 0) (lit 0) a).data
      (padArray (ne t (lit 0)) (ne e T) (lit 0) (lit 0) d).data =
    padOperations T (operationsOf o.data r.data a.data d.data) := by
  have hm := operationsOf_offsets _ _ _ _ hr ha hd
  rw [pad_eq_of_ends T (t := t) (e := e) (by rw [hm, ht]) (by rw [hm, he])]
  cases hF : ne t (lit 0) <;> cases hB : ne e T <;>
    simp only [padArray, Bool.or_self, Bool.or_true, Bool.or_false, Bool.true_or, Bool.false_or, if_true,
      Bool.false_eq_true, if_false, vec, List.nil_append, List.append_nil, List.append_assoc]
  · rw [operationsOf_append _ _ _ _ hr ha hd]; rfl
  · rfl
  · show idleAt (lit 0) :: operationsOf (o.data ++ [T]) (r.data ++ [lit 0]) (a.data ++ [lit 0])
      (d.data ++ [lit 0]) = _
    rw [operationsOf_append _ _ _ _ hr ha hd]; rfl

theorem ends_of_size {o : NdArray α} (ho : Regular o) (hs : o.size ≠ 0) :
    ∃ t e, o.data.head? = some t ∧ o.data.getLast? = some e := by
  have : o.data ≠ [] := by
    intro h; apply hs; unfold NdArray.size; rw [← ho, h]; rfl
  exact ⟨_, _, List.head?_eq_some_head this, List.getLast?_eq_some_getLast this⟩

theorem rowSize_of_length {a o : NdArray α} {n : ℕ} (ha : Regular a) (hn : FirstAxis n a) (ho : Regular o)
    (hno : FirstAxis n o) (h0 : n ≠ 0) (h1 : rowSize o = 1) (hl : a.data.length = o.data.length) :
    rowSize a = 1 := by
  obtain ⟨ra, ha'⟩ := hn
  obtain ⟨ro, ho'⟩ := hno
  unfold Regular at ha ho
  unfold rowSize at h1 ⊢
  rw [ha'] at ha ⊢
  rw [ho'] at ho h1
  simp only [List.tail_cons, List.prod_cons] at ha ho h1 ⊢
  rw [ha, ho, h1] at hl
  exact Nat.eq_of_mul_eq_mul_left (Nat.pos_of_ne_zero h0) hl

theorem padArray_offsets (T : α) {o : NdArray α} {F B : Bool} :
    (padArray F B (lit 0) T o).someDiffNonpositive = true →
    (npDiff (padArray F B (lit 0) T o).data).any (fun d => le d (lit 0)) = true := by
  intro h
  unfold someDiffNonpositive at h
  split at h
  · exact h
  · cases h

theorem convertNd_ok {s : NdSequence α} (hw : WellShaped s) (hsize : s.offsets.size ≠ 0) {R D m : α}
    {name : Option String} {c : DrivenControl α} (hc : convertNd s R D m name = .ok c) :
    (rowSize s.offsets = 1 ∧ rowSize s.rabiRotations = 1 ∧ rowSize s.azimuthalAngles = 1 ∧
      rowSize s.detuningRotations = 1) ∧
    ((∃ t, s.offsets.data.head? = some t ∧ ne t (lit 0) = true) ∨
      (∃ e, s.offsets.data.getLast? = some e ∧ ne e s.duration = true) ∨
      (s.rabiRotations.shape = s.offsets.shape ∧ s.azimuthalAngles.shape = s.offsets.shape ∧
        s.detuningRotations.shape = s.offsets.shape)) ∧
    (convertDDS (flattened s) R D m name = .ok c ∨
      (2 ≤ s.offsets.shape.length ∧ (∃ t, s.offsets.data.head? = some t ∧ ne t (lit 0) = false) ∧
        (∃ e, s.offsets.data.getLast? = some e ∧ ne e s.duration = false) ∧
        (npDiff s.offsets.data).any (fun d => le d (lit 0)) = true ∧
        ge m (lit 0) = true ∧
        convertOperations s.duration (operationsOf s.offsets.data s.rabiRotations.data
          s.azimuthalAngles.data s.detuningRotations.data) R D m name = .ok c)) := by
  obtain ⟨T, o, r, a, d, nm⟩ := s
  obtain ⟨ho, hr, ha, hd, n, hno, hnr, hna, hnd⟩ := hw
  simp only at ho hr ha hd hno hnr hna hnd hsize
  obtain ⟨t, e, ht, he⟩ := ends_of_size ho hsize
  obtain ⟨rest, hrest⟩ := hno
  have hn : n ≠ 0 := by
    rintro rfl
    apply hsize
    unfold NdArray.size; rw [hrest]; simp
  unfold convertNd at hc
  simp only [checkArguments_bind_ok] at hc
  obtain ⟨c1, c2, c3, c4, c5, hc⟩ := hc
  by_cases h1 : rest.prod = 1
  swap
  · obtain ⟨text, hx⟩ := padNd_rows T ⟨o, r, a, d⟩ hrest hsize h1 ht
    rw [hx] at hc
    cases hc
  rw [padNd_line T ⟨o, r, a, d⟩ hrest hn h1 ht he] at hc
  simp only [except_ok_bind] at hc
  have h1' : rowSize o = 1 := by unfold rowSize; rw [hrest]; exact h1
  cases hdiff : (padArray (ne t (lit 0)) (ne e T) (lit 0) T o).someDiffNonpositive with
  | true => rw [hdiff] at hc; cases hc
  | false =>
  rw [hdiff] at hc
  simp only [Bool.false_eq_true, if_false] at hc
  split at hc
  · cases hc
  rename_i hsh
  simp only [Bool.not_eq_true', Bool.not_eq_false, Bool.and_eq_true, beq_iff_eq] at hsh
  obtain ⟨⟨s1, s2⟩, s3⟩ := hsh
  have hlen : ∀ {x : NdArray α}, Regular x → (padArray (ne t (lit 0)) (ne e T) (lit 0) (lit 0) x).shape =
      (padArray (ne t (lit 0)) (ne e T) (lit 0) T o).shape → x.data.length = o.data.length := by
    intro x hx h
    unfold padArray at h
    cases hF : ne t (lit 0) <;> cases hB : ne e T <;> rw [hF, hB] at h <;> simp [vec] at h
    · unfold Regular at hx ho; rw [hx, ho, h]
    all_goals exact h
  have lr := hlen hr s1
  have la := hlen ha s2
  have ld := hlen hd s3
  have rr := rowSize_of_length hr hnr ho ⟨rest, hrest⟩ hn h1' lr
  have ra := rowSize_of_length ha hna ho ⟨rest, hrest⟩ hn h1' la
  have rd := rowSize_of_length hd hnd ho ⟨rest, hrest⟩ hn h1' ld
  refine ⟨⟨h1', rr, ra, rd⟩, ?_, ?_⟩
  · cases hF : ne t (lit 0)
    · cases hB : ne e T
      · rw [hF, hB] at s1 s2 s3
        exact .inr (.inr ⟨s1, s2, s3⟩)
      · exact .inr (.inl ⟨e, he, hB⟩)
    · exact .inl ⟨t, ht, hF⟩
  rw [operationsOf_padArray T ht he lr la ld] at hc
  have hm := operationsOf_offsets _ _ _ _ lr la ld
  have hoff : (padOperations T (operationsOf o.data r.data a.data d.data)).map Operation.offset =
      (padArray (ne t (lit 0)) (ne e T) (lit 0) T o).data := by
    rw [pad_eq_of_ends T (t := t) (e := e) (by rw [hm, ht]) (by rw [hm, he])]
    simp only [List.map_append, hm]
    cases hF : ne t (lit 0) <;> cases hB : ne e T <;> simp [padArray, vec, idleAt]
  cases hd2 : (npDiff (padArray (ne t (lit 0)) (ne e T) (lit 0) T o).data).any (fun d => le d (lit 0)) with
  | false =>
    left
    rw [convertDDS_operations]
    simp only [checkArguments_bind_ok, flattened]
    refine ⟨c1, c2, c3, c4, ?_, ?_⟩
    · rw [← checkValidOperationNd_line r d rr rd]; exact c5
    · simp only [hoff, hd2, Bool.false_eq_true, if_false]
      exact hc
  | true =>
    right
    have hsame : ne t (lit 0) = false ∧ ne e T = false ∧ 2 ≤ o.shape.length := by
      unfold someDiffNonpositive at hdiff
      have hshape : ∀ k, (padArray (ne t (lit 0)) (ne e T) (lit 0) T o).shape ≠ [k] := by
        intro k hk
        rw [hk] at hdiff
        rw [hd2] at hdiff
        cases hdiff
      cases hF : ne t (lit 0) <;> cases hB : ne e T <;> rw [hF, hB] at hshape <;>
        simp [padArray, vec] at hshape
      refine ⟨rfl, rfl, ?_⟩
      rw [hrest] at hshape ⊢
      cases rest with
      | nil => exact absurd rfl (hshape n)
      | cons => simp
    obtain ⟨hF, hB, hl⟩ := hsame
    rw [hF, hB] at hd2
    rw [pad_eq_of_ends T (t := t) (e := e) (by rw [hm, ht]) (by rw [hm, he]), hF, hB] at hc
    refine ⟨hl, ⟨t, ht, hF⟩, ⟨e, he, hB⟩, by simpa [padArray] using hd2, c3, by simpa using hc⟩

theorem convertNd_of_flat {s : NdSequence α} (hw : WellShaped s) (hsize : s.offsets.size ≠ 0)
    (h1 : rowSize s.offsets = 1) (h2 : rowSize s.rabiRotations = 1) (h3 : rowSize s.azimuthalAngles = 1)
    (h4 : rowSize s.detuningRotations = 1) {t e : α} (ht : s.offsets.data.head? = some t)
    (he : s.offsets.data.getLast? = some e)
    (hs : ne t (lit 0) = true ∨ ne e s.duration = true ∨
      (s.rabiRotations.shape = s.offsets.shape ∧ s.azimuthalAngles.shape = s.offsets.shape ∧
        s.detuningRotations.shape = s.offsets.shape)) {R D m : α}
    {name : Option String} {c : DrivenControl α} (hc : convertDDS (flattened s) R D m name = .ok c) :
    convertNd s R D m name = .ok c := by
  obtain ⟨T, o, r, a, d, nm⟩ := s
  obtain ⟨ho, hr, ha, hd, n, ⟨rest, hrest⟩, ⟨rr, hrr⟩, ⟨ra, hra⟩, ⟨rd, hrd⟩⟩ := hw
  simp only [rowSize] at *
  rw [hrest] at h1
  rw [hrr] at h2
  rw [hra] at h3
  rw [hrd] at h4
  simp only [List.tail_cons] at h1 h2 h3 h4
  have lo : o.data.length = n := by rw [ho, hrest, List.prod_cons, h1, mul_one]
  have lr : r.data.length = o.data.length := by rw [lo, hr, hrr, List.prod_cons, h2, mul_one]
  have la : a.data.length = o.data.length := by rw [lo, ha, hra, List.prod_cons, h3, mul_one]
  have ld : d.data.length = o.data.length := by rw [lo, hd, hrd, List.prod_cons, h4, mul_one]
  have hn : n ≠ 0 := by
    rintro rfl
    apply hsize
    unfold NdArray.size; rw [hrest]; simp
  rw [convertDDS_operations] at hc
  simp only [checkArguments_bind_ok, flattened] at hc
  obtain ⟨c1, c2, c3, c4, c5, hc⟩ := hc
  have hm := operationsOf_offsets _ _ _ _ lr la ld
  have hoff : (padOperations T (operationsOf o.data r.data a.data d.data)).map Operation.offset =
      (padArray (ne t (lit 0)) (ne e T) (lit 0) T o).data := by
    rw [pad_eq_of_ends T (t := t) (e := e) (by rw [hm, ht]) (by rw [hm, he])]
    simp only [List.map_append, hm]
    cases hF : ne t (lit 0) <;> cases hB : ne e T <;> simp [padArray, vec, idleAt]
  unfold convertNd
  simp only [checkArguments_bind_ok]
  refine ⟨c1, c2, c3, c4, ?_, ?_⟩
  · rw [checkValidOperationNd_line r d (by rw [rowSize, hrr]; exact h2) (by rw [rowSize, hrd]; exact h4)]
    exact c5
  rw [padNd_line T ⟨o, r, a, d⟩ hrest hn h1 ht he]
  simp only [except_ok_bind]
  cases hd2 : (npDiff (padArray (ne t (lit 0)) (ne e T) (lit 0) T o).data).any (fun d => le d (lit 0)) with
  | true => simp only [hoff, hd2] at hc; cases hc
  | false =>
  simp only [hoff, hd2] at hc
  have hdiff : (padArray (ne t (lit 0)) (ne e T) (lit 0) T o).someDiffNonpositive = false := by
    cases hx : (padArray (ne t (lit 0)) (ne e T) (lit 0) T o).someDiffNonpositive with
    | false => rfl
    | true => rw [padArray_offsets T hx] at hd2; cases hd2
  rw [hdiff, operationsOf_padArray T ht he lr la ld]
  have hsh : ∀ {x : NdArray α}, x.data.length = o.data.length →
      (ne t (lit 0) = true ∨ ne e T = true ∨ x.shape = o.shape) →
      (padArray (ne t (lit 0)) (ne e T) (lit 0) (lit 0) x).shape =
      (padArray (ne t (lit 0)) (ne e T) (lit 0) T o).shape := by
    intro x hl hx
    cases hF : ne t (lit 0) <;> cases hB : ne e T <;> rw [hF, hB] at hx <;>
      simp [padArray, vec, hl] at hx ⊢
    exact hx
  rw [hsh lr (by tauto), hsh la (by tauto), hsh ld (by tauto)]
  simpa using hc

/-- the conversion from the padding on -/
def tailNd (T : α) (a : NdOps α) (R D m : α) (name : Option String) : Except PyErr (DrivenControl α) := do
  let a ← padNd T a
  if a.offsets.someDiffNonpositive then
    throw (.arguments "Pulse timing could not be properly deduced from the sequence offsets.")
  if !(a.rabi.shape == a.offsets.shape && a.azimuthal.shape == a.offsets.shape &&
      a.detuning.shape == a.offsets.shape) then
    throw (.valueError "all the input array dimensions except for the concatenation axis must match exactly")
  convertOperations T (operationsOf a.offsets.data a.rabi.data a.azimuthal.data a.detuning.data) R D m name

theorem tailNd_flat (T : α) {o r a d : List α} (ho : o ≠ []) (hr : r.length = o.length)
    (ha : a.length = o.length) (hd : d.length = o.length) (R D m : α) (name : Option String) :
    tailNd T ⟨vec o, vec r, vec a, vec d⟩ R D m name =
      (do
        let operations := padOperations T (operationsOf o r a d)
        if (npDiff (operations.map Operation.offset)).any (fun d => le d (lit 0)) then
          throw (.arguments "Pulse timing could not be properly deduced from the sequence offsets.")
        convertOperations T operations R D m name) := by
  have ht := List.head?_eq_some_head ho
  have he := List.getLast?_eq_some_getLast ho
  generalize o.head ho = t at ht
  generalize o.getLast ho = e at he
  have hm := operationsOf_offsets _ _ _ _ hr ha hd
  have hoff : (padOperations T (operationsOf o r a d)).map Operation.offset =
      (padArray (ne t (lit 0)) (ne e T) (lit 0) T (vec o)).data := by
    rw [pad_eq_of_ends T (t := t) (e := e) (by rw [hm, ht]) (by rw [hm, he])]
    simp only [List.map_append, hm]
    cases hF : ne t (lit 0) <;> cases hB : ne e T <;> simp [padArray, vec, idleAt]
  have hops := operationsOf_padArray T (o := vec o) (r := vec r) (a := vec a) (d := vec d) ht he hr ha hd
  unfold tailNd
  rw [padNd_line T ⟨vec o, vec r, vec a, vec d⟩ (n := o.length) (rest := []) rfl
    (by simpa using ho) rfl ht he]
  simp only [except_ok_bind, hops]
  have hshape : ∀ {v w : α} {x : List α}, x.length = o.length →
      (padArray (ne t (lit 0)) (ne e T) v w (vec x)).shape =
        [(padArray (ne t (lit 0)) (ne e T) (lit 0) T (vec o)).data.length] := by
    intro v w x hx
    cases hF : ne t (lit 0) <;> cases hB : ne e T <;> simp [padArray, vec, hx]
  have hdiff : (padArray (ne t (lit 0)) (ne e T) (lit 0) T (vec o)).someDiffNonpositive =
      (npDiff ((padOperations T (operationsOf o r a d)).map Operation.offset)).any
        (fun d => le d (lit 0)) := by
    unfold someDiffNonpositive
    rw [hshape rfl, hoff]
  rw [hshape hr, hshape ha, hshape hd, hshape rfl]
  simp only [hdiff]
  simp only [vec] at *
  simp

theorem convertNd_tail (s : NdSequence α) (R D m : α) (name : Option String) :
    convertNd s R D m name =
      (do
        checkArguments (gt D (lit 0)) "Maximum detuning rate must be positive."
        checkArguments (gt R (lit 0)) "Maximum rabi rate must be positive."
        checkArguments (ge m (lit 0)) "Minimum segment duration must be greater than or equal to 0."
        checkArguments (s.rabiRotations.data.all fun r => ge r (lit 0))
          "Sequence contains negative values for Rabi rotations."
        checkArguments (checkValidOperationNd s.rabiRotations s.detuningRotations)
          "Sequence operation includes rabi rotation and detuning rotation at the same instance."
        tailNd s.duration ⟨s.offsets, s.rabiRotations, s.azimuthalAngles, s.detuningRotations⟩ R D m
          name) := rfl

theorem tailNd_empty (T : α) {a : NdOps α} (h : a.offsets.size = 0) (R D m : α) (name : Option String) :
    tailNd T a R D m name =
      tailNd T ⟨vec [lit 0, T], vec [lit 0, lit 0], vec [lit 0, lit 0], vec [lit 0, lit 0]⟩ R D m name := by
  unfold tailNd padNd
  simp only [if_pos h]
  rfl

theorem convertNd_flat (s : Sequence α) (hr : s.rabiRotations.length = s.offsets.length)
    (ha : s.azimuthalAngles.length = s.offsets.length) (hd : s.detuningRotations.length = s.offsets.length)
    (R D m : α) (name : Option String) :
    convertNd (flatSequence s) R D m name = convertDDS s R D m name := by
  obtain ⟨T, o, r, a, d, nm⟩ := s
  simp only at hr ha hd
  rw [convertNd_tail, convertDDS_operations]
  simp only [flatSequence]
  rw [checkValidOperationNd_line _ _ rfl rfl]
  have key : tailNd T ⟨vec o, vec r, vec a, vec d⟩ R D m name =
      (do
        let operations := padOperations T (operationsOf o r a d)
        if (npDiff (operations.map Operation.offset)).any (fun d => le d (lit 0)) then
          throw (.arguments "Pulse timing could not be properly deduced from the sequence offsets.")
        convertOperations T operations R D m name) := by
    by_cases ho : o = []
    · subst ho
      rw [List.length_nil, List.length_eq_zero_iff] at hr ha hd
      subst hr ha hd
      rw [tailNd_empty T rfl, tailNd_flat T (o := [lit 0, T]) (r := [lit 0, lit 0])
        (a := [lit 0, lit 0]) (d := [lit 0, lit 0]) (by simp) rfl rfl rfl]
      rfl
    · exact tailNd_flat T ho hr ha hd R D m name
  rw [key]
  rfl

end Any

section Real

open RealInst

/-- a pulse lies in its window -/
theorem shifted_windows {T R D m : ℝ} (hm : 0 ≤ m) :
    ∀ {ops : List (Operation ℝ)}, (∀ p ∈ ops, 0 ≤ p.offset ∧ p.offset ≤ T) →
      List.Forall₂ (fun p w => w.1 ≤ p.offset ∧ p.offset ≤ w.2) ops
        (shiftLast T (shiftFirst (ops.map (pulseStartEnd R D m)))) := by
  intro ops h
  have zl : (PyFloat.lit 0 : ℝ) = 0 := by simp
  have half : ∀ p, 0 ≤ halfPulseDuration R D m p := by
    intro p
    unfold halfPulseDuration
    simp only [pyMax_eq, lit_eq]
    split
    · have := le_max_right (p.rabi / R) m; push_cast; linarith
    · split
      · have := le_max_right (PyFloat.abs p.detuning / D) m; push_cast; linarith
      · simp
  have h0 : List.Forall₂ (fun (p : Operation ℝ) (w : ℝ × ℝ) => w.1 ≤ p.offset ∧ p.offset ≤ w.2) ops
      (ops.map (pulseStartEnd R D m)) := by
    rw [List.forall₂_map_right_iff, List.forall₂_same]
    intro p _
    have := half p
    unfold pulseStartEnd
    exact ⟨by simp; exact this, by simp; exact this⟩
  have h1 : List.Forall₂ (fun (p : Operation ℝ) (w : ℝ × ℝ) => w.1 ≤ p.offset ∧ p.offset ≤ w.2) ops
      (shiftFirst (ops.map (pulseStartEnd R D m))) := by
    revert h0
    generalize ops.map (pulseStartEnd R D m) = ws
    intro h0
    cases h0 with
    | nil => exact .nil
    | cons hw ht =>
      rename_i p w ps ws
      obtain ⟨x, y⟩ := w
      unfold shiftFirst
      simp only [zl]
      split
      · rename_i hlt
        have hlt : x < 0 := by simpa using hlt
        have hp := h p (by simp)
        refine .cons ⟨?_, ?_⟩ ht
        · simp; exact hp.1
        · simp only at hw ⊢; linarith [hw.2]
      · exact .cons hw ht
  revert h1
  generalize shiftFirst (ops.map (pulseStartEnd R D m)) = ws
  intro h1
  clear h0
  induction h1 with
  | nil => exact .nil
  | cons hw ht ih =>
    rename_i p w ps ws
    have ih := ih fun q hq => h q (by simp [hq])
    cases ht with
    | nil =>
      obtain ⟨x, y⟩ := w
      unfold shiftLast
      simp only
      split
      · rename_i hgt
        have hgt : T < y := by simpa using hgt
        have hp := h p (by simp)
        refine .cons ⟨?_, ?_⟩ .nil
        · simp only at hw ⊢; linarith [hw.1]
        · simp; exact hp.2
      · exact .cons hw .nil
    | cons hw' ht' => exact .cons hw ih

/-- offsets a conversion accepts are out of order by at most numpy's tolerance -/
theorem convertOperations_order {T R D m : ℝ} (hm : 0 ≤ m)
    {ops : List (Operation ℝ)} (h : ∀ p ∈ ops, 0 ≤ p.offset ∧ p.offset ≤ T) {name : Option String}
    {c : DrivenControl ℝ} (hc : convertOperations T ops R D m name = .ok c) :
    (ops.map Operation.offset).IsChain fun x y => x ≤ y + 1 / 10 ^ 8 := by
  have hw := shifted_windows (R := R) (D := D) hm h
  unfold convertOperations at hc
  simp only at hc
  revert hc hw
  generalize shiftLast T (shiftFirst (ops.map (pulseStartEnd R D m))) = ws
  intro hw hc
  have hg : (gapDurations ws).all (fun g => gt g m || isClose g m) = true := by
    by_contra hn
    rw [Bool.not_eq_true] at hn
    rw [hn] at hc
    cases hc
  clear hc h
  induction hw with
  | nil => simp
  | cons hp ht ih =>
    rename_i p w ps ws
    cases ht with
    | nil => simp
    | cons hq ht' =>
      rename_i q v ps ws
      simp only [gapDurations, List.all_cons, Bool.and_eq_true] at hg
      have ih := ih hg.2
      simp only [List.map_cons, List.isChain_cons_cons] at ih ⊢
      refine ⟨?_, ih⟩
      have hgap : m - (1 / 10 ^ 8 + 1 / 10 ^ 5 * |m|) ≤ v.1 - w.2 := by
        rcases Bool.or_eq_true _ _ ▸ hg.1 with hgt | hcl
        · have : m < v.1 - w.2 := by simpa using hgt
          have := abs_nonneg m
          linarith
        · have := (isClose_near _ _).mp hcl
          unfold NearValue at this
          linarith [(abs_le.mp this).1]
      rw [abs_of_nonneg hm] at hgap
      linarith [hp.2, hq.1]

end Real

end OpenControls
