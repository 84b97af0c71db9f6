import Verif.Proofs.Values
import Verif.Props.Shapes
import Verif.Props.Extended

/-!
# C106: which Python objects the constructors accept

The two constructors on arbitrary objects (`Verif/Model/Values.lean`).
-/

namespace OpenControls

open PyFloat Py Spec NdArray

section Any
variable {α : Type} [Add α] [Sub α] [Mul α] [Div α] [Neg α] [PyFloat α]

/-- **C106.** A control is made of exactly those objects that stand for arrays of floats from which a
control is made (C79); an omitted argument is `None`.  Every arithmetic. -/
theorem C106_control (np : Numpy α) (d r a δ : PyValue α) (name : Option String) (c : NdControl α) :
    NdControl.ofValues np d r a δ name = .ok c ↔
      ∃ d' r' a' δ', Denotes (IsFloat np) d d' ∧ DenotesOptional np r r' ∧ DenotesOptional np a a' ∧
        DenotesOptional np δ δ' ∧ NdControl.new d' r' a' δ' name = .ok c := by
  constructor
  · intro h
    obtain ⟨d', r', a', δ', h1, h2, h3, h4⟩ := ofValues_inv np h
    exact ⟨d', r', a', δ', h1, h2, h3, h4, by rw [← ofValues_eq np h1 h2 h3 h4]; exact h⟩
  · rintro ⟨d', r', a', δ', h1, h2, h3, h4, h5⟩
    rw [ofValues_eq np h1 h2 h3 h4, h5]

/-- **C106.** An object stands for at most one array. -/
theorem C106_unique (np : Numpy α) (v : PyValue α) (a b : NdArray α)
    (ha : Denotes (IsFloat np) v a) (hb : Denotes (IsFloat np) v b) : a = b :=
  denotes_unique np ha hb

/-- **C106.** Lists of numbers give the control the rest of the model has, errors included. -/
theorem C106_lists (np : Numpy α) (d r a δ : List α) (name : Option String) :
    NdControl.ofValues np (.list (d.map .float)) (.list (r.map .float)) (.list (a.map .float))
        (.list (δ.map .float)) name =
      (DrivenControl.new d (some r) (some a) (some δ) name).map flatControl ∧
    NdControl.ofValues np (.list (d.map .float)) .none .none .none name =
      (DrivenControl.new d none none none name).map flatControl := by
  have key : ∀ l : List α, Denotes (IsFloat np) (.list (l.map .float)) (vec l) := by
    intro l
    induction l with
    | nil => exact .empty
    | cons x l ih =>
      cases l with
      | nil => exact .one (.single (.real (.float x)))
      | cons y l => exact .more (.single (.real (.float x))) ih
  have opt : ∀ l : List α, DenotesOptional np (.list (l.map .float)) (some (vec l)) :=
    fun l => .given (by simp) (key l)
  constructor
  · rw [ofValues_eq np (key d) (opt r) (opt a) (opt δ) name]
    exact (C79_flat d (some r) (some a) (some δ) name).1
  · rw [ofValues_eq np (key d) .omitted .omitted .omitted name]
    exact (C79_flat d none none none name).1

/-- **C106.** Durations that stand for no array raise an exception of numpy, not the
`ArgumentsValueError` of the library. -/
theorem C106_bad_durations (np : Numpy α) (d r a δ : PyValue α) (name : Option String)
    (h : ∀ d', ¬ Denotes (IsFloat np) d d') :
    ∃ e, NdControl.ofValues np d r a δ name = .error e ∧ e.isArguments = false := by
  cases hd : np.asFloat d with
  | ok d' => exact (h d' ((asFloat_iff np d d').mp hd)).elim
  | error e =>
    refine ⟨e, ?_, asFloat_error np d e hd⟩
    unfold NdControl.ofValues
    rw [hd]; rfl

/-- **C106.** A sequence is made of: a duration that is a real number above zero; offsets that are numbers,
possibly complex, within the sequence; and rotations with as many items (`len`) as there are offsets. -/
theorem C106_sequence (np : Numpy α) (T o r a δ : PyValue α) (name : Option String)
    (q : ValueSequence α) :
    ValueSequence.ofValues np T o r a δ name = .ok q ↔
      IsReal T q.duration ∧ gt q.duration (lit 0) = true ∧
      Denotes IsNumber o q.offsets ∧
      (∀ t ∈ q.offsets.data, t.geZero = true ∧ t.leReal q.duration = true) ∧
      (∃ n, FirstAxis n q.offsets ∧ SizedFloats np n r q.rabiRotations ∧
        SizedFloats np n a q.azimuthalAngles ∧ SizedFloats np n δ q.detuningRotations) ∧
      q.name = name := by
  have hlen : ∀ n, q.offsets.len = .ok n ↔ FirstAxis n q.offsets := by
    intro n
    unfold NdArray.len FirstAxis
    cases q.offsets.shape with
    | nil => simp
    | cons m s => simp
  have hsized : ∀ (n : ℕ) (v : PyValue α) (b : NdArray α),
      (v.len = .ok n ∧ np.asFloat v = .ok b) ↔ SizedFloats np n v b := by
    intro n v b
    unfold SizedFloats
    rw [asFloat_iff, and_comm]
    refine and_congr_right fun hv => ?_
    cases v with
    | other k =>
      exfalso
      cases hv with
      | single h => cases h with | real h => cases h
    | _ => simp [PyValue.len]
  rw [ofValues_sequence, isReal_iff, toArray_iff isNumber_converts]
  constructor
  · rintro ⟨h1, h2, h3, h4, ⟨n, h5, h6, h7, h8⟩, h9, h10, h11, h12⟩
    exact ⟨h1, h2, h3, h4, ⟨n, (hlen n).mp h5, (hsized n _ _).mp ⟨h6, h9⟩,
      (hsized n _ _).mp ⟨h7, h10⟩, (hsized n _ _).mp ⟨h8, h11⟩⟩, h12.symm⟩
  · rintro ⟨h1, h2, h3, h4, ⟨n, h5, h6, h7, h8⟩, h12⟩
    obtain ⟨a1, b1⟩ := (hsized n _ _).mpr h6
    obtain ⟨a2, b2⟩ := (hsized n _ _).mpr h7
    obtain ⟨a3, b3⟩ := (hsized n _ _).mpr h8
    exact ⟨h1, h2, h3, h4, ⟨n, (hlen n).mpr h5, a1, a2, a3⟩, b1, b2, b3, h12.symm⟩

/-- **C106.** Lists of numbers give the sequence the rest of the model has, errors included. -/
theorem C106_sequence_lists (np : Numpy α) (T : α) (o r a δ : List α) (name : Option String) :
    ValueSequence.ofValues np (.float T) (.list (o.map .float)) (.list (r.map .float))
        (.list (a.map .float)) (.list (δ.map .float)) name =
      (Sequence.new T o r a δ name).map fun s =>
        ⟨s.duration, ⟨[s.offsets.length], s.offsets.map .real⟩, vec s.rabiRotations,
          vec s.azimuthalAngles, vec s.detuningRotations, s.name⟩ := by
  have key : ∀ l : List α, np.asFloat (.list (l.map .float)) = .ok (vec l) := by
    intro l
    rw [asFloat_iff]
    induction l with
    | nil => exact .empty
    | cons x l ih =>
      cases l with
      | nil => exact .one (.single (.real (.float x)))
      | cons y l => exact .more (.single (.real (.float x))) ih
  have off : (PyValue.list (o.map .float)).toArray PyValue.number =
      .ok ⟨[o.length], o.map PyNumber.real⟩ := by
    rw [toArray_iff isNumber_converts]
    induction o with
    | nil => exact .empty
    | cons x l ih =>
      cases l with
      | nil => exact .one (.single (.real (.float x)))
      | cons y l => exact .more (.single (.real (.float x))) ih
  unfold ValueSequence.ofValues Sequence.new
  rw [off]
  simp only [bind, Except.bind, PyValue.real, PyValue.len, NdArray.len, key, List.length_map,
    List.all_map, Function.comp_def, PyNumber.geZero, PyNumber.leReal]
  generalize checkArguments (gt T (lit 0)) _ = k1
  cases k1 with
  | error e => rfl
  | ok _ =>
    simp only
    generalize checkArguments (o.all fun x => ge x (lit 0) && ge T x) _ = k2
    cases k2 with
    | error e => rfl
    | ok _ =>
      simp only
      generalize checkArguments (r.length == o.length) _ = k3
      cases k3 with
      | error e => rfl
      | ok _ =>
        simp only
        generalize checkArguments (a.length == o.length) _ = k4
        cases k4 with
        | error e => rfl
        | ok _ =>
          simp only
          generalize checkArguments (δ.length == o.length) _ = k5
          cases k5 <;> rfl

/-- **C106.** A string is taken for a list of its characters when lengths are compared and for a single
number when it is stored: with as many offsets as the string has characters, a string that shows a number
is accepted, and the attribute is not an array with an item for every offset. -/
theorem C106_string_rotation (np : Numpy α) (T : α) (o : List α) (s : String) (x : α)
    (name : Option String) (hT : gt T (lit 0) = true)
    (ho : ∀ t ∈ o, ge t (lit 0) = true ∧ ge T t = true) (hs : np.ofStr s = some x)
    (hl : s.length = o.length) :
    ∃ q, ValueSequence.ofValues np (.float T) (.list (o.map .float)) (.str s) (.str s) (.str s) name =
        .ok q ∧
      q.rabiRotations = ⟨[], [x]⟩ ∧ q.azimuthalAngles = ⟨[], [x]⟩ ∧ q.detuningRotations = ⟨[], [x]⟩ ∧
      q.offsets.shape = [o.length] := by
  have hd : ∀ l : List α, Denotes IsNumber (.list (l.map .float)) ⟨[l.length], l.map .real⟩ := by
    intro l
    induction l with
    | nil => exact .empty
    | cons y l ih =>
      cases l with
      | nil => exact .one (.single (.real (.float y)))
      | cons z l => exact .more (.single (.real (.float y))) ih
  have hx : SizedFloats np o.length (.str s) ⟨[], [x]⟩ := ⟨.single (.str hs), .inr ⟨s, rfl, hl⟩⟩
  refine ⟨⟨T, ⟨[o.length], o.map .real⟩, ⟨[], [x]⟩, ⟨[], [x]⟩, ⟨[], [x]⟩, name⟩, ?_, rfl, rfl, rfl, rfl⟩
  rw [C106_sequence]
  refine ⟨.float T, hT, hd o, ?_, ⟨o.length, ⟨[], rfl⟩, hx, hx, hx⟩, rfl⟩
  intro t ht
  simp only [List.mem_map] at ht
  obtain ⟨y, hy, rfl⟩ := ht
  exact ho y hy

end Any

/-- the object for a float or for a missing one -/
def orNone : Option XR → PyValue XR
  | some x => .float x
  | none => .none

theorem denotes_orNone (np : Numpy XR) (l : List (Option XR)) :
    Denotes (IsFloat np) (.list (l.map orNone)) (vec (l.map fun x => x.getD np.nan)) := by
  have leaf : ∀ x : Option XR, IsFloat np (orNone x) (x.getD np.nan) := by
    intro x
    cases x with
    | none => exact .none
    | some x => exact .real (.float x)
  induction l with
  | nil => exact .empty
  | cons x l ih =>
    cases l with
    | nil => exact .one (.single (leaf x))
    | cons y l => exact .more (.single (leaf x)) ih

/-- **C106.** `None` inside a list is no error by itself: among the azimuthal angles and the detunings it is
accepted and stored as NaN.  Among the durations and the Rabi rates it is refused with
`ArgumentsValueError`. -/
theorem C106_none (np : Numpy XR) (hn : np.nan = XR.nan) (d r a δ : List (Option XR))
    (name : Option String) :
    AcceptsExactly
      (NdControl.ofValues np (.list (d.map orNone)) (.list (r.map orNone)) (.list (a.map orNone))
        (.list (δ.map orNone)) name)
      ((∀ t ∈ d, t = some .inf ∨ ∃ x : ℝ, 0 < x ∧ t = some (.fin x)) ∧
       (∀ t ∈ r, t = some .inf ∨ ∃ x : ℝ, 0 ≤ x ∧ t = some (.fin x)) ∧
       r.length = d.length ∧ a.length = d.length ∧ δ.length = d.length)
      ⟨vec (r.map fun x => x.getD .nan), vec (a.map fun x => x.getD .nan),
        vec (δ.map fun x => x.getD .nan), vec (d.map fun x => x.getD .nan), name⟩ := by
  have key := fun l => denotes_orNone np l
  rw [hn] at key
  rw [ofValues_eq np (key d) (.given (by simp) (key r)) (.given (by simp) (key a))
    (.given (by simp) (key δ)) name]
  have flat := (C79_flat (d.map fun x => x.getD .nan) (some (r.map fun x => x.getD .nan))
    (some (a.map fun x => x.getD .nan)) (some (δ.map fun x => x.getD .nan)) name).1
  simp only [Option.map_some] at flat
  rw [flat]
  have h64 := C64_control_accepts (d.map fun x => x.getD .nan) (r.map fun x => x.getD .nan)
    (a.map fun x => x.getD .nan) (δ.map fun x => x.getD .nan) name
  have hp : ∀ (p : ℝ → Prop) (l : List (Option XR)),
      (∀ t ∈ l.map (fun x => x.getD XR.nan), t = .inf ∨ ∃ x : ℝ, p x ∧ t = .fin x) ↔
        ∀ t ∈ l, t = some XR.inf ∨ ∃ x : ℝ, p x ∧ t = some (.fin x) := by
    intro p l
    simp only [List.mem_map, forall_exists_index, and_imp, forall_apply_eq_imp_iff₂]
    refine forall₂_congr fun t _ => ?_
    cases t <;> simp
  simp only [List.length_map] at h64
  rw [hp (fun x => 0 < x), hp (fun x => 0 ≤ x)] at h64
  constructor
  · intro h
    rw [h64.1 h]; rfl
  · intro h
    obtain ⟨m, hm⟩ := h64.2 h
    exact ⟨m, by rw [hm]; rfl⟩

/-- **C106.** Complex offsets are accepted, whatever the imaginary part, if the real part is inside the
sequence. -/
theorem C106_complex_offset (np : Numpy ℝ) (T re im : ℝ) (name : Option String) (h0 : 0 < re)
    (h1 : re < T) :
    ∃ q, ValueSequence.ofValues np (.float T) (.list [.complex re im]) (.list [.float 1])
      (.list [.float 0]) (.list [.float 0]) name = .ok q ∧ q.offsets.data = [.complex re im] := by
  have hv : ∀ x : ℝ, SizedFloats np 1 (.list [.float x]) ⟨[1], [x]⟩ := fun x =>
    ⟨.one (.single (.real (.float x))), .inl ⟨_, rfl, rfl⟩⟩
  refine ⟨⟨T, ⟨[1], [.complex re im]⟩, ⟨[1], [1]⟩, ⟨[1], [0]⟩, ⟨[1], [0]⟩, name⟩, ?_, rfl⟩
  rw [C106_sequence]
  refine ⟨.float T, by simp; linarith, .one (.single (.complex re im)), ?_,
    ⟨1, ⟨[], rfl⟩, hv 1, hv 0, hv 0⟩, rfl⟩
  intro t ht
  rw [List.mem_singleton.mp ht]
  simp [PyNumber.geZero, PyNumber.leReal, h0, h1]

/-- a numpy that reads the string "12" only -/
noncomputable def twelve : Numpy ℝ := ⟨0, fun s => if s = "12" then some 12 else none⟩

/-- The hypotheses and both sides of the equivalences: durations `[1, True]` and azimuthal angles
`["12", 3]` make a control; `[[1], 2]` stands for no array; the string `"12"` for each of the rotations of a
sequence with two offsets. -/
example : (∃ c, NdControl.ofValues twelve (.list [.float 1, .bool true]) .none (.list [.str "12", .int 3])
      .none none = .ok c ∧ c.azimuthalAngles = vec [12, 3] ∧ c.durations = vec [1, 1]) ∧
    (∀ d', ¬ Denotes (IsFloat twelve) (.list [.list [.float 1], .float 2]) d') ∧
    ∃ q, ValueSequence.ofValues twelve (.float 1) (.list ([0, 1].map .float)) (.str "12") (.str "12")
      (.str "12") none = .ok q ∧ q.rabiRotations = ⟨[], [12]⟩ := by
  have one : Denotes (IsFloat twelve) (.list [.float 1, .bool true]) (vec [1, 1]) := by
    have h : IsReal (α := ℝ) (.bool true) 1 := by
      have := IsReal.true (α := ℝ)
      simpa using this
    exact .more (.single (.real (.float 1))) (.one (.single (.real h)))
  have two : Denotes (IsFloat twelve) (.list [.str "12", .int 3]) (vec [12, 3]) := by
    have h : IsReal (α := ℝ) (.int 3) 3 := by
      have := IsReal.int (α := ℝ) 3
      simpa using this
    exact .more (.single (.str (by simp [twelve]))) (.one (.single (.real h)))
  refine ⟨?_, ?_, ?_⟩
  · rw [ofValues_eq twelve one .omitted (.given (by simp) two) .omitted none]
    have flat := (C79_flat (α := ℝ) [1, 1] none (some [12, 3]) none none).1
    simp only [Option.map_some, Option.map_none] at flat
    rw [flat]
    obtain ⟨c, hc⟩ := (C01_accepts_iff_real [1, 1] none (some [12, 3]) none none).mpr (by simp)
    have h2 := C02_stores_arguments _ _ _ _ _ c hc
    rw [hc]
    exact ⟨_, rfl, by simp [flatControl, h2.2.2.1, orZeros], by simp [flatControl, h2.1]⟩
  · intro d' h
    have := (asFloat_iff twelve _ d').mpr h
    simp [Numpy.asFloat, PyValue.toArray, PyValue.shape, PyValue.commonShape, PyValue.commonPrefix,
      PyValue.items, PyValue.convertAll, Numpy.item, bind, Except.bind] at this
  · obtain ⟨q, h1, h2, -⟩ := C106_string_rotation twelve 1 [0, 1] "12" 12 none (by simp) (by simp)
      (by simp [twelve]) rfl
    exact ⟨q, h1, h2⟩

/-- `None` as a detuning is stored as NaN, as a duration it is refused. -/
example : (∃ c, NdControl.ofValues ⟨XR.nan, fun _ => none⟩ (.list [.float (.fin 1)])
      (.list [.float (.fin 1)]) (.list [.none]) (.list [.none]) none = .ok c ∧
      c.detunings = vec [XR.nan]) ∧
    ∃ m, NdControl.ofValues ⟨XR.nan, fun _ => none⟩ (.list [.none])
      (.list [.float (.fin 1)]) (.list [.none]) (.list [.none]) none = .error (.arguments m) := by
  constructor
  · exact ⟨_, (C106_none ⟨XR.nan, fun _ => none⟩ rfl [some (.fin 1)] [some (.fin 1)] [none] [none]
      none).1 (by simp), rfl⟩
  · exact (C106_none ⟨XR.nan, fun _ => none⟩ rfl [none] [some (.fin 1)] [none] [none]
      none).2 (by simp)

end OpenControls
