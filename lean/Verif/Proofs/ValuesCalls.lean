import Verif.Spec.ValuesCalls
import Verif.Proofs.Values
import Verif.Props.Shapes

/-!
# The functions on arbitrary scalar objects: lemmas for C108
-/

namespace OpenControls

open PyFloat Py Spec NdArray

set_option linter.unusedSectionVars false

variable {α : Type} [Add α] [Sub α] [Mul α] [Div α] [Neg α] [PyFloat α]

theorem scalarReal_iff (v : PyScalar α) (x : α) : v.real = .ok x ↔ ScalarReal v x := by
  constructor
  · intro h
    cases v with
    | bool b =>
      simp only [PyScalar.real, Except.ok.injEq] at h
      subst h
      cases b
      · exact .false
      · exact .true
    | int n =>
      simp only [PyScalar.real, Except.ok.injEq] at h
      subst h; exact .int n
    | float y =>
      simp only [PyScalar.real, Except.ok.injEq] at h
      subst h; exact .float y
    | _ => simp [PyScalar.real] at h
  · intro h
    cases h <;> rfl

/-- an object is a number or raises `TypeError` -/
theorem scalar_cases (v : PyScalar α) :
    (∃ x, v.real = .ok x) ∨
      (v.real = .error (.typeError "unsupported operand type(s)") ∧ ∀ x, ¬ ScalarReal v x) := by
  cases h : v.real with
  | ok x => exact .inl ⟨x, rfl⟩
  | error e =>
    refine .inr ⟨?_, fun x hx => ?_⟩
    · cases v <;> simp_all [PyScalar.real]
    · rw [(scalarReal_iff v x).mpr hx] at h; cases h

theorem neZero_real {v : PyScalar α} {x : α} (h : ScalarReal v x) : v.neZero = ne x (lit 0) := by
  cases h <;> rfl

theorem neZero_not_real {v : PyScalar α} (h : ∀ x, ¬ ScalarReal v x) : v.neZero = true := by
  cases v with
  | bool b => cases b
              · exact (h _ .false).elim
              · exact (h _ .true).elim
  | int n => exact (h _ (.int n)).elim
  | float x => exact (h _ (.float x)).elim
  | _ => rfl

theorem truth_iff (v : PyScalar α) : v.truth = true ↔ Truthy v := by
  constructor
  · intro h
    cases v with
    | none => cases h
    | bool b => cases h; exact .bool
    | int n => exact .int (by simpa [PyScalar.truth] using h)
    | float x => exact .float h
    | str s => exact .str (by simpa [PyScalar.truth] using h)
    | other b => cases h; exact .other
  · intro h
    cases h with
    | bool => rfl
    | int h => simpa [PyScalar.truth] using h
    | float h => exact h
    | str h => simpa [PyScalar.truth] using h
    | other => rfl

theorem keyword_str (l : List String) (s : String) :
    (PyScalar.str s : PyScalar α).keyword l = if l.contains s then some s else none := rfl

theorem keyword_none {l : List String} {v : PyScalar α} (h : ∀ s ∈ l, v ≠ .str s) : v.keyword l = none := by
  cases v with
  | str s =>
    have : s ∉ l := fun hs => h s hs rfl
    simp [PyScalar.keyword, this]
  | _ => rfl

theorem validateValues_real {r Ω : PyScalar α} {r' Ω' : α} (hr : ScalarReal r r') (hΩ : ScalarReal Ω Ω') :
    validateValues r Ω = (validateRabiParameters r' Ω').map fun _ => Ω' := by
  unfold validateValues validateRabiParameters
  rw [(scalarReal_iff Ω Ω').mpr hΩ, neZero_real hr]
  simp only [bind, Except.bind]
  cases checkArguments (gt Ω' (lit 0)) "Maximum rabi angular frequency should be greater than zero." with
  | error e => rfl
  | ok _ =>
    simp only
    cases checkArguments (ne r' (lit 0)) "The rabi rotation must be non-zero." <;> rfl

/-- the scheme pattern on numbers -/
theorem compositeValues_real {check : α → Except PyErr Unit}
    {f : α → α → α → Option String → Except PyErr (DrivenControl α)} {r Ω φ : PyScalar α}
    {r' Ω' φ' : α} {name : Option String} (hr : ScalarReal r r') (hΩ : ScalarReal Ω Ω')
    (hφ : ScalarReal φ φ')
    (hf : ∀ e, (validateRabiParameters r' Ω' >>= fun _ => check r') = .error e →
      f r' Ω' φ' name = .error e) :
    compositeValues check f r Ω φ name = (f r' Ω' φ' name).map flatControl := by
  unfold compositeValues
  rw [validateValues_real hr hΩ]
  cases hv : validateRabiParameters r' Ω' with
  | error e => rw [hf e (by rw [hv]; rfl)]; rfl
  | ok u =>
    simp only [Except.map, bind, Except.bind, (scalarReal_iff r r').mpr hr]
    cases hc : check r' with
    | error e => rw [hf e (by rw [hv]; exact hc)]
    | ok u' =>
      simp only [(scalarReal_iff φ φ').mpr hφ]
      cases f r' Ω' φ' name <;> rfl

theorem validateValues_ok {r Ω : PyScalar α} {x : α} (h : validateValues r Ω = .ok x) :
    ScalarReal Ω x := by
  unfold validateValues at h
  rcases scalar_cases Ω with ⟨y, hy⟩ | ⟨he, -⟩
  · rw [hy] at h
    simp only [bind, Except.bind] at h
    split at h
    · cases h
    · split at h
      · cases h
      · cases h; exact (scalarReal_iff Ω _).mp hy
  · rw [he] at h; cases h

theorem compositeValues_ok {check : α → Except PyErr Unit}
    {f : α → α → α → Option String → Except PyErr (DrivenControl α)} {r Ω φ : PyScalar α}
    {name : Option String} {c : NdControl α} (h : compositeValues check f r Ω φ name = .ok c) :
    ∃ r' Ω' φ', ScalarReal r r' ∧ ScalarReal Ω Ω' ∧ ScalarReal φ φ' := by
  unfold compositeValues at h
  simp only [bind, Except.bind] at h
  split at h
  · cases h
  · rename_i rate hv
    split at h
    · cases h
    · rename_i rot hr
      split at h
      · cases h
      · split at h
        · cases h
        · rename_i az haz
          exact ⟨rot, rate, az, (scalarReal_iff _ _).mp hr, validateValues_ok hv,
            (scalarReal_iff _ _).mp haz⟩

/-- azimuthal angles as items of an array -/
theorem azimuth_float {np : Numpy α} {sch : Scheme} {φ : PyScalar α} {φ' : α}
    (h : AzimuthOf np sch φ φ') : IsFloat np φ.toValue φ' := by
  cases h with
  | real h =>
    cases h
    · exact .real .true
    · exact .real .false
    · exact .real (.int _)
    · exact .real (.float _)
  | none _ => exact .none
  | str _ h => exact .str h

theorem float_azimuth {np : Numpy α} {sch : Scheme} (hs : sch.storesAzimuth) {φ : PyScalar α} {φ' : α}
    (h : IsFloat np φ.toValue φ') : AzimuthOf np sch φ φ' := by
  generalize hv : φ.toValue = v at h
  cases h with
  | real h =>
    cases h <;> cases φ <;> simp only [PyScalar.toValue, reduceCtorEq, PyValue.bool.injEq,
      PyValue.int.injEq, PyValue.float.injEq] at hv <;> subst hv
    · exact .real .true
    · exact .real .false
    · exact .real (.int _)
    · exact .real (.float _)
  | none =>
    cases φ <;> simp only [PyScalar.toValue, reduceCtorEq] at hv
    exact .none hs
  | str h =>
    cases φ <;> simp only [PyScalar.toValue, reduceCtorEq, PyValue.str.injEq] at hv
    subst hv
    exact .str hs h

theorem denotes_items {β : Type} {item : PyValue α → β → Prop} :
    ∀ {l : List (PyValue α)} {m : List β}, List.Forall₂ item l m →
      Denotes item (.list l) (vec m)
  | _, _, .nil => .empty
  | [_], [_], .cons h .nil => .one (.single h)
  | _ :: _ :: _, _ :: _ :: _, .cons h (.cons h2 hs) =>
    .more (.single h) (denotes_items (.cons h2 hs))

theorem denotes_item {np : Numpy α} {v : PyScalar α} {l : List (PyValue α)} {a : NdArray α}
    (h : Denotes (IsFloat np) (.list (v.toValue :: l)) a) : ∃ x, IsFloat np v.toValue x := by
  have hs : ∀ b, Denotes (IsFloat np) v.toValue b → ∃ x, IsFloat np v.toValue x := by
    intro b hb
    generalize hw : v.toValue = w at hb
    cases hb with
    | single h => exact ⟨_, h⟩
    | _ => cases v <;> simp [PyScalar.toValue] at hw
  cases h with
  | single h => cases h with | real h => cases h
  | one h => exact hs _ h
  | more h _ => exact hs _ h

theorem scalar_item {v : PyScalar α} {x : α} (np : Numpy α) (h : ScalarReal v x) :
    IsFloat np v.toValue x :=
  azimuth_float (sch := .bb1) (.real h)

/-- the constructor with given lists -/
theorem ofValues_lists (np : Numpy α) {d r a δ : List (PyValue α)} {d' r' a' δ' : List α}
    (hd : List.Forall₂ (IsFloat np) d d') (hr : List.Forall₂ (IsFloat np) r r')
    (ha : List.Forall₂ (IsFloat np) a a') (hδ : List.Forall₂ (IsFloat np) δ δ') (name : Option String) :
    NdControl.ofValues np (.list d) (.list r) (.list a) (.list δ) name =
      (DrivenControl.new d' (some r') (some a') (some δ') name).map flatControl := by
  rw [ofValues_eq np (denotes_items hd) (.given (by simp) (denotes_items hr))
    (.given (by simp) (denotes_items ha)) (.given (by simp) (denotes_items hδ)) name]
  exact (C79_flat d' (some r') (some a') (some δ') name).1

theorem forall2_replicate {β γ : Type} {R : β → γ → Prop} {x : β} {y : γ} (h : R x y) :
    ∀ n, List.Forall₂ R (List.replicate n x) (List.replicate n y)
  | 0 => .nil
  | n + 1 => .cons h (forall2_replicate h n)

theorem primitiveValues_real (np : Numpy α) {r Ω φ : PyScalar α} {r' Ω' φ' : α}
    (hr : ScalarReal r r') (hΩ : ScalarReal Ω Ω') (hφ : AzimuthOf np .primitive φ φ')
    (name : Option String) :
    newPrimitiveValues np r Ω φ name = (newPrimitiveControl r' Ω' φ' name).map flatControl := by
  unfold newPrimitiveValues newPrimitiveControl
  rw [validateValues_real hr hΩ]
  cases validateRabiParameters r' Ω' with
  | error e => rfl
  | ok u =>
    simp only [Except.map, bind, Except.bind, (scalarReal_iff r r').mpr hr]
    exact ofValues_lists np (.cons (.real (.float _)) .nil) (.cons (scalar_item np hΩ) .nil)
      (.cons (azimuth_float hφ) .nil) (.cons (.real (.int 0)) .nil) name

theorem wamf1Values_real (np : Numpy α) {r Ω φ : PyScalar α} {r' Ω' φ' : α}
    (hr : ScalarReal r r') (hΩ : ScalarReal Ω Ω') (hφ : AzimuthOf np .wamf1 φ φ')
    (name : Option String) :
    newWamf1Values np r Ω φ name = (newWamf1Control r' Ω' φ' name).map flatControl := by
  unfold newWamf1Values newWamf1Control checkSupported
  rw [validateValues_real hr hΩ]
  cases validateRabiParameters r' Ω' with
  | error e => rfl
  | ok u =>
    simp only [Except.map, bind, Except.bind, (scalarReal_iff r r').mpr hr]
    cases checkArguments (isSupportedRotation r') "rabi_rotation angle must be either pi, pi/2 or pi/4" with
    | error e => rfl
    | ok u' =>
      simp only
      refine ofValues_lists np (forall2_replicate (.real (.float _)) 4) ?_
        (forall2_replicate (azimuth_float hφ) 4) (forall2_replicate (.real (.int 0)) 4) name
      exact .cons (.real (.float _)) (.cons (.real (.float _)) (.cons (.real (.float _))
        (.cons (.real (.float _)) .nil)))

/-- the composite pulses on objects that stand for numbers -/
theorem callValues_real (np : Numpy α) (sch : Scheme) {r Ω φ : PyScalar α} {r' Ω' φ' : α}
    (hr : ScalarReal r r') (hΩ : ScalarReal Ω Ω') (hφ : AzimuthOf np sch φ φ')
    (name : Option String) :
    sch.callValues np r Ω φ name = (sch.call r' Ω' φ' name).map flatControl := by
  have hreal : ¬ sch.storesAzimuth → ScalarReal φ φ' := by
    intro hs
    cases hφ with
    | real h => exact h
    | none h => exact (hs h).elim
    | str h _ => exact (hs h).elim
  cases sch
  case primitive => exact primitiveValues_real np hr hΩ hφ name
  case wamf1 => exact wamf1Values_real np hr hΩ hφ name
  all_goals
    refine compositeValues_real hr hΩ (hreal (by simp [Scheme.storesAzimuth])) ?_
    intro e he
    first
      | unfold newBB1Control
      | unfold newSK1Control
      | unfold newScrofulousControl
      | unfold newCorpseControl
      | unfold newCorpseInBB1Control
      | unfold newCorpseInSK1Control
      | unfold newCorpseInScrofulousControl
    cases hv : validateRabiParameters r' Ω' with
    | error e' =>
      rw [hv] at he
      cases he
      rfl
    | ok u =>
      rw [hv] at he
      simp only [bind, Except.bind, checkWimperis, checkSupported] at he ⊢
      first
        | (cases ht : transformedRabiRotationWimperis r' with
           | error e' => rw [ht] at he; cases he; rfl
           | ok u' => rw [ht] at he; cases he)
        | (rw [he])
        | cases he

theorem callValues_ok (np : Numpy α) (sch : Scheme) {r Ω φ : PyScalar α}
    {name : Option String} {c : NdControl α} (h : sch.callValues np r Ω φ name = .ok c) :
    ∃ r' Ω' φ', ScalarReal r r' ∧ ScalarReal Ω Ω' ∧ AzimuthOf np sch φ φ' := by
  cases sch
  case primitive =>
    change newPrimitiveValues np r Ω φ name = .ok c at h
    unfold newPrimitiveValues at h
    simp only [bind, Except.bind] at h
    split at h
    · cases h
    · rename_i rate hv
      split at h
      · cases h
      · rename_i rot hr
        obtain ⟨d', r', a', δ', -, -, h3, -⟩ := ofValues_inv np h
        cases h3 with
        | given _ h3 =>
          obtain ⟨x, hx⟩ := denotes_item h3
          exact ⟨rot, rate, x, (scalarReal_iff _ _).mp hr, validateValues_ok hv,
            float_azimuth (sch := .primitive) trivial hx⟩
  case wamf1 =>
    change newWamf1Values np r Ω φ name = .ok c at h
    unfold newWamf1Values at h
    simp only [bind, Except.bind] at h
    split at h
    · cases h
    · rename_i rate hv
      split at h
      · cases h
      · rename_i rot hr
        split at h
        · cases h
        · obtain ⟨d', r', a', δ', -, -, h3, -⟩ := ofValues_inv np h
          cases h3 with
          | given _ h3 =>
            obtain ⟨x, hx⟩ := denotes_item (l := List.replicate 3 φ.toValue) h3
            exact ⟨rot, rate, x, (scalarReal_iff _ _).mp hr, validateValues_ok hv,
              float_azimuth (sch := .wamf1) trivial hx⟩
  all_goals
    obtain ⟨r', Ω', φ', h1, h2, h3⟩ := compositeValues_ok h
    exact ⟨r', Ω', φ', h1, h2, .real h3⟩

/-- the constructor refuses azimuthal angles that are no array, if nothing else is wrong -/
theorem ofValues_azimuth_error (np : Numpy α) {d r a a₂ δ : PyValue α} {name : Option String}
    {c : NdControl α} (h : NdControl.ofValues np d r a₂ δ name = .ok c) (hs : a.size = a₂.size)
    (ha : a.isNone = false) (ha₂ : a₂.isNone = false) {e : PyErr} (he : np.asFloat a = .error e) :
    NdControl.ofValues np d r a δ name = .error e := by
  have hsz : ([r, a, δ].filter fun v => !v.isNone).map PyValue.size =
      ([r, a₂, δ].filter fun v => !v.isNone).map PyValue.size := by
    simp only [List.filter_cons, ha, ha₂, Bool.not_false, if_true, List.filter_nil]
    cases r.isNone <;> cases δ.isNone <;> simp [hs]
  unfold NdControl.ofValues at h ⊢
  rw [hsz]
  simp only [bind, Except.bind] at h ⊢
  cases h1 : np.asFloat d with
  | error e' => rw [h1] at h; cases h
  | ok d' =>
    rw [h1] at h
    simp only at h ⊢
    cases h2 : d'.pyAll fun d => gt d (lit 0) with
    | error e' => rw [h2] at h; cases h
    | ok b =>
      rw [h2] at h
      simp only at h ⊢
      revert h
      generalize checkArguments b _ = k3
      generalize checkArguments (_ == 1) _ = k4
      cases k3 with
      | error e' => intro h; cases h
      | ok _ =>
        cases k4 with
        | error e' => intro h; cases h
        | ok _ =>
          simp only
          cases d'.len with
          | error e' => intro h; cases h
          | ok n =>
            simp only
            cases np.orZeros n r with
            | error e' => intro h; cases h
            | ok r' =>
              intro _
              have : np.orZeros n a = .error e := by
                unfold Numpy.orZeros
                rw [ha]
                simpa using he
              simp only [this]

/-- what numpy says to an azimuthal angle it cannot store -/
theorem asFloat_bad (np : Numpy α) (sch : Scheme) (hs : sch.storesAzimuth) (φ : PyScalar α)
    (h : ∀ x, ¬ AzimuthOf np sch φ x) (n : ℕ) :
    ((∀ s, φ ≠ .str s) ∧
        ∃ m, np.asFloat (.list (List.replicate (n + 1) φ.toValue)) = .error (.typeError m)) ∨
      ∃ s m, φ = .str s ∧ np.ofStr s = none ∧
        np.asFloat (.list (List.replicate (n + 1) φ.toValue)) = .error (.valueError m) := by
  have hshape : ∀ k : ℕ, PyValue.commonShape (List.replicate (k + 1) φ.toValue) = [] := by
    intro k
    induction k with
    | zero => cases φ <;> simp [PyValue.commonShape, PyValue.shape, PyScalar.toValue]
    | succ k ih =>
      rw [List.replicate_succ, List.replicate_succ, PyValue.commonShape]
      rw [List.replicate_succ] at ih
      simp only [ih]
      cases φ <;> simp [PyValue.commonPrefix, PyValue.shape, PyScalar.toValue]
  have hitems : ∀ k : ℕ, (List.replicate k φ.toValue).flatMap (fun x => [x]) =
      List.replicate k φ.toValue := by
    intro k
    induction k with
    | zero => rfl
    | succ k ih => rw [List.replicate_succ, List.flatMap_cons, ih]; rfl
  have key : ∀ e, np.item φ.toValue = .error e →
      np.asFloat (.list (List.replicate (n + 1) φ.toValue)) = .error e := by
    intro e he
    unfold Numpy.asFloat PyValue.toArray
    rw [PyValue.shape, hshape n]
    simp only [List.length_singleton, PyValue.items, hitems]
    simp only [List.replicate_succ, PyValue.convertAll, he, bind, Except.bind]
  cases φ with
  | none => exact (h _ (.none hs)).elim
  | bool b => cases b
              · exact (h _ (.real .false)).elim
              · exact (h _ (.real .true)).elim
  | int k => exact (h _ (.real (.int k))).elim
  | float x => exact (h _ (.real (.float x))).elim
  | other b => exact .inl ⟨(fun s h => by cases h), _, key _ rfl⟩
  | str s =>
    cases hx : np.ofStr s with
    | some x => exact (h _ (.str hs hx)).elim
    | none => exact .inr ⟨s, _, rfl, hx, key (.valueError "could not convert string to float") (by
        simp only [PyScalar.toValue, Numpy.item, hx])⟩

theorem validateValues_stands {r Ω : PyScalar α} {r' Ω' : α} (hr : Stands r r') (hΩ : Stands Ω Ω')
    (h : validateRabiParameters r' Ω' = .ok ()) :
    (∃ m, validateValues r Ω = .error (.typeError m)) ∨
      (ScalarReal Ω Ω' ∧ validateValues r Ω = .ok Ω') := by
  rcases hΩ with hΩ | hΩ
  · refine .inr ⟨hΩ, ?_⟩
    rcases hr with hr | hr
    · rw [validateValues_real hr hΩ, h]; rfl
    · unfold validateRabiParameters at h
      unfold validateValues
      rw [(scalarReal_iff Ω Ω').mpr hΩ, neZero_not_real hr]
      simp only [bind, Except.bind] at h ⊢
      split at h
      · cases h
      · rfl
  · rcases scalar_cases Ω with ⟨x, hx⟩ | ⟨he, -⟩
    · exact (hΩ x ((scalarReal_iff _ _).mp hx)).elim
    · left
      unfold validateValues
      rw [he]
      exact ⟨_, rfl⟩

theorem not_real_error {v : PyScalar α} (h : ∀ x, ¬ ScalarReal v x) :
    v.real = .error (.typeError "unsupported operand type(s)") := by
  rcases scalar_cases v with ⟨x, hx⟩ | ⟨he, -⟩
  · exact (h x ((scalarReal_iff _ _).mp hx)).elim
  · exact he

theorem compositeValues_stands {check : α → Except PyErr Unit}
    {f : α → α → α → Option String → Except PyErr (DrivenControl α)} {r Ω φ : PyScalar α}
    {r' Ω' φ' : α} {name : Option String} (hr : Stands r r') (hΩ : Stands Ω Ω') (hφ : Stands φ φ')
    (hv : validateRabiParameters r' Ω' = .ok ()) (hc : check r' = .ok ())
    {d : DrivenControl α} (hd : f r' Ω' φ' name = .ok d) :
    compositeValues check f r Ω φ name = .ok (flatControl d) ∨
      ∃ m, compositeValues check f r Ω φ name = .error (.typeError m) := by
  unfold compositeValues
  rcases validateValues_stands hr hΩ hv with ⟨m, hm⟩ | ⟨-, hm⟩
  · rw [hm]; exact .inr ⟨m, rfl⟩
  · rw [hm]
    simp only [bind, Except.bind]
    rcases hr with hr | hr
    · rw [(scalarReal_iff _ _).mpr hr]
      simp only [hc]
      rcases hφ with hφ | hφ
      · rw [(scalarReal_iff _ _).mpr hφ]
        simp only [hd]
        exact .inl rfl
      · rw [not_real_error hφ]; exact .inr ⟨_, rfl⟩
    · rw [not_real_error hr]; exact .inr ⟨_, rfl⟩

/-- the checks of a composite pulse that was made -/
theorem call_checks (sch : Scheme) {r' Ω' φ' : α} {name : Option String} {d : DrivenControl α}
    (h : sch.call r' Ω' φ' name = .ok d) : validateRabiParameters r' Ω' = .ok () := by
  cases hv : validateRabiParameters r' Ω' with
  | ok u => rfl
  | error e =>
    exfalso
    cases sch <;>
      simp [Scheme.call, newPrimitiveControl, newBB1Control, newSK1Control, newScrofulousControl,
        newCorpseControl, newCorpseInBB1Control, newCorpseInSK1Control, newCorpseInScrofulousControl,
        newWamf1Control, hv, bind, Except.bind] at h

/-- a composite pulse with objects in place of accepted numbers -/
theorem callValues_stands (np : Numpy α) (sch : Scheme) {r Ω φ : PyScalar α} {r' Ω' φ' : α}
    (hr : Stands r r') (hΩ : Stands Ω Ω')
    (hφ : AzimuthOf np sch φ φ' ∨ ∀ y, ¬ AzimuthOf np sch φ y) {name : Option String}
    {d : DrivenControl α} (h : sch.call r' Ω' φ' name = .ok d) :
    sch.callValues np r Ω φ name = .ok (flatControl d) ∨
      (¬ (sch.storesAzimuth ∧ ScalarReal r r' ∧ ScalarReal Ω Ω' ∧ ∃ s, φ = .str s) ∧
        ∃ m, sch.callValues np r Ω φ name = .error (.typeError m)) ∨
      (sch.storesAzimuth ∧ ∃ s m, φ = .str s ∧ np.ofStr s = none ∧
        sch.callValues np r Ω φ name = .error (.valueError m)) := by
  have hv := call_checks sch h
  have hstands : ¬ sch.storesAzimuth → Stands φ φ' := by
    intro hs
    rcases hφ with hφ | hφ
    · cases hφ with
      | real hx => exact .inl hx
      | none hx => exact (hs hx).elim
      | str hx _ => exact (hs hx).elim
    · exact .inr fun y hy => hφ y (.real hy)
  -- the two pulses that store the angle
  have hstored : sch.storesAzimuth → ∀ n, ∀ dv rv δv : PyValue α,
      (ScalarReal r r' → ScalarReal Ω Ω' → ∀ v : PyScalar α, sch.callValues np r Ω v name =
        NdControl.ofValues np dv rv (.list (List.replicate (n + 1) v.toValue)) δv name) →
      ScalarReal r r' → ScalarReal Ω Ω' →
      sch.callValues np r Ω φ name = .ok (flatControl d) ∨
        (¬ (sch.storesAzimuth ∧ ScalarReal r r' ∧ ScalarReal Ω Ω' ∧ ∃ s, φ = .str s) ∧
        ∃ m, sch.callValues np r Ω φ name = .error (.typeError m)) ∨
        (sch.storesAzimuth ∧ ∃ s m, φ = .str s ∧ np.ofStr s = none ∧
          sch.callValues np r Ω φ name = .error (.valueError m)) := by
    intro hs n dv rv δv heq hr hΩ
    rcases hφ with hφ | hφ
    · left
      rw [callValues_real np sch hr hΩ hφ, h]; rfl
    · have hgood : NdControl.ofValues np dv rv
          (.list (List.replicate (n + 1) (PyScalar.float φ').toValue)) δv name = .ok (flatControl d) := by
        rw [← heq hr hΩ, callValues_real np sch hr hΩ (.real (.float φ')), h]; rfl
      have hshape : ∀ (v : PyScalar α) (k : ℕ),
          PyValue.commonShape (List.replicate (k + 1) v.toValue) = [] := by
        intro v k
        induction k with
        | zero => cases v <;> simp [PyValue.commonShape, PyValue.shape, PyScalar.toValue]
        | succ k ih =>
          rw [List.replicate_succ, List.replicate_succ, PyValue.commonShape]
          rw [List.replicate_succ] at ih
          simp only [ih]
          cases v <;> simp [PyValue.commonPrefix, PyValue.shape, PyScalar.toValue]
      have hsize : (PyValue.list (List.replicate (n + 1) φ.toValue)).size =
          (PyValue.list (List.replicate (n + 1) (PyScalar.float φ').toValue)).size := by
        simp only [PyValue.size, PyValue.shape, hshape, List.length_replicate]
      rw [heq hr hΩ]
      rcases asFloat_bad np sch hs φ hφ n with ⟨hns, m, hm⟩ | ⟨s, m, h1, h2, hm⟩
      · exact .inr (.inl ⟨fun h => hns _ h.2.2.2.choose_spec, m, ofValues_azimuth_error np hgood hsize rfl rfl hm⟩)
      · exact .inr (.inr ⟨hs, s, m, h1, h2, ofValues_azimuth_error np hgood hsize rfl rfl hm⟩)
  have hbad : sch.storesAzimuth → ¬ (ScalarReal r r' ∧ ScalarReal Ω Ω') →
      ∃ m, sch.callValues np r Ω φ name = .error (.typeError m) := by
    intro hs hn
    have : ∃ m, (validateValues r Ω >>= fun _ => r.real) = .error (.typeError m) := by
      rcases validateValues_stands hr hΩ hv with ⟨m, hm⟩ | ⟨hΩ', hm⟩
      · exact ⟨m, by rw [hm]; rfl⟩
      · rcases hr with hr | hr
        · exact (hn ⟨hr, hΩ'⟩).elim
        · exact ⟨_, by rw [hm]; exact not_real_error hr⟩
    obtain ⟨m, hm⟩ := this
    refine ⟨m, ?_⟩
    cases sch <;> simp only [Scheme.storesAzimuth] at hs
    · simp only [Scheme.callValues, newPrimitiveValues, bind, Except.bind] at hm ⊢
      cases hv' : validateValues r Ω with
      | error e => rw [hv'] at hm; cases hm; rfl
      | ok x => rw [hv'] at hm; simp only at hm ⊢; rw [hm]
    · simp only [Scheme.callValues, newWamf1Values, bind, Except.bind] at hm ⊢
      cases hv' : validateValues r Ω with
      | error e => rw [hv'] at hm; cases hm; rfl
      | ok x => rw [hv'] at hm; simp only at hm ⊢; rw [hm]
  cases sch
  case primitive =>
    by_cases hn : ScalarReal r r' ∧ ScalarReal Ω Ω'
    · refine hstored trivial 0 (.list [.float (r' / Ω')]) (.list [Ω.toValue]) (.list [.int 0]) ?_ hn.1 hn.2
      intro hr hΩ v
      simp only [Scheme.callValues, newPrimitiveValues, validateValues_real hr hΩ, hv, Except.map, bind,
        Except.bind, (scalarReal_iff _ _).mpr hr]
      rfl
    · exact .inr (.inl ⟨fun h => hn ⟨h.2.1, h.2.2.1⟩, hbad trivial hn⟩)
  case wamf1 =>
    by_cases hn : ScalarReal r r' ∧ ScalarReal Ω Ω'
    · have hc : checkSupported r' = .ok () := by
        cases hc : checkSupported r' with
        | ok u => rfl
        | error e =>
          exfalso
          unfold checkSupported at hc
          simp [Scheme.call, newWamf1Control, hv, hc, bind, Except.bind] at h
      refine hstored trivial 3 (.list (List.replicate 4 (.float ((wamf1Thetas r').1 / Ω'))))
        (.list (([(wamf1Thetas r').1, (wamf1Thetas r').2, (wamf1Thetas r').2, (wamf1Thetas r').1].map
          fun x => x / ((wamf1Thetas r').1 / Ω')).map .float)) (.list (List.replicate 4 (.int 0))) ?_ hn.1 hn.2
      intro hr hΩ v
      simp only [Scheme.callValues, newWamf1Values, validateValues_real hr hΩ, hv, Except.map, bind,
        Except.bind, (scalarReal_iff _ _).mpr hr, hc]
    · exact .inr (.inl ⟨fun h => hn ⟨h.2.1, h.2.2.1⟩, hbad trivial hn⟩)
  all_goals
    refine (compositeValues_stands hr hΩ (hstands (by simp [Scheme.storesAzimuth])) hv ?_ h).imp_right
      fun h => .inl ⟨fun h => h.1, h⟩
    first
      | rfl
      | (unfold checkWimperis
         cases hc : transformedRabiRotationWimperis r' with
         | ok u => rfl
         | error e =>
           exfalso
           simp [Scheme.call, newBB1Control, newSK1Control, newCorpseInBB1Control,
             newCorpseInSK1Control, hv, hc, bind, Except.bind] at h)
      | (cases hc : checkSupported r' with
         | ok u => rfl
         | error e =>
           exfalso
           unfold checkSupported at hc
           simp [Scheme.call, newScrofulousControl, newCorpseInScrofulousControl, hv, hc, bind,
             Except.bind] at h)

theorem countedValues_real {f : α → α → Bool → Option String → Except PyErr (Sequence α)}
    {T n pp : PyScalar α} {T' n' : α} {name : Option String} (hT : ScalarReal T T')
    (hn : ScalarReal n n') (hf : ∀ e, checkDuration T' = .error e → f T' n' pp.truth name = .error e) :
    countedValues f T n pp name = f T' n' pp.truth name := by
  unfold countedValues
  rw [(scalarReal_iff _ _).mpr hT, (scalarReal_iff _ _).mpr hn]
  simp only [bind, Except.bind]
  cases hc : checkDuration T' with
  | error e => rw [hf e hc]
  | ok u => rfl

theorem countedValues_ok {f : α → α → Bool → Option String → Except PyErr (Sequence α)}
    {T n pp : PyScalar α} {name : Option String} {s : Sequence α}
    (h : countedValues f T n pp name = .ok s) : ∃ T' n', ScalarReal T T' ∧ ScalarReal n n' := by
  unfold countedValues at h
  rcases scalar_cases T with ⟨T', hT⟩ | ⟨he, -⟩
  · rcases scalar_cases n with ⟨n', hn⟩ | ⟨he, -⟩
    · exact ⟨T', n', (scalarReal_iff _ _).mp hT, (scalarReal_iff _ _).mp hn⟩
    · rw [hT, he] at h
      simp only [bind, Except.bind] at h
      split at h <;> cases h
  · rw [he] at h; cases h

theorem countedValues_stands {f : α → α → Bool → Option String → Except PyErr (Sequence α)}
    {T n pp : PyScalar α} {T' n' : α} {name : Option String} (hT : Stands T T') (hn : Stands n n')
    (hf : ∀ e, checkDuration T' = .error e → f T' n' pp.truth name = .error e) {s : Sequence α}
    (h : f T' n' pp.truth name = .ok s) :
    countedValues f T n pp name = .ok s ∨ ∃ m, countedValues f T n pp name = .error (.typeError m) := by
  rcases hT with hT | hT
  · rcases hn with hn | hn
    · left; rw [countedValues_real hT hn hf, h]
    · right
      unfold countedValues
      rw [(scalarReal_iff _ _).mpr hT, not_real_error hn]
      simp only [bind, Except.bind]
      cases hc : checkDuration T' with
      | error e => rw [hf e hc] at h; cases h
      | ok u => exact ⟨_, rfl⟩
  · right
    unfold countedValues
    rw [not_real_error hT]
    exact ⟨_, rfl⟩

/-- every predefined sequence asks for the duration first -/
theorem call_duration (q : Predefined α) {T' : α} (b : Bool) (name : Option String) {e : PyErr}
    (h : checkDuration T' = .error e) : q.call T' b name = .error e := by
  cases q <;>
    simp [Predefined.call, newRamseySequence, newSpinEchoSequence, newCarrPurcellSequence,
      newCPMGSequence, newUhrigSequence, newPeriodicSequence, newWalshSequence, newQuadraticSequence,
      newXConcatenatedSequence, newXYConcatenatedSequence, h, bind, Except.bind]

theorem predefinedValues_real {p : Predefined (PyScalar α)} {q : Predefined α} {T : PyScalar α} {T' : α}
    (hT : ScalarReal T T') (hp : p.Rel ScalarReal q) (pp : PyScalar α) (name : Option String) :
    p.callValues T pp name = q.call T' pp.truth name := by
  have hd := fun e => call_duration q (T' := T') pp.truth name (e := e)
  cases p <;> cases q <;> simp only [Predefined.Rel] at hp
  case ramsey.ramsey =>
    change newRamseyValues T pp name = _
    unfold newRamseyValues
    rw [(scalarReal_iff _ _).mpr hT]; rfl
  case spinEcho.spinEcho =>
    change newSpinEchoValues T pp name = _
    unfold newSpinEchoValues
    rw [(scalarReal_iff _ _).mpr hT]; rfl
  case quadratic.quadratic n m n' m' =>
    change newQuadraticValues T n m pp name = newQuadraticSequence T' n' m' pp.truth name
    unfold newQuadraticValues newQuadraticSequence
    rw [(scalarReal_iff _ _).mpr hT, (scalarReal_iff _ _).mpr hp.1, (scalarReal_iff _ _).mpr hp.2]
    simp only [bind, Except.bind]
    generalize checkDuration T' = k1
    cases k1 with
    | error e => rfl
    | ok _ =>
      simp only
      generalize checkArguments (ge n' (lit 1)) _ = k2
      cases k2 <;> rfl
  all_goals exact countedValues_real hT hp hd

theorem predefinedValues_ok {p : Predefined (PyScalar α)} {T pp : PyScalar α} {name : Option String}
    {s : Sequence α} (h : p.callValues T pp name = .ok s) :
    ∃ T' q, ScalarReal T T' ∧ p.Rel ScalarReal q := by
  cases p with
  | ramsey =>
    rcases scalar_cases T with ⟨T', hT⟩ | ⟨he, -⟩
    · exact ⟨T', .ramsey, (scalarReal_iff _ _).mp hT, trivial⟩
    · simp [Predefined.callValues, newRamseyValues, he, bind, Except.bind] at h
  | spinEcho =>
    rcases scalar_cases T with ⟨T', hT⟩ | ⟨he, -⟩
    · exact ⟨T', .spinEcho, (scalarReal_iff _ _).mp hT, trivial⟩
    · simp [Predefined.callValues, newSpinEchoValues, he, bind, Except.bind] at h
  | quadratic n m =>
    change newQuadraticValues T n m pp name = .ok s at h
    unfold newQuadraticValues at h
    rcases scalar_cases T with ⟨T', hT⟩ | ⟨he, -⟩
    · rcases scalar_cases n with ⟨n', hn⟩ | ⟨he, -⟩
      · rcases scalar_cases m with ⟨m', hm⟩ | ⟨he, -⟩
        · exact ⟨T', .quadratic n' m', (scalarReal_iff _ _).mp hT, (scalarReal_iff _ _).mp hn,
            (scalarReal_iff _ _).mp hm⟩
        · rw [hT, hn, he] at h
          simp only [bind, Except.bind] at h
          split at h
          · cases h
          · split at h <;> cases h
      · rw [hT, he] at h
        simp only [bind, Except.bind] at h
        split at h <;> cases h
    · rw [he] at h; cases h
  | carrPurcell n => obtain ⟨T', n', hT, hn⟩ := countedValues_ok h; exact ⟨T', .carrPurcell n', hT, hn⟩
  | cpmg n => obtain ⟨T', n', hT, hn⟩ := countedValues_ok h; exact ⟨T', .cpmg n', hT, hn⟩
  | uhrig n => obtain ⟨T', n', hT, hn⟩ := countedValues_ok h; exact ⟨T', .uhrig n', hT, hn⟩
  | periodic n => obtain ⟨T', n', hT, hn⟩ := countedValues_ok h; exact ⟨T', .periodic n', hT, hn⟩
  | walsh n => obtain ⟨T', n', hT, hn⟩ := countedValues_ok h; exact ⟨T', .walsh n', hT, hn⟩
  | xConcatenated n =>
    obtain ⟨T', n', hT, hn⟩ := countedValues_ok h; exact ⟨T', .xConcatenated n', hT, hn⟩
  | xyConcatenated n =>
    obtain ⟨T', n', hT, hn⟩ := countedValues_ok h; exact ⟨T', .xyConcatenated n', hT, hn⟩

theorem predefinedValues_stands {p : Predefined (PyScalar α)} {q : Predefined α} {T : PyScalar α}
    {T' : α} (hT : Stands T T') (hp : p.Rel Stands q) {pp : PyScalar α} {name : Option String}
    {s : Sequence α} (h : q.call T' pp.truth name = .ok s) :
    p.callValues T pp name = .ok s ∨ ∃ m, p.callValues T pp name = .error (.typeError m) := by
  have hd := fun e => call_duration q (T' := T') pp.truth name (e := e)
  cases p <;> cases q <;> simp only [Predefined.Rel] at hp
  case ramsey.ramsey =>
    rcases hT with hT | hT
    · left; rw [predefinedValues_real (p := .ramsey) hT (q := .ramsey) trivial, h]
    · right
      simp [Predefined.callValues, newRamseyValues, not_real_error hT, bind, Except.bind]
  case spinEcho.spinEcho =>
    rcases hT with hT | hT
    · left; rw [predefinedValues_real (p := .spinEcho) hT (q := .spinEcho) trivial, h]
    · right
      simp [Predefined.callValues, newSpinEchoValues, not_real_error hT, bind, Except.bind]
  case quadratic.quadratic n m n' m' =>
    obtain ⟨hn, hm⟩ := hp
    rcases hT with hT | hT
    · have hc : checkDuration T' = .ok () := by
        cases hc : checkDuration T' with
        | ok u => rfl
        | error e => rw [hd e hc] at h; cases h
      rcases hn with hn | hn
      · rcases hm with hm | hm
        · left
          rw [predefinedValues_real (p := .quadratic n m) hT (q := .quadratic n' m') ⟨hn, hm⟩, h]
        · right
          change newQuadraticSequence T' n' m' pp.truth name = .ok s at h
          unfold newQuadraticSequence at h
          simp only [Predefined.callValues, newQuadraticValues, (scalarReal_iff _ _).mpr hT, hc,
            (scalarReal_iff _ _).mpr hn, not_real_error hm, bind, Except.bind] at h ⊢
          revert h
          generalize checkArguments (ge n' (lit 1)) _ = k
          cases k with
          | error e => intro h; cases h
          | ok _ => intro _; exact ⟨_, rfl⟩
      · right
        simp [Predefined.callValues, newQuadraticValues, (scalarReal_iff _ _).mpr hT, hc,
          not_real_error hn, bind, Except.bind]
    · right
      simp [Predefined.callValues, newQuadraticValues, not_real_error hT, bind, Except.bind]
  all_goals exact countedValues_stands hT hp hd h

theorem gaussianValues_real {Ω m T f : PyScalar α} {Ω' m' T' f' : α} (hΩ : ScalarReal Ω Ω')
    (hm : ScalarReal m m') (hT : ScalarReal T T') (hf : ScalarReal f f') :
    newModulatedGaussianValues Ω m T f = newModulatedGaussianControl Ω' m' T' f' := by
  unfold newModulatedGaussianValues newModulatedGaussianControl
  rw [(scalarReal_iff _ _).mpr hT, (scalarReal_iff _ _).mpr hm, (scalarReal_iff _ _).mpr hΩ,
    (scalarReal_iff _ _).mpr hf]
  simp only [bind, Except.bind]
  generalize checkArguments (gt Ω' (lit 0)) _ = k1
  generalize checkArguments (gt m' (lit 0)) _ = k2
  generalize checkArguments (gt T' m') _ = k3
  generalize checkArguments (ge Ω' _) _ = k4
  cases k1 with
  | error e => rfl
  | ok _ =>
    cases k2 with
    | error e => rfl
    | ok _ =>
      cases k3 with
      | error e => rfl
      | ok _ =>
        cases k4 with
        | error e => rfl
        | ok _ =>
          simp only
          cases pyCeil (T' / m') <;> rfl

/-- the checks of a Gaussian control that was made -/
theorem gaussian_checks {Ω m T f : α} {c : DrivenControl α}
    (h : newModulatedGaussianControl Ω m T f = .ok c) :
    gt Ω (lit 0) = true ∧ gt m (lit 0) = true ∧ gt T m = true ∧
      ge Ω (sqrt (lit 2 * PyFloat.pi) / (lit (1 / 10) * T)) = true ∧ ∃ n, pyCeil (T / m) = .ok n := by
  unfold newModulatedGaussianControl at h
  simp only [bind, Except.bind, checkArguments] at h
  cases h1 : gt Ω (lit 0) with
  | false => simp [h1] at h
  | true =>
    cases h2 : gt m (lit 0) with
    | false => simp [h1, h2] at h
    | true =>
      cases h3 : gt T m with
      | false => simp [h1, h2, h3] at h
      | true =>
        cases h4 : ge Ω (sqrt (lit 2 * PyFloat.pi) / (lit (1 / 10) * T)) with
        | false => simp [h1, h2, h3, h4, -one_div] at h
        | true =>
          cases h5 : pyCeil (T / m) with
          | error e => simp [h1, h2, h3, h4, h5, -one_div] at h
          | ok n => exact ⟨rfl, rfl, rfl, rfl, n, rfl⟩

theorem gaussianValues_stands {Ω m T f : PyScalar α} {Ω' m' T' f' : α} (hΩ : Stands Ω Ω')
    (hm : Stands m m') (hT : Stands T T') (hf : Stands f f') {c : DrivenControl α}
    (h : newModulatedGaussianControl Ω' m' T' f' = .ok c) :
    newModulatedGaussianValues Ω m T f = .ok c ∨
      ∃ e, newModulatedGaussianValues Ω m T f = .error (.typeError e) := by
  obtain ⟨h1, h2, h3, h4, n, h5⟩ := gaussian_checks h
  unfold newModulatedGaussianValues
  rcases hΩ with hΩ | hΩ
  swap
  · rw [not_real_error hΩ]; exact .inr ⟨_, rfl⟩
  rcases hm with hm | hm
  swap
  · right
    simp [(scalarReal_iff _ _).mpr hΩ, not_real_error hm, checkArguments, h1, bind, Except.bind]
  rcases hT with hT | hT
  swap
  · right
    simp [(scalarReal_iff _ _).mpr hΩ, (scalarReal_iff _ _).mpr hm, not_real_error hT, checkArguments,
      h1, h2, bind, Except.bind]
  rcases hf with hf | hf
  swap
  · right
    simp [(scalarReal_iff _ _).mpr hΩ, (scalarReal_iff _ _).mpr hm, (scalarReal_iff _ _).mpr hT,
      not_real_error hf, checkArguments, h1, h2, h3, h4, h5, bind, Except.bind, -one_div]
  left
  exact (gaussianValues_real hΩ hm hT hf).trans h

theorem gaussianValues_ok {Ω m T f : PyScalar α} {c : DrivenControl α}
    (h : newModulatedGaussianValues Ω m T f = .ok c) :
    ∃ Ω' m' T' f', ScalarReal Ω Ω' ∧ ScalarReal m m' ∧ ScalarReal T T' ∧ ScalarReal f f' := by
  unfold newModulatedGaussianValues at h
  simp only [bind, Except.bind] at h
  split at h
  · cases h
  rename_i Ω' hΩ
  split at h
  · cases h
  split at h
  · cases h
  rename_i m' hm
  split at h
  · cases h
  split at h
  · cases h
  rename_i T' hT
  split at h
  · cases h
  split at h
  · cases h
  split at h
  · cases h
  split at h
  · cases h
  rename_i f' hf
  exact ⟨Ω', m', T', f', (scalarReal_iff _ _).mp hΩ, (scalarReal_iff _ _).mp hm,
    (scalarReal_iff _ _).mp hT, (scalarReal_iff _ _).mp hf⟩

theorem convertValues_real {s : Sequence α} {Ω δ m : PyScalar α} {Ω' δ' m' : α} (hΩ : ScalarReal Ω Ω')
    (hδ : ScalarReal δ δ') (hm : ScalarReal m m') (name : Option String) :
    convertValues s Ω δ m name = convertDDS s Ω' δ' m' name := by
  unfold convertValues
  rw [(scalarReal_iff _ _).mpr hΩ, (scalarReal_iff _ _).mpr hδ, (scalarReal_iff _ _).mpr hm]
  simp only [bind, Except.bind, checkArguments]
  cases h1 : gt δ' (lit 0) with
  | false => simp [convertDDS, checkArguments, h1, bind, Except.bind]
  | true =>
    cases h2 : gt Ω' (lit 0) with
    | false => simp [convertDDS, checkArguments, h1, h2, bind, Except.bind]
    | true => simp

theorem convertValues_ok {s : Sequence α} {Ω δ m : PyScalar α} {name : Option String}
    {c : DrivenControl α} (h : convertValues s Ω δ m name = .ok c) :
    ∃ Ω' δ' m', ScalarReal Ω Ω' ∧ ScalarReal δ δ' ∧ ScalarReal m m' := by
  unfold convertValues at h
  simp only [bind, Except.bind] at h
  split at h
  · cases h
  rename_i δ' hδ
  split at h
  · cases h
  split at h
  · cases h
  rename_i Ω' hΩ
  split at h
  · cases h
  split at h
  · cases h
  rename_i m' hm
  exact ⟨Ω', δ', m', (scalarReal_iff _ _).mp hΩ, (scalarReal_iff _ _).mp hδ, (scalarReal_iff _ _).mp hm⟩

theorem convertValues_stands {s : Sequence α} {Ω δ m : PyScalar α} {Ω' δ' m' : α} (hΩ : Stands Ω Ω')
    (hδ : Stands δ δ') (hm : Stands m m') {name : Option String} {c : DrivenControl α}
    (h : convertDDS s Ω' δ' m' name = .ok c) :
    convertValues s Ω δ m name = .ok c ∨ ∃ e, convertValues s Ω δ m name = .error (.typeError e) := by
  have h1 : gt δ' (lit 0) = true := by
    cases h1 : gt δ' (lit 0) with
    | true => rfl
    | false => simp [convertDDS, checkArguments, h1, bind, Except.bind] at h
  have h2 : gt Ω' (lit 0) = true := by
    cases h2 : gt Ω' (lit 0) with
    | true => rfl
    | false => simp [convertDDS, checkArguments, h1, h2, bind, Except.bind] at h
  unfold convertValues
  rcases hδ with hδ | hδ
  swap
  · rw [not_real_error hδ]; exact .inr ⟨_, rfl⟩
  rcases hΩ with hΩ | hΩ
  swap
  · right
    simp [(scalarReal_iff _ _).mpr hδ, not_real_error hΩ, checkArguments, h1, bind, Except.bind]
  rcases hm with hm | hm
  swap
  · right
    simp [(scalarReal_iff _ _).mpr hδ, (scalarReal_iff _ _).mpr hΩ, not_real_error hm, checkArguments,
      h1, h2, bind, Except.bind]
  left
  exact (convertValues_real hΩ hδ hm name).trans h

end OpenControls
