import Verif.Proofs.ValuesCalls
import Verif.Props.Values
import Verif.Props.Sequences

/-!
# C108: which Python objects the functions accept

The predefined controls and sequences, the conversion and the exports on arbitrary scalar objects
(`Verif/Model/ValuesCalls.lean`).
-/

namespace OpenControls

open PyFloat Py Spec NdArray

section Any
variable {α : Type} [Add α] [Sub α] [Mul α] [Div α] [Neg α] [PyFloat α]

/-- **C108.** Booleans, integers and floats as arguments give what the numbers give, exceptions included. -/
theorem C108_numbers (np : Numpy α) (sch : Scheme) (r Ω φ : PyScalar α) (r' Ω' φ' : α)
    (name : Option String) (hr : ScalarReal r r') (hΩ : ScalarReal Ω Ω') (hφ : ScalarReal φ φ') :
    sch.callValues np r Ω φ name = (sch.call r' Ω' φ' name).map flatControl :=
  callValues_real np sch hr hΩ (.real hφ) name

/-- **C108.** A composite pulse is made exactly from a Rabi rotation and a maximum Rabi rate that are real numbers
and an azimuthal angle that is one — or, for the two pulses that only store the angle, `None` or a string that
shows a number — such that the pulse with these numbers is made. -/
theorem C108_control (np : Numpy α) (sch : Scheme) (r Ω φ : PyScalar α) (name : Option String)
    (c : NdControl α) :
    sch.callValues np r Ω φ name = .ok c ↔
      ∃ r' Ω' φ' d, ScalarReal r r' ∧ ScalarReal Ω Ω' ∧ AzimuthOf np sch φ φ' ∧
        sch.call r' Ω' φ' name = .ok d ∧ c = flatControl d := by
  constructor
  · intro h
    obtain ⟨r', Ω', φ', h1, h2, h3⟩ := callValues_ok np sch h
    rw [callValues_real np sch h1 h2 h3] at h
    cases hd : sch.call r' Ω' φ' name with
    | error e => rw [hd] at h; cases h
    | ok d =>
      rw [hd] at h
      cases h
      exact ⟨r', Ω', φ', d, h1, h2, h3, hd, rfl⟩
  · rintro ⟨r', Ω', φ', d, h1, h2, h3, hd, rfl⟩
    rw [callValues_real np sch h1 h2 h3, hd]
    rfl

/-- **C108.** With objects that are no numbers in place of numbers the pulse would be made with, `TypeError` is
raised — not the `ArgumentsValueError` of the library; or numpy's `ValueError`, for a string that shows no
number as an azimuthal angle that is only stored. -/
theorem C108_control_exception (np : Numpy α) (sch : Scheme) (r Ω φ : PyScalar α) (r' Ω' φ' : α)
    (name : Option String) (hr : Stands r r') (hΩ : Stands Ω Ω')
    (hφ : AzimuthOf np sch φ φ' ∨ ∀ y, ¬ AzimuthOf np sch φ y) (d : DrivenControl α)
    (h : sch.call r' Ω' φ' name = .ok d) :
    sch.callValues np r Ω φ name = .ok (flatControl d) ∨
      (¬ (sch.storesAzimuth ∧ ScalarReal r r' ∧ ScalarReal Ω Ω' ∧ ∃ s, φ = .str s) ∧
        ∃ m, sch.callValues np r Ω φ name = .error (.typeError m)) ∨
      (sch.storesAzimuth ∧ ∃ s m, φ = .str s ∧ np.ofStr s = none ∧
        sch.callValues np r Ω φ name = .error (.valueError m)) :=
  callValues_stands np sch hr hΩ hφ h

/-- **C108.** A maximum Rabi rate that is no number raises `TypeError`, whatever else is given. -/
theorem C108_rate (np : Numpy α) (sch : Scheme) (r Ω φ : PyScalar α) (name : Option String)
    (h : ∀ x, ¬ ScalarReal Ω x) :
    ∃ m, sch.callValues np r Ω φ name = .error (.typeError m) := by
  have hv : validateValues r Ω = .error (.typeError "unsupported operand type(s)") := by
    unfold validateValues
    rw [not_real_error h]; rfl
  refine ⟨"unsupported operand type(s)", ?_⟩
  cases sch <;>
    simp [Scheme.callValues, newPrimitiveValues, newBB1Values, newSK1Values, newScrofulousValues,
      newCorpseValues, newCorpseInBB1Values, newCorpseInSK1Values, newCorpseInScrofulousValues,
      newWamf1Values, compositeValues, hv, bind, Except.bind]

/-- **C108.** A predefined sequence is made exactly from a duration and further arguments that are real numbers such
that the sequence with these numbers is made; for the flag the truth value of the object counts. -/
theorem C108_sequence (p : Predefined (PyScalar α)) (T pp : PyScalar α) (name : Option String)
    (s : Sequence α) :
    p.callValues T pp name = .ok s ↔
      ∃ T' q b, ScalarReal T T' ∧ p.Rel ScalarReal q ∧ (b = true ↔ Truthy pp) ∧
        q.call T' b name = .ok s := by
  constructor
  · intro h
    obtain ⟨T', q, h1, h2⟩ := predefinedValues_ok h
    exact ⟨T', q, pp.truth, h1, h2, truth_iff pp, by rw [← predefinedValues_real h1 h2]; exact h⟩
  · rintro ⟨T', q, b, h1, h2, hb, h⟩
    have : b = pp.truth := by
      have := hb.trans (truth_iff pp).symm
      cases b <;> cases h : pp.truth <;> simp_all
    rw [predefinedValues_real h1 h2, ← this, h]

/-- **C108.** The exceptions too are those of the numbers. -/
theorem C108_sequence_numbers (p : Predefined (PyScalar α)) (q : Predefined α) (T pp : PyScalar α) (T' : α)
    (b : Bool) (name : Option String) (hT : ScalarReal T T') (hp : p.Rel ScalarReal q)
    (hb : b = true ↔ Truthy pp) : p.callValues T pp name = q.call T' b name := by
  have : b = pp.truth := by
    have := hb.trans (truth_iff pp).symm
    cases b <;> cases h : pp.truth <;> simp_all
  rw [predefinedValues_real hT hp, this]

/-- **C108.** With objects that are no numbers in place of numbers the sequence would be made with, `TypeError` is
raised, not `ArgumentsValueError`. -/
theorem C108_sequence_exception (p : Predefined (PyScalar α)) (q : Predefined α) (T pp : PyScalar α) (T' : α)
    (b : Bool) (name : Option String) (hT : Stands T T') (hp : p.Rel Stands q)
    (hb : b = true ↔ Truthy pp) (s : Sequence α) (h : q.call T' b name = .ok s) :
    p.callValues T pp name = .ok s ∨ ∃ m, p.callValues T pp name = .error (.typeError m) := by
  have : b = pp.truth := by
    have := hb.trans (truth_iff pp).symm
    cases b <;> cases h : pp.truth <;> simp_all
  rw [this] at h
  exact predefinedValues_stands hT hp h

/-- **C108.** A Gaussian control is made exactly from four real numbers it is made with as numbers; otherwise an object
that is no number raises `TypeError`. -/
theorem C108_gaussian (Ω m T f : PyScalar α) (c : DrivenControl α) :
    (newModulatedGaussianValues Ω m T f = .ok c ↔
      ∃ Ω' m' T' f', ScalarReal Ω Ω' ∧ ScalarReal m m' ∧ ScalarReal T T' ∧ ScalarReal f f' ∧
        newModulatedGaussianControl Ω' m' T' f' = .ok c) ∧
    ∀ Ω' m' T' f', Stands Ω Ω' → Stands m m' → Stands T T' → Stands f f' →
      newModulatedGaussianControl Ω' m' T' f' = .ok c →
      newModulatedGaussianValues Ω m T f = .ok c ∨
        ∃ e, newModulatedGaussianValues Ω m T f = .error (.typeError e) := by
  refine ⟨⟨fun h => ?_, ?_⟩, fun Ω' m' T' f' h1 h2 h3 h4 h => gaussianValues_stands h1 h2 h3 h4 h⟩
  · obtain ⟨Ω', m', T', f', h1, h2, h3, h4⟩ := gaussianValues_ok h
    exact ⟨Ω', m', T', f', h1, h2, h3, h4, by rw [← gaussianValues_real h1 h2 h3 h4]; exact h⟩
  · rintro ⟨Ω', m', T', f', h1, h2, h3, h4, h⟩
    rw [gaussianValues_real h1 h2 h3 h4, h]

/-- **C108.** The conversion to a driven control: the same for its two rates and the minimum duration. -/
theorem C108_conversion (s : Sequence α) (Ω δ m : PyScalar α) (name : Option String)
    (c : DrivenControl α) :
    (convertValues s Ω δ m name = .ok c ↔
      ∃ Ω' δ' m', ScalarReal Ω Ω' ∧ ScalarReal δ δ' ∧ ScalarReal m m' ∧
        convertDDS s Ω' δ' m' name = .ok c) ∧
    ∀ Ω' δ' m', Stands Ω Ω' → Stands δ δ' → Stands m m' → convertDDS s Ω' δ' m' name = .ok c →
      convertValues s Ω δ m name = .ok c ∨ ∃ e, convertValues s Ω δ m name = .error (.typeError e) := by
  refine ⟨⟨fun h => ?_, ?_⟩, fun Ω' δ' m' h1 h2 h3 h => convertValues_stands h1 h2 h3 h⟩
  · obtain ⟨Ω', δ', m', h1, h2, h3⟩ := convertValues_ok h
    exact ⟨Ω', δ', m', h1, h2, h3, by rw [← convertValues_real h1 h2 h3]; exact h⟩
  · rintro ⟨Ω', δ', m', h1, h2, h3, h⟩
    rw [convertValues_real h1 h2 h3, h]

/-- **C108.** Plot data: the coordinates must be one of the two strings; every other object — also the member of the
enumeration that has the string as its value — raises `ArgumentsValueError`; for the flag the truth value counts. -/
theorem C108_plot (c : DrivenControl α) (coordinates flag : PyScalar α) (b : Bool)
    (hb : b = true ↔ Truthy flag) :
    (∀ s, s = "cartesian" ∨ s = "cylindrical" → coordinates = .str s →
      exportPlotValues c coordinates flag = c.exportPlot s b) ∧
    (coordinates ≠ .str "cartesian" → coordinates ≠ .str "cylindrical" →
      ∃ m, exportPlotValues c coordinates flag = .error (.arguments m)) := by
  have hf : b = flag.truth := by
    have := hb.trans (truth_iff flag).symm
    cases b <;> cases h : flag.truth <;> simp_all
  refine ⟨?_, fun h1 h2 => ⟨"Unsupported coordinates provided: ", ?_⟩⟩
  · rintro s hs rfl
    unfold exportPlotValues
    rw [keyword_str]
    have : coordinateSystems.contains s = true := by
      rcases hs with rfl | rfl <;> decide
    rw [this, hf]
    rfl
  · unfold exportPlotValues
    rw [keyword_none (l := coordinateSystems)]
    intro s hs
    simp only [coordinateSystems, List.mem_cons, List.not_mem_nil, or_false] at hs
    rcases hs with rfl | rfl
    · exact h1
    · exact h2

/-- **C108.** Export to a file: three strings give what they give; if one of the selectors is no string that is offered,
`ArgumentsValueError` is raised and no file changes. -/
theorem C108_file (c : DrivenControl α) (fs : FileSystem α) (filename : String)
    (format type coordinates : PyScalar α) :
    (∀ f t k, format = .str f → type = .str t → coordinates = .str k →
      f = "Q-CTRL expanded" → t = "JSON" ∨ t = "CSV" → k = "cartesian" ∨ k = "cylindrical" →
      exportToFileValues c fs filename format type coordinates = c.exportToFile fs filename f t k) ∧
    ((format ≠ .str "Q-CTRL expanded" ∨ (type ≠ .str "JSON" ∧ type ≠ .str "CSV") ∨
        (coordinates ≠ .str "cartesian" ∧ coordinates ≠ .str "cylindrical")) →
      ∃ m, exportToFileValues c fs filename format type coordinates = (.error (.arguments m), fs)) := by
  constructor
  · rintro f t k rfl rfl rfl rfl ht hk
    unfold exportToFileValues
    have h1 : fileFormats.contains "Q-CTRL expanded" = true := by decide
    have h2 : fileTypes.contains t = true := by rcases ht with rfl | rfl <;> decide
    have h3 : coordinateSystems.contains k = true := by rcases hk with rfl | rfl <;> decide
    simp only [keyword_str, h1, h2, h3, if_true]
  · intro h
    unfold exportToFileValues
    cases h1 : format.keyword fileFormats with
    | none => exact ⟨_, rfl⟩
    | some f =>
      simp only
      cases h2 : type.keyword fileTypes with
      | none => exact ⟨_, rfl⟩
      | some t =>
        simp only
        cases h3 : coordinates.keyword coordinateSystems with
        | none => exact ⟨_, rfl⟩
        | some k =>
          exfalso
          rcases h with h | ⟨h, h'⟩ | ⟨h, h'⟩
          · rw [keyword_none (l := fileFormats)] at h1
            · cases h1
            · intro s hs
              simp only [fileFormats, List.mem_cons, List.not_mem_nil, or_false] at hs
              subst hs; exact h
          · rw [keyword_none (l := fileTypes)] at h2
            · cases h2
            · intro s hs
              simp only [fileTypes, List.mem_cons, List.not_mem_nil, or_false] at hs
              rcases hs with rfl | rfl
              · exact h
              · exact h'
          · rw [keyword_none (l := coordinateSystems)] at h3
            · cases h3
            · intro s hs
              simp only [coordinateSystems, List.mem_cons, List.not_mem_nil, or_false] at hs
              rcases hs with rfl | rfl
              · exact h
              · exact h'

/-- **C108.** Export of a sequence: the rates are those of the conversion with minimum duration zero, the selectors those
of the control; without a control no file changes. -/
theorem C108_sequence_file (s : Sequence α) (fs : FileSystem α) (filename : String)
    (format type coordinates Ω δ : PyScalar α) :
    (∀ Ω' δ' f t k, ScalarReal Ω Ω' → ScalarReal δ δ' → format = .str f → type = .str t →
      coordinates = .str k →
      f = "Q-CTRL expanded" → t = "JSON" ∨ t = "CSV" → k = "cartesian" ∨ k = "cylindrical" →
      sequenceToFileValues s fs filename format type coordinates Ω δ =
        s.exportToFile fs filename f t k Ω' δ') ∧
    (∀ e, convertValues s Ω δ (.int 0) s.name = .error e →
      sequenceToFileValues s fs filename format type coordinates Ω δ = (.error e, fs)) ∧
    ∀ c, convertValues s Ω δ (.int 0) s.name = .ok c →
      (format ≠ .str "Q-CTRL expanded" ∨ (type ≠ .str "JSON" ∧ type ≠ .str "CSV") ∨
        (coordinates ≠ .str "cartesian" ∧ coordinates ≠ .str "cylindrical")) →
      ∃ m, sequenceToFileValues s fs filename format type coordinates Ω δ = (.error (.arguments m), fs) := by
  refine ⟨?_, ?_, ?_⟩
  · intro Ω' δ' f t k h1 h2 hf ht hk h3 h4 h5
    unfold sequenceToFileValues Sequence.exportToFile
    rw [convertValues_real h1 h2 (.int 0)]
    have : (lit ((0 : ℤ) : ℚ) : α) = lit 0 := by norm_num
    rw [this]
    cases convertDDS s Ω' δ' (lit 0) s.name with
    | error e => rfl
    | ok c => exact (C108_file c fs filename format type coordinates).1 f t k hf ht hk h3 h4 h5
  · intro e he
    unfold sequenceToFileValues
    rw [he]
  · intro c hc h
    unfold sequenceToFileValues
    rw [hc]
    exact (C108_file c fs filename format type coordinates).2 h

end Any

/-- A primitive pulse takes the angle `"12"`, and `None`, which it stores as NaN; `"x"` raises numpy's `ValueError`.  BB1
takes neither. -/
example : (∃ c, newPrimitiveValues twelve (.int 1) (.bool true) (.str "12") none = .ok c ∧
      c.azimuthalAngles = vec [12]) ∧
    (∃ m, newPrimitiveValues twelve (.int 1) (.bool true) (.str "x") none = .error (.valueError m)) ∧
    (∃ m, newBB1Values (.int 1) (.bool true) (.str "12") none = (.error (.typeError m) : Except PyErr (NdControl ℝ))) ∧
    (∃ m, newBB1Values (.int 1) (.bool true) .none none = (.error (.typeError m) : Except PyErr (NdControl ℝ))) ∧
    (∃ c : NdControl ℝ, newBB1Values (.int 1) (.bool true) (.bool false) none = .ok c) := by
  have hr : ScalarReal (α := ℝ) (.int 1) 1 := by simpa using ScalarReal.int (α := ℝ) 1
  have hΩ : ScalarReal (α := ℝ) (.bool true) 1 := by simpa using ScalarReal.true (α := ℝ)
  have hφ : ScalarReal (α := ℝ) (.bool false) 0 := by simpa using ScalarReal.false (α := ℝ)
  have hp := (newPrimitiveControl_spec 1 1 12 none).1 ⟨one_pos, one_pos⟩
  have hb := (newBB1Control_spec 1 1 0 none).1 ⟨one_pos, one_pos, by linarith [Real.pi_gt_three]⟩
  have nostr : ∀ s, ∀ y : ℝ, ¬ AzimuthOf twelve .bb1 (.str s) y := by
    intro s y h
    cases h with
    | real h => cases h
    | str h _ => exact h
  refine ⟨?_, ?_, ?_, ?_, ?_⟩
  · refine ⟨_, (C108_control twelve .primitive (.int 1) (.bool true) (.str "12") none _).mpr
      ⟨1, 1, 12, _, hr, hΩ, .str trivial (by simp [twelve]), hp, rfl⟩, ?_⟩
    simp [flatControl, ofTable, primitiveTable, vec]
  · have hx : ∀ y, ¬ AzimuthOf twelve .primitive (.str "x") y := by
      intro y h
      cases h with
      | real h => cases h
      | str _ h => simp [twelve] at h
    rcases C108_control_exception twelve .primitive (.int 1) (.bool true) (.str "x") 1 1 12 none (.inl hr)
      (.inl hΩ) (.inr hx) _ hp with h | ⟨h, -⟩ | ⟨-, s, m, -, -, h⟩
    · obtain ⟨_, _, y, _, _, _, hy, _⟩ := (C108_control _ _ _ _ _ _ _).mp h
      exact (hx y hy).elim
    · exact (h ⟨trivial, hr, hΩ, _, rfl⟩).elim
    · exact ⟨m, h⟩
  · rcases C108_control_exception twelve .bb1 (.int 1) (.bool true) (.str "12") 1 1 0 none (.inl hr)
      (.inl hΩ) (.inr (nostr "12")) _ hb with h | ⟨-, h⟩ | ⟨h, -⟩
    · obtain ⟨_, _, y, _, _, _, hy, _⟩ := (C108_control _ _ _ _ _ _ _).mp h
      exact (nostr _ y hy).elim
    · exact h
    · exact h.elim
  · have hx : ∀ y, ¬ AzimuthOf twelve .bb1 .none y := by
      intro y h
      cases h with
      | real h => cases h
      | none h => exact h
    rcases C108_control_exception twelve .bb1 (.int 1) (.bool true) .none 1 1 0 none (.inl hr)
      (.inl hΩ) (.inr hx) _ hb with h | ⟨-, h⟩ | ⟨h, -⟩
    · obtain ⟨_, _, y, _, _, _, hy, _⟩ := (C108_control _ _ _ _ _ _ _).mp h
      exact (hx y hy).elim
    · exact h
    · exact h.elim
  · exact ⟨_, (C108_control twelve .bb1 (.int 1) (.bool true) (.bool false) none _).mpr
      ⟨1, 1, 0, _, hr, hΩ, .real hφ, hb, rfl⟩⟩

/-- The string `"False"` as the flag adds the rotations, an empty string does not; a count given as a string raises
`TypeError`. -/
example : newSpinEchoValues (.float 1) (.str "False") none = newSpinEchoSequence (1 : ℝ) true none ∧
    newSpinEchoValues (.float 1) (.str "") none = newSpinEchoSequence (1 : ℝ) false none ∧
    ∃ m, newCPMGValues (.float 1) (.str "2") .none none = (.error (.typeError m) : Except PyErr (Sequence ℝ)) := by
  refine ⟨C108_sequence_numbers .spinEcho .spinEcho (.float 1) (.str "False") 1 true none (.float 1) trivial
      ⟨fun _ => .str (by decide), fun _ => rfl⟩,
    C108_sequence_numbers .spinEcho .spinEcho (.float 1) (.str "") 1 false none (.float 1) trivial
      ⟨(fun h => by cases h), fun h => by cases h with | str h => exact (h rfl).elim⟩, ?_⟩
  have hs : ∀ y : ℝ, ¬ ScalarReal (.str "2") y := by intro y h; cases h
  have h1 : ∃ s, newCPMGSequence (1 : ℝ) 1 false none = .ok s := by
    obtain ⟨s, hs, -⟩ := (C36_cpmg 1 1 false none).1 ⟨one_pos, le_rfl⟩
    exact ⟨s, hs⟩
  obtain ⟨s, h1⟩ := h1
  rcases C108_sequence_exception (.cpmg (.str "2")) (.cpmg 1) (.float 1) .none 1 false none (.inl (.float 1))
      (.inr hs) ⟨(fun h => by cases h), fun h => by cases h⟩ s h1 with h | h
  · obtain ⟨_, q, _, _, hq, _⟩ := (C108_sequence _ _ _ _ _).mp h
    cases q <;> simp only [Predefined.Rel] at hq
    exact (hs _ hq).elim
  · exact h

/-- The member of the enumeration instead of its value is refused. -/
example (c : DrivenControl ℝ) :
    (∃ m, exportPlotValues c (.other true) (.bool true) = .error (.arguments m)) ∧
    exportPlotValues c (.str "cartesian") (.int 2) = c.exportPlot "cartesian" true :=
  ⟨(C108_plot c (.other true) (.bool true) true ⟨fun _ => .bool, fun _ => rfl⟩).2 (by simp) (by simp),
    (C108_plot c (.str "cartesian") (.int 2) true ⟨fun _ => .int (by decide), fun _ => rfl⟩).1 _ (.inl rfl) rfl⟩

end OpenControls
