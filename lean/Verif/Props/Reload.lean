import Verif.Spec.Reload
import Verif.Props.FileText
import Verif.Props.RoundedAccessors

/-!
# C99: from a control to the text of a file and back
-/

namespace OpenControls

set_option linter.unusedSectionVars false

open PyFloat Spec
open Fl (val)
open scoped Matrix.Norms.L2Operator

section

variable {α : Type} [Add α] [Sub α] [Mul α] [Div α] [Neg α] [PyFloat α]

theorem parse_printed (fmt : α → String) (parse : List Char → Option α) (l : List α)
    (h : ∀ x ∈ l, parse (fmt x).toList = some x) : (printed fmt l).mapM parse = some l := by
  unfold printed
  exact mapM_getElem _ _ _ (by simp) fun i r x h1 h2 => by
    rw [List.getElem?_map, h2] at h1
    cases h1
    exact h x (List.mem_of_getElem? h2)

theorem parse_json (fmt : α → String) (parse : List Char → Option α) (l : List α)
    (h : ∀ x ∈ l, parse (fmt x).toList = some x) :
    jsonNumbers parse (.arr ((printed fmt l).map .num)) = some l := by
  unfold jsonNumbers printed
  exact mapM_getElem _ _ _ (by simp) fun i r x h1 h2 => by
    rw [List.getElem?_map, List.getElem?_map, h2] at h1
    cases h1
    exact h x (List.mem_of_getElem? h2)

theorem zipWith_replicate_left {β γ δ : Type} (f : β → γ → δ) (m : β) (l : List γ) (n : ℕ) (h : l.length = n) :
    List.zipWith f (List.replicate n m) l = l.map (f m) := by
  subst h
  induction l with
  | nil => rfl
  | cons x l ih => simp [List.replicate_succ, ih]

/-- **C99** (any arithmetic), CSV in cylindrical coordinates: if the numbers of the file are printed so that they can
be read back, a reader of the text gets the attributes unchanged, the Rabi rates divided and multiplied by their
maximum. -/
theorem C99_csv (fmt : α → String) (parse : List Char → Option α) (c : DrivenControl α) (h : c.Constructed)
    (fs : FileSystem α) (filename nm : String) (m : α) (hname : c.name = some nm)
    (hm : c.maximumRabiRate = .ok m)
    (hparse : ∀ x ∈ m :: c.rabiRates.map (· / m) ++ c.azimuthalAngles ++ c.detunings ++ c.durations,
      parse (fmt x).toList = some x) (name : Option String) :
    ∃ fs' content, c.exportToFile fs filename "Q-CTRL expanded" "CSV" "cylindrical" = (.ok (), fs') ∧
      fs' filename = some content ∧
      reloadCsv parse name (fileText fmt content) = some (DrivenControl.new c.durations
        (some (c.rabiRates.map fun x => m * (x / m))) (some c.azimuthalAngles) (some c.detunings) name) := by
  obtain ⟨fs', content, records, h1, h2, h3, -, h4, h5, h6, h7, h8⟩ :=
    C73_csv_cylindrical fmt c h fs filename nm m hname hm
  obtain ⟨l1, l2, l3, l4⟩ := h.lengths
  refine ⟨fs', content, h1, h2, ?_⟩
  simp only [List.cons_append, List.mem_cons, List.mem_append] at hparse
  unfold reloadCsv numbersIn
  simp only [h3, h4, h5, h6, h7, h8, Option.bind_eq_bind, Option.bind_some]
  rw [parse_printed fmt parse _ fun x hx => hparse x (by tauto),
    parse_printed fmt parse _ fun x hx => hparse x (by have := List.eq_of_mem_replicate hx; tauto),
    parse_printed fmt parse _ fun x hx => hparse x (by tauto),
    parse_printed fmt parse _ fun x hx => hparse x (by tauto),
    parse_printed fmt parse _ fun x hx => hparse x (by tauto)]
  simp only [Option.bind_some]
  rw [zipWith_replicate_left _ _ _ _ (by simp [l1]), List.map_map]
  rfl

/-- **C99** (any arithmetic), JSON in cylindrical coordinates; the name is read back, too. -/
theorem C99_json (fmt : α → String) (hfmt : ∀ x, isNumber (fmt x).toList = true)
    (parse : List Char → Option α) (c : DrivenControl α)
    (fs : FileSystem α) (filename : String) (m : α) (hm : c.maximumRabiRate = .ok m)
    (hparse : ∀ x ∈ m :: c.rabiRates.map (· / m) ++ c.azimuthalAngles ++ c.detunings ++ c.durations,
      parse (fmt x).toList = some x) :
    ∃ fs' content, c.exportToFile fs filename "Q-CTRL expanded" "JSON" "cylindrical" = (.ok (), fs') ∧
      fs' filename = some content ∧
      reloadJson parse (fileText fmt content) = some (DrivenControl.new c.durations
        (some (c.rabiRates.map fun x => m * (x / m))) (some c.azimuthalAngles) (some c.detunings) c.name) := by
  obtain ⟨fs', content, h1, h2, -, -, h3⟩ :=
    C74_json_text fmt (fun x => .inl (hfmt x)) c fs filename "cylindrical" m hm (.inr rfl)
  obtain ⟨object, h4, -, h5, h6, h7, h8, h9, -⟩ := h3 fun x _ => hfmt x
  obtain ⟨h9, h10⟩ := h9 rfl
  refine ⟨fs', content, h1, h2, ?_⟩
  simp only [List.cons_append, List.mem_cons, List.mem_append] at hparse
  unfold reloadJson
  simp only [h4, h5, h6, h7, h8, h9, h10, Option.bind_eq_bind, Option.bind_some]
  rw [parse_json fmt parse _ fun x hx => hparse x (by tauto),
    parse_json fmt parse _ fun x hx => hparse x (by tauto),
    parse_json fmt parse _ fun x hx => hparse x (by tauto),
    parse_json fmt parse _ fun x hx => hparse x (by tauto)]
  simp only [jsonNumber, hparse m (by simp), Option.bind_some, List.map_map]
  cases c.name <;> simp [jsonText] <;> rfl

/-- **C99** (any arithmetic), CSV in Cartesian coordinates. -/
theorem C99_csv_cartesian (fmt : α → String) (parse : List Char → Option α) (c : DrivenControl α)
    (h : c.Constructed) (fs : FileSystem α) (filename nm : String) (m : α) (hname : c.name = some nm)
    (hm : c.maximumRabiRate = .ok m)
    (hparse : ∀ x ∈ m :: c.amplitudeX.map (· / m) ++ c.amplitudeY.map (· / m) ++ c.detunings ++ c.durations,
      parse (fmt x).toList = some x) :
    ∃ fs' content, c.exportToFile fs filename "Q-CTRL expanded" "CSV" "cartesian" = (.ok (), fs') ∧
      fs' filename = some content ∧
      reloadCsvCartesian parse (fileText fmt content) = some (cartesianSegments
        (c.amplitudeX.map fun x => m * (x / m)) (c.amplitudeY.map fun y => m * (y / m))
        c.detunings c.durations) := by
  obtain ⟨fs', content, records, h1, h2, h3, -, h4, h5, h6, h7, h8⟩ :=
    C73_csv_cartesian fmt c h fs filename nm m hname hm
  obtain ⟨l1, l2, l3, l4⟩ := h.lengths
  refine ⟨fs', content, h1, h2, ?_⟩
  simp only [List.cons_append, List.mem_cons, List.mem_append] at hparse
  unfold reloadCsvCartesian numbersIn
  simp only [h3, h4, h5, h6, h7, h8, Option.bind_eq_bind, Option.bind_some]
  rw [parse_printed fmt parse _ fun x hx => hparse x (by tauto),
    parse_printed fmt parse _ fun x hx => hparse x (by have := List.eq_of_mem_replicate hx; tauto),
    parse_printed fmt parse _ fun x hx => hparse x (by tauto),
    parse_printed fmt parse _ fun x hx => hparse x (by tauto),
    parse_printed fmt parse _ fun x hx => hparse x (by tauto)]
  simp only [Option.bind_some]
  rw [zipWith_replicate_left _ _ _ _ (by simp [DrivenControl.amplitudeX, l1, l2]), List.map_map,
    zipWith_replicate_left _ _ _ _ (by simp [DrivenControl.amplitudeY, l1, l2]), List.map_map]
  rfl

/-- **C99** (any arithmetic), JSON in Cartesian coordinates. -/
theorem C99_json_cartesian (fmt : α → String) (hfmt : ∀ x, isNumber (fmt x).toList = true)
    (parse : List Char → Option α) (c : DrivenControl α)
    (fs : FileSystem α) (filename : String) (m : α) (hm : c.maximumRabiRate = .ok m)
    (hparse : ∀ x ∈ m :: c.amplitudeX.map (· / m) ++ c.amplitudeY.map (· / m) ++ c.detunings ++ c.durations,
      parse (fmt x).toList = some x) :
    ∃ fs' content, c.exportToFile fs filename "Q-CTRL expanded" "JSON" "cartesian" = (.ok (), fs') ∧
      fs' filename = some content ∧
      reloadJsonCartesian parse (fileText fmt content) = some (cartesianSegments
        (c.amplitudeX.map fun x => m * (x / m)) (c.amplitudeY.map fun y => m * (y / m))
        c.detunings c.durations) := by
  obtain ⟨fs', content, h1, h2, -, -, h3⟩ :=
    C74_json_text fmt (fun x => .inl (hfmt x)) c fs filename "cartesian" m hm (.inl rfl)
  obtain ⟨object, h4, -, h5, h6, h7, h8, -, h9⟩ := h3 fun x _ => hfmt x
  obtain ⟨h9, h10⟩ := h9 rfl
  refine ⟨fs', content, h1, h2, ?_⟩
  simp only [List.cons_append, List.mem_cons, List.mem_append] at hparse
  unfold reloadJsonCartesian
  simp only [h4, h5, h6, h7, h9, h10, Option.bind_eq_bind, Option.bind_some]
  rw [parse_json fmt parse _ fun x hx => hparse x (by tauto),
    parse_json fmt parse _ fun x hx => hparse x (by tauto),
    parse_json fmt parse _ fun x hx => hparse x (by tauto),
    parse_json fmt parse _ fun x hx => hparse x (by tauto)]
  simp only [jsonNumber, hparse m (by simp), Option.bind_some, List.map_map]
  rfl

end

/-! ## Exact arithmetic -/

theorem maximum_pos {c : DrivenControl ℝ} {m : ℝ} (hm : c.maximumRabiRate = .ok m)
    (hdrive : ∃ x ∈ c.rabiRates, 0 < x) : 0 < m := by
  obtain ⟨x, hx, h0⟩ := hdrive
  exact h0.trans_le (((npAmax_ok_iff _ _).mp hm).2 x hx)

theorem divide_multiply {m : ℝ} (hm : 0 < m) (l : List ℝ) : (l.map fun x => m * (x / m)) = l := by
  conv_rhs => rw [← List.map_id l]
  refine List.map_congr_left fun x _ => ?_
  rw [mul_div_cancel₀ x hm.ne']
  rfl

theorem new_of_constructed {c : DrivenControl ℝ} (h : c.Constructed) (name : Option String) :
    DrivenControl.new c.durations (some c.rabiRates) (some c.azimuthalAngles) (some c.detunings) name =
      .ok { c with name := name } := by
  obtain ⟨h1, h2, h3, h4, h5⟩ := (DrivenControl.constructed_iff c).mp h
  obtain ⟨c', hc'⟩ := (C01_accepts_iff_real c.durations (some c.rabiRates) (some c.azimuthalAngles)
    (some c.detunings) name).mpr
    ⟨h1, by simpa using h2, by simpa using h3, by simpa using h4, by simpa using h5⟩
  have hs := C02_stores_arguments _ _ _ _ _ _ hc'
  rw [hc']
  congr 1
  cases c; cases c'
  simp [Spec.orZeros] at hs ⊢
  tauto

/-- **C99.** In exact arithmetic a control with drive is read back from the text of a CSV or JSON file unchanged. -/
theorem C99_exact (fmt : ℝ → String) (parse : List Char → Option ℝ) (c : DrivenControl ℝ) (h : c.Constructed)
    (hdrive : ∃ x ∈ c.rabiRates, 0 < x) (fs : FileSystem ℝ) (filename : String) (m : ℝ)
    (hm : c.maximumRabiRate = .ok m)
    (hparse : ∀ x ∈ m :: c.rabiRates.map (· / m) ++ c.azimuthalAngles ++ c.detunings ++ c.durations,
      parse (fmt x).toList = some x) :
    (c.name ≠ none → ∃ fs' content,
      c.exportToFile fs filename "Q-CTRL expanded" "CSV" "cylindrical" = (.ok (), fs') ∧
      fs' filename = some content ∧ reloadCsv parse c.name (fileText fmt content) = some (.ok c)) ∧
    ((∀ x, isNumber (fmt x).toList = true) → ∃ fs' content,
      c.exportToFile fs filename "Q-CTRL expanded" "JSON" "cylindrical" = (.ok (), fs') ∧
      fs' filename = some content ∧ reloadJson parse (fileText fmt content) = some (.ok c)) := by
  have hm0 := maximum_pos hm hdrive
  constructor
  · intro hname
    obtain ⟨nm, hname⟩ := Option.ne_none_iff_exists'.mp hname
    obtain ⟨fs', content, h1, h2, h3⟩ := C99_csv fmt parse c h fs filename nm m hname hm hparse c.name
    rw [divide_multiply hm0, new_of_constructed h] at h3
    exact ⟨fs', content, h1, h2, h3⟩
  · intro hfmt
    obtain ⟨fs', content, h1, h2, h3⟩ := C99_json fmt hfmt parse c fs filename m hm hparse
    rw [divide_multiply hm0, new_of_constructed h] at h3
    exact ⟨fs', content, h1, h2, h3⟩

/-- **C99.** In exact arithmetic the Cartesian segments read back from the text of a file generate the evolution of
the control. -/
theorem C99_exact_cartesian (fmt : ℝ → String) (parse : List Char → Option ℝ) (c : DrivenControl ℝ)
    (h : c.Constructed) (hdrive : ∃ x ∈ c.rabiRates, 0 < x) (fs : FileSystem ℝ) (filename : String) (m : ℝ)
    (hm : c.maximumRabiRate = .ok m)
    (hparse : ∀ x ∈ m :: c.amplitudeX.map (· / m) ++ c.amplitudeY.map (· / m) ++ c.detunings ++ c.durations,
      parse (fmt x).toList = some x) :
    (c.name ≠ none → ∃ fs' content segments,
      c.exportToFile fs filename "Q-CTRL expanded" "CSV" "cartesian" = (.ok (), fs') ∧
      fs' filename = some content ∧ reloadCsvCartesian parse (fileText fmt content) = some segments ∧
      cartesianEvolution segments = evolution c) ∧
    ((∀ x, isNumber (fmt x).toList = true) → ∃ fs' content segments,
      c.exportToFile fs filename "Q-CTRL expanded" "JSON" "cartesian" = (.ok (), fs') ∧
      fs' filename = some content ∧ reloadJsonCartesian parse (fileText fmt content) = some segments ∧
      cartesianEvolution segments = evolution c) := by
  have hm0 := maximum_pos hm hdrive
  have hev : cartesianEvolution (cartesianSegments (c.amplitudeX.map fun x => m * (x / m))
      (c.amplitudeY.map fun y => m * (y / m)) c.detunings c.durations) = evolution c := by
    rw [divide_multiply hm0, divide_multiply hm0]
    obtain ⟨h1, h2, h3, h4, h5⟩ := (DrivenControl.constructed_iff c).mp h
    have := cartesian_dist (K := 0) le_rfl (fun a b => a * Real.cos b) (fun a b => a * Real.sin b) c.rabiRates
      c.azimuthalAngles c.detunings c.durations (by simp) (by simp) h5 (fun t ht => (h1 t ht).le)
      (h3.trans h2.symm) (h4.trans h2.symm) h2.symm
    rw [zero_div, zero_mul] at this
    exact sub_eq_zero.mp (norm_le_zero_iff.mp this)
  constructor
  · intro hname
    obtain ⟨nm, hname⟩ := Option.ne_none_iff_exists'.mp hname
    obtain ⟨fs', content, h1, h2, h3⟩ := C99_csv_cartesian fmt parse c h fs filename nm m hname hm hparse
    exact ⟨fs', content, _, h1, h2, h3, hev⟩
  · intro hfmt
    obtain ⟨fs', content, h1, h2, h3⟩ := C99_json_cartesian fmt hfmt parse c fs filename m hm hparse
    exact ⟨fs', content, _, h1, h2, h3, hev⟩

/-! ## Rounded arithmetic -/

variable {r : Rounding}

theorem maximum_pos_rounded {c : DrivenControl (Fl r)} {m : Fl r} (hm : c.maximumRabiRate = .ok m)
    (hdrive : ∃ x ∈ c.rabiRates, 0 < x.val) : 0 < m.val := by
  obtain ⟨x, hx, h0⟩ := hdrive
  obtain ⟨m', h1, -, h3⟩ := npAmax_rounded (List.ne_nil_of_mem hx)
  have : m = m' := by
    have := hm.symm.trans h1
    exact Except.ok.inj this
  exact this ▸ h0.trans_le (h3 x hx)

theorem cartesianSegments_map {β γ : Type} (f : β → γ) (xs ys ds ts : List β) :
    (cartesianSegments xs ys ds ts).map (fun s => (f s.1, f s.2.1, f s.2.2.1, f s.2.2.2)) =
      cartesianSegments (xs.map f) (ys.map f) (ds.map f) (ts.map f) := by
  induction xs generalizing ys ds ts with
  | nil => simp [cartesianSegments]
  | cons x xs ih =>
    cases ys with
    | nil => simp [cartesianSegments]
    | cons y ys =>
      cases ds with
      | nil => simp [cartesianSegments]
      | cons d ds =>
        cases ts with
        | nil => simp [cartesianSegments]
        | cons t ts => simp [cartesianSegments, ih]

/-- **C99.** In rounded arithmetic a control with drive is read back from the text of a CSV or JSON file, and the
evolution it generates is that of the control up to `3 u` times the total rotation. -/
theorem C99_rounded (fmt : Fl r → String) (parse : List Char → Option (Fl r)) (c : DrivenControl (Fl r))
    (h : c.Constructed) (hdrive : ∃ x ∈ c.rabiRates, 0 < x.val) (fs : FileSystem (Fl r)) (filename : String)
    (m : Fl r) (hm : c.maximumRabiRate = .ok m)
    (hparse : ∀ x ∈ m :: c.rabiRates.map (· / m) ++ c.azimuthalAngles ++ c.detunings ++ c.durations,
      parse (fmt x).toList = some x) :
    (c.name ≠ none → ∃ fs' content c',
      c.exportToFile fs filename "Q-CTRL expanded" "CSV" "cylindrical" = (.ok (), fs') ∧
      fs' filename = some content ∧ reloadCsv parse c.name (fileText fmt content) = some (.ok c') ∧
      ‖evolution (c'.map val) - evolution (c.map val)‖ ≤ 3 * r.u * totalRotation (c.map val)) ∧
    ((∀ x, isNumber (fmt x).toList = true) → ∃ fs' content c',
      c.exportToFile fs filename "Q-CTRL expanded" "JSON" "cylindrical" = (.ok (), fs') ∧
      fs' filename = some content ∧ reloadJson parse (fileText fmt content) = some (.ok c') ∧
      ‖evolution (c'.map val) - evolution (c.map val)‖ ≤ 3 * r.u * totalRotation (c.map val)) := by
  have hm0 := maximum_pos_rounded hm hdrive
  obtain ⟨c', h4, h5⟩ := reload_cylindrical c h hm0 c.name
  rw [List.map_map] at h4
  constructor
  · intro hname
    obtain ⟨nm, hname⟩ := Option.ne_none_iff_exists'.mp hname
    obtain ⟨fs', content, h1, h2, h3⟩ := C99_csv fmt parse c h fs filename nm m hname hm hparse c.name
    exact ⟨fs', content, c', h1, h2, h3.trans (congrArg some h4), h5⟩
  · intro hfmt
    obtain ⟨fs', content, h1, h2, h3⟩ := C99_json fmt hfmt parse c fs filename m hm hparse
    exact ⟨fs', content, c', h1, h2, h3.trans (congrArg some h4), h5⟩

/-- **C99.** In rounded arithmetic the Cartesian segments read back from the text of a file generate the evolution
of the control up to `7 u` times the total rotation. -/
theorem C99_rounded_cartesian (fmt : Fl r → String) (parse : List Char → Option (Fl r))
    (c : DrivenControl (Fl r)) (h : c.Constructed) (hdrive : ∃ x ∈ c.rabiRates, 0 < x.val)
    (fs : FileSystem (Fl r)) (filename : String) (m : Fl r) (hm : c.maximumRabiRate = .ok m)
    (hparse : ∀ x ∈ m :: c.amplitudeX.map (· / m) ++ c.amplitudeY.map (· / m) ++ c.detunings ++ c.durations,
      parse (fmt x).toList = some x) :
    (c.name ≠ none → ∃ fs' content segments,
      c.exportToFile fs filename "Q-CTRL expanded" "CSV" "cartesian" = (.ok (), fs') ∧
      fs' filename = some content ∧ reloadCsvCartesian parse (fileText fmt content) = some segments ∧
      ‖cartesianEvolution (segments.map fun s => (s.1.val, s.2.1.val, s.2.2.1.val, s.2.2.2.val)) -
        evolution (c.map val)‖ ≤ 7 * r.u * totalRotation (c.map val)) ∧
    ((∀ x, isNumber (fmt x).toList = true) → ∃ fs' content segments,
      c.exportToFile fs filename "Q-CTRL expanded" "JSON" "cartesian" = (.ok (), fs') ∧
      fs' filename = some content ∧ reloadJsonCartesian parse (fileText fmt content) = some segments ∧
      ‖cartesianEvolution (segments.map fun s => (s.1.val, s.2.1.val, s.2.2.1.val, s.2.2.2.val)) -
        evolution (c.map val)‖ ≤ 7 * r.u * totalRotation (c.map val)) := by
  have hm0 := maximum_pos_rounded hm hdrive
  have hev := reload_cartesian c h hm0
  rw [List.map_map (l := c.amplitudeX), List.map_map (l := c.amplitudeY), ← cartesianSegments_map] at hev
  constructor
  · intro hname
    obtain ⟨nm, hname⟩ := Option.ne_none_iff_exists'.mp hname
    obtain ⟨fs', content, h1, h2, h3⟩ := C99_csv_cartesian fmt parse c h fs filename nm m hname hm hparse
    exact ⟨fs', content, _, h1, h2, h3, hev⟩
  · intro hfmt
    obtain ⟨fs', content, h1, h2, h3⟩ := C99_json_cartesian fmt hfmt parse c fs filename m hm hparse
    exact ⟨fs', content, _, h1, h2, h3, hev⟩

/-- a control and a way of printing and reading its numbers that satisfy the hypotheses -/
example : ∃ (c : DrivenControl ℝ) (fmt : ℝ → String) (parse : List Char → Option ℝ) (m : ℝ),
    c.Constructed ∧ c.name ≠ none ∧ (∃ x ∈ c.rabiRates, 0 < x) ∧ c.maximumRabiRate = .ok m ∧
    (∀ x, isNumber (fmt x).toList = true) ∧
    ∀ x ∈ m :: c.rabiRates.map (· / m) ++ c.azimuthalAngles ++ c.detunings ++ c.durations,
      parse (fmt x).toList = some x := by
  classical
  refine ⟨⟨[2, 0], [0, 1], [1, 0], [1, 2], some "a"⟩,
    fun x => if x = 0 then "0.0" else if x = 1 then "1.0" else "2.0",
    fun s => if s = "0.0".toList then some 0 else if s = "1.0".toList then some 1 else some 2, 2,
    (DrivenControl.constructed_iff _).mpr (by simp), by simp, ⟨2, by simp⟩,
    (npAmax_ok_iff _ _).mpr (by simp), ?_, ?_⟩
  · intro x
    dsimp only
    split_ifs <;> decide
  · intro x hx
    simp at hx
    have : x = 0 ∨ x = 1 ∨ x = 2 := by tauto
    rcases this with rfl | rfl | rfl
    · norm_num
    · norm_num; decide
    · norm_num
      rw [if_neg (by decide), if_neg (by decide)]

end OpenControls
