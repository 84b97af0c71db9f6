import Verif.Proofs.FileText
import Verif.Props.Extended

/-!
# C73-C75: the characters of exported files

Formatting of a single number is a parameter `fmt`; everything around it is exact. The files are read by readers
for CSV (RFC 4180) and JSON (RFC 8259) that know nothing of the writer.
-/

namespace OpenControls

set_option linter.unusedSectionVars false

open PyFloat Spec XR

variable {α : Type} [Add α] [Sub α] [Mul α] [Div α] [Neg α] [PyFloat α]

/-- the numbers as they are printed -/
def Spec.printed (fmt : α → String) (l : List α) : List (List Char) := l.map fun x => (fmt x).toList

theorem mapM_getElem {β γ : Type} (rows : List β) (g : β → Option γ) (l : List γ)
    (hl : l.length = rows.length)
    (h : ∀ (i : ℕ) (r : β) (x : γ), rows[i]? = some r → l[i]? = some x → g r = some x) :
    rows.mapM g = some l := by
  induction rows generalizing l with
  | nil =>
    obtain rfl : l = [] := List.length_eq_zero_iff.mp (by simpa using hl)
    rfl
  | cons r rows ih =>
    cases l with
    | nil => simp at hl
    | cons x l =>
      rw [List.mapM_cons, h 0 r x rfl rfl,
        ih l (by simpa using hl) fun i r y h1 h2 => h (i + 1) r y h1 h2]
      rfl

theorem lookup_printed {β : Type} (g : β → List Char) (header : List String) (row : List β) (title : String) :
    ((header.map String.toList).zip (row.map g)).lookup title.toList =
      ((header.zip row).lookup title).map g := by
  induction header generalizing row with
  | nil => simp
  | cons k header ih =>
    cases row with
    | nil => simp
    | cons x row =>
      simp only [List.map_cons, List.zip_cons_cons, List.lookup_cons, ih]
      by_cases hk : title = k
      · subst hk; simp
      · have hk' : title.toList ≠ k.toList := fun h => hk (String.toList_inj.mp h)
        simp [beq_eq_false_iff_ne.mpr hk, beq_eq_false_iff_ne.mpr hk']

theorem readCsv_file (fmt : α → String) (header : List String) (rows : List (List α)) (hh : header ≠ [])
    (hr : ∀ r ∈ rows, r ≠ []) :
    readCsv (fileText fmt (.csv header rows)) =
      some (header.map String.toList :: rows.map (printed fmt)) := by
  have e : fileText fmt (.csv header rows) =
      (header.map String.toList :: rows.map (printed fmt)).flatMap csvLine := by
    simp only [fileText, List.flatMap_cons, List.flatMap_map]
    rfl
  rw [e, readCsv_lines]
  intro r h
  rcases List.mem_cons.mp h with rfl | h
  · simpa using hh
  · obtain ⟨row, hrow, rfl⟩ := List.mem_map.mp h
    simpa [printed] using hr row hrow

/-- columns of a file from its cells -/
theorem column_of_cells (fmt : α → String) (header : List String) (rows : List (List α)) (title : String)
    (l : List α) (hl : l.length = rows.length)
    (h : ∀ (i : ℕ) (row : List α) (x : α), rows[i]? = some row → l[i]? = some x → cell header row title = some x) :
    column (header.map String.toList :: rows.map (printed fmt)) title = some (printed fmt l) := by
  unfold column
  apply mapM_getElem
  · simp [printed, hl]
  · intro i r x h1 h2
    simp only [List.getElem?_map, Option.map_eq_some_iff, printed] at h1 h2
    obtain ⟨row, hrow, rfl⟩ := h1
    obtain ⟨y, hy, rfl⟩ := h2
    rw [lookup_printed]
    have := h i row y hrow hy
    unfold cell at this
    rw [this]
    rfl

/-- **C73** (any arithmetic, any formatting of numbers) A CSV file in cylindrical coordinates is read by a
standard CSV reader as the titles and one record per segment; the columns are the printed attributes. -/
theorem C73_csv_cylindrical (fmt : α → String) (c : DrivenControl α) (h : c.Constructed) (fs : FileSystem α)
    (filename nm : String) (m : α) (hname : c.name = some nm) (hm : c.maximumRabiRate = .ok m) :
    ∃ fs' content records,
      c.exportToFile fs filename "Q-CTRL expanded" "CSV" "cylindrical" = (.ok (), fs') ∧
      fs' filename = some content ∧ readCsv (fileText fmt content) = some records ∧
      records.length = c.numberOfSegments + 1 ∧
      column records "rabi_rates" = some (printed fmt (c.rabiRates.map (· / m))) ∧
      column records "azimuthal_angles" = some (printed fmt c.azimuthalAngles) ∧
      column records "detuning" = some (printed fmt c.detunings) ∧
      column records "duration" = some (printed fmt c.durations) ∧
      column records "maximum_rabi_rate" =
        some (printed fmt (List.replicate c.numberOfSegments m)) := by
  obtain ⟨fs', header, rows, h1, h2, h3, h4, h5⟩ := C10_csv_cylindrical c h fs filename nm m hname hm
  obtain ⟨l1, l2, l3, l4⟩ := h.lengths
  have hseg : ∀ (i : ℕ) (row : List α), rows[i]? = some row → ∃ Ω φ Δ t, c.rabiRates[i]? = some Ω ∧
      c.azimuthalAngles[i]? = some φ ∧ c.detunings[i]? = some Δ ∧ c.durations[i]? = some t ∧
      row.length = header.length ∧ cell header row "rabi_rates" = some (Ω / m) ∧
          cell header row "azimuthal_angles" = some φ ∧ cell header row "detuning" = some Δ ∧
          cell header row "duration" = some t ∧ cell header row "maximum_rabi_rate" = some m := by
    intro i row hrow
    obtain ⟨Ω, φ, Δ, t, e1, e2, e3, e4⟩ := h.segment (n := i) (by
      rw [← h4]; exact (List.getElem?_eq_some_iff.mp hrow).1)
    obtain ⟨row', k1, k2⟩ := h5 i Ω φ Δ t e1 e2 e3 e4
    rw [hrow] at k1
    cases k1
    exact ⟨Ω, φ, Δ, t, e1, e2, e3, e4, k2⟩
  have hne : ∀ r ∈ rows, r ≠ [] := by
    intro r hr
    obtain ⟨i, hi, rfl⟩ := List.mem_iff_getElem.mp hr
    obtain ⟨Ω, φ, Δ, t, -, -, -, -, k, -⟩ := hseg i _ (List.getElem?_eq_getElem hi)
    intro hnil
    rw [hnil, h3] at k
    simp at k
  refine ⟨fs', _, _, h1, h2, readCsv_file fmt header rows (by rw [h3]; simp) hne, by simp [h4],
    column_of_cells fmt _ _ _ _ (by simp [h4, l1]) ?_, column_of_cells fmt _ _ _ _ (by simp [h4, l2]) ?_,
    column_of_cells fmt _ _ _ _ (by simp [h4, l3]) ?_, column_of_cells fmt _ _ _ _ (by simp [h4, l4]) ?_,
    column_of_cells fmt _ _ _ _ (by simp [h4]) ?_⟩
  all_goals
    intro i row x hrow hx
    obtain ⟨Ω, φ, Δ, t, e1, e2, e3, e4, -, k1, k2, k3, k4, k5⟩ := hseg i row hrow
  · rw [List.getElem?_map, e1] at hx; cases hx; exact k1
  · rw [e2] at hx; cases hx; exact k2
  · rw [e3] at hx; cases hx; exact k3
  · rw [e4] at hx; cases hx; exact k4
  · rw [List.getElem?_replicate] at hx
    split at hx
    · cases hx; exact k5
    · simp at hx

/-- **C73** for Cartesian coordinates. -/
theorem C73_csv_cartesian (fmt : α → String) (c : DrivenControl α) (h : c.Constructed) (fs : FileSystem α)
    (filename nm : String) (m : α) (hname : c.name = some nm) (hm : c.maximumRabiRate = .ok m) :
    ∃ fs' content records,
      c.exportToFile fs filename "Q-CTRL expanded" "CSV" "cartesian" = (.ok (), fs') ∧
      fs' filename = some content ∧ readCsv (fileText fmt content) = some records ∧
      records.length = c.numberOfSegments + 1 ∧
      column records "amplitude_x" = some (printed fmt (c.amplitudeX.map (· / m))) ∧
      column records "amplitude_y" = some (printed fmt (c.amplitudeY.map (· / m))) ∧
      column records "detuning" = some (printed fmt c.detunings) ∧
      column records "duration" = some (printed fmt c.durations) ∧
      column records "maximum_rabi_rate" =
        some (printed fmt (List.replicate c.numberOfSegments m)) := by
  obtain ⟨fs', header, rows, h1, h2, h3, h4, h5⟩ := C10_csv_cartesian c h fs filename nm m hname hm
  obtain ⟨l1, l2, l3, l4⟩ := h.lengths
  have hseg : ∀ (i : ℕ) (row : List α), rows[i]? = some row → ∃ Ω φ Δ t, c.rabiRates[i]? = some Ω ∧
      c.azimuthalAngles[i]? = some φ ∧ c.detunings[i]? = some Δ ∧ c.durations[i]? = some t ∧
      row.length = header.length ∧ cell header row "amplitude_x" = some (Ω * PyFloat.cos φ / m) ∧
          cell header row "amplitude_y" = some (Ω * PyFloat.sin φ / m) ∧
          cell header row "detuning" = some Δ ∧
          cell header row "duration" = some t ∧ cell header row "maximum_rabi_rate" = some m := by
    intro i row hrow
    obtain ⟨Ω, φ, Δ, t, e1, e2, e3, e4⟩ := h.segment (n := i) (by
      rw [← h4]; exact (List.getElem?_eq_some_iff.mp hrow).1)
    obtain ⟨row', k1, k2⟩ := h5 i Ω φ Δ t e1 e2 e3 e4
    rw [hrow] at k1
    cases k1
    exact ⟨Ω, φ, Δ, t, e1, e2, e3, e4, k2⟩
  have hne : ∀ r ∈ rows, r ≠ [] := by
    intro r hr
    obtain ⟨i, hi, rfl⟩ := List.mem_iff_getElem.mp hr
    obtain ⟨Ω, φ, Δ, t, -, -, -, -, k, -⟩ := hseg i _ (List.getElem?_eq_getElem hi)
    intro hnil
    rw [hnil, h3] at k
    simp at k
  refine ⟨fs', _, _, h1, h2, readCsv_file fmt header rows (by rw [h3]; simp) hne, by simp [h4],
    column_of_cells fmt _ _ _ _ (by simp [h4, l1, l2, DrivenControl.amplitudeX]) ?_,
    column_of_cells fmt _ _ _ _ (by simp [h4, l1, l2, DrivenControl.amplitudeY]) ?_,
    column_of_cells fmt _ _ _ _ (by simp [h4, l3]) ?_, column_of_cells fmt _ _ _ _ (by simp [h4, l4]) ?_,
    column_of_cells fmt _ _ _ _ (by simp [h4]) ?_⟩
  all_goals
    intro i row x hrow hx
    obtain ⟨Ω, φ, Δ, t, e1, e2, e3, e4, -, k1, k2, k3, k4, k5⟩ := hseg i row hrow
  · simp only [DrivenControl.amplitudeX, List.getElem?_map, List.getElem?_zipWith, e1, e2] at hx
    cases hx; exact k1
  · simp only [DrivenControl.amplitudeY, List.getElem?_map, List.getElem?_zipWith, e1, e2] at hx
    cases hx; exact k2
  · rw [e3] at hx; cases hx; exact k3
  · rw [e4] at hx; cases hx; exact k4
  · rw [List.getElem?_replicate] at hx
    split at hx
    · cases hx; exact k5
    · simp at hx

/-- the hypotheses are met: a named control with two segments, and what a reader finds in its file -/
example : ∃ (fs' : FileSystem ℝ) (content : FileContent ℝ) (records : List (List (List Char))),
    (⟨[0, 2], [0, 1], [2, 0], [1, 1], some "n"⟩ : DrivenControl ℝ).exportToFile (fun _ => none) "f"
      "Q-CTRL expanded" "CSV" "cylindrical" = (.ok (), fs') ∧
    fs' "f" = some content ∧
    readCsv (fileText (fun x : ℝ => if x = 0 then "0.0" else "1,\"5") content) = some records ∧
    records.length = 3 ∧ column records "detuning" = some ["1,\"5".toList, "0.0".toList] := by
  let c : DrivenControl ℝ := ⟨[0, 2], [0, 1], [2, 0], [1, 1], some "n"⟩
  have hc : c.Constructed := by
    rw [DrivenControl.constructed_iff]; simp [c]
  obtain ⟨m, hm⟩ : ∃ m, c.maximumRabiRate = .ok m := npAmax_exists (by simp [c])
  obtain ⟨fs', content, records, h1, h2, h3, h4, -, -, h5, -⟩ := C73_csv_cylindrical
    (fun x : ℝ => if x = 0 then "0.0" else "1,\"5") c hc (fun _ => none) "f" "n" m rfl hm
  refine ⟨fs', content, records, h1, h2, h3, h4, ?_⟩
  rw [h5]
  simp [printed, c]

/-- **C74** (any arithmetic) A JSON file contains only ASCII characters, whatever the name of the control. If every
number in it prints as a number of JSON, a standard JSON reader gets an object with exactly the attributes, the
name unchanged; if one prints as `NaN` or `Infinity`, the file is not JSON. -/
theorem C74_json_text (fmt : α → String)
    (hfmt : ∀ x, isNumber (fmt x).toList = true ∨ isNonFinite (fmt x).toList) (c : DrivenControl α)
    (fs : FileSystem α) (filename coordinates : String) (m : α) (hm : c.maximumRabiRate = .ok m)
    (hc : coordinates = "cartesian" ∨ coordinates = "cylindrical") :
    ∃ fs' content, c.exportToFile fs filename "Q-CTRL expanded" "JSON" coordinates = (.ok (), fs') ∧
      fs' filename = some content ∧ Ascii (fileText fmt content) ∧
      ((∃ x ∈ content.numbers, isNonFinite (fmt x).toList) → readJson (fileText fmt content) = none) ∧
      ((∀ x ∈ content.numbers, isNumber (fmt x).toList = true) →
        ∃ object, readJson (fileText fmt content) = some (.obj object) ∧ (object.map Prod.fst).Nodup ∧
          member object "maximum_rabi_rate" = some (.num (fmt m).toList) ∧
          member object "detuning" = some (.arr ((printed fmt c.detunings).map .num)) ∧
          member object "duration" = some (.arr ((printed fmt c.durations).map .num)) ∧
          member object "name" = c.name.map (fun n => .str n.toList) ∧
          (coordinates = "cylindrical" →
            member object "rabi_rates" = some (.arr ((printed fmt (c.rabiRates.map (· / m))).map .num)) ∧
            member object "azimuthal_angles" = some (.arr ((printed fmt c.azimuthalAngles).map .num))) ∧
          (coordinates = "cartesian" →
            member object "amplitude_x" = some (.arr ((printed fmt (c.amplitudeX.map (· / m))).map .num)) ∧
            member object "amplitude_y" =
              some (.arr ((printed fmt (c.amplitudeY.map (· / m))).map .num)))) := by
  obtain ⟨fs', object, h1, h2, h3, h4, h5, h6, h7, h8, h9⟩ := C12_json c fs filename coordinates m hm hc
  have hall : ∀ kv ∈ object, ∀ x ∈ kv.2.members,
      isNumber (fmt x).toList = true ∨ isNonFinite (fmt x).toList := fun _ _ x _ => hfmt x
  have hmem : ∀ v : Val α, v.members = v.numbers := by intro v; cases v <;> rfl
  have hvalid : ∀ v : Val α, v.valid fmt = v.numbers.all fun x => isNumber (fmt x).toList := by
    intro v; cases v <;> simp [Val.valid, Val.numbers]
  have hbad : ∀ t : List Char, isNonFinite t → isNumber t = false := by
    intro t h; rcases h with rfl | rfl | rfl <;> decide
  refine ⟨fs', .json object, h1, h2, jsonText_ascii fmt object hall, ?_, ?_⟩
  · rintro ⟨x, hx, hnf⟩
    rw [readJson_text fmt object hall, if_neg]
    simp only [FileContent.numbers, List.mem_flatMap] at hx
    obtain ⟨kv, hkv, hx⟩ := hx
    intro h
    have := List.all_eq_true.mp h kv hkv
    rw [hvalid] at this
    have := List.all_eq_true.mp this x hx
    rw [hbad _ hnf] at this
    exact Bool.noConfusion this
  · intro hn
    have hok : (object.all fun kv => kv.2.valid fmt) = true := by
      rw [List.all_eq_true]
      intro kv hkv
      rw [hvalid, List.all_eq_true]
      exact fun x hx => hn x (List.mem_flatMap.mpr ⟨kv, hkv, hx⟩)
    have hlook : ∀ key, member (object.map fun kv => (kv.1.toList, kv.2.json fmt)) key =
        (field object key).map (Val.json fmt) := by
      intro key
      unfold member field
      generalize object = l
      induction l with
      | nil => rfl
      | cons kv l ih =>
        obtain ⟨k, v⟩ := kv
        simp only [List.map_cons, List.lookup_cons, ih]
        by_cases hk : key = k
        · simp [hk]
        · have hk' : key.toList ≠ k.toList := fun h => hk (String.toList_inj.mp h)
          simp [beq_eq_false_iff_ne.mpr hk, beq_eq_false_iff_ne.mpr hk']
    refine ⟨_, by rw [readJson_text fmt object hall, if_pos hok], ?_, ?_, ?_, ?_, ?_, ?_, ?_⟩
    · have e : (object.map fun kv => (kv.1.toList, kv.2.json fmt)).map Prod.fst =
          (object.map Prod.fst).map String.toList := by simp
      rw [e]
      exact h3.map fun a b h => String.toList_inj.mp h
    · rw [hlook, h4]; rfl
    · rw [hlook, h5]; simp [Val.json, printed]
    · rw [hlook, h6]; simp [Val.json, printed]
    · rw [hlook, h7]; cases c.name <;> rfl
    · intro hcy
      refine ⟨?_, ?_⟩
      · rw [hlook, (h8 hcy).1]; simp [Val.json, printed]
      · rw [hlook, (h8 hcy).2.1]; simp [Val.json, printed]
    · intro hca
      refine ⟨?_, ?_⟩
      · rw [hlook, (h9 hca).1]; simp [Val.json, printed]
      · rw [hlook, (h9 hca).2.1]; simp [Val.json, printed]

/-- The hypotheses are met, with a formatter that prints what Python prints for 0, 1 and 2. The name of the control
contains a quote, a line break and a character outside the basic plane. -/
example : ∃ (fmt : ℝ → String) (c : DrivenControl ℝ) (fs' : FileSystem ℝ) (content : FileContent ℝ)
    (object : List (List Char × Json)),
    (∀ x, isNumber (fmt x).toList = true ∨ isNonFinite (fmt x).toList) ∧ c.Constructed ∧
    c.exportToFile (fun _ => none) "f" "Q-CTRL expanded" "JSON" "cylindrical" = (.ok (), fs') ∧
    fs' "f" = some content ∧ readJson (fileText fmt content) = some (.obj object) ∧
    member object "name" = some (.str "a \"π\"\n𝄞".toList) ∧
    member object "detuning" = some (.arr [.num "2.0".toList, .num "0.0".toList]) := by
  let fmt : ℝ → String := fun x => if x = 0 then "0.0" else if x = 1 then "1.0" else "2.0"
  let c : DrivenControl ℝ := ⟨[1, 2], [0, 1], [2, 0], [1, 1], some "a \"π\"\n𝄞"⟩
  have hc : c.Constructed := by
    rw [DrivenControl.constructed_iff]; simp [c]
  have hnum : ∀ x, isNumber (fmt x).toList = true := by
    intro x
    simp only [fmt]
    split
    · decide
    · split <;> decide
  obtain ⟨m, hm⟩ : ∃ m, c.maximumRabiRate = .ok m := npAmax_exists (by simp [c])
  obtain ⟨fs', content, h1, h2, -, -, h3⟩ := C74_json_text fmt (fun x => Or.inl (hnum x)) c (fun _ => none) "f"
    "cylindrical" m hm (Or.inr rfl)
  obtain ⟨object, k1, -, -, k2, -, k3, -⟩ := h3 fun x _ => hnum x
  refine ⟨fmt, c, fs', content, object, fun x => Or.inl (hnum x), hc, h1, h2, k1, k3, ?_⟩
  rw [k2]
  simp [printed, c, fmt]

/-- what `json.dump` prints for a float (`json/encoder.py`, `floatstr`): the digits of a finite number are left to
`repr` -/
def Spec.jsonFloat (repr : ℝ → String) : XR → String
  | .fin x => repr x
  | .inf => "Infinity"
  | .negInf => "-Infinity"
  | .nan => "NaN"

/-- **C75.** Exporting a control to JSON writes valid JSON exactly if the control has some drive: without drive the
export succeeds, but the file contains `NaN` and no standard JSON reader accepts it. -/
theorem C75_json_valid_iff (repr : ℝ → String) (hrepr : ∀ x, isNumber (repr x).toList = true)
    (c : DrivenControl ℝ) (h : c.Constructed) (hn : 0 < c.numberOfSegments) (fs : FileSystem XR)
    (filename coordinates : String) (hc : coordinates = "cartesian" ∨ coordinates = "cylindrical") :
    ∃ fs' content,
      (c.map fin).exportToFile fs filename "Q-CTRL expanded" "JSON" coordinates = (.ok (), fs') ∧
      fs' filename = some content ∧
      ((∃ value, readJson (fileText (jsonFloat repr) content) = some value) ↔ ∃ r ∈ c.rabiRates, r ≠ 0) := by
  have hfmt : ∀ x, isNumber (jsonFloat repr x).toList = true ∨ isNonFinite (jsonFloat repr x).toList := by
    intro x
    cases x with
    | fin x => exact Or.inl (hrepr x)
    | inf => exact Or.inr (Or.inr (Or.inl rfl))
    | negInf => exact Or.inr (Or.inr (Or.inr rfl))
    | nan => exact Or.inr (Or.inl rfl)
  have hne : c.rabiRates ≠ [] := by
    intro hnil; simp [DrivenControl.numberOfSegments, hnil] at hn
  obtain ⟨m, hm⟩ := npAmax_exists (l := (c.map fin).rabiRates) (by simpa [DrivenControl.map] using hne)
  obtain ⟨fs', content, h1, h2, -, h3, h4⟩ := C74_json_text (jsonFloat repr) hfmt (c.map fin) fs filename
    coordinates m hm hc
  refine ⟨fs', content, h1, h2, ?_⟩
  by_cases hd : ∃ r ∈ c.rabiRates, r ≠ 0
  · refine iff_of_true ?_ hd
    have hx := ((C66_finite c h (fun _ => none) filename "Q-CTRL expanded" "JSON" coordinates).1 hd).1
    have hexp : ∀ fs : FileSystem XR,
        (c.map fin).exportToFile fs filename "Q-CTRL expanded" "JSON" coordinates = (.ok (),
          fs.write filename (.json (jsonObject (c.map fin) m (coordinates == "cartesian")))) := by
      intro fs
      rw [← exportExpanded_json (c.map fin) fs filename "JSON" coordinates m hm (by decide)]
      unfold DrivenControl.exportToFile
      rcases hc with rfl | rfl <;> simp [fileFormats, fileTypes, coordinateSystems]
    have hcontent : content = .json (jsonObject (c.map fin) m (coordinates == "cartesian")) := by
      rw [hexp fs] at h1
      cases h1
      simpa [FileSystem.write, eq_comm] using h2
    have hfile := congrFun (congrArg Prod.snd ((hexp _).symm.trans hx)) filename
    simp only [FileSystem.write, beq_self_eq_true, if_true, FileSystem.map] at hfile
    have hall : ∀ x ∈ content.numbers, isNumber (jsonFloat repr x).toList = true := by
      obtain ⟨real, -, hreal⟩ := Option.map_eq_some_iff.mp hfile.symm
      rw [hcontent, ← hreal]
      intro x hx
      have : ∃ y, x = fin y := by
        cases real with
        | csv header rows =>
          simp only [FileContent.map, FileContent.numbers, List.mem_flatten, List.mem_map] at hx
          obtain ⟨_, ⟨r, -, rfl⟩, hx⟩ := hx
          obtain ⟨y, -, rfl⟩ := List.mem_map.mp hx
          exact ⟨y, rfl⟩
        | json fields =>
          simp only [FileContent.map, FileContent.numbers, mapDict, List.mem_flatMap, List.mem_map] at hx
          obtain ⟨_, ⟨kv, -, rfl⟩, hx⟩ := hx
          obtain ⟨k, v⟩ := kv
          cases v with
          | num y => exact ⟨y, by simpa [Val.map, Val.numbers] using hx⟩
          | str s => simp [Val.map, Val.numbers] at hx
          | arr l =>
            simp only [Val.map, Val.numbers, List.mem_map] at hx
            obtain ⟨y, -, rfl⟩ := hx
            exact ⟨y, rfl⟩
      obtain ⟨y, rfl⟩ := this
      exact hrepr y
    obtain ⟨object, ho, -⟩ := h4 hall
    exact ⟨_, ho⟩
  · refine iff_of_false ?_ hd
    push Not at hd
    have h66 := C66_without_drive c h hne hd fs filename
    have hmem : XR.nan ∈ content.numbers := by
      have hlook : ∀ (object : List (String × Val XR)) (key : String) (l : List XR),
          field object key = some (.arr l) → ∀ x ∈ l, x ∈ (FileContent.json object).numbers := by
        intro object key l hl x hx
        simp only [FileContent.numbers, List.mem_flatMap]
        exact ⟨(key, .arr l), List.lookup_eq_some_iff.mp hl |> fun ⟨l₁, l₂, e, _⟩ => by rw [e]; simp, hx⟩
      have hrep : XR.nan ∈ List.replicate c.numberOfSegments XR.nan := by
        rw [List.mem_replicate]; exact ⟨hn.ne', rfl⟩
      rcases hc with rfl | rfl
      · obtain ⟨fs'', object, k1, k2, k3, -⟩ := h66.2.1
        rw [h1] at k1
        cases k1
        rw [h2] at k2
        cases k2
        exact hlook object _ _ k3 _ hrep
      · obtain ⟨fs'', object, k1, k2, k3⟩ := h66.1
        rw [h1] at k1
        cases k1
        rw [h2] at k2
        cases k2
        exact hlook object _ _ k3 _ hrep
    rw [h3 ⟨XR.nan, hmem, Or.inl rfl⟩]
    simp

/-- the hypotheses are met by the control of a free evolution and by one with drive -/
example : (∃ fs' content, ((⟨[0], [0], [1], [2], none⟩ : DrivenControl ℝ).map fin).exportToFile (fun _ => none) "f"
      "Q-CTRL expanded" "JSON" "cylindrical" = (.ok (), fs') ∧ fs' "f" = some content ∧
      ¬ ∃ value, readJson (fileText (jsonFloat fun _ => "1.5") content) = some value) ∧
    ∃ fs' content, ((⟨[0, 1], [0, 0], [1, 0], [2, 1], none⟩ : DrivenControl ℝ).map fin).exportToFile
      (fun _ => none) "f" "Q-CTRL expanded" "JSON" "cylindrical" = (.ok (), fs') ∧ fs' "f" = some content ∧
      ∃ value, readJson (fileText (jsonFloat fun _ => "1.5") content) = some value := by
  have hr : ∀ x : ℝ, isNumber ((fun _ : ℝ => "1.5") x).toList = true := fun _ => by show isNumber "1.5".toList = true; decide
  obtain ⟨fs', content, h1, h2, h3⟩ := C75_json_valid_iff (fun _ => "1.5") hr ⟨[0], [0], [1], [2], none⟩
    (by rw [DrivenControl.constructed_iff]; simp) (by simp [DrivenControl.numberOfSegments]) (fun _ => none) "f"
    "cylindrical" (Or.inr rfl)
  obtain ⟨gs', content', k1, k2, k3⟩ := C75_json_valid_iff (fun _ => "1.5") hr
    ⟨[0, 1], [0, 0], [1, 0], [2, 1], none⟩
    (by rw [DrivenControl.constructed_iff]; simp) (by simp [DrivenControl.numberOfSegments]) (fun _ => none) "f"
    "cylindrical" (Or.inr rfl)
  refine ⟨⟨fs', content, h1, h2, fun h => ?_⟩, gs', content', k1, k2, k3.mpr ⟨1, by simp, by simp⟩⟩
  obtain ⟨r, hr, hr0⟩ := h3.mp h
  exact hr0 (by simpa using hr)

end OpenControls
