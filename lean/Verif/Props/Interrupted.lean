import Verif.Proofs.Disk
import Verif.Props.Reload

/-!
# C100: exports interrupted by the operating system

`fmt` prints a number, `divide` is how `json.dump` divides its text into pieces, `os` is what the operating system does.
-/

namespace OpenControls

set_option linter.unusedSectionVars false

open PyFloat Spec

section

variable {α : Type} [Add α] [Sub α] [Mul α] [Div α] [Neg α] [PyFloat α]

/-- **C100** (any arithmetic, any control) Whatever the operating system does, an export touches at most its own file;
if the file cannot be opened it stays as it was; otherwise it contains the beginning of the text afterwards, and all of
the text unless `OSError` is raised. -/
theorem C100_control (fmt : α → String) (divide : List Char → List (List Char))
    (hdivide : ∀ s, (divide s).flatten = s) (os : Os) (c : DrivenControl α) (disk : Disk)
    (filename fileFormat fileType coordinates : String) :
    Interrupted fmt os disk filename
      (c.exportToFile (fun _ => none) filename fileFormat fileType coordinates)
      (c.exportToDisk fmt divide os disk filename fileFormat fileType coordinates) := by
  rcases exportToDisk_cases fmt divide hdivide c filename fileFormat fileType coordinates with
    ⟨res, h1, h2⟩ | ⟨res, content, pieces, h1, h2, h3⟩
  · rw [h1, h2]
    exact nothing_interrupted fmt os disk filename res
  · rw [h1, h3]
    exact writeFile_interrupted fmt os disk filename pieces res content h2 _

/-- **C100** The same for sequences. -/
theorem C100_sequence (fmt : α → String) (divide : List Char → List (List Char))
    (hdivide : ∀ s, (divide s).flatten = s) (os : Os) (s : Sequence α) (disk : Disk)
    (filename fileFormat fileType coordinates : String) (maximumRabiRate maximumDetuningRate : α) :
    Interrupted fmt os disk filename
      (s.exportToFile (fun _ => none) filename fileFormat fileType coordinates maximumRabiRate maximumDetuningRate)
      (s.exportToDisk fmt divide os disk filename fileFormat fileType coordinates maximumRabiRate
        maximumDetuningRate) := by
  unfold Sequence.exportToFile Sequence.exportToDisk
  cases convertDDS s maximumRabiRate maximumDetuningRate (lit 0) s.name with
  | error e => exact nothing_interrupted fmt os disk filename (.error e)
  | ok c => exact C100_control fmt divide hdivide os c disk filename fileFormat fileType coordinates

/-- **C100** Every beginning of the text can be left on the disk: exports are not atomic. -/
theorem C100_any_beginning (fmt : α → String) (divide : List Char → List (List Char))
    (hdivide : ∀ s, (divide s).flatten = s) (c : DrivenControl α) (disk : Disk)
    (filename fileFormat fileType coordinates : String) (content : FileContent α) (text : List Char)
    (hc : (c.exportToFile (fun _ => none) filename fileFormat fileType coordinates).2 filename = some content)
    (htext : text <+: fileText fmt content) :
    ∃ os : Os, os.opens = true ∧
      (c.exportToDisk fmt divide os disk filename fileFormat fileType coordinates).1 = .osError ∧
      (c.exportToDisk fmt divide os disk filename fileFormat fileType coordinates).2 filename = some text := by
  rcases exportToDisk_cases fmt divide hdivide c filename fileFormat fileType coordinates with
    ⟨res, h1, h2⟩ | ⟨res, content', pieces, h1, h2, h3⟩
  · rw [h1] at hc; cases hc
  · rw [h1] at hc
    obtain rfl : content' = content := by simpa [FileSystem.write] using hc
    have h4 := writePieces_stop text.length _ 0 [] pieces rfl
    rw [h2, List.nil_append] at h4
    refine ⟨⟨true, fun i => if i = 0 + okCount pieces then some text.length else none⟩, rfl, ?_, ?_⟩
    · rw [h3, writeFile, if_pos rfl, h4]
    · rw [h3, writeFile, if_pos rfl, h4]
      simp [Disk.put, ← List.prefix_iff_eq_take.mp htext]

/-- **C100** A JSON file that is not complete is not JSON: any reader notices it. -/
theorem C100_json_noticed (fmt : α → String) (hfmt : ∀ x, isNumber (fmt x).toList = true)
    (divide : List Char → List (List Char)) (hdivide : ∀ s, (divide s).flatten = s) (os : Os)
    (hopen : os.opens = true) (c : DrivenControl α) (disk : Disk) (filename coordinates : String) (m : α)
    (hm : c.maximumRabiRate = .ok m) (hc : coordinates = "cartesian" ∨ coordinates = "cylindrical") :
    ∃ fs' content text,
      c.exportToFile (fun _ => none) filename "Q-CTRL expanded" "JSON" coordinates = (.ok (), fs') ∧
      fs' filename = some content ∧ readJson (fileText fmt content) ≠ none ∧
      (c.exportToDisk fmt divide os disk filename "Q-CTRL expanded" "JSON" coordinates).2 filename = some text ∧
      (text = fileText fmt content ∨ readJson text = none) := by
  obtain ⟨fs', object, h1, h2, -⟩ := C12_json c (fun _ => none) filename coordinates m hm hc
  obtain ⟨fs'', content, h3, h4, -, -, h5⟩ :=
    C74_json_text fmt (fun x => .inl (hfmt x)) c (fun _ => none) filename coordinates m hm hc
  obtain rfl : fs' = fs'' := congrArg Prod.snd (h1.symm.trans h3)
  obtain rfl : FileContent.json object = content := Option.some.inj (h2.symm.trans h4)
  obtain ⟨value, h6, -⟩ := h5 fun x _ => hfmt x
  obtain ⟨text, h7, h8, -⟩ := (C100_control fmt divide hdivide os c disk filename "Q-CTRL expanded" "JSON"
    coordinates).opened (.json object) (by rw [h1]; exact h2) hopen
  refine ⟨fs', _, text, h1, h2, by simp [h6], h8, ?_⟩
  by_cases he : text = fileText fmt (.json object)
  · exact .inl he
  · refine .inr ?_
    have hshape : ∃ body, fileText fmt (.json object) = '{' :: body ++ ['}'] := by
      cases object with
      | nil => exact ⟨[], rfl⟩
      | cons kv l => exact ⟨_, rfl⟩
    obtain ⟨body, hb⟩ := hshape
    rw [hb] at h6 h7 he
    exact readJson_cut h6 h7 he

/-- **C100** The same for the file of a sequence. -/
theorem C100_sequence_json_noticed (fmt : α → String) (hfmt : ∀ x, isNumber (fmt x).toList = true)
    (divide : List Char → List (List Char)) (hdivide : ∀ s, (divide s).flatten = s) (os : Os)
    (hopen : os.opens = true) (s : Sequence α) (disk : Disk) (filename coordinates : String) (R D : α)
    (c : DrivenControl α) (hs : convertDDS s R D (PyFloat.lit 0) s.name = .ok c) (m : α)
    (hm : c.maximumRabiRate = .ok m) (hc : coordinates = "cartesian" ∨ coordinates = "cylindrical") :
    ∃ fs' content text,
      s.exportToFile (fun _ => none) filename "Q-CTRL expanded" "JSON" coordinates R D = (.ok (), fs') ∧
      fs' filename = some content ∧ readJson (fileText fmt content) ≠ none ∧
      (s.exportToDisk fmt divide os disk filename "Q-CTRL expanded" "JSON" coordinates R D).2 filename = some text ∧
      (text = fileText fmt content ∨ readJson text = none) := by
  unfold Sequence.exportToFile Sequence.exportToDisk
  rw [hs]
  exact C100_json_noticed fmt hfmt divide hdivide os hopen c disk filename coordinates m hm hc

end

/-- **C100** A CSV file that is not complete may be read without any error as a control that consists of the first
segments only. -/
theorem C100_csv_unnoticed (fmt : ℝ → String) (parse : List Char → Option ℝ)
    (divide : List Char → List (List Char)) (hdivide : ∀ s, (divide s).flatten = s) (c : DrivenControl ℝ)
    (h : c.Constructed) (hdrive : ∃ x ∈ c.rabiRates, 0 < x) (hname : c.name ≠ none) (disk : Disk)
    (filename : String) (m : ℝ) (hm : c.maximumRabiRate = .ok m)
    (hparse : ∀ x ∈ m :: c.rabiRates.map (· / m) ++ c.azimuthalAngles ++ c.detunings ++ c.durations,
      parse (fmt x).toList = some x) (j : ℕ) (hj : j ≤ c.numberOfSegments) :
    ∃ (os : Os) (text : List Char),
      (c.exportToDisk fmt divide os disk filename "Q-CTRL expanded" "CSV" "cylindrical").1 = .osError ∧
      (c.exportToDisk fmt divide os disk filename "Q-CTRL expanded" "CSV" "cylindrical").2 filename = some text ∧
      reloadCsv parse c.name text = some (.ok (leadingSegments c j)) ∧
      (leadingSegments c j).Constructed ∧ (leadingSegments c j).numberOfSegments = j := by
  obtain ⟨nm, hname⟩ := Option.ne_none_iff_exists'.mp hname
  obtain ⟨fs', header, rows, h1, h2, h3, h4, h5⟩ :=
    C10_csv_cylindrical c h (fun _ => none) filename nm m hname hm
  obtain ⟨l1, l2, l3, l4⟩ := h.lengths
  have hm0 := maximum_pos hm hdrive
  obtain ⟨os, -, h6, h7⟩ := C100_any_beginning fmt divide hdivide c disk filename "Q-CTRL expanded" "CSV"
    "cylindrical" (.csv header rows) (fileText fmt (.csv header (rows.take j))) (by rw [h1]; exact h2) (by
      refine ⟨(rows.drop j).flatMap fun row => csvLine (row.map fun x => (fmt x).toList), ?_⟩
      simp only [fileText, List.append_assoc]
      rw [← List.flatMap_append, List.take_append_drop])
  have hcon : (leadingSegments c j).Constructed := by
    obtain ⟨k1, k2, k3, k4, k5⟩ := (DrivenControl.constructed_iff c).mp h
    exact (DrivenControl.constructed_iff _).mpr ⟨fun t ht => k1 t (List.mem_of_mem_take ht),
      by simp [leadingSegments, k2], by simp [leadingSegments, k3], by simp [leadingSegments, k4],
      fun x hx => k5 x (List.mem_of_mem_take hx)⟩
  refine ⟨os, _, h6, h7, ?_, hcon, by simp [leadingSegments, DrivenControl.numberOfSegments] at *; omega⟩
  have hseg : ∀ (i : ℕ) (row : List ℝ), (rows.take j)[i]? = some row → ∃ Ω φ Δ t,
      (c.rabiRates.take j)[i]? = some Ω ∧ (c.azimuthalAngles.take j)[i]? = some φ ∧
      (c.detunings.take j)[i]? = some Δ ∧ (c.durations.take j)[i]? = some t ∧
      row.length = header.length ∧ cell header row "rabi_rates" = some (Ω / m) ∧
          cell header row "azimuthal_angles" = some φ ∧ cell header row "detuning" = some Δ ∧
          cell header row "duration" = some t ∧ cell header row "maximum_rabi_rate" = some m := by
    intro i row hrow
    rw [List.getElem?_take] at hrow
    split_ifs at hrow with hij
    obtain ⟨Ω, φ, Δ, t, e1, e2, e3, e4⟩ := h.segment (n := i) (by
      rw [← h4]; exact (List.getElem?_eq_some_iff.mp hrow).1)
    obtain ⟨row', k1, k2⟩ := h5 i Ω φ Δ t e1 e2 e3 e4
    rw [hrow] at k1
    cases k1
    simp only [List.getElem?_take, if_pos hij]
    exact ⟨Ω, φ, Δ, t, e1, e2, e3, e4, k2⟩
  have hne : ∀ r ∈ rows.take j, r ≠ [] := by
    intro r hr
    obtain ⟨i, hi, rfl⟩ := List.mem_iff_getElem.mp hr
    obtain ⟨Ω, φ, Δ, t, -, -, -, -, k, -⟩ := hseg i _ (List.getElem?_eq_getElem hi)
    intro hnil
    rw [hnil, h3] at k
    simp at k
  have hlen : (rows.take j).length = j := by simp [h4, hj]
  have hread := readCsv_file fmt header (rows.take j) (by rw [h3]; simp) hne
  have c1 := column_of_cells fmt header (rows.take j) "rabi_rates" ((c.rabiRates.take j).map (· / m))
    (by simp [hlen, l1, hj]) (fun i row x hrow hx => by
      obtain ⟨Ω, φ, Δ, t, e1, e2, e3, e4, -, k1, k2, k3, k4, k5⟩ := hseg i row hrow
      rw [List.getElem?_map, e1] at hx; cases hx; exact k1)
  have c2 := column_of_cells fmt header (rows.take j) "azimuthal_angles" (c.azimuthalAngles.take j)
    (by simp [hlen, l2, hj]) (fun i row x hrow hx => by
      obtain ⟨Ω, φ, Δ, t, e1, e2, e3, e4, -, k1, k2, k3, k4, k5⟩ := hseg i row hrow
      rw [e2] at hx; cases hx; exact k2)
  have c3 := column_of_cells fmt header (rows.take j) "detuning" (c.detunings.take j)
    (by simp [hlen, l3, hj]) (fun i row x hrow hx => by
      obtain ⟨Ω, φ, Δ, t, e1, e2, e3, e4, -, k1, k2, k3, k4, k5⟩ := hseg i row hrow
      rw [e3] at hx; cases hx; exact k3)
  have c4 := column_of_cells fmt header (rows.take j) "duration" (c.durations.take j)
    (by simp [hlen, l4, hj]) (fun i row x hrow hx => by
      obtain ⟨Ω, φ, Δ, t, e1, e2, e3, e4, -, k1, k2, k3, k4, k5⟩ := hseg i row hrow
      rw [e4] at hx; cases hx; exact k4)
  have c5 := column_of_cells fmt header (rows.take j) "maximum_rabi_rate" (List.replicate j m)
    (by simp [hlen]) (fun i row x hrow hx => by
      obtain ⟨Ω, φ, Δ, t, e1, e2, e3, e4, -, k1, k2, k3, k4, k5⟩ := hseg i row hrow
      rw [List.getElem?_replicate] at hx
      split at hx
      · cases hx; exact k5
      · simp at hx)
  simp only [List.cons_append, List.mem_cons, List.mem_append] at hparse
  unfold reloadCsv numbersIn
  simp only [hread, c1, c2, c3, c4, c5, Option.bind_eq_bind, Option.bind_some]
  rw [parse_printed fmt parse _ fun x hx => hparse x (by have := List.mem_of_mem_take hx; tauto),
    parse_printed fmt parse _ fun x hx => hparse x (by have := List.eq_of_mem_replicate hx; tauto),
    parse_printed fmt parse _ fun x hx => hparse x (by
      rw [List.map_take] at hx
      have := List.mem_of_mem_take hx; tauto),
    parse_printed fmt parse _ fun x hx => hparse x (by have := List.mem_of_mem_take hx; tauto),
    parse_printed fmt parse _ fun x hx => hparse x (by have := List.mem_of_mem_take hx; tauto)]
  simp only [Option.bind_some]
  rw [zipWith_replicate_left _ _ _ _ (by simp [l1, hj]), List.map_map]
  have e : (c.rabiRates.take j).map ((fun v => m * v) ∘ fun x => x / m) = (leadingSegments c j).rabiRates :=
    divide_multiply hm0 _
  rw [e]
  exact congrArg some (new_of_constructed hcon c.name)

/-- the hypotheses on printing, reading and dividing can be met: see the example of C99; a text can be divided into
single characters -/
example : ∀ s : List Char, ((fun s : List Char => s.map fun c => [c]) s).flatten = s := by
  intro s
  induction s with
  | nil => rfl
  | cons c s ih => simp_all

/-- there is something to write for every control with a maximum Rabi rate -/
example : ∃ (c : DrivenControl ℝ) (content : FileContent ℝ), c.numberOfSegments = 2 ∧
    (c.exportToFile (fun _ => none) "a.json" "Q-CTRL expanded" "JSON" "cartesian").2 "a.json" = some content := by
  have hm : (⟨[2, 0], [0, 1], [1, 0], [1, 2], none⟩ : DrivenControl ℝ).maximumRabiRate = .ok 2 :=
    (npAmax_ok_iff _ _).mpr (by simp)
  obtain ⟨fs', object, h1, h2, -⟩ := C12_json _ (fun _ => none) "a.json" "cartesian" 2 hm (.inl rfl)
  exact ⟨_, _, rfl, by rw [h1]; exact h2⟩

end OpenControls
