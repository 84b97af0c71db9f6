import Verif.Proofs.Control
import Verif.Spec.Files

/-!
# Helper lemmas about file export
-/

namespace OpenControls

set_option linter.unusedSectionVars false

open PyFloat Py Spec

variable {α : Type} [Add α] [Sub α] [Mul α] [Div α] [Neg α] [PyFloat α]

theorem dictGet_self {β : Type} (k : String) (v : β) (r : List (String × β)) :
    dictGet k ((k, v) :: r) = some v := by simp [dictGet]

theorem dictGet_ne {β : Type} {k k' : String} (h : k' ≠ k) (v : β) (r : List (String × β)) :
    dictGet k ((k', v) :: r) = dictGet k r := by simp [dictGet, h]

theorem writeRows_ok (fs : FileSystem α) (filename : String) (header : List String)
    (info : List (String × Val α)) (f : Nat → List α) (done : List (List α)) (is : List Nat)
    (h : ∀ i ∈ is, csvRow info header i = .ok (f i)) :
    writeRows fs filename header info done is =
      (.ok (), fs.write filename (.csv header (done ++ is.map f))) := by
  induction is generalizing done with
  | nil => simp [writeRows]
  | cons i is ih =>
    simp only [writeRows, h i (by simp)]
    rw [ih _ (fun j hj => h j (by simp [hj]))]
    simp

/-- the file written by a CSV export in cylindrical coordinates -/
def cylCsv (c : DrivenControl α) (m : α) : FileContent α :=
  .csv ["azimuthal_angles", "detuning", "duration", "maximum_rabi_rate", "rabi_rates"]
    ((List.range c.numberOfSegments).map fun i =>
      (c.azimuthalAngles[i]?.toList ++ c.detunings[i]?.toList ++ c.durations[i]?.toList ++ [m] ++
        (c.rabiRates[i]?.map (fun r => r / m)).toList))

/-- the file written by a CSV export in Cartesian coordinates -/
def cartCsv (c : DrivenControl α) (m : α) : FileContent α :=
  .csv ["amplitude_x", "amplitude_y", "detuning", "duration", "maximum_rabi_rate"]
    ((List.range c.numberOfSegments).map fun i =>
      ((c.amplitudeX[i]?.map (fun r => r / m)).toList ++
        (c.amplitudeY[i]?.map (fun r => r / m)).toList ++ c.detunings[i]?.toList ++
        c.durations[i]?.toList ++ [m]))

theorem exportExpanded_csv_unnamed (c : DrivenControl α) (fs : FileSystem α)
    (filename coordinates : String) (hname : c.name = none) :
    ∃ e, c.exportExpanded fs filename "CSV" coordinates = (.error e, fs) ∧
      (∀ m, c.maximumRabiRate = .ok m → e = .keyError "name") := by
  unfold DrivenControl.exportExpanded DrivenControl.exportContent
  cases hm : c.maximumRabiRate with
  | error e => exact ⟨e, rfl, by simp⟩
  | ok m =>
    refine ⟨.keyError "name", ?_, fun _ _ => rfl⟩
    by_cases hc : coordinates = "cartesian"
    · simp [hname, hc, dictSet, dictGet, pure, Except.pure]
    · simp [hname, hc, dictSet, dictGet, pure, Except.pure]

theorem exportExpanded_error (c : DrivenControl α) (fs : FileSystem α)
    (filename fileType coordinates : String) (e : PyErr) (hm : c.maximumRabiRate = .error e) :
    c.exportExpanded fs filename fileType coordinates = (.error e, fs) := by
  unfold DrivenControl.exportExpanded DrivenControl.exportContent
  simp [hm]

theorem exportExpanded_csv_cyl (c : DrivenControl α) (h : c.Constructed) (fs : FileSystem α)
    (filename coordinates nm : String) (m : α) (hm : c.maximumRabiRate = .ok m)
    (hname : c.name = some nm) (hc : coordinates ≠ "cartesian") :
    c.exportExpanded fs filename "CSV" coordinates =
      (.ok (), fs.write filename (cylCsv c m)) := by
  have hs : sortStrings ["maximum_rabi_rate", "detuning", "duration", "rabi_rates",
      "azimuthal_angles"] = ["azimuthal_angles", "detuning", "duration", "maximum_rabi_rate",
      "rabi_rates"] := by simp [sortStrings, insertSorted]
  have he : c.exportExpanded fs filename "CSV" coordinates =
      writeRows fs filename ["azimuthal_angles", "detuning", "duration", "maximum_rabi_rate",
        "rabi_rates"] [("maximum_rabi_rate", .arr (List.replicate c.numberOfSegments m)),
        ("detuning", .arr c.detunings), ("duration", .arr c.durations),
        ("rabi_rates", .arr (c.rabiRates.map fun r => r / m)),
        ("azimuthal_angles", .arr c.azimuthalAngles)] [] (List.range c.numberOfSegments) := by
    unfold DrivenControl.exportExpanded DrivenControl.exportContent
    simp [hm, hname, hc, dictSet, dictGet, dictErase, pure, Except.pure, hs]
  rw [he]
  rw [writeRows_ok _ _ _ _ (fun i => c.azimuthalAngles[i]?.toList ++ c.detunings[i]?.toList ++
    c.durations[i]?.toList ++ [m] ++ (c.rabiRates[i]?.map (fun r => r / m)).toList)]
  · rfl
  · intro i hi
    obtain ⟨Ω, φ, Δ, t, h1, h2, h3, h4⟩ := h.segment (List.mem_range.mp hi)
    have hi' : i < c.numberOfSegments := List.mem_range.mp hi
    simp [csvRow, dictGet, h1, h2, h3, h4, hi', pure, Except.pure]

theorem exportExpanded_csv_cart (c : DrivenControl α) (h : c.Constructed) (fs : FileSystem α)
    (filename nm : String) (m : α) (hm : c.maximumRabiRate = .ok m)
    (hname : c.name = some nm) :
    c.exportExpanded fs filename "CSV" "cartesian" =
      (.ok (), fs.write filename (cartCsv c m)) := by
  have hs : sortStrings ["maximum_rabi_rate", "detuning", "duration", "amplitude_x",
      "amplitude_y"] = ["amplitude_x", "amplitude_y", "detuning", "duration",
      "maximum_rabi_rate"] := by simp [sortStrings, insertSorted]
  have he : c.exportExpanded fs filename "CSV" "cartesian" =
      writeRows fs filename ["amplitude_x", "amplitude_y", "detuning", "duration",
        "maximum_rabi_rate"] [("maximum_rabi_rate", .arr (List.replicate c.numberOfSegments m)),
        ("detuning", .arr c.detunings), ("duration", .arr c.durations),
        ("amplitude_x", .arr (c.amplitudeX.map fun r => r / m)),
        ("amplitude_y", .arr (c.amplitudeY.map fun r => r / m))] []
        (List.range c.numberOfSegments) := by
    unfold DrivenControl.exportExpanded DrivenControl.exportContent
    simp [hm, hname, dictSet, dictGet, dictErase, pure, Except.pure, hs]
  rw [he]
  rw [writeRows_ok _ _ _ _ (fun i => (c.amplitudeX[i]?.map (fun r => r / m)).toList ++
        (c.amplitudeY[i]?.map (fun r => r / m)).toList ++ c.detunings[i]?.toList ++
        c.durations[i]?.toList ++ [m])]
  · rfl
  · intro i hi
    obtain ⟨Ω, φ, Δ, t, h1, h2, h3, h4⟩ := h.segment (List.mem_range.mp hi)
    have hi' : i < c.numberOfSegments := List.mem_range.mp hi
    simp [csvRow, dictGet, h1, h2, h3, h4, hi', pure, Except.pure, DrivenControl.amplitudeX,
      DrivenControl.amplitudeY, List.getElem?_zipWith]

/-- the object written by a JSON export -/
def jsonObject (c : DrivenControl α) (m : α) (cartesian : Bool) : List (String × Val α) :=
  (if cartesian then [("amplitude_x", .arr (c.amplitudeX.map fun x => x / m)),
      ("amplitude_y", .arr (c.amplitudeY.map fun x => x / m))]
    else [("azimuthal_angles", .arr c.azimuthalAngles)]) ++
  [("detuning", .arr c.detunings), ("duration", .arr c.durations), ("maximum_rabi_rate", .num m)] ++
  (match c.name with
    | some n => [("name", .str n)]
    | none => []) ++
  (if cartesian then [] else [("rabi_rates", .arr (c.rabiRates.map fun r => r / m))])

/-- the dictionary built by the export, in insertion order -/
def contentList (c : DrivenControl α) (m : α) (cartesian : Bool) : List (String × Val α) :=
  [("maximum_rabi_rate", .num m), ("detuning", .arr c.detunings), ("duration", .arr c.durations)] ++
  (match c.name with
    | some n => [("name", .str n)]
    | none => []) ++
  (if cartesian then [("amplitude_x", .arr (c.amplitudeX.map fun x => x / m)),
      ("amplitude_y", .arr (c.amplitudeY.map fun x => x / m))]
    else [("rabi_rates", .arr (c.rabiRates.map fun r => r / m)),
      ("azimuthal_angles", .arr c.azimuthalAngles)])

theorem exportContent_eq (c : DrivenControl α) (coordinates : String) (m : α)
    (hm : c.maximumRabiRate = .ok m) :
    c.exportContent coordinates = .ok (contentList c m (coordinates == "cartesian")) := by
  unfold DrivenControl.exportContent contentList
  rw [hm]
  by_cases hc : coordinates = "cartesian"
  · cases c.name <;> simp [hc, dictSet, pure, Except.pure]
  · cases c.name <;> simp [hc, dictSet, pure, Except.pure]

theorem sort1 : sortStrings ["maximum_rabi_rate", "detuning", "duration", "name", "amplitude_x",
      "amplitude_y"] = ["amplitude_x", "amplitude_y", "detuning", "duration",
      "maximum_rabi_rate", "name"] := by simp [sortStrings, insertSorted]
theorem sort2 : sortStrings ["maximum_rabi_rate", "detuning", "duration", "amplitude_x",
      "amplitude_y"] = ["amplitude_x", "amplitude_y", "detuning", "duration",
      "maximum_rabi_rate"] := by simp [sortStrings, insertSorted]
theorem sort3 : sortStrings ["maximum_rabi_rate", "detuning", "duration", "name", "rabi_rates",
      "azimuthal_angles"] = ["azimuthal_angles", "detuning", "duration", "maximum_rabi_rate",
      "name", "rabi_rates"] := by simp [sortStrings, insertSorted]
theorem sort4 : sortStrings ["maximum_rabi_rate", "detuning", "duration", "rabi_rates",
      "azimuthal_angles"] = ["azimuthal_angles", "detuning", "duration", "maximum_rabi_rate",
      "rabi_rates"] := by simp [sortStrings, insertSorted]

theorem sortedItems_content (c : DrivenControl α) (m : α) (b : Bool) :
    sortedItems (contentList c m b) = jsonObject c m b := by
  unfold contentList jsonObject sortedItems
  cases b
  · cases c.name
    · simp [sort4, dictGet_self, dictGet_ne]
    · simp [sort3, dictGet_self, dictGet_ne]
  · cases c.name
    · simp [sort2, dictGet_self, dictGet_ne]
    · simp [sort1, dictGet_self, dictGet_ne]

theorem exportExpanded_json (c : DrivenControl α) (fs : FileSystem α)
    (filename fileType coordinates : String) (m : α) (hm : c.maximumRabiRate = .ok m)
    (ht : fileType ≠ "CSV") :
    c.exportExpanded fs filename fileType coordinates =
      (.ok (), fs.write filename (.json (jsonObject c m (coordinates == "cartesian")))) := by
  unfold DrivenControl.exportExpanded
  rw [exportContent_eq c coordinates m hm]
  simp only [beq_iff_eq, ht, if_false, sortedItems_content]

end OpenControls
