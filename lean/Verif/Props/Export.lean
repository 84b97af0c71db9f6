import Verif.Proofs.Export
import Verif.Props.Accessors

/-!
# C08–C13, C54: exporting controls and sequences
-/

namespace OpenControls

set_option linter.unusedSectionVars false

open PyFloat Spec

section anyArithmetic
variable {α : Type} [Add α] [Sub α] [Mul α] [Div α] [Neg α] [PyFloat α]

/-- **C08** (any arithmetic) an unsupported coordinate system is rejected by `export`. -/
theorem C08_unsupported_coordinates (c : DrivenControl α) (coordinates : String) (dim : Bool)
    (h : coordinates ≠ "cartesian") (h' : coordinates ≠ "cylindrical") :
    ∃ e, c.exportPlot coordinates dim = .error e ∧ e.isArguments = true := by
  refine ⟨.arguments "Unsupported coordinates provided: ", ?_, rfl⟩
  unfold DrivenControl.exportPlot
  rw [checkArguments_bind, if_neg]
  simp [coordinateSystems, h, h']

/-- **C10** (any arithmetic) The CSV file of a named control, cylindrical coordinates: one row per
segment, in order, with the segment's values under the column titles. -/
theorem C10_csv_cylindrical (c : DrivenControl α) (h : c.Constructed) (fs : FileSystem α)
    (filename nm : String) (m : α) (hname : c.name = some nm) (hm : c.maximumRabiRate = .ok m) :
    ∃ fs' header rows,
      c.exportToFile fs filename "Q-CTRL expanded" "CSV" "cylindrical" = (.ok (), fs') ∧
      fs' filename = some (.csv header rows) ∧
      header = ["azimuthal_angles", "detuning", "duration", "maximum_rabi_rate", "rabi_rates"] ∧
      rows.length = c.numberOfSegments ∧
      ∀ (i : ℕ) (Ω φ Δ t : α), c.rabiRates[i]? = some Ω → c.azimuthalAngles[i]? = some φ →
        c.detunings[i]? = some Δ → c.durations[i]? = some t →
        ∃ row, rows[i]? = some row ∧ row.length = header.length ∧
          cell header row "rabi_rates" = some (Ω / m) ∧
          cell header row "azimuthal_angles" = some φ ∧
          cell header row "detuning" = some Δ ∧
          cell header row "duration" = some t ∧
          cell header row "maximum_rabi_rate" = some m := by
  have hfs : (fs.write filename (cylCsv c m)) filename = some (cylCsv c m) := by
    simp [FileSystem.write]
  refine ⟨fs.write filename (cylCsv c m), _, _, ?_, hfs, rfl, ?_, ?_⟩
  · unfold DrivenControl.exportToFile
    simp only [fileFormats, fileTypes, coordinateSystems]
    simp
    exact exportExpanded_csv_cyl c h fs filename "cylindrical" nm m hm hname (by decide)
  · simp
  · intro i Ω φ Δ t h1 h2 h3 h4
    have hi : i < c.numberOfSegments := (List.getElem?_eq_some_iff.mp h1).1
    refine ⟨_, by simp [hi]; rfl, ?_⟩
    simp [h1, h2, h3, h4, cell, List.lookup]

/-- **C10** (any arithmetic) The CSV file of a named control, Cartesian coordinates. -/
theorem C10_csv_cartesian (c : DrivenControl α) (h : c.Constructed) (fs : FileSystem α)
    (filename nm : String) (m : α) (hname : c.name = some nm) (hm : c.maximumRabiRate = .ok m) :
    ∃ fs' header rows,
      c.exportToFile fs filename "Q-CTRL expanded" "CSV" "cartesian" = (.ok (), fs') ∧
      fs' filename = some (.csv header rows) ∧
      header = ["amplitude_x", "amplitude_y", "detuning", "duration", "maximum_rabi_rate"] ∧
      rows.length = c.numberOfSegments ∧
      ∀ (i : ℕ) (Ω φ Δ t : α), c.rabiRates[i]? = some Ω → c.azimuthalAngles[i]? = some φ →
        c.detunings[i]? = some Δ → c.durations[i]? = some t →
        ∃ row, rows[i]? = some row ∧ row.length = header.length ∧
          cell header row "amplitude_x" = some (Ω * PyFloat.cos φ / m) ∧
          cell header row "amplitude_y" = some (Ω * PyFloat.sin φ / m) ∧
          cell header row "detuning" = some Δ ∧
          cell header row "duration" = some t ∧
          cell header row "maximum_rabi_rate" = some m := by
  have hfs : (fs.write filename (cartCsv c m)) filename = some (cartCsv c m) := by
    simp [FileSystem.write]
  refine ⟨fs.write filename (cartCsv c m), _, _, ?_, hfs, rfl, ?_, ?_⟩
  · unfold DrivenControl.exportToFile
    simp only [fileFormats, fileTypes, coordinateSystems]
    simp
    exact exportExpanded_csv_cart c h fs filename nm m hm hname
  · simp
  · intro i Ω φ Δ t h1 h2 h3 h4
    have hi : i < c.numberOfSegments := (List.getElem?_eq_some_iff.mp h1).1
    refine ⟨_, by simp [hi]; rfl, ?_⟩
    simp [h1, h2, h3, h4, cell, List.lookup, DrivenControl.amplitudeX, DrivenControl.amplitudeY,
      List.getElem?_zipWith]

/-- **C11** (any arithmetic) Exact success condition of the CSV export with valid options: the
control is named and has at least one segment. -/
theorem C11_csv_succeeds_iff (c : DrivenControl α) (h : c.Constructed) (fs : FileSystem α)
    (filename coordinates : String)
    (hc : coordinates = "cartesian" ∨ coordinates = "cylindrical") :
    (c.exportToFile fs filename "Q-CTRL expanded" "CSV" coordinates).1 = .ok () ↔
      c.name ≠ none ∧ 0 < c.numberOfSegments := by
  have he : c.exportToFile fs filename "Q-CTRL expanded" "CSV" coordinates =
      c.exportExpanded fs filename "CSV" coordinates := by
    unfold DrivenControl.exportToFile
    rcases hc with rfl | rfl <;> simp [fileFormats, fileTypes, coordinateSystems]
  rw [he]
  cases hm : c.maximumRabiRate with
  | error e =>
    rw [exportExpanded_error c fs filename _ _ e hm]
    constructor
    · intro hcon; cases hcon
    · rintro ⟨-, hn⟩
      obtain ⟨m, hm'⟩ := npAmax_exists (l := c.rabiRates)
        (by intro hnil; simp [DrivenControl.numberOfSegments, hnil] at hn)
      rw [DrivenControl.maximumRabiRate, hm'] at hm
      cases hm
  | ok m =>
    have hn : 0 < c.numberOfSegments := by
      unfold DrivenControl.numberOfSegments
      unfold DrivenControl.maximumRabiRate at hm
      cases hr : c.rabiRates with
      | nil => rw [hr] at hm; cases hm
      | cons x xs => simp
    cases hname : c.name with
    | none =>
      obtain ⟨e, he, -⟩ := exportExpanded_csv_unnamed c fs filename coordinates hname
      rw [he]
      simp
    | some nm =>
      rcases hc with rfl | rfl
      · rw [exportExpanded_csv_cart c h fs filename nm m hm hname]; simp [hn]
      · rw [exportExpanded_csv_cyl c h fs filename _ nm m hm hname (by decide)]; simp [hn]

/-- **C11** (any arithmetic) An unnamed control with segments: the default export raises
`KeyError('name')` — not an `ArgumentsValueError`. -/
theorem C11_unnamed_key_error (c : DrivenControl α) (fs : FileSystem α)
    (filename coordinates : String) (hname : c.name = none) (hn : 0 < c.numberOfSegments)
    (hc : coordinates = "cartesian" ∨ coordinates = "cylindrical") :
    c.exportToFile fs filename "Q-CTRL expanded" "CSV" coordinates =
      (.error (.keyError "name"), fs) := by
  have he : c.exportToFile fs filename "Q-CTRL expanded" "CSV" coordinates =
      c.exportExpanded fs filename "CSV" coordinates := by
    unfold DrivenControl.exportToFile
    rcases hc with rfl | rfl <;> simp [fileFormats, fileTypes, coordinateSystems]
  obtain ⟨m, hm⟩ := npAmax_exists (l := c.rabiRates)
    (by intro hnil; simp [DrivenControl.numberOfSegments, hnil] at hn)
  obtain ⟨e, h1, h2⟩ := exportExpanded_csv_unnamed c fs filename coordinates hname
  rw [he, h1, h2 m hm]

/-- **C12** (any arithmetic) The JSON object: keys, in order, and values. -/
theorem C12_json (c : DrivenControl α) (fs : FileSystem α) (filename coordinates : String)
    (m : α) (hm : c.maximumRabiRate = .ok m)
    (hc : coordinates = "cartesian" ∨ coordinates = "cylindrical") :
    ∃ fs' object,
      c.exportToFile fs filename "Q-CTRL expanded" "JSON" coordinates = (.ok (), fs') ∧
      fs' filename = some (.json object) ∧
      (object.map Prod.fst).Nodup ∧
      field object "maximum_rabi_rate" = some (.num m) ∧
      field object "detuning" = some (.arr c.detunings) ∧
      field object "duration" = some (.arr c.durations) ∧
      field object "name" = c.name.map Val.str ∧
      (coordinates = "cylindrical" →
        field object "rabi_rates" = some (.arr (c.rabiRates.map (· / m))) ∧
        field object "azimuthal_angles" = some (.arr c.azimuthalAngles) ∧
        ∀ k, field object k ≠ none → k ∈ ["maximum_rabi_rate", "detuning", "duration", "name",
          "rabi_rates", "azimuthal_angles"]) ∧
      (coordinates = "cartesian" →
        field object "amplitude_x" = some (.arr (c.amplitudeX.map (· / m))) ∧
        field object "amplitude_y" = some (.arr (c.amplitudeY.map (· / m))) ∧
        ∀ k, field object k ≠ none → k ∈ ["maximum_rabi_rate", "detuning", "duration", "name",
          "amplitude_x", "amplitude_y"]) := by
  have he : c.exportToFile fs filename "Q-CTRL expanded" "JSON" coordinates =
      c.exportExpanded fs filename "JSON" coordinates := by
    unfold DrivenControl.exportToFile
    rcases hc with rfl | rfl <;> simp [fileFormats, fileTypes, coordinateSystems]
  have hmem : ∀ (l : List (String × Val α)) k, field l k ≠ none → k ∈ l.map Prod.fst := by
    intro l k hk
    rw [field, Ne, List.lookup_eq_none_iff] at hk
    push Not at hk
    obtain ⟨p, hp, hpk⟩ := hk
    rw [List.mem_map]
    exact ⟨p, hp, by simpa using (beq_iff_eq.mp (by simpa using hpk)).symm⟩
  have hx := exportExpanded_json c fs filename "JSON" coordinates m hm (by decide)
  have hfs : (fs.write filename (.json (jsonObject c m (coordinates == "cartesian")))) filename =
      some (.json (jsonObject c m (coordinates == "cartesian"))) := by
    simp [FileSystem.write]
  refine ⟨_, _, he.trans hx, hfs, ?_⟩
  rcases hc with rfl | rfl
  · refine ⟨?_, ?_, ?_, ?_, ?_, fun hh => absurd hh (by decide), fun _ => ⟨?_, ?_, ?_⟩⟩
    · cases hn : c.name <;> simp [jsonObject, hn]
    · cases hn : c.name <;> simp [jsonObject, hn, field, List.lookup]
    · cases hn : c.name <;> simp [jsonObject, hn, field, List.lookup]
    · cases hn : c.name <;> simp [jsonObject, hn, field, List.lookup]
    · cases hn : c.name <;> simp [jsonObject, hn, field, List.lookup]
    · simp [jsonObject, field]
    · simp [jsonObject, field, List.lookup]
    · intro k hk
      have := hmem _ k hk
      cases hn : c.name <;> simp [jsonObject, hn] at this ⊢ <;> tauto
  · refine ⟨?_, ?_, ?_, ?_, ?_, fun _ => ⟨?_, ?_, ?_⟩, fun hh => absurd hh (by decide)⟩
    · cases hn : c.name <;> simp [jsonObject, hn]
    · cases hn : c.name <;> simp [jsonObject, hn, field, List.lookup]
    · cases hn : c.name <;> simp [jsonObject, hn, field, List.lookup]
    · cases hn : c.name <;> simp [jsonObject, hn, field, List.lookup]
    · cases hn : c.name <;> simp [jsonObject, hn, field, List.lookup]
    · cases hn : c.name <;> simp [jsonObject, hn, field, List.lookup]
    · simp [jsonObject, field]
    · intro k hk
      have := hmem _ k hk
      cases hn : c.name <;> simp [jsonObject, hn] at this ⊢ <;> tauto

/-- **C13** (any arithmetic) A raising export leaves every file as it was; a successful one changes
exactly the file `filename`; unsupported options raise `ArgumentsValueError`. -/
theorem C13_file_effects (c : DrivenControl α) (h : c.Constructed) (fs fs' : FileSystem α)
    (filename fileFormat fileType coordinates : String) (r : Except PyErr Unit)
    (hr : c.exportToFile fs filename fileFormat fileType coordinates = (r, fs')) :
    (∀ e, r = .error e → fs' = fs) ∧
    (r = .ok () → (∃ content, fs' filename = some content) ∧
      ∀ f, f ≠ filename → fs' f = fs f) ∧
    (fileFormat ≠ "Q-CTRL expanded" ∨ (fileType ≠ "JSON" ∧ fileType ≠ "CSV") ∨
        (coordinates ≠ "cartesian" ∧ coordinates ≠ "cylindrical") →
      ∃ e, r = .error e ∧ e.isArguments = true) := by
  unfold DrivenControl.exportToFile at hr
  have hw : ∀ x, (∃ content, (fs.write filename x) filename = some content) ∧
      ∀ f, f ≠ filename → (fs.write filename x) f = fs f := by
    intro x
    refine ⟨⟨x, by simp [FileSystem.write]⟩, fun f hf => by simp [FileSystem.write, hf]⟩
  by_cases h1 : fileFormat = "Q-CTRL expanded"
  · by_cases h2 : fileType = "JSON" ∨ fileType = "CSV"
    · by_cases h3 : coordinates = "cartesian" ∨ coordinates = "cylindrical"
      · simp only [fileFormats, fileTypes, coordinateSystems, h1, List.contains_cons,
          List.contains_nil, Bool.or_false, beq_self_eq_true, Bool.not_true, Bool.false_eq_true,
          if_false, if_true, Bool.not_eq_true', Bool.or_eq_false_iff, beq_eq_false_iff_ne,
          Ne] at hr
        rw [if_neg (by tauto), if_neg (by tauto)] at hr
        refine ⟨?_, ?_, fun hbad => by exfalso; tauto⟩
        · intro e hre
          subst hre
          cases hm : c.maximumRabiRate with
          | error e' => rw [exportExpanded_error c fs filename _ _ e' hm] at hr; cases hr; rfl
          | ok m =>
            rcases h2 with rfl | rfl
            · rw [exportExpanded_json c fs filename _ _ m hm (by decide)] at hr; cases hr
            · cases hname : c.name with
              | none =>
                obtain ⟨e', he', -⟩ := exportExpanded_csv_unnamed c fs filename coordinates hname
                rw [he'] at hr; cases hr; rfl
              | some nm =>
                rcases h3 with rfl | rfl
                · rw [exportExpanded_csv_cart c h fs filename nm m hm hname] at hr; cases hr
                · rw [exportExpanded_csv_cyl c h fs filename _ nm m hm hname (by decide)] at hr
                  cases hr
        · intro hre
          subst hre
          cases hm : c.maximumRabiRate with
          | error e' => rw [exportExpanded_error c fs filename _ _ e' hm] at hr; cases hr
          | ok m =>
            rcases h2 with rfl | rfl
            · rw [exportExpanded_json c fs filename _ _ m hm (by decide)] at hr
              cases hr; exact hw _
            · cases hname : c.name with
              | none =>
                obtain ⟨e', he', -⟩ := exportExpanded_csv_unnamed c fs filename coordinates hname
                rw [he'] at hr; cases hr
              | some nm =>
                rcases h3 with rfl | rfl
                · rw [exportExpanded_csv_cart c h fs filename nm m hm hname] at hr
                  cases hr; exact hw _
                · rw [exportExpanded_csv_cyl c h fs filename _ nm m hm hname (by decide)] at hr
                  cases hr; exact hw _
      · have : (coordinateSystems.contains coordinates) = false := by
          simp [coordinateSystems]; tauto
        have h2' : fileTypes.contains fileType = true := by simpa [fileTypes] using h2
        simp only [fileFormats, h1, h2', this] at hr
        simp at hr
        obtain ⟨rfl, rfl⟩ := hr
        exact ⟨fun _ _ => rfl, (by intro hh; cases hh), fun _ => ⟨_, rfl, rfl⟩⟩
    · have h2' : fileTypes.contains fileType = false := by simp [fileTypes]; tauto
      simp only [fileFormats, h1, h2'] at hr
      simp at hr
      obtain ⟨rfl, rfl⟩ := hr
      exact ⟨fun _ _ => rfl, (by intro hh; cases hh), fun _ => ⟨_, rfl, rfl⟩⟩
  · have h1' : fileFormats.contains fileFormat = false := by simp [fileFormats, h1]
    simp only [h1'] at hr
    simp at hr
    obtain ⟨rfl, rfl⟩ := hr
    exact ⟨fun _ _ => rfl, (by intro hh; cases hh), fun _ => ⟨_, rfl, rfl⟩⟩

/-- **C54** (any arithmetic) The exported plot data of a sequence: one Rabi entry (a complex number
in polar form) and one detuning entry per offset, in order. -/
theorem C54_sequence_export (s : Sequence α) (h : s.Constructed) :
    s.exportPlot.rabi.length = s.offsets.length ∧
    s.exportPlot.detuning.length = s.offsets.length ∧
    ∀ (i : ℕ) (t ω φ δ : α), s.offsets[i]? = some t → s.rabiRotations[i]? = some ω →
      s.azimuthalAngles[i]? = some φ → s.detuningRotations[i]? = some δ →
      s.exportPlot.rabi[i]? = some ⟨⟨ω * PyFloat.cos φ, ω * PyFloat.sin φ⟩, t⟩ ∧
      s.exportPlot.detuning[i]? = some ⟨δ, t⟩ := by
  obtain ⟨T, o, r, a, d, n, hs⟩ := h
  obtain ⟨-, h3, h4, h5, h6⟩ := (C33_accepts_iff T o r a d n).mp ⟨s, hs⟩
  obtain ⟨-, rfl, rfl, rfl, rfl, -⟩ := C33_stores_arguments T o r a d n s hs
  refine ⟨by simp [Sequence.exportPlot, h4, h5], by simp [Sequence.exportPlot, h6], ?_⟩
  intro i t ω φ δ ht hω hφ hδ
  simp [Sequence.exportPlot, List.getElem?_zipWith, ht, hω, hφ, hδ, cis]

end anyArithmetic

/-- `k` is the number by which `export` divides the drive: the largest Rabi rate when the
dimensionless form is requested, `1` otherwise. -/
def IsNormalizer (c : DrivenControl ℝ) (dimensionless : Bool) (k : ℝ) : Prop :=
  if dimensionless then k ∈ c.rabiRates ∧ ∀ x ∈ c.rabiRates, x ≤ k else k = 1

/-- **C08** `export` in the two coordinate systems: one entry per segment with the segment's
duration; the cylindrical value is `X + iY`, which is the drive `Ω e^{iφ}` divided by the
normalizer. The hypothesis `k ≠ 0` excludes numpy's `0/0`. -/
theorem C08_export_coordinates (c : DrivenControl ℝ) (h : c.Constructed) (dim : Bool) (k : ℝ)
    (hk : IsNormalizer c dim k) (_hk0 : k ≠ 0) :
    ∃ cart cyl xs ys rs, c.exportPlot "cartesian" dim = .ok cart ∧
      c.exportPlot "cylindrical" dim = .ok cyl ∧
      cart.xAmplitude = some xs ∧ cart.yAmplitude = some ys ∧ cart.rabiRate = none ∧
      cyl.xAmplitude = none ∧ cyl.yAmplitude = none ∧ cyl.rabiRate = some rs ∧
      cart.detuning = cyl.detuning ∧
      xs.length = c.numberOfSegments ∧ ys.length = c.numberOfSegments ∧
      rs.length = c.numberOfSegments ∧ cart.detuning.length = c.numberOfSegments ∧
      ∀ (n : ℕ) (Ω φ Δ t : ℝ), c.rabiRates[n]? = some Ω → c.azimuthalAngles[n]? = some φ →
        c.detunings[n]? = some Δ → c.durations[n]? = some t →
        ∃ x y : ℝ, xs[n]? = some ⟨x, t⟩ ∧ ys[n]? = some ⟨y, t⟩ ∧ rs[n]? = some ⟨⟨x, y⟩, t⟩ ∧
          cart.detuning[n]? = some ⟨Δ, t⟩ ∧
          (x : ℂ) + y * Complex.I = Ω * Complex.exp (φ * Complex.I) / k := by
  obtain ⟨h1, h2, h3, h4⟩ := h.lengths
  have hnorm : (if dim then c.maximumRabiRate else Except.ok (lit 1 : ℝ)) = .ok k := by
    cases dim with
    | true => exact (npAmax_ok_iff _ _).mpr hk
    | false =>
      have : k = 1 := by simpa [IsNormalizer] using hk
      simp [this]
  have hcheck : ∀ co, co = "cartesian" ∨ co = "cylindrical" →
      coordinateSystems.contains co = true := by
    rintro co (rfl | rfl) <;> simp [coordinateSystems]
  have hcart : c.exportPlot "cartesian" dim = .ok ⟨
      some (List.zipWith (fun v t => ⟨v, t⟩) (c.amplitudeX.map fun x => x / k) c.durations),
      some (List.zipWith (fun v t => ⟨v, t⟩) (c.amplitudeY.map fun x => x / k) c.durations), none,
      List.zipWith (fun v t => ⟨v, t⟩) c.detunings c.durations⟩ := by
    unfold DrivenControl.exportPlot
    rw [checkArguments_bind, if_pos (hcheck _ (Or.inl rfl)), hnorm]
    simp [pure, Except.pure]
  have hcyl : c.exportPlot "cylindrical" dim = .ok ⟨none, none,
      some (List.zipWith (fun v t => ⟨v, t⟩) (List.zipWith (fun r theta => cis r theta)
        (c.rabiRates.map fun x => x / k) c.azimuthalAngles) c.durations),
      List.zipWith (fun v t => ⟨v, t⟩) c.detunings c.durations⟩ := by
    unfold DrivenControl.exportPlot
    rw [checkArguments_bind, if_pos (hcheck _ (Or.inr rfl)), hnorm]
    simp [pure, Except.pure]
  refine ⟨_, _, _, _, _, hcart, hcyl, rfl, rfl, rfl, rfl, rfl, rfl, rfl, ?_, ?_, ?_, ?_, ?_⟩
  · simp [DrivenControl.amplitudeX, h1, h2, h4]
  · simp [DrivenControl.amplitudeY, h1, h2, h4]
  · simp [h1, h2, h4]
  · simp [h3, h4]
  · intro n Ω φ Δ t hΩ hφ hΔ ht
    refine ⟨Ω * Real.cos φ / k, Ω * Real.sin φ / k, ?_, ?_, ?_, ?_, ?_⟩
    · simp [DrivenControl.amplitudeX, List.getElem?_zipWith, hΩ, hφ, ht]
    · simp [DrivenControl.amplitudeY, List.getElem?_zipWith, hΩ, hφ, ht]
    · simp [List.getElem?_zipWith, hΩ, hφ, ht, cis]
      constructor <;> ring
    · simp [List.getElem?_zipWith, hΔ, ht]
    · rw [Complex.exp_mul_I]
      push_cast
      ring

/-- **C08** with `dimensionless_rabi_rate=False` no hypothesis on the control is needed. -/
theorem C08_export_raw (c : DrivenControl ℝ) (h : c.Constructed) :
    ∃ cyl rs, c.exportPlot "cylindrical" false = .ok cyl ∧ cyl.rabiRate = some rs ∧
      rs.length = c.numberOfSegments ∧
      ∀ (n : ℕ) (Ω φ t : ℝ), c.rabiRates[n]? = some Ω → c.azimuthalAngles[n]? = some φ →
        c.durations[n]? = some t → ∃ x y : ℝ, rs[n]? = some ⟨⟨x, y⟩, t⟩ ∧
          (x : ℂ) + y * Complex.I = Ω * Complex.exp (φ * Complex.I) := by
  obtain ⟨cart, cyl, xs, ys, rs, -, h2, -, -, -, -, -, h8, -, -, -, h12, -, hall⟩ :=
    C08_export_coordinates c h false 1 (by simp [IsNormalizer]) one_ne_zero
  refine ⟨cyl, rs, h2, h8, h12, ?_⟩
  intro n Ω φ t hΩ hφ ht
  obtain ⟨_, _, Δ, _, _, _, hΔ, _⟩ := h.segment
      (show n < c.numberOfSegments from (List.getElem?_eq_some_iff.mp hΩ).1)
  obtain ⟨x, y, -, -, h3, -, h5⟩ := hall n Ω φ Δ t hΩ hφ hΔ ht
  exact ⟨x, y, h3, by simpa using h5⟩

/-- **C09** The dimensionless export of a control with a non-zero Rabi rate: every modulus is at
most 1, some modulus is 1, and multiplying by the maximum Rabi rate gives the raw drive. -/
theorem C09_dimensionless (c : DrivenControl ℝ) (h : c.Constructed)
    (hne : ∃ x ∈ c.rabiRates, x ≠ 0) :
    ∃ m cyl rs, c.maximumRabiRate = .ok m ∧ 0 < m ∧
      c.exportPlot "cylindrical" true = .ok cyl ∧ cyl.rabiRate = some rs ∧
      rs.length = c.numberOfSegments ∧
      (∀ p ∈ rs, ‖(p.value.re : ℂ) + p.value.im * Complex.I‖ ≤ 1) ∧
      (∃ p ∈ rs, ‖(p.value.re : ℂ) + p.value.im * Complex.I‖ = 1) ∧
      ∀ (n : ℕ) (Ω φ t : ℝ), c.rabiRates[n]? = some Ω → c.azimuthalAngles[n]? = some φ →
        c.durations[n]? = some t → ∃ x y : ℝ, rs[n]? = some ⟨⟨x, y⟩, t⟩ ∧
          m * ((x : ℂ) + y * Complex.I) = Ω * Complex.exp (φ * Complex.I) := by
  have hrabi := ((DrivenControl.constructed_iff c).mp h).2.2.2.2
  obtain ⟨x0, hx0, hx0ne⟩ := hne
  obtain ⟨m, hm⟩ := npAmax_exists (l := c.rabiRates) (by intro hnil; simp [hnil] at hx0)
  obtain ⟨hmem, hmax⟩ := (npAmax_ok_iff _ _).mp hm
  have hmpos : 0 < m := lt_of_lt_of_le (lt_of_le_of_ne (hrabi x0 hx0) (Ne.symm hx0ne)) (hmax x0 hx0)
  obtain ⟨cart, cyl, xs, ys, rs, -, h2, -, -, -, -, -, h8, -, -, -, h12, -, hall⟩ :=
    C08_export_coordinates c h true m ⟨hmem, hmax⟩ hmpos.ne'
  have hval : ∀ (n : ℕ) (Ω φ t : ℝ), c.rabiRates[n]? = some Ω → c.azimuthalAngles[n]? = some φ →
        c.durations[n]? = some t → ∃ x y : ℝ, rs[n]? = some ⟨⟨x, y⟩, t⟩ ∧
          (x : ℂ) + y * Complex.I = Ω * Complex.exp (φ * Complex.I) / m := by
    intro n Ω φ t hΩ hφ ht
    obtain ⟨_, _, Δ, _, _, _, hΔ, _⟩ := h.segment
        (show n < c.numberOfSegments from (List.getElem?_eq_some_iff.mp hΩ).1)
    obtain ⟨x, y, -, -, h3, -, h5⟩ := hall n Ω φ Δ t hΩ hφ hΔ ht
    exact ⟨x, y, h3, h5⟩
  have hnorm : ∀ Ω φ : ℝ, 0 ≤ Ω → ‖(Ω : ℂ) * Complex.exp (φ * Complex.I) / m‖ = Ω / m := by
    intro Ω φ hΩ
    rw [norm_div, norm_mul, Complex.norm_exp_ofReal_mul_I, mul_one, Complex.norm_real,
      Complex.norm_real, Real.norm_of_nonneg hΩ, Real.norm_of_nonneg hmpos.le]
  refine ⟨m, cyl, rs, hm, hmpos, h2, h8, h12, ?_, ?_, ?_⟩
  · intro p hp
    obtain ⟨n, hn, rfl⟩ := List.mem_iff_getElem.mp hp
    obtain ⟨Ω, φ, Δ, t, g1, g2, g3, g4⟩ := h.segment (n := n) (by omega)
    obtain ⟨x, y, h3, h5⟩ := hval n Ω φ t g1 g2 g4
    rw [List.getElem?_eq_getElem hn, Option.some.injEq] at h3
    have hΩ := List.mem_of_getElem? g1
    rw [h3, h5, hnorm _ _ (hrabi _ hΩ)]
    exact (div_le_one hmpos).mpr (hmax _ hΩ)
  · obtain ⟨n, hn, hnm⟩ := List.mem_iff_getElem.mp hmem
    obtain ⟨Ω, φ, Δ, t, g1, g2, g3, g4⟩ := h.segment (n := n) hn
    obtain ⟨x, y, h3, h5⟩ := hval n Ω φ t g1 g2 g4
    have : Ω = m := by rw [List.getElem?_eq_getElem hn, hnm] at g1; simpa using g1.symm
    refine ⟨_, List.mem_of_getElem? h3, ?_⟩
    rw [h5, this, hnorm _ _ hmpos.le, div_self hmpos.ne']
  · intro n Ω φ t hΩ hφ ht
    obtain ⟨x, y, h3, h5⟩ := hval n Ω φ t hΩ hφ ht
    refine ⟨x, y, h3, ?_⟩
    have : (m : ℂ) ≠ 0 := by exact_mod_cast hmpos.ne'
    rw [h5]; field_simp

/-- **C10** Reading a CSV file back (cylindrical): the Rabi rates are recovered by multiplying the
`rabi_rates` column with the `maximum_rabi_rate` column; the other columns are the attributes. -/
theorem C10_csv_roundtrip_cylindrical (c : DrivenControl ℝ) (h : c.Constructed)
    (fs : FileSystem ℝ) (filename nm : String) (hname : c.name = some nm)
    (hne : ∃ x ∈ c.rabiRates, x ≠ 0) :
    ∃ fs' header rows,
      c.exportToFile fs filename "Q-CTRL expanded" "CSV" "cylindrical" = (.ok (), fs') ∧
      fs' filename = some (.csv header rows) ∧ rows.length = c.numberOfSegments ∧
      ∀ (i : ℕ) (Ω φ Δ t : ℝ), c.rabiRates[i]? = some Ω → c.azimuthalAngles[i]? = some φ →
        c.detunings[i]? = some Δ → c.durations[i]? = some t →
        ∃ row r m, rows[i]? = some row ∧
          cell header row "rabi_rates" = some r ∧ cell header row "maximum_rabi_rate" = some m ∧
          r * m = Ω ∧
          cell header row "azimuthal_angles" = some φ ∧
          cell header row "detuning" = some Δ ∧ cell header row "duration" = some t := by
  obtain ⟨m, -, -, hm, hpos, -⟩ := C09_dimensionless c h hne
  obtain ⟨fs', header, rows, h1, h2, -, h4, h5⟩ := C10_csv_cylindrical c h fs filename nm m hname hm
  refine ⟨fs', header, rows, h1, h2, h4, ?_⟩
  intro i Ω φ Δ t g1 g2 g3 g4
  obtain ⟨row, k1, -, k3, k4, k5, k6, k7⟩ := h5 i Ω φ Δ t g1 g2 g3 g4
  exact ⟨row, Ω / m, m, k1, k3, k7, by field_simp, k4, k5, k6⟩

/-- **C10** Reading a CSV file back (Cartesian): the columns times the maximum Rabi rate are
`Ω cos φ` and `Ω sin φ`. -/
theorem C10_csv_roundtrip_cartesian (c : DrivenControl ℝ) (h : c.Constructed)
    (fs : FileSystem ℝ) (filename nm : String) (hname : c.name = some nm)
    (hne : ∃ x ∈ c.rabiRates, x ≠ 0) :
    ∃ fs' header rows,
      c.exportToFile fs filename "Q-CTRL expanded" "CSV" "cartesian" = (.ok (), fs') ∧
      fs' filename = some (.csv header rows) ∧ rows.length = c.numberOfSegments ∧
      ∀ (i : ℕ) (Ω φ Δ t : ℝ), c.rabiRates[i]? = some Ω → c.azimuthalAngles[i]? = some φ →
        c.detunings[i]? = some Δ → c.durations[i]? = some t →
        ∃ row x y m, rows[i]? = some row ∧
          cell header row "amplitude_x" = some x ∧ cell header row "amplitude_y" = some y ∧
          cell header row "maximum_rabi_rate" = some m ∧
          x * m = Ω * Real.cos φ ∧ y * m = Ω * Real.sin φ ∧
          cell header row "detuning" = some Δ ∧ cell header row "duration" = some t := by
  obtain ⟨m, -, -, hm, hpos, -⟩ := C09_dimensionless c h hne
  obtain ⟨fs', header, rows, h1, h2, -, h4, h5⟩ := C10_csv_cartesian c h fs filename nm m hname hm
  refine ⟨fs', header, rows, h1, h2, h4, ?_⟩
  intro i Ω φ Δ t g1 g2 g3 g4
  obtain ⟨row, k1, -, k3, k4, k5, k6, k7⟩ := h5 i Ω φ Δ t g1 g2 g3 g4
  refine ⟨row, _, _, m, k1, k3, k4, k7, ?_, ?_, k5, k6⟩
  · simp only [RealInst.cos_eq]; field_simp
  · simp only [RealInst.sin_eq]; field_simp

/-- **C11** The full claim is false of the code: a valid unnamed control cannot be exported to CSV. -/
theorem C11_not_every_control_exportable :
    ¬ ∀ (c : DrivenControl ℝ) (fs : FileSystem ℝ) (filename : String), c.Constructed →
      0 < c.numberOfSegments →
      (c.exportToFile fs filename "Q-CTRL expanded" "CSV" "cylindrical").1 = .ok () := by
  intro hall
  have hc : (⟨[1], [0], [0], [1], none⟩ : DrivenControl ℝ).Constructed := by
    rw [DrivenControl.constructed_iff]; simp
  have := hall _ (fun _ => none) "f" hc (by simp [DrivenControl.numberOfSegments])
  rw [C11_csv_succeeds_iff _ hc _ _ _ (Or.inr rfl)] at this
  exact this.1 rfl

/-- **C12** Reading a JSON file back: the drive arrays times the maximum Rabi rate are the drive. -/
theorem C12_json_roundtrip (c : DrivenControl ℝ) (h : c.Constructed) (fs : FileSystem ℝ)
    (filename : String) (hne : ∃ x ∈ c.rabiRates, x ≠ 0) :
    (∃ fs' object m rs,
      c.exportToFile fs filename "Q-CTRL expanded" "JSON" "cylindrical" = (.ok (), fs') ∧
      fs' filename = some (.json object) ∧
      field object "maximum_rabi_rate" = some (.num m) ∧
      field object "rabi_rates" = some (.arr rs) ∧ rs.map (· * m) = c.rabiRates ∧
      field object "azimuthal_angles" = some (.arr c.azimuthalAngles) ∧
      field object "detuning" = some (.arr c.detunings) ∧
      field object "duration" = some (.arr c.durations) ∧
      field object "name" = c.name.map Val.str) ∧
    (∃ fs' object m xs ys,
      c.exportToFile fs filename "Q-CTRL expanded" "JSON" "cartesian" = (.ok (), fs') ∧
      fs' filename = some (.json object) ∧
      field object "maximum_rabi_rate" = some (.num m) ∧
      field object "amplitude_x" = some (.arr xs) ∧ field object "amplitude_y" = some (.arr ys) ∧
      xs.length = c.numberOfSegments ∧ ys.length = c.numberOfSegments ∧
      (∀ (i : ℕ) (Ω φ : ℝ), c.rabiRates[i]? = some Ω → c.azimuthalAngles[i]? = some φ →
        ∃ x y, xs[i]? = some x ∧ ys[i]? = some y ∧ x * m = Ω * Real.cos φ ∧
          y * m = Ω * Real.sin φ) ∧
      field object "detuning" = some (.arr c.detunings) ∧
      field object "duration" = some (.arr c.durations) ∧
      field object "name" = c.name.map Val.str) := by
  obtain ⟨m, -, -, hm, hpos, -⟩ := C09_dimensionless c h hne
  obtain ⟨l1, l2, l3, l4⟩ := h.lengths
  constructor
  · obtain ⟨fs', object, h1, h2, -, h4, h5, h6, h7, h8, -⟩ :=
      C12_json c fs filename "cylindrical" m hm (Or.inr rfl)
    obtain ⟨k1, k2, -⟩ := h8 rfl
    refine ⟨fs', object, m, _, h1, h2, h4, k1, ?_, k2, h5, h6, h7⟩
    rw [List.map_map]
    conv_rhs => rw [← List.map_id c.rabiRates]
    apply List.map_congr_left
    intro x _
    simp; field_simp
  · obtain ⟨fs', object, h1, h2, -, h4, h5, h6, h7, -, h8⟩ :=
      C12_json c fs filename "cartesian" m hm (Or.inl rfl)
    obtain ⟨k1, k2, -⟩ := h8 rfl
    refine ⟨fs', object, m, _, _, h1, h2, h4, k1, k2, ?_, ?_, ?_, h5, h6, h7⟩
    · simp [DrivenControl.amplitudeX, l1, l2]
    · simp [DrivenControl.amplitudeY, l1, l2]
    · intro i Ω φ g1 g2
      refine ⟨Ω * Real.cos φ / m, Ω * Real.sin φ / m, ?_, ?_, by field_simp, by field_simp⟩
      · simp [DrivenControl.amplitudeX, List.getElem?_zipWith, g1, g2]
      · simp [DrivenControl.amplitudeY, List.getElem?_zipWith, g1, g2]

/-- **C54** The sequence can be read back: offsets and detuning rotations directly, the Rabi
rotation as the modulus and the azimuthal angle as the phase of `ω e^{iφ}`. -/
theorem C54_sequence_export_readback (s : Sequence ℝ) (h : s.Constructed) :
    s.exportPlot.rabi.map PulsePoint.offset = s.offsets ∧
    s.exportPlot.detuning.map PulsePoint.offset = s.offsets ∧
    s.exportPlot.detuning.map PulsePoint.rotation = s.detuningRotations ∧
    ∀ (i : ℕ) (p : PulsePoint ℝ (Cplx ℝ)) (ω φ : ℝ), s.exportPlot.rabi[i]? = some p →
      s.rabiRotations[i]? = some ω → s.azimuthalAngles[i]? = some φ →
      (p.rotation.re : ℂ) + p.rotation.im * Complex.I = ω * Complex.exp (φ * Complex.I) ∧
      (0 ≤ ω → ‖(p.rotation.re : ℂ) + p.rotation.im * Complex.I‖ = ω) := by
  obtain ⟨hl1, hl2, hall⟩ := C54_sequence_export s h
  obtain ⟨T, o, r, a, d, n, hs⟩ := h
  obtain ⟨-, h3, h4, h5, h6⟩ := (C33_accepts_iff T o r a d n).mp ⟨s, hs⟩
  obtain ⟨-, rfl, rfl, rfl, rfl, -⟩ := C33_stores_arguments T o r a d n s hs
  have hidx : ∀ i, i < s.offsets.length → ∃ t ω φ δ, s.offsets[i]? = some t ∧
      s.rabiRotations[i]? = some ω ∧ s.azimuthalAngles[i]? = some φ ∧
      s.detuningRotations[i]? = some δ := fun i hi =>
    ⟨s.offsets[i], s.rabiRotations[i]'(by omega), s.azimuthalAngles[i]'(by omega),
      s.detuningRotations[i]'(by omega), List.getElem?_eq_getElem _, List.getElem?_eq_getElem _,
      List.getElem?_eq_getElem _, List.getElem?_eq_getElem _⟩
  have hout : ∀ {β : Type} (l : List β) (i : ℕ), l.length = s.offsets.length →
      ¬ i < s.offsets.length → l[i]? = none := by
    intro β l i hl hi
    rw [List.getElem?_eq_none_iff]; omega
  refine ⟨?_, ?_, ?_, ?_⟩
  · apply List.ext_getElem?
    intro i
    by_cases hi : i < s.offsets.length
    · obtain ⟨t, ω, φ, δ, g1, g2, g3, g4⟩ := hidx i hi
      simp [(hall i t ω φ δ g1 g2 g3 g4).1, g1]
    · rw [hout _ i (by simp [hl1]) hi, hout _ i rfl hi]
  · apply List.ext_getElem?
    intro i
    by_cases hi : i < s.offsets.length
    · obtain ⟨t, ω, φ, δ, g1, g2, g3, g4⟩ := hidx i hi
      simp [(hall i t ω φ δ g1 g2 g3 g4).2, g1]
    · rw [hout _ i (by simp [hl2]) hi, hout _ i rfl hi]
  · apply List.ext_getElem?
    intro i
    by_cases hi : i < s.offsets.length
    · obtain ⟨t, ω, φ, δ, g1, g2, g3, g4⟩ := hidx i hi
      simp [(hall i t ω φ δ g1 g2 g3 g4).2, g4]
    · rw [hout _ i (by simp [hl2]) hi, hout _ i h6 hi]
  · intro i p ω φ hp hω hφ
    have hi : i < s.offsets.length := by
      rw [← hl1]; exact (List.getElem?_eq_some_iff.mp hp).1
    obtain ⟨t, ω', φ', δ, g1, g2, g3, g4⟩ := hidx i hi
    have h1 := (hall i t ω' φ' δ g1 g2 g3 g4).1
    rw [hp, Option.some.injEq] at h1
    obtain rfl : ω' = ω := by rw [g2] at hω; simpa using hω
    obtain rfl : φ' = φ := by rw [g3] at hφ; simpa using hφ
    have hz : (p.rotation.re : ℂ) + p.rotation.im * Complex.I =
        ω' * Complex.exp (φ' * Complex.I) := by
      rw [h1, Complex.exp_mul_I]
      simp
      ring
    refine ⟨hz, fun hpos => ?_⟩
    rw [hz, norm_mul, Complex.norm_exp_ofReal_mul_I, mul_one, Complex.norm_real,
      Real.norm_of_nonneg hpos]

/-! Non-vacuity: `exampleControl` is named, constructed, and has a non-zero Rabi rate. -/

example : exampleControl.Constructed ∧ exampleControl.name = some "c" ∧
    (∃ x ∈ exampleControl.rabiRates, x ≠ 0) ∧ IsNormalizer exampleControl true 3 ∧
    exampleControl.maximumRabiRate = .ok 3 := by
  refine ⟨exampleControl_constructed, rfl, ⟨3, by simp [exampleControl]⟩, ?_, ?_⟩
  · simp [IsNormalizer, exampleControl]
  · rw [DrivenControl.maximumRabiRate, npAmax_ok_iff]
    simp [exampleControl]

/-- an unnamed control (C11) -/
example : ∃ c : DrivenControl ℝ, c.Constructed ∧ c.name = none ∧ 0 < c.numberOfSegments :=
  ⟨⟨[1], [0], [0], [1], none⟩, by rw [DrivenControl.constructed_iff]; simp, rfl,
    by simp [DrivenControl.numberOfSegments]⟩

/-- a constructed sequence with two pulses (C54) -/
example : ∃ s : Sequence ℝ, s.Constructed ∧ s.offsets = [0, 1] ∧ s.rabiRotations = [1, 0] := by
  obtain ⟨s, hs⟩ := (C33_accepts_iff_real 2 [0, 1] [1, 0] [3, 0] [0, 1] none).mpr (by simp)
  exact ⟨s, ⟨_, _, _, _, _, _, hs⟩, (C33_stores_arguments _ _ _ _ _ _ _ hs).2.1,
    (C33_stores_arguments _ _ _ _ _ _ _ hs).2.2.1⟩

end OpenControls
