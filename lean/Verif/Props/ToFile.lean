import Verif.Proofs.ToFile
import Verif.Props.RoundedPipeline
import Verif.Props.Reload

/-!
# C103: from the arguments of a predefined sequence to the numbers in a file

Three calls in the floating-point arithmetic `r`: the predefined constructor, the conversion inside `export_to_file`,
and the division by the maximum Rabi rate; then the text of the file, and a reader who multiplies by the maximum
again.
-/

namespace OpenControls

open Spec Fl
open scoped Matrix.Norms.L2Operator

variable {r : Rounding}

/-- all calls before the export, and what is needed of the control -/
theorem converted_to_export (family : RoundedFamily r) (T : Fl r) (hT : 2 / 10 ^ 8 ≤ T.val)
    (hv : family.exact.Valid) (hsmall : family.Small) (prePost : Bool)
    (hsep : family.exact.Separate prePost) (name : Option String)
    (exact : Sequence ℝ) (hexact : family.exact.call T.val prePost name = .ok exact)
    (R D : Fl r) (hR : 0 < R.val) (hD : 0 < D.val)
    (gap : ℝ) (hroom : Apart gap exact)
    (hgap : 2 * pulseTime R.val D.val 0 + (35 * r.u + 2 * family.error) * T.val < gap)
    (hwide : 130 * r.u * T.val ≤ shortestPulse R.val D.val 0)
    (hdrive : ∃ x ∈ exact.rabiRotations, 0 < x) :
    ∃ s c m, family.call T prePost name = .ok s ∧ s.name = name ∧
      convertDDS s R D (PyFloat.lit 0) name = .ok c ∧ c.name = name ∧ c.Constructed ∧
      (∃ x ∈ c.rabiRates, 0 < x.val) ∧ c.maximumRabiRate = .ok m ∧ 0 < m.val ∧
      PerformsWithin (7 * r.u * exact.offsets.length) c (pulses exact) ∧
      |(c.map val).durations.sum - T.val| ≤ 6 * r.u * T.val ∧
      totalRotation (c.map val) ≤ (1 + r.u) ^ 2 * Real.pi * exact.offsets.length := by
  have hu := r.u_nonneg
  have hT0 : 0 < T.val := lt_of_lt_of_le (by norm_num) hT
  have hpi := Real.pi_pos
  have h0 : (PyFloat.lit 0 : Fl r).val = 0 := val_lit_zero
  obtain ⟨s, c, h1, h2, h3, h4, -, h5, -⟩ := C78_pipeline family T hT hv hsmall prePost hsep name exact hexact
    R D (PyFloat.lit 0) hR hD h0.ge gap hroom (by rw [h0, add_zero]; exact hgap) (1 / 2) (by norm_num) le_rfl
    (by rw [h0]; linarith) name
  obtain ⟨s', e, hs', he, happ⟩ := C78_agrees family T hT0 hv hsmall prePost name
  obtain rfl : e = exact := by rw [hexact] at he; injection he with he; exact he.symm
  obtain rfl : s' = s := by rw [h1] at hs'; injection hs' with hs'; exact hs'.symm
  obtain ⟨-, hw⟩ := (C43_well_formed family.exact T.val prePost name).ok hexact
  have hname : s'.name = name := by
    rw [happ.name]
    rw [Family.call_eq hv hT0] at hexact
    injection hexact with hexact
    rw [← hexact]
    cases prePost <;> rfl
  have hS : 0 < shortestPulse R.val D.val 0 := by
    unfold shortestPulse
    exact lt_max_of_lt_left (lt_min (by positivity) (by positivity))
  have hut : 0 ≤ r.u * T.val := by positivity
  obtain ⟨h6, h7⟩ := approximates_converted happ hT hw hR hD h0.ge (by rw [h0]; linarith) h2
  obtain ⟨x, hx, hx0⟩ := h6 hdrive
  obtain ⟨m, hm, -, hle⟩ := npAmax_rounded (List.ne_nil_of_mem hx)
  exact ⟨s', c, m, h1, hname, h2, h3, convertDDS_constructed h2, ⟨x, hx, hx0⟩, hm, hx0.trans_le (hle x hx), h4, h5,
    h7⟩

theorem carriesOutWithin {family : RoundedFamily r} {T : Fl r} (hT : 0 < T.val) (hv : family.exact.Valid)
    {prePost : Bool} {name : Option String} {exact : Sequence ℝ}
    (hexact : family.exact.call T.val prePost name = .ok exact) {c : DrivenControl (Fl r)} {U : M2} {K B : ℝ}
    (h : PerformsWithin (7 * r.u * exact.offsets.length) c (pulses exact))
    (hrot : totalRotation (c.map val) ≤ (1 + r.u) ^ 2 * Real.pi * exact.offsets.length)
    (hK0 : 0 ≤ K) (hU : ‖U - evolution (c.map val)‖ ≤ K * r.u * totalRotation (c.map val))
    (hKB : 7 + K * (31416 / 10000) ≤ B - K * (1 / 1000)) :
    CarriesOutWithin (B * r.u * exact.offsets.length) prePost exact U := by
  have hu := r.u_nonneg
  have hu20 := r.u_le
  have hpi := Real.pi_lt_d4
  have hn : (0 : ℝ) ≤ exact.offsets.length := Nat.cast_nonneg _
  have hmain : EntriesWithin (B * r.u * exact.offsets.length) U (pulses exact) := by
    intro i j
    have e : (U - pulses exact) i j = (U - evolution (c.map val)) i j + (evolution (c.map val) - pulses exact) i j := by
      simp only [Matrix.sub_apply]; ring
    rw [e]
    refine (norm_add_le _ _).trans ?_
    have h1 := (entry_le_norm (U - evolution (c.map val)) i j).trans hU
    have h2 := h i j
    have h3 := mul_le_mul_of_nonneg_left hrot (show 0 ≤ K * r.u by positivity)
    have h4 : (1 + r.u) ^ 2 * Real.pi ≤ 31416 / 10000 + 1 / 1000 := by
      norm_num at hu20 hpi
      have : (1 + r.u) ^ 2 ≤ 1 + 3 * r.u := by nlinarith
      have h5 := mul_le_mul_of_nonneg_right this Real.pi_pos.le
      nlinarith
    have h5 := mul_le_mul_of_nonneg_left (mul_le_mul_of_nonneg_left h4 hK0)
      (show 0 ≤ r.u * exact.offsets.length by positivity)
    have h6 := mul_le_mul_of_nonneg_left hKB (show 0 ≤ r.u * exact.offsets.length by positivity)
    linarith
  refine ⟨hmain, ?_⟩
  rintro rfl
  obtain ⟨z, hz, h | h⟩ := pulses_prePost hT hv hexact
  · exact ⟨z, hz, .inl (h ▸ hmain)⟩
  · exact ⟨z, hz, .inr (h ▸ hmain)⟩

/-- **C103.** A predefined sequence with at most one pulse at each time and at least one pulse about an axis in the XY
plane: if there is room for two π-pulses and the rounding error of times between any two instants, and the pulses are
long compared with that error, the sequence is made, `export_to_file` writes a file in cylindrical coordinates, and
the control that a reader makes from the text of the file does what the ideal pulses do, up to `17 u` per pulse.
With pre and post rotations it is the identity or Z, up to a phase and the same error.  It takes the time `T` up to
`6 u T`. -/
theorem C103_cylindrical (family : RoundedFamily r) (T : Fl r) (hT : 2 / 10 ^ 8 ≤ T.val)
    (hv : family.exact.Valid) (hsmall : family.Small) (prePost : Bool)
    (hsep : family.exact.Separate prePost) (name : Option String)
    (exact : Sequence ℝ) (hexact : family.exact.call T.val prePost name = .ok exact)
    (R D : Fl r) (hR : 0 < R.val) (hD : 0 < D.val)
    (gap : ℝ) (hroom : Apart gap exact)
    (hgap : 2 * pulseTime R.val D.val 0 + (35 * r.u + 2 * family.error) * T.val < gap)
    (hwide : 130 * r.u * T.val ≤ shortestPulse R.val D.val 0)
    (hdrive : ∃ x ∈ exact.rabiRotations, 0 < x)
    (fmt : Fl r → String) (parse : List Char → Option (Fl r))
    (hread : ∀ s c m, family.call T prePost name = .ok s → convertDDS s R D (PyFloat.lit 0) name = .ok c →
      c.maximumRabiRate = .ok m → ReadsBack fmt parse (fileNumbers c m))
    (fs : FileSystem (Fl r)) (filename : String) :
    ∃ s, family.call T prePost name = .ok s ∧
      (name ≠ none → ∃ fs' content c',
        s.exportToFile fs filename "Q-CTRL expanded" "CSV" "cylindrical" R D = (.ok (), fs') ∧
        fs' filename = some content ∧ reloadCsv parse name (fileText fmt content) = some (.ok c') ∧
        CarriesOutWithin (17 * r.u * exact.offsets.length) prePost exact (evolution (c'.map val)) ∧
        |(c'.map val).durations.sum - T.val| ≤ 6 * r.u * T.val) ∧
      ((∀ x, isNumber (fmt x).toList = true) → ∃ fs' content c',
        s.exportToFile fs filename "Q-CTRL expanded" "JSON" "cylindrical" R D = (.ok (), fs') ∧
        fs' filename = some content ∧ reloadJson parse (fileText fmt content) = some (.ok c') ∧
        c'.name = name ∧
        CarriesOutWithin (17 * r.u * exact.offsets.length) prePost exact (evolution (c'.map val)) ∧
        |(c'.map val).durations.sum - T.val| ≤ 6 * r.u * T.val) := by
  have hT0 : 0 < T.val := lt_of_lt_of_le (by norm_num) hT
  obtain ⟨s, c, m, h1, hsn, h2, h3, hcon, -, hm, hm0, h4, h5, h6⟩ := converted_to_export family T hT hv hsmall prePost
    hsep name exact hexact R D hR hD gap hroom hgap hwide hdrive
  have hr := hread s c m h1 h2 hm
  obtain ⟨c', h7, h8⟩ := reload_cylindrical c hcon hm0 name
  rw [List.map_map] at h7
  have hcar := carriesOutWithin hT0 hv hexact h4 h6 (K := 3) (B := 17) (by norm_num) h8 (by norm_num)
  obtain ⟨hd, -, -, -, hn, -⟩ := C02_stores_arguments _ _ _ _ _ _ h7
  have hdur : |(c'.map val).durations.sum - T.val| ≤ 6 * r.u * T.val := by
    have : (c'.map val).durations = (c.map val).durations := by
      show c'.durations.map val = c.durations.map val
      rw [hd]
    rw [this]; exact h5
  have hexp : ∀ fileType, s.exportToFile fs filename "Q-CTRL expanded" fileType "cylindrical" R D =
      c.exportToFile fs filename "Q-CTRL expanded" fileType "cylindrical" := by
    intro fileType
    unfold Sequence.exportToFile
    rw [hsn, h2]
  refine ⟨s, h1, ?_, ?_⟩
  · intro hne
    obtain ⟨nm, hnm⟩ := Option.ne_none_iff_exists'.mp hne
    obtain ⟨fs', content, a1, a2, a3⟩ := C99_csv fmt parse c hcon fs filename nm m (h3.trans hnm) hm hr name
    exact ⟨fs', content, c', (hexp _).trans a1, a2, a3.trans (congrArg some h7), hcar, hdur⟩
  · intro hfmt
    obtain ⟨fs', content, a1, a2, a3⟩ := C99_json fmt hfmt parse c fs filename m hm hr
    rw [h3] at a3
    exact ⟨fs', content, c', (hexp _).trans a1, a2, a3.trans (congrArg some h7), hn, hcar, hdur⟩

/-- **C103**, Cartesian coordinates: the segments that a reader makes from the text of the file do what the ideal pulses
do, up to `29 u` per pulse. -/
theorem C103_cartesian (family : RoundedFamily r) (T : Fl r) (hT : 2 / 10 ^ 8 ≤ T.val)
    (hv : family.exact.Valid) (hsmall : family.Small) (prePost : Bool)
    (hsep : family.exact.Separate prePost) (name : Option String)
    (exact : Sequence ℝ) (hexact : family.exact.call T.val prePost name = .ok exact)
    (R D : Fl r) (hR : 0 < R.val) (hD : 0 < D.val)
    (gap : ℝ) (hroom : Apart gap exact)
    (hgap : 2 * pulseTime R.val D.val 0 + (35 * r.u + 2 * family.error) * T.val < gap)
    (hwide : 130 * r.u * T.val ≤ shortestPulse R.val D.val 0)
    (hdrive : ∃ x ∈ exact.rabiRotations, 0 < x)
    (fmt : Fl r → String) (parse : List Char → Option (Fl r))
    (hread : ∀ s c m, family.call T prePost name = .ok s → convertDDS s R D (PyFloat.lit 0) name = .ok c →
      c.maximumRabiRate = .ok m → ReadsBack fmt parse (fileNumbersCartesian c m))
    (fs : FileSystem (Fl r)) (filename : String) :
    ∃ s, family.call T prePost name = .ok s ∧
      (name ≠ none → ∃ fs' content segments,
        s.exportToFile fs filename "Q-CTRL expanded" "CSV" "cartesian" R D = (.ok (), fs') ∧
        fs' filename = some content ∧ reloadCsvCartesian parse (fileText fmt content) = some segments ∧
        CarriesOutWithin (29 * r.u * exact.offsets.length) prePost exact
          (cartesianEvolution (segmentValues segments))) ∧
      ((∀ x, isNumber (fmt x).toList = true) → ∃ fs' content segments,
        s.exportToFile fs filename "Q-CTRL expanded" "JSON" "cartesian" R D = (.ok (), fs') ∧
        fs' filename = some content ∧ reloadJsonCartesian parse (fileText fmt content) = some segments ∧
        CarriesOutWithin (29 * r.u * exact.offsets.length) prePost exact
          (cartesianEvolution (segmentValues segments))) := by
  have hT0 : 0 < T.val := lt_of_lt_of_le (by norm_num) hT
  obtain ⟨s, c, m, h1, hsn, h2, h3, hcon, hdr, hm, hm0, h4, h5, h6⟩ := converted_to_export family T hT hv hsmall
    prePost hsep name exact hexact R D hR hD gap hroom hgap hwide hdrive
  have hr := hread s c m h1 h2 hm
  obtain ⟨hcsv, hjson⟩ := C99_rounded_cartesian fmt parse c hcon hdr fs filename m hm hr
  have hexp : ∀ fileType, s.exportToFile fs filename "Q-CTRL expanded" fileType "cartesian" R D =
      c.exportToFile fs filename "Q-CTRL expanded" fileType "cartesian" := by
    intro fileType
    unfold Sequence.exportToFile
    rw [hsn, h2]
  refine ⟨s, h1, ?_, ?_⟩
  · intro hne
    obtain ⟨fs', content, segments, a1, a2, a3, a4⟩ := hcsv (h3 ▸ hne)
    exact ⟨fs', content, segments, (hexp _).trans a1, a2, a3,
      carriesOutWithin hT0 hv hexact h4 h6 (by norm_num) a4 (by norm_num)⟩
  · intro hfmt
    obtain ⟨fs', content, segments, a1, a2, a3, a4⟩ := hjson hfmt
    exact ⟨fs', content, segments, (hexp _).trans a1, a2, a3,
      carriesOutWithin hT0 hv hexact h4 h6 (by norm_num) a4 (by norm_num)⟩

/-- for every list of numbers there is a way of printing and reading them -/
theorem exists_printing {α : Type} (l : List α) : ∃ (fmt : α → String) (parse : List Char → Option α),
    (∀ x, isNumber (fmt x).toList = true) ∧ ReadsBack fmt parse l := by
  classical
  refine ⟨fun x => String.ofList (List.replicate (l.idxOf x + 1) '1'), fun cs => l[cs.length - 1]?, ?_, ?_⟩
  · intro x
    rw [String.toList_ofList, List.replicate_succ]
    have h : ∀ n, (List.replicate n '1').dropWhile isDigit = [] := by
      intro n
      induction n with
      | zero => rfl
      | succ n ih => rw [List.replicate_succ, List.dropWhile_cons, if_pos (by decide), ih]
    show (isDigit '1' && isFraction ((List.replicate _ '1').dropWhile isDigit)) = true
    rw [h]
    decide
  · intro x hx
    dsimp only
    rw [String.toList_ofList, List.length_replicate, Nat.add_sub_cancel]
    rw [List.getElem?_eq_getElem (List.idxOf_lt_length_of_mem hx), List.getElem_idxOf]

/-- The CPMG sequence of two pulses and duration 1, with pre and post rotations, in double precision, exported as a CSV
file with maximum rates 64, and read back: four pulses, so the identity or Z up to a phase and `68 u`. -/
example : ∃ (fmt : Fl Rounding.double → String) (parse : List Char → Option (Fl Rounding.double)) (s : _) (fs' : _)
    (content : _) (c' : _),
    newCPMGSequence (round Rounding.double 1) (round Rounding.double 2) true (some "cpmg") = .ok s ∧
    s.exportToFile (fun _ => none) "a.csv" "Q-CTRL expanded" "CSV" "cylindrical" (round _ 64) (round _ 64) =
      (.ok (), fs') ∧
    fs' "a.csv" = some content ∧ reloadCsv parse (some "cpmg") (fileText fmt content) = some (.ok c') ∧
    (∃ z : ℂ, ‖z‖ = 1 ∧ (PerformsWithin (68 / 2 ^ 53) c' (z • 1) ∨ PerformsWithin (68 / 2 ^ 53) c' (z • σz))) ∧
    |(c'.map val).durations.sum - 1| ≤ 6 / 2 ^ 53 := by
  have h1 : (round Rounding.double 1).val = 1 := Rounding.double.rnd_one
  have h2 : (round Rounding.double 2).val = 2 := Rounding.double.rnd_two
  have h64 : (round Rounding.double 64).val = 64 := by simpa using double_nat (n := 64) (by norm_num)
  have hu : Rounding.double.u = 1 / 2 ^ 53 := double_u
  have hpi := Real.pi_gt_three
  have hpi' := Real.pi_lt_d2
  obtain ⟨e, he, -⟩ := (C43_well_formed (.cpmg 2) 1 true (some "cpmg")).1 ⟨one_pos, by norm_num [Family.Valid]⟩
  have he' := he
  rw [Family.call_eq (by norm_num [Family.Valid]) one_pos] at he'
  injection he' with he'
  have hlen : e.offsets.length = 4 := by
    subst he'
    simp [finished, withPrePost, piSequence, Family.table, onAxis, cpmgTimes]
  have hT : 2 / 10 ^ 8 ≤ (round Rounding.double 1).val := by rw [h1]; norm_num
  have hv : (RoundedFamily.cpmg (round Rounding.double 2)).exact.Valid := by
    simp only [RoundedFamily.exact, Family.Valid]; rw [h2]; norm_num
  have hsmall : (RoundedFamily.cpmg (round Rounding.double 2)).Small := by
    simp only [RoundedFamily.Small]; rw [h2, hu]; norm_num
  have hexact : (RoundedFamily.cpmg (round Rounding.double 2)).exact.call (round Rounding.double 1).val true
      (some "cpmg") = .ok e := by
    simp only [RoundedFamily.exact]; rw [h2, h1]; exact he
  have hR : 0 < (round Rounding.double 64).val := by rw [h64]; norm_num
  have hroom : Apart (1 / 4) e := by
    subst he'
    simp [Apart, finished, withPrePost, piSequence, Family.table, onAxis, cpmgTimes, List.range']
    norm_num
  have hgap : 2 * pulseTime (round Rounding.double 64).val (round Rounding.double 64).val 0 +
      (35 * Rounding.double.u + 2 * (RoundedFamily.cpmg (round Rounding.double 2)).error) *
        (round Rounding.double 1).val < 1 / 4 := by
    have hp : pulseTime 64 64 0 = Real.pi / 64 := by
      rw [pulseTime, max_self, max_eq_left (by positivity)]
    simp only [RoundedFamily.error]
    rw [h64, h1, hu, hp]
    norm_num
    linarith
  have hwide : 130 * Rounding.double.u * (round Rounding.double 1).val ≤
      shortestPulse (round Rounding.double 64).val (round Rounding.double 64).val 0 := by
    have hp : shortestPulse 64 64 0 = Real.pi / 2 / 64 := by
      rw [shortestPulse, min_eq_left (by linarith), max_eq_left (by positivity)]
    rw [h64, h1, hu, hp]
    norm_num
    linarith
  have hdrive : ∃ x ∈ e.rabiRotations, 0 < x := by
    subst he'
    refine ⟨Real.pi / 2, ?_, by positivity⟩
    simp [finished, withPrePost]
  obtain ⟨s, c, m, a1, -, a2, -, -, -, a3, -⟩ := converted_to_export (.cpmg (round Rounding.double 2))
    (round Rounding.double 1) hT hv hsmall true trivial (some "cpmg") e hexact (round _ 64) (round _ 64) hR hR (1 / 4)
    hroom hgap hwide hdrive
  obtain ⟨fmt, parse, -, hread⟩ := exists_printing (fileNumbers c m)
  obtain ⟨s', b1, hcsv, -⟩ := C103_cylindrical (.cpmg (round Rounding.double 2))
    (round Rounding.double 1) hT hv hsmall true trivial (some "cpmg") e hexact (round _ 64) (round _ 64) hR hR (1 / 4)
    hroom hgap hwide hdrive fmt parse (by
      intro s'' c'' m'' e1 e2 e3
      rw [a1] at e1
      injection e1 with e1
      subst e1
      rw [a2] at e2
      injection e2 with e2
      subst e2
      rw [a3] at e3
      injection e3 with e3
      subst e3
      exact hread) (fun _ => none) "a.csv"
  obtain ⟨fs', content, c', d1, d2, d3, d4, d5⟩ := hcsv (by simp)
  refine ⟨fmt, parse, s', fs', content, c', b1, d1, d2, d3, ?_, ?_⟩
  · have := d4.2 rfl
    rw [hlen, hu] at this
    have e1 : 17 * (1 / 2 ^ 53) * ((4 : ℕ) : ℝ) = 68 / 2 ^ 53 := by norm_num
    rw [e1] at this
    exact this
  · rw [h1, hu] at d5
    exact d5.trans (le_of_eq (by norm_num))

end OpenControls
