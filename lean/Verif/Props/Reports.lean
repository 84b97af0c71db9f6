import Verif.Proofs.ReportsConversion
import Verif.Props.Text
import Verif.Props.Gaussian
import Verif.Props.Conversion
import Mathlib.Analysis.Real.Pi.Bounds

/-!
# What an `ArgumentsValueError` says
-/

namespace OpenControls

open PyFloat Spec

section
variable {α : Type} [Add α] [Sub α] [Mul α] [Div α] [Neg α] [PyFloat α]

/-- **C114.** The functions with their reports return and raise what the functions modelled without reports return
and raise (so the claims about outcomes hold of them too), and the text of the report starts with the text given
there: constructors, predefined controls and sequences, conversion and exports. -/
theorem C114_same_outcome :
    (∀ (ds : List α) (rs as dets : Option (List α)) (name : Option String),
      SameCall (DrivenControl.newR ds rs as dets name) (DrivenControl.new ds rs as dets name)) ∧
    (∀ (T : α) (os rs as ds : List α) (name : Option String),
      SameCall (Sequence.newR T os rs as ds name) (Sequence.new T os rs as ds name)) ∧
    (∀ (s : Scheme) (θ Ω φ : α) (name : Option String),
      SameCall (s.callR θ Ω φ name) (s.call θ Ω φ name)) ∧
    (∀ Ω d T f : α, SameCall (newModulatedGaussianControlR Ω d T f) (newModulatedGaussianControl Ω d T f)) ∧
    (∀ (p : Predefined α) (T : α) (b : Bool) (name : Option String),
      SameCall (p.callR T b name) (p.call T b name)) ∧
    (∀ (s : Sequence α) (R D m : α) (name : Option String),
      SameCall (convertDDSR s R D m name) (convertDDS s R D m name)) ∧
    (∀ (c : DrivenControl α) (coordinates : String) (b : Bool),
      SameCall (c.exportPlotR coordinates b) (c.exportPlot coordinates b)) ∧
    (∀ (c : DrivenControl α) (fs : FileSystem α) (filename fileFormat fileType coordinates : String),
      SameCall (c.exportToFileR fs filename fileFormat fileType coordinates)
        (c.exportToFile fs filename fileFormat fileType coordinates).1) ∧
    (∀ (s : Sequence α) (fs : FileSystem α) (filename fileFormat fileType coordinates : String) (R D : α),
      SameCall (s.exportToFileR fs filename fileFormat fileType coordinates R D)
        (s.exportToFile fs filename fileFormat fileType coordinates R D).1) :=
  ⟨sameCall_control, sameCall_sequence, sameCall_scheme, sameCall_gaussian, sameCall_predefined, sameCall_convert,
    sameCall_plot, sameCall_file, sameCall_sequenceFile⟩

omit [Add α] [Sub α] [Mul α] [Div α] [Neg α] [PyFloat α] in
/-- **C114.** The message is the description, then one line `name=repr(value)` per argument, then one per extra. -/
theorem C114_message (repr : Reported α → String) (r : Report α) :
    r.message repr = String.intercalate "\n" (r.description ::
      (r.arguments ++ r.extras.getD []).map fun kv => kv.1 ++ "=" ++ repr kv.2) := by
  rw [Report.message, C15_error_message]
  cases r.extras <;> simp [Function.comp_def]

/-- **C114.** The constructors: whatever they reject, they name arguments given by the caller, and these values are
rejected whatever the other arguments are. -/
theorem C114_constructors (h0 : Py.ge (lit 0 : α) (lit 0) = true) :
    (∀ a : ControlInit α, Explained ControlInit.parameters ControlInit.call a) ∧
    (∀ a : SequenceInit α, Explained SequenceInit.parameters SequenceInit.call a) :=
  ⟨explained_control h0, explained_sequence⟩

/-- **C114.** The exports of a control likewise. -/
theorem C114_exports (c : DrivenControl α) (fs : FileSystem α) :
    (∀ a : PlotArgs, Explained PlotArgs.parameters (fun a => c.exportPlotR a.coordinates a.dimensionless) a) ∧
    (∀ a : FileArgs, Explained FileArgs.parameters
      (fun a => c.exportToFileR fs a.filename a.fileFormat a.fileType a.coordinates) a) :=
  ⟨explained_plot c, explained_file c fs⟩

end

/-- a negative Rabi rate is reported as such -/
example : (⟨[1], some [-1], none, none, none⟩ : ControlInit ℝ).call = .error (.report
    ⟨"All rabi rates must be greater than zero.", [("rabi_rates", .arr [-1])], none⟩) := by
  simp only [ControlInit.call, newR_eq]
  rw [if_pos (by simp), if_pos (by simp [Py.pySet]), if_neg (by norm_num)]
  rfl

/-- offsets after the end of the sequence are reported together with the duration -/
example : (⟨1, [2], [0], [0], [0], none⟩ : SequenceInit ℝ).call = .error (.report
    ⟨"Offsets for dynamic decoupling sequence must be between 0 and the sequence duration (inclusive). ",
      [("offsets", .arr [2]), ("duration", .num 1)], none⟩) := by
  simp only [SequenceInit.call, sequenceR_eq]
  rw [if_pos (by simp), if_neg (by norm_num)]

/-- an unknown file type is reported -/
example (c : DrivenControl ℝ) (fs : FileSystem ℝ) :
    ∃ r, c.exportToFileR fs "f" "Q-CTRL expanded" "XML" "cartesian" = .error (.report r) ∧
      r.arguments = [("file_type", .str "XML")] := by
  rw [fileR_eq, if_pos (by decide), if_neg (by decide)]
  exact ⟨_, rfl, rfl⟩

/-- **C114.** The predefined controls other than the modulated Gaussian, partially: for a rotation that is not
negative, and for any rotation with SCROFULOUS, CORPSE in SCROFULOUS and WAMF1.  Missing: a negative rotation with the
six other controls, of which the claim is false (`C114_negative_rotation`). -/
theorem C114_controls_partial (s : Scheme) (a : PulseArgs ℝ) (ha : s.HasTable ∨ 0 ≤ a.rabiRotation) :
    Explained PulseArgs.parameters (PulseArgs.call s) a :=
  explained_scheme s a ha

/-- **C114.** A negative rotation (down to -4π, for BB1 and SK1 with and without CORPSE) is rejected by the six controls
without a table with a report that names only `durations`, which none of them has as a parameter. -/
theorem C114_negative_rotation (s : Scheme) (hs : ¬ s.HasTable) (a : PulseArgs ℝ) (hΩ : 0 < a.maximumRabiRate)
    (hθ : a.rabiRotation < 0) (hw : s.Wimperis → -4 * Real.pi ≤ a.rabiRotation) :
    (∃ r, a.call s = .error (.report r) ∧ namedIn r = ["durations"] ∧
      "durations" ∉ a.parameters.map Prod.fst) ∧
    ¬ Explained PulseArgs.parameters (PulseArgs.call s) a := by
  obtain ⟨r, hr, hn⟩ := negative_scheme s hs hΩ hθ hw a.azimuthalAngle a.name
  have hd : "durations" ∉ a.parameters.map Prod.fst := by simp [PulseArgs.parameters]
  refine ⟨⟨r, hr, hn, hd⟩, fun he => hd ?_⟩
  obtain ⟨-, h, -⟩ := he r hr
  have : "durations" ∈ r.arguments.map Prod.fst := by
    change "durations" ∈ namedIn r
    simp [hn]
  obtain ⟨kv, hkv, hk⟩ := List.mem_map.mp this
  exact List.mem_map.mpr ⟨kv, h kv hkv, hk⟩

/-- a rotation that is not negative and is rejected; and a negative one -/
example : ∃ r, PulseArgs.call (α := ℝ) .bb1 ⟨5 * Real.pi, 1, 0, none⟩ = .error (.report r) :=  by
  obtain ⟨d, hd⟩ := (newBB1Control_spec (5 * Real.pi) 1 0 none).2 (by
    rintro ⟨-, -, h⟩
    have := Real.pi_pos
    linarith)
  exact SameCall_error (sameCall_scheme .bb1 (5 * Real.pi) 1 0 none) hd

example : ¬ Explained PulseArgs.parameters (PulseArgs.call (α := ℝ) .bb1) ⟨-1, 1, 0, none⟩ :=
  (C114_negative_rotation .bb1 (fun h => h) ⟨-1, 1, 0, none⟩ one_pos (by norm_num) fun _ => by
    have := Real.pi_gt_three
    norm_num
    linarith).2

/-- **C114.** The modulated Gaussian, partially: unless the rate is too small for a full rotation. -/
theorem C114_gaussian_partial (a : GaussianInit ℝ)
    (ha : 0 < a.maximumRabiRate → 0 < a.minimumSegmentDuration → a.minimumSegmentDuration < a.duration →
      Real.sqrt (2 * Real.pi) / (a.duration / 10) ≤ a.maximumRabiRate) :
    Explained GaussianInit.parameters GaussianInit.call a :=
  explained_gaussian a ha

/-- **C114.** A rate too small for a full rotation is reported as `maximum_rabi_rate` alone although the duration
decides: for every positive rate there are a call that reports this rate alone and a call with the same rate that is
accepted. -/
theorem C114_gaussian_duration (Ω : ℝ) (hΩ : 0 < Ω) :
    ∃ a b : GaussianInit ℝ, a.maximumRabiRate = Ω ∧ b.maximumRabiRate = Ω ∧
      (∃ r, a.call = .error (.report r) ∧ r.arguments = [("maximum_rabi_rate", .num Ω)]) ∧
      (∃ c, b.call = .ok c) ∧ ¬ Explained GaussianInit.parameters GaussianInit.call a := by
  have hpi := Real.pi_gt_three
  have hs : 0 < Real.sqrt (2 * Real.pi) := Real.sqrt_pos.mpr (by linarith)
  have h1 : Ω < Real.sqrt (2 * Real.pi) / (Real.sqrt (2 * Real.pi) / Ω / 10) := by
    rw [lt_div_iff₀ (by positivity)]
    have : Ω * (Real.sqrt (2 * Real.pi) / Ω / 10) = Real.sqrt (2 * Real.pi) / 10 := by
      field_simp
    rw [this]
    linarith
  have h2 : Real.sqrt (2 * Real.pi) / (10 * Real.sqrt (2 * Real.pi) / Ω / 10) ≤ Ω := by
    rw [div_le_iff₀ (by positivity)]
    have : Ω * (10 * Real.sqrt (2 * Real.pi) / Ω / 10) = Real.sqrt (2 * Real.pi) := by
      field_simp
    rw [this]
  set T := Real.sqrt (2 * Real.pi) / Ω with hT
  have hTpos : 0 < T := by positivity
  have hb : GaussianArgs Ω (T / 2) (10 * Real.sqrt (2 * Real.pi) / Ω) := by
    refine ⟨hΩ, by linarith, ?_, h2⟩
    have : 10 * Real.sqrt (2 * Real.pi) / Ω = 10 * T := by rw [hT]; ring
    rw [this]
    linarith
  obtain ⟨m, hm⟩ := sampleMax_exists' (10 * Real.sqrt (2 * Real.pi) / Ω)
    ⌈10 * Real.sqrt (2 * Real.pi) / Ω / (T / 2)⌉₊ (waveform (10 * Real.sqrt (2 * Real.pi) / Ω) 0)
  obtain ⟨m₀, hm₀⟩ := sampleMax_exists' (10 * Real.sqrt (2 * Real.pi) / Ω)
    ⌈10 * Real.sqrt (2 * Real.pi) / Ω / (T / 2)⌉₊ (envelope (10 * Real.sqrt (2 * Real.pi) / Ω))
  have hok := SameCall_ok (sameCall_gaussian Ω (T / 2) (10 * Real.sqrt (2 * Real.pi) / Ω) 0)
    ((newModulatedGaussianControl_spec Ω (T / 2) _ 0 hm hm₀).1 hb)
  obtain ⟨r, hr, hn⟩ := gaussian_bound hΩ (half_pos hTpos) (half_lt_self hTpos) h1 0
  refine ⟨⟨Ω, T / 2, T, 0⟩, ⟨Ω, T / 2, 10 * Real.sqrt (2 * Real.pi) / Ω, 0⟩, rfl, rfl, ⟨r, hr, hn⟩, ⟨_, hok⟩,
    fun he => ?_⟩
  obtain ⟨-, -, h⟩ := he r hr
  obtain ⟨r', hr'⟩ := h ⟨Ω, T / 2, 10 * Real.sqrt (2 * Real.pi) / Ω, 0⟩ (by rw [hn]; simp [GaussianInit.parameters])
  rw [show GaussianInit.call ⟨Ω, T / 2, 10 * Real.sqrt (2 * Real.pi) / Ω, 0⟩ = _ from hok] at hr'
  cases hr'

/-- a call that meets the hypothesis and is rejected -/
example : ∃ r, GaussianInit.call (α := ℝ) ⟨9, 3, 2, 0⟩ = .error (.report r) ∧
    namedIn r = ["duration", "minimum_segment_duration"] := by
  obtain ⟨rest, hrest⟩ := gaussianR_eq 9 3 2 0
  simp only [GaussianInit.call]
  rw [hrest, if_pos (by simp), if_pos (by simp), if_neg (by norm_num)]
  exact ⟨_, rfl, rfl⟩

/-- **C114.** The predefined sequences: what they report are arguments given by the caller, and the reason. -/
theorem C114_sequences :
    (∀ a : SequenceArgs ℝ Unit,
      Explained (SequenceArgs.parameters fun _ => []) (SequenceArgs.call fun T _ => newRamseySequenceR T) a) ∧
    (∀ a : SequenceArgs ℝ Unit,
      Explained (SequenceArgs.parameters fun _ => []) (SequenceArgs.call fun T _ => newSpinEchoSequenceR T) a) ∧
    (∀ a : SequenceArgs ℝ ℝ, Explained (SequenceArgs.parameters fun n => [("offset_count", .num n)])
      (SequenceArgs.call newCarrPurcellSequenceR) a) ∧
    (∀ a : SequenceArgs ℝ ℝ, Explained (SequenceArgs.parameters fun n => [("offset_count", .num n)])
      (SequenceArgs.call newCPMGSequenceR) a) ∧
    (∀ a : SequenceArgs ℝ ℝ, Explained (SequenceArgs.parameters fun n => [("offset_count", .num n)])
      (SequenceArgs.call newUhrigSequenceR) a) ∧
    (∀ a : SequenceArgs ℝ ℝ, Explained (SequenceArgs.parameters fun n => [("offset_count", .num n)])
      (SequenceArgs.call newPeriodicSequenceR) a) ∧
    (∀ a : SequenceArgs ℝ ℝ, Explained (SequenceArgs.parameters fun n => [("paley_order", .num n)])
      (SequenceArgs.call newWalshSequenceR) a) ∧
    (∀ a : SequenceArgs ℝ (ℝ × ℝ), Explained (SequenceArgs.parameters fun n =>
        [("inner_offset_count", .num n.1), ("outer_offset_count", .num n.2)])
      (SequenceArgs.call fun T n => newQuadraticSequenceR T n.1 n.2) a) ∧
    (∀ a : SequenceArgs ℝ ℝ, Explained (SequenceArgs.parameters fun n => [("concatenation_order", .num n)])
      (SequenceArgs.call newXConcatenatedSequenceR) a) ∧
    (∀ a : SequenceArgs ℝ ℝ, Explained (SequenceArgs.parameters fun n => [("concatenation_order", .num n)])
      (SequenceArgs.call newXYConcatenatedSequenceR) a) :=
  ⟨explained_ramsey, explained_spinEcho, explained_carrPurcell, explained_cpmg, explained_uhrig, explained_periodic,
    explained_walsh, explained_quadratic, explained_xConcatenated, explained_xyConcatenated⟩

/-- a Walsh order that is too large -/
example : ∃ r, SequenceArgs.call (α := ℝ) newWalshSequenceR ⟨1, 2001, true, none⟩ = .error (.report r) ∧
    r.arguments = [("paley_order", .num 2001)] := by
  refine ⟨_, (checkDurationR_pos one_pos _).trans (checkR_neg ?_ _ _ _ _), rfl⟩
  rw [Bool.eq_false_iff]
  norm_num

/-- **C114.** The conversion: what it reports are arguments given by the caller, and the reason. -/
theorem C114_conversion (a : ConvertArgs ℝ) : Explained ConvertArgs.parameters ConvertArgs.call a :=
  explained_convert a

/-- **C114.** The conversion reports the first argument that is at fault: the detuning rate, the Rabi rate, the minimum
duration; then the sequence alone, and this only if no rates and no minimum duration would do; then all four. -/
theorem C114_conversion_reason (a : ConvertArgs ℝ) (r : Report ℝ) (h : a.call = .error (.report r)) :
    (¬ 0 < a.maximumDetuningRate ∧ namedIn r = ["maximum_detuning_rate"]) ∨
    (0 < a.maximumDetuningRate ∧ ¬ 0 < a.maximumRabiRate ∧ namedIn r = ["maximum_rabi_rate"]) ∨
    (0 < a.maximumDetuningRate ∧ 0 < a.maximumRabiRate ∧ ¬ 0 ≤ a.minimumSegmentDuration ∧
      namedIn r = ["minimum_segment_duration"]) ∨
    (0 < a.maximumDetuningRate ∧ 0 < a.maximumRabiRate ∧ 0 ≤ a.minimumSegmentDuration ∧
      namedIn r = ["dynamic_decoupling_sequence"] ∧ ∀ R D m, ¬ Convertible R D m a.sequence.1) ∨
    (0 < a.maximumDetuningRate ∧ 0 < a.maximumRabiRate ∧ 0 ≤ a.minimumSegmentDuration ∧
      namedIn r = ["dynamic_decoupling_sequence", "maximum_rabi_rate", "maximum_detuning_rate",
        "minimum_segment_duration"] ∧
      ¬ Convertible a.maximumRabiRate a.maximumDetuningRate a.minimumSegmentDuration a.sequence.1) := by
  rcases convertR_reason a.sequence.2 h with ⟨h1, hr⟩ | ⟨h1, h2, hr⟩ | ⟨h1, h2, h3, hr⟩ | ⟨h1, h2, h3, hr, h4⟩ |
    ⟨h1, h2, h3, hr, h4⟩
  · exact .inl ⟨h1, by rw [namedIn, hr]; rfl⟩
  · exact .inr (.inl ⟨h1, h2, by rw [namedIn, hr]; rfl⟩)
  · exact .inr (.inr (.inl ⟨h1, h2, h3, by rw [namedIn, hr]; rfl⟩))
  · exact .inr (.inr (.inr (.inl ⟨h1, h2, h3, by rw [namedIn, hr]; rfl, h4⟩)))
  · exact .inr (.inr (.inr (.inr ⟨h1, h2, h3, by rw [namedIn, hr]; rfl, h4⟩)))

/-- two pulses at the same time, which no rates and no minimum duration make convertible -/
theorem Spec.sameTime_constructed : (⟨1, [1 / 2, 1 / 2], [1, 1], [0, 0], [0, 0], none⟩ : Sequence ℝ).Constructed := by
  refine ⟨1, [1 / 2, 1 / 2], [1, 1], [0, 0], [0, 0], none, ?_⟩
  rw [Sequence.new_eq]
  norm_num

theorem Spec.sameTime_not_convertible (R D m : ℝ) :
    ¬ Convertible R D m ⟨1, [1 / 2, 1 / 2], [1, 1], [0, 0], [0, 0], none⟩ := by
  rintro ⟨-, -, -, -, -, h, -⟩
  simp at h

example : ∃ r, ConvertArgs.call ⟨⟨_, Spec.sameTime_constructed⟩, 1, 1, 0, none⟩ = .error (.report r) :=
  convertR_report Spec.sameTime_constructed (Spec.sameTime_not_convertible 1 1 0) none

/-- **C114.** The export of a sequence to a file, partially: unless the conversion it makes first fails although the
rates are positive. -/
theorem C114_sequence_file_partial (s : Sequence ℝ) (hs : s.Constructed) (fs : FileSystem ℝ)
    (a : FileArgs × ℝ × ℝ) (hc : 0 < a.2.1 → 0 < a.2.2 → Convertible a.2.1 a.2.2 0 s) :
    Explained (fun a : FileArgs × ℝ × ℝ => a.1.parameters ++
        [("maximum_rabi_rate", .num a.2.1), ("maximum_detuning_rate", .num a.2.2)])
      (fun a => s.exportToFileR fs a.1.filename a.1.fileFormat a.1.fileType a.1.coordinates a.2.1 a.2.2) a :=
  explained_sequenceFile hs fs a hc

/-- a sequence that meets the hypothesis for all rates -/
example (R D : ℝ) (hR : 0 < R) (hD : 0 < D) : Convertible R D 0 (single 1 (1 / 2) 0 0 0) := by
  have hn0 : Negligible (0 : ℝ) := by simp [Negligible]
  have hw : windows R D 0 (single 1 (1 / 2) 0 0 0) = [(0, 0), (1 / 2, 1 / 2), (1, 1)] := by
    rw [single_windows (by norm_num) (by norm_num)]
    have : width R D 0 ⟨1 / 2, 0, 0, 0⟩ = 0 := by simp only [width, hn0]; simp
    rw [this]
    norm_num
  refine ⟨hR, hD, le_rfl, ?_, ?_, by simp [single], ?_⟩
  · simp [pulseList, single]
  · simp [pulseList, single]
  · rw [hw]
    simp only [EachGap, List.isChain_cons_cons]
    norm_num

/-- **C114.** If it fails, the report names `dynamic_decoupling_sequence`, which is not a parameter of the export. -/
theorem C114_sequence_file (s : Sequence ℝ) (hs : s.Constructed) (fs : FileSystem ℝ) (R D : ℝ) (hR : 0 < R)
    (hD : 0 < D) (hc : ¬ Convertible R D 0 s) (filename fileFormat fileType coordinates : String) :
    ∃ r, s.exportToFileR fs filename fileFormat fileType coordinates R D = .error (.report r) ∧
      "dynamic_decoupling_sequence" ∈ namedIn r ∧ "dynamic_decoupling_sequence" ∉ sequenceFileParameters := by
  obtain ⟨r, hr, hn⟩ := sequenceFile_names hs fs hR hD hc filename fileFormat fileType coordinates
  exact ⟨r, hr, hn, by simp [sequenceFileParameters]⟩

example (fs : FileSystem ℝ) :
    ∃ r, (⟨1, [1 / 2, 1 / 2], [1, 1], [0, 0], [0, 0], none⟩ : Sequence ℝ).exportToFileR fs "f" "Q-CTRL expanded" "CSV"
        "cartesian" 1 1 = .error (.report r) ∧
      "dynamic_decoupling_sequence" ∈ namedIn r ∧ "dynamic_decoupling_sequence" ∉ sequenceFileParameters :=
  C114_sequence_file _ Spec.sameTime_constructed fs 1 1 one_pos one_pos (Spec.sameTime_not_convertible 1 1 0) _ _ _ _

end OpenControls
