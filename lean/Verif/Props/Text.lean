import Verif.Props.Export

/-!
# C14, C15, C56: texts shown to the user

Formatting of a single number is a parameter `fmt` (Python's `str`/`repr` of a float); everything
around it is exact.
-/

namespace OpenControls

set_option linter.unusedSectionVars false

open PyFloat Spec

theorem joinWith_eq (sep : String) (l : List String) :
    joinWith sep l = String.intercalate sep l := by
  induction l with
  | nil => simp [joinWith]
  | cons x xs ih =>
    cases xs with
    | nil => simp [joinWith]
    | cons y ys => rw [joinWith, ih, String.intercalate_cons_cons]

/-- The layout of `str(control)`, given the printed entries and factors. -/
def Spec.controlLayout (name : Option String) (rabi azimuthal detuning duration : List String)
    (rabiFactor detuningFactor durationFactor : String) : String :=
  String.intercalate "\n" ((name.map (· ++ ":")).toList ++
    ["Rabi Rates = [" ++ String.intercalate "," rabi ++ "] x " ++ rabiFactor,
     "Azimuthal Angles = [" ++ String.intercalate "," azimuthal ++ "] x pi",
     "Detunings = [" ++ String.intercalate "," detuning ++ "] x " ++ detuningFactor,
     "Durations = [" ++ String.intercalate "," duration ++ "] x " ++ durationFactor])

/-- A printed entry and the number it stands for: the formatted number, or a literal `0`. -/
def Spec.Prints (fmt : ℝ → String) (entry : String × ℝ) : Prop :=
  entry.1 = fmt entry.2 ∨ entry = ("0", 0)

/-- The number an entry of the model stands for. -/
def Shown.value : Shown ℝ → ℝ
  | .num x => x
  | .zero => 0

theorem str_shown (fmt : ℝ → String) (c : DrivenControl ℝ) (h : c.Constructed)
    (hn : 0 < c.numberOfSegments) :
    ∃ (rabi azimuthal detuning duration : List (Shown ℝ)) (fr fd ft : ℝ),
      c.toStr fmt = .ok (controlLayout c.name (rabi.map (Shown.render fmt))
        (azimuthal.map (Shown.render fmt)) (detuning.map (Shown.render fmt))
        (duration.map (Shown.render fmt)) (fmt fr) (fmt fd) (fmt ft)) ∧
      rabi.map (fun s => s.value * fr) = c.rabiRates ∧
      azimuthal.map (fun s => s.value * Real.pi) = c.azimuthalAngles ∧
      fd ∈ c.detunings ∧ (∀ x ∈ c.detunings, x ≤ fd) ∧
      (fd ≠ 0 → detuning.map (fun s => s.value * fd) = c.detunings) ∧
      (fd = 0 → detuning = c.detunings.map fun _ => .zero) ∧
      duration.map (fun s => s.value * ft) = c.durations := by
  obtain ⟨hext, -⟩ := C04_extrema c h
  obtain ⟨⟨mr, hmr, hmr1, hmr2⟩, ⟨md, hmd, hmd1, hmd2⟩, ⟨mt, hmt, hmt1, hmt2, hmt3⟩, -⟩ := hext hn
  have hpos := ((DrivenControl.constructed_iff c).mp h)
  have hrabi := hpos.2.2.2.2
  have hT : c.duration ≠ 0 := by
    have := hpos.1 _ hmt1
    linarith
  have hmap : ∀ (l : List ℝ) (f : ℝ → ℝ), (∀ x ∈ l, f x = x) → l.map f = l := by
    intro l f hf
    conv_rhs => rw [← List.map_id l]
    exact List.map_congr_left (fun x hx => by simp [hf x hx])
  refine ⟨c.rabiRates.map fun r => if Py.ne mr (lit 0) then .num (r / mr) else .zero,
    c.azimuthalAngles.map fun a => .num (a / PyFloat.pi),
    c.detunings.map fun d => if Py.ne md (lit 0) then .num (d / md) else .zero,
    c.durations.map fun d => .num (d / c.duration), mr, md, c.duration, ?_, ?_, ?_, hmd1, hmd2,
    ?_, ?_, ?_⟩
  · simp only [DrivenControl.toStr, DrivenControl.textData, hmr, hmd, except_ok_bind, pure,
      Except.pure, joinWith_eq, controlLayout]
    cases c.name <;> rfl
  · rw [List.map_map]
    apply hmap
    intro x hx
    by_cases h0 : mr = 0
    · have : x = 0 := le_antisymm (by rw [← h0]; exact hmr2 x hx) (hrabi x hx)
      simp [h0, this, Shown.value]
    · simp [h0, Shown.value]
  · rw [List.map_map]
    apply hmap
    intro x hx
    simp [Shown.value, Real.pi_ne_zero]
  · intro h0
    rw [List.map_map]
    apply hmap
    intro x hx
    simp [h0, Shown.value]
  · intro h0
    simp [h0]
  · rw [List.map_map]
    apply hmap
    intro x hx
    simp [Shown.value, hT]

/-- **C14**, exactly: what `str(control)` prints for every control with at least one segment.  Entry times
factor is the attribute for all but the detunings; the factor of these is the largest one, and if that is 0
every detuning is printed as `0`. -/
theorem C14_str_exact (fmt : ℝ → String) (c : DrivenControl ℝ) (h : c.Constructed)
    (hn : 0 < c.numberOfSegments) :
    ∃ (rabi azimuthal detuning duration : List (String × ℝ)) (fr fd ft : ℝ),
      c.toStr fmt = .ok (controlLayout c.name (rabi.map Prod.fst) (azimuthal.map Prod.fst)
        (detuning.map Prod.fst) (duration.map Prod.fst) (fmt fr) (fmt fd) (fmt ft)) ∧
      (∀ entry ∈ rabi ++ azimuthal ++ detuning ++ duration, Prints fmt entry) ∧
      rabi.map (fun p => p.2 * fr) = c.rabiRates ∧
      azimuthal.map (fun p => p.2 * Real.pi) = c.azimuthalAngles ∧
      fd ∈ c.detunings ∧ (∀ x ∈ c.detunings, x ≤ fd) ∧
      (fd ≠ 0 → detuning.map (fun p => p.2 * fd) = c.detunings) ∧
      (fd = 0 → detuning = List.replicate c.numberOfSegments ("0", 0)) ∧
      duration.map (fun p => p.2 * ft) = c.durations := by
  obtain ⟨r, a, d, t, fr, fd, ft, h1, h2, h3, h4, h5, h6, h7, h8⟩ := str_shown fmt c h hn
  have hp : ∀ s : Shown ℝ, Prints fmt (s.render fmt, s.value) := by
    intro s
    cases s with
    | num x => exact Or.inl rfl
    | zero => exact Or.inr rfl
  refine ⟨r.map fun s => (s.render fmt, s.value), a.map fun s => (s.render fmt, s.value),
    d.map fun s => (s.render fmt, s.value), t.map fun s => (s.render fmt, s.value), fr, fd, ft,
    ?_, ?_, ?_, ?_, h4, h5, fun h0 => ?_, fun h0 => ?_, ?_⟩
  · simpa only [List.map_map, Function.comp_def] using h1
  · intro entry he
    simp only [List.mem_append, List.mem_map] at he
    rcases he with ((⟨s, -, rfl⟩ | ⟨s, -, rfl⟩) | ⟨s, -, rfl⟩) | ⟨s, -, rfl⟩ <;> exact hp s
  · simpa only [List.map_map, Function.comp_def] using h2
  · simpa only [List.map_map, Function.comp_def] using h3
  · simpa only [List.map_map, Function.comp_def] using h6 h0
  · rw [h7 h0, List.map_map]
    have hl : c.detunings.length = c.numberOfSegments := by
      have := (DrivenControl.constructed_iff c).mp h
      simp [DrivenControl.numberOfSegments, this]
    rw [← hl]
    exact List.map_const
  · simpa only [List.map_map, Function.comp_def] using h8

/-- **C14** (partial) In `str(control)` printed entry times printed factor is the attribute.
Missing from the full statement: controls whose largest detuning is 0 although some detuning is
negative, for which it is false (`C14_detunings_lost`). -/
theorem C14_str_partial (fmt : ℝ → String) (c : DrivenControl ℝ) (h : c.Constructed)
    (hn : 0 < c.numberOfSegments)
    (hdet : (∃ x ∈ c.detunings, 0 < x) ∨ (∀ x ∈ c.detunings, x < 0) ∨
      (∀ x ∈ c.detunings, x = 0)) :
    ∃ (rabi azimuthal detuning duration : List (String × ℝ)) (fr fd ft : ℝ),
      c.toStr fmt = .ok (controlLayout c.name (rabi.map Prod.fst) (azimuthal.map Prod.fst)
        (detuning.map Prod.fst) (duration.map Prod.fst) (fmt fr) (fmt fd) (fmt ft)) ∧
      (∀ entry ∈ rabi ++ azimuthal ++ detuning ++ duration, Prints fmt entry) ∧
      rabi.map (fun p => p.2 * fr) = c.rabiRates ∧
      azimuthal.map (fun p => p.2 * Real.pi) = c.azimuthalAngles ∧
      detuning.map (fun p => p.2 * fd) = c.detunings ∧
      duration.map (fun p => p.2 * ft) = c.durations := by
  obtain ⟨r, a, d, t, fr, fd, ft, h1, h2, h3, h4, h5, h6, h7, h8, h9⟩ := C14_str_exact fmt c h hn
  refine ⟨r, a, d, t, fr, fd, ft, h1, h2, h3, h4, ?_, h9⟩
  by_cases h0 : fd = 0
  · have hz : ∀ x ∈ c.detunings, x = 0 := by
      rcases hdet with ⟨y, hy, hy0⟩ | hdet | hdet
      · have := h6 y hy; linarith
      · have := hdet fd h5; linarith
      · exact hdet
    have hl : c.detunings.length = c.numberOfSegments := by
      have := (DrivenControl.constructed_iff c).mp h
      simp [DrivenControl.numberOfSegments, this]
    rw [h8 h0, List.map_replicate, zero_mul, ← hl]
    exact (List.eq_replicate_of_mem hz).symm
  · exact h7 h0

/-- **C14** The full statement is false: two controls with different detunings print the same
text, whatever the number formatting. -/
theorem C14_detunings_lost (fmt : ℝ → String) :
    ∃ c c' : DrivenControl ℝ, c.Constructed ∧ c'.Constructed ∧ c.detunings ≠ c'.detunings ∧
      c.toStr fmt = c'.toStr fmt := by
  refine ⟨⟨[1, 1], [0, 0], [0, -1], [1, 1], none⟩, ⟨[1, 1], [0, 0], [0, -2], [1, 1], none⟩,
    by rw [DrivenControl.constructed_iff]; simp, by rw [DrivenControl.constructed_iff]; simp,
    by norm_num, ?_⟩
  have h1 : DrivenControl.maximumDetuning (⟨[1, 1], [0, 0], [0, -1], [1, 1], none⟩ :
      DrivenControl ℝ) = .ok 0 := by
    rw [DrivenControl.maximumDetuning, npAmax_ok_iff]; norm_num
  have h2 : DrivenControl.maximumDetuning (⟨[1, 1], [0, 0], [0, -2], [1, 1], none⟩ :
      DrivenControl ℝ) = .ok 0 := by
    rw [DrivenControl.maximumDetuning, npAmax_ok_iff]; norm_num
  have h3 : DrivenControl.maximumRabiRate (⟨[1, 1], [0, 0], [0, -1], [1, 1], none⟩ :
      DrivenControl ℝ) = .ok 1 := by
    rw [DrivenControl.maximumRabiRate, npAmax_ok_iff]; norm_num
  have h4 : DrivenControl.maximumRabiRate (⟨[1, 1], [0, 0], [0, -2], [1, 1], none⟩ :
      DrivenControl ℝ) = .ok 1 := by
    rw [DrivenControl.maximumRabiRate, npAmax_ok_iff]; norm_num
  simp [DrivenControl.toStr, DrivenControl.textData, h1, h2, h3, h4, DrivenControl.duration]

section anyArithmetic
variable {α : Type} [Add α] [Sub α] [Mul α] [Div α] [Neg α] [PyFloat α]

/-- **C15** (any arithmetic) `repr(control)` -/
theorem C15_control_repr (reprArr : List α → String) (reprName : Option String → String)
    (c : DrivenControl α) :
    c.toRepr reprArr reprName = .ok ("DrivenControl(" ++ String.intercalate ","
      ["rabi_rates=" ++ reprArr c.rabiRates, "azimuthal_angles=" ++ reprArr c.azimuthalAngles,
       "detunings=" ++ reprArr c.detunings, "durations=" ++ reprArr c.durations,
       "name=" ++ reprName c.name] ++ ")") := by
  simp [DrivenControl.toRepr, createRepr, joinWith_eq, ← String.append_assoc]

/-- **C15** (any arithmetic) `repr(sequence)` -/
theorem C15_sequence_repr (reprNum : α → String) (reprArr : List α → String)
    (reprName : Option String → String) (s : Sequence α) :
    s.toRepr reprNum reprArr reprName = .ok ("DynamicDecouplingSequence(" ++ String.intercalate ","
      ["duration=" ++ reprNum s.duration, "offsets=" ++ reprArr s.offsets,
       "rabi_rotations=" ++ reprArr s.rabiRotations,
       "azimuthal_angles=" ++ reprArr s.azimuthalAngles,
       "detuning_rotations=" ++ reprArr s.detuningRotations, "name=" ++ reprName s.name] ++ ")") := by
  simp [Sequence.toRepr, createRepr, joinWith_eq, ← String.append_assoc]

end anyArithmetic

/-- **C15** `create_repr_from_attributes` with attribute names: every attribute once, in the order
given; a constant text when there are none. -/
theorem C15_create_repr (className : String) (getRepr : String → String) (names : List String) :
    createRepr (some (className, getRepr)) (some (names.map AttrName.str)) =
      .ok (if names = [] then "No attributes provided for object of class " ++ className
        else className ++ "(" ++
          String.intercalate "," (names.map fun n => n ++ "=" ++ getRepr n) ++ ")") := by
  cases names with
  | nil => rfl
  | cons n ns => simp [createRepr, joinWith_eq, Function.comp_def]

/-- **C15** `create_repr_from_attributes` rejects a missing object, a missing attribute list and a
list with an entry that is not a string, always with `ArgumentsValueError`. -/
theorem C15_create_repr_rejects (inst : Option (String × (String → String)))
    (attributes : Option (List AttrName)) :
    (∃ e, createRepr inst attributes = .error e) ↔
      (inst = none ∨ attributes = none ∨ ∃ l, attributes = some l ∧ AttrName.other ∈ l) := by
  rcases inst with _ | ⟨cn, g⟩
  · simp [createRepr]
  · rcases attributes with _ | l
    · simp [createRepr]
    · cases l with
      | nil => simp [createRepr]
      | cons a as =>
        simp only [createRepr]
        split
        · rename_i h
          simp only [List.any_eq_true, decide_eq_true_eq, exists_eq_right] at h
          simpa using h
        · rename_i h
          simp only [List.any_eq_true, decide_eq_true_eq, exists_eq_right] at h
          simp at h
          simpa using h

theorem C15_create_repr_only_arguments_error (inst : Option (String × (String → String)))
    (attributes : Option (List AttrName)) (e : PyErr) (h : createRepr inst attributes = .error e) :
    e.isArguments = true := by
  unfold createRepr at h
  split at h
  · cases h; rfl
  · split at h
    · cases h; rfl
    · cases h
    · split at h
      · cases h; rfl
      · cases h

theorem foldl_lines (l : List (String × String)) (d : String) :
    l.foldl (fun m kv => m ++ ("\n" ++ kv.1 ++ "=" ++ kv.2)) d =
      String.intercalate "\n" (d :: l.map fun kv => kv.1 ++ "=" ++ kv.2) := by
  induction l generalizing d with
  | nil => simp
  | cons kv l ih =>
    rw [List.foldl_cons, ih, String.intercalate_cons_append, List.map_cons,
      String.intercalate_cons_cons]
    cases l with
    | nil => simp [String.append_assoc]
    | cons a as => simp [String.intercalate_cons_cons, String.append_assoc]

theorem intercalate_cons_append' (sep d : String) (l l' : List String) :
    String.intercalate sep (String.intercalate sep (d :: l) :: l') =
      String.intercalate sep (d :: (l ++ l')) := by
  cases l' with
  | nil => simp
  | cons a as =>
    rw [String.intercalate_cons_cons, ← List.cons_append,
      String.intercalate_append_of_ne_nil (by simp) (by simp)]

/-- **C15** The message of an `ArgumentsValueError`: the description, then one line `name=repr` per
argument, then one per extra. -/
theorem C15_error_message (description : String) (arguments : List (String × String))
    (extras : Option (List (String × String))) :
    argumentsMessage description arguments extras =
      String.intercalate "\n" (description :: (arguments ++ extras.getD []).map
        fun kv => kv.1 ++ "=" ++ kv.2) := by
  cases extras with
  | none => simp [argumentsMessage, foldl_lines]
  | some ex =>
    simp only [argumentsMessage, foldl_lines, intercalate_cons_append', Option.getD_some,
      List.map_append]

/-- The layout of `str(sequence)`. -/
def Spec.sequenceLayout (name : Option String) (duration : String)
    (offsets rabi azimuthal detuning : List String) : String :=
  String.intercalate "\n" ((name.map (· ++ ":")).toList ++
    ["Duration = " ++ duration,
     "Offsets = [" ++ String.intercalate ", " offsets ++ "] x " ++ duration,
     "Rabi Rotations = [" ++ String.intercalate ", " rabi ++ "] x pi",
     "Azimuthal Angles = [" ++ String.intercalate ", " azimuthal ++ "] x pi",
     "Detuning Rotations = [" ++ String.intercalate ", " detuning ++ "] x pi"])

/-- **C56** In `str(sequence)` printed entry times printed factor is the attribute. -/
theorem C56_sequence_str (fmt : ℝ → String) (s : Sequence ℝ) (h : s.Constructed) :
    ∃ offsets rabi azimuthal detuning : List ℝ,
      s.toStr fmt = sequenceLayout s.name (fmt s.duration) (offsets.map fmt) (rabi.map fmt)
        (azimuthal.map fmt) (detuning.map fmt) ∧
      offsets.map (· * s.duration) = s.offsets ∧
      rabi.map (· * Real.pi) = s.rabiRotations ∧
      azimuthal.map (· * Real.pi) = s.azimuthalAngles ∧
      detuning.map (· * Real.pi) = s.detuningRotations := by
  obtain ⟨T, o, r, a, d, n, hs⟩ := h
  have hT := ((C33_accepts_iff_real T o r a d n).mp ⟨s, hs⟩).1
  obtain ⟨rfl, -⟩ := C33_stores_arguments T o r a d n s hs
  have hmap : ∀ (l : List ℝ) (k : ℝ), k ≠ 0 → (l.map (· / k)).map (· * k) = l := by
    intro l k hk
    rw [List.map_map]
    conv_rhs => rw [← List.map_id l]
    exact List.map_congr_left (fun x hx => by simp [hk])
  refine ⟨s.offsets.map (· / s.duration), s.rabiRotations.map (· / Real.pi),
    s.azimuthalAngles.map (· / Real.pi), s.detuningRotations.map (· / Real.pi), ?_,
    hmap _ _ hT.ne', hmap _ _ Real.pi_ne_zero, hmap _ _ Real.pi_ne_zero, hmap _ _ Real.pi_ne_zero⟩
  simp only [Sequence.toStr, Sequence.textData, joinWith_eq, sequenceLayout]
  cases s.name <;> rfl

/-! Non-vacuity -/

example : exampleControl.Constructed ∧ 0 < exampleControl.numberOfSegments ∧
    ∃ x ∈ exampleControl.detunings, 0 < x :=
  ⟨exampleControl_constructed, by simp [DrivenControl.numberOfSegments, exampleControl],
    4, by simp [exampleControl], by norm_num⟩

example : createRepr (some ("C", fun n => "<" ++ n ++ ">")) (some [.str "a", .str "b"]) =
    .ok "C(a=<a>,b=<b>)" := by decide

example : argumentsMessage "bad" [("x", "1"), ("y", "2")] (some [("z", "3")]) =
    "bad\nx=1\ny=2\nz=3" := by decide

end OpenControls
