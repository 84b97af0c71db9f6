import Verif.Proofs.PrintedRounded

/-!
# C118: what is printed can be typed in again
-/

namespace OpenControls

open Spec Fl PyFloat Py Printed

open scoped Matrix.Norms.L2Operator

section anyArithmetic

variable {α : Type} [Add α] [Sub α] [Mul α] [Div α] [Neg α] [PyFloat α]

/-- **C118** (any arithmetic) `str(control)`, for a formatting of numbers that can be read back, is the text of the
attributes divided and multiplied by the maxima, pi and the duration: typing it in calls the constructor with these,
whatever the name of the control is. -/
theorem C118_control_text {fmt : α → String} {parse : List Char → Option α}
    (hn : ∀ x, isNumber (fmt x).toList = true) (hr : ∀ x, parse (fmt x).toList = some x)
    (h0 : parse ['0'] = some (lit 0)) (c : DrivenControl α) {m d : α} (hm : c.maximumRabiRate = .ok m)
    (hd : c.maximumDetuning = .ok d) (name : Option String) :
    ∃ text, c.toStr fmt = .ok text ∧ retypeControl parse name text.toList = some (DrivenControl.new
      (c.durations.map fun t => t / c.duration * c.duration)
      (some (c.rabiRates.map fun x => (if Py.ne m (lit 0) then x / m else lit 0) * m))
      (some (c.azimuthalAngles.map fun x => x / PyFloat.pi * PyFloat.pi))
      (some (c.detunings.map fun x => (if Py.ne d (lit 0) then x / d else lit 0) * d)) name) :=
  retype_control_text hn hr h0 c hm hd name

/-- **C118** (any arithmetic) The same for `str(sequence)`. -/
theorem C118_sequence_text {fmt : α → String} {parse : List Char → Option α}
    (hn : ∀ x, isNumber (fmt x).toList = true) (hr : ∀ x, parse (fmt x).toList = some x)
    (s : Sequence α) (name : Option String) :
    retypeSequence parse name (s.toStr fmt).toList = some (Sequence.new s.duration
      (s.offsets.map fun t => t / s.duration * s.duration)
      (s.rabiRotations.map fun x => x / PyFloat.pi * PyFloat.pi)
      (s.azimuthalAngles.map fun x => x / PyFloat.pi * PyFloat.pi)
      (s.detuningRotations.map fun x => x / PyFloat.pi * PyFloat.pi) name) :=
  retype_sequence_text hn hr s name

end anyArithmetic

variable {p : ℕ} {hp : 20 ≤ p} {choose : ℝ → ℕ × ℤ}

/-- **C118.** A printed control with at least one segment, typed in again with the products rounded, is accepted, and
its attributes are those of the control up to relative errors `5 u`; the evolution it generates is that of the control up
to `5 u` times the sum of `τ (Ω (1 + |φ|) + |Δ|)`.  Printing fails to show the detunings when the largest is 0 and
another is negative (`C14_detunings_lost`), so this is excluded. -/
theorem C118_control (hc : Prints (Rounding.bits p hp).rnd choose) (c : DrivenControl (Fl (Rounding.bits p hp)))
    (h : c.Constructed) (hn : 0 < c.numberOfSegments) (hn' : 2 * c.numberOfSegments < 2 ^ p)
    (hdet : (∃ x ∈ c.detunings, 0 < x.val) ∨ (∀ x ∈ c.detunings, x.val < 0) ∨ ∀ x ∈ c.detunings, x.val = 0) :
    ∃ text c', c.toStr (flText choose) = .ok text ∧
      retypeControl (readFl (Rounding.bits p hp)) c.name text.toList = some (.ok c') ∧ c'.name = c.name ∧
      EntriesNear (5 / 2 ^ p) (c'.map val).rabiRates (c.map val).rabiRates ∧
      EntriesNear (5 / 2 ^ p) (c'.map val).azimuthalAngles (c.map val).azimuthalAngles ∧
      EntriesNear (5 / 2 ^ p) (c'.map val).detunings (c.map val).detunings ∧
      EntriesNear (5 / 2 ^ p) (c'.map val).durations (c.map val).durations ∧
      ‖evolution (c'.map val) - evolution (c.map val)‖ ≤ 5 / 2 ^ p * printExposure (c.map val) := by
  have hu : (5 : ℝ) / 2 ^ p = 5 * (Rounding.bits p hp).u := by
    show _ = 5 * (1 / 2 ^ p); ring
  rw [hu]
  obtain ⟨hpos, hnn⟩ := constructed_rounded h
  obtain ⟨l1, l2, l3⟩ : c.rabiRates.length = c.durations.length ∧ c.azimuthalAngles.length = c.durations.length ∧
      c.detunings.length = c.durations.length := by
    obtain ⟨k1, k2, k3, k4⟩ := h.lengths
    omega
  have hn2 : 0 < c.rabiRates.length := hn
  obtain ⟨m, hm, hm1, hm2⟩ := npAmax_rounded (l := c.rabiRates) (List.ne_nil_of_length_pos hn2)
  obtain ⟨d, hd, hd1, hd2⟩ := npAmax_rounded (l := c.detunings) (List.ne_nil_of_length_pos (by omega))
  have hT : c.duration.val ≠ 0 := (duration_pos c h (List.ne_nil_of_length_pos (by omega)) (by
    have e : 2 * (c.durations.length : ℝ) < 2 ^ p := by
      rw [← l1]
      exact_mod_cast hn'
    show 2 * ((c.durations.length : ℝ) * (1 / 2 ^ p)) < 1
    rw [← mul_assoc, mul_one_div, div_lt_one (by positivity)]
    exact e)).ne'
  obtain ⟨text, ht, hr⟩ := C118_control_text (flText_number hc) (flText_read hc) readFl_zero c hm hd c.name
  have e1 : List.Forall₂ (Rel (Rounding.bits p hp) 2)
      ((c.rabiRates.map fun x => (if Py.ne m (lit 0) then x / m else lit 0) * m).map val) (c.rabiRates.map val) := by
    rw [List.map_map]
    exact forall₂_map _ _ _ fun x hx => shown_rel x fun h0 => le_antisymm (h0 ▸ hm2 x hx) (hnn x hx)
  have e2 : List.Forall₂ (Rel (Rounding.bits p hp) 2)
      ((c.azimuthalAngles.map fun x => x / PyFloat.pi * PyFloat.pi).map val) (c.azimuthalAngles.map val) := by
    rw [List.map_map]
    exact forall₂_map _ _ _ fun x _ => entry_rel pi_ne_zero_val x
  have e3 : List.Forall₂ (Rel (Rounding.bits p hp) 2)
      ((c.detunings.map fun x => (if Py.ne d (lit 0) then x / d else lit 0) * d).map val) (c.detunings.map val) := by
    rw [List.map_map]
    refine forall₂_map _ _ _ fun x hx => shown_rel x fun h0 => ?_
    rcases hdet with ⟨y, hy, hy0⟩ | hdet | hdet
    · have := hd2 y hy; linarith
    · have := hdet d hd1; linarith
    · exact hdet x hx
  have e4 : List.Forall₂ (Rel (Rounding.bits p hp) 2)
      ((c.durations.map fun x => x / c.duration * c.duration).map val) (c.durations.map val) := by
    rw [List.map_map]
    exact forall₂_map _ _ _ fun x _ => entry_rel hT x
  refine ⟨text, _, ht, hr.trans (congrArg some (new_of_rounded ?_ ?_ ?_ ?_ ?_)), rfl, near_of_rel e1, near_of_rel e2,
    near_of_rel e3, near_of_rel e4, controlEvolution_rel e1 e2 e3 e4 ?_ ?_⟩
  · intro t ht
    obtain ⟨x, hx, rfl⟩ := List.mem_map.mp ht
    exact (entry_rel hT x).pos (hpos x hx)
  · simp [l1]
  · simp [l2]
  · simp [l3]
  · intro t ht
    obtain ⟨x, hx, rfl⟩ := List.mem_map.mp ht
    exact (shown_rel x fun h0 => le_antisymm (h0 ▸ hm2 x hx) (hnn x hx)).nonneg (hnn x hx)
  · intro t ht
    obtain ⟨x, hx, rfl⟩ := List.mem_map.mp ht
    exact hnn x hx
  · intro t ht
    obtain ⟨x, hx, rfl⟩ := List.mem_map.mp ht
    exact (hpos x hx).le

/-- **C118.** If the largest detuning is 0, the control typed in has no detunings at all, although the printed one may
have negative ones. -/
theorem C118_detunings_lost (hc : Prints (Rounding.bits p hp).rnd choose) (c : DrivenControl (Fl (Rounding.bits p hp)))
    (h : c.Constructed) (hn' : 2 * c.numberOfSegments < 2 ^ p) (h0 : ∃ x ∈ c.detunings, x.val = 0)
    (hmax : ∀ x ∈ c.detunings, x.val ≤ 0) :
    ∃ text c', c.toStr (flText choose) = .ok text ∧
      retypeControl (readFl (Rounding.bits p hp)) c.name text.toList = some (.ok c') ∧
      ∀ x ∈ c'.detunings, x.val = 0 := by
  obtain ⟨hpos, hnn⟩ := constructed_rounded h
  obtain ⟨l1, l2, l3⟩ : c.rabiRates.length = c.durations.length ∧ c.azimuthalAngles.length = c.durations.length ∧
      c.detunings.length = c.durations.length := by
    obtain ⟨k1, k2, k3, k4⟩ := h.lengths
    omega
  obtain ⟨x0, hx0, hx1⟩ := h0
  have hl : 0 < c.detunings.length := List.length_pos_of_mem hx0
  obtain ⟨m, hm, hm1, hm2⟩ := npAmax_rounded (l := c.rabiRates) (List.ne_nil_of_length_pos (by omega))
  obtain ⟨d, hd, hd1, hd2⟩ := npAmax_rounded (l := c.detunings) (List.ne_nil_of_mem hx0)
  have hd0 : d.val = 0 := le_antisymm (hmax d hd1) (hx1 ▸ hd2 x0 hx0)
  have hT : c.duration.val ≠ 0 := (duration_pos c h (List.ne_nil_of_length_pos (by omega)) (by
    have e : 2 * (c.durations.length : ℝ) < 2 ^ p := by
      rw [← l1]
      exact_mod_cast hn'
    show 2 * ((c.durations.length : ℝ) * (1 / 2 ^ p)) < 1
    rw [← mul_assoc, mul_one_div, div_lt_one (by positivity)]
    exact e)).ne'
  obtain ⟨text, ht, hr⟩ := C118_control_text (flText_number hc) (flText_read hc) readFl_zero c hm hd c.name
  refine ⟨text, _, ht, hr.trans (congrArg some (new_of_rounded ?_ ?_ ?_ ?_ ?_)), ?_⟩
  · intro t ht
    obtain ⟨x, hx, rfl⟩ := List.mem_map.mp ht
    exact (entry_rel hT x).pos (hpos x hx)
  · simp [l1]
  · simp [l2]
  · simp [l3]
  · intro t ht
    obtain ⟨x, hx, rfl⟩ := List.mem_map.mp ht
    exact (shown_rel x fun h0 => le_antisymm (h0 ▸ hm2 x hx) (hnn x hx)).nonneg (hnn x hx)
  · intro t ht
    obtain ⟨x, hx, rfl⟩ := List.mem_map.mp ht
    rw [if_neg (by simp [hd0]), val_mul, hd0, mul_zero, Rounding.rnd_zero]

/-- **C118.** A printed sequence, typed in again with the products rounded, is accepted: it has the same duration, its
offsets and rotations are those of the sequence up to relative errors `5 u`, and the product of its pulses is that of the
sequence up to `3 u` times the sum of `|ω| (1 + |φ|) + |δ|`. -/
theorem C118_sequence (hc : Prints (Rounding.bits p hp).rnd choose) (s : Sequence (Fl (Rounding.bits p hp)))
    (h : s.Constructed) :
    ∃ s', retypeSequence (readFl (Rounding.bits p hp)) s.name (s.toStr (flText choose)).toList = some (.ok s') ∧
      s'.name = s.name ∧ s'.duration = s.duration ∧
      EntriesNear (5 / 2 ^ p) (s'.map val).offsets (s.map val).offsets ∧
      EntriesNear (5 / 2 ^ p) (s'.map val).rabiRotations (s.map val).rabiRotations ∧
      EntriesNear (5 / 2 ^ p) (s'.map val).azimuthalAngles (s.map val).azimuthalAngles ∧
      EntriesNear (5 / 2 ^ p) (s'.map val).detuningRotations (s.map val).detuningRotations ∧
      ‖pulseProduct (s'.map val).rabiRotations (s'.map val).azimuthalAngles (s'.map val).detuningRotations -
          pulseProduct (s.map val).rabiRotations (s.map val).azimuthalAngles (s.map val).detuningRotations‖ ≤
        3 / 2 ^ p * pulseExposure (s.map val).rabiRotations (s.map val).azimuthalAngles
          (s.map val).detuningRotations := by
  have hu : (5 : ℝ) / 2 ^ p = 5 * (Rounding.bits p hp).u := by
    show _ = 5 * (1 / 2 ^ p); ring
  have hu' : (3 : ℝ) / 2 ^ p = 3 * (Rounding.bits p hp).u := by
    show _ = 3 * (1 / 2 ^ p); ring
  rw [hu, hu']
  obtain ⟨hT, hb, l1, l2, l3⟩ := (rounded_facts h).facts
  have hT' : 0 < s.duration.val := hT
  have hpi : ∀ l : List (Fl (Rounding.bits p hp)), List.Forall₂ (Rel (Rounding.bits p hp) 2)
      ((l.map fun x => x / PyFloat.pi * PyFloat.pi).map val) (l.map val) := by
    intro l
    rw [List.map_map]
    exact forall₂_map _ _ _ fun x _ => entry_rel pi_ne_zero_val x
  have e0 : List.Forall₂ (Rel (Rounding.bits p hp) 2)
      ((s.offsets.map fun x => x / s.duration * s.duration).map val) (s.offsets.map val) := by
    rw [List.map_map]
    exact forall₂_map _ _ _ fun x _ => entry_rel hT'.ne' x
  refine ⟨⟨s.duration, s.offsets.map fun x => x / s.duration * s.duration,
    s.rabiRotations.map fun x => x / PyFloat.pi * PyFloat.pi, s.azimuthalAngles.map fun x => x / PyFloat.pi * PyFloat.pi,
    s.detuningRotations.map fun x => x / PyFloat.pi * PyFloat.pi, s.name⟩, (C118_sequence_text (flText_number hc) (flText_read hc) s s.name).trans (congrArg some ?_), rfl, rfl,
    near_of_rel e0, near_of_rel (hpi _), near_of_rel (hpi _), near_of_rel (hpi _),
    pulseProduct_rel (hpi _) (hpi _) (hpi _)⟩
  rw [Sequence.new_eq, if_pos, if_pos, if_pos, if_pos, if_pos]
  · simpa [Sequence.map] using l3
  · simpa [Sequence.map] using l2
  · simpa [Sequence.map] using l1
  · rw [List.all_eq_true]
    intro t ht
    obtain ⟨x, hx, rfl⟩ := List.mem_map.mp ht
    have hb' := hb x.val (List.mem_map_of_mem hx)
    obtain ⟨k1, k2⟩ := offset_range hT' hb'.1 hb'.2
    simp only [Bool.and_eq_true, ge_iff]
    exact ⟨by simpa using k1, k2⟩
  · simpa using hT'

local notation "bits53" => Rounding.bits 53 (by norm_num)

/-- a control with a name of two lines, detunings of both signs and an idle segment, in double precision -/
example : ∃ choose, Prints (bits53).rnd choose ∧
    ∃ (c : DrivenControl (Fl (bits53))) (text : String) (c' : DrivenControl (Fl (bits53))),
      c.Constructed ∧ c.name = some "two\nlines" ∧ c.toStr (flText choose) = .ok text ∧
      retypeControl (readFl (bits53)) c.name text.toList = some (.ok c') ∧ c'.durations.length = 2 ∧
      EntriesNear (5 / 2 ^ 53) (c'.map val).detunings [1, -2] := by
  obtain ⟨choose, hc⟩ := C117_exists (C117_bits 53 (by norm_num))
  have v : ∀ n : ℕ, n ≤ 3 → (bits53).rnd n = n := fun n hn =>
    Rounding.rnd_nat _ (by omega)
  have v0 := v 0 (by norm_num); have v1 := v 1 (by norm_num); have v2 := v 2 (by norm_num); have v3 := v 3 (by norm_num)
  push_cast at v0 v1 v2 v3
  have hcon : (⟨[lit 3, lit 0], [lit 1, lit 0], [lit 1, -lit 2], [lit 1, lit 2], some "two\nlines"⟩ :
      DrivenControl (Fl (bits53))).Constructed :=
    ⟨_, _, _, _, _, new_of_rounded (by simp [v1, v2]) rfl rfl rfl (by simp [v3, v0])⟩
  obtain ⟨text, c', h1, h2, -, -, -, h5, h6, -⟩ := C118_control hc _ hcon (by simp [DrivenControl.numberOfSegments])
    (by simp [DrivenControl.numberOfSegments]) (Or.inl ⟨lit 1, by simp, by simp [v1]⟩)
  refine ⟨choose, hc, _, text, c', hcon, rfl, h1, h2, ?_, ?_⟩
  · have := h6.length_eq
    simpa [DrivenControl.map] using this
  · simpa [DrivenControl.map, v1, v2] using h5

/-- a sequence of two pulses with pre/post rotations, in double precision -/
example : ∃ choose, Prints (bits53).rnd choose ∧
    ∃ (s s' : Sequence (Fl (bits53))),
      s.Constructed ∧ retypeSequence (readFl (bits53)) s.name (s.toStr (flText choose)).toList = some (.ok s') ∧
      EntriesNear (5 / 2 ^ 53) (s'.map val).offsets [0, 1] := by
  obtain ⟨choose, hc⟩ := C117_exists (C117_bits 53 (by norm_num))
  have v : ∀ n : ℕ, n ≤ 3 → (bits53).rnd n = n := fun n hn =>
    Rounding.rnd_nat _ (by omega)
  have v0 := v 0 (by norm_num); have v1 := v 1 (by norm_num); have v3 := v 3 (by norm_num)
  push_cast at v0 v1 v3
  have hcon : (⟨lit 3, [lit 0, lit 1], [lit 1, lit 3], [lit 1, lit 0], [lit 0, lit 1], none⟩ :
      Sequence (Fl (bits53))).Constructed := by
    refine ⟨lit 3, [lit 0, lit 1], [lit 1, lit 3], [lit 1, lit 0], [lit 0, lit 1], none, ?_⟩
    rw [Sequence.new_eq, if_pos, if_pos, if_pos, if_pos, if_pos]
    all_goals simp [v1, v3]
  obtain ⟨s', h1, -, -, h2, -⟩ := C118_sequence hc _ hcon
  refine ⟨choose, hc, _, s', hcon, h1, ?_⟩
  simpa [Sequence.map, v0, v1] using h2

end OpenControls
