import Verif.Proofs.RoundedRates
import Verif.Props.Conversion
import Verif.Props.Rounding

/-!
# C77: conversion of a sequence computed in floating-point arithmetic

`r : Rounding` is any floating-point arithmetic with unit roundoff `r.u`, `Fl r` are its numbers.  The
model of `convert_dds_to_driven_control` is run on `Fl r`: every sum, difference, product and quotient in
it is rounded.  `T` is the duration of the sequence.
-/

namespace OpenControls

open Spec Fl

variable {r : Rounding}

/-- **C77.** A sequence that fits on the hardware with time `32 u T` to spare is converted in floating
point: if no rotation is within rounding of the tolerance 1e-8 and the pulses are long compared with the
rounding error of times (`64 u T` at most `κ` times the pulse), the control performs the pulses up to `u/2`
per radian, takes the time `T` up to `6 u T`, and respects the maximum rates and the minimum duration up
to the factor `1 ± κ`. -/
theorem C77_converts (s : Sequence (Fl r)) (hs : s.Constructed) (R D m : Fl r)
    (name : Option String) (hT : 2 / 10 ^ 8 ≤ s.duration.val)
    (hclear : ∀ p ∈ pulseList (s.map val), ClearPulse r.u p)
    (hc : ConvertibleWith (32 * r.u * s.duration.val) R.val D.val m.val (s.map val))
    (κ : ℝ) (hκ0 : 0 ≤ κ) (hκ : κ ≤ 1 / 2)
    (hwide : ∀ p ∈ pulseList (s.map val), Rotates p →
      64 * r.u * s.duration.val ≤ κ * width R.val D.val m.val p) :
    ∃ c, convertDDS s R D m name = .ok c ∧ c.name = name ∧
      PerformsWithin (r.u / 2 * turning (pulseList (s.map val))) c
        (productOf ((pulseList (s.map val)).map effective)) ∧
      |(c.map val).durations.sum - s.duration.val| ≤ 6 * r.u * s.duration.val ∧
      (∀ x ∈ c.rabiRates, 0 ≤ x.val ∧ x.val ≤ (1 + κ) * R.val) ∧
      (∀ x ∈ c.detunings, |x.val| ≤ (1 + κ) * D.val) ∧
      (∀ t ∈ c.durations, (1 - κ) * m.val ≤ t.val) := by
  have hsep := separated hs hclear hc
  obtain ⟨hR, hD, hm, hrabi, hboth, hsort, -⟩ := hc
  have hu := r.u_nonneg
  have hT0 : 0 < s.duration.val := (rounded_facts hs).facts.1
  have hpass : GapsPass m (fwindows s R D m) := by
    intro g hg
    exact .inl ((gaps_chain (fun g => m.val < g.val) (fwindows s R D m)).mpr hsep.gaps g hg)
  obtain ⟨c, hok, h⟩ := (convertDDS_rounded hs R D m name).1
    ⟨hD, hR, hm, hrabi, hboth, hsort, hpass⟩
  rcases h with ⟨h, -⟩ | ⟨-, rfl⟩
  · exact absurd h (not_allClose hs hT hm hsort)
  refine ⟨_, hok, rfl, ?_, ?_, ?_, ?_, ?_⟩
  · refine rounded_evolution hs hclear hR hD hm hrabi (fun p hp hrot => ?_) name
    have hw := width_pos (m := m.val) hR hD (hrabi p hp) hrot
    have h1 := hwide p hp hrot
    have h2 := mul_le_mul_of_nonneg_right hκ hw.le
    linarith
  · rw [totalR_control]
    obtain ⟨h1, h2⟩ := rounded_duration hs hT hm hsort le_rfl (by norm_num) hsep.apart
    have : 0 ≤ r.u * s.duration.val := by positivity
    rw [abs_le]
    constructor <;> linarith
  · intro x hx
    obtain ⟨g, hg, rfl⟩ := List.mem_map.mp hx
    refine ⟨?_, (segment_bounds hs hclear hrabi hR hD hm hsep hκ0 hκ hwide hg).1⟩
    rcases mem_buildSegments (List.mem_filter.mp hg).1 with ⟨y, hy, rfl⟩ | ⟨d, rfl⟩
    · obtain ⟨o, ho, rfl⟩ := List.mem_map.mp hy
      exact pulseSegment_rabi_nonneg (paddedOps_facts hs hrabi hclear ho).2.2 _
    · exact val_lit_zero.ge
  · intro x hx
    obtain ⟨g, hg, rfl⟩ := List.mem_map.mp hx
    exact (segment_bounds hs hclear hrabi hR hD hm hsep hκ0 hκ hwide hg).2.1
  · intro x hx
    obtain ⟨g, hg, rfl⟩ := List.mem_map.mp hx
    exact (segment_bounds hs hclear hrabi hR hD hm hsep hκ0 hκ hwide hg).2.2

/-- **C77**, any accepted sequence: whatever the gaps, the control performs the pulses up to `u/2` per
radian if the pulses are longer than `16 u T`. -/
theorem C77_evolution (s : Sequence (Fl r)) (hs : s.Constructed) (R D m : Fl r)
    (name : Option String) (hT : 2 / 10 ^ 8 ≤ s.duration.val)
    (hclear : ∀ p ∈ pulseList (s.map val), ClearPulse r.u p)
    (hwide : ∀ p ∈ pulseList (s.map val), Rotates p →
      16 * r.u * s.duration.val < width R.val D.val m.val p)
    (c : DrivenControl (Fl r)) (hok : convertDDS s R D m name = .ok c) :
    PerformsWithin (r.u / 2 * turning (pulseList (s.map val))) c
      (productOf ((pulseList (s.map val)).map effective)) := by
  obtain ⟨⟨hD, hR, hm, hrabi, -, hsort, -⟩, h⟩ := (convertDDS_rounded hs R D m name).ok hok
  rcases h with ⟨h, -⟩ | ⟨-, rfl⟩
  · exact absurd h (not_allClose hs hT hm hsort)
  exact rounded_evolution hs hclear hR hD hm hrabi hwide name

/-- **C77**, any accepted sequence: the control of `n` pulses takes the time `T`, up to rounding and the
tolerance 1e-8 of the `n + 1` gaps (cf. C47). -/
theorem C77_duration (s : Sequence (Fl r)) (hs : s.Constructed) (R D m : Fl r)
    (name : Option String) (hT : 2 / 10 ^ 8 ≤ s.duration.val)
    (c : DrivenControl (Fl r)) (hok : convertDDS s R D m name = .ok c) :
    (1 - 5 * r.u) * s.duration.val ≤ (c.map val).durations.sum ∧
    (c.map val).durations.sum ≤ (1 + 6 * r.u) * s.duration.val +
      (1 + r.u) * ((s.offsets.length + 1) * (101 / 10 ^ 10)) := by
  obtain ⟨⟨hD, hR, hm, hrabi, -, hsort, hpass⟩, h⟩ := (convertDDS_rounded hs R D m name).ok hok
  rcases h with ⟨h, -⟩ | ⟨-, rfl⟩
  · exact absurd h (not_allClose hs hT hm hsort)
  rw [totalR_control]
  refine rounded_duration hs hT hm hsort (by norm_num) le_rfl ?_
  have hchain := (gaps_chain (fun g => m.val < g.val ∨ Py.isClose g m = true) _).mp hpass
  exact hchain.imp fun v w h => gap_lower hm h

/-- **C77**, rejection: if pulses (none of them longer than the sequence) are closer than the minimum by
more than the tolerance and the rounding error, the call raises `ArgumentsValueError`. -/
theorem C77_rejects (s : Sequence (Fl r)) (hs : s.Constructed) (R D m : Fl r)
    (name : Option String) (hclear : ∀ p ∈ pulseList (s.map val), ClearPulse r.u p)
    (hw : ∀ p ∈ pulseList (s.map val), width R.val D.val m.val p ≤ s.duration.val)
    (hgap : ¬ EachGap (fun g => m.val - (1 + 8 * r.u) * (1 / 10 ^ 8 + 1 / 10 ^ 5 * m.val) -
      32 * r.u * s.duration.val ≤ g) (windows R.val D.val m.val (s.map val))) :
    ∃ d, convertDDS s R D m name = .error (.arguments d) := by
  refine (convertDDS_rounded hs R D m name).2 ?_
  rintro ⟨hD, hR, hm, hrabi, -, hsort, hpass⟩
  exact hgap (gaps_of_pass hs hclear hrabi hR hD hm hw hpass)

/-! ## Double precision: an instance, and a pulse that is lost -/

/-- the sequence with one pulse of Rabi rotation 3 at time 1 of 2 -/
noncomputable def oneOfTwo : Sequence (Fl Rounding.double) :=
  ⟨round _ 2, [round _ 1], [round _ 3], [round _ 0], [round _ 0], none⟩

theorem rnd_small (n : ℕ) (h : n ≤ 2 ^ 20) : Rounding.double.rnd n = n := Rounding.double.rnd_nat h

theorem oneOfTwo_val : oneOfTwo.map val = single 2 1 3 0 0 := by
  have h1 := rnd_small 1 (by norm_num)
  have h2 := rnd_small 2 (by norm_num)
  have h3 := rnd_small 3 (by norm_num)
  have h0 := rnd_small 0 (by norm_num)
  norm_num at h0 h1 h2 h3
  simp [oneOfTwo, Sequence.map, single, val_round, h0, h1, h2, h3]

theorem oneOfTwo_constructed : oneOfTwo.Constructed := by
  have h1 := rnd_small 1 (by norm_num)
  have h2 := rnd_small 2 (by norm_num)
  norm_num at h1 h2
  refine ⟨round _ 2, [round _ 1], [round _ 3], [round _ 0], [round _ 0], none, ?_⟩
  simp [Sequence.new, checkArguments, val_round, oneOfTwo, h1, h2]

/-- The hypotheses of `C77_converts` and its consequence on this sequence: rates up to 100, no minimum. -/
example : ∃ c, convertDDS oneOfTwo (round _ 100) (round _ 100) (round _ 0) none = .ok c ∧
    PerformsWithin (3 / 2 ^ 54) c (rotation 3 0) ∧
    |(c.map val).durations.sum - 2| ≤ 12 / 2 ^ 53 ∧
    ∀ x ∈ c.rabiRates, x.val ≤ (1 + 1 / 2 ^ 20) * 100 := by
  have h0 : Rounding.double.rnd 0 = 0 := Rounding.double.rnd_zero
  have h100 : Rounding.double.rnd 100 = 100 := by simpa using rnd_small 100 (by norm_num)
  have hT : oneOfTwo.duration.val = 2 := by
    have := rnd_small 2 (by norm_num)
    simpa [oneOfTwo, val_round] using this
  have hu : Rounding.double.u = 1 / 2 ^ 53 := double_u
  have hn : ¬ Negligible 3 := by unfold Negligible; norm_num
  have hn0 : Negligible 0 := by simp [Negligible]
  have hw : width 100 100 0 ⟨1, 3, 0, 0⟩ = 3 / 100 := by
    unfold width; rw [if_pos hn, max_eq_left (by norm_num)]
  have key := C77_converts oneOfTwo oneOfTwo_constructed (round _ 100) (round _ 100) (round _ 0) none
    (by rw [hT]; norm_num) (by
      rw [oneOfTwo_val, hu]
      simp only [pulseList, single, List.zip_cons_cons, List.zipWith_cons_cons, List.zip_nil_left,
        List.zipWith_nil_left, List.mem_singleton, forall_eq, ClearPulse, Clear]
      norm_num) (by
      rw [oneOfTwo_val, hT, hu, val_round, val_round, h100, h0]
      refine ⟨by norm_num, by norm_num, le_rfl, ?_, ?_, by simp [single], ?_⟩
      · simp [pulseList, single]
      · simp [pulseList, single]
      · rw [single_windows (by norm_num) (by norm_num), hw]
        simp only [EachGap, List.isChain_cons_cons]
        norm_num) (1 / 2 ^ 20) (by positivity) (by norm_num) (by
      rw [oneOfTwo_val, hT, hu, val_round, val_round, h100, h0]
      simp only [pulseList, single, List.zip_cons_cons, List.zipWith_cons_cons, List.zip_nil_left,
        List.zipWith_nil_left, List.mem_singleton, forall_eq, hw]
      norm_num)
  obtain ⟨c, h1, -, h2, h3, h4, -, -⟩ := key
  refine ⟨c, h1, fun i j => ?_, ?_, fun x hx => ?_⟩
  · have := h2 i j
    have he : effective ⟨1, 3, 0, 0⟩ = ⟨1, 3, 0, 0⟩ := by unfold effective; rw [if_pos hn]
    have e1 : turning (pulseList (single 2 1 3 0 0)) = 3 := by
      simp only [turning, pulseList, single, List.zip_cons_cons, List.zipWith_cons_cons,
        List.zip_nil_left, List.zipWith_nil_left, List.map_cons, List.map_nil, he]
      norm_num
    have e2 : productOf ((pulseList (single 2 1 3 0 0)).map effective) = rotation 3 0 := by
      rw [← pulseUnitary_xy, ← pulses_single 2 1 3 0 0]
      simp only [pulses, productOf, pulseList, single, List.zip_cons_cons, List.zipWith_cons_cons,
        List.zip_nil_left, List.zipWith_nil_left, List.map_cons, List.map_nil, he]
    rw [oneOfTwo_val, e1, e2, hu] at this
    refine this.trans (le_of_eq ?_)
    norm_num
  · rw [hT, hu] at h3
    refine h3.trans (le_of_eq ?_)
    norm_num
  · have := (h4 x hx).2
    rwa [val_round, h100] at this

theorem double_one_add : Rounding.double.rnd (1 + 3 / 2 ^ 63) = 1 := by
  show Bits.rnd 53 _ = 1
  rw [Bits.rnd_of_nonneg (by positivity)]
  have h := Bits.roundPos_scaled (p := 53) (y := (1 + 3 / 2 ^ 63) * 2 ^ 52) (j := -52) (k := 0)
    (by norm_num) (by norm_num)
  have e : Bits.nearest ((1 + 3 / 2 ^ 63) * 2 ^ 52 / 2 ^ 0) = 2 ^ 52 :=
    Bits.nearest_eq (by norm_num [abs_lt])
  rw [e] at h
  have e2 : ((1 + 3 / 2 ^ 63) * 2 ^ 52 * 2 ^ (-52 : ℤ) : ℝ) = 1 + 3 / 2 ^ 63 := by norm_num
  rw [e2] at h
  rw [h]
  norm_num

theorem double_one_sub : Rounding.double.rnd (1 - 3 / 2 ^ 63) = 1 := by
  show Bits.rnd 53 _ = 1
  rw [Bits.rnd_of_nonneg (by norm_num)]
  have h := Bits.roundPos_scaled (p := 53) (y := (1 - 3 / 2 ^ 63) * 2 ^ 53) (j := -53) (k := 0)
    (by norm_num) (by norm_num)
  have e : Bits.nearest ((1 - 3 / 2 ^ 63) * 2 ^ 53 / 2 ^ 0) = 2 ^ 53 :=
    Bits.nearest_eq (by norm_num [abs_lt])
  rw [e] at h
  have e2 : ((1 - 3 / 2 ^ 63) * 2 ^ 53 * 2 ^ (-53 : ℤ) : ℝ) = 1 - 3 / 2 ^ 63 := by norm_num
  rw [e2] at h
  rw [h]
  norm_num

theorem oneOfTwo_padded : paddedOps oneOfTwo =
    [idleAt (PyFloat.lit 0), ⟨round _ 1, round _ 3, round _ 0, round _ 0⟩, idleAt (round _ 2)] := by
  have h1 : Rounding.double.rnd 1 = 1 := Rounding.double.rnd_one
  have h2 : Rounding.double.rnd 2 = 2 := Rounding.double.rnd_two
  simp [paddedOps, oneOfTwo, operationsOf, padOperations, val_round, h1, h2]

theorem idle_window (t T R D m : Fl r) : fwin T R D m (idleAt t) = (t, t) := by
  have h : halfPulseDuration R D m (idleAt t) = PyFloat.lit 0 := by
    have : Py.isClose (PyFloat.lit 0 : Fl r) (PyFloat.lit 0) = true := by
      rw [isClose_zero_rounded, val_lit_zero, abs_zero]
      exact r.rnd_nonneg (by positivity)
    simp [halfPulseDuration, idleAt, this]
  have e1 : t - PyFloat.lit 0 = t := Fl.ext (by rw [val_sub, val_lit_zero, sub_zero, Fl.rnd_val])
  have e2 : t + PyFloat.lit 0 = t := Fl.ext (by rw [val_add, val_lit_zero, add_zero, Fl.rnd_val])
  have e0 : (idleAt t).offset = t := rfl
  unfold fwin lastWin pulseStartEnd
  rw [h, e0]
  dsimp only
  rw [e1, e2]
  split
  · rename_i h0
    have : t = PyFloat.lit 0 := Fl.ext (by rw [h0, val_lit_zero])
    rw [this]
    congr 1
    exact Fl.ext (by rw [val_add, val_lit_zero, add_zero, r.rnd_zero])
  · split
    · rename_i hT
      split
      · rename_i hg
        rw [gt_iff, hT] at hg
        exact absurd hg (lt_irrefl _)
      · rfl
    · rfl

/-- the windows, in double precision and with a maximum rate of `2 ^ 62`: all are empty -/
theorem oneOfTwo_windows : fwindows oneOfTwo (round _ (1 * 2 ^ 62)) (round _ 1) (round _ 0) =
    [(PyFloat.lit 0, PyFloat.lit 0), (round _ 1, round _ 1), (round _ 2, round _ 2)] := by
  have h0 : Rounding.double.rnd 0 = 0 := Rounding.double.rnd_zero
  have h1 : Rounding.double.rnd 1 = 1 := Rounding.double.rnd_one
  have h2 : Rounding.double.rnd 2 = 2 := Rounding.double.rnd_two
  have h3 : Rounding.double.rnd 3 = 3 := by simpa using rnd_small 3 (by norm_num)
  have hR : Rounding.double.rnd (1 * 2 ^ 62) = 1 * 2 ^ 62 := by
    rw [Rounding.rnd_mul_pow, h1]
  have hh : (halfPulseDuration (round _ (1 * 2 ^ 62)) (round _ 1) (round _ 0)
      (⟨round _ 1, round _ 3, round _ 0, round _ 0⟩ : Operation (Fl Rounding.double))).val =
      3 / 2 ^ 63 := by
    have hc : Py.isClose (round Rounding.double 3) (PyFloat.lit 0) = false := by
      rw [← Bool.not_eq_true, isClose_zero_rounded, val_round, h3]
      have := (tolerance_bounds (r := Rounding.double)).2
      rw [double_u] at this
      norm_num at this ⊢
      linarith
    unfold halfPulseDuration
    dsimp only
    rw [hc]
    simp only [Bool.not_false, if_true]
    rw [half_mul_rounded, val_pyMax, val_div, val_round, val_round, val_round, h3, hR, h0, one_mul,
      Rounding.rnd_div_pow, h3, max_eq_left (by positivity)]
    norm_num
  have ho : oneOfTwo.duration = round _ 2 := rfl
  have hne1 : (round Rounding.double 1).val ≠ 0 := by rw [val_round, h1]; norm_num
  have hne2 : (round Rounding.double 1).val ≠ (round Rounding.double 2).val := by
    rw [val_round, val_round, h1, h2]; norm_num
  unfold fwindows
  rw [oneOfTwo_padded, List.map_cons, List.map_cons, List.map_cons, List.map_nil, idle_window,
    idle_window, ho]
  congr 2
  unfold fwin
  rw [if_neg hne1, if_neg hne2]
  unfold pulseStartEnd
  dsimp only
  congr 1
  · exact Fl.ext (by rw [val_sub, hh, val_round, h1, double_one_sub])
  · exact Fl.ext (by rw [val_add, hh, val_round, h1, double_one_add])

theorem evolution_idle (gs : List (Segment (Fl r))) (h : ∀ g ∈ gs, g.rabi.val = 0 ∧ g.detuning.val = 0)
    (name : Option String) : evolution ((ofRounded (takesTime gs) name).map val) = 1 := by
  have h1 : ∀ g ∈ gs, segEvolution g = 1 := by
    intro g hg
    unfold segEvolution
    obtain ⟨h1, h2⟩ := h g hg
    rw [h1, h2]
    exact segmentUnitary_idle _ _
  clear h
  induction gs with
  | nil => rfl
  | cons g gs ih =>
    rw [evolution_takesTime_cons fun _ => h1 g (by simp), h1 g (by simp), mul_one]
    exact ih fun x hx => h1 x (by simp [hx])

/-- **C77** fails for pulses shorter than the rounding error of times: in double precision, a pulse of 3
radians at time 1 of 2 driven at the rate `2 ^ 62` is accepted, and the control does nothing: the start
and the end of the pulse round to the same time, and the code silently drops the pulse.  With exact
arithmetic (`C49_evolution_exact`) the same sequence is carried out. -/
theorem C77_lost_pulse : ∃ (s : Sequence (Fl Rounding.double)) (R D m : Fl Rounding.double)
    (c : DrivenControl (Fl Rounding.double)), s.Constructed ∧
    Convertible R.val D.val m.val (s.map val) ∧ convertDDS s R D m none = .ok c ∧
    evolution (c.map val) = 1 ∧ pulses (s.map val) = rotation 3 0 ∧
    ¬ PerformsWithin (1 / 2) c (pulses (s.map val)) := by
  have h0 : Rounding.double.rnd 0 = 0 := Rounding.double.rnd_zero
  have h1 : Rounding.double.rnd 1 = 1 := Rounding.double.rnd_one
  have h2 : Rounding.double.rnd 2 = 2 := Rounding.double.rnd_two
  have hR : Rounding.double.rnd (1 * 2 ^ 62) = 2 ^ 62 := by
    rw [Rounding.rnd_mul_pow, h1, one_mul]
  have hn : ¬ Negligible 3 := by unfold Negligible; norm_num
  have hw : width (2 ^ 62) 1 0 ⟨1, 3, 0, 0⟩ = 3 / 2 ^ 62 := by
    unfold width; rw [if_pos hn, max_eq_left (by positivity)]
  have hconv : Convertible (2 ^ 62) 1 0 (single 2 1 3 0 0) := by
    refine ⟨by norm_num, by norm_num, le_rfl, ?_, ?_, by simp [single], ?_⟩
    · simp [pulseList, single]
    · simp [pulseList, single]
    · rw [single_windows (by norm_num) (by norm_num), hw]
      simp only [EachGap, List.isChain_cons_cons]
      norm_num
  have hp : pulses (single 2 1 3 0 0) = rotation 3 0 := by rw [pulses_single, pulseUnitary_xy]
  have hwin := oneOfTwo_windows
  obtain ⟨c, hok, h⟩ := (convertDDS_rounded oneOfTwo_constructed (round _ (1 * 2 ^ 62)) (round _ 1)
    (round _ 0) none).1 (by
      rw [oneOfTwo_val, hwin, val_round, val_round, val_round, h0, h1, hR]
      refine ⟨by norm_num, by norm_num, le_rfl, hconv.2.2.2.1, hconv.2.2.2.2.1, hconv.2.2.2.2.2.1, ?_⟩
      intro g hg
      left
      simp only [gapDurations, List.mem_cons, List.not_mem_nil, or_false] at hg
      rcases hg with rfl | rfl
      · rw [val_sub, val_lit_zero, val_round, val_round, h0, h1, sub_zero, h1]; norm_num
      · rw [val_sub, val_round, val_round, val_round, h0, h1, h2]
        rw [show (2 : ℝ) - 1 = 1 by norm_num, h1]; norm_num)
  have hev : evolution (c.map val) = 1 := by
    rcases h with ⟨-, rfl⟩ | ⟨-, rfl⟩
    · show (1 : M2) * segmentUnitary _ _ _ _ = 1
      rw [val_lit_zero, segmentUnitary_idle, one_mul]
    · refine evolution_idle _ (fun g hg => ?_) none
      rcases mem_buildSegments hg with ⟨x, hx, rfl⟩ | ⟨d, rfl⟩
      · have hx2 : x.2 ∈ fwindows oneOfTwo (round _ (1 * 2 ^ 62)) (round _ 1) (round _ 0) := by
          obtain ⟨o, ho, rfl⟩ := List.mem_map.mp hx
          exact List.mem_map_of_mem ho
        rw [hwin] at hx2
        have hz : Py.gt (x.2.2 - x.2.1) (PyFloat.lit 0) = false := by
          rw [← Bool.not_eq_true, gt_iff, val_sub, val_lit_zero]
          simp only [List.mem_cons, List.not_mem_nil, or_false] at hx2
          rcases hx2 with e | e | e <;> rw [e, sub_self, h0] <;> exact lt_irrefl _
        unfold pulseSegment
        dsimp only
        rw [hz]
        exact ⟨val_lit_zero, val_lit_zero⟩
      · exact ⟨val_lit_zero, val_lit_zero⟩
  refine ⟨oneOfTwo, _, _, _, c, oneOfTwo_constructed, ?_, hok, hev, ?_, ?_⟩
  · rw [oneOfTwo_val, val_round, val_round, val_round, h0, h1, hR]; exact hconv
  · rw [oneOfTwo_val, hp]
  · rw [oneOfTwo_val, hp]
    intro hper
    have h3 := hper 0 0
    rw [hev, rotation_eq, ← su2_one] at h3
    have hcos : Real.cos (3 / 2) < 1 / 2 := by
      rw [← Real.cos_pi_div_three]
      have := Real.pi_lt_d2
      have := Real.pi_gt_three
      exact Real.cos_lt_cos_of_nonneg_of_le_pi (by positivity) (by linarith) (by linarith)
    have h4 := (Complex.re_le_norm _).trans h3
    simp [su2] at h4
    linarith

end OpenControls
