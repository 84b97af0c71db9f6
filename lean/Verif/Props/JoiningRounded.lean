import Verif.Proofs.JoiningRounded

/-!
# C130 in floating-point arithmetic

`α` is any arithmetic, without laws; `Fl r` are the numbers of a floating-point arithmetic `r` (`Verif/Rounding.lean`) and `val`
is the real number a floating-point number stands for.
-/

namespace OpenControls

open Spec PyFloat Py

section
variable {α : Type} [Add α] [Sub α] [Mul α] [Div α] [Neg α] [PyFloat α]

/-- **C130** In every arithmetic any two controls can be joined.  The arrays, amplitudes, angles and exported values of the joined
control are those of the two, one after the other, and its boundary times begin with those of the first. -/
theorem C130_control_any (c c' : DrivenControl α) (hc : c.Constructed) (hc' : c'.Constructed) (name : Option String) :
    ∃ j, joinedControl c c' name = .ok j ∧ j.name = name ∧ j.rabiRates = c.rabiRates ++ c'.rabiRates ∧
      j.azimuthalAngles = c.azimuthalAngles ++ c'.azimuthalAngles ∧ j.detunings = c.detunings ++ c'.detunings ∧
      j.durations = c.durations ++ c'.durations ∧ j.numberOfSegments = c.numberOfSegments + c'.numberOfSegments ∧
      j.amplitudeX = c.amplitudeX ++ c'.amplitudeX ∧ j.amplitudeY = c.amplitudeY ++ c'.amplitudeY ∧
      j.angles = c.angles ++ c'.angles ∧ c.times <+: j.times := by
  obtain ⟨-, -, h2, h3, h4⟩ := constructed_checks hc
  refine ⟨_, joinedControl_any hc hc' name, rfl, rfl, rfl, rfl, rfl, ?_, ?_, ?_, ?_, ?_⟩
  · simp [DrivenControl.numberOfSegments, appended]
  · exact zipWith_joined _ _ _ _ _ (by omega)
  · exact zipWith_joined _ _ _ _ _ (by omega)
  · simp only [DrivenControl.angles, DrivenControl.amplitudes, DrivenControl.amplitudeX, DrivenControl.amplitudeY, appended]
    rw [zipWith_joined _ _ _ _ _ (show c.rabiRates.length = c.azimuthalAngles.length by omega),
      zipWith_joined _ _ _ _ _ (show c.rabiRates.length = c.azimuthalAngles.length by omega),
      zipWith_joined _ _ _ _ _ (by simp), zipWith_joined _ _ _ _ _ (by simp; omega), zipWith_joined _ _ _ _ _ (by simp; omega)]
  · obtain ⟨m, hm⟩ := npCumsum_extends c.durations c'.durations
    exact ⟨m, by simp [DrivenControl.times, appended, hm]⟩

end

section
variable {r : Rounding}

/-- **C130** In floating-point arithmetic the duration of the joined control is the sum of the two durations up to a relative error
of `6 n u`, where `n` is the number of its segments. -/
theorem C130_duration_rounded (c c' : DrivenControl (Fl r)) (hc : c.Constructed) (hc' : c'.Constructed) (name : Option String)
    (j : DrivenControl (Fl r)) (hj : joinedControl c c' name = .ok j) (hn : j.numberOfSegments * r.u ≤ 1 / 100) :
    |j.duration.val - (c.duration.val + c'.duration.val)| ≤
      6 * j.numberOfSegments * r.u * (c.duration.val + c'.duration.val) := by
  have hJ : j.Constructed := ⟨_, _, _, _, _, hj⟩
  rw [joinedControl_any hc hc', Except.ok.injEq] at hj
  have e1 : j.numberOfSegments = c.numberOfSegments + c'.numberOfSegments := by
    subst hj; simp [DrivenControl.numberOfSegments, appended]
  have e2 : (j.durations.map Fl.val).sum = (c.durations.map Fl.val).sum + (c'.durations.map Fl.val).sum := by
    subst hj; simp [appended]
  have hu := r.u_nonneg
  have hs : ∀ c : DrivenControl (Fl r), c.Constructed → 0 ≤ (c.durations.map Fl.val).sum := by
    intro c hc
    apply List.sum_nonneg
    intro x hx
    obtain ⟨y, hy, rfl⟩ := List.mem_map.mp hx
    exact ((constructed_rounded hc).1 y hy).le
  have hS := hs c hc
  have hS' := hs c' hc'
  have hx : ((c.numberOfSegments : ℝ) + c'.numberOfSegments) * r.u ≤ 1 / 100 := by
    rw [e1] at hn; exact_mod_cast hn
  have hN : 0 ≤ (c.numberOfSegments : ℝ) * r.u := by positivity
  have hN' : 0 ≤ (c'.numberOfSegments : ℝ) * r.u := by positivity
  have a := ((C86_times c hc).2.2 (by linarith)).1
  have a' := ((C86_times c' hc').2.2 (by linarith)).1
  have b := ((C86_times j hJ).2.2 hn).1
  rw [e2, e1] at b
  rw [e1]
  push_cast at b ⊢
  generalize (c.durations.map Fl.val).sum = S at *
  generalize (c'.durations.map Fl.val).sum = S' at *
  generalize (c.numberOfSegments : ℝ) = N at *
  generalize (c'.numberOfSegments : ℝ) = N' at *
  generalize r.u = u at *
  rw [abs_le] at a a' b ⊢
  have p1 : 0 ≤ N * u * S := mul_nonneg hN hS
  have p2 : 0 ≤ N' * u * S := mul_nonneg hN' hS
  have p3 : 0 ≤ N * u * S' := mul_nonneg hN hS'
  have p4 : 0 ≤ N' * u * S' := mul_nonneg hN' hS'
  have q1 : N * u * S ≤ 1 / 100 * S := mul_le_mul_of_nonneg_right (by linarith) hS
  have q2 : N' * u * S' ≤ 1 / 100 * S' := mul_le_mul_of_nonneg_right (by linarith) hS'
  have k1 : 0 ≤ (N + N') * u * (6 * (c.duration.val + c'.duration.val) - 4 * (S + S')) :=
    mul_nonneg (by linarith) (by linarith [a.1, a'.1])
  constructor <;> linarith [a.1, a.2, a'.1, a'.2, b.1, b.2]

/-- **C130** In floating-point arithmetic too any two sequences can be joined: rounding moves no pulse out of the joined sequence.
The pulses of the second sequence are off by at most `u` times their new offset; their order is kept, and they stay apart if they
were apart by more than `2 u` times the whole duration. -/
theorem C130_sequence_rounded (s s' : Sequence (Fl r)) (hs : s.Constructed) (hs' : s'.Constructed) (name : Option String) :
    ∃ j, joinedSequence s s' name = .ok j ∧ j.rabiRotations = s.rabiRotations ++ s'.rabiRotations ∧
      j.azimuthalAngles = s.azimuthalAngles ++ s'.azimuthalAngles ∧
      j.detuningRotations = s.detuningRotations ++ s'.detuningRotations ∧
      |j.duration.val - (s.duration.val + s'.duration.val)| ≤ r.u * (s.duration.val + s'.duration.val) ∧
      ∃ moved : Fl r → Fl r, j.offsets = s.offsets ++ s'.offsets.map moved ∧
        ∀ t ∈ s'.offsets, |(moved t).val - (s.duration.val + t.val)| ≤ r.u * (s.duration.val + t.val) ∧
          s.duration.val ≤ (moved t).val ∧ (moved t).val ≤ j.duration.val ∧
          ∀ t' ∈ s'.offsets, (t.val ≤ t'.val → (moved t).val ≤ (moved t').val) ∧
            (2 * r.u * (s.duration.val + s'.duration.val) < t'.val - t.val → (moved t).val < (moved t').val) := by
  obtain ⟨hT, ho, -⟩ := sequence_rounded hs
  obtain ⟨hT', ho', -⟩ := sequence_rounded hs'
  have hu := r.u_nonneg
  have hclose : ∀ x, 0 ≤ x → |r.rnd (x + s.duration.val) - (s.duration.val + x)| ≤ r.u * (s.duration.val + x) := by
    intro x hx
    have := r.close (x + s.duration.val)
    rw [add_comm x] at this ⊢
    rwa [abs_of_nonneg (by linarith : 0 ≤ s.duration.val + x)] at this
  refine ⟨_, joinedSequence_rounded hs hs' name, rfl, rfl, rfl, ?_, fun t => t + s.duration, rfl, fun t ht => ?_⟩
  · have := hclose _ hT'.le
    rwa [add_comm s'.duration.val s.duration.val] at this
  · simp only [Fl.val_add]
    refine ⟨hclose _ (ho' t ht).1, ?_, r.mono (by linarith [(ho' t ht).2]), fun t' ht' => ⟨fun h => r.mono (by linarith), fun h => ?_⟩⟩
    · have := r.mono (show s.duration.val ≤ t.val + s.duration.val by linarith [(ho' t ht).1])
      rwa [Fl.rnd_val] at this
    · have h1 := (abs_le.mp (hclose _ (ho' t ht).1)).2
      have h2 := (abs_le.mp (hclose _ (ho' t' ht').1)).1
      have h3 := mul_le_mul_of_nonneg_left (ho' t ht).2 hu
      have h4 := mul_le_mul_of_nonneg_left (ho' t' ht').2 hu
      linarith

end

/-- In double precision there is a control with two segments that can be joined to itself. -/
example : ∃ c j : DrivenControl (Fl Rounding.double), c.Constructed ∧ c.numberOfSegments = 2 ∧
    joinedControl c c none = .ok j ∧ j.numberOfSegments * Rounding.double.u ≤ 1 / 100 := by
  have hc : DrivenControl.Constructed (⟨[lit 1, lit 2], [lit 0, lit 1], [lit 0, lit 0], [lit 1, lit 1], none⟩ :
      DrivenControl (Fl Rounding.double)) :=
    ⟨_, some [lit 1, lit 2], some [lit 0, lit 1], some [lit 0, lit 0], none,
      new_of_rounded (by simp) rfl rfl rfl (by simp [Rounding.rnd_two])⟩
  refine ⟨_, _, hc, rfl, joinedControl_any hc hc none, ?_⟩
  have := Rounding.double.u_le
  simp only [DrivenControl.numberOfSegments, appended, List.length_append, List.length_cons, List.length_nil]
  push_cast
  norm_num at this ⊢
  linarith

/-- **C130** A finding: in double precision pulses that are apart in the second sequence can coincide in the joined one. -/
theorem C130_pulses_merge : ∃ s s' j : Sequence (Fl Rounding.double), s.Constructed ∧ s'.Constructed ∧
    joinedSequence s s' none = .ok j ∧ (s'.offsets.Pairwise fun a b => a.val < b.val) ∧
    ∃ a, j.offsets = [a, a] := by
  have e0 : Rounding.double.rnd 0 = 0 := Rounding.double.rnd_zero
  have e1 : Rounding.double.rnd 1 = 1 := Rounding.double.rnd_one
  have h60 : Rounding.double.rnd (1 / 2 ^ 60) = 1 / 2 ^ 60 := by
    rw [Rounding.double.rnd_div_pow, e1]
  have hm : Rounding.double.rnd (1 / 2 ^ 60 + 1) = 1 := by
    show Bits.rnd 53 _ = 1
    rw [Bits.rnd_of_nonneg (by norm_num), show (1 : ℝ) / 2 ^ 60 + 1 = (2 ^ 60 + 1) * 2 ^ (-60 : ℤ) by norm_num,
      Bits.roundPos_scaled (k := 8) (by norm_num) (by norm_num),
      Bits.nearest_eq (n := 2 ^ 52) (by rw [abs_lt]; norm_num)]
    norm_num
  let z : Fl Rounding.double := ⟨0, e0⟩
  let o : Fl Rounding.double := ⟨1, e1⟩
  let ε : Fl Rounding.double := ⟨1 / 2 ^ 60, h60⟩
  have vz : z.val = 0 := rfl
  have vo : o.val = 1 := rfl
  have vε : ε.val = 1 / 2 ^ 60 := rfl
  have hs : Sequence.new o [] [] [] [] none = .ok ⟨o, [], [], [], [], none⟩ := by
    rw [Sequence.new_eq, if_pos (by simp [vo])]
    simp
  have hs' : Sequence.new o [z, ε] [z, z] [z, z] [z, z] none = .ok ⟨o, [z, ε], [z, z], [z, z], [z, z], none⟩ := by
    rw [Sequence.new_eq, if_pos (by simp [vo]), if_pos (by simp [vo, vz, vε]; norm_num)]
    simp
  refine ⟨_, _, _, ⟨_, _, _, _, _, _, hs⟩, ⟨_, _, _, _, _, _, hs'⟩,
    joinedSequence_rounded ⟨_, _, _, _, _, _, hs⟩ ⟨_, _, _, _, _, _, hs'⟩ none, by simp [vz, vε], o, ?_⟩
  have a1 : z + o = o := Fl.ext (by simp [vz, vo])
  have a2 : ε + o = o := Fl.ext (by rw [Fl.val_add, vε, vo, hm])
  simp [a1, a2]

end OpenControls
