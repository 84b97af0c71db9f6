import Verif.Proofs.LimitedSequences
import Verif.Proofs.LimitedInst
import Verif.Spec.LimitedSequences
import Verif.Props.RoundedPipeline

/-!
# C110: predefined sequences and their conversion with numbers of limited range

C63, C77 and C78 are about floating-point numbers without overflow and underflow.  Here the model is run on the numbers
`Lim L` of a floating-point arithmetic with a largest number, a smallest positive number, infinities and NaN
(`Verif/Limited.lean`); `Limits.double` is IEEE-754 double precision.  In a wide range of arguments the results are the
same.
-/

namespace OpenControls

open PyFloat Py Spec

variable {r : Rounding} {L : Limits r}

theorem count_le {n : ℕ} {c : ℝ} (hu : 1 / 2 ^ 60 ≤ r.u) {x : ℝ} (hx : 0 ≤ x) (h : c * x * r.u ≤ 1) (hc : 0 < c)
    (hn : (n : ℝ) ≤ x) {k : ℕ} (hk : 2 ^ 60 ≤ c * 2 ^ k) : n ≤ 2 ^ k := by
  have h1 : c * x ≤ 2 ^ 60 := by
    have := mul_le_mul_of_nonneg_left hu (show 0 ≤ c * x by positivity)
    have h2 : c * x * (1 / 2 ^ 60) ≤ 1 := this.trans h
    rw [mul_one_div, div_le_one (by positivity)] at h2
    exact h2
  have h2 : x ≤ 2 ^ k := by
    have := h1.trans hk
    exact le_of_mul_le_mul_left this hc
  exact_mod_cast hn.trans h2

theorem square_le {x y : ℝ} (h : x ^ 2 ≤ y ^ 2) (hy : 0 ≤ y) : x ≤ y := abs_le_of_sq_le_sq' h hy |>.2

/-- **C110**, sequences: with a duration between `2⁻¹⁰⁰` and `2¹⁰⁰` and not too many pulses, every predefined sequence
is the same as without limits, and invalid arguments raise the same exceptions. -/
theorem C110_in_range (hu : 1 / 2 ^ 60 ≤ r.u) (family' : LimitedFamily L) (family : RoundedFamily r)
    (hf : family'.Same family) (hsmall : family.Small) {T' : Lim L} {T : Fl r} (hT : SameValue T' T)
    (h1 : 1 / 2 ^ 100 ≤ T.val) (h2 : T.val ≤ 2 ^ 100) (prePost : Bool) (name : Option String) :
    SameSequenceOutcome (family'.call T' prePost name) (family.call T prePost name) := by
  have hT0 : 0 < T.val := lt_of_lt_of_le (by positivity) h1
  have hs : Sized 100 T' T := ⟨hT, by rwa [abs_of_pos hT0], by rwa [abs_of_pos hT0]⟩
  have hhalf : Bounded 220 (PyFloat.pi / lit 2 : Lim L) (PyFloat.pi / lit 2 : Fl r) :=
    sized_pi_half.bounded.mono (by norm_num)
  cases family' <;> cases family <;> simp only [LimitedFamily.Same] at hf <;>
    simp only [RoundedFamily.Small] at hsmall <;> simp only [LimitedFamily.call, RoundedFamily.call]
  case ramsey.ramsey =>
    refine same_seq_step (same_gt hT same_zero) _ fun _ => ?_
    cases prePost with
    | false => exact same_seq_new hT .nil .nil .nil .nil name
    | true =>
      refine same_seq_new hT (.cons ?_ (.cons ?_ .nil)) (.cons sized_pi_half.same (.cons sized_pi_half.same .nil))
        (.cons same_zero (.cons same_pi .nil)) (.cons same_zero (.cons same_zero .nil)) name
      · refine same_mul hT same_zero ?_ ?_
        · left; rw [Fl.val_lit_zero, mul_zero]
        · rw [Fl.val_lit_zero, mul_zero, abs_zero]; positivity
      · exact (hs.mul sized_one (by norm_num)).same
  case spinEcho.spinEcho =>
    refine same_seq_step (same_gt hT same_zero) _ fun _ => ?_
    refine same_finish hT ⟨.cons (hs.div Sized.two (by norm_num)).same .nil, ?_, ?_, ?_⟩ prePost name
    · exact .cons (bounded_pi (by norm_num)) .nil
    · exact .cons Bounded.zero .nil
    · exact .cons Bounded.zero .nil
  case carrPurcell.carrPurcell n' n =>
    refine same_counted hT hf _ fun _ _ => ?_
    have hn : ⌊n.val⌋₊ ≤ 2 ^ 56 := count_le hu (by positivity) hsmall (by norm_num) le_rfl (by norm_num)
    exact same_finish hT (same_uniform (same_cpmg hs hn) Bounded.zero) prePost name
  case cpmg.cpmg n' n =>
    refine same_counted hT hf _ fun _ _ => ?_
    have hn : ⌊n.val⌋₊ ≤ 2 ^ 56 := count_le hu (by positivity) hsmall (by norm_num) le_rfl (by norm_num)
    exact same_finish hT (same_uniform (same_cpmg hs hn) hhalf) prePost name
  case uhrig.uhrig n' n =>
    refine same_counted hT hf _ fun _ _ => ?_
    have hN : (⌊n.val⌋₊ + 1) ^ 2 ≤ 2 ^ 54 :=
      count_le (c := 70) hu (by positivity) hsmall.le (by norm_num) (by push_cast; exact le_rfl) (by norm_num)
    have hN' : ⌊n.val⌋₊ + 1 ≤ 2 ^ 27 := by
      refine (Nat.pow_le_pow_iff_left (n := 2) (by norm_num)).mp (hN.trans ?_)
      norm_num
    have h24 : 24 * (⌊n.val⌋₊ + 1 : ℕ) * r.u ≤ 1 := by
      push_cast
      have : (0 : ℝ) ≤ ⌊n.val⌋₊ := by positivity
      have hu0 := r.u_nonneg
      nlinarith [mul_nonneg this hu0, mul_nonneg (mul_nonneg this this) hu0]
    exact same_finish hT (same_uniform ((same_uhrig hs (by norm_num) h24 hN').imp fun _ _ h => h.same) hhalf) prePost name
  case periodic.periodic n' n =>
    refine same_counted hT hf _ fun _ _ => ?_
    have hn : ⌊n.val⌋₊ + 1 ≤ 2 ^ 56 :=
      count_le hu (by positivity) hsmall (by norm_num) (by push_cast; exact le_rfl) (by norm_num)
    exact same_finish hT (same_uniform (same_periodic hs hn) Bounded.zero) prePost name
  case walsh.walsh k' k =>
    have h2000 : SameValue (lit 2000 : Lim L) (lit 2000) := same_lit (by norm_num) (by norm_num)
    refine same_seq_step (same_gt hT same_zero) _ fun _ => ?_
    refine same_seq_step ?_ _ fun hk => ?_
    · rw [same_le sized_one.same hf, same_le hf h2000]
    · rw [Bool.and_eq_true, Fl.le_iff, Fl.le_iff, val_lit_one] at hk
      have e2000 : (lit 2000 : Fl r).val = 2000 := by
        have := r.rnd_nat (n := 2000) (by norm_num)
        simpa using this
      rw [e2000] at hk
      rw [same_pyInt hf, pyInt_rounded (by linarith)]
      have hk0 : ⌊k.val⌋₊ ≠ 0 := by
        have := (Nat.one_le_floor_iff k.val).mpr hk.1
        omega
      have hk1 : ⌊k.val⌋₊ ≤ 2000 := by
        have := Nat.floor_le_floor hk.2
        simpa using this
      obtain ⟨o', o, e', e, ho⟩ := same_walsh hs hk0 hk1
      rw [except_ok_bind, except_ok_bind, e, e', except_ok_bind, except_ok_bind]
      exact same_finish hT (same_uniform ho Bounded.zero) prePost name
  case quadratic.quadratic n' m' n m =>
    refine same_seq_step (same_gt hT same_zero) _ fun _ => ?_
    refine same_seq_step (same_ge hf.1 sized_one.same) _ fun h1 => ?_
    refine same_seq_step (same_ge hf.2 sized_one.same) _ fun h2 => ?_
    rw [Fl.ge_iff, val_lit_one] at h1 h2
    rw [same_pyInt hf.1, same_pyInt hf.2, pyInt_rounded (by linarith), pyInt_rounded (by linarith)]
    have hN : ((⌊n.val⌋₊ + 1) * (⌊m.val⌋₊ + 1)) ^ 2 ≤ 2 ^ 52 :=
      count_le (c := 300) hu (by positivity) hsmall.le (by norm_num) (by push_cast; exact le_rfl) (by norm_num)
    have hN' : (⌊n.val⌋₊ + 1) * (⌊m.val⌋₊ + 1) ≤ 2 ^ 26 := by
      refine (Nat.pow_le_pow_iff_left (n := 2) (by norm_num)).mp (hN.trans ?_)
      norm_num
    have h3 : ⌊n.val⌋₊ + 1 ≤ 2 ^ 26 := (Nat.le_mul_of_pos_right _ (by omega)).trans hN'
    have h4 : ⌊m.val⌋₊ + 1 ≤ 2 ^ 26 := (Nat.le_mul_of_pos_left _ (by omega)).trans hN'
    exact same_finish hT (same_quadratic hs hT0 hsmall h3 h4) prePost name
  case xConcatenated.xConcatenated l' l =>
    refine same_counted hT hf _ fun _ hl => ?_
    have hl0 : ⌊l.val⌋₊ ≠ 0 := by
      have := (Nat.one_le_floor_iff l.val).mpr hl
      omega
    have hN : 4 ^ ⌊l.val⌋₊ ≤ 2 ^ 58 :=
      count_le (c := 7) hu (by positivity) hsmall (by norm_num) (by push_cast; exact le_rfl) (by norm_num)
    have hl1 : ⌊l.val⌋₊ ≤ 30 := by
      have : (4 : ℕ) ^ ⌊l.val⌋₊ ≤ 4 ^ 29 := hN.trans (by norm_num)
      have := (Nat.pow_le_pow_iff_right (a := 4) (by norm_num)).mp this
      omega
    refine same_finish hT (same_uniform (same_x hs hT0 hl0 ?_ hl1) Bounded.zero) prePost name
    refine le_trans (le_of_eq ?_) hsmall
    push_cast
    rw [← pow_mul, mul_comm ⌊l.val⌋₊ 2, pow_mul]
    norm_num
  case xyConcatenated.xyConcatenated l' l =>
    refine same_counted hT hf _ fun _ hl => ?_
    obtain ⟨n, hn⟩ : ∃ n, ⌊l.val⌋₊ = n + 1 := by
      have := (Nat.one_le_floor_iff l.val).mpr hl
      exact ⟨⌊l.val⌋₊ - 1, by omega⟩
    have hN : 16 ^ ⌊l.val⌋₊ ≤ 2 ^ 58 :=
      count_le (c := 7) hu (by positivity) hsmall (by norm_num) (by push_cast; exact le_rfl) (by norm_num)
    have hl1 : ⌊l.val⌋₊ ≤ 15 := by
      have : (16 : ℕ) ^ ⌊l.val⌋₊ ≤ 16 ^ 15 := hN.trans (by norm_num)
      exact (Nat.pow_le_pow_iff_right (a := 16) (by norm_num)).mp this
    rw [hn] at hsmall hl1 ⊢
    refine same_finish hT (same_xy hs hT0 n ?_ hl1) prePost name
    refine le_trans (le_of_eq ?_) hsmall
    push_cast
    rw [← pow_mul, mul_comm (n + 1) 2, pow_mul]
    norm_num

/-- **C110**, conversion: sequences and hardware limits of moderate size, at moderate rates, are converted to the same
control as without limits, or rejected with the same exception. -/
theorem C110_conversion {s' : Sequence (Lim L)} {s : Sequence (Fl r)} (hs : SameSequence s' s)
    (hT : |s.duration.val| ≤ 2 ^ 100) (ho : ∀ x ∈ s.offsets, |x.val| ≤ 2 ^ 100)
    (hr : ∀ x ∈ s.rabiRotations, |x.val| ≤ 2 ^ 100) (hd : ∀ x ∈ s.detuningRotations, |x.val| ≤ 2 ^ 100)
    {R' D' m' : Lim L} {R D m : Fl r} (hR : SameValue R' R) (hD : SameValue D' D) (hm : SameValue m' m)
    (R1 : 1 / 2 ^ 100 ≤ R.val) (R2 : R.val ≤ 2 ^ 100) (D1 : 1 / 2 ^ 100 ≤ D.val) (D2 : D.val ≤ 2 ^ 100)
    (m1 : m.val = 0 ∨ 1 / 2 ^ 100 ≤ m.val) (m2 : m.val ≤ 2 ^ 100) (name : Option String)
    (hrates : ∀ c, convertDDS s R D m name = .ok c →
      (∀ x ∈ c.rabiRates, |x.val| ≤ 2 ^ 110) ∧ ∀ x ∈ c.detunings, |x.val| ≤ 2 ^ 110) :
    SameOutcome (convertDDS s' R' D' m' name) (convertDDS s R D m name) := by
  have R0 : 0 < R.val := lt_of_lt_of_le (by positivity) R1
  have D0 : 0 < D.val := lt_of_lt_of_le (by positivity) D1
  have m0 : 0 ≤ m.val := by
    rcases m1 with h | h
    · exact h.ge
    · exact le_trans (by positivity) h
  refine same_convert hs hT ho hr hd ⟨⟨hR, ?_, ?_⟩, ⟨hD, ?_, ?_⟩, ⟨hm, ?_, ?_⟩⟩ name hrates
  · rwa [abs_of_pos R0]
  · rwa [abs_of_pos R0]
  · rwa [abs_of_pos D0]
  · rwa [abs_of_pos D0]
  · rwa [abs_of_nonneg m0]
  · rwa [abs_of_nonneg m0]

/-- what was returned without limits is the same with limits -/
theorem same_outcome_ok {x : Except PyErr (DrivenControl (Lim L))} {y : Except PyErr (DrivenControl (Fl r))}
    (h : SameOutcome x y) {d : DrivenControl (Fl r)} (e : y = .ok d) : ∃ c, x = .ok c ∧ SameControl c d := by
  rcases h with ⟨c, d', h1, h2, h3⟩ | ⟨_, -, h2⟩
  · rw [e] at h2
    obtain rfl := Except.ok.inj h2
    exact ⟨c, h1, h3⟩
  · rw [e] at h2; cases h2

theorem same_sequence_ok {x : Except PyErr (Sequence (Lim L))} {y : Except PyErr (Sequence (Fl r))}
    (h : SameSequenceOutcome x y) {t : Sequence (Fl r)} (e : y = .ok t) : ∃ s, x = .ok s ∧ SameSequence s t := by
  rcases h with ⟨c, d', h1, h2, h3⟩ | ⟨_, -, h2⟩
  · rw [e] at h2
    obtain rfl := Except.ok.inj h2
    exact ⟨c, h1, h3⟩
  · rw [e] at h2; cases h2

/-- the angles of a predefined sequence are at most 4 -/
theorem predefined_angles {family : RoundedFamily r} {T : Fl r} (hT : 0 < T.val) (hv : family.exact.Valid)
    (hsmall : family.Small) {prePost : Bool} {name : Option String} {s : Sequence (Fl r)}
    (hs : family.call T prePost name = .ok s) :
    s.duration.val = T.val ∧ (∀ x ∈ s.offsets, 0 ≤ x.val ∧ x.val ≤ T.val) ∧
    (∀ x ∈ s.rabiRotations, |x.val| ≤ 4) ∧ ∀ x ∈ s.detuningRotations, |x.val| ≤ 4 := by
  obtain ⟨s₁, e, h1, he, happ⟩ := C78_agrees family T hT hv hsmall prePost name
  rw [hs] at h1
  obtain rfl := Except.ok.inj h1
  obtain ⟨-, hw⟩ := (C43_well_formed family.exact T.val prePost name).ok he
  have hcon := approximates_constructed happ hT hw
  have hd : s.duration.val = T.val := happ.duration.trans hw.1
  obtain ⟨d1, d2, d3, d4, d5, d6⟩ := hw
  have p0 := Real.pi_pos
  have p4 : Real.pi ≤ 316 / 100 := Real.pi_lt_d2.le.trans (by norm_num)
  have angle : ∀ i, i < e.offsets.length → ∃ x y, e.rabiRotations[i]? = some x ∧ e.detuningRotations[i]? = some y ∧
      |x| ≤ Real.pi ∧ |y| ≤ Real.pi := by
    intro i hi
    have i1 : i < e.rabiRotations.length := by omega
    have i2 : i < e.azimuthalAngles.length := by omega
    have i3 : i < e.detuningRotations.length := by omega
    have h := d6 i e.offsets[i] e.rabiRotations[i] e.azimuthalAngles[i] e.detuningRotations[i]
      ⟨List.getElem?_eq_getElem hi, List.getElem?_eq_getElem i1, List.getElem?_eq_getElem i2,
        List.getElem?_eq_getElem i3⟩
    refine ⟨_, _, List.getElem?_eq_getElem i1, List.getElem?_eq_getElem i3, ?_⟩
    rcases h with ⟨a, h1, -, h3⟩ | ⟨-, h1, h3, -⟩
    · rw [h1, h3]
      cases a <;> simp [Axis.rabi, Axis.detuning, abs_of_pos p0, p0.le]
    · rw [h1, h3, abs_of_pos (by positivity), abs_zero]
      exact ⟨by linarith, p0.le⟩
  have close : ∀ x : ℝ, |x| ≤ Real.pi → |(Fl.round r x).val| ≤ 4 := by
    intro x hx
    rw [Fl.val_round]
    have h1 := r.close x
    have h2 := r.u_small.2
    have h3 := abs_nonneg x
    have h4 := abs_sub_abs_le_abs_sub (r.rnd x) x
    nlinarith
  refine ⟨hd, ?_, ?_, ?_⟩
  · intro x hx
    have h2 := (rounded_facts hcon).facts.2.1 x.val (List.mem_map.mpr ⟨x, hx, rfl⟩)
    exact ⟨h2.1, h2.2.trans_eq hd⟩
  · intro x hx
    rw [happ.rabi] at hx
    obtain ⟨y, hy, rfl⟩ := List.mem_map.mp hx
    obtain ⟨i, hi, rfl⟩ := List.getElem_of_mem hy
    obtain ⟨a, b, h1, -, h3, -⟩ := angle i (by omega)
    rw [List.getElem?_eq_getElem hi] at h1
    obtain rfl := Option.some.inj h1
    exact close _ h3
  · intro x hx
    rw [happ.detuning] at hx
    obtain ⟨y, hy, rfl⟩ := List.mem_map.mp hx
    obtain ⟨i, hi, rfl⟩ := List.getElem_of_mem hy
    obtain ⟨a, b, -, h1, -, h3⟩ := angle i (by omega)
    rw [List.getElem?_eq_getElem hi] at h1
    obtain rfl := Option.some.inj h1
    exact close _ h3

/-- **C110**, sequence and conversion: in a wide range of durations, rates and minimum durations, C78 holds for numbers of
limited range: both calls return what they return without limits, and the evolution under the control is that of the
ideal pulses up to rounding. -/
theorem C110_pipeline (hu : 1 / 2 ^ 60 ≤ r.u) (family' : LimitedFamily L) (family : RoundedFamily r)
    (hf : family'.Same family) {T' : Lim L} {T : Fl r} (sT : SameValue T' T)
    (hT : 2 / 10 ^ 8 ≤ T.val) (hT' : T.val ≤ 2 ^ 100)
    (hv : family.exact.Valid) (hsmall : family.Small) (prePost : Bool)
    (hsep : family.exact.Separate prePost) (name : Option String)
    (exact : Sequence ℝ) (hexact : family.exact.call T.val prePost name = .ok exact)
    {R' D' m' : Lim L} {R D m : Fl r} (sR : SameValue R' R) (sD : SameValue D' D) (sm : SameValue m' m)
    (R1 : 1 / 2 ^ 100 ≤ R.val) (R2 : R.val ≤ 2 ^ 100) (D1 : 1 / 2 ^ 100 ≤ D.val) (D2 : D.val ≤ 2 ^ 100)
    (m1 : m.val = 0 ∨ 1 / 2 ^ 100 ≤ m.val)
    (gap : ℝ) (hroom : Apart gap exact)
    (hgap : 2 * pulseTime R.val D.val m.val + m.val + (35 * r.u + 2 * family.error) * T.val < gap)
    (κ : ℝ) (hκ0 : 0 ≤ κ) (hκ : κ ≤ 1 / 2)
    (hwide : 65 * r.u * T.val ≤ κ * shortestPulse R.val D.val m.val) (cname : Option String) :
    ∃ s' c' c, family'.call T' prePost name = .ok s' ∧ convertDDS s' R' D' m' cname = .ok c' ∧ SameControl c' c ∧
      PerformsWithin (7 * r.u * exact.offsets.length) c (pulses exact) ∧
      (prePost = true → ∃ z : ℂ, ‖z‖ = 1 ∧
        (PerformsWithin (7 * r.u * exact.offsets.length) c (z • 1) ∨
          PerformsWithin (7 * r.u * exact.offsets.length) c (z • σz))) ∧
      |(c.map Fl.val).durations.sum - T.val| ≤ 6 * r.u * T.val ∧
      (∀ x ∈ c.rabiRates, 0 ≤ x.val ∧ x.val ≤ (1 + κ) * R.val) ∧
      (∀ x ∈ c.detunings, |x.val| ≤ (1 + κ) * D.val) ∧
      (∀ t ∈ c.durations, (1 - κ) * m.val ≤ t.val) := by
  have R0 : 0 < R.val := lt_of_lt_of_le (by positivity) R1
  have D0 : 0 < D.val := lt_of_lt_of_le (by positivity) D1
  have m0 : 0 ≤ m.val := by
    rcases m1 with h | h
    · exact h.ge
    · exact le_trans (by positivity) h
  have T0 : 0 < T.val := lt_of_lt_of_le (by positivity) hT
  obtain ⟨s, c, a1, a2, a3, a4, a5, a6, a7, a8, a9⟩ := C78_pipeline family T hT hv hsmall prePost hsep name exact hexact
    R D m R0 D0 m0 gap hroom hgap κ hκ0 hκ hwide cname
  obtain ⟨s', b1, b2⟩ := same_sequence_ok (C110_in_range hu family' family hf hsmall sT
    (le_trans (by norm_num) hT) hT' prePost name) a1
  obtain ⟨f1, f2, f3, f4⟩ := predefined_angles T0 hv hsmall a1
  have hdur : exact.duration = T.val := ((C43_well_formed family.exact T.val prePost name).ok hexact).2.1
  have hgT : gap ≤ T.val := by
    have := hroom 0 (by simp) exact.duration (by simp) (by rw [hdur]; exact T0)
    rw [hdur] at this
    linarith
  have m2 : m.val ≤ 2 ^ 100 := by
    have h1 : 0 ≤ pulseTime R.val D.val m.val := m0.trans (le_max_right _ _)
    have h2 : 0 ≤ (35 * r.u + 2 * family.error) * T.val := by
      have := family.error_nonneg
      have := r.u_nonneg
      positivity
    linarith
  have four : (4 : ℝ) ≤ 2 ^ 100 := by norm_num
  obtain ⟨c', d1, d2⟩ := same_outcome_ok (C110_conversion b2 (by rw [f1, abs_of_pos T0]; exact hT')
    (fun x hx => by rw [abs_of_nonneg (f2 x hx).1]; exact (f2 x hx).2.trans hT')
    (fun x hx => (f3 x hx).trans four) (fun x hx => (f4 x hx).trans four) sR sD sm R1 R2 D1 D2 m1 m2 cname
    (fun c₁ hc₁ => by
      rw [a2] at hc₁
      obtain rfl := Except.ok.inj hc₁
      have k1 : (2 : ℝ) * 2 ^ 100 ≤ 2 ^ 110 := by norm_num
      refine ⟨fun x hx => ?_, fun x hx => ?_⟩
      · rw [abs_of_nonneg (a7 x hx).1]
        have := (a7 x hx).2
        nlinarith
      · have := a8 x hx
        nlinarith)) a2
  exact ⟨s', c', c, b1, d1, d2, a4, a5, a6, a7, a8, a9⟩

/-- The CPMG sequence of two pulses and duration 1 in double precision with overflow and underflow, with pre and post
rotations, on hardware with maximum rates 64. -/
example : ∃ (s' : Sequence (Lim Limits.double)) (c' : DrivenControl (Lim Limits.double))
    (c : DrivenControl (Fl Rounding.double)),
    newCPMGSequence (lit 1) (lit 2) true none = .ok s' ∧
    convertDDS s' (lit 64) (lit 64) (lit 0) none = .ok c' ∧ SameControl c' c ∧
    (∃ z : ℂ, ‖z‖ = 1 ∧ (PerformsWithin (28 / 2 ^ 53) c (z • 1) ∨ PerformsWithin (28 / 2 ^ 53) c (z • σz))) ∧
    ∀ x ∈ c.rabiRates, x.val ≤ (1 + 1 / 2 ^ 20) * 64 := by
  have h0 : (lit 0 : Fl Rounding.double).val = 0 := Fl.val_lit_zero
  have h1 : (lit 1 : Fl Rounding.double).val = 1 := val_lit_one
  have h2 : (lit 2 : Fl Rounding.double).val = 2 := by
    have := Rounding.double.rnd_nat (n := 2) (by norm_num)
    simpa using this
  have h64 : (lit 64 : Fl Rounding.double).val = 64 := by
    have := Rounding.double.rnd_nat (n := 64) (by norm_num)
    simpa using this
  have s1 : SameValue (lit 1 : Lim Limits.double) (lit 1) := same_lit (by norm_num) (by norm_num)
  have s2 : SameValue (lit 2 : Lim Limits.double) (lit 2) := same_lit (by norm_num) (by norm_num)
  have s64 : SameValue (lit 64 : Lim Limits.double) (lit 64) := same_lit (by norm_num) (by norm_num)
  have hu : Rounding.double.u = 1 / 2 ^ 53 := double_u
  have hpi := Real.pi_gt_three
  have hpi' := Real.pi_lt_d2
  obtain ⟨e, he, -⟩ := (C43_well_formed (.cpmg 2) 1 true none).1 ⟨one_pos, by norm_num [Family.Valid]⟩
  have he' := he
  rw [Family.call_eq (by norm_num [Family.Valid]) one_pos] at he'
  injection he' with he'
  have hlen : e.offsets.length = 4 := by
    subst he'
    simp [finished, withPrePost, piSequence, Family.table, onAxis, cpmgTimes]
  obtain ⟨s, c', c, a1, a2, a3, -, a4, -, a5, -, -⟩ := C110_pipeline (by rw [hu]; norm_num) (.cpmg (lit 2)) (.cpmg (lit 2))
    s2 s1 (by rw [h1]; norm_num) (by rw [h1]; norm_num)
    (by simp only [RoundedFamily.exact, Family.Valid]; rw [h2]; norm_num)
    (by simp only [RoundedFamily.Small]; rw [h2, hu]; norm_num) true trivial none e
    (by simp only [RoundedFamily.exact]; rw [h2, h1]; exact he)
    s64 s64 same_zero (by rw [h64]; norm_num) (by rw [h64]; norm_num) (by rw [h64]; norm_num) (by rw [h64]; norm_num)
    (.inl h0) (1 / 4) (by
      subst he'
      simp [Apart, finished, withPrePost, piSequence, Family.table, onAxis, cpmgTimes,
        List.range']
      norm_num) (by
      have hp : pulseTime 64 64 0 = Real.pi / 64 := by
        rw [pulseTime, max_self, max_eq_left (by positivity)]
      simp only [RoundedFamily.error]
      rw [h64, h0, h1, hu, hp]
      norm_num
      linarith) (1 / 2 ^ 20) (by positivity) (by norm_num) (by
      have hp : shortestPulse 64 64 0 = Real.pi / 2 / 64 := by
        rw [shortestPulse, min_eq_left (by linarith), max_eq_left (by positivity)]
      rw [h64, h0, h1, hu, hp]
      norm_num
      linarith) none
  refine ⟨s, c', c, a1, a2, a3, ?_, fun x hx => ?_⟩
  · have := a4 rfl
    rw [hlen, hu] at this
    norm_num at this ⊢
    exact this
  · have := (a5 x hx).2
    rwa [h64] at this

/-- a number of limited range that is finite, without limits -/
def unlimited {x : ℝ} {a : Lim L} (h : a.val = .fin x) : Fl r :=
  ⟨x, L.rep x (by have := a.2; rw [show a.1 = .fin x from h] at this; exact this.1)⟩

theorem unlimited_same {x : ℝ} {a : Lim L} (h : a.val = .fin x) : SameValue a (unlimited h) := h

theorem cumsum_replicate {z : Lim L} (h : z + z = z) (n : ℕ) : npCumsum (List.replicate n z) = List.replicate n z := by
  have key : ∀ n, cumsumFrom z (List.replicate n z) = List.replicate n z := by
    intro n
    induction n with
    | zero => rfl
    | succ n ih => rw [List.replicate_succ, cumsumFrom, h, ih]
  cases n with
  | zero => rfl
  | succ n => rw [List.replicate_succ, npCumsum, key]

theorem unique_replicate {z : Lim L} (hlt : PyFloat.lt z z = false) (heq : PyFloat.eq z z = true) (n : ℕ) :
    npUnique (List.replicate (n + 1) z) = [(z, n + 1)] := by
  have key : ∀ n k, (List.replicate n z).foldl (fun acc x => insertCount x acc) [(z, k)] = [(z, k + n)] := by
    intro n
    induction n with
    | zero => intro k; rfl
    | succ n ih =>
      intro k
      rw [List.replicate_succ, List.foldl_cons]
      have : insertCount z [(z, k)] = [(z, k + 1)] := by
        simp [insertCount, hlt, heq]
      rw [this, ih]
      congr 2
      omega
  unfold npUnique
  rw [List.replicate_succ, List.foldl_cons]
  have : insertCount z [] = [(z, 1)] := rfl
  rw [this, key]
  congr 2
  omega

theorem lim_two : (lit 2 : Lim L).val = .fin 2 := by
  have : SameValue (lit 2 : Lim L) (lit 2) := same_lit (by norm_num) (by norm_num)
  rw [this]
  congr 1
  show r.rnd _ = _
  push_cast
  exact r.rnd_two

theorem concatenationX_even (l : ℕ) : ∃ k, (concatenationX (l + 1)).length = 2 * k + 2 := by
  induction l with
  | zero => exact ⟨1, rfl⟩
  | succ l ih =>
    obtain ⟨k, hk⟩ := ih
    refine ⟨2 * k + 2, ?_⟩
    simp only [concatenationX, List.length_append, List.length_cons, List.length_nil, hk]
    omega

/-- **C110**, underflow: if the duration divided by `2 ^ order` is rounded to zero, the X-concatenated sequence is
accepted but has lost its pulses: none is left for odd orders, and one at time zero for even ones. -/
theorem C110_x_concatenated_underflow {T l : Lim L} {t y : ℝ} (hT : T.val = .fin t) (ht : 0 < t) (hl : l.val = .fin y)
    (h1 : 1 ≤ y) (h2 : y ≤ 200) (h : t ≤ 2 ^ ⌊y⌋₊ * (L.tiny / 2)) (name : Option String) :
    ∃ s, newXConcatenatedSequence T l false name = .ok s ∧ s.duration = T ∧
      s.offsets.map Lim.val = if Odd ⌊y⌋₊ then [] else [.fin 0] := by
  obtain ⟨n, hn⟩ : ∃ n, ⌊y⌋₊ = n + 1 := by
    have := (Nat.one_le_floor_iff y).mpr h1
    exact ⟨⌊y⌋₊ - 1, by omega⟩
  have hn200 : n + 1 ≤ 200 := by
    rw [← hn]
    have := Nat.floor_le_floor h2
    simpa using this
  have hpow : (Py.nat (2 ^ (n + 1)) : Lim L).val = .fin (2 ^ (n + 1)) := by
    have h1 : (1 : ℝ) ≤ 2 ^ (n + 1) := one_le_pow₀ (by norm_num)
    have h2 : (2 : ℝ) ^ (n + 1) ≤ 2 ^ 249 := pow_le_pow_right₀ (by norm_num) (by omega)
    have h3 : SameValue (Py.nat (2 ^ (n + 1)) : Lim L) (Py.nat (2 ^ (n + 1))) := by
      refine same_lit (.inr ?_) ?_
      · push_cast
        rw [abs_of_pos (by positivity)]
        exact le_trans (by norm_num) h1
      · push_cast
        rw [abs_of_pos (by positivity)]
        exact h2
    rw [h3]
    congr 1
    show r.rnd _ = _
    push_cast
    exact rnd_two_pow _
  have hU : (T / Py.nat (2 ^ (n + 1)) : Lim L).val = .fin 0 := by
    rw [Lim.val_div, hT, hpow]
    have e : (XR.fin t / XR.fin (2 ^ (n + 1))) = XR.fin (t / 2 ^ (n + 1)) := XR.fin_div _ (by positivity)
    have hr : L.rnd (t / 2 ^ (n + 1)) = 0 := by
      rw [L.underflow _ (by positivity), div_le_iff₀ (by positivity)]
      rw [hn] at h
      linarith
    rw [e, L.lim_eq (by rw [hr, abs_zero]; exact L.biggest_pos.le), hr]
  generalize hz : (T / Py.nat (2 ^ (n + 1)) : Lim L) = z at hU
  have hzz : z + z = z := lim_add_zero hU
  have hmap : (concatenationX (n + 1)).map (fun c => (Py.nat c : Lim L) * z) =
      List.replicate (concatenationX (n + 1)).length z := by
    refine List.eq_replicate_iff.mpr ⟨List.length_map _, fun b hb => ?_⟩
    obtain ⟨c, hc, rfl⟩ := List.mem_map.mp hb
    have hc1 := concatenationX_le_one (n + 1) c hc
    obtain rfl | rfl : c = 0 ∨ c = 1 := by omega
    · apply Lim.ext
      have := lim_zero_mul (unlimited_same hU)
      rw [hU]
      simpa [Py.nat] using this
    · have := lim_one_mul (unlimited_same hU)
      simpa [Py.nat] using this
  obtain ⟨k, hk⟩ := concatenationX_even n
  have hlt : PyFloat.lt z z = false := by
    show PyFloat.lt z.val z.val = false
    rw [hU]
    simp
  have heq : PyFloat.eq z z = true := by
    show PyFloat.eq z.val z.val = true
    rw [hU]
    simp
  have hoff : xConcatenatedOffsets T (n + 1) = if Odd (n + 1) then [] else [z] := by
    unfold xConcatenatedOffsets evenlyRepeated
    simp only
    rw [hz, hmap, cumsum_replicate hzz, hk, unique_replicate hlt heq]
    have e2 : ((2 * k + 1 + 1) % 2 == 0) = true := by
      rw [beq_iff_eq]; omega
    simp only [List.filter_cons, e2, if_true, List.filter_nil, List.map_cons, List.map_nil]
    by_cases ho : Odd (n + 1)
    · rw [if_pos ho, if_pos (by rw [beq_iff_eq]; exact Nat.odd_iff.mp ho)]
      rfl
    · rw [if_neg ho, if_neg (by rw [beq_iff_eq]; exact fun h => ho (Nat.odd_iff.mpr h))]
  have hgt : Py.gt T (lit 0) = true := by
    rw [Lim.gt_iff, hT, Lim.zero_val]
    exact ht
  have hge : Py.ge l (lit 1) = true := by
    rw [same_ge (unlimited_same hl) sized_one.same, Fl.ge_iff, val_lit_one]
    exact h1
  have hint : pyInt l = .ok (n + 1) := by
    rw [same_pyInt (unlimited_same hl), pyInt_rounded (show 0 ≤ (unlimited hl).val by show 0 ≤ y; linarith)]
    exact congrArg _ hn
  have hcall : newXConcatenatedSequence T l false name =
      Sequence.new T (xConcatenatedOffsets T (n + 1)) (List.replicate (xConcatenatedOffsets T (n + 1)).length PyFloat.pi)
        (List.replicate (xConcatenatedOffsets T (n + 1)).length (lit 0))
        (List.replicate (xConcatenatedOffsets T (n + 1)).length (lit 0)) name := by
    unfold newXConcatenatedSequence checkDuration
    rw [checkArguments_bind, if_pos hgt, checkArguments_bind, if_pos hge, hint]
    rfl
  have hall : ((xConcatenatedOffsets T (n + 1)).all fun t => Py.ge t (lit 0) && Py.ge T t) = true := by
    rw [hoff]
    split
    · rfl
    · rw [List.all_cons, List.all_nil, Bool.and_true, Bool.and_eq_true, Lim.ge_iff, Lim.ge_iff, hU, Lim.zero_val, hT]
      exact ⟨le_refl (0 : ℝ), ht.le⟩
  rw [hcall, Sequence.new_eq, if_pos hgt, if_pos hall, if_pos (List.length_replicate ..), if_pos (List.length_replicate ..),
    if_pos (List.length_replicate ..)]
  refine ⟨_, rfl, rfl, ?_⟩
  rw [hoff, hn]
  split
  · rfl
  · rw [List.map_cons, List.map_nil, hU]

/-- in double precision, the X-concatenated sequence of order 2 and the smallest positive duration -/
example : ∃ (T : Lim Limits.double) (s : Sequence (Lim Limits.double)), T.val = .fin (2 ^ (-1074 : ℤ)) ∧
    newXConcatenatedSequence T (lit 2) false none = .ok s ∧ s.offsets.map Lim.val = [.fin 0] := by
  obtain ⟨T, hT⟩ := Lim.exists_pow (k := -1074) (by norm_num) (by norm_num)
  have h2 : (lit 2 : Lim Limits.double).val = .fin 2 := lim_two
  have hf : ⌊(2 : ℝ)⌋₊ = 2 := by simp
  obtain ⟨s, h1, -, h3⟩ := C110_x_concatenated_underflow hT (by positivity) h2 (by norm_num) (by norm_num) (by
    rw [hf]
    show (2 : ℝ) ^ (-1074 : ℤ) ≤ 2 ^ 2 * (2 ^ (-1074 : ℤ) / 2)
    have : (0 : ℝ) < 2 ^ (-1074 : ℤ) := by positivity
    generalize (2 : ℝ) ^ (-1074 : ℤ) = w at this ⊢
    linarith) none
  refine ⟨T, s, hT, h1, ?_⟩
  rw [h3, hf, if_neg (by decide)]

/-- **C110**, underflow: with the smallest positive duration, the pulse of the spin echo is at time zero. -/
theorem C110_spin_echo_underflow {T : Lim L} (hT : T.val = .fin L.tiny) (name : Option String) :
    ∃ s, newSpinEchoSequence T false name = .ok s ∧ s.duration = T ∧ s.offsets.map Lim.val = [.fin 0] := by
  have ht := L.tiny_pos
  have h2 : (lit 2 : Lim L).val = .fin 2 := lim_two
  have hU : (T / lit 2 : Lim L).val = .fin 0 := by
    have hr : L.rnd (L.tiny / 2) = 0 := (L.underflow _ (by positivity)).mpr le_rfl
    rw [Lim.val_div, hT, h2, XR.fin_div _ (by norm_num), L.lim_eq (by rw [hr, abs_zero]; exact L.biggest_pos.le), hr]
  have hgt : Py.gt T (lit 0) = true := by
    rw [Lim.gt_iff, hT, Lim.zero_val]
    exact ht
  have hcall : newSpinEchoSequence T false name =
      Sequence.new T [T / lit 2] [PyFloat.pi] [lit 0] [lit 0] name := by
    unfold newSpinEchoSequence checkDuration
    rw [checkArguments_bind, if_pos hgt]
    rfl
  have hall : ([T / lit 2].all fun t => Py.ge t (lit 0) && Py.ge T t) = true := by
    rw [List.all_cons, List.all_nil, Bool.and_true, Bool.and_eq_true, Lim.ge_iff, Lim.ge_iff, hU, Lim.zero_val, hT]
    exact ⟨le_refl (0 : ℝ), ht.le⟩
  rw [hcall, Sequence.new_eq, if_pos hgt, if_pos hall]
  exact ⟨_, rfl, rfl, by rw [List.map_cons, List.map_nil, hU]⟩

example : ∃ T : Lim Limits.double, T.val = .fin Limits.double.tiny :=
  Lim.exists_pow (k := -1074) (by norm_num) (by norm_num)

end OpenControls
