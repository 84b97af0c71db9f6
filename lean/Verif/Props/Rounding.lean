import Verif.Proofs.RoundedWalsh
import Verif.Proofs.RoundedQuadratic
import Verif.Proofs.RoundedConcatenated
import Verif.Proofs.RoundingInst

/-!
# C63: the predefined sequences computed in floating-point arithmetic

`r : Rounding` is any floating-point arithmetic with unit roundoff `r.u` (double precision is
`Rounding.double`, `u = 2⁻⁵³`), `Fl r` are its numbers.  The same model of the code is run on `Fl r`
and on `ℝ`; `Agrees ε` says that both calls succeed, and that the results differ by at most `ε T` in
the time of each pulse, by rounding in the angles, and not at all in the order of the pulses.
-/

namespace OpenControls

open Spec Fl

variable {r : Rounding}

/-- **C63**, Ramsey sequence: nothing but π is rounded. -/
theorem C63_ramsey (T : Fl r) (hT : 0 < T.val) (prePost : Bool) (name : Option String) :
    Agrees 0 (newRamseySequence T prePost name) (newRamseySequence T.val prePost name) := by
  have h1 : Py.gt T (PyFloat.lit 0 : Fl r) = true := by simpa using hT
  have hz : Times.Good T.val 0 ([] : Times r) :=
    ⟨by simp, by simp, by simp, by simp, by simp⟩
  refine agrees_of (family := .ramsey) trivial hT le_rfl hz rfl ?_
  unfold newRamseySequence finishSequence checkDuration
  rw [checkArguments_bind, if_pos h1]
  cases prePost with
  | false => rfl
  | true =>
    have hf : finalAngle [] = Real.pi := by simp [finalAngle, countAxes]
    have o0 : T * PyFloat.lit 0 = round r 0 := ext (by simp [val_round])
    have o1 : T * PyFloat.lit 1 = T := ext (by simp [T.rnd_val])
    rw [if_pos rfl, if_pos rfl, addPrePost_rounded, except_ok_bind, o0, o1, half_pi]
    simp [Times.exact, hf, lit_zero, pi_round]

/-- **C63**, spin echo: nothing but π is rounded. -/
theorem C63_spin_echo (T : Fl r) (hT : 0 < T.val) (prePost : Bool) (name : Option String) :
    Agrees 0 (newSpinEchoSequence T prePost name) (newSpinEchoSequence T.val prePost name) := by
  have h1 : Py.gt T (PyFloat.lit 0 : Fl r) = true := by simpa using hT
  have hv : (T / PyFloat.lit 2 : Fl r).val = T.val / 2 := by
    rw [val_div, val_lit]
    push_cast
    rw [r.rnd_two, r.half, T.rnd_val]
  have hz : Times.Good T.val 0 ([(T / PyFloat.lit 2, T.val / 2, Axis.x)] : Times r) := by
    refine Times.Good.strict ?_ ?_ ?_ ?_ <;> simp [hv, hT]
  refine agrees_of (family := .spinEcho) trivial hT le_rfl hz rfl ?_
  unfold newSpinEchoSequence checkDuration
  rw [checkArguments_bind, if_pos h1]
  simp [Times.rounded, lit_zero, pi_round, Axis.rabi, Axis.azimuthal, Axis.detuning]

/-- **C63**, Carr-Purcell sequence. -/
theorem C63_carr_purcell (T n : Fl r) (hT : 0 < T.val) (hn : 1 ≤ n.val)
    (small : 24 * ⌊n.val⌋₊ * r.u ≤ 1) (prePost : Bool) (name : Option String) :
    Agrees (9 * r.u) (newCarrPurcellSequence T n prePost name)
      (newCarrPurcellSequence T.val n.val prePost name) := by
  have hu := r.u_nonneg
  refine agrees_of (family := .carrPurcell n.val) hn hT (by positivity) (cpmg_good hT small .x) ?_ ?_
  · rw [Times.onAxis_exact, List.map_map]; rfl
  · unfold newCarrPurcellSequence
    rw [rounded_checks hT hn, cpmgOffsets_rounded, Times.onAxis_x, List.map_map]
    rfl

/-- **C63**, CPMG sequence. -/
theorem C63_cpmg (T n : Fl r) (hT : 0 < T.val) (hn : 1 ≤ n.val)
    (small : 24 * ⌊n.val⌋₊ * r.u ≤ 1) (prePost : Bool) (name : Option String) :
    Agrees (9 * r.u) (newCPMGSequence T n prePost name)
      (newCPMGSequence T.val n.val prePost name) := by
  have hu := r.u_nonneg
  refine agrees_of (family := .cpmg n.val) hn hT (by positivity) (cpmg_good hT small .y) ?_ ?_
  · rw [Times.onAxis_exact, List.map_map]; rfl
  · unfold newCPMGSequence
    rw [rounded_checks hT hn, cpmgOffsets_rounded, Times.onAxis_y, List.map_map]
    rfl

/-- **C63**, Uhrig sequence. -/
theorem C63_uhrig (T n : Fl r) (hT : 0 < T.val) (hn : 1 ≤ n.val)
    (small : 70 * ((⌊n.val⌋₊ : ℝ) + 1) ^ 2 * r.u < 1) (prePost : Bool) (name : Option String) :
    Agrees (33 * r.u) (newUhrigSequence T n prePost name)
      (newUhrigSequence T.val n.val prePost name) := by
  have hu := r.u_nonneg
  refine agrees_of (family := .uhrig n.val) hn hT (by positivity) (uhrig_good hT small .y) ?_ ?_
  · rw [Times.onAxis_exact, List.map_map]; rfl
  · unfold newUhrigSequence
    rw [rounded_checks hT hn, Times.onAxis_y, List.map_map]
    rfl

/-- **C63**, periodic sequence. -/
theorem C63_periodic (T n : Fl r) (hT : 0 < T.val) (hn : 1 ≤ n.val)
    (small : 24 * ((⌊n.val⌋₊ : ℝ) + 1) * r.u ≤ 1) (prePost : Bool) (name : Option String) :
    Agrees (7 * r.u) (newPeriodicSequence T n prePost name)
      (newPeriodicSequence T.val n.val prePost name) := by
  have hu := r.u_nonneg
  refine agrees_of (family := .periodic n.val) hn hT (by positivity)
    (periodic_good (n := ⌊n.val⌋₊) hT (by push_cast; exact small) .x) ?_ ?_
  · rw [Times.onAxis_exact, List.map_map]; rfl
  · unfold newPeriodicSequence
    rw [rounded_checks hT hn, Times.onAxis_x, List.map_map]
    rfl

/-- **C63**, Walsh sequence: every accepted order; the Walsh function is sampled without error. -/
theorem C63_walsh (T k : Fl r) (hT : 0 < T.val) (hk : 1 ≤ k.val) (hk' : k.val ≤ 2000)
    (prePost : Bool) (name : Option String) :
    Agrees r.u (newWalshSequence T k prePost name)
      (newWalshSequence T.val k.val prePost name) := by
  have hu := r.u_nonneg
  have h0 : ⌊k.val⌋₊ ≠ 0 := (Nat.floor_pos.mpr hk).ne'
  have h1 : ⌊k.val⌋₊ ≤ 2000 := by
    have := Nat.floor_mono hk'
    simpa using this
  refine agrees_of (family := .walsh k.val) ⟨hk, hk'⟩ hT hu (walsh_good hT h0 h1 .x) ?_ ?_
  · rw [Times.onAxis_exact, List.map_map]; rfl
  · have hgt : Py.gt T (PyFloat.lit 0 : Fl r) = true := by simpa using hT
    have h2000 : r.rnd 2000 = 2000 := by simpa using r.rnd_nat (n := 2000) (by norm_num)
    have hle : (PyFloat.le (PyFloat.lit 1) k && PyFloat.le k (PyFloat.lit 2000)) = true := by
      simp [hk, hk', h2000]
    unfold newWalshSequence checkDuration
    rw [checkArguments_bind, if_pos hgt, checkArguments_bind, if_pos hle,
      pyInt_rounded (by linarith), except_ok_bind, walshOffsets_rounded T h0 h1, except_ok_bind,
      Times.onAxis_x, List.map_map]
    rfl

/-- **C63**, quadratic sequence. -/
theorem C63_quadratic (T n m : Fl r) (hT : 0 < T.val) (hn : 1 ≤ n.val) (hm : 1 ≤ m.val)
    (small : 300 * (((⌊n.val⌋₊ : ℝ) + 1) * (⌊m.val⌋₊ + 1)) ^ 2 * r.u < 1) (prePost : Bool)
    (name : Option String) :
    Agrees (140 * r.u) (newQuadraticSequence T n m prePost name)
      (newQuadraticSequence T.val n.val m.val prePost name) := by
  have hu := r.u_nonneg
  obtain ⟨z, h1, h2, h3⟩ := quadratic_times hT _ _ small
  refine agrees_of (family := .quadratic n.val m.val) ⟨hn, hm⟩ hT (by positivity) h3 h1 ?_
  have hgt : Py.gt T (PyFloat.lit 0 : Fl r) = true := by simpa using hT
  have g1 : Py.ge n (PyFloat.lit 1 : Fl r) = true := by simpa using hn
  have g2 : Py.ge m (PyFloat.lit 1 : Fl r) = true := by simpa using hm
  unfold newQuadraticSequence checkDuration
  rw [checkArguments_bind, if_pos hgt, checkArguments_bind, if_pos g1, checkArguments_bind,
    if_pos g2, pyInt_rounded (by linarith), except_ok_bind, pyInt_rounded (by linarith),
    except_ok_bind, h2]

/-- **C63**, X-concatenated sequence. -/
theorem C63_x_concatenated (T l : Fl r) (hT : 0 < T.val) (hl : 1 ≤ l.val)
    (small : 7 * 4 ^ ⌊l.val⌋₊ * r.u ≤ 1) (prePost : Bool) (name : Option String) :
    Agrees (3 * 2 ^ ⌊l.val⌋₊ * r.u) (newXConcatenatedSequence T l prePost name)
      (newXConcatenatedSequence T.val l.val prePost name) := by
  have hu := r.u_nonneg
  have h0 : ⌊l.val⌋₊ ≠ 0 := (Nat.floor_pos.mpr hl).ne'
  have hN : 7 * ((2 ^ ⌊l.val⌋₊ : ℕ) : ℝ) ^ 2 * r.u ≤ 1 := by
    push_cast
    rw [← pow_mul, mul_comm ⌊l.val⌋₊ 2, pow_mul]
    norm_num
    exact small
  have hg := x_good hT h0 hN
  push_cast at hg
  refine agrees_of (family := .xConcatenated l.val) hl hT (by positivity) hg ?_ ?_
  · rw [Times.onAxis_exact, List.map_map]
    change _ = onAxis .x (xConcatenatedOffsets T.val ⌊l.val⌋₊)
    rw [xOffsets_positions hT h0]
    rfl
  · unfold newXConcatenatedSequence
    rw [rounded_checks hT hl, xOffsets_rounded hT h0 hN, Times.onAxis_x, List.map_map]
    rfl

/-- **C63**, XY-concatenated sequence. -/
theorem C63_xy_concatenated (T l : Fl r) (hT : 0 < T.val) (hl : 1 ≤ l.val)
    (small : 7 * 16 ^ ⌊l.val⌋₊ * r.u ≤ 1) (prePost : Bool) (name : Option String) :
    Agrees (3 * 4 ^ ⌊l.val⌋₊ * r.u) (newXYConcatenatedSequence T l prePost name)
      (newXYConcatenatedSequence T.val l.val prePost name) := by
  have hu := r.u_nonneg
  obtain ⟨k, hk⟩ : ∃ k, ⌊l.val⌋₊ = k + 1 :=
    ⟨⌊l.val⌋₊ - 1, by have := Nat.floor_pos.mpr hl; omega⟩
  have hN : 7 * ((4 ^ (k + 1) : ℕ) : ℝ) ^ 2 * r.u ≤ 1 := by
    rw [hk] at small
    push_cast
    rw [← pow_mul, mul_comm (k + 1) 2, pow_mul]
    norm_num
    exact small
  obtain ⟨z, h1, h2, h3⟩ := xy_times hT k hN
  push_cast at h3
  rw [← hk] at h1 h2 h3
  refine agrees_of (family := .xyConcatenated l.val) hl hT (by positivity) h3 h1 ?_
  unfold newXYConcatenatedSequence
  rw [rounded_checks hT hl, h2]

/-! Double precision: `10` and `4` are floating-point numbers, and the conditions on the sizes hold. -/

theorem double_u : Rounding.double.u = 1 / 2 ^ 53 := rfl

theorem double_nat {n : ℕ} (h : n ≤ 2 ^ 20) : (round Rounding.double n).val = n :=
  Rounding.double.rnd_nat h

example (prePost : Bool) (name : Option String) :
    Agrees (9 / 2 ^ 53) (newCPMGSequence (round Rounding.double 10) (round Rounding.double 4) prePost name)
      (newCPMGSequence 10 4 prePost name) := by
  have h10 : (round Rounding.double 10).val = 10 := by simpa using double_nat (n := 10) (by norm_num)
  have h4 : (round Rounding.double 4).val = 4 := by simpa using double_nat (n := 4) (by norm_num)
  have := C63_cpmg (r := Rounding.double) (round _ 10) (round _ 4) (by rw [h10]; norm_num)
    (by rw [h4]; norm_num) (by rw [h4, double_u]; norm_num) prePost name
  rw [h10, h4, double_u] at this
  convert this using 1
  norm_num

example (prePost : Bool) (name : Option String) :
    Agrees (33 / 2 ^ 53)
      (newUhrigSequence (round Rounding.double 10) (round Rounding.double 1000) prePost name)
      (newUhrigSequence 10 1000 prePost name) := by
  have h10 : (round Rounding.double 10).val = 10 := by simpa using double_nat (n := 10) (by norm_num)
  have h4 : (round Rounding.double 1000).val = 1000 := by
    simpa using double_nat (n := 1000) (by norm_num)
  have := C63_uhrig (r := Rounding.double) (round _ 10) (round _ 1000) (by rw [h10]; norm_num)
    (by rw [h4]; norm_num) (by rw [h4, double_u]; norm_num) prePost name
  rw [h10, h4, double_u] at this
  convert this using 1
  norm_num

example (prePost : Bool) (name : Option String) :
    Agrees (1 / 2 ^ 53)
      (newWalshSequence (round Rounding.double 10) (round Rounding.double 2000) prePost name)
      (newWalshSequence 10 2000 prePost name) := by
  have h10 : (round Rounding.double 10).val = 10 := by simpa using double_nat (n := 10) (by norm_num)
  have h4 : (round Rounding.double 2000).val = 2000 := by
    simpa using double_nat (n := 2000) (by norm_num)
  have := C63_walsh (r := Rounding.double) (round _ 10) (round _ 2000) (by rw [h10]; norm_num)
    (by rw [h4]; norm_num) (by rw [h4]) prePost name
  rwa [h10, h4, double_u] at this

example (prePost : Bool) (name : Option String) :
    Agrees (140 / 2 ^ 53) (newQuadraticSequence (round Rounding.double 10) (round Rounding.double 50)
        (round Rounding.double 50) prePost name)
      (newQuadraticSequence 10 50 50 prePost name) := by
  have h10 : (round Rounding.double 10).val = 10 := by simpa using double_nat (n := 10) (by norm_num)
  have h4 : (round Rounding.double 50).val = 50 := by
    simpa using double_nat (n := 50) (by norm_num)
  have := C63_quadratic (r := Rounding.double) (round _ 10) (round _ 50) (round _ 50)
    (by rw [h10]; norm_num) (by rw [h4]; norm_num) (by rw [h4]; norm_num)
    (by rw [h4, double_u]; norm_num) prePost name
  rw [h10, h4, double_u] at this
  convert this using 1
  norm_num

example (prePost : Bool) (name : Option String) :
    Agrees (3 * 4 ^ 10 / 2 ^ 53)
      (newXYConcatenatedSequence (round Rounding.double 10) (round Rounding.double 10) prePost name)
      (newXYConcatenatedSequence 10 10 prePost name) := by
  have h10 : (round Rounding.double 10).val = 10 := by simpa using double_nat (n := 10) (by norm_num)
  have := C63_xy_concatenated (r := Rounding.double) (round _ 10) (round _ 10)
    (by rw [h10]; norm_num) (by rw [h10]; norm_num)
    (by rw [h10, double_u]; norm_num) prePost name
  rw [h10, double_u] at this
  convert this using 1
  norm_num

end OpenControls
