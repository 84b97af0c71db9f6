import Verif.Proofs.FloatReprRounding
import Verif.Props.Reload

/-!
# C117: the texts of floats in files
-/

namespace OpenControls

open Spec FloatText
open Fl (val)
open scoped Matrix.Norms.L2Operator

/-- **C117.** Binary floating-point numbers of any precision satisfy what is needed below. -/
theorem C117_bits (p : ℕ) (hp : 20 ≤ p) : Decimal (Rounding.bits p hp).rnd := decimal_bits (by omega)

/-- **C117.** So do the numbers of double precision, with subnormal numbers. -/
theorem C117_double : Decimal Limits.double.rnd := decimal_double

section

variable {rnd : ℝ → ℝ} {choose : ℝ → ℕ × ℤ}

/-- **C117.** For every number there is a decimal number with fewest digits that is read as the number, and a nearest one
of these, so `float.__repr__` can choose one. -/
theorem C117_exists (hd : Decimal rnd) : ∃ choose, Prints rnd choose := by
  classical
  have h : ∀ x, ∃ q : ℕ × ℤ, 0 < x → rnd x = x → Chosen rnd x q.1 q.2 := by
    intro x
    by_cases hx : 0 < x ∧ rnd x = x
    · obtain ⟨D, k, h⟩ := chosen_exists hd hx.1 hx.2
      exact ⟨(D, k), fun _ _ => h⟩
    · exact ⟨(0, 0), fun h1 h2 => absurd ⟨h1, h2⟩ hx⟩
  choose f hf using h
  exact ⟨f, hf⟩

theorem floatText_read (hd : Decimal rnd) (hc : Prints rnd choose) {x : ℝ} (hx : rnd x = x) :
    isNumber (floatText choose x) = true ∧ rnd (numberValue (floatText choose x)) = x := by
  unfold floatText
  split
  · rename_i h
    refine ⟨rfl, ?_⟩
    have : numberValue ['0', '.', '0'] = 0 := by decide +kernel
    rw [this, h]
    push_cast
    exact zero_of_decimal hd
  split
  · rename_i h0 h
    have := chosen_text hd (hc (-x) (by linarith) (by rw [hd.neg, hx]))
    rw [neg_neg] at this
    exact this.2.2
  · rename_i h0 h
    have := chosen_text hd (hc x (lt_of_le_of_ne (not_lt.mp h) (Ne.symm h0)) hx)
    exact ⟨this.1, this.2.1⟩

/-- **C117.** The text of a number is a number in JSON, and a reader that rounds what it denotes gets the number. -/
theorem C117_reads_back (hd : Decimal rnd) (hc : Prints rnd choose) {x : ℝ} (hx : rnd x = x) :
    isNumber (floatText choose x) = true ∧ readFloat rnd (floatText choose x) = some x := by
  obtain ⟨h1, h2⟩ := floatText_read hd hc hx
  refine ⟨h1, ?_⟩
  unfold readFloat
  rw [if_pos h1, h2]

/-- **C117.** Different numbers have different texts. -/
theorem C117_injective (hd : Decimal rnd) (hc : Prints rnd choose) {x y : ℝ} (hx : rnd x = x) (hy : rnd y = y)
    (h : floatText choose x = floatText choose y) : x = y := by
  have h1 := (C117_reads_back hd hc hx).2
  rw [h, (C117_reads_back hd hc hy).2] at h1
  exact (Option.some.inj h1).symm

theorem read_eq {cs : List Char} {x : ℝ} (h : readFloat rnd cs = some x) : rnd (numberValue cs) = x := by
  unfold readFloat at h
  split at h
  · exact Option.some.inj h
  · cases h

/-- the digits of the text of a number that is not zero -/
theorem floatText_digits (hd : Decimal rnd) (hc : Prints rnd choose) {x : ℝ} (hx : rnd x = x) (h0 : x ≠ 0) :
    ∃ n D k, Denotes rnd |x| n D k ∧ (∀ n' < n, ∀ D' k', ¬ Denotes rnd |x| n' D' k') ∧
      (∀ D' k', Denotes rnd |x| n D' k' → abs ((D * 10 ^ k : ℝ) - |x|) ≤ abs ((D' * 10 ^ k' : ℝ) - |x|)) ∧
      significantDigits (floatText choose x) = n ∧ |((numberValue (floatText choose x) : ℚ) : ℝ)| = D * 10 ^ k := by
  have hr : rnd |x| = |x| := by
    rcases abs_cases x with ⟨e, -⟩ | ⟨e, -⟩ <;> rw [e]
    · exact hx
    · rw [hd.neg, hx]
  obtain ⟨n, h1, h2, h3⟩ := hc |x| (abs_pos.mpr h0) hr
  have hle : significantDigits (floatText choose x) ≤ n ∧
      |((numberValue (floatText choose x) : ℚ) : ℝ)| = (choose |x|).1 * 10 ^ (choose |x|).2 := by
    have hs := chosen_significant h1
    obtain ⟨-, l2, -, l4⟩ := layout_spec (denotes_pos h1) (choose |x|).2
    have hv : ((unsignedValue (layout (choose |x|).1 (choose |x|).2) : ℚ) : ℝ) =
        (choose |x|).1 * 10 ^ (choose |x|).2 := by rw [l2]; push_cast; rfl
    unfold floatText
    rw [if_neg h0]
    split
    · rename_i hneg
      rw [← abs_of_neg hneg]
      refine ⟨hs.2, ?_⟩
      show |((-unsignedValue (layout (choose |x|).1 (choose |x|).2) : ℚ) : ℝ)| = _
      push_cast
      rw [abs_neg, hv, abs_of_nonneg (by positivity)]
    · rename_i hneg
      rw [abs_of_nonneg (not_lt.mp hneg)] at hs l2 l4 hv ⊢
      refine ⟨hs.1, ?_⟩
      rw [numberValue_of_digit l4, hv, abs_of_nonneg (by positivity)]
  refine ⟨n, _, _, h1, h2, h3, le_antisymm hle.1 ?_, hle.2⟩
  obtain ⟨D, k, h4⟩ := digits_needed hd h0 (floatText_read hd hc hx).2
  exact not_lt.mp fun hlt => h2 _ hlt D k h4

/-- **C117.** No text with fewer significant digits is read as the number. -/
theorem C117_shortest (hd : Decimal rnd) (hc : Prints rnd choose) {x : ℝ} (hx : rnd x = x) (cs : List Char)
    (h : readFloat rnd cs = some x) : significantDigits (floatText choose x) ≤ significantDigits cs := by
  by_cases h0 : x = 0
  · have : significantDigits (floatText choose x) = 0 := by
      unfold floatText; rw [if_pos h0]; decide
    omega
  · obtain ⟨n, D, k, h1, h2, -, h4, -⟩ := floatText_digits hd hc hx h0
    obtain ⟨D', k', h5⟩ := digits_needed hd h0 (read_eq h)
    rw [h4]
    exact not_lt.mp fun hlt => h2 _ hlt D' k' h5

theorem abs_sub_same_sign (hd : Decimal rnd) {v x : ℝ} (h : rnd v = x) : |v - x| = abs (|v| - |x|) := by
  rcases le_total 0 v with hv | hv
  · have := hd.mono hv
    rw [zero_of_decimal hd, h] at this
    rw [abs_of_nonneg hv, abs_of_nonneg this]
  · have := hd.mono hv
    rw [zero_of_decimal hd, h] at this
    rw [abs_of_nonpos hv, abs_of_nonpos this, ← abs_neg]
    congr 1
    ring

/-- **C117.** No other text with as many significant digits that is read as the number is nearer to it. -/
theorem C117_nearest (hd : Decimal rnd) (hc : Prints rnd choose) {x : ℝ} (hx : rnd x = x) (cs : List Char)
    (h : readFloat rnd cs = some x) (hn : significantDigits cs = significantDigits (floatText choose x)) :
    |((numberValue (floatText choose x) : ℚ) : ℝ) - x| ≤ |((numberValue cs : ℚ) : ℝ) - x| := by
  by_cases h0 : x = 0
  · have : numberValue (floatText choose x) = 0 := by
      unfold floatText; rw [if_pos h0]; decide +kernel
    rw [this, h0]
    simp
  · obtain ⟨n, D, k, h1, h2, h3, h4, h5⟩ := floatText_digits hd hc hx h0
    have hv : ((numberValue cs : ℚ) : ℝ) ≠ 0 := by
      intro e
      have := read_eq h
      rw [e, zero_of_decimal hd] at this
      exact h0 this.symm
    obtain ⟨D', k', e, l1, l2, l3⟩ := significant_value (cs := cs) (by exact_mod_cast hv)
    rw [hn, h4] at l1 l2 l3
    have e' : |((numberValue cs : ℚ) : ℝ)| = D' * 10 ^ k' := by
      have := congrArg (fun q : ℚ => (q : ℝ)) e
      push_cast at this
      exact this
    rw [abs_sub_same_sign hd (floatText_read hd hc hx).2, abs_sub_same_sign hd (read_eq h), h5, e']
    refine h3 D' k' ⟨l1, l2, l3, ?_⟩
    rw [← e']
    have hr := read_eq h
    rcases le_total 0 ((numberValue cs : ℚ) : ℝ) with hs | hs
    · have := hd.mono hs
      rw [zero_of_decimal hd, hr] at this
      rw [abs_of_nonneg hs, abs_of_nonneg this, hr]
    · have := hd.mono hs
      rw [zero_of_decimal hd, hr] at this
      rw [abs_of_nonpos hs, abs_of_nonpos this, hd.neg, hr]

theorem e_not_digit {l : List Char} (h : ∀ c ∈ l, isDigit c = true) : 'e' ∉ l := fun he => absurd (h 'e' he) (by decide)

theorem layout_exponent {D : ℕ} (hD : 0 < D) (k : ℤ) :
    'e' ∈ layout D k ↔ (D * 10 ^ k : ℝ) < 1 / 10 ^ 4 ∨ 10 ^ 16 ≤ (D * 10 ^ k : ℝ) := by
  have hds := e_not_digit (l := decimalDigits D) fun c hc => decimal_digits hc
  obtain ⟨n, h1, h2, h3⟩ := exists_length hD
  have hn := length_decimal h1 h2 h3
  have hk : (0 : ℝ) < 10 ^ k := by positivity
  have h10 : (1 : ℝ) < 10 := by norm_num
  have lo : (10 : ℝ) ^ ((n : ℤ) + k - 1) ≤ D * 10 ^ k := by
    have : (10 : ℝ) ^ (n - 1) ≤ D := by exact_mod_cast h2
    calc (10 : ℝ) ^ ((n : ℤ) + k - 1) = 10 ^ (n - 1) * 10 ^ k := by
          rw [← zpow_natCast, ← zpow_add₀ (by norm_num)]; congr 1; omega
      _ ≤ D * 10 ^ k := by gcongr
  have hi : (D * 10 ^ k : ℝ) < 10 ^ ((n : ℤ) + k) := by
    have : (D : ℝ) < 10 ^ n := by exact_mod_cast h3
    rw [zpow_add₀ (by norm_num), zpow_natCast]
    exact mul_lt_mul_of_pos_right this hk
  have a1 : (1 : ℝ) / 10 ^ 4 = 10 ^ (-4 : ℤ) := by rw [zpow_neg, one_div]; norm_cast
  have a2 : (10 : ℝ) ^ 16 = 10 ^ (16 : ℤ) := by norm_cast
  have key : (D * 10 ^ k : ℝ) < 1 / 10 ^ 4 ∨ 10 ^ 16 ≤ (D * 10 ^ k : ℝ) ↔ ¬ (-4 < (n : ℤ) + k ∧ (n : ℤ) + k ≤ 16) := by
    rw [a1, a2]
    constructor
    · rintro (h | h) ⟨p1, p2⟩
      · have := (zpow_lt_zpow_iff_right₀ h10).mp (lo.trans_lt h)
        omega
      · have := (zpow_lt_zpow_iff_right₀ h10).mp (h.trans_lt hi)
        omega
    · intro h
      by_cases h4 : -4 < (n : ℤ) + k
      · right
        exact (zpow_le_zpow_right₀ h10.le (by omega)).trans lo
      · left
        exact hi.trans_le (zpow_le_zpow_right₀ h10.le (by omega))
  rw [key]
  unfold layout
  dsimp only
  rw [hn]
  have hz : ∀ j, 'e' ∉ List.replicate j '0' := fun j he => absurd (List.eq_of_mem_replicate he) (by decide)
  split
  · rename_i hp
    refine iff_of_false ?_ (not_not.mpr hp)
    split
    · simp [hds]
    split
    · simp [hds]
    · simp only [List.mem_append, List.mem_cons, not_or]
      exact ⟨fun h => hds (List.mem_of_mem_take h), by decide, fun h => hds (List.mem_of_mem_drop h)⟩
  · rename_i hp
    exact iff_of_true (by simp) hp

/-- **C117.** A number is written with an exponent exactly if it is less than `1e-4` or at least `1e16`. -/
theorem C117_notation (hd : Decimal rnd) (hc : Prints rnd choose) {x : ℝ} (hx : rnd x = x) (h0 : x ≠ 0) :
    'e' ∈ floatText choose x ↔ |((numberValue (floatText choose x) : ℚ) : ℝ)| < 1 / 10 ^ 4 ∨
      10 ^ 16 ≤ |((numberValue (floatText choose x) : ℚ) : ℝ)| := by
  have hr : rnd |x| = |x| := by
    rcases abs_cases x with ⟨e, -⟩ | ⟨e, -⟩ <;> rw [e]
    · exact hx
    · rw [hd.neg, hx]
  obtain ⟨n, h1, -, -⟩ := hc |x| (abs_pos.mpr h0) hr
  obtain ⟨-, l2, -, l4⟩ := layout_spec (denotes_pos h1) (choose |x|).2
  have hv : ((unsignedValue (layout (choose |x|).1 (choose |x|).2) : ℚ) : ℝ) =
      (choose |x|).1 * 10 ^ (choose |x|).2 := by rw [l2]; push_cast; rfl
  have key := layout_exponent (denotes_pos h1) (choose |x|).2
  unfold floatText
  rw [if_neg h0]
  split
  · rename_i hneg
    rw [← abs_of_neg hneg]
    have : |((numberValue ('-' :: layout (choose |x|).1 (choose |x|).2) : ℚ) : ℝ)| =
        (choose |x|).1 * 10 ^ (choose |x|).2 := by
      show |((-unsignedValue (layout (choose |x|).1 (choose |x|).2) : ℚ) : ℝ)| = _
      push_cast
      rw [abs_neg, hv, abs_of_nonneg (by positivity)]
    rw [this, ← key]
    simp
  · rename_i hneg
    rw [abs_of_nonneg (not_lt.mp hneg)] at key l4 hv
    rw [numberValue_of_digit l4, hv, abs_of_nonneg (by positivity), key]

end

/-- if decimal numbers of `n` digits that are close to a number are rounded to it, its text has at most `n` digits -/
theorem digits_le {rnd : ℝ → ℝ} {choose : ℝ → ℕ × ℤ} (hd : Decimal rnd) (hc : Prints rnd choose) {n : ℕ} (hn : 1 ≤ n)
    {x : ℝ} (hx : rnd x = x)
    (h : ∀ x y, 0 < x → rnd x = x → |y - x| ≤ x / (2 * 10 ^ (n - 1)) → rnd y = x) :
    significantDigits (floatText choose x) ≤ n := by
  by_cases h0 : x = 0
  · have : significantDigits (floatText choose x) = 0 := by
      unfold floatText; rw [if_pos h0]; decide
    omega
  · obtain ⟨m, D, k, h1, h2, -, h4, -⟩ := floatText_digits hd hc hx h0
    have hr : rnd |x| = |x| := by
      rcases abs_cases x with ⟨e, -⟩ | ⟨e, -⟩ <;> rw [e]
      · exact hx
      · rw [hd.neg, hx]
    obtain ⟨D', k', n', hle, d1, d2, d3, d4⟩ := exists_digits (abs_pos.mpr h0) hn
    rw [h4]
    refine not_lt.mp fun hlt => h2 n' (by omega) D' k' ⟨d1, d2, d3, ?_⟩
    exact h |x| _ (abs_pos.mpr h0) hr d4

/-- **C117.** Numbers with a precision of `p` bits need at most `n` digits if `2 ^ p < 10 ^ (n - 1)`. -/
theorem C117_digits (p : ℕ) (hp : 20 ≤ p) {choose : ℝ → ℕ × ℤ} (hc : Prints (Rounding.bits p hp).rnd choose) (n : ℕ)
    (hn : 2 ^ p < 10 ^ (n - 1)) (x : Fl (Rounding.bits p hp)) : significantDigits (floatText choose x.val) ≤ n := by
  have h1 : 1 ≤ n := by
    by_contra h
    rw [show n - 1 = 0 by omega, pow_zero] at hn
    have := Nat.one_le_two_pow (n := p)
    omega
  refine digits_le (C117_bits p hp) hc h1 x.2 fun x y hx hr hy => ?_
  have hlt : (2 : ℝ) ^ p < 10 ^ (n - 1) := by exact_mod_cast hn
  have h2 : |y - x| < x / (2 * 2 ^ p) :=
    hy.trans_lt (div_lt_div_of_pos_left hx (by positivity) (by linarith))
  have hy0 : 0 ≤ y := by
    have h3 : x / (2 * 2 ^ p) ≤ x := div_le_self hx.le (by have := one_le_pow₀ (M₀ := ℝ) (n := p) one_le_two; linarith)
    have := abs_lt.mp h2
    linarith
  have hr' : Bits.roundPos p x = x := by rw [← Bits.rnd_of_nonneg hx.le]; exact hr
  show Bits.rnd p y = x
  rw [Bits.rnd_of_nonneg hy0]
  exact round_close (by omega) hx hr' h2

/-- **C117.** Numbers of double precision, also subnormal ones, need at most 17 digits. -/
theorem C117_seventeen {choose : ℝ → ℕ × ℤ} (hc : Prints Limits.double.rnd choose) (x : ℝ)
    (hx : Limits.double.rnd x = x) : significantDigits (floatText choose x) ≤ 17 := by
  refine digits_le C117_double hc (by norm_num) hx fun x y hx hr hy => ?_
  have hy0 : 0 ≤ y := by
    have := abs_le.mp hy
    have h3 : x / (2 * 10 ^ (17 - 1)) ≤ x := div_le_self hx.le (by norm_num)
    linarith
  have hr' : Bits.limPos x = x := by rw [← Bits.limRnd_of_nonneg hx.le]; exact hr
  show Bits.limRnd y = x
  rw [Bits.limRnd_of_nonneg hy0]
  exact lim_close hx hr' hy

/-! ## Files -/

section

variable {p : ℕ} {hp : 20 ≤ p} {choose : ℝ → ℕ × ℤ}

theorem flText_number (hc : Prints (Rounding.bits p hp).rnd choose) (x : Fl (Rounding.bits p hp)) :
    isNumber (flText choose x).toList = true := by
  unfold flText
  rw [String.toList_ofList]
  exact (C117_reads_back (C117_bits p hp) hc x.2).1

theorem flText_read (hc : Prints (Rounding.bits p hp).rnd choose) (x : Fl (Rounding.bits p hp)) :
    readFl (Rounding.bits p hp) (flText choose x).toList = some x := by
  have h := floatText_read (x := x.val) (C117_bits p hp) hc x.2
  unfold flText readFl
  rw [String.toList_ofList, if_pos h.1]
  congr 1
  exact Subtype.ext h.2

/-- **C117.** A control with drive is read back from the text of a CSV or JSON file, written and read with rounding, and
the evolution it generates is that of the control up to `3 u` times the total rotation. -/
theorem C117_reload (hc : Prints (Rounding.bits p hp).rnd choose) (c : DrivenControl (Fl (Rounding.bits p hp)))
    (h : c.Constructed) (hdrive : ∃ x ∈ c.rabiRates, 0 < x.val) (fs : FileSystem (Fl (Rounding.bits p hp)))
    (filename : String) :
    (c.name ≠ none → ∃ fs' content c',
      c.exportToFile fs filename "Q-CTRL expanded" "CSV" "cylindrical" = (.ok (), fs') ∧
      fs' filename = some content ∧
      reloadCsv (readFl (Rounding.bits p hp)) c.name (fileText (flText choose) content) = some (.ok c') ∧
      ‖evolution (c'.map val) - evolution (c.map val)‖ ≤ 3 / 2 ^ p * totalRotation (c.map val)) ∧
    ∃ fs' content c',
      c.exportToFile fs filename "Q-CTRL expanded" "JSON" "cylindrical" = (.ok (), fs') ∧
      fs' filename = some content ∧ reloadJson (readFl (Rounding.bits p hp)) (fileText (flText choose) content) = some (.ok c') ∧
      ‖evolution (c'.map val) - evolution (c.map val)‖ ≤ 3 / 2 ^ p * totalRotation (c.map val) := by
  obtain ⟨m, hm, -, -⟩ := npAmax_rounded (l := c.rabiRates) (by
    obtain ⟨x, hx, -⟩ := hdrive
    exact List.ne_nil_of_mem hx)
  have hu : (3 : ℝ) / 2 ^ p = 3 * (Rounding.bits p hp).u := by
    show _ = 3 * (1 / 2 ^ p); ring
  rw [hu]
  have := C99_rounded (flText choose) (readFl (Rounding.bits p hp)) c h hdrive fs filename m hm fun x _ => flText_read hc x
  exact ⟨this.1, this.2 (flText_number hc)⟩

/-- **C117.** The same in Cartesian coordinates, up to `7 u` times the total rotation. -/
theorem C117_reload_cartesian (hc : Prints (Rounding.bits p hp).rnd choose)
    (c : DrivenControl (Fl (Rounding.bits p hp))) (h : c.Constructed) (hdrive : ∃ x ∈ c.rabiRates, 0 < x.val)
    (fs : FileSystem (Fl (Rounding.bits p hp))) (filename : String) :
    (c.name ≠ none → ∃ fs' content segments,
      c.exportToFile fs filename "Q-CTRL expanded" "CSV" "cartesian" = (.ok (), fs') ∧
      fs' filename = some content ∧
      reloadCsvCartesian (readFl (Rounding.bits p hp)) (fileText (flText choose) content) = some segments ∧
      ‖cartesianEvolution (segments.map fun s => (s.1.val, s.2.1.val, s.2.2.1.val, s.2.2.2.val)) -
        evolution (c.map val)‖ ≤ 7 / 2 ^ p * totalRotation (c.map val)) ∧
    ∃ fs' content segments,
      c.exportToFile fs filename "Q-CTRL expanded" "JSON" "cartesian" = (.ok (), fs') ∧
      fs' filename = some content ∧
      reloadJsonCartesian (readFl (Rounding.bits p hp)) (fileText (flText choose) content) = some segments ∧
      ‖cartesianEvolution (segments.map fun s => (s.1.val, s.2.1.val, s.2.2.1.val, s.2.2.2.val)) -
        evolution (c.map val)‖ ≤ 7 / 2 ^ p * totalRotation (c.map val) := by
  obtain ⟨m, hm, -, -⟩ := npAmax_rounded (l := c.rabiRates) (by
    obtain ⟨x, hx, -⟩ := hdrive
    exact List.ne_nil_of_mem hx)
  have hu : (7 : ℝ) / 2 ^ p = 7 * (Rounding.bits p hp).u := by
    show _ = 7 * (1 / 2 ^ p); ring
  rw [hu]
  have := C99_rounded_cartesian (flText choose) (readFl (Rounding.bits p hp)) c h hdrive fs filename m hm fun x _ => flText_read hc x
  exact ⟨this.1, this.2 (flText_number hc)⟩

end

section

variable {choose : ℝ → ℕ × ℤ}

/-- **C117.** The text of a finite number of double precision is read back as the number, by a reader for which numbers
that are too large are infinite. -/
theorem C117_limited (hc : Prints Limits.double.rnd choose) (x : Lim Limits.double) (hx : ∃ v, x.val = .fin v) :
    isNumber (limText choose x).toList = true ∧ readLim Limits.double (limText choose x).toList = some x := by
  obtain ⟨v, hv⟩ := hx
  have hrep : Limits.double.Rep (.fin v) := by rw [← hv]; exact x.2
  have h := floatText_read C117_double hc hrep.1
  have ht : (limText choose x).toList = floatText choose v := by
    unfold limText; rw [hv]; exact String.toList_ofList
  rw [ht]
  refine ⟨h.1, ?_⟩
  unfold readLim
  rw [if_pos h.1]
  congr 1
  apply Lim.ext
  rw [hv]
  show Limits.double.lim (.fin _) = .fin v
  unfold Limits.lim
  dsimp only
  have hb := abs_le.mp hrep.2
  rw [h.2, if_neg (not_lt.mpr hb.2), if_neg (not_lt.mpr hb.1)]

/-- **C117.** The JSON file of a control of double precision is valid JSON exactly if all numbers in it are finite. -/
theorem C117_json_valid_iff (hc : Prints Limits.double.rnd choose) (c : DrivenControl (Lim Limits.double))
    (fs : FileSystem (Lim Limits.double)) (filename coordinates : String) (m : Lim Limits.double)
    (hm : c.maximumRabiRate = .ok m) (hco : coordinates = "cartesian" ∨ coordinates = "cylindrical") :
    ∃ fs' content, c.exportToFile fs filename "Q-CTRL expanded" "JSON" coordinates = (.ok (), fs') ∧
      fs' filename = some content ∧
      ((∃ value, readJson (fileText (limText choose) content) = some value) ↔
        ∀ x ∈ content.numbers, ∃ v, x.val = .fin v) := by
  have hfin : ∀ x : Lim Limits.double, (∃ v, x.val = .fin v) ∨ isNonFinite (limText choose x).toList := by
    intro x
    unfold limText
    cases hx : x.val with
    | fin v => exact .inl ⟨v, rfl⟩
    | inf => exact .inr (.inr (.inl rfl))
    | negInf => exact .inr (.inr (.inr rfl))
    | nan => exact .inr (.inl rfl)
  have hfmt : ∀ x : Lim Limits.double,
      isNumber (limText choose x).toList = true ∨ isNonFinite (limText choose x).toList := fun x =>
    (hfin x).imp (fun h => (C117_limited hc x h).1) id
  obtain ⟨fs', content, h1, h2, -, h3, h4⟩ := C74_json_text (limText choose) hfmt c fs filename coordinates m hm hco
  refine ⟨fs', content, h1, h2, ?_, ?_⟩
  · rintro ⟨value, hv⟩ x hx
    refine (hfin x).resolve_right fun hn => ?_
    rw [h3 ⟨x, hx, hn⟩] at hv
    cases hv
  · intro hall
    obtain ⟨object, h5, -⟩ := h4 fun x hx => (C117_limited hc x (hall x hx)).1
    exact ⟨_, h5⟩

/-- **C117.** Files of controls of double precision with finite numbers are read back: the attributes unchanged, the Rabi
rates divided and multiplied by their maximum. -/
theorem C117_reload_limited (hc : Prints Limits.double.rnd choose) (c : DrivenControl (Lim Limits.double))
    (h : c.Constructed) (fs : FileSystem (Lim Limits.double)) (filename : String) (m : Lim Limits.double)
    (hm : c.maximumRabiRate = .ok m)
    (hfin : ∀ x ∈ m :: c.rabiRates.map (· / m) ++ c.azimuthalAngles ++ c.detunings ++ c.durations,
      ∃ v, x.val = .fin v) (nm : String) (hname : c.name = some nm) :
    ∃ fs' content, c.exportToFile fs filename "Q-CTRL expanded" "CSV" "cylindrical" = (.ok (), fs') ∧
      fs' filename = some content ∧
      reloadCsv (readLim Limits.double) c.name (fileText (limText choose) content) = some (DrivenControl.new c.durations
        (some (c.rabiRates.map fun x => m * (x / m))) (some c.azimuthalAngles) (some c.detunings) c.name) :=
  C99_csv (limText choose) (readLim Limits.double) c h fs filename nm m hname hm
    (fun x hx => (C117_limited hc x (hfin x hx)).2) c.name

end

/-- the text of a tenth in double precision -/
example : ∃ choose, Prints Limits.double.rnd choose ∧
    readFloat Limits.double.rnd (floatText choose (Limits.double.rnd (1 / 10))) = some (Limits.double.rnd (1 / 10)) ∧
    significantDigits (floatText choose (Limits.double.rnd (1 / 10))) = 1 := by
  obtain ⟨choose, hc⟩ := C117_exists C117_double
  have hr : Limits.double.rnd (Limits.double.rnd (1 / 10)) = Limits.double.rnd (1 / 10) := Limits.double.idem _
  have hv : numberValue "0.1".toList = 1 / 10 := by decide +kernel
  have hn : isNumber "0.1".toList = true := by decide
  have h0 : Limits.double.rnd (1 / 10) ≠ 0 := by
    intro e
    have := (Limits.double.underflow (1 / 10) (by norm_num)).mp e
    have h2 : Limits.double.tiny ≤ 1 / 2 ^ 250 := Limits.double.tiny_le.trans Limits.double.smallest_le
    norm_num at h2 this
    linarith
  refine ⟨choose, hc, (C117_reads_back C117_double hc hr).2, le_antisymm ?_ ?_⟩
  · have := C117_shortest C117_double hc hr "0.1".toList (by
      unfold readFloat
      rw [if_pos hn, hv]
      push_cast
      rfl)
    exact this.trans (by decide)
  · obtain ⟨n, D, k, h1, -, -, h4, -⟩ := floatText_digits C117_double hc hr h0
    rw [h4]
    exact h1.1

end OpenControls
