import Verif.Model.FloatRepr
import Verif.Spec.FloatRepr
import Mathlib.Data.Nat.Digits.Lemmas
import Mathlib.Tactic.Linarith
import Mathlib.Tactic.Ring
import Mathlib.Tactic.Positivity
import Mathlib.Tactic.FieldSimp

/-!
# Texts of floats: digits and layout
-/

namespace OpenControls

open Spec

namespace FloatText

theorem foldl_value (l : List Char) (n : ℕ) :
    l.foldl (fun n c => 10 * n + (c.toNat - 48)) n = n * 10 ^ l.length + digitsValue l := by
  unfold digitsValue
  induction l generalizing n with
  | nil => simp
  | cons c l ih =>
    rw [List.foldl_cons, List.foldl_cons, ih, ih (10 * 0 + _), List.length_cons]
    ring

theorem value_append (a b : List Char) : digitsValue (a ++ b) = digitsValue a * 10 ^ b.length + digitsValue b := by
  conv_lhs => unfold digitsValue
  rw [List.foldl_append, foldl_value]
  rfl

theorem value_cons (c : Char) (l : List Char) : digitsValue (c :: l) = (c.toNat - 48) * 10 ^ l.length + digitsValue l := by
  have := value_append [c] l
  simpa [digitsValue] using this

theorem value_zeros (n : ℕ) : digitsValue (List.replicate n '0') = 0 := by
  induction n with
  | zero => rfl
  | succ n ih => rw [List.replicate_succ, value_cons, ih]; simp

theorem isDigit_iff (c : Char) : isDigit c = true ↔ 48 ≤ c.toNat ∧ c.toNat ≤ 57 := by
  unfold isDigit
  rw [Bool.and_eq_true, decide_eq_true_eq, decide_eq_true_eq]
  exact Iff.rfl

theorem eq_zero_of_toNat {c : Char} (h : c.toNat = 48) : c = '0' := by
  have := Char.ofNat_toNat c
  rw [h] at this
  exact this.symm

theorem value_lt {l : List Char} (h : ∀ c ∈ l, isDigit c = true) : digitsValue l < 10 ^ l.length := by
  induction l with
  | nil => simp [digitsValue]
  | cons c l ih =>
    have h1 := (isDigit_iff c).mp (h c (by simp))
    have h2 := ih fun c hc => h c (by simp [hc])
    rw [value_cons, List.length_cons, pow_succ]
    have : (c.toNat - 48) * 10 ^ l.length ≤ 9 * 10 ^ l.length := Nat.mul_le_mul_right _ (by omega)
    omega

theorem le_value {c : Char} {l : List Char} (h : isDigit c = true) (hc : c ≠ '0') :
    10 ^ l.length ≤ digitsValue (c :: l) := by
  have h1 := (isDigit_iff c).mp h
  have h2 : c.toNat ≠ 48 := fun e => hc (eq_zero_of_toNat e)
  rw [value_cons]
  have : 1 * 10 ^ l.length ≤ (c.toNat - 48) * 10 ^ l.length := Nat.mul_le_mul_right _ (by omega)
  omega

theorem digitChar_toNat {d : ℕ} (h : d < 10) : (Nat.digitChar d).toNat = 48 + d := by
  interval_cases d <;> rfl

theorem isDigit_digitChar {d : ℕ} (h : d < 10) : isDigit (Nat.digitChar d) = true := by
  rw [isDigit_iff, digitChar_toNat h]; omega

theorem value_reverse (L : List ℕ) (h : ∀ d ∈ L, d < 10) :
    digitsValue (L.reverse.map Nat.digitChar) = Nat.ofDigits 10 L := by
  induction L with
  | nil => rfl
  | cons d L ih =>
    rw [List.reverse_cons, List.map_append, value_append, ih fun d hd => h d (by simp [hd]), Nat.ofDigits_cons]
    have := digitChar_toNat (h d (by simp))
    simp [digitsValue, this]
    omega

theorem value_decimal (n : ℕ) : digitsValue (decimalDigits n) = n := by
  unfold decimalDigits
  rw [value_reverse _ fun d hd => Nat.digits_lt_base (by norm_num) hd, Nat.ofDigits_digits]

theorem decimal_digits {n : ℕ} {c : Char} (h : c ∈ decimalDigits n) : isDigit c = true := by
  unfold decimalDigits at h
  obtain ⟨d, hd, rfl⟩ := List.mem_map.mp h
  exact isDigit_digitChar (Nat.digits_lt_base (by norm_num) (List.mem_reverse.mp hd))

theorem decimal_cons {n : ℕ} (h : 0 < n) : ∃ c l, decimalDigits n = c :: l ∧ c ≠ '0' := by
  have hne : Nat.digits 10 n ≠ [] := Nat.digits_ne_nil_iff_ne_zero.mpr h.ne'
  have hl := Nat.getLast_digit_ne_zero 10 h.ne'
  obtain ⟨L, d, hL⟩ := (List.eq_nil_or_concat (Nat.digits 10 n)).resolve_left hne
  rw [List.concat_eq_append] at hL
  have hd : d < 10 := Nat.digits_lt_base (b := 10) (m := n) (by norm_num) (by rw [hL]; simp)
  refine ⟨Nat.digitChar d, L.reverse.map Nat.digitChar, ?_, ?_⟩
  · unfold decimalDigits; rw [hL]; simp
  · intro e
    have := digitChar_toNat hd
    rw [e] at this
    have h0 : d = 0 := by
      have h48 : ('0' : Char).toNat = 48 := rfl
      omega
    apply hl
    have : (Nat.digits 10 n).getLast? = some 0 := by rw [hL, h0]; simp
    rw [List.getLast?_eq_some_getLast hne] at this
    exact Option.some.inj this

theorem length_decimal {D n : ℕ} (hn : 1 ≤ n) (h1 : 10 ^ (n - 1) ≤ D) (h2 : D < 10 ^ n) :
    (decimalDigits D).length = n := by
  have hD : 0 < D := lt_of_lt_of_le (by positivity) h1
  obtain ⟨c, l, e, hc⟩ := decimal_cons hD
  have hv := value_decimal D
  have a : D < 10 ^ (decimalDigits D).length := by
    have := value_lt (l := decimalDigits D) fun c hc => decimal_digits hc
    rwa [hv] at this
  have b : 10 ^ ((decimalDigits D).length - 1) ≤ D := by
    rw [e] at hv ⊢
    have := le_value (l := l) (decimal_digits (n := D) (c := c) (by rw [e]; simp)) hc
    rw [hv] at this
    simpa using this
  have := (Nat.pow_lt_pow_iff_right (a := 10) (by norm_num)).mp (lt_of_le_of_lt b h2)
  have := (Nat.pow_lt_pow_iff_right (a := 10) (by norm_num)).mp (lt_of_le_of_lt h1 a)
  have : 0 < (decimalDigits D).length := by rw [e]; simp
  omega

theorem mem_takeWhile_true {p : Char → Bool} {l : List Char} {c : Char} (h : c ∈ l.takeWhile p) : p c = true := by
  have := List.all_takeWhile (p := p) (l := l)
  exact List.all_eq_true.mp this c h

/-! ## Splitting a text -/

theorem takeWhile_digits {l r : List Char} (hl : ∀ c ∈ l, isDigit c = true)
    (hr : ∀ c r', r = c :: r' → isDigit c = false) : (l ++ r).takeWhile isDigit = l := by
  rw [List.takeWhile_append_of_pos hl]
  cases r with
  | nil => simp
  | cons c r => rw [List.takeWhile_cons_of_neg (by simp [hr c r rfl])]; simp

theorem dropWhile_digits {l r : List Char} (hl : ∀ c ∈ l, isDigit c = true)
    (hr : ∀ c r', r = c :: r' → isDigit c = false) : (l ++ r).dropWhile isDigit = r := by
  rw [List.dropWhile_append_of_pos hl]
  cases r with
  | nil => simp
  | cons c r => rw [List.dropWhile_cons_of_neg (by simp [hr c r rfl])]

/-- an exponent as it is printed: none, or `e`, a sign and digits -/
inductive Tail : List Char → ℤ → Prop
  | none : Tail [] 0
  | plus (ds : List Char) : ds ≠ [] → (∀ c ∈ ds, isDigit c = true) → Tail ('e' :: '+' :: ds) (digitsValue ds)
  | minus (ds : List Char) : ds ≠ [] → (∀ c ∈ ds, isDigit c = true) → Tail ('e' :: '-' :: ds) (-digitsValue ds)

theorem Tail.first {t : List Char} {e : ℤ} (h : Tail t e) : ∀ c r', t = c :: r' → isDigit c = false := by
  intro c r' ht
  cases h with
  | none => cases ht
  | plus ds _ _ => cases ht; rfl
  | minus ds _ _ => cases ht; rfl

theorem Tail.isExponent {t : List Char} {e : ℤ} (h : Tail t e) : isExponent t = true := by
  cases h with
  | none => rfl
  | plus ds h1 h2 => simp [Spec.isExponent, isDigits, h1]; exact h2
  | minus ds h1 h2 => simp [Spec.isExponent, isDigits, h1]; exact h2

theorem dot_first (t : List Char) : ∀ c r', '.' :: t = c :: r' → isDigit c = false := by
  intro c r' h; cases h; rfl

theorem parts_fraction {whole frac t : List Char} {e : ℤ} (hw : ∀ c ∈ whole, isDigit c = true)
    (hf : ∀ c ∈ frac, isDigit c = true) (ht : Tail t e) :
    numberParts (whole ++ '.' :: (frac ++ t)) = (whole, frac, e) := by
  unfold numberParts
  dsimp only
  rw [takeWhile_digits hw (dot_first _), dropWhile_digits hw (dot_first _)]
  show (whole, (frac ++ t).takeWhile isDigit, (match (frac ++ t).dropWhile isDigit with
    | _ :: '+' :: ds => ((digitsValue ds : ℕ) : ℤ)
    | _ :: '-' :: ds => -digitsValue ds
    | _ :: ds => digitsValue ds
    | [] => 0)) = _
  rw [takeWhile_digits hf ht.first, dropWhile_digits hf ht.first]
  cases ht <;> rfl

theorem parts_whole {whole t : List Char} {e : ℤ} (hw : ∀ c ∈ whole, isDigit c = true) (ht : Tail t e) :
    numberParts (whole ++ t) = (whole, [], e) := by
  unfold numberParts
  dsimp only
  rw [takeWhile_digits hw ht.first, dropWhile_digits hw ht.first]
  cases ht <;> rfl

theorem value_fraction {whole frac t : List Char} {e : ℤ} (hw : ∀ c ∈ whole, isDigit c = true)
    (hf : ∀ c ∈ frac, isDigit c = true) (ht : Tail t e) :
    unsignedValue (whole ++ '.' :: (frac ++ t)) = digitsValue (whole ++ frac) * 10 ^ (e - frac.length) := by
  unfold unsignedValue; rw [parts_fraction hw hf ht]

theorem value_whole {whole t : List Char} {e : ℤ} (hw : ∀ c ∈ whole, isDigit c = true) (ht : Tail t e) :
    unsignedValue (whole ++ t) = digitsValue whole * 10 ^ e := by
  unfold unsignedValue; rw [parts_whole hw ht]; simp

theorem isUnsigned_cons {c : Char} (h : isDigit c = true) (h0 : c ≠ '0') (cs : List Char) :
    isUnsigned (c :: cs) = isFraction (cs.dropWhile isDigit) := by
  rw [isUnsigned.eq_2]
  · rw [h]; rfl
  · exact h0

theorem isFraction_dot {frac t : List Char} {e : ℤ} (hne : frac ≠ []) (hf : ∀ c ∈ frac, isDigit c = true)
    (ht : Tail t e) : isFraction ('.' :: (frac ++ t)) = true := by
  show (!((frac ++ t).takeWhile isDigit).isEmpty && isExponent ((frac ++ t).dropWhile isDigit)) = true
  rw [takeWhile_digits hf ht.first, dropWhile_digits hf ht.first, ht.isExponent]
  simp [hne]

theorem isFraction_tail {t : List Char} {e : ℤ} (ht : Tail t e) : isFraction t = true := by
  cases ht with
  | none => rfl
  | plus ds h1 h2 => exact (Tail.plus ds h1 h2).isExponent
  | minus ds h1 h2 => exact (Tail.minus ds h1 h2).isExponent

theorem exponent_tail (e : ℤ) :
    Tail ('e' :: (if e < 0 then '-' else '+') :: exponentDigits e.natAbs) e := by
  have hd : ∀ c ∈ exponentDigits e.natAbs, isDigit c = true := by
    intro c hc
    rcases List.mem_append.mp hc with h | h
    · rw [List.eq_of_mem_replicate h]; rfl
    · exact decimal_digits h
  have hne : exponentDigits e.natAbs ≠ [] := by
    intro h
    have := congrArg List.length h
    simp [exponentDigits] at this
    rw [this.2] at this
    simp at this
  have hv : digitsValue (exponentDigits e.natAbs) = e.natAbs := by
    unfold exponentDigits
    rw [value_append, value_zeros, value_decimal]
    omega
  split
  · rename_i h
    have := Tail.minus _ hne hd
    rw [hv] at this
    convert this using 1
    omega
  · rename_i h
    have := Tail.plus _ hne hd
    rw [hv] at this
    convert this using 1
    omega

/-- significant digits, from the parts -/
theorem significant_eq {cs whole frac : List Char} {e : ℤ} (h : numberParts (unsign cs) = (whole, frac, e)) :
    significantDigits cs =
      ((((whole ++ frac).dropWhile (· == '0')).reverse).dropWhile (· == '0')).length := by
  unfold significantDigits; rw [h]

theorem strip_le (a b : ℕ) {c : Char} (hc : c ≠ '0') (l : List Char) :
    (((List.replicate a '0' ++ (c :: l ++ List.replicate b '0')).dropWhile (· == '0')).reverse.dropWhile
      (· == '0')).length ≤ (c :: l).length := by
  rw [List.dropWhile_append_of_pos (by intro x hx; rw [List.eq_of_mem_replicate hx]; rfl), List.cons_append,
    List.dropWhile_cons_of_neg (by simpa using hc), ← List.cons_append, List.reverse_append, List.reverse_replicate,
    List.dropWhile_append_of_pos (by intro x hx; rw [List.eq_of_mem_replicate hx]; rfl)]
  exact (List.dropWhile_suffix _).length_le.trans (by simp)

/-- what a laid out number is -/
theorem layout_spec {D : ℕ} (hD : 0 < D) (k : ℤ) :
    isUnsigned (layout D k) = true ∧ unsignedValue (layout D k) = D * 10 ^ k ∧
      (∃ whole frac e a b, numberParts (layout D k) = (whole, frac, e) ∧
        whole ++ frac = List.replicate a '0' ++ (decimalDigits D ++ List.replicate b '0')) ∧
      ∃ c l, layout D k = c :: l ∧ isDigit c = true := by
  obtain ⟨c, l, hds, hc⟩ := decimal_cons hD
  have hdig : ∀ x ∈ decimalDigits D, isDigit x = true := fun x hx => decimal_digits hx
  have hcd : isDigit c = true := hdig c (by rw [hds]; simp)
  have hld : ∀ x ∈ l, isDigit x = true := fun x hx => hdig x (by rw [hds]; simp [hx])
  have hv := value_decimal D
  have h10 : (10 : ℚ) ≠ 0 := by norm_num
  unfold layout
  dsimp only
  generalize hn : (decimalDigits D).length = n
  have hn1 : n = l.length + 1 := by rw [← hn, hds]; rfl
  split
  · rename_i hpt
    split
    · rename_i hp
      have hz : ∀ x ∈ List.replicate (-((n : ℤ) + k)).toNat '0' ++ decimalDigits D, isDigit x = true := by
        intro x hx
        rcases List.mem_append.mp hx with h | h
        · rw [List.eq_of_mem_replicate h]; rfl
        · exact hdig x h
      have hw : ∀ x ∈ ['0'], isDigit x = true := by simp; rfl
      have e : '0' :: '.' :: (List.replicate (-((n : ℤ) + k)).toNat '0' ++ decimalDigits D) =
          ['0'] ++ '.' :: ((List.replicate (-((n : ℤ) + k)).toNat '0' ++ decimalDigits D) ++ []) := by simp
      refine ⟨?_, ?_, ?_, _, _, rfl, rfl⟩
      · have := isFraction_dot (frac := List.replicate (-((n : ℤ) + k)).toNat '0' ++ decimalDigits D)
          (by simp [hds]) hz Tail.none
        rw [List.append_nil] at this
        exact this
      · rw [e, value_fraction hw hz Tail.none, List.singleton_append, value_cons, value_append, value_zeros, hv]
        simp only [List.length_append, List.length_replicate, hn]
        congr 1
        · simp
        · congr 1; omega
      · refine ⟨_, _, _, (-((n : ℤ) + k)).toNat + 1, 0, (congrArg numberParts e).trans <| parts_fraction hw hz Tail.none, ?_⟩
        rw [List.replicate_succ]; simp
    · rename_i hp
      split
      · rename_i hk
        have hw : ∀ x ∈ decimalDigits D ++ List.replicate k.toNat '0', isDigit x = true := by
          intro x hx
          rcases List.mem_append.mp hx with h | h
          · exact hdig x h
          · rw [List.eq_of_mem_replicate h]; rfl
        have hf : ∀ x ∈ ['0'], isDigit x = true := by simp; rfl
        have e : decimalDigits D ++ List.replicate k.toNat '0' ++ ['.', '0'] =
          (decimalDigits D ++ List.replicate k.toNat '0') ++ '.' :: (['0'] ++ []) := by simp
        refine ⟨?_, ?_, ?_, c, l ++ List.replicate k.toNat '0' ++ ['.', '0'], by rw [hds]; simp, hcd⟩
        · rw [e, hds, List.cons_append, List.cons_append, isUnsigned_cons hcd hc,
            dropWhile_digits (fun x hx => hw x (by rw [hds, List.cons_append]; exact List.mem_cons_of_mem _ hx))
              (dot_first _)]
          exact isFraction_dot (by simp) hf Tail.none
        · rw [e, value_fraction hw hf Tail.none, value_append, value_append, value_zeros, hv]
          have : (10 : ℚ) ^ k = 10 ^ k.toNat := by
            rw [← zpow_natCast, Int.toNat_of_nonneg (by omega)]
          rw [this]
          have h0 : digitsValue ['0'] = 0 := rfl
          rw [h0]
          simp
        · refine ⟨_, _, _, 0, k.toNat + 1, (congrArg numberParts e).trans <| parts_fraction hw hf Tail.none, ?_⟩
          rw [List.replicate_succ']; simp
      · rename_i hk
        have hw : ∀ x ∈ (decimalDigits D).take ((n : ℤ) + k).toNat, isDigit x = true :=
          fun x hx => hdig x (List.mem_of_mem_take hx)
        have hf : ∀ x ∈ (decimalDigits D).drop ((n : ℤ) + k).toNat, isDigit x = true :=
          fun x hx => hdig x (List.mem_of_mem_drop hx)
        have e : (decimalDigits D).take ((n : ℤ) + k).toNat ++ '.' :: (decimalDigits D).drop ((n : ℤ) + k).toNat =
          (decimalDigits D).take ((n : ℤ) + k).toNat ++ '.' :: ((decimalDigits D).drop ((n : ℤ) + k).toNat ++ []) := by
          simp
        obtain ⟨q, hq⟩ : ∃ q, ((n : ℤ) + k).toNat = q + 1 := ⟨((n : ℤ) + k).toNat - 1, by omega⟩
        refine ⟨?_, ?_, ?_, c, l.take q ++ '.' :: (decimalDigits D).drop ((n : ℤ) + k).toNat, by
          rw [hq, hds, List.take_succ_cons]; simp, hcd⟩
        · have hne : (decimalDigits D).drop ((n : ℤ) + k).toNat ≠ [] := by
            rw [Ne, List.drop_eq_nil_iff]; omega
          rw [e]
          generalize (decimalDigits D).drop ((n : ℤ) + k).toNat = fr at hne hf
          rw [hq, hds, List.take_succ_cons, List.cons_append, isUnsigned_cons hcd hc,
            dropWhile_digits (fun x hx => hld x (List.mem_of_mem_take hx)) (dot_first _)]
          exact isFraction_dot hne hf Tail.none
        · rw [e, value_fraction hw hf Tail.none, List.take_append_drop, hv, List.length_drop, hn]
          congr 2
          omega
        · exact ⟨_, _, _, 0, 0, (congrArg numberParts e).trans <| parts_fraction hw hf Tail.none, by simp⟩
  · have ht := exponent_tail ((n : ℤ) + k - 1)
    have hw : ∀ x ∈ (decimalDigits D).take 1, isDigit x = true := fun x hx => hdig x (List.mem_of_mem_take hx)
    split
    · rename_i h1
      have hl : l = [] := List.length_eq_zero_iff.mp (by omega)
      have ec : (decimalDigits D).take 1 = decimalDigits D := by rw [hds, hl]; rfl
      rw [ec, List.append_nil]
      refine ⟨?_, ?_, ?_, c, _, by rw [hds]; rfl, hcd⟩
      · rw [hds, List.cons_append, isUnsigned_cons hcd hc, dropWhile_digits hld ht.first]
        exact isFraction_tail ht
      · rw [value_whole hdig ht, hv]
        congr 2
        rw [hn1, hl]; simp
      · exact ⟨_, _, _, 0, 0, parts_whole hdig ht, by simp⟩
    · rename_i h1
      have hf : ∀ x ∈ (decimalDigits D).drop 1, isDigit x = true := fun x hx => hdig x (List.mem_of_mem_drop hx)
      have hne : (decimalDigits D).drop 1 ≠ [] := by rw [Ne, List.drop_eq_nil_iff]; omega
      rw [List.append_assoc, List.cons_append]
      refine ⟨?_, ?_, ?_, c, _, by rw [hds]; rfl, hcd⟩
      · generalize (decimalDigits D).drop 1 = fr at hne hf
        rw [hds]
        show isUnsigned (c :: '.' :: _) = true
        rw [isUnsigned_cons hcd hc, List.dropWhile_cons_of_neg (by simp; rfl)]
        exact isFraction_dot hne hf ht
      · rw [value_fraction hw hf ht, List.take_append_drop, hv, List.length_drop, hn]
        congr 2
        omega
      · exact ⟨_, _, _, 0, 0, parts_fraction hw hf ht, by rw [List.take_append_drop]; simp⟩

theorem unsign_of_digit {cs : List Char} (h : ∃ c l, cs = c :: l ∧ isDigit c = true) : unsign cs = cs := by
  obtain ⟨c, l, rfl, hc⟩ := h
  unfold unsign
  split
  · rename_i h; cases h; exact absurd hc (by decide)
  · rfl

theorem numberValue_of_digit {cs : List Char} (h : ∃ c l, cs = c :: l ∧ isDigit c = true) :
    numberValue cs = unsignedValue cs := by
  obtain ⟨c, l, rfl, hc⟩ := h
  unfold numberValue
  split
  · rename_i h; cases h; exact absurd hc (by decide)
  · rfl

theorem isNumber_of_digit {cs : List Char} (h : ∃ c l, cs = c :: l ∧ isDigit c = true) :
    isNumber cs = isUnsigned cs := by
  obtain ⟨c, l, rfl, hc⟩ := h
  unfold isNumber
  split
  · rename_i h; cases h; exact absurd hc (by decide)
  · rfl

theorem layout_significant {D : ℕ} (hD : 0 < D) (k : ℤ) :
    significantDigits (layout D k) ≤ (decimalDigits D).length := by
  obtain ⟨-, -, ⟨whole, frac, e, a, b, h1, h2⟩, h3⟩ := layout_spec hD k
  rw [significant_eq ((congrArg numberParts (unsign_of_digit h3)).trans h1), h2]
  obtain ⟨c, l, hds, hc⟩ := decimal_cons hD
  rw [hds]
  exact strip_le a b hc l

/-! ## The number of significant digits of any text -/

theorem parts_digits (cs : List Char) :
    ∀ c ∈ (numberParts cs).1 ++ (numberParts cs).2.1, isDigit c = true := by
  intro c hc
  rcases List.mem_append.mp hc with h | h
  · exact mem_takeWhile_true h
  · unfold numberParts at h
    dsimp only at h
    split at h
    · exact mem_takeWhile_true h
    · cases h

theorem drop_zeros (l : List Char) : ∃ a, l = List.replicate a '0' ++ l.dropWhile (· == '0') := by
  refine ⟨(l.takeWhile (· == '0')).length, ?_⟩
  conv_lhs => rw [← List.takeWhile_append_dropWhile (p := (· == '0')) (l := l)]
  congr 1
  exact List.eq_replicate_of_mem fun c hc => by simpa using mem_takeWhile_true hc

/-- a list of digits is a number with as many digits as are significant, and zeros -/
theorem strip_value {l : List Char} (h : ∀ c ∈ l, isDigit c = true) (h0 : digitsValue l ≠ 0) :
    ∃ D b : ℕ, digitsValue l = D * 10 ^ b ∧
      1 ≤ ((l.dropWhile (· == '0')).reverse.dropWhile (· == '0')).length ∧
      10 ^ (((l.dropWhile (· == '0')).reverse.dropWhile (· == '0')).length - 1) ≤ D ∧
      D < 10 ^ ((l.dropWhile (· == '0')).reverse.dropWhile (· == '0')).length := by
  obtain ⟨a, ha⟩ := drop_zeros l
  obtain ⟨b, hb⟩ := drop_zeros (l.dropWhile (· == '0')).reverse
  generalize hs : (l.dropWhile (· == '0')).reverse.dropWhile (· == '0') = s at *
  have hb' := congrArg List.reverse hb
  rw [List.reverse_reverse, List.reverse_append, List.reverse_replicate] at hb'
  have hv : digitsValue l = digitsValue s.reverse * 10 ^ b := by
    rw [ha, value_append, value_zeros, hb', value_append, value_zeros]; simp
  have hsd : ∀ c ∈ s.reverse, isDigit c = true := fun c hc => h c (by rw [ha, hb']; simp at hc; simp [hc])
  have hlt := value_lt hsd
  rw [List.length_reverse] at hlt
  have hne : s.reverse ≠ [] := by
    intro e
    rw [e] at hv
    apply h0
    rw [hv]
    simp [digitsValue]
  refine ⟨digitsValue s.reverse, b, hv, List.length_pos_iff.mpr (by simpa using hne), ?_, hlt⟩
  cases hr : s.reverse with
  | nil => exact absurd hr hne
  | cons c t =>
    have hc : c ≠ '0' := by
      rintro rfl
      have hx : l.dropWhile (· == '0') = '0' :: (t ++ List.replicate b '0') := by rw [hb', hr]; rfl
      have := List.head_dropWhile_not (l := l) (· == '0') (by rw [hx]; simp)
      simp [hx] at this
    have hlen : s.length = t.length + 1 := by rw [← List.length_reverse, hr]; rfl
    rw [hlen]
    exact le_value (hsd c (by rw [hr]; simp)) hc

/-- the value of a text that does not denote zero, by its significant digits -/
theorem significant_value {cs : List Char} (h0 : numberValue cs ≠ 0) :
    ∃ (D : ℕ) (k : ℤ), |numberValue cs| = D * 10 ^ k ∧ 1 ≤ significantDigits cs ∧
      10 ^ (significantDigits cs - 1) ≤ D ∧ D < 10 ^ significantDigits cs := by
  have habs : |numberValue cs| = unsignedValue (unsign cs) ∧ unsignedValue (unsign cs) ≠ 0 := by
    have hnn : ∀ cs, 0 ≤ unsignedValue cs := by
      intro cs
      unfold unsignedValue
      dsimp only
      positivity
    unfold numberValue unsign at *
    split <;> rename_i h <;> simp_all [abs_of_nonneg (hnn _)]
  obtain ⟨habs, hne⟩ := habs
  obtain ⟨whole, frac, e, hp⟩ : ∃ whole frac e, numberParts (unsign cs) = (whole, frac, e) := ⟨_, _, _, rfl⟩
  have hd := parts_digits (unsign cs)
  rw [hp] at hd
  have hval : unsignedValue (unsign cs) = digitsValue (whole ++ frac) * 10 ^ (e - frac.length) := by
    unfold unsignedValue; rw [hp]
  have hv0 : digitsValue (whole ++ frac) ≠ 0 := by
    intro h; apply hne; rw [hval, h]; simp
  obtain ⟨D, b, h1, h2, h3, h4⟩ := strip_value hd hv0
  rw [significant_eq hp]
  refine ⟨D, b + (e - frac.length), ?_, h2, h3, h4⟩
  rw [habs, hval, h1, zpow_add₀ (by norm_num)]
  push_cast
  rw [zpow_natCast]
  ring

end FloatText

end OpenControls
