import Verif.Proofs.Coincidences
import Verif.Props.Families

/-!
# C62: predefined sequences that are the same sequence
-/

namespace OpenControls

open Spec RealInst

/-- **C62.** The calls for spin echo, Carr-Purcell with one pulse, periodic with one pulse, Walsh of order one and
X-concatenated of order one return the same. -/
theorem C62_one_pulse (T : ℝ) (prePost : Bool) (name : Option String) :
    newSpinEchoSequence T prePost name = newCarrPurcellSequence T 1 prePost name ∧
    newSpinEchoSequence T prePost name = newPeriodicSequence T 1 prePost name ∧
    newSpinEchoSequence T prePost name = newWalshSequence T 1 prePost name ∧
    newSpinEchoSequence T prePost name = newXConcatenatedSequence T 1 prePost name := by
  have hp : periodicTimes T 1 = [T / 2] := by
    simp [periodicTimes, List.range']; norm_num
  refine ⟨Family.call_eq_of_table (f := .spinEcho) (g := .carrPurcell 1) trivial (le_refl (1 : ℝ)) T
      (fun hT => ?_) prePost name,
    Family.call_eq_of_table (f := .spinEcho) (g := .periodic 1) trivial (le_refl (1 : ℝ)) T
      (fun hT => ?_) prePost name,
    Family.call_eq_of_table (f := .spinEcho) (g := .walsh 1) trivial ⟨le_rfl, by norm_num⟩ T
      (fun hT => ?_) prePost name,
    Family.call_eq_of_table (f := .spinEcho) (g := .xConcatenated 1) trivial (le_refl (1 : ℝ)) T
      (fun hT => ?_) prePost name⟩
  · simp [Family.table, cpmgTimes, onAxis, List.range']
    ring
  · simp [Family.table, hp, onAxis]
  · have h := walsh_power hT 0
    simp only [pow_zero, zero_add, pow_one, show 2 - 1 = 1 from rfl, hp] at h
    simp [Family.table, h, onAxis]
  · have h := walsh_power hT 0
    have h' := walsh_ones hT 0
    simp only [pow_zero, zero_add, pow_one, show 2 - 1 = 1 from rfl, hp] at h h'
    simp [Family.table, ← h', h, onAxis]

/-- **C62**, Walsh orders that are a power of two are periodic sequences. -/
theorem C62_walsh_periodic (T : ℝ) (m : ℕ) (hm : 2 ^ m ≤ 2000) (prePost : Bool)
    (name : Option String) :
    newWalshSequence T ((2 ^ m : ℕ) : ℝ) prePost name =
      newPeriodicSequence T ((2 ^ (m + 1) - 1 : ℕ) : ℝ) prePost name := by
  have h1 : 1 ≤ 2 ^ m := Nat.one_le_two_pow
  refine Family.call_eq_of_table (f := .walsh ((2 ^ m : ℕ) : ℝ))
    (g := .periodic ((2 ^ (m + 1) - 1 : ℕ) : ℝ)) ⟨by exact_mod_cast h1, by exact_mod_cast hm⟩
    (show (1 : ℝ) ≤ _ by
      have : 1 ≤ 2 ^ (m + 1) - 1 := by rw [pow_succ]; omega
      exact_mod_cast this) T (fun hT => ?_) prePost name
  simp only [Family.table, Nat.floor_natCast, walsh_power hT]

/-- **C62**, Walsh orders that are three times a power of two are Carr-Purcell sequences. -/
theorem C62_walsh_carr_purcell (T : ℝ) (m : ℕ) (hm : 3 * 2 ^ m ≤ 2000) (prePost : Bool)
    (name : Option String) :
    newWalshSequence T ((3 * 2 ^ m : ℕ) : ℝ) prePost name =
      newCarrPurcellSequence T ((2 ^ (m + 1) : ℕ) : ℝ) prePost name := by
  have h1 : 1 ≤ 2 ^ m := Nat.one_le_two_pow
  refine Family.call_eq_of_table (f := .walsh ((3 * 2 ^ m : ℕ) : ℝ))
    (g := .carrPurcell ((2 ^ (m + 1) : ℕ) : ℝ))
    ⟨by exact_mod_cast (by omega : 1 ≤ 3 * 2 ^ m), by exact_mod_cast hm⟩
    (show (1 : ℝ) ≤ _ by exact_mod_cast Nat.one_le_two_pow) T (fun hT => ?_) prePost name
  simp only [Family.table, Nat.floor_natCast, walsh_three hT]

/-- **C62**, the X-concatenated sequence of order `l` is the Walsh sequence of order `2^l - 1`. -/
theorem C62_walsh_x_concatenated (T : ℝ) (l : ℕ) (h0 : 1 ≤ l) (h1 : l ≤ 10) (prePost : Bool)
    (name : Option String) :
    newXConcatenatedSequence T (l : ℝ) prePost name =
      newWalshSequence T ((2 ^ l - 1 : ℕ) : ℝ) prePost name := by
  obtain ⟨n, rfl⟩ : ∃ n, l = n + 1 := ⟨l - 1, by omega⟩
  have hlow : 1 ≤ 2 ^ n := Nat.one_le_two_pow
  have hup : 2 ^ (n + 1) ≤ 2 ^ 10 := Nat.pow_le_pow_right (by norm_num) h1
  refine Family.call_eq_of_table (f := .xConcatenated ((n + 1 : ℕ) : ℝ))
    (g := .walsh ((2 ^ (n + 1) - 1 : ℕ) : ℝ)) (show (1 : ℝ) ≤ _ by exact_mod_cast h0)
    ⟨?_, ?_⟩ T (fun hT => ?_) prePost name
  · exact_mod_cast (by rw [pow_succ]; omega : 1 ≤ 2 ^ (n + 1) - 1)
  · exact_mod_cast (by omega : 2 ^ (n + 1) - 1 ≤ 2000)
  · simp only [Family.table, Nat.floor_natCast, walsh_ones hT]

/-- **C62**, the Uhrig sequence is the CPMG sequence exactly for one and for two pulses. -/
theorem C62_uhrig_cpmg (T : ℝ) (hT : 0 < T) (count : ℝ) (hc : 1 ≤ count) (prePost : Bool)
    (name : Option String) :
    newUhrigSequence T count prePost name = newCPMGSequence T count prePost name ↔ count < 3 := by
  have hn : ⌊count⌋₊ ≠ 0 := (Nat.floor_pos.mpr hc).ne'
  constructor
  · intro h
    by_contra h3
    have hn3 : 3 ≤ ⌊count⌋₊ := Nat.le_floor (by exact_mod_cast not_lt.mp h3)
    have h' : Family.call (.uhrig count) T prePost name = Family.call (.cpmg count) T prePost name :=
      h
    rw [Family.call_eq (family := .uhrig count) hc hT, Family.call_eq (family := .cpmg count) hc hT] at h'
    injection h' with h'
    have ho := congrArg Sequence.offsets h'
    have key : (finished T (Family.table (.uhrig count) T) prePost name).offsets =
        if prePost then 0 :: (uhrigTimes T ⌊count⌋₊ ++ [T]) else uhrigTimes T ⌊count⌋₊ := by
      unfold finished
      cases prePost <;> simp [withPrePost, piSequence, Family.table, onAxis, Function.comp_def]
    have key' : (finished T (Family.table (.cpmg count) T) prePost name).offsets =
        if prePost then 0 :: (cpmgTimes T ⌊count⌋₊ ++ [T]) else cpmgTimes T ⌊count⌋₊ := by
      unfold finished
      cases prePost <;> simp [withPrePost, piSequence, Family.table, onAxis, Function.comp_def]
    rw [key, key'] at ho
    have ho' : uhrigTimes T ⌊count⌋₊ = cpmgTimes T ⌊count⌋₊ := by
      cases prePost <;> simpa using ho
    obtain ⟨m, hm⟩ := Nat.exists_eq_succ_of_ne_zero hn
    have hf := uhrig_first hn3
    rw [hm] at ho' hf
    simp only [uhrigTimes, cpmgTimes, Nat.succ_eq_add_one, List.range'_succ, List.map_cons,
      List.cons.injEq, Nat.cast_one, one_mul] at ho'
    have h1 := ho'.1
    have : Real.sin (Real.pi / (2 * (((m + 1 : ℕ) : ℝ) + 1))) ^ 2 = 1 / (2 * ((m + 1 : ℕ) : ℝ)) := by
      have hm0 : ((m + 1 : ℕ) : ℝ) ≠ 0 := by positivity
      apply mul_left_cancel₀ hT.ne'
      rw [h1]
      field_simp
      ring
    exact absurd this hf.ne
  · intro h3
    have hn3 : ⌊count⌋₊ < 3 := (Nat.floor_lt (by linarith)).mpr (by exact_mod_cast h3)
    refine Family.call_eq_of_table (f := .uhrig count) (g := .cpmg count) hc hc T (fun _ => ?_)
      prePost name
    obtain h | h : ⌊count⌋₊ = 1 ∨ ⌊count⌋₊ = 2 := by omega
    · simp only [Family.table, h, uhrig_one]
    · simp only [Family.table, h, uhrig_two]

/-- the hypotheses of the Walsh theorems are met up to these orders -/
example : 2 ^ 10 ≤ 2000 ∧ 3 * 2 ^ 9 ≤ 2000 ∧ ¬ 2 ^ 11 - 1 ≤ 2000 := by norm_num

end OpenControls
