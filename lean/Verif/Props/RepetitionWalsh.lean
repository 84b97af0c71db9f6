import Verif.Props.Repetition
import Verif.Proofs.RepetitionWalsh

/-!
# C129: playing Walsh sequences several times
-/

namespace OpenControls

open Spec RealInst

/-- **C129** A Walsh sequence whose Paley order has an even number of binary ones (so that it has an even number of pulses),
played `2^a` times, is the Walsh sequence of `2^a` times the order in `2^a` times the duration. -/
theorem C129_walsh (T : ℝ) (k : ℕ) (he : Even (Nat.digits 2 k).sum) (a : ℕ) (hmax : 2 ^ a * k ≤ 2000)
    (name : Option String) (s : Sequence ℝ) (hs : newWalshSequence T k false name = .ok s) (name' : Option String) :
    playedTimes (2 ^ a) s name' = newWalshSequence (2 ^ a * T) (2 ^ a * k) false name' := by
  obtain ⟨⟨hT, hv⟩, -⟩ := (C43_well_formed (.walsh k) T false name).ok hs
  have hv1 : (1 : ℝ) ≤ k := hv.1
  have hk : k ≠ 0 := by rintro rfl; norm_num at hv1
  have hm : 2 ^ a ≠ 0 := by positivity
  have hfl : ⌊(2 : ℝ) ^ a * k⌋₊ = 2 ^ a * k := by
    rw [show (2 : ℝ) ^ a * k = ((2 ^ a * k : ℕ) : ℝ) by push_cast; ring, Nat.floor_natCast]
  have h := played_family (a := .x) (f := .walsh k) (g := .walsh (2 ^ a * k)) (T := T) hm
    (l := walshTimes T k) (l' := walshTimes ((2 ^ a : ℕ) * T) (2 ^ a * k))
    (by simp [Family.table]) (by simp [Family.table, hfl]) (walshTimes_copies hT hk he a) ⟨?_, ?_⟩ hs name'
  · rw [h]
    push_cast
    rfl
  · have : (1 : ℝ) ≤ 2 ^ a := one_le_pow₀ (by norm_num)
    nlinarith
  · have : ((2 ^ a * k : ℕ) : ℝ) ≤ 2000 := by exact_mod_cast hmax
    push_cast at this
    exact this

/-- The Walsh sequence of order three played eight times is the Walsh sequence of order 24. -/
example : ∃ s, newWalshSequence (1 : ℝ) 3 false none = .ok s ∧
    playedTimes 8 s none = newWalshSequence (8 : ℝ) 24 false none := by
  obtain ⟨s, hs, -⟩ := (C43_well_formed (.walsh 3) 1 false none).1 ⟨by norm_num, by norm_num [Family.Valid]⟩
  refine ⟨s, hs, ?_⟩
  have := C129_walsh 1 3 (by norm_num) 3 (by norm_num) none s (by push_cast; exact hs) none
  norm_num at this
  exact this

end OpenControls
