import Verif.Proofs.Walsh
import Verif.Proofs.Quadratic

/-!
# C39-C40: Walsh and quadratic sequences
-/

namespace OpenControls

open Spec RealInst

/-- **C39.** `new_walsh_sequence` accepts exactly positive durations and orders between 1 and 2000,
and has X π-pulses at strictly increasing times inside `(0, T)` such that flipping the sign at each
pulse gives the Walsh function of the (integer part of the) Paley order, wherever that function is
not zero. -/
theorem C39_walsh (T order : ℝ) (prePost : Bool) (name : Option String) :
    Returns (newWalshSequence T order prePost name) (0 < T ∧ 1 ≤ order ∧ order ≤ 2000)
      (fun s => ∃ times, Ordered T times ∧
        (∀ t, 0 < t → t < T → paley ⌊order⌋₊ (t / T) ≠ 0 →
          switching times t = paley ⌊order⌋₊ (t / T)) ∧
        Realises T (onAxis .x times) prePost name s) := by
  unfold newWalshSequence checkDuration
  refine Returns.congr (Returns.check (Q := 0 < T) (by simp) fun hT =>
    Returns.check (P := True) (Q := 1 ≤ order ∧ order ≤ 2000) (by simp) fun hc =>
      Returns.last ?_) (by simp)
  have hk : ⌊order⌋₊ ≠ 0 := (Nat.floor_pos.mpr hc.1).ne'
  rw [pyInt_of_nonneg (by linarith [hc.1]), except_ok_bind, walshOffsets_eq _ hk,
    except_ok_bind, ← tablePulses_onAxis_x]
  obtain ⟨s, hs, hr⟩ := finishSequence_table hT _
    (onAxis_bounds (walsh_ordered hT ⌊order⌋₊) .x) prePost name
  exact ⟨s, hs, _, walsh_ordered hT _, fun t h0 h1 hp => walsh_switching hT hk h0 h1 hp, hr⟩

/-- **C39**, the Walsh function is zero only at the multiples of `2^-m`, `m` the number of binary
digits of its order, so that the previous theorem fixes the sign everywhere else. -/
theorem C39_zeros (k : ℕ) (hk : k ≠ 0) (x : ℝ) (hx : 0 < x) :
    paley k x = 0 ↔ ∃ c : ℕ, x = (c : ℝ) / 2 ^ (Nat.log2 k + 1) :=
  paley_eq_zero_iff hk hx

/-- **C39**, the pulse times are determined by the switching function: two increasing lists of times
whose switching functions agree except at finitely many points are equal. -/
theorem C39_unique (T : ℝ) (a b : List ℝ) (ha : Ordered T a) (hb : Ordered T b) (E : Set ℝ)
    (hE : E.Finite) (h : ∀ t, 0 < t → t < T → t ∉ E → switching a t = switching b t) : a = b :=
  switching_unique ha hb hE h

/-- Walsh order 1 is positive on the first half and negative on the second half. -/
example : paley 1 (1 / 4) = 1 ∧ paley 1 (3 / 4) = -1 := by
  have hl : Nat.log2 1 = 0 := by decide
  constructor
  · have := paley_cell (k := 1) (i := 0) (x := 1 / 4) (by norm_num) (by rw [hl]; norm_num)
    rw [this]; simp [cellSign]
  · have := paley_cell (k := 1) (i := 1) (x := 3 / 4) (by rw [hl]; norm_num)
      (by rw [hl]; norm_num)
    rw [this]; simp [cellSign, hl]

/-- **C40.** `new_quadratic_sequence` accepts exactly positive durations and counts of at least one,
and has `n₂` X π-pulses at Uhrig times of the whole duration and, in each of the `n₂ + 1` intervals
between them, `n₁` Z π-pulses at Uhrig times of the interval. -/
theorem C40_quadratic (T count₁ count₂ : ℝ) (prePost : Bool) (name : Option String) :
    Returns (newQuadraticSequence T count₁ count₂ prePost name) (0 < T ∧ 1 ≤ count₁ ∧ 1 ≤ count₂)
      (Realises T (quadraticTable ⌊count₁⌋₊ T 0 (uhrigTimes T ⌊count₂⌋₊)) prePost name) := by
  unfold newQuadraticSequence checkDuration
  refine Returns.congr (Returns.check (Q := 0 < T) (by simp) fun hT =>
    Returns.check (Q := 1 ≤ count₁) (by simp) fun hc =>
      Returns.check (P := True) (Q := 1 ≤ count₂) (by simp) fun hc' =>
      Returns.last ?_) (by simp)
  rw [pyInt_of_nonneg (by linarith), except_ok_bind, pyInt_of_nonneg (by linarith), except_ok_bind,
    quadraticPulses_eq]
  refine finishSequence_table hT _ ?_ prePost name
  intro p hp
  have := (quadratic_times_ordered hT ⌊count₁⌋₊ ⌊count₂⌋₊).2 p.1 (List.mem_map.mpr ⟨p, hp, rfl⟩)
  exact ⟨this.1.le, this.2.le⟩

/-- **C40**, the times are strictly increasing and inside `(0, T)`, and there are
`n₁ + n₂ (n₁ + 1)` of them. -/
theorem C40_times (T : ℝ) (hT : 0 < T) (n₁ n₂ : ℕ) :
    Ordered T ((quadraticTable n₁ T 0 (uhrigTimes T n₂)).map fun p => p.1) ∧
    (quadraticTable n₁ T 0 (uhrigTimes T n₂)).length = n₁ + n₂ * (n₁ + 1) ∧
    flipTimes (quadraticTable n₁ T 0 (uhrigTimes T n₂)) = uhrigTimes T n₂ := by
  refine ⟨quadratic_times_ordered hT n₁ n₂, ?_, ?_⟩
  · rw [quadratic_length]; simp [uhrigTimes]
  · generalize uhrigTimes T n₂ = r
    have hz : ∀ l : List ℝ, flipTimes (onAxis .z l) = [] := by
      intro l; simp [flipTimes, onAxis]
    have happ : ∀ a b : List (ℝ × Axis), flipTimes (a ++ b) = flipTimes a ++ flipTimes b := by
      intro a b; simp [flipTimes]
    generalize (0 : ℝ) = a
    induction r generalizing a with
    | nil => simp only [quadraticTable, hz]
    | cons b r ih =>
      simp only [quadraticTable, happ, hz, List.nil_append]
      rw [show flipTimes ((b, Axis.x) :: quadraticTable n₁ T b r) =
        b :: flipTimes (quadraticTable n₁ T b r) by simp [flipTimes], ih]

/-- one outer and one inner pulse: Z, X, Z at `T/4`, `T/2`, `3T/4` -/
example (T : ℝ) : quadraticTable 1 T 0 (uhrigTimes T 1) =
    [(T / 4, .z), (T / 2, .x), (3 * T / 4, .z)] := by
  have h : ∀ T, uhrigTimes T 1 = [T / 2] := by
    intro T
    have h : Real.pi / (2 * (1 + 1)) = Real.pi / 4 := by ring
    simp only [uhrigTimes, List.range', List.map_cons, List.map_nil, Nat.cast_one, one_mul, h,
      Real.sin_pi_div_four]
    rw [div_pow, Real.sq_sqrt (by norm_num)]
    ring_nf
  simp only [h, quadraticTable, onAxis, List.map_cons, List.map_nil, List.cons_append,
    List.nil_append]
  congr 2 <;> ring_nf

end OpenControls
