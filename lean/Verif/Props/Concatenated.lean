import Verif.Proofs.ConcatenatedXY

/-!
# C41-C42: concatenated sequences
-/

namespace OpenControls

open Spec RealInst

/-- **C41.** `new_x_concatenated_sequence` accepts exactly positive durations and orders of at least
one, and has X π-pulses, in strictly increasing order inside `(0, T)`, at exactly those times that
occur an odd number of times in the documented recursion, except that a pulse at the end `T` is left
out. -/
theorem C41_x_concatenated (T order : ℝ) (prePost : Bool) (name : Option String) :
    Returns (newXConcatenatedSequence T order prePost name) (0 < T ∧ 1 ≤ order)
      (fun s => ∃ times, Ordered T times ∧
        (∀ t, t ∈ times ↔ t ≠ T ∧ Odd ((xRecursion ⌊order⌋₊ T).count t)) ∧
        Realises T (onAxis .x times) prePost name s) := by
  unfold newXConcatenatedSequence checkDuration
  refine Returns.congr (Returns.check (Q := 0 < T) (by simp) fun hT =>
    Returns.check (P := True) (Q := 1 ≤ order) (by simp) fun hc => Returns.last ?_) (by simp)
  have hl : ⌊order⌋₊ ≠ 0 := (Nat.floor_pos.mpr hc).ne'
  rw [pyInt_of_nonneg (by linarith), except_ok_bind, ← tablePulses_onAxis_x]
  obtain ⟨s, hs, hr⟩ := finishSequence_table hT _
    (onAxis_bounds (xOffsets_ordered hT hl) .x) prePost name
  exact ⟨s, hs, _, xOffsets_ordered hT hl, mem_xOffsets_recursion hT hl, hr⟩

/-- **C41**, closed form of the times: `k T / 2^l` for the `0 < k < 2^l` divisible by two an even
number of times. -/
theorem C41_times (T : ℝ) (hT : 0 < T) (l : ℕ) (hl : l ≠ 0) (t : ℝ) :
    (t ≠ T ∧ Odd ((xRecursion l T).count t)) ↔
      ∃ k : ℕ, 0 < k ∧ k < 2 ^ l ∧ Even (padicValNat 2 k) ∧ t = k * (T / 2 ^ l) :=
  (mem_xOffsets_recursion hT hl t).symm.trans (mem_xOffsets hT hl t)

/-- **C41**, the pulse left out: the recursion has an odd number of pulses at the end exactly for odd
orders. -/
theorem C41_end (T : ℝ) (hT : 0 < T) (l : ℕ) : Odd ((xRecursion l T).count T) ↔ Odd l := by
  have hu : 0 < T / 2 ^ l := by positivity
  have e : (xRecursion l T).count T = l := by
    have hend : ((2 ^ l : ℕ) : ℝ) * (T / 2 ^ l) = T := by push_cast; field_simp
    have : ((xUnits l).map fun k : ℕ => (k : ℝ) * (T / 2 ^ l)).count (((2 ^ l : ℕ) : ℝ) * (T / 2 ^ l))
        = l := by
      rw [List.count_map_of_injective _ _ (scaled_injective hu), xUnits_count]
      simp
    rw [xRecursion_eq]
    rwa [hend] at this
  rw [e]

/-- order two: pulses at `T/4` and `3T/4`, the two at `T/2` and at `T` cancel -/
example (T : ℝ) : xRecursion 2 T = [T / 2 / 2, T / 2, T / 2, T / 2 + T / 2 / 2, T / 2 + T / 2, T] := by
  simp [xRecursion]

/-- **C42**, the part that holds: for orders one and two `new_xy_concatenated_sequence` has exactly the
net pulses of the documented recursion.  Missing: orders of at least three, for which the statement
is false (`C42_false`). -/
theorem C42_low_orders_partial (T order : ℝ) (h3 : order < 3) (prePost : Bool)
    (name : Option String) :
    Returns (newXYConcatenatedSequence T order prePost name) (0 < T ∧ 1 ≤ order)
      (fun s => ∃ table, Simplifies table (xyRecursion ⌊order⌋₊ T) ∧
        Realises T table prePost name s) := by
  unfold newXYConcatenatedSequence checkDuration
  refine Returns.congr (Returns.check (Q := 0 < T) (by simp) fun hT =>
    Returns.check (P := True) (Q := 1 ≤ order) (by simp) fun hc => Returns.last ?_) (by simp)
  have hl : ⌊order⌋₊ ≠ 0 := (Nat.floor_pos.mpr hc).ne'
  have hl3 : ⌊order⌋₊ < 3 := (Nat.floor_lt (by linarith)).mpr (by exact_mod_cast h3)
  rw [pyInt_of_nonneg (by linarith), except_ok_bind]
  obtain h | h : ⌊order⌋₊ = 1 ∨ ⌊order⌋₊ = 2 := by omega
  · rw [h, xyConcatenatedPulses_eq hT 0]
    obtain ⟨s, hs, hr⟩ := finishSequence_table hT (xyTable T 1)
      (fun p hp => ⟨(xyTable_bounds hT 0 p hp).1.le, (xyTable_bounds hT 0 p hp).2⟩) prePost name
    exact ⟨s, hs, _, xy_order_one hT, hr⟩
  · rw [h, xyConcatenatedPulses_eq hT 1]
    obtain ⟨s, hs, hr⟩ := finishSequence_table hT (xyTable T 2)
      (fun p hp => ⟨(xyTable_bounds hT 1 p hp).1.le, (xyTable_bounds hT 1 p hp).2⟩) prePost name
    exact ⟨s, hs, _, xy_order_two hT, hr⟩

/-- **C42**, every order: the call accepts exactly positive durations and orders of at least one, and
returns π-pulses about X, Y and Z at non-decreasing times in `(0, T]`. -/
theorem C42_returns (T order : ℝ) (prePost : Bool) (name : Option String) :
    Returns (newXYConcatenatedSequence T order prePost name) (0 < T ∧ 1 ≤ order)
      (fun s => ∃ table, table.Pairwise (fun p q => p.1 ≤ q.1) ∧ (∀ p ∈ table, 0 < p.1 ∧ p.1 ≤ T) ∧
        Realises T table prePost name s) := by
  unfold newXYConcatenatedSequence checkDuration
  refine Returns.congr (Returns.check (Q := 0 < T) (by simp) fun hT =>
    Returns.check (P := True) (Q := 1 ≤ order) (by simp) fun hc => Returns.last ?_) (by simp)
  have hl : ⌊order⌋₊ ≠ 0 := (Nat.floor_pos.mpr hc).ne'
  rw [pyInt_of_nonneg (by linarith), except_ok_bind]
  obtain ⟨n, h⟩ := Nat.exists_eq_succ_of_ne_zero hl
  rw [h, Nat.succ_eq_add_one, xyConcatenatedPulses_eq hT n]
  obtain ⟨s, hs, hr⟩ := finishSequence_table hT (xyTable T (n + 1))
    (fun p hp => ⟨(xyTable_bounds hT n p hp).1.le, (xyTable_bounds hT n p hp).2⟩) prePost name
  exact ⟨s, hs, _, xyTable_sorted hT n, xyTable_bounds hT n, hr⟩

/-- **C42**, the documented recursion has a single pulse, about X, at `T(1 - 4^-l)`. -/
theorem C42_recursion_last (T : ℝ) (hT : 0 < T) (l : ℕ) (hl : l ≠ 0) :
    NetPulse (xyRecursion l T) (T * (1 - 1 / 4 ^ l)) .x := by
  obtain ⟨n, rfl⟩ := Nat.exists_eq_succ_of_ne_zero hl
  obtain ⟨h1, h2⟩ := xyRecursion_last hT n
  exact ⟨by rw [h1]; exact odd_one, by rw [h2]; exact Even.zero⟩

/-- **C42 is false** of the code for every order of at least three: the call returns a sequence that has
no pulse at `T(1 - 4^-l)`, so that it is not the documented recursion, with or without pre and post
rotations. -/
theorem C42_false (T order : ℝ) (hT : 0 < T) (h3 : 3 ≤ order) (prePost : Bool)
    (name : Option String) :
    ∃ s, newXYConcatenatedSequence T order prePost name = .ok s ∧
      T * (1 - 1 / 4 ^ ⌊order⌋₊) ∉ s.offsets ∧
      ¬ ∃ table, Simplifies table (xyRecursion ⌊order⌋₊ T) ∧ Realises T table prePost name s := by
  have hl3 : 3 ≤ ⌊order⌋₊ := Nat.le_floor (by exact_mod_cast h3)
  obtain ⟨n, hn⟩ : ∃ n, ⌊order⌋₊ = n + 3 := ⟨⌊order⌋₊ - 3, by omega⟩
  unfold newXYConcatenatedSequence checkDuration
  rw [checkArguments_bind, if_pos (by simpa using hT), checkArguments_bind,
    if_pos (by simp; linarith), pyInt_of_nonneg (by linarith), except_ok_bind, hn,
    xyConcatenatedPulses_eq hT (n + 2)]
  obtain ⟨s, hs, hr⟩ := finishSequence_table hT (xyTable T (n + 2 + 1))
    (fun p hp => ⟨(xyTable_bounds hT _ p hp).1.le, (xyTable_bounds hT _ p hp).2⟩) prePost name
  have hmiss := xyTable_missing hT n
  have h4 : (1 : ℝ) < 4 ^ (n + 3) := one_lt_pow₀ (by norm_num) (by omega)
  have hfrac : 1 / (4 : ℝ) ^ (n + 3) < 1 := by rw [div_lt_one (by positivity)]; exact h4
  have hfrac0 : 0 < 1 / (4 : ℝ) ^ (n + 3) := by positivity
  have hne0 : T * (1 - 1 / 4 ^ (n + 3)) ≠ 0 := (mul_pos hT (by linarith)).ne'
  have hneT : T * (1 - 1 / 4 ^ (n + 3)) ≠ T := by
    have := mul_pos hT hfrac0
    intro e; linarith
  have hout : T * (1 - 1 / 4 ^ (n + 3)) ∉ s.offsets := by
    intro hm
    have htab : T * (1 - 1 / 4 ^ (n + 3)) ∉ (xyTable T (n + 2 + 1)).map fun p => p.1 := by
      intro hm
      obtain ⟨p, hp, he⟩ := List.mem_map.mp hm
      exact hmiss p hp he
    unfold Realises at hr
    cases prePost with
    | false =>
      rw [if_neg (by simp)] at hr
      subst hr
      exact htab hm
    | true =>
      rw [if_pos rfl] at hr
      have : s.offsets = 0 :: ((xyTable T (n + 2 + 1)).map (fun p => p.1) ++ [T]) := by
        rcases hr.1 with h | h <;> rw [h] <;> rfl
      rw [this, List.mem_cons, List.mem_append, List.mem_singleton] at hm
      rcases hm with hm | hm | hm
      · exact hne0 hm
      · exact htab hm
      · exact hneT hm
  refine ⟨s, hs, hout, ?_⟩
  rintro ⟨table, hsimp, hreal⟩
  have hmem := (hsimp.2 _ _).mpr (C42_recursion_last T hT (n + 3) (by omega))
  apply hout
  unfold Realises at hreal
  have hin : T * (1 - 1 / 4 ^ (n + 3)) ∈ table.map fun p => p.1 := List.mem_map.mpr ⟨_, hmem, rfl⟩
  cases prePost with
  | false =>
    rw [if_neg (by simp)] at hreal
    rw [hreal]; exact hin
  | true =>
    rw [if_pos rfl] at hreal
    rcases hreal.1 with h | h <;> rw [h] <;>
      exact List.mem_cons_of_mem _ (List.mem_append_left _ hin)

/-- order one of the recursion -/
example (T : ℝ) : xyRecursion 1 T = [(T / 4, .x), (T / 2, .y), (3 * T / 4, .x), (T, .y)] := by
  simp [xyRecursion]

end OpenControls
