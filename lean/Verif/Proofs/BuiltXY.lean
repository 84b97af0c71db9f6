import Verif.Spec.BuiltXY
import Verif.Proofs.XYIntegral

/-!
# The XY-concatenated sequence as the code builds it
-/

namespace OpenControls

open Spec

/-- the code's number for a pulse -/
def axisCode : Axis → Int
  | .x => -1
  | .y => -2
  | .z => -3

/-- the code's list for units with pulses -/
def unitWord : List (List Axis) → List Int
  | [] => []
  | p :: rest => 1 :: (p.map axisCode ++ unitWord rest)

theorem unitWord_append (a b : List (List Axis)) : unitWord (a ++ b) = unitWord a ++ unitWord b := by
  induction a with
  | nil => rfl
  | cons p a ih => simp [unitWord, ih]

theorem thenZ_concat (a : List (List Axis)) (p : List Axis) : thenZ (a ++ [p]) = a ++ [p ++ [.z]] := by
  simp [thenZ]

theorem builtXY_ends (n : ℕ) :
    if n % 2 = 0 then ∃ a, builtXY (n + 1) = a ++ [[.x]] ++ [[.y]]
    else ∃ a, builtXY (n + 1) = a ++ [[.x]] ++ [[]] := by
  induction n with
  | zero => exact ⟨[[.x], [.y]], rfl⟩
  | succ n ih =>
    by_cases h : n % 2 = 0
    · rw [if_pos h] at ih
      rw [if_neg (by omega)]
      obtain ⟨a, ha⟩ := ih
      rw [builtXY, if_pos h, ha, List.dropLast_concat]
      exact ⟨a ++ [[.x]] ++ [[.z]] ++ (a ++ [[.x]]) ++ [[]] ++ (a ++ [[.x]]) ++ [[.z]] ++ a, by simp⟩
    · rw [if_neg h] at ih
      rw [if_pos (by omega)]
      obtain ⟨a, ha⟩ := ih
      rw [builtXY, if_neg h, ha, List.dropLast_concat]
      exact ⟨thenZ (a ++ [[.x]]) ++ (a ++ [[.x]]) ++ thenZ (a ++ [[.x]]) ++ a, by simp⟩

theorem unitWord_built (n : ℕ) : unitWord (builtXY (n + 1)) = concatenationXY (n + 1) := by
  induction n with
  | zero => rfl
  | succ n ih =>
    have he := builtXY_ends n
    by_cases h : n % 2 = 0
    · rw [if_pos h] at he
      obtain ⟨a, ha⟩ := he
      rw [ha] at ih
      have hc : concatenationXY (n + 1) = (unitWord (a ++ [[.x]]) ++ [1]) ++ [-2] := by
        rw [← ih, unitWord_append]; simp [unitWord, axisCode]
      rw [concatenationXY_after_y hc, builtXY, if_pos h, ha, List.dropLast_concat]
      simp [unitWord_append, unitWord, axisCode]
    · rw [if_neg h] at he
      obtain ⟨a, ha⟩ := he
      rw [ha] at ih
      have hc : concatenationXY (n + 1) = unitWord (a ++ [[.x]]) ++ [1] := by
        rw [← ih, unitWord_append]; simp [unitWord]
      rw [concatenationXY_after_free hc, builtXY, if_neg h, ha, List.dropLast_concat]
      simp [unitWord_append, unitWord, axisCode, thenZ_concat]

/-- what can stand after a unit -/
def plainRuns : List (List Axis) := [[], [.x], [.y], [.z], [.x, .z]]

theorem builtXY_runs (n : ℕ) : ∀ p ∈ builtXY (n + 1), p ∈ plainRuns := by
  induction n with
  | zero => intro p hp; simp [builtXY] at hp; rcases hp with rfl | rfl | rfl | rfl <;> simp [plainRuns]
  | succ n ih =>
    have he := builtXY_ends n
    by_cases h : n % 2 = 0
    · rw [builtXY, if_pos h]
      have hd : ∀ p ∈ (builtXY (n + 1)).dropLast, p ∈ plainRuns := fun p hp => ih p (List.mem_of_mem_dropLast hp)
      intro p hp
      simp only [List.mem_append, List.mem_singleton] at hp
      have h1 : [] ∈ plainRuns := by simp [plainRuns]
      have h2 : [.z] ∈ plainRuns := by simp [plainRuns]
      rcases hp with ((((((hp | rfl) | hp) | rfl) | hp) | rfl) | hp) | rfl <;>
        first | exact hd p hp | assumption
    · rw [if_neg h] at he
      obtain ⟨a, ha⟩ := he
      rw [builtXY, if_neg h, ha, List.dropLast_concat, thenZ_concat]
      have hd : ∀ p ∈ a, p ∈ plainRuns := fun p hp => ih p (by rw [ha]; simp [hp])
      intro p hp
      simp only [List.mem_append, List.mem_singleton] at hp
      rcases hp with (((((hp | rfl) | (hp | rfl)) | (hp | rfl)) | (hp | rfl)) | rfl) <;>
        first | exact hd p hp | simp [plainRuns]

theorem opsAt_unitWord_zero (op : Int) (b : List (List Axis)) : opsAt op (unitWord b) 0 = 0 := by
  cases b with
  | nil => rfl
  | cons p b => simp [unitWord, opsAt]

theorem axisCode_mem (a : Axis) : axisCode a = -1 ∨ axisCode a = -2 ∨ axisCode a = -3 := by
  cases a <;> simp [axisCode]

theorem axisCode_injective : Function.Injective axisCode := by
  intro a b h
  cases a <;> cases b <;> first | rfl | (simp [axisCode] at h)

theorem opsAt_codes (a : Axis) (p : List Axis) (w : List Int) (k : ℕ) :
    opsAt (axisCode a) (p.map axisCode ++ w) k = (if k = 0 then p.count a else 0) + opsAt (axisCode a) w k := by
  induction p with
  | nil => simp
  | cons b p ih =>
    rw [List.map_cons, List.cons_append, opsAt.eq_def]
    simp only [if_pos (axisCode_mem b)]
    rw [ih, List.count_cons]
    simp only [axisCode_injective.eq_iff, beq_iff_eq]
    by_cases hk : k = 0 <;> by_cases hb : b = a <;> simp [hk, hb] <;> omega

theorem opsAt_unitWord (a : Axis) (b : List (List Axis)) (k : ℕ) :
    opsAt (axisCode a) (unitWord b) (k + 1) = (b[k]?.getD []).count a := by
  induction b generalizing k with
  | nil => simp [unitWord, opsAt]
  | cons p b ih =>
    have e : opsAt (axisCode a) (unitWord (p :: b)) (k + 1) =
        opsAt (axisCode a) (p.map axisCode ++ unitWord b) k := by
      simp [unitWord, opsAt]
    rw [e, opsAt_codes]
    cases k with
    | zero => simp [opsAt_unitWord_zero]
    | succ k => simp [ih]

theorem mem_unitPulses (u t : ℝ) (b : List (List Axis)) (s : ℝ) (a : Axis) :
    (s, a) ∈ unitPulses u t b ↔ ∃ k : ℕ, s = t + (k + 1) * u ∧ a ∈ b[k]?.getD [] := by
  induction b generalizing t with
  | nil => simp [unitPulses]
  | cons p b ih =>
    rw [unitPulses, List.mem_append, ih]
    constructor
    · rintro (h | ⟨k, rfl, h⟩)
      · obtain ⟨a', h', e⟩ := List.mem_map.mp h
        simp only [Prod.mk.injEq] at e
        exact ⟨0, by rw [← e.1]; simp, by rw [← e.2]; simpa using h'⟩
      · exact ⟨k + 1, by push_cast; ring, by simpa using h⟩
    · rintro ⟨k, rfl, h⟩
      cases k with
      | zero => left; simp at h; simp [h]
      | succ k => right; exact ⟨k, by push_cast; ring, by simpa using h⟩

/-- in order of time, Z last among coinciding ones -/
def InOrder (p q : ℝ × Axis) : Prop := p.1 ≤ q.1 ∧ (p.1 = q.1 → p.2 = .z → q.2 = .z)

theorem unitPulses_bounds {u : ℝ} (hu : 0 < u) {t : ℝ} {b : List (List Axis)} {p : ℝ × Axis}
    (hp : p ∈ unitPulses u t b) : t < p.1 := by
  obtain ⟨s, a⟩ := p
  obtain ⟨k, rfl, -⟩ := (mem_unitPulses u t b s a).mp hp
  simp only
  have : (0 : ℝ) ≤ k := Nat.cast_nonneg k
  nlinarith

theorem unitPulses_inOrder {u : ℝ} (hu : 0 < u) (t : ℝ) {b : List (List Axis)}
    (hb : ∀ p ∈ b, p ∈ plainRuns) : (unitPulses u t b).Pairwise InOrder := by
  induction b generalizing t with
  | nil => exact List.Pairwise.nil
  | cons p b ih =>
    rw [unitPulses, List.pairwise_append]
    refine ⟨?_, ih _ fun q hq => hb q (List.mem_cons_of_mem _ hq), ?_⟩
    · have := hb p List.mem_cons_self
      simp only [plainRuns, List.mem_cons, List.not_mem_nil, or_false] at this
      rcases this with rfl | rfl | rfl | rfl | rfl <;> simp [InOrder]
    · intro q hq r hr
      obtain ⟨a, -, rfl⟩ := List.mem_map.mp hq
      have := unitPulses_bounds hu hr
      exact ⟨this.le, fun h => absurd h this.ne⟩

theorem unitPulses_nodup {u : ℝ} (hu : 0 < u) (t : ℝ) {b : List (List Axis)}
    (hb : ∀ p ∈ b, p ∈ plainRuns) : (unitPulses u t b).Nodup := by
  induction b generalizing t with
  | nil => exact List.Pairwise.nil
  | cons p b ih =>
    rw [unitPulses, List.nodup_append]
    refine ⟨?_, ih _ fun q hq => hb q (List.mem_cons_of_mem _ hq), ?_⟩
    · have := hb p List.mem_cons_self
      simp only [plainRuns, List.mem_cons, List.not_mem_nil, or_false] at this
      rcases this with rfl | rfl | rfl | rfl | rfl <;> simp
    · rintro q hq r hr rfl
      obtain ⟨a, -, rfl⟩ := List.mem_map.mp hq
      exact absurd (unitPulses_bounds hu hr) (lt_irrefl _)

theorem mergeZ_inOrder (rest : List (ℝ × Axis)) (zs : List ℝ) (hz : zs.Pairwise (· ≤ ·))
    (hroom : Room rest zs) (hr : rest.Pairwise fun p q => p.1 ≤ q.1) (hn : ∀ p ∈ rest, p.2 ≠ .z) :
    (mergeZ rest zs).Pairwise InOrder := by
  fun_induction mergeZ rest zs with
  | case1 rest =>
    exact List.Pairwise.imp_of_mem (fun hp _ h => ⟨h, fun _ h' => absurd h' (hn _ hp)⟩) hr
  | case2 z zs => exact List.Pairwise.nil
  | case3 r rs z zs h ih =>
    have hz' := List.pairwise_cons.mp hz
    have hroom' : Room (r :: rs) zs := fun z' hz' => hroom z' (List.mem_cons_of_mem _ hz')
    refine List.pairwise_cons.mpr ⟨?_, ih hz'.2 hroom' hr hn⟩
    intro q hq
    rcases (mem_mergeZ _ _ hz'.2 hroom' q).mp hq with hq | ⟨hq', hq⟩
    · have : z < q.1 := by
        rcases List.mem_cons.mp hq with rfl | hq
        · exact h
        · exact h.trans_le ((List.pairwise_cons.mp hr).1 q hq)
      exact ⟨this.le, fun e => absurd e this.ne⟩
    · exact ⟨hz'.1 _ hq, fun _ _ => hq'⟩
  | case4 r rs z zs h ih =>
    have hr' := List.pairwise_cons.mp hr
    refine List.pairwise_cons.mpr ⟨?_, ih hz (hroom.tail hz h) hr'.2
      fun p hp => hn p (List.mem_cons_of_mem _ hp)⟩
    intro q hq
    refine ⟨?_, fun _ h' => absurd h' (hn r List.mem_cons_self)⟩
    rcases (mem_mergeZ _ _ hz (hroom.tail hz h) q).mp hq with hq | ⟨-, hq⟩
    · exact hr'.1 q hq
    · rcases List.mem_cons.mp hq with hq | hq
      · rw [hq]; exact not_lt.mp h
      · exact (not_lt.mp h).trans ((List.pairwise_cons.mp hz).1 _ hq)

theorem xyTable_inOrder {T : ℝ} (hT : 0 < T) (n : ℕ) : (xyTable T (n + 1)).Pairwise InOrder := by
  refine mergeZ_inOrder _ _ (xyOffsetsOf_sorted ..) (xy_room hT n)
    (mergeXY_sorted _ _ (xyOffsetsOf_sorted ..) (xyOffsetsOf_sorted ..)) ?_
  rintro ⟨t, a⟩ hp
  rcases (mem_mergeXY _ _ _ _).mp hp with ⟨rfl, -⟩ | ⟨rfl, -⟩ <;> simp

theorem xyTable_built {T : ℝ} (hT : 0 < T) (n : ℕ) :
    xyTable T (n + 1) = unitPulses (T / 4 ^ (n + 1)) 0 (builtXY (n + 1)) := by
  have hu : 0 < T / 4 ^ (n + 1) := by positivity
  have hruns := builtXY_runs n
  have run_at : ∀ k : ℕ, (builtXY (n + 1))[k]?.getD [] ∈ plainRuns := by
    intro k
    cases h : (builtXY (n + 1))[k]? with
    | none => simp [plainRuns]
    | some p => exact hruns p (List.mem_of_getElem? h)
  have hkind : ∀ (a : Axis) (k : ℕ), (((k + 1 : ℕ) : ℝ) * (T / 4 ^ (n + 1)), a) ∈ xyTable T (n + 1) ↔
      a ∈ (builtXY (n + 1))[k]?.getD [] := by
    intro a k
    rw [mem_xyTable hT n]
    simp only [pow_two_mul]
    rw [kind_at (by unfold IsKind; decide) hu _ (by omega), kind_at (by unfold IsKind; decide) hu _ (by omega),
      kind_at (by unfold IsKind; decide) hu _ (by omega), ← unitWord_built]
    have hodd : ∀ b, Odd (opsAt (axisCode b) (unitWord (builtXY (n + 1))) (k + 1)) ↔
        b ∈ (builtXY (n + 1))[k]?.getD [] := by
      intro b
      rw [opsAt_unitWord]
      have := run_at k
      generalize (builtXY (n + 1))[k]?.getD [] = p at this ⊢
      simp only [plainRuns, List.mem_cons, List.not_mem_nil, or_false] at this
      rcases this with rfl | rfl | rfl | rfl | rfl <;> cases b <;> decide
    have hx := hodd .x
    have hy := hodd .y
    have hz := hodd .z
    simp only [axisCode] at hx hy hz
    rw [hx, hy, hz]
    cases a <;> simp
  have hmem : ∀ p, p ∈ xyTable T (n + 1) ↔ p ∈ unitPulses (T / 4 ^ (n + 1)) 0 (builtXY (n + 1)) := by
    rintro ⟨t, a⟩
    rw [mem_unitPulses]
    constructor
    · intro hp
      obtain ⟨k, h0, -, e⟩ := xyTable_units hT n hp
      rw [pow_two_mul] at e
      obtain ⟨k, rfl⟩ := Nat.exists_eq_succ_of_ne_zero h0.ne'
      simp only at e
      subst e
      exact ⟨k, by push_cast; ring, (hkind a k).mp hp⟩
    · rintro ⟨k, rfl, h⟩
      have := (hkind a k).mpr h
      convert this using 2
      push_cast; ring
  have hperm : (xyTable T (n + 1)).Perm (unitPulses (T / 4 ^ (n + 1)) 0 (builtXY (n + 1))) :=
    (List.perm_ext_iff_of_nodup (xyTable_nodup hT n) (unitPulses_nodup hu 0 hruns)).mpr hmem
  refine List.Perm.eq_of_pairwise ?_ (xyTable_inOrder hT n) (unitPulses_inOrder hu 0 hruns) hperm
  rintro ⟨t, a⟩ ⟨t', a'⟩ hp hq ⟨h1, h2⟩ ⟨h3, h4⟩
  have e : t = t' := le_antisymm h1 h3
  subst e
  simp only [forall_const] at h2 h4
  obtain ⟨k, hk, ha⟩ := (mem_unitPulses _ _ _ _ _).mp ((hmem _).mp hp)
  obtain ⟨j, hj, ha'⟩ := (mem_unitPulses _ _ _ _ _).mp hq
  have hkj : k = j := by
    rw [hk] at hj
    have : ((k : ℝ) + 1) * (T / 4 ^ (n + 1)) = (j + 1) * (T / 4 ^ (n + 1)) := by linarith
    have := mul_right_cancel₀ hu.ne' this
    exact_mod_cast add_right_cancel this
  subst hkj
  have := run_at k
  generalize (builtXY (n + 1))[k]?.getD [] = p at this ha ha'
  simp only [plainRuns, List.mem_cons, List.not_mem_nil, or_false] at this
  rcases this with rfl | rfl | rfl | rfl | rfl <;> cases a <;> cases a' <;> simp_all

/-! ## Length and end -/

theorem builtXY_length_step (n : ℕ) : (builtXY (n + 2)).length =
    if n % 2 = 0 then 4 * (builtXY (n + 1)).length else 4 * ((builtXY (n + 1)).length - 1) + 1 := by
  have he := builtXY_ends n
  by_cases h : n % 2 = 0
  · rw [if_pos h] at he ⊢
    obtain ⟨a, ha⟩ := he
    rw [builtXY, if_pos h, ha, List.dropLast_concat]
    simp; ring
  · rw [if_neg h] at he ⊢
    obtain ⟨a, ha⟩ := he
    rw [builtXY, if_neg h, ha, List.dropLast_concat, thenZ_concat]
    simp; ring

theorem builtXY_length (k : ℕ) : 5 * (builtXY (2 * k + 1)).length = 19 * 16 ^ k + 1 := by
  induction k with
  | zero => rfl
  | succ k ih =>
    have h1 := builtXY_length_step (2 * k)
    have h2 := builtXY_length_step (2 * k + 1)
    rw [if_pos (by omega)] at h1
    rw [if_neg (by omega)] at h2
    have e : 2 * (k + 1) + 1 = 2 * k + 1 + 2 := by ring
    have e' : 2 * k + 1 + 1 = 2 * k + 2 := by ring
    rw [e, h2, e', h1, pow_succ]
    have : 0 < 16 ^ k := by positivity
    omega

theorem unitPulses_append (u t : ℝ) (a b : List (List Axis)) :
    unitPulses u t (a ++ b) = unitPulses u t a ++ unitPulses u (t + a.length * u) b := by
  induction a generalizing t with
  | nil => simp [unitPulses]
  | cons p a ih =>
    rw [List.cons_append, unitPulses, unitPulses, ih, List.append_assoc]
    congr 3
    push_cast [List.length_cons]; ring

theorem built_last_odd (u : ℝ) (k : ℕ) :
    (unitPulses u 0 (builtXY (2 * k + 1))).getLast? = some ((builtXY (2 * k + 1)).length * u, .y) := by
  have he := builtXY_ends (2 * k)
  rw [if_pos (by omega)] at he
  obtain ⟨a, ha⟩ := he
  rw [ha, unitPulses_append]
  simp [unitPulses]; ring

theorem built_last_even (u : ℝ) (k : ℕ) :
    (unitPulses u 0 (builtXY (2 * k + 2))).getLast? = some (((builtXY (2 * k + 2)).length - 1) * u, .x) := by
  have he := builtXY_ends (2 * k + 1)
  rw [if_neg (by omega)] at he
  obtain ⟨a, ha⟩ := he
  rw [ha, unitPulses_append, unitPulses_append]
  simp [unitPulses]; ring

end OpenControls
