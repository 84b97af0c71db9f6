import Verif.Proofs.Concatenated

/-!
# The XY-concatenated sequence
-/

namespace OpenControls

open Spec RealInst

/-! ## Merging -/

/-- X and Y times in one table -/
noncomputable def mergeXY : List ℝ → List ℝ → List (ℝ × Axis)
  | [], [] => []
  | x :: xs, [] => (x, .x) :: mergeXY xs []
  | [], y :: ys => (y, .y) :: mergeXY [] ys
  | x :: xs, y :: ys =>
    if x < y then (x, .x) :: mergeXY xs (y :: ys) else (y, .y) :: mergeXY (x :: xs) ys
  termination_by x y => x.length + y.length

theorem xyMerge_eq (xs ys : List ℝ) :
    xyMerge xs ys = (mergeXY xs ys).map fun p => (p.1, p.2.rabi, p.2.azimuthal) := by
  fun_induction mergeXY xs ys with
  | case1 => simp [xyMerge]
  | case2 x xs ih => simp [xyMerge, ih, Axis.rabi, Axis.azimuthal]
  | case3 y ys ih => simp [xyMerge, ih, Axis.rabi, Axis.azimuthal]
  | case4 x xs y ys h ih =>
    rw [xyMerge, if_pos (by simpa using h), ih]; simp [Axis.rabi, Axis.azimuthal]
  | case5 x xs y ys h ih =>
    rw [xyMerge, if_neg (by simpa using h), ih]; simp [Axis.rabi, Axis.azimuthal]

theorem mem_mergeXY (xs ys : List ℝ) (t : ℝ) (a : Axis) :
    (t, a) ∈ mergeXY xs ys ↔ (a = .x ∧ t ∈ xs) ∨ (a = .y ∧ t ∈ ys) := by
  fun_induction mergeXY xs ys with
  | case1 => simp
  | case2 x xs ih => simp [ih]; tauto
  | case3 y ys ih => simp [ih]; tauto
  | case4 x xs y ys h ih => simp only [List.mem_cons, ih, Prod.mk.injEq]; tauto
  | case5 x xs y ys h ih => simp only [List.mem_cons, ih, Prod.mk.injEq]; tauto

theorem mergeXY_sorted (xs ys : List ℝ) (hx : xs.Pairwise (· ≤ ·)) (hy : ys.Pairwise (· ≤ ·)) :
    (mergeXY xs ys).Pairwise fun p q => p.1 ≤ q.1 := by
  have key : ∀ (xs ys : List ℝ) (t : ℝ), (∀ x ∈ xs, t ≤ x) → (∀ y ∈ ys, t ≤ y) →
      ∀ q ∈ mergeXY xs ys, t ≤ q.1 := by
    rintro xs ys t hx hy ⟨q, a⟩ hq
    rcases (mem_mergeXY xs ys q a).mp hq with ⟨-, h⟩ | ⟨-, h⟩
    · exact hx q h
    · exact hy q h
  fun_induction mergeXY xs ys with
  | case1 => exact List.Pairwise.nil
  | case2 x xs ih =>
    rw [List.pairwise_cons] at hx
    exact List.pairwise_cons.mpr ⟨key _ _ _ hx.1 (by simp), ih hx.2 hy⟩
  | case3 y ys ih =>
    rw [List.pairwise_cons] at hy
    exact List.pairwise_cons.mpr ⟨key _ _ _ (by simp) hy.1, ih hx hy.2⟩
  | case4 x xs y ys h ih =>
    have hy' := hy
    rw [List.pairwise_cons] at hx hy'
    refine List.pairwise_cons.mpr ⟨key _ _ _ hx.1 ?_, ih hx.2 hy⟩
    intro z hz
    rcases List.mem_cons.mp hz with rfl | hz
    · exact h.le
    · exact h.le.trans (hy'.1 z hz)
  | case5 x xs y ys h ih =>
    have hx' := hx
    rw [List.pairwise_cons] at hx' hy
    refine List.pairwise_cons.mpr ⟨key _ _ _ ?_ hy.1, ih hx hy.2⟩
    intro z hz
    rcases List.mem_cons.mp hz with rfl | hz
    · exact not_lt.mp h
    · exact (not_lt.mp h).trans (hx'.1 z hz)

/-- The Z times inserted in a table. -/
noncomputable def mergeZ : List (ℝ × Axis) → List ℝ → List (ℝ × Axis)
  | rest, [] => rest
  | [], _ :: _ => []
  | r :: rs, z :: zs =>
    if z < r.1 then (z, .z) :: mergeZ (r :: rs) zs else r :: mergeZ rs (z :: zs)
  termination_by r z => r.length + z.length

/-- every Z time has a later entry -/
def Room (rest : List (ℝ × Axis)) (zs : List ℝ) : Prop := ∀ z ∈ zs, ∃ r ∈ rest, z < r.1

theorem Room.tail {r : ℝ × Axis} {rs : List (ℝ × Axis)} {z : ℝ} {zs : List ℝ}
    (h : Room (r :: rs) (z :: zs)) (hz : (z :: zs).Pairwise (· ≤ ·)) (hr : ¬ z < r.1) :
    Room rs (z :: zs) := by
  intro z' hz'
  obtain ⟨q, hq, hlt⟩ := h z' hz'
  rcases List.mem_cons.mp hq with rfl | hq
  · have : z ≤ z' := by
      rcases List.mem_cons.mp hz' with rfl | hz'
      · exact le_refl _
      · exact (List.pairwise_cons.mp hz).1 z' hz'
    exact absurd (lt_of_le_of_lt this hlt) hr
  · exact ⟨q, hq, hlt⟩

theorem mem_mergeZ (rest : List (ℝ × Axis)) (zs : List ℝ) (hz : zs.Pairwise (· ≤ ·))
    (hroom : Room rest zs) (p : ℝ × Axis) :
    p ∈ mergeZ rest zs ↔ p ∈ rest ∨ (p.2 = .z ∧ p.1 ∈ zs) := by
  fun_induction mergeZ rest zs with
  | case1 rest => simp
  | case2 z zs =>
    obtain ⟨r, hr, -⟩ := hroom z (by simp)
    simp at hr
  | case3 r rs z zs h ih =>
    rw [List.mem_cons, ih (List.pairwise_cons.mp hz).2
      (fun z' hz' => hroom z' (List.mem_cons_of_mem _ hz')), Prod.ext_iff]
    simp only [List.mem_cons]
    tauto
  | case4 r rs z zs h ih =>
    rw [List.mem_cons, ih hz (hroom.tail hz h)]
    simp only [List.mem_cons]
    tauto

theorem mergeZ_sorted (rest : List (ℝ × Axis)) (zs : List ℝ) (hz : zs.Pairwise (· ≤ ·))
    (hroom : Room rest zs) (hr : rest.Pairwise fun p q => p.1 ≤ q.1) :
    (mergeZ rest zs).Pairwise fun p q => p.1 ≤ q.1 := by
  fun_induction mergeZ rest zs with
  | case1 rest => exact hr
  | case2 z zs => exact List.Pairwise.nil
  | case3 r rs z zs h ih =>
    have hz' := List.pairwise_cons.mp hz
    have hroom' : Room (r :: rs) zs := fun z' hz' => hroom z' (List.mem_cons_of_mem _ hz')
    refine List.pairwise_cons.mpr ⟨?_, ih hz'.2 hroom' hr⟩
    intro q hq
    rcases (mem_mergeZ _ _ hz'.2 hroom' q).mp hq with hq | ⟨-, hq⟩
    · rcases List.mem_cons.mp hq with rfl | hq
      · exact h.le
      · exact h.le.trans ((List.pairwise_cons.mp hr).1 q hq)
    · exact hz'.1 _ hq
  | case4 r rs z zs h ih =>
    have hr' := List.pairwise_cons.mp hr
    refine List.pairwise_cons.mpr ⟨?_, ih hz (hroom.tail hz h) hr'.2⟩
    intro q hq
    rcases (mem_mergeZ _ _ hz (hroom.tail hz h) q).mp hq with hq | ⟨-, hq⟩
    · exact hr'.1 q hq
    · rcases List.mem_cons.mp hq with hq | hq
      · rw [hq]; exact not_lt.mp h
      · exact (not_lt.mp h).trans ((List.pairwise_cons.mp hz).1 _ hq)

/-- the arrays of the code while Z pulses are inserted: `k` free slots at the end -/
noncomputable def paddedPulses (table : List (ℝ × Axis)) (k : ℕ) : Pulses ℝ where
  offsets := table.map (fun p => p.1) ++ List.replicate k 0
  rabiRotations := table.map (fun p => p.2.rabi) ++ List.replicate k 0
  azimuthalAngles := table.map (fun p => p.2.azimuthal) ++ List.replicate k 0
  detuningRotations := table.map (fun p => p.2.detuning) ++ List.replicate k 0

theorem paddedPulses_zero (table : List (ℝ × Axis)) : paddedPulses table 0 = tablePulses table := by
  simp [paddedPulses, tablePulses]

theorem shiftInsert_padded (pre rest : List ℝ) (k : ℕ) (v : ℝ) :
    shiftInsert ((pre ++ rest) ++ List.replicate (k + 1) 0) pre.length v =
      ((pre ++ v :: rest) ++ List.replicate k 0) := by
  unfold shiftInsert
  rw [List.append_assoc pre rest, List.take_left, List.drop_left, List.replicate_succ',
    ← List.append_assoc, List.dropLast_concat]
  simp

theorem insertZ_eq (pre rest : List (ℝ × Axis)) (zs : List ℝ) (hz : zs.Pairwise (· ≤ ·))
    (hroom : Room rest zs) (hxy : ∀ p ∈ rest, p.2 ≠ .z) :
    insertZ (List.range' pre.length (rest.length + zs.length)) zs
      (paddedPulses (pre ++ rest) zs.length) = tablePulses (pre ++ mergeZ rest zs) := by
  fun_induction mergeZ rest zs generalizing pre with
  | case1 rest =>
    rw [List.length_nil, paddedPulses_zero]
    cases List.range' pre.length (rest.length + 0) <;> rfl
  | case2 z zs =>
    obtain ⟨r, hr, -⟩ := hroom z (by simp)
    simp at hr
  | case3 r rs z zs h ih =>
    have hz' := List.pairwise_cons.mp hz
    have hroom' : Room (r :: rs) zs := fun z' hz' => hroom z' (List.mem_cons_of_mem _ hz')
    have ih := ih (pre ++ [(z, .z)]) hz'.2 hroom' hxy
    simp only [List.append_assoc, List.cons_append, List.nil_append] at ih
    rw [← ih]
    have e1 : (r :: rs).length + (z :: zs).length = ((r :: rs).length + zs.length) + 1 := by
      simp [add_assoc]
    have hget : (paddedPulses (pre ++ r :: rs) (z :: zs).length).offsets[pre.length]? =
        some r.1 := by
      simp [paddedPulses]
    rw [e1, List.range'_succ, insertZ, hget]
    dsimp only
    rw [if_pos (by simpa using h)]
    have e2 : (pre ++ [(z, Axis.z)]).length = pre.length + 1 := by simp
    rw [e2]
    congr 1
    unfold paddedPulses
    simp only [lit_eq, Rat.cast_zero, pi_eq, List.length_cons]
    have hdet : (r :: rs).map (fun p => p.2.detuning) = List.replicate (r :: rs).length (0 : ℝ) := by
      rw [List.eq_replicate_iff]
      refine ⟨by simp, ?_⟩
      intro d hd
      obtain ⟨p, hp, rfl⟩ := List.mem_map.mp hd
      have := hxy p hp
      rcases p with ⟨t, a⟩
      cases a <;> simp_all [Axis.detuning]
    congr 1
    · have := shiftInsert_padded (pre.map fun p => p.1) ((r :: rs).map fun p => p.1) zs.length z
      rw [List.length_map] at this
      rw [List.map_append, this, List.map_append, List.map_cons (a := (z, Axis.z))]
    · have := shiftInsert_padded (pre.map fun p => p.2.rabi) ((r :: rs).map fun p => p.2.rabi)
        zs.length 0
      rw [List.length_map] at this
      rw [List.map_append, this, List.map_append, List.map_cons (a := (z, Axis.z))]
      rfl
    · have := shiftInsert_padded (pre.map fun p => p.2.azimuthal)
        ((r :: rs).map fun p => p.2.azimuthal) zs.length 0
      rw [List.length_map] at this
      rw [List.map_append, this, List.map_append, List.map_cons (a := (z, Axis.z))]
      rfl
    · rw [List.map_append, hdet, List.map_append, List.map_cons (a := (z, Axis.z)), hdet]
      have e : (pre.map fun p => p.2.detuning) ++ List.replicate (r :: rs).length (0 : ℝ) ++
          List.replicate (zs.length + 1) 0 = (pre.map fun p => p.2.detuning) ++
          (0 :: (List.replicate (r :: rs).length (0 : ℝ) ++ List.replicate zs.length 0)) := by
        rw [List.append_assoc, List.replicate_append_replicate, List.replicate_append_replicate,
          ← List.replicate_succ]
        congr 2
      rw [e, ← List.length_map (as := pre) (f := fun p => p.2.detuning), List.set_append_right _ _ (le_refl _),
        Nat.sub_self, List.set_cons_zero]
      simp [Axis.detuning]
  | case4 r rs z zs h ih =>
    have ih := ih (pre ++ [r]) hz (hroom.tail hz h) (fun p hp => hxy p (List.mem_cons_of_mem _ hp))
    simp only [List.append_assoc, List.cons_append, List.nil_append] at ih
    rw [← ih]
    have e1 : (r :: rs).length + (z :: zs).length = (rs.length + (z :: zs).length) + 1 := by
      simp; omega
    have hget : (paddedPulses (pre ++ r :: rs) (z :: zs).length).offsets[pre.length]? =
        some r.1 := by
      simp [paddedPulses]
    rw [e1, List.range'_succ, insertZ, hget]
    dsimp only
    rw [if_neg (by simpa using h)]
    have e2 : (pre ++ [r]).length = pre.length + 1 := by simp
    rw [e2]

/-! ## The list of operations -/

/-- number of units of free evolution -/
def freeUnits (c : List Int) : ℕ := c.countP fun x => x != -1 && x != -2 && x != -3

theorem freeUnits_append (a b : List Int) : freeUnits (a ++ b) = freeUnits a + freeUnits b := by
  simp [freeUnits]

theorem freeUnits_dropLast_le (a : List Int) : freeUnits a.dropLast ≤ freeUnits a :=
  (List.dropLast_sublist a).countP_le

theorem freeUnits_setLast_le (a : List Int) : freeUnits (setLast a (-3)) ≤ freeUnits a := by
  cases a with
  | nil => simp [setLast]
  | cons x a =>
    unfold setLast
    simp only
    rw [freeUnits_append]
    have := freeUnits_dropLast_le (x :: a)
    have h3 : freeUnits [-3] = 0 := by decide
    omega

theorem freeUnits_succ (n : ℕ) :
    freeUnits (concatenationXY (n + 2)) ≤ 4 * freeUnits (concatenationXY (n + 1)) := by
  have h1 : freeUnits [-1] = 0 := by decide
  have h2 : freeUnits [-2] = 0 := by decide
  generalize hc : concatenationXY (n + 1) = c
  have hstep : ∀ d e : List Int, freeUnits d = 0 → freeUnits (c ++ d) = freeUnits c := by
    intro d e h; rw [freeUnits_append, h, add_zero]
  have ha : freeUnits (setLast (c ++ [-1]).dropLast (-3)) ≤ freeUnits c := by
    refine (freeUnits_setLast_le _).trans ?_
    rw [List.dropLast_concat]
  have hb : freeUnits (setLast (c ++ [-1]).dropLast (-3) ++ c ++ [-2]).dropLast.dropLast ≤
      2 * freeUnits c := by
    refine (freeUnits_dropLast_le _).trans ((freeUnits_dropLast_le _).trans ?_)
    rw [freeUnits_append, freeUnits_append, h2]
    omega
  have hd : freeUnits (setLast ((setLast (c ++ [-1]).dropLast (-3) ++ c ++
      [-2]).dropLast.dropLast ++ c ++ [-1]).dropLast (-3)) ≤ 3 * freeUnits c := by
    refine (freeUnits_setLast_le _).trans ((freeUnits_dropLast_le _).trans ?_)
    rw [freeUnits_append, freeUnits_append, h1]
    omega
  have he : freeUnits (setLast ((setLast (c ++ [-1]).dropLast (-3) ++ c ++
      [-2]).dropLast.dropLast ++ c ++ [-1]).dropLast (-3) ++ c ++ [-2]) ≤ 4 * freeUnits c := by
    rw [freeUnits_append, freeUnits_append, h2]
    omega
  simp only [concatenationXY, hc]
  split
  · exact (freeUnits_dropLast_le _).trans ((freeUnits_dropLast_le _).trans he)
  · exact he

theorem freeUnits_le (n : ℕ) : freeUnits (concatenationXY (n + 1)) ≤ 4 ^ (n + 1) := by
  induction n with
  | zero => decide
  | succ n ih =>
    have : freeUnits (concatenationXY (n + 1 + 1)) ≤ _ := freeUnits_succ n
    rw [pow_succ]; omega

/-- From order three on, units of free evolution are missing. -/
theorem freeUnits_lt (n : ℕ) : freeUnits (concatenationXY (n + 3)) + 3 * 4 ^ n ≤ 4 ^ (n + 3) := by
  induction n with
  | zero => decide
  | succ n ih =>
    have h := freeUnits_succ (n + 2)
    have e1 : 4 ^ (n + 1) = 4 * 4 ^ n := by ring
    have e2 : 4 ^ (n + 1 + 3) = 4 * 4 ^ (n + 3) := by ring
    rw [e1, e2]
    have : n + 2 + 2 = n + 1 + 3 := by ring
    rw [this] at h
    have : n + 2 + 1 = n + 3 := by ring
    rw [this] at h
    omega

theorem concatenationXY_ends (n : ℕ) :
    if n % 2 = 0 then ∃ p, concatenationXY (n + 1) = p ++ [1, -1, 1, -2]
    else ∃ p, concatenationXY (n + 1) = p ++ [1, -1, 1] := by
  induction n with
  | zero => exact ⟨[1, -1, 1, -2], rfl⟩
  | succ n ih =>
    have hex : ∃ q : List Int, concatenationXY (n + 2) =
        if (q ++ concatenationXY (n + 1) ++ [-2]).getLast? = some (-2) ∧
          (q ++ concatenationXY (n + 1) ++ [-2]).dropLast.getLast? = some (-2) then
          (q ++ concatenationXY (n + 1) ++ [-2]).dropLast.dropLast
        else q ++ concatenationXY (n + 1) ++ [-2] := ⟨_, rfl⟩
    obtain ⟨q, hq⟩ := hex
    by_cases h : n % 2 = 0
    · rw [if_pos h] at ih
      obtain ⟨p, hp⟩ := ih
      rw [if_neg (by omega)]
      refine ⟨q ++ p, ?_⟩
      rw [hq, hp]
      have e : q ++ (p ++ [1, -1, 1, -2]) ++ [-2] = (q ++ p ++ [1, -1, 1]) ++ [-2] ++ [-2] := by
        simp
      rw [e, if_pos (by simp), List.dropLast_concat, List.dropLast_concat]
    · rw [if_neg h] at ih
      obtain ⟨p, hp⟩ := ih
      rw [if_pos (by omega)]
      refine ⟨q ++ p, ?_⟩
      rw [hq, hp]
      have e : q ++ (p ++ [1, -1, 1]) ++ [-2] = (q ++ p ++ [1, -1]) ++ [1] ++ [-2] := by
        simp
      rw [e, if_neg]
      · simp
      · rw [List.dropLast_concat]; simp

theorem head?_dropLast' {l : List Int} (h : 2 ≤ l.length) : l.dropLast.head? = l.head? := by
  match l, h with
  | x :: y :: l, _ => rfl

theorem concatenationXY_head (n : ℕ) :
    (concatenationXY (n + 1)).head? = some 1 ∧ 8 ≤ (concatenationXY (n + 1)).length := by
  induction n with
  | zero => exact ⟨rfl, le_refl _⟩
  | succ n ih =>
    generalize hc : concatenationXY (n + 1) = c at ih
    obtain ⟨hh, hl⟩ := ih
    have hset : ∀ a : List Int, 2 ≤ a.length → (setLast a (-3)).head? = a.head? ∧
        (setLast a (-3)).length = a.length := by
      intro a ha
      match a, ha with
      | x :: y :: a, _ =>
        refine ⟨rfl, ?_⟩
        simp [setLast]
    have h1 := hset (c ++ [-1]).dropLast (by simp; omega)
    generalize hs1 : setLast (c ++ [-1]).dropLast (-3) = s1 at h1
    rw [head?_dropLast' (by simp; omega)] at h1
    have g1 : s1.head? = some 1 := by rw [h1.1, List.head?_append, hh]; rfl
    have g1' : 8 ≤ s1.length := by rw [h1.2]; simp; omega
    have g2 : ((s1 ++ c ++ [-2]).dropLast.dropLast).head? = some 1 := by
      rw [head?_dropLast' (by simp; omega), head?_dropLast' (by simp; omega), List.append_assoc,
        List.head?_append, g1]; rfl
    have g2' : 8 ≤ ((s1 ++ c ++ [-2]).dropLast.dropLast).length := by simp; omega
    generalize hs2 : (s1 ++ c ++ [-2]).dropLast.dropLast = s2 at g2 g2'
    have h3 := hset (s2 ++ c ++ [-1]).dropLast (by simp; omega)
    generalize hs3 : setLast (s2 ++ c ++ [-1]).dropLast (-3) = s3 at h3
    rw [head?_dropLast' (by simp; omega)] at h3
    have g3 : s3.head? = some 1 := by
      rw [h3.1, List.append_assoc, List.head?_append, g2]; rfl
    have g3' : 8 ≤ s3.length := by rw [h3.2]; simp; omega
    simp only [concatenationXY, hc, hs1, hs2, hs3]
    split
    · constructor
      · rw [head?_dropLast' (by simp; omega), head?_dropLast' (by simp; omega), List.append_assoc,
          List.head?_append, g3]; rfl
      · simp; omega
    · constructor
      · rw [List.append_assoc, List.head?_append, g3]; rfl
      · simp; omega

/-! ## Offsets of one kind of pulse -/

/-- running time, in units, along the operations that are not `other` or `other'` -/
def unitTimes (op other other' : Int) (c : List Int) : List ℕ :=
  Py.cumsumFrom 0 (((c.filter fun c => c != other).filter fun c => c != other').map
    fun c => if c != op then 1 else 0)

theorem xyOffsetsOf_eq (u : ℝ) (op other other' : Int) (c : List Int) :
    xyOffsetsOf u op other other' c =
      evenlyRepeated ((unitTimes op other other' c).map fun k : ℕ => (k : ℝ) * u) := by
  unfold xyOffsetsOf unitTimes
  rw [← npCumsum_scaled]
  simp only [List.map_map, Function.comp_def, lit_eq]
  congr 2
  apply List.map_congr_left
  intro x _
  split <;> simp

theorem mem_xyOffsetsOf {u : ℝ} (hu : 0 < u) (op other other' : Int) (c : List Int) (t : ℝ) :
    t ∈ xyOffsetsOf u op other other' c ↔ ∃ k : ℕ, k ∈ unitTimes op other other' c ∧
      Even ((unitTimes op other other' c).count k) ∧ t = k * u := by
  rw [xyOffsetsOf_eq, mem_evenlyRepeated]
  constructor
  · rintro ⟨h1, h2⟩
    obtain ⟨k, hk, rfl⟩ := List.mem_map.mp h1
    rw [List.count_map_of_injective _ _ (scaled_injective hu)] at h2
    exact ⟨k, hk, h2, rfl⟩
  · rintro ⟨k, hk, h2, rfl⟩
    exact ⟨List.mem_map.mpr ⟨k, hk, rfl⟩,
      by rw [List.count_map_of_injective _ _ (scaled_injective hu)]; exact h2⟩

theorem cumsumFrom_bounds (a : ℕ) (l : List ℕ) : ∀ v ∈ Py.cumsumFrom a l, a ≤ v ∧ v ≤ a + l.sum := by
  induction l generalizing a with
  | nil => simp [Py.cumsumFrom]
  | cons x l ih =>
    intro v hv
    simp only [Py.cumsumFrom, List.mem_cons] at hv
    rcases hv with rfl | hv
    · simp
    · have := ih _ v hv
      simp only [List.sum_cons]; omega

/-- the three kinds of pulses -/
def IsKind (op other other' : Int) : Prop :=
  (op, other, other') ∈ [((-1 : Int), (-2 : Int), (-3 : Int)), (-2, -1, -3), (-3, -2, -1)]

theorem kind_sum {op other other' : Int} (h : IsKind op other other') (c : List Int) :
    (((c.filter fun c => c != other).filter fun c => c != other').map
      fun c => if c != op then 1 else 0).sum = freeUnits c := by
  unfold freeUnits
  induction c with
  | nil => rfl
  | cons x c ih =>
    unfold IsKind at h
    simp only [List.mem_cons, Prod.mk.injEq, List.not_mem_nil, or_false] at h
    rw [List.countP_cons, ← ih]
    rcases h with ⟨rfl, rfl, rfl⟩ | ⟨rfl, rfl, rfl⟩ | ⟨rfl, rfl, rfl⟩ <;>
    · by_cases h1 : x = -1
      · subst h1; simp
      · by_cases h2 : x = -2
        · subst h2; simp
        · by_cases h3 : x = -3
          · subst h3; simp
          · simp [h1, h2, h3]; ring

theorem unitTimes_le {op other other' : Int} (h : IsKind op other other') (c : List Int) :
    ∀ k ∈ unitTimes op other other' c, k ≤ freeUnits c := by
  intro k hk
  have := (cumsumFrom_bounds 0 _ k hk).2
  rw [kind_sum h] at this
  omega

theorem unitTimes_pos {op other other' : Int} (h : IsKind op other other') {c : List Int}
    (hc : c.head? = some 1) : ∀ k ∈ unitTimes op other other' c, 0 < k := by
  intro k hk
  cases c with
  | nil => simp at hc
  | cons x c =>
    simp only [List.head?_cons, Option.some.injEq] at hc
    subst hc
    unfold IsKind at h
    simp only [List.mem_cons, Prod.mk.injEq, List.not_mem_nil, or_false] at h
    have e : unitTimes op other other' (1 :: c) = 1 :: Py.cumsumFrom 1
        (((c.filter fun c => c != other).filter fun c => c != other').map
          fun c => if c != op then 1 else 0) := by
      rcases h with ⟨rfl, rfl, rfl⟩ | ⟨rfl, rfl, rfl⟩ | ⟨rfl, rfl, rfl⟩ <;>
        simp [unitTimes, Py.cumsumFrom]
    rw [e, List.mem_cons] at hk
    rcases hk with rfl | hk
    · exact one_pos
    · have := (cumsumFrom_bounds 1 _ k hk).1
      omega

theorem unitTimes_append {op other other' : Int} (h : IsKind op other other') (a b : List Int) :
    unitTimes op other other' (a ++ b) =
      unitTimes op other other' a ++ (unitTimes op other other' b).map (freeUnits a + ·) := by
  unfold unitTimes
  rw [List.filter_append, List.filter_append, List.map_append, cumsumFrom_append, kind_sum h,
    zero_add, cumsumFrom_nat_add (freeUnits a)]

/-- The last pulse of every order is an X or a Y pulse: there is room for every Z pulse. -/
theorem xy_room {T : ℝ} (hT : 0 < T) (n : ℕ) :
    let u := T / 2 ^ ((n + 1) * 2)
    let c := concatenationXY (n + 1)
    Room (mergeXY (xyOffsetsOf u (-1) (-2) (-3) c) (xyOffsetsOf u (-2) (-1) (-3) c))
      (xyOffsetsOf u (-3) (-2) (-1) c) := by
  intro u c z hz
  have hu : 0 < u := by positivity
  obtain ⟨k, hk, hev, rfl⟩ := (mem_xyOffsetsOf hu _ _ _ _ _).mp hz
  have kx : IsKind (-1) (-2) (-3) := by unfold IsKind; decide
  have ky : IsKind (-2) (-1) (-3) := by unfold IsKind; decide
  have kz : IsKind (-3) (-2) (-1) := by unfold IsKind; decide
  have hends := concatenationXY_ends n
  by_cases h : n % 2 = 0
  · rw [if_pos h] at hends
    obtain ⟨p, hp⟩ := hends
    have hp' : c = (p ++ [1, -1]) ++ [1, -2] := by simp [c, hp]
    set q := p ++ [1, -1]
    refine ⟨(((freeUnits q + 1 : ℕ) : ℝ) * u, .y), ?_, ?_⟩
    · rw [mem_mergeXY]
      refine .inr ⟨rfl, (mem_xyOffsetsOf hu _ _ _ _ _).mpr ⟨freeUnits q + 1, ?_, ?_, rfl⟩⟩
      · rw [hp', unitTimes_append ky]
        refine List.mem_append_right _ (List.mem_map.mpr ⟨1, by decide, rfl⟩)
      · rw [hp', unitTimes_append ky, List.count_append]
        have h0 : (unitTimes (-2) (-1) (-3) q).count (freeUnits q + 1) = 0 := by
          rw [List.count_eq_zero]; intro hm
          have := unitTimes_le ky q _ hm; omega
        rw [h0, List.count_map_of_injective _ _ (add_right_injective _)]
        decide
    · rw [hp', unitTimes_append kz] at hk hev
      have hlt : k < freeUnits q + 1 := by
        rw [List.mem_append] at hk
        rcases hk with hk | hk
        · have := unitTimes_le kz q _ hk; omega
        · have e : unitTimes (-3) (-2) (-1) [1, -2] = [1] := by decide
          rw [e] at hk hev
          simp only [List.map_cons, List.map_nil, List.mem_singleton] at hk
          subst hk
          rw [List.count_append] at hev
          have h0 : (unitTimes (-3) (-2) (-1) q).count (freeUnits q + 1) = 0 := by
            rw [List.count_eq_zero]; intro hm
            have := unitTimes_le kz q _ hm; omega
          rw [h0] at hev
          simp at hev
      have : (k : ℝ) < ((freeUnits q + 1 : ℕ) : ℝ) := by exact_mod_cast hlt
      exact mul_lt_mul_of_pos_right this hu
  · rw [if_neg h] at hends
    obtain ⟨q, hp⟩ := hends
    have hp' : c = q ++ [1, -1, 1] := hp
    refine ⟨(((freeUnits q + 1 : ℕ) : ℝ) * u, .x), ?_, ?_⟩
    · rw [mem_mergeXY]
      refine .inl ⟨rfl, (mem_xyOffsetsOf hu _ _ _ _ _).mpr ⟨freeUnits q + 1, ?_, ?_, rfl⟩⟩
      · rw [hp', unitTimes_append kx]
        refine List.mem_append_right _ (List.mem_map.mpr ⟨1, by decide, rfl⟩)
      · rw [hp', unitTimes_append kx, List.count_append]
        have h0 : (unitTimes (-1) (-2) (-3) q).count (freeUnits q + 1) = 0 := by
          rw [List.count_eq_zero]; intro hm
          have := unitTimes_le kx q _ hm; omega
        rw [h0, List.count_map_of_injective _ _ (add_right_injective _)]
        decide
    · rw [hp', unitTimes_append kz] at hk hev
      have hlt : k < freeUnits q + 1 := by
        rw [List.mem_append] at hk
        have hzero : ∀ j, 0 < j → (unitTimes (-3) (-2) (-1) q).count (freeUnits q + j) = 0 := by
          intro j hj
          rw [List.count_eq_zero]; intro hm
          have := unitTimes_le kz q _ hm; omega
        rcases hk with hk | hk
        · have := unitTimes_le kz q _ hk; omega
        · have e : unitTimes (-3) (-2) (-1) [1, -1, 1] = [1, 2] := by decide
          rw [e] at hk hev
          simp only [List.map_cons, List.map_nil, List.mem_cons, List.not_mem_nil, or_false] at hk
          rw [List.count_append] at hev
          rcases hk with rfl | rfl
          · rw [hzero 1 (by omega)] at hev; simp at hev
          · rw [hzero 2 (by omega)] at hev; simp at hev
      have : (k : ℝ) < ((freeUnits q + 1 : ℕ) : ℝ) := by exact_mod_cast hlt
      exact mul_lt_mul_of_pos_right this hu

/-! ## The table of pulses -/

/-- the table of pulses the code builds -/
noncomputable def xyTable (T : ℝ) (l : ℕ) : List (ℝ × Axis) :=
  let u := T / 2 ^ (l * 2)
  let c := concatenationXY l
  mergeZ (mergeXY (xyOffsetsOf u (-1) (-2) (-3) c) (xyOffsetsOf u (-2) (-1) (-3) c))
    (xyOffsetsOf u (-3) (-2) (-1) c)

theorem xyOffsetsOf_sorted (u : ℝ) (op other other' : Int) (c : List Int) :
    (xyOffsetsOf u op other other' c).Pairwise (· ≤ ·) := by
  rw [xyOffsetsOf_eq]
  exact (evenlyRepeated_sorted _).imp le_of_lt

theorem xyConcatenatedPulses_eq {T : ℝ} (hT : 0 < T) (n : ℕ) :
    xyConcatenatedPulses T (n + 1) = tablePulses (xyTable T (n + 1)) := by
  unfold xyConcatenatedPulses xyTable
  have hroom := xy_room hT n
  simp only [nat_eq, Nat.cast_pow, Nat.cast_ofNat, lit_eq, Rat.cast_zero] at hroom ⊢
  set X := xyOffsetsOf (T / 2 ^ ((n + 1) * 2)) (-1) (-2) (-3) (concatenationXY (n + 1))
  set Y := xyOffsetsOf (T / 2 ^ ((n + 1) * 2)) (-2) (-1) (-3) (concatenationXY (n + 1))
  set Z := xyOffsetsOf (T / 2 ^ ((n + 1) * 2)) (-3) (-2) (-1) (concatenationXY (n + 1))
  have hxy : ∀ p ∈ mergeXY X Y, p.2 ≠ .z := by
    rintro ⟨t, a⟩ hp hz
    rcases (mem_mergeXY X Y t a).mp hp with ⟨rfl, -⟩ | ⟨rfl, -⟩ <;> cases hz
  have h := insertZ_eq [] (mergeXY X Y) Z (xyOffsetsOf_sorted ..) hroom hxy
  simp only [List.nil_append, List.length_nil] at h
  rw [← h, xyMerge_eq]
  have hdet : (mergeXY X Y).map (fun p => p.2.detuning) =
      List.replicate (mergeXY X Y).length (0 : ℝ) := by
    rw [List.eq_replicate_iff]
    refine ⟨by simp, ?_⟩
    intro d hd
    obtain ⟨p, hp, rfl⟩ := List.mem_map.mp hd
    have := hxy p hp
    rcases p with ⟨t, a⟩
    cases a <;> simp_all [Axis.detuning]
  have hpad : paddedPulses (mergeXY X Y) Z.length = {
      offsets := ((mergeXY X Y).map fun p => (p.1, p.2.rabi, p.2.azimuthal)).map (fun r => r.1) ++
        List.replicate Z.length 0
      rabiRotations := ((mergeXY X Y).map fun p => (p.1, p.2.rabi, p.2.azimuthal)).map
        (fun r => r.2.1) ++ List.replicate Z.length 0
      azimuthalAngles := ((mergeXY X Y).map fun p => (p.1, p.2.rabi, p.2.azimuthal)).map
        (fun r => r.2.2) ++ List.replicate Z.length 0
      detuningRotations := List.replicate
        (((mergeXY X Y).map fun p => (p.1, p.2.rabi, p.2.azimuthal)).length + Z.length) 0 } := by
    unfold paddedPulses
    rw [hdet, List.replicate_append_replicate]
    simp [Function.comp_def]
  rw [← hpad]
  congr 1
  rw [List.range_eq_range']
  congr 1
  simp

theorem mem_xyTable {T : ℝ} (hT : 0 < T) (n : ℕ) (t : ℝ) (a : Axis) :
    (t, a) ∈ xyTable T (n + 1) ↔
      (a = .x ∧ t ∈ xyOffsetsOf (T / 2 ^ ((n + 1) * 2)) (-1) (-2) (-3) (concatenationXY (n + 1))) ∨
      (a = .y ∧ t ∈ xyOffsetsOf (T / 2 ^ ((n + 1) * 2)) (-2) (-1) (-3) (concatenationXY (n + 1))) ∨
      (a = .z ∧ t ∈ xyOffsetsOf (T / 2 ^ ((n + 1) * 2)) (-3) (-2) (-1) (concatenationXY (n + 1))) := by
  unfold xyTable
  rw [mem_mergeZ _ _ (xyOffsetsOf_sorted ..) (xy_room hT n), mem_mergeXY, or_assoc]

theorem xyTable_sorted {T : ℝ} (hT : 0 < T) (n : ℕ) :
    (xyTable T (n + 1)).Pairwise fun p q => p.1 ≤ q.1 :=
  mergeZ_sorted _ _ (xyOffsetsOf_sorted ..) (xy_room hT n)
    (mergeXY_sorted _ _ (xyOffsetsOf_sorted ..) (xyOffsetsOf_sorted ..))

/-- all times are multiples `1 ≤ k ≤ freeUnits` of the spacing -/
theorem xyTable_units {T : ℝ} (hT : 0 < T) (n : ℕ) {p : ℝ × Axis} (hp : p ∈ xyTable T (n + 1)) :
    ∃ k : ℕ, 0 < k ∧ k ≤ freeUnits (concatenationXY (n + 1)) ∧ p.1 = k * (T / 2 ^ ((n + 1) * 2)) := by
  have hu : 0 < T / 2 ^ ((n + 1) * 2) := by positivity
  have key : ∀ {op other other' : Int}, IsKind op other other' →
      p.1 ∈ xyOffsetsOf (T / 2 ^ ((n + 1) * 2)) op other other' (concatenationXY (n + 1)) →
      ∃ k : ℕ, 0 < k ∧ k ≤ freeUnits (concatenationXY (n + 1)) ∧
        p.1 = k * (T / 2 ^ ((n + 1) * 2)) := by
    intro op other other' hkind hm
    obtain ⟨k, hk, -, e⟩ := (mem_xyOffsetsOf hu _ _ _ _ _).mp hm
    exact ⟨k, unitTimes_pos hkind (concatenationXY_head n).1 k hk, unitTimes_le hkind _ k hk, e⟩
  rcases (mem_xyTable hT n p.1 p.2).mp hp with ⟨-, h⟩ | ⟨-, h⟩ | ⟨-, h⟩
  · exact key (by unfold IsKind; decide) h
  · exact key (by unfold IsKind; decide) h
  · exact key (by unfold IsKind; decide) h

theorem pow_two_mul (n : ℕ) : (2 : ℝ) ^ (n * 2) = 4 ^ n := by
  rw [mul_comm, pow_mul]; norm_num

theorem xyTable_bounds {T : ℝ} (hT : 0 < T) (n : ℕ) :
    ∀ p ∈ xyTable T (n + 1), 0 < p.1 ∧ p.1 ≤ T := by
  intro p hp
  obtain ⟨k, h0, h1, e⟩ := xyTable_units hT n hp
  rw [e, pow_two_mul]
  have h0' : (0 : ℝ) < k := by exact_mod_cast h0
  have h1' : (k : ℝ) ≤ 4 ^ (n + 1) := by exact_mod_cast h1.trans (freeUnits_le n)
  refine ⟨by positivity, ?_⟩
  rw [mul_div_assoc', div_le_iff₀ (by positivity)]
  nlinarith

/-- From order three on nothing happens one unit before the end. -/
theorem xyTable_missing {T : ℝ} (hT : 0 < T) (n : ℕ) :
    ∀ p ∈ xyTable T (n + 3), p.1 ≠ T * (1 - 1 / 4 ^ (n + 3)) := by
  intro p hp he
  obtain ⟨k, h0, h1, e⟩ := xyTable_units hT (n + 2) hp
  rw [pow_two_mul] at e
  have h1' := h1.trans (Nat.le_sub_of_add_le (freeUnits_lt n))
  have hp4 : 0 < 4 ^ n := by positivity
  have hk : k + 3 ≤ 4 ^ (n + 3) := by
    have := freeUnits_lt n
    omega
  have hk' : (k : ℝ) + 3 ≤ 4 ^ (n + 3) := by exact_mod_cast hk
  rw [e] at he
  have hne : (4 : ℝ) ^ (n + 3) ≠ 0 := by positivity
  have : (k : ℝ) = 4 ^ (n + 3) - 1 := by
    have hne' : (4 : ℝ) ^ (n + 2 + 1) ≠ 0 := by positivity
    field_simp at he
    linarith
  linarith

theorem mergeXY_perm (xs ys : List ℝ) :
    (mergeXY xs ys).Perm (xs.map (fun t => (t, .x)) ++ ys.map fun t => (t, .y)) := by
  fun_induction mergeXY xs ys with
  | case1 => simp
  | case2 x xs ih => simpa using ih
  | case3 y ys ih => simpa using ih
  | case4 x xs y ys h ih => exact ih.cons _
  | case5 x xs y ys h ih =>
    refine (ih.cons _).trans ?_
    rw [List.map_cons (a := y)]
    exact List.perm_middle.symm

theorem mergeZ_perm (rest : List (ℝ × Axis)) (zs : List ℝ) (hz : zs.Pairwise (· ≤ ·))
    (hroom : Room rest zs) : (mergeZ rest zs).Perm (rest ++ zs.map fun t => (t, .z)) := by
  fun_induction mergeZ rest zs with
  | case1 rest => simp
  | case2 z zs =>
    obtain ⟨r, hr, -⟩ := hroom z (by simp)
    simp at hr
  | case3 r rs z zs h ih =>
    refine ((ih (List.pairwise_cons.mp hz).2
      (fun z' hz' => hroom z' (List.mem_cons_of_mem _ hz'))).cons _).trans ?_
    exact List.perm_middle.symm
  | case4 r rs z zs h ih => exact (ih hz (hroom.tail hz h)).cons _

theorem xyTable_nodup {T : ℝ} (hT : 0 < T) (n : ℕ) : (xyTable T (n + 1)).Nodup := by
  have hs : ∀ op other other' : Int, (xyOffsetsOf (T / 2 ^ ((n + 1) * 2)) op other other'
      (concatenationXY (n + 1))).Nodup := by
    intro op other other'
    rw [xyOffsetsOf_eq]
    exact (evenlyRepeated_sorted _).imp ne_of_lt
  have hinj : ∀ a : Axis, Function.Injective fun t : ℝ => (t, a) := by
    intro a t t' h
    exact (Prod.ext_iff.mp h).1
  unfold xyTable
  refine (mergeZ_perm _ _ (xyOffsetsOf_sorted ..) (xy_room hT n)).nodup_iff.mpr ?_
  rw [((mergeXY_perm _ _).append_right _).nodup_iff, List.nodup_append, List.nodup_append]
  refine ⟨⟨(hs _ _ _).map (hinj _), (hs _ _ _).map (hinj _), ?_⟩, (hs _ _ _).map (hinj _), ?_⟩
  · intro p hp q hq he
    obtain ⟨t, -, rfl⟩ := List.mem_map.mp hp
    obtain ⟨t', -, rfl⟩ := List.mem_map.mp hq
    simp at he
  · intro p hp q hq he
    obtain ⟨t', -, rfl⟩ := List.mem_map.mp hq
    rcases List.mem_append.mp hp with hp | hp <;>
    · obtain ⟨t, -, rfl⟩ := List.mem_map.mp hp
      simp at he

/-! ## The recursion -/

/-- the documented recursion in units of the spacing -/
def xyUnits : ℕ → List (ℕ × Axis)
  | 0 => []
  | l + 1 =>
    let c := fun t : ℕ => (xyUnits l).map fun p => (t + p.1, p.2)
    c 0 ++ [(4 ^ l, .x)] ++ c (4 ^ l) ++ [(2 * 4 ^ l, .y)] ++
      c (2 * 4 ^ l) ++ [(3 * 4 ^ l, .x)] ++ c (3 * 4 ^ l) ++ [(4 * 4 ^ l, .y)]

theorem xyRecursion_eq (l : ℕ) (T : ℝ) :
    xyRecursion l T = (xyUnits l).map fun p => ((p.1 : ℝ) * (T / 4 ^ l), p.2) := by
  induction l generalizing T with
  | zero => rfl
  | succ l ih =>
    have e : T / 4 / 4 ^ l = T / 4 ^ (l + 1) := by rw [pow_succ]; field_simp
    have shift : ∀ j : ℕ, (xyRecursion l (T / 4)).map (fun p => ((j : ℝ) * T / 4 + p.1, p.2)) =
        ((xyUnits l).map fun p => (j * 4 ^ l + p.1, p.2)).map
          fun p : ℕ × Axis => ((p.1 : ℝ) * (T / 4 ^ (l + 1)), p.2) := by
      intro j
      rw [ih, e, List.map_map, List.map_map]
      apply List.map_congr_left
      intro p _
      simp only [Function.comp_apply, Prod.mk.injEq, and_true]
      push_cast; rw [pow_succ]; field_simp
    have pos : ∀ j : ℕ, ((j * 4 ^ l : ℕ) : ℝ) * (T / 4 ^ (l + 1)) = j * T / 4 := by
      intro j; push_cast; rw [pow_succ]; field_simp
    have s0 := shift 0
    have s1 := shift 1
    have s2 := shift 2
    have s3 := shift 3
    have p1 := pos 1
    have p2 := pos 2
    have p3 := pos 3
    have p4 := pos 4
    simp only [zero_mul, one_mul, Nat.cast_zero, Nat.cast_one, Nat.cast_ofNat, zero_div] at s0 s1 s2 s3 p1 p2 p3 p4
    have t2 : 2 * T / 4 = T / 2 := by ring
    have t4 : 4 * T / 4 = T := by ring
    rw [t2] at s2 p2
    rw [t4] at p4
    simp only [xyRecursion, xyUnits, List.map_append, List.map_cons, List.map_nil, s0, s1, s2, s3,
      p1, p2, p3, p4]

theorem xyUnits_bounds (l : ℕ) : ∀ p ∈ xyUnits l, 0 < p.1 ∧ p.1 ≤ 4 ^ l := by
  induction l with
  | zero => simp [xyUnits]
  | succ l ih =>
    intro p hp
    have h4 : 0 < 4 ^ l := by positivity
    have e4 : 4 ^ (l + 1) = 4 * 4 ^ l := by ring
    simp only [xyUnits, List.mem_append, List.mem_map, List.mem_singleton] at hp
    rw [e4]
    rcases hp with ((((((⟨q, hq, rfl⟩ | rfl) | ⟨q, hq, rfl⟩) | rfl) | ⟨q, hq, rfl⟩) | rfl) |
      ⟨q, hq, rfl⟩) | rfl
    all_goals first
      | (have := ih q hq; simp only; omega)
      | (simp only; omega)

theorem count_shift (l : List (ℕ × Axis)) (j k : ℕ) (a : Axis) :
    (l.map fun p => (j + p.1, p.2)).count (j + k, a) = l.count (k, a) := by
  have hinj : Function.Injective fun p : ℕ × Axis => (j + p.1, p.2) := by
    rintro ⟨p, a⟩ ⟨q, b⟩ h
    simp only [Prod.mk.injEq, add_right_inj] at h
    exact Prod.ext h.1 h.2
  exact List.count_map_of_injective l _ hinj (k, a)

/-- one unit before the end the recursion has exactly one pulse, about X -/
theorem xyUnits_last (l : ℕ) : (xyUnits (l + 1)).count (4 ^ (l + 1) - 1, .x) = 1 ∧
    (xyUnits (l + 1)).count (4 ^ (l + 1) - 1, .y) = 0 := by
  induction l with
  | zero => decide
  | succ l ih =>
    have h4 : 0 < 4 ^ l := by positivity
    have e1 : 4 ^ (l + 1) = 4 * 4 ^ l := by ring
    have e2 : 4 ^ (l + 1 + 1) = 4 * 4 ^ (l + 1) := by ring
    have hpos : 4 ^ (l + 2) - 1 = 3 * 4 ^ (l + 1) + (4 ^ (l + 1) - 1) := by
      rw [show l + 2 = l + 1 + 1 from rfl, e2]; omega
    have hz : ∀ j a, j + 4 ^ (l + 1) < 4 ^ (l + 2) - 1 →
        ((xyUnits (l + 1)).map fun p => (j + p.1, p.2)).count (4 ^ (l + 2) - 1, a) = 0 := by
      intro j a hj
      rw [List.count_eq_zero]
      intro hm
      obtain ⟨p, hp, he⟩ := List.mem_map.mp hm
      have := xyUnits_bounds _ p hp
      simp only [Prod.mk.injEq] at he
      omega
    have key : ∀ a, (xyUnits (l + 2)).count (4 ^ (l + 2) - 1, a) =
        (xyUnits (l + 1)).count (4 ^ (l + 1) - 1, a) := by
      intro a
      have hl : ∀ j b, j ≠ 4 ^ (l + 2) - 1 → [(j, b)].count (4 ^ (l + 2) - 1, a) = 0 := by
        intro j b hj
        rw [List.count_eq_zero, List.mem_singleton]
        intro he
        simp only [Prod.mk.injEq] at he
        exact hj he.1.symm
      rw [xyUnits]
      simp only [List.count_append]
      rw [hz 0 a (by omega), hz _ a (by omega), hz _ a (by omega), hl _ _ (by omega),
        hl _ _ (by omega), hl _ _ (by omega), hl _ _ (by omega)]
      rw [hpos, count_shift]
      omega
    exact ⟨(key _).trans ih.1, (key _).trans ih.2⟩

theorem count_scaled {u : ℝ} (hu : 0 < u) (l : List (ℕ × Axis)) (k : ℕ) (a : Axis) :
    (l.map fun p => ((p.1 : ℝ) * u, p.2)).count ((k : ℝ) * u, a) = l.count (k, a) := by
  have hinj : Function.Injective fun p : ℕ × Axis => ((p.1 : ℝ) * u, p.2) := by
    rintro ⟨p, a⟩ ⟨q, b⟩ h
    simp only [Prod.mk.injEq] at h
    exact Prod.ext (scaled_injective hu h.1) h.2
  exact List.count_map_of_injective l _ hinj (k, a)

theorem xyRecursion_last {T : ℝ} (hT : 0 < T) (l : ℕ) :
    (xyRecursion (l + 1) T).count (T * (1 - 1 / 4 ^ (l + 1)), .x) = 1 ∧
    (xyRecursion (l + 1) T).count (T * (1 - 1 / 4 ^ (l + 1)), .y) = 0 := by
  have e : T * (1 - 1 / 4 ^ (l + 1)) = ((4 ^ (l + 1) - 1 : ℕ) : ℝ) * (T / 4 ^ (l + 1)) := by
    rw [Nat.cast_sub (Nat.one_le_pow _ _ (by norm_num))]
    push_cast; field_simp
  rw [e, xyRecursion_eq, count_scaled (by positivity), count_scaled (by positivity)]
  exact xyUnits_last l

/-! ## Orders one and two -/

/-- the times occurring an even number of times, as a sorted list of naturals -/
def evenUnits (N : ℕ) (l : List ℕ) : List ℕ :=
  (List.range N).filter fun v => decide (v ∈ l) && l.count v % 2 == 0

theorem xyOffsetsOf_units {u : ℝ} (hu : 0 < u) (op other other' : Int) (c : List Int) (N : ℕ)
    (hN : ∀ k ∈ unitTimes op other other' c, k < N) :
    xyOffsetsOf u op other other' c =
      (evenUnits N (unitTimes op other other' c)).map fun k : ℕ => (k : ℝ) * u := by
  have s1 : (xyOffsetsOf u op other other' c).Pairwise (· < ·) := by
    rw [xyOffsetsOf_eq]; exact evenlyRepeated_sorted _
  have s2 : ((evenUnits N (unitTimes op other other' c)).map fun k : ℕ => (k : ℝ) * u).Pairwise
      (· < ·) := by
    rw [List.pairwise_map]
    refine List.Pairwise.imp ?_ (List.pairwise_lt_range.filter _)
    intro a b hab
    have : (a : ℝ) < b := by exact_mod_cast hab
    exact mul_lt_mul_of_pos_right this hu
  refine List.Perm.eq_of_pairwise (fun a b _ _ h1 h2 => by linarith) s1 s2 ?_
  rw [List.perm_ext_iff_of_nodup (s1.imp ne_of_lt) (s2.imp ne_of_lt)]
  intro t
  rw [mem_xyOffsetsOf hu, List.mem_map]
  simp only [evenUnits, List.mem_filter, List.mem_range, Bool.and_eq_true, decide_eq_true_eq,
    beq_iff_eq, Nat.even_iff]
  constructor
  · rintro ⟨k, h1, h2, rfl⟩; exact ⟨k, ⟨hN k h1, h1, h2⟩, rfl⟩
  · rintro ⟨k, ⟨-, h1, h2⟩, rfl⟩; exact ⟨k, h1, h2, rfl⟩

/-- the net pulse of the recursion in units -/
def netUnits (l : List (ℕ × Axis)) (k : ℕ) : Axis → Bool
  | .x => l.count (k, .x) % 2 == 1 && l.count (k, .y) % 2 == 0
  | .y => l.count (k, .x) % 2 == 0 && l.count (k, .y) % 2 == 1
  | .z => l.count (k, .x) % 2 == 1 && l.count (k, .y) % 2 == 1

theorem netUnits_unique {l : List (ℕ × Axis)} {k : ℕ} {a b : Axis} (h1 : netUnits l k a = true)
    (h2 : netUnits l k b = true) : a = b := by
  cases a <;> cases b <;> first | rfl | (simp [netUnits] at h1 h2; omega)

theorem netPulse_units {T : ℝ} (hT : 0 < T) (l k : ℕ) (a : Axis) :
    NetPulse (xyRecursion l T) (k * (T / 4 ^ l)) a ↔ netUnits (xyUnits l) k a = true := by
  have hu : 0 < T / 4 ^ l := by positivity
  cases a <;> simp only [NetPulse, netUnits, xyRecursion_eq, count_scaled hu, Bool.and_eq_true,
    beq_iff_eq, Nat.odd_iff, Nat.even_iff]

theorem netPulse_is_unit {T : ℝ} {l : ℕ} {t : ℝ} {a : Axis} (h : NetPulse (xyRecursion l T) t a) :
    ∃ k : ℕ, k ≤ 4 ^ l ∧ t = k * (T / 4 ^ l) := by
  have : ∃ b, 0 < (xyRecursion l T).count (t, b) := by
    cases a with
    | x => exact ⟨.x, h.1.pos⟩
    | y => exact ⟨.y, h.2.pos⟩
    | z => exact ⟨.x, h.1.pos⟩
  obtain ⟨b, hb⟩ := this
  rw [List.count_pos_iff, xyRecursion_eq] at hb
  obtain ⟨p, hp, he⟩ := List.mem_map.mp hb
  simp only [Prod.mk.injEq] at he
  exact ⟨p.1, (xyUnits_bounds l p hp).2, he.1.symm⟩

/-- A finite check on units settles one order. -/
theorem simplifies_of_units {T : ℝ} (hT : 0 < T) (n : ℕ)
    (hx : ∀ k < 4 ^ (n + 1) + 1, k ∈ evenUnits (4 ^ (n + 1) + 1)
      (unitTimes (-1) (-2) (-3) (concatenationXY (n + 1))) ↔ netUnits (xyUnits (n + 1)) k .x = true)
    (hy : ∀ k < 4 ^ (n + 1) + 1, k ∈ evenUnits (4 ^ (n + 1) + 1)
      (unitTimes (-2) (-1) (-3) (concatenationXY (n + 1))) ↔ netUnits (xyUnits (n + 1)) k .y = true)
    (hz : ∀ k < 4 ^ (n + 1) + 1, k ∈ evenUnits (4 ^ (n + 1) + 1)
      (unitTimes (-3) (-2) (-1) (concatenationXY (n + 1))) ↔ netUnits (xyUnits (n + 1)) k .z = true) :
    Simplifies (xyTable T (n + 1)) (xyRecursion (n + 1) T) := by
  have hu : 0 < T / 2 ^ ((n + 1) * 2) := by positivity
  have hN : ∀ {op other other' : Int}, IsKind op other other' →
      ∀ k ∈ unitTimes op other other' (concatenationXY (n + 1)), k < 4 ^ (n + 1) + 1 := by
    intro op other other' hk k hm
    have := unitTimes_le hk _ k hm
    have := freeUnits_le n
    omega
  have kx : IsKind (-1) (-2) (-3) := by unfold IsKind; decide
  have ky : IsKind (-2) (-1) (-3) := by unfold IsKind; decide
  have kz : IsKind (-3) (-2) (-1) := by unfold IsKind; decide
  have hmem : ∀ t a, (t, a) ∈ xyTable T (n + 1) ↔ NetPulse (xyRecursion (n + 1) T) t a := by
    intro t a
    have step : ∀ {op other other' : Int} {b : Axis} (_ : IsKind op other other')
        (_ : ∀ k < 4 ^ (n + 1) + 1, k ∈ evenUnits (4 ^ (n + 1) + 1)
          (unitTimes op other other' (concatenationXY (n + 1))) ↔
            netUnits (xyUnits (n + 1)) k b = true),
        t ∈ xyOffsetsOf (T / 2 ^ ((n + 1) * 2)) op other other' (concatenationXY (n + 1)) ↔
          NetPulse (xyRecursion (n + 1) T) t b := by
      intro op other other' b hk hb
      rw [xyOffsetsOf_units hu _ _ _ _ _ (hN hk), List.mem_map, pow_two_mul]
      constructor
      · rintro ⟨k, h1, rfl⟩
        have hlt : k < 4 ^ (n + 1) + 1 := by
          unfold evenUnits at h1
          exact List.mem_range.mp (List.mem_of_mem_filter h1)
        exact (netPulse_units hT _ _ _).mpr ((hb k hlt).mp h1)
      · intro h
        obtain ⟨k, h1, rfl⟩ := netPulse_is_unit h
        exact ⟨k, (hb k (by omega)).mpr ((netPulse_units hT _ _ _).mp h), rfl⟩
    rw [mem_xyTable hT, step kx hx, step ky hy, step kz hz]
    cases a <;> simp
  refine ⟨?_, hmem⟩
  rw [List.pairwise_map]
  have hnd := (xyTable_nodup hT n)
  refine List.Pairwise.imp_of_mem (R := fun p q => p.1 ≤ q.1 ∧ p ≠ q) ?_ ?_
  · rintro ⟨t, a⟩ ⟨t', b⟩ h1 h2 ⟨hle, hne⟩
    refine lt_of_le_of_ne hle ?_
    intro he
    simp only at he
    subst he
    apply hne
    have n1 := (hmem t a).mp h1
    have n2 := (hmem t b).mp h2
    obtain ⟨k, hk, rfl⟩ := netPulse_is_unit n1
    rw [netUnits_unique ((netPulse_units hT _ _ _).mp n1)
      ((netPulse_units hT _ _ _).mp n2)]
  · exact List.Pairwise.and (xyTable_sorted hT n) hnd

theorem xy_order_one {T : ℝ} (hT : 0 < T) : Simplifies (xyTable T 1) (xyRecursion 1 T) := by
  apply simplifies_of_units hT 0 <;> decide

set_option maxRecDepth 4000 in
theorem xy_order_two {T : ℝ} (hT : 0 < T) : Simplifies (xyTable T 2) (xyRecursion 2 T) := by
  apply simplifies_of_units hT 1 <;> decide

end OpenControls
