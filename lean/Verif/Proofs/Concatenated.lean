import Verif.Proofs.Sequences
import Mathlib.NumberTheory.Padics.PadicVal.Basic

/-!
# `np.unique` with counts, and the X-concatenated sequence
-/

namespace OpenControls

open Spec RealInst

/-! ## `np.unique(..., return_counts=True)` at exact arithmetic -/

/-- keys in increasing order -/
def SortedKeys (l : List (ℝ × ℕ)) : Prop := (l.map Prod.fst).Pairwise (· < ·)

theorem mem_insertCount_fst {x : ℝ} {acc : List (ℝ × ℕ)} {y : ℝ}
    (h : y ∈ (Py.insertCount x acc).map Prod.fst) : y = x ∨ y ∈ acc.map Prod.fst := by
  induction acc with
  | nil => simp [Py.insertCount] at h; exact .inl h
  | cons p r ih =>
    obtain ⟨z, c⟩ := p
    unfold Py.insertCount at h
    split at h
    · simpa using h
    · split at h
      · simp only [List.map_cons, List.mem_cons] at h ⊢; exact .inr h
      · simp only [List.map_cons, List.mem_cons] at h ⊢
        rcases h with h | h
        · exact .inr (.inl h)
        · rcases ih h with h | h
          · exact .inl h
          · exact .inr (.inr h)

theorem sortedKeys_insertCount {x : ℝ} {acc : List (ℝ × ℕ)} (h : SortedKeys acc) :
    SortedKeys (Py.insertCount x acc) := by
  unfold SortedKeys at *
  induction acc with
  | nil => simp [Py.insertCount]
  | cons p r ih =>
    obtain ⟨z, c⟩ := p
    rw [List.map_cons, List.pairwise_cons] at h
    unfold Py.insertCount
    split
    · rename_i hxz
      rw [lt_iff] at hxz
      rw [List.map_cons, List.pairwise_cons]
      refine ⟨?_, by rw [List.map_cons, List.pairwise_cons]; exact h⟩
      intro y hy
      rw [List.map_cons, List.mem_cons] at hy
      rcases hy with rfl | hy
      · exact hxz
      · exact hxz.trans (h.1 y hy)
    · rename_i hxz
      rw [lt_iff, not_lt] at hxz
      split
      · rw [List.map_cons, List.pairwise_cons]; exact h
      · rename_i hne
        rw [eq_iff] at hne
        rw [List.map_cons, List.pairwise_cons]
        refine ⟨?_, ih h.2⟩
        intro y hy
        rcases mem_insertCount_fst hy with rfl | hy
        · exact lt_of_le_of_ne hxz (Ne.symm hne)
        · exact h.1 y hy

theorem mem_insertCount {x : ℝ} {acc : List (ℝ × ℕ)} (h : SortedKeys acc) (v : ℝ) (c : ℕ) :
    (v, c) ∈ Py.insertCount x acc ↔
      if v = x then (c = 1 ∧ ∀ c', (x, c') ∉ acc) ∨ ∃ c', (x, c') ∈ acc ∧ c = c' + 1
      else (v, c) ∈ acc := by
  unfold SortedKeys at h
  induction acc with
  | nil =>
    simp only [Py.insertCount, List.mem_singleton, Prod.mk.injEq]
    split
    · simp_all
    · simp_all
  | cons p r ih =>
    obtain ⟨z, k⟩ := p
    rw [List.map_cons, List.pairwise_cons] at h
    have hr : ∀ c', (z, c') ∉ r := fun c' hm =>
      lt_irrefl z (h.1 z (List.mem_map.mpr ⟨_, hm, rfl⟩))
    unfold Py.insertCount
    split
    · rename_i hxz
      rw [lt_iff] at hxz
      have hx : ∀ c', (x, c') ∉ (z, k) :: r := by
        intro c' hm
        rw [List.mem_cons] at hm
        rcases hm with hm | hm
        · injection hm with h1 h2; linarith
        · have := h.1 x (List.mem_map.mpr ⟨_, hm, rfl⟩); linarith
      rw [List.mem_cons]
      by_cases hv : v = x
      · subst hv
        rw [if_pos rfl]
        constructor
        · rintro (h1 | h1)
          · injection h1 with _ h2; exact .inl ⟨h2, hx⟩
          · exact absurd h1 (hx c)
        · rintro (⟨rfl, -⟩ | ⟨c', hc', -⟩)
          · exact .inl rfl
          · exact absurd hc' (hx c')
      · rw [if_neg hv]
        constructor
        · rintro (h1 | h1)
          · injection h1 with h2; exact absurd h2 hv
          · exact h1
        · exact .inr
    · rename_i hxz
      rw [lt_iff, not_lt] at hxz
      split
      · rename_i he
        rw [eq_iff] at he
        subst he
        rw [List.mem_cons]
        by_cases hv : v = x
        · subst hv
          rw [if_pos rfl]
          constructor
          · rintro (h1 | h1)
            · injection h1 with _ h2
              exact .inr ⟨k, by simp, h2⟩
            · exact absurd h1 (hr c)
          · rintro (⟨-, h1⟩ | ⟨c', h1, rfl⟩)
            · exact absurd (List.mem_cons_self ..) (h1 k)
            · rw [List.mem_cons] at h1
              rcases h1 with h1 | h1
              · injection h1 with _ h2; subst h2; exact .inl rfl
              · exact absurd h1 (hr c')
        · rw [if_neg hv, List.mem_cons]
          constructor
          · rintro (h1 | h1)
            · injection h1 with h2; exact absurd h2 hv
            · exact .inr h1
          · rintro (h1 | h1)
            · injection h1 with h2; exact absurd h2 hv
            · exact .inr h1
      · rename_i hne
        rw [eq_iff] at hne
        rw [List.mem_cons, ih h.2]
        by_cases hv : v = x
        · subst hv
          rw [if_pos rfl, if_pos rfl]
          have hvz : ∀ c', ((v, c') ∈ (z, k) :: r ↔ (v, c') ∈ r) := by
            intro c'
            rw [List.mem_cons]
            constructor
            · rintro (h1 | h1)
              · injection h1 with h2; exact absurd h2 hne
              · exact h1
            · exact .inr
          simp only [hvz]
          constructor
          · rintro (h1 | h1)
            · injection h1 with h2; exact absurd h2 hne
            · exact h1
          · exact .inr
        · rw [if_neg hv, if_neg hv, List.mem_cons]

theorem npUnique_concat (l : List ℝ) (x : ℝ) :
    Py.npUnique (l ++ [x]) = Py.insertCount x (Py.npUnique l) := by
  simp [Py.npUnique]

theorem sortedKeys_npUnique (l : List ℝ) : SortedKeys (Py.npUnique l) := by
  induction l using List.reverseRecOn with
  | nil => simp [Py.npUnique, SortedKeys]
  | append_singleton l x ih => rw [npUnique_concat]; exact sortedKeys_insertCount ih

/-- `np.unique` returns each value with its number of occurrences. -/
theorem mem_npUnique (l : List ℝ) (v : ℝ) (c : ℕ) :
    (v, c) ∈ Py.npUnique l ↔ 0 < c ∧ c = l.count v := by
  induction l using List.reverseRecOn generalizing c with
  | nil => simp [Py.npUnique]; omega
  | append_singleton l x ih =>
    rw [npUnique_concat, mem_insertCount (sortedKeys_npUnique l), List.count_append]
    by_cases hv : v = x
    · subst hv
      rw [if_pos rfl]
      simp only [ih, List.count_singleton_self, not_and]
      constructor
      · rintro (⟨rfl, h⟩ | ⟨c', ⟨h1, rfl⟩, rfl⟩)
        · refine ⟨one_pos, ?_⟩
          by_contra hne
          exact h (l.count v) (by omega) rfl
        · exact ⟨by omega, rfl⟩
      · rintro ⟨h1, rfl⟩
        by_cases h0 : l.count v = 0
        · exact .inl ⟨by omega, fun c' hc' => by omega⟩
        · exact .inr ⟨_, ⟨by omega, rfl⟩, rfl⟩
    · rw [if_neg hv, ih, List.count_singleton]
      have : (x == v) = false := by simpa using Ne.symm hv
      simp [this]

theorem evenlyRepeated_sorted (l : List ℝ) : (evenlyRepeated l).Pairwise (· < ·) := by
  unfold evenlyRepeated
  have h := sortedKeys_npUnique l
  unfold SortedKeys at h
  rw [List.pairwise_map] at h ⊢
  exact h.filter _

theorem mem_evenlyRepeated (l : List ℝ) (v : ℝ) :
    v ∈ evenlyRepeated l ↔ v ∈ l ∧ Even (l.count v) := by
  unfold evenlyRepeated
  simp only [List.mem_map, List.mem_filter, Prod.exists, exists_and_right, exists_eq_right,
    beq_iff_eq, mem_npUnique]
  rw [← List.count_pos_iff, Nat.even_iff]
  constructor
  · rintro ⟨c, ⟨h1, rfl⟩, h2⟩; exact ⟨h1, h2⟩
  · rintro ⟨h1, h2⟩; exact ⟨_, ⟨h1, rfl⟩, h2⟩

/-! ## Running sums -/

theorem cumsumFrom_nat_add (a : ℕ) (l : List ℕ) :
    Py.cumsumFrom a l = (Py.cumsumFrom 0 l).map (a + ·) := by
  induction l generalizing a with
  | nil => rfl
  | cons x l ih =>
    simp only [Py.cumsumFrom, List.map_cons, zero_add]
    rw [ih (a + x), ih x, List.map_map]
    simp [Function.comp_def, add_assoc]

theorem cumsumFrom_append (a : ℕ) (l l' : List ℕ) :
    Py.cumsumFrom a (l ++ l') = Py.cumsumFrom a l ++ Py.cumsumFrom (a + l.sum) l' := by
  induction l generalizing a with
  | nil => simp [Py.cumsumFrom]
  | cons x l ih => simp [Py.cumsumFrom, ih, add_assoc]

theorem cumsumFrom_scaled (u : ℝ) (a : ℕ) (l : List ℕ) :
    Py.cumsumFrom ((a : ℝ) * u) (l.map fun c : ℕ => (c : ℝ) * u) =
      (Py.cumsumFrom a l).map fun c : ℕ => (c : ℝ) * u := by
  induction l generalizing a with
  | nil => rfl
  | cons x l ih =>
    simp only [List.map_cons, Py.cumsumFrom]
    have := ih (a + x)
    push_cast at this ⊢
    rw [add_mul] at this
    rw [this, add_mul]

theorem npCumsum_scaled (u : ℝ) (l : List ℕ) :
    Py.npCumsum (l.map fun c : ℕ => (c : ℝ) * u) =
      (Py.cumsumFrom 0 l).map fun c : ℕ => (c : ℝ) * u := by
  cases l with
  | nil => rfl
  | cons x l =>
    simp only [List.map_cons, Py.npCumsum, Py.cumsumFrom, zero_add]
    rw [cumsumFrom_scaled]

/-! ## X-concatenation in units of the smallest spacing -/

theorem concatenationX_sum (l : ℕ) : (concatenationX (l + 1)).sum = 2 ^ (l + 1) := by
  induction l with
  | zero => simp [concatenationX]
  | succ l ih => simp [concatenationX, ih]; ring

/-- pulse positions of the documented recursion in units of the spacing -/
def xUnits : ℕ → List ℕ
  | 0 => []
  | l + 1 => xUnits l ++ [2 ^ l] ++ (xUnits l).map (2 ^ l + ·) ++ [2 ^ (l + 1)]

theorem xRecursion_eq (l : ℕ) (T : ℝ) :
    xRecursion l T = (xUnits l).map fun k : ℕ => (k : ℝ) * (T / 2 ^ l) := by
  induction l generalizing T with
  | zero => rfl
  | succ l ih =>
    have e : T / 2 / 2 ^ l = T / 2 ^ (l + 1) := by rw [pow_succ]; field_simp
    simp only [xRecursion, xUnits, ih, e, List.map_append, List.map_map, List.map_cons,
      List.map_nil]
    congr 1
    · congr 1
      · congr 2
        push_cast; rw [pow_succ]; field_simp
      · apply List.map_congr_left
        intro k _
        simp only [Function.comp_apply]
        push_cast; rw [pow_succ]; field_simp
    · congr 1
      push_cast
      field_simp

theorem concatenationX_perm (l : ℕ) :
    (Py.cumsumFrom 0 (concatenationX (l + 1))).Perm (xUnits (l + 1) ++ List.range' 1 (2 ^ (l + 1))) := by
  induction l with
  | zero => decide
  | succ l ih =>
    have hsum := concatenationX_sum l
    have h1 : Py.cumsumFrom 0 (concatenationX (l + 2)) =
        Py.cumsumFrom 0 (concatenationX (l + 1)) ++ [2 ^ (l + 1)] ++
          (Py.cumsumFrom 0 (concatenationX (l + 1))).map (2 ^ (l + 1) + ·) ++ [2 ^ (l + 2)] := by
      simp only [concatenationX, cumsumFrom_append, List.sum_append, hsum]
      rw [cumsumFrom_nat_add (0 + _) (concatenationX (l + 1))]
      simp [Py.cumsumFrom]
      ring
    have h2 : List.range' 1 (2 ^ (l + 2)) =
        List.range' 1 (2 ^ (l + 1)) ++ (List.range' 1 (2 ^ (l + 1))).map (2 ^ (l + 1) + ·) := by
      rw [List.map_add_range', add_comm (2 ^ (l + 1)) 1, List.range'_append_1]
      congr 1; ring
    rw [h1, h2, xUnits]
    have key : ∀ (D R G : List ℕ) (a b : ℕ) (f : ℕ → ℕ), D.Perm (R ++ G) →
        (D ++ [a] ++ D.map f ++ [b]).Perm (R ++ [a] ++ R.map f ++ [b] ++ (G ++ G.map f)) := by
      intro D R G a b f h
      refine (((h.append_right [a]).append (h.map f)).append_right [b]).trans ?_
      rw [List.map_append, List.perm_iff_count]
      intro x
      simp only [List.count_append]
      ring
    exact key _ _ _ _ _ _ ih

/-- multiplicity of a position in the recursion -/
theorem xUnits_count (l k : ℕ) : (xUnits l).count k =
    if k = 0 then 0 else if k < 2 ^ l then padicValNat 2 k + 1 else if k = 2 ^ l then l else 0 := by
  induction l generalizing k with
  | zero =>
    simp only [xUnits, List.count_nil, pow_zero]
    split_ifs <;> omega
  | succ l ih =>
    have hp : 0 < 2 ^ l := by positivity
    have hp2 : 2 ^ (l + 1) = 2 ^ l + 2 ^ l := by ring
    have hmap : ((xUnits l).map (2 ^ l + ·)).count k =
        if 2 ^ l ≤ k then (xUnits l).count (k - 2 ^ l) else 0 := by
      split
      · rename_i h
        obtain ⟨j, rfl⟩ := Nat.exists_eq_add_of_le h
        rw [Nat.add_sub_cancel_left]
        exact List.count_map_of_injective _ _ (add_right_injective _) j
      · rename_i h
        rw [List.count_eq_zero]
        intro hm
        obtain ⟨j, -, rfl⟩ := List.mem_map.mp hm
        omega
    simp only [xUnits, List.count_append, List.count_singleton, hmap, ih, hp2, beq_iff_eq]
    rcases lt_trichotomy k (2 ^ l) with h | h | h
    · split_ifs <;> omega
    · subst h
      have : padicValNat 2 (2 ^ l) = l := padicValNat.prime_pow l
      split_ifs <;> omega
    · by_cases hk : k < 2 ^ l + 2 ^ l
      · have hv : padicValNat 2 (k - 2 ^ l) = padicValNat 2 k := by
          obtain ⟨j, rfl⟩ := Nat.exists_eq_add_of_le h.le
          rw [Nat.add_sub_cancel_left]
          have hj : j ≠ 0 := by omega
          have hjl : padicValNat 2 j < l := by
            by_contra hge
            push Not at hge
            have : 2 ^ l ∣ j := (padicValNat_dvd_iff_le hj).mpr hge
            have := Nat.le_of_dvd (by omega) this
            omega
          apply le_antisymm
          · rw [← padicValNat_dvd_iff_le (by omega)]
            exact dvd_add (pow_dvd_pow 2 hjl.le) pow_padicValNat_dvd
          · by_contra hlt
            push Not at hlt
            have h1 : 2 ^ (padicValNat 2 j + 1) ∣ 2 ^ l + j :=
              (padicValNat_dvd_iff_le (by omega)).mpr hlt
            have h2 : 2 ^ (padicValNat 2 j + 1) ∣ 2 ^ l := pow_dvd_pow 2 hjl
            have h3 := (Nat.dvd_add_right h2).mp h1
            exact absurd ((padicValNat_dvd_iff_le hj).mp h3) (by omega)
        split_ifs <;> omega
      · split_ifs <;> omega

/-! ## The code's offsets -/

theorem scaled_injective {u : ℝ} (hu : 0 < u) : Function.Injective fun k : ℕ => (k : ℝ) * u := by
  intro a b h
  have := mul_right_cancel₀ hu.ne' h
  exact_mod_cast this

theorem mem_dropLast_of_sorted {l : List ℝ} {T : ℝ} (hs : l.Pairwise (· < ·)) (hT : T ∈ l)
    (hmax : ∀ t ∈ l, t ≤ T) (t : ℝ) : t ∈ l.dropLast ↔ t ∈ l ∧ t ≠ T := by
  have hne : l ≠ [] := List.ne_nil_of_mem hT
  have hd := List.dropLast_append_getLast hne
  have hs' := hs
  rw [← hd, List.pairwise_append] at hs'
  have hlast : l.getLast hne = T := by
    apply le_antisymm (hmax _ (List.getLast_mem hne))
    have : T ∈ l.dropLast ++ [l.getLast hne] := by rw [hd]; exact hT
    rw [List.mem_append, List.mem_singleton] at this
    rcases this with h | h
    · exact (hs'.2.2 T h _ (by simp)).le
    · exact h.le
  constructor
  · intro h
    have := hs'.2.2 t h T (by simp [hlast])
    exact ⟨List.mem_of_mem_dropLast h, this.ne⟩
  · rintro ⟨h, hn⟩
    have : t ∈ l.dropLast ++ [l.getLast hne] := by rw [hd]; exact h
    rw [List.mem_append, List.mem_singleton, hlast] at this
    exact this.resolve_right hn

/-- membership before the last pulse is removed -/
theorem mem_xEven {T : ℝ} (hT : 0 < T) {l : ℕ} (hl : l ≠ 0) (t : ℝ) :
    t ∈ evenlyRepeated (Py.npCumsum ((concatenationX l).map fun c : ℕ => (c : ℝ) * (T / 2 ^ l))) ↔
      ∃ k : ℕ, 0 < k ∧ k ≤ 2 ^ l ∧ Odd ((xUnits l).count k) ∧ t = k * (T / 2 ^ l) := by
  obtain ⟨m, rfl⟩ := Nat.exists_eq_succ_of_ne_zero hl
  have hu : 0 < T / 2 ^ (m + 1) := by positivity
  rw [npCumsum_scaled, mem_evenlyRepeated]
  have hc : ∀ k : ℕ, (Py.cumsumFrom 0 (concatenationX (m + 1))).count k =
      (xUnits (m + 1)).count k + (List.range' 1 (2 ^ (m + 1))).count k := by
    intro k; rw [(concatenationX_perm m).count_eq, List.count_append]
  have hr : ∀ k : ℕ, (List.range' 1 (2 ^ (m + 1))).count k =
      if 0 < k ∧ k ≤ 2 ^ (m + 1) then 1 else 0 := by
    intro k
    split
    · exact List.count_eq_one_of_mem (List.nodup_range' ..) (by rw [List.mem_range'_1]; omega)
    · rw [List.count_eq_zero, List.mem_range'_1]; omega
  constructor
  · rintro ⟨hm, he⟩
    obtain ⟨k, hk, rfl⟩ := List.mem_map.mp hm
    rw [List.count_map_of_injective _ _ (scaled_injective hu), hc, hr] at he
    rw [← List.count_pos_iff, hc, hr, xUnits_count] at hk
    have hk' : 0 < k ∧ k ≤ 2 ^ (m + 1) := by
      by_contra hcon
      rw [if_neg hcon] at hk
      split_ifs at hk <;> omega
    rw [if_pos hk'] at he
    exact ⟨k, hk'.1, hk'.2, by rw [Nat.even_add_one, Nat.not_even_iff_odd] at he; exact he, rfl⟩
  · rintro ⟨k, h0, h1, ho, rfl⟩
    refine ⟨List.mem_map.mpr ⟨k, ?_, rfl⟩, ?_⟩
    · rw [← List.count_pos_iff, hc, hr, if_pos ⟨h0, h1⟩]; omega
    · rw [List.count_map_of_injective _ _ (scaled_injective hu), hc, hr, if_pos ⟨h0, h1⟩,
        Nat.even_add_one, Nat.not_even_iff_odd]
      exact ho

theorem xOffsets_sorted (T : ℝ) (l : ℕ) : (xConcatenatedOffsets T l).Pairwise (· < ·) := by
  unfold xConcatenatedOffsets
  dsimp only
  split
  · exact (evenlyRepeated_sorted _).sublist (List.dropLast_sublist _)
  · exact evenlyRepeated_sorted _

/-- **closed form** of the pulse times -/
theorem mem_xOffsets {T : ℝ} (hT : 0 < T) {l : ℕ} (hl : l ≠ 0) (t : ℝ) :
    t ∈ xConcatenatedOffsets T l ↔
      ∃ k : ℕ, 0 < k ∧ k < 2 ^ l ∧ Even (padicValNat 2 k) ∧ t = k * (T / 2 ^ l) := by
  have hp : (0 : ℝ) < 2 ^ l := by positivity
  have hend : ((2 ^ l : ℕ) : ℝ) * (T / 2 ^ l) = T := by push_cast; field_simp
  have hpn : 0 < 2 ^ l := by positivity
  have hoff : xConcatenatedOffsets T l = if l % 2 == 1 then
      (evenlyRepeated (Py.npCumsum ((concatenationX l).map fun c : ℕ =>
        (c : ℝ) * (T / 2 ^ l)))).dropLast
      else evenlyRepeated (Py.npCumsum ((concatenationX l).map fun c : ℕ =>
        (c : ℝ) * (T / 2 ^ l))) := by
    simp [xConcatenatedOffsets]
  have hcount : ∀ k : ℕ, 0 < k → k < 2 ^ l →
      (Odd ((xUnits l).count k) ↔ Even (padicValNat 2 k)) := by
    intro k h0 h1
    rw [xUnits_count, if_neg h0.ne', if_pos h1, Nat.odd_add_one, Nat.not_odd_iff_even]
  have hcount' : (xUnits l).count (2 ^ l) = l := by
    rw [xUnits_count, if_neg hpn.ne', if_neg (lt_irrefl _), if_pos rfl]
  rw [hoff]
  by_cases ho : l % 2 = 1
  · have hol : Odd l := Nat.odd_iff.mpr ho
    rw [if_pos (by simpa using ho),
      mem_dropLast_of_sorted (T := T) (evenlyRepeated_sorted _)
        ((mem_xEven hT hl T).mpr ⟨2 ^ l, hpn, le_refl _, by rw [hcount']; exact hol, hend.symm⟩)
        (fun s hs => by
          obtain ⟨k, -, h1, -, rfl⟩ := (mem_xEven hT hl s).mp hs
          have h1' : (k : ℝ) ≤ 2 ^ l := by exact_mod_cast h1
          rw [mul_div_assoc', div_le_iff₀ hp]
          nlinarith), mem_xEven hT hl]
    constructor
    · rintro ⟨⟨k, h0, h1, hodd, rfl⟩, hne⟩
      have h1' : k < 2 ^ l := lt_of_le_of_ne h1 fun e => hne (by rw [e]; exact hend)
      exact ⟨k, h0, h1', (hcount k h0 h1').mp hodd, rfl⟩
    · rintro ⟨k, h0, h1, hev, rfl⟩
      refine ⟨⟨k, h0, h1.le, (hcount k h0 h1).mpr hev, rfl⟩, fun e => ?_⟩
      have := scaled_injective (show 0 < T / 2 ^ l by positivity) (e.trans hend.symm)
      omega
  · rw [if_neg (by simpa using ho), mem_xEven hT hl]
    constructor
    · rintro ⟨k, h0, h1, hodd, rfl⟩
      have h1' : k < 2 ^ l := by
        refine lt_of_le_of_ne h1 fun e => ?_
        rw [e, hcount', Nat.odd_iff] at hodd
        exact ho hodd
      exact ⟨k, h0, h1', (hcount k h0 h1').mp hodd, rfl⟩
    · rintro ⟨k, h0, h1, hev, rfl⟩
      exact ⟨k, h0, h1.le, (hcount k h0 h1).mpr hev, rfl⟩

theorem xOffsets_ordered {T : ℝ} (hT : 0 < T) {l : ℕ} (hl : l ≠ 0) :
    Ordered T (xConcatenatedOffsets T l) := by
  refine ⟨xOffsets_sorted T l, fun t ht => ?_⟩
  obtain ⟨k, h0, h1, -, rfl⟩ := (mem_xOffsets hT hl t).mp ht
  have h0' : (0 : ℝ) < k := by exact_mod_cast h0
  have h1' : (k : ℝ) < 2 ^ l := by exact_mod_cast h1
  refine ⟨by positivity, ?_⟩
  rw [mul_div_assoc', div_lt_iff₀ (by positivity)]
  nlinarith

/-- The pulse times in terms of the recursion. -/
theorem mem_xOffsets_recursion {T : ℝ} (hT : 0 < T) {l : ℕ} (hl : l ≠ 0) (t : ℝ) :
    t ∈ xConcatenatedOffsets T l ↔ t ≠ T ∧ Odd ((xRecursion l T).count t) := by
  have hu : 0 < T / 2 ^ l := by positivity
  have hend : ((2 ^ l : ℕ) : ℝ) * (T / 2 ^ l) = T := by push_cast; field_simp
  rw [mem_xOffsets hT hl, xRecursion_eq]
  constructor
  · rintro ⟨k, h0, h1, he, rfl⟩
    refine ⟨fun e => ?_, ?_⟩
    · have := scaled_injective hu (e.trans hend.symm)
      omega
    · rw [List.count_map_of_injective _ _ (scaled_injective hu), xUnits_count, if_neg h0.ne',
        if_pos h1, Nat.odd_add_one, Nat.not_odd_iff_even]
      exact he
  · rintro ⟨hne, ho⟩
    have hm : t ∈ (xUnits l).map fun k : ℕ => (k : ℝ) * (T / 2 ^ l) := by
      rw [← List.count_pos_iff]; exact ho.pos
    obtain ⟨k, -, rfl⟩ := List.mem_map.mp hm
    rw [List.count_map_of_injective _ _ (scaled_injective hu), xUnits_count] at ho
    have h0 : k ≠ 0 := by rintro rfl; simp at ho
    have hk2 : k ≠ 2 ^ l := by rintro rfl; exact hne hend
    have h1 : k < 2 ^ l := by
      by_contra h1
      rw [if_neg h0, if_neg h1, if_neg hk2] at ho
      simp at ho
    rw [if_neg h0, if_pos h1, Nat.odd_add_one, Nat.not_odd_iff_even] at ho
    exact ⟨k, by omega, h1, ho, rfl⟩

end OpenControls
