import Verif.Spec.Counts
import Verif.Spec.BuiltXY
import Verif.Proofs.HardwareFamilies
import Verif.Proofs.Concatenated
import Verif.Proofs.Converted

/-!
# Counting the pulses of the predefined sequences
-/

namespace OpenControls

open Spec

/-- a list without repetitions is as long as a finite set if it lists what an injective function makes of it -/
theorem length_eq_card {l : List ℝ} (hl : l.Pairwise (· < ·)) (A : Finset ℕ) {u : ℝ} (hu : 0 < u)
    (h : ∀ t, t ∈ l ↔ ∃ c ∈ A, t = c * u) : l.length = A.card := by
  have e : l.toFinset = A.image fun c : ℕ => (c : ℝ) * u := by
    ext t
    rw [List.mem_toFinset, h, Finset.mem_image]
    exact ⟨fun ⟨c, hc, e⟩ => ⟨c, hc, e.symm⟩, fun ⟨c, hc, e⟩ => ⟨c, hc, e.symm⟩⟩
  have hn : l.Nodup := hl.imp fun h => h.ne
  rw [← List.toFinset_card_of_nodup hn, e, Finset.card_image_of_injective]
  intro a b hab
  have : (a : ℝ) = b := mul_right_cancel₀ hu.ne' hab
  exact_mod_cast this

/-- the places strictly between 0 and `2^(n+1)` that are counted, if those of the second half are those of the first
half moved -/
theorem card_double {p q : ℕ → Prop} [DecidablePred p] [DecidablePred q] {H : ℕ}
    (hH : 0 < H) (h1 : ∀ c, 0 < c → c < H → (q c ↔ p c)) (h2 : ∀ c, 0 < c → c < H → (q (H + c) ↔ p c)) :
    ((Finset.Ioo 0 (2 * H)).filter q).card =
      2 * ((Finset.Ioo 0 H).filter p).card + if q H then 1 else 0 := by
  have e : (Finset.Ioo 0 (2 * H)).filter q =
      ((Finset.Ioo 0 H).filter p ∪ ((Finset.Ioo 0 H).filter p).image (H + ·)) ∪
        (if q H then {H} else ∅) := by
    ext c
    simp only [Finset.mem_union, Finset.mem_filter, Finset.mem_Ioo, Finset.mem_image]
    have hif : c ∈ (if q H then ({H} : Finset ℕ) else ∅) ↔ c = H ∧ q H := by
      split <;> simp_all
    rw [hif]
    constructor
    · rintro ⟨⟨h0, hc⟩, hq⟩
      rcases lt_trichotomy c H with h | h | h
      · exact .inl (.inl ⟨⟨h0, h⟩, (h1 c h0 h).mp hq⟩)
      · exact .inr ⟨h, h ▸ hq⟩
      · refine .inl (.inr ⟨c - H, ⟨⟨by omega, by omega⟩, ?_⟩, by omega⟩)
        rw [← h2 (c - H) (by omega) (by omega), show H + (c - H) = c by omega]
        exact hq
    · rintro ((⟨⟨h0, hc⟩, hp⟩ | ⟨d, ⟨⟨h0, hd⟩, hp⟩, rfl⟩) | ⟨rfl, hq⟩)
      · exact ⟨⟨h0, by omega⟩, (h1 c h0 hc).mpr hp⟩
      · exact ⟨⟨by omega, by omega⟩, (h2 d h0 hd).mpr hp⟩
      · exact ⟨⟨hH, by omega⟩, hq⟩
  rw [e, Finset.card_union_of_disjoint, Finset.card_union_of_disjoint, Finset.card_image_of_injective]
  · have : (if q H then ({H} : Finset ℕ) else ∅).card = if q H then 1 else 0 := by split <;> simp
    rw [this]; omega
  · intro a b h; simpa using h
  · rw [Finset.disjoint_left]
    intro c hc hd
    obtain ⟨d, hd, rfl⟩ := Finset.mem_image.mp hd
    have := (Finset.mem_Ioo.mp (Finset.mem_filter.mp hc).1).2
    omega
  · rw [Finset.disjoint_left]
    intro c hc hd
    have hc' : c = H := by split at hd <;> simp_all
    subst hc'
    rcases Finset.mem_union.mp hc with h | h
    · have := (Finset.mem_Ioo.mp (Finset.mem_filter.mp h).1).2
      omega
    · obtain ⟨d, hd, he⟩ := Finset.mem_image.mp h
      have := (Finset.mem_Ioo.mp (Finset.mem_filter.mp hd).1).1
      omega

/-! ### X-concatenated -/

theorem even_card (l : ℕ) : 3 * ((Finset.Ioo 0 (2 ^ l)).filter fun k => Even (padicValNat 2 k)).card +
    (if Even l then 2 else 1) = 2 ^ (l + 1) := by
  induction l with
  | zero => simp [Finset.filter_eq_empty_iff, Nat.odd_iff]; omega
  | succ l ih =>
    have hv : padicValNat 2 (2 ^ l) = l := by simp
    have := card_double (p := fun k => Even (padicValNat 2 k)) (q := fun k => Even (padicValNat 2 k))
      (H := 2 ^ l) (by positivity) (fun _ _ _ => Iff.rfl) (by
        intro c h0 hc
        have hne : padicValNat 2 c < l := by
          by_contra h
          have := Nat.le_of_dvd h0 ((padicValNat_dvd_iff_le h0.ne').mpr (not_lt.mp h))
          omega
        have : padicValNat 2 (2 ^ l + c) = padicValNat 2 c := by
          have hj : c ≠ 0 := h0.ne'
          apply le_antisymm
          · by_contra hlt
            rw [not_le] at hlt
            have h1 : 2 ^ (padicValNat 2 c + 1) ∣ 2 ^ l + c :=
              (padicValNat_dvd_iff_le (by omega)).mpr hlt
            have h2 : 2 ^ (padicValNat 2 c + 1) ∣ 2 ^ l := pow_dvd_pow 2 hne
            have h3 := (Nat.dvd_add_right h2).mp h1
            exact absurd ((padicValNat_dvd_iff_le hj).mp h3) (by omega)
          · rw [← padicValNat_dvd_iff_le (by omega)]
            exact dvd_add (pow_dvd_pow 2 hne.le) pow_padicValNat_dvd
        rw [this])
    rw [pow_succ', this, pow_succ', pow_succ', hv]
    rw [pow_succ'] at ih
    rcases Nat.even_or_odd l with h | h
    · rw [if_pos h] at ih ⊢
      rw [if_neg (by rw [Nat.even_add_one]; exact fun hn => hn h)]
      omega
    · have h' : ¬ Even l := by simpa using h
      rw [if_neg h'] at ih ⊢
      rw [if_pos (Nat.even_add_one.mpr h')]
      omega

theorem x_pulses {T : ℝ} (hT : 0 < T) {l : ℕ} (hl : l ≠ 0) :
    (xConcatenatedOffsets T l).length = 2 ^ (l + 1) / 3 := by
  rw [length_eq_card (xOffsets_sorted T l) ((Finset.Ioo 0 (2 ^ l)).filter fun k => Even (padicValNat 2 k))
    (u := T / 2 ^ l) (by positivity)]
  · have := even_card l
    split at this <;> omega
  · intro t
    rw [mem_xOffsets hT hl]
    constructor
    · rintro ⟨k, h0, h1, h2, rfl⟩
      exact ⟨k, by simp [h0, h1, h2], rfl⟩
    · rintro ⟨k, hk, rfl⟩
      simp only [Finset.mem_filter, Finset.mem_Ioo] at hk
      exact ⟨k, hk.1.1, hk.1.2, hk.2, rfl⟩

/-! ### Walsh -/

/-- the edges at which the Walsh function changes sign -/
def edges (k : ℕ) : Finset ℕ :=
  (Finset.Ioo 0 (2 ^ (Nat.log2 k + 1))).filter fun c => Odd (changing k c).card

theorem walsh_pulses {T : ℝ} (hT : 0 < T) (k : ℕ) : (walshTimes T k).length = (edges k).card := by
  refine length_eq_card (walsh_ordered hT k).1 (edges k) (u := T / 2 ^ (Nat.log2 k + 1)) (by positivity)
    fun t => ?_
  rw [mem_walsh_changing]
  unfold edges
  constructor
  · rintro ⟨c, h0, h1, h2, rfl⟩
    exact ⟨c, by simp [h0, h1, h2], rfl⟩
  · rintro ⟨c, hc, rfl⟩
    simp only [Finset.mem_filter, Finset.mem_Ioo] at hc
    exact ⟨c, hc.1.1, hc.1.2, hc.2, rfl⟩

/-- one more binary digit of the order -/
theorem changing_bit {k : ℕ} (hk : k ≠ 0) (b : Bool) (c : ℕ) :
    (changing (Nat.bit b k) c).card =
      (changing k c).card + if b = true ∧ 2 ^ (Nat.log2 k + 1) ∣ c then 1 else 0 := by
  have hlog : Nat.log2 (Nat.bit b k) = Nat.log2 k + 1 := by
    rw [Nat.log2_eq_iff (by cases b <;> simp [Nat.bit] <;> omega)]
    have h1 := Nat.log2_self_le hk
    have h2 := Nat.lt_log2_self (n := k)
    cases b <;> simp only [Nat.bit, cond_true, cond_false, pow_succ'] at h2 ⊢ <;> omega
  have e : changing (Nat.bit b k) c = (changing k c).image (· + 1) ∪
      (if b = true ∧ 2 ^ (Nat.log2 k + 1) ∣ c then {0} else ∅) := by
    ext j
    have hif : j ∈ (if b = true ∧ 2 ^ (Nat.log2 k + 1) ∣ c then ({0} : Finset ℕ) else ∅) ↔
        j = 0 ∧ b = true ∧ 2 ^ (Nat.log2 k + 1) ∣ c := by
      split <;> simp_all
    rw [Finset.mem_union, hif]
    unfold changing
    rw [Finset.mem_filter, Finset.mem_range, hlog, Finset.mem_image]
    cases j with
    | zero => simp
    | succ j =>
      simp only [Nat.testBit_bit_succ, Finset.mem_filter, Finset.mem_range, Nat.add_sub_add_right]
      constructor
      · rintro ⟨h1, h2, h3⟩
        exact .inl ⟨j, ⟨by omega, h2, h3⟩, rfl⟩
      · rintro (⟨i, ⟨h1, h2, h3⟩, hi⟩ | ⟨h, -⟩)
        · obtain rfl : i = j := by omega
          exact ⟨by omega, h2, h3⟩
        · omega
  rw [e, Finset.card_union_of_disjoint, Finset.card_image_of_injective _ (add_left_injective 1)]
  · congr 1
    split <;> simp
  · rw [Finset.disjoint_left]
    intro j hj h0
    obtain ⟨i, -, rfl⟩ := Finset.mem_image.mp hj
    split at h0 <;> simp at h0

theorem changing_shift (k c : ℕ) : changing k (2 ^ (Nat.log2 k + 1) + c) = changing k c := by
  unfold changing
  refine Finset.filter_congr fun j _ => ?_
  rw [Nat.dvd_add_right (pow_dvd_pow 2 (by omega))]

theorem gray_step (N k : ℕ) (b p : Bool) (h : N ^^^ (N / 2) = k) (hp : p = (b ^^ N.testBit 0)) :
    Nat.bit p N ^^^ (Nat.bit p N / 2) = Nat.bit b k := by
  apply Nat.eq_of_testBit_eq
  intro j
  rw [Nat.testBit_xor, show Nat.bit p N / 2 = N by cases p <;> simp [Nat.bit] <;> omega]
  cases j with
  | zero => simp only [Nat.testBit_bit_zero, hp]; cases b <;> simp
  | succ j =>
    rw [Nat.testBit_bit_succ, Nat.testBit_bit_succ, ← h, Nat.testBit_xor]
    simp [Nat.testBit_succ]

/-- the number of edges; its lowest binary digit is the parity of the digits of the order -/
theorem edges_gray (k : ℕ) (hk : k ≠ 0) : grayCode (edges k).card = k ∧
    ((edges k).card.testBit 0 = true ↔ Odd (changing k (2 ^ (Nat.log2 k + 1))).card) := by
  induction k using Nat.binaryRec with
  | zero => exact absurd rfl hk
  | bit b k ih =>
    by_cases h0 : k = 0
    · subst h0
      cases b with
      | false => exact absurd rfl hk
      | true =>
        have e : edges (Nat.bit true 0) = {1} := by decide
        rw [e]
        decide
    · obtain ⟨h1, h2⟩ := ih h0
      have hlog : Nat.log2 (Nat.bit b k) = Nat.log2 k + 1 := by
        rw [Nat.log2_eq_iff hk]
        have h1 := Nat.log2_self_le h0
        have h2 := Nat.lt_log2_self (n := k)
        cases b <;> simp only [Nat.bit, cond_true, cond_false, pow_succ'] at h2 ⊢ <;> omega
      have hcard : (edges (Nat.bit b k)).card =
          2 * (edges k).card + if Odd (changing (Nat.bit b k) (2 ^ (Nat.log2 k + 1))).card then 1 else 0 := by
        unfold edges
        rw [hlog, pow_succ' 2 (Nat.log2 k + 1)]
        refine card_double (by positivity) (fun c h0' hc => ?_) (fun c h0' hc => ?_)
        · rw [changing_bit h0, if_neg, add_zero]
          exact fun h => absurd (Nat.le_of_dvd h0' h.2) (by omega)
        · rw [changing_bit h0, if_neg, add_zero, changing_shift]
          intro h
          have := (Nat.dvd_add_right (dvd_refl _)).mp h.2
          exact absurd (Nat.le_of_dvd h0' this) (by omega)
      have hb := changing_bit h0 b (2 ^ (Nat.log2 k + 1))
      set p : Bool := decide (Odd (changing (Nat.bit b k) (2 ^ (Nat.log2 k + 1))).card) with hp
      have hbit : (edges (Nat.bit b k)).card = Nat.bit p (edges k).card := by
        rw [hcard]
        by_cases h : Odd (changing (Nat.bit b k) (2 ^ (Nat.log2 k + 1))).card
        · rw [if_pos h, hp, decide_eq_true h]; rfl
        · rw [if_neg h, hp, decide_eq_false h]; rfl
      have hpb : p = (b ^^ (edges k).card.testBit 0) := by
        have ht : (edges k).card.testBit 0 = decide (Odd (changing k (2 ^ (Nat.log2 k + 1))).card) := by
          rw [Bool.eq_iff_iff, h2, decide_eq_true_eq]
        rw [ht, hp, hb]
        cases b with
        | false => simp
        | true =>
          by_cases h : Odd (changing k (2 ^ (Nat.log2 k + 1))).card <;> simp [Nat.odd_add_one, h]
      refine ⟨?_, ?_⟩
      · rw [hbit]; exact gray_step _ _ _ _ h1 hpb
      · rw [hbit, Nat.testBit_bit_zero, hp, decide_eq_true_eq, hlog, pow_succ' 2 (Nat.log2 k + 1)]
        have e : changing (Nat.bit b k) (2 * 2 ^ (Nat.log2 k + 1)) =
            changing (Nat.bit b k) (2 ^ (Nat.log2 k + 1)) := by
          unfold changing
          rw [hlog]
          refine Finset.filter_congr fun j _ => ?_
          have d1 : 2 ^ (Nat.log2 k + 1 - j) ∣ 2 ^ (Nat.log2 k + 1) := pow_dvd_pow 2 (by omega)
          simp [d1, d1.mul_left 2]
        rw [e]

theorem gray_injective : Function.Injective grayCode := by
  intro a
  induction a using Nat.binaryRec with
  | zero =>
    intro b h
    by_contra hb
    have hb' : 0 < b := by omega
    have e : b ^^^ (b / 2) = 0 := by simpa [grayCode] using h.symm
    have := congrArg (· ^^^ (b / 2)) e
    simp only [Nat.xor_assoc, Nat.xor_self, Nat.xor_zero, Nat.zero_xor] at this
    omega
  | bit p n ih =>
    intro b h
    obtain ⟨q, m, rfl⟩ : ∃ q m, b = Nat.bit q m := ⟨b.bodd, b.div2, (Nat.bit_bodd_div2 b).symm⟩
    unfold grayCode at h
    rw [show Nat.bit p n / 2 = n by cases p <;> simp [Nat.bit] <;> omega,
      show Nat.bit q m / 2 = m by cases q <;> simp [Nat.bit] <;> omega] at h
    have hs : n ^^^ (n / 2) = m ^^^ (m / 2) := by
      apply Nat.eq_of_testBit_eq
      intro j
      have := congrArg (fun x => x.testBit (j + 1)) h
      rw [Nat.testBit_xor, Nat.testBit_xor, Nat.testBit_bit_succ, Nat.testBit_bit_succ] at this
      rw [Nat.testBit_xor, Nat.testBit_xor, Nat.testBit_div_two, Nat.testBit_div_two]
      exact this
    obtain rfl := ih hs
    have := congrArg (fun x => x.testBit 0) h
    rw [Nat.testBit_xor, Nat.testBit_xor, Nat.testBit_bit_zero, Nat.testBit_bit_zero] at this
    have : p = q := by simpa using this
    rw [this]

/-! ### XY-concatenated -/

theorem unitPulses_length (u t : ℝ) (units : List (List Axis)) :
    (unitPulses u t units).length = (units.map List.length).sum := by
  induction units generalizing t with
  | nil => rfl
  | cons a r ih => simp [unitPulses, ih]

theorem sum_dropLast {l : List (List Axis)} {x : List Axis} (h : l.getLast? = some x) :
    (l.map List.length).sum = (l.dropLast.map List.length).sum + x.length := by
  obtain ⟨r, rfl⟩ : ∃ r, l = r ++ [x] := ⟨l.dropLast, (List.dropLast_append_getLast? x h).symm⟩
  simp

theorem sum_thenZ (units : List (List Axis)) :
    ((thenZ units).map List.length).sum = (units.map List.length).sum + 1 := by
  unfold thenZ
  rcases List.eq_nil_or_concat units with rfl | ⟨r, x, rfl⟩
  · simp
  · simp; omega

theorem built_length (n : ℕ) :
    (if n % 2 = 0 then (builtXY (n + 1)).getLast? = some [.y] ∧
        12 * ((builtXY (n + 1)).map List.length).sum = 11 * 4 ^ (n + 1) + 4
      else (builtXY (n + 1)).getLast? = some [] ∧
        12 * ((builtXY (n + 1)).map List.length).sum + 8 = 11 * 4 ^ (n + 1)) := by
  induction n with
  | zero => simp [builtXY]
  | succ n ih =>
    rw [builtXY]
    by_cases h : n % 2 = 0
    · rw [if_pos h] at ih
      have hs := sum_dropLast ih.1
      rw [if_neg (by omega), if_pos h]
      refine ⟨List.getLast?_concat, ?_⟩
      have := ih.2
      rw [pow_succ 4 (n + 1)]
      simp only [List.map_append, List.sum_append, List.map_cons, List.map_nil, List.sum_singleton,
        List.length_cons, List.length_nil] at hs ⊢
      omega
    · rw [if_neg h] at ih
      have hs := sum_dropLast ih.1
      rw [if_pos (by omega), if_neg h]
      refine ⟨List.getLast?_concat, ?_⟩
      have := ih.2
      rw [pow_succ 4 (n + 1)]
      simp only [List.map_append, List.sum_append, List.map_cons, List.map_nil, List.sum_singleton,
        List.length_cons, List.length_nil, sum_thenZ] at hs ⊢
      omega

/-! ### Segments of a converted sequence -/

theorem kept_length {T R D m : ℝ} (hm : 0 ≤ m) (l : List Pulse) (p : Pulse)
    (h : EachGap (fun g => 0 < g) ((p :: l).map (window T R D m))) :
    (kept T R D m (p :: l)).length =
      ((p :: l).filter fun p => decide (0 < width R D m p)).length + l.length := by
  induction l generalizing p with
  | nil =>
    unfold kept
    simp only [segs, List.filter_cons, List.filter_nil]
    by_cases h0 : 0 < width R D m p <;> simp [pulseSeg, h0]
  | cons q r ih =>
    simp only [EachGap, List.map_cons, List.isChain_cons_cons] at h
    have := ih q h.2
    unfold kept at this ⊢
    have e : (segs T R D m (p :: q :: r)).filter (fun g => Py.gt g.duration (PyFloat.lit 0)) =
        [pulseSeg R D m p].filter (fun g => Py.gt g.duration (PyFloat.lit 0)) ++
          ⟨0, 0, 0, (window T R D m q).1 - (window T R D m p).2⟩ ::
            (segs T R D m (q :: r)).filter (fun g => Py.gt g.duration (PyFloat.lit 0)) := by
      rw [segs, show ∀ (a b : Segment ℝ) l, a :: b :: l = [a] ++ b :: l from fun _ _ _ => rfl, List.filter_append,
        List.filter_cons_of_pos (a := (⟨0, 0, 0, (window T R D m q).1 - (window T R D m p).2⟩ : Segment ℝ))
          (by simpa using h.1)]
    rw [e, List.length_append, List.length_cons, this]
    by_cases h0 : 0 < width R D m p
    · rw [List.filter_cons_of_pos (by simpa [pulseSeg] using h0),
        List.filter_cons_of_pos (a := p) (by simpa using h0)]
      simp only [List.length_cons, List.filter_nil, List.length_nil]
      omega
    · rw [List.filter_cons_of_neg (by simpa [pulseSeg] using h0),
        List.filter_cons_of_neg (a := p) (by simpa using h0)]
      simp only [List.length_cons, List.filter_nil, List.length_nil]
      omega

theorem pad_driven {T R D m : ℝ} {ps : List Pulse} (h : ∀ p ∈ ps, 0 < width R D m p) :
    ((pad T ps).filter fun p => decide (0 < width R D m p)).length = ps.length := by
  unfold pad
  rw [List.filter_append, List.filter_append]
  have e1 : ∀ (P : Prop) [Decidable P] (t : ℝ),
      (if P then ([] : List Pulse) else [idlePulse t]).filter (fun p => decide (0 < width R D m p)) = [] := by
    intro P _ t
    split <;> simp [width_idle]
  have e2 : ps.filter (fun p => decide (0 < width R D m p)) = ps :=
    List.filter_eq_self.mpr fun p hp => by simpa using h p hp
  rw [e1, e1, e2]
  simp

end OpenControls
