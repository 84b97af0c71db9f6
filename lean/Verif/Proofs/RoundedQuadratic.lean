import Verif.Proofs.RoundedFamilies
import Verif.Proofs.Quadratic

/-!
# The quadratic sequence in rounded arithmetic
-/

namespace OpenControls

open Spec Fl

variable {r : Rounding}

theorem Times.good_of_pairwise {T ε : ℝ} (hεT : 0 ≤ ε * T) {z : Times r}
    (hclose : ∀ p ∈ z, |p.1.val - p.2.1| ≤ ε * T)
    (hgap : z.Pairwise fun p q => p.2.1 + 2 * (ε * T) < q.2.1)
    (hends : ∀ p ∈ z, 2 * (ε * T) < p.2.1 ∧ p.2.1 + 2 * (ε * T) < T) : z.Good T ε := by
  refine Times.Good.strict hclose ?_ ?_ ?_
  · intro p hp
    have h1 := abs_le.mp (hclose p hp)
    have h2 := hends p hp
    constructor <;> linarith
  · intro p hp
    have h2 := hends p hp
    constructor <;> linarith
  · intro p hp q hq
    obtain ⟨i, hi, rfl⟩ := List.mem_iff_getElem.mp hp
    obtain ⟨j, hj, rfl⟩ := List.mem_iff_getElem.mp hq
    have h1 := abs_le.mp (hclose _ hp)
    have h2 := abs_le.mp (hclose _ hq)
    rw [List.pairwise_iff_getElem] at hgap
    rcases lt_trichotomy i j with h | rfl | h
    · have := hgap i j hi hj h
      constructor <;> intro <;> linarith
    · simp
    · have := hgap j i hj hi h
      constructor <;> intro <;> linarith

/-- the position of the inner pulses in their interval -/
noncomputable def innerShare (n i : ℕ) : ℝ := Real.sin (i * Real.pi / (2 * ((n : ℝ) + 1))) ^ 2

/-- the inner pulses between two outer pulses -/
noncomputable def quadInner (n₁ : ℕ) (a b : Fl r × ℝ) : Times r :=
  (List.range' 1 n₁).map fun i : ℕ =>
    (uhrigRounded (b.1 - a.1) n₁ i + a.1, a.2 + (b.2 - a.2) * innerShare n₁ i, Axis.z)

/-- rounded and exact times of the quadratic sequence -/
noncomputable def quadTimes (n₁ : ℕ) (T : Fl r × ℝ) : Fl r × ℝ → List (Fl r × ℝ) → Times r
  | a, [] => quadInner n₁ a T
  | a, b :: l => quadInner n₁ a b ++ (b.1, b.2, Axis.x) :: quadTimes n₁ T b l

theorem quadInner_exact (n₁ : ℕ) (a b : Fl r × ℝ) :
    (quadInner n₁ a b).exact = onAxis .z ((uhrigTimes (b.2 - a.2) n₁).map (a.2 + ·)) := by
  simp [quadInner, Times.exact, onAxis, uhrigTimes, innerShare, Function.comp_def]

theorem quadTimes_exact (n₁ : ℕ) (T a : Fl r × ℝ) (l : List (Fl r × ℝ)) :
    (quadTimes n₁ T a l).exact = quadraticTable n₁ T.2 a.2 (l.map fun p => p.2) := by
  induction l generalizing a with
  | nil => exact quadInner_exact n₁ a T
  | cons b l ih =>
    have := quadInner_exact n₁ a b
    simp only [Times.exact] at this ih ⊢
    simp only [quadTimes, List.map_append, List.map_cons, this, ih, quadraticTable]

theorem quadTimes_rows (n₁ : ℕ) (T a : Fl r × ℝ) (l : List (Fl r × ℝ)) :
    (quadraticRows n₁ (a.1 :: ((l.map fun p => p.1) ++ [T.1]))).flatten =
      (quadTimes n₁ T a l).map (fun p => p.1) ++ [T.1] := by
  have inner : ∀ a b : Fl r × ℝ, (uhrigOffsets (b.1 - a.1) n₁).map (fun t => t + a.1) =
      (quadInner n₁ a b).map fun p => p.1 := by
    intro a b
    have : uhrigOffsets (b.1 - a.1) n₁ = (List.range' 1 n₁).map (uhrigRounded (b.1 - a.1) n₁) := rfl
    rw [this]
    simp [quadInner]
  induction l generalizing a with
  | nil => simp [quadraticRows, quadTimes, inner]
  | cons b l ih =>
    simp only [List.map_cons, List.cons_append, quadraticRows, List.flatten_cons, ih, inner,
      quadTimes]
    simp

theorem quadTimes_rounded (n₁ n₂ : ℕ) (T : Fl r) (T' : ℝ) (f : ℕ → ℝ) :
    (quadTimes n₁ (T, T') (PyFloat.lit 0, 0)
      ((List.range' 1 n₂).map fun i => (uhrigRounded T n₂ i, f i))).rounded =
      quadraticPulses T n₁ n₂ := by
  set l := (List.range' 1 n₂).map fun i => (uhrigRounded T n₂ i, f i) with hl
  have hlen : l.length = n₂ := by simp [hl]
  have hfst : (l.map fun p => p.1) = uhrigOffsets T n₂ := by
    rw [hl, List.map_map]; rfl
  have hoff : (quadraticRows n₁ ([PyFloat.lit 0] ++ uhrigOffsets T n₂ ++ [T])).flatten.dropLast =
      (quadTimes n₁ (T, T') (PyFloat.lit 0, 0) l).map fun p => p.1 := by
    have := quadTimes_rows n₁ (T, T') (PyFloat.lit 0, 0) l
    rw [hfst] at this
    simp only [List.cons_append, List.nil_append]
    rw [this, List.dropLast_concat]
  have hex := quadTimes_exact n₁ (T, T') (PyFloat.lit 0, 0) l
  have hmap : ∀ g : Axis → ℝ, ((quadTimes n₁ (T, T') (PyFloat.lit 0, 0) l).map
      fun p => round r (g p.2.2)) =
      ((quadraticTable n₁ T' 0 (l.map fun p => p.2)).map fun p => g p.2).map (round r) := by
    intro g
    have := congrArg (fun t => (t.map fun p : ℝ × Axis => g p.2).map (round r)) hex
    simp only [Times.exact, List.map_map] at this ⊢
    exact this
  unfold quadraticPulses
  simp only [hoff]
  unfold Times.rounded
  have hlen2 : (quadraticTable n₁ T' 0 (l.map fun p => p.2)).length =
      (quadTimes n₁ (T, T') (PyFloat.lit 0, 0) l).length := by
    have := congrArg List.length hex
    simpa [Times.exact] using this.symm
  have hm0 : ∀ (g : ℕ → List (Fl r)), ((List.range (n₂ + 1)).map g).flatten =
      ((List.range n₂).map g).flatten ++ g n₂ := by
    intro g
    rw [List.range_succ]; simp
  simp only [hmap, quadratic_rabi, quadratic_detuning, quadratic_azimuthal]
  congr 1
  · rw [hm0]
    simp only [lt_irrefl, if_false, List.length_map, hlen]
    rw [← List.append_assoc, List.dropLast_concat, List.map_append, List.map_flatten,
      List.map_replicate, List.map_append, List.map_replicate, ← lit_zero]
    congr 2
    symm
    rw [List.eq_replicate_iff]
    refine ⟨by simp, ?_⟩
    intro x hx
    obtain ⟨i, hi, rfl⟩ := List.mem_map.mp hx
    rw [if_pos (List.mem_range.mp hi)]
    rfl
  · rw [List.map_replicate, ← lit_zero, hlen2, List.length_map]
  · rw [hm0]
    simp only [List.length_map, hlen]
    rw [← List.append_assoc, List.dropLast_concat, List.map_append, List.map_flatten,
      List.map_replicate, List.map_append, List.map_replicate]
    simp only [List.map_cons, List.map_nil, ← lit_zero, ← pi_round]
    congr 2
    symm
    rw [List.eq_replicate_iff]
    refine ⟨by simp, ?_⟩
    intro x hx
    obtain ⟨i, hi, rfl⟩ := List.mem_map.mp hx
    rfl

/-- the ends of an interval between outer pulses -/
structure Ends (T : ℝ) (r : Rounding) (a : Fl r × ℝ) : Prop where
  close : |a.1.val - a.2| ≤ 33 * r.u * T
  nonneg : 0 ≤ a.1.val
  le : a.1.val ≤ T

theorem quadInner_close {T : Fl r} (hT : 0 < T.val) {n₁ : ℕ} {a b : Fl r × ℝ}
    (hn : 24 * (n₁ + 1 : ℕ) * r.u ≤ 1) (ha : Ends T.val r a) (hb : Ends T.val r b)
    (hab : a.1.val ≤ b.1.val) :
    ∀ p ∈ quadInner n₁ a b, |p.1.val - p.2.1| ≤ 140 * r.u * T.val := by
  have hu := r.u_nonneg
  have hu' : r.u ≤ 1 / 1000000 := r.u_le.trans (by norm_num)
  intro p hp
  obtain ⟨i, hi, rfl⟩ := List.mem_map.mp hp
  rw [List.mem_range'_1] at hi
  simp only
  set W := b.1 - a.1 with hW
  have hWv : W.val = r.rnd (b.1.val - a.1.val) := rfl
  have hW0 : 0 ≤ W.val := by rw [hWv]; exact r.rnd_nonneg (by linarith)
  have hWT : W.val ≤ T.val := by
    rw [hWv, ← T.rnd_val]; exact r.mono (by linarith [ha.nonneg, hb.le])
  set s := innerShare n₁ i with hs
  have hs0 : 0 ≤ s := by rw [hs]; unfold innerShare; positivity
  have hs1 : s ≤ 1 := Real.sin_sq_le_one _
  have hrel := uhrigRounded_rel W hi.1 (by omega : i ≤ n₁) hn
  have e1 : |(uhrigRounded W n₁ i).val - W.val * s| ≤ 33 * r.u * T.val := by
    have := hrel.close_units (T := W.val) (by norm_num) (by norm_num)
      (by positivity) (by
        have : Real.sin (i * Real.pi / (2 * ((n₁ : ℝ) + 1))) ^ 2 ≤ 1 := Real.sin_sq_le_one _
        nlinarith)
    refine this.trans ?_
    have : r.u * W.val ≤ r.u * T.val := by gcongr
    nlinarith [mul_nonneg hu hW0]
  have e2 : |W.val - (b.2 - a.2)| ≤ 67 * r.u * T.val := by
    have c1 := r.close (b.1.val - a.1.val)
    rw [abs_of_nonneg (by linarith : 0 ≤ b.1.val - a.1.val), ← hWv] at c1
    have : r.u * (b.1.val - a.1.val) ≤ r.u * T.val := by
      gcongr; linarith [ha.nonneg, hb.le]
    have h1 := abs_le.mp c1
    have h2 := abs_le.mp ha.close
    have h3 := abs_le.mp hb.close
    rw [abs_le]
    constructor <;> linarith
  have e3 : |W.val * s - (b.2 - a.2) * s| ≤ 67 * r.u * T.val := by
    rw [← sub_mul, abs_mul, abs_of_nonneg hs0]
    calc _ ≤ |W.val - (b.2 - a.2)| * 1 := by gcongr
      _ ≤ _ := by rw [mul_one]; exact e2
  rw [val_add]
  set v := (uhrigRounded W n₁ i).val with hv
  have hWs : 0 ≤ W.val * s := by positivity
  have hWs' : W.val * s ≤ T.val := by nlinarith
  have huT : 0 ≤ r.u * T.val := by positivity
  have hv1 := abs_le.mp e1
  have hv0 : |v + a.1.val| ≤ 3 * T.val := by
    have h1 := ha.nonneg
    have h2 := ha.le
    rw [abs_le]
    constructor <;> nlinarith
  have e4 := r.close (v + a.1.val)
  have e4' : r.u * |v + a.1.val| ≤ r.u * (3 * T.val) := by gcongr
  have h1 := abs_le.mp e4
  have h3 := abs_le.mp e3
  have h4 := abs_le.mp ha.close
  rw [abs_le]
  constructor <;> nlinarith

theorem share_gap {n i j : ℕ} (hij : i < j) (hj : j ≤ n + 1) :
    innerShare n i + 1 / ((n : ℝ) + 1) ^ 2 ≤ innerShare n j := uhrig_gap hij hj

theorem share_zero (n : ℕ) : innerShare n 0 = 0 := by simp [innerShare]

theorem share_last (n : ℕ) : innerShare n (n + 1) = 1 := by
  unfold innerShare
  have e5 : ((n + 1 : ℕ) : ℝ) * Real.pi / (2 * ((n : ℝ) + 1)) = Real.pi / 2 := by
    push_cast; field_simp
  rw [e5, Real.sin_pi_div_two]; norm_num

theorem quadInner_gap {n₁ : ℕ} {a b : Fl r × ℝ} {G : ℝ} (hab : a.2 < b.2)
    (hG : G < (b.2 - a.2) * (1 / ((n₁ : ℝ) + 1) ^ 2)) :
    ((quadInner n₁ a b).Pairwise fun p q => p.2.1 + G < q.2.1) ∧
    ∀ p ∈ quadInner n₁ a b, a.2 + G < p.2.1 ∧ p.2.1 + G < b.2 := by
  have key : ∀ i j : ℕ, i < j → j ≤ n₁ + 1 →
      a.2 + (b.2 - a.2) * innerShare n₁ i + G < a.2 + (b.2 - a.2) * innerShare n₁ j := by
    intro i j hij hj
    have := mul_le_mul_of_nonneg_left (share_gap hij hj) (sub_pos.mpr hab).le
    rw [mul_add] at this
    linarith
  constructor
  · unfold quadInner
    rw [List.pairwise_map]
    refine (List.pairwise_lt_range' (s := 1) (n := n₁)).imp_of_mem ?_
    intro i j hi hj hij
    rw [List.mem_range'_1] at hi hj
    exact key i j hij (by omega)
  · intro p hp
    obtain ⟨i, hi, rfl⟩ := List.mem_map.mp hp
    rw [List.mem_range'_1] at hi
    have k1 := key 0 i (by omega) (by omega)
    have k2 := key i (n₁ + 1) (by omega) le_rfl
    rw [share_zero] at k1
    rw [share_last] at k2
    simp only
    constructor <;> linarith

theorem quadTimes_close {T : Fl r} (hT : 0 < T.val) {n₁ : ℕ} (hn : 24 * (n₁ + 1 : ℕ) * r.u ≤ 1)
    (a : Fl r × ℝ) (l : List (Fl r × ℝ)) (hE : ∀ p ∈ a :: l, Ends T.val r p)
    (ho : (a :: (l ++ [(T, T.val)])).Pairwise fun p q => p.1.val ≤ q.1.val) :
    ∀ p ∈ quadTimes n₁ (T, T.val) a l, |p.1.val - p.2.1| ≤ 140 * r.u * T.val := by
  have hu := r.u_nonneg
  have hTE : Ends T.val r (T, T.val) := ⟨by simp; positivity, hT.le, le_rfl⟩
  induction l generalizing a with
  | nil =>
    exact quadInner_close hT hn (hE a (by simp)) hTE ((List.pairwise_cons.mp ho).1 _ (by simp))
  | cons b l ih =>
    intro p hp
    rw [quadTimes, List.mem_append, List.mem_cons] at hp
    rw [List.cons_append, List.pairwise_cons] at ho
    rcases hp with hp | rfl | hp
    · exact quadInner_close hT hn (hE a (by simp)) (hE b (by simp)) (ho.1 b (by simp)) p hp
    · have h := (hE b (by simp)).close
      refine h.trans ?_
      nlinarith [mul_nonneg hu hT.le]
    · exact ih b (fun q hq => hE q (List.mem_cons_of_mem _ hq)) ho.2 p hp

theorem quadTimes_gap {T : Fl r} {n₁ : ℕ} {G D : ℝ} (hG0 : 0 ≤ G) (hD : 0 < D)
    (hG : G < D * (1 / ((n₁ : ℝ) + 1) ^ 2)) (a : Fl r × ℝ) (l : List (Fl r × ℝ))
    (ho : (a :: (l ++ [(T, T.val)])).Pairwise fun p q => p.2 + D ≤ q.2) :
    ((quadTimes n₁ (T, T.val) a l).Pairwise fun p q => p.2.1 + G < q.2.1) ∧
    ∀ p ∈ quadTimes n₁ (T, T.val) a l, a.2 + G < p.2.1 ∧ p.2.1 + G < T.val := by
  have hG' : G < D := by
    refine hG.trans_le ?_
    have : 1 / ((n₁ : ℝ) + 1) ^ 2 ≤ 1 := by
      rw [div_le_one (by positivity)]
      have : (0 : ℝ) ≤ n₁ := by positivity
      nlinarith
    nlinarith
  have inner : ∀ a b : Fl r × ℝ, a.2 + D ≤ b.2 →
      G < (b.2 - a.2) * (1 / ((n₁ : ℝ) + 1) ^ 2) := by
    intro a b h
    refine hG.trans_le ?_
    gcongr
    linarith
  induction l generalizing a with
  | nil =>
    have h := (List.pairwise_cons.mp ho).1 (T, T.val) (by simp)
    exact quadInner_gap (b := (T, T.val)) (by linarith) (inner a _ h)
  | cons b l ih =>
    rw [List.cons_append, List.pairwise_cons] at ho
    have hab := ho.1 b (by simp)
    have haT := ho.1 (T, T.val) (by simp)
    have hbT := (List.pairwise_cons.mp ho.2).1 (T, T.val) (by simp)
    obtain ⟨i1, i2⟩ := quadInner_gap (n₁ := n₁) (a := a) (b := b) (by linarith) (inner a b hab)
    obtain ⟨j1, j2⟩ := ih b ho.2
    simp only at haT hbT
    rw [quadTimes]
    constructor
    · rw [List.pairwise_append]
      refine ⟨i1, ?_, ?_⟩
      · rw [List.pairwise_cons]
        exact ⟨fun p hp => (j2 p hp).1, j1⟩
      · intro p hp q hq
        have h1 := (i2 p hp).2
        rw [List.mem_cons] at hq
        rcases hq with rfl | hq
        · exact h1
        · have := (j2 q hq).1
          linarith
    · intro p hp
      rw [List.mem_append, List.mem_cons] at hp
      rcases hp with hp | rfl | hp
      · have := i2 p hp
        constructor <;> linarith
      · simp only
        constructor <;> linarith
      · have := j2 p hp
        constructor <;> linarith

theorem quadratic_times {T : Fl r} (hT : 0 < T.val) (n₁ n₂ : ℕ)
    (hn : 300 * (((n₁ : ℝ) + 1) * (n₂ + 1)) ^ 2 * r.u < 1) :
    ∃ z : Times r, z.exact = quadraticTable n₁ T.val 0 (uhrigTimes T.val n₂) ∧
      z.rounded = quadraticPulses T n₁ n₂ ∧ z.Good T.val (140 * r.u) := by
  have hu := r.u_nonneg
  have hA : (1 : ℝ) ≤ (n₁ : ℝ) + 1 := by have : (0 : ℝ) ≤ n₁ := by positivity
                                         linarith
  have hB : (1 : ℝ) ≤ (n₂ : ℝ) + 1 := by have : (0 : ℝ) ≤ n₂ := by positivity
                                         linarith
  set A := (n₁ : ℝ) + 1 with hAdef
  set B := (n₂ : ℝ) + 1 with hBdef
  have hA2 : A ≤ A ^ 2 := by nlinarith
  have hB2 : 1 ≤ B ^ 2 := by nlinarith
  have hAB : A ^ 2 ≤ A ^ 2 * B ^ 2 := le_mul_of_one_le_right (by positivity) hB2
  have hAB' : B ^ 2 ≤ A ^ 2 * B ^ 2 := le_mul_of_one_le_left (by positivity) (by nlinarith)
  rw [mul_pow] at hn
  have h24 : 24 * (n₁ + 1 : ℕ) * r.u ≤ 1 := by
    push_cast
    rw [← hAdef]
    have : A * r.u ≤ A ^ 2 * B ^ 2 * r.u := mul_le_mul_of_nonneg_right (hA2.trans hAB) hu
    have : 0 ≤ A ^ 2 * B ^ 2 * r.u := by positivity
    linarith
  have h70 : 70 * B ^ 2 * r.u < 1 := by
    have : B ^ 2 * r.u ≤ A ^ 2 * B ^ 2 * r.u := mul_le_mul_of_nonneg_right hAB' hu
    have : 0 ≤ A ^ 2 * B ^ 2 * r.u := by positivity
    linarith
  set f' : ℕ → ℝ := fun i => T.val * innerShare n₂ i with hf'
  set l := (List.range' 1 n₂).map fun i : ℕ => (uhrigRounded T n₂ i, f' i) with hl
  have hgood := uhrig_good hT h70 .x
  have hmem : ∀ p ∈ l, (p.1, p.2, Axis.x) ∈ Times.onAxis .x
      ((List.range' 1 n₂).map fun i : ℕ =>
        (uhrigRounded T n₂ i, T.val * Real.sin (i * Real.pi / (2 * ((n₂ : ℝ) + 1))) ^ 2)) := by
    intro p hp
    exact List.mem_map.mpr ⟨p, hp, rfl⟩
  have hz0 : (PyFloat.lit 0 : Fl r).val = 0 := val_lit_zero
  have hlE : ∀ p ∈ ((PyFloat.lit 0 : Fl r), (0 : ℝ)) :: l, Ends T.val r p := by
    intro p hp
    rw [List.mem_cons] at hp
    rcases hp with rfl | hp
    · exact ⟨by simp only [hz0]; simp; positivity, hz0.ge, by simp only [hz0]; exact hT.le⟩
    · have h1 := hgood.close _ (hmem p hp)
      have h2 := hgood.inside _ (hmem p hp)
      exact ⟨h1, h2.1.le, h2.2⟩
  have hlo : (((PyFloat.lit 0 : Fl r), (0 : ℝ)) :: (l ++ [(T, T.val)])).Pairwise
      fun p q => p.2 + T.val * (1 / B ^ 2) ≤ q.2 := by
    have key : ∀ i j : ℕ, i < j → j ≤ n₂ + 1 → f' i + T.val * (1 / B ^ 2) ≤ f' j := by
      intro i j hij hj
      have := mul_le_mul_of_nonneg_left (share_gap hij hj) hT.le
      rw [mul_add] at this
      exact this
    have k0 : f' 0 = 0 := by rw [hf']; simp [share_zero]
    have k1 : f' (n₂ + 1) = T.val := by rw [hf']; simp [share_last]
    rw [List.pairwise_cons, List.pairwise_append]
    refine ⟨?_, ?_, by simp, ?_⟩
    · intro q hq
      rw [List.mem_append, List.mem_singleton] at hq
      rcases hq with hq | rfl
      · obtain ⟨i, hi, rfl⟩ := List.mem_map.mp hq
        rw [List.mem_range'_1] at hi
        have := key 0 i (by omega) (by omega)
        rwa [k0] at this
      · have := key 0 (n₂ + 1) (by omega) le_rfl
        rwa [k0, k1] at this
    · rw [hl, List.pairwise_map]
      refine (List.pairwise_lt_range' (s := 1) (n := n₂)).imp_of_mem ?_
      intro i j hi hj hij
      rw [List.mem_range'_1] at hi hj
      exact key i j hij (by omega)
    · intro p hp q hq
      rw [List.mem_singleton] at hq
      subst hq
      obtain ⟨i, hi, rfl⟩ := List.mem_map.mp hp
      rw [List.mem_range'_1] at hi
      have := key i (n₂ + 1) (by omega) le_rfl
      rwa [k1] at this
  have hlo' : (((PyFloat.lit 0 : Fl r), (0 : ℝ)) :: (l ++ [(T, T.val)])).Pairwise
      fun p q => p.1.val ≤ q.1.val := by
    rw [List.pairwise_cons, List.pairwise_append]
    refine ⟨?_, ?_, by simp, ?_⟩
    · intro q hq
      simp only [hz0]
      rw [List.mem_append, List.mem_singleton] at hq
      rcases hq with hq | rfl
      · exact (hlE q (List.mem_cons_of_mem _ hq)).nonneg
      · exact hT.le
    · rw [List.pairwise_cons, List.pairwise_append] at hlo
      refine hlo.2.1.imp_of_mem ?_
      intro p q hp hq h
      refine ((hgood.order _ (hmem p hp) _ (hmem q hq)).mpr ?_).le
      have : 0 < T.val * (1 / B ^ 2) := by positivity
      simp only
      linarith
    · intro p hp q hq
      rw [List.mem_singleton] at hq
      subst hq
      exact (hlE p (List.mem_cons_of_mem _ hp)).le
  have hD : 0 < T.val * (1 / B ^ 2) := by positivity
  have hG : 2 * (140 * r.u * T.val) < T.val * (1 / B ^ 2) * (1 / A ^ 2) := by
    rw [show T.val * (1 / B ^ 2) * (1 / A ^ 2) = T.val / (A ^ 2 * B ^ 2) by field_simp,
      lt_div_iff₀ (by positivity)]
    have : 0 ≤ A ^ 2 * B ^ 2 * r.u := by positivity
    nlinarith
  have hG0 : 0 ≤ 2 * (140 * r.u * T.val) := by positivity
  obtain ⟨g1, g2⟩ := quadTimes_gap (n₁ := n₁) hG0 hD hG _ _ hlo
  refine ⟨quadTimes n₁ (T, T.val) (PyFloat.lit 0, 0) l, ?_, ?_, ?_⟩
  · rw [quadTimes_exact, hl, List.map_map]; rfl
  · exact quadTimes_rounded n₁ n₂ T T.val f'
  · refine Times.good_of_pairwise (by positivity) (quadTimes_close hT h24 _ _ hlE hlo') g1 ?_
    intro p hp
    have := g2 p hp
    simpa using this

end OpenControls
