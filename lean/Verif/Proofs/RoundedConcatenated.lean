import Verif.Proofs.RoundedFamilies
import Verif.Proofs.EndToEnd

/-!
# Concatenated sequences in rounded arithmetic

Everything the concatenated constructors do after the running sums only compares times.  The running
sums are images of natural numbers under an increasing function, exact or rounded, so the whole
computation is the image of one on natural numbers.
-/

set_option linter.unusedSectionVars false

namespace OpenControls

open Spec Fl PyFloat Py

section Order

variable {α : Type} [Add α] [Sub α] [Mul α] [Div α] [Neg α] [PyFloat α]

/-- `g` embeds the numbers `0, …, N` in the number type with its comparisons -/
def Embeds (N : ℕ) (g : ℕ → α) : Prop :=
  ∀ a b, a ≤ N → b ≤ N → PyFloat.lt (g a) (g b) = decide (a < b) ∧
    PyFloat.eq (g a) (g b) = decide (a = b)

/-- `insertCount` on natural numbers -/
def insertCountN (x : ℕ) : List (ℕ × ℕ) → List (ℕ × ℕ)
  | [] => [(x, 1)]
  | (y, c) :: r =>
    if x < y then (x, 1) :: (y, c) :: r
    else if x = y then (y, c + 1) :: r
    else (y, c) :: insertCountN x r

/-- `evenlyRepeated` on natural numbers -/
def evenlyRepeatedN (l : List ℕ) : List ℕ :=
  ((l.foldl (fun acc x => insertCountN x acc) []).filter fun vc => vc.2 % 2 == 0).map Prod.fst

theorem insertCountN_mem {N x : ℕ} (hx : x ≤ N) {acc : List (ℕ × ℕ)} (h : ∀ p ∈ acc, p.1 ≤ N) :
    ∀ p ∈ insertCountN x acc, p.1 ≤ N := by
  induction acc with
  | nil => simp [insertCountN, hx]
  | cons p r ih =>
    obtain ⟨y, c⟩ := p
    have hy := h (y, c) (by simp)
    have hr := ih fun p hp => h p (by simp [hp])
    unfold insertCountN
    split
    · intro p hp
      rw [List.mem_cons] at hp
      rcases hp with rfl | hp
      · exact hx
      · exact h p hp
    · split
      · intro p hp
        rw [List.mem_cons] at hp
        rcases hp with rfl | hp
        · exact hy
        · exact h p (by simp [hp])
      · intro p hp
        rw [List.mem_cons] at hp
        rcases hp with rfl | hp
        · exact hy
        · exact hr p hp

theorem insertCount_embeds {N : ℕ} {g : ℕ → α} (hg : Embeds N g) {x : ℕ} (hx : x ≤ N)
    {acc : List (ℕ × ℕ)} (h : ∀ p ∈ acc, p.1 ≤ N) :
    insertCount (g x) (acc.map fun p => (g p.1, p.2)) =
      (insertCountN x acc).map fun p => (g p.1, p.2) := by
  induction acc with
  | nil => rfl
  | cons p r ih =>
    obtain ⟨y, c⟩ := p
    have hy := h (y, c) (by simp)
    have hr := ih fun p hp => h p (by simp [hp])
    obtain ⟨h1, h2⟩ := hg x y hx hy
    simp only [List.map_cons, insertCount, insertCountN, h1, h2, decide_eq_true_eq]
    split
    · rfl
    · split
      · rfl
      · rw [hr]; rfl

theorem evenlyRepeated_embeds {N : ℕ} {g : ℕ → α} (hg : Embeds N g) {l : List ℕ}
    (h : ∀ k ∈ l, k ≤ N) : evenlyRepeated (l.map g) = (evenlyRepeatedN l).map g := by
  have key : ∀ (l : List ℕ) (acc : List (ℕ × ℕ)), (∀ k ∈ l, k ≤ N) → (∀ p ∈ acc, p.1 ≤ N) →
      (l.map g).foldl (fun acc x => insertCount x acc) (acc.map fun p => (g p.1, p.2)) =
        (l.foldl (fun acc x => insertCountN x acc) acc).map fun p => (g p.1, p.2) := by
    intro l
    induction l with
    | nil => intro acc _ _; rfl
    | cons x l ih =>
      intro acc hl hacc
      simp only [List.map_cons, List.foldl_cons]
      rw [insertCount_embeds hg (hl x (by simp)) hacc]
      exact ih _ (fun k hk => hl k (by simp [hk])) (insertCountN_mem (hl x (by simp)) hacc)
  unfold evenlyRepeated evenlyRepeatedN npUnique
  have := key l [] h (by simp)
  simp only [List.map_nil] at this
  rw [this, List.filter_map, List.map_map, List.map_map]
  rfl

theorem evenlyRepeatedN_le {N : ℕ} {l : List ℕ} (h : ∀ k ∈ l, k ≤ N) :
    ∀ k ∈ evenlyRepeatedN l, k ≤ N := by
  have key : ∀ (l : List ℕ) (acc : List (ℕ × ℕ)), (∀ k ∈ l, k ≤ N) → (∀ p ∈ acc, p.1 ≤ N) →
      ∀ p ∈ l.foldl (fun acc x => insertCountN x acc) acc, p.1 ≤ N := by
    intro l
    induction l with
    | nil => intro acc _ h; exact h
    | cons x l ih =>
      intro acc hl hacc
      exact ih _ (fun k hk => hl k (by simp [hk])) (insertCountN_mem (hl x (by simp)) hacc)
  intro k hk
  unfold evenlyRepeatedN at hk
  obtain ⟨p, hp, rfl⟩ := List.mem_map.mp hk
  exact key l [] h (by simp) p (List.mem_filter.mp hp).1

/-! ### Merging -/

/-- the three angles used -/
def angleOf : ℕ → α
  | 0 => lit 0
  | 1 => PyFloat.pi
  | _ => PyFloat.pi / lit 2

/-- `xyMerge` on natural numbers -/
def xyMergeN : List ℕ → List ℕ → List (ℕ × ℕ × ℕ)
  | [], [] => []
  | x :: xs, [] => (x, 1, 0) :: xyMergeN xs []
  | [], y :: ys => (y, 1, 2) :: xyMergeN [] ys
  | x :: xs, y :: ys =>
    if x < y then (x, 1, 0) :: xyMergeN xs (y :: ys) else (y, 1, 2) :: xyMergeN (x :: xs) ys
  termination_by x y => x.length + y.length

theorem xyMerge_embeds {N : ℕ} {g : ℕ → α} (hg : Embeds N g) (xs ys : List ℕ)
    (hx : ∀ k ∈ xs, k ≤ N) (hy : ∀ k ∈ ys, k ≤ N) :
    xyMerge (xs.map g) (ys.map g) =
      (xyMergeN xs ys).map fun p => (g p.1, angleOf p.2.1, angleOf p.2.2) := by
  fun_induction xyMergeN xs ys with
  | case1 => simp [xyMerge]
  | case2 x xs ih =>
    have := ih (fun k hk => hx k (by simp [hk])) hy
    simp only [List.map_cons, List.map_nil] at this ⊢
    rw [xyMerge, this]; rfl
  | case3 y ys ih =>
    have := ih hx (fun k hk => hy k (by simp [hk]))
    simp only [List.map_cons, List.map_nil] at this ⊢
    rw [xyMerge, this]; rfl
  | case4 x xs y ys h ih =>
    have := ih (fun k hk => hx k (by simp [hk])) hy
    simp only [List.map_cons] at this ⊢
    rw [xyMerge, (hg x y (hx x (by simp)) (hy y (by simp))).1, if_pos (by simpa using h), this]; rfl
  | case5 x xs y ys h ih =>
    have := ih hx (fun k hk => hy k (by simp [hk]))
    simp only [List.map_cons] at this ⊢
    rw [xyMerge, (hg x y (hx x (by simp)) (hy y (by simp))).1, if_neg (by simpa using h), this]; rfl

theorem xyMergeN_le {N : ℕ} (xs ys : List ℕ) (hx : ∀ k ∈ xs, k ≤ N) (hy : ∀ k ∈ ys, k ≤ N) :
    ∀ p ∈ xyMergeN xs ys, p.1 ≤ N := by
  fun_induction xyMergeN xs ys with
  | case1 => simp
  | case2 x xs ih =>
    intro p hp
    rw [List.mem_cons] at hp
    rcases hp with rfl | hp
    · exact hx x (by simp)
    · exact ih (fun k hk => hx k (by simp [hk])) hy p hp
  | case3 y ys ih =>
    intro p hp
    rw [List.mem_cons] at hp
    rcases hp with rfl | hp
    · exact hy y (by simp)
    · exact ih hx (fun k hk => hy k (by simp [hk])) p hp
  | case4 x xs y ys h ih =>
    intro p hp
    rw [List.mem_cons] at hp
    rcases hp with rfl | hp
    · exact hx x (by simp)
    · exact ih (fun k hk => hx k (by simp [hk])) hy p hp
  | case5 x xs y ys h ih =>
    intro p hp
    rw [List.mem_cons] at hp
    rcases hp with rfl | hp
    · exact hy y (by simp)
    · exact ih hx (fun k hk => hy k (by simp [hk])) p hp

/-- image of pulses with natural times and numbered angles -/
def Pulses.image (g : ℕ → α) (p : Pulses ℕ) : Pulses α where
  offsets := p.offsets.map g
  rabiRotations := p.rabiRotations.map angleOf
  azimuthalAngles := p.azimuthalAngles.map angleOf
  detuningRotations := p.detuningRotations.map angleOf

/-- `shiftInsert` on natural numbers -/
def shiftInsertN (l : List ℕ) (i v : ℕ) : List ℕ := l.take i ++ [v] ++ (l.drop i).dropLast

theorem shiftInsert_image (f : ℕ → α) (l : List ℕ) (i v : ℕ) :
    shiftInsert (l.map f) i (f v) = (shiftInsertN l i v).map f := by
  simp [shiftInsert, shiftInsertN, List.map_take, List.map_drop, List.map_dropLast]

/-- `insertZ` on natural numbers -/
def insertZN : List ℕ → List ℕ → Pulses ℕ → Pulses ℕ
  | [], _, p => p
  | _, [], p => p
  | i :: is, z :: zs, p =>
    if (match p.offsets[i]? with | some t => decide (z < t) | none => false) then
      insertZN is zs {
        offsets := shiftInsertN p.offsets i z
        rabiRotations := shiftInsertN p.rabiRotations i 0
        azimuthalAngles := shiftInsertN p.azimuthalAngles i 0
        detuningRotations := p.detuningRotations.set i 1 }
    else insertZN is (z :: zs) p

theorem insertZ_image {N : ℕ} {g : ℕ → α} (hg : Embeds N g) (is zs : List ℕ) (p : Pulses ℕ)
    (hz : ∀ k ∈ zs, k ≤ N) (hp : ∀ k ∈ p.offsets, k ≤ N) :
    insertZ is (zs.map g) (p.image g) = (insertZN is zs p).image g := by
  induction is generalizing zs p with
  | nil => simp [insertZ, insertZN]
  | cons i is ih =>
    cases zs with
    | nil => simp [insertZ, insertZN]
    | cons z zs =>
      have hstep : insertZ is (zs.map g) {
          offsets := shiftInsert (p.offsets.map g) i (g z)
          rabiRotations := shiftInsert (p.rabiRotations.map angleOf) i (lit 0)
          azimuthalAngles := shiftInsert (p.azimuthalAngles.map angleOf) i (lit 0)
          detuningRotations := (p.detuningRotations.map angleOf).set i PyFloat.pi } =
          (insertZN is zs {
            offsets := shiftInsertN p.offsets i z
            rabiRotations := shiftInsertN p.rabiRotations i 0
            azimuthalAngles := shiftInsertN p.azimuthalAngles i 0
            detuningRotations := p.detuningRotations.set i 1 }).image g := by
        rw [← ih zs _ (fun k hk => hz k (by simp [hk]))]
        · congr 1
          simp only [Pulses.image]
          rw [← shiftInsert_image, ← shiftInsert_image, ← shiftInsert_image, List.map_set]
          rfl
        · intro k hk
          simp only [shiftInsertN, List.mem_append, List.mem_singleton] at hk
          rcases hk with (hk | rfl) | hk
          · exact hp k (List.mem_of_mem_take hk)
          · exact hz k (by simp)
          · exact hp k (List.mem_of_mem_drop (List.mem_of_mem_dropLast hk))
      have hrest := ih (z :: zs) p hz hp
      rw [List.map_cons] at hrest ⊢
      rw [insertZ, insertZN]
      simp only [Pulses.image, List.getElem?_map] at hrest hstep ⊢
      cases h : p.offsets[i]? with
      | none => exact hrest
      | some t =>
        have hc : gt (g t) (g z) = decide (z < t) :=
          (hg z t (hz z (by simp)) (hp t (List.mem_of_getElem? h))).1
        simp only [Option.map_some, hc]
        split
        · exact hstep
        · exact hrest

/-- `cumsum` of zeros and units -/
theorem cumsumFrom_units {g : ℕ → α} (f : ℕ → α) (hg : ∀ a c, c ≤ 1 → g a + f c = g (a + c))
    (a : ℕ) (l : List ℕ) (hl : ∀ c ∈ l, c ≤ 1) :
    cumsumFrom (g a) (l.map f) = (cumsumFrom a l).map g := by
  induction l generalizing a with
  | nil => rfl
  | cons x l ih =>
    simp only [List.map_cons, cumsumFrom]
    rw [hg a x (hl x (by simp)), ih _ fun c hc => hl c (by simp [hc])]

end Order


variable {r : Rounding}

/-- `k` units added one after the other -/
noncomputable def stepSum (U : Fl r) : ℕ → Fl r
  | 0 => lit 0
  | k + 1 => stepSum U k + U

theorem stepSum_rel {U : Fl r} (hU : 0 ≤ U.val) (k : ℕ) : Rel r k (stepSum U k).val (k * U.val) := by
  induction k with
  | zero =>
    have : (stepSum U 0).val = 0 := val_lit_zero
    rw [this]
    simpa using Rel.refl (r := r) 0
  | succ k ih =>
    have h : (stepSum U (k + 1)).val = r.rnd ((stepSum U k).val + U.val) := rfl
    rw [h]
    have h0 : (0 : ℝ) ≤ k := by positivity
    have := (ih.add ((Rel.refl U.val).mono h0) (by positivity) hU).rnd
    push_cast
    rw [show ((k : ℝ) + 1) * U.val = k * U.val + U.val by ring]
    exact this

theorem stepSum_close {U : Fl r} (hU : 0 ≤ U.val) {N k : ℕ} (hk : k ≤ N) (hN : 7 * (N : ℝ) ^ 2 * r.u ≤ 1) :
    |(stepSum U k).val - k * U.val| ≤ 3 * N * r.u * (N * U.val) := by
  rcases Nat.eq_zero_or_pos N with rfl | hpos
  · obtain rfl : k = 0 := by omega
    have : (stepSum U 0).val = 0 := val_lit_zero
    simp [this]
  have hu := r.u_nonneg
  have hw := r.w_le
  have hw0 := r.w_nonneg
  have hN1 : (1 : ℝ) ≤ N := by exact_mod_cast hpos
  have hk' : (k : ℝ) ≤ N := by exact_mod_cast hk
  have hk0 : (0 : ℝ) ≤ k := by positivity
  have hNu : (N : ℝ) * r.u ≤ 1 / 7 := by nlinarith [mul_nonneg (sub_nonneg.mpr hN1) (mul_nonneg hu (by linarith : (0:ℝ) ≤ N))]
  have hkw : (k : ℝ) * r.w ≤ 101 / 100 * (N * r.u) := by nlinarith
  have h := (stepSum_rel hU k).close (by linarith)
  rw [abs_of_nonneg (by positivity : 0 ≤ (k : ℝ) * U.val)] at h
  refine h.trans ?_
  have e1 : (k : ℝ) * U.val ≤ N * U.val := by gcongr
  have e2 : 2 * ((k : ℝ) * r.w) ≤ 3 * N * r.u := by nlinarith
  exact mul_le_mul e2 e1 (by positivity) (by positivity)

theorem stepSum_lt {U : Fl r} (hU : 0 < U.val) {N a b : ℕ} (hab : a < b) (hb : b ≤ N)
    (hN : 7 * (N : ℝ) ^ 2 * r.u ≤ 1) : (stepSum U a).val < (stepSum U b).val := by
  have h1 := abs_le.mp (stepSum_close hU.le (by omega : a ≤ N) hN)
  have h2 := abs_le.mp (stepSum_close hU.le hb hN)
  have hab' : (a : ℝ) + 1 ≤ b := by exact_mod_cast hab
  have e : 2 * (3 * N * r.u * (N * U.val)) < U.val := by
    have : 0 ≤ (N : ℝ) ^ 2 * r.u := by have := r.u_nonneg; positivity
    nlinarith
  nlinarith [h1.2, h2.1]

theorem stepSum_embeds {U : Fl r} (hU : 0 < U.val) {N : ℕ} (hN : 7 * (N : ℝ) ^ 2 * r.u ≤ 1) :
    Embeds N (stepSum U) := by
  intro a b ha hb
  have key : (stepSum U a).val < (stepSum U b).val ↔ a < b := by
    constructor
    · intro h
      by_contra hn
      rcases (not_lt.mp hn).eq_or_lt with rfl | hlt
      · exact lt_irrefl _ h
      · exact lt_asymm h (stepSum_lt hU hlt ha hN)
    · intro h; exact stepSum_lt hU h hb hN
  have key2 : (stepSum U a).val = (stepSum U b).val ↔ a = b := by
    constructor
    · intro h
      rcases lt_trichotomy a b with hl | hl | hl
      · exact absurd h (stepSum_lt hU hl hb hN).ne
      · exact hl
      · exact absurd h (stepSum_lt hU hl ha hN).ne'
    · rintro rfl; rfl
  constructor
  · rw [Bool.eq_iff_iff, lt_iff, key]; simp
  · rw [Bool.eq_iff_iff, eq_iff, key2]; simp

theorem scaled_embeds {U : ℝ} (hU : 0 < U) (N : ℕ) : Embeds N fun k : ℕ => (k : ℝ) * U := by
  intro a b _ _
  constructor
  · rw [Bool.eq_iff_iff, RealInst.lt_iff, mul_lt_mul_iff_left₀ hU]; simp
  · rw [Bool.eq_iff_iff, RealInst.eq_iff]
    simp [hU.ne']

/-- Times that are multiples of a unit agree. -/
theorem good_units {T U : Fl r} {N : ℕ} (hT : 0 < T.val) (hTU : N * U.val = T.val)
    (hN : 7 * (N : ℝ) ^ 2 * r.u ≤ 1) {l : List (ℕ × Axis)} (h : ∀ p ∈ l, 0 < p.1 ∧ p.1 ≤ N)
    (hend : ∀ p ∈ l, p.1 = N → (stepSum U N).val = N * U.val) :
    Times.Good T.val (3 * N * r.u) (l.map fun p : ℕ × Axis => (stepSum U p.1, (p.1 : ℝ) * U.val, p.2)) := by
  have hU : 0 < U.val := by
    by_contra hn
    have : (N : ℝ) * U.val ≤ 0 := mul_nonpos_of_nonneg_of_nonpos (by positivity) (not_lt.mp hn)
    linarith
  have hu := r.u_nonneg
  have e : 2 * (3 * N * r.u * (N * U.val)) < U.val := by
    have : 0 ≤ (N : ℝ) ^ 2 * r.u := by positivity
    nlinarith
  have hlt : ∀ p ∈ l, p.1 < N → (stepSum U p.1).val < T.val ∧ (p.1 : ℝ) * U.val < T.val := by
    intro p hp h1
    have := abs_le.mp (stepSum_close hU.le h1.le hN)
    have h1' : (p.1 : ℝ) + 1 ≤ N := by exact_mod_cast h1
    constructor
    · nlinarith [this.2]
    · rw [← hTU]
      exact mul_lt_mul_of_pos_right (by linarith) hU
  have heq : ∀ p ∈ l, p.1 = N → (stepSum U p.1).val = T.val ∧ (p.1 : ℝ) * U.val = T.val := by
    intro p hp h1
    rw [h1, hend p hp h1, hTU]
    exact ⟨rfl, rfl⟩
  refine ⟨?_, ?_, ?_, ?_, ?_⟩
  · intro q hq
    obtain ⟨p, hp, rfl⟩ := List.mem_map.mp hq
    have := stepSum_close hU.le (h p hp).2 hN
    rwa [hTU] at this
  · intro q hq
    obtain ⟨p, hp, rfl⟩ := List.mem_map.mp hq
    obtain ⟨h0, h1⟩ := h p hp
    constructor
    · exact (stepSum_rel hU.le p.1).pos (by have : (0 : ℝ) < p.1 := by exact_mod_cast h0
                                            positivity)
    · rcases h1.eq_or_lt with h1 | h1
      · exact (heq p hp h1).1.le
      · exact (hlt p hp h1).1.le
  · intro q hq
    obtain ⟨p, hp, rfl⟩ := List.mem_map.mp hq
    obtain ⟨h0, h1⟩ := h p hp
    have h0' : (0 : ℝ) < p.1 := by exact_mod_cast h0
    refine ⟨by positivity, ?_⟩
    rcases h1.eq_or_lt with h1 | h1
    · exact (heq p hp h1).2.le
    · exact (hlt p hp h1).2.le
  · intro q hq
    obtain ⟨p, hp, rfl⟩ := List.mem_map.mp hq
    rcases (h p hp).2.eq_or_lt with h1 | h1
    · exact iff_of_false (heq p hp h1).1.not_lt (heq p hp h1).2.not_lt
    · exact iff_of_true (hlt p hp h1).1 (hlt p hp h1).2
  · intro q hq q' hq'
    obtain ⟨p, hp, rfl⟩ := List.mem_map.mp hq
    obtain ⟨p', hp', rfl⟩ := List.mem_map.mp hq'
    have h1 := (stepSum_embeds hU hN p.1 p'.1 (h p hp).2 (h p' hp').2).1
    have h2 := (scaled_embeds hU N p.1 p'.1 (h p hp).2 (h p' hp').2).1
    rw [← h2, Bool.eq_iff_iff, lt_iff, RealInst.lt_iff] at h1
    exact h1

theorem stepSum_four (U : Fl r) : (stepSum U 4).val = 4 * U.val := by
  have s : ∀ k, (stepSum U (k + 1)).val = r.rnd ((stepSum U k).val + U.val) := fun _ => rfl
  have s0 : (stepSum U 0).val = 0 := val_lit_zero
  have s1 : (stepSum U 1).val = U.val := by rw [s, s0, zero_add, U.rnd_val]
  have s2 : (stepSum U 2).val = 2 * U.val := by
    have := r.rnd_mul_pow U.val 1
    rw [U.rnd_val, pow_one] at this
    rw [s, s1, ← two_mul, mul_comm, this]
  have s3 : (stepSum U 3).val = r.rnd (3 * U.val) := by
    rw [s, s2]; congr 1; ring
  rw [s, s3, r.quarters _ U.rnd_val]

theorem rnd_two_pow (k : ℕ) : r.rnd (2 ^ k) = 2 ^ k := by
  have := r.rnd_mul_pow 1 k
  rwa [r.rnd_one, one_mul] at this

/-- one unit of a concatenated sequence is exact -/
theorem unit_exact (T : Fl r) (k : ℕ) : (T / Py.nat (2 ^ k) : Fl r).val = T.val / 2 ^ k := by
  rw [val_div]
  unfold Py.nat
  rw [val_lit]
  push_cast
  rw [rnd_two_pow, r.rnd_div_pow, T.rnd_val]

theorem unit_add (U : Fl r) (f : ℕ → Fl r) (h0 : (f 0).val = 0) (h1 : (f 1).val = U.val) (a c : ℕ)
    (hc : c ≤ 1) : stepSum U a + f c = stepSum U (a + c) := by
  apply ext
  rw [val_add]
  interval_cases c
  · rw [h0, add_zero, rnd_val, add_zero]
  · rw [h1]; rfl

theorem npCumsum_stepSum (U : Fl r) (f : ℕ → Fl r) (h0 : (f 0).val = 0) (h1 : (f 1).val = U.val)
    (l : List ℕ) (hl : ∀ c ∈ l, c ≤ 1) :
    npCumsum (l.map f) = (cumsumFrom 0 l).map (stepSum U) := by
  cases l with
  | nil => rfl
  | cons x l =>
    have hx : f x = stepSum U x := by
      have := unit_add U f h0 h1 0 x (hl x (by simp))
      rw [zero_add] at this
      rw [← this]
      apply ext
      rw [val_add, show (stepSum U 0).val = 0 from val_lit_zero, zero_add, rnd_val]
    simp only [List.map_cons, npCumsum, cumsumFrom, zero_add]
    rw [hx, cumsumFrom_units f (unit_add U f h0 h1) x l fun c hc => hl c (by simp [hc])]

/-! ## X-concatenated -/

/-- pulse positions in units -/
def xPositions (l : ℕ) : List ℕ :=
  if l % 2 == 1 then (evenlyRepeatedN (cumsumFrom 0 (concatenationX l))).dropLast
  else evenlyRepeatedN (cumsumFrom 0 (concatenationX l))

theorem concatenationX_le_one (l : ℕ) : ∀ c ∈ concatenationX l, c ≤ 1 := by
  induction l using Nat.strong_induction_on with
  | _ l ih =>
    match l with
    | 0 => simp [concatenationX]
    | 1 => simp [concatenationX]
    | n + 2 =>
      intro c hc
      simp only [concatenationX, List.mem_append, List.mem_singleton] at hc
      rcases hc with ((h | rfl) | h) | rfl
      · exact ih (n + 1) (by omega) c h
      · omega
      · exact ih (n + 1) (by omega) c h
      · omega

theorem concatenationX_cumsum_le {l : ℕ} (hl : l ≠ 0) :
    ∀ k ∈ cumsumFrom 0 (concatenationX l), k ≤ 2 ^ l := by
  obtain ⟨m, rfl⟩ := Nat.exists_eq_succ_of_ne_zero hl
  intro k hk
  have := (cumsumFrom_bounds 0 _ k hk).2
  rw [concatenationX_sum] at this
  omega

theorem xOffsets_positions {T : ℝ} (hT : 0 < T) {l : ℕ} (hl : l ≠ 0) :
    xConcatenatedOffsets T l = (xPositions l).map fun k : ℕ => (k : ℝ) * (T / 2 ^ l) := by
  unfold xConcatenatedOffsets xPositions
  simp only [RealInst.nat_eq]
  rw [npCumsum_scaled, evenlyRepeated_embeds (scaled_embeds (by positivity) (2 ^ l))
    (concatenationX_cumsum_le hl)]
  push_cast
  split
  · rw [List.map_dropLast]
  · rfl

theorem xPositions_bounds {l : ℕ} (hl : l ≠ 0) : ∀ k ∈ xPositions l, 0 < k ∧ k < 2 ^ l := by
  intro k hk
  have h : (k : ℝ) * (1 / 2 ^ l) ∈ xConcatenatedOffsets (1 : ℝ) l := by
    rw [xOffsets_positions one_pos hl]
    exact List.mem_map.mpr ⟨k, hk, rfl⟩
  obtain ⟨j, h0, h1, -, e⟩ := (mem_xOffsets one_pos hl _).mp h
  have := scaled_injective (show (0 : ℝ) < 1 / 2 ^ l by positivity) e
  subst this
  exact ⟨h0, h1⟩

theorem xOffsets_rounded {T : Fl r} (hT : 0 < T.val) {l : ℕ} (hl : l ≠ 0)
    (hN : 7 * ((2 ^ l : ℕ) : ℝ) ^ 2 * r.u ≤ 1) :
    xConcatenatedOffsets T l = (xPositions l).map (stepSum (T / Py.nat (2 ^ l))) := by
  have hU : 0 < (T / Py.nat (2 ^ l) : Fl r).val := by rw [unit_exact]; positivity
  unfold xConcatenatedOffsets xPositions
  simp only
  rw [npCumsum_stepSum (T / Py.nat (2 ^ l)) (fun c => Py.nat c * (T / Py.nat (2 ^ l))) ?_ ?_ _
    (concatenationX_le_one l), evenlyRepeated_embeds (stepSum_embeds hU hN)
    (concatenationX_cumsum_le hl)]
  · split
    · rw [List.map_dropLast]
    · rfl
  · simp [Py.nat]
  · have : (Py.nat 1 : Fl r).val = 1 := by simp [Py.nat]
    rw [val_mul, this, one_mul, rnd_val]

theorem x_good {T : Fl r} (hT : 0 < T.val) {l : ℕ} (hl : l ≠ 0)
    (hN : 7 * ((2 ^ l : ℕ) : ℝ) ^ 2 * r.u ≤ 1) :
    Times.Good T.val (3 * (2 ^ l : ℕ) * r.u) (Times.onAxis .x ((xPositions l).map fun k : ℕ =>
      (stepSum (T / Py.nat (2 ^ l)) k, (k : ℝ) * (T.val / 2 ^ l)))) := by
  have := good_units (T := T) (U := T / Py.nat (2 ^ l)) (N := 2 ^ l) hT
    (by rw [unit_exact]; push_cast; field_simp) hN
    (l := (xPositions l).map fun k => (k, Axis.x)) (by
      intro p hp
      obtain ⟨k, hk, rfl⟩ := List.mem_map.mp hp
      exact ⟨(xPositions_bounds hl k hk).1, (xPositions_bounds hl k hk).2.le⟩) (by
      intro p hp h
      obtain ⟨k, hk, rfl⟩ := List.mem_map.mp hp
      exact absurd h (xPositions_bounds hl k hk).2.ne)
  unfold Times.onAxis
  rw [List.map_map] at this ⊢
  rw [unit_exact] at this
  exact this

/-! ## XY-concatenated -/

/-- the pulses of the XY-concatenated sequence, times in units -/
def xyPositions (l : ℕ) : Pulses ℕ :=
  let c := concatenationXY l
  let x := evenlyRepeatedN (unitTimes (-1) (-2) (-3) c)
  let y := evenlyRepeatedN (unitTimes (-2) (-1) (-3) c)
  let z := evenlyRepeatedN (unitTimes (-3) (-2) (-1) c)
  let rows := xyMergeN x y
  let zeros := List.replicate z.length 0
  let p : Pulses ℕ := {
    offsets := rows.map (fun r => r.1) ++ zeros
    rabiRotations := rows.map (fun r => r.2.1) ++ zeros
    azimuthalAngles := rows.map (fun r => r.2.2) ++ zeros
    detuningRotations := List.replicate (rows.length + z.length) 0 }
  insertZN (List.range p.offsets.length) z p

section
variable {α : Type} [Add α] [Sub α] [Mul α] [Div α] [Neg α] [PyFloat α]

theorem xyPulses_image {T : α} {n : ℕ} {g : ℕ → α} (hg : Embeds (4 ^ (n + 1)) g)
    (h0 : (lit 0 : α) = g 0)
    (hoff : ∀ op other other' : Int, IsKind op other other' →
      xyOffsetsOf (T / Py.nat (2 ^ ((n + 1) * 2))) op other other' (concatenationXY (n + 1)) =
        evenlyRepeated ((unitTimes op other other' (concatenationXY (n + 1))).map g)) :
    xyConcatenatedPulses T (n + 1) = (xyPositions (n + 1)).image g := by
  have hle : ∀ op other other' : Int, IsKind op other other' →
      ∀ k ∈ unitTimes op other other' (concatenationXY (n + 1)), k ≤ 4 ^ (n + 1) :=
    fun op other other' h k hk => (unitTimes_le h _ k hk).trans (freeUnits_le n)
  have kx : IsKind (-1) (-2) (-3) := by unfold IsKind; decide
  have ky : IsKind (-2) (-1) (-3) := by unfold IsKind; decide
  have kz : IsKind (-3) (-2) (-1) := by unfold IsKind; decide
  have lx := evenlyRepeatedN_le (hle _ _ _ kx)
  have ly := evenlyRepeatedN_le (hle _ _ _ ky)
  have lz := evenlyRepeatedN_le (hle _ _ _ kz)
  unfold xyConcatenatedPulses xyPositions
  simp only
  rw [hoff _ _ _ kx, hoff _ _ _ ky, hoff _ _ _ kz, evenlyRepeated_embeds hg (hle _ _ _ kx),
    evenlyRepeated_embeds hg (hle _ _ _ ky), evenlyRepeated_embeds hg (hle _ _ _ kz),
    xyMerge_embeds hg _ _ lx ly, ← insertZ_image hg _ _ _ lz]
  · simp only [List.length_map, List.map_map, List.length_append, List.length_replicate]
    congr 1
    simp only [Pulses.image, List.map_append, List.map_map, List.map_replicate]
    congr 1
    rw [h0]
    rfl
  · intro k hk
    simp only [List.mem_append, List.mem_map, List.mem_replicate] at hk
    rcases hk with ⟨p, hp, rfl⟩ | ⟨-, rfl⟩
    · exact xyMergeN_le _ _ lx ly p hp
    · exact Nat.zero_le _

end

theorem angleOf_round (c : ℕ) : (angleOf c : Fl r) = round r (angleOf c : ℝ) := by
  match c with
  | 0 => simp only [angleOf]; rw [lit_zero]; simp
  | 1 => simp only [angleOf]; rfl
  | c + 2 => simp only [angleOf]; rw [half_pi]; simp

theorem xyPulses_real {T : ℝ} (hT : 0 < T) (n : ℕ) :
    xyConcatenatedPulses T (n + 1) =
      (xyPositions (n + 1)).image fun k : ℕ => (k : ℝ) * (T / 2 ^ ((n + 1) * 2)) := by
  apply xyPulses_image (scaled_embeds (by positivity) _)
  · simp
  · intro op other other' _
    rw [xyOffsetsOf_eq]
    simp

theorem xyPulses_rounded {T : Fl r} (hT : 0 < T.val) (n : ℕ)
    (hN : 7 * ((4 ^ (n + 1) : ℕ) : ℝ) ^ 2 * r.u ≤ 1) :
    xyConcatenatedPulses T (n + 1) =
      (xyPositions (n + 1)).image (stepSum (T / Py.nat (2 ^ ((n + 1) * 2)))) := by
  have hU : 0 < (T / Py.nat (2 ^ ((n + 1) * 2)) : Fl r).val := by rw [unit_exact]; positivity
  apply xyPulses_image (stepSum_embeds hU hN) rfl
  intro op other other' _
  unfold xyOffsetsOf unitTimes
  simp only
  rw [← npCumsum_stepSum (T / Py.nat (2 ^ ((n + 1) * 2)))
    (fun c => Py.nat c * (T / Py.nat (2 ^ ((n + 1) * 2)))), List.map_map]
  · congr 2
    apply List.map_congr_left
    intro c _
    simp only [Function.comp_apply]
    split <;> simp [Py.nat]
  · simp [Py.nat]
  · have : (Py.nat 1 : Fl r).val = 1 := by simp [Py.nat]
    rw [val_mul, this, one_mul, rnd_val]
  · intro c hc
    obtain ⟨x, -, rfl⟩ := List.mem_map.mp hc
    split <;> omega

/-- no pulse at the end for orders from two on -/
theorem xyTable_lt {T : ℝ} (hT : 0 < T) (n : ℕ) : ∀ p ∈ xyTable T (n + 2), p.1 < T := by
  intro p hp
  cases n with
  | zero => exact xy_two_end hT p hp
  | succ n =>
    obtain ⟨k, h0, h1, e'⟩ := xyTable_units hT (n + 2) hp
    have h2 := freeUnits_lt n
    have h4 : 0 < 4 ^ n := by positivity
    have hk : k < 4 ^ (n + 3) := by
      have h3 : k ≤ freeUnits (concatenationXY (n + 3)) := h1
      omega
    have hk' : (k : ℝ) < 4 ^ (n + 3) := by exact_mod_cast hk
    rw [pow_two_mul] at e'
    rw [e', mul_div_assoc', div_lt_iff₀ (pow_pos (by norm_num) _), mul_comm T]
    exact mul_lt_mul_of_pos_right hk' hT

/-- the pulses in units with their axes -/
theorem xyPositions_table {T : ℝ} (hT : 0 < T) (n : ℕ) :
    ∃ l : List (ℕ × Axis), l.map (fun p => p.1) = (xyPositions (n + 1)).offsets ∧
      xyTable T (n + 1) = l.map (fun p => ((p.1 : ℝ) * (T / 2 ^ ((n + 1) * 2)), p.2)) ∧
      (∀ p ∈ l, 0 < p.1 ∧ p.1 ≤ 4 ^ (n + 1)) ∧
      (xyPositions (n + 1)).rabiRotations.map angleOf = l.map (fun p => p.2.rabi) ∧
      (xyPositions (n + 1)).azimuthalAngles.map angleOf = l.map (fun p => p.2.azimuthal) ∧
      (xyPositions (n + 1)).detuningRotations.map angleOf = l.map (fun p => p.2.detuning) := by
  have h := (xyConcatenatedPulses_eq hT n).symm.trans (xyPulses_real hT n)
  simp only [tablePulses, Pulses.image, Pulses.mk.injEq] at h
  obtain ⟨h1, h2, h3, h4⟩ := h
  set P := xyPositions (n + 1)
  set table := xyTable T (n + 1) with htable
  have hlen : P.offsets.length = table.length := by
    have := congrArg List.length h1
    simpa using this.symm
  have hfst : (P.offsets.zip (table.map fun p => p.2)).map (fun p => p.1) = P.offsets := by
    rw [List.map_fst_zip]; simp [hlen]
  have hsnd : (P.offsets.zip (table.map fun p => p.2)).map (fun p => p.2) = table.map fun p => p.2 := by
    rw [List.map_snd_zip]; simp [hlen]
  have htab : table = (P.offsets.zip (table.map fun p => p.2)).map
      (fun p => ((p.1 : ℝ) * (T / 2 ^ ((n + 1) * 2)), p.2)) := by
    apply List.ext_getElem
    · simp [hlen]
    · intro i hi hi'
      have e := congrArg (fun l => l[i]?) h1
      simp only [List.getElem?_map] at e
      have hiP : i < P.offsets.length := by rw [hlen]; exact hi
      rw [List.getElem?_eq_getElem hi, List.getElem?_eq_getElem hiP] at e
      simp only [Option.map_some, Option.some.injEq] at e
      simp only [List.getElem_map, List.getElem_zip]
      rw [← e]
  have hmap : ∀ f : Axis → ℝ, (P.offsets.zip (table.map fun p => p.2)).map (fun p => f p.2) =
      table.map fun p => f p.2 := by
    intro f
    have := congrArg (List.map f) hsnd
    rwa [List.map_map, List.map_map] at this
  refine ⟨P.offsets.zip (table.map fun p => p.2), hfst, htab, ?_, ?_, ?_, ?_⟩
  · intro p hp
    have hm : ((p.1 : ℝ) * (T / 2 ^ ((n + 1) * 2)), p.2) ∈ table := by
      rw [htab]; exact List.mem_map.mpr ⟨p, hp, rfl⟩
    obtain ⟨k, h0, hk, e⟩ := xyTable_units hT n hm
    have := scaled_injective (show (0 : ℝ) < T / 2 ^ ((n + 1) * 2) by positivity) e
    subst this
    exact ⟨h0, hk.trans (freeUnits_le n)⟩
  · rw [← h2]; exact (hmap fun a => a.rabi).symm
  · rw [← h3]; exact (hmap fun a => a.azimuthal).symm
  · rw [← h4]; exact (hmap fun a => a.detuning).symm

theorem xy_times {T : Fl r} (hT : 0 < T.val) (n : ℕ)
    (hN : 7 * ((4 ^ (n + 1) : ℕ) : ℝ) ^ 2 * r.u ≤ 1) :
    ∃ z : Times r, z.exact = xyTable T.val (n + 1) ∧ z.rounded = xyConcatenatedPulses T (n + 1) ∧
      z.Good T.val (3 * (4 ^ (n + 1) : ℕ) * r.u) := by
  obtain ⟨l, h1, h2, h3, h4, h5, h6⟩ := xyPositions_table hT n
  set U : Fl r := T / Py.nat (2 ^ ((n + 1) * 2)) with hU
  have hUv : U.val = T.val / 2 ^ ((n + 1) * 2) := unit_exact T _
  refine ⟨l.map fun p : ℕ × Axis => (stepSum U p.1, (p.1 : ℝ) * U.val, p.2), ?_, ?_, ?_⟩
  · rw [h2, ← hUv]
    simp [Times.exact]
  · rw [xyPulses_rounded hT n hN]
    have hang : ∀ c : List ℕ, (c.map angleOf : List (Fl r)) = (c.map angleOf : List ℝ).map (round r) := by
      intro c
      rw [List.map_map]
      exact List.map_congr_left fun k _ => angleOf_round k
    simp only [Times.rounded, Pulses.image, List.map_map, Function.comp_def, hang, Pulses.mk.injEq]
    have e : ∀ f : ℕ → ℝ, (fun x => round r (f x)) = round r ∘ f := fun _ => rfl
    refine ⟨?_, ?_, ?_, ?_⟩
    · rw [← h1, List.map_map]; rfl
    · have := congrArg (List.map (round r)) h4
      rw [List.map_map, List.map_map] at this
      exact this.symm
    · have := congrArg (List.map (round r)) h5
      rw [List.map_map, List.map_map] at this
      exact this.symm
    · have := congrArg (List.map (round r)) h6
      rw [List.map_map, List.map_map] at this
      exact this.symm
  · refine good_units hT ?_ hN ?_ ?_
    · rw [hUv, pow_two_mul]; push_cast; field_simp
    · exact h3
    · intro p hp e
      rcases n with _ | n
      · have := stepSum_four U
        norm_num at this ⊢
        exact this
      · exfalso
        have hm : ((p.1 : ℝ) * (T.val / 2 ^ ((n + 1 + 1) * 2)), p.2) ∈ xyTable T.val (n + 1 + 1) := by
          rw [h2]; exact List.mem_map.mpr ⟨p, hp, rfl⟩
        have := xyTable_lt hT n _ hm
        simp only [e, pow_two_mul] at this
        push_cast at this
        rw [mul_div_cancel₀ _ (by positivity)] at this
        exact lt_irrefl _ this

end OpenControls
