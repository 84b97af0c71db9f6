import Verif.Proofs.LimitedSchemes
import Verif.Proofs.Conversion
import Verif.Proofs.RoundedConverted

/-!
# Conversion with and without limits of the range of numbers: helper lemmas
-/

namespace OpenControls

open PyFloat Py Spec

variable {r : Rounding} {L : Limits r}

/-- the same value, which is not too large -/
def Bounded (k : ℕ) (a : Lim L) (b : Fl r) : Prop := SameValue a b ∧ |b.val| ≤ 2 ^ k

namespace Bounded

variable {j k : ℕ} {a a' : Lim L} {b b' : Fl r}

theorem mono (h : Bounded j a b) (hjk : j ≤ k) : Bounded k a b :=
  ⟨h.1, h.2.trans (pow_le_pow_right₀ (by norm_num) hjk)⟩

theorem rounded {x : ℝ} (hx : |x| ≤ 2 ^ (j + 1)) (e : b.val = r.rnd x) : |b.val| ≤ 2 ^ (j + 2) := by
  rw [e]
  have := Limits.rnd_le (r := r) (x := x)
  rw [pow_succ]
  linarith

theorem add (h : Bounded j a b) (h' : Bounded j a' b') (hj : j + 1 ≤ 249) : Bounded (j + 2) (a + a') (b + b') := by
  have hx : |b.val + b'.val| ≤ 2 ^ (j + 1) := by
    refine (abs_add_le _ _).trans ?_
    rw [pow_succ]
    linarith [h.2, h'.2]
  exact ⟨same_add h.1 h'.1 (hx.trans (pow_le_pow_right₀ (by norm_num) hj)), rounded hx rfl⟩

theorem sub (h : Bounded j a b) (h' : Bounded j a' b') (hj : j + 1 ≤ 249) : Bounded (j + 2) (a - a') (b - b') := by
  have hx : |b.val - b'.val| ≤ 2 ^ (j + 1) := by
    refine (abs_sub _ _).trans ?_
    rw [pow_succ]
    linarith [h.2, h'.2]
  exact ⟨same_sub h.1 h'.1 (hx.trans (pow_le_pow_right₀ (by norm_num) hj)), rounded hx rfl⟩

theorem zero : Bounded k (lit 0 : Lim L) (lit 0) := ⟨same_zero, by rw [Fl.val_lit_zero, abs_zero]; positivity⟩

end Bounded

theorem Sized.bounded {k : ℕ} {a : Lim L} {b : Fl r} (h : Sized k a b) : Bounded k a b := ⟨h.same, h.hi⟩

/-- zero, or neither too small nor too large -/
def ZeroOrSized (k : ℕ) (a : Lim L) (b : Fl r) : Prop := SameValue a b ∧ (b.val = 0 ∨ 1 / 2 ^ k ≤ |b.val|) ∧ |b.val| ≤ 2 ^ k

theorem ZeroOrSized.cases {k : ℕ} {a : Lim L} {b : Fl r} (h : ZeroOrSized k a b) : b.val = 0 ∨ Sized k a b := by
  obtain ⟨h1, h2 | h2, h3⟩ := h
  · exact .inl h2
  · exact .inr ⟨h1, h2, h3⟩

theorem ZeroOrSized.bounded {k : ℕ} {a : Lim L} {b : Fl r} (h : ZeroOrSized k a b) : Bounded k a b := ⟨h.1, h.2.2⟩

theorem Sized.zeroOr {k : ℕ} {a : Lim L} {b : Fl r} (h : Sized k a b) : ZeroOrSized k a b := ⟨h.same, .inr h.lo, h.hi⟩

theorem ZeroOrSized.mul {j k : ℕ} {a a' : Lim L} {b b' : Fl r} (h : Sized j a b) (h' : ZeroOrSized k a' b')
    (hk : j + k + 1 ≤ 249) : ZeroOrSized (j + k + 1) (a * a') (b * b') := by
  rcases h'.cases with h0 | h'
  · have e : (b * b').val = 0 := by rw [Fl.val_mul, h0, mul_zero, r.rnd_zero]
    refine ⟨same_mul h.same h'.1 (.inl (by rw [h0, mul_zero])) (by rw [h0, mul_zero, abs_zero]; positivity), .inl e, ?_⟩
    rw [e, abs_zero]
    positivity
  · exact (h.mul h' hk).zeroOr

theorem ZeroOrSized.mono {j k : ℕ} {a : Lim L} {b : Fl r} (h : ZeroOrSized j a b) (hjk : j ≤ k) :
    ZeroOrSized k a b := by
  rcases h.cases with h0 | h'
  · exact ⟨h.1, .inl h0, h.2.2.trans (pow_le_pow_right₀ (by norm_num) hjk)⟩
  · exact (h'.mono hjk).zeroOr

theorem same_isClose_of {a b : Lim L} {x y : Fl r} (ha : Bounded 220 a x) (hb : ZeroOrSized 200 b y) :
    Py.isClose a b = Py.isClose x y := by
  have fa : isFinite a = true := by
    show isFinite a.val = true
    rw [ha.1]; rfl
  have fb : isFinite b = true := by
    show isFinite b.val = true
    rw [hb.1]; rfl
  unfold Py.isClose Py.isCloseAtol
  rw [fa, fb, Fl.isFinite_eq, Fl.isFinite_eq]
  have e1 := same_abs (ha.sub (hb.bounded.mono (by norm_num)) (by norm_num)).1
  have hy : ZeroOrSized 200 (PyFloat.abs b) (PyFloat.abs y) :=
    ⟨same_abs hb.1, by rw [Fl.val_abs, abs_abs, abs_eq_zero]; exact hb.2.1, by rw [Fl.val_abs, abs_abs]; exact hb.2.2⟩
  have q1 : Sized 28 (lit (1 / 100000000) : Lim L) (lit (1 / 100000000)) :=
    Sized.lit (by norm_num) (by norm_num) (by norm_num)
  have q2 : Sized 28 (lit (1 / 100000) : Lim L) (lit (1 / 100000)) :=
    Sized.lit (by norm_num) (by norm_num) (by norm_num)
  have q3 := hy.mul q2 (by norm_num)
  have e2 := ((q1.bounded.mono (by norm_num)).add q3.bounded (by norm_num)).1
  simp only [Bool.and_self, if_true]
  exact same_le e1 e2

theorem same_isClose_zero {a : Lim L} {x : Fl r} (ha : Bounded 220 a x) :
    Py.isClose a (lit 0) = Py.isClose x (lit 0) :=
  same_isClose_of ha ⟨same_zero, .inl Fl.val_lit_zero, by rw [Fl.val_lit_zero, abs_zero]; positivity⟩

theorem same_lt {a a' : Lim L} {b b' : Fl r} (h : SameValue a b) (h' : SameValue a' b') :
    PyFloat.lt a a' = PyFloat.lt b b' := same_gt h' h

/-- the same operation, without huge numbers -/
def SameOp (o' : Operation (Lim L)) (o : Operation (Fl r)) : Prop :=
  Bounded 100 o'.offset o.offset ∧ Bounded 100 o'.rabi o.rabi ∧ SameValue o'.azimuthal o.azimuthal ∧
    Bounded 100 o'.detuning o.detuning

theorem same_operationsOf {a b c d : List (Lim L)} {a' b' c' d' : List (Fl r)} (ha : List.Forall₂ (Bounded 100) a a')
    (hb : List.Forall₂ (Bounded 100) b b') (hc : List.Forall₂ SameValue c c')
    (hd : List.Forall₂ (Bounded 100) d d') :
    List.Forall₂ SameOp (operationsOf a b c d) (operationsOf a' b' c' d') := by
  induction ha generalizing b c d b' c' d' with
  | nil => simp [operationsOf]
  | cons h1 _ ih =>
    cases hb with
    | nil => simp [operationsOf]
    | cons h2 hb =>
      cases hc with
      | nil => simp [operationsOf]
      | cons h3 hc =>
        cases hd with
        | nil => simp [operationsOf]
        | cons h4 hd => exact .cons ⟨h1, h2, h3, h4⟩ (ih hb hc hd)

theorem forall₂_getLast? {A B : Type} {R : A → B → Prop} {l : List A} {l' : List B} (h : List.Forall₂ R l l') :
    (l.getLast? = none ∧ l'.getLast? = none) ∨ ∃ a b, l.getLast? = some a ∧ l'.getLast? = some b ∧ R a b := by
  induction h with
  | nil => exact .inl ⟨rfl, rfl⟩
  | @cons a b l l' hab hl ih =>
    cases hl with
    | nil => exact .inr ⟨a, b, rfl, rfl, hab⟩
    | cons h1 h2 =>
      rw [List.getLast?_cons_cons, List.getLast?_cons_cons]
      exact ih

theorem same_idle {t' : Lim L} {t : Fl r} (h : Bounded 100 t' t) : SameOp (idleAt t') (idleAt t) :=
  ⟨h, Bounded.zero, same_zero, Bounded.zero⟩

section Pad
variable {α : Type} [Add α] [Sub α] [Mul α] [Div α] [Neg α] [PyFloat α]

/-- the first step of the padding -/
def padStart (T : α) (ops : List (Operation α)) : List (Operation α) :=
  let ops := if ops.isEmpty then [idleAt (lit 0), idleAt T] else ops
  match ops with
  | o :: _ => if ne o.offset (lit 0) then idleAt (lit 0) :: ops else ops
  | [] => ops

/-- the second step of the padding -/
def padEnd (T : α) (ops : List (Operation α)) : List (Operation α) :=
  match ops.getLast? with
  | some o => if ne o.offset T then ops ++ [idleAt T] else ops
  | none => ops

theorem padOperations_steps (T : α) (ops : List (Operation α)) : padOperations T ops = padEnd T (padStart T ops) := rfl

end Pad

theorem same_padEnd {T' : Lim L} {T : Fl r} (hT : Bounded 100 T' T) {k' : List (Operation (Lim L))}
    {k : List (Operation (Fl r))} (hk : List.Forall₂ SameOp k' k) :
    List.Forall₂ SameOp (padEnd T' k') (padEnd T k) := by
  unfold padEnd
  rcases forall₂_getLast? hk with ⟨e1, e2⟩ | ⟨a, b, e1, e2, hab⟩
  · rw [e1, e2]; exact hk
  · rw [e1, e2]
    dsimp only
    rw [same_ne hab.1.1 hT.1]
    split
    · exact List.rel_append hk (.cons (same_idle hT) .nil)
    · exact hk

theorem same_padStart {T' : Lim L} {T : Fl r} (hT : Bounded 100 T' T) {l' : List (Operation (Lim L))}
    {l : List (Operation (Fl r))} (h : List.Forall₂ SameOp l' l) :
    List.Forall₂ SameOp (padStart T' l') (padStart T l) := by
  unfold padStart
  cases h with
  | nil =>
    simp only [List.isEmpty, if_true]
    rw [same_ne (same_idle (L := L) Bounded.zero).1.1 same_zero]
    split
    · exact .cons (same_idle Bounded.zero) (.cons (same_idle Bounded.zero) (.cons (same_idle hT) .nil))
    · exact .cons (same_idle Bounded.zero) (.cons (same_idle hT) .nil)
  | cons h1 h2 =>
    simp only [List.isEmpty, Bool.false_eq_true, if_false]
    rw [same_ne h1.1.1 same_zero]
    split
    · exact .cons (same_idle Bounded.zero) (.cons h1 h2)
    · exact .cons h1 h2

theorem same_pad {T' : Lim L} {T : Fl r} (hT : Bounded 100 T' T) {l' : List (Operation (Lim L))}
    {l : List (Operation (Fl r))} (h : List.Forall₂ SameOp l' l) :
    List.Forall₂ SameOp (padOperations T' l') (padOperations T l) := by
  rw [padOperations_steps, padOperations_steps]
  exact same_padEnd hT (same_padStart hT h)

/-- hardware limits of moderate size -/
structure SameHardware (R' D' m' : Lim L) (R D m : Fl r) : Prop where
  rabi : Sized 100 R' R
  detuning : Sized 100 D' D
  minimum : ZeroOrSized 100 m' m

theorem not_close_large {x : Fl r} (h : Py.isClose x (lit 0) = false) : 1 / 2 ^ 30 ≤ |x.val| := by
  rw [← Bool.not_eq_true, isClose_zero_rounded, not_le] at h
  have hc := r.close (1 / 10 ^ 8)
  have hu := r.u_small.2
  rw [abs_of_nonneg (by positivity : (0 : ℝ) ≤ 1 / 10 ^ 8)] at hc
  have := abs_le.mp hc
  norm_num at this hu h ⊢
  linarith

theorem not_close_sized {a : Lim L} {x : Fl r} (ha : Bounded 100 a x) (h : Py.isClose x (lit 0) = false) :
    Sized 100 a x := by
  exact ⟨ha.1, le_trans (by norm_num) (not_close_large h), ha.2⟩

theorem zeroOr_max {k : ℕ} {a b : Lim L} {x y : Fl r} (ha : ZeroOrSized k a x) (hb : ZeroOrSized k b y) :
    ZeroOrSized k (pyMax a b) (pyMax x y) := by
  unfold pyMax
  rw [same_lt ha.1 hb.1]
  split
  · exact hb
  · exact ha

theorem bounded_half {R' D' m' : Lim L} {R D m : Fl r} (hh : SameHardware R' D' m' R D m) {o' : Operation (Lim L)}
    {o : Operation (Fl r)} (ho : SameOp o' o) :
    Bounded 204 (halfPulseDuration R' D' m' o') (halfPulseDuration R D m o) := by
  have q : Sized 2 (lit (1 / 2) : Lim L) (lit (1 / 2)) := Sized.lit (by norm_num) (by norm_num) (by norm_num)
  unfold halfPulseDuration
  rw [same_isClose_zero (ho.2.1.mono (by norm_num)), same_isClose_zero (ho.2.2.2.mono (by norm_num))]
  cases h1 : Py.isClose o.rabi (lit 0)
  · have := (not_close_sized ho.2.1 h1).div hh.rabi (by norm_num)
    exact ((zeroOr_max this.zeroOr (hh.minimum.mono (by norm_num))).mul q (by norm_num)).bounded.mono (by norm_num)
  · cases h2 : Py.isClose o.detuning (lit 0)
    · have h3 := not_close_sized ho.2.2.2 h2
      have h4 : Sized 100 (PyFloat.abs o'.detuning) (PyFloat.abs o.detuning) :=
        ⟨same_abs h3.same, by rw [Fl.val_abs, abs_abs]; exact h3.lo, by rw [Fl.val_abs, abs_abs]; exact h3.hi⟩
      have := h4.div hh.detuning (by norm_num)
      exact ((zeroOr_max this.zeroOr (hh.minimum.mono (by norm_num))).mul q (by norm_num)).bounded.mono (by norm_num)
    · exact Bounded.zero

/-- the same start and end -/
def SameWindow (k : ℕ) (p' : Lim L × Lim L) (p : Fl r × Fl r) : Prop := Bounded k p'.1 p.1 ∧ Bounded k p'.2 p.2

theorem same_startEnd {R' D' m' : Lim L} {R D m : Fl r} (hh : SameHardware R' D' m' R D m) {o' : Operation (Lim L)}
    {o : Operation (Fl r)} (ho : SameOp o' o) :
    SameWindow 206 (pulseStartEnd R' D' m' o') (pulseStartEnd R D m o) := by
  have h := bounded_half hh ho
  have ht := ho.1.mono (k := 204) (by norm_num)
  exact ⟨ht.sub h (by norm_num), ht.add h (by norm_num)⟩

theorem SameWindow.mono {j k : ℕ} {p' : Lim L × Lim L} {p : Fl r × Fl r} (h : SameWindow j p' p) (hjk : j ≤ k) :
    SameWindow k p' p := ⟨h.1.mono hjk, h.2.mono hjk⟩

theorem same_shiftFirst {l' : List (Lim L × Lim L)} {l : List (Fl r × Fl r)} (h : List.Forall₂ (SameWindow 206) l' l) :
    List.Forall₂ (SameWindow 210) (shiftFirst l') (shiftFirst l) := by
  cases h with
  | nil => exact .nil
  | @cons p' p l' l h1 h2 =>
    obtain ⟨s', e'⟩ := p'
    obtain ⟨s, e⟩ := p
    have h2' := h2.imp fun _ _ h => SameWindow.mono h (show 206 ≤ 210 by norm_num)
    unfold shiftFirst
    dsimp only
    rw [same_lt h1.1.1 same_zero]
    split
    · have ht := Bounded.zero.sub h1.1 (by norm_num)
      exact .cons ⟨(h1.1.mono (by norm_num)).add ht (by norm_num), (h1.2.mono (by norm_num)).add ht (by norm_num)⟩ h2'
    · exact .cons (h1.mono (by norm_num)) h2'

theorem same_shiftLast {T' : Lim L} {T : Fl r} (hT : Bounded 100 T' T) {l' : List (Lim L × Lim L)}
    {l : List (Fl r × Fl r)} (h : List.Forall₂ (SameWindow 210) l' l) :
    List.Forall₂ (SameWindow 214) (shiftLast T' l') (shiftLast T l) := by
  induction h with
  | nil => exact .nil
  | @cons p' p l' l h1 h2 ih =>
    cases h2 with
    | nil =>
      obtain ⟨s', e'⟩ := p'
      obtain ⟨s, e⟩ := p
      unfold shiftLast
      dsimp only
      rw [same_gt h1.2.1 hT.1]
      split
      · have ht := h1.2.sub (hT.mono (by norm_num)) (by norm_num)
        exact .cons ⟨(h1.1.mono (by norm_num)).sub ht (by norm_num), (h1.2.mono (by norm_num)).sub ht (by norm_num)⟩ .nil
      · exact .cons (h1.mono (by norm_num)) .nil
    | cons h3 h4 =>
      rw [shiftLast, shiftLast]
      exact .cons (h1.mono (by norm_num)) ih

theorem same_gaps {l' : List (Lim L × Lim L)} {l : List (Fl r × Fl r)} (h : List.Forall₂ (SameWindow 214) l' l) :
    List.Forall₂ (Bounded 216) (gapDurations l') (gapDurations l) := by
  induction h with
  | nil => exact .nil
  | cons h1 h2 ih =>
    cases h2 with
    | nil => exact .nil
    | cons h3 h4 =>
      rw [gapDurations, gapDurations]
      exact .cons (h3.1.sub h1.2 (by norm_num)) ih

theorem same_diff {l' : List (Lim L)} {l : List (Fl r)} (h : List.Forall₂ (Bounded 100) l' l) :
    List.Forall₂ SameValue (npDiff l') (npDiff l) := by
  induction h with
  | nil => exact .nil
  | cons h1 h2 ih =>
    cases h2 with
    | nil => exact .nil
    | cons h3 h4 =>
      rw [npDiff, npDiff]
      exact .cons (h3.sub h1 (by norm_num)).1 ih

/-- the same segment -/
def SameSegment (g' : Segment (Lim L)) (g : Segment (Fl r)) : Prop :=
  SameValue g'.rabi g.rabi ∧ SameValue g'.azimuthal g.azimuthal ∧ SameValue g'.detuning g.detuning ∧
    SameValue g'.duration g.duration

theorem same_rate {a w' : Lim L} {x w : Fl r} (ha : SameValue a x) (hx : 1 / 2 ^ 30 ≤ |x.val|)
    (hw : Bounded 216 w' w) (h0 : 0 < w.val) (hb : |(x / w).val| ≤ 2 ^ 110) : SameValue (a / w') (x / w) := by
  have h1 := rnd_half_le (r := r) (x := x.val / w.val)
  have h2 : |x.val / w.val| ≤ 2 ^ 111 := by
    rw [Fl.val_div] at hb
    have : (2 : ℝ) ^ 111 = 2 ^ 110 * 2 := by norm_num
    linarith
  refine same_div ha hw.1 h0.ne' (.inr ?_) (h2.trans (by norm_num))
  have h3 := hw.2
  have h5 := abs_pos.mpr h0.ne'
  rw [abs_div, le_div_iff₀ h5]
  refine le_trans ?_ hx
  calc 1 / 2 ^ 250 * |w.val| ≤ 1 / 2 ^ 250 * 2 ^ 216 := by gcongr
    _ ≤ _ := by norm_num

theorem same_pulseSegment {o' : Operation (Lim L)} {o : Operation (Fl r)} {p' : Lim L × Lim L} {p : Fl r × Fl r}
    (ho : SameOp o' o) (hp : SameWindow 214 p' p)
    (hb : 0 < (p.2 - p.1).val → |(pulseSegment o p).rabi.val| ≤ 2 ^ 110 ∧ |(pulseSegment o p).detuning.val| ≤ 2 ^ 110) :
    SameSegment (pulseSegment o' p') (pulseSegment o p) := by
  have hw := hp.2.sub hp.1 (by norm_num)
  have e1 := same_gt hw.1 (same_zero (L := L))
  have e2 := same_isClose_zero (ho.2.1.mono (show 100 ≤ 220 by norm_num))
  have e3 := same_isClose_zero (ho.2.2.2.mono (show 100 ≤ 220 by norm_num))
  unfold pulseSegment at hb ⊢
  dsimp only at hb ⊢
  rw [e1, e2, e3]
  cases h1 : gt (p.2 - p.1) (lit 0)
  · exact ⟨same_zero, same_zero, same_zero, hw.1⟩
  · have h0 : 0 < (p.2 - p.1).val := by rwa [Fl.gt_iff, Fl.val_lit_zero] at h1
    have hb := hb h0
    rw [h1] at hb
    cases h2 : Py.isClose o.rabi (lit 0)
    · rw [h2] at hb
      exact ⟨same_rate ho.2.1.1 (not_close_large h2) hw h0 hb.1, ho.2.2.1, same_zero, hw.1⟩
    · cases h3 : Py.isClose o.detuning (lit 0)
      · rw [h2, h3] at hb
        exact ⟨same_zero, same_zero, same_rate ho.2.2.2.1 (not_close_large h3) hw h0 hb.2, hw.1⟩
      · exact ⟨same_zero, same_zero, same_zero, hw.1⟩

/-- the same operation and window -/
def SamePair (x' : Operation (Lim L) × (Lim L × Lim L)) (x : Operation (Fl r) × (Fl r × Fl r)) : Prop :=
  SameOp x'.1 x.1 ∧ SameWindow 214 x'.2 x.2

theorem same_zip {a' : List (Operation (Lim L))} {a : List (Operation (Fl r))} {b' : List (Lim L × Lim L)}
    {b : List (Fl r × Fl r)} (ha : List.Forall₂ SameOp a' a) (hb : List.Forall₂ (SameWindow 214) b' b) :
    List.Forall₂ SamePair (a'.zip b') (a.zip b) := by
  induction ha generalizing b b' with
  | nil => exact .nil
  | cons h1 _ ih =>
    cases hb with
    | nil => exact .nil
    | cons h2 hb => exact .cons ⟨h1, h2⟩ (ih hb)

theorem limited_pulseSegment_mem {l : List (Operation (Fl r) × (Fl r × Fl r))} {x : Operation (Fl r) × (Fl r × Fl r)}
    (h : x ∈ l) : pulseSegment x.1 x.2 ∈ buildSegments l := by
  induction l with
  | nil => simp at h
  | cons y l ih =>
    cases l with
    | nil =>
      rw [List.mem_singleton] at h
      subst h
      simp [buildSegments]
    | cons z l =>
      rw [buildSegments]
      rcases List.mem_cons.mp h with rfl | h
      · simp
      · exact List.mem_cons_of_mem _ (List.mem_cons_of_mem _ (ih h))

theorem same_buildSegments {l' : List (Operation (Lim L) × (Lim L × Lim L))} {l : List (Operation (Fl r) × (Fl r × Fl r))}
    (h : List.Forall₂ SamePair l' l)
    (hb : ∀ x ∈ l, 0 < (x.2.2 - x.2.1).val →
      |(pulseSegment x.1 x.2).rabi.val| ≤ 2 ^ 110 ∧ |(pulseSegment x.1 x.2).detuning.val| ≤ 2 ^ 110) :
    List.Forall₂ SameSegment (buildSegments l') (buildSegments l) := by
  induction h with
  | nil => exact .nil
  | @cons x' x l' l h1 h2 ih =>
    have hx := same_pulseSegment h1.1 h1.2 (hb x (by simp))
    have ih := ih fun y hy => hb y (List.mem_cons_of_mem _ hy)
    cases h2 with
    | nil => exact .cons hx (.cons ⟨same_zero, same_zero, same_zero, same_zero⟩ .nil)
    | cons h3 h4 =>
      rw [buildSegments, buildSegments]
      exact .cons hx (.cons ⟨same_zero, same_zero, same_zero, (h3.2.1.sub h1.2.2 (by norm_num)).1⟩ ih)

theorem mem_operationsOf {a b c d : List (Fl r)} {o : Operation (Fl r)} (h : o ∈ operationsOf a b c d) :
    o.rabi ∈ b := by
  induction a generalizing b c d with
  | nil => simp [operationsOf] at h
  | cons _ a ih =>
    cases b with
    | nil => simp [operationsOf] at h
    | cons _ b =>
      cases c with
      | nil => simp [operationsOf] at h
      | cons _ c =>
        cases d with
        | nil => simp [operationsOf] at h
        | cons _ d =>
          rw [operationsOf, List.mem_cons] at h
          rcases h with rfl | h
          · simp
          · exact List.mem_cons_of_mem _ (ih h)

theorem mem_pad_rabi {T : Fl r} {l : List (Operation (Fl r))} {o : Operation (Fl r)} (h : o ∈ padOperations T l) :
    o ∈ l ∨ o.rabi = lit 0 := by
  rw [padOperations_steps] at h
  have step : o ∈ padStart T l ∨ o.rabi = lit 0 := by
    unfold padEnd at h
    split at h
    · split at h
      · rcases List.mem_append.mp h with h | h
        · exact .inl h
        · rw [List.mem_singleton] at h
          subst h
          exact .inr rfl
      · exact .inl h
    · exact .inl h
  rcases step with h | h
  · unfold padStart at h
    cases l with
    | nil =>
      simp only [List.isEmpty, if_true] at h
      split at h
      · simp only [List.mem_cons, List.not_mem_nil, or_false] at h
        rcases h with rfl | rfl | rfl <;> exact .inr rfl
      · simp only [List.mem_cons, List.not_mem_nil, or_false] at h
        rcases h with rfl | rfl <;> exact .inr rfl
    | cons x l =>
      simp only [List.isEmpty, Bool.false_eq_true, if_false] at h
      split at h
      · rcases List.mem_cons.mp h with rfl | h
        · exact .inr rfl
        · exact .inl h
      · exact .inl h
  · exact .inr h

theorem same_any {A B : Type} {R : A → B → Prop} {p : A → Bool} {q : B → Bool} (hpq : ∀ a b, R a b → p a = q b)
    {l : List A} {l' : List B} (h : List.Forall₂ R l l') : l.any p = l'.any q ∧ l.all p = l'.all q := by
  induction h with
  | nil => exact ⟨rfl, rfl⟩
  | cons hab _ ih => exact ⟨by rw [List.any_cons, List.any_cons, hpq _ _ hab, ih.1],
      by rw [List.all_cons, List.all_cons, hpq _ _ hab, ih.2]⟩

theorem same_checkValid {a b : List (Lim L)} {a' b' : List (Fl r)} (ha : List.Forall₂ SameValue a a')
    (hb : List.Forall₂ SameValue b b') : checkValidOperation a b = checkValidOperation a' b' := by
  have : List.zipWith (fun r d => gt r (lit 0) && gt d (lit 0)) a b =
      List.zipWith (fun r d => gt r (lit 0) && gt d (lit 0)) a' b' := by
    induction ha generalizing b b' with
    | nil => rfl
    | cons h1 _ ih =>
      cases hb with
      | nil => rfl
      | cons h2 hb => rw [List.zipWith_cons_cons, List.zipWith_cons_cons, same_gt h1 same_zero, same_gt h2 same_zero, ih hb]
  unfold checkValidOperation
  rw [this]

theorem forall₂_bounded {k : ℕ} {a : List (Lim L)} {b : List (Fl r)} (h : List.Forall₂ SameValue a b)
    (hb : ∀ x ∈ b, |x.val| ≤ 2 ^ k) : List.Forall₂ (Bounded k) a b := by
  induction h with
  | nil => exact .nil
  | cons h1 _ ih =>
    exact .cons ⟨h1, hb _ (by simp)⟩ (ih fun x hx => hb x (List.mem_cons_of_mem _ hx))

theorem same_step {x : Except PyErr (DrivenControl (Lim L))} {y : Except PyErr (DrivenControl (Fl r))} {b b' : Bool}
    (hb : b = b') (text : String) (h : b' = true → SameOutcome x y) :
    SameOutcome (checkArguments b text >>= fun _ => x) (checkArguments b' text >>= fun _ => y) := by
  rw [checkArguments_bind, checkArguments_bind, hb]
  split
  · exact h ‹_›
  · exact .inr ⟨_, rfl, rfl⟩

/-- The conversion gives the same result with and without limits, as long as no rate is huge. -/
theorem same_convert {s' : Sequence (Lim L)} {s : Sequence (Fl r)} (hs : SameSequence s' s)
    (hT : |s.duration.val| ≤ 2 ^ 100) (ho : ∀ x ∈ s.offsets, |x.val| ≤ 2 ^ 100)
    (hr : ∀ x ∈ s.rabiRotations, |x.val| ≤ 2 ^ 100) (hd : ∀ x ∈ s.detuningRotations, |x.val| ≤ 2 ^ 100)
    {R' D' m' : Lim L} {R D m : Fl r} (hh : SameHardware R' D' m' R D m) (name : Option String)
    (hrates : ∀ c, convertDDS s R D m name = .ok c →
      (∀ x ∈ c.rabiRates, |x.val| ≤ 2 ^ 110) ∧ ∀ x ∈ c.detunings, |x.val| ≤ 2 ^ 110) :
    SameOutcome (convertDDS s' R' D' m' name) (convertDDS s R D m name) := by
  obtain ⟨h1, h2, h3, h4, h5, h6⟩ := hs
  have bT : Bounded 100 s'.duration s.duration := ⟨h1, hT⟩
  rw [convertDDS_eq] at hrates
  rw [convertDDS_eq, convertDDS_eq]
  have hops := same_pad bT (same_operationsOf (forall₂_bounded h2 ho) (forall₂_bounded h3 hr) h4 (forall₂_bounded h5 hd))
  have hmem : (∀ x ∈ s.rabiRotations, 0 ≤ x.val) → ∀ o ∈ padOperations s.duration
      (operationsOf s.offsets s.rabiRotations s.azimuthalAngles s.detuningRotations), 0 ≤ o.rabi.val := by
    intro h o ho
    rcases mem_pad_rabi ho with ho | ho
    · exact h _ (mem_operationsOf ho)
    · rw [ho, Fl.val_lit_zero]
  dsimp only at hrates ⊢
  revert hrates hops hmem
  generalize padOperations s'.duration
    (operationsOf s'.offsets s'.rabiRotations s'.azimuthalAngles s'.detuningRotations) = ops'
  generalize padOperations s.duration
    (operationsOf s.offsets s.rabiRotations s.azimuthalAngles s.detuningRotations) = ops
  intro hrates hops hmem
  have hwin := same_shiftLast bT (same_shiftFirst (List.rel_map (R := SameOp) (P := SameWindow 206)
    (fun _ _ h => same_startEnd hh h) hops))
  revert hrates hwin
  generalize shiftLast s'.duration (shiftFirst (ops'.map (pulseStartEnd R' D' m'))) = w'
  generalize shiftLast s.duration (shiftFirst (ops.map (pulseStartEnd R D m))) = w
  intro hrates hwin
  refine same_step (same_gt hh.detuning.same same_zero) _ fun c1 => ?_
  refine same_step (same_gt hh.rabi.same same_zero) _ fun c2 => ?_
  refine same_step (same_ge hh.minimum.1 same_zero) _ fun c3 => ?_
  refine same_step (same_all (fun _ _ h => same_ge h same_zero) h3) _ fun c4 => ?_
  refine same_step (same_checkValid h3 h5) _ fun c5 => ?_
  refine same_step ?_ _ fun c6 => ?_
  · have hd := same_diff (List.rel_map (R := SameOp) (P := Bounded 100) (fun _ _ h => h.1) hops)
    rw [(same_any (fun _ _ h => same_le h same_zero) hd).1]
  refine same_step ?_ _ fun c7 => ?_
  · refine (same_any (fun a b h => ?_) (same_gaps hwin)).2
    rw [same_gt h.1 hh.minimum.1, same_isClose_of (h.mono (by norm_num)) (hh.minimum.mono (by norm_num))]
  rw [c1, c2, c3, c4, c5, c6, c7] at hrates
  have e : (w'.all fun p => isClose p.1 (lit 0) && isClose p.2 (lit 0)) =
      w.all fun p => isClose p.1 (lit 0) && isClose p.2 (lit 0) := by
    refine (same_any (fun a b h => ?_) hwin).2
    rw [same_isClose_zero (h.1.mono (by norm_num)), same_isClose_zero (h.2.mono (by norm_num))]
  rw [e]
  cases c8 : w.all fun p => isClose p.1 (lit 0) && isClose p.2 (lit 0)
  swap
  · exact same_new (.cons h1 .nil) (.cons same_zero .nil) (.cons same_zero .nil) (.cons same_zero .nil) name
  rw [c8] at hrates
  have hnn : ∀ o ∈ ops, 0 ≤ o.rabi.val := by
    refine hmem ?_
    simpa [Fl.val_lit_zero] using c4
  have hsegs := same_buildSegments (same_zip hops hwin) (by
    have hnew := new_ofRounded (gs := (buildSegments (ops.zip w)).filter fun g => gt g.duration (lit 0)) (by
      intro g hg
      have := (List.mem_filter.mp hg).2
      rwa [Fl.gt_iff, Fl.val_lit_zero] at this) (by
      intro g hg
      rcases mem_buildSegments (List.mem_filter.mp hg).1 with ⟨x, hx, rfl⟩ | ⟨d, rfl⟩
      · exact pulseSegment_rabi_nonneg (hnn _ (List.of_mem_zip hx).1) _
      · exact Fl.val_lit_zero.ge) name
    have hc := hrates _ hnew
    intro x hx h0
    have hg : pulseSegment x.1 x.2 ∈ (buildSegments (ops.zip w)).filter fun g => gt g.duration (lit 0) := by
      refine List.mem_filter.mpr ⟨limited_pulseSegment_mem hx, ?_⟩
      rw [Fl.gt_iff, Fl.val_lit_zero]
      have : (pulseSegment x.1 x.2).duration = x.2.2 - x.2.1 := by
        unfold pulseSegment
        dsimp only
        split
        · split
          · rfl
          · split <;> rfl
        · rfl
      rw [this]
      exact h0
    exact ⟨hc.1 _ (List.mem_map_of_mem hg), hc.2 _ (List.mem_map_of_mem hg)⟩)
  have hf := List.rel_filter (R := SameSegment) (p := fun g : Segment (Lim L) => gt g.duration (lit 0))
    (q := fun g : Segment (Fl r) => gt g.duration (lit 0))
    (fun a b h => by dsimp only; rw [same_gt h.2.2.2 same_zero]) hsegs
  exact same_new (List.rel_map (R := SameSegment) (fun _ _ h => h.2.2.2) hf)
    (List.rel_map (R := SameSegment) (fun _ _ h => h.1) hf) (List.rel_map (R := SameSegment) (fun _ _ h => h.2.1) hf)
    (List.rel_map (R := SameSegment) (fun _ _ h => h.2.2.1) hf) name

end OpenControls
