import Verif.Spec.Reversal
import Verif.Proofs.Monotone
import Verif.Proofs.Coincidences

/-!
# Conversion of reversed and of turned sequences
-/

namespace OpenControls

open Spec RealInst

variable {T R D m : ℝ}

theorem constructed_of_facts {s : Sequence ℝ} (hT : 0 < s.duration)
    (hb : ∀ t ∈ s.offsets, 0 ≤ t ∧ t ≤ s.duration)
    (hr : s.rabiRotations.length = s.offsets.length)
    (ha : s.azimuthalAngles.length = s.offsets.length)
    (hd : s.detuningRotations.length = s.offsets.length) : s.Constructed := by
  refine ⟨s.duration, s.offsets, s.rabiRotations, s.azimuthalAngles, s.detuningRotations, s.name, ?_⟩
  rw [Sequence.new_eq, if_pos (by simpa using hT), if_pos, if_pos (by simpa using hr),
    if_pos (by simpa using ha), if_pos (by simpa using hd)]
  rw [List.all_eq_true]
  intro t ht
  simpa using hb t ht

theorem backwards_constructed {s : Sequence ℝ} (hs : s.Constructed) : (backwards s).Constructed := by
  obtain ⟨hT, hb, hr, ha, hd⟩ := hs.facts
  refine constructed_of_facts hT (fun t ht => ?_) ?_ ?_ ?_
  · simp only [backwards, List.mem_reverse, List.mem_map] at ht
    obtain ⟨x, hx, rfl⟩ := ht
    have := hb x hx
    exact ⟨by linarith, by simp only [backwards]; linarith⟩
  · simpa [backwards] using hr
  · simpa [backwards] using ha
  · simpa [backwards] using hd

theorem backwards_backwards (s : Sequence ℝ) : backwards (backwards s) = s := by
  cases s
  simp [backwards, List.map_reverse, Function.comp_def]

theorem reversed_reversed (c : DrivenControl ℝ) : reversed (reversed c) = c := by
  cases c
  simp [reversed]

/-- a pulse of the reversed sequence -/
def mirrorPulse (T : ℝ) (p : Pulse) : Pulse := { p with offset := T - p.offset }

theorem zipWith_reverse_eq {β γ δ : Type} (f : β → γ → δ) {l : List β} {l' : List γ}
    (h : l.length = l'.length) :
    List.zipWith f l.reverse l'.reverse = (List.zipWith f l l').reverse := by
  induction l generalizing l' with
  | nil => cases l' with
    | nil => rfl
    | cons => simp at h
  | cons a l ih =>
    cases l' with
    | nil => simp at h
    | cons b l' =>
      have h' : l.length = l'.length := by simpa using h
      rw [List.reverse_cons, List.reverse_cons, List.zipWith_append (by simpa using h'), ih h']
      simp

theorem zip_reverse_eq {β γ : Type} {l : List β} {l' : List γ} (h : l.length = l'.length) :
    l.reverse.zip l'.reverse = (l.zip l').reverse := zipWith_reverse_eq _ h

theorem pulseList_backwards {s : Sequence ℝ} (hs : s.Constructed) :
    pulseList (backwards s) = ((pulseList s).map (mirrorPulse s.duration)).reverse := by
  obtain ⟨hT, hb, hr, ha, hd⟩ := hs.facts
  unfold pulseList backwards
  dsimp only
  rw [zip_reverse_eq (by rw [ha, hd]), zip_reverse_eq (by simp [ha, hd, hr]),
    zipWith_reverse_eq _ (by simp [ha, hd, hr])]
  congr 1
  rw [List.map_zipWith, List.zipWith_map_left]
  rfl

theorem mirror_idle_zero (T : ℝ) : mirrorPulse T (idlePulse 0) = idlePulse T := by
  simp [mirrorPulse, idlePulse]

theorem mirror_idle_end (T : ℝ) : mirrorPulse T (idlePulse T) = idlePulse 0 := by
  simp [mirrorPulse, idlePulse]

theorem pad_backwards (T : ℝ) (ps : List Pulse) :
    pad T ((ps.map (mirrorPulse T)).reverse) = ((pad T ps).map (mirrorPulse T)).reverse := by
  unfold pad
  have h1 : (List.map Pulse.offset ((ps.map (mirrorPulse T)).reverse)).head? = some 0 ↔
      (ps.map Pulse.offset).getLast? = some T := by
    rw [← List.map_reverse, List.map_map, List.head?_map, List.head?_reverse, List.getLast?_map]
    cases ps.getLast? with
    | none => simp
    | some p => simp [mirrorPulse, sub_eq_zero, eq_comm]
  have h2 : (List.map Pulse.offset ((ps.map (mirrorPulse T)).reverse)).getLast? = some T ↔
      (ps.map Pulse.offset).head? = some 0 := by
    rw [← List.map_reverse, List.map_map, List.getLast?_map, List.getLast?_reverse, List.head?_map]
    cases ps.head? with
    | none => simp
    | some p => simp [mirrorPulse]
  simp only [h1, h2, List.map_append, List.reverse_append, List.append_assoc]
  congr 1
  · split <;> simp [mirror_idle_end]
  · congr 1
    split <;> simp [mirror_idle_zero]

theorem width_mirror (p : Pulse) : width R D m (mirrorPulse T p) = width R D m p := rfl

theorem pulseSeg_mirror (p : Pulse) : pulseSeg R D m (mirrorPulse T p) = pulseSeg R D m p := rfl

theorem window_mirror (hT : 0 < T) (p : Pulse) : window T R D m (mirrorPulse T p) =
    (T - (window T R D m p).2, T - (window T R D m p).1) := by
  have e : (mirrorPulse T p).offset = T - p.offset := rfl
  unfold window
  rw [width_mirror, e]
  by_cases h0 : p.offset = 0
  · rw [if_neg (by rw [h0, sub_zero]; exact hT.ne'), if_pos (by rw [h0, sub_zero]), if_pos h0]
    simp
  · by_cases h1 : p.offset = T
    · rw [if_pos (by rw [h1, sub_self]), if_neg h0, if_pos h1]
      simp
    · rw [if_neg (fun h => h1 (by linarith)), if_neg (fun h => h0 (by linarith)),
        if_neg h0, if_neg h1]
      simp only [Prod.mk.injEq]
      constructor <;> ring

theorem isChain_mirror {P : ℝ → Prop} (hT : 0 < T) {l : List Pulse}
    (h : EachGap P (l.map (window T R D m))) :
    EachGap P (((l.map (mirrorPulse T)).reverse).map (window T R D m)) := by
  rw [EachGap, List.isChain_map] at h ⊢
  rw [List.isChain_reverse, List.isChain_map]
  refine h.imp fun a b hab => ?_
  simp only [window_mirror hT]
  rwa [show T - (window T R D m a).2 - (T - (window T R D m b).1) =
    (window T R D m b).1 - (window T R D m a).2 by ring]

theorem Spec.Convertible.backwards {s : Sequence ℝ} (hs : s.Constructed) (hc : Convertible R D m s) :
    Convertible R D m (backwards s) := by
  obtain ⟨h1, h2, h3, h4, h5, h6, h7⟩ := hc
  have hT := hs.facts.1
  refine ⟨h1, h2, h3, ?_, ?_, ?_, ?_⟩
  · rw [pulseList_backwards hs]
    intro p hp
    rw [List.mem_reverse] at hp
    obtain ⟨q, hq, rfl⟩ := List.mem_map.mp hp
    exact h4 q hq
  · rw [pulseList_backwards hs]
    intro p hp
    rw [List.mem_reverse] at hp
    obtain ⟨q, hq, rfl⟩ := List.mem_map.mp hp
    exact h5 q hq
  · simp only [Spec.backwards, List.pairwise_reverse, List.pairwise_map]
    exact h6.imp fun h => by linarith
  · rw [windows_eq hs] at h7
    rw [windows_eq (backwards_constructed hs), pulseList_backwards hs]
    show EachGap _ ((pad s.duration _).map (window s.duration R D m))
    rw [pad_backwards]
    exact isChain_mirror hT h7

theorem keep_reverse (g : Segment ℝ) : (keep g).reverse = keep g := by
  rcases lt_or_ge 0 g.duration with h | h
  · rw [keep_pos h]; rfl
  · rw [keep_nonpos h]; rfl

theorem kept_append (T R D m : ℝ) (l : List Pulse) (p q : Pulse) :
    kept T R D m (l ++ [p, q]) = kept T R D m (l ++ [p]) ++
      (keep ⟨0, 0, 0, (window T R D m q).1 - (window T R D m p).2⟩ ++ keep (pulseSeg R D m q)) := by
  induction l with
  | nil => simp only [List.nil_append, kept_cons, kept_singleton]
  | cons a l ih =>
    cases l with
    | nil =>
      simp only [List.nil_append, List.cons_append, kept_cons, kept_singleton, List.append_assoc]
    | cons b l =>
      simp only [List.cons_append, kept_cons] at ih ⊢
      rw [ih]
      simp only [List.append_assoc]

theorem kept_mirror (hT : 0 < T) (l : List Pulse) :
    kept T R D m ((l.map (mirrorPulse T)).reverse) = (kept T R D m l).reverse := by
  induction l with
  | nil => rfl
  | cons a l ih =>
    cases l with
    | nil =>
      simp only [List.map_cons, List.map_nil, List.reverse_cons, List.reverse_nil, List.nil_append,
        kept_singleton, pulseSeg_mirror, keep_reverse]
    | cons b l =>
      have e : ((a :: b :: l).map (mirrorPulse T)).reverse =
          (l.map (mirrorPulse T)).reverse ++ [mirrorPulse T b, mirrorPulse T a] := by simp
      have e' : ((b :: l).map (mirrorPulse T)).reverse =
          (l.map (mirrorPulse T)).reverse ++ [mirrorPulse T b] := by simp
      rw [e, kept_append, ← e', ih, kept_cons, List.reverse_append, List.reverse_append, keep_reverse,
        keep_reverse, pulseSeg_mirror, window_mirror hT, window_mirror hT, List.append_assoc]
      congr 3
      simp only
      congr 1
      ring

theorem ofSegments_reverse (gs : List (Segment ℝ)) (name : Option String) :
    ofSegments gs.reverse name = reversed (ofSegments gs name) := by
  simp [ofSegments, reversed]

/-! ## Turned sequences -/

theorem turned_constructed {φ : ℝ} {s : Sequence ℝ} (hs : s.Constructed) :
    (turned φ s).Constructed := by
  obtain ⟨hT, hb, hr, ha, hd⟩ := hs.facts
  exact constructed_of_facts hT hb hr (by simpa [turned] using ha) hd

/-- a pulse of the turned sequence -/
noncomputable def turnPulse (φ : ℝ) (p : Pulse) : Pulse := { p with azimuthal := p.azimuthal + φ }

theorem pulseList_turned (φ : ℝ) (s : Sequence ℝ) :
    pulseList (turned φ s) = (pulseList s).map (turnPulse φ) := by
  unfold pulseList turned
  dsimp only
  generalize s.offsets = o
  generalize s.rabiRotations = r
  generalize s.azimuthalAngles = a
  generalize s.detuningRotations = d
  induction o generalizing r a d with
  | nil => rfl
  | cons t o ih =>
    cases r with
    | nil => rfl
    | cons x r =>
      cases a with
      | nil => rfl
      | cons y a =>
        cases d with
        | nil => rfl
        | cons z d =>
          simp only [List.map_cons, List.zip_cons_cons, List.zipWith_cons_cons, ih]
          rfl

theorem windows_turned {φ : ℝ} {s : Sequence ℝ} :
    windows R D m (turned φ s) = windows R D m s := by
  unfold windows
  rw [pulseList_turned, List.map_map]
  rfl

theorem Spec.Convertible.turned {φ : ℝ} {s : Sequence ℝ} (hc : Convertible R D m s) :
    Convertible R D m (turned φ s) := by
  obtain ⟨h1, h2, h3, h4, h5, h6, h7⟩ := hc
  refine ⟨h1, h2, h3, ?_, ?_, h6, by rwa [windows_turned]⟩
  · rw [pulseList_turned]
    intro p hp
    obtain ⟨q, hq, rfl⟩ := List.mem_map.mp hp
    exact h4 q hq
  · rw [pulseList_turned]
    intro p hp
    obtain ⟨q, hq, rfl⟩ := List.mem_map.mp hp
    exact h5 q hq

theorem turned_turned (φ ψ : ℝ) (s : Sequence ℝ) : turned ψ (turned φ s) = turned (φ + ψ) s := by
  simp [turned, Function.comp_def, add_assoc]

open Classical in
/-- a segment of the turned control -/
noncomputable def turnSegment (φ : ℝ) (g : Segment ℝ) : Segment ℝ :=
  if g.rabi = 0 then g else { g with azimuthal := g.azimuthal + φ }

theorem turnSegment_duration (φ : ℝ) (g : Segment ℝ) : (turnSegment φ g).duration = g.duration := by
  unfold turnSegment; split <;> rfl

theorem ofSegments_turned (φ : ℝ) (gs : List (Segment ℝ)) (name : Option String) :
    ofSegments (gs.map (turnSegment φ)) name = turnedControl φ (ofSegments gs name) := by
  unfold ofSegments turnedControl
  simp only [List.map_map, DrivenControl.mk.injEq, and_true]
  refine ⟨?_, ?_, ?_, ?_⟩
  · refine List.map_congr_left fun g _ => ?_
    simp only [Function.comp_apply]
    unfold turnSegment; split <;> rfl
  · rw [List.zipWith_map, List.zipWith_self]
    refine List.map_congr_left fun g _ => ?_
    simp only [Function.comp_apply]
    unfold turnSegment; split <;> rfl
  · refine List.map_congr_left fun g _ => ?_
    simp only [Function.comp_apply]
    unfold turnSegment; split <;> rfl
  · refine List.map_congr_left fun g _ => ?_
    exact turnSegment_duration φ g

theorem pulseSeg_turn {φ : ℝ} {p : Pulse} (hw : ¬ Negligible p.rabi → 0 < width R D m p) :
    pulseSeg R D m (turnPulse φ p) = turnSegment φ (pulseSeg R D m p) := by
  have hwid : width R D m (turnPulse φ p) = width R D m p := rfl
  unfold pulseSeg drive turnSegment
  rw [hwid]
  by_cases h1 : Negligible p.rabi
  · have h1' : Negligible (turnPulse φ p).rabi := h1
    simp only [h1, h1', not_true, if_false]
    by_cases h2 : Negligible p.detuning
    · have h2' : Negligible (turnPulse φ p).detuning := h2
      simp only [h2, h2', not_true, if_false]
      simp
    · have h2' : ¬ Negligible (turnPulse φ p).detuning := h2
      simp only [h2, h2', not_false_iff, if_true]
      simp [turnPulse]
  · have h1' : ¬ Negligible (turnPulse φ p).rabi := h1
    have hr : p.rabi ≠ 0 := fun h => h1 (by simp [Negligible, h])
    simp only [h1, h1', not_false_iff, if_true]
    rw [if_neg (div_ne_zero hr (hw h1).ne')]
    rfl

/-- relates two lists of pulses that differ only in their azimuthal angles -/
def TurnOf (φ : ℝ) (p q : Pulse) : Prop := q = turnPulse φ p ∨ (q = p ∧ ∃ t, p = idlePulse t)

theorem TurnOf.window {φ : ℝ} {p q : Pulse} (h : TurnOf φ p q) : window T R D m q = window T R D m p := by
  rcases h with rfl | ⟨rfl, -⟩ <;> rfl

theorem TurnOf.segment (hR : 0 < R) (hD : 0 < D) {φ : ℝ} {p q : Pulse} (hp : 0 ≤ p.rabi)
    (h : TurnOf φ p q) : pulseSeg R D m q = turnSegment φ (pulseSeg R D m p) := by
  rcases h with rfl | ⟨rfl, t, rfl⟩
  · exact pulseSeg_turn fun h => width_pos hR hD hp fun h' => h h'.1
  · unfold turnSegment
    rw [if_pos]
    simp [pulseSeg, drive_idle]

/-- pulses changed one by one without moving their windows -/
theorem kept_forall {rel : Pulse → Pulse → Prop} {f : Segment ℝ → Segment ℝ}
    (hf : ∀ g, (f g).duration = g.duration) (hidle : ∀ d, f ⟨0, 0, 0, d⟩ = ⟨0, 0, 0, d⟩)
    {l l' : List Pulse} (hw : ∀ p ∈ l, ∀ q, rel p q → window T R D m q = window T R D m p)
    (hseg : ∀ p ∈ l, ∀ q, rel p q → pulseSeg R D m q = f (pulseSeg R D m p))
    (h : List.Forall₂ rel l l') : kept T R D m l' = (kept T R D m l).map f := by
  have hkeep : ∀ g, keep (f g) = (keep g).map f := fun g => by
    rcases lt_or_ge 0 g.duration with h | h
    · rw [keep_pos h, keep_pos (by rwa [hf])]; rfl
    · rw [keep_nonpos h, keep_nonpos (by rwa [hf])]; rfl
  induction h with
  | nil => rfl
  | @cons a a' l l' ha h ih =>
    have ih' := ih (fun p hp => hw p (by simp [hp])) fun p hp => hseg p (by simp [hp])
    cases h with
    | nil => rw [kept_singleton, kept_singleton, hseg a (by simp) _ ha, hkeep]
    | @cons b b' l l' hb h =>
      rw [kept_cons, kept_cons, ih', hseg a (by simp) _ ha, hkeep, List.map_append, List.map_append,
        hw a (by simp) _ ha, hw b (by simp) _ hb, ← hkeep ⟨0, 0, 0, _⟩, hidle]

theorem kept_turn (hR : 0 < R) (hD : 0 < D) {φ : ℝ} {l l' : List Pulse}
    (hl : ∀ p ∈ l, 0 ≤ p.rabi) (h : List.Forall₂ (TurnOf φ) l l') :
    kept T R D m l' = (kept T R D m l).map (turnSegment φ) :=
  kept_forall (turnSegment_duration φ) (fun d => by simp [turnSegment]) (fun _ _ _ h => h.window)
    (fun p hp _ h => h.segment hR hD (hl p hp)) h

theorem pad_turn (φ T : ℝ) (ps : List Pulse) :
    List.Forall₂ (TurnOf φ) (pad T ps) (pad T (ps.map (turnPulse φ))) := by
  unfold pad
  have e : (ps.map (turnPulse φ)).map Pulse.offset = ps.map Pulse.offset := by
    rw [List.map_map]; rfl
  simp only [e]
  have hi : ∀ (c : Prop) [Decidable c] (t : ℝ), List.Forall₂ (TurnOf φ)
      (if c then [] else [idlePulse t]) (if c then [] else [idlePulse t]) := by
    intro c _ t
    split
    · exact .nil
    · exact .cons (.inr ⟨rfl, t, rfl⟩) .nil
  refine List.rel_append (List.rel_append (hi _ _) ?_) (hi _ _)
  rw [List.forall₂_map_right_iff, List.forall₂_same]
  exact fun p _ => .inl rfl

/-! ## Symmetric sequences -/

/-- the times of the table reversed -/
def mirrorTable (T : ℝ) (t : List (ℝ × Axis)) : List (ℝ × Axis) :=
  (t.map fun p => (T - p.1, p.2)).reverse

theorem backwards_piSequence {T : ℝ} {t : List (ℝ × Axis)} (h : mirrorTable T t = t)
    (name : Option String) : backwards (piSequence T t name) = piSequence T t name := by
  have key : ∀ {β : Type} (f : ℝ × Axis → β), (∀ x y a, f (x, a) = f (y, a)) →
      (t.map f).reverse = t.map f := by
    intro β f hf
    conv_rhs => rw [← h]
    rw [mirrorTable, List.map_reverse, List.map_map]
    congr 1
    exact List.map_congr_left fun p _ => hf _ _ _
  unfold backwards piSequence
  simp only [Sequence.mk.injEq, true_and, and_true]
  refine ⟨?_, key _ fun _ _ _ => rfl, key _ fun _ _ _ => rfl, key _ fun _ _ _ => rfl⟩
  conv_rhs => rw [← h]
  rw [mirrorTable, List.map_reverse, List.map_map, List.map_map]
  rfl

theorem mirrorTable_onAxis {T : ℝ} {ts : List ℝ} (h : Spec.Symmetric T ts) (a : Axis) :
    mirrorTable T (onAxis a ts) = onAxis a ts := by
  unfold Spec.Symmetric at h
  unfold mirrorTable onAxis
  rw [List.map_map]
  have : ((fun p : ℝ × Axis => (T - p.1, p.2)) ∘ fun t => (t, a)) = (fun t => (t, a)) ∘ (T - ·) := rfl
  rw [this, ← List.map_map, ← h, List.map_reverse, List.reverse_reverse]

theorem cellSign_mirror (k : ℕ) : ∃ c : ℝ, c ≠ 0 ∧ ∀ i, i < 2 ^ (Nat.log2 k + 1) →
    cellSign k (2 ^ (Nat.log2 k + 1) - 1 - i) = c * cellSign k i := by
  refine ⟨∏ j ∈ Finset.range (Nat.log2 k + 1), if k.testBit j then -1 else 1, ?_, fun i hi => ?_⟩
  · rw [Finset.prod_ne_zero_iff]
    intro j _
    split <;> norm_num
  · unfold cellSign
    rw [← Finset.prod_mul_distrib]
    refine Finset.prod_congr rfl fun j hj => ?_
    rw [Finset.mem_range] at hj
    split
    · set r := Nat.log2 k - j with hr
      have hpow : 2 ^ (Nat.log2 k + 1) = 2 ^ r * 2 ^ (j + 1) := by
        rw [← pow_add]; congr 1; omega
      have hpos : 0 < 2 ^ r := by positivity
      have hq : (2 ^ (Nat.log2 k + 1) - 1 - i) / 2 ^ r = 2 ^ (j + 1) - 1 - i / 2 ^ r := by
        rw [hpow] at hi ⊢
        have h2 : i / 2 ^ r < 2 ^ (j + 1) := Nat.div_lt_of_lt_mul hi
        have h3 := Nat.div_add_mod i (2 ^ r)
        have h4 := Nat.mod_lt i hpos
        rw [Nat.div_eq_iff hpos]
        set q := i / 2 ^ r
        set P := 2 ^ r
        obtain ⟨d, hd⟩ : ∃ d, 2 ^ (j + 1) = q + 1 + d := ⟨2 ^ (j + 1) - (q + 1), by omega⟩
        rw [hd]
        have e1 : q + 1 + d - 1 - q = d := by omega
        rw [e1]
        have e2 : P * (q + 1 + d) = P * q + P + P * d := by ring
        rw [e2, Nat.mul_comm d P]
        omega
      rw [hq]
      have h2 : i / 2 ^ r < 2 ^ (j + 1) := by
        rw [hpow] at hi
        exact Nat.div_lt_of_lt_mul hi
      have hodd : Odd (2 ^ (j + 1) - 1) :=
        Nat.Even.sub_odd Nat.one_le_two_pow (by simp [Nat.even_pow]) odd_one
      have h3 : (-1 : ℝ) ^ (2 ^ (j + 1) - 1 - i / 2 ^ r) * (-1) ^ (i / 2 ^ r) = -1 := by
        rw [← pow_add, Nat.sub_add_cancel (by omega), hodd.neg_one_pow]
      rcases neg_one_pow_eq_or ℝ (i / 2 ^ r) with h | h
      · rw [h] at h3 ⊢; linarith
      · rw [h] at h3 ⊢; linarith
    · simp

theorem walsh_symmetric {T : ℝ} (hT : 0 < T) (k : ℕ) : Spec.Symmetric T (walshTimes T k) := by
  have ho := walsh_ordered hT k
  obtain ⟨c, hc, hcell⟩ := cellSign_mirror k
  unfold Spec.Symmetric
  rw [← List.reverse_inj, List.reverse_reverse]
  have hmir : ∀ t, t ∈ walshTimes T k → T - t ∈ walshTimes T k := by
    intro t ht
    unfold walshTimes at ht ⊢
    simp only [List.mem_map, List.mem_filter, List.mem_range'_1, decide_eq_true_eq] at ht ⊢
    obtain ⟨i, ⟨⟨-, hi⟩, hne⟩, rfl⟩ := ht
    set N := 2 ^ (Nat.log2 k + 1) with hN
    refine ⟨N - 2 - i, ⟨⟨by omega, by omega⟩, ?_⟩, ?_⟩
    · have e1 : N - 2 - i = N - 1 - (i + 1) := by omega
      have e2 : N - 1 - (i + 1) + 1 = N - 1 - i := by omega
      rw [e1, e2, hcell (i + 1) (by omega), hcell i (by omega)]
      intro h
      exact hne (mul_left_cancel₀ hc h).symm
    · have hcast : ((N - 2 - i : ℕ) : ℝ) = (N : ℝ) - 2 - i := by
        rw [Nat.cast_sub (by omega), Nat.cast_sub (by omega)]; norm_num
      have hNr : (2 : ℝ) ^ (Nat.log2 k + 1) = (N : ℝ) := by rw [hN]; push_cast; rfl
      have hN0 : (N : ℝ) ≠ 0 := by
        have : 0 < N := by rw [hN]; positivity
        exact_mod_cast this.ne'
      rw [hcast, hNr]
      field_simp
      ring
  refine ordered_ext ho ⟨?_, fun t ht => ?_⟩ fun t => ?_
  · rw [List.pairwise_reverse, List.pairwise_map]
    exact ho.1.imp fun h => by linarith
  · rw [List.mem_reverse] at ht
    obtain ⟨x, hx, rfl⟩ := List.mem_map.mp ht
    have := ho.2 x hx
    exact ⟨by linarith, by linarith⟩
  · rw [List.mem_reverse, List.mem_map]
    constructor
    · intro ht
      exact ⟨T - t, hmir t ht, by ring⟩
    · rintro ⟨x, hx, rfl⟩
      exact hmir x hx

theorem xOffsets_symmetric {T : ℝ} (hT : 0 < T) {l : ℕ} (hl : 1 ≤ l) :
    Spec.Symmetric T (xConcatenatedOffsets T l) := by
  obtain ⟨n, rfl⟩ : ∃ n, l = n + 1 := ⟨l - 1, by omega⟩
  rw [← walsh_ones hT]
  exact walsh_symmetric hT _

/-! ### quadratic sequences -/

/-- the inner pulses between `a` and `b` -/
noncomputable def innerTable (n : ℕ) (a b : ℝ) : List (ℝ × Axis) :=
  onAxis .z ((uhrigTimes (b - a) n).map (a + ·))

theorem quadraticTable_append (n : ℕ) (T a b : ℝ) (l : List ℝ) :
    quadraticTable n T a (l ++ [b]) = quadraticTable n b a l ++ (b, .x) :: innerTable n b T := by
  induction l generalizing a with
  | nil => rfl
  | cons c l ih =>
    rw [List.cons_append, quadraticTable, ih, quadraticTable]
    simp

theorem innerTable_mirror (n : ℕ) (S a b : ℝ) :
    mirrorTable S (innerTable n a b) = innerTable n (S - b) (S - a) := by
  have h := uhrig_symmetric (b - a) n
  unfold Spec.Symmetric at h
  unfold mirrorTable innerTable onAxis
  rw [show S - a - (S - b) = b - a by ring, List.map_map, List.map_map, List.map_map]
  have e : uhrigTimes (b - a) n = ((uhrigTimes (b - a) n).map (b - a - ·)).reverse := by
    rw [← h, List.reverse_reverse]
  conv_rhs => rw [e, List.map_reverse, List.map_map]
  congr 1
  refine List.map_congr_left fun t _ => ?_
  simp only [Function.comp_apply, Prod.mk.injEq, and_true]
  ring

theorem mirrorTable_append (S : ℝ) (a b : List (ℝ × Axis)) :
    mirrorTable S (a ++ b) = mirrorTable S b ++ mirrorTable S a := by
  simp [mirrorTable]

theorem quadraticTable_mirror (n : ℕ) (S T a : ℝ) (l : List ℝ) :
    mirrorTable S (quadraticTable n T a l) =
      quadraticTable n (S - a) (S - T) ((l.map (S - ·)).reverse) := by
  induction l generalizing a with
  | nil => exact innerTable_mirror n S a T
  | cons b l ih =>
    rw [quadraticTable, List.map_cons, List.reverse_cons, quadraticTable_append, ← ih,
      mirrorTable_append, ← innerTable_mirror]
    simp [mirrorTable, innerTable]

theorem quadratic_mirror (n k : ℕ) (T : ℝ) :
    mirrorTable T (quadraticTable n T 0 (uhrigTimes T k)) =
      quadraticTable n T 0 (uhrigTimes T k) := by
  have h := uhrig_symmetric T k
  unfold Spec.Symmetric at h
  rw [quadraticTable_mirror, ← h, List.reverse_reverse, sub_zero, sub_self]

theorem Spec.Family.table_mirror {family : Family} (hv : family.Valid) (hxy : ¬ family.IsXY) {T : ℝ}
    (hT : 0 < T) : mirrorTable T (family.table T) = family.table T := by
  cases family with
  | ramsey => rfl
  | spinEcho => simp [Family.table, mirrorTable]; ring
  | carrPurcell n => exact mirrorTable_onAxis (cpmg_symmetric T _) _
  | cpmg n => exact mirrorTable_onAxis (cpmg_symmetric T _) _
  | uhrig n => exact mirrorTable_onAxis (uhrig_symmetric T _) _
  | periodic n => exact mirrorTable_onAxis (periodic_symmetric T _) _
  | walsh n => exact mirrorTable_onAxis (walsh_symmetric hT _) _
  | quadratic n m => exact quadratic_mirror _ _ _
  | xConcatenated l => exact mirrorTable_onAxis (xOffsets_symmetric hT (Nat.floor_pos.mpr hv)) _
  | xyConcatenated l => exact absurd trivial hxy

end OpenControls
