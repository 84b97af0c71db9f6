import Verif.Spec.InfiniteRates
import Verif.Props.Extended
import Verif.Props.Conversion
import Verif.Props.Monotone
import Verif.Proofs.Reversal

/-!
# C67: infinite hardware rates and an infinite minimum segment duration
-/

namespace OpenControls

open Spec XR PyFloat Py

/-- an operation without its rotations -/
def clearOp (o : Operation ℝ) : Operation ℝ := { o with rabi := 0, detuning := 0 }

theorem operationsOf_clear (t r a d : List ℝ) :
    operationsOf t (r.map fun _ => 0) a (d.map fun _ => 0) = (operationsOf t r a d).map clearOp := by
  induction t generalizing r a d with
  | nil => simp [operationsOf]
  | cons t ts ih =>
    cases r with
    | nil => simp [operationsOf]
    | cons r rs =>
      cases a with
      | nil => simp [operationsOf]
      | cons a as =>
        cases d with
        | nil => simp [operationsOf]
        | cons d ds =>
          simp only [List.map_cons, operationsOf, ih]
          rfl

theorem padOperations_clear (T : ℝ) (ops : List (Operation ℝ)) :
    padOperations T (ops.map clearOp) = (padOperations T ops).map clearOp := by
  have hz : ∀ t : ℝ, idleAt t = clearOp (idleAt t) := by intro t; simp [idleAt, clearOp]
  have last : ∀ l : List (Operation ℝ),
      (match (l.map clearOp).getLast? with
        | some o => if Py.ne o.offset T then l.map clearOp ++ [idleAt T] else l.map clearOp
        | none => l.map clearOp) =
      (match l.getLast? with
        | some o => if Py.ne o.offset T then l ++ [idleAt T] else l
        | none => l).map clearOp := by
    intro l
    rw [List.getLast?_map]
    cases l.getLast? with
    | none => rfl
    | some o =>
      simp only [Option.map_some]
      have : (clearOp o).offset = o.offset := rfl
      rw [this]
      split
      · rw [List.map_append, List.map_cons, List.map_nil, ← hz]
      · rfl
  cases ops with
  | nil =>
    unfold padOperations
    have h0 : Py.ne (idleAt (lit 0 : ℝ)).offset (lit 0) = false := by simp [idleAt]
    simp only [List.map_nil, List.isEmpty_nil, if_true, h0, Bool.false_eq_true, if_false]
    have := last [idleAt (lit 0), idleAt T]
    simp only [List.map_cons, List.map_nil, ← hz] at this
    exact this
  | cons o ops =>
    unfold padOperations
    simp only [List.map_cons, List.isEmpty_cons, Bool.false_eq_true, if_false]
    have : (clearOp o).offset = o.offset := rfl
    rw [this]
    by_cases h0 : Py.ne o.offset (lit 0) = true
    · simp only [h0, if_true]
      have := last (idleAt (lit 0) :: o :: ops)
      simp only [List.map_cons, ← hz] at this
      exact this
    · simp only [h0, Bool.false_eq_true, if_false]
      have := last (o :: ops)
      simp only [List.map_cons] at this
      exact this

theorem instant_pulseSegment_eq (o : Operation XR) {p : XR × XR} (h : Instant p) :
    pulseSegment o p = ⟨fin 0, fin 0, fin 0, fin 0⟩ := by
  obtain ⟨x, rfl⟩ := h
  unfold pulseSegment
  simp

theorem instant_buildSegments_eq (l l' : List (Operation XR)) (w : List (XR × XR))
    (hl : l.length = l'.length) (h : ∀ p ∈ w, Instant p) :
    buildSegments (l.zip w) = buildSegments (l'.zip w) := by
  induction w generalizing l l' with
  | nil => simp
  | cons p w ih =>
    have hp := h p (by simp)
    have hw := fun q hq => h q (List.mem_cons_of_mem _ hq)
    match l, l', hl with
    | [], [], _ => rfl
    | a :: l, b :: l', hl =>
      have hl' : l.length = l'.length := by simpa using hl
      have := ih l l' hl' hw
      match l, l', w, hl' with
      | [], [], _, _ => simp [buildSegments, instant_pulseSegment_eq _ hp]
      | _ :: _, _ :: _, [], _ => simp [buildSegments, instant_pulseSegment_eq _ hp]
      | c :: l, c' :: l', q :: w, _ =>
        simp only [List.zip_cons_cons] at this ⊢
        rw [buildSegments, buildSegments, this, instant_pulseSegment_eq a hp,
          instant_pulseSegment_eq b hp]

/-- **C67** With infinite maximum rates and no minimum segment duration the conversion does what it does for the
same sequence without its pulses (at any finite rates), if the rotations are such that it gets past the first
checks; otherwise it raises `ArgumentsValueError`. So a sequence is accepted exactly if its instants are
strictly increasing, however close they are, and all pulses are lost. -/
theorem C67_pulses_lost (s : Sequence ℝ) (R D : ℝ) (hR : 0 < R) (hD : 0 < D)
    (name : Option String) :
    ((∀ r ∈ s.rabiRotations, 0 ≤ r) →
      (∀ p ∈ s.rabiRotations.zip s.detuningRotations, ¬ (0 < p.1 ∧ 0 < p.2)) →
      convertDDS (s.map fin) inf inf (fin 0) name =
        (convertDDS (withoutPulses s) R D 0 name).map (DrivenControl.map fin)) ∧
    (¬ ((∀ r ∈ s.rabiRotations, 0 ≤ r) ∧
      ∀ p ∈ s.rabiRotations.zip s.detuningRotations, ¬ (0 < p.1 ∧ 0 < p.2)) →
      ∃ m, convertDDS (s.map fin) inf inf (fin 0) name = .error (.arguments m)) := by
  have hrabi : ((s.rabiRotations.map fin).all fun r => Py.ge r (lit 0)) = true ↔
      ∀ r ∈ s.rabiRotations, 0 ≤ r := by
    rw [List.all_map, List.all_eq_true]
    exact forall₂_congr fun r _ => by simp
  have hvalid : checkValidOperation (s.rabiRotations.map fin) (s.detuningRotations.map fin) = true ↔
      ∀ p ∈ s.rabiRotations.zip s.detuningRotations, ¬ (0 < p.1 ∧ 0 < p.2) := by
    generalize s.rabiRotations = r
    generalize s.detuningRotations = d
    unfold checkValidOperation
    induction r generalizing d with
    | nil => simp
    | cons a r ih =>
      cases d with
      | nil => simp
      | cons b d =>
        have := ih d
        simp only [List.map_cons, List.zipWith_cons_cons, List.any_cons, Bool.not_or,
          Bool.and_eq_true, this, List.zip_cons_cons, List.forall_mem_cons]
        refine and_congr ?_ Iff.rfl
        simp only [gt_eq, XR.lit_eq, id, Bool.not_eq_true', Bool.and_eq_false_iff,
          decide_eq_false_iff_not, lt_fin, Rat.cast_zero, not_and_or]
  have g1 : Py.gt XR.inf (lit 0) = true := by simp
  have g2 : Py.ge (fin 0) (lit 0) = true := by simp
  constructor
  · intro h1 h2
    rw [← (C65_conversion (withoutPulses s) R D 0 name).1, convertDDS_eq, convertDDS_eq]
    have e1 : Py.gt (fin R) (lit 0) = true := by simpa using hR
    have e2 : Py.gt (fin D) (lit 0) = true := by simpa using hD
    have e3 : (((withoutPulses s).map fin).rabiRotations.all fun r => Py.ge r (lit 0)) = true := by
      simp [withoutPulses, Sequence.map]
    have e4 : checkValidOperation ((withoutPulses s).map fin).rabiRotations
        ((withoutPulses s).map fin).detuningRotations = true := by
      simp only [withoutPulses, Sequence.map, List.map_map]
      generalize s.rabiRotations = r
      generalize s.detuningRotations = d
      unfold checkValidOperation
      induction r generalizing d with
      | nil => simp
      | cons a r ih =>
        cases d with
        | nil => simp
        | cons b d =>
          simp only [List.map_cons, List.zipWith_cons_cons, List.any_cons, Bool.not_or, ih,
            Bool.and_true]
          simp
    have e5 : ((s.map fin).rabiRotations.all fun r => Py.ge r (lit 0)) = true := hrabi.2 h1
    have e6 : checkValidOperation (s.map fin).rabiRotations (s.map fin).detuningRotations = true :=
      hvalid.2 h2
    simp only [checkArguments_bind, g1, g2, e1, e2, e3, e4, e5, e6, if_true]
    have o1 : padOperations (s.map fin).duration (operationsOf (s.map fin).offsets
        (s.map fin).rabiRotations (s.map fin).azimuthalAngles (s.map fin).detuningRotations) =
        (padOperations s.duration (operationsOf s.offsets s.rabiRotations s.azimuthalAngles
          s.detuningRotations)).map finOp := by
      simp only [Sequence.map, operationsOf_fin, padOperations_fin]
    have o2 : padOperations ((withoutPulses s).map fin).duration
        (operationsOf ((withoutPulses s).map fin).offsets
        ((withoutPulses s).map fin).rabiRotations ((withoutPulses s).map fin).azimuthalAngles
          ((withoutPulses s).map fin).detuningRotations) =
        ((padOperations s.duration (operationsOf s.offsets s.rabiRotations s.azimuthalAngles
          s.detuningRotations)).map clearOp).map finOp := by
      simp only [Sequence.map, operationsOf_fin, padOperations_fin, withoutPulses,
        operationsOf_clear, padOperations_clear]
    rw [o1, o2]
    generalize padOperations s.duration (operationsOf s.offsets s.rabiRotations s.azimuthalAngles
      s.detuningRotations) = ops
    have m1 : (ops.map finOp).map (pulseStartEnd inf inf (fin 0)) =
        ops.map fun o => (fin o.offset, fin o.offset) := by
      rw [List.map_map]
      exact List.map_congr_left fun o _ => instant_startEnd o
    have m2 : ((ops.map clearOp).map finOp).map (pulseStartEnd (fin R) (fin D) (fin 0)) =
        ops.map fun o => (fin o.offset, fin o.offset) := by
      rw [List.map_map, List.map_map]
      refine List.map_congr_left fun o _ => ?_
      have : Py.isClose (fin 0) (lit 0) = true := by
        rw [XR.lit_eq, Rat.cast_zero, isClose_fin, RealInst.isClose_iff]; norm_num
      simp only [Function.comp, pulseStartEnd, halfPulseDuration, finOp, clearOp, this]
      simp
    have m3 : (ops.map finOp).map Operation.offset =
        ((ops.map clearOp).map finOp).map Operation.offset := by
      simp only [List.map_map]
      rfl
    have hinst : ∀ p ∈ shiftLast (s.map fin).duration (shiftFirst
        (ops.map fun o => (fin o.offset, fin o.offset))), Instant p := by
      refine instant_shiftLast _ (instant_shiftFirst ?_)
      intro p hp
      obtain ⟨o, -, rfl⟩ := List.mem_map.1 hp
      exact ⟨_, rfl⟩
    have hb := instant_buildSegments_eq (ops.map finOp) ((ops.map clearOp).map finOp) _
      (by simp) hinst
    have hdur : ((withoutPulses s).map fin).duration = (s.map fin).duration := rfl
    rw [m1, m2, ← m3, hdur, hb]
  · intro h
    refine check_reject fun _ => check_reject fun _ => check_reject fun _ => check_reject fun hr => ?_
    refine check_reject fun hv => ?_
    exact absurd ⟨hrabi.1 hr, hvalid.1 hv⟩ h

theorem xr_sub (x y : XR) : x - y = add x (neg y) := rfl

theorem xr_add (x y : XR) : x + y = add x y := rfl

/-- a number or infinite downwards, or NaN -/
def LowEnd (x : XR) : Prop := x ≠ inf

/-- a number or infinite upwards, or NaN -/
def HighEnd (x : XR) : Prop := x ≠ negInf

theorem gap_not_infinite {x y : XR} (hx : LowEnd x) (hy : HighEnd y) :
    (Py.gt (x - y) inf || isClose (x - y) inf) = false := by
  have h : x - y ≠ inf := by
    cases x <;> cases y <;> simp_all [LowEnd, HighEnd, xr_sub, add, neg]
  generalize x - y = z at h
  have h1 : ¬ Lt inf z := by cases z <;> exact id
  have h2 : ¬ Eq' z inf := by
    cases z with
    | inf => exact absurd rfl h
    | _ => exact id
  have h3 : isClose z inf = PyFloat.eq z inf := by
    cases z <;> rfl
  rw [h3]
  simp [h1, h2]

theorem windows_infinite {R D : XR} (hR : Py.gt R (lit 0) = true) (hD : Py.gt D (lit 0) = true)
    (o : Operation ℝ) : LowEnd (pulseStartEnd R D inf (finOp o)).1 ∧
      HighEnd (pulseStartEnd R D inf (finOp o)).2 := by
  have hq : ∀ (x : ℝ) (Q : XR), Py.gt Q (lit 0) = true →
      lit (1 / 2) * pyMax (fin x / Q) inf = inf := by
    intro x Q hQ
    have : ∃ y, fin x / Q = fin y := by
      cases Q with
      | fin q =>
        have : q ≠ 0 := by
          rintro rfl
          simp at hQ
        refine ⟨x / q, ?_⟩
        change XR.div (fin x) (fin q) = fin (x / q)
        simp only [XR.div, if_neg this]
      | inf => exact ⟨0, rfl⟩
      | negInf =>
        simp at hQ
      | nan =>
        simp at hQ
    obtain ⟨y, hy⟩ := this
    rw [hy]
    have : pyMax (fin y) inf = inf := by unfold pyMax; simp
    rw [this]
    change mul (fin _) inf = inf
    simp only [mul, infOf]
    rw [if_pos (by norm_num)]
  have hh : halfPulseDuration R D inf (finOp o) = inf ∨
      halfPulseDuration R D inf (finOp o) = fin 0 := by
    unfold halfPulseDuration
    split
    · exact Or.inl (hq _ _ hR)
    · split
      · left
        simp only [finOp, abs_fin]
        exact hq _ _ hD
      · right; simp
  unfold pulseStartEnd
  rcases hh with h | h <;> rw [h] <;> simp [LowEnd, HighEnd, finOp, xr_sub, xr_add, add, neg]

theorem shiftFirst_ends {w : List (XR × XR)} (h : ∀ p ∈ w, LowEnd p.1 ∧ HighEnd p.2) :
    (∀ p ∈ shiftFirst w, LowEnd p.1 ∧ HighEnd p.2) ∧ (shiftFirst w).length = w.length := by
  cases w with
  | nil => exact ⟨h, rfl⟩
  | cons q w =>
    obtain ⟨a, b⟩ := q
    have hq := h (a, b) (by simp)
    simp only [shiftFirst]
    split
    · rename_i hlt
      refine ⟨?_, by simp⟩
      intro p hp
      rcases List.mem_cons.1 hp with rfl | hp
      · cases a <;> cases b <;> simp_all [LowEnd, HighEnd, xr_sub, xr_add, add, neg]
      · exact h p (by simp [hp])
    · exact ⟨h, rfl⟩

theorem shiftLast_ends (T : ℝ) {w : List (XR × XR)} (h : ∀ p ∈ w, LowEnd p.1 ∧ HighEnd p.2) :
    (∀ p ∈ shiftLast (fin T) w, LowEnd p.1 ∧ HighEnd p.2) ∧
      (shiftLast (fin T) w).length = w.length := by
  induction w with
  | nil => exact ⟨h, rfl⟩
  | cons q w ih =>
    cases w with
    | nil =>
      obtain ⟨a, b⟩ := q
      have hq := h (a, b) (by simp)
      simp only [shiftLast]
      split
      · rename_i hgt
        refine ⟨?_, by simp⟩
        intro p hp
        obtain rfl := List.mem_singleton.1 hp
        cases a <;> cases b <;> simp_all [LowEnd, HighEnd, xr_sub, add, neg]
      · exact ⟨h, rfl⟩
    | cons q' w =>
      simp only [shiftLast]
      have := ih fun p hp => h p (List.mem_cons_of_mem _ hp)
      refine ⟨?_, by simpa using this.2⟩
      intro p hp
      rcases List.mem_cons.1 hp with rfl | hp
      · exact h q (by simp)
      · exact this.1 p hp

theorem gaps_infinite {w : List (XR × XR)} (h : ∀ p ∈ w, LowEnd p.1 ∧ HighEnd p.2)
    (hw : 2 ≤ w.length) :
    ((gapDurations w).all fun g => Py.gt g inf || isClose g inf) = false := by
  match w, hw with
  | p :: q :: r, _ =>
    simp only [gapDurations, List.all_cons]
    rw [gap_not_infinite (h q (by simp)).1 (h p (by simp)).2, Bool.false_and]

theorem padOperations_two {T : ℝ} (hT : 0 < T) (ops : List (Operation ℝ)) :
    2 ≤ (padOperations T ops).length := by
  have last : ∀ l : List (Operation ℝ), 2 ≤ l.length → 2 ≤ (match l.getLast? with
      | some o => if Py.ne o.offset T then l ++ [idleAt T] else l
      | none => l).length := by
    intro l hl
    cases l.getLast? with
    | none => exact hl
    | some o =>
      dsimp only
      split
      · simp; omega
      · exact hl
  have h0 : Py.ne (idleAt (lit 0 : ℝ)).offset (lit 0) = false := by simp [idleAt]
  match ops with
  | [] =>
    unfold padOperations
    simp only [List.isEmpty_nil, if_true, h0, Bool.false_eq_true, if_false]
    exact last [idleAt (lit 0), idleAt T] (by simp)
  | [o] =>
    unfold padOperations
    simp only [List.isEmpty_cons, Bool.false_eq_true, if_false]
    by_cases h : Py.ne o.offset (lit 0) = true
    · simp only [h, if_true]
      exact last [idleAt (lit 0), o] (by simp)
    · have h2 : Py.ne o.offset T = true := by
        have : o.offset = 0 := by simpa using h
        simp [this, hT.ne]
      simp only [h, Bool.false_eq_true, if_false, List.getLast?_singleton, h2, if_true]
      simp
  | o :: o' :: ops =>
    unfold padOperations
    simp only [List.isEmpty_cons, Bool.false_eq_true, if_false]
    by_cases h : Py.ne o.offset (lit 0) = true
    · simp only [h, if_true]
      exact last (idleAt (lit 0) :: o :: o' :: ops) (by simp)
    · simp only [h, Bool.false_eq_true, if_false]
      exact last (o :: o' :: ops) (by simp)

/-- **C67** An infinite minimum segment duration is never accepted, nor is NaN as a rate or as the minimum
segment duration: the conversion of any sequence raises `ArgumentsValueError`. -/
theorem C67_infinite_minimum (s : Sequence ℝ) (hs : s.Constructed) (R D m : XR)
    (name : Option String) (h : R = nan ∨ D = nan ∨ m = nan ∨ m = inf) :
    ∃ d, convertDDS (s.map fin) R D m name = .error (.arguments d) := by
  rw [convertDDS_eq]
  refine check_reject fun hD => check_reject fun hR => check_reject fun hm => ?_
  rcases h with rfl | rfl | rfl | rfl
  · simp at hR
  · simp at hD
  · simp at hm
  refine check_reject fun hr => check_reject fun hv => check_reject fun ho => check_false ?_
  have hops : padOperations (s.map fin).duration (operationsOf (s.map fin).offsets
      (s.map fin).rabiRotations (s.map fin).azimuthalAngles (s.map fin).detuningRotations) =
      (padOperations s.duration (operationsOf s.offsets s.rabiRotations s.azimuthalAngles
        s.detuningRotations)).map finOp := by
    simp only [Sequence.map, operationsOf_fin, padOperations_fin]
  rw [hops]
  have h2 := padOperations_two hs.facts.1 (operationsOf s.offsets s.rabiRotations
    s.azimuthalAngles s.detuningRotations)
  generalize padOperations s.duration (operationsOf s.offsets s.rabiRotations s.azimuthalAngles
    s.detuningRotations) = ops at h2
  have h0 : ∀ p ∈ (ops.map finOp).map (pulseStartEnd R D inf), LowEnd p.1 ∧ HighEnd p.2 := by
    intro p hp
    rw [List.map_map, List.mem_map] at hp
    obtain ⟨o, -, rfl⟩ := hp
    exact windows_infinite hR hD o
  have h1 := shiftFirst_ends h0
  have h3 := shiftLast_ends s.duration h1.1
  have h4 : 2 ≤ (shiftLast (fin s.duration) (shiftFirst ((ops.map finOp).map
      (pulseStartEnd R D inf)))).length := by rw [h3.2, h1.2]; simpa using h2
  exact gaps_infinite h3.1 h4

/-- the hypotheses are met: a spin echo -/
example : ∃ d, convertDDS (Sequence.map fin ⟨1, [1 / 2], [Real.pi], [0], [0], none⟩) (fin 1) (fin 1)
    inf none = .error (.arguments d) :=
  C67_infinite_minimum _ ⟨1, [1 / 2], [Real.pi], [0], [0], none, by
    rw [Sequence.new_eq]; simp; norm_num⟩ _ _ _ _ (by simp)

theorem withoutPulses_constructed {s : Sequence ℝ} (hs : s.Constructed) :
    (withoutPulses s).Constructed := by
  obtain ⟨h0, h1, h2, h3, h4⟩ := hs.facts
  exact constructed_of_facts h0 h1 (by simpa [withoutPulses] using h2) h3
    (by simpa [withoutPulses] using h4)

theorem pulseList_zip {s : Sequence ℝ} (hs : s.Constructed) (P : ℝ → ℝ → Prop) :
    (∀ p ∈ pulseList s, P p.rabi p.detuning) ↔
      ∀ p ∈ s.rabiRotations.zip s.detuningRotations, P p.1 p.2 := by
  obtain ⟨-, -, h1, h2, h3⟩ := hs.facts
  unfold pulseList
  generalize s.offsets = o at *
  generalize s.rabiRotations = r at *
  generalize s.azimuthalAngles = a at *
  generalize s.detuningRotations = d at *
  induction o generalizing r a d with
  | nil =>
    obtain rfl := List.length_eq_zero_iff.1 h1
    simp
  | cons t o ih =>
    match r, a, d, h1, h2, h3 with
    | x :: r, y :: a, z :: d, h1, h2, h3 =>
      have := ih r (by simpa using h1) a (by simpa using h2) d (by simpa using h3)
      simp only [List.zip_cons_cons, List.zipWith_cons_cons, List.forall_mem_cons, this]

/-- **C67** With infinite maximum rates and no minimum segment duration the conversion returns exactly if no Rabi
rotation is negative, no pulse has positive rotations of both kinds and the instants are strictly increasing,
however close they are; otherwise it raises `ArgumentsValueError`. -/
theorem C67_accepted (s : Sequence ℝ) (hs : s.Constructed) (name : Option String) :
    Returns (convertDDS (s.map fin) inf inf (fin 0) name)
      ((∀ p ∈ pulseList s, 0 ≤ p.rabi) ∧ (∀ p ∈ pulseList s, ¬ (0 < p.rabi ∧ 0 < p.detuning)) ∧
        s.offsets.Pairwise (· < ·))
      (fun c => (∀ r ∈ c.rabiRates, r = fin 0) ∧ ∀ d ∈ c.detunings, d = fin 0) := by
  have hs' := withoutPulses_constructed hs
  have hr : (∀ p ∈ pulseList s, 0 ≤ p.rabi) ↔ ∀ r ∈ s.rabiRotations, 0 ≤ r := by
    rw [pulseList_zip hs fun r _ => 0 ≤ r]
    obtain ⟨-, -, h1, -, h3⟩ := hs.facts
    constructor
    · intro h r hr
      have : r ∈ (s.rabiRotations.zip s.detuningRotations).map Prod.fst := by
        rw [List.map_fst_zip (by omega)]; exact hr
      obtain ⟨p, hp, rfl⟩ := List.mem_map.1 this
      exact h p hp
    · exact fun h p hp => h _ (List.of_mem_zip hp).1
  have hz : ∀ p ∈ pulseList (withoutPulses s), p.rabi = 0 := by
    have := (pulseList_zip hs' fun r _ => r = 0).2 ?_
    · exact this
    intro p hp
    have := (List.of_mem_zip hp).1
    simp only [withoutPulses, List.mem_map] at this
    obtain ⟨_, -, h⟩ := this
    exact h.symm
  have hb := pulseList_zip hs fun r d => ¬ (0 < r ∧ 0 < d)
  constructor
  · rintro ⟨h1, h2, h3⟩
    obtain ⟨R, D, m, hR, hD, hm, h⟩ := C93_good_enough _ hs' (fun p hp => (hz p hp).ge)
      (fun p hp h => by rw [hz p hp] at h; exact lt_irrefl _ h.1) h3
    obtain ⟨c, hc⟩ := h R D 0 le_rfl le_rfl le_rfl hm.le name
    have he := (C67_pulses_lost s R D hR hD name).1 (hr.1 h1) (hb.1 h2)
    rw [hc] at he
    exact ⟨_, he, C67_infinite_rates s name _ he⟩
  · intro h
    by_cases hc : (∀ r ∈ s.rabiRotations, 0 ≤ r) ∧
        ∀ p ∈ s.rabiRotations.zip s.detuningRotations, ¬ (0 < p.1 ∧ 0 < p.2)
    · have he := (C67_pulses_lost s 1 1 one_pos one_pos name).1 hc.1 hc.2
      obtain ⟨m, hm⟩ := (C46_convertible _ hs' 1 1 0 name).2 fun hv =>
        h ⟨hr.2 hc.1, hb.2 hc.2, hv.2.2.2.2.2.1⟩
      rw [hm] at he
      exact ⟨m, he⟩
    · exact (C67_pulses_lost s 1 1 one_pos one_pos name).2 hc

/-- the condition is met: two pulses a distance 1e-30 apart, both lost -/
example : ∃ c, convertDDS (Sequence.map fin ⟨1, [1 / 2, 1 / 2 + 1 / 10 ^ 30], [Real.pi, Real.pi],
    [0, 0], [0, 0], none⟩) inf inf (fin 0) none = .ok c ∧ (∀ r ∈ c.rabiRates, r = fin 0) ∧
      ∀ d ∈ c.detunings, d = fin 0 := by
  refine (C67_accepted ⟨1, [1 / 2, 1 / 2 + 1 / 10 ^ 30], [Real.pi, Real.pi], [0, 0], [0, 0], none⟩
    (constructed_of_facts (by simp) ?_ (by simp) (by simp) (by simp)) none).1 ⟨?_, ?_, ?_⟩
  · simp only [List.mem_cons, List.not_mem_nil, or_false]
    rintro t (rfl | rfl) <;> norm_num
  · simp [pulseList, Real.pi_pos.le]
  · simp [pulseList]
  · norm_num

end OpenControls
