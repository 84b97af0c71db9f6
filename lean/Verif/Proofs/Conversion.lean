import Verif.Spec.Conversion
import Verif.Spec.Composite
import Verif.Spec.Reachable
import Verif.Proofs.Basic
import Verif.Proofs.Pauli
import Verif.Proofs.Sequences
import Mathlib.Algebra.Order.BigOperators.Group.List
import Mathlib.Tactic.LinearCombination

/-!
# Lemmas about the conversion of sequences into driven controls
-/

namespace OpenControls

open Spec RealInst

set_option linter.unusedSectionVars false

section
variable {α : Type} [Add α] [Sub α] [Mul α] [Div α] [Neg α] [PyFloat α]
open PyFloat Py

/-- What the conversion computes, as one conditional expression. -/
theorem convertDDS_eq (s : Sequence α) (R D m : α) (name : Option String) :
    convertDDS s R D m name =
      (do
        checkArguments (gt D (lit 0)) "Maximum detuning rate must be positive."
        checkArguments (gt R (lit 0)) "Maximum rabi rate must be positive."
        checkArguments (ge m (lit 0)) "Minimum segment duration must be greater than or equal to 0."
        checkArguments (s.rabiRotations.all fun r => ge r (lit 0))
          "Sequence contains negative values for Rabi rotations."
        checkArguments (checkValidOperation s.rabiRotations s.detuningRotations)
          "Sequence operation includes rabi rotation and detuning rotation at the same instance."
        let operations := padOperations s.duration
          (operationsOf s.offsets s.rabiRotations s.azimuthalAngles s.detuningRotations)
        checkArguments (!(npDiff (operations.map Operation.offset)).any (fun d => le d (lit 0)))
          "Pulse timing could not be properly deduced from the sequence offsets."
        let startEnds := shiftLast s.duration (shiftFirst (operations.map (pulseStartEnd R D m)))
        checkArguments ((gapDurations startEnds).all (fun g => gt g m || isClose g m))
          "Distance between pulses does not respect minimum_segment_duration."
        if startEnds.all (fun p => isClose p.1 (lit 0) && isClose p.2 (lit 0)) then
          DrivenControl.new (durations := [s.duration]) (rabiRates := some [lit 0])
            (azimuthalAngles := some [lit 0]) (detunings := some [lit 0]) (name := name)
        else
          DrivenControl.new
            (durations := ((buildSegments (operations.zip startEnds)).filter
              fun g => gt g.duration (lit 0)).map Segment.duration)
            (rabiRates := some (((buildSegments (operations.zip startEnds)).filter
              fun g => gt g.duration (lit 0)).map Segment.rabi))
            (azimuthalAngles := some (((buildSegments (operations.zip startEnds)).filter
              fun g => gt g.duration (lit 0)).map Segment.azimuthal))
            (detunings := some (((buildSegments (operations.zip startEnds)).filter
              fun g => gt g.duration (lit 0)).map Segment.detuning)) (name := name)) := by
  unfold convertDDS
  simp only [checkArguments_bind]
  congr 5
  cases h1 : (npDiff ((padOperations s.duration (operationsOf s.offsets s.rabiRotations
    s.azimuthalAngles s.detuningRotations)).map Operation.offset)).any (fun d => le d (lit 0))
  · cases h2 : (gapDurations (shiftLast s.duration (shiftFirst ((padOperations s.duration
      (operationsOf s.offsets s.rabiRotations s.azimuthalAngles s.detuningRotations)).map
      (pulseStartEnd R D m))))).all (fun g => gt g m || isClose g m)
    · simp
      rfl
    · simp
  · simp
    rfl

end

/-! ## Pulses and padding -/

/-- a pulse as a column of the operations array -/
def toOp (p : Pulse) : Operation ℝ := ⟨p.offset, p.rabi, p.azimuthal, p.detuning⟩

/-- an instant without rotation -/
def idlePulse (t : ℝ) : Pulse := ⟨t, 0, 0, 0⟩

theorem operationsOf_eq (o r a d : List ℝ) :
    operationsOf o r a d = (List.zipWith (fun t r => (⟨t, r.1, r.2.1, r.2.2⟩ : Pulse)) o
      (r.zip (a.zip d))).map toOp := by
  induction o generalizing r a d with
  | nil => cases r <;> cases a <;> cases d <;> rfl
  | cons t o ih =>
    cases r with
    | nil => rfl
    | cons x r =>
      cases a with
      | nil => rfl
      | cons y a =>
        cases d with
        | nil => rfl
        | cons z d => simp [operationsOf, ih, toOp]

open Classical in
/-- the pulses with idle instants at 0 and at the end where there is no pulse -/
noncomputable def pad (T : ℝ) (ps : List Pulse) : List Pulse :=
  (if (ps.map Pulse.offset).head? = some 0 then [] else [idlePulse 0]) ++ ps ++
    (if (ps.map Pulse.offset).getLast? = some T then [] else [idlePulse T])

theorem padOperations_eq (T : ℝ) (ps : List Pulse) :
    padOperations T (ps.map toOp) = (pad T ps).map toOp := by
  cases ps with
  | nil => simp [padOperations, pad, idleAt, idlePulse, toOp]
  | cons p r =>
    have hl : ∀ (x : Operation ℝ) , ((x :: toOp p :: r.map toOp).getLast?) =
        (((p :: r).map toOp).getLast?) := by intro x; simp [List.getLast?_cons]
    obtain ⟨b, hb⟩ : ∃ b, (p :: r).getLast? = some b := ⟨_, List.getLast?_eq_getLast_of_ne_nil (by simp)⟩
    have hb' : ((p :: r).map toOp).getLast? = some (toOp b) := by
      rw [List.getLast?_map, hb]; rfl
    have hb'' : ((p :: r).map Pulse.offset).getLast? = some b.offset := by
      rw [List.getLast?_map, hb]; rfl
    unfold pad padOperations
    rw [hb'']
    simp only [List.map_cons, List.head?_cons, List.isEmpty_cons, Bool.false_eq_true, if_false,
      Option.some.injEq]
    by_cases h0 : p.offset = 0
    · have e1 : Py.ne (toOp p).offset (PyFloat.lit 0) = false := by simp [toOp, h0]
      simp only [e1, Bool.false_eq_true, if_false, h0, if_true]
      rw [List.map_cons] at hb'
      rw [hb']
      by_cases h1 : b.offset = T
      · simp [toOp, h1]
      · simp [toOp, h1, idleAt, idlePulse]
    · have e1 : Py.ne (toOp p).offset (PyFloat.lit 0) = true := by simp [toOp, h0]
      simp only [e1, if_true, h0, if_false]
      rw [hl, hb']
      by_cases h1 : b.offset = T
      · simp [toOp, h1, idleAt, idlePulse]
      · simp [toOp, h1, idleAt, idlePulse]

theorem pulseList_offsets (s : Sequence ℝ) (hr : s.rabiRotations.length = s.offsets.length)
    (ha : s.azimuthalAngles.length = s.offsets.length)
    (hd : s.detuningRotations.length = s.offsets.length) :
    (pulseList s).map Pulse.offset = s.offsets := by
  unfold pulseList
  rw [List.map_zipWith]
  apply List.ext_getElem?
  intro i
  simp only [List.getElem?_zipWith]
  rcases lt_or_ge i s.offsets.length with h | h
  · simp [h, hr, ha, hd]
  · simp [List.getElem?_eq_none h]

/-- head and tail of a padded list -/
theorem pad_shape {T : ℝ} (hT : 0 < T) (ps : List Pulse)
    (hs : (ps.map Pulse.offset).Pairwise (· < ·))
    (hb : ∀ p ∈ ps, 0 ≤ p.offset ∧ p.offset ≤ T) :
    ((pad T ps).map Pulse.offset).Pairwise (· < ·) ∧
    ∃ a mid b, pad T ps = a :: (mid ++ [b]) ∧ a.offset = 0 ∧ b.offset = T ∧
      ∀ p ∈ mid, 0 < p.offset ∧ p.offset < T := by
  have hpw : ((pad T ps).map Pulse.offset).Pairwise (· < ·) := by
    rw [List.pairwise_map] at hs ⊢
    unfold pad
    rw [List.pairwise_append, List.pairwise_append]
    refine ⟨⟨?_, hs, ?_⟩, ?_, ?_⟩
    · split <;> simp
    · split
      · simp
      · rename_i h
        intro a ha b hb'
        simp only [List.mem_singleton] at ha
        subst ha
        cases ps with
        | nil => simp at hb'
        | cons p r =>
          have hp : 0 < p.offset := lt_of_le_of_ne (hb p (by simp)).1 (by simpa [eq_comm] using h)
          rcases List.mem_cons.mp hb' with rfl | h'
          · exact hp
          · exact hp.trans ((List.pairwise_cons.mp hs).1 _ h')
    · split <;> simp
    · intro x hx y hy
      split at hy
      · simp at hy
      · rename_i h
        simp only [List.mem_singleton] at hy
        subst hy
        show x.offset < T
        rcases List.mem_append.mp hx with h' | h'
        · split at h'
          · simp at h'
          · simp only [List.mem_singleton] at h'; subst h'; exact hT
        · obtain ⟨q, b, rfl⟩ : ∃ q b, ps = q ++ [b] :=
            ⟨_, _, (List.dropLast_append_getLast (List.ne_nil_of_mem h')).symm⟩
          have hbT : b.offset < T :=
            lt_of_le_of_ne (hb b (by simp)).2 (by simpa using h)
          rcases List.mem_append.mp h' with h2 | h2
          · exact ((List.pairwise_append.mp hs).2.2 x h2 b (by simp)).trans hbT
          · simp only [List.mem_singleton] at h2; subst h2; exact hbT
  refine ⟨hpw, ?_⟩
  obtain ⟨a, l, hl, ha⟩ : ∃ a l, pad T ps = a :: l ∧ a.offset = 0 := by
    unfold pad
    split
    · rename_i h
      cases ps with
      | nil => simp at h
      | cons p r => exact ⟨p, _, rfl, by simpa using h⟩
    · exact ⟨idlePulse 0, _, rfl, rfl⟩
  obtain ⟨l', b, hl', hbT⟩ : ∃ l b, pad T ps = l ++ [b] ∧ b.offset = T := by
    unfold pad
    split
    · split
      · rename_i h
        rcases List.eq_nil_or_concat ps with rfl | ⟨q, b, rfl⟩
        · simp at h
        · exact ⟨q, b, by simp, by simpa using h⟩
      · exact ⟨_, idlePulse T, rfl, rfl⟩
    · split
      · rename_i h
        rcases List.eq_nil_or_concat ps with rfl | ⟨q, b, rfl⟩
        · simp at h
        · exact ⟨idlePulse 0 :: q, b, by simp, by simpa using h⟩
      · exact ⟨_, idlePulse T, rfl, rfl⟩
  have he : a :: l = l' ++ [b] := hl.symm.trans hl'
  cases l' with
  | nil =>
    simp only [List.nil_append, List.cons.injEq] at he
    exact absurd (he.1 ▸ ha) (by rw [hbT]; exact hT.ne')
  | cons a' mid =>
    simp only [List.cons_append, List.cons.injEq] at he
    obtain ⟨rfl, rfl⟩ := he
    refine ⟨a, mid, b, hl, ha, hbT, fun p hp => ?_⟩
    rw [hl, List.pairwise_map] at hpw
    constructor
    · rw [← ha]; exact (List.pairwise_cons.mp hpw).1 p (by simp [hp])
    · rw [← hbT]
      exact (List.pairwise_append.mp (List.pairwise_cons.mp hpw).2).2.2 p hp b (by simp)

/-- the check of `np.diff` -/
theorem npDiff_any (l : List ℝ) :
    (!(Py.npDiff l).any (fun d => PyFloat.le d (PyFloat.lit 0))) = true ↔ l.Pairwise (· < ·) := by
  rw [← List.isChain_iff_pairwise]
  induction l with
  | nil => simp [Py.npDiff]
  | cons a l ih =>
    cases l with
    | nil => simp [Py.npDiff]
    | cons b r =>
      rw [List.isChain_cons_cons, ← ih]
      simp [Py.npDiff]

/-! ## Windows -/

theorem isClose_zero' (x : ℝ) : Py.isClose x (PyFloat.lit 0) = true ↔ Negligible x := by
  rw [show (PyFloat.lit 0 : ℝ) = 0 by simp, isClose_zero_iff]
  unfold Negligible; norm_num

theorem isClose_near (x y : ℝ) : Py.isClose x y = true ↔ NearValue x y := by
  rw [isClose_iff]; unfold NearValue; norm_num

theorem close_true {x : ℝ} (h : Negligible x) : Py.isClose x 0 = true := by
  simpa using (isClose_zero' x).mpr h

theorem close_false {x : ℝ} (h : ¬ Negligible x) : Py.isClose x 0 = false := by
  rw [← Bool.not_eq_true]
  intro h'
  exact h ((isClose_zero' x).mp (by simpa using h'))

theorem halfPulseDuration_eq (R D m : ℝ) (p : Pulse) :
    halfPulseDuration R D m (toOp p) = width R D m p / 2 := by
  unfold halfPulseDuration width toOp
  by_cases h1 : Negligible p.rabi
  · by_cases h2 : Negligible p.detuning
    · simp [close_true h1, close_true h2, h1, h2]
    · simp [close_true h1, close_false h2, h1, h2]; ring
  · simp [close_false h1, h1]; ring

theorem width_nonneg {m : ℝ} (hm : 0 ≤ m) (R D : ℝ) (p : Pulse) : 0 ≤ width R D m p := by
  unfold width
  split
  · exact hm.trans (le_max_right _ _)
  · split
    · exact hm.trans (le_max_right _ _)
    · exact le_rfl

theorem not_negligible_zero {x : ℝ} (h : ¬ Negligible x) : 0 < |x| := by
  unfold Negligible at h
  push Not at h
  exact lt_trans (by norm_num) h

theorem width_pos {R D m : ℝ} (hR : 0 < R) (hD : 0 < D) {p : Pulse} (hp : 0 ≤ p.rabi)
    (h : ¬ (Negligible p.rabi ∧ Negligible p.detuning)) : 0 < width R D m p := by
  unfold width
  by_cases h1 : Negligible p.rabi
  · have h2 : ¬ Negligible p.detuning := fun h2 => h ⟨h1, h2⟩
    simp only [h1, h2, not_true, if_false, not_false_iff, if_true]
    exact lt_of_lt_of_le (div_pos (not_negligible_zero h2) hD) (le_max_left _ _)
  · simp only [h1, not_false_iff, if_true]
    have := not_negligible_zero h1
    rw [abs_of_nonneg hp] at this
    exact lt_of_lt_of_le (div_pos this hR) (le_max_left _ _)

theorem window_width (T R D m : ℝ) (p : Pulse) :
    (window T R D m p).2 - (window T R D m p).1 = width R D m p := by
  unfold window
  split
  · simp
  · split
    · simp
    · show _ + _ - (_ - _) = _
      ring

theorem shiftLast_append (T : ℝ) (l : List (ℝ × ℝ)) (x : ℝ × ℝ) :
    shiftLast T (l ++ [x]) = l ++ shiftLast T [x] := by
  induction l with
  | nil => rfl
  | cons a l ih =>
    cases l with
    | nil => rfl
    | cons b r => simp only [List.cons_append, shiftLast] at ih ⊢; rw [ih]

theorem startEnds_eq {T R D m : ℝ} (hT : 0 < T) (hm : 0 ≤ m) {ps : List Pulse}
    (hs : (ps.map Pulse.offset).Pairwise (· < ·))
    (hb : ∀ p ∈ ps, 0 ≤ p.offset ∧ p.offset ≤ T) :
    shiftLast T (shiftFirst (((pad T ps).map toOp).map (pulseStartEnd R D m))) =
      (pad T ps).map (window T R D m) := by
  obtain ⟨-, a, mid, b, he, ha, hbT, hmid⟩ := pad_shape hT ps hs hb
  have key : ∀ p, pulseStartEnd R D m (toOp p) =
      (p.offset - width R D m p / 2, p.offset + width R D m p / 2) := by
    intro p
    unfold pulseStartEnd
    rw [halfPulseDuration_eq]; rfl
  have e0 : window T R D m a = (0, width R D m a) := by simp [window, ha]
  have eT : window T R D m b = (T - width R D m b, T) := by
    simp [window, hbT, hT.ne']
  rw [he]
  simp only [List.map_cons, List.map_append, List.map_nil, List.map_map, key, ha, hbT, e0, eT]
  have hwa := width_nonneg hm R D a
  have hwb := width_nonneg hm R D b
  have e1 : ∀ r : List (ℝ × ℝ), shiftFirst ((0 - width R D m a / 2, 0 + width R D m a / 2) :: r) =
      (0, width R D m a) :: r := by
    intro r
    unfold shiftFirst
    simp only [lit_eq, Rat.cast_zero, lt_iff]
    split
    · congr 1
      ext <;> simp
    · have : width R D m a = 0 := by linarith
      simp [this]
  rw [e1, ← List.cons_append, shiftLast_append, List.cons_append]
  congr 2
  · apply List.map_congr_left
    intro p hp
    obtain ⟨h1, h2⟩ := hmid p hp
    simp [key, window, h1.ne', h2.ne]
  · unfold shiftLast
    simp only [gt_iff]
    split
    · congr 1
      ext <;> simp
      ring
    · have : width R D m b = 0 := by linarith
      simp [this]

theorem gaps_all (P : ℝ → Bool) (Q : ℝ → Prop) (h : ∀ g, P g = true ↔ Q g) (l : List (ℝ × ℝ)) :
    (gapDurations l).all P = true ↔ EachGap Q l := by
  unfold EachGap
  induction l with
  | nil => simp [gapDurations]
  | cons a l ih =>
    cases l with
    | nil => simp [gapDurations]
    | cons b r =>
      rw [List.isChain_cons_cons, ← ih, ← h]
      simp [gapDurations]

/-! ## Segments -/

/-- the segment of a pulse -/
noncomputable def pulseSeg (R D m : ℝ) (p : Pulse) : Segment ℝ :=
  ⟨(drive R D m p).1, (drive R D m p).2.1, (drive R D m p).2.2, width R D m p⟩

theorem pulseSegment_eq {R D m : ℝ} (hR : 0 < R) (hD : 0 < D) (T : ℝ) {p : Pulse}
    (hp : 0 ≤ p.rabi) : pulseSegment (toOp p) (window T R D m p) = pulseSeg R D m p := by
  unfold pulseSegment
  simp only [window_width]
  by_cases h : Negligible p.rabi ∧ Negligible p.detuning
  · have hw : width R D m p = 0 := by simp [width, h]
    simp [pulseSeg, drive, h, hw]
  · have hw := width_pos (m := m) hR hD hp h
    simp only [gt_iff, lit_eq, Rat.cast_zero, hw, if_true]
    by_cases h1 : Negligible p.rabi
    · have h2 : ¬ Negligible p.detuning := fun h2 => h ⟨h1, h2⟩
      simp [toOp, close_true h1, close_false h2, pulseSeg, drive, h1, h2]
    · simp [toOp, close_false h1, pulseSeg, drive, h1]

/-- pulse and gap segments in order -/
noncomputable def segs (T R D m : ℝ) : List Pulse → List (Segment ℝ)
  | [] => []
  | [p] => [pulseSeg R D m p, ⟨0, 0, 0, 0⟩]
  | p :: q :: r => pulseSeg R D m p ::
      ⟨0, 0, 0, (window T R D m q).1 - (window T R D m p).2⟩ :: segs T R D m (q :: r)

theorem buildSegments_eq {T R D m : ℝ} (hR : 0 < R) (hD : 0 < D) (l : List Pulse)
    (hl : ∀ p ∈ l, 0 ≤ p.rabi) :
    buildSegments ((l.map toOp).zip (l.map (window T R D m))) = segs T R D m l := by
  induction l with
  | nil => rfl
  | cons p l ih =>
    have hp := pulseSegment_eq (m := m) hR hD T (hl p (by simp))
    cases l with
    | nil => simp [buildSegments, segs, hp]
    | cons q r =>
      have := ih fun x hx => hl x (by simp [hx])
      simp only [List.map_cons, List.zip_cons_cons, buildSegments, segs] at this ⊢
      rw [this, hp]
      simp

/-- the segments kept: those that take time -/
noncomputable def kept (T R D m : ℝ) (l : List Pulse) : List (Segment ℝ) :=
  (segs T R D m l).filter fun g => Py.gt g.duration (PyFloat.lit 0)

/-- the control made of segments -/
def ofSegments (gs : List (Segment ℝ)) (name : Option String) : DrivenControl ℝ :=
  ⟨gs.map Segment.rabi, gs.map Segment.azimuthal, gs.map Segment.detuning,
    gs.map Segment.duration, name⟩

theorem new_ofSegments {gs : List (Segment ℝ)} (hd : ∀ g ∈ gs, 0 < g.duration)
    (hr : ∀ g ∈ gs, 0 ≤ g.rabi) (name : Option String) :
    DrivenControl.new (gs.map Segment.duration) (some (gs.map Segment.rabi))
      (some (gs.map Segment.azimuthal)) (some (gs.map Segment.detuning)) name =
      .ok (ofSegments gs name) := by
  rw [DrivenControl.new_eq, if_pos (by simpa using hd), if_pos (by simp), if_pos (by simpa using hr)]
  rfl

theorem mem_segs {T R D m : ℝ} {P : ℝ → Prop} {l : List Pulse}
    (hP : EachGap P (l.map (window T R D m))) {g : Segment ℝ} (hg : g ∈ segs T R D m l) :
    (∃ p ∈ l, g = pulseSeg R D m p) ∨ g = ⟨0, 0, 0, 0⟩ ∨
      (P g.duration ∧ g.rabi = 0 ∧ g.azimuthal = 0 ∧ g.detuning = 0) := by
  induction l with
  | nil => simp [segs] at hg
  | cons p l ih =>
    cases l with
    | nil =>
      simp only [segs, List.mem_cons, List.not_mem_nil, or_false] at hg
      rcases hg with h | h
      · exact .inl ⟨p, by simp, h⟩
      · exact .inr (.inl h)
    | cons q r =>
      simp only [segs, List.mem_cons] at hg
      simp only [EachGap, List.map_cons, List.isChain_cons_cons] at hP
      rcases hg with h | h | h
      · exact .inl ⟨p, by simp, h⟩
      · subst h; exact .inr (.inr ⟨hP.1, rfl, rfl, rfl⟩)
      · rcases ih hP.2 h with ⟨p', h1, h2⟩ | h'
        · exact .inl ⟨p', by simp [h1], h2⟩
        · exact .inr h'

theorem drive_rabi_nonneg {R D m : ℝ} (hm : 0 ≤ m) {p : Pulse} (hp : 0 ≤ p.rabi) :
    0 ≤ (drive R D m p).1 := by
  unfold drive
  split
  · exact div_nonneg hp (width_nonneg hm _ _ _)
  · split <;> exact le_rfl

theorem mem_kept_pos {T R D m : ℝ} {l : List Pulse} {g : Segment ℝ} (hg : g ∈ kept T R D m l) :
    0 < g.duration := by
  simpa using (List.mem_filter.mp hg).2

theorem mem_kept {T R D m : ℝ} {P : ℝ → Prop} {l : List Pulse}
    (hP : EachGap P (l.map (window T R D m))) {g : Segment ℝ} (hg : g ∈ kept T R D m l) :
    0 < g.duration ∧ ((∃ p ∈ l, g = pulseSeg R D m p) ∨
      (P g.duration ∧ g.rabi = 0 ∧ g.azimuthal = 0 ∧ g.detuning = 0)) := by
  have h0 := mem_kept_pos hg
  refine ⟨h0, ?_⟩
  rcases mem_segs hP (List.mem_filter.mp hg).1 with h | h | h
  · exact .inl h
  · subst h; exact absurd h0 (lt_irrefl _)
  · exact .inr h

theorem pad_mem {T : ℝ} {ps : List Pulse} {p : Pulse} (h : p ∈ pad T ps) :
    p ∈ ps ∨ p = idlePulse 0 ∨ p = idlePulse T := by
  unfold pad at h
  rcases List.mem_append.mp h with h | h
  · rcases List.mem_append.mp h with h | h
    · split at h
      · simp at h
      · exact .inr (.inl (by simpa using h))
    · exact .inl h
  · split at h
    · simp at h
    · exact .inr (.inr (by simpa using h))

theorem mem_pad {T : ℝ} {ps : List Pulse} {p : Pulse} (h : p ∈ ps) : p ∈ pad T ps := by
  unfold pad
  simp [h]

theorem width_idle (R D m t : ℝ) : width R D m (idlePulse t) = 0 := by
  simp [width, idlePulse, Negligible]

theorem drive_idle (R D m t : ℝ) : drive R D m (idlePulse t) = (0, 0, 0) := by
  simp [drive, idlePulse, Negligible]

/-! ## The whole conversion -/

theorem Sequence.Constructed.facts {s : Sequence ℝ} (h : s.Constructed) :
    0 < s.duration ∧ (∀ t ∈ s.offsets, 0 ≤ t ∧ t ≤ s.duration) ∧
      s.rabiRotations.length = s.offsets.length ∧ s.azimuthalAngles.length = s.offsets.length ∧
      s.detuningRotations.length = s.offsets.length := by
  obtain ⟨T, o, r, a, d, n, h⟩ := h
  rw [Sequence.new_eq] at h
  split at h
  · rename_i h1
    split at h
    · rename_i h2
      split at h
      · rename_i h3
        split at h
        · rename_i h4
          split at h
          · rename_i h5
            cases h
            refine ⟨by simpa using h1, ?_, h3, h4, h5⟩
            simpa using h2
          · cases h
        · cases h
      · cases h
    · cases h
  · cases h

theorem pulseList_columns (s : Sequence ℝ) (hr : s.rabiRotations.length = s.offsets.length)
    (ha : s.azimuthalAngles.length = s.offsets.length)
    (hd : s.detuningRotations.length = s.offsets.length) :
    (pulseList s).map Pulse.rabi = s.rabiRotations ∧
    (pulseList s).map Pulse.azimuthal = s.azimuthalAngles ∧
    (pulseList s).map Pulse.detuning = s.detuningRotations := by
  have key : ∀ (f : Pulse → ℝ) (l : List ℝ), l.length = s.offsets.length →
      (∀ (t r a d : ℝ) (i : ℕ), s.offsets[i]? = some t → s.rabiRotations[i]? = some r →
        s.azimuthalAngles[i]? = some a → s.detuningRotations[i]? = some d →
        l[i]? = some (f ⟨t, r, a, d⟩)) → (pulseList s).map f = l := by
    intro f l hl h
    unfold pulseList
    rw [List.map_zipWith]
    apply List.ext_getElem?
    intro i
    simp only [List.getElem?_zipWith]
    rcases lt_or_ge i s.offsets.length with h' | h'
    · have h1 : i < s.rabiRotations.length := by omega
      have h2 : i < s.azimuthalAngles.length := by omega
      have h3 : i < s.detuningRotations.length := by omega
      rw [h _ _ _ _ i (List.getElem?_eq_getElem h') (List.getElem?_eq_getElem h1)
        (List.getElem?_eq_getElem h2) (List.getElem?_eq_getElem h3)]
      simp [h', h1, h2, h3]
    · have : l[i]? = none := List.getElem?_eq_none (by omega)
      rw [this]
      simp [List.getElem?_eq_none h']
  exact ⟨key _ _ hr fun t r a d i _ h _ _ => h, key _ _ ha fun t r a d i _ _ h _ => h,
    key _ _ hd fun t r a d i _ _ _ h => h⟩

theorem windows_eq {s : Sequence ℝ} (hs : s.Constructed) (R D m : ℝ) :
    windows R D m s = (pad s.duration (pulseList s)).map (window s.duration R D m) := by
  obtain ⟨hT, hb, hr, ha, hd⟩ := hs.facts
  have ho := pulseList_offsets s hr ha hd
  have e0 : window s.duration R D m (idlePulse 0) = (0, 0) := by
    simp [window, idlePulse]
    simpa [idlePulse] using width_idle R D m 0
  have eT : window s.duration R D m (idlePulse s.duration) = (s.duration, s.duration) := by
    have := width_idle R D m s.duration
    unfold window
    rw [this]
    simp [idlePulse, hT.ne']
  unfold windows pad
  rw [ho]
  simp only [List.map_append]
  congr 1
  · congr 1
    split <;> simp [e0]
  · split <;> simp [eT]

theorem checkValidOperation_iff (ps : List Pulse) :
    checkValidOperation (ps.map Pulse.rabi) (ps.map Pulse.detuning) = true ↔
      ∀ p ∈ ps, ¬ (0 < p.rabi ∧ 0 < p.detuning) := by
  unfold checkValidOperation
  rw [List.zipWith_map, List.zipWith_self]
  simp

/-- every window starts and ends within the tolerance of time 0 -/
def AllSmall (ws : List (ℝ × ℝ)) : Prop := ∀ w ∈ ws, Negligible w.1 ∧ Negligible w.2

/-- the control that does nothing for a time -/
def freeEvolution (T : ℝ) (name : Option String) : DrivenControl ℝ :=
  ⟨[0], [0], [0], [T], name⟩

theorem convertDDS_returns {s : Sequence ℝ} (hs : s.Constructed) (R D m : ℝ)
    (name : Option String) :
    Returns (convertDDS s R D m name) (Convertible R D m s) fun c =>
      (AllSmall (windows R D m s) ∧ c = freeEvolution s.duration name) ∨
      (¬ AllSmall (windows R D m s) ∧
        c = ofSegments (kept s.duration R D m (pad s.duration (pulseList s))) name) := by
  obtain ⟨hT, hb, hr, ha, hd⟩ := hs.facts
  have ho := pulseList_offsets s hr ha hd
  obtain ⟨hcr, hca, hcd⟩ := pulseList_columns s hr ha hd
  have hb' : ∀ p ∈ pulseList s, 0 ≤ p.offset ∧ p.offset ≤ s.duration := by
    intro p hp
    exact hb _ (ho ▸ List.mem_map_of_mem hp)
  rw [convertDDS_eq]
  have hops : padOperations s.duration (operationsOf s.offsets s.rabiRotations s.azimuthalAngles
      s.detuningRotations) = (pad s.duration (pulseList s)).map toOp := by
    rw [operationsOf_eq, ← padOperations_eq]; rfl
  simp only [hops]
  have hoff : ((pad s.duration (pulseList s)).map toOp).map Operation.offset =
      (pad s.duration (pulseList s)).map Pulse.offset := by
    rw [List.map_map]; rfl
  refine Returns.congr (P := 0 < D ∧ 0 < R ∧ 0 ≤ m ∧ (∀ p ∈ pulseList s, 0 ≤ p.rabi) ∧
      (∀ p ∈ pulseList s, ¬ (0 < p.rabi ∧ 0 < p.detuning)) ∧ s.offsets.Pairwise (· < ·) ∧
      EachGap (fun g => m < g ∨ NearValue g m) (windows R D m s) ∧ True)
    (Returns.check (by simp) fun hD => Returns.check (by simp) fun hR =>
      Returns.check (by simp) fun hm => Returns.check ?_ fun hrabi => Returns.check ?_ fun hboth =>
      Returns.check ?_ fun hsort => Returns.check ?_ fun hgap => Returns.last ?_) ?_
  · rw [← hcr]; simp
  · rw [← hcr, ← hcd]; exact checkValidOperation_iff _
  · rw [hoff, npDiff_any]
    constructor
    · intro h
      have := h.sublist (l₁ := s.offsets) (by
        rw [← ho]; apply List.Sublist.map
        unfold pad
        exact (List.sublist_append_right _ _).trans (List.sublist_append_left _ _))
      exact this
    · intro h
      exact (pad_shape hT _ (ho ▸ h) hb').1
  · rw [startEnds_eq hT hm (ho ▸ hsort) hb', ← windows_eq hs]
    apply gaps_all
    intro g
    rw [Bool.or_eq_true, isClose_near, gt_iff]
  · rw [startEnds_eq hT hm (ho ▸ hsort) hb', ← windows_eq hs]
    have hsmall : ((windows R D m s).all fun p => Py.isClose p.1 (PyFloat.lit 0) &&
        Py.isClose p.2 (PyFloat.lit 0)) = true ↔ AllSmall (windows R D m s) := by
      rw [List.all_eq_true]
      unfold AllSmall
      simp only [Bool.and_eq_true, isClose_zero']
    have hrabi' : ∀ p ∈ pad s.duration (pulseList s), 0 ≤ p.rabi := by
      intro p hp
      rcases pad_mem hp with h | rfl | rfl
      · exact hrabi p h
      · exact le_rfl
      · exact le_rfl
    by_cases h : AllSmall (windows R D m s)
    · rw [if_pos (hsmall.mpr h)]
      refine ⟨freeEvolution s.duration name, ?_, .inl ⟨h, rfl⟩⟩
      rw [DrivenControl.new_eq, if_pos (by simpa using hT), if_pos (by simp), if_pos (by simp)]
      simp [freeEvolution]
    · rw [if_neg fun h' => h (hsmall.mp h'), windows_eq hs,
        buildSegments_eq hR hD _ hrabi']
      refine ⟨_, new_ofSegments (gs := kept s.duration R D m (pad s.duration (pulseList s)))
        (fun g hg => mem_kept_pos hg) (fun g hg => ?_) name, .inr ⟨?_, rfl⟩⟩
      · rcases (mem_kept (windows_eq hs R D m ▸ hgap) hg).2 with ⟨p, hp, rfl⟩ | ⟨-, h2, -⟩
        · exact drive_rabi_nonneg hm (hrabi' p hp)
        · rw [h2]
      · rwa [← windows_eq hs]
  · unfold Convertible
    tauto

end OpenControls
