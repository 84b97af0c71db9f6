import Verif.Proofs.ShapesConversion
import Verif.Spec.ArrayConversion
import Verif.Props.ShapesConversion

/-!
# Proofs: conversion of a sequence whose duration is an array
-/

namespace OpenControls

open Spec RealInst NdArray PyFloat Py

section generic

variable {α : Type} [Add α] [Sub α] [Mul α] [Div α] [Neg α] [PyFloat α]

/-- both calls raise the same, or both return and the results agree -/
def BothOr (Q : DrivenControl α → NdControl α → Prop) :
    Except PyErr (DrivenControl α) → Except PyErr (NdControl α) → Prop
  | .error e, .error e' => e = e'
  | .ok c, .ok c' => Q c c'
  | _, _ => False

/-- are all start and end times of the pulses negligible -/
def freeOperations (T : α) (operations : List (Operation α)) (R D m : α) : Bool :=
  (shiftLast T (shiftFirst (operations.map (pulseStartEnd R D m)))).all fun p => isClose p.1 (lit 0) && isClose p.2 (lit 0)

theorem bothOr_flat {Q : DrivenControl α → NdControl α → Prop} (hQ : ∀ c, Q c (flatControl c)) (x : Except PyErr (DrivenControl α)) :
    BothOr Q x (x.map flatControl) := by
  cases x with
  | error e => rfl
  | ok c => exact hQ c

theorem BothOr.mono {Q Q' : DrivenControl α → NdControl α → Prop} (h : ∀ c c', Q c c' → Q' c c')
    {x : Except PyErr (DrivenControl α)} {y : Except PyErr (NdControl α)} (hb : BothOr Q x y) : BothOr Q' x y := by
  cases x <;> cases y <;> first | exact hb | exact h _ _ hb

theorem sameNumbers_flat (T : NdArray α) (c : DrivenControl α) : SameNumbers T c (flatControl c) :=
  ⟨rfl, rfl, rfl, rfl, rfl, .inl rfl⟩

theorem newControl_stack {T : NdArray α} {d : α} (hd : T.data = [d]) (hT : Regular T) (name : Option String) :
    BothOr (SameNumbers T) (DrivenControl.new [d] (some [lit 0]) (some [lit 0]) (some [lit 0]) name)
      (NdControl.new (stack T.shape [T.data]) (some (vec [lit 0])) (some (vec [lit 0])) (some (vec [lit 0])) name) := by
  have hp : T.shape.prod = 1 := by unfold Regular at hT; rw [← hT, hd]; rfl
  unfold DrivenControl.new NdControl.new
  simp only [stack, pyAll, hp, hd, vec, NdArray.size, NdArray.len, List.length_cons, List.length_nil, List.flatten_cons,
    List.flatten_nil, List.append_nil, List.filterMap_cons, List.filterMap_nil, Option.map_some, id, List.prod_cons, List.prod_nil,
    mul_one, zero_add, one_ne_zero, if_false, if_true, Option.getD_some, except_ok_bind]
  cases checkArguments ([d].all fun x => gt x (lit 0)) "Duration of driven control segments must all be greater than zero." with
  | error e => rfl
  | ok _ =>
    simp only [except_ok_bind]
    generalize checkArguments _ "If set, rabi rates, azimuthal angles, detunings and durations must be of same length" = k1
    cases k1 with
    | error e => rfl
    | ok _ =>
      simp only [except_ok_bind]
      generalize checkArguments _ "All rabi rates must be greater than zero." = k2
      cases k2 with
      | error e => rfl
      | ok _ => exact ⟨rfl, rfl, rfl, rfl, rfl, .inr ⟨hd.symm, rfl⟩⟩

theorem convertArrayOperations_both {T : NdArray α} {d : α} (hd : T.data = [d]) (hT : Regular T) (ops : List (Operation α))
    (R D m : α) (name : Option String) :
    BothOr (fun c c' => SameNumbers T c c' ∧ (freeOperations d ops R D m = false → c' = flatControl c))
      (convertOperations d ops R D m name) (convertArrayOperations T d ops R D m name) := by
  unfold convertOperations convertArrayOperations freeOperations
  simp only
  generalize shiftLast d (shiftFirst (ops.map (pulseStartEnd R D m))) = ws
  cases (gapDurations ws).all fun g => gt g m || isClose g m with
  | false => rfl
  | true =>
    simp only [Bool.not_true, Bool.false_eq_true, if_false]
    cases ws.all fun p => isClose p.1 (lit 0) && isClose p.2 (lit 0) with
    | true =>
      exact (newControl_stack hd hT name).mono fun c c' h => ⟨h, fun h => nomatch h⟩
    | false =>
      have := bothOr_flat (Q := fun c c' => SameNumbers T c c' ∧ c' = flatControl c) (fun c => ⟨sameNumbers_flat T c, rfl⟩)
        (DrivenControl.new (((buildSegments (ops.zip ws)).filter fun g => gt g.duration (lit 0)).map Segment.duration)
          (some (((buildSegments (ops.zip ws)).filter fun g => gt g.duration (lit 0)).map Segment.rabi))
          (some (((buildSegments (ops.zip ws)).filter fun g => gt g.duration (lit 0)).map Segment.azimuthal))
          (some (((buildSegments (ops.zip ws)).filter fun g => gt g.duration (lit 0)).map Segment.detuning)) name)
      rw [← (C79_flat _ _ _ _ _).1] at this
      exact this.mono fun c c' h => ⟨h.1, fun _ => h.2⟩

/-- the four arrays of a sequence -/
def opsOf (s : ArraySequence α) : NdOps α := ⟨s.offsets, s.rabiRotations, s.azimuthalAngles, s.detuningRotations⟩

theorem convertArray_both (s : ArraySequence α) {d : α} (hd : s.duration.data = [d]) (hT : Regular s.duration) (R D m : α)
    (name : Option String) :
    BothOr (fun c c' => SameNumbers s.duration c c' ∧ ∃ a, ge m (lit 0) = true ∧ padNd d (opsOf s) = .ok a ∧
        a.rabi.shape = a.offsets.shape ∧ a.azimuthal.shape = a.offsets.shape ∧ a.detuning.shape = a.offsets.shape ∧
        (freeOperations d (operationsOf a.offsets.data a.rabi.data a.azimuthal.data a.detuning.data) R D m = false →
          c' = flatControl c))
      (convertNd (withNumber s d) R D m name) (convertArray s R D m name) := by
  unfold convertNd convertArray
  simp only [withNumber, hd]
  cases checkArguments (gt D (lit 0)) "Maximum detuning rate must be positive." with
  | error e => rfl
  | ok _ =>
  cases checkArguments (gt R (lit 0)) "Maximum rabi rate must be positive." with
  | error e => rfl
  | ok _ =>
  cases hm : checkArguments (ge m (lit 0)) "Minimum segment duration must be greater than or equal to 0." with
  | error e => rfl
  | ok _ =>
  have hm' : ge m (lit 0) = true := by
    unfold checkArguments at hm
    by_contra h
    simp [h] at hm
  generalize checkArguments _ "Sequence contains negative values for Rabi rotations." = k1
  cases k1 with
  | error e => rfl
  | ok _ =>
  generalize checkArguments _ "Sequence operation includes rabi rotation and detuning rotation at the same instance." = k2
  cases k2 with
  | error e => rfl
  | ok _ =>
  simp only [except_ok_bind]
  change BothOr (fun c c' => SameNumbers s.duration c c' ∧ ∃ a, ge m (lit 0) = true ∧ padNd d (opsOf s) = .ok a ∧ _) (padNd d (opsOf s) >>= _)
    (padNd d (opsOf s) >>= _)
  cases hp : padNd d (opsOf s) with
  | error e => rfl
  | ok a =>
  simp only [except_ok_bind]
  cases a.offsets.someDiffNonpositive with
  | true => rfl
  | false =>
  simp only [Bool.false_eq_true, if_false]
  split
  · rfl
  · rename_i hs
    simp only [Bool.not_eq_true', Bool.not_eq_false, Bool.and_eq_true, beq_iff_eq] at hs
    exact (convertArrayOperations_both hd hT _ R D m name).mono fun c c' h => ⟨h.1, a, hm', rfl, hs.1.1, hs.1.2, hs.2, h.2⟩

end generic

/-- after the padding the last offset is the duration -/
theorem padNd_facts {T : ℝ} (hT : 0 ≤ T) {x a : NdOps ℝ} (ho : Regular x.offsets) (hr : Regular x.rabi) (ha : Regular x.azimuthal)
    (hd : Regular x.detuning) (hb : ∀ t ∈ x.offsets.data, 0 ≤ t ∧ t ≤ T) (h : padNd T x = .ok a) :
    (Regular a.offsets ∧ Regular a.rabi ∧ Regular a.azimuthal ∧ Regular a.detuning) ∧ a.offsets.data.getLast? = some T ∧
      ∀ t ∈ a.offsets.data, 0 ≤ t ∧ t ≤ T := by
  have hv : ∀ l : List ℝ, Regular (vec l) := fun l => by simp [Regular, vec]
  have key : ∀ x : NdOps ℝ, Regular x.offsets → Regular x.rabi → Regular x.azimuthal → Regular x.detuning →
      (∀ t ∈ x.offsets.data, 0 ≤ t ∧ t ≤ T) → x.offsets.size ≠ 0 → padNd T x = .ok a →
      (Regular a.offsets ∧ Regular a.rabi ∧ Regular a.azimuthal ∧ Regular a.detuning) ∧ a.offsets.data.getLast? = some T ∧
        ∀ t ∈ a.offsets.data, 0 ≤ t ∧ t ≤ T := by
    intro x ho hr ha hd hb hsize h
    obtain ⟨t, e, ht, he⟩ := ends_of_size ho hsize
    cases hs : x.offsets.shape with
    | nil =>
      unfold padNd at h
      simp only [if_neg hsize, itemDiffers, hs] at h
      cases h
    | cons n rest =>
      by_cases h1 : rest.prod = 1
      · have hn : n ≠ 0 := by
          rintro rfl
          exact hsize (by unfold NdArray.size; rw [hs]; simp)
        rw [padNd_line T x hs hn h1 ht he] at h
        have hpad : ∀ (b c : Bool) (v w : ℝ) (y : NdArray ℝ), Regular y → Regular (padArray b c v w y) := by
          intro b c v w y hy
          unfold padArray
          split
          · exact hv _
          · exact hy
        cases h
        refine ⟨⟨hpad _ _ _ _ _ ho, hpad _ _ _ _ _ hr, hpad _ _ _ _ _ ha, hpad _ _ _ _ _ hd⟩, ?_, ?_⟩
        · cases hB : ne e T with
          | true => simp [padArray, vec]
          | false =>
            have : e = T := by simpa using hB
            subst this
            unfold padArray
            split
            · simp [vec, List.getLast?_append, he]
            · exact he
        · intro u hu
          unfold padArray at hu
          have zl : (lit 0 : ℝ) = 0 := by simp
          split at hu
          · simp only [vec, List.mem_append] at hu
            rcases hu with (hu | hu) | hu
            · split at hu
              · rw [List.mem_singleton.mp hu, zl]; exact ⟨le_rfl, hT⟩
              · cases hu
            · exact hb u hu
            · split at hu
              · rw [List.mem_singleton.mp hu]; exact ⟨hT, le_rfl⟩
              · cases hu
          · exact hb u hu
      · obtain ⟨_, hx⟩ := padNd_rows T x hs hsize h1 ht
        rw [hx] at h
        cases h
  by_cases hsize : x.offsets.size = 0
  · refine key ⟨vec [lit 0, T], vec [lit 0, lit 0], vec [lit 0, lit 0], vec [lit 0, lit 0]⟩ (hv _) (hv _) (hv _) (hv _) ?_
      (by simp [NdArray.size, vec]) ?_
    · intro t ht
      simp only [vec, List.mem_cons, List.not_mem_nil, or_false, lit_eq, Rat.cast_zero] at ht
      rcases ht with rfl | rfl
      · exact ⟨le_rfl, hT⟩
      · exact ⟨hT, le_rfl⟩
    · rw [← h]
      unfold padNd
      simp only [if_pos hsize]
      rfl
  · exact key x ho hr ha hd hb hsize h

/-- Only sequences of at most 1e-8 take the way of the free evolution. -/
theorem free_short {T R D m : ℝ} (hm : 0 ≤ m) {ops : List (Operation ℝ)} (h : ∀ p ∈ ops, 0 ≤ p.offset ∧ p.offset ≤ T)
    (hl : (ops.map Operation.offset).getLast? = some T) (hf : freeOperations T ops R D m = true) : T ≤ 1 / 10 ^ 8 := by
  have hw := shifted_windows (R := R) (D := D) hm h
  unfold freeOperations at hf
  revert hw hf
  generalize shiftLast T (shiftFirst (ops.map (pulseStartEnd R D m))) = ws
  intro hf hw
  rw [List.getLast?_map, Option.map_eq_some_iff] at hl
  obtain ⟨p, hp, hpT⟩ := hl
  obtain ⟨w, hwm, hwp⟩ : ∃ w ∈ ws, p.offset ≤ w.2 := by
    have hp' := List.mem_of_getLast? hp
    clear hp h hf
    induction hw with
    | nil => cases hp'
    | cons hab _ ih =>
      rcases List.mem_cons.mp hp' with rfl | hp'
      · exact ⟨_, List.mem_cons_self, hab.2⟩
      · obtain ⟨w, hw, h⟩ := ih hp'
        exact ⟨w, List.mem_cons_of_mem _ hw, h⟩
  have := List.all_eq_true.mp hf w hwm
  rw [Bool.and_eq_true] at this
  have h2 := this.2
  rw [isClose_near] at h2
  unfold NearValue at h2
  simp only [lit_eq, Rat.cast_zero, sub_zero, abs_zero, mul_zero, add_zero] at h2
  rw [← hpT]
  exact hwp.trans ((le_abs_self _).trans h2)

end OpenControls
