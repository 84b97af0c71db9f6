import Verif.Proofs.Reassigned
import Verif.Props.Heap

/-!
# C96: converting a sequence whose attributes were reassigned

Attributes of a sequence can be assigned without any check: `sequence.offsets = ...`,
`sequence.duration = ...`, and so can the items of its arrays.  Here `s` is any object with a duration and
four arrays that exist in the heap `h`, with any contents and any lengths.  `s.value h` is its value,
`R` the maximum Rabi rate, `D` the maximum detuning rate, `m` the minimum segment duration.
-/

namespace OpenControls

open Spec RealInst

section Any

variable {α : Type} [Add α] [Sub α] [Mul α] [Div α] [Neg α] [PyFloat α]

/-- **C96**, no side effects: whatever the attributes are, the conversion changes no array that existed
before the call, whether it returns or raises, and the arrays of the control it returns are new and
different from each other. -/
theorem C96_pure (h : Heap α) (s : SequenceObj α) (hs : ∀ r ∈ s.refs, r < h.length) (R D m : α)
    (name : Option String) :
    (∀ r < h.length, (convertH s R D m name h).2.items r = h.items r) ∧
    ∀ c, (convertH s R D m name h).1 = .ok c → (∀ r ∈ c.refs, h.length ≤ r) ∧ c.refs.Nodup := by
  have fresh : ∀ {run v}, FreshRun h run v → (∀ r < h.length, run.2.items r = h.items r) ∧
      ∀ c, run.1 = .ok c → (∀ r ∈ c.refs, h.length ≤ r) ∧ c.refs.Nodup := by
    rintro run v ⟨⟨e, he⟩, -, hf⟩
    refine ⟨fun r hr => by rw [he, items_append _ _ hr], fun c hc => ?_⟩
    exact ⟨fun r hr => ((hf c hc).1 r hr).1, (hf c hc).2⟩
  by_cases hlen : (h.items s.rabiRotations).length = (h.items s.offsets).length ∧
      (h.items s.azimuthalAngles).length = (h.items s.offsets).length ∧
      (h.items s.detuningRotations).length = (h.items s.offsets).length
  · exact fresh (convertH_run h s hs hlen.1 hlen.2.1 hlen.2.2 R D m name)
  by_cases ho : h.items s.offsets = []
  · rcases convertH_empty h s ho R D m name with ⟨⟨t, ht⟩, -⟩ | ⟨ht, -⟩
    · rw [ht]
      exact ⟨fun _ _ => rfl, fun c hc => by cases hc⟩
    · rw [ht]
      refine fresh (convertH_run h _ (fun r hr => hs r ?_) rfl rfl rfl R D m name)
      simp only [SequenceObj.refs, List.mem_cons, List.not_mem_nil, or_false, or_self] at hr
      simp [SequenceObj.refs, hr]
  · obtain ⟨x, e, hx, -⟩ := convertH_mismatched h s hs ho hlen R D m name
    rw [hx]
    exact ⟨fun r hr => items_append _ _ hr, fun c hc => by cases hc⟩

/-- **C96**, mismatched arrays: if there are offsets and the four arrays differ in length the conversion
raises an error; no pulse is ever dropped or padded. -/
theorem C96_mismatched (h : Heap α) (s : SequenceObj α) (hs : ∀ r ∈ s.refs, r < h.length)
    (ho : h.items s.offsets ≠ [])
    (hne : ¬ ((h.items s.rabiRotations).length = (h.items s.offsets).length ∧
      (h.items s.azimuthalAngles).length = (h.items s.offsets).length ∧
      (h.items s.detuningRotations).length = (h.items s.offsets).length))
    (R D m : α) (name : Option String) :
    (∃ text, (convertH s R D m name h).1 = .error (.arguments text)) ∨
      ∃ text, (convertH s R D m name h).1 = .error (.valueError text) := by
  obtain ⟨x, e, hx, ⟨t, rfl⟩ | ⟨t, rfl⟩⟩ := convertH_mismatched h s hs ho hne R D m name
  · exact .inl ⟨t, by rw [hx]⟩
  · exact .inr ⟨t, by rw [hx]⟩

end Any

theorem empty_conversion {T R D m : ℝ} {name n : Option String} {c : DrivenControl ℝ}
    (h : convertDDS ⟨T, [], [], [], [], n⟩ R D m name = .ok c) :
    0 < T ∧ c = freeEvolution T name := by
  rcases convertDDS_validates rfl rfl rfl h with hs | ⟨-, h'⟩
  · refine ⟨hs.facts.1, ?_⟩
    obtain ⟨hc, ⟨-, rfl⟩ | ⟨-, rfl⟩⟩ := converted hs h
    · rfl
    · have hT := hs.facts.1
      have hw : ∀ t, width R D m (idlePulse t) = 0 := fun t => by simp [width, idlePulse, Negligible]
      have hk : ∀ t, keep (pulseSeg R D m (idlePulse t)) = [] := fun t =>
        keep_nonpos (by simp [pulseSeg, hw])
      have hpad : pad T (pulseList ⟨T, [], [], [], [], n⟩) = [idlePulse 0, idlePulse T] := by
        simp [pad, pulseList]
      have hwin : window T R D m (idlePulse 0) = (0, 0) ∧ window T R D m (idlePulse T) = (T, T) := by
        unfold window
        rw [hw, hw]
        simp [idlePulse, hT.ne']
      show ofSegments (kept T R D m (pad T (pulseList ⟨T, [], [], [], [], n⟩))) name = _
      rw [hpad, kept_cons, kept_singleton, hk, hk, hwin.1, hwin.2, sub_zero, keep_pos hT]
      rfl
  · cases h'

theorem empty_convertible {T R D m : ℝ} {n : Option String} (hT : 0 < T) :
    Convertible R D m ⟨T, [], [], [], [], n⟩ ↔ 0 < R ∧ 0 < D ∧ 0 ≤ m ∧ (m < T ∨ NearValue T m) := by
  simp [Convertible, pulseList, windows, EachGap]

/-- **C96**, no offsets: if the array of offsets is empty the conversion checks the other arrays, then
ignores them: it returns free evolution for the duration.  Their rotations are lost. -/
theorem C96_no_offsets (h : Heap ℝ) (s : SequenceObj ℝ) (hs : ∀ r ∈ s.refs, r < h.length)
    (ho : h.items s.offsets = []) (R D m : ℝ) (name : Option String) :
    Returns ((convertH s R D m name h).1.map (ControlObj.value (convertH s R D m name h).2))
      (0 < R ∧ 0 < D ∧ 0 ≤ m ∧ (∀ r ∈ h.items s.rabiRotations, 0 ≤ r) ∧
        (∀ p ∈ (h.items s.rabiRotations).zip (h.items s.detuningRotations), ¬ (0 < p.1 ∧ 0 < p.2)) ∧
        0 < s.duration ∧ (m < s.duration ∨ NearValue s.duration m))
      (fun c => c = ⟨[0], [0], [0], [s.duration], name⟩) := by
  have hrun := (convertH_run h ⟨s.duration, s.offsets, s.offsets, s.offsets, s.offsets, s.name⟩
      (fun r hr => hs r (by
        simp only [SequenceObj.refs, List.mem_cons, List.not_mem_nil, or_false, or_self] at hr
        simp [SequenceObj.refs, hr])) rfl rfl rfl R D m name).value
  have e : SequenceObj.value h ⟨s.duration, s.offsets, s.offsets, s.offsets, s.offsets, s.name⟩ =
      ⟨s.duration, [], [], [], [], s.name⟩ := by simp [SequenceObj.value, ho]
  rw [e] at hrun
  have hvalid : checkValidOperation (h.items s.rabiRotations) (h.items s.detuningRotations) = true ↔
      ∀ p ∈ (h.items s.rabiRotations).zip (h.items s.detuningRotations), ¬ (0 < p.1 ∧ 0 < p.2) := by
    unfold checkValidOperation
    generalize h.items s.rabiRotations = a
    generalize h.items s.detuningRotations = b
    induction a generalizing b with
    | nil => simp
    | cons x a ih =>
      cases b with
      | nil => simp
      | cons y b =>
        have := ih b
        simp only [Bool.not_eq_true', List.zipWith_cons_cons, List.any_cons, Bool.or_eq_false_iff,
          List.zip_cons_cons, List.forall_mem_cons] at this ⊢
        rw [this]
        simp
  constructor
  · rintro ⟨h1, h2, h3, h4, h5, hT, h6⟩
    rcases convertH_empty h s ho R D m name with ⟨-, ht⟩ | ⟨ht, -⟩
    · exact absurd ⟨by simpa using h2, by simpa using h1, by simpa using h3, by simpa using h4,
        hvalid.mpr h5⟩ ht
    · rw [ht, hrun]
      have hc : (⟨s.duration, [], [], [], [], s.name⟩ : Sequence ℝ).Constructed :=
        constructed_of_facts hT (by simp) rfl rfl rfl
      obtain ⟨c, hc', -⟩ := (convertDDS_returns hc R D m name).1
        ((empty_convertible hT).mpr ⟨h1, h2, h3, h6⟩)
      exact ⟨c, hc', (empty_conversion hc').2⟩
  · intro hn
    rcases convertH_empty h s ho R D m name with ⟨⟨t, ht⟩, -⟩ | ⟨ht, h2, h1, h3, h4, h5⟩
    · rw [ht]; exact ⟨t, rfl⟩
    · rw [ht, hrun]
      have h1' : 0 < R := by simpa using h1
      have h2' : 0 < D := by simpa using h2
      have h3' : 0 ≤ m := by simpa using h3
      have h4' : ∀ r ∈ h.items s.rabiRotations, 0 ≤ r := by simpa using h4
      by_cases hT : 0 < s.duration
      · exact (convertDDS_returns (constructed_of_facts hT (by simp) rfl rfl rfl) R D m name).2
          fun hc => hn ⟨h1', h2', h3', h4', hvalid.mp h5, hT,
            ((empty_convertible hT).mp hc).2.2.2⟩
      · have hd : (Py.npDiff ((padOperations s.duration (operationsOf [] [] [] [])).map
            Operation.offset)).any (fun d => PyFloat.le d (PyFloat.lit 0)) = true := by
          simp [operationsOf, padOperations, idleAt, Py.npDiff, not_lt.mp hT]
        rw [convertDDS_eq]
        simp only [hd]
        rw [checkArguments_bind, if_pos h2, checkArguments_bind, if_pos h1, checkArguments_bind, if_pos h3,
          checkArguments_bind, if_pos (by simp), checkArguments_bind,
          if_pos (by simp [checkValidOperation]), checkArguments_bind, if_neg (by simp)]
        exact ⟨_, rfl⟩

/-- **C96.** The conversion checks again what the constructor checked.  If it returns, whatever the
attributes were set to, then either the constructor accepts the attributes as they are now, and the result
is the one for the sequence so constructed; or there are no offsets; or the duration is 0 and there is a
single pulse, at time 0. -/
theorem C96_validates (h : Heap ℝ) (s : SequenceObj ℝ) (hs : ∀ r ∈ s.refs, r < h.length) (R D m : ℝ)
    (name : Option String) (c : ControlObj) (h' : Heap ℝ)
    (hc : convertH s R D m name h = (.ok c, h')) :
    ((s.value h).Constructed ∧ convertDDS (s.value h) R D m name = .ok (c.value h')) ∨
    h.items s.offsets = [] ∨
    (s.duration = 0 ∧ h.items s.offsets = [0] ∧ (h.items s.rabiRotations).length = 1 ∧
      (h.items s.azimuthalAngles).length = 1 ∧ (h.items s.detuningRotations).length = 1) := by
  by_cases ho : h.items s.offsets = []
  · exact .inr (.inl ho)
  by_cases hlen : (h.items s.rabiRotations).length = (h.items s.offsets).length ∧
      (h.items s.azimuthalAngles).length = (h.items s.offsets).length ∧
      (h.items s.detuningRotations).length = (h.items s.offsets).length
  · have key := (convertH_run h s hs hlen.1 hlen.2.1 hlen.2.2 R D m name).value
    rw [hc] at key
    have key : convertDDS (s.value h) R D m name = .ok (c.value h') := key.symm
    rcases convertDDS_validates (s := s.value h) hlen.1 hlen.2.1 hlen.2.2 key with h1 | ⟨h1, h2⟩
    · exact .inl ⟨h1, key⟩
    · have h2 : h.items s.offsets = [0] := h2
      rw [h2] at hlen
      exact .inr (.inr ⟨h1, h2, hlen.1, hlen.2.1, hlen.2.2⟩)
  · obtain ⟨x, e, hx, -⟩ := convertH_mismatched h s hs ho hlen R D m name
    rw [hx] at hc
    cases hc

/-- **C96**, the exception: a sequence of duration 0 with one pulse at time 0 cannot be constructed, but if
the duration is set to 0 later the conversion returns a control that takes as long as the pulse. -/
theorem C96_zero_duration (θ φ R D : ℝ) (hθ : 1 / 10 ^ 8 < θ) (hR : 0 < R) (hD : 0 < D)
    (hw : 1 / 10 ^ 8 < θ / R) (name n : Option String) :
    convertDDS ⟨0, [0], [θ], [φ], [0], n⟩ R D 0 name = .ok ⟨[R], [φ], [0], [θ / R], name⟩ ∧
      ∀ name' s, Sequence.new (0 : ℝ) [0] [θ] [φ] [0] name' ≠ .ok s := by
  have hθ0 : 0 < θ := lt_trans (by norm_num) hθ
  have hw0 : 0 < θ / R := div_pos hθ0 hR
  have hclose : Py.isClose θ (PyFloat.lit 0) = false := by
    rw [Bool.eq_false_iff, ne_eq, isClose_zero', Negligible, abs_of_pos hθ0]
    exact not_le.mpr hθ
  have zl : (PyFloat.lit 0 : ℝ) = 0 := by simp
  rw [zl] at hclose
  refine ⟨?_, fun name' s h => ?_⟩
  · have hse : shiftLast 0 (shiftFirst ([(⟨0, θ, φ, 0⟩ : Operation ℝ)].map (pulseStartEnd R D 0))) =
        [(-(θ / R), 0)] := by
      have hh : pulseStartEnd R D 0 ⟨0, θ, φ, 0⟩ = (-(θ / R / 2), θ / R / 2) := by
        unfold pulseStartEnd halfPulseDuration
        simp only [zl, hclose, Bool.not_false, if_true, pyMax_eq, max_eq_left hw0.le]
        rw [Prod.mk.injEq]
        rw [lit_eq]
        constructor <;> push_cast <;> ring
      rw [List.map_singleton, hh]
      have h1 : PyFloat.lt (-(θ / R / 2)) 0 = true := by
        rw [lt_iff]; linarith
      have h2 : Py.gt (θ / R / 2 + (0 - -(θ / R / 2))) 0 = true := by
        rw [gt_iff]; linarith
      simp only [shiftFirst, zl, h1, if_true, shiftLast, h2]
      congr 1
      rw [Prod.mk.injEq]
      constructor <;> ring
    have hsmall : Py.isClose (-(θ / R)) 0 = false := by
      rw [← zl, Bool.eq_false_iff, ne_eq, isClose_zero', Negligible, abs_neg, abs_of_pos hw0]
      exact not_le.mpr hw
    have hops : padOperations (0 : ℝ) (operationsOf [0] [θ] [φ] [0]) = [⟨0, θ, φ, 0⟩] := by
      simp [operationsOf, padOperations]
    have hseg : (buildSegments ([(⟨0, θ, φ, 0⟩ : Operation ℝ)].zip [(-(θ / R), (0 : ℝ))])).filter
        (fun g => Py.gt g.duration (PyFloat.lit 0)) = [⟨R, φ, 0, θ / R⟩] := by
      have h1 : (0 : ℝ) - -(θ / R) = θ / R := by ring
      have h2 : Py.gt (θ / R) 0 = true := by simpa using hw0
      have h3 : Py.gt (0 : ℝ) 0 = false := by simp
      have h4 : θ / (θ / R) = R := by field_simp
      simp only [List.zip_cons_cons, List.zip_nil_left, buildSegments, pulseSegment, zl, h1, h2,
        if_true, hclose, Bool.not_false, h4]
      rw [List.filter_cons_of_pos (by exact h2), List.filter_cons_of_neg (by simp [h3]), List.filter_nil]
    rw [convertDDS_eq]
    simp only [hops, hse, hseg]
    rw [checkArguments_bind, if_pos (by simpa using hD), checkArguments_bind, if_pos (by simpa using hR),
      checkArguments_bind, if_pos (by simp), checkArguments_bind, if_pos (by simpa using hθ0.le),
      checkArguments_bind, if_pos (by simp [checkValidOperation]), checkArguments_bind,
      if_pos (by simp [Py.npDiff]), checkArguments_bind, if_pos (by simp [gapDurations]), 
      if_neg (by simp [hsmall])]
    exact new_ofSegments (gs := [⟨R, φ, 0, θ / R⟩]) (by simpa using hw0) (by simpa using hR.le) name
  · rw [Sequence.new_eq, if_neg (by simp)] at h
    cases h

/-- The cases occur.  A sequence of duration 2 with an X rotation by 1 at time 1 can be converted after its
Rabi rotation was set to 2; with a second offset appended, to which the other arrays have no entry, there
is an error; with all offsets removed it is free evolution. -/
example : ∃ (h : Heap ℝ) (s s' s'' : SequenceObj ℝ), (∀ r ∈ s.refs, r < h.length) ∧
    (∀ r ∈ s'.refs, r < h.length) ∧ (∀ r ∈ s''.refs, r < h.length) ∧
    (∃ c, (convertH s 10 10 0 none h).1 = .ok c) ∧
    (h.items s'.offsets ≠ [] ∧ (h.items s'.rabiRotations).length ≠ (h.items s'.offsets).length) ∧
    (h.items s''.offsets = [] ∧ h.items s''.rabiRotations = [2] ∧
      ∃ c, (convertH s'' 10 10 0 none h).1 = .ok c) := by
  have hs : (single 2 1 2 0 0).Constructed := single_constructed (by norm_num) (by norm_num) (by norm_num)
  have he : (⟨2, [], [], [], [], none⟩ : Sequence ℝ).Constructed :=
    constructed_of_facts (by norm_num) (by simp) rfl rfl rfl
  have hn : ¬ Negligible 2 := by unfold Negligible; norm_num
  have ok : ∀ {run : Except PyErr ControlObj × Heap ℝ} {v : DrivenControl ℝ},
      run.1.map (ControlObj.value run.2) = .ok v → ∃ c, run.1 = .ok c := by
    rintro ⟨(x | c), h⟩ v hv
    · cases hv
    · exact ⟨c, rfl⟩
  let h : Heap ℝ := [[1], [2], [0], [0], [1, 3 / 2], []]
  refine ⟨h, ⟨2, 0, 1, 2, 3, none⟩, ⟨2, 4, 1, 2, 3, none⟩, ⟨2, 5, 1, 2, 3, none⟩, ?_, ?_, ?_, ?_, ?_, rfl, rfl,
    ?_⟩
  · decide
  · decide
  · decide
  · obtain ⟨c, hc, -⟩ := (C46_convertible _ hs 10 10 0 none).1 (by
      refine ⟨by norm_num, by norm_num, le_rfl, by simp [pulseList, single], by simp [pulseList, single],
        by simp [single], ?_⟩
      simp [EachGap, windows, window, width, single, pulseList, hn]
      norm_num)
    exact ok ((convertH_run h ⟨2, 0, 1, 2, 3, none⟩ (by decide) rfl rfl rfl 10 10 0 none).value.trans hc)
  · exact ⟨by simp [h, Heap.items], by simp [h, Heap.items]⟩
  · obtain ⟨c, hc, -⟩ := (C46_convertible _ he 10 10 0 none).1 (by
      refine ⟨by norm_num, by norm_num, le_rfl, by simp [pulseList], by simp [pulseList], by simp, ?_⟩
      simp [EachGap, windows, pulseList])
    rcases convertH_empty h ⟨2, 5, 1, 2, 3, none⟩ rfl 10 10 0 none with ⟨-, ht⟩ | ⟨ht, -⟩
    · exact absurd ⟨by norm_num, by norm_num, by norm_num, by simp [h, Heap.items],
        by simp [h, Heap.items, checkValidOperation]⟩ ht
    · rw [ht]
      exact ok ((convertH_run h ⟨2, 5, 5, 5, 5, none⟩ (by decide) rfl rfl rfl 10 10 0 none).value.trans hc)

end OpenControls
