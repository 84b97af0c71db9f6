import Verif.Proofs.Shapes

/-!
# C79: arguments that are not 1-D arrays

The two constructors on numpy arrays of any shape (`Verif/Model/Shapes.lean`).
-/

namespace OpenControls

open PyFloat Py Spec NdArray

section Any
variable {α : Type} [Add α] [Sub α] [Mul α] [Div α] [Neg α] [PyFloat α]

/-- **C79.** On 1-D arguments the constructors do what the rest of the model says, and so does `angles`
(for every arithmetic). -/
theorem C79_flat (t : List α) (r a d : Option (List α)) (name : Option String) :
    NdControl.new (vec t) (r.map vec) (a.map vec) (d.map vec) name =
      (DrivenControl.new t r a d name).map flatControl ∧
    (∀ c, DrivenControl.new t r a d name = .ok c →
      (flatControl c).angles = .ok (vec c.angles) ∧ (flatControl c).times = c.times ∧
      (flatControl c).duration = c.duration) ∧
    ∀ (T : α) (o r a d : List α) (name : Option String),
      NdSequence.new T (vec o) (vec r) (vec a) (vec d) name =
        (Sequence.new T o r a d name).map flatSequence := by
  refine ⟨new_flat t r a d name, fun c hc => ⟨?_, rfl, rfl⟩, fun T o r a d name => ?_⟩
  · have hc' : c.Constructed := ⟨_, _, _, _, _, hc⟩
    obtain ⟨h1, h2, h3, h4⟩ := hc'.lengths
    have := (flat_amplitudes (c := c) (k := flatControl c) (h2.trans h1.symm) (h3.trans h1.symm)
      rfl rfl rfl).2.2
    rw [this]
    unfold DrivenControl.angles flatControl
    rw [bin_vec]
    simp [DrivenControl.amplitudes, DrivenControl.amplitudeX, DrivenControl.amplitudeY, h1, h2, h3,
      h4]
  · unfold NdSequence.new Sequence.new
    simp only [bind, Except.bind, NdArray.len, vec]
    cases checkArguments (gt T (lit 0)) "Sequence duration must be above zero." with
    | error e => rfl
    | ok _ =>
      simp only
      generalize checkArguments _ "Offsets for dynamic decoupling sequence must be between 0 and the sequence duration (inclusive). " = k1
      cases k1 with
      | error e => rfl
      | ok _ =>
        simp only
        cases checkArguments (r.length == o.length)
          "rabi rotations must have the same length as offsets. " with
        | error e => rfl
        | ok _ =>
          simp only
          cases checkArguments (a.length == o.length)
            "azimuthal angles must have the same length as offsets. " with
          | error e => rfl
          | ok _ =>
            simp only
            cases checkArguments (d.length == o.length)
              "detuning rotations must have the same length as offsets. " <;> rfl

/-- **C79.** A single number for the durations raises `TypeError`, a matrix `ValueError` (neither is the
`ArgumentsValueError` of the library), whatever the other arguments. -/
theorem C79_scalar_and_matrix (durations : NdArray α) (r a d : Option (NdArray α))
    (name : Option String) :
    (durations.shape = [] → ∃ m, NdControl.new durations r a d name = .error (.typeError m)) ∧
    (∀ n rest, durations.shape = n :: rest → n ≠ 0 → 2 ≤ rest.prod →
      ∃ m, NdControl.new durations r a d name = .error (.valueError m)) := by
  constructor
  · intro h
    refine ⟨"'numpy.bool_' object is not iterable", ?_⟩
    unfold NdControl.new pyAll
    rw [h]; rfl
  · intro n rest h hn hr
    refine ⟨"The truth value of an array with more than one element is ambiguous.", ?_⟩
    unfold NdControl.new pyAll
    rw [h]
    simp only [if_neg hn, if_neg (show rest.prod ≠ 1 by omega), if_neg (show rest.prod ≠ 0 by omega)]
    rfl

/-- **C79.** Durations given as a column: from two segments on `angles` is a matrix with all products of
an amplitude and a duration instead of the list of rotation angles, without any error. -/
theorem C79_column_angles (c : DrivenControl α) (hc : c.Constructed) (h2 : 2 ≤ c.durations.length) :
    (columnControl c).times = c.times ∧ (columnControl c).duration = c.duration ∧
    ∃ b, (columnControl c).angles = .ok b ∧
      b.shape = [c.durations.length, c.durations.length] ∧
      ∀ (i j : ℕ) (x t : α), c.amplitudes[j]? = some x → c.durations[i]? = some t →
        b.data[i * c.durations.length + j]? = some (x * t) := by
  obtain ⟨h1, h3, h4, h5⟩ := hc.lengths
  have hl : c.amplitudes.length = c.durations.length := by
    simp [DrivenControl.amplitudes, DrivenControl.amplitudeX, DrivenControl.amplitudeY, h1, h3, h4,
      h5]
  have key := (flat_amplitudes (c := c) (k := columnControl c) (h3.trans h1.symm) (h4.trans h1.symm)
      rfl rfl rfl).2.2
  refine ⟨rfl, rfl, ?_⟩
  obtain ⟨b, e1, e2, -, e3⟩ := bin_column (· * ·) c.amplitudes c.durations hl (hl ▸ h2)
  refine ⟨b, key.trans e1, hl ▸ e2, fun i j x t hx ht => ?_⟩
  have := e3 i j x t hx ht
  rwa [hl] at this

end Any

/-- **C79.** Which arguments a control is made of, in exact arithmetic: durations and Rabi rates must have
one number at each place along the first axis (so columns are accepted), the azimuthal angles and the
detunings may have any shape at all, as long as the numbers of items agree. -/
theorem C79_control_accepts (durations : NdArray ℝ) (r a d : Option (NdArray ℝ))
    (name : Option String) :
    (∃ c, NdControl.new durations r a d name = .ok c) ↔
      AllItems (fun t => 0 < t) durations ∧
      (∀ x ∈ [r, a, d], ∀ y, x = some y → y.size = durations.size) ∧
      ∀ y, r = some y → AllItems (fun x => 0 ≤ x) y := by
  have hd := pyAll_true_iff (fun t => gt t (lit 0)) durations
  have hz : ∀ n, (vec (List.replicate n (lit 0 : ℝ))).pyAll (fun x => ge x (lit 0)) = .ok true := by
    intro n
    rw [pyAll_vec]
    congr 1
    rw [List.all_eq_true]
    intro x hx
    rw [List.eq_of_mem_replicate hx]
    simp
  have hlt : ∀ t : ℝ, gt t (lit 0) = true ↔ 0 < t := by intro t; simp
  have hge : ∀ t : ℝ, ge t (lit 0) = true ↔ 0 ≤ t := by intro t; simp
  have hsz := sizes_iff durations r a d
  unfold SizesAgree at hsz
  rw [nd_new_eq, ← hsz]
  simp only [hlt] at hd
  constructor
  · rintro ⟨c, hc⟩
    split at hc
    · cases hc
    · cases hc
    · rename_i h1
      split at hc
      · rename_i h2
        refine ⟨hd.mp h1, h2, fun y hy => ?_⟩
        split at hc
        · cases hc
        · split at hc
          · cases hc
          · cases hc
          · rename_i n _ h3
            rw [hy] at h3
            have := (pyAll_true_iff _ _).mp h3
            simpa only [hge, Option.getD_some] using this
      · cases hc
  · rintro ⟨h1, h2, h3⟩
    rw [hd.mpr h1]
    simp only [h2, if_true]
    obtain ⟨n, rest, hs, -⟩ := h1
    have hl : durations.len = .ok n := by simp [NdArray.len, hs]
    rw [hl]
    cases r with
    | none =>
      simp only [Option.getD_none]
      rw [hz]
      exact ⟨_, rfl⟩
    | some y =>
      simp only [Option.getD_some]
      rw [(pyAll_true_iff _ _).mpr (by simpa only [hge] using h3 y rfl)]
      exact ⟨_, rfl⟩

/-- **C79.** If the durations and the Rabi rates (when given) are 1-D arrays or columns, the only exception
is `ArgumentsValueError`. -/
theorem C79_control_errors (durations : NdArray ℝ) (r a d : Option (NdArray ℝ))
    (name : Option String) (ht : LineLike durations) (hr : ∀ y, r = some y → LineLike y) (e : PyErr)
    (h : NdControl.new durations r a d name = .error e) : e.isArguments = true := by
  have line : ∀ (p : ℝ → Bool) (y : NdArray ℝ), LineLike y → ∀ e, y.pyAll p ≠ .error e := by
    rintro p y ⟨n, rest, hs, h1⟩ e
    unfold pyAll
    rw [hs]
    simp only [if_pos h1]
    split <;> simp
  rw [nd_new_eq] at h
  split at h
  · exact absurd ‹_› (line _ _ ht _)
  · cases h; rfl
  · split at h
    · split at h
      · obtain ⟨n, rest, hs, -⟩ := ht
        rename_i hl
        simp [NdArray.len, hs] at hl
      · split at h
        · rename_i h3
          refine absurd h3 (line _ _ ?_ _)
          cases r with
          | none => exact ⟨_, [], rfl, rfl⟩
          | some y => exact hr y rfl
        · cases h; rfl
        · cases h
    · cases h; rfl

/-- **C79.** Azimuthal angles of another shape are not noticed by the constructor; the accessors then fail
with numpy's `ValueError`: `k · l` segments with the angles as a `k × l` matrix. -/
theorem C79_accepted_unusable (k l : ℕ) (hk : 2 ≤ k) (hl : 2 ≤ l) (t : List ℝ)
    (ht : t.length = k * l) (hpos : ∀ x ∈ t, 0 < x) (angles : NdArray ℝ)
    (hs : angles.shape = [k, l]) (name : Option String) :
    ∃ c, NdControl.new (vec t) none (some angles) none name = .ok c ∧
      ∃ m, c.amplitudeX = .error (.valueError m) ∧ c.angles = .error (.valueError m) := by
  have hn : t.length ≠ l ∧ t.length ≠ 1 ∧ l ≠ 1 := by
    rw [ht]
    refine ⟨?_, ?_, by omega⟩ <;> nlinarith
  have h1 : (vec t).pyAll (fun t => gt t (lit 0)) = .ok true := by
    rw [pyAll_true_iff]
    exact ⟨_, [], rfl, .inr ⟨rfl, fun x hx => by simpa using hpos x hx⟩⟩
  have h2 := (sizes_iff (vec t) none (some angles) none).mpr (by
    intro x hx y hy
    simp only [List.mem_cons, List.not_mem_nil, or_false] at hx
    rcases hx with rfl | rfl | rfl <;> simp only [reduceCtorEq, Option.some.injEq] at hy
    subst hy
    simp [NdArray.size, hs, vec, ht])
  have h3 : (vec (List.replicate t.length (lit 0 : ℝ))).pyAll (fun x => ge x (lit 0)) = .ok true := by
    rw [pyAll_vec]
    congr 1
    rw [List.all_eq_true]
    intro x hx
    rw [List.eq_of_mem_replicate hx]
    simp
  have hlen : (vec t).len = .ok t.length := rfl
  refine ⟨_, by
    rw [nd_new_eq, h1]
    simp only [h2, if_true, hlen, Option.getD_none, h3, Option.getD_some]
    rfl, "operands could not be broadcast together", ?_⟩
  have hx : NdControl.amplitudeX ⟨vec (List.replicate t.length (lit 0 : ℝ)), angles,
      vec (List.replicate t.length (lit 0)), vec t, name⟩ =
      .error (.valueError "operands could not be broadcast together") := by
    unfold NdControl.amplitudeX bin
    have : broadcast [t.length] [l, k] = none := by
      simp [broadcast, hn.1, hn.2.1, hn.2.2]
    simp only [NdArray.un, hs, vec, List.length_replicate, List.reverse_cons, List.reverse_nil,
      List.nil_append, List.cons_append, this]
  refine ⟨hx, ?_⟩
  unfold NdControl.angles
  rw [hx]
  rfl

/-- **C79.** Which arguments a sequence is made of: only the lengths along the first axes are compared. -/
theorem C79_sequence_accepts (T : ℝ) (o r a d : NdArray ℝ) (name : Option String) :
    (∃ s, NdSequence.new T o r a d name = .ok s) ↔
      0 < T ∧ (∀ t ∈ o.data, 0 ≤ t ∧ t ≤ T) ∧
      ∃ n, FirstAxis n o ∧ FirstAxis n r ∧ FirstAxis n a ∧ FirstAxis n d := by
  have len : ∀ (x : NdArray ℝ) (n : ℕ), x.len = .ok n ↔ FirstAxis n x := by
    intro x n
    unfold NdArray.len FirstAxis
    cases x.shape <;> simp
  constructor
  · rintro ⟨s, hs⟩
    unfold NdSequence.new at hs
    simp only [bind, Except.bind, checkArguments] at hs
    split at hs
    · cases hs
    rename_i hT
    split at hT
    · rename_i hT'
      split at hs
      · cases hs
      rename_i ho
      split at ho
      · rename_i ho'
        cases h1 : o.len with
        | error e => rw [h1] at hs; cases hs
        | ok n =>
          cases h2 : r.len with
          | error e => rw [h1, h2] at hs; cases hs
          | ok n2 =>
            by_cases e2 : n2 = n
            · subst e2
              cases h3 : a.len with
              | error e => rw [h1, h2, h3] at hs; simp at hs
              | ok n3 =>
                by_cases e3 : n3 = n2
                · subst e3
                  cases h4 : d.len with
                  | error e => rw [h1, h2, h3, h4] at hs; simp at hs
                  | ok n4 =>
                    by_cases e4 : n4 = n3
                    · subst e4
                      refine ⟨by simpa using hT', ?_, n4, (len _ _).mp h1, (len _ _).mp h2,
                        (len _ _).mp h3, (len _ _).mp h4⟩
                      simpa using ho'
                    · rw [h1, h2, h3, h4] at hs; simp [e4] at hs
                · rw [h1, h2, h3] at hs; simp [e3] at hs
            · rw [h1, h2] at hs; simp [e2] at hs
      · cases ho
    · cases hT
  · rintro ⟨hT, ho, n, h1, h2, h3, h4⟩
    refine ⟨⟨T, o, r, a, d, name⟩, ?_⟩
    unfold NdSequence.new
    rw [(len _ _).mpr h1, (len _ _).mpr h2, (len _ _).mpr h3, (len _ _).mpr h4]
    have e1 : gt T (lit 0) = true := by simpa using hT
    have e2 : (o.data.all fun t => ge t (lit 0) && ge T t) = true := by simpa using ho
    rw [e1, e2]
    simp [checkArguments, bind, Except.bind, pure, Except.pure]

/-- Two segments of 1 and 2 seconds with Rabi rates 3 and 4: the rotation angles are 3 and 8; with the
durations as a column `angles` is the matrix `[[3, 4], [6, 8]]`. -/
example : ∃ c : DrivenControl ℝ, c.Constructed ∧ c.durations = [1, 2] ∧ c.amplitudes = [3, 4] ∧
    c.angles = [3, 8] ∧
    NdControl.new ⟨[2, 1], [1, 2]⟩ (some (vec [3, 4])) none none none = .ok (columnControl c) ∧
    (columnControl c).angles = .ok ⟨[2, 2], [3, 4, 6, 8]⟩ := by
  have s3 : Real.sqrt (3 * 3) = 3 := Real.sqrt_mul_self (by norm_num)
  have s4 : Real.sqrt (4 * 4) = 4 := Real.sqrt_mul_self (by norm_num)
  have ha : DrivenControl.amplitudes (⟨[3, 4], [0, 0], [0, 0], [1, 2], none⟩ : DrivenControl ℝ) =
      [3, 4] := by
    simp [DrivenControl.amplitudes, DrivenControl.amplitudeX, DrivenControl.amplitudeY, s3, s4]
  have hc : DrivenControl.Constructed (⟨[3, 4], [0, 0], [0, 0], [1, 2], none⟩ : DrivenControl ℝ) := by
    rw [DrivenControl.constructed_iff]
    simp
  refine ⟨⟨[3, 4], [0, 0], [0, 0], [1, 2], none⟩, hc, rfl, ha, ?_, ?_, ?_⟩
  · unfold DrivenControl.angles
    rw [ha]
    norm_num
  · have g1 : (gt (1 : ℝ) 0 && gt (2 : ℝ) 0) = true := by simp
    have g2 : (ge (3 : ℝ) 0 && ge (4 : ℝ) 0) = true := by simp
    simp [nd_new_eq, pyAll, NdArray.len, NdArray.size, vec, pySet, columnControl, flatControl, g1, g2]
  · have := (flat_amplitudes (c := (⟨[3, 4], [0, 0], [0, 0], [1, 2], none⟩ : DrivenControl ℝ))
      (k := columnControl ⟨[3, 4], [0, 0], [0, 0], [1, 2], none⟩) rfl rfl rfl rfl rfl).2.2
    rw [this, ha]
    simp [bin, broadcast, vec, columnControl, List.range_succ, ravel, unravel]
    norm_num

/-- The hypotheses of the other theorems: a 2 × 2 matrix of durations, one duration as a number, four
segments with a 2 × 2 matrix of angles, a sequence whose rotations are given as columns. -/
example : (∃ m, NdControl.new (⟨[2, 2], [1, 1, 1, 1]⟩ : NdArray ℝ) none none none none =
      .error (.valueError m)) ∧
    (∃ m, NdControl.new (⟨[], [1]⟩ : NdArray ℝ) none none none none = .error (.typeError m)) ∧
    (∃ c, NdControl.new (vec [1, 1, 1, (1 : ℝ)]) none (some ⟨[2, 2], [0, 0, 0, 0]⟩) none none = .ok c ∧
      ∃ m, c.angles = .error (.valueError m)) ∧
    ∃ s, NdSequence.new (2 : ℝ) (vec [1]) ⟨[1, 1], [3]⟩ ⟨[1, 2], [0, 0]⟩ (vec [0]) none = .ok s := by
  refine ⟨(C79_scalar_and_matrix _ _ _ _ _).2 2 [2] rfl (by norm_num) (by norm_num),
    (C79_scalar_and_matrix _ _ _ _ _).1 rfl, ?_, ?_⟩
  · obtain ⟨c, h1, m, -, h2⟩ := C79_accepted_unusable 2 2 le_rfl le_rfl [1, 1, 1, 1] rfl (by simp)
      ⟨[2, 2], [0, 0, 0, 0]⟩ rfl none
    exact ⟨c, h1, m, h2⟩
  · refine (C79_sequence_accepts _ _ _ _ _ _).mpr ⟨by norm_num, by simp [vec], 1, ⟨[], rfl⟩, ⟨[1], rfl⟩,
      ⟨[2], rfl⟩, ⟨[], rfl⟩⟩

end OpenControls
