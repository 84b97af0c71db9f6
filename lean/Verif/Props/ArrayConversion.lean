import Verif.Proofs.ArrayConversion
import Verif.Props.ArraySequences
import Verif.Props.EndToEnd

/-!
# C144: converting a sequence whose duration is an array

`withNumber s d` is the sequence with the number `d` as duration, which C97 is about; `SameNumbers` compares a control with 1-D arrays with
one with arrays of any shape.
-/

namespace OpenControls

open Spec RealInst NdArray PyFloat Py

section generic

variable {α : Type} [Add α] [Sub α] [Mul α] [Div α] [Neg α] [PyFloat α]

/-- **C144** In any arithmetic: a duration that is an array with one item raises what the item raises, and gives the same numbers.  Only the
shape of the durations can differ, and only if the control is a single segment as long as the sequence. -/
theorem C144_numbers (s : ArraySequence α) (d : α) (hd : s.duration.data = [d]) (hT : Regular s.duration) (R D m : α)
    (name : Option String) :
    (∀ e, convertArray s R D m name = .error e ↔ convertNd (withNumber s d) R D m name = .error e) ∧
    ∀ c, convertNd (withNumber s d) R D m name = .ok c →
      ∃ c', convertArray s R D m name = .ok c' ∧ SameNumbers s.duration c c' := by
  have h := convertArray_both s hd hT R D m name
  cases hx : convertNd (withNumber s d) R D m name with
  | error e =>
    cases hy : convertArray s R D m name with
    | error e' =>
      rw [hx, hy] at h
      have h : e = e' := h
      subst h
      exact ⟨fun _ => ⟨fun h => by cases h; rfl, fun h => by cases h; rfl⟩, fun c hc => nomatch hc⟩
    | ok c' => rw [hx, hy] at h; exact h.elim
  | ok c =>
    cases hy : convertArray s R D m name with
    | error e' => rw [hx, hy] at h; exact h.elim
    | ok c' =>
      rw [hx, hy] at h
      refine ⟨fun e => iff_of_false (fun h => nomatch h) (fun h => nomatch h), fun c₂ hc => ?_⟩
      cases hc
      exact ⟨c', rfl, h.1⟩

/-- **C144** A Carr-Purcell, CPMG, Uhrig, periodic or Walsh sequence with several pulses whose duration is an array with two or more axes is
accepted (C131), but no hardware can carry it out. -/
theorem C144_two_axes (p : PlainSequence α) (k : ℕ) (T₀ : α) (nm : Option String) (s : Sequence α)
    (hp : match p with
      | .carrPurcell _ | .cpmg _ | .uhrig _ | .periodic _ | .walsh _ => True
      | _ => False)
    (hs : p.predefined.call T₀ false nm = .ok s) (hn : 2 ≤ s.offsets.length) :
    ∃ q, p.callArray ⟨List.replicate (k + 2) 1, [T₀]⟩ nm = .ok q ∧
      ∀ (R D m : α) (name : Option String) (c : NdControl α), convertArray q R D m name ≠ .ok c := by
  obtain ⟨q, hq, hdata, hshape, -, -⟩ := C131_first_axis p k T₀ nm s hp hs
  refine ⟨q, hq, fun R D m name c hc => ?_⟩
  have hreg : Regular (⟨List.replicate (k + 2) 1, [T₀]⟩ : NdArray α) := by simp [Regular]
  obtain ⟨T₁, s', h1, -, rfl⟩ := (C131_sequence p _ hreg nm q).mp hq
  cases h1
  have h := convertArray_both (p.shaped ⟨List.replicate (k + 2) 1, [T₀]⟩ s') (d := T₀) rfl hreg R D m name
  rw [hc] at h
  cases hx : convertNd (withNumber (p.shaped ⟨List.replicate (k + 2) 1, [T₀]⟩ s') T₀) R D m name with
  | error e => rw [hx] at h; exact h.elim
  | ok c₀ =>
    rw [hx] at h
    obtain ⟨-, a, -, ha, -⟩ := h
    have hsz : (p.shaped ⟨List.replicate (k + 2) 1, [T₀]⟩ s').offsets.size ≠ 0 := by
      unfold NdArray.size; rw [hshape]; intro h0; simp at h0; rw [h0] at hn; simp at hn
    have hne : (p.shaped ⟨List.replicate (k + 2) 1, [T₀]⟩ s').offsets.data ≠ [] := by
      rw [hdata]; intro h0; rw [h0] at hn; simp at hn
    obtain ⟨text, he⟩ := padNd_rows T₀ (opsOf (p.shaped ⟨List.replicate (k + 2) 1, [T₀]⟩ s')) (n := 1)
      (rest := List.replicate k 1 ++ [s.offsets.length]) (by
        show (p.shaped ⟨List.replicate (k + 2) 1, [T₀]⟩ s').offsets.shape = _
        rw [hshape, List.replicate_succ]; rfl) hsz (by simp; omega) (List.head?_eq_some_head hne)
    rw [he] at ha
    cases ha

end generic

private theorem newArraySequence_number {T : NdArray ℝ} {T₀ : ℝ} (hd : T.data = [T₀]) (o r a d : NdArray ℝ) (nm : Option String) :
    ArraySequence.new T o r a d nm = (NdSequence.new T₀ o r a d nm).map fun _ => ⟨T, o, r, a, d, nm⟩ := by
  unfold ArraySequence.new NdSequence.new NdArray.truth
  simp only [hd, except_ok_bind, List.all_cons, List.all_nil, Bool.and_true]
  generalize checkArguments _ "Sequence duration must be above zero." = k1
  cases k1 with
  | error e => rfl
  | ok _ =>
  generalize checkArguments _ "Offsets for dynamic decoupling sequence must be between 0 and the sequence duration (inclusive). " = k2
  cases k2 with
  | error e => rfl
  | ok _ =>
  cases o.len with
  | error e => rfl
  | ok n =>
  cases r.len with
  | error e => rfl
  | ok n1 =>
  cases a.len with
  | error e => simp only [except_ok_bind]; cases checkArguments (n1 == n) _ <;> rfl
  | ok n2 =>
  cases d.len with
  | error e =>
    simp only [except_ok_bind]
    cases checkArguments (n1 == n) _ <;> [rfl; skip]
    simp only [except_ok_bind]
    cases checkArguments (n2 == n) _ <;> rfl
  | ok n3 =>
    simp only [except_ok_bind]
    cases checkArguments (n1 == n) _ <;> [rfl; skip]
    simp only [except_ok_bind]
    cases checkArguments (n2 == n) _ <;> [rfl; skip]
    simp only [except_ok_bind]
    cases checkArguments (n3 == n) _ <;> rfl

private theorem above_core (s : ArraySequence ℝ) {T₀ : ℝ} (hd : s.duration.data = [T₀]) (hT : Regular s.duration) (h8 : 1 / 10 ^ 8 < T₀)
    (ho : Regular s.offsets) (hr : Regular s.rabiRotations) (ha : Regular s.azimuthalAngles) (hdr : Regular s.detuningRotations)
    (hb : ∀ t ∈ s.offsets.data, 0 ≤ t ∧ t ≤ T₀) (R D m : ℝ) (name : Option String) :
    convertArray s R D m name = (convertNd (withNumber s T₀) R D m name).map flatControl := by
  have hT0 : 0 ≤ T₀ := le_trans (by norm_num) h8.le
  have h := convertArray_both s hd hT R D m name
  cases hx : convertNd (withNumber s T₀) R D m name with
  | error e =>
    cases hy : convertArray s R D m name with
    | error e' =>
      rw [hx, hy] at h
      have h : e = e' := h
      rw [h]; rfl
    | ok c' => rw [hx, hy] at h; exact h.elim
  | ok c =>
    cases hy : convertArray s R D m name with
    | error e' => rw [hx, hy] at h; exact h.elim
    | ok c' =>
      rw [hx, hy] at h
      obtain ⟨-, x, hm, hp, s1, s2, s3, hfree⟩ := h
      obtain ⟨⟨f1, f2, f3, f4⟩, hlast, hbx⟩ := padNd_facts hT0 (x := opsOf s) ho hr ha hdr hb hp
      have hl := operationsOf_offsets x.offsets.data x.rabi.data x.azimuthal.data x.detuning.data
        (by rw [f2, f1, s1]) (by rw [f3, f1, s2]) (by rw [f4, f1, s3])
      rw [hfree]
      · rfl
      · rw [← Bool.not_eq_true]
        intro hf
        refine absurd (free_short (by simpa using hm) (fun p hp => ?_) (by rw [hl, hlast]) hf) (not_le.mpr h8)
        have : p.offset ∈ (operationsOf x.offsets.data x.rabi.data x.azimuthal.data x.detuning.data).map Operation.offset :=
          List.mem_map_of_mem hp
        rw [hl] at this
        exact hbx _ this

/-- **C144** Above 1e-8 the control has 1-D arrays, whatever the shape of the duration, and is that for the number. -/
theorem C144_above (T : NdArray ℝ) (T₀ : ℝ) (hd : T.data = [T₀]) (hT : Regular T) (h8 : 1 / 10 ^ 8 < T₀) (o r a d : NdArray ℝ)
    (nm : Option String) (ho : Regular o) (hr : Regular r) (ha : Regular a) (hdr : Regular d) (s : ArraySequence ℝ)
    (hs : ArraySequence.new T o r a d nm = .ok s) (R D m : ℝ) (name : Option String) :
    convertArray s R D m name = (convertNd (withNumber s T₀) R D m name).map flatControl := by
  rw [newArraySequence_number hd] at hs
  cases hn : NdSequence.new T₀ o r a d nm with
  | error e => rw [hn] at hs; cases hs
  | ok s₀ =>
    rw [hn] at hs
    cases hs
    obtain ⟨-, -, -, hb⟩ := accepted_wellShaped ho hr ha hdr hn
    exact above_core ⟨T, o, r, a, d, nm⟩ hd hT h8 ho hr ha hdr hb R D m name

/-- **C144**, predefined sequences: with a duration above 1e-8 given as an array with no axis or one axis, the nine sequences convert if they
do with the number, to the same control. -/
theorem C144_predefined (p : PlainSequence ℝ) (T₀ : ℝ) (h8 : 1 / 10 ^ 8 < T₀) (shape : List ℕ) (hsh : shape = [] ∨ shape = [1])
    (nm : Option String) (q : ArraySequence ℝ) (hq : p.callArray ⟨shape, [T₀]⟩ nm = .ok q) (s : Sequence ℝ)
    (hs : p.predefined.call T₀ false nm = .ok s) (R D m : ℝ) (name : Option String) (c' : NdControl ℝ) :
    convertArray q R D m name = .ok c' ↔ ∃ c, convertDDS s R D m name = .ok c ∧ c' = flatControl c := by
  rw [C131_one_axis p T₀ shape hsh nm s hs] at hq
  have hq := (Except.ok.inj hq).symm
  have hf : p.predefined.call T₀ false nm = p.family.call T₀ false nm := by cases p <;> rfl
  rw [hf] at hs
  obtain ⟨⟨hT0, -⟩, hw⟩ := (C43_well_formed p.family T₀ false nm).ok hs
  have hcon := hw.constructed hT0
  obtain ⟨w1, w2, w3, w4, w5, -⟩ := hw
  have hreg : Regular (⟨shape, [T₀]⟩ : NdArray ℝ) := by
    rcases hsh with rfl | rfl <;> rfl
  have hro : Regular q.offsets := by
    rw [hq]
    dsimp only
    split
    · rcases hsh with rfl | rfl <;> simp [Regular]
    · simp [Regular]
  have hdata : q.offsets.data = s.offsets := by
    rw [hq]
    dsimp only
    split <;> rfl
  have hcore := above_core q (T₀ := T₀) (by rw [hq]) (by rw [hq]; exact hreg) h8 hro (by rw [hq]; simp [Regular, w2])
    (by rw [hq]; simp [Regular, w3]) (by rw [hq]; simp [Regular, w4]) (by rw [hdata]; exact w5) R D m name
  have hnd : ∀ c, convertNd (withNumber q T₀) R D m name = .ok c ↔ convertDDS s R D m name = .ok c := by
    intro c
    have hflat : flattened (withNumber q T₀) = s := by
      unfold flattened withNumber
      dsimp only
      rw [hdata, hq, ← w1]
    by_cases hv : q.offsets = vec s.offsets
    · have : withNumber q T₀ = flatSequence s := by
        unfold withNumber flatSequence
        rw [hv, hq, ← w1]
        simp only [vec, w2, w3, w4]
      rw [this, C97_flat s hcon]
    · cases p with
      | spinEcho =>
        have hso : s.offsets = [T₀ / 2] := by
          have : s = piSequence T₀ [(T₀ / 2, .x)] nm := by
            have e := Family.call_eq (family := .spinEcho) trivial hT0 false nm
            exact Except.ok.inj (hs.symm.trans e)
          rw [this]; rfl
        have hshape : q.offsets.shape = 1 :: shape := by rw [hq]; simp [hso]
        have h1 : shape.prod = 1 := by rcases hsh with rfl | rfl <;> rfl
        have hT2 : T₀ / 2 ≠ 0 := by positivity
        have hne : ne (T₀ / 2) (lit 0) = true := by simpa using hT2
        have hwell : WellShaped (withNumber q T₀) := by
          refine ⟨hro, ?_, ?_, ?_, 1, ⟨shape, hshape⟩, ⟨[], ?_⟩, ⟨[], ?_⟩, ⟨[], ?_⟩⟩ <;>
            simp [withNumber, hq, Regular, w2, w3, w4, hso]
        have hsize : (withNumber q T₀).offsets.size ≠ 0 := by
          show q.offsets.shape.prod ≠ 0
          rw [hshape, List.prod_cons, h1]; norm_num
        constructor
        · intro hc
          obtain ⟨-, -, hc | ⟨-, ⟨t, ht, hz⟩, -⟩⟩ := convertNd_ok hwell hsize hc
          · rwa [hflat] at hc
          · have : q.offsets.data.head? = some t := ht
            rw [hdata, hso] at this
            cases this
            rw [hne] at hz
            cases hz
        · intro hc
          refine convertNd_of_flat hwell hsize ?_ ?_ ?_ ?_ (t := T₀ / 2) (e := T₀ / 2) ?_ ?_ (.inl hne) (by rwa [hflat])
          · show q.offsets.shape.tail.prod = 1
            rw [hshape]; exact h1
          · simp [withNumber, hq, rowSize]
          · simp [withNumber, hq, rowSize]
          · simp [withNumber, hq, rowSize]
          · show q.offsets.data.head? = _
            rw [hdata, hso]; rfl
          · show q.offsets.data.getLast? = _
            rw [hdata, hso]; rfl
      | _ => exact absurd (by rw [hq]; rfl) hv
  rw [hcore]
  constructor
  · intro h
    cases hx : convertNd (withNumber q T₀) R D m name with
    | error e => rw [hx] at h; cases h
    | ok c =>
      rw [hx] at h
      cases h
      exact ⟨c, (hnd c).mp hx, rfl⟩
  · rintro ⟨c, hc, rfl⟩
    rw [(hnd c).mpr hc]
    rfl

/-- **C144** Below 1e-8 the shape of the duration shows: the control of a Ramsey sequence for a duration with one axis has durations
with two axes. -/
theorem C144_short (T₀ : ℝ) (h0 : 0 < T₀) (h8 : T₀ ≤ 1 / 10 ^ 8) (R D : ℝ) (hR : 0 < R) (hD : 0 < D) (nm name : Option String) :
    ∃ q c', newRamseyArray ⟨[1], [T₀]⟩ nm = .ok q ∧ convertArray q R D 0 name = .ok c' ∧ c'.durations = ⟨[1, 1], [T₀]⟩ := by
  have e1 : newRamseyArray ⟨[1], [T₀]⟩ nm = .ok ⟨⟨[1], [T₀]⟩, vec [], vec [], vec [], vec [], nm⟩ := by
    simp [newRamseyArray, checkArrayDuration, NdArray.truth, ArraySequence.new, NdArray.len, vec, checkArguments, h0, pure, Except.pure,
      bind, Except.bind]
  have hp : padNd T₀ ⟨vec [], vec [], vec [], vec []⟩ =
      .ok ⟨vec [lit 0, T₀], vec [lit 0, lit 0], vec [lit 0, lit 0], vec [lit 0, lit 0]⟩ := by
    simp [padNd, NdArray.size, vec, itemDiffers, bind, Except.bind, pure, Except.pure]
  have n1 : |T₀| ≤ 1 / 10 ^ 8 := by rw [abs_of_pos h0]; exact h8
  have e2 : convertArray ⟨⟨[1], [T₀]⟩, vec [], vec [], vec [], vec [], nm⟩ R D 0 name =
      .ok ⟨vec [0], vec [0], vec [0], ⟨[1, 1], [T₀]⟩, name⟩ := by
    have c1 : checkArguments (gt D (lit 0)) "Maximum detuning rate must be positive." = .ok () := by simp [checkArguments, hD]
    have c2 : checkArguments (gt R (lit 0)) "Maximum rabi rate must be positive." = .ok () := by simp [checkArguments, hR]
    have c3 : checkArguments (ge (0 : ℝ) (lit 0)) "Minimum segment duration must be greater than or equal to 0." = .ok () := by
      simp [checkArguments]
    have c4 : (vec [lit 0, T₀]).someDiffNonpositive = false := by simp [someDiffNonpositive, vec, npDiff, h0]
    have z : isClose (lit 0 : ℝ) (lit 0) = true := by simp [isClose_near, NearValue]
    have zT : isClose T₀ (lit 0) = true := by
      rw [isClose_near]; simpa [NearValue] using n1
    have hops : (operationsOf [lit 0, T₀] [lit 0, lit 0] [lit 0, lit 0] [lit 0, lit 0] : List (Operation ℝ)).map
        (pulseStartEnd R D 0) = [(0, 0), (T₀, T₀)] := by
      simp [operationsOf, pulseStartEnd, halfPulseDuration, z]
    have hws : shiftLast T₀ (shiftFirst [((0 : ℝ), (0 : ℝ)), (T₀, T₀)]) = [(0, 0), (T₀, T₀)] := by
      simp [shiftFirst, shiftLast]
    unfold convertArray
    simp only [c1, c2, c3, except_ok_bind]
    change (checkArguments true _ >>= fun _ => checkArguments true _ >>= fun _ => padNd T₀ ⟨vec [], vec [], vec [], vec []⟩ >>= _) = _
    rw [hp]
    have hall : ([((0 : ℝ), (0 : ℝ)), (T₀, T₀)].all fun p => isClose p.1 (lit 0) && isClose p.2 (lit 0)) = true := by
      have z' : isClose (0 : ℝ) (lit 0) = true := by simpa using z
      simp only [List.all_cons, List.all_nil, z', zT, Bool.and_self]
    have hgap : ((gapDurations [((0 : ℝ), (0 : ℝ)), (T₀, T₀)]).all fun g => gt g 0 || isClose g 0) = true := by
      simp [gapDurations, h0]
    simp only [checkArguments, if_true, except_ok_bind, c4]
    simp only [vec, convertArrayOperations, hops, hws, hall, hgap]
    simp [NdControl.new, pyAll, stack, checkArguments, h0, NdArray.size, NdArray.len, vec, pySet, bind, Except.bind, pure,
      Except.pure]
  exact ⟨_, _, e1, e2, rfl⟩

/-- The hypotheses are met: a CPMG sequence of four pulses with the array `[1]` as duration converts on fast hardware; that with the
array `[[1]]` is accepted. -/
example : ∃ q R D c', (PlainSequence.cpmg 4).callArray (⟨[1], [1]⟩ : NdArray ℝ) none = .ok q ∧ convertArray q R D 0 none = .ok c' ∧
    ∃ q', (PlainSequence.cpmg 4).callArray (⟨List.replicate 2 1, [1]⟩ : NdArray ℝ) none = .ok q' := by
  have hv : (Family.cpmg 4).Valid := by norm_num [Family.Valid]
  obtain ⟨q, hq⟩ := (C131_accepts (.cpmg 4) ⟨[1], [1]⟩ rfl none).mpr ⟨1, rfl, one_pos, hv⟩
  obtain ⟨q', hq'⟩ := (C131_accepts (.cpmg 4) ⟨List.replicate 2 1, [1]⟩ rfl none).mpr ⟨1, rfl, one_pos, hv⟩
  obtain ⟨s, hs, -⟩ := (C43_well_formed (Family.cpmg 4) 1 false none).1 ⟨one_pos, hv⟩
  obtain ⟨B, -, h⟩ := C60_fast_hardware _ 1 false none s hs trivial
  obtain ⟨c, hc, -⟩ := h B B le_rfl le_rfl none
  exact ⟨q, B, B, flatControl c, hq, (C144_predefined (.cpmg 4) 1 (by norm_num) [1] (.inr rfl) none q hq s hs B B 0 none _).mpr
    ⟨c, hc, rfl⟩, q', hq'⟩

end OpenControls
