import Verif.Spec.ArraySequences
import Verif.Proofs.Broadcast

/-!
# Predefined sequences called with an array as duration: auxiliary results
-/

namespace OpenControls

open Spec PyFloat Py NdArray

variable {α : Type} [Add α] [Sub α] [Mul α] [Div α] [Neg α] [PyFloat α]

/-! ## Products with a duration of one item -/

theorem ones_of_prod : ∀ {s : List ℕ}, s.prod = 1 → s = List.replicate s.length 1
  | [], _ => rfl
  | a :: s, h => by
    rw [List.prod_cons] at h
    have h1 : a = 1 := Nat.dvd_one.mp ⟨_, h.symm⟩
    rw [h1, one_mul] at h
    rw [List.length_cons, List.replicate_succ, ← ones_of_prod h, h1]

theorem ravel_ones : ∀ (k : ℕ) (i : List ℕ), ravel (List.replicate k 1) i = 0
  | 0, _ => by simp [ravel]
  | k + 1, [] => by simp [ravel]
  | k + 1, a :: i => by simp [ravel, List.replicate_succ, ravel_ones k i]

theorem broadcast_ones_right (k n : ℕ) :
    broadcast (List.replicate k 1) [n] = some (n :: List.replicate (k - 1) 1) := by
  cases k with
  | zero => simp [broadcast]
  | succ k =>
    have e : broadcast (List.replicate k 1) [] = some (List.replicate k 1) := by cases k <;> simp [broadcast, List.replicate_succ]
    by_cases h : 1 = n
    · subst h; simp [broadcast, List.replicate_succ, e]
    · simp [broadcast, List.replicate_succ, e, h]

theorem broadcast_ones_left (k n : ℕ) :
    broadcast [n] (List.replicate k 1) = some (n :: List.replicate (k - 1) 1) := by
  cases k with
  | zero => simp [broadcast]
  | succ k =>
    by_cases h : n = 1
    · subst h; simp [broadcast, List.replicate_succ]
    · simp [broadcast, List.replicate_succ, h]

theorem filterMap_getElem_map (xs : List α) (f : α → α) :
    ((List.range xs.length).filterMap fun m => (xs[m]?).map f) = xs.map f := by
  obtain ⟨h1, h2⟩ := filterMap_range (fun m => (xs[m]?).map f) xs.length fun m hm => by
    rw [List.getElem?_eq_getElem hm]; rfl
  refine List.ext_getElem? fun m => ?_
  by_cases hm : m < xs.length
  · rw [h2 m hm, List.getElem?_map]
  · rw [List.getElem?_eq_none (by omega), List.getElem?_eq_none (by simp; omega)]

theorem ravel_line {n m : ℕ} (s : List ℕ) (h : m < n) : ravel [n] (unravel (n :: s) m) = m := by
  unfold unravel
  simp only [ravel]
  split
  · omega
  · rw [Nat.mod_eq_of_lt h]; omega

theorem reverse_dropLast_ones {s : List ℕ} (h : s = List.replicate s.length 1) (n : ℕ) :
    (n :: List.replicate (s.length - 1) 1).reverse = s.dropLast ++ [n] := by
  rw [List.reverse_cons, List.reverse_replicate]
  congr 1
  conv_rhs => rw [h]
  rw [List.dropLast_replicate]

/-- `duration * deltas` -/
theorem bin_single_left (f : α → α → α) {T : NdArray α} {T₀ : α} (hT : T.data = [T₀]) (hreg : Regular T) (xs : List α) :
    bin f T (vec xs) = .ok ⟨T.shape.dropLast ++ [xs.length], xs.map fun x => f T₀ x⟩ := by
  have hs : T.shape = List.replicate T.shape.length 1 := by
    refine ones_of_prod ?_
    unfold Regular at hreg
    rw [← hreg, hT]; rfl
  have hr : T.shape.reverse = List.replicate T.shape.length 1 := by
    conv_lhs => rw [hs]
    rw [List.reverse_replicate]
  have hv : (vec xs).shape.reverse = [xs.length] := rfl
  unfold bin
  rw [hr, hv, broadcast_ones_right]
  simp only [Except.ok.injEq, NdArray.mk.injEq]
  refine ⟨reverse_dropLast_ones hs _, ?_⟩
  rw [← filterMap_getElem_map xs]
  rw [List.prod_cons, List.prod_replicate, one_pow, mul_one]
  refine List.filterMap_congr fun m hm => ?_
  rw [ravel_ones, hT, ravel_line _ (List.mem_range.mp hm)]
  rfl

/-- `deltas * duration` -/
theorem bin_single_right (f : α → α → α) {T : NdArray α} {T₀ : α} (hT : T.data = [T₀]) (hreg : Regular T) (xs : List α) :
    bin f (vec xs) T = .ok ⟨T.shape.dropLast ++ [xs.length], xs.map fun x => f x T₀⟩ := by
  have hs : T.shape = List.replicate T.shape.length 1 := by
    refine ones_of_prod ?_
    unfold Regular at hreg
    rw [← hreg, hT]; rfl
  have hr : T.shape.reverse = List.replicate T.shape.length 1 := by
    conv_lhs => rw [hs]
    rw [List.reverse_replicate]
  have hv : (vec xs).shape.reverse = [xs.length] := rfl
  unfold bin
  rw [hr, hv, broadcast_ones_left]
  simp only [Except.ok.injEq, NdArray.mk.injEq]
  refine ⟨reverse_dropLast_ones hs _, ?_⟩
  rw [← filterMap_getElem_map xs]
  rw [List.prod_cons, List.prod_replicate, one_pow, mul_one]
  refine List.filterMap_congr fun m hm => ?_
  rw [ravel_ones, hT, ravel_line _ (List.mem_range.mp hm)]
  change (xs[m]?.bind fun x => ([T₀] : List α)[0]?.map fun y => f x y) = _
  cases xs[m]? <;> rfl

/-! ## The constructor -/

/-- the constructor on arrays with the lengths along the first axis that numbers would have -/
theorem arraySequence_new {T o r a d : NdArray α} {T₀ : α} (hT : T.data = [T₀]) {no nr na nd : ℕ} {so sr sa sd : List ℕ}
    (ho : o.shape = no :: so) (hr : r.shape = nr :: sr) (ha : a.shape = na :: sa) (hd : d.shape = nd :: sd)
    (name : Option String) :
    ArraySequence.new T o r a d name =
      if gt T₀ (lit 0) = true then
        if (o.data.all fun t => ge t (lit 0) && ge T₀ t) = true then
          if nr = no then if na = no then if nd = no then .ok ⟨T, o, r, a, d, name⟩
            else .error (.arguments "detuning rotations must have the same length as offsets. ")
            else .error (.arguments "azimuthal angles must have the same length as offsets. ")
            else .error (.arguments "rabi rotations must have the same length as offsets. ")
        else .error (.arguments
          "Offsets for dynamic decoupling sequence must be between 0 and the sequence duration (inclusive). ")
      else .error (.arguments "Sequence duration must be above zero.") := by
  unfold ArraySequence.new NdArray.truth NdArray.len
  simp only [hT, ho, hr, ha, hd, List.all_cons, List.all_nil, Bool.and_true, checkArguments, bind, Except.bind, pure,
    Except.pure, beq_iff_eq]
  split_ifs <;> rfl

theorem number_new (T₀ : α) (o r a d : List α) (name : Option String) :
    Sequence.new T₀ o r a d name =
      if gt T₀ (lit 0) = true then
        if (o.all fun t => ge t (lit 0) && ge T₀ t) = true then
          if r.length = o.length then if a.length = o.length then if d.length = o.length then .ok ⟨T₀, o, r, a, d, name⟩
            else .error (.arguments "detuning rotations must have the same length as offsets. ")
            else .error (.arguments "azimuthal angles must have the same length as offsets. ")
            else .error (.arguments "rabi rotations must have the same length as offsets. ")
        else .error (.arguments
          "Offsets for dynamic decoupling sequence must be between 0 and the sequence duration (inclusive). ")
      else .error (.arguments "Sequence duration must be above zero.") := by
  unfold Sequence.new
  simp only [checkArguments, bind, Except.bind, pure, Except.pure, beq_iff_eq]
  split_ifs <;> rfl

theorem checkArray_single {T : NdArray α} {T₀ : α} (hT : T.data = [T₀]) : checkArrayDuration T = checkDuration T₀ := by
  unfold checkArrayDuration checkDuration NdArray.truth
  rw [hT]; rfl

theorem finish_plain (T₀ : α) (name : Option String) (p : Pulses α) :
    finishSequence T₀ false name p =
      Sequence.new T₀ p.offsets p.rabiRotations p.azimuthalAngles p.detuningRotations name := rfl

/-- 1-D arrays -/
theorem flat_single {T : NdArray α} {T₀ : α} (hT : T.data = [T₀]) (p : Pulses α) (name : Option String) :
    flatArrays T p name = (finishSequence T₀ false name p).map fun s =>
      ⟨T, ⟨[s.offsets.length], s.offsets⟩, ⟨[s.offsets.length], s.rabiRotations⟩,
        ⟨[s.offsets.length], s.azimuthalAngles⟩, ⟨[s.offsets.length], s.detuningRotations⟩, s.name⟩ := by
  rw [finish_plain, number_new]
  unfold flatArrays
  rw [arraySequence_new hT rfl rfl rfl rfl]
  rw [show (vec p.offsets).data = p.offsets from rfl]
  by_cases h1 : gt T₀ (lit 0) = true
  swap
  · rw [if_neg h1, if_neg h1]; rfl
  rw [if_pos h1, if_pos h1]
  by_cases h2 : (p.offsets.all fun t => ge t (lit 0) && ge T₀ t) = true
  swap
  · rw [if_neg h2, if_neg h2]; rfl
  rw [if_pos h2, if_pos h2]
  by_cases h3 : p.rabiRotations.length = p.offsets.length
  swap
  · rw [if_neg h3, if_neg h3]; rfl
  rw [if_pos h3, if_pos h3]
  by_cases h4 : p.azimuthalAngles.length = p.offsets.length
  swap
  · rw [if_neg h4, if_neg h4]; rfl
  rw [if_pos h4, if_pos h4]
  by_cases h5 : p.detuningRotations.length = p.offsets.length
  swap
  · rw [if_neg h5, if_neg h5]; rfl
  rw [if_pos h5, if_pos h5]
  unfold vec
  rw [h3, h4, h5]
  rfl

/-- rotations with the shape of the offsets -/
theorem uniform_single {T : NdArray α} {T₀ : α} (hT : T.data = [T₀]) (hreg : Regular T) (xs : List α) (az : α)
    (name : Option String) :
    uniformArrays T ⟨T.shape.dropLast ++ [xs.length], xs⟩ az name =
      (finishSequence T₀ false name (uniformPulses xs az)).map fun s =>
      ⟨T, ⟨T.shape.dropLast ++ [s.offsets.length], s.offsets⟩, ⟨T.shape.dropLast ++ [s.offsets.length], s.rabiRotations⟩,
        ⟨T.shape.dropLast ++ [s.offsets.length], s.azimuthalAngles⟩,
        ⟨T.shape.dropLast ++ [s.offsets.length], s.detuningRotations⟩, s.name⟩ := by
  have hs : T.shape = List.replicate T.shape.length 1 := by
    refine ones_of_prod ?_
    unfold Regular at hreg
    rw [← hreg, hT]; rfl
  have hp : (T.shape.dropLast ++ [xs.length]).prod = xs.length := by
    rw [hs, List.dropLast_replicate]; simp
  obtain ⟨m, r, hm⟩ : ∃ m r, T.shape.dropLast ++ [xs.length] = m :: r := by
    cases h : T.shape.dropLast ++ [xs.length] with
    | nil => simp at h
    | cons m r => exact ⟨m, r, rfl⟩
  rw [finish_plain, number_new]
  unfold uniformArrays
  rw [arraySequence_new hT (no := m) (nr := m) (na := m) (nd := m) hm hm hm hm]
  simp only [uniformPulses, full, hp, List.length_replicate, if_true]
  split_ifs <;> rfl

/-! ## The nine functions -/

theorem xyOffsets_single {T : NdArray α} {T₀ : α} (hT : T.data = [T₀]) (hreg : Regular T) (g : α → α)
    (op other other' : Int) (c : List Int) :
    xyOffsetsArray (T.un g) op other other' c = .ok (xyOffsetsOf (g T₀) op other other' c) := by
  have hT' : (T.un g).data = [g T₀] := by unfold un; rw [hT]; rfl
  unfold xyOffsetsArray xyOffsetsOf
  dsimp only
  rw [bin_single_right _ hT' (regular_un hreg)]
  simp only [List.map_map]
  rfl

theorem bind_map {β γ δ : Type} (x : Except PyErr β) (f : β → Except PyErr γ) (g : γ → δ) :
    (x >>= f).map g = x >>= fun v => (f v).map g := by
  cases x <;> rfl

theorem callArray_single {T : NdArray α} {T₀ : α} (hT : T.data = [T₀]) (hreg : Regular T) (p : PlainSequence α)
    (name : Option String) :
    p.callArray T name = (p.predefined.call T₀ false name).map (p.shaped T) := by
  cases p with
  | ramsey =>
    simp only [PlainSequence.callArray, PlainSequence.predefined, Predefined.call, newRamseyArray, newRamseySequence,
      checkArray_single hT, bind_map]
    refine congrArg _ (funext fun _ => ?_)
    exact flat_single hT ⟨[], [], [], []⟩ name
  | spinEcho =>
    simp only [PlainSequence.callArray, PlainSequence.predefined, Predefined.call, newSpinEchoArray, newSpinEchoSequence,
      checkArray_single hT, bind_map]
    refine congrArg _ (funext fun _ => ?_)
    rw [finish_plain, number_new, arraySequence_new hT (o := stack _ _) rfl rfl rfl rfl]
    simp only [stack, hT, List.map_cons, List.map_nil, List.flatten_cons, List.flatten_nil, List.append_nil,
      List.length_cons, List.length_nil, if_true]
    split_ifs <;> rfl
  | carrPurcell n =>
    simp only [PlainSequence.callArray, PlainSequence.predefined, Predefined.call, newCarrPurcellArray,
      newCarrPurcellSequence, checkArray_single hT, bind_map, cpmgArray, bin_single_right _ hT hreg]
    refine congrArg _ (funext fun _ => congrArg _ (funext fun _ => congrArg _ (funext fun m => ?_)))
    have := uniform_single hT hreg (cpmgOffsets T₀ m) (lit 0) name
    unfold cpmgOffsets at this
    simp only [List.length_map] at this ⊢
    rw [List.map_map]
    exact this
  | cpmg n =>
    simp only [PlainSequence.callArray, PlainSequence.predefined, Predefined.call, newCPMGArray,
      newCPMGSequence, checkArray_single hT, bind_map, cpmgArray, bin_single_right _ hT hreg]
    refine congrArg _ (funext fun _ => congrArg _ (funext fun _ => congrArg _ (funext fun m => ?_)))
    have := uniform_single hT hreg (cpmgOffsets T₀ m) (PyFloat.pi / lit 2) name
    unfold cpmgOffsets at this
    simp only [List.length_map] at this ⊢
    rw [List.map_map]
    exact this
  | uhrig n =>
    simp only [PlainSequence.callArray, PlainSequence.predefined, Predefined.call, newUhrigArray,
      newUhrigSequence, checkArray_single hT, bind_map, uhrigArray, bin_single_left _ hT hreg]
    refine congrArg _ (funext fun _ => congrArg _ (funext fun _ => congrArg _ (funext fun m => ?_)))
    have := uniform_single hT hreg (uhrigOffsets T₀ m) (PyFloat.pi / lit 2) name
    unfold uhrigOffsets at this
    simp only [List.length_map] at this ⊢
    rw [List.map_map]
    exact this
  | periodic n =>
    simp only [PlainSequence.callArray, PlainSequence.predefined, Predefined.call, newPeriodicArray,
      newPeriodicSequence, checkArray_single hT, bind_map, bin_single_left _ hT hreg]
    refine congrArg _ (funext fun _ => congrArg _ (funext fun _ => congrArg _ (funext fun m => ?_)))
    have := uniform_single hT hreg (periodicOffsets T₀ m) (lit 0) name
    unfold periodicOffsets at this
    simp only [List.length_map] at this ⊢
    rw [List.map_map]
    exact this
  | walsh k =>
    simp only [PlainSequence.callArray, PlainSequence.predefined, Predefined.call, newWalshArray,
      newWalshSequence, walshOffsets, checkArray_single hT, bind_map, bind_assoc, bin_single_left _ hT hreg]
    refine congrArg _ (funext fun _ => congrArg _ (funext fun _ => congrArg _ (funext fun m => congrArg _ (funext fun w =>
      congrArg _ (funext fun _ => congrArg _ (funext fun _ => congrArg _ (funext fun arr => ?_)))))))
    have := uniform_single hT hreg ((walshSwitches (2 ^ w) 0 arr).map fun x => T₀ * x) (lit 0) name
    rw [List.length_map] at this
    exact this
  | xConcatenated l =>
    have hT' : ∀ m : ℕ, (T.un fun t => t / nat (2 ^ m)).data = [T₀ / nat (2 ^ m)] := fun m => by unfold un; rw [hT]; rfl
    simp only [PlainSequence.callArray, PlainSequence.predefined, Predefined.call, newXConcatenatedArray,
      newXConcatenatedSequence, checkArray_single hT, bind_map, bin_single_right _ (hT' _) (regular_un hreg)]
    refine congrArg _ (funext fun _ => congrArg _ (funext fun _ => congrArg _ (funext fun m => ?_)))
    have := flat_single hT (uniformPulses (xConcatenatedOffsets T₀ m) (lit 0)) name
    unfold xConcatenatedOffsets at this
    simp only [List.map_map]
    exact this
  | xyConcatenated l =>
    simp only [PlainSequence.callArray, PlainSequence.predefined, Predefined.call, newXYConcatenatedArray,
      newXYConcatenatedSequence, checkArray_single hT, bind_map, xyOffsets_single hT hreg]
    refine congrArg _ (funext fun _ => congrArg _ (funext fun _ => congrArg _ (funext fun m => ?_)))
    exact flat_single hT (xyConcatenatedPulses T₀ m) name

theorem callArray_check (T : NdArray α) (p : PlainSequence α) (name : Option String) {e : PyErr}
    (h : checkArrayDuration T = .error e) : p.callArray T name = .error e := by
  cases p <;> simp only [PlainSequence.callArray, newRamseyArray, newSpinEchoArray, newCarrPurcellArray, newCPMGArray,
    newUhrigArray, newPeriodicArray, newWalshArray, newXConcatenatedArray, newXYConcatenatedArray, h] <;> rfl

end OpenControls
