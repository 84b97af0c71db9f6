import Verif.Proofs.ArrayCounts
import Verif.Props.Families

/-!
# C139: predefined sequences called with arrays as counts and orders

`p.callCounts T prePost name` calls the public function with numpy arrays of any shape as counts or orders and as switch for pre and post
rotations; `q.call T b name` is the call with numbers.  Only the items (`data`) of the arrays appear below: their axes make no difference.
-/

namespace OpenControls

open Spec PyFloat Py NdArray

section

variable {α : Type} [Add α] [Sub α] [Mul α] [Div α] [Neg α] [PyFloat α]

/-- **C139** Arrays with one item count as this item, exceptions included. -/
theorem C139_numbers (p : Predefined (NdArray α)) (q : Predefined α) (hp : p.OneItem q) (T : α) (prePost : NdArray Bool)
    (b : Bool) (hb : prePost.data = [b]) (name : Option String) : p.callCounts T prePost name = q.call T b name := by
  unfold Predefined.OneItem at hp
  cases p <;> cases q <;> simp only [Predefined.map, reduceCtorEq, Predefined.carrPurcell.injEq, Predefined.cpmg.injEq,
    Predefined.uhrig.injEq, Predefined.periodic.injEq, Predefined.walsh.injEq, Predefined.quadratic.injEq,
    Predefined.xConcatenated.injEq, Predefined.xyConcatenated.injEq] at hp
  case ramsey.ramsey =>
    simp only [Predefined.callCounts, Predefined.call, newRamseyCounts, newRamseySequence, NdArray.truth, hb, id]
    rfl
  case spinEcho.spinEcho =>
    simp only [Predefined.callCounts, Predefined.call, newSpinEchoCounts, newSpinEchoSequence, finishArrays_single T hb]
  case quadratic.quadratic =>
    obtain ⟨h1, h2⟩ := hp
    simp only [Predefined.callCounts, Predefined.call, newQuadraticCounts, newQuadraticSequence,
      checkArrayCount_single h1, checkArrayCount_single h2, toInt_single h1, toInt_single h2, finishArrays_single T hb]
  all_goals
    simp only [Predefined.callCounts, Predefined.call, newCarrPurcellCounts, newCarrPurcellSequence, newCPMGCounts,
      newCPMGSequence, newUhrigCounts, newUhrigSequence, newPeriodicCounts, newPeriodicSequence, newWalshCounts, newWalshSequence,
      newXConcatenatedCounts, newXConcatenatedSequence, newXYConcatenatedCounts, newXYConcatenatedSequence,
      checkArrayCount_single hp, checkArrayOrder_single hp, toInt_single hp, finishArrays_single T hb]

/-- **C139** An array without items as switch counts as `False`. -/
theorem C139_no_switch (p : Predefined (NdArray α)) (T : α) (prePost : NdArray Bool) (hb : prePost.data = [])
    (name : Option String) : p.callCounts T prePost name = p.callCounts T ⟨[], [false]⟩ name := by
  have hf : ∀ q : Pulses α, finishArrays T prePost name q = finishArrays T ⟨[], [false]⟩ name q := fun q => by
    rw [finishArrays_none T hb, finishArrays_single T (x := false) rfl]
  cases p
  case ramsey =>
    simp only [Predefined.callCounts, newRamseyCounts, NdArray.truth, hb, id]
  all_goals
    simp only [Predefined.callCounts, newSpinEchoCounts, newCarrPurcellCounts, newCPMGCounts, newUhrigCounts,
      newPeriodicCounts, newWalshCounts, newQuadraticCounts, newXConcatenatedCounts, newXYConcatenatedCounts, hf]

/-- **C139** No function is vectorised: a sequence is returned exactly if every count or order has one item, the switch has at most one item,
and the call with the numbers is accepted; it is the sequence of that call. -/
theorem C139_sequence (p : Predefined (NdArray α)) (T : α) (prePost : NdArray Bool) (name : Option String)
    (s : Sequence α) : p.callCounts T prePost name = .ok s ↔ ∃ (q : Predefined α) (b : Bool), p.OneItem q ∧
      (prePost.data = [b] ∨ prePost.data = [] ∧ b = false) ∧ q.call T b name = .ok s := by
  constructor
  · intro h
    have hb : ∃ b, prePost.data = [b] ∨ prePost.data = [] ∧ b = false := by
      match hd : prePost.data with
      | [] => exact ⟨false, .inr ⟨rfl, rfl⟩⟩
      | [x] => exact ⟨x, .inl rfl⟩
      | x :: y :: l =>
        exfalso
        have hl : 2 ≤ prePost.data.length := by rw [hd]; simp
        cases p <;> simp only [Predefined.callCounts, newRamseyCounts, newSpinEchoCounts, newCarrPurcellCounts,
          newCPMGCounts, newUhrigCounts, newPeriodicCounts, newWalshCounts, newQuadraticCounts,
          newXConcatenatedCounts, newXYConcatenatedCounts, finishArrays_several T hl, switch_several hl,
          except_bind_ok, reduceCtorEq, and_false, false_and, exists_false] at h
    have hq : ∃ q : Predefined α, p.OneItem q := by
      cases p
      case ramsey => exact ⟨.ramsey, rfl⟩
      case spinEcho => exact ⟨.spinEcho, rfl⟩
      case quadratic n m =>
        simp only [Predefined.callCounts, newQuadraticCounts, except_bind_ok] at h
        obtain ⟨_, -, _, h1, _, h2, -⟩ := h
        obtain ⟨x, hx⟩ := checkArrayCount_ok h1
        obtain ⟨y, hy⟩ := checkArrayCount_ok h2
        exact ⟨.quadratic x y, by simp only [Predefined.OneItem, Predefined.map, hx, hy]⟩
      case walsh k =>
        simp only [Predefined.callCounts, newWalshCounts, except_bind_ok] at h
        obtain ⟨_, -, _, h1, -⟩ := h
        obtain ⟨x, hx⟩ := checkArrayOrder_ok h1
        exact ⟨.walsh x, by simp only [Predefined.OneItem, Predefined.map, hx]⟩
      all_goals
        simp only [Predefined.callCounts, newCarrPurcellCounts, newCPMGCounts, newUhrigCounts, newPeriodicCounts,
          newXConcatenatedCounts, newXYConcatenatedCounts, except_bind_ok] at h
        obtain ⟨_, -, _, h1, -⟩ := h
        obtain ⟨x, hx⟩ := checkArrayCount_ok h1
        first
        | exact ⟨.carrPurcell x, congrArg Predefined.carrPurcell hx⟩
        | exact ⟨.cpmg x, congrArg Predefined.cpmg hx⟩
        | exact ⟨.uhrig x, congrArg Predefined.uhrig hx⟩
        | exact ⟨.periodic x, congrArg Predefined.periodic hx⟩
        | exact ⟨.xConcatenated x, congrArg Predefined.xConcatenated hx⟩
        | exact ⟨.xyConcatenated x, congrArg Predefined.xyConcatenated hx⟩
    obtain ⟨q, hq⟩ := hq
    obtain ⟨b, hb⟩ := hb
    refine ⟨q, b, hq, hb, ?_⟩
    rcases hb with hb | ⟨hb, rfl⟩
    · rw [← C139_numbers p q hq T prePost b hb name, h]
    · rw [← C139_numbers p q hq T ⟨[], [false]⟩ false rfl name, ← C139_no_switch p T prePost hb name, h]
  · rintro ⟨q, b, hq, hb | ⟨hb, rfl⟩, h⟩
    · rw [C139_numbers p q hq T prePost b hb name, h]
    · rw [C139_no_switch p T prePost hb name, C139_numbers p q hq T ⟨[], [false]⟩ false rfl name, h]

/-- **C139** The first count or order, if the duration is accepted: several items raise `ValueError`, none `ArgumentsValueError`. -/
theorem C139_exceptions (p : Predefined (NdArray α)) (a : NdArray α) (ha : p.args.head? = some a) (T : α)
    (hT : gt T (lit 0) = true) (prePost : NdArray Bool) (name : Option String) :
    (2 ≤ a.data.length → ∃ e, p.callCounts T prePost name = .error (.valueError e)) ∧
    (a.data = [] → ∃ e, p.callCounts T prePost name = .error (.arguments e)) := by
  have hd : checkDuration T = .ok () := by unfold checkDuration; rw [hT]; rfl
  cases p <;> simp only [Predefined.args, List.head?_nil, List.head?_cons, reduceCtorEq, Option.some.injEq] at ha <;>
    subst ha <;> refine ⟨fun h => ?_, fun h => ?_⟩ <;>
    simp only [Predefined.callCounts, newCarrPurcellCounts, newCPMGCounts, newUhrigCounts, newPeriodicCounts,
      newWalshCounts, newQuadraticCounts, newXConcatenatedCounts, newXYConcatenatedCounts, hd] <;>
    first
    | (rw [checkArrayCount_several h]; exact ⟨_, rfl⟩)
    | (rw [checkArrayCount_none h]; exact ⟨_, rfl⟩)
    | (rw [checkArrayOrder_several h]; exact ⟨_, rfl⟩)
    | (rw [checkArrayOrder_none h]; exact ⟨_, rfl⟩)

/-- **C139** The second count of the quadratic sequence, if duration and first count are accepted. -/
theorem C139_quadratic (n m : NdArray α) (x : α) (hn : n.data = [x]) (hx : ge x (lit 1) = true) (T : α)
    (hT : gt T (lit 0) = true) (prePost : NdArray Bool) (name : Option String) :
    (2 ≤ m.data.length → ∃ e, newQuadraticCounts T n m prePost name = .error (.valueError e)) ∧
    (m.data = [] → ∃ e, newQuadraticCounts T n m prePost name = .error (.arguments e)) := by
  have hd : checkDuration T = .ok () := by unfold checkDuration; rw [hT]; rfl
  refine ⟨fun h => ?_, fun h => ?_⟩ <;>
    simp only [newQuadraticCounts, hd, checkArrayCount_single hn, hx]
  · rw [checkArrayCount_several h]; exact ⟨_, rfl⟩
  · rw [checkArrayCount_none h]; exact ⟨_, rfl⟩

/-- **C139** Several switches raise `ValueError`, if the numbers are accepted. -/
theorem C139_switches (p : Predefined (NdArray α)) (q : Predefined α) (hp : p.OneItem q) (T : α) (prePost : NdArray Bool)
    (hb : 2 ≤ prePost.data.length) (name : Option String) (s : Sequence α) (hs : q.call T false name = .ok s) :
    ∃ e, p.callCounts T prePost name = .error (.valueError e) := by
  have h := C139_numbers p q hp T ⟨[], [false]⟩ false rfl name
  rw [hs] at h
  refine ⟨"The truth value of an array with more than one element is ambiguous.", ?_⟩
  cases p
  case ramsey =>
    simp only [Predefined.callCounts, newRamseyCounts, except_bind_ok] at h ⊢
    obtain ⟨_, h1, -⟩ := h
    rw [h1, switch_several hb]; rfl
  case spinEcho =>
    simp only [Predefined.callCounts, newSpinEchoCounts, except_bind_ok] at h ⊢
    obtain ⟨_, h1, -⟩ := h
    rw [h1, finishArrays_several T hb]; rfl
  case quadratic =>
    simp only [Predefined.callCounts, newQuadraticCounts, except_bind_ok] at h ⊢
    obtain ⟨_, h1, _, h2, _, h3, _, h4, _, h5, -⟩ := h
    rw [h1, h2, h3, h4, h5]
    exact finishArrays_several T hb name _
  case walsh =>
    simp only [Predefined.callCounts, newWalshCounts, except_bind_ok] at h ⊢
    obtain ⟨_, h1, _, h2, _, h3, _, h4, -⟩ := h
    rw [h1, h2, h3]
    show (walshOffsets T _ >>= _) = _
    rw [h4]
    exact finishArrays_several T hb name _
  all_goals
    simp only [Predefined.callCounts, newCarrPurcellCounts, newCPMGCounts, newUhrigCounts, newPeriodicCounts,
      newXConcatenatedCounts, newXYConcatenatedCounts, except_bind_ok] at h ⊢
    obtain ⟨_, h1, _, h2, _, h3, -⟩ := h
    rw [h1, h2, h3]
    exact finishArrays_several T hb name _

end

/-- the hypotheses are met: a Uhrig sequence whose number of pulses is an array with two axes and one item, with pre and post rotations -/
example : ∃ s, Predefined.callCounts (.uhrig (⟨[1, 1], [3]⟩ : NdArray ℝ)) 1 ⟨[1], [true]⟩ none = .ok s ∧
    s.duration = 1 := by
  obtain ⟨s, hs, hw⟩ := (C43_well_formed (.uhrig 3) 1 true none).1 ⟨by norm_num, show (1 : ℝ) ≤ 3 by norm_num⟩
  refine ⟨s, (C139_sequence _ _ _ _ _).mpr ⟨.uhrig 3, true, rfl, .inl rfl, hs⟩, hw.1⟩

/-- the counts 3 and 4 in one array raise `ValueError` -/
example : ∃ e, Predefined.callCounts (.cpmg (⟨[2], [3, 4]⟩ : NdArray ℝ)) 1 ⟨[], [false]⟩ none = .error (.valueError e) :=
  (C139_exceptions _ _ rfl 1 (by simp) _ _).1 (by simp)

end OpenControls
