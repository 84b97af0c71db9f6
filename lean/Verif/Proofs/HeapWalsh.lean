import Verif.Proofs.HeapPredefined

/-!
# The Walsh sequence on the heap
-/

namespace OpenControls

open PyFloat Py PyM

set_option linter.unusedSectionVars false

variable {α : Type} [Add α] [Sub α] [Mul α] [Div α] [Neg α] [PyFloat α]

/-- one pass of the loop over the digits, on values -/
def walshStep (hw : Nat) (rel : List α) (b : List Nat) (arr : List α) (i : Nat) : List α :=
  List.zipWith (fun w x =>
    w * powBit (sign (sin (nat (2 ^ (i + 1)) * PyFloat.pi * x))) (b.getD (hw - 1 - i) 0)) arr rel

theorem walshBody_run (h : Heap α) (rel W : List α) (hw i : Nat) (b : List Nat)
    (hb : b.length = hw) (hi : i < hw) (hl : rel.length = W.length) :
    walshBody hw h.length (h.length + 1) b i (h ++ [rel, W]) =
      (.ok (), h ++ [rel, walshStep hw rel b W i]) := by
  unfold walshBody
  have hb' : b[hw - 1 - i]? = some (b.getD (hw - 1 - i) 0) := by
    rw [List.getD_eq_getElem?_getD, List.getElem?_eq_getElem (by omega)]
    rfl
  rw [bind_load, items_new, bind_listItem _ _ hb', bind_load_at _ rfl]
  have hn : (rel.length != W.length) = false := by simp [hl]
  rw [hn]
  simp only [Bool.false_eq_true, if_false]
  rw [setSlice_at (xs := W) rfl (by simp)]
  simp [walshStep, hl]

theorem walshLoop_run (h : Heap α) (rel : List α) (hw : Nat) (b : List Nat)
    (hb : b.length = hw) (k : Nat) : ∀ (i : Nat) (W : List α), i + k ≤ hw →
    rel.length = W.length →
    forFrom (walshBody hw h.length (h.length + 1) b) i k (h ++ [rel, W]) =
      (.ok (), h ++ [rel, (List.range' i k).foldl (walshStep hw rel b) W]) := by
  induction k with
  | zero => intro i W _ _; rfl
  | succ k ih =>
    intro i W hi hl
    unfold forFrom
    rw [bind_ok (walshBody_run h rel W hw i b hb (by omega) hl),
      ih (i + 1) _ (by omega) (by simp [walshStep, hl]), List.range'_succ, List.foldl_cons]

theorem walshLoop_length (rel : List α) (hw : Nat) (b : List Nat) (L : List Nat) :
    ∀ W : List α, rel.length = W.length →
    (L.foldl (walshStep hw rel b) W).length = W.length := by
  induction L with
  | nil => intro W _; rfl
  | cons i L ih =>
    intro W hl
    rw [List.foldl_cons, ih _ (by simp [walshStep, hl])]
    simp [walshStep, hl]

theorem walshSwitchesH_run (samples : Nat) (R : Nat) (h : Heap α) (r : List α) :
    ∀ (pre : List α) (w : α) (acc : List α), h.items R = pre ++ w :: r →
    walshSwitchesH samples R pre.length r.length acc h =
      (.ok (acc ++ walshSwitches samples pre.length (w :: r)), h) := by
  induction r with
  | nil => intro pre w acc _; simp [walshSwitchesH, walshSwitches, pure_apply]
  | cons w' r ih =>
    intro pre w acc hR
    rw [List.length_cons, walshSwitchesH,
      bind_getItem (x := w) _ (by rw [hR]; simp),
      bind_getItem (x := w') _ (by rw [hR]; simp [List.getElem?_append])]
    have := ih (pre ++ [w]) w' (if ne w w' then
      acc ++ [nat (pre.length + 1) * (lit 1 / nat samples)] else acc) (by rw [hR]; simp)
    rw [List.length_append, List.length_singleton] at this
    rw [this, walshSwitches]
    split <;> simp

theorem walshH_run (h : Heap α) (T : α) (k : Nat) :
    (∃ x e, walshOffsets T k = .error x ∧ walshH T k h = (.error x, h ++ e)) ∨
    ∃ os a e, walshOffsets T k = .ok os ∧ walshH T k h = (.ok a, h ++ e) ∧
      Holds h e a (uniformPulses os (lit 0)) := by
  unfold walshOffsets walshH
  cases hw' : walshHammingWeight α k with
  | error x => exact Or.inl ⟨x, [], rfl, by rw [bind_lift_error, List.append_nil]⟩
  | ok hw =>
  rw [bind_lift_ok]
  have hpos : 1 ≤ hw := by
    unfold walshHammingWeight at hw'
    cases hn : pyInt (log2 (nat k : α)) with
    | error x => rw [hn] at hw'; simp [bind, Except.bind] at hw'
    | ok n =>
      rw [hn] at hw'
      simp only [bind, Except.bind, pure, Except.pure, Except.ok.injEq] at hw'
      omega
  cases hrel : walshRelativeOffsets (α := α) (2 ^ hw) with
  | error x =>
    refine Or.inl ⟨x, [], ?_, by rw [bind_lift_error, List.append_nil]⟩
    show (walshRelativeOffsets (α := α) (2 ^ hw) >>= _) = _
    rw [hrel]; rfl
  | ok rel =>
  rw [bind_lift_ok, bind_alloc]
  cases hb : walshBinaryOrder k hw with
  | error x =>
    refine Or.inl ⟨x, [rel], ?_, by rw [bind_lift_error]⟩
    show (walshRelativeOffsets (α := α) (2 ^ hw) >>= fun relativeOffset =>
      walshBinaryOrder k hw >>= _) = _
    rw [hrel]
    show (walshBinaryOrder k hw >>= _) = _
    rw [hb]; rfl
  | ok b =>
  have hbl : b.length = hw := by
    unfold walshBinaryOrder at hb
    dsimp only at hb
    split at hb
    · simp at hb
    · rename_i hge
      simp only [Except.ok.injEq] at hb
      subst hb
      rw [List.length_take]
      omega
  have value : (do
      let hammingWeight ← (Except.ok hw : Except PyErr Nat)
      let samples := 2 ^ hammingWeight
      let relativeOffset ← walshRelativeOffsets (α := α) samples
      let binaryOrder ← walshBinaryOrder k hammingWeight
      let array ← walshArray hammingWeight samples relativeOffset binaryOrder
      return (walshSwitches samples 0 array).map fun x => T * x) =
      (walshArray hw (2 ^ hw) rel b >>= fun array =>
        .ok ((walshSwitches (2 ^ hw) 0 array).map fun x => T * x)) := by
    show (walshRelativeOffsets (α := α) (2 ^ hw) >>= fun relativeOffset =>
      walshBinaryOrder k hw >>= _) = _
    rw [hrel]
    show (walshBinaryOrder k hw >>= _) = _
    rw [hb]
    rfl
  rw [value, bind_lift_ok, bind_alloc_at]
  show (∃ x e, _ ∧ (forFrom (walshBody hw h.length (h.length + 1) b) 0 hw >>= _)
    (h ++ [rel, List.replicate (2 ^ hw) (lit 1)]) = _) ∨ ∃ os a e, _ ∧
    (forFrom (walshBody hw h.length (h.length + 1) b) 0 hw >>= _)
    (h ++ [rel, List.replicate (2 ^ hw) (lit 1)]) = _ ∧ _
  unfold walshArray
  by_cases hl : rel.length = 2 ^ hw
  · have hn : (rel.length != 2 ^ hw) = false := by simp [hl]
    rw [hn]
    simp only [Bool.false_eq_true, if_false]
    rw [bind_ok (walshLoop_run h rel hw b hbl hw 0 _ (by omega) (by simp [hl]))]
    have hlen := walshLoop_length rel hw b (List.range' 0 hw) (List.replicate (2 ^ hw) (lit 1))
      (by simp [hl])
    have hfold : (List.range hw).foldl (fun arr i =>
        List.zipWith (fun w x =>
          w * powBit (sign (sin (nat (2 ^ (i + 1)) * PyFloat.pi * x)))
            (b.getD (hw - 1 - i) 0)) arr rel) (List.replicate (2 ^ hw) (lit 1)) =
        (List.range' 0 hw).foldl (walshStep hw rel b) (List.replicate (2 ^ hw) (lit 1)) := by
      rw [List.range_eq_range']; rfl
    rw [hfold]
    revert hlen
    generalize (List.range' 0 hw).foldl (walshStep hw rel b) (List.replicate (2 ^ hw) (lit 1)) = W
    intro hlen
    rw [List.length_replicate] at hlen
    have hp : 0 < 2 ^ hw := Nat.pow_pos (by omega)
    cases W with
    | nil => rw [List.length_nil] at hlen; omega
    | cons w W =>
    have hk : 2 ^ hw - 1 = W.length := by simp at hlen; omega
    have hsw := walshSwitchesH_run (2 ^ hw) (h.length + 1) (h ++ [rel, w :: W]) W [] w []
      (items_at _ _ _ _ rfl)
    rw [List.length_nil, List.nil_append] at hsw
    rw [hk, show h.length + [rel].length = h.length + 1 from rfl, bind_ok hsw, bind_alloc_at, bind_load_at _ List.getElem?_concat_length, bind_alloc_at,
      bind_alloc_at, bind_alloc_at, bind_alloc_at, pure_apply]
    refine Or.inr ⟨_, _, _, rfl, rfl, ?_⟩
    have := Holds.alloc4 h ([rel, w :: W] ++ [walshSwitches (2 ^ hw) 0 (w :: W)])
      (uniformPulses ((walshSwitches (2 ^ hw) 0 (w :: W)).map fun x => T * x) (lit 0))
    simp only [uniformPulses, List.length_map] at this ⊢
    exact this
  · have hn : (rel.length != 2 ^ hw) = true := by simp [hl]
    rw [hn]
    simp only [if_true]
    refine Or.inl ⟨_, [rel, List.replicate (2 ^ hw) (lit 1)], rfl, ?_⟩
    apply bind_error
    obtain ⟨m, rfl⟩ : ∃ m, hw = m + 1 := ⟨hw - 1, by omega⟩
    unfold forFrom
    apply bind_error
    unfold walshBody
    have hb' : b[m + 1 - 1 - 0]? = some (b.getD m 0) := by
      rw [List.getD_eq_getElem?_getD, List.getElem?_eq_getElem (by omega)]
      simp [List.getElem?_eq_getElem (show m < b.length by omega)]
    rw [bind_load, items_new, bind_listItem _ _ hb', bind_load_at _ rfl, List.length_replicate, hn]
    rfl

theorem newWalshH_run (h : Heap α) (T n : α) (prePost : Bool) (name : Option String) :
    PredefinedRun h (newWalshH T n prePost name h) (newWalshSequence T n prePost name) := by
  unfold newWalshH newWalshSequence checkDurationH checkDuration
  cases b1 : gt T (lit 0) with
  | false => rw [bind_check_false rfl]; exact PredefinedRun.error' h _
  | true =>
  rw [bind_check_true rfl]
  cases b2 : (le (lit 1) n && le n (lit 2000)) with
  | false => rw [bind_check_false rfl]; exact PredefinedRun.error' h _
  | true =>
  rw [bind_check_true rfl]
  cases b3 : pyInt n with
  | error x => rw [bind_lift_error]; exact PredefinedRun.error' h _
  | ok k =>
  rw [bind_lift_ok]
  show PredefinedRun h _ (walshOffsets T k >>= fun offsets =>
    finishSequence T prePost name (uniformPulses offsets (lit 0)))
  rcases walshH_run h T k with ⟨x, e, h1, h2⟩ | ⟨os, a, e, h1, h2, h3⟩
  · rw [bind_error h2, h1]
    exact PredefinedRun.error h e x
  · rw [bind_ok h2, h1]
    exact finishH_run h3 T prePost name

end OpenControls
