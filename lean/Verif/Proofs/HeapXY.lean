import Verif.Proofs.HeapPredefined

/-!
# The XY-concatenated sequence on the heap
-/

namespace OpenControls

open PyFloat Py PyM

set_option linter.unusedSectionVars false

variable {α : Type} [Add α] [Sub α] [Mul α] [Div α] [Neg α] [PyFloat α]

theorem bind_congr_run {β γ : Type} {m m' : PyM α β} {f : β → PyM α γ} {h h' : Heap α}
    (e : m h = m' h') : (m >>= f) h = (m' >>= f) h' := by
  rw [bind_def, bind_def, PyM.andThen, PyM.andThen, e]

/-- the four arrays while the X and Y pulses are filled in -/
def xyCells (done : List (α × α × α)) (n : Nat) (D : List α) : Heap α :=
  [done.map (fun r => r.1) ++ List.replicate n (lit 0),
    done.map (fun r => r.2.1) ++ List.replicate n (lit 0),
    done.map (fun r => r.2.2) ++ List.replicate n (lit 0), D]

theorem put_row (f : α × α × α → α) (done : List (α × α × α)) (n : Nat) (row : α × α × α) :
    (done.map f ++ List.replicate (n + 1) (lit 0)).set done.length (f row) =
      (done ++ [row]).map f ++ List.replicate n (lit 0) := by
  rw [List.set_append_right _ _ (by simp), List.length_map, Nat.sub_self]
  simp [List.replicate_succ]

theorem keep_row (f : α × α × α → α) (done : List (α × α × α)) (n : Nat) (row : α × α × α)
    (h0 : f row = lit 0) :
    (done.map f ++ List.replicate (n + 1) (lit 0)) =
      (done ++ [row]).map f ++ List.replicate n (lit 0) := by
  simp [List.replicate_succ, h0]

/-- the four new arrays -/
abbrev xyRefs (h : Heap α) : OpArrays := ⟨h.length + 0, h.length + 1, h.length + 2, h.length + 3⟩

theorem putX {β : Type} (h : Heap α) (done : List (α × α × α)) (n : Nat) (D : List α) (x : α)
    (K : PyM α β) :
    (do setItem (xyRefs h).rabi done.length PyFloat.pi
        setItem (xyRefs h).offsets done.length x
        K) (h ++ xyCells done (n + 1) D) =
      K (h ++ xyCells (done ++ [(x, PyFloat.pi, lit 0)]) n D) := by
  unfold xyCells
  rw [bind_setAt _ rfl (by simp), bind_setAt _ rfl (by simp)]
  have e1 := put_row (fun r => r.1) done n (x, PyFloat.pi, lit 0)
  have e2 := put_row (fun r => r.2.1) done n (x, PyFloat.pi, lit 0)
  have e3 := keep_row (fun r => r.2.2) done n (x, PyFloat.pi, lit 0) rfl
  simp only [List.set_cons_zero, List.set_cons_succ]
  rw [e1, e2, e3]

theorem putY {β : Type} (h : Heap α) (done : List (α × α × α)) (n : Nat) (D : List α) (y : α)
    (K : PyM α β) :
    (do setItem (xyRefs h).azimuthal done.length (PyFloat.pi / lit 2)
        setItem (xyRefs h).rabi done.length PyFloat.pi
        setItem (xyRefs h).offsets done.length y
        K) (h ++ xyCells done (n + 1) D) =
      K (h ++ xyCells (done ++ [(y, PyFloat.pi, PyFloat.pi / lit 2)]) n D) := by
  unfold xyCells
  rw [bind_setAt _ rfl (by simp), bind_setAt _ rfl (by simp), bind_setAt _ rfl (by simp)]
  have e1 := put_row (fun r => r.1) done n (y, PyFloat.pi, PyFloat.pi / lit 2)
  have e2 := put_row (fun r => r.2.1) done n (y, PyFloat.pi, PyFloat.pi / lit 2)
  have e3 := put_row (fun r => r.2.2) done n (y, PyFloat.pi, PyFloat.pi / lit 2)
  simp only [List.set_cons_zero, List.set_cons_succ]
  rw [e1, e2, e3]

theorem restXH_run (h : Heap α) (D : List α) (X : List α) (m : Nat) (xs : List α) :
    ∀ (xp : List α) (done : List (α × α × α)), X = xp ++ xs →
    restXH X (xyRefs h) xp.length done.length (h ++ xyCells done (m + xs.length) D) =
      (.ok (done.length + xs.length), h ++ xyCells (done ++ xyMerge xs []) m D) := by
  induction xs with
  | nil =>
    intro xp done hX
    unfold restXH
    rw [dif_neg (by simp [hX]), pure_apply]
    simp [xyMerge]
  | cons x xs ih =>
    intro xp done hX
    unfold restXH
    rw [dif_pos (by simp [hX]), bind_listItem (x := x) _ _ (by simp [hX]),
      show m + (x :: xs).length = (m + xs.length) + 1 from rfl, putX]
    have := ih (xp ++ [x]) (done ++ [(x, PyFloat.pi, lit 0)]) (by simp [hX])
    simp only [List.length_append, List.length_singleton] at this
    rw [this, xyMerge]
    simp only [List.length_cons, List.append_assoc, List.singleton_append]
    rw [Nat.add_assoc, Nat.add_comm 1]

theorem restYH_run (h : Heap α) (D : List α) (Y : List α) (m : Nat) (ys : List α) :
    ∀ (yp : List α) (done : List (α × α × α)), Y = yp ++ ys →
    restYH Y (xyRefs h) yp.length done.length (h ++ xyCells done (m + ys.length) D) =
      (.ok (done.length + ys.length), h ++ xyCells (done ++ xyMerge [] ys) m D) := by
  induction ys with
  | nil =>
    intro yp done hY
    unfold restYH
    rw [dif_neg (by simp [hY]), pure_apply]
    simp [xyMerge]
  | cons y ys ih =>
    intro yp done hY
    unfold restYH
    rw [dif_pos (by simp [hY]), bind_listItem (x := y) _ _ (by simp [hY]),
      show m + (y :: ys).length = (m + ys.length) + 1 from rfl, putY]
    have := ih (yp ++ [y]) (done ++ [(y, PyFloat.pi, PyFloat.pi / lit 2)]) (by simp [hY])
    simp only [List.length_append, List.length_singleton] at this
    rw [this, xyMerge]
    simp only [List.length_cons, List.append_assoc, List.singleton_append]
    rw [Nat.add_assoc, Nat.add_comm 1]

/-- the three loops that fill in the X and Y pulses, `predefined.py:1062-1092` -/
theorem mergeH_run (h : Heap α) (D X Y : List α) (m : Nat) (s : Nat) :
    ∀ (xs ys xp yp : List α) (done : List (α × α × α)), xs.length + ys.length = s →
    X = xp ++ xs → Y = yp ++ ys →
    (mergeLoopH X Y (xyRefs h) xp.length yp.length done.length >>= fun p =>
      restXH X (xyRefs h) p.1 p.2.2 >>= fun c => restYH Y (xyRefs h) p.2.1 c)
      (h ++ xyCells done (m + s) D) =
      (.ok (done.length + s), h ++ xyCells (done ++ xyMerge xs ys) m D) := by
  induction s with
  | zero =>
    intro xs ys xp yp done hs hX hY
    obtain rfl : xs = [] := List.length_eq_zero_iff.mp (by omega)
    obtain rfl : ys = [] := List.length_eq_zero_iff.mp (by omega)
    unfold mergeLoopH
    rw [dif_neg (by simp [hX]), bind_ok (pure_apply _ _)]
    have h1 := restXH_run h D X m [] xp done hX
    have h2 := restYH_run h D Y m [] yp done hY
    simp only [xyMerge, List.append_nil, List.length_nil] at h1 h2 ⊢
    rw [bind_ok h1]
    exact h2
  | succ s ih =>
    intro xs ys xp yp done hs hX hY
    cases xs with
    | nil =>
      unfold mergeLoopH
      rw [dif_neg (by simp [hX]), bind_ok (pure_apply _ _)]
      have h1 := restXH_run h D X (m + (s + 1)) [] xp done hX
      have h2 := restYH_run h D Y m ys yp done hY
      simp only [xyMerge, List.append_nil, List.length_nil, Nat.add_zero] at h1
      rw [bind_ok h1]
      rw [List.length_nil, Nat.zero_add] at hs
      rw [hs] at h2
      exact h2
    | cons x xs =>
    cases ys with
    | nil =>
      unfold mergeLoopH
      rw [dif_neg (by simp [hY]), bind_ok (pure_apply _ _)]
      have h1 := restXH_run h D X m (x :: xs) xp done hX
      have h2 := restYH_run h D Y m [] yp (done ++ xyMerge (x :: xs) []) hY
      have hlen : ∀ l : List α, (xyMerge l []).length = l.length := by
        intro l
        induction l with
        | nil => simp [xyMerge]
        | cons a l ihl => rw [xyMerge, List.length_cons, ihl, List.length_cons]
      rw [List.length_nil, Nat.add_zero] at hs
      rw [hs] at h1
      rw [bind_ok h1]
      simp only [xyMerge, List.append_nil, List.length_nil, Nat.add_zero, List.length_append,
        List.length_cons, hlen] at h2
      simp only [List.length_cons] at hs
      rw [hs] at h2
      rw [xyMerge]
      exact h2
    | cons y ys =>
      rw [List.length_cons] at hs
      rw [mergeLoopH, dif_pos (by simp [hX, hY])]
      by_cases hlt : lt x y = true
      · have step : (do
            let x' ← listItem X xp.length
            let y' ← listItem Y yp.length
            if lt x' y' then do
              setItem (xyRefs h).rabi done.length PyFloat.pi
              setItem (xyRefs h).offsets done.length x'
              mergeLoopH X Y (xyRefs h) (xp.length + 1) yp.length (done.length + 1)
            else do
              setItem (xyRefs h).azimuthal done.length (PyFloat.pi / lit 2)
              setItem (xyRefs h).rabi done.length PyFloat.pi
              setItem (xyRefs h).offsets done.length y'
              mergeLoopH X Y (xyRefs h) xp.length (yp.length + 1) (done.length + 1))
            (h ++ xyCells done (m + (s + 1)) D) =
            mergeLoopH X Y (xyRefs h) (xp.length + 1) yp.length (done.length + 1)
              (h ++ xyCells (done ++ [(x, PyFloat.pi, lit 0)]) (m + s) D) := by
          rw [bind_listItem (x := x) _ _ (by simp [hX]), bind_listItem (x := y) _ _ (by simp [hY]),
            if_pos hlt, show m + (s + 1) = (m + s) + 1 from rfl, putX]
        rw [bind_congr_run step]
        have := ih xs (y :: ys) (xp ++ [x]) yp (done ++ [(x, PyFloat.pi, lit 0)])
          (by omega) (by simp [hX]) hY
        simp only [List.length_append, List.length_singleton] at this
        rw [this, xyMerge, if_pos hlt]
        simp only [List.append_assoc, List.singleton_append]
        rw [Nat.add_assoc, Nat.add_comm 1]
      · have step : (do
            let x' ← listItem X xp.length
            let y' ← listItem Y yp.length
            if lt x' y' then do
              setItem (xyRefs h).rabi done.length PyFloat.pi
              setItem (xyRefs h).offsets done.length x'
              mergeLoopH X Y (xyRefs h) (xp.length + 1) yp.length (done.length + 1)
            else do
              setItem (xyRefs h).azimuthal done.length (PyFloat.pi / lit 2)
              setItem (xyRefs h).rabi done.length PyFloat.pi
              setItem (xyRefs h).offsets done.length y'
              mergeLoopH X Y (xyRefs h) xp.length (yp.length + 1) (done.length + 1))
            (h ++ xyCells done (m + (s + 1)) D) =
            mergeLoopH X Y (xyRefs h) xp.length (yp.length + 1) (done.length + 1)
              (h ++ xyCells (done ++ [(y, PyFloat.pi, PyFloat.pi / lit 2)]) (m + s) D) := by
          rw [bind_listItem (x := x) _ _ (by simp [hX]), bind_listItem (x := y) _ _ (by simp [hY]),
            if_neg hlt, show m + (s + 1) = (m + s) + 1 from rfl, putY]
        rw [bind_congr_run step]
        have := ih (x :: xs) ys xp (yp ++ [y]) (done ++ [(y, PyFloat.pi, PyFloat.pi / lit 2)])
          (by simp only [List.length_cons] at hs ⊢; omega) hX (by simp [hY])
        simp only [List.length_append, List.length_singleton] at this
        rw [this, xyMerge, if_neg hlt]
        simp only [List.append_assoc, List.singleton_append]
        rw [Nat.add_assoc, Nat.add_comm 1]

theorem shift_set (l : List α) (i : Nat) (v : α) (hi : i < l.length) :
    (l.take (i + 1) ++ (l.drop i).dropLast ++
      l.drop (i + 1 + (l.drop i).dropLast.length)).set i v = shiftInsert l i v := by
  have h1 : l.drop (i + 1 + (l.drop i).dropLast.length) = [] := by
    apply List.drop_eq_nil_of_le
    simp
    omega
  rw [h1, List.append_nil, List.set_append_left _ _ (by simp; omega)]
  unfold shiftInsert
  congr 1
  rw [List.take_add_one, List.set_append_right _ _ (by simp)]
  have : i - (l.take i).length = 0 := by simp; omega
  rw [this, List.getElem?_eq_getElem hi]
  rfl

theorem bind_shiftRight_at {β : Type} {h e : Heap α} {k i : Nat} {xs : List α} (f : Unit → PyM α β)
    (he : e[k]? = some xs) (hi : i < xs.length) :
    (shiftRight (h.length + k) i >>= f) (h ++ e) = f () (h ++ e.set k
      (xs.take (i + 1) ++ (xs.drop i).dropLast ++ xs.drop (i + 1 + (xs.drop i).dropLast.length))) := by
  apply bind_ok
  unfold shiftRight
  rw [bind_load_at _ he, setSlice_at he (by simp; omega)]

theorem shifted_length (xs : List α) (i : Nat) (hi : i < xs.length) :
    (xs.take (i + 1) ++ (xs.drop i).dropLast ++
      xs.drop (i + 1 + (xs.drop i).dropLast.length)).length = xs.length := by
  simp
  omega

theorem shiftInsert_length' (l : List α) (i : Nat) (v : α) (hi : i < l.length) :
    (shiftInsert l i v).length = l.length := by
  simp [shiftInsert]
  omega

theorem insertZH_run (h : Heap α) (Z : List α) (k : Nat) :
    ∀ (c : Nat) (zp : List α) (z : α) (zs O R A D : List α), Z = zp ++ z :: zs →
    O.length = c + k → R.length = c + k → A.length = c + k → D.length = c + k →
    insertZH Z (xyRefs h) c k zp.length (h ++ [O, R, A, D]) =
      (.ok (), h ++ [(insertZ (List.range' c k) (z :: zs) ⟨O, R, A, D⟩).offsets,
        (insertZ (List.range' c k) (z :: zs) ⟨O, R, A, D⟩).rabiRotations,
        (insertZ (List.range' c k) (z :: zs) ⟨O, R, A, D⟩).azimuthalAngles,
        (insertZ (List.range' c k) (z :: zs) ⟨O, R, A, D⟩).detuningRotations]) := by
  induction k with
  | zero => intro c zp z zs O R A D _ _ _ _ _; rfl
  | succ k ih =>
    intro c zp z zs O R A D hZ hO hR hA hD
    have hc : O[c]? = some (O[c]'(by omega)) := List.getElem?_eq_getElem (by omega)
    rw [insertZH, bind_getAt (xs := O) _ rfl hc, bind_listItem (x := z) _ _ (by simp [hZ]),
      List.range'_succ]
    by_cases hgt : gt (O[c]'(by omega)) z = true
    · rw [if_pos hgt]
      rw [bind_shiftRight_at (xs := O) _ rfl (by omega),
        bind_shiftRight_at (xs := R) _ rfl (by omega),
        bind_shiftRight_at (xs := A) _ rfl (by omega),
        bind_setAt (xs := D) _ rfl (by omega),
        bind_setAt _ rfl (by rw [shifted_length] <;> omega),
        bind_setAt _ rfl (by rw [shifted_length] <;> omega),
        bind_setAt _ rfl (by rw [shifted_length] <;> omega), bind_ok (pure_apply _ _)]
      simp only [List.set_cons_zero, List.set_cons_succ]
      rw [shift_set _ _ _ (by omega), shift_set _ _ _ (by omega), shift_set _ _ _ (by omega),
        insertZ]
      simp only [hc, hgt, if_true]
      cases zs with
      | nil =>
        rw [if_pos (by simp [hZ]), pure_apply]
        cases List.range' (c + 1) k <;> rfl
      | cons z' zs =>
        rw [if_neg (by simp [hZ])]
        have := ih (c + 1) (zp ++ [z]) z' zs (shiftInsert O c z) (shiftInsert R c (lit 0))
          (shiftInsert A c (lit 0)) (D.set c PyFloat.pi) (by simp [hZ])
          (by rw [shiftInsert_length' _ _ _ (by omega)]; omega)
          (by rw [shiftInsert_length' _ _ _ (by omega)]; omega)
          (by rw [shiftInsert_length' _ _ _ (by omega)]; omega)
          (by rw [List.length_set]; omega)
        rw [List.length_append, List.length_singleton] at this
        exact this
    · rw [if_neg hgt, bind_ok (pure_apply _ _)]
      dsimp only
      rw [if_neg (by simp [hZ]), insertZ]
      simp only [hc, hgt]
      exact ih (c + 1) zp z zs O R A D hZ (by omega) (by omega) (by omega) (by omega)

theorem xyMerge_length' (xs ys : List α) : (xyMerge xs ys).length = xs.length + ys.length := by
  induction xs, ys using xyMerge.induct with
  | case1 => simp [xyMerge]
  | case2 x xs ih => rw [xyMerge, List.length_cons, ih]; simp
  | case3 y ys ih => rw [xyMerge, List.length_cons, ih]; simp
  | case4 x xs y ys hlt ih => rw [xyMerge, if_pos hlt, List.length_cons, ih]; simp; omega
  | case5 x xs y ys hlt ih => rw [xyMerge, if_neg hlt, List.length_cons, ih]; simp; omega

theorem xyConcatenatedH_run (h : Heap α) (T : α) (order : Nat) :
    ∃ a e, xyConcatenatedH T order h = (.ok a, h ++ e) ∧
      Holds h e a (xyConcatenatedPulses T order) := by
  unfold xyConcatenatedH xyConcatenatedPulses
  dsimp only
  generalize xyOffsetsOf (T / nat (2 ^ (order * 2))) (-1) (-2) (-3) (concatenationXY order) = X
  generalize xyOffsetsOf (T / nat (2 ^ (order * 2))) (-2) (-1) (-3) (concatenationXY order) = Y
  generalize xyOffsetsOf (T / nat (2 ^ (order * 2))) (-3) (-2) (-1) (concatenationXY order) = Z
  rw [bind_alloc, bind_alloc, bind_alloc, bind_alloc, four_append]
  simp only [List.length_append, List.length_cons, List.length_nil]
  set n := X.length + Y.length + Z.length with hn
  have hm := mergeH_run h (List.replicate n (lit 0)) X Y Z.length (X.length + Y.length) X Y [] [] []
    rfl rfl rfl
  have hcells : xyCells ([] : List (α × α × α)) (Z.length + (X.length + Y.length))
      (List.replicate n (lit 0)) = [List.replicate n (lit 0), List.replicate n (lit 0),
        List.replicate n (lit 0), List.replicate n (lit 0)] := by
    simp only [xyCells, List.map_nil, List.nil_append]
    rw [show Z.length + (X.length + Y.length) = n by omega]
  rw [hcells] at hm
  have hm' : fillXYH X Y (xyRefs h) (h ++ [List.replicate n (lit 0), List.replicate n (lit 0),
      List.replicate n (lit 0), List.replicate n (lit 0)]) = (.ok (0 + (X.length + Y.length)),
      h ++ xyCells (xyMerge X Y) Z.length (List.replicate n (lit 0))) := hm
  show ∃ a e, (fillXYH X Y (xyRefs h) >>= _) _ = _ ∧ _
  rw [bind_ok hm']
  have hrows : (xyMerge X Y).length + Z.length = n := by rw [xyMerge_length']
  rw [hrows]
  unfold xyCells
  set O := (xyMerge X Y).map (fun r => r.1) ++ List.replicate Z.length (lit 0) with hO
  set R := (xyMerge X Y).map (fun r => r.2.1) ++ List.replicate Z.length (lit 0) with hR
  set A := (xyMerge X Y).map (fun r => r.2.2) ++ List.replicate Z.length (lit 0) with hA
  have hOl : O.length = n := by rw [hO]; simp [hrows]
  have hRl : R.length = n := by rw [hR]; simp [hrows]
  have hAl : A.length = n := by rw [hA]; simp [hrows]
  rw [List.length_map, List.length_replicate, hrows]
  cases Z with
  | nil =>
    refine ⟨xyRefs h, [O, R, A, List.replicate n (lit 0)], rfl, ?_⟩
    have : ∀ l p, insertZ l ([] : List α) p = p := by intro l p; cases l <;> rfl
    rw [this]
    exact Holds.of h _ 0 1 2 3 _ rfl rfl rfl rfl (by decide)
  | cons z zs =>
    have hz := insertZH_run h (z :: zs) n 0 [] z zs O R A (List.replicate n (lit 0)) rfl
      (by omega) (by omega) (by omega) (by simp)
    rw [List.range_eq_range']
    set q := insertZ (List.range' 0 n) (z :: zs) ⟨O, R, A, List.replicate n (lit 0)⟩ with hq
    refine ⟨xyRefs h, [q.offsets, q.rabiRotations, q.azimuthalAngles, q.detuningRotations], ?_,
      Holds.of h _ 0 1 2 3 _ rfl rfl rfl rfl (by decide)⟩
    show (insertZH (z :: zs) (xyRefs h) 0 n ([] : List α).length >>= _) _ = _
    rw [bind_ok hz]
    rfl

theorem newXYConcatenatedH_run (h : Heap α) (T n : α) (prePost : Bool) (name : Option String) :
    PredefinedRun h (newXYConcatenatedH T n prePost name h)
      (newXYConcatenatedSequence T n prePost name) := by
  unfold newXYConcatenatedH newXYConcatenatedSequence checkDurationH checkDuration
  cases b1 : gt T (lit 0) with
  | false => rw [bind_check_false rfl]; exact PredefinedRun.error' h _
  | true =>
  rw [bind_check_true rfl]
  cases b2 : ge n (lit 1) with
  | false => rw [bind_check_false rfl]; exact PredefinedRun.error' h _
  | true =>
  rw [bind_check_true rfl]
  cases b3 : pyInt n with
  | error x => rw [bind_lift_error]; exact PredefinedRun.error' h _
  | ok order =>
  rw [bind_lift_ok]
  exact build_run T prePost name (xyConcatenatedH_run h T order)

end OpenControls
