import Verif.Model.ShapesAccess
import Verif.Proofs.Broadcast

/-!
# Reading controls whose arrays have any shape: lemmas
-/

namespace OpenControls

open PyFloat Py Spec NdArray

set_option linter.unusedSectionVars false

variable {α : Type} [Add α] [Sub α] [Mul α] [Div α] [Neg α] [PyFloat α]

theorem broadcast_le {s v : List ℕ} (h : FitsR s v) : broadcast s v = some v ∧ broadcast v s = some v := by
  constructor
  · obtain ⟨u, hu, huv⟩ := broadcast_least h (FitsR.refl v)
    rw [hu, huv.antisymm (broadcast_fits hu).2]
  · obtain ⟨u, hu, huv⟩ := broadcast_least (FitsR.refl v) h
    rw [hu, huv.antisymm (broadcast_fits hu).1]

theorem isBroadcast_unique {l : List (List ℕ)} {S S' : List ℕ} (h : IsBroadcast l S) (h' : IsBroadcast l S') :
    S = S' := by
  have h1 := (fits_iff _ _).mp (h.2 S' h'.1)
  have h2 := (fits_iff _ _).mp (h'.2 S h.1)
  simpa using h1.antisymm h2

/-- the smallest common shape of a list of shapes exists if there is a common shape -/
theorem isBroadcast_exists {l : List (List ℕ)} {S' : List ℕ} (h : ∀ s ∈ l, Fits s S') : ∃ S, IsBroadcast l S := by
  induction l with
  | nil =>
    refine ⟨[], by simp, fun T _ => ⟨T, [], by simp, .nil⟩⟩
  | cons s l ih =>
    obtain ⟨S, h1, h2⟩ := ih fun t ht => h t (by simp [ht])
    have hs := (fits_iff _ _).mp (h s (by simp))
    have hS := (fits_iff _ _).mp (h2 S' fun t ht => h t (by simp [ht]))
    obtain ⟨u, hu, -⟩ := broadcast_least hs hS
    obtain ⟨f1, f2⟩ := broadcast_fits hu
    refine ⟨u.reverse, fun t ht => ?_, fun T hT => ?_⟩
    · rw [fits_iff, List.reverse_reverse]
      rcases List.mem_cons.mp ht with rfl | ht
      · exact f1
      · exact ((fits_iff _ _).mp (h1 t ht)).trans f2
    · rw [fits_iff, List.reverse_reverse]
      obtain ⟨v, hv, hvT⟩ := broadcast_least ((fits_iff _ _).mp (hT s (by simp)))
        ((fits_iff _ _).mp (h2 T fun t ht => hT t (by simp [ht])))
      rw [hu] at hv
      cases hv
      exact hvT

theorem isBroadcast_pair {s t u : List ℕ} (h : IsBroadcast [s, t] u) :
    broadcast s.reverse t.reverse = some u.reverse := by
  obtain ⟨v, hv, hvu⟩ := broadcast_least ((fits_iff _ _).mp (h.1 s (by simp))) ((fits_iff _ _).mp (h.1 t (by simp)))
  obtain ⟨f1, f2⟩ := broadcast_fits hv
  have := (fits_iff _ _).mp (h.2 v.reverse (by
    intro x hx
    simp only [List.mem_cons, List.not_mem_nil, or_false] at hx
    rw [fits_iff, List.reverse_reverse]
    rcases hx with rfl | rfl <;> assumption))
  rw [List.reverse_reverse] at this
  rw [hv, hvu.antisymm this]

theorem broadcast_none {s t : List ℕ} (h : ¬ ∃ u, IsBroadcast [s, t] u) : broadcast s.reverse t.reverse = none := by
  cases hb : broadcast s.reverse t.reverse with
  | none => rfl
  | some u =>
    refine absurd (isBroadcast_exists (S' := u.reverse) ?_) h
    obtain ⟨f1, f2⟩ := broadcast_fits hb
    intro x hx
    simp only [List.mem_cons, List.not_mem_nil, or_false] at hx
    rw [fits_iff, List.reverse_reverse]
    rcases hx with rfl | rfl <;> assumption

/-- the control with one segment for every place, by places -/
def spreadControl (c : NdControl α) (S : List ℕ) : DrivenControl α :=
  ⟨spread c.rabiRates S, spread c.azimuthalAngles S, spread c.detunings S, spread c.durations S, c.name⟩

/-- what is computed before `angles` and `directions` -/
theorem nd_amplitudeX (c : NdControl α) (hr : Regular c.rabiRates) (ha : Regular c.azimuthalAngles) {u : List ℕ}
    (h : broadcast c.rabiRates.shape.reverse c.azimuthalAngles.shape.reverse = some u) :
    ∃ x, c.amplitudeX = .ok x ∧ x.shape = u.reverse ∧ Regular x ∧
      ∀ S, FitsR u S → spread x S = (spreadControl c S).amplitudeX := by
  obtain ⟨x, h1, h2, h3, h4⟩ := bin_spread (f := (· * ·)) hr (regular_un (f := cos) ha) h
  refine ⟨x, h1, h2, h3, fun S hS => ?_⟩
  rw [h4 S hS, spread_un, List.zipWith_map_right]
  rfl

theorem nd_amplitudeY (c : NdControl α) (hr : Regular c.rabiRates) (ha : Regular c.azimuthalAngles) {u : List ℕ}
    (h : broadcast c.rabiRates.shape.reverse c.azimuthalAngles.shape.reverse = some u) :
    ∃ y, c.amplitudeY = .ok y ∧ y.shape = u.reverse ∧ Regular y ∧
      ∀ S, FitsR u S → spread y S = (spreadControl c S).amplitudeY := by
  obtain ⟨x, h1, h2, h3, h4⟩ := bin_spread (f := (· * ·)) hr (regular_un (f := sin) ha) h
  refine ⟨x, h1, h2, h3, fun S hS => ?_⟩
  rw [h4 S hS, spread_un, List.zipWith_map_right]
  rfl

theorem nd_amplitudes (c : NdControl α) (hr : Regular c.rabiRates) (ha : Regular c.azimuthalAngles)
    (hd : Regular c.detunings) {u v : List ℕ}
    (h : broadcast c.rabiRates.shape.reverse c.azimuthalAngles.shape.reverse = some u)
    (h' : broadcast u c.detunings.shape.reverse = some v) :
    ∃ a, c.amplitudes = .ok a ∧ a.shape = v.reverse ∧ Regular a ∧
      ∀ S, FitsR v S → spread a S = (spreadControl c S).amplitudes := by
  obtain ⟨fu, fd⟩ := broadcast_fits h'
  obtain ⟨x, x1, x2, x3, x4⟩ := nd_amplitudeX c hr ha h
  obtain ⟨y, y1, y2, y3, y4⟩ := nd_amplitudeY c hr ha h
  obtain ⟨xy, z1, z2, z3, z4⟩ := bin_spread (f := (· + ·)) (u := u) (regular_un (f := fun v => v * v) x3)
    (regular_un (f := fun v => v * v) y3) (by
      show broadcast x.shape.reverse y.shape.reverse = _
      rw [x2, y2, List.reverse_reverse]
      exact (broadcast_le (FitsR.refl u)).1)
  obtain ⟨w, w1, w2, w3, w4⟩ := bin_spread (f := (· + ·)) (u := v) z3 (regular_un (f := fun v => v * v) hd) (by
      show broadcast xy.shape.reverse c.detunings.shape.reverse = _
      rw [z2, List.reverse_reverse]; exact h')
  refine ⟨w.un sqrt, ?_, w2, regular_un w3, fun S hS => ?_⟩
  · unfold NdControl.amplitudes
    rw [x1, y1]
    simp only [bind, Except.bind, z1, w1]
    rfl
  · rw [spread_un, w4 S hS, z4 S (fu.trans hS), spread_un, spread_un, spread_un, x4 S (fu.trans hS),
      y4 S (fu.trans hS)]
    unfold DrivenControl.amplitudes
    rw [List.zipWith_map_left, List.zipWith_map_right, List.zipWith_map_right, List.map_zipWith]
    rfl

theorem nd_angles_eq (c : NdControl α) : c.angles = (c.amplitudes.bind fun a => NdArray.bin (· * ·) a c.durations) := by
  unfold NdControl.angles NdControl.amplitudes
  simp only [bind, Except.bind]
  cases c.amplitudeX with
  | error e => rfl
  | ok x =>
    cases c.amplitudeY with
    | error e => rfl
    | ok y =>
      dsimp only
      cases NdArray.bin (fun x1 x2 => x1 + x2) (x.un fun v => v * v) (y.un fun v => v * v) with
      | error e => rfl
      | ok xy =>
        dsimp only
        cases NdArray.bin (fun x1 x2 => x1 + x2) xy (c.detunings.un fun v => v * v) with
        | error e => rfl
        | ok w => rfl

/-! ## Blocks -/

theorem flatMap_block {β : Type} (g : ℕ → List β) (L n : ℕ) (h : ∀ i < n, (g i).length = L) (i j : ℕ) (hi : i < n)
    (hj : j < L) : ((List.range n).flatMap g)[i * L + j]? = (g i)[j]? := by
  have hlen : ∀ k ≤ n, ((List.range k).flatMap g).length = k * L := by
    intro k hk
    induction k with
    | zero => simp
    | succ k ih =>
      rw [List.range_succ, List.flatMap_append, List.length_append, ih (by omega)]
      simp [h k (by omega), Nat.succ_mul]
  have h1 : List.range n = List.range i ++ (List.range' i (n - i)) := by
    have := List.range'_append_1 (s := 0) (m := i) (n := n - i)
    rw [Nat.zero_add, Nat.add_sub_cancel' hi.le] at this
    rw [List.range_eq_range', List.range_eq_range', this]
  have h2 : List.range' i (n - i) = i :: List.range' (i + 1) (n - i - 1) := by
    have : n - i = (n - i - 1) + 1 := by omega
    rw [this, List.range'_succ]
    simp
  rw [h1, List.flatMap_append, List.getElem?_append_right (by rw [hlen i hi.le]; omega), hlen i hi.le, h2,
    List.flatMap_cons, Nat.add_sub_cancel_left, List.getElem?_append_left (by rw [h i hi]; exact hj)]

theorem row_length {a : NdArray α} {n : ℕ} {rest : List ℕ} (hs : a.shape = n :: rest) (ha : Regular a) {i : ℕ}
    (hi : i < n) : (a.row i).length = rest.prod := by
  unfold NdArray.row
  unfold Regular at ha
  rw [hs, List.prod_cons] at ha
  rw [hs, List.tail_cons, List.length_take, List.length_drop, ha]
  have : (i + 1) * rest.prod ≤ n * rest.prod := Nat.mul_le_mul_right _ hi
  rw [Nat.add_mul, one_mul] at this
  omega

theorem row_getElem {a : NdArray α} {n : ℕ} {rest : List ℕ} (hs : a.shape = n :: rest) {i j : ℕ} (hj : j < rest.prod) :
    (a.row i)[j]? = a.data[i * rest.prod + j]? := by
  unfold NdArray.row
  rw [hs, List.tail_cons, List.getElem?_take, if_pos hj, List.getElem?_drop]

theorem place_lt {S index : List ℕ} (h : index ∈ indices S) : place S index < S.prod ∧ index.length = S.length := by
  rw [indices_eq] at h
  obtain ⟨m, hm, rfl⟩ := List.mem_map.mp h
  have hm := List.mem_range.mp hm
  have hw := unravel_within (S := S.reverse) (m := m) (by rw [List.prod_reverse]; exact hm)
  have hl := hw.length_eq
  rw [List.length_reverse] at hl
  refine ⟨?_, by rw [List.length_reverse, hl]⟩
  rw [place_eq _ _ (by rw [List.length_reverse, hl]) [], List.reverse_reverse, List.append_nil,
    ravel_self (by rw [List.prod_reverse]; exact hm)]
  exact hm

theorem mem_indices_cons {n i : ℕ} {rest index : List ℕ} :
    i :: index ∈ indices (n :: rest) ↔ i < n ∧ index ∈ indices rest := by
  rw [indices, List.mem_flatMap]
  constructor
  · rintro ⟨j, hj, h⟩
    obtain ⟨k, hk, h⟩ := List.mem_map.mp h
    rw [List.cons.injEq] at h
    obtain ⟨rfl, rfl⟩ := h
    exact ⟨List.mem_range.mp hj, hk⟩
  · rintro ⟨h1, h2⟩
    exact ⟨i, List.mem_range.mpr h1, List.mem_map_of_mem h2⟩

theorem place_cons {n i : ℕ} {rest index : List ℕ} (hi : i < n) :
    place (n :: rest) (i :: index) = i * rest.prod + place rest index := by
  rw [place]
  congr 2
  split <;> omega

/-- the joined array -/
theorem hstack_items {a b c : NdArray α} {n : ℕ} {rest : List ℕ} (ha : Regular a) (hb : Regular b) (hc : Regular c)
    (sa : a.shape = n :: rest) (sb : b.shape = n :: rest) (sc : c.shape = n :: rest) :
    ∃ a' b' c' d, a.newAxis = .ok a' ∧ b.newAxis = .ok b' ∧ c.newAxis = .ok c' ∧
      NdArray.hstack a' b' c' = .ok d ∧ d.shape = n :: 3 :: rest ∧ Regular d ∧
      ∀ i index, i :: index ∈ indices (n :: rest) →
        itemAt d (i :: 0 :: index) = a.data[place (n :: rest) (i :: index)]? ∧
        itemAt d (i :: 1 :: index) = b.data[place (n :: rest) (i :: index)]? ∧
        itemAt d (i :: 2 :: index) = c.data[place (n :: rest) (i :: index)]? := by
  have key : ∀ x : NdArray α, Regular x → x.shape = n :: rest → x.newAxis = .ok ⟨n :: 1 :: rest, x.data⟩ ∧
      Regular (⟨n :: 1 :: rest, x.data⟩ : NdArray α) := by
    intro x hx sx
    unfold NdArray.newAxis Regular at *
    rw [sx]
    refine ⟨rfl, ?_⟩
    simpa [sx] using hx
  obtain ⟨a1, a2⟩ := key a ha sa
  obtain ⟨b1, b2⟩ := key b hb sb
  obtain ⟨c1, c2⟩ := key c hc sc
  have hL : ∀ i < n, (NdArray.row ⟨n :: 1 :: rest, a.data⟩ i ++ NdArray.row ⟨n :: 1 :: rest, b.data⟩ i ++
      NdArray.row ⟨n :: 1 :: rest, c.data⟩ i).length = 3 * rest.prod := by
    intro i hi
    rw [List.length_append, List.length_append, row_length rfl a2 hi, row_length rfl b2 hi, row_length rfl c2 hi]
    simp
    ring
  refine ⟨_, _, _, _, a1, b1, c1, by unfold NdArray.hstack; dsimp only; rw [if_pos (by simp)], rfl, ?_, ?_⟩
  · unfold Regular
    dsimp only
    rw [List.length_flatMap]
    have : (List.range n).map (fun i => (NdArray.row ⟨n :: 1 :: rest, a.data⟩ i ++
        NdArray.row ⟨n :: 1 :: rest, b.data⟩ i ++ NdArray.row ⟨n :: 1 :: rest, c.data⟩ i).length) =
        (List.range n).map fun _ => 3 * rest.prod :=
      List.map_congr_left fun i hi => hL i (List.mem_range.mp hi)
    rw [this]
    simp
  · intro i index h
    obtain ⟨hi, hx⟩ := mem_indices_cons.mp h
    obtain ⟨hp, hlen⟩ := place_lt hx
    have hitem : ∀ k < 3, itemAt (⟨n :: (1 + 1 + 1) :: rest, (List.range n).flatMap fun i =>
        NdArray.row ⟨n :: 1 :: rest, a.data⟩ i ++ NdArray.row ⟨n :: 1 :: rest, b.data⟩ i ++
        NdArray.row ⟨n :: 1 :: rest, c.data⟩ i⟩ : NdArray α) (i :: k :: index) =
        (NdArray.row ⟨n :: 1 :: rest, a.data⟩ i ++ NdArray.row ⟨n :: 1 :: rest, b.data⟩ i ++
          NdArray.row ⟨n :: 1 :: rest, c.data⟩ i)[k * rest.prod + place rest index]? := by
      intro k hk
      have hkL : k * rest.prod + place rest index < 3 * rest.prod := by
        have : (k + 1) * rest.prod ≤ 3 * rest.prod := Nat.mul_le_mul_right _ hk
        rw [Nat.add_mul, one_mul] at this
        omega
      unfold itemAt
      dsimp only
      have hd : (i :: k :: index).length - (n :: (1 + 1 + 1) :: rest).length = 0 := by simp [hlen]
      rw [hd, List.drop_zero, place_cons hi, place_cons hk, List.prod_cons,
        ← flatMap_block (fun i => NdArray.row ⟨n :: 1 :: rest, a.data⟩ i ++ NdArray.row ⟨n :: 1 :: rest, b.data⟩ i ++
          NdArray.row ⟨n :: 1 :: rest, c.data⟩ i) (3 * rest.prod) n hL i _ hi hkL]
    have hpr : (1 :: rest).prod = rest.prod := by simp
    have la := row_length (a := ⟨n :: 1 :: rest, a.data⟩) rfl a2 hi
    have lb := row_length (a := ⟨n :: 1 :: rest, b.data⟩) rfl b2 hi
    rw [hpr] at la lb
    rw [hitem 0 (by omega), hitem 1 (by omega), hitem 2 (by omega), place_cons hi]
    refine ⟨?_, ?_, ?_⟩
    · rw [List.append_assoc, List.getElem?_append_left (by rw [la]; omega), row_getElem rfl (by rw [hpr]; omega), hpr]
      congr 1
      omega
    · rw [List.append_assoc, List.getElem?_append_right (by rw [la]; omega), la,
        List.getElem?_append_left (by rw [lb]; omega), row_getElem rfl (by rw [hpr]; omega), hpr]
      congr 1
      omega
    · rw [List.getElem?_append_right (by rw [List.length_append, la, lb]; omega), List.length_append, la, lb,
        row_getElem rfl (by rw [hpr]; omega), hpr]
      congr 1
      omega

/-! ## Three and four arrays -/

theorem isBroadcast_two {s t : List ℕ} {l : List (List ℕ)} {S : List ℕ} (h : IsBroadcast (s :: t :: l) S) :
    ∃ u, IsBroadcast [s, t] u ∧ IsBroadcast (u :: l) S := by
  obtain ⟨u, hu⟩ := isBroadcast_exists (l := [s, t]) (S' := S) fun x hx => h.1 x (by
    simp only [List.mem_cons, List.not_mem_nil, or_false] at hx ⊢; tauto)
  refine ⟨u, hu, fun x hx => ?_, fun T hT => h.2 T fun x hx => ?_⟩
  · rcases List.mem_cons.mp hx with rfl | hx
    · exact hu.2 S fun y hy => h.1 y (by simp only [List.mem_cons, List.not_mem_nil, or_false] at hy ⊢; tauto)
    · exact h.1 x (by simp [hx])
  · have hu' : ∀ y ∈ [s, t], Fits y T := fun y hy => by
      have h1 := (fits_iff _ _).mp (hu.1 y hy)
      exact (fits_iff _ _).mpr (h1.trans ((fits_iff _ _).mp (hT u (by simp))))
    rcases List.mem_cons.mp hx with rfl | hx
    · exact hu' _ (by simp)
    · rcases List.mem_cons.mp hx with rfl | hx
      · exact hu' _ (by simp)
      · exact hT x (by simp [hx])

theorem isBroadcast_two_exists {s t u : List ℕ} {l : List (List ℕ)} (h : IsBroadcast [s, t] u)
    (h' : ∃ S, IsBroadcast (u :: l) S) : ∃ S, IsBroadcast (s :: t :: l) S := by
  obtain ⟨S, hS, -⟩ := h'
  refine isBroadcast_exists (S' := S) fun x hx => ?_
  have hu := (fits_iff _ _).mp (hS u (by simp))
  simp only [List.mem_cons] at hx
  rcases hx with rfl | rfl | hx
  · exact (fits_iff _ _).mpr (((fits_iff _ _).mp (h.1 _ (by simp))).trans hu)
  · exact (fits_iff _ _).mpr (((fits_iff _ _).mp (h.1 _ (by simp))).trans hu)
  · exact hS x (by simp [hx])

theorem stretched_amplitudes (c : NdControl α) {S : List ℕ} (h1 : Fits c.rabiRates.shape S)
    (h2 : Fits c.azimuthalAngles.shape S) : (stretched c S).amplitudeX = (spreadControl c S.reverse).amplitudeX ∧
      (stretched c S).amplitudeY = (spreadControl c S.reverse).amplitudeY ∧
      (Fits c.detunings.shape S → (stretched c S).amplitudes = (spreadControl c S.reverse).amplitudes) := by
  unfold DrivenControl.amplitudes DrivenControl.amplitudeX DrivenControl.amplitudeY stretched spreadControl
  dsimp only
  rw [stretchTo_eq _ h1, stretchTo_eq _ h2]
  exact ⟨rfl, rfl, fun h3 => by rw [stretchTo_eq _ h3]⟩

/-- no common shape: `ValueError` from `amplitude_x` and `amplitude_y` -/
theorem nd_amplitudeX_none (c : NdControl α)
    (h : ¬ ∃ S, IsBroadcast [c.rabiRates.shape, c.azimuthalAngles.shape] S) :
    (∃ m, c.amplitudeX = .error (.valueError m)) ∧ ∃ m, c.amplitudeY = .error (.valueError m) :=
  ⟨bin_none (broadcast_none h), bin_none (broadcast_none h)⟩

theorem nd_amplitudes_none (c : NdControl α) (hr : Regular c.rabiRates) (ha : Regular c.azimuthalAngles)
    (h : ¬ ∃ S, IsBroadcast [c.rabiRates.shape, c.azimuthalAngles.shape, c.detunings.shape] S) :
    ∃ m, c.amplitudes = .error (.valueError m) := by
  by_cases h2 : ∃ u, IsBroadcast [c.rabiRates.shape, c.azimuthalAngles.shape] u
  · obtain ⟨u, hu⟩ := h2
    have hb := isBroadcast_pair hu
    obtain ⟨x, x1, x2, x3, x4⟩ := nd_amplitudeX c hr ha hb
    obtain ⟨y, y1, y2, y3, y4⟩ := nd_amplitudeY c hr ha hb
    obtain ⟨xy, z1, z2, z3, z4⟩ := bin_spread (f := (· + ·)) (u := u.reverse) (regular_un (f := fun v => v * v) x3)
      (regular_un (f := fun v => v * v) y3) (by
        show broadcast x.shape.reverse y.shape.reverse = _
        rw [x2, y2, List.reverse_reverse]
        exact (broadcast_le (FitsR.refl _)).1)
    obtain ⟨m, hm⟩ := bin_none (f := (· + ·)) (a := xy) (b := c.detunings.un fun v => v * v) (by
      show broadcast xy.shape.reverse c.detunings.shape.reverse = _
      rw [z2, List.reverse_reverse]
      exact broadcast_none fun ⟨S, hS⟩ => h (isBroadcast_two_exists hu ⟨S, hS⟩))
    refine ⟨m, ?_⟩
    unfold NdControl.amplitudes
    rw [x1, y1]
    simp only [bind, Except.bind, z1, hm]
  · obtain ⟨m, hm⟩ := (nd_amplitudeX_none c h2).1
    refine ⟨m, ?_⟩
    unfold NdControl.amplitudes
    rw [hm]
    rfl

/-- the amplitudes of a control whose first three arrays have a common shape -/
theorem nd_amplitudes_ok (c : NdControl α) (hr : Regular c.rabiRates) (ha : Regular c.azimuthalAngles)
    (hd : Regular c.detunings) {S : List ℕ}
    (h : IsBroadcast [c.rabiRates.shape, c.azimuthalAngles.shape, c.detunings.shape] S) :
    ∃ a, c.amplitudes = .ok a ∧ a.shape = S ∧ Regular a ∧
      ∀ T, Fits S T → spread a T.reverse = (stretched c T).amplitudes := by
  obtain ⟨u, hu, huS⟩ := isBroadcast_two h
  obtain ⟨a, a1, a2, a3, a4⟩ := nd_amplitudes c hr ha hd (isBroadcast_pair hu) (isBroadcast_pair huS)
  refine ⟨a, a1, by rw [a2, List.reverse_reverse], a3, fun T hT => ?_⟩
  have hf : ∀ s ∈ [c.rabiRates.shape, c.azimuthalAngles.shape, c.detunings.shape], Fits s T := fun s hs =>
    (fits_iff _ _).mpr (((fits_iff _ _).mp (h.1 s hs)).trans ((fits_iff _ _).mp hT))
  rw [a4 _ ((fits_iff _ _).mp hT), (stretched_amplitudes c (hf _ (by simp)) (hf _ (by simp))).2.2 (hf _ (by simp))]

theorem fits_refl (S : List ℕ) : Fits S S := (fits_iff _ _).mpr (FitsR.refl _)

theorem stretchTo_length {a : NdArray α} (ha : Regular a) {S : List ℕ} (h : Fits a.shape S) :
    (stretchTo a S).length = S.prod := by
  rw [stretchTo_eq _ h, (spread_spec ha ((fits_iff _ _).mp h)).1, List.prod_reverse]

/-- what `directions` computes before the arrays are joined -/
theorem nd_directions_parts (c : NdControl α) (hr : Regular c.rabiRates) (ha : Regular c.azimuthalAngles)
    (hd : Regular c.detunings) {S : List ℕ}
    (h : IsBroadcast [c.rabiRates.shape, c.azimuthalAngles.shape, c.detunings.shape] S) (m : α)
    (hm : npAmax (stretched c S).amplitudes = .ok m) :
    ∃ nx ny nz : NdArray α, Regular nx ∧ Regular ny ∧ Regular nz ∧ nx.shape = S ∧ ny.shape = S ∧ nz.shape = S ∧
      c.directions = (do
        let nx ← nx.newAxis
        let ny ← ny.newAxis
        let nz ← nz.newAxis
        NdArray.hstack nx ny nz) ∧
      (stretched c S).directions =
        .ok (List.zipWith (fun x yz => (x, yz)) nx.data (List.zipWith (fun y z => (y, z)) ny.data nz.data)) := by
  obtain ⟨a, a1, a2, a3, a4⟩ := nd_amplitudes_ok c hr ha hd h
  have a4' := a4 S (fits_refl S)
  rw [← a2, spread_self a3] at a4'
  rw [a2] at a4'
  have hf := h.1
  obtain ⟨u, hu, huS⟩ := isBroadcast_two h
  have huS' : FitsR u.reverse S.reverse := (fits_iff _ _).mp (huS.1 u (by simp))
  have hdS : FitsR c.detunings.shape.reverse S.reverse := (fits_iff _ _).mp (huS.1 _ (by simp))
  obtain ⟨x, x1, x2, x3, x4⟩ := nd_amplitudeX c hr ha (isBroadcast_pair hu)
  obtain ⟨y, y1, y2, y3, y4⟩ := nd_amplitudeY c hr ha (isBroadcast_pair hu)
  have hst := stretched_amplitudes c (S := S) (hf _ (by simp)) (hf _ (by simp))
  generalize hsafe : (fun v : α => if isCloseAtol (pyMin (lit (1 / 100000000000000000000) * m) (lit (1 / 100000000)))
    v (lit 0) then lit 1 else v) = safe at *
  have key : ∀ z : NdArray α, Regular z → FitsR z.shape.reverse S.reverse → ∃ w,
      NdArray.bin (· / ·) z (a.un safe) = .ok w ∧ Regular w ∧ w.shape = S ∧
      w.data = List.zipWith (· / ·) (spread z S.reverse) (((stretched c S).amplitudes).map safe) := by
    intro z hz hzS
    obtain ⟨w, w1, w2, w3, w4⟩ := bin_spread (f := (· / ·)) (u := S.reverse) hz (regular_un (f := safe) a3) (by
      show broadcast z.shape.reverse a.shape.reverse = _
      rw [a2]
      exact (broadcast_le hzS).1)
    rw [List.reverse_reverse] at w2
    refine ⟨w, w1, w3, w2, ?_⟩
    have := w4 S.reverse (FitsR.refl _)
    rw [← w2, spread_self w3, w2, spread_un] at this
    rw [this]
    congr 2
    have := a4 S (fits_refl S)
    exact this
  obtain ⟨nx, n1, n2, n3, n4⟩ := key x x3 (by rw [x2, List.reverse_reverse]; exact huS')
  obtain ⟨ny, p1, p2, p3, p4⟩ := key y y3 (by rw [y2, List.reverse_reverse]; exact huS')
  obtain ⟨nz, q1, q2, q3, q4⟩ := key c.detunings hd hdS
  refine ⟨nx, ny, nz, n2, p2, q2, n3, p3, q3, ?_, ?_⟩
  · unfold NdControl.directions
    rw [a1, x1, y1]
    simp only [bind, Except.bind]
    rw [a4', hm]
    dsimp only
    rw [hsafe, n1, p1, q1]
  · rw [x4 _ huS', ← hst.1] at n4
    rw [y4 _ huS', ← hst.2.1] at p4
    rw [← stretchTo_eq _ (hf c.detunings.shape (by simp))] at q4
    unfold DrivenControl.directions
    simp only [bind, Except.bind]
    rw [hm]
    dsimp only
    rw [hsafe, n4, p4, q4]
    rfl

end OpenControls
