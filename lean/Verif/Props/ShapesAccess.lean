import Verif.Proofs.ShapesAccess
import Verif.Spec.ShapesAccess
import Verif.Props.ShapesExport

/-!
# C104: reading controls whose arrays are not 1-D

`stretched c S` (`Verif/Spec/Broadcast.lean`) is a control with 1-D arrays that has one segment for every place of the
shape `S`.
-/

namespace OpenControls

set_option linter.unusedSectionVars false

open PyFloat Spec Py NdArray

section

variable {α : Type} [Add α] [Sub α] [Mul α] [Div α] [Neg α] [PyFloat α]

/-- **C104** `amplitude_x` and `amplitude_y` are the numbers of the stretched control, in an array of the smallest common
shape of Rabi rates and azimuthal angles; `ValueError` if there is none. -/
theorem C104_amplitudes (c : NdControl α) (hr : Regular c.rabiRates) (ha : Regular c.azimuthalAngles) :
    (∀ S, IsBroadcast [c.rabiRates.shape, c.azimuthalAngles.shape] S →
      c.amplitudeX = .ok ⟨S, (stretched c S).amplitudeX⟩ ∧ c.amplitudeY = .ok ⟨S, (stretched c S).amplitudeY⟩) ∧
    ((¬ ∃ S, IsBroadcast [c.rabiRates.shape, c.azimuthalAngles.shape] S) →
      (∃ m, c.amplitudeX = .error (.valueError m)) ∧ ∃ m, c.amplitudeY = .error (.valueError m)) := by
  refine ⟨fun S h => ?_, nd_amplitudeX_none c⟩
  have hst := stretched_amplitudes c (S := S) (h.1 _ (by simp)) (h.1 _ (by simp))
  obtain ⟨x, x1, x2, x3, x4⟩ := nd_amplitudeX c hr ha (isBroadcast_pair h)
  obtain ⟨y, y1, y2, y3, y4⟩ := nd_amplitudeY c hr ha (isBroadcast_pair h)
  have x5 := x4 _ (FitsR.refl _)
  have y5 := y4 _ (FitsR.refl _)
  rw [List.reverse_reverse] at x2 y2
  rw [← hst.1] at x5
  rw [← hst.2.1] at y5
  have ex : x = ⟨S, (stretched c S).amplitudeX⟩ := by
    rw [← x5, ← x2, spread_self x3]
  have ey : y = ⟨S, (stretched c S).amplitudeY⟩ := by
    rw [← y5, ← y2, spread_self y3]
  exact ⟨by rw [x1, ← ex], by rw [y1, ← ey]⟩

/-- **C104** `angles` are the numbers of the stretched control, in an array of the smallest common shape of the four
arrays; `ValueError` if there is none. -/
theorem C104_angles (c : NdControl α) (hr : Regular c.rabiRates) (ha : Regular c.azimuthalAngles)
    (hd : Regular c.detunings) (ht : Regular c.durations) :
    (∀ S, IsBroadcast [c.rabiRates.shape, c.azimuthalAngles.shape, c.detunings.shape, c.durations.shape] S →
      c.angles = .ok ⟨S, (stretched c S).angles⟩) ∧
    ((¬ ∃ S, IsBroadcast [c.rabiRates.shape, c.azimuthalAngles.shape, c.detunings.shape, c.durations.shape] S) →
      ∃ m, c.angles = .error (.valueError m)) := by
  have three : ∀ {S T : List ℕ}, IsBroadcast [c.rabiRates.shape, c.azimuthalAngles.shape, c.detunings.shape] S →
      Fits S T → Fits c.durations.shape T →
      ∀ s ∈ [c.rabiRates.shape, c.azimuthalAngles.shape, c.detunings.shape, c.durations.shape], Fits s T := by
    intro S T hS hT hdT s hs
    simp only [List.mem_cons, List.not_mem_nil, or_false] at hs
    have : ∀ s ∈ [c.rabiRates.shape, c.azimuthalAngles.shape, c.detunings.shape], Fits s T := fun s hs =>
      (fits_iff _ _).mpr (((fits_iff _ _).mp (hS.1 s hs)).trans ((fits_iff _ _).mp hT))
    rcases hs with rfl | rfl | rfl | rfl
    · exact this _ (by simp)
    · exact this _ (by simp)
    · exact this _ (by simp)
    · exact hdT
  rw [nd_angles_eq]
  refine ⟨fun T hT => ?_, fun hno => ?_⟩
  · obtain ⟨S, hS⟩ := isBroadcast_exists
      (l := [c.rabiRates.shape, c.azimuthalAngles.shape, c.detunings.shape]) (S' := T) fun s hs => hT.1 s (by
        simp only [List.mem_cons, List.not_mem_nil, or_false] at hs ⊢; tauto)
    have hST : Fits S T := hS.2 T fun s hs => hT.1 s (by
        simp only [List.mem_cons, List.not_mem_nil, or_false] at hs ⊢; tauto)
    obtain ⟨a, a1, a2, a3, a4⟩ := nd_amplitudes_ok c hr ha hd hS
    have hpair : IsBroadcast [S, c.durations.shape] T := by
      refine ⟨fun s hs => ?_, fun T' h' => hT.2 T' (three hS (h' _ (by simp)) (h' _ (by simp)))⟩
      simp only [List.mem_cons, List.not_mem_nil, or_false] at hs
      rcases hs with rfl | rfl
      · exact hST
      · exact hT.1 _ (by simp)
    obtain ⟨w, w1, w2, w3, w4⟩ := bin_spread (f := (· * ·)) (u := T.reverse) a3 ht (by
      rw [a2]; exact isBroadcast_pair hpair)
    have w5 := w4 _ (FitsR.refl _)
    rw [List.reverse_reverse] at w2
    rw [a4 T hST, ← stretchTo_eq _ (hT.1 c.durations.shape (by simp))] at w5
    have : w = ⟨T, (stretched c T).angles⟩ := by
      have e : (stretched c T).angles = List.zipWith (· * ·) (stretched c T).amplitudes (stretchTo c.durations T) := rfl
      rw [e, ← w5, ← w2, spread_self w3]
    rw [a1]
    simp only [Except.bind]
    rw [w1, this]
  · by_cases h : ∃ S, IsBroadcast [c.rabiRates.shape, c.azimuthalAngles.shape, c.detunings.shape] S
    · obtain ⟨S, hS⟩ := h
      obtain ⟨a, a1, a2, a3, a4⟩ := nd_amplitudes_ok c hr ha hd hS
      obtain ⟨m, hm⟩ := bin_none (f := (· * ·)) (a := a) (b := c.durations) (by
        rw [a2]
        refine broadcast_none fun ⟨T, hT⟩ => hno ?_
        exact isBroadcast_exists (S' := T) (three hS (hT.1 _ (by simp)) (hT.1 _ (by simp))))
      refine ⟨m, ?_⟩
      rw [a1]
      simp only [Except.bind]
      exact hm
    · obtain ⟨m, hm⟩ := nd_amplitudes_none c hr ha h
      exact ⟨m, by rw [hm]; rfl⟩

/-- **C104** `directions`, completely.  Let `S` be the smallest common shape of Rabi rates, azimuthal angles and
detunings.  If `S` has a first axis and no axis is of length zero, the result has one more axis, of length three, after
the first, and its entries are the directions of the stretched control.  If `S` has no axes, `IndexError`.  If some axis
has length zero, or there is no common shape, `ValueError`. -/
theorem C104_directions (c : NdControl α) (hr : Regular c.rabiRates) (ha : Regular c.azimuthalAngles)
    (hd : Regular c.detunings) :
    (∀ n rest, IsBroadcast [c.rabiRates.shape, c.azimuthalAngles.shape, c.detunings.shape] (n :: rest) →
      (n :: rest).prod ≠ 0 → ∃ dirs l, c.directions = .ok dirs ∧ Regular dirs ∧ dirs.shape = n :: 3 :: rest ∧
        (stretched c (n :: rest)).directions = .ok l ∧
        ∀ i index, i :: index ∈ indices (n :: rest) → ∃ x y z, l[place (n :: rest) (i :: index)]? = some (x, y, z) ∧
          itemAt dirs (i :: 0 :: index) = some x ∧ itemAt dirs (i :: 1 :: index) = some y ∧
          itemAt dirs (i :: 2 :: index) = some z) ∧
    (IsBroadcast [c.rabiRates.shape, c.azimuthalAngles.shape, c.detunings.shape] [] →
      c.directions = .error .indexError) ∧
    (∀ S, IsBroadcast [c.rabiRates.shape, c.azimuthalAngles.shape, c.detunings.shape] S → S.prod = 0 →
      ∃ m, c.directions = .error (.valueError m)) ∧
    ((¬ ∃ S, IsBroadcast [c.rabiRates.shape, c.azimuthalAngles.shape, c.detunings.shape] S) →
      ∃ m, c.directions = .error (.valueError m)) := by
  have hlen : ∀ {S}, IsBroadcast [c.rabiRates.shape, c.azimuthalAngles.shape, c.detunings.shape] S →
      (stretched c S).amplitudes.length = S.prod := by
    intro S h
    have h1 := stretchTo_length hr (h.1 _ (by simp))
    have h2 := stretchTo_length ha (h.1 _ (by simp))
    have h3 := stretchTo_length hd (h.1 _ (by simp))
    simp [DrivenControl.amplitudes, DrivenControl.amplitudeX, DrivenControl.amplitudeY, stretched, h1, h2, h3]
  have hmax : ∀ {S}, IsBroadcast [c.rabiRates.shape, c.azimuthalAngles.shape, c.detunings.shape] S → S.prod ≠ 0 →
      ∃ m, npAmax (stretched c S).amplitudes = .ok m := by
    intro S h h0
    have := hlen h
    cases hl : (stretched c S).amplitudes with
    | nil => rw [hl] at this; exact absurd this.symm h0
    | cons a l => exact ⟨_, rfl⟩
  refine ⟨fun n rest h h0 => ?_, fun h => ?_, fun S h h0 => ?_, fun h => ?_⟩
  · obtain ⟨m, hm⟩ := hmax h h0
    obtain ⟨nx, ny, nz, r1, r2, r3, s1, s2, s3, e1, e2⟩ := nd_directions_parts c hr ha hd h m hm
    obtain ⟨a', b', c', d, g1, g2, g3, g4, g5, g6, g7⟩ := hstack_items r1 r2 r3 s1 s2 s3
    refine ⟨d, _, ?_, g6, g5, e2, fun i index hi => ?_⟩
    · rw [e1, g1, g2, g3]
      exact g4
    · obtain ⟨h1, h2, h3⟩ := g7 i index hi
      have hp := (place_lt hi).1
      have p1 : place (n :: rest) (i :: index) < nx.data.length := by rw [r1, s1]; exact hp
      have p2 : place (n :: rest) (i :: index) < ny.data.length := by rw [r2, s2]; exact hp
      have p3 : place (n :: rest) (i :: index) < nz.data.length := by rw [r3, s3]; exact hp
      refine ⟨_, _, _, ?_, by rw [h1, List.getElem?_eq_getElem p1], by rw [h2, List.getElem?_eq_getElem p2],
        by rw [h3, List.getElem?_eq_getElem p3]⟩
      rw [List.getElem?_zipWith, List.getElem?_zipWith, List.getElem?_eq_getElem p1, List.getElem?_eq_getElem p2,
        List.getElem?_eq_getElem p3]
  · obtain ⟨m, hm⟩ := hmax h (by simp)
    obtain ⟨nx, ny, nz, r1, r2, r3, s1, s2, s3, e1, e2⟩ := nd_directions_parts c hr ha hd h m hm
    rw [e1]
    unfold NdArray.newAxis
    rw [s1]
    rfl
  · obtain ⟨a, a1, a2, a3, a4⟩ := nd_amplitudes_ok c hr ha hd h
    have : a.data = [] := by
      rw [← List.length_eq_zero_iff, a3, a2, h0]
    unfold NdControl.directions
    rw [a1]
    simp only [bind, Except.bind, this]
    exact ⟨_, rfl⟩
  · obtain ⟨m, hm⟩ := nd_amplitudes_none c hr ha h
    unfold NdControl.directions
    rw [hm]
    exact ⟨m, rfl⟩

theorem row_one {n i : ℕ} {xs : List α} (h : i < xs.length) :
    NdArray.row ⟨[n, 1], xs⟩ i = [xs[i]] := by
  unfold NdArray.row
  simp only [List.tail_cons, List.prod_cons, List.prod_nil, Nat.mul_one]
  rw [List.drop_eq_getElem_cons h]
  rfl

theorem directionRows_hstack (xs ys zs : List α) (n : ℕ) (hx : xs.length = n) (hy : ys.length = n)
    (hz : zs.length = n) :
    NdArray.hstack ⟨[n, 1], xs⟩ ⟨[n, 1], ys⟩ ⟨[n, 1], zs⟩ =
      .ok (directionRows (List.zipWith (fun x yz => (x, yz)) xs (List.zipWith (fun y z => (y, z)) ys zs))) := by
  unfold NdArray.hstack directionRows
  dsimp only
  rw [if_pos (by simp)]
  have hl : List.zipWith (fun x yz => (x, yz)) xs (List.zipWith (fun y z => (y, z)) ys zs) =
      (List.range n).attach.map fun i => (xs[i.1]'(by rw [hx]; exact List.mem_range.mp i.2),
        ys[i.1]'(by rw [hy]; exact List.mem_range.mp i.2), zs[i.1]'(by rw [hz]; exact List.mem_range.mp i.2)) := by
    refine List.ext_getElem (by simp [hx, hy, hz]) fun i h1 h2 => ?_
    simp
  rw [hl]
  congr 2
  · simp
  · rw [List.flatMap_map]
    conv_lhs => rw [← List.attach_map_subtype_val (List.range n), List.flatMap_map]
    refine List.flatMap_congr fun i _ => ?_
    have hi := List.mem_range.mp i.2
    rw [row_one (by rw [hx]; exact hi), row_one (by rw [hy]; exact hi), row_one (by rw [hz]; exact hi)]
    rfl

theorem isBroadcast_same (S : List ℕ) (l : List (List ℕ)) (h : ∀ s ∈ l, s = S) (h' : l ≠ []) : IsBroadcast l S := by
  refine ⟨fun s hs => by rw [h s hs]; exact fits_refl S, fun T hT => ?_⟩
  obtain ⟨s, hs⟩ := List.exists_mem_of_ne_nil l h'
  have := hT s hs
  rwa [h s hs] at this

theorem stretchTo_self {a : NdArray α} (ha : Regular a) : stretchTo a a.shape = a.data := by
  rw [stretchTo_eq _ (fits_refl _), spread_self ha]

theorem regular_vec (xs : List α) : Regular (vec xs) := by simp [Regular, vec]

/-- **C104** For 1-D arrays all accessors, `export` and `__str__` are those of the rest of the model. -/
theorem C104_flat (c : DrivenControl α) (h : c.Constructed) :
    (flatControl c).numberOfSegments = .ok c.numberOfSegments ∧
    (flatControl c).maximumRabiRate = c.maximumRabiRate ∧ (flatControl c).maximumDetuning = c.maximumDetuning ∧
    (flatControl c).maximumDuration = c.maximumDuration ∧ (flatControl c).minimumDuration = c.minimumDuration ∧
    (flatControl c).directions = c.directions.map directionRows ∧
    (∀ coordinates dimensionless, (flatControl c).exportPlot coordinates dimensionless =
      (c.exportPlot coordinates dimensionless).map plotCells) ∧
    (flatControl c).textData = c.textData.map textCells := by
  obtain ⟨h1, h2, h3, h4⟩ := h.lengths
  have hax := flat_amplitudes (c := c) (k := flatControl c) (h2.trans h1.symm) (h3.trans h1.symm)
    rfl rfl rfl
  refine ⟨rfl, rfl, rfl, rfl, rfl, ?_, ?_, ?_⟩
  · have hb : IsBroadcast [(flatControl c).rabiRates.shape, (flatControl c).azimuthalAngles.shape,
        (flatControl c).detunings.shape] [c.numberOfSegments] := by
      refine isBroadcast_same _ _ ?_ (by simp)
      intro s hs
      simp only [flatControl, vec, h1, h2, h3, List.mem_cons, List.not_mem_nil, or_false, or_self] at hs
      exact hs
    have hst : stretched (flatControl c) [c.numberOfSegments] = c := by
      have : ∀ xs : List α, xs.length = c.numberOfSegments → stretchTo (vec xs) [c.numberOfSegments] = xs := by
        intro xs hxs
        rw [← hxs]
        exact stretchTo_self (regular_vec xs)
      unfold stretched flatControl
      dsimp only
      rw [this _ h1, this _ h2, this _ h3, this _ h4]
    cases hm : npAmax c.amplitudes with
    | error e =>
      obtain ⟨a, a1, a2, a3, a4⟩ := nd_amplitudes_ok (flatControl c) (regular_vec _) (regular_vec _) (regular_vec _) hb
      have a5 := a4 _ (fits_refl _)
      rw [← a2, spread_self a3, a2, hst] at a5
      unfold NdControl.directions DrivenControl.directions
      rw [a1]
      simp only [bind, Except.bind]
      rw [a5, hm]
      rfl
    | ok m =>
      obtain ⟨nx, ny, nz, r1, r2, r3, s1, s2, s3, e1, e2⟩ := nd_directions_parts (flatControl c) (regular_vec _)
        (regular_vec _) (regular_vec _) hb m (by rw [hst]; exact hm)
      rw [hst] at e2
      have key : ∀ z : NdArray α, z.shape = [c.numberOfSegments] →
          z.newAxis = .ok ⟨[c.numberOfSegments, 1], z.data⟩ := by
        intro z hz
        unfold NdArray.newAxis
        rw [hz]
      rw [e1, e2, key nx s1, key ny s2, key nz s3]
      simp only [bind, Except.bind]
      rw [directionRows_hstack _ _ _ _ (by rw [r1, s1]; simp) (by rw [r2, s2]; simp) (by rw [r3, s3]; simp)]
      rfl
  · intro coordinates dimensionless
    have hz : ∀ xs ts : List α, zipPoints (vec xs) (vec ts) =
        .ok ((List.zipWith (fun v t => (⟨v, t⟩ : PlotPoint α α)) xs ts).map fun q => ⟨.num q.value, .num q.duration⟩) := by
      intro xs ts
      unfold zipPoints
      simp only [toList_vec, bind, Except.bind, pure, Except.pure]
      rw [List.zipWith_map, List.map_zipWith]
    have hc : ∀ rs as ts : List α, (List.zip (rs.map Cell.num) (List.zip (as.map Cell.num) (ts.map Cell.num))).mapM
        (fun p => cisPoint p.1 p.2) =
        .ok ((List.zipWith (fun v t => (⟨v, t⟩ : PlotPoint α (Cplx α)))
          (List.zipWith (fun r theta => cis r theta) rs as) ts).map fun q =>
            ⟨(.num q.value.re, .num q.value.im), .num q.duration⟩) := by
      intro rs
      induction rs with
      | nil => intro as ts; simp [pure, Except.pure]
      | cons r rs ih =>
        intro as ts
        cases as with
        | nil => simp [pure, Except.pure]
        | cons a as =>
          cases ts with
          | nil => simp [pure, Except.pure]
          | cons t ts =>
            rw [List.map_cons, List.map_cons, List.map_cons, List.zip_cons_cons, List.zip_cons_cons, List.mapM_cons,
              ih as ts]
            rfl
    unfold NdControl.exportPlot DrivenControl.exportPlot
    by_cases hco : coordinateSystems.contains coordinates = true
    · rw [hco]
      have hn : (flatControl c).maximumRabiRate = c.maximumRabiRate := rfl
      rw [hn, hax.1, hax.2.1]
      simp only [checkArguments, bind, Except.bind, if_true]
      cases (if dimensionless = true then c.maximumRabiRate else Except.ok (lit 1)) with
      | error e => rfl
      | ok m =>
        have hco' : coordinates = "cylindrical" ∨ coordinates = "cartesian" := by
          simpa [coordinateSystems, or_comm] using hco
        have e1 : (flatControl c).durations = vec c.durations := rfl
        have e2 : (flatControl c).detunings = vec c.detunings := rfl
        have e3 : (flatControl c).rabiRates = vec c.rabiRates := rfl
        have e4 : (flatControl c).azimuthalAngles = vec c.azimuthalAngles := rfl
        rcases hco' with rfl | rfl
        · simp only [un_vec, e1, e2, e3, e4, hz, toList_vec, hc]
          rfl
        · simp only [un_vec, e1, e2, e3, e4, hz]
          rfl
    · simp only [Bool.not_eq_true] at hco
      rw [hco]
      rfl
  · unfold NdControl.textData DrivenControl.textData
    have e1 : (flatControl c).durations = vec c.durations := rfl
    have e2 : (flatControl c).detunings = vec c.detunings := rfl
    have e3 : (flatControl c).rabiRates = vec c.rabiRates := rfl
    have e4 : (flatControl c).azimuthalAngles = vec c.azimuthalAngles := rfl
    have e5 : (flatControl c).maximumRabiRate = c.maximumRabiRate := rfl
    have e6 : (flatControl c).maximumDetuning = c.maximumDetuning := rfl
    simp only [e1, e2, e3, e4, e5, e6, toList_vec, bind, Except.bind]
    cases c.maximumRabiRate with
    | error e => rfl
    | ok m =>
      cases c.maximumDetuning with
      | error e => rfl
      | ok m' =>
        simp only [pure, Except.pure, Except.map, textCells, List.map_map, Except.ok.injEq]
        have hs : ∀ (b : Bool) (m : α), ((fun r : Cell α => if b = true then
            Shown.num (r.un fun r => r / m) else Shown.zero) ∘ Cell.num) =
            shownCell ∘ fun r => if b = true then Shown.num (r / m) else Shown.zero := by
          intro b m
          funext r
          cases b <;> rfl
        rw [hs, hs]
        rfl

theorem isBroadcast_cons_two {s t u : List ℕ} {l : List (List ℕ)} {S : List ℕ} (h : IsBroadcast [s, t] u)
    (h' : IsBroadcast (u :: l) S) : IsBroadcast (s :: t :: l) S := by
  obtain ⟨T, hT⟩ := isBroadcast_two_exists h ⟨S, h'⟩
  obtain ⟨u', hu', huT⟩ := isBroadcast_two hT
  obtain rfl := isBroadcast_unique h hu'
  obtain rfl := isBroadcast_unique h' huT
  exact hT

theorem isBroadcast_of_pair {s t u : List ℕ} (h : broadcast s.reverse t.reverse = some u.reverse) :
    IsBroadcast [s, t] u := by
  obtain ⟨f1, f2⟩ := broadcast_fits h
  obtain ⟨v, hv⟩ := isBroadcast_exists (l := [s, t]) (S' := u) (by
    intro x hx
    simp only [List.mem_cons, List.not_mem_nil, or_false] at hx
    rw [fits_iff]
    rcases hx with rfl | rfl <;> assumption)
  have := isBroadcast_pair hv
  rw [h] at this
  simp only [Option.some.injEq, List.reverse_inj] at this
  rwa [this]

theorem indices_two (m n : ℕ) : indices [m, n] = (List.range m).flatMap fun i => (List.range n).map fun j => [i, j] := by
  have h1 : indices [n] = (List.range n).map fun j => [j] := by
    simp [indices, List.flatMap_def, List.map_map, Function.comp_def]
    rw [← List.flatMap_def, ← List.map_eq_flatMap]
  rw [indices, h1]
  simp [List.map_map, Function.comp_def]

theorem filterMap_getElem (xs : List α) : (List.range xs.length).filterMap (fun j => xs[j]?) = xs := by
  obtain ⟨h1, h2⟩ := filterMap_range (fun j => xs[j]?) xs.length fun m hm => by
    rw [List.getElem?_eq_getElem hm]; rfl
  refine List.ext_getElem? fun m => ?_
  by_cases hm : m < xs.length
  · exact h2 m hm
  · rw [List.getElem?_eq_none (by omega), List.getElem?_eq_none (by omega)]

theorem stretchTo_vec (xs : List α) (m : ℕ) :
    stretchTo (vec xs) [m, xs.length] = (List.range m).flatMap fun _ => xs := by
  unfold stretchTo
  rw [indices_two, List.filterMap_flatMap]
  refine List.flatMap_congr fun i _ => ?_
  rw [List.filterMap_map]
  refine Eq.trans (List.filterMap_congr fun j hj => ?_) (filterMap_getElem xs)
  have := List.mem_range.mp hj
  simp only [Function.comp, itemAt, vec, place, List.length_cons, List.length_nil, List.drop_succ_cons, List.drop_zero,
    List.prod_nil, Nat.mul_one, Nat.add_zero, Nat.reduceAdd, Nat.add_one_sub_one, Nat.reduceSub]
  split
  · congr 1; omega
  · rfl

theorem stretchTo_column (ds : List α) (m : ℕ) :
    stretchTo ⟨[ds.length, 1], ds⟩ [ds.length, m] = ds.flatMap fun d => List.replicate m d := by
  unfold stretchTo
  rw [indices_two, List.filterMap_flatMap]
  conv_rhs => rw [← filterMap_getElem ds, List.flatMap_def, List.map_filterMap]
  rw [List.flatMap_def]
  congr 1
  rw [← List.filterMap_eq_map]
  refine List.filterMap_congr fun i hi => ?_
  have hi := List.mem_range.mp hi
  rw [List.getElem?_eq_getElem hi, Option.map_some, Function.comp]
  congr 1
  rw [List.filterMap_map]
  have : ∀ j ∈ List.range m, (itemAt (⟨[ds.length, 1], ds⟩ : NdArray α) ∘ fun j => [i, j]) j = some ds[i] := by
    intro j _
    simp only [Function.comp, itemAt, place, List.length_cons, List.length_nil, List.drop_zero,
      List.prod_nil, List.prod_cons, Nat.mul_one, Nat.add_zero, Nat.reduceAdd, Nat.reduceSub, if_true, Nat.zero_mul]
    rw [← List.getElem?_eq_getElem hi]
    split
    · congr 1; omega
    · rfl
  rw [List.filterMap_congr this, List.filterMap_eq_map']
  simp

theorem flatMap_const {β γ : Type} (l : List β) (xs : List γ) :
    (l.flatMap fun _ => xs) = (List.range l.length).flatMap fun _ => xs := by
  simp [List.flatMap_def]

theorem columnDetunings_stretched (c : DrivenControl α) (h : c.Constructed) :
    IsBroadcast [(columnDetunings c).rabiRates.shape, (columnDetunings c).azimuthalAngles.shape,
      (columnDetunings c).detunings.shape] [c.numberOfSegments, c.numberOfSegments] ∧
    stretched (columnDetunings c) [c.numberOfSegments, c.numberOfSegments] = crossed c := by
  obtain ⟨h1, h2, h3, h4⟩ := h.lengths
  constructor
  · simp only [columnDetunings, flatControl, vec, h1, h2, h3]
    refine isBroadcast_cons_two (isBroadcast_same [c.numberOfSegments] _ (by simp) (by simp)) (isBroadcast_of_pair ?_)
    simp only [List.reverse_cons, List.reverse_nil, List.nil_append, List.cons_append, broadcast]
    split_ifs with h
    · rw [h]; rfl
    · rfl
  · have hv : ∀ xs : List α, xs.length = c.numberOfSegments →
        stretchTo (vec xs) [c.numberOfSegments, c.numberOfSegments] = c.detunings.flatMap fun _ => xs := by
      intro xs hx
      rw [flatMap_const, h3, ← stretchTo_vec, hx]
    unfold stretched crossed columnDetunings flatControl
    dsimp only
    rw [hv _ h1, hv _ h2, hv _ h4]
    congr 1
    have := stretchTo_column c.detunings c.numberOfSegments
    rw [h3] at this
    rw [h3, this]
    refine List.flatMap_congr fun d _ => ?_
    rw [List.map_const', h1]

/-- **C104** Detunings as a column: from the segments of `c`, `directions` silently makes an `n × 3 × n` array, whose
entries `[i, :, j]` are the direction of segment `j` with the detuning of segment `i`. -/
theorem C104_column_detunings (c : DrivenControl α) (h : c.Constructed) (n : ℕ) (hn : c.numberOfSegments = n)
    (h0 : n ≠ 0) :
    ∃ dirs l, (columnDetunings c).directions = .ok dirs ∧ dirs.shape = [n, 3, n] ∧ (crossed c).directions = .ok l ∧
      ∀ i < n, ∀ j < n, ∃ x y z, l[i * n + j]? = some (x, y, z) ∧ itemAt dirs [i, 0, j] = some x ∧
        itemAt dirs [i, 1, j] = some y ∧ itemAt dirs [i, 2, j] = some z := by
  obtain ⟨hb, hst⟩ := columnDetunings_stretched c h
  rw [hn] at hb hst
  have hr : Regular (columnDetunings c).detunings := by simp [Regular, columnDetunings]
  obtain ⟨dirs, l, e1, -, e2, e3, e4⟩ := (C104_directions (columnDetunings c) (regular_vec _) (regular_vec _) hr).1 n [n] hb
    (by simp [h0])
  rw [hst] at e3
  refine ⟨dirs, l, e1, e2, e3, fun i hi j hj => ?_⟩
  have hm : i :: [j] ∈ indices [n, n] := by
    rw [indices_two]
    exact List.mem_flatMap.mpr ⟨i, List.mem_range.mpr hi, List.mem_map.mpr ⟨j, List.mem_range.mpr hj, rfl⟩⟩
  obtain ⟨x, y, z, g1, g2⟩ := e4 i [j] hm
  rw [place_cons hi, place_cons hj] at g1
  refine ⟨x, y, z, ?_, g2⟩
  simpa [place] using g1

/-- **C104** The number of entries of `export` is that of the shortest first axis. -/
theorem C104_export_entries (c : NdControl α) (hreg : ∀ a ∈ [c.rabiRates, c.azimuthalAngles, c.detunings, c.durations],
      Regular a) (dimensionless : Bool) (p : NdPlotData α) (h : c.exportPlot "cylindrical" dimensionless = .ok p) :
    ∃ nr na nd nt rs, FirstAxis nr c.rabiRates ∧ FirstAxis na c.azimuthalAngles ∧ FirstAxis nd c.detunings ∧
      FirstAxis nt c.durations ∧ p.rabiRate = some rs ∧ rs.length = min nr (min na nt) ∧
      p.detuning.length = min nd nt := by
  have key : ∀ (a : NdArray α) l, Regular a → a.toList = .ok l → FirstAxis l.length a := by
    intro a l ha hl
    rcases toList_cases a with ⟨-, m, h⟩ | ⟨h, h'⟩ | ⟨n, rest, h, -, l', h', hl', -⟩
    · rw [h] at hl; cases hl
    · rw [h'] at hl; cases hl
      obtain ⟨n, hn⟩ := List.length_eq_one_iff.mp h
      refine ⟨[], ?_⟩
      rw [hn, List.length_map, ha, hn]
      simp
    · rw [h'] at hl; cases hl
      exact ⟨rest, by rw [h, hl']⟩
  have hmap : ∀ (l : List (Cell α × Cell α × Cell α)) r, l.mapM (fun p => cisPoint p.1 p.2) = .ok r →
      r.length = l.length := by
    intro l
    induction l with
    | nil => intro r hr; cases hr; rfl
    | cons q l ih =>
      intro r hr
      rw [List.mapM_cons] at hr
      simp only [bind, Except.bind] at hr
      cases h1 : cisPoint q.1 q.2 with
      | error e => rw [h1] at hr; cases hr
      | ok v =>
        rw [h1] at hr
        dsimp only at hr
        cases h2 : l.mapM (fun p => cisPoint p.1 p.2) with
        | error e => rw [h2] at hr; cases hr
        | ok w =>
          rw [h2] at hr
          cases hr
          simp [ih w h2]
  unfold NdControl.exportPlot at h
  rw [show coordinateSystems.contains "cylindrical" = true by decide] at h
  simp only [checkArguments, bind, Except.bind, if_true] at h
  cases h1 : (if dimensionless = true then c.maximumRabiRate else Except.ok (lit 1)) with
  | error e => rw [h1] at h; cases h
  | ok m =>
  rw [h1] at h
  dsimp only at h
  cases h2 : c.amplitudeX with
  | error e => rw [h2] at h; cases h
  | ok x =>
  rw [h2] at h
  dsimp only at h
  cases h3 : c.amplitudeY with
  | error e => rw [h3] at h; cases h
  | ok y =>
  rw [h3] at h
  dsimp only at h
  rw [if_neg (by decide)] at h
  cases h4 : (c.rabiRates.un fun r => r / m).toList with
  | error e => rw [h4] at h; cases h
  | ok r =>
  rw [h4] at h
  dsimp only at h
  cases h5 : c.azimuthalAngles.toList with
  | error e => rw [h5] at h; cases h
  | ok a =>
  rw [h5] at h
  dsimp only at h
  cases h6 : c.durations.toList with
  | error e => rw [h6] at h; cases h
  | ok t =>
  rw [h6] at h
  dsimp only at h
  cases h7 : (List.zip r (List.zip a t)).mapM (fun p => cisPoint p.1 p.2) with
  | error e => rw [h7] at h; cases h
  | ok rs =>
  rw [h7] at h
  dsimp only [zipPoints, bind, Except.bind] at h
  cases h8 : c.detunings.toList with
  | error e => rw [h8] at h; cases h
  | ok d =>
  rw [h8, h6] at h
  cases h
  have hr := key _ _ (regular_un (hreg c.rabiRates (by simp))) h4
  refine ⟨r.length, a.length, d.length, t.length, rs, hr, key _ _ (hreg _ (by simp)) h5,
    key _ _ (hreg _ (by simp)) h8, key _ _ (hreg _ (by simp)) h6, rfl, ?_, ?_⟩
  · rw [hmap _ _ h7, List.length_zip, List.length_zip]
  · rw [List.length_zipWith]

end

section

variable {α : Type} [Add α] [Sub α] [Mul α] [Div α] [Neg α] [PyFloat α]

theorem toList_single {a : NdArray α} (ha : Regular a) (hl : LineLike a) :
    ∃ l, a.toList = .ok l ∧ List.Forall₂ Single l a.data := by
  obtain ⟨n, rest, hs, hp⟩ := hl
  unfold NdArray.toList
  cases rest with
  | nil =>
    rw [hs]
    refine ⟨_, rfl, ?_⟩
    generalize a.data = l
    induction l with
    | nil => exact .nil
    | cons x l ih => exact .cons (.inl rfl) ih
  | cons k rest =>
    rw [hs]
    refine ⟨_, rfl, ?_⟩
    have hlen : a.data.length = n := by rw [ha, hs, List.prod_cons, hp, Nat.mul_one]
    rw [List.forall₂_iff_get]
    refine ⟨by simp [hlen], fun i h1 h2 => .inr ⟨k :: rest, hp, ?_⟩⟩
    simp only [List.get_eq_getElem, List.getElem_map, List.getElem_range, hp, Nat.mul_one]
    rw [List.drop_eq_getElem_cons h2]
    rfl

theorem prod_one {s : List ℕ} (h : s.prod = 1) : ∀ a ∈ s, a = 1 := by
  induction s with
  | nil => simp
  | cons x s ih =>
    rw [List.prod_cons, mul_eq_one] at h
    intro a ha
    rcases List.mem_cons.mp ha with rfl | ha
    · exact h.1
    · exact ih h.2 a ha

theorem broadcast_ones {s t : List ℕ} (hs : ∀ a ∈ s, a = 1) (ht : ∀ a ∈ t, a = 1) :
    ∃ u, broadcast s t = some u ∧ u.prod = 1 := by
  induction s generalizing t with
  | nil =>
    refine ⟨t, by simp [broadcast], ?_⟩
    rw [List.eq_replicate_of_mem ht]
    simp
  | cons a s ih =>
    cases t with
    | nil =>
      refine ⟨a :: s, by simp [broadcast], ?_⟩
      rw [List.eq_replicate_of_mem hs]
      simp
    | cons b t =>
      obtain ⟨u, h1, h2⟩ := ih (t := t) (fun x hx => hs x (by simp [hx])) (fun x hx => ht x (by simp [hx]))
      have ha := hs a (by simp)
      have hb := ht b (by simp)
      refine ⟨a :: u, ?_, by simp [ha, h2]⟩
      rw [broadcast, if_pos (by rw [ha, hb]), h1]
      rfl

theorem bin_single (f : α → α → α) {p q : Cell α} {x y : α} (hp : Single p x) (hq : Single q y) :
    ∃ r, Cell.bin f p q = .ok r ∧ Single r (f x y) := by
  rcases hp with rfl | ⟨s, hs, rfl⟩
  · rcases hq with rfl | ⟨t, ht, rfl⟩
    · exact ⟨_, rfl, .inl rfl⟩
    · exact ⟨_, rfl, .inr ⟨t, ht, rfl⟩⟩
  · rcases hq with rfl | ⟨t, ht, rfl⟩
    · exact ⟨_, rfl, .inr ⟨s, hs, rfl⟩⟩
    · obtain ⟨u, h1, h2⟩ := broadcast_ones (s := s.reverse) (t := t.reverse) (prod_one (by rw [List.prod_reverse, hs]))
        (prod_one (by rw [List.prod_reverse, ht]))
      obtain ⟨f1, f2⟩ := broadcast_fits h1
      have one : ∀ (w : List ℕ) (z : α), w.prod = 1 → FitsR w.reverse u → spread (⟨w, [z]⟩ : NdArray α) u = [z] := by
        intro w z hw hf
        obtain ⟨l1, l2⟩ := spread_spec (a := (⟨w, [z]⟩ : NdArray α)) (by simp [Regular, hw]) hf
        rw [h2] at l1 l2
        have l2 := l2 0 (by omega)
        have hlt := ravel_lt hf (unravel_within (S := u) (m := 0) (by omega))
        rw [List.prod_reverse, hw, Nat.lt_one_iff] at hlt
        simp only [hlt] at l2
        obtain ⟨v, hv⟩ := List.length_eq_one_iff.mp l1
        rw [hv] at l2 ⊢
        simpa using l2
      obtain ⟨c, c1, c2, c3, c4⟩ := bin_spread (f := f) (a := (⟨s, [x]⟩ : NdArray α)) (b := (⟨t, [y]⟩ : NdArray α))
        (by simp [Regular, hs]) (by simp [Regular, ht]) h1
      have c5 := c4 u (FitsR.refl u)
      have hu : u = c.shape.reverse := by rw [c2, List.reverse_reverse]
      rw [one s x hs f1, one t y ht f2] at c5
      rw [hu, spread_self c3] at c5
      refine ⟨.sub c, ?_, .inr ⟨u.reverse, by rw [List.prod_reverse, h2], ?_⟩⟩
      · show (NdArray.bin f _ _).map Cell.sub = _
        rw [c1]
        rfl
      · rw [← c2]
        congr 1
        cases c
        simp only at c5
        rw [c5]
        rfl

/-- **C104** If every array has a single number at each place along its first axis (1-D arrays and columns, in any
mixture), and they can be combined, the cylindrical `export` has the numbers of the control with 1-D arrays, each as a
number or as an array with one number in it. -/
theorem C104_linelike_export (c : NdControl α) (hreg : ∀ a ∈ [c.rabiRates, c.azimuthalAngles, c.detunings, c.durations],
      Regular a ∧ LineLike a)
    (hb : ∃ S, IsBroadcast [c.rabiRates.shape, c.azimuthalAngles.shape] S) (dimensionless : Bool) (p : PlotData α)
    (hp : (⟨c.rabiRates.data, c.azimuthalAngles.data, c.detunings.data, c.durations.data, c.name⟩ :
      DrivenControl α).exportPlot "cylindrical" dimensionless = .ok p) :
    ∃ q rs rs', c.exportPlot "cylindrical" dimensionless = .ok q ∧ q.xAmplitude = none ∧ q.yAmplitude = none ∧
      q.rabiRate = some rs' ∧ p.rabiRate = some rs ∧
      List.Forall₂ (fun a b => Single a.value.1 b.value.re ∧ Single a.value.2 b.value.im ∧ Single a.duration b.duration)
        rs' rs ∧
      List.Forall₂ (fun a b => Single a.value b.value ∧ Single a.duration b.duration) q.detuning p.detuning := by
  simp only [List.mem_cons, List.not_mem_nil, or_false, forall_eq_or_imp, forall_eq] at hreg
  obtain ⟨⟨r1, r2⟩, ⟨a1, a2⟩, ⟨d1, d2⟩, t1, t2⟩ := hreg
  obtain ⟨S, hS⟩ := hb
  obtain ⟨hx, hy⟩ := (C104_amplitudes c r1 a1).1 S hS
  have hzip : ∀ {β γ : Type} {R : Cell α → α → Prop} {U : β → γ → Prop} {l : List (Cell α)} {xs : List α}
      {l' : List β} {ys : List γ}, List.Forall₂ R l xs → List.Forall₂ U l' ys →
      List.Forall₂ (fun a b => R a.1 b.1 ∧ U a.2 b.2) (List.zip l l') (List.zip xs ys) := by
    intro β γ R U l xs l' ys h1
    induction h1 generalizing l' ys with
    | nil => intro _; simp
    | cons h _ ih =>
      intro h2
      cases h2 with
      | nil => simp
      | cons h' h2 => exact .cons ⟨h, h'⟩ (ih h2)
  have hmap : ∀ {l : List (Cell α × Cell α × Cell α)} {xs : List (α × α × α)},
      List.Forall₂ (fun a b => Single a.1 b.1 ∧ Single a.2.1 b.2.1 ∧ Single a.2.2 b.2.2) l xs →
      ∃ v, l.mapM (fun p => cisPoint p.1 p.2) = .ok v ∧
        List.Forall₂ (fun a b => Single a.value.1 b.value.re ∧ Single a.value.2 b.value.im ∧
          Single a.duration b.duration) v
          (xs.map fun p => (⟨cis p.1 p.2.1, p.2.2⟩ : PlotPoint α (Cplx α))) := by
    intro l xs h
    induction h with
    | nil => exact ⟨_, rfl, .nil⟩
    | cons h _ ih =>
      obtain ⟨v, h1, h2⟩ := ih
      obtain ⟨x, hx1, hx2⟩ := bin_single (fun r theta => r * cos theta) h.1 h.2.1
      obtain ⟨y, hy1, hy2⟩ := bin_single (fun r theta => r * sin theta) h.1 h.2.1
      rename_i q _ _ _ _
      refine ⟨⟨(x, y), q.2.2⟩ :: v, ?_, .cons ⟨hx2, hy2, h.2.2⟩ h2⟩
      rw [List.mapM_cons, h1]
      have : cisPoint q.1 q.2 = .ok ⟨(x, y), q.2.2⟩ := by
        unfold cisPoint
        rw [hx1, hy1]
        rfl
      rw [this]
      rfl
  unfold DrivenControl.exportPlot at hp
  unfold NdControl.exportPlot
  rw [show coordinateSystems.contains "cylindrical" = true by decide] at hp ⊢
  simp only [checkArguments, bind, Except.bind, if_true] at hp ⊢
  rw [show c.maximumRabiRate = DrivenControl.maximumRabiRate
    ⟨c.rabiRates.data, c.azimuthalAngles.data, c.detunings.data, c.durations.data, c.name⟩ from rfl]
  cases hm : (if dimensionless = true then DrivenControl.maximumRabiRate
      ⟨c.rabiRates.data, c.azimuthalAngles.data, c.detunings.data, c.durations.data, c.name⟩ else Except.ok (lit 1)) with
  | error e => rw [hm] at hp; cases hp
  | ok m =>
  rw [hm] at hp
  have hp := (Except.ok.inj hp).symm
  subst hp
  rw [hx, hy]
  dsimp only
  rw [if_neg (by decide)]
  obtain ⟨r, hr1, hr2⟩ := toList_single (regular_un (f := fun r => r / m) r1) (show LineLike _ from r2)
  obtain ⟨a, ha1, ha2⟩ := toList_single a1 a2
  obtain ⟨d, hd1, hd2⟩ := toList_single d1 d2
  obtain ⟨t, ht1, ht2⟩ := toList_single t1 t2
  obtain ⟨v, hv1, hv2⟩ := hmap (hzip hr2 (hzip ha2 ht2))
  refine ⟨⟨none, none, some v, List.zipWith (fun v t => ⟨v, t⟩) d t⟩, _, v, ?_, rfl, rfl, rfl, rfl, ?_, ?_⟩
  · rw [hr1, ha1, ht1]
    dsimp only
    rw [hv1]
    dsimp only [zipPoints, bind, Except.bind]
    rw [hd1, ht1]
    rfl
  · have : (List.zip (c.rabiRates.un fun r => r / m).data (List.zip c.azimuthalAngles.data c.durations.data)).map
        (fun p => (⟨cis p.1 p.2.1, p.2.2⟩ : PlotPoint α (Cplx α))) =
        List.zipWith (fun v t => (⟨v, t⟩ : PlotPoint α (Cplx α))) (List.zipWith (fun r theta => cis r theta)
          (c.rabiRates.data.map fun r => r / m) c.azimuthalAngles.data) c.durations.data := by
      show (List.zip (c.rabiRates.data.map fun r => r / m) _).map _ = _
      generalize c.rabiRates.data.map (fun r => r / m) = rs
      generalize c.azimuthalAngles.data = as
      generalize c.durations.data = ts
      induction rs generalizing as ts with
      | nil => simp
      | cons r rs ih =>
        cases as with
        | nil => simp
        | cons a as =>
          cases ts with
          | nil => simp
          | cons t ts => simp [ih as ts]
    rw [← this]
    exact hv2
  · have := hzip hd2 ht2
    rw [List.zip_eq_zipWith, List.zip_eq_zipWith] at this
    have e : ∀ {β : Type} (l l' : List β), List.zipWith (fun v t => (⟨v, t⟩ : PlotPoint β β)) l l' =
        (List.zipWith Prod.mk l l').map fun p => ⟨p.1, p.2⟩ := by
      intro β l l'
      rw [List.map_zipWith]
    dsimp only
    rw [e, e, List.forall₂_map_left_iff, List.forall₂_map_right_iff]
    exact this

/-- **C104** Azimuthal angles as a row: the cylindrical `export` has a single entry for the drive, the first Rabi rate
with all azimuthal angles, whatever the number of segments. -/
theorem C104_row_angles (c : DrivenControl α) (h : c.Constructed) (r : α) (rs : List α) (hr : c.rabiRates = r :: rs)
    (t : α) (ts : List α) (ht : c.durations = t :: ts) :
    ∃ q, (rowAngles c).exportPlot "cylindrical" false = .ok q ∧
      q.rabiRate = some [⟨(.sub (vec (c.azimuthalAngles.map fun a => r / lit 1 * cos a)),
        .sub (vec (c.azimuthalAngles.map fun a => r / lit 1 * sin a))), .num t⟩] := by
  obtain ⟨h1, h2, h3, h4⟩ := h.lengths
  have hreg : Regular (rowAngles c).azimuthalAngles := by simp [Regular, rowAngles]
  have hb : IsBroadcast [(rowAngles c).rabiRates.shape, (rowAngles c).azimuthalAngles.shape] [1, c.numberOfSegments] := by
    refine isBroadcast_of_pair ?_
    simp [rowAngles, flatControl, vec, h1, h2, broadcast]
  obtain ⟨hx, hy⟩ := (C104_amplitudes (rowAngles c) (regular_vec _) hreg).1 _ hb
  unfold NdControl.exportPlot
  rw [show coordinateSystems.contains "cylindrical" = true by decide, hx, hy]
  simp only [checkArguments, bind, Except.bind, if_true]
  have e1 : ((rowAngles c).rabiRates.un fun r => r / lit 1).toList = .ok ((c.rabiRates.map fun r => r / lit 1).map .num) := by
    rw [show (rowAngles c).rabiRates = vec c.rabiRates from rfl, un_vec, toList_vec]
  have e2 : (rowAngles c).azimuthalAngles.toList = .ok [.sub (vec c.azimuthalAngles)] := by
    simp [rowAngles, NdArray.toList, vec]
  have e3 : (rowAngles c).durations.toList = .ok (c.durations.map .num) := rfl
  have e4 : zipPoints (rowAngles c).detunings (rowAngles c).durations = .ok (List.zipWith (fun v t => ⟨v, t⟩)
      (c.detunings.map .num) (c.durations.map .num)) := rfl
  simp only [Bool.false_eq_true, if_false]
  rw [if_neg (by decide), e1, e2, e3, e4, hr, ht]
  have e5 : (List.zip (((r :: rs).map fun r => r / lit 1).map Cell.num) (List.zip [Cell.sub (vec c.azimuthalAngles)]
      ((t :: ts).map Cell.num))).mapM (fun p => cisPoint p.1 p.2) =
      .ok [⟨(.sub (vec (c.azimuthalAngles.map fun a => r / lit 1 * cos a)),
        .sub (vec (c.azimuthalAngles.map fun a => r / lit 1 * sin a))), .num t⟩] := by
    simp only [List.map_cons, List.zip_cons_cons, List.zip_nil_left, List.zip_nil_right, List.mapM_cons, List.mapM_nil]
    simp only [cisPoint, Cell.bin, un_vec, bind, Except.bind, pure, Except.pure]
  dsimp only
  rw [e5]
  exact ⟨_, rfl, rfl⟩

end

theorem nd_new_ok {c : DrivenControl ℝ} (h : c.Constructed) (D : NdArray ℝ) (hD : D.size = c.numberOfSegments) :
    NdControl.new (vec c.durations) (some (vec c.rabiRates)) (some (vec c.azimuthalAngles)) (some D) c.name =
      .ok ⟨vec c.rabiRates, vec c.azimuthalAngles, D, vec c.durations, c.name⟩ := by
  obtain ⟨h1, h2, h3, h4⟩ := h.lengths
  have hc := (DrivenControl.constructed_iff c).mp h
  obtain ⟨k, hk⟩ := (C79_control_accepts (vec c.durations) (some (vec c.rabiRates)) (some (vec c.azimuthalAngles)) (some D)
    c.name).mpr ⟨⟨_, [], rfl, .inr ⟨rfl, fun x hx => by
        simp only [vec] at hx
        have := hc
        tauto⟩⟩, by
      intro x hx y hy
      simp only [List.mem_cons, List.not_mem_nil, or_false] at hx
      have hs : (vec c.durations).size = c.numberOfSegments := by simp [vec, NdArray.size, h4]
      rw [hs]
      rcases hx with rfl | rfl | rfl <;> cases hy
      · simp [vec, NdArray.size, h1]
      · simp [vec, NdArray.size, h2]
      · exact hD, by
      intro y hy
      cases hy
      exact ⟨_, [], rfl, .inr ⟨rfl, fun x hx => by
        simp only [vec] at hx
        have := hc
        tauto⟩⟩⟩
  rw [hk]
  rw [nd_new_eq, show (vec c.durations).len = .ok c.durations.length from rfl] at hk
  dsimp only at hk
  split at hk
  · cases hk
  · cases hk
  · split_ifs at hk
    split at hk
    · cases hk
    · cases hk
    · exact congrArg _ (Except.ok.inj hk).symm

/-- **C104** Detunings as a column or as a row are accepted by the constructor. -/
theorem C104_accepted (c : DrivenControl ℝ) (h : c.Constructed) :
    NdControl.new (vec c.durations) (some (vec c.rabiRates)) (some (vec c.azimuthalAngles))
      (some ⟨[c.detunings.length, 1], c.detunings⟩) c.name = .ok (columnDetunings c) ∧
    NdControl.new (vec c.durations) (some (vec c.rabiRates)) (some (vec c.azimuthalAngles))
      (some ⟨[1, c.detunings.length], c.detunings⟩) c.name = .ok (rowDetunings c) := by
  obtain ⟨h1, h2, h3, h4⟩ := h.lengths
  exact ⟨nd_new_ok h _ (by simp [NdArray.size, h3]), nd_new_ok h _ (by simp [NdArray.size, h3])⟩

/-- **C104** Detunings as a row: `export` returns, silently, with a single entry for the detuning, whose value is the
whole array of detunings and whose duration is that of the first segment, whatever the number of segments; the other
entries are those of the control with 1-D arrays. -/
theorem C104_row_detunings (c : DrivenControl ℝ) (h : c.Constructed) (t : ℝ) (ts : List ℝ) (ht : c.durations = t :: ts)
    (coordinates : String) (hco : coordinates = "cylindrical" ∨ coordinates = "cartesian") (dimensionless : Bool) :
    ∃ p q, c.exportPlot coordinates dimensionless = .ok p ∧
      (rowDetunings c).exportPlot coordinates dimensionless = .ok q ∧
      q.detuning = [⟨.sub (vec c.detunings), .num t⟩] ∧
      q.xAmplitude = (plotCells p).xAmplitude ∧ q.yAmplitude = (plotCells p).yAmplitude ∧
      q.rabiRate = (plotCells p).rabiRate := by
  obtain ⟨h1, h2, h3, h4⟩ := h.lengths
  obtain ⟨m, hm⟩ : ∃ m, (if dimensionless = true then c.maximumRabiRate else Except.ok (lit 1)) = .ok m := by
    cases dimensionless with
    | false => exact ⟨_, rfl⟩
    | true =>
      refine npAmax_exists fun he => ?_
      rw [ht] at h4
      rw [he] at h1
      rw [← h1] at h4
      simp at h4
  have hflat := (C104_flat c h).2.2.2.2.2.2.1 coordinates dimensionless
  have hp : ∃ p, c.exportPlot coordinates dimensionless = .ok p := by
    unfold DrivenControl.exportPlot
    have : coordinateSystems.contains coordinates = true := by
      rcases hco with rfl | rfl <;> decide
    rw [this]
    simp only [checkArguments, bind, Except.bind, if_true]
    rw [hm]
    exact ⟨_, rfl⟩
  obtain ⟨p, hp⟩ := hp
  rw [hp] at hflat
  have hrow : (⟨[1, c.detunings.length], c.detunings⟩ : NdArray ℝ).toList = .ok [.sub (vec c.detunings)] := by
    simp [NdArray.toList, vec]
  have hx : (rowDetunings c).amplitudeX = (flatControl c).amplitudeX := rfl
  have hy : (rowDetunings c).amplitudeY = (flatControl c).amplitudeY := rfl
  have hmx : (rowDetunings c).maximumRabiRate = (flatControl c).maximumRabiRate := rfl
  have e1 : (rowDetunings c).durations = (flatControl c).durations := rfl
  have e2 : (rowDetunings c).rabiRates = (flatControl c).rabiRates := rfl
  have e3 : (rowDetunings c).azimuthalAngles = (flatControl c).azimuthalAngles := rfl
  have hd : zipPoints (rowDetunings c).detunings (flatControl c).durations =
      .ok [⟨.sub (vec c.detunings), .num t⟩] := by
    unfold zipPoints
    rw [show (rowDetunings c).detunings = ⟨[1, c.detunings.length], c.detunings⟩ from rfl, hrow,
      show (flatControl c).durations = vec (t :: ts) by rw [← ht]; rfl, toList_vec]
    rfl
  have hd' : ∃ ds, zipPoints (flatControl c).detunings (flatControl c).durations = .ok ds := ⟨_, rfl⟩
  obtain ⟨ds, hd'⟩ := hd'
  unfold NdControl.exportPlot at hflat
  rw [show (flatControl c).maximumRabiRate = c.maximumRabiRate from rfl] at hflat hmx
  refine ⟨p, ?_⟩
  unfold NdControl.exportPlot
  rw [hx, hy, hmx, e1, e2, e3]
  rw [hd'] at hflat
  rw [hd]
  have hcc : coordinateSystems.contains coordinates = true := by
    rcases hco with rfl | rfl <;> decide
  rw [hcc] at hflat ⊢
  simp only [checkArguments, bind, Except.bind, if_true, hm] at hflat ⊢
  cases h2 : (flatControl c).amplitudeX with
  | error e => rw [h2] at hflat; cases hflat
  | ok x =>
  rw [h2] at hflat
  dsimp only at hflat ⊢
  cases h3 : (flatControl c).amplitudeY with
  | error e => rw [h3] at hflat; cases hflat
  | ok y =>
  rw [h3] at hflat
  dsimp only at hflat ⊢
  rcases hco with rfl | rfl
  · rw [if_neg (by decide)] at hflat
    rw [if_neg (by decide)]
    cases h4 : ((flatControl c).rabiRates.un fun r => r / m).toList with
    | error e => rw [h4] at hflat; cases hflat
    | ok r =>
    rw [h4] at hflat
    dsimp only at hflat ⊢
    cases h5 : (flatControl c).azimuthalAngles.toList with
    | error e => rw [h5] at hflat; cases hflat
    | ok a =>
    rw [h5] at hflat
    dsimp only at hflat ⊢
    cases h6 : (flatControl c).durations.toList with
    | error e => rw [h6] at hflat; cases hflat
    | ok t' =>
    rw [h6] at hflat
    dsimp only at hflat ⊢
    cases h7 : (List.zip r (List.zip a t')).mapM (fun p => cisPoint p.1 p.2) with
    | error e => rw [h7] at hflat; cases hflat
    | ok rs =>
    rw [h7] at hflat
    have hflat := Except.ok.inj hflat
    refine ⟨_, hp, rfl, rfl, ?_, ?_, ?_⟩ <;> rw [← hflat]
  · rw [if_pos (by decide)] at hflat
    rw [if_pos (by decide)]
    cases h4 : zipPoints (x.un fun x => x / m) (flatControl c).durations with
    | error e => rw [h4] at hflat; cases hflat
    | ok xs =>
    rw [h4] at hflat
    dsimp only at hflat ⊢
    cases h5 : zipPoints (y.un fun x => x / m) (flatControl c).durations with
    | error e => rw [h5] at hflat; cases hflat
    | ok ys =>
    rw [h5] at hflat
    have hflat := Except.ok.inj hflat
    refine ⟨_, hp, rfl, rfl, ?_, ?_, ?_⟩ <;> rw [← hflat]

/-- Two segments whose detunings are 5 and 7: the smallest common shape of a column of two with two numbers is 2 × 2. -/
example : ∃ c : DrivenControl ℝ, c.Constructed ∧ c.numberOfSegments = 2 ∧ c.detunings = [5, 7] ∧
    IsBroadcast [(columnDetunings c).rabiRates.shape, (columnDetunings c).azimuthalAngles.shape,
      (columnDetunings c).detunings.shape] [2, 2] ∧
    (∃ dirs, (columnDetunings c).directions = .ok dirs ∧ dirs.shape = [2, 3, 2]) ∧
    (crossed c).detunings = [5, 5, 7, 7] ∧ (crossed c).rabiRates = [3, 4, 3, 4] ∧
    ∃ q, (rowDetunings c).exportPlot "cylindrical" false = .ok q ∧
      q.detuning = [⟨.sub (vec [5, 7]), .num 1⟩] := by
  have hc : DrivenControl.Constructed (⟨[3, 4], [0, 0], [5, 7], [1, 2], none⟩ : DrivenControl ℝ) := by
    rw [DrivenControl.constructed_iff]
    simp
  refine ⟨_, hc, rfl, rfl, (columnDetunings_stretched _ hc).1, ?_, rfl, rfl, ?_⟩
  · obtain ⟨dirs, l, h1, h2, -⟩ := C104_column_detunings _ hc 2 rfl (by norm_num)
    exact ⟨dirs, h1, h2⟩
  · obtain ⟨p, q, -, h2, h3, -⟩ := C104_row_detunings _ hc 1 [2] rfl "cylindrical" (.inl rfl) false
    exact ⟨q, h2, h3⟩

/-- Shapes without a common shape, and arrays without axes. -/
example : (¬ ∃ S, IsBroadcast [[4], [2, 2]] S) ∧ IsBroadcast [[], [], []] [] ∧
    IsBroadcast [[0], [0], [0]] [0] ∧ IsBroadcast [[2], [2], [2], [2, 1]] [2, 2] := by
  refine ⟨fun ⟨S, hS⟩ => ?_, isBroadcast_same [] _ (by simp) (by simp), isBroadcast_same [0] _ (by simp) (by simp), ?_⟩
  · have := isBroadcast_pair hS
    simp [broadcast] at this
  · refine isBroadcast_cons_two (isBroadcast_same [2] _ (by simp) (by simp))
      (isBroadcast_cons_two (isBroadcast_same [2] _ (by simp) (by simp)) (isBroadcast_of_pair ?_))
    simp [broadcast]

/-- A column of Rabi rates with 1-D arrays, as `C104_linelike_export` assumes, and a row of azimuthal angles. -/
example : (∃ q, (⟨⟨[2, 1], [3, 4]⟩, vec [0, 0], vec [5, 7], vec [1, 2], none⟩ : NdControl ℝ).exportPlot "cylindrical" false =
      .ok q ∧ List.Forall₂ (fun a (b : PlotPoint ℝ ℝ) => Single a.value b.value ∧ Single a.duration b.duration) q.detuning
        [⟨5, 1⟩, ⟨7, 2⟩]) ∧
    ∃ c : DrivenControl ℝ, c.Constructed ∧ c.numberOfSegments = 2 ∧
      ∃ q, (rowAngles c).exportPlot "cylindrical" false = .ok q ∧ (q.rabiRate.map List.length) = some 1 := by
  constructor
  · obtain ⟨q, rs, rs', h1, -, -, -, -, -, h2⟩ := C104_linelike_export
      (⟨⟨[2, 1], [3, 4]⟩, vec [0, 0], vec [5, 7], vec [1, 2], none⟩ : NdControl ℝ) (by
        simp only [List.mem_cons, List.not_mem_nil, or_false, forall_eq_or_imp, forall_eq]
        refine ⟨⟨by simp [Regular], 2, [1], rfl, rfl⟩, ⟨regular_vec _, 2, [], rfl, rfl⟩,
          ⟨regular_vec _, 2, [], rfl, rfl⟩, ⟨regular_vec _, 2, [], rfl, rfl⟩⟩)
      ⟨[2, 2], isBroadcast_of_pair (by simp [vec, broadcast])⟩ false _ rfl
    exact ⟨q, h1, h2⟩
  · have hc : DrivenControl.Constructed (⟨[3, 4], [0, 0], [5, 7], [1, 2], none⟩ : DrivenControl ℝ) := by
      rw [DrivenControl.constructed_iff]
      simp
    obtain ⟨q, h1, h2⟩ := C104_row_angles _ hc 3 [4] rfl 1 [2] rfl
    exact ⟨_, hc, rfl, q, h1, by rw [h2]; rfl⟩

end OpenControls
