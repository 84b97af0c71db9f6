import Verif.Spec.Shapes
import Verif.RealInst
import Verif.Proofs.Control

/-!
# Lemmas about arrays of any shape
-/

namespace OpenControls

open PyFloat Py Spec NdArray

set_option linter.unusedSectionVars false

variable {α : Type} [Add α] [Sub α] [Mul α] [Div α] [Neg α] [PyFloat α]

theorem pyAll_vec (p : α → Bool) (xs : List α) : (vec xs).pyAll p = .ok (xs.all p) := by
  cases xs <;> simp [pyAll, vec]

theorem zipWith_range (f : α → α → α) (xs ys : List α) (h : xs.length = ys.length) :
    ((List.range xs.length).filterMap fun m =>
      (xs[m]?).bind fun x => (ys[m]?).map fun y => f x y) = List.zipWith f xs ys := by
  induction xs generalizing ys with
  | nil => simp
  | cons x xs ih =>
    cases ys with
    | nil => simp at h
    | cons y ys =>
      rw [List.length_cons, List.range_succ_eq_map, List.filterMap_cons, List.filterMap_map]
      have := ih ys (by simpa using h)
      simp only [List.zipWith_cons_cons, ← this]
      rfl

theorem bin_vec (f : α → α → α) (xs ys : List α) (h : xs.length = ys.length) :
    bin f (vec xs) (vec ys) = .ok (vec (List.zipWith f xs ys)) := by
  have hb : broadcast [xs.length] [ys.length] = some [xs.length] := by simp [broadcast, h]
  unfold bin
  simp only [vec, List.reverse_cons, List.reverse_nil, List.nil_append, hb]
  have hp : [xs.length].prod = xs.length := by simp
  rw [hp, List.length_zipWith, ← h, Nat.min_self]
  congr 2
  rw [← zipWith_range f xs ys h]
  refine List.filterMap_congr fun m hm => ?_
  have hm : m < xs.length := List.mem_range.mp hm
  have e : ∀ k, k = xs.length → ravel [k] (unravel [xs.length] m) = m := by
    rintro k rfl
    simp only [unravel, ravel, Nat.mod_eq_of_lt hm]
    split
    · omega
    · simp
  rw [e _ rfl]

theorem un_vec (f : α → α) (xs : List α) : (vec xs).un f = vec (xs.map f) := by
  simp [un, vec]

theorem filterMap_range {β : Type} (g : ℕ → Option β) (N : ℕ) (h : ∀ m < N, (g m).isSome) :
    ((List.range N).filterMap g).length = N ∧
    ∀ k < N, ((List.range N).filterMap g)[k]? = g k := by
  induction N with
  | zero => simp
  | succ N ih =>
    obtain ⟨h1, h2⟩ := ih fun m hm => h m (by omega)
    obtain ⟨v, hv⟩ := Option.isSome_iff_exists.mp (h N (by omega))
    rw [List.range_succ, List.filterMap_append]
    have : [N].filterMap g = [v] := by simp [hv]
    rw [this]
    refine ⟨by simp [h1], fun k hk => ?_⟩
    rcases Nat.lt_succ_iff_lt_or_eq.mp hk with hk | rfl
    · rw [List.getElem?_append_left (by rw [h1]; exact hk), h2 k hk]
    · rw [List.getElem?_append_right (by rw [h1]), h1, hv]; simp

theorem bin_column (f : α → α → α) (xs ys : List α) (h : xs.length = ys.length)
    (h2 : 2 ≤ xs.length) :
    ∃ b, bin f (vec xs) ⟨[ys.length, 1], ys⟩ = .ok b ∧ b.shape = [xs.length, xs.length] ∧
      b.data.length = xs.length * xs.length ∧
      ∀ i j x y, xs[j]? = some x → ys[i]? = some y →
        b.data[i * xs.length + j]? = some (f x y) := by
  have hb : broadcast [xs.length] [1, xs.length] = some [xs.length, xs.length] := by
    have : xs.length ≠ 1 := by omega
    simp [broadcast, this]
  have hp : [xs.length, xs.length].prod = xs.length * xs.length := by simp
  have key : ∀ m < xs.length * xs.length,
      ravel [xs.length] (unravel [xs.length, xs.length] m) = m % xs.length ∧
      ravel [1, xs.length] (unravel [xs.length, xs.length] m) = m / xs.length := by
    intro m hm
    have h3 : m / xs.length < xs.length := Nat.div_lt_of_lt_mul hm
    constructor
    · simp only [unravel, ravel]
      rw [if_neg (by omega)]; simp
    · simp only [unravel, ravel]
      rw [if_pos trivial, if_neg (by omega), Nat.mod_eq_of_lt h3]; simp
  have hr := filterMap_range (fun m =>
      (xs[ravel [xs.length] (unravel [xs.length, xs.length] m)]?).bind fun x =>
        (ys[ravel [1, xs.length] (unravel [xs.length, xs.length] m)]?).map fun y => f x y)
    (xs.length * xs.length) (fun m hm => by
      obtain ⟨e1, e2⟩ := key m hm
      have h1 : m % xs.length < xs.length := Nat.mod_lt _ (by omega)
      have h3 : m / xs.length < ys.length := by rw [← h]; exact Nat.div_lt_of_lt_mul hm
      simp only [e1, e2, List.getElem?_eq_getElem h1, List.getElem?_eq_getElem h3]
      rfl)
  refine ⟨⟨[xs.length, xs.length], _⟩, ?_, rfl, hr.1, ?_⟩
  · unfold bin
    simp only [vec, List.reverse_cons, List.reverse_nil, List.nil_append, List.cons_append,
      ← h, hb, hp]
  · intro i j x y hx hy
    have hj : j < xs.length := (List.getElem?_eq_some_iff.mp hx).1
    have hi : i < xs.length := by rw [h]; exact (List.getElem?_eq_some_iff.mp hy).1
    have hm : i * xs.length + j < xs.length * xs.length := by nlinarith
    rw [hr.2 _ hm]
    obtain ⟨e1, e2⟩ := key _ hm
    have d1 : (i * xs.length + j) % xs.length = j := by
      rw [Nat.mul_comm, Nat.mul_add_mod, Nat.mod_eq_of_lt hj]
    have d2 : (i * xs.length + j) / xs.length = i := by
      rw [Nat.mul_comm, Nat.mul_add_div (by omega), Nat.div_eq_of_lt hj, Nat.add_zero]
    simp only [e1, e2, d1, d2, hx, hy]
    rfl

/-! ## The control -/

theorem flat_amplitudes {c : DrivenControl α} (h1 : c.azimuthalAngles.length = c.rabiRates.length)
    (h2 : c.detunings.length = c.rabiRates.length) {k : NdControl α}
    (hr : k.rabiRates = vec c.rabiRates) (ha : k.azimuthalAngles = vec c.azimuthalAngles)
    (hd : k.detunings = vec c.detunings) :
    k.amplitudeX = .ok (vec c.amplitudeX) ∧ k.amplitudeY = .ok (vec c.amplitudeY) ∧
    k.angles = bin (· * ·) (vec c.amplitudes) k.durations := by
  have hx : k.amplitudeX = .ok (vec c.amplitudeX) := by
    unfold NdControl.amplitudeX DrivenControl.amplitudeX
    rw [hr, ha, un_vec, bin_vec _ _ _ (by simp [h1]), List.zipWith_map_right]
  have hy : k.amplitudeY = .ok (vec c.amplitudeY) := by
    unfold NdControl.amplitudeY DrivenControl.amplitudeY
    rw [hr, ha, un_vec, bin_vec _ _ _ (by simp [h1]), List.zipWith_map_right]
  refine ⟨hx, hy, ?_⟩
  have lx : c.amplitudeX.length = c.rabiRates.length := by
    simp [DrivenControl.amplitudeX, h1]
  have ly : c.amplitudeY.length = c.rabiRates.length := by
    simp [DrivenControl.amplitudeY, h1]
  unfold NdControl.angles
  rw [hx, hy, hd]
  simp only [bind, Except.bind, un_vec]
  rw [bin_vec _ _ _ (by simp [lx, ly])]
  simp only
  rw [bin_vec _ _ _ (by simp [lx, ly, h2])]
  simp only [un_vec]
  congr 2
  unfold DrivenControl.amplitudes
  rw [List.zipWith_map_left, List.zipWith_map_right, List.zipWith_map_right, List.map_zipWith]

theorem new_flat (t : List α) (r a d : Option (List α)) (name : Option String) :
    NdControl.new (vec t) (r.map vec) (a.map vec) (d.map vec) name =
      (DrivenControl.new t r a d name).map flatControl := by
  unfold NdControl.new DrivenControl.new
  rw [pyAll_vec]
  simp only [bind, Except.bind]
  have hl : ([r.map vec, a.map vec, d.map vec, some (vec t)].filterMap (Option.map NdArray.size)) =
      [r, a, d, some t].filterMap (Option.map List.length) := by
    cases r <;> cases a <;> cases d <;> simp [NdArray.size, vec]
  rw [hl]
  cases checkArguments (t.all fun d => gt d (lit 0))
    "Duration of driven control segments must all be greater than zero." with
  | error e => rfl
  | ok _ =>
    simp only
    generalize checkArguments _ "If set, rabi rates, azimuthal angles, detunings and durations must be of same length" = chk
    cases chk with
    | error e => rfl
    | ok _ =>
      have g : ∀ (x : Option (List α)) (l : List α), (x.map vec).getD (vec l) = vec (x.getD l) := by
        intro x l; cases x <;> rfl
      have hlen : (vec t).len = .ok t.length := rfl
      rw [hlen]
      simp only [g, pyAll_vec]
      cases checkArguments ((r.getD (List.replicate t.length (lit 0))).all fun r => ge r (lit 0))
        "All rabi rates must be greater than zero." <;> rfl

theorem pyAll_true_iff (p : α → Bool) (a : NdArray α) :
    a.pyAll p = .ok true ↔ AllItems (fun x => p x = true) a := by
  unfold pyAll AllItems
  cases h : a.shape with
  | nil => simp
  | cons n rest =>
    simp only [List.cons.injEq]
    constructor
    · intro hp
      refine ⟨n, rest, ⟨rfl, rfl⟩, ?_⟩
      split at hp
      · exact .inl ‹_›
      · split at hp
        · exact .inr ⟨‹_›, by simpa using hp⟩
        · split at hp <;> simp at hp
    · rintro ⟨_, _, ⟨rfl, rfl⟩, h | ⟨h1, h2⟩⟩
      · rw [if_pos h]
      · split
        · rfl
        · simpa using h2

/-- sizes agree -/
def SizesAgree (durations : NdArray α) (r a d : Option (NdArray α)) : Prop :=
  ∀ x ∈ [r, a, d], ∀ y, x = some y → y.size = durations.size

theorem sizes_iff (durations : NdArray α) (r a d : Option (NdArray α)) :
    ((pySet ([r, a, d, some durations].filterMap (Option.map NdArray.size))).length == 1) = true ↔
      SizesAgree durations r a d := by
  rw [beq_iff_eq, pySet_length_one (n := durations.size) (List.mem_filterMap.mpr ⟨some durations, by simp, rfl⟩)]
  unfold SizesAgree
  constructor
  · intro h x hx y hy
    refine h _ (List.mem_filterMap.mpr ⟨x, ?_, by rw [hy]; rfl⟩)
    simp only [List.mem_cons, List.not_mem_nil, or_false] at hx ⊢
    tauto
  · intro h k hk
    obtain ⟨x, hx, hy⟩ := List.mem_filterMap.mp hk
    cases x with
    | none => simp at hy
    | some y =>
      simp only [Option.map_some, Option.some.injEq] at hy
      subst hy
      simp only [List.mem_cons, List.not_mem_nil, or_false] at hx
      rcases hx with hx | hx | hx | hx
      · exact h _ (by simp [hx]) y rfl
      · exact h _ (by simp [hx]) y rfl
      · exact h _ (by simp [hx]) y rfl
      · simp only [Option.some.injEq] at hx; rw [hx]

theorem checkArguments_ok_iff (b : Bool) (m : String) : checkArguments b m = .ok () ↔ b = true := by
  cases b <;> simp [checkArguments]

/-- the constructor as one case distinction -/
theorem nd_new_eq (durations : NdArray α) (r a d : Option (NdArray α)) (name : Option String) :
    NdControl.new durations r a d name =
      match durations.pyAll (fun t => gt t (lit 0)) with
      | .error e => .error e
      | .ok false => .error (.arguments
          "Duration of driven control segments must all be greater than zero.")
      | .ok true =>
        if ((pySet ([r, a, d, some durations].filterMap (Option.map NdArray.size))).length == 1) = true
        then
          match durations.len with
          | .error e => .error e
          | .ok n =>
            match (r.getD (vec (List.replicate n (lit 0)))).pyAll (fun x => ge x (lit 0)) with
            | .error e => .error e
            | .ok false => .error (.arguments "All rabi rates must be greater than zero.")
            | .ok true => .ok ⟨r.getD (vec (List.replicate n (lit 0))),
                a.getD (vec (List.replicate n (lit 0))), d.getD (vec (List.replicate n (lit 0))),
                durations, name⟩
        else .error (.arguments
          "If set, rabi rates, azimuthal angles, detunings and durations must be of same length") := by
  unfold NdControl.new
  simp only [bind, Except.bind]
  cases durations.pyAll (fun t => gt t (lit 0)) with
  | error e => rfl
  | ok b =>
    cases b with
    | false => rfl
    | true =>
      cases ((pySet ([r, a, d, some durations].filterMap (Option.map NdArray.size))).length == 1) with
      | false => rfl
      | true =>
        cases durations.len with
        | error e => rfl
        | ok n =>
          simp only [checkArguments, if_true]
          cases (r.getD (vec (List.replicate n (lit 0)))).pyAll (fun x => ge x (lit 0)) with
          | error e => rfl
          | ok b => cases b <;> rfl

end OpenControls
