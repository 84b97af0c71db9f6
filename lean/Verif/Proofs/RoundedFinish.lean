import Verif.Proofs.RoundingError
import Verif.Proofs.Families
import Verif.Spec.Rounding

/-!
# The common tail of the predefined sequences in rounded arithmetic
-/

namespace OpenControls

open Spec

variable {r : Rounding}

namespace Fl

theorem val_round (x : ℝ) : (round r x).val = r.rnd x := rfl

theorem lit_zero : (PyFloat.lit 0 : Fl r) = round r 0 := ext (by simp [val_round])

theorem val_lit_zero : (PyFloat.lit 0 : Fl r).val = 0 := by simp

theorem pi_round : (PyFloat.pi : Fl r) = round r Real.pi := rfl

theorem half_pi : (PyFloat.pi / PyFloat.lit 2 : Fl r) = round r (Real.pi / 2) := by
  apply ext
  rw [val_div, val_pi, val_lit, val_round]
  push_cast
  rw [r.rnd_two, r.half, r.idem, ← r.half]

theorem pi_bounds : 3 ≤ r.rnd Real.pi ∧ r.rnd Real.pi ≤ 4 := by
  have h3 : r.rnd 3 = 3 := by simpa using r.rnd_nat (n := 3) (by norm_num)
  have h4 : r.rnd 4 = 4 := by simpa using r.rnd_nat (n := 4) (by norm_num)
  constructor
  · have := r.mono Real.pi_gt_three.le; rwa [h3] at this
  · have := r.mono (Real.pi_le_four); rwa [h4] at this

theorem isClose_eq (a b : Fl r) : Py.isClose a b = true ↔
    |r.rnd (a.val - b.val)| ≤ r.rnd (r.rnd (1 / 100000000) + r.rnd (r.rnd (1 / 100000) * |b.val|)) := by
  unfold Py.isClose Py.isCloseAtol
  simp

theorem isClose_refl (a : Fl r) : Py.isClose a a = true := by
  rw [isClose_eq, sub_self, r.rnd_zero, abs_zero]
  apply r.rnd_nonneg
  have h1 := r.rnd_nonneg (x := 1 / 100000000) (by norm_num)
  have h2 := r.rnd_nonneg (x := 1 / 100000) (by norm_num)
  have h3 := r.rnd_nonneg (mul_nonneg h2 (abs_nonneg a.val))
  linarith

theorem not_isClose {a b : Fl r} (h : 1 < |r.rnd (a.val - b.val)|) (hb : |b.val| ≤ 4) :
    ¬ Py.isClose a b = true := by
  rw [isClose_eq, not_le]
  refine lt_of_le_of_lt ?_ h
  have hh : r.rnd (1 / 2) = 1 / 2 := by rw [r.half, r.rnd_one]
  have h8 : r.rnd (1 / 8) = 1 / 8 := by
    have := r.rnd_div_pow 1 3
    rw [r.rnd_one] at this; norm_num at this ⊢; exact this
  have h1 : r.rnd (1 / 100000000) ≤ 1 / 2 := by rw [← hh]; exact r.mono (by norm_num)
  have h2 : r.rnd (1 / 100000) ≤ 1 / 8 := by rw [← h8]; exact r.mono (by norm_num)
  have h3 : r.rnd (r.rnd (1 / 100000) * |b.val|) ≤ 1 / 2 := by
    rw [← hh]
    apply r.mono
    have := r.rnd_nonneg (x := 1 / 100000) (by norm_num)
    nlinarith [abs_nonneg b.val]
  have := r.mono (add_le_add h1 h3)
  rwa [add_halves, r.rnd_one] at this

theorem isClose_pi_zero : ¬ Py.isClose (round r Real.pi) (round r 0) = true := by
  have := pi_bounds (r := r)
  apply not_isClose
  · rw [val_round, val_round, r.rnd_zero, sub_zero, r.idem, abs_of_nonneg (by linarith)]; linarith
  · rw [val_round, r.rnd_zero]; norm_num

theorem isClose_half_pi_zero : ¬ Py.isClose (round r (Real.pi / 2)) (round r 0) = true := by
  have := pi_bounds (r := r)
  apply not_isClose
  · rw [val_round, val_round, r.rnd_zero, sub_zero, r.idem, r.half, abs_of_nonneg (by linarith)]
    linarith
  · rw [val_round, r.rnd_zero]; norm_num

theorem isClose_zero_pi : ¬ Py.isClose (round r 0) (round r Real.pi) = true := by
  have := pi_bounds (r := r)
  apply not_isClose
  · rw [val_round, val_round, r.rnd_zero, zero_sub, r.neg, r.idem, abs_neg,
      abs_of_nonneg (by linarith)]; linarith
  · rw [val_round, abs_of_nonneg (by linarith)]; linarith

theorem isClose_zero_half_pi : ¬ Py.isClose (round r 0) (round r (Real.pi / 2)) = true := by
  have := pi_bounds (r := r)
  apply not_isClose
  · rw [val_round, val_round, r.rnd_zero, zero_sub, r.neg, r.idem, abs_neg, r.half,
      abs_of_nonneg (by linarith)]; linarith
  · rw [val_round, r.half, abs_of_nonneg (by linarith)]; linarith

end Fl

open Fl

/-- a table of pulses with rounded and exact times -/
abbrev Times (r : Rounding) := List (Fl r × ℝ × Axis)

/-- the exact table -/
def Times.exact (z : Times r) : List (ℝ × Axis) := z.map fun p => p.2

/-- the pulses with rounded times -/
noncomputable def Times.rounded (z : Times r) : Pulses (Fl r) where
  offsets := z.map fun p => p.1
  rabiRotations := z.map fun p => round r p.2.2.rabi
  azimuthalAngles := z.map fun p => round r p.2.2.azimuthal
  detuningRotations := z.map fun p => round r p.2.2.detuning

/-- rounded and exact times agree -/
structure Times.Good (T ε : ℝ) (z : Times r) : Prop where
  close : ∀ p ∈ z, |p.1.val - p.2.1| ≤ ε * T
  inside : ∀ p ∈ z, 0 < p.1.val ∧ p.1.val ≤ T
  inside' : ∀ p ∈ z, 0 < p.2.1 ∧ p.2.1 ≤ T
  last : ∀ p ∈ z, (p.1.val < T ↔ p.2.1 < T)
  order : ∀ p ∈ z, ∀ q ∈ z, (p.1.val < q.1.val ↔ p.2.1 < q.2.1)

theorem Times.Good.strict {T ε : ℝ} {z : Times r} (close : ∀ p ∈ z, |p.1.val - p.2.1| ≤ ε * T)
    (inside : ∀ p ∈ z, 0 < p.1.val ∧ p.1.val < T) (inside' : ∀ p ∈ z, 0 < p.2.1 ∧ p.2.1 < T)
    (order : ∀ p ∈ z, ∀ q ∈ z, (p.1.val < q.1.val ↔ p.2.1 < q.2.1)) : z.Good T ε :=
  ⟨close, fun p hp => ⟨(inside p hp).1, (inside p hp).2.le⟩,
    fun p hp => ⟨(inside' p hp).1, (inside' p hp).2.le⟩,
    fun p hp => iff_of_true (inside p hp).2 (inside' p hp).2, order⟩

theorem Times.Good.subset {T ε : ℝ} {z z' : Times r} (h : z.Good T ε) (hs : ∀ p ∈ z', p ∈ z) :
    z'.Good T ε :=
  ⟨fun p hp => h.close p (hs p hp), fun p hp => h.inside p (hs p hp),
    fun p hp => h.inside' p (hs p hp), fun p hp => h.last p (hs p hp),
    fun p hp q hq => h.order p (hs p hp) q (hs q hq)⟩

theorem countPulses_rounded (p q s : Fl r → Bool) (z : Times r) :
    countPulses p q s (z.map fun p => round r p.2.2.rabi) (z.map fun p => round r p.2.2.azimuthal)
      (z.map fun p => round r p.2.2.detuning) =
      z.countP fun t => p (round r t.2.2.rabi) && q (round r t.2.2.azimuthal) &&
        s (round r t.2.2.detuning) := by
  induction z with
  | nil => rfl
  | cons a t ih => simp only [List.map_cons, countPulses, ih, List.countP_cons]; ring

theorem countP_exact (z : Times r) (a : Axis) :
    z.countP (fun p => p.2.2 = a) = z.exact.countP fun p => p.2 = a := by
  simp [Times.exact, List.countP_map, Function.comp_def]

theorem addPrePost_rounded (T : Fl r) (z : Times r) :
    addPrePostRotations T z.rounded = .ok {
      offsets := round r 0 :: ((z.map fun p => p.1) ++ [T])
      rabiRotations := round r (Real.pi / 2) :: ((z.map fun p => round r p.2.2.rabi) ++
        [round r (Real.pi / 2)])
      azimuthalAngles := round r 0 :: ((z.map fun p => round r p.2.2.azimuthal) ++
        [round r (finalAngle z.exact)])
      detuningRotations := round r 0 :: ((z.map fun p => round r p.2.2.detuning) ++
        [round r 0]) } := by
  have h00 : Py.isClose (round r 0) (round r 0) = true := isClose_refl _
  have hpp : Py.isClose (round r Real.pi) (round r Real.pi) = true := isClose_refl _
  have hhh : Py.isClose (round r (Real.pi / 2)) (round r (Real.pi / 2)) = true := isClose_refl _
  have hp0 := Fl.isClose_pi_zero (r := r)
  have h0p := Fl.isClose_zero_pi (r := r)
  have h0h := Fl.isClose_zero_half_pi (r := r)
  have hh0 := Fl.isClose_half_pi_zero (r := r)
  obtain ⟨h1, h2, h3⟩ := countAxis_sum z.exact
  have hx : z.countP (fun t => Py.isClose (round r t.2.2.rabi) (round r Real.pi) &&
      Py.isClose (round r t.2.2.azimuthal) (round r 0) &&
      Py.isClose (round r t.2.2.detuning) (round r 0)) =
      z.exact.countP (fun p => p.2 = .x) := by
    rw [← countP_exact]
    apply List.countP_congr
    rintro ⟨t, t', a⟩ -
    cases a <;> simp [Axis.rabi, Axis.azimuthal, Axis.detuning, *]
  have hy : z.countP (fun t => Py.isClose (round r t.2.2.rabi) (round r Real.pi) &&
      Py.isClose (round r t.2.2.azimuthal) (round r (Real.pi / 2)) &&
      Py.isClose (round r t.2.2.detuning) (round r 0)) =
      z.exact.countP (fun p => p.2 = .y) := by
    rw [← countP_exact]
    apply List.countP_congr
    rintro ⟨t, t', a⟩ -
    cases a <;> simp [Axis.rabi, Axis.azimuthal, Axis.detuning, *]
  have hz : z.countP (fun t => Py.isClose (round r t.2.2.rabi) (round r 0) &&
      Py.isClose (round r t.2.2.azimuthal) (round r 0) &&
      Py.isClose (round r t.2.2.detuning) (round r Real.pi)) =
      z.exact.countP (fun p => p.2 = .z) := by
    rw [← countP_exact]
    apply List.countP_congr
    rintro ⟨t, t', a⟩ -
    cases a <;> simp [Axis.rabi, Axis.azimuthal, Axis.detuning, *]
  have hlen : z.exact.length = z.length := by simp [Times.exact]
  unfold addPrePostRotations Times.rounded
  simp only [countPulses_rounded, half_pi]
  simp only [lit_zero, pi_round, hx, hy, hz, checkArguments_bind]
  rw [if_pos (by simp; omega)]
  unfold finalAngle
  rw [h2, h3]
  simp only [List.cons_append, List.nil_append]
  rcases Nat.mod_two_eq_zero_or_one
    (z.exact.countP (fun p => p.2 = .x) + z.exact.countP (fun p => p.2 = .y)) with ha | ha <;>
  rcases Nat.mod_two_eq_zero_or_one
    (z.exact.countP (fun p => p.2 = .y) + z.exact.countP (fun p => p.2 = .z)) with hb | hb <;>
  simp [ha, hb] <;> rfl

theorem zip_map_map {β γ δ : Type} (f : β → γ) (g : β → δ) (l : List β) :
    (l.map f).zip (l.map g) = l.map fun x => (f x, g x) := by
  induction l with
  | nil => rfl
  | cons a t ih => simp [ih]

/-- order of the start, the end and the pulses of a table -/
theorem Times.Good.order_ends {T ε : ℝ} {z : Times r} (hT : 0 < T) (hz : z.Good T ε) {p q : ℝ × ℝ}
    (hp : p = (0, 0) ∨ p = (T, T) ∨ ∃ x ∈ z, p = (x.1.val, x.2.1))
    (hq : q = (0, 0) ∨ q = (T, T) ∨ ∃ x ∈ z, q = (x.1.val, x.2.1)) : p.1 < q.1 ↔ p.2 < q.2 := by
  rcases hp with rfl | rfl | ⟨x, hx, rfl⟩
  · rcases hq with rfl | rfl | ⟨y, hy, rfl⟩
    · simp
    · simp
    · exact iff_of_true (hz.inside y hy).1 (hz.inside' y hy).1
  · rcases hq with rfl | rfl | ⟨y, hy, rfl⟩
    · simp
    · simp
    · exact iff_of_false (not_lt.mpr (hz.inside y hy).2) (not_lt.mpr (hz.inside' y hy).2)
  · rcases hq with rfl | rfl | ⟨y, hy, rfl⟩
    · exact iff_of_false (not_lt.mpr (hz.inside x hx).1.le) (not_lt.mpr (hz.inside' x hx).1.le)
    · exact hz.last x hx
    · exact hz.order x hx y hy

/-- The common tail of the constructors on agreeing tables. -/
theorem finish_agrees {T : Fl r} (hT : 0 < T.val) {ε : ℝ} (hε : 0 ≤ ε) {z : Times r}
    (hz : z.Good T.val ε) (prePost : Bool) (name : Option String) :
    Agrees ε (finishSequence T prePost name z.rounded)
      (.ok (finished T.val z.exact prePost name)) := by
  have hgt : Py.gt T (PyFloat.lit 0 : Fl r) = true := by simpa using hT
  refine ⟨?_, _, ?_, rfl, ?_⟩
  · exact if prePost then ⟨T, round r 0 :: ((z.map fun p => p.1) ++ [T]),
        round r (Real.pi / 2) :: ((z.map fun p => round r p.2.2.rabi) ++ [round r (Real.pi / 2)]),
        round r 0 :: ((z.map fun p => round r p.2.2.azimuthal) ++
        [round r (finalAngle z.exact)]),
        round r 0 :: ((z.map fun p => round r p.2.2.detuning) ++ [round r 0]), name⟩
      else ⟨T, z.map fun p => p.1, z.map fun p => round r p.2.2.rabi,
        z.map fun p => round r p.2.2.azimuthal, z.map fun p => round r p.2.2.detuning, name⟩
  · unfold finishSequence
    cases prePost with
    | false =>
      simp only [Bool.false_eq_true, if_false, except_pure_bind]
      rw [Sequence.new_eq, if_pos hgt, if_pos, if_pos, if_pos, if_pos]
      · rfl
      all_goals simp [Times.rounded]
      intro a b c hab
      exact ⟨(hz.inside _ hab).1.le, (hz.inside _ hab).2⟩
    | true =>
      simp only [if_true]
      rw [addPrePost_rounded, except_ok_bind]
      rw [Sequence.new_eq, if_pos hgt, if_pos, if_pos, if_pos, if_pos]
      all_goals simp [val_round]
      refine ⟨hT.le, ?_, hT.le⟩
      intro a b c hab
      exact ⟨(hz.inside _ hab).1.le, (hz.inside _ hab).2⟩
  · have hεT : 0 ≤ ε * T.val := mul_nonneg hε hT.le
    cases prePost with
    | false =>
      simp only [finished, Bool.false_eq_true, if_false, piSequence, Times.exact, List.map_map]
      refine ⟨rfl, rfl, by simp, ?_, ?_, by simp, by simp, by simp⟩
      · intro p hp
        rw [zip_map_map] at hp
        obtain ⟨q, hq, rfl⟩ := List.mem_map.mp hp
        exact hz.close q hq
      · have hmem : ∀ p ∈ instants (⟨T, z.map fun p => p.1, z.map fun p => round r p.2.2.rabi,
            z.map fun p => round r p.2.2.azimuthal, z.map fun p => round r p.2.2.detuning, name⟩ :
            Sequence (Fl r)) ⟨T.val, z.map ((fun p => p.1) ∘ fun p => p.2), [], [], [], none⟩,
            p = (0, 0) ∨ p = (T.val, T.val) ∨ ∃ x ∈ z, p = (x.1.val, x.2.1) := by
          intro p hp
          simp only [instants, List.zipWith_map, List.mem_cons] at hp
          rcases hp with h | h | h
          · exact .inl h
          · exact .inr (.inl h)
          · rw [List.zipWith_self] at h
            obtain ⟨x, hx, rfl⟩ := List.mem_map.mp h
            exact .inr (.inr ⟨x, hx, rfl⟩)
        exact fun p hp q hq => hz.order_ends hT (hmem p hp) (hmem q hq)
    | true =>
      simp only [finished, if_true, withPrePost, piSequence, Times.exact, List.map_map]
      have hzip : (round r 0 :: ((z.map fun p => p.1) ++ [T])).zip
          (0 :: (z.map ((fun p => p.1) ∘ fun p => p.2) ++ [T.val])) =
          (round r 0, 0) :: ((z.map fun p => (p.1, p.2.1)) ++ [(T, T.val)]) := by
        rw [List.zip_cons_cons, List.zip_append (by simp), zip_map_map]
        rfl
      have hmem : ∀ p ∈ (round r 0, (0 : ℝ)) :: ((z.map fun p => (p.1, p.2.1)) ++ [(T, T.val)]),
          (p.1.val = 0 ∧ p.2 = 0) ∨ (∃ q ∈ z, p = (q.1, q.2.1)) ∨ (p.1.val = T.val ∧ p.2 = T.val) := by
        intro p hp
        simp only [List.mem_cons, List.mem_append, List.mem_map, List.mem_nil_iff, or_false] at hp
        rcases hp with rfl | ⟨q, hq, rfl⟩ | rfl
        · exact .inl ⟨by simp [val_round], rfl⟩
        · exact .inr (.inl ⟨q, hq, rfl⟩)
        · exact .inr (.inr ⟨rfl, rfl⟩)
      refine ⟨rfl, rfl, by simp, ?_, ?_, by simp, by simp, by simp⟩
      · intro p hp
        simp only [hzip] at hp
        rcases hmem p hp with ⟨h1, h2⟩ | ⟨q, hq, rfl⟩ | ⟨h1, h2⟩
        · rw [h1, h2]; simpa using hεT
        · exact hz.close q hq
        · rw [h1, h2]; simpa using hεT
      · have hmem' : ∀ p ∈ instants (⟨T, round r 0 :: ((z.map fun p => p.1) ++ [T]), [], [], [], name⟩ :
            Sequence (Fl r)) ⟨T.val, 0 :: (z.map ((fun p => p.1) ∘ fun p => p.2) ++ [T.val]), [], [], [],
              none⟩,
            p = (0, 0) ∨ p = (T.val, T.val) ∨ ∃ x ∈ z, p = (x.1.val, x.2.1) := by
          intro p hp
          have e : List.zipWith (fun (t : Fl r) (t' : ℝ) => (t.val, t'))
              (round r 0 :: ((z.map fun p => p.1) ++ [T]))
              (0 :: (z.map ((fun p => p.1) ∘ fun p => p.2) ++ [T.val])) =
              ((round r 0 :: ((z.map fun p => p.1) ++ [T])).zip
                (0 :: (z.map ((fun p => p.1) ∘ fun p => p.2) ++ [T.val]))).map
                fun p => (p.1.val, p.2) := by
            rw [List.zip, List.map_zipWith]
          simp only [instants, e, hzip, List.mem_cons] at hp
          rcases hp with h | h | h
          · exact .inl h
          · exact .inr (.inl h)
          · obtain ⟨x, hx, rfl⟩ := List.mem_map.mp h
            rcases hmem x hx with ⟨h1, h2⟩ | ⟨y, hy, rfl⟩ | ⟨h1, h2⟩
            · exact .inl (by rw [h1, h2])
            · exact .inr (.inr ⟨y, hy, rfl⟩)
            · exact .inr (.inl (by rw [h1, h2]))
        exact fun p hp q hq => hz.order_ends hT (hmem' p hp) (hmem' q hq)

end OpenControls
