import Verif.Proofs.RoundedConversion

/-!
# The windows of the pulses in rounded arithmetic
-/

namespace OpenControls

open Spec Fl

variable {r : Rounding} {T R D m : Fl r}

/-! ## Width -/

theorem val_pyMax (a b : Fl r) : (Py.pyMax a b).val = max a.val b.val := by
  unfold Py.pyMax
  split
  · rename_i h
    rw [lt_iff] at h
    exact (max_eq_right h.le).symm
  · rename_i h
    rw [lt_iff] at h
    exact (max_eq_left (not_lt.mp h)).symm

theorem half_mul_rounded (x : Fl r) : (PyFloat.lit (1 / 2) * x : Fl r).val = x.val / 2 := by
  have h : r.rnd (1 / 2) = 1 / 2 := by rw [r.half, r.rnd_one]
  rw [val_mul, val_lit]
  push_cast
  rw [h, one_div_mul_eq_div, r.half, x.rnd_val]

/-- half the duration of the pulse -/
noncomputable def hw (R D m : Fl r) (o : Operation (Fl r)) : ℝ := (halfPulseDuration R D m o).val

theorem hw_nonneg (hm : 0 ≤ m.val) (o : Operation (Fl r)) : 0 ≤ hw R D m o := by
  have key : ∀ x : Fl r, 0 ≤ (PyFloat.lit (1 / 2) * Py.pyMax x m : Fl r).val := by
    intro x
    rw [half_mul_rounded, val_pyMax]
    have := hm.trans (le_max_right x.val m.val)
    linarith
  unfold hw halfPulseDuration
  split
  · exact key _
  · split
    · exact key _
    · rw [val_lit_zero]

theorem max_error {x y m : ℝ} {u : ℝ} (hm : 0 ≤ m) (hx : 0 ≤ x) (hu : 0 ≤ u) (h : |y - x| ≤ u * x) :
    |max y m - max x m| ≤ u * max x m := by
  have h1 : |max y m - max x m| ≤ |y - x| := by
    have := abs_max_sub_max_le_max y m x m
    simpa using this
  have : u * x ≤ u * max x m := mul_le_mul_of_nonneg_left (le_max_left _ _) hu
  linarith

theorem hw_width (hR : 0 < R.val) (hD : 0 < D.val) (hm : 0 ≤ m.val) {o : Operation (Fl r)}
    (hc : ClearPulse r.u (vp o)) (h0 : 0 ≤ (vp o).rabi) :
    |2 * hw R D m o - width R.val D.val m.val (vp o)| ≤ r.u * width R.val D.val m.val (vp o) := by
  have h1 := Spec.Clear.close_eq (x := o.rabi) hc.1
  have h2 := Spec.Clear.close_eq (x := o.detuning) hc.2
  unfold hw halfPulseDuration width
  by_cases n1 : Negligible (vp o).rabi
  · by_cases n2 : Negligible (vp o).detuning
    · rw [h1.1 n1, h2.1 n2]
      simp [n1, n2]
    · rw [h1.1 n1, h2.2 n2]
      simp only [Bool.not_true, Bool.false_eq_true, if_false, Bool.not_false, if_true, n1, n2,
        not_true, not_false_iff]
      rw [half_mul_rounded, val_pyMax, val_div, val_abs, mul_div_cancel₀ _ two_ne_zero]
      have hx : 0 ≤ |o.detuning.val| / D.val := by positivity
      have := r.close (|o.detuning.val| / D.val)
      rw [abs_of_nonneg hx] at this
      exact max_error hm hx r.u_nonneg this
  · rw [h1.2 n1]
    simp only [Bool.not_false, if_true, n1, not_false_iff]
    rw [half_mul_rounded, val_pyMax, val_div, mul_div_cancel₀ _ two_ne_zero]
    have hx : 0 ≤ o.rabi.val / R.val := div_nonneg h0 hR.le
    have := r.close (o.rabi.val / R.val)
    rw [abs_of_nonneg hx] at this
    exact max_error hm hx r.u_nonneg this

/-! ## Windows -/

/-- the last window, shifted to end with the sequence -/
noncomputable def lastWin (T R D m : Fl r) (o : Operation (Fl r)) : Fl r × Fl r :=
  let p := pulseStartEnd R D m o
  if Py.gt p.2 T then (p.1 - (p.2 - T), p.2 - (p.2 - T)) else p

open Classical in
/-- the window of a pulse -/
noncomputable def fwin (T R D m : Fl r) (o : Operation (Fl r)) : Fl r × Fl r :=
  if o.offset.val = 0 then
    (PyFloat.lit 0, halfPulseDuration R D m o + halfPulseDuration R D m o)
  else if o.offset.val = T.val then lastWin T R D m o
  else pulseStartEnd R D m o

theorem shiftLast_append' (T : Fl r) (l : List (Fl r × Fl r)) (x : Fl r × Fl r) :
    shiftLast T (l ++ [x]) = l ++ shiftLast T [x] := by
  induction l with
  | nil => rfl
  | cons a l ih =>
    cases l with
    | nil => rfl
    | cons b r => simp only [List.cons_append, shiftLast] at ih ⊢; rw [ih]

theorem shiftFirst_zero (hm : 0 ≤ m.val) {a : Operation (Fl r)} (ha : a.offset.val = 0)
    (l : List (Fl r × Fl r)) :
    shiftFirst (pulseStartEnd R D m a :: l) =
      (PyFloat.lit 0, halfPulseDuration R D m a + halfPulseDuration R D m a) :: l := by
  have h0 := hw_nonneg (R := R) (D := D) hm a
  unfold hw at h0
  unfold pulseStartEnd shiftFirst
  dsimp only
  set h := halfPulseDuration R D m a
  have e1 : (a.offset - h).val = -h.val := by rw [val_sub, ha, zero_sub, r.neg, h.rnd_val]
  have e2 : a.offset + h = h := ext (by rw [val_add, ha, zero_add, h.rnd_val])
  have e3 : PyFloat.lit 0 - (a.offset - h) = h :=
    ext (by rw [val_sub, e1, val_lit_zero, zero_sub, neg_neg, h.rnd_val])
  split
  · rw [e3, e2]
    congr 2
    apply ext
    rw [val_add, e1, val_lit_zero, neg_add_cancel, r.rnd_zero]
  · rename_i hlt
    rw [lt_iff, e1, val_lit_zero] at hlt
    have hh : h.val = 0 := by linarith
    congr 2
    · apply ext; rw [e1, hh, val_lit_zero, neg_zero]
    · rw [e2]; apply ext; rw [val_add, hh, add_zero, r.rnd_zero]

/-- the shape of the padded list of operations -/
structure Padded (T : Fl r) (ops : List (Operation (Fl r))) (a : Operation (Fl r))
    (mid : List (Operation (Fl r))) (b : Operation (Fl r)) : Prop where
  eq : ops = a :: (mid ++ [b])
  first : a.offset.val = 0
  last : b.offset.val = T.val
  inside : ∀ p ∈ mid, 0 < p.offset.val ∧ p.offset.val < T.val

theorem padded_shape {s : Sequence (Fl r)} (hs : s.Constructed)
    (hsort : (s.map val).offsets.Pairwise (· < ·)) :
    ((pad s.duration.val (pulseList (s.map val))).map Pulse.offset).Pairwise (· < ·) ∧
    ∃ a mid b, Padded s.duration (paddedOps s) a mid b := by
  obtain ⟨hT, hb, hr, ha, hd⟩ := (rounded_facts hs).facts
  have ho := pulseList_offsets (s.map val) hr ha hd
  obtain ⟨h1, a, mid, b, he, ha, hbT, hmid⟩ := pad_shape hT (pulseList (s.map val))
    (ho ▸ hsort) (by
      intro p hp
      exact hb _ (ho ▸ List.mem_map_of_mem hp))
  refine ⟨h1, ?_⟩
  have e := paddedOps_val s
  have he' : pad s.duration.val (pulseList (s.map val)) = a :: (mid ++ [b]) := he
  rw [he', List.map_eq_cons_iff] at e
  obtain ⟨a', l', e1, rfl, e2⟩ := e
  rw [List.map_eq_append_iff] at e2
  obtain ⟨mid', lb, rfl, rfl, e3⟩ := e2
  rw [List.map_eq_singleton_iff] at e3
  obtain ⟨b', rfl, rfl⟩ := e3
  exact ⟨a', mid', b', e1, ha, hbT, fun p hp => hmid (vp p) (List.mem_map_of_mem hp)⟩

theorem startEnds_rounded (hT : 0 < T.val) (hm : 0 ≤ m.val) {ops : List (Operation (Fl r))}
    {a b : Operation (Fl r)} {mid : List (Operation (Fl r))} (h : Padded T ops a mid b) :
    shiftLast T (shiftFirst (ops.map (pulseStartEnd R D m))) = ops.map (fwin T R D m) := by
  obtain ⟨rfl, ha, hb, hmid⟩ := h
  simp only [List.map_cons, List.map_append, List.map_nil]
  rw [shiftFirst_zero hm ha, ← List.cons_append, shiftLast_append', List.cons_append]
  congr 1
  · unfold fwin; rw [if_pos ha]
  congr 1
  · apply List.map_congr_left
    intro p hp
    obtain ⟨h1, h2⟩ := hmid p hp
    unfold fwin
    rw [if_neg h1.ne', if_neg h2.ne]
  · unfold fwin lastWin
    rw [if_neg (by rw [hb]; exact hT.ne'), if_pos hb]
    simp only [shiftLast, List.cons.injEq, and_true]
    split <;> rfl

/-- Bounds of a rounded window by the exact window. -/
structure Near (u T w : ℝ) (W : Fl r × Fl r) (v : ℝ × ℝ) : Prop where
  start : |W.1.val - v.1| ≤ 6 * u * (T + w)
  stop : |W.2.val - v.2| ≤ 6 * u * (T + w)
  order : W.1.val ≤ W.2.val

theorem mid_near {h o T : ℝ} (hh : 0 ≤ h) (ho : 0 ≤ o) (hoT : o ≤ T) :
    |r.rnd (o - h) - (o - h)| ≤ r.u * (T + h) ∧ |r.rnd (o + h) - (o + h)| ≤ r.u * (T + h) := by
  have hu := r.u_nonneg
  have h1 := r.close (o - h)
  have h2 := r.close (o + h)
  have b1 : |o - h| ≤ T + h := by rw [abs_le]; constructor <;> linarith
  have b2 : |o + h| ≤ T + h := by rw [abs_le]; constructor <;> linarith
  have := mul_le_mul_of_nonneg_left b1 hu
  have := mul_le_mul_of_nonneg_left b2 hu
  constructor <;> linarith

theorem lastWin_near (hT : 0 < T.val) (hm : 0 ≤ m.val) {o : Operation (Fl r)}
    (ho : o.offset.val = T.val) :
    |(lastWin T R D m o).1.val - (T.val - 2 * hw R D m o)| ≤ 6 * r.u * (T.val + hw R D m o) ∧
    |(lastWin T R D m o).2.val - T.val| ≤ 2 * r.u * (T.val + hw R D m o) ∧
    (lastWin T R D m o).1.val ≤ (lastWin T R D m o).2.val := by
  have hh := hw_nonneg (R := R) (D := D) hm o
  have hu := r.u_nonneg
  have hu' := r.u_le
  have hTd := T.rnd_val
  obtain ⟨m1, m2⟩ := mid_near (r := r) hh hT.le le_rfl
  have hdef : (halfPulseDuration R D m o).val = hw R D m o := rfl
  unfold lastWin pulseStartEnd
  dsimp only
  have e1 : (o.offset - halfPulseDuration R D m o).val = r.rnd (T.val - hw R D m o) := by
    rw [val_sub, ho, hdef]
  have e2 : (o.offset + halfPulseDuration R D m o).val = r.rnd (T.val + hw R D m o) := by
    rw [val_add, ho, hdef]
  set t := T.val
  set h := hw R D m o
  set S := r.rnd (t - h)
  set E := r.rnd (t + h)
  have hEt : t ≤ E := by
    have := r.mono (show t ≤ t + h by linarith)
    rwa [hTd] at this
  have hSE : S ≤ E := r.mono (by linarith)
  set q := r.u * (t + h) with hq
  have hq0 : 0 ≤ q := by positivity
  have hqs : q ≤ (t + h) / 2 ^ 20 := by
    rw [hq]; have := mul_le_mul_of_nonneg_right hu' (show 0 ≤ t + h by linarith)
    linarith
  rw [abs_le] at m1 m2
  split
  · simp only [val_sub, e1, e2]
    have c1 := r.close (E - t)
    rw [abs_of_nonneg (sub_nonneg.mpr hEt), abs_le] at c1
    set τ := r.rnd (E - t)
    have hEt2 : E - t ≤ 11 / 10 * (t + h) := by linarith
    have hτ : r.u * (E - t) ≤ 11 / 10 * q := by
      have := mul_le_mul_of_nonneg_left hEt2 hu
      rw [hq]; linarith
    have hτ' : r.u * (E - t) ≤ r.u * (h + q) := mul_le_mul_of_nonneg_left (by linarith) hu
    have c2 := r.close (S - τ)
    have c3 := r.close (E - τ)
    have b2 : |S - τ| ≤ 21 / 10 * (t + h) := by
      rw [abs_le]
      constructor <;> linarith [m1.1, m1.2, m2.1, m2.2, c1.1, c1.2]
    have b3 : |E - τ| ≤ t + 11 / 10 * q := by
      rw [abs_le]
      constructor <;> linarith [c1.1, c1.2]
    have d2 : r.u * |S - τ| ≤ 21 / 10 * q := by
      have := mul_le_mul_of_nonneg_left b2 hu
      rw [hq]; linarith
    have d3 : r.u * |E - τ| ≤ r.u * t + 11 / 10 * (r.u * q) := by
      have := mul_le_mul_of_nonneg_left b3 hu
      linarith
    have d4 : r.u * q ≤ q / 2 ^ 20 := by
      have := mul_le_mul_of_nonneg_right hu' hq0
      linarith
    have d5 : r.u * t + r.u * h = q := by rw [hq]; ring
    have d6 : r.u * (h + q) = r.u * h + r.u * q := by ring
    rw [abs_le] at c2 c3
    refine ⟨?_, ?_, r.mono (by linarith)⟩
    · rw [abs_le]; constructor <;> linarith [m1.1, m1.2, m2.1, m2.2, c1.1, c1.2, c2.1, c2.2]
    · rw [abs_le]; constructor <;> linarith [m1.1, m1.2, m2.1, m2.2, c1.1, c1.2, c3.1, c3.2]
  · rename_i hgt
    rw [gt_iff, e2, not_lt] at hgt
    have hE : E = t := le_antisymm hgt hEt
    rw [e1, e2]
    refine ⟨?_, ?_, hSE⟩
    · rw [abs_le]; constructor <;> linarith [m1.1, m1.2, m2.1, m2.2]
    · rw [hE, sub_self, abs_zero]; linarith

theorem fwin_near (hT : 0 < T.val) (hR : 0 < R.val) (hD : 0 < D.val) (hm : 0 ≤ m.val)
    {o : Operation (Fl r)} (ho : 0 ≤ o.offset.val ∧ o.offset.val ≤ T.val)
    (hc : ClearPulse r.u (vp o)) (h0 : 0 ≤ (vp o).rabi) :
    Near r.u T.val (width R.val D.val m.val (vp o)) (fwin T R D m o)
      (window T.val R.val D.val m.val (vp o)) := by
  have hh := hw_nonneg (R := R) (D := D) hm o
  have hu := r.u_nonneg
  have hu' := r.u_le
  have hw := hw_width hR hD hm hc h0
  have hw0 := width_nonneg hm R.val D.val (vp o)
  have e0 : (vp o).offset = o.offset.val := rfl
  unfold fwin window
  rw [e0]
  set w := width R.val D.val m.val (vp o)
  have hdef : (halfPulseDuration R D m o).val = OpenControls.hw R D m o := rfl
  rw [abs_le] at hw
  set h := OpenControls.hw R D m o
  set u := r.u
  have huw : 0 ≤ u * w := by positivity
  have huT : 0 ≤ u * T.val := by positivity
  have hus : u * w ≤ w / 2 ^ 20 := by
    have := mul_le_mul_of_nonneg_right hu' hw0
    linarith
  have hhw : h ≤ 51 / 100 * w := by linarith
  have huh : u * h ≤ 51 / 100 * (u * w) := by
    have := mul_le_mul_of_nonneg_left hhw hu
    linarith
  by_cases h1 : o.offset.val = 0
  · rw [if_pos h1, if_pos h1]
    have e : (halfPulseDuration R D m o + halfPulseDuration R D m o).val = 2 * h := by
      have := rnd_mul_two (r := r) h
      rw [← hdef, Fl.rnd_val] at this
      rw [val_add, ← two_mul, this, hdef]
    refine ⟨?_, ?_, ?_⟩ <;> simp only [val_lit_zero, e]
    · rw [sub_self, abs_zero]; positivity
    · rw [abs_le]; constructor <;> linarith
    · linarith
  · rw [if_neg h1, if_neg h1]
    by_cases h2 : o.offset.val = T.val
    · rw [if_pos h2, if_pos h2]
      obtain ⟨k1, k2, k3⟩ := lastWin_near (R := R) (D := D) hT hm h2
      rw [abs_le] at k1 k2
      refine ⟨?_, ?_, k3⟩
      · rw [abs_le]; constructor <;> dsimp only <;> linarith
      · rw [abs_le]; constructor <;> dsimp only <;> linarith
    · rw [if_neg h2, if_neg h2]
      obtain ⟨k1, k2⟩ := mid_near (r := r) hh ho.1 ho.2
      rw [abs_le] at k1 k2
      unfold pulseStartEnd
      refine ⟨?_, ?_, ?_⟩ <;> simp only [val_sub, val_add, hdef]
      · rw [abs_le]; constructor <;> linarith
      · rw [abs_le]; constructor <;> linarith
      · exact r.mono (by linarith)

end OpenControls
