import Verif.Proofs.RoundedSeparated

/-!
# Rates and shortest segments of a control converted in rounded arithmetic
-/

namespace OpenControls

open Spec Fl

variable {r : Rounding} {T R D m : Fl r}

theorem mem_buildSegments' {L : List (Operation (Fl r) × (Fl r × Fl r))} {g : Segment (Fl r)}
    (h : g ∈ buildSegments L) :
    (∃ x ∈ L, g = pulseSegment x.1 x.2) ∨
    (∃ d ∈ gapDurations (L.map Prod.snd), g = ⟨PyFloat.lit 0, PyFloat.lit 0, PyFloat.lit 0, d⟩) ∨
    g = ⟨PyFloat.lit 0, PyFloat.lit 0, PyFloat.lit 0, PyFloat.lit 0⟩ := by
  induction L with
  | nil => simp [buildSegments] at h
  | cons x L ih =>
    obtain ⟨o, w⟩ := x
    cases L with
    | nil =>
      simp only [buildSegments, List.mem_cons, List.not_mem_nil, or_false] at h
      rcases h with rfl | rfl
      · exact .inl ⟨(o, w), by simp, rfl⟩
      · exact .inr (.inr rfl)
    | cons y L =>
      obtain ⟨o', w'⟩ := y
      simp only [buildSegments, List.mem_cons] at h
      rcases h with rfl | rfl | h
      · exact .inl ⟨(o, w), by simp, rfl⟩
      · exact .inr (.inl ⟨_, by simp [gapDurations], rfl⟩)
      · rcases ih h with ⟨x, h1, h2⟩ | ⟨d, h1, h2⟩ | h
        · exact .inl ⟨x, by simp [h1], h2⟩
        · refine .inr (.inl ⟨d, ?_, h2⟩)
          simp only [List.map_cons, gapDurations, List.mem_cons]
          exact .inr (by simpa only [List.map_cons] using h1)
        · exact .inr (.inr h)

/-- a pulse that does nothing has an empty window -/
theorem fwin_idle (hc : ClearPulse r.u (vp o)) (h : ¬ Rotates (vp o)) :
    (fwin T R D m o).1.val = (fwin T R D m o).2.val := by
  unfold Rotates at h
  push Not at h
  have h1 := (Spec.Clear.close_eq (x := o.rabi) hc.1).1 h.1
  have h2 := (Spec.Clear.close_eq (x := o.detuning) hc.2).1 h.2
  have e : halfPulseDuration R D m o = PyFloat.lit 0 := by
    unfold halfPulseDuration
    rw [h1, h2]; rfl
  unfold fwin lastWin pulseStartEnd
  rw [e]
  dsimp only
  have e1 : (o.offset - PyFloat.lit 0).val = o.offset.val := by
    rw [val_sub, val_lit_zero, sub_zero, Fl.rnd_val]
  have e2 : (o.offset + PyFloat.lit 0).val = o.offset.val := by
    rw [val_add, val_lit_zero, add_zero, Fl.rnd_val]
  split
  · rw [val_add, val_lit_zero, add_zero, r.rnd_zero]
  · split
    · rename_i ho
      split
      · rename_i hg
        rw [gt_iff, e2, ho] at hg
        exact absurd hg (lt_irrefl _)
      · rw [e1, e2]
    · rw [e1, e2]

/-- bounds of a rounded width -/
theorem width_bounds {T w κ : ℝ} (hT : 0 < T) (hκ0 : 0 ≤ κ) (hκ : κ ≤ 1 / 2) {W : Fl r × Fl r}
    {v : ℝ × ℝ} (hv : v.2 - v.1 = w) (h : Near r.u T w W v) (hwT : w ≤ T) (hw0 : 0 < w)
    (hw : 64 * r.u * T ≤ κ * w) :
    (1 - κ / 64) * (1 - 3 / 8 * κ) * w ≤ (W.2 - W.1).val ∧ r.u ≤ κ / 64 := by
  have hu := r.u_nonneg
  have hu' := r.u_le
  have h1 := abs_le.mp h.start
  have h2 := abs_le.mp h.stop
  have huw := mul_le_mul_of_nonneg_left hwT hu
  have hk : r.u ≤ κ / 64 := by
    have h3 : κ * w ≤ κ * T := mul_le_mul_of_nonneg_left hwT hκ0
    have h4 : 64 * r.u * T ≤ κ * T := hw.trans h3
    have := le_of_mul_le_mul_right h4 hT
    linarith
  refine ⟨?_, hk⟩
  have h5 : (1 - 3 / 8 * κ) * w ≤ W.2.val - W.1.val := by
    linarith [h1.1, h1.2, h2.1, h2.2]
  have h6 : 0 ≤ (1 - 3 / 8 * κ) * w := mul_nonneg (by linarith) hw0.le
  have h7 := (abs_le.mp (r.close (W.2.val - W.1.val))).1
  rw [abs_of_nonneg (h6.trans h5)] at h7
  rw [val_sub]
  have h8 : (1 - κ / 64) * (W.2.val - W.1.val) ≤ (1 - r.u) * (W.2.val - W.1.val) :=
    mul_le_mul_of_nonneg_right (by linarith) (h6.trans h5)
  have h9 : (1 - κ / 64) * ((1 - 3 / 8 * κ) * w) ≤ (1 - κ / 64) * (W.2.val - W.1.val) :=
    mul_le_mul_of_nonneg_left h5 (by linarith)
  linarith

theorem rate_bound {x w W κ ρ : ℝ} (hκ0 : 0 ≤ κ) (hκ : κ ≤ 1 / 2) (hk : r.u ≤ κ / 64) (hρ : 0 < ρ)
    (hw0 : 0 < w) (hx : |x| / ρ ≤ w) (hW : (1 - κ / 64) * (1 - 3 / 8 * κ) * w ≤ W) :
    |r.rnd (x / W)| ≤ (1 + κ) * ρ := by
  have hu := r.u_nonneg
  have hp : 0 < (1 - κ / 64) * (1 - 3 / 8 * κ) := mul_pos (by linarith) (by linarith)
  have hW0 : 0 < W := lt_of_lt_of_le (mul_pos hp hw0) hW
  have h1 : |r.rnd (x / W)| ≤ (1 + r.u) * |x / W| := by
    have h2 := r.close (x / W)
    have h3 := abs_sub_abs_le_abs_sub (r.rnd (x / W)) (x / W)
    linarith
  refine h1.trans ?_
  rw [abs_div, abs_of_pos hW0, ← mul_div_assoc, div_le_iff₀ hW0]
  rw [div_le_iff₀ hρ] at hx
  have h4 : (1 + κ / 64) ≤ (1 + κ) * ((1 - κ / 64) * (1 - 3 / 8 * κ)) := by
    nlinarith [mul_nonneg hκ0 hκ0, mul_nonneg hκ0 (sub_nonneg.mpr hκ),
      mul_nonneg (mul_nonneg hκ0 hκ0) (sub_nonneg.mpr hκ)]
  calc (1 + r.u) * |x| ≤ (1 + κ / 64) * (w * ρ) :=
        mul_le_mul (by linarith) hx (abs_nonneg _) (by linarith)
    _ ≤ (1 + κ) * ((1 - κ / 64) * (1 - 3 / 8 * κ)) * (w * ρ) :=
        mul_le_mul_of_nonneg_right h4 (by positivity)
    _ = (1 + κ) * ρ * ((1 - κ / 64) * (1 - 3 / 8 * κ) * w) := by ring
    _ ≤ (1 + κ) * ρ * W := mul_le_mul_of_nonneg_left hW (by positivity)

/-- Rates and duration of every segment of a control converted from well separated pulses. -/
theorem segment_bounds {s : Sequence (Fl r)} (hs : s.Constructed)
    (hclear : ∀ p ∈ pulseList (s.map val), ClearPulse r.u p)
    (hrabi : ∀ p ∈ pulseList (s.map val), 0 ≤ p.rabi)
    (hR : 0 < R.val) (hD : 0 < D.val) (hm : 0 ≤ m.val)
    (hsep : Separated s R D m) {κ : ℝ} (hκ0 : 0 ≤ κ) (hκ : κ ≤ 1 / 2)
    (hwide : ∀ p ∈ pulseList (s.map val), Rotates p →
      64 * r.u * s.duration.val ≤ κ * width R.val D.val m.val p) {g : Segment (Fl r)}
    (hg : g ∈ takesTime (buildSegments (pairs s R D m))) :
    g.rabi.val ≤ (1 + κ) * R.val ∧ |g.detuning.val| ≤ (1 + κ) * D.val ∧
      (1 - κ) * m.val ≤ g.duration.val := by
  have hT : 0 < s.duration.val := (rounded_facts hs).facts.1
  obtain ⟨hg1, hg2⟩ := List.mem_filter.mp hg
  rw [gt_iff, val_lit_zero] at hg2
  have hRR : 0 ≤ (1 + κ) * R.val := by positivity
  have hDD : 0 ≤ (1 + κ) * D.val := by positivity
  rcases mem_buildSegments' hg1 with ⟨x, hx, rfl⟩ | ⟨d, hd, rfl⟩ | rfl
  · obtain ⟨o, ho, rfl⟩ := List.mem_map.mp hx
    dsimp only at hg2 ⊢
    obtain ⟨h1, h2, h3⟩ := paddedOps_facts hs hrabi hclear ho
    rw [pulseSegment_duration] at hg2 ⊢
    by_cases hrot : Rotates (vp o)
    swap
    · rw [val_sub, fwin_idle h2 hrot, sub_self, r.rnd_zero] at hg2
      exact absurd hg2 (lt_irrefl _)
    have hw : 64 * r.u * s.duration.val ≤ κ * width R.val D.val m.val (vp o) := by
      rcases paddedOps_mem ho with h | h | h
      · exact hwide _ h hrot
      · exact absurd (by rw [h]; simp [idlePulse, Negligible]) hrot
      · exact absurd (by rw [h]; simp [idlePulse, Negligible]) hrot
    have hw0 : 0 < width R.val D.val m.val (vp o) := width_pos hR hD h3 hrot
    obtain ⟨hW, hk⟩ := width_bounds hT hκ0 hκ (window_width _ _ _ _ _) (hsep.near o ho)
      (hsep.width_le o ho) hw0 hw
    refine ⟨?_, ?_, ?_⟩
    · by_cases n1 : Negligible (vp o).rabi
      · have n2 : ¬ Negligible (vp o).detuning := fun n2 => hrot ⟨n1, n2⟩
        rw [pulseSegment_detuning h2 hg2 n1 n2, val_lit_zero]
        exact hRR
      · rw [pulseSegment_rabi h2 hg2 n1]
        dsimp only
        rw [val_div]
        refine (le_abs_self _).trans (rate_bound hκ0 hκ hk hR hw0 ?_ hW)
        have h3' : 0 ≤ o.rabi.val := h3
        rw [abs_of_nonneg h3']
        unfold width
        rw [if_pos n1]
        exact le_max_left _ _
    · by_cases n1 : Negligible (vp o).rabi
      · have n2 : ¬ Negligible (vp o).detuning := fun n2 => hrot ⟨n1, n2⟩
        rw [pulseSegment_detuning h2 hg2 n1 n2]
        dsimp only
        rw [val_div]
        refine rate_bound hκ0 hκ hk hD hw0 ?_ hW
        unfold width
        rw [if_neg (not_not.mpr n1), if_pos n2]
        exact le_max_left _ _
      · rw [pulseSegment_rabi h2 hg2 n1, val_lit_zero, abs_zero]
        exact hDD
    · have hmw : m.val ≤ width R.val D.val m.val (vp o) := by
        unfold width
        by_cases n1 : Negligible (vp o).rabi
        · have n2 : ¬ Negligible (vp o).detuning := fun n2 => hrot ⟨n1, n2⟩
          rw [if_neg (not_not.mpr n1), if_pos n2]
          exact le_max_right _ _
        · rw [if_pos n1]
          exact le_max_right _ _
      have h5 : (1 - κ) ≤ (1 - κ / 64) * (1 - 3 / 8 * κ) := by nlinarith
      calc (1 - κ) * m.val ≤ (1 - κ) * width R.val D.val m.val (vp o) :=
            mul_le_mul_of_nonneg_left hmw (by linarith)
        _ ≤ (1 - κ / 64) * (1 - 3 / 8 * κ) * width R.val D.val m.val (vp o) :=
            mul_le_mul_of_nonneg_right h5 hw0.le
        _ ≤ _ := hW
  · have hfw : (pairs s R D m).map Prod.snd = fwindows s R D m := by
      unfold pairs fwindows; rw [List.map_map]; rfl
    rw [hfw] at hd
    have := (gaps_chain (fun g => m.val < g.val) (fwindows s R D m)).mpr hsep.gaps d hd
    dsimp only
    rw [val_lit_zero, abs_zero]
    refine ⟨hRR, hDD, ?_⟩
    have : κ * m.val ≥ 0 := by positivity
    linarith
  · dsimp only at hg2
    rw [val_lit_zero] at hg2
    exact absurd hg2 (lt_irrefl _)

/-! ## Sequences that do not fit -/

theorem gaps_of_pass {s : Sequence (Fl r)} (hs : s.Constructed)
    (hclear : ∀ p ∈ pulseList (s.map val), ClearPulse r.u p)
    (hrabi : ∀ p ∈ pulseList (s.map val), 0 ≤ p.rabi)
    (hR : 0 < R.val) (hD : 0 < D.val) (hm : 0 ≤ m.val)
    (hw : ∀ p ∈ pulseList (s.map val), width R.val D.val m.val p ≤ s.duration.val)
    (hpass : GapsPass m (fwindows s R D m)) :
    EachGap (fun g => m.val - (1 + 8 * r.u) * (1 / 10 ^ 8 + 1 / 10 ^ 5 * m.val) -
      32 * r.u * s.duration.val ≤ g) (windows R.val D.val m.val (s.map val)) := by
  have hT : 0 < s.duration.val := (rounded_facts hs).facts.1
  have hu := r.u_nonneg
  have hu' := r.u_le
  rw [windows_paddedOps hs]
  have hchain := (gaps_chain (fun g => m.val < g.val ∨ Py.isClose g m = true) _).mp hpass
  refine isChain_map_imp hchain fun a ha b hb h => ?_
  have hw' : ∀ o ∈ paddedOps s, width R.val D.val m.val (vp o) ≤ s.duration.val := by
    intro o ho
    rcases paddedOps_mem ho with h | h | h
    · exact hw _ h
    · rw [h, width_idle]; exact hT.le
    · rw [h, width_idle]; exact hT.le
  have hnear : ∀ o ∈ paddedOps s, Near r.u s.duration.val (width R.val D.val m.val (vp o))
      (fwin s.duration R D m o) (window s.duration.val R.val D.val m.val (vp o)) := by
    intro o ho
    obtain ⟨h1, h2, h3⟩ := paddedOps_facts hs hrabi hclear ho
    exact fwin_near hT hR hD hm h1 h2 h3
  have hbd : ∀ o ∈ paddedOps s, 6 * r.u * (s.duration.val + width R.val D.val m.val (vp o)) ≤
      12 * (r.u * s.duration.val) := by
    intro o ho
    have := mul_le_mul_of_nonneg_left (hw' o ho) hu
    linarith
  have hin : ∀ o ∈ paddedOps s,
      |(window s.duration.val R.val D.val m.val (vp o)).1| ≤ 2 * s.duration.val ∧
      |(window s.duration.val R.val D.val m.val (vp o)).2| ≤ 2 * s.duration.val := by
    intro o ho
    obtain ⟨h1, -, -⟩ := paddedOps_facts hs hrabi hclear ho
    have h0 := width_nonneg hm R.val D.val (vp o)
    have h2 := hw' o ho
    have e : (vp o).offset = o.offset.val := rfl
    unfold window
    rw [e]
    split
    · constructor <;> rw [abs_le] <;> constructor <;> dsimp only <;> linarith
    · split
      · constructor <;> rw [abs_le] <;> constructor <;> dsimp only <;> linarith
      · constructor <;> rw [abs_le] <;> constructor <;> dsimp only <;> linarith [h1.1, h1.2]
  have h1 := close_lower hm h
  have h2 := abs_le.mp (hnear b hb).start
  have h3 := abs_le.mp (hnear a ha).stop
  have h4 := hbd a ha
  have h5 := hbd b hb
  have h6 := abs_le.mp (hin b hb).1
  have h7 := abs_le.mp (hin a ha).2
  have h8 : r.u * s.duration.val ≤ s.duration.val / 2 ^ 20 := by
    have := mul_le_mul_of_nonneg_right hu' hT.le
    linarith
  have h9 : |(fwin s.duration R D m b).1.val - (fwin s.duration R D m a).2.val| ≤
      5 * s.duration.val := by
    rw [abs_le]
    constructor <;> linarith
  have h10 := mul_le_mul_of_nonneg_left h9 hu
  have h11 := abs_le.mp (r.close ((fwin s.duration R D m b).1.val - (fwin s.duration R D m a).2.val))
  rw [val_sub] at h1
  dsimp only
  linarith [h11.1, h11.2]

end OpenControls
