import Verif.Proofs.RoundedDurations

/-!
# Conversion in rounded arithmetic of a sequence with well separated pulses
-/

namespace OpenControls

open Spec Fl

variable {r : Rounding} {R D m : Fl r}

theorem isChain_map_imp {β γ δ : Type} {f : β → γ} {g : β → δ} {P : γ → γ → Prop}
    {Q : δ → δ → Prop} {l : List β} (h : (l.map f).IsChain P)
    (H : ∀ a ∈ l, ∀ b ∈ l, P (f a) (f b) → Q (g a) (g b)) : (l.map g).IsChain Q := by
  induction l with
  | nil => simp
  | cons a l ih =>
    cases l with
    | nil => simp
    | cons b l =>
      simp only [List.map_cons, List.isChain_cons_cons] at h ⊢
      refine ⟨H a (by simp) b (by simp) h.1, ?_⟩
      have := ih h.2 fun x hx y hy => H x (by simp [hx]) y (by simp [hy])
      simpa only [List.map_cons] using this

theorem Spec.ConvertibleWith.convertible {ε R D m : ℝ} {s : Sequence ℝ} (hε : 0 ≤ ε)
    (h : ConvertibleWith ε R D m s) : Convertible R D m s := by
  obtain ⟨h1, h2, h3, h4, h5, h6, h7⟩ := h
  exact ⟨h1, h2, h3, h4, h5, h6, EachGap.mono h7 fun g hg => .inl (by linarith)⟩

/-- a pulse of a sequence whose pulses do not overlap is not longer than the sequence -/
theorem width_le_duration {R D m ε : ℝ} (hε : 0 ≤ ε) {s : Sequence ℝ} (hs : s.Constructed)
    (hc : ConvertibleWith ε R D m s) {p : Pulse} (hp : p ∈ pad s.duration (pulseList s)) :
    width R D m p ≤ s.duration := by
  obtain ⟨q, l, he, h1, h2, -⟩ := pad_cons hs (hc.convertible hε)
  have hm := hc.2.2.1
  have hgap := hc.2.2.2.2.2.2
  rw [windows_eq hs, he] at hgap
  rw [he] at hp
  have := windows_inside hm q l (EachGap.mono hgap fun g hg => by linarith) p hp
  rw [h1, h2] at this
  have hw := window_width s.duration R D m p
  linarith [this.1, this.2]

theorem windows_paddedOps {s : Sequence (Fl r)} (hs : s.Constructed) :
    windows R.val D.val m.val (s.map val) =
      (paddedOps s).map fun o => window s.duration.val R.val D.val m.val (vp o) := by
  have h := windows_eq (rounded_facts hs) R.val D.val m.val
  have e : (s.map val).duration = s.duration.val := rfl
  rw [e] at h
  rw [h, ← paddedOps_val, List.map_map]
  rfl

/-- everything about the windows of a sequence with well separated pulses -/
structure Separated (s : Sequence (Fl r)) (R D m : Fl r) : Prop where
  near : ∀ o ∈ paddedOps s, Near r.u s.duration.val (width R.val D.val m.val (vp o))
    (fwin s.duration R D m o) (window s.duration.val R.val D.val m.val (vp o))
  width_le : ∀ o ∈ paddedOps s, width R.val D.val m.val (vp o) ≤ s.duration.val
  gaps : (fwindows s R D m).IsChain fun v w => m.val < (w.1 - v.2).val
  apart : (fwindows s R D m).IsChain fun v w => -0 ≤ w.1.val - v.2.val

theorem separated {s : Sequence (Fl r)} (hs : s.Constructed)
    (hclear : ∀ p ∈ pulseList (s.map val), ClearPulse r.u p)
    (hc : ConvertibleWith (32 * r.u * s.duration.val) R.val D.val m.val (s.map val)) :
    Separated s R D m := by
  have hu := r.u_nonneg
  have hu' := r.u_le
  have hT : 0 < s.duration.val := (rounded_facts hs).facts.1
  have hw : ∀ o ∈ paddedOps s, width R.val D.val m.val (vp o) ≤ s.duration.val := by
    intro o ho
    refine width_le_duration (by positivity) (rounded_facts hs) hc ?_
    have := paddedOps_val s
    show _ ∈ pad s.duration.val _
    rw [← this]
    exact List.mem_map_of_mem ho
  obtain ⟨hR, hD, hm, hrabi, -, hsort, hgap⟩ := hc
  have hnear : ∀ o ∈ paddedOps s, Near r.u s.duration.val (width R.val D.val m.val (vp o))
      (fwin s.duration R D m o) (window s.duration.val R.val D.val m.val (vp o)) := by
    intro o ho
    obtain ⟨h1, h2, h3⟩ := paddedOps_facts hs hrabi hclear ho
    exact fwin_near hT hR hD hm h1 h2 h3
  rw [windows_paddedOps hs] at hgap
  have hb : ∀ o ∈ paddedOps s, 6 * r.u * (s.duration.val + width R.val D.val m.val (vp o)) ≤
      12 * (r.u * s.duration.val) := by
    intro o ho
    have := mul_le_mul_of_nonneg_left (hw o ho) hu
    linarith
  have hin : ∀ o ∈ paddedOps s, 0 ≤ (window s.duration.val R.val D.val m.val (vp o)).2 := by
    intro o ho
    obtain ⟨h1, -, -⟩ := paddedOps_facts hs hrabi hclear ho
    have h0 := width_nonneg hm R.val D.val (vp o)
    have e : (vp o).offset = o.offset.val := rfl
    unfold window
    rw [e]
    split
    · exact h0
    · split
      · exact hT.le
      · show 0 ≤ _ + _; linarith [h1.1]
  have hin' : ∀ o ∈ paddedOps s,
      (window s.duration.val R.val D.val m.val (vp o)).1 ≤ s.duration.val := by
    intro o ho
    obtain ⟨h1, -, -⟩ := paddedOps_facts hs hrabi hclear ho
    have h0 := width_nonneg hm R.val D.val (vp o)
    have e : (vp o).offset = o.offset.val := rfl
    unfold window
    rw [e]
    split
    · exact hT.le
    · split
      · show _ - _ ≤ _; linarith
      · show _ - _ ≤ _; linarith [h1.2]
  have hx : ∀ a ∈ paddedOps s, ∀ b ∈ paddedOps s,
      m.val + 32 * r.u * s.duration.val < (window s.duration.val R.val D.val m.val (vp b)).1 -
        (window s.duration.val R.val D.val m.val (vp a)).2 →
      m.val + 8 * (r.u * s.duration.val) <
        (fwin s.duration R D m b).1.val - (fwin s.duration R D m a).2.val ∧
      (fwin s.duration R D m b).1.val - (fwin s.duration R D m a).2.val ≤ 2 * s.duration.val := by
    intro a ha b hb' h
    have h1 := abs_le.mp (hnear b hb').start
    have h2 := abs_le.mp (hnear a ha).stop
    have h3 := hb a ha
    have h4 := hb b hb'
    have h5 := hin a ha
    have h6 := hin' b hb'
    have h7 : r.u * s.duration.val ≤ s.duration.val / 2 ^ 20 := by
      have := mul_le_mul_of_nonneg_right hu' hT.le
      linarith
    constructor
    · linarith [h1.1, h1.2, h2.1, h2.2]
    · linarith [h1.1, h1.2, h2.1, h2.2]
  refine ⟨hnear, hw, isChain_map_imp hgap fun a ha b hb' h => ?_,
    isChain_map_imp hgap fun a ha b hb' h => ?_⟩
  · obtain ⟨h1, h2⟩ := hx a ha b hb' h
    rw [val_sub]
    have hut : 0 ≤ r.u * s.duration.val := by positivity
    have h3 := (abs_le.mp (r.close ((fwin s.duration R D m b).1.val -
      (fwin s.duration R D m a).2.val))).1
    rw [abs_of_nonneg (by linarith)] at h3
    have h4 := mul_le_mul_of_nonneg_left h2 hu
    linarith
  · obtain ⟨h1, -⟩ := hx a ha b hb' h
    have hut : 0 ≤ r.u * s.duration.val := by positivity
    rw [neg_zero]
    linarith

/-- A window is not empty if the pulse is long enough. -/
theorem window_not_empty {T w u : ℝ} (hT : 0 < T) (hu : 0 ≤ u) (hu' : u ≤ 1 / 2 ^ 20)
    {W : Fl r × Fl r} {v : ℝ × ℝ} (hv : v.2 - v.1 = w) (h : Near u T w W v) (hw : 16 * u * T < w) :
    0 < W.2.val - W.1.val := by
  have h1 := abs_le.mp h.start
  have h2 := abs_le.mp h.stop
  have hw0 : 0 < w := lt_of_le_of_lt (by positivity) hw
  have h3 : u * w ≤ w / 2 ^ 20 := by
    have := mul_le_mul_of_nonneg_right hu' hw0.le
    linarith
  linarith [h1.1, h1.2, h2.1, h2.2]

theorem rounded_evolution {s : Sequence (Fl r)} (hs : s.Constructed)
    (hclear : ∀ p ∈ pulseList (s.map val), ClearPulse r.u p)
    (hR : 0 < R.val) (hD : 0 < D.val) (hm : 0 ≤ m.val)
    (hrabi : ∀ p ∈ pulseList (s.map val), 0 ≤ p.rabi)
    (hwide : ∀ p ∈ pulseList (s.map val), Rotates p →
      16 * r.u * s.duration.val < width R.val D.val m.val p) (name : Option String) :
    PerformsWithin (r.u / 2 * turning (pulseList (s.map val)))
      (ofRounded (takesTime (buildSegments (pairs s R D m))) name)
      (productOf ((pulseList (s.map val)).map effective)) := by
  have hT : 0 < s.duration.val := (rounded_facts hs).facts.1
  have key := evolution_pairs (pairs s R D m) (by
      intro x hx
      obtain ⟨o, ho, rfl⟩ := List.mem_map.mp hx
      exact (paddedOps_facts hs hrabi hclear ho).2.1) (by
      intro x hx hrot
      obtain ⟨o, ho, rfl⟩ := List.mem_map.mp hx
      obtain ⟨h1, h2, h3⟩ := paddedOps_facts hs hrabi hclear ho
      rw [val_sub, rnd_pos]
      refine window_not_empty hT r.u_nonneg r.u_le (window_width _ _ _ _ _)
        (fwin_near hT hR hD hm h1 h2 h3) ?_
      rcases paddedOps_mem ho with h | h | h
      · exact hwide _ h hrot
      · exfalso
        dsimp only at hrot
        rw [h] at hrot
        exact hrot (by simp [idlePulse, Negligible])
      · exfalso
        dsimp only at hrot
        rw [h] at hrot
        exact hrot (by simp [idlePulse, Negligible])) name
  have e1 : (pairs s R D m).map (fun x => vp x.1) = pad s.duration.val (pulseList (s.map val)) := by
    rw [← paddedOps_val]
    unfold pairs
    rw [List.map_map]; rfl
  have e2 : ((pairs s R D m).map fun x => turn (vp x.1)).sum = turning (pulseList (s.map val)) := by
    have : (pairs s R D m).map (fun x => turn (vp x.1)) =
        ((pairs s R D m).map fun x => vp x.1).map turn := by rw [List.map_map]; rfl
    rw [this, e1]
    have h0 : ∀ (c : Prop) [Decidable c] (t : ℝ),
        ((if c then [] else [idlePulse t]).map turn).sum = 0 := by
      intro c _ t
      split
      · rfl
      · have := (realised_nothing (p := idlePulse t) (by simp [idlePulse, Negligible])
          (by simp [idlePulse, Negligible])).2
        simp [this]
    unfold pad turning
    rw [List.map_append, List.map_append, List.sum_append, List.sum_append, h0, h0, zero_add,
      add_zero]
    rfl
  rw [e1, e2, realisedProduct_pad, realisedProduct_effective] at key
  intro i j
  exact (entry_le_norm _ i j).trans key

end OpenControls
