import Verif.Proofs.Monotone

/-!
# Faster hardware never hurts, in rounded arithmetic
-/

namespace OpenControls

open Spec Fl

variable {r : Rounding} {T R D m R' D' : Fl r}

theorem hw_faster {o : Operation (Fl r)} (ho : 0 ≤ o.rabi.val) (hR : 0 < R.val) (hD : 0 < D.val)
    (hR' : R.val ≤ R'.val) (hD' : D.val ≤ D'.val) : hw R' D' m o ≤ hw R D m o := by
  have key : ∀ x y : Fl r, x.val ≤ y.val →
      (PyFloat.lit (1 / 2) * Py.pyMax x m : Fl r).val ≤
        (PyFloat.lit (1 / 2) * Py.pyMax y m : Fl r).val := by
    intro x y h
    rw [half_mul_rounded, half_mul_rounded, val_pyMax, val_pyMax]
    have := max_le_max h (le_refl m.val)
    linarith
  unfold hw halfPulseDuration
  split
  · refine key _ _ ?_
    rw [val_div, val_div]
    exact r.mono (div_le_div_of_nonneg_left ho hR hR')
  · split
    · refine key _ _ ?_
      rw [val_div, val_div, val_abs]
      exact r.mono (div_le_div_of_nonneg_left (abs_nonneg _) hD hD')
    · exact le_rfl

/-- start of the window of the last pulse -/
theorem lastWin_fst (hm : 0 ≤ m.val) {o : Operation (Fl r)} (ho : o.offset.val = T.val) :
    (lastWin T R D m o).1.val =
      r.rnd (r.rnd (T.val - hw R D m o) - r.rnd (r.rnd (T.val + hw R D m o) - T.val)) := by
  have h0 := hw_nonneg (R := R) (D := D) hm o
  have e1 : (pulseStartEnd R D m o).1.val = r.rnd (T.val - hw R D m o) := by
    show (o.offset - halfPulseDuration R D m o).val = _
    rw [val_sub, ho]; rfl
  have e2 : (pulseStartEnd R D m o).2.val = r.rnd (T.val + hw R D m o) := by
    show (o.offset + halfPulseDuration R D m o).val = _
    rw [val_add, ho]; rfl
  unfold lastWin
  dsimp only
  split
  · rw [val_sub, val_sub, e1, e2]
  · rename_i h
    rw [gt_iff, e2, not_lt] at h
    have h2 : T.val ≤ r.rnd (T.val + hw R D m o) := by
      conv_lhs => rw [← T.rnd_val]
      exact r.mono (by linarith)
    rw [le_antisymm h h2, sub_self, r.rnd_zero, sub_zero, e1, r.idem]

theorem fwin_faster (hm : 0 ≤ m.val) {o : Operation (Fl r)} (h : hw R' D' m o ≤ hw R D m o) :
    (o.offset.val ≠ 0 → (fwin T R D m o).1.val ≤ (fwin T R' D' m o).1.val) ∧
      (o.offset.val ≠ T.val → (fwin T R' D' m o).2.val ≤ (fwin T R D m o).2.val) := by
  constructor
  · intro h0
    unfold fwin
    rw [if_neg h0, if_neg h0]
    split
    · rename_i hT
      rw [lastWin_fst hm hT, lastWin_fst hm hT]
      refine r.mono (sub_le_sub (r.mono (by linarith)) (r.mono ?_))
      exact sub_le_sub_right (r.mono (by linarith)) _
    · show (o.offset - halfPulseDuration R D m o).val ≤ (o.offset - halfPulseDuration R' D' m o).val
      rw [val_sub, val_sub]
      exact r.mono (by unfold hw at h; linarith)
  · intro hT
    unfold fwin
    rw [if_neg hT, if_neg hT]
    split
    · show (halfPulseDuration R' D' m o + halfPulseDuration R' D' m o).val ≤
        (halfPulseDuration R D m o + halfPulseDuration R D m o).val
      rw [val_add, val_add]
      exact r.mono (by unfold hw at h; linarith)
    · show (o.offset + halfPulseDuration R' D' m o).val ≤ (o.offset + halfPulseDuration R D m o).val
      rw [val_add, val_add]
      exact r.mono (by unfold hw at h; linarith)

/-- a longer gap still passes the test -/
theorem gap_longer {g g' : Fl r} (hg : g.val ≤ g'.val) (h : m.val < g.val ∨ Py.isClose g m = true) :
    m.val < g'.val ∨ Py.isClose g' m = true := by
  rcases lt_or_ge m.val g'.val with h' | h'
  · exact .inl h'
  right
  rcases h with h | h
  · exact absurd (h.trans_le hg) (not_lt.mpr h')
  unfold Py.isClose Py.isCloseAtol at h ⊢
  simp only [isFinite_eq, Bool.and_self, if_true, le_iff, val_abs, val_sub] at h ⊢
  refine le_trans ?_ h
  rw [abs_of_nonpos, abs_of_nonpos]
  · exact neg_le_neg (r.mono (by linarith))
  · have := r.mono (show g.val - m.val ≤ 0 by linarith); rwa [r.rnd_zero] at this
  · have := r.mono (show g'.val - m.val ≤ 0 by linarith); rwa [r.rnd_zero] at this

theorem isChain_map_imp_lt {β γ δ : Type} {f : β → γ} {g : β → δ} {P : γ → γ → Prop}
    {Q : δ → δ → Prop} {L : β → β → Prop} {l : List β} (h : (l.map f).IsChain P)
    (hL : l.Pairwise L) (H : ∀ a ∈ l, ∀ b ∈ l, L a b → P (f a) (f b) → Q (g a) (g b)) :
    (l.map g).IsChain Q := by
  induction l with
  | nil => simp
  | cons a l ih =>
    cases l with
    | nil => simp
    | cons b l =>
      simp only [List.map_cons, List.isChain_cons_cons] at h ⊢
      have hL' := List.pairwise_cons.mp hL
      refine ⟨H a (by simp) b (by simp) (hL'.1 b (by simp)) h.1, ?_⟩
      simpa using ih (by simpa using h.2) hL'.2
        fun x hx y hy => H x (List.mem_cons_of_mem _ hx) y (List.mem_cons_of_mem _ hy)

theorem gapsPass_faster {s : Sequence (Fl r)} (hs : s.Constructed) (hR : 0 < R.val) (hD : 0 < D.val)
    (hm : 0 ≤ m.val) (hrabi : ∀ p ∈ pulseList (s.map val), 0 ≤ p.rabi)
    (hsort : (s.map val).offsets.Pairwise (· < ·)) (hR' : R.val ≤ R'.val) (hD' : D.val ≤ D'.val)
    (h : GapsPass m (fwindows s R D m)) : GapsPass m (fwindows s R' D' m) := by
  have hpw := (padded_shape hs hsort).1
  rw [← paddedOps_val, List.map_map, List.pairwise_map] at hpw
  have hT : 0 < s.duration.val := (rounded_facts hs).facts.1
  have hfacts : ∀ o ∈ paddedOps s, 0 ≤ o.rabi.val ∧ 0 ≤ o.offset.val ∧
      o.offset.val ≤ s.duration.val := by
    intro o ho
    have hmem : vp o ∈ pad s.duration.val (pulseList (s.map val)) := by
      rw [← paddedOps_val]; exact List.mem_map_of_mem ho
    have hb := pad_offsets (rounded_facts hs) (vp o) hmem
    refine ⟨?_, hb.1, hb.2⟩
    rcases pad_mem hmem with h | h | h
    · exact hrabi _ h
    · exact (congrArg Pulse.rabi h).ge
    · exact (congrArg Pulse.rabi h).ge
  refine (gaps_chain (fun g => m.val < g.val ∨ Py.isClose g m = true) _).mpr ?_
  refine isChain_map_imp_lt
    ((gaps_chain (fun g => m.val < g.val ∨ Py.isClose g m = true) _).mp h) hpw ?_
  intro a ha b hb hlt hab
  have hlt' : a.offset.val < b.offset.val := hlt
  have fa := hfacts a ha
  have fb := hfacts b hb
  refine gap_longer ?_ hab
  have e1 := (fwin_faster (T := s.duration) hm (hw_faster fa.1 hR hD hR' hD')).2
    (hlt'.trans_le fb.2.2).ne
  have e2 := (fwin_faster (T := s.duration) hm (hw_faster fb.1 hR hD hR' hD')).1
    (fa.2.1.trans_lt hlt').ne'
  rw [val_sub, val_sub]
  exact r.mono (by linarith)

end OpenControls
