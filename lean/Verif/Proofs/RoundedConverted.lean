import Verif.Proofs.RoundedWindows

/-!
# The result of the conversion in rounded arithmetic
-/

namespace OpenControls

open Spec Fl

variable {r : Rounding} {T R D m : Fl r}

theorem npDiff_any_rounded (l : List (Fl r)) :
    (!(Py.npDiff l).any (fun d => PyFloat.le d (PyFloat.lit 0))) = true ↔
      (l.map val).Pairwise (· < ·) := by
  rw [← List.isChain_iff_pairwise]
  induction l with
  | nil => simp [Py.npDiff]
  | cons a l ih =>
    cases l with
    | nil => simp [Py.npDiff]
    | cons b l =>
      rw [List.map_cons, List.map_cons, List.isChain_cons_cons, ← List.map_cons, ← ih]
      simp only [Py.npDiff, List.any_cons, Bool.not_or, Bool.and_eq_true]
      refine and_congr ?_ Iff.rfl
      rw [Bool.not_eq_true', ← Bool.not_eq_true, le_iff, val_lit_zero, not_le, val_sub, rnd_pos,
        sub_pos]

theorem checkValidOperation_rounded (s : Sequence (Fl r)) :
    checkValidOperation s.rabiRotations s.detuningRotations = true ↔
      checkValidOperation (s.map val).rabiRotations (s.map val).detuningRotations = true := by
  unfold checkValidOperation
  have e : List.zipWith (fun r d => Py.gt r (PyFloat.lit 0) && Py.gt d (PyFloat.lit 0))
      (s.map val).rabiRotations (s.map val).detuningRotations =
      List.zipWith (fun r d => Py.gt r (PyFloat.lit 0) && Py.gt d (PyFloat.lit 0))
      s.rabiRotations s.detuningRotations := by
    show List.zipWith _ (s.rabiRotations.map val) (s.detuningRotations.map val) = _
    rw [List.zipWith_map]
    congr 1
    funext x y
    have : ∀ z : Fl r, Py.gt z.val (PyFloat.lit 0) = Py.gt z (PyFloat.lit 0) := by
      intro z
      rw [Bool.eq_iff_iff, gt_iff, RealInst.gt_iff, val_lit_zero]; simp
    rw [this, this]
  rw [e]

/-- every gap passes the test of the minimum duration -/
def GapsPass (m : Fl r) (ws : List (Fl r × Fl r)) : Prop :=
  ∀ g ∈ gapDurations ws, m.val < g.val ∨ Py.isClose g m = true

/-- all windows are at time 0, up to the tolerance -/
def AllClose (ws : List (Fl r × Fl r)) : Prop :=
  ∀ w ∈ ws, |w.1.val| ≤ r.rnd (1 / 10 ^ 8) ∧ |w.2.val| ≤ r.rnd (1 / 10 ^ 8)

/-- the windows of a sequence -/
noncomputable def fwindows (s : Sequence (Fl r)) (R D m : Fl r) : List (Fl r × Fl r) :=
  (paddedOps s).map (fwin s.duration R D m)

/-- the operations of a sequence with their windows -/
noncomputable def pairs (s : Sequence (Fl r)) (R D m : Fl r) :
    List (Operation (Fl r) × (Fl r × Fl r)) :=
  (paddedOps s).map fun o => (o, fwin s.duration R D m o)

theorem zip_fwindows (s : Sequence (Fl r)) (R D m : Fl r) :
    (paddedOps s).zip (fwindows s R D m) = pairs s R D m := by
  unfold fwindows pairs
  generalize paddedOps s = l
  induction l with
  | nil => rfl
  | cons a l ih => simp [ih]

theorem new_ofRounded {gs : List (Segment (Fl r))} (hd : ∀ g ∈ gs, 0 < g.duration.val)
    (hr : ∀ g ∈ gs, 0 ≤ g.rabi.val) (name : Option String) :
    DrivenControl.new (gs.map Segment.duration) (some (gs.map Segment.rabi))
      (some (gs.map Segment.azimuthal)) (some (gs.map Segment.detuning)) name =
      .ok (ofRounded gs name) := by
  rw [DrivenControl.new_eq, if_pos (by simpa using hd), if_pos (by simp), if_pos (by simpa using hr)]
  rfl

theorem mem_buildSegments {L : List (Operation (Fl r) × (Fl r × Fl r))} {g : Segment (Fl r)}
    (h : g ∈ buildSegments L) :
    (∃ x ∈ L, g = pulseSegment x.1 x.2) ∨ ∃ d, g = ⟨PyFloat.lit 0, PyFloat.lit 0, PyFloat.lit 0, d⟩ := by
  induction L with
  | nil => simp [buildSegments] at h
  | cons x L ih =>
    obtain ⟨o, w⟩ := x
    cases L with
    | nil =>
      simp only [buildSegments, List.mem_cons, List.not_mem_nil, or_false] at h
      rcases h with rfl | rfl
      · exact .inl ⟨(o, w), by simp, rfl⟩
      · exact .inr ⟨_, rfl⟩
    | cons y L =>
      obtain ⟨o', w'⟩ := y
      simp only [buildSegments, List.mem_cons] at h
      rcases h with rfl | rfl | h
      · exact .inl ⟨(o, w), by simp, rfl⟩
      · exact .inr ⟨_, rfl⟩
      · rcases ih h with ⟨x, h1, h2⟩ | h
        · exact .inl ⟨x, by simp [h1], h2⟩
        · exact .inr h

theorem pulseSegment_rabi_nonneg {o : Operation (Fl r)} (h : 0 ≤ o.rabi.val) (w : Fl r × Fl r) :
    0 ≤ (pulseSegment o w).rabi.val := by
  unfold pulseSegment
  dsimp only
  split
  · rename_i hg
    rw [gt_iff, val_lit_zero] at hg
    split
    · rw [val_div]; exact r.rnd_nonneg (div_nonneg h hg.le)
    · split <;> exact val_lit_zero.ge
  · exact val_lit_zero.ge

theorem paddedOps_mem {s : Sequence (Fl r)} {o : Operation (Fl r)} (h : o ∈ paddedOps s) :
    vp o ∈ pulseList (s.map val) ∨ vp o = idlePulse 0 ∨ vp o = idlePulse s.duration.val := by
  have : vp o ∈ pad s.duration.val (pulseList (s.map val)) := by
    rw [← paddedOps_val]; exact List.mem_map_of_mem h
  exact pad_mem this

/-- Exactly when the conversion returns in rounded arithmetic, and what. -/
theorem convertDDS_rounded {s : Sequence (Fl r)} (hs : s.Constructed) (R D m : Fl r)
    (name : Option String) :
    Returns (convertDDS s R D m name)
      (0 < D.val ∧ 0 < R.val ∧ 0 ≤ m.val ∧ (∀ p ∈ pulseList (s.map val), 0 ≤ p.rabi) ∧
        (∀ p ∈ pulseList (s.map val), ¬ (0 < p.rabi ∧ 0 < p.detuning)) ∧
        (s.map val).offsets.Pairwise (· < ·) ∧ GapsPass m (fwindows s R D m))
      fun c =>
        (AllClose (fwindows s R D m) ∧ c = ofRounded
          [⟨PyFloat.lit 0, PyFloat.lit 0, PyFloat.lit 0, s.duration⟩] name) ∨
        (¬ AllClose (fwindows s R D m) ∧
          c = ofRounded (takesTime (buildSegments (pairs s R D m))) name) := by
  obtain ⟨hT, hb, hr, ha, hd⟩ := (rounded_facts hs).facts
  have ho := pulseList_offsets (s.map val) hr ha hd
  obtain ⟨hcr, hca, hcd⟩ := pulseList_columns (s.map val) hr ha hd
  have hT' : 0 < s.duration.val := hT
  rw [convertDDS_eq]
  have hops : padOperations s.duration (operationsOf s.offsets s.rabiRotations s.azimuthalAngles
      s.detuningRotations) = paddedOps s := rfl
  simp only [hops]
  refine Returns.congr (P := 0 < D.val ∧ 0 < R.val ∧ 0 ≤ m.val ∧
      (∀ p ∈ pulseList (s.map val), 0 ≤ p.rabi) ∧
      (∀ p ∈ pulseList (s.map val), ¬ (0 < p.rabi ∧ 0 < p.detuning)) ∧
      (s.map val).offsets.Pairwise (· < ·) ∧ GapsPass m (fwindows s R D m) ∧ True)
    (Returns.check (by simp) fun hD => Returns.check (by simp) fun hR =>
      Returns.check (by simp) fun hm => Returns.check ?_ fun hrabi => Returns.check ?_ fun hboth =>
      Returns.check ?_ fun hsort => Returns.check ?_ fun hgap => Returns.last ?_) (by simp)
  · have : (∀ p ∈ pulseList (s.map val), 0 ≤ p.rabi) ↔ ∀ x ∈ (s.map val).rabiRotations, 0 ≤ x := by
      rw [← hcr]; simp
    rw [this]
    show _ ↔ ∀ x ∈ s.rabiRotations.map val, 0 ≤ x
    simp
  · rw [checkValidOperation_rounded, ← hcr, ← hcd]; exact checkValidOperation_iff _
  · rw [npDiff_any_rounded]
    have e : ((paddedOps s).map Operation.offset).map val =
        (pad s.duration.val (pulseList (s.map val))).map Pulse.offset := by
      rw [← paddedOps_val, List.map_map, List.map_map]; rfl
    rw [e]
    constructor
    · intro h
      exact h.sublist (l₁ := (s.map val).offsets) (by
        rw [← ho]; apply List.Sublist.map
        unfold pad
        exact (List.sublist_append_right _ _).trans (List.sublist_append_left _ _))
    · intro h
      exact (padded_shape hs h).1
  · obtain ⟨-, a, mid, b, hpad⟩ := padded_shape hs hsort
    rw [startEnds_rounded hT' hm hpad]
    unfold GapsPass fwindows
    rw [List.all_eq_true]
    simp only [Bool.or_eq_true, gt_iff]
  · obtain ⟨-, a, mid, b, hpad⟩ := padded_shape hs hsort
    rw [startEnds_rounded hT' hm hpad]
    change ∃ c, (if (fwindows s R D m).all (fun p => Py.isClose p.1 (PyFloat.lit 0) &&
      Py.isClose p.2 (PyFloat.lit 0)) = true then _ else _) = _ ∧ _
    have hsmall : ((fwindows s R D m).all fun p => Py.isClose p.1 (PyFloat.lit 0) &&
        Py.isClose p.2 (PyFloat.lit 0)) = true ↔ AllClose (fwindows s R D m) := by
      rw [List.all_eq_true]
      unfold AllClose
      simp only [Bool.and_eq_true, isClose_zero_rounded]
    by_cases h : AllClose (fwindows s R D m)
    · rw [if_pos (hsmall.mpr h)]
      refine ⟨_, new_ofRounded (gs := [⟨PyFloat.lit 0, PyFloat.lit 0, PyFloat.lit 0, s.duration⟩])
        ?_ ?_ name, .inl ⟨h, rfl⟩⟩
      · intro g hg
        rw [List.mem_singleton] at hg
        subst hg; exact hT'
      · intro g hg
        rw [List.mem_singleton] at hg
        subst hg; exact val_lit_zero.ge
    · rw [if_neg fun h' => h (hsmall.mp h')]
      have ez := zip_fwindows s R D m
      unfold fwindows at ez
      rw [ez]
      refine ⟨_, new_ofRounded (gs := takesTime (buildSegments (pairs s R D m))) ?_ ?_ name,
        .inr ⟨h, rfl⟩⟩
      · intro g hg
        have := (List.mem_filter.mp hg).2
        rwa [gt_iff, val_lit_zero] at this
      · intro g hg
        rcases mem_buildSegments (List.mem_filter.mp hg).1 with ⟨x, hx, rfl⟩ | ⟨d, rfl⟩
        · apply pulseSegment_rabi_nonneg
          obtain ⟨o, ho', rfl⟩ := List.mem_map.mp hx
          have : 0 ≤ (vp o).rabi := by
            rcases paddedOps_mem ho' with h | h | h
            · exact hrabi _ h
            · rw [h]; exact le_rfl
            · rw [h]; exact le_rfl
          exact this
        · exact val_lit_zero.ge

/-! ## The last window -/

theorem Padded.last_mem {ops : List (Operation (Fl r))} {a b : Operation (Fl r)}
    {mid : List (Operation (Fl r))} (h : Padded T ops a mid b) : b ∈ ops := by rw [h.eq]; simp

theorem fwin_last (hT : 0 < T.val) {b : Operation (Fl r)} (hb : b.offset.val = T.val) :
    fwin T R D m b = lastWin T R D m b := by
  unfold fwin
  rw [if_neg (by rw [hb]; exact hT.ne'), if_pos hb]

/-- A window that starts no earlier than a little before 0 is not longer than the sequence. -/
theorem last_half_le (hT : 2 / 10 ^ 8 ≤ T.val) (hm : 0 ≤ m.val) {b : Operation (Fl r)}
    (hb : b.offset.val = T.val) (h : -(12 / 10 ^ 9) ≤ (lastWin T R D m b).1.val) :
    hw R D m b ≤ T.val := by
  obtain ⟨h1, -, -⟩ := lastWin_near (R := R) (D := D) (by norm_num at hT ⊢; linarith) hm hb
  have hh := hw_nonneg (R := R) (D := D) hm b
  have hu := r.u_le
  have hT0 : 0 < T.val := by norm_num at hT ⊢; linarith
  have := mul_le_mul_of_nonneg_right hu (show 0 ≤ T.val + hw R D m b by linarith)
  rw [abs_le] at h1
  norm_num at hT h this ⊢
  linarith [h1.1, h1.2]

theorem not_allClose {s : Sequence (Fl r)} (hs : s.Constructed) (hT : 2 / 10 ^ 8 ≤ s.duration.val)
    (hm : 0 ≤ m.val) (hsort : (s.map val).offsets.Pairwise (· < ·)) :
    ¬ AllClose (fwindows s R D m) := by
  intro h
  obtain ⟨-, a, mid, b, hpad⟩ := padded_shape hs hsort
  have hT0 : 0 < s.duration.val := by norm_num at hT ⊢; linarith
  have hb := h (fwin s.duration R D m b) (List.mem_map_of_mem hpad.last_mem)
  rw [fwin_last hT0 hpad.last] at hb
  have htol := (tolerance_bounds (r := r)).2
  have hu := r.u_le
  have hu0 := r.u_nonneg
  obtain ⟨h1, h2, -⟩ := lastWin_near (R := R) (D := D) hT0 hm hpad.last
  have hh := hw_nonneg (R := R) (D := D) hm b
  have hle : hw R D m b ≤ s.duration.val := by
    apply last_half_le hT hm hpad.last
    have := (abs_le.mp hb.1).1
    norm_num at htol hu this ⊢
    linarith
  have := mul_le_mul_of_nonneg_right hu (show 0 ≤ s.duration.val + hw R D m b by linarith)
  have h3 := (abs_le.mp hb.2).2
  rw [abs_le] at h2
  norm_num at hT htol hu this h3 ⊢
  linarith [h2.1, h2.2]

end OpenControls
