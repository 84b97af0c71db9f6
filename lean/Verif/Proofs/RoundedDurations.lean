import Verif.Proofs.RoundedConverted

/-!
# Durations and rates of a control converted in rounded arithmetic
-/

namespace OpenControls

open Spec Fl

variable {r : Rounding} {T R D m : Fl r}

/-! ## Elementary bounds -/

theorem rnd_lower {y c : ℝ} (hc : 0 ≤ c) (h : -c ≤ r.rnd y) : -((1 + 2 * r.u) * c) ≤ y := by
  have hu := r.u_nonneg
  have hu' := r.u_le
  rcases le_or_gt 0 y with hy | hy
  · have : 0 ≤ (1 + 2 * r.u) * c := by positivity
    linarith
  · have h1 := (abs_le.mp (r.close y)).2
    rw [abs_of_neg hy] at h1
    have h2 : -c ≤ y * (1 - r.u) := by linarith
    have h3 : 1 ≤ (1 + 2 * r.u) * (1 - r.u) := by
      norm_num at hu'; nlinarith
    by_contra hlt
    push Not at hlt
    have h4 : y * (1 - r.u) < -((1 + 2 * r.u) * c) * (1 - r.u) :=
      mul_lt_mul_of_pos_right hlt (by norm_num at hu'; linarith)
    have h5 : c * 1 ≤ c * ((1 + 2 * r.u) * (1 - r.u)) := mul_le_mul_of_nonneg_left h3 hc
    nlinarith

theorem rnd_upper {y c : ℝ} (hc : 0 ≤ c) (h : y ≤ c) : r.rnd y ≤ (1 + r.u) * c := by
  have h1 := r.mono h
  have h2 := (abs_le.mp (r.close c)).2
  rw [abs_of_nonneg hc] at h2
  linarith

theorem close_lower {g : Fl r} (hm : 0 ≤ m.val) (h : m.val < g.val ∨ Py.isClose g m = true) :
    m.val - (1 + 8 * r.u) * (1 / 10 ^ 8 + 1 / 10 ^ 5 * m.val) ≤ g.val := by
  have hu := r.u_nonneg
  have hu' := r.u_le
  rcases h with h | h
  · have : 0 ≤ (1 + 8 * r.u) * (1 / 10 ^ 8 + 1 / 10 ^ 5 * m.val) := by positivity
    linarith
  · rw [isClose_eq, abs_of_nonneg hm] at h
    have e1 : (1 / 100000000 : ℝ) = 1 / 10 ^ 8 := by norm_num
    have e2 : (1 / 100000 : ℝ) = 1 / 10 ^ 5 := by norm_num
    rw [e1, e2] at h
    have k1 : r.rnd (1 / 10 ^ 8) ≤ (1 + r.u) * (1 / 10 ^ 8) := rnd_upper (by positivity) le_rfl
    have k2 : r.rnd (1 / 10 ^ 5) ≤ (1 + r.u) * (1 / 10 ^ 5) := rnd_upper (by positivity) le_rfl
    have k3 : r.rnd (r.rnd (1 / 10 ^ 5) * m.val) ≤ (1 + r.u) * ((1 + r.u) * (1 / 10 ^ 5) * m.val) :=
      rnd_upper (by positivity) (mul_le_mul_of_nonneg_right k2 hm)
    set X : ℝ := 1 / 10 ^ 8
    set Y : ℝ := 1 / 10 ^ 5 * m.val
    have hX : 0 ≤ X := by positivity
    have hY : 0 ≤ Y := by positivity
    have k4 : (1 + r.u) * ((1 + r.u) * (1 / 10 ^ 5) * m.val) = (1 + r.u) * ((1 + r.u) * Y) := by
      simp only [Y]; ring
    rw [k4] at k3
    have hq : (1 + r.u) * ((1 + r.u) * Y) ≤ (1 + 3 * r.u) * Y := by
      rw [← mul_assoc]
      apply mul_le_mul_of_nonneg_right _ hY
      norm_num at hu'; nlinarith
    have k5 := rnd_upper (r := r) (y := r.rnd X + r.rnd (r.rnd (1 / 10 ^ 5) * m.val))
      (c := (1 + 3 * r.u) * (X + Y)) (by positivity) (by
        have h1 := add_le_add k1 (k3.trans hq)
        have h2 : 0 ≤ r.u * X := by positivity
        clear_value X Y
        linarith)
    have k6 : (1 + r.u) * ((1 + 3 * r.u) * (X + Y)) ≤ (1 + 5 * r.u) * (X + Y) := by
      rw [← mul_assoc]
      apply mul_le_mul_of_nonneg_right _ (by positivity)
      norm_num at hu'; nlinarith
    have k7 : -((1 + 5 * r.u) * (X + Y)) ≤ r.rnd (g.val - m.val) := by
      have := (abs_le.mp (h.trans (k5.trans k6))).1
      linarith
    have k8 := rnd_lower (by positivity) k7
    have k9 : (1 + 2 * r.u) * ((1 + 5 * r.u) * (X + Y)) ≤ (1 + 8 * r.u) * (X + Y) := by
      rw [← mul_assoc]
      apply mul_le_mul_of_nonneg_right _ (by positivity)
      norm_num at hu'; nlinarith
    linarith

/-- A gap that passes the test is at least the minimum, up to the tolerance of `numpy`. -/
theorem gap_lower {a b : Fl r} (hm : 0 ≤ m.val)
    (h : m.val < (a - b).val ∨ Py.isClose (a - b) m = true) :
    -(101 / 10 ^ 10) ≤ a.val - b.val := by
  have h1 := close_lower hm h
  have hu := r.u_nonneg
  have hu' := r.u_le
  have h2 : -(1005 / 10 ^ 11) ≤ r.rnd (a.val - b.val) := by
    rw [val_sub] at h1
    have : (1 + 8 * r.u) * (1 / 10 ^ 5 * m.val) ≤ m.val := by
      have : (1 + 8 * r.u) * (1 / 10 ^ 5) ≤ 1 := by norm_num at hu' ⊢; linarith
      nlinarith
    have h3 : (1 + 8 * r.u) * (1 / 10 ^ 8) ≤ 1005 / 10 ^ 11 := by norm_num at hu' ⊢; linarith
    linarith
  have h3 := rnd_lower (by norm_num) h2
  have h4 : (1 + 2 * r.u) * (1005 / 10 ^ 11) ≤ 101 / 10 ^ 10 := by norm_num at hu' ⊢; linarith
  linarith

theorem gaps_chain (P : Fl r → Prop) (ws : List (Fl r × Fl r)) :
    (∀ g ∈ gapDurations ws, P g) ↔ ws.IsChain fun v w => P (w.1 - v.2) := by
  induction ws with
  | nil => simp [gapDurations]
  | cons a l ih =>
    cases l with
    | nil => simp [gapDurations]
    | cons b l =>
      rw [List.isChain_cons_cons, ← ih]
      simp [gapDurations]

/-! ## Total duration -/

/-- the total duration of segments -/
noncomputable def totalR (gs : List (Segment (Fl r))) : ℝ := (gs.map fun g => g.duration.val).sum

theorem totalR_takesTime (g : Segment (Fl r)) (gs : List (Segment (Fl r))) :
    totalR (takesTime (g :: gs)) = max g.duration.val 0 + totalR (takesTime gs) := by
  unfold takesTime totalR
  by_cases h : 0 < g.duration.val
  · rw [List.filter_cons_of_pos (by rw [gt_iff, val_lit_zero]; exact h), max_eq_left h.le]
    simp
  · rw [List.filter_cons_of_neg (by rw [gt_iff, val_lit_zero]; exact h),
      max_eq_right (not_lt.mp h), zero_add]

theorem pulseSegment_duration (o : Operation (Fl r)) (w : Fl r × Fl r) :
    (pulseSegment o w).duration = w.2 - w.1 := by
  unfold pulseSegment
  dsimp only
  split
  · split
    · rfl
    · split <;> rfl
  · rfl

theorem max_rnd_bounds (x : ℝ) :
    (1 - r.u) * max x 0 ≤ max (r.rnd x) 0 ∧ max (r.rnd x) 0 ≤ (1 + r.u) * max x 0 := by
  have hu := r.u_nonneg
  rcases le_or_gt 0 x with h | h
  · have h1 := r.rnd_nonneg h
    have h2 := abs_le.mp (r.close x)
    rw [abs_of_nonneg h] at h2
    rw [max_eq_left h, max_eq_left h1]
    constructor <;> linarith [h2.1, h2.2]
  · have h1 : r.rnd x ≤ 0 := by have := r.mono h.le; rwa [r.rnd_zero] at this
    rw [max_eq_right h.le, max_eq_right h1]
    simp

/-- The total duration of the segments built from windows that overlap by at most `ε`. -/
theorem total_pairs {ε : ℝ} (hε : 0 ≤ ε) (x : Operation (Fl r) × (Fl r × Fl r))
    (L : List (Operation (Fl r) × (Fl r × Fl r)))
    (ho : ∀ y ∈ x :: L, y.2.1.val ≤ y.2.2.val)
    (hg : ((x :: L).map Prod.snd).IsChain fun v w => -ε ≤ w.1.val - v.2.val) :
    (1 - r.u) * (((x :: L).getLast (by simp)).2.2.val - x.2.1.val) ≤
      totalR (takesTime (buildSegments (x :: L))) ∧
    totalR (takesTime (buildSegments (x :: L))) ≤
      (1 + r.u) * (((x :: L).getLast (by simp)).2.2.val - x.2.1.val + L.length * ε) := by
  have hu := r.u_nonneg
  have hu' := r.u_le
  induction L generalizing x with
  | nil =>
    obtain ⟨o, w⟩ := x
    simp only [buildSegments, List.getLast_singleton]
    rw [totalR_takesTime, totalR_takesTime, pulseSegment_duration]
    have hw := ho (o, w) (by simp)
    have h := max_rnd_bounds (r := r) (w.2.val - w.1.val)
    rw [max_eq_left (a := w.2.val - w.1.val) (by simpa using hw)] at h
    rw [val_lit_zero, max_self, val_sub]
    simp only [takesTime, List.filter_nil, totalR, List.map_nil, List.sum_nil, List.length_nil,
      Nat.cast_zero, zero_mul, add_zero]
    exact h
  | cons y L ih =>
    obtain ⟨o, w⟩ := x
    obtain ⟨o', w'⟩ := y
    simp only [List.map_cons, List.isChain_cons_cons] at hg
    have ih := ih (o', w') (fun y hy => ho y (by simp only [List.mem_cons] at hy ⊢; tauto)) (by
      simpa only [List.map_cons] using hg.2)
    simp only [buildSegments]
    rw [totalR_takesTime, totalR_takesTime, pulseSegment_duration, List.getLast_cons (by simp)]
    set Z := totalR (takesTime (buildSegments ((o', w') :: L)))
    set e := (((o', w') :: L).getLast (by simp)).2.2.val
    have hw := ho (o, w) (by simp)
    dsimp only at hw ih hg ⊢
    have h := max_rnd_bounds (r := r) (w.2.val - w.1.val)
    rw [max_eq_left (a := w.2.val - w.1.val) (by linarith)] at h
    have h2 := max_rnd_bounds (r := r) (w'.1.val - w.2.val)
    rw [val_sub, val_sub]
    have hmax : max (w'.1.val - w.2.val) 0 ≤ w'.1.val - w.2.val + ε :=
      max_le (by linarith) (by linarith [hg.1])
    have hmax' : w'.1.val - w.2.val ≤ max (w'.1.val - w.2.val) 0 := le_max_left _ _
    have m1 := mul_le_mul_of_nonneg_left hmax' (show 0 ≤ 1 - r.u by norm_num at hu'; linarith)
    have m2 := mul_le_mul_of_nonneg_left hmax (show 0 ≤ 1 + r.u by linarith)
    rw [List.length_cons]
    push_cast
    constructor
    · linarith [h.1, h2.1, ih.1]
    · linarith [h.2, h2.2, ih.2]

theorem totalR_control (gs : List (Segment (Fl r))) (name : Option String) :
    ((ofRounded gs name).map val).durations.sum = totalR gs := by
  simp [ofRounded, DrivenControl.map, totalR, Function.comp_def]

/-! ## All windows of a sequence -/

theorem paddedOps_facts {s : Sequence (Fl r)} (hs : s.Constructed)
    (hrabi : ∀ p ∈ pulseList (s.map val), 0 ≤ p.rabi)
    (hclear : ∀ p ∈ pulseList (s.map val), ClearPulse r.u p) {o : Operation (Fl r)}
    (ho : o ∈ paddedOps s) :
    (0 ≤ o.offset.val ∧ o.offset.val ≤ s.duration.val) ∧ ClearPulse r.u (vp o) ∧
      0 ≤ (vp o).rabi := by
  obtain ⟨hT, hb, hr, ha, hd⟩ := (rounded_facts hs).facts
  have hoff := pulseList_offsets (s.map val) hr ha hd
  have h0 : Clear r.u 0 := by
    left
    have := r.u_le
    rw [abs_zero]
    apply div_nonneg _ (by positivity)
    norm_num at this; linarith
  have hT' : 0 < s.duration.val := hT
  have e : (vp o).offset = o.offset.val := rfl
  rcases paddedOps_mem ho with h | h | h
  · refine ⟨?_, hclear _ h, hrabi _ h⟩
    exact hb _ (hoff ▸ List.mem_map_of_mem (f := Pulse.offset) h)
  · rw [← e, h]
    exact ⟨⟨le_rfl, hT'.le⟩, ⟨h0, h0⟩, le_rfl⟩
  · rw [← e, h]
    exact ⟨⟨hT'.le, le_rfl⟩, ⟨h0, h0⟩, le_rfl⟩

theorem fwin_order (hT : 0 < T.val) (hm : 0 ≤ m.val) (o : Operation (Fl r)) :
    (fwin T R D m o).1.val ≤ (fwin T R D m o).2.val := by
  have hh := hw_nonneg (R := R) (D := D) hm o
  unfold fwin
  split
  · rw [val_lit_zero, val_add]
    exact r.rnd_nonneg (by unfold hw at hh; linarith)
  · split
    · rename_i h; exact (lastWin_near hT hm h).2.2
    · unfold pulseStartEnd
      simp only [val_sub, val_add]
      exact r.mono (by unfold hw at hh; linarith)

/-- a window other than the last ends at a positive time -/
theorem fwin_stop_nonneg (hm : 0 ≤ m.val) {o : Operation (Fl r)} (ho : 0 ≤ o.offset.val)
    (h : o.offset.val ≠ T.val) : 0 ≤ (fwin T R D m o).2.val := by
  have hh := hw_nonneg (R := R) (D := D) hm o
  unfold fwin
  split
  · rw [val_add]
    exact r.rnd_nonneg (by unfold hw at hh; linarith)
  · unfold pulseStartEnd
    rw [val_add]
    exact r.rnd_nonneg (by unfold hw at hh; linarith)

theorem isChain_append_last {β : Type} {Q : β → β → Prop} {l : List β} {x y : β}
    (h : (l ++ [x, y]).IsChain Q) : Q x y := by
  induction l with
  | nil => simpa using h
  | cons a l ih => exact ih h.tail

/-- The total duration of a converted control. -/
theorem rounded_duration {s : Sequence (Fl r)} (hs : s.Constructed)
    (hT : 2 / 10 ^ 8 ≤ s.duration.val) (hm : 0 ≤ m.val)
    (hsort : (s.map val).offsets.Pairwise (· < ·)) {ε : ℝ} (hε : 0 ≤ ε) (hε' : ε ≤ 101 / 10 ^ 10)
    (hg : (fwindows s R D m).IsChain fun v w => -ε ≤ w.1.val - v.2.val) :
    (1 - 5 * r.u) * s.duration.val ≤ totalR (takesTime (buildSegments (pairs s R D m))) ∧
    totalR (takesTime (buildSegments (pairs s R D m))) ≤
      (1 + 6 * r.u) * s.duration.val + (1 + r.u) * ((s.offsets.length + 1) * ε) := by
  obtain ⟨-, a, mid, b, hpad⟩ := padded_shape hs hsort
  have hT0 : 0 < s.duration.val := by norm_num at hT ⊢; linarith
  have hu := r.u_nonneg
  have hu' := r.u_le
  have hlast : ∃ (l : List (Fl r × Fl r)) (o : Operation (Fl r)), o ∈ a :: mid ∧
      fwindows s R D m = l ++ [fwin s.duration R D m o, fwin s.duration R D m b] := by
    obtain ⟨l, o, e⟩ : ∃ l o, a :: mid = l ++ [o] := ⟨_, _, (List.dropLast_append_getLast (by simp)).symm⟩
    refine ⟨l.map (fwin s.duration R D m), o, by rw [e]; simp, ?_⟩
    unfold fwindows
    rw [hpad.eq, ← List.cons_append, e]
    simp
  obtain ⟨l, o, ho, hl⟩ := hlast
  rw [hl] at hg
  have hgap := isChain_append_last hg
  have hstop : 0 ≤ (fwin s.duration R D m o).2.val := by
    rcases List.mem_cons.mp ho with rfl | h
    · exact fwin_stop_nonneg hm hpad.first.ge (by rw [hpad.first]; exact hT0.ne)
    · exact fwin_stop_nonneg hm (hpad.inside o h).1.le (hpad.inside o h).2.ne
  rw [fwin_last hT0 hpad.last] at hgap
  have hh := hw_nonneg (R := R) (D := D) hm b
  have hle : hw R D m b ≤ s.duration.val := by
    apply last_half_le hT hm hpad.last
    have : (101 / 10 ^ 10 : ℝ) ≤ 12 / 10 ^ 9 := by norm_num
    linarith
  have hE := abs_le.mp (lastWin_near (R := R) (D := D) hT0 hm hpad.last).2.1
  have hE' : 2 * r.u * (s.duration.val + hw R D m b) ≤ 4 * (r.u * s.duration.val) := by
    have := mul_le_mul_of_nonneg_left hle hu
    linarith
  have hpairs : pairs s R D m = (a, fwin s.duration R D m a) ::
      ((mid ++ [b]).map fun o => (o, fwin s.duration R D m o)) := by
    unfold pairs; rw [hpad.eq]; rfl
  have hfw : (pairs s R D m).map Prod.snd = fwindows s R D m := by
    unfold pairs fwindows; rw [List.map_map]; rfl
  have hlen : (mid ++ [b]).length ≤ s.offsets.length + 1 := by
    have h1 : (paddedOps s).length ≤ s.offsets.length + 2 := by
      have := congrArg List.length (paddedOps_val s)
      rw [List.length_map] at this
      rw [this]
      obtain ⟨-, hb, hr, ha, hd⟩ := (rounded_facts hs).facts
      have ho := congrArg List.length (pulseList_offsets (s.map val) hr ha hd)
      rw [List.length_map] at ho
      have : (s.map val).offsets.length = s.offsets.length := List.length_map ..
      unfold pad
      rw [List.length_append, List.length_append]
      split <;> split <;> simp <;> omega
    rw [hpad.eq] at h1
    simp only [List.length_cons] at h1
    omega
  have key := total_pairs hε (a, fwin s.duration R D m a)
    ((mid ++ [b]).map fun o => (o, fwin s.duration R D m o)) (by
      intro y hy
      rw [← hpairs] at hy
      obtain ⟨o, -, rfl⟩ := List.mem_map.mp hy
      exact fwin_order hT0 hm o) (by rw [← hpairs, hfw, hl]; exact hg)
  have hlastv : (((a, fwin s.duration R D m a) ::
      ((mid ++ [b]).map fun o => (o, fwin s.duration R D m o))).getLast (by simp)).2.2 =
      (lastWin s.duration R D m b).2 := by
    simp [fwin_last hT0 hpad.last]
  have hfirst : (fwin s.duration R D m a).1.val = 0 := by
    unfold fwin; rw [if_pos hpad.first, val_lit_zero]
  rw [hlastv, ← hpairs] at key
  dsimp only at key
  rw [hfirst, sub_zero, List.length_map] at key
  set E := (lastWin s.duration R D m b).2.val
  set t := s.duration.val
  have hlen' : ((mid ++ [b]).length : ℝ) * ε ≤ (s.offsets.length + 1) * ε := by
    apply mul_le_mul_of_nonneg_right _ hε
    exact_mod_cast hlen
  have hut : r.u * (r.u * t) ≤ r.u * t / 2 ^ 20 := by
    have := mul_le_mul_of_nonneg_right hu' (show 0 ≤ r.u * t by positivity)
    linarith
  have hut0 : 0 ≤ r.u * (r.u * t) := by positivity
  have hut1 : 0 ≤ r.u * t := by positivity
  constructor
  · have h1 : (1 - r.u) * (t - 4 * (r.u * t)) ≤ (1 - r.u) * E :=
      mul_le_mul_of_nonneg_left (by linarith [hE.1]) (by norm_num at hu'; linarith)
    linarith [key.1]
  · have h1 : (1 + r.u) * (E + (mid ++ [b]).length * ε) ≤
        (1 + r.u) * (t + 4 * (r.u * t) + (s.offsets.length + 1) * ε) :=
      mul_le_mul_of_nonneg_left (by linarith [hE.2]) (by linarith)
    linarith [key.2]

end OpenControls
