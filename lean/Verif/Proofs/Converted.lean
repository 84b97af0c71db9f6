import Verif.Proofs.Conversion
import Verif.Spec.Families

/-!
# Lemmas about converted controls: duration, evolution, waveform
-/

namespace OpenControls

open Spec RealInst

variable {T R D m : ℝ}

/-- a segment, unless it takes no time -/
noncomputable def keep (g : Segment ℝ) : List (Segment ℝ) :=
  [g].filter fun g => Py.gt g.duration (PyFloat.lit 0)

theorem keep_pos {g : Segment ℝ} (h : 0 < g.duration) : keep g = [g] := by simp [keep, h]

theorem keep_nonpos {g : Segment ℝ} (h : g.duration ≤ 0) : keep g = [] := by simp [keep, h]

theorem kept_singleton (T R D m : ℝ) (p : Pulse) : kept T R D m [p] = keep (pulseSeg R D m p) := by
  have h : keep (⟨0, 0, 0, 0⟩ : Segment ℝ) = [] := keep_nonpos le_rfl
  unfold kept segs
  rw [← List.singleton_append, List.filter_append]
  show keep _ ++ keep _ = _
  rw [h, List.append_nil]

theorem kept_cons (T R D m : ℝ) (p q : Pulse) (r : List Pulse) :
    kept T R D m (p :: q :: r) = keep (pulseSeg R D m p) ++
      (keep ⟨0, 0, 0, (window T R D m q).1 - (window T R D m p).2⟩ ++
        kept T R D m (q :: r)) := by
  unfold kept
  rw [segs, ← List.singleton_append, List.filter_append, ← List.singleton_append (l := segs _ _ _ _ _),
    List.filter_append]
  rfl

/-! ## Duration -/

/-- total duration of segments -/
noncomputable def total (gs : List (Segment ℝ)) : ℝ := (gs.map Segment.duration).sum

theorem total_append (a b : List (Segment ℝ)) : total (a ++ b) = total a + total b := by
  simp [total]

theorem total_keep (g : Segment ℝ) : total (keep g) = max g.duration 0 := by
  rcases lt_or_ge 0 g.duration with h | h
  · rw [keep_pos h, max_eq_left h.le]; simp [total]
  · rw [keep_nonpos h, max_eq_right h]; rfl

theorem total_keep_pulse (hm : 0 ≤ m) (p : Pulse) : total (keep (pulseSeg R D m p)) =
    (window T R D m p).2 - (window T R D m p).1 := by
  rw [total_keep, window_width]
  exact max_eq_left (width_nonneg hm R D p)

theorem total_bounds (hm : 0 ≤ m) {ε : ℝ} (hε : 0 ≤ ε) (p : Pulse) (l : List Pulse)
    (hg : EachGap (fun g => -ε ≤ g) ((p :: l).map (window T R D m))) :
    let b := (p :: l).getLast (by simp)
    (window T R D m b).2 - (window T R D m p).1 ≤ total (kept T R D m (p :: l)) ∧
    total (kept T R D m (p :: l)) ≤
      (window T R D m b).2 - (window T R D m p).1 + l.length * ε ∧
    (EachGap (fun g => 0 ≤ g) ((p :: l).map (window T R D m)) ↔
      total (kept T R D m (p :: l)) = (window T R D m b).2 - (window T R D m p).1) := by
  induction l generalizing p with
  | nil =>
    simp only [kept_singleton, total_keep_pulse (T := T) hm, List.getLast_singleton]
    simp [EachGap]
  | cons q r ih =>
    simp only [EachGap, List.map_cons, List.isChain_cons_cons] at hg
    obtain ⟨h1, h2, h3⟩ := ih q hg.2
    simp only [kept_cons, total_append, total_keep_pulse (T := T) hm, total_keep]
    rw [List.getLast_cons (by simp)]
    set b := (q :: r).getLast (by simp)
    set wp := window T R D m p
    set wq := window T R D m q
    set X := total (kept T R D m (q :: r))
    have hge := hg.1
    have hmax : max (wq.1 - wp.2) 0 ≤ wq.1 - wp.2 + ε :=
      max_le (by linarith) (by linarith)
    have hm1 : wq.1 - wp.2 ≤ max (wq.1 - wp.2) 0 := le_max_left _ _
    refine ⟨by linarith, ?_, ?_⟩
    · rw [List.length_cons]; push_cast; linarith
    · simp only [EachGap, List.map_cons, List.isChain_cons_cons] at h3 ⊢
      rw [h3]
      constructor
      · rintro ⟨h4, h5⟩
        rw [max_eq_left h4, h5]; ring
      · intro h
        have h4 : max (wq.1 - wp.2) 0 = wq.1 - wp.2 := by linarith
        exact ⟨by rw [← h4]; exact le_max_right _ _, by linarith⟩

theorem windows_inside (hm : 0 ≤ m) (p : Pulse) (l : List Pulse)
    (hg : EachGap (fun g => 0 ≤ g) ((p :: l).map (window T R D m))) :
    ∀ x ∈ p :: l, (window T R D m p).1 ≤ (window T R D m x).1 ∧
      (window T R D m x).2 ≤ (window T R D m ((p :: l).getLast (by simp))).2 := by
  have hw : ∀ x, (window T R D m x).1 ≤ (window T R D m x).2 := by
    intro x
    have := window_width T R D m x
    have := width_nonneg hm R D x
    linarith
  induction l generalizing p with
  | nil => simp
  | cons q r ih =>
    simp only [EachGap, List.map_cons, List.isChain_cons_cons] at hg
    have h := ih q hg.2
    have h1 := hg.1
    rw [List.getLast_cons (by simp)]
    intro x hx
    have hq := h q (by simp)
    have := hw q
    have := hw p
    rcases List.mem_cons.mp hx with rfl | hx
    · exact ⟨le_rfl, by linarith⟩
    · have := h x hx
      exact ⟨by linarith, this.2⟩

/-! ## Evolution -/

theorem evolution_ofSegments_cons (g : Segment ℝ) (gs : List (Segment ℝ)) (name : Option String) :
    evolution (ofSegments (g :: gs) name) =
      evolution (ofSegments gs name) * segmentUnitary g.rabi g.azimuthal g.detuning g.duration := rfl

theorem evolution_keep {g : Segment ℝ} (hg : g.duration ≤ 0 →
    segmentUnitary g.rabi g.azimuthal g.detuning g.duration = 1) (gs : List (Segment ℝ))
    (name : Option String) :
    evolution (ofSegments (keep g ++ gs) name) =
      evolution (ofSegments gs name) * segmentUnitary g.rabi g.azimuthal g.detuning g.duration := by
  rcases lt_or_ge 0 g.duration with h | h
  · rw [keep_pos h]; rfl
  · rw [keep_nonpos h, hg h, mul_one]; rfl

open Classical in
/-- what the segment of a pulse does -/
noncomputable def realised (p : Pulse) : M2 :=
  if ¬ Negligible p.rabi then pulseUnitary p.rabi p.azimuthal 0
  else if ¬ Negligible p.detuning then pulseUnitary 0 0 p.detuning
  else 1

theorem segmentUnitary_pulseSeg (hR : 0 < R) (hD : 0 < D) {p : Pulse} (hp : 0 ≤ p.rabi) :
    segmentUnitary (pulseSeg R D m p).rabi (pulseSeg R D m p).azimuthal (pulseSeg R D m p).detuning
      (pulseSeg R D m p).duration = realised p := by
  rw [segmentUnitary_eq_pulseUnitary]
  by_cases h : Negligible p.rabi ∧ Negligible p.detuning
  · have : pulseUnitary 0 0 0 = 1 := by
      rw [pulseUnitary_eq_segmentUnitary, segmentUnitary_idle]
    simp [pulseSeg, drive, realised, h, this]
  · have hw := (width_pos (m := m) hR hD hp h).ne'
    by_cases h1 : Negligible p.rabi
    · have h2 : ¬ Negligible p.detuning := fun h2 => h ⟨h1, h2⟩
      simp [pulseSeg, drive, realised, h1, h2, hw]
    · simp [pulseSeg, drive, realised, h1, hw]

theorem pulseSeg_idle (hR : 0 < R) (hD : 0 < D) {p : Pulse} (hp : 0 ≤ p.rabi)
    (h : (pulseSeg R D m p).duration ≤ 0) :
    segmentUnitary (pulseSeg R D m p).rabi (pulseSeg R D m p).azimuthal (pulseSeg R D m p).detuning
      (pulseSeg R D m p).duration = 1 := by
  have hn : Negligible p.rabi ∧ Negligible p.detuning := by
    by_contra hn
    exact absurd h (not_le.mpr (width_pos (m := m) hR hD hp hn))
  simp [pulseSeg, drive, hn, segmentUnitary_idle]

/-- product in time order -/
noncomputable def realisedProduct : List Pulse → M2
  | [] => 1
  | p :: l => realisedProduct l * realised p

theorem evolution_kept (hR : 0 < R) (hD : 0 < D) (l : List Pulse) (hl : ∀ p ∈ l, 0 ≤ p.rabi)
    (name : Option String) :
    evolution (ofSegments (kept T R D m l) name) = realisedProduct l := by
  induction l with
  | nil => rfl
  | cons p l ih =>
    have hp := hl p (by simp)
    cases l with
    | nil =>
      rw [kept_singleton, ← List.append_nil (keep _), evolution_keep (pulseSeg_idle hR hD hp),
        segmentUnitary_pulseSeg hR hD hp]
      rfl
    | cons q r =>
      rw [kept_cons, evolution_keep (pulseSeg_idle hR hD hp),
        evolution_keep (g := ⟨0, 0, 0, (window T R D m q).1 - (window T R D m p).2⟩)
          (fun _ => segmentUnitary_idle 0 _), segmentUnitary_idle, mul_one,
        segmentUnitary_pulseSeg hR hD hp, ih fun x hx => hl x (by simp [hx])]
      rfl

theorem realised_idle (t : ℝ) : realised (idlePulse t) = 1 := by
  simp [realised, idlePulse, Negligible]

theorem realisedProduct_append (a b : List Pulse) :
    realisedProduct (a ++ b) = realisedProduct b * realisedProduct a := by
  induction a with
  | nil => simp [realisedProduct]
  | cons p a ih => simp [realisedProduct, ih, mul_assoc]

theorem realisedProduct_pad (T : ℝ) (ps : List Pulse) :
    realisedProduct (pad T ps) = realisedProduct ps := by
  unfold pad
  rw [realisedProduct_append, realisedProduct_append]
  have h1 : ∀ (c : Prop) [Decidable c] (t : ℝ), realisedProduct (if c then [] else [idlePulse t]) = 1 := by
    intro c _ t
    split <;> simp [realisedProduct, realised_idle]
  rw [h1, h1]
  simp

theorem realised_pure {p : Pulse} (h : PurePulse p) :
    realised p = pulseUnitary p.rabi p.azimuthal p.detuning := by
  obtain ⟨h1, h2, h3⟩ := h
  have hn : Negligible (0 : ℝ) := by simp [Negligible]
  have hφ : ∀ φ δ, pulseUnitary 0 φ δ = pulseUnitary 0 0 δ := by
    intro φ δ; simp [pulseUnitary, hamiltonian]
  unfold realised
  rcases h2 with h2 | h2
  · rw [h2, hφ p.azimuthal p.detuning]
    rcases h3 with h3 | h3
    · rw [h3]
      have : pulseUnitary 0 0 0 = 1 := by
        rw [pulseUnitary_eq_segmentUnitary, segmentUnitary_idle]
      simp [hn, this]
    · simp [hn, h3]
  · rcases h1 with h1 | h1
    · rw [h1] at h2; exact absurd hn h2
    · simp [h2, h1]

theorem realisedProduct_pure {ps : List Pulse} (h : ∀ p ∈ ps, PurePulse p) :
    realisedProduct ps =
      pulseProduct (ps.map Pulse.rabi) (ps.map Pulse.azimuthal) (ps.map Pulse.detuning) := by
  induction ps with
  | nil => rfl
  | cons p ps ih =>
    simp only [realisedProduct, List.map_cons, pulseProduct]
    rw [ih fun x hx => h x (by simp [hx]), realised_pure (h p (by simp))]

/-! ## Waveform -/

/-- Rabi rate, azimuthal angle and detuning of a segment -/
def Segment.value (g : Segment ℝ) : ℝ × ℝ × ℝ := (g.rabi, g.azimuthal, g.detuning)

/-- the segment active at time `t` has value `v` -/
def DrivesList (gs : List (Segment ℝ)) (t : ℝ) (v : ℝ × ℝ × ℝ) : Prop :=
  ∃ (k : ℕ) (g : Segment ℝ), gs[k]? = some g ∧ g.value = v ∧
    total (gs.take k) ≤ t ∧ t < total (gs.take (k + 1))

theorem drivesAt_ofSegments (gs : List (Segment ℝ)) (name : Option String) (t : ℝ)
    (v : ℝ × ℝ × ℝ) : DrivesList gs t v → DrivesAt (ofSegments gs name) t v := by
  rintro ⟨k, g, h1, h2, h3, h4⟩
  subst h2
  refine ⟨k, by simp [ofSegments, h1, Segment.value], by simp [ofSegments, h1, Segment.value],
    by simp [ofSegments, h1, Segment.value], ?_, ?_⟩
  · simpa [ofSegments, total, List.map_take] using h3
  · simpa [ofSegments, total, List.map_take] using h4

theorem DrivesList.head {g : Segment ℝ} {gs : List (Segment ℝ)} {t : ℝ} (h0 : 0 ≤ t)
    (h1 : t < g.duration) : DrivesList (g :: gs) t g.value :=
  ⟨0, g, rfl, rfl, by simpa [total] using h0, by simpa [total] using h1⟩

theorem DrivesList.tail {g : Segment ℝ} {gs : List (Segment ℝ)} {t : ℝ} {v : ℝ × ℝ × ℝ}
    (h : DrivesList gs (t - g.duration) v) : DrivesList (g :: gs) t v := by
  obtain ⟨k, x, h1, h2, h3, h4⟩ := h
  refine ⟨k + 1, x, by simpa using h1, h2, ?_, ?_⟩
  · simp only [total, List.take_succ_cons, List.map_cons, List.sum_cons] at h3 ⊢; linarith
  · simp only [total, List.take_succ_cons, List.map_cons, List.sum_cons] at h4 ⊢; linarith

theorem DrivesList.skip {g : Segment ℝ} {gs : List (Segment ℝ)} {t : ℝ} {v : ℝ × ℝ × ℝ}
    (hg : 0 ≤ g.duration) (h : DrivesList gs (t - g.duration) v) : DrivesList (keep g ++ gs) t v := by
  rcases hg.lt_or_eq with h' | h'
  · rw [keep_pos h']; exact h.tail
  · rw [keep_nonpos h'.symm.le]
    rw [← h', sub_zero] at h
    exact h

theorem DrivesList.here {g : Segment ℝ} {gs : List (Segment ℝ)} {t : ℝ} (h0 : 0 ≤ t)
    (h1 : t < g.duration) : DrivesList (keep g ++ gs) t g.value := by
  rw [keep_pos (h0.trans_lt h1)]; exact DrivesList.head h0 h1

theorem drives_kept (hm : 0 ≤ m) (p : Pulse) (l : List Pulse)
    (hg : EachGap (fun g => 0 ≤ g) ((p :: l).map (window T R D m))) (t : ℝ) :
    (∀ x ∈ p :: l, (window T R D m x).1 ≤ t → t < (window T R D m x).2 →
      DrivesList (kept T R D m (p :: l)) (t - (window T R D m p).1) (drive R D m x)) ∧
    ((window T R D m p).1 ≤ t → t < (window T R D m ((p :: l).getLast (by simp))).2 →
      (∀ x ∈ p :: l, ¬ ((window T R D m x).1 ≤ t ∧ t < (window T R D m x).2)) →
      DrivesList (kept T R D m (p :: l)) (t - (window T R D m p).1) (0, 0, 0)) := by
  induction l generalizing p with
  | nil =>
    constructor
    · intro x hx h1 h2
      simp only [List.mem_singleton] at hx
      subst hx
      rw [kept_singleton, ← List.append_nil (keep _)]
      have := window_width T R D m x
      exact DrivesList.here (g := pulseSeg R D m x) (by linarith) (by simp only [pulseSeg]; linarith)
    · intro h1 h2 h
      exact absurd ⟨h1, h2⟩ (h p (by simp))
  | cons q r ih =>
    simp only [EachGap, List.map_cons, List.isChain_cons_cons] at hg
    obtain ⟨ih1, ih2⟩ := ih q hg.2
    have hgap := hg.1
    have hwp := window_width T R D m p
    have hw0 := width_nonneg hm R D p
    have step : ∀ v, DrivesList (kept T R D m (q :: r)) (t - (window T R D m q).1) v →
        DrivesList (kept T R D m (p :: q :: r)) (t - (window T R D m p).1) v := by
      intro v hv
      rw [kept_cons]
      apply DrivesList.skip (by simp only [pulseSeg]; exact hw0)
      apply DrivesList.skip hgap
      convert hv using 1
      simp only [pulseSeg]
      linarith
    constructor
    · intro x hx h1 h2
      rcases List.mem_cons.mp hx with rfl | hx
      · rw [kept_cons]
        exact DrivesList.here (g := pulseSeg R D m x) (by linarith)
          (by simp only [pulseSeg]; linarith)
      · exact step _ (ih1 x hx h1 h2)
    · intro h1 h2 h
      rw [List.getLast_cons (by simp)] at h2
      have hp : (window T R D m p).2 ≤ t := by
        by_contra hc
        exact h p (by simp) ⟨h1, not_le.mp hc⟩
      rcases lt_or_ge t (window T R D m q).1 with h3 | h3
      · rw [kept_cons]
        apply DrivesList.skip (by simp only [pulseSeg]; exact hw0)
        apply DrivesList.here
          (g := ⟨0, 0, 0, (window T R D m q).1 - (window T R D m p).2⟩)
        · simp only [pulseSeg]; linarith
        · simp only [pulseSeg]; linarith
      · exact step _ (ih2 h3 h2 fun x hx => h x (by simp [hx]))

theorem realised_effective (p : Pulse) : realised p =
    pulseUnitary (effective p).rabi (effective p).azimuthal (effective p).detuning := by
  have hφ : ∀ φ δ, pulseUnitary 0 φ δ = pulseUnitary 0 0 δ := by
    intro φ δ; simp [pulseUnitary, hamiltonian]
  have h0 : pulseUnitary 0 0 0 = 1 := by
    rw [pulseUnitary_eq_segmentUnitary, segmentUnitary_idle]
  by_cases h1 : Negligible p.rabi
  · by_cases h2 : Negligible p.detuning
    · simp [realised, effective, h1, h2, hφ p.azimuthal, h0]
    · simp [realised, effective, h1, h2, hφ p.azimuthal]
  · simp [realised, effective, h1]

theorem realisedProduct_effective (ps : List Pulse) :
    realisedProduct ps = productOf (ps.map effective) := by
  induction ps with
  | nil => rfl
  | cons p ps ih =>
    simp only [realisedProduct, productOf, List.map_cons, pulseProduct] at ih ⊢
    rw [ih, realised_effective]

/-! ## Facts about the padded list of pulses of a convertible sequence -/

/-- the windows of a convertible sequence start at 0 and end at the duration -/
theorem pad_cons {s : Sequence ℝ} (hs : s.Constructed) (hc : Convertible R D m s) :
    ∃ p l, pad s.duration (pulseList s) = p :: l ∧ (window s.duration R D m p).1 = 0 ∧
      (window s.duration R D m ((p :: l).getLast (by simp))).2 = s.duration ∧
      l.length ≤ s.offsets.length + 1 := by
  obtain ⟨hT, hb, hr, ha, hd⟩ := hs.facts
  have ho := pulseList_offsets s hr ha hd
  obtain ⟨-, a, mid, b, he, h1, h2, -⟩ := pad_shape hT (pulseList s) (ho ▸ hc.2.2.2.2.2.1) (by
    intro p hp
    exact hb _ (ho ▸ List.mem_map_of_mem hp))
  refine ⟨a, mid ++ [b], he, by simp [window, h1], ?_, ?_⟩
  · have : (a :: (mid ++ [b])).getLast (by simp) = b := by simp
    rw [this]
    simp [window, h2, hT.ne']
  · have h3 : (pad s.duration (pulseList s)).length ≤ (pulseList s).length + 2 := by
      unfold pad
      simp only [List.length_append]
      split <;> split <;> simp <;> omega
    rw [he] at h3
    have h4 : (pulseList s).length = s.offsets.length := by
      rw [← ho, List.length_map]
    simp only [List.length_cons] at h3
    omega

theorem pad_rabi {s : Sequence ℝ} (hc : Convertible R D m s) :
    ∀ p ∈ pad s.duration (pulseList s), 0 ≤ p.rabi := by
  intro p hp
  rcases pad_mem hp with h | rfl | rfl
  · exact hc.2.2.2.1 p h
  · exact le_rfl
  · exact le_rfl

theorem gap_ge (hm : 0 ≤ m) {g : ℝ} (h : m < g ∨ NearValue g m) :
    m - (1 / 10 ^ 8 + 1 / 10 ^ 5 * m) ≤ g := by
  rcases h with h | h
  · have : (0 : ℝ) ≤ 1 / 10 ^ 8 + 1 / 10 ^ 5 * m := by positivity
    linarith
  · unfold NearValue at h
    rw [abs_of_nonneg hm] at h
    have := (abs_le.mp h).1
    linarith

theorem EachGap.mono {P Q : ℝ → Prop} {ws : List (ℝ × ℝ)} (h : EachGap P ws)
    (hPQ : ∀ g, P g → Q g) : EachGap Q ws :=
  List.IsChain.imp (fun _ _ => hPQ _) h

theorem allSmall_duration {s : Sequence ℝ} (hs : s.Constructed) (hc : Convertible R D m s)
    (h : AllSmall (windows R D m s)) : s.duration ≤ 1 / 10 ^ 8 := by
  obtain ⟨p, l, he, -, h2, -⟩ := pad_cons hs hc
  rw [windows_eq hs, he] at h
  have := (h _ (List.mem_map_of_mem (List.getLast_mem (l := p :: l) (by simp)))).2
  rw [h2] at this
  exact (le_abs_self _).trans this

theorem small_allSmall {s : Sequence ℝ} (hs : s.Constructed) (hc : Convertible R D m s)
    (hno : NoOverlap R D m s) (h : s.duration ≤ 1 / 10 ^ 8) : AllSmall (windows R D m s) := by
  obtain ⟨p, l, he, h1, h2, -⟩ := pad_cons hs hc
  have hm := hc.2.2.1
  unfold NoOverlap at hno
  rw [windows_eq hs, he] at hno ⊢
  intro w hw
  obtain ⟨x, hx, rfl⟩ := List.mem_map.mp hw
  obtain ⟨h3, h4⟩ := windows_inside hm p l hno x hx
  have h5 := window_width s.duration R D m x
  have h6 := width_nonneg hm R D x
  rw [h1] at h3
  rw [h2] at h4
  unfold Negligible
  exact ⟨by rw [abs_of_nonneg h3]; linarith, by rw [abs_of_nonneg (by linarith)]; linarith⟩

/-- the control of a successful conversion -/
theorem converted {s : Sequence ℝ} (hs : s.Constructed) {R D m : ℝ} {name : Option String}
    {c : DrivenControl ℝ} (h : convertDDS s R D m name = .ok c) :
    Convertible R D m s ∧ ((AllSmall (windows R D m s) ∧ c = freeEvolution s.duration name) ∨
      (¬ AllSmall (windows R D m s) ∧
        c = ofSegments (kept s.duration R D m (pad s.duration (pulseList s))) name)) :=
  (convertDDS_returns hs R D m name).ok h

theorem eachGap_lower {s : Sequence ℝ} (hs : s.Constructed) {R D m : ℝ}
    (hc : Convertible R D m s) :
    EachGap (fun g => -(1 / 10 ^ 8) ≤ g)
      ((pad s.duration (pulseList s)).map (window s.duration R D m)) := by
  have hm := hc.2.2.1
  have hgap := hc.2.2.2.2.2.2
  rw [windows_eq hs] at hgap
  refine EachGap.mono hgap fun g hg => ?_
  have := gap_ge hm hg
  have : (0 : ℝ) ≤ m - 1 / 10 ^ 5 * m := by nlinarith
  linarith


theorem convertDDS_constructed {α : Type} [Add α] [Sub α] [Mul α] [Div α] [Neg α] [PyFloat α]
    {s : Sequence α} {R D m : α} {name : Option String} {c : DrivenControl α}
    (h : convertDDS s R D m name = .ok c) : c.Constructed := by
  rw [convertDDS_eq] at h
  simp only [checkArguments_bind] at h
  split at h
  · split at h
    · split at h
      · split at h
        · split at h
          · split at h
            · split at h
              · split at h
                · exact ⟨_, _, _, _, _, h⟩
                · exact ⟨_, _, _, _, _, h⟩
              · cases h
            · cases h
          · cases h
        · cases h
      · cases h
    · cases h
  · cases h

/-! ## Change of the unit of time -/

section
variable {k : ℝ}

/-- a pulse at a scaled time -/
def Spec.Pulse.scale (k : ℝ) (p : Pulse) : Pulse := { p with offset := k * p.offset }

/-- a slower segment -/
noncomputable def Segment.scale (k : ℝ) (g : Segment ℝ) : Segment ℝ :=
  ⟨g.rabi / k, g.azimuthal, g.detuning / k, k * g.duration⟩

theorem pulseList_stretch (k : ℝ) (s : Sequence ℝ) :
    pulseList (stretch k s) = (pulseList s).map (Pulse.scale k) := by
  unfold pulseList stretch
  simp only [List.zipWith_map_left, List.map_zipWith]
  rfl

theorem pad_stretch (hk : 0 < k) (T : ℝ) (ps : List Pulse) :
    pad (k * T) (ps.map (Pulse.scale k)) = (pad T ps).map (Pulse.scale k) := by
  have e : ∀ t, idlePulse (k * t) = (idlePulse t).scale k := fun t => rfl
  have e0 : idlePulse 0 = (idlePulse 0).scale k := by simp [idlePulse, Pulse.scale]
  have hm : (ps.map (Pulse.scale k)).map Pulse.offset = (ps.map Pulse.offset).map (k * ·) := by
    simp [Pulse.scale]
  have h0 : ((ps.map (Pulse.scale k)).map Pulse.offset).head? = some 0 ↔
      (ps.map Pulse.offset).head? = some 0 := by
    rw [hm, List.head?_map]
    cases (ps.map Pulse.offset).head? <;> simp [hk.ne']
  have h1 : ((ps.map (Pulse.scale k)).map Pulse.offset).getLast? = some (k * T) ↔
      (ps.map Pulse.offset).getLast? = some T := by
    rw [hm, List.getLast?_map]
    cases (ps.map Pulse.offset).getLast? <;> simp [hk.ne']
  unfold pad
  simp only [h0, h1, List.map_append]
  congr 1
  · congr 1
    split <;> simp [← e0]
  · split <;> simp [← e]

theorem width_stretch (hk : 0 < k) (p : Pulse) :
    width (R / k) (D / k) (k * m) (p.scale k) = k * width R D m p := by
  have e : ∀ x y : ℝ, max (x / (y / k)) (k * m) = k * max (x / y) m := by
    intro x y
    rw [mul_max_of_nonneg _ _ hk.le, div_div_eq_mul_div]
    congr 1
    ring
  unfold width Pulse.scale
  simp only [e, mul_ite, mul_zero]

theorem drive_stretch (hk : 0 < k) (p : Pulse) :
    drive (R / k) (D / k) (k * m) (p.scale k) =
      ((drive R D m p).1 / k, (drive R D m p).2.1, (drive R D m p).2.2 / k) := by
  have hw := width_stretch (R := R) (D := D) (m := m) hk p
  unfold drive
  rw [hw]
  simp only [Pulse.scale]
  by_cases h1 : Negligible p.rabi
  · by_cases h2 : Negligible p.detuning
    · simp [h1, h2]
    · simp [h1, h2, div_div, mul_comm]
  · simp [h1, div_div, mul_comm]

theorem window_stretch (hk : 0 < k) (T : ℝ) (p : Pulse) :
    window (k * T) (R / k) (D / k) (k * m) (p.scale k) =
      (k * (window T R D m p).1, k * (window T R D m p).2) := by
  have hw := width_stretch (R := R) (D := D) (m := m) hk p
  unfold window
  rw [hw]
  have h0 : (p.scale k).offset = 0 ↔ p.offset = 0 := by simp [Pulse.scale, hk.ne']
  have hT : (p.scale k).offset = k * T ↔ p.offset = T := by simp [Pulse.scale, hk.ne']
  simp only [h0, hT]
  split
  · simp
  · split
    · simp [mul_sub]
    · simp only [Pulse.scale]
      ext <;> simp <;> ring

theorem segs_stretch (hk : 0 < k) (T : ℝ) (l : List Pulse) :
    segs (k * T) (R / k) (D / k) (k * m) (l.map (Pulse.scale k)) =
      (segs T R D m l).map (Segment.scale k) := by
  have hp : ∀ p, pulseSeg (R / k) (D / k) (k * m) (p.scale k) =
      (pulseSeg R D m p).scale k := by
    intro p
    simp [pulseSeg, drive_stretch hk, width_stretch hk, Segment.scale]
  induction l with
  | nil => rfl
  | cons p l ih =>
    cases l with
    | nil => simp [segs, hp, Segment.scale]
    | cons q r =>
      simp only [List.map_cons, segs] at ih ⊢
      rw [ih, hp, window_stretch hk, window_stretch hk]
      simp [Segment.scale, mul_sub]

theorem kept_stretch (hk : 0 < k) (T : ℝ) (l : List Pulse) :
    kept (k * T) (R / k) (D / k) (k * m) (l.map (Pulse.scale k)) =
      (kept T R D m l).map (Segment.scale k) := by
  unfold kept
  rw [segs_stretch hk, List.filter_map]
  congr 1
  apply List.filter_congr
  intro g _
  rw [Bool.eq_iff_iff]
  simp [Segment.scale, hk]

theorem ofSegments_stretch (hk : 0 < k) {s : Sequence ℝ} (name : Option String) :
    ofSegments (kept (stretch k s).duration (R / k) (D / k) (k * m)
      (pad (stretch k s).duration (pulseList (stretch k s)))) name =
      slowDown k (ofSegments (kept s.duration R D m (pad s.duration (pulseList s))) name) := by
  have : (stretch k s).duration = k * s.duration := rfl
  rw [this, pulseList_stretch, pad_stretch hk, kept_stretch hk]
  simp [ofSegments, slowDown, Segment.scale, Function.comp_def]

theorem stretch_constructed (hk : 0 < k) {s : Sequence ℝ} (hs : s.Constructed) :
    (stretch k s).Constructed := by
  obtain ⟨hT, hb, hr, ha, hd⟩ := hs.facts
  refine ⟨k * s.duration, s.offsets.map (k * ·), s.rabiRotations, s.azimuthalAngles,
    s.detuningRotations, s.name, ?_⟩
  rw [Sequence.new_eq, if_pos (by simpa using mul_pos hk hT), if_pos, if_pos (by simpa using hr),
    if_pos (by simpa using ha), if_pos (by simpa using hd)]
  · rfl
  · simp only [List.all_map, List.all_eq_true]
    intro t ht
    obtain ⟨h1, h2⟩ := hb t ht
    simp only [Function.comp, Bool.and_eq_true, ge_iff, lit_eq, Rat.cast_zero]
    exact ⟨mul_nonneg hk.le h1, mul_le_mul_of_nonneg_left h2 hk.le⟩

theorem stretch_convertible (hk : 0 < k) {s : Sequence ℝ} (hs : s.Constructed)
    (hc : Convertible R D m s) (hgap : EachGap (fun g => m ≤ g) (windows R D m s)) :
    Convertible (R / k) (D / k) (k * m) (stretch k s) := by
  obtain ⟨h1, h2, h3, h4, h5, h6, -⟩ := hc
  refine ⟨div_pos h1 hk, div_pos h2 hk, mul_nonneg hk.le h3, ?_, ?_, ?_, ?_⟩
  · rw [pulseList_stretch]
    intro p hp
    obtain ⟨q, hq, rfl⟩ := List.mem_map.mp hp
    exact h4 q hq
  · rw [pulseList_stretch]
    intro p hp
    obtain ⟨q, hq, rfl⟩ := List.mem_map.mp hp
    exact h5 q hq
  · simp only [stretch, List.pairwise_map]
    exact h6.imp fun h => mul_lt_mul_of_pos_left h hk
  · rw [windows_eq (stretch_constructed hk hs)]
    have : (stretch k s).duration = k * s.duration := rfl
    rw [this, pulseList_stretch, pad_stretch hk]
    rw [windows_eq hs] at hgap
    simp only [EachGap, List.isChain_map, List.map_map] at hgap ⊢
    refine hgap.imp fun a b h => ?_
    simp only [Function.comp, window_stretch hk]
    have h' : k * m ≤ k * (window s.duration R D m b).1 - k * (window s.duration R D m a).2 := by
      rw [← mul_sub]; exact mul_le_mul_of_nonneg_left h hk.le
    rcases h'.lt_or_eq with h | h
    · exact .inl h
    · right
      rw [← h, NearValue, sub_self, abs_zero]
      positivity

end

/-! ## Sequences of a single pulse -/

/-- the sequence with one pulse -/
def single (T t r a d : ℝ) : Sequence ℝ := ⟨T, [t], [r], [a], [d], none⟩

theorem single_constructed {T t : ℝ} (hT : 0 < T) (h0 : 0 ≤ t) (h1 : t ≤ T) {r a d : ℝ} :
    (single T t r a d).Constructed := by
  refine ⟨T, [t], [r], [a], [d], none, ?_⟩
  rw [Sequence.new_eq, if_pos (by simpa using hT), if_pos (by simp [h0, h1])]
  simp [single]

theorem single_windows {T t : ℝ} (h0 : 0 < t) (h1 : t < T) {r a d : ℝ} :
    windows R D m (single T t r a d) =
      [(0, 0), (t - width R D m ⟨t, r, a, d⟩ / 2, t + width R D m ⟨t, r, a, d⟩ / 2), (T, T)] := by
  simp [windows, single, pulseList, window, h0.ne', h1.ne]

theorem pulses_single (T t r a d : ℝ) : pulses (single T t r a d) = pulseUnitary r a d := by
  simp [pulses, single, pulseProduct]

end OpenControls
