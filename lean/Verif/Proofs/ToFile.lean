import Verif.Spec.ToFile
import Verif.Proofs.RoundedPipeline

/-!
# The drive and the total rotation of a converted sequence, in rounded arithmetic
-/

namespace OpenControls

open Spec Fl

variable {r : Rounding} {R D m : Fl r}

theorem pulseSegment_mem {x : Operation (Fl r) × (Fl r × Fl r)}
    {L : List (Operation (Fl r) × (Fl r × Fl r))} (h : x ∈ L) : pulseSegment x.1 x.2 ∈ buildSegments L := by
  induction L with
  | nil => simp at h
  | cons y L ih =>
    obtain ⟨o, w⟩ := y
    cases L with
    | nil =>
      rw [List.mem_singleton] at h
      subst h
      simp [buildSegments]
    | cons z L =>
      obtain ⟨o', w'⟩ := z
      rw [buildSegments]
      rcases List.mem_cons.mp h with rfl | h
      · exact List.mem_cons_self
      · exact List.mem_cons_of_mem _ (List.mem_cons_of_mem _ (ih h))

/-- The control of a sequence with a clear, wide enough pulse about an axis in the XY plane has drive. -/
theorem converted_drive {s : Sequence (Fl r)} (hs : s.Constructed) (hT : 2 / 10 ^ 8 ≤ s.duration.val)
    (hclear : ∀ p ∈ pulseList (s.map val), ClearPulse r.u p) {name : Option String}
    {c : DrivenControl (Fl r)} (hc : convertDDS s R D m name = .ok c) {p : Pulse}
    (hp : p ∈ pulseList (s.map val)) (hn : ¬ Negligible p.rabi)
    (hw : 16 * r.u * s.duration.val < width R.val D.val m.val p) : ∃ x ∈ c.rabiRates, 0 < x.val := by
  obtain ⟨⟨hD, hR, hm, hrabi, -, hsort, -⟩, h⟩ := (convertDDS_rounded hs R D m name).ok hc
  rcases h with ⟨h, -⟩ | ⟨-, rfl⟩
  · exact absurd h (not_allClose hs hT hm hsort)
  have hT0 : 0 < s.duration.val := (rounded_facts hs).facts.1
  have hmem : p ∈ pad s.duration.val (pulseList (s.map val)) := by
    unfold pad
    exact List.mem_append_left _ (List.mem_append_right _ hp)
  rw [← paddedOps_val] at hmem
  obtain ⟨o, ho, rfl⟩ := List.mem_map.mp hmem
  obtain ⟨h1, h2, h3⟩ := paddedOps_facts hs hrabi hclear ho
  have hpos : 0 < ((fwin s.duration R D m o).2 - (fwin s.duration R D m o).1).val := by
    rw [val_sub, rnd_pos]
    exact window_not_empty hT0 r.u_nonneg r.u_le (window_width _ _ _ _ _)
      (fwin_near hT0 hR hD hm h1 h2 h3) hw
  have hseg := pulseSegment_rabi h2 hpos hn
  have hg : pulseSegment o (fwin s.duration R D m o) ∈ takesTime (buildSegments (pairs s R D m)) := by
    refine List.mem_filter.mpr ⟨pulseSegment_mem (x := (o, fwin s.duration R D m o))
      (List.mem_map_of_mem ho), ?_⟩
    rw [gt_iff, val_lit_zero, hseg]
    exact hpos
  refine ⟨_, List.mem_map_of_mem hg, ?_⟩
  rw [hseg, val_div, rnd_pos]
  have h0 : 0 ≤ o.rabi.val := hrabi _ hp
  refine div_pos (lt_of_le_of_ne h0 fun h => hn ?_) hpos
  have e : (vp o).rabi = o.rabi.val := rfl
  rw [e, ← h]
  simp [Negligible]

/-- the angle by which a segment rotates -/
noncomputable def segRotation (g : Segment (Fl r)) : ℝ := g.rabi.val * g.duration.val

theorem totalRotation_ofRounded (gs : List (Segment (Fl r))) (name : Option String) :
    totalRotation ((ofRounded gs name).map val) = (gs.map segRotation).sum := by
  show (List.zipWith _ ((gs.map Segment.rabi).map val) ((gs.map Segment.duration).map val)).sum = _
  induction gs with
  | nil => rfl
  | cons g gs ih => simpa [segRotation] using ih

theorem segRotation_pulse {o : Operation (Fl r)} (h : 0 ≤ o.rabi.val) (w : Fl r × Fl r) :
    segRotation (pulseSegment o w) ≤ (1 + r.u) * o.rabi.val := by
  have hu := r.u_nonneg
  have h0 : ∀ x : ℝ, (PyFloat.lit 0 : Fl r).val * x ≤ (1 + r.u) * o.rabi.val := by
    intro x
    rw [val_lit_zero, zero_mul]
    positivity
  unfold pulseSegment segRotation
  dsimp only
  split
  · rename_i hg
    rw [gt_iff, val_lit_zero] at hg
    split
    · rw [val_div]
      have := (abs_le.mp (rate_error (r := r) o.rabi.val _ hg)).2
      rw [abs_of_nonneg h] at this
      dsimp only
      linarith
    · split <;> exact h0 _
  · exact h0 _

theorem segRotation_idle (d : Fl r) :
    segRotation (⟨PyFloat.lit 0, PyFloat.lit 0, PyFloat.lit 0, d⟩ : Segment (Fl r)) = 0 := by
  unfold segRotation
  rw [val_lit_zero, zero_mul]

theorem buildSegments_rotation (L : List (Operation (Fl r) × (Fl r × Fl r))) (h : ∀ x ∈ L, 0 ≤ x.1.rabi.val) :
    ((takesTime (buildSegments L)).map segRotation).sum ≤
      (1 + r.u) * (L.map fun x => x.1.rabi.val).sum := by
  have hu := r.u_nonneg
  have hidle : ∀ (d : Fl r) (gs : List (Segment (Fl r))),
      ((takesTime (⟨PyFloat.lit 0, PyFloat.lit 0, PyFloat.lit 0, d⟩ :: gs)).map segRotation).sum =
        ((takesTime gs).map segRotation).sum := by
    intro d gs
    unfold takesTime
    rw [List.filter_cons]
    split
    · rw [List.map_cons, List.sum_cons, segRotation_idle, zero_add]
    · rfl
  have hcons : ∀ (o : Operation (Fl r)) (w : Fl r × Fl r) (gs : List (Segment (Fl r))), 0 ≤ o.rabi.val →
      ((takesTime (pulseSegment o w :: gs)).map segRotation).sum ≤
        (1 + r.u) * o.rabi.val + ((takesTime gs).map segRotation).sum := by
    intro o w gs ho
    have := segRotation_pulse ho w
    have hnn : 0 ≤ (1 + r.u) * o.rabi.val := by positivity
    unfold takesTime
    rw [List.filter_cons]
    split
    · rw [List.map_cons, List.sum_cons]
      linarith
    · linarith
  induction L with
  | nil => simp [buildSegments, takesTime]
  | cons x L ih =>
    obtain ⟨o, w⟩ := x
    have ho : 0 ≤ o.rabi.val := h (o, w) (by simp)
    cases L with
    | nil =>
      rw [buildSegments]
      refine (hcons o w _ ho).trans ?_
      rw [hidle]
      simp [takesTime]
    | cons y L =>
      obtain ⟨o', w'⟩ := y
      rw [buildSegments]
      refine (hcons o w _ ho).trans ?_
      rw [hidle]
      have := ih fun x hx => h x (List.mem_cons_of_mem _ hx)
      rw [List.map_cons, List.sum_cons, mul_add]
      linarith

/-- The control of a sequence does not rotate by more than the pulses of the sequence, up to rounding. -/
theorem converted_rotation {s : Sequence (Fl r)} (hs : s.Constructed) {name : Option String}
    {c : DrivenControl (Fl r)} (hc : convertDDS s R D m name = .ok c) :
    totalRotation (c.map val) ≤ (1 + r.u) * ((pulseList (s.map val)).map Pulse.rabi).sum := by
  have hu := r.u_nonneg
  obtain ⟨⟨hD, hR, hm, hrabi, -, hsort, -⟩, h⟩ := (convertDDS_rounded hs R D m name).ok hc
  rcases h with ⟨-, rfl⟩ | ⟨-, rfl⟩
  · rw [totalRotation_ofRounded, List.map_singleton, segRotation_idle, List.sum_singleton]
    refine mul_nonneg (by linarith) (List.sum_nonneg ?_)
    intro x hx
    obtain ⟨p, hp, rfl⟩ := List.mem_map.mp hx
    exact hrabi p hp
  · rw [totalRotation_ofRounded]
    refine (buildSegments_rotation _ ?_).trans (le_of_eq ?_)
    · intro x hx
      obtain ⟨o, ho, rfl⟩ := List.mem_map.mp hx
      show 0 ≤ (vp o).rabi
      rcases paddedOps_mem ho with h | h | h
      · exact hrabi _ h
      · rw [h]; exact le_rfl
      · rw [h]; exact le_rfl
    · congr 1
      have e1 : (pairs s R D m).map (fun x => x.1.rabi.val) =
          (pad s.duration.val (pulseList (s.map val))).map Pulse.rabi := by
        rw [← paddedOps_val]
        unfold pairs
        rw [List.map_map, List.map_map]; rfl
      have h0 : ∀ (c : Prop) [Decidable c] (t : ℝ),
          ((if c then [] else [idlePulse t]).map Pulse.rabi).sum = 0 := by
        intro c _ t
        split
        · rfl
        · simp [idlePulse]
      rw [e1]
      unfold pad
      rw [List.map_append, List.map_append, List.sum_append, List.sum_append, h0, h0, zero_add, add_zero]

theorem pulses_rabi_sum {l' l : List Pulse} (h : List.Forall₂ (fun p' p : Pulse => RoundedPulse r p' p) l' l)
    (hst : ∀ p ∈ l, Standard p) : (l'.map Pulse.rabi).sum ≤ (1 + r.u) * Real.pi * l.length := by
  have hu := r.u_nonneg
  have hpi := Real.pi_pos
  induction h with
  | nil => simp
  | @cons p' p l' l hp _ ih =>
    have h1 := ih fun q hq => hst q (by simp [hq])
    have h2 : 0 ≤ p.rabi ∧ p.rabi ≤ Real.pi := by
      rcases (hst p (by simp)).1 with ⟨-, a, b⟩ | ⟨a, -⟩
      · exact ⟨by linarith, b⟩
      · rw [a]; exact ⟨le_rfl, hpi.le⟩
    have h3 := (abs_le.mp (r.close p.rabi)).2
    rw [abs_of_nonneg h2.1] at h3
    have h4 := mul_le_mul_of_nonneg_left h2.2 (show 0 ≤ 1 + r.u by linarith)
    rw [List.map_cons, List.sum_cons, List.length_cons, hp.1]
    push_cast
    linarith

/-- What the control of a predefined sequence needs to be exported and read back: drive, and a bounded total
rotation. -/
theorem approximates_converted {ε T : ℝ} {prePost : Bool} {s : Sequence (Fl r)} {e : Sequence ℝ}
    (happ : Approximates ε s e) (hT : 2 / 10 ^ 8 ≤ T) (hw : WellFormed T prePost e) (hR : 0 < R.val)
    (hD : 0 < D.val) (hm : 0 ≤ m.val) (hwide : 32 * r.u * T < shortestPulse R.val D.val m.val)
    {name : Option String} {c : DrivenControl (Fl r)} (hc : convertDDS s R D m name = .ok c) :
    ((∃ x ∈ e.rabiRotations, 0 < x) → ∃ x ∈ c.rabiRates, 0 < x.val) ∧
    totalRotation (c.map val) ≤ (1 + r.u) ^ 2 * Real.pi * e.offsets.length := by
  have hu := r.u_nonneg
  have hu20 := r.u_le
  have hpi := Real.pi_gt_three
  have hT0 : 0 < T := lt_of_lt_of_le (by norm_num) hT
  have hcon := approximates_constructed happ hT0 hw
  have hsd : s.duration.val = T := happ.duration.trans hw.1
  have hp := approximates_pulses happ
  have hst := hw.standard'
  have hlen : (pulseList e).length = e.offsets.length := by
    have := pulseList_offsets e hw.2.1 hw.2.2.1 hw.2.2.2.1
    rw [← this, List.length_map]
  obtain ⟨hcol, -, -⟩ := pulseList_columns e hw.2.1 hw.2.2.1 hw.2.2.2.1
  have hget : ∀ i, (h : i < (pulseList (s.map val)).length) → ∃ h' : i < (pulseList e).length,
      RoundedPulse r (pulseList (s.map val))[i] (pulseList e)[i] := fun i h =>
    ⟨hp.length_eq ▸ h, List.Forall₂.get hp h (hp.length_eq ▸ h)⟩
  have hfacts : ∀ p' ∈ pulseList (s.map val), ∃ p, PulseFacts r p' p := by
    intro p' hp'
    obtain ⟨i, hi, rfl⟩ := List.getElem_of_mem hp'
    obtain ⟨hi', h⟩ := hget i hi
    exact ⟨_, pulse_facts h (hst _ (List.getElem_mem hi'))⟩
  constructor
  · rintro ⟨x, hx, hx0⟩
    rw [← hcol] at hx
    obtain ⟨p, hpm, rfl⟩ := List.mem_map.mp hx
    obtain ⟨i, hi, rfl⟩ := List.getElem_of_mem hpm
    have hi2 : i < (pulseList (s.map val)).length := hp.length_eq ▸ hi
    obtain ⟨hi', h⟩ := hget i hi2
    have hst' := hst _ hpm
    refine converted_drive hcon (by rw [hsd]; exact hT)
      (fun p hp => (hfacts p hp).choose_spec.clear) hc (List.getElem_mem hi2) ?_ ?_
    · rcases hst'.1 with ⟨-, a, -⟩ | ⟨a, -⟩
      · refine not_negligible_of_lt ?_
        rw [h.1]
        have h3 := (abs_le.mp (r.close (pulseList e)[i].rabi)).1
        rw [abs_of_nonneg (by linarith)] at h3
        have h4 : (1 - r.u) * (3 / 2) ≤ (1 - r.u) * (pulseList e)[i].rabi :=
          mul_le_mul_of_nonneg_left (by linarith) (by norm_num at hu20 ⊢; linarith)
        norm_num at hu20 h3 h4 ⊢
        linarith
      · rw [a] at hx0
        exact absurd hx0 (lt_irrefl _)
    · rw [hsd]
      have h1 := (hfacts _ (List.getElem_mem hi2)).choose_spec.width_ge _ _ _ hR hD hm
      have h2 : (1 - r.u) * (32 * r.u * T) ≤ (1 - r.u) * shortestPulse R.val D.val m.val :=
        mul_le_mul_of_nonneg_left hwide.le (by norm_num at hu20 ⊢; linarith)
      have h5 : 0 < shortestPulse R.val D.val m.val := lt_of_le_of_lt (by positivity) hwide
      rcases hu.eq_or_lt with h0 | h0
      · rw [← h0] at h1 h2 ⊢
        linarith
      · have h6 : 0 < r.u * T := by positivity
        have h7 := mul_le_mul_of_nonneg_right hu20 h6.le
        norm_num at h7
        linarith
  · refine (converted_rotation hcon hc).trans ?_
    have := mul_le_mul_of_nonneg_left (pulses_rabi_sum hp hst) (show 0 ≤ 1 + r.u by linarith)
    rw [hlen] at this
    linarith

theorem pulses_prePost {family : Family} {T : ℝ} {name : Option String} {e : Sequence ℝ}
    (hT : 0 < T) (hv : family.Valid) (h : family.call T true name = .ok e) :
    ∃ z : ℂ, ‖z‖ = 1 ∧ (pulses e = z • 1 ∨ pulses e = z • σz) := by
  rw [Family.call_eq hv hT] at h
  injection h with h
  have := pulses_withPrePost T (family.table T) name
  have hp : pulses e = pulses (withPrePost (finalAngle (family.table T))
      (piSequence T (family.table T) name)) := by rw [← h]; rfl
  rw [← hp] at this
  rcases this with ⟨z, hz, h⟩ | ⟨z, hz, h⟩
  · exact ⟨z, hz, .inl h⟩
  · exact ⟨z, hz, .inr h⟩

end OpenControls
