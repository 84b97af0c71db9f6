import Verif.Proofs.Reversal

/-!
# Undoing sequences and controls
-/

namespace OpenControls

open Spec

theorem hamiltonian_opposite (Ω φ Δ : ℝ) :
    hamiltonian Ω (φ + Real.pi) (-Δ) = -hamiltonian Ω φ Δ := by
  unfold hamiltonian
  rw [Real.cos_add_pi, Real.sin_add_pi]
  push_cast
  module

theorem exp_opposite (A : M2) : NormedSpace.exp A * NormedSpace.exp (-A) = 1 := by
  rw [Matrix.exp_neg, Matrix.mul_nonsing_inv]
  exact (Matrix.isUnit_iff_isUnit_det _).mp (Matrix.isUnit_exp A)

theorem segmentUnitary_opposite (Ω φ Δ t : ℝ) :
    segmentUnitary Ω φ Δ t * segmentUnitary Ω (φ + Real.pi) (-Δ) t = 1 := by
  unfold segmentUnitary
  rw [hamiltonian_opposite, smul_neg]
  exact exp_opposite _

theorem pulseUnitary_opposite (ω φ δ : ℝ) :
    pulseUnitary ω φ δ * pulseUnitary ω (φ + Real.pi) (-δ) = 1 := by
  unfold pulseUnitary
  rw [hamiltonian_opposite, smul_neg]
  exact exp_opposite _

theorem controlEvolution_concat {Ωs φs Δs ts : List ℝ} (h1 : φs.length = Ωs.length)
    (h2 : Δs.length = Ωs.length) (h3 : ts.length = Ωs.length) (Ω φ Δ t : ℝ) :
    controlEvolution (Ωs ++ [Ω]) (φs ++ [φ]) (Δs ++ [Δ]) (ts ++ [t]) =
      segmentUnitary Ω φ Δ t * controlEvolution Ωs φs Δs ts := by
  induction Ωs generalizing φs Δs ts with
  | nil =>
    obtain rfl := List.length_eq_zero_iff.mp h1
    obtain rfl := List.length_eq_zero_iff.mp h2
    obtain rfl := List.length_eq_zero_iff.mp h3
    simp [controlEvolution]
  | cons a Ωs ih =>
    obtain ⟨b, φs, rfl⟩ := List.exists_cons_of_length_eq_add_one h1
    obtain ⟨c, Δs, rfl⟩ := List.exists_cons_of_length_eq_add_one h2
    obtain ⟨d, ts, rfl⟩ := List.exists_cons_of_length_eq_add_one h3
    simp only [List.cons_append, controlEvolution]
    rw [ih (by simpa using h1) (by simpa using h2) (by simpa using h3), mul_assoc]

theorem controlEvolution_undoing {Ωs φs Δs ts : List ℝ} (h1 : φs.length = Ωs.length)
    (h2 : Δs.length = Ωs.length) (h3 : ts.length = Ωs.length) :
    controlEvolution Ωs φs Δs ts * controlEvolution Ωs.reverse ((φs.map (· + Real.pi)).reverse)
      ((Δs.map (-·)).reverse) ts.reverse = 1 := by
  induction Ωs generalizing φs Δs ts with
  | nil =>
    obtain rfl := List.length_eq_zero_iff.mp h1
    obtain rfl := List.length_eq_zero_iff.mp h2
    obtain rfl := List.length_eq_zero_iff.mp h3
    simp [controlEvolution]
  | cons a Ωs ih =>
    obtain ⟨b, φs, rfl⟩ := List.exists_cons_of_length_eq_add_one h1
    obtain ⟨c, Δs, rfl⟩ := List.exists_cons_of_length_eq_add_one h2
    obtain ⟨d, ts, rfl⟩ := List.exists_cons_of_length_eq_add_one h3
    simp only [List.length_cons, add_left_inj] at h1 h2 h3
    simp only [List.map_cons, List.reverse_cons, controlEvolution]
    rw [controlEvolution_concat (by simpa using h1) (by simpa using h2) (by simpa using h3), mul_assoc,
      ← mul_assoc (segmentUnitary a b c d), segmentUnitary_opposite, one_mul, ih h1 h2 h3]

theorem productOf_concat (ps : List Pulse) (p : Pulse) :
    productOf (ps ++ [p]) = pulseUnitary p.rabi p.azimuthal p.detuning * productOf ps := by
  induction ps with
  | nil => simp [productOf, pulseProduct]
  | cons q ps ih =>
    unfold productOf at ih ⊢
    simp only [List.cons_append, List.map_cons, pulseProduct]
    rw [ih, mul_assoc]

/-- the pulse that undoes a pulse -/
noncomputable def oppositePulse (T : ℝ) (p : Pulse) : Pulse :=
  ⟨T - p.offset, p.rabi, p.azimuthal + Real.pi, -p.detuning⟩

theorem negligible_neg (x : ℝ) : Negligible (-x) ↔ Negligible x := by
  unfold Negligible; rw [abs_neg]

theorem effective_opposite (T : ℝ) (p : Pulse) :
    effective (oppositePulse T p) = oppositePulse T (effective p) := by
  have e1 : (oppositePulse T p).rabi = p.rabi := rfl
  have e2 : (oppositePulse T p).detuning = -p.detuning := rfl
  unfold effective
  by_cases h1 : Negligible p.rabi
  · have h1' : Negligible (oppositePulse T p).rabi := h1
    by_cases h2 : Negligible p.detuning
    · have h2' : Negligible (oppositePulse T p).detuning := (negligible_neg _).mpr h2
      rw [if_neg (not_not.mpr h1'), if_neg (not_not.mpr h2'), if_neg (not_not.mpr h1),
        if_neg (not_not.mpr h2)]
      simp [oppositePulse]
    · have h2' : ¬ Negligible (oppositePulse T p).detuning := fun h => h2 ((negligible_neg _).mp h)
      rw [if_neg (not_not.mpr h1'), if_pos h2', if_neg (not_not.mpr h1), if_pos h2]
      simp [oppositePulse]
  · have h1' : ¬ Negligible (oppositePulse T p).rabi := h1
    rw [if_pos h1', if_pos h1]
    simp [oppositePulse]

theorem width_opposite {R D m : ℝ} (T : ℝ) (p : Pulse) :
    width R D m (oppositePulse T p) = width R D m p := by
  have e1 : (oppositePulse T p).rabi = p.rabi := rfl
  have e2 : (oppositePulse T p).detuning = -p.detuning := rfl
  unfold width
  by_cases h1 : Negligible p.rabi
  · have h1' : Negligible (oppositePulse T p).rabi := h1
    by_cases h2 : Negligible p.detuning
    · have h2' : Negligible (oppositePulse T p).detuning := (negligible_neg _).mpr h2
      rw [if_neg (not_not.mpr h1'), if_neg (not_not.mpr h2'), if_neg (not_not.mpr h1),
        if_neg (not_not.mpr h2)]
    · have h2' : ¬ Negligible (oppositePulse T p).detuning := fun h => h2 ((negligible_neg _).mp h)
      rw [if_neg (not_not.mpr h1'), if_pos h2', if_neg (not_not.mpr h1), if_pos h2, e2, abs_neg]
  · have h1' : ¬ Negligible (oppositePulse T p).rabi := h1
    rw [if_pos h1', if_pos h1, e1]

theorem productOf_undoing (T : ℝ) (ps : List Pulse) :
    productOf ps * productOf ((ps.map (oppositePulse T)).reverse) = 1 := by
  induction ps with
  | nil => simp [productOf, pulseProduct]
  | cons p ps ih =>
    rw [List.map_cons, List.reverse_cons, productOf_concat]
    have : productOf (p :: ps) = productOf ps * pulseUnitary p.rabi p.azimuthal p.detuning := rfl
    rw [this, mul_assoc, ← mul_assoc (pulseUnitary _ _ _)]
    show productOf ps * (pulseUnitary p.rabi p.azimuthal p.detuning *
      pulseUnitary p.rabi (p.azimuthal + Real.pi) (-p.detuning) * _) = 1
    rw [pulseUnitary_opposite, one_mul, ih]

/-- a segment with opposite rotation -/
noncomputable def oppositeSegment (g : Segment ℝ) : Segment ℝ :=
  { turnSegment Real.pi g with detuning := -g.detuning }

theorem pulseSeg_opposite {R D m : ℝ} (hR : 0 < R) (hD : 0 < D) {p : Pulse} (hp : 0 ≤ p.rabi) (T : ℝ) :
    pulseSeg R D m (oppositePulse T p) = oppositeSegment (pulseSeg R D m p) := by
  have e := pulseSeg_turn (φ := Real.pi) (p := p) (R := R) (D := D) (m := m)
    fun h => width_pos hR hD hp fun h' => h h'.1
  unfold oppositeSegment
  rw [← e]
  unfold pulseSeg
  have hwid : width R D m (turnPulse Real.pi p) = width R D m p := rfl
  rw [width_opposite, hwid]
  unfold drive
  rw [width_opposite, hwid]
  by_cases h1 : Negligible p.rabi
  · have h1' : Negligible (oppositePulse T p).rabi := h1
    have h1'' : Negligible (turnPulse Real.pi p).rabi := h1
    by_cases h2 : Negligible p.detuning
    · have h2' : Negligible (oppositePulse T p).detuning := (negligible_neg _).mpr h2
      have h2'' : Negligible (turnPulse Real.pi p).detuning := h2
      rw [if_neg (not_not.mpr h1'), if_neg (not_not.mpr h2'), if_neg (not_not.mpr h1),
        if_neg (not_not.mpr h2), if_neg (not_not.mpr h1''), if_neg (not_not.mpr h2'')]
      simp
    · have h2' : ¬ Negligible (oppositePulse T p).detuning := fun h => h2 ((negligible_neg _).mp h)
      have h2'' : ¬ Negligible (turnPulse Real.pi p).detuning := h2
      rw [if_neg (not_not.mpr h1'), if_pos h2', if_neg (not_not.mpr h1), if_pos h2,
        if_neg (not_not.mpr h1''), if_pos h2'']
      simp [oppositePulse, neg_div]
  · have h1' : ¬ Negligible (oppositePulse T p).rabi := h1
    have h1'' : ¬ Negligible (turnPulse Real.pi p).rabi := h1
    rw [if_pos h1', if_pos h1, if_pos h1'']
    simp [oppositePulse, turnPulse]

theorem window_opposite {T R D m : ℝ} (hT : 0 < T) (p : Pulse) :
    window T R D m (oppositePulse T p) = (T - (window T R D m p).2, T - (window T R D m p).1) := by
  rw [← window_mirror hT]
  have : width R D m (oppositePulse T p) = width R D m (mirrorPulse T p) := by
    rw [width_opposite, width_mirror]
  unfold window
  rw [this]
  rfl

theorem ofSegments_opposite (gs : List (Segment ℝ)) (name : Option String) :
    ofSegments (gs.map oppositeSegment).reverse name =
      { reversed (turnedControl Real.pi (ofSegments gs name)) with
        detunings := ((ofSegments gs name).detunings.map (-·)).reverse } := by
  rw [← ofSegments_turned, ← ofSegments_reverse]
  simp [ofSegments, oppositeSegment, Function.comp_def]

theorem pulseList_undoing {s : Sequence ℝ} (hs : s.Constructed) :
    pulseList (undoing s) = ((pulseList s).map (oppositePulse s.duration)).reverse := by
  obtain ⟨hT, hb, hr, ha, hd⟩ := hs.facts
  unfold pulseList undoing backwards turned
  dsimp only
  rw [zip_reverse_eq (by simp [ha, hd]), zip_reverse_eq (by simp [ha, hd, hr]),
    zipWith_reverse_eq _ (by simp [ha, hd, hr])]
  congr 1
  generalize s.duration = T
  generalize s.offsets = o
  generalize s.rabiRotations = r
  generalize s.azimuthalAngles = a
  generalize s.detuningRotations = d
  induction o generalizing r a d with
  | nil => rfl
  | cons t o ih =>
    cases r with
    | nil => rfl
    | cons x r =>
      cases a with
      | nil => rfl
      | cons y a =>
        cases d with
        | nil => rfl
        | cons z d =>
          simp only [List.map_cons, List.zip_cons_cons, List.zipWith_cons_cons, ih]
          rfl

theorem undoing_constructed {s : Sequence ℝ} (hs : s.Constructed) : (undoing s).Constructed := by
  obtain ⟨hT, hb, hr, ha, hd⟩ := hs.facts
  refine constructed_of_facts hT (fun t ht => ?_) ?_ ?_ ?_
  · simp only [undoing, backwards, turned, List.mem_reverse, List.mem_map] at ht
    obtain ⟨x, hx, rfl⟩ := ht
    have := hb x hx
    exact ⟨by linarith, by simp only [undoing, backwards, turned]; linarith⟩
  · simpa [undoing, backwards, turned] using hr
  · simpa [undoing, backwards, turned] using ha
  · simpa [undoing, backwards, turned] using hd

theorem undoing_convertible {R D m : ℝ} {s : Sequence ℝ} (hs : s.Constructed)
    (hp : ∀ p ∈ pulseList s, p.rabi = 0 ∨ p.detuning = 0) (hc : Convertible R D m s) :
    Convertible R D m (undoing s) := by
  obtain ⟨h1, h2, h3, h4, h5, h6, h7⟩ := hc.backwards hs
  refine ⟨h1, h2, h3, ?_, ?_, h6, ?_⟩
  · rw [pulseList_undoing hs]
    intro p hp
    rw [List.mem_reverse] at hp
    obtain ⟨q, hq, rfl⟩ := List.mem_map.mp hp
    exact hc.2.2.2.1 q hq
  · rw [pulseList_undoing hs]
    intro p hp'
    rw [List.mem_reverse] at hp'
    obtain ⟨q, hq, rfl⟩ := List.mem_map.mp hp'
    rintro ⟨a, b⟩
    simp only [oppositePulse] at a b
    rcases hp q hq with h | h
    · rw [h] at a; exact lt_irrefl _ a
    · rw [h, neg_zero] at b; exact lt_irrefl _ b
  · have e : windows R D m (undoing s) = windows R D m (backwards s) := by
      unfold windows
      rw [pulseList_undoing hs, pulseList_backwards hs, List.map_reverse, List.map_reverse, List.map_map,
        List.map_map]
      have hw : ∀ p, window s.duration R D m (oppositePulse s.duration p) =
          window s.duration R D m (mirrorPulse s.duration p) := fun p => by
        rw [window_opposite hs.facts.1, window_mirror hs.facts.1]
      have hf : window s.duration R D m ∘ oppositePulse s.duration =
          window s.duration R D m ∘ mirrorPulse s.duration := funext hw
      show (if (undoing s).offsets.head? = some 0 then [] else [(0, 0)]) ++
        (List.map (window s.duration R D m ∘ oppositePulse s.duration) (pulseList s)).reverse ++ _ = _
      rw [hf]
      rfl
    rwa [e]

/-- relates the pulses of a sequence and of its reverse to those of the undoing one -/
def OppositeOf (p q : Pulse) : Prop :=
  (q = ⟨p.offset, p.rabi, p.azimuthal + Real.pi, -p.detuning⟩) ∨ (q = p ∧ ∃ t, p = idlePulse t)

theorem OppositeOf.width {R D m : ℝ} {p q : Pulse} (h : OppositeOf p q) :
    Spec.width R D m q = Spec.width R D m p := by
  rcases h with rfl | ⟨rfl, -⟩
  · exact width_opposite (p.offset + p.offset) p
  · rfl

theorem OppositeOf.window {T R D m : ℝ} {p q : Pulse} (h : OppositeOf p q) :
    Spec.window T R D m q = Spec.window T R D m p := by
  have e : q.offset = p.offset := by rcases h with rfl | ⟨rfl, -⟩ <;> rfl
  unfold Spec.window
  rw [h.width, e]

theorem OppositeOf.segment {R D m : ℝ} (hR : 0 < R) (hD : 0 < D) {p q : Pulse} (hp : 0 ≤ p.rabi)
    (h : OppositeOf p q) : pulseSeg R D m q = oppositeSegment (pulseSeg R D m p) := by
  rcases h with rfl | ⟨rfl, t, rfl⟩
  · exact pulseSeg_opposite hR hD hp (p.offset + p.offset)
  · unfold oppositeSegment turnSegment
    rw [if_pos (by simp [pulseSeg, drive_idle])]
    simp [pulseSeg, drive_idle]

theorem pad_opposite (T : ℝ) (ps : List Pulse) :
    List.Forall₂ OppositeOf (((pad T ps).map (mirrorPulse T)).reverse)
      (pad T ((ps.map (oppositePulse T)).reverse)) := by
  rw [← pad_backwards]
  have hl : List.Forall₂ OppositeOf ((ps.map (mirrorPulse T)).reverse)
      ((ps.map (oppositePulse T)).reverse) := by
    rw [List.forall₂_reverse_iff, List.forall₂_map_left_iff, List.forall₂_map_right_iff,
      List.forall₂_same]
    exact fun p _ => .inl rfl
  have e : ((ps.map (oppositePulse T)).reverse).map Pulse.offset =
      ((ps.map (mirrorPulse T)).reverse).map Pulse.offset := by
    rw [List.map_reverse, List.map_reverse, List.map_map, List.map_map]
    rfl
  generalize (ps.map (oppositePulse T)).reverse = b at hl e
  generalize (ps.map (mirrorPulse T)).reverse = a at hl e
  unfold pad
  simp only [e]
  have hi : ∀ (c : Prop) [Decidable c] (t : ℝ), List.Forall₂ OppositeOf
      (if c then [] else [idlePulse t]) (if c then [] else [idlePulse t]) := by
    intro c _ t
    split
    · exact .nil
    · exact .cons (.inr ⟨rfl, t, rfl⟩) .nil
  exact List.rel_append (List.rel_append (hi _ _) hl) (hi _ _)

theorem oppositeSegment_duration (g : Segment ℝ) : (oppositeSegment g).duration = g.duration :=
  turnSegment_duration Real.pi g

theorem kept_opposite {T R D m : ℝ} (hT : 0 < T) (hR : 0 < R) (hD : 0 < D) {ps : List Pulse}
    (hl : ∀ p ∈ ps, 0 ≤ p.rabi) :
    kept T R D m (pad T ((ps.map (oppositePulse T)).reverse)) =
      ((kept T R D m (pad T ps)).map oppositeSegment).reverse := by
  rw [← List.map_reverse (f := oppositeSegment), ← kept_mirror hT]
  refine kept_forall oppositeSegment_duration (fun d => by simp [oppositeSegment, turnSegment])
    (fun _ _ _ h => h.window) (fun p hp _ h => h.segment hR hD ?_) (pad_opposite T ps)
  rw [List.mem_reverse] at hp
  obtain ⟨q, hq, rfl⟩ := List.mem_map.mp hp
  rcases pad_mem hq with h | rfl | rfl
  · exact hl q h
  · exact le_rfl
  · exact le_rfl

end OpenControls
