import Verif.Proofs.EndToEnd
import Verif.Proofs.Optimal
import Verif.Spec.Hardware

/-!
# Lemmas on the hardware the predefined sequences need
-/

namespace OpenControls

open Spec RealInst

theorem gap_passes {m g : ℝ} (hm : 0 ≤ m) : (m < g ∨ NearValue g m) ↔ shortestGap m ≤ g := by
  unfold NearValue shortestGap
  rw [abs_of_nonneg hm, abs_le]
  constructor
  · rintro (h | h)
    · linarith
    · linarith [h.1]
  · intro h
    rcases lt_or_ge m g with h' | h'
    · exact .inl h'
    · exact .inr ⟨by linarith, by linarith⟩

theorem chain_to_end {μ w e T : ℝ} (l : List ℝ) (t : ℝ) (hs : (t :: l).Pairwise (· < ·)) :
    (((t :: l).map fun t => (t - w / 2, t + w / 2)) ++ [(T - e, T)]).IsChain
        (fun v u : ℝ × ℝ => μ ≤ u.1 - v.2) ↔
      (∀ a ∈ t :: l, w / 2 + e + μ ≤ T - a) ∧ ∀ a ∈ t :: l, ∀ b ∈ t :: l, a < b → w + μ ≤ b - a := by
  induction l generalizing t with
  | nil =>
    simp only [List.map_cons, List.map_nil, List.cons_append, List.nil_append, List.isChain_cons_cons,
      List.isChain_singleton, and_true, List.mem_singleton]
    constructor
    · intro h
      refine ⟨fun a ha => by subst ha; linarith, fun a ha b hb hab => ?_⟩
      subst ha; subst hb; exact absurd hab (lt_irrefl _)
    · rintro ⟨h, -⟩
      linarith [h t rfl]
  | cons u l ih =>
    have hs' := (List.pairwise_cons.mp hs).2
    have htu := (List.pairwise_cons.mp hs).1
    have hul := (List.pairwise_cons.mp hs').1
    have hu : ∀ b ∈ u :: l, u ≤ b := by
      intro b hb
      rcases List.mem_cons.mp hb with rfl | hb
      · exact le_rfl
      · exact (hul b hb).le
    rw [List.map_cons, List.map_cons, List.cons_append, List.cons_append, List.isChain_cons_cons,
      ← List.cons_append, ← List.map_cons (f := fun t => (t - w / 2, t + w / 2)), ih u hs']
    constructor
    · rintro ⟨h0, h1, h2⟩
      simp only at h0
      refine ⟨?_, ?_⟩
      · intro a ha
        rcases List.mem_cons.mp ha with rfl | ha
        · linarith [h1 u (List.mem_cons_self ..), htu u (List.mem_cons_self ..)]
        · exact h1 a ha
      · intro a ha b hb hab
        rcases List.mem_cons.mp ha with ha' | ha'
        · rcases List.mem_cons.mp hb with hb' | hb'
          · rw [ha', hb'] at hab; exact absurd hab (lt_irrefl _)
          · rw [ha']; linarith [hu b hb']
        · rcases List.mem_cons.mp hb with hb' | hb'
          · rw [hb'] at hab; exact absurd (htu a ha') (lt_asymm hab)
          · exact h2 a ha' b hb' hab
    · rintro ⟨h1, h2⟩
      refine ⟨?_, fun a ha => h1 a (List.mem_cons_of_mem _ ha),
        fun a ha b hb => h2 a (List.mem_cons_of_mem _ ha) b (List.mem_cons_of_mem _ hb)⟩
      have := h2 t (List.mem_cons_self ..) u (List.mem_cons_of_mem _ (List.mem_cons_self ..))
        (htu u (List.mem_cons_self ..))
      simp only
      linarith

theorem chain_both_ends {μ w e T : ℝ} {times : List ℝ} (hne : times ≠ []) (hs : times.Pairwise (· < ·)) :
    ((0, e) :: ((times.map fun t => (t - w / 2, t + w / 2)) ++ [(T - e, T)])).IsChain
        (fun v u : ℝ × ℝ => μ ≤ u.1 - v.2) ↔
      (∀ a ∈ times, w / 2 + e + μ ≤ a ∧ w / 2 + e + μ ≤ T - a) ∧
        ∀ a ∈ times, ∀ b ∈ times, a < b → w + μ ≤ b - a := by
  obtain ⟨t, l, rfl⟩ := List.exists_cons_of_ne_nil hne
  have ht := (List.pairwise_cons.mp hs).1
  have h0 := chain_to_end (μ := μ) (w := w) (e := e) (T := T) l t hs
  rw [List.map_cons, List.cons_append] at h0 ⊢
  rw [List.isChain_cons_cons, h0]
  constructor
  · rintro ⟨h, h1, h2⟩
    simp only at h
    refine ⟨fun a ha => ⟨?_, h1 a ha⟩, h2⟩
    rcases List.mem_cons.mp ha with rfl | ha
    · linarith
    · linarith [ht a ha]
  · rintro ⟨h1, h2⟩
    refine ⟨?_, fun a ha => (h1 a ha).2, h2⟩
    have := (h1 t (List.mem_cons_self ..)).1
    simp only
    linarith

theorem not_negligible_pi : ¬ Negligible Real.pi := not_negligible_of_lt (by linarith [Real.pi_gt_three])

theorem not_negligible_half_pi : ¬ Negligible (Real.pi / 2) :=
  not_negligible_of_lt (by linarith [Real.pi_gt_three])

theorem width_pi (R D m t φ : ℝ) : width R D m ⟨t, Real.pi, φ, 0⟩ = piTime R m := by
  unfold width
  rw [if_pos not_negligible_pi]; rfl

theorem width_half_pi (R D m t φ : ℝ) : width R D m ⟨t, Real.pi / 2, φ, 0⟩ = endTime R m true := by
  unfold width
  rw [if_pos not_negligible_half_pi]; rfl

theorem pulseList_planar (T : ℝ) {axis : Axis} (h : axis ≠ .z) (times : List ℝ) (name : Option String) :
    pulseList (piSequence T (onAxis axis times) name) =
      times.map fun t => ⟨t, Real.pi, axis.azimuthal, 0⟩ := by
  have h1 : axis.rabi = Real.pi := by cases axis <;> simp_all [Axis.rabi]
  have h2 : axis.detuning = 0 := by cases axis <;> simp_all [Axis.detuning]
  unfold pulseList piSequence onAxis
  simp only [List.map_map, Function.comp_def, h1, h2]
  induction times with
  | nil => rfl
  | cons t l ih => simp only [List.map_cons, List.zip_cons_cons, List.zipWith_cons_cons, ih]

theorem pulseList_bracketed (φ : ℝ) {s : Sequence ℝ} (hr : s.rabiRotations.length = s.offsets.length)
    (ha : s.azimuthalAngles.length = s.offsets.length)
    (hd : s.detuningRotations.length = s.offsets.length) :
    pulseList (withPrePost φ s) =
      ⟨0, Real.pi / 2, 0, 0⟩ :: (pulseList s ++ [⟨s.duration, Real.pi / 2, φ, 0⟩]) := by
  unfold pulseList withPrePost
  simp only [List.zip_cons_cons, List.zipWith_cons_cons]
  rw [List.zip_append (by rw [ha, hd]), List.zip_append (by simp [hr, ha, hd]),
    List.zipWith_append (by simp [hr, ha, hd])]
  rfl

theorem map_window_planar {T R D m : ℝ} {φ : ℝ} {times : List ℝ} (h : ∀ t ∈ times, 0 < t ∧ t < T) :
    (times.map fun t => (⟨t, Real.pi, φ, 0⟩ : Pulse)).map (window T R D m) =
      times.map fun t => (t - piTime R m / 2, t + piTime R m / 2) := by
  rw [List.map_map]
  refine List.map_congr_left fun t ht => ?_
  obtain ⟨h1, h2⟩ := h t ht
  simp only [Function.comp, window, if_neg h1.ne', if_neg h2.ne, width_pi]

theorem windows_planar {T R D m : ℝ} (hT : 0 < T) {axis : Axis} (hx : axis ≠ .z) {times : List ℝ}
    (h : ∀ t ∈ times, 0 < t ∧ t < T) (prePost : Bool) (name : Option String) :
    windows R D m (finished T (onAxis axis times) prePost name) =
      (0, endTime R m prePost) :: ((times.map fun t => (t - piTime R m / 2, t + piTime R m / 2)) ++
        [(T - endTime R m prePost, T)]) := by
  have ho : (onAxis axis times).map (fun p => p.1) = times := by simp [onAxis, Function.comp_def]
  cases prePost with
  | false =>
    show windows R D m (piSequence T (onAxis axis times) name) = _
    unfold windows
    rw [pulseList_planar T hx]
    simp only [piSequence, ho]
    rw [map_window_planar h, if_neg, if_neg]
    · simp [endTime]
    · intro hl
      exact absurd (h T (List.mem_of_getLast? hl)).2 (lt_irrefl _)
    · intro hl
      exact absurd (h 0 (List.mem_of_mem_head? hl)).1 (lt_irrefl _)
  | true =>
    show windows R D m (withPrePost (finalAngle (onAxis axis times)) (piSequence T (onAxis axis times) name)) = _
    unfold windows
    rw [pulseList_bracketed _ (by simp [piSequence]) (by simp [piSequence]) (by simp [piSequence]),
      pulseList_planar T hx]
    simp only [piSequence, withPrePost, ho]
    rw [if_pos (by simp), if_pos (by rw [List.getLast?_cons, List.getLast?_append]; simp)]
    rw [List.map_cons, List.map_append, map_window_planar h]
    simp only [List.map_cons, List.map_nil, window, if_true, if_neg hT.ne', width_half_pi,
      List.nil_append, List.append_nil]

/-- what the conversion asks of sequences of π-pulses about one axis in the plane -/
theorem convertible_planar {T R D m : ℝ} (hT : 0 < T) {axis : Axis} (hx : axis ≠ .z) {times : List ℝ}
    (hne : times ≠ []) (h : Ordered T times) (prePost : Bool) (name : Option String) :
    Convertible R D m (finished T (onAxis axis times) prePost name) ↔
      0 < R ∧ 0 < D ∧ 0 ≤ m ∧
      (∀ a ∈ times, piTime R m / 2 + endTime R m prePost + shortestGap m ≤ a ∧
        piTime R m / 2 + endTime R m prePost + shortestGap m ≤ T - a) ∧
      ∀ a ∈ times, ∀ b ∈ times, a < b → piTime R m + shortestGap m ≤ b - a := by
  have ho : (onAxis axis times).map (fun p => p.1) = times := by simp [onAxis, Function.comp_def]
  have hgap : 0 ≤ m → (EachGap (fun g => m < g ∨ NearValue g m)
      (windows R D m (finished T (onAxis axis times) prePost name)) ↔
      (∀ a ∈ times, piTime R m / 2 + endTime R m prePost + shortestGap m ≤ a ∧
        piTime R m / 2 + endTime R m prePost + shortestGap m ≤ T - a) ∧
      ∀ a ∈ times, ∀ b ∈ times, a < b → piTime R m + shortestGap m ≤ b - a) := fun hm => by
    have e : (fun g => m < g ∨ NearValue g m) = fun g => shortestGap m ≤ g := by
      funext g; exact propext (gap_passes hm)
    rw [e, windows_planar hT hx h.2, EachGap]
    exact chain_both_ends hne h.1
  unfold Convertible
  constructor
  · rintro ⟨hR, hD, hm, -, -, -, hg⟩
    exact ⟨hR, hD, hm, (hgap hm).mp hg⟩
  · rintro ⟨hR, hD, hm, hg⟩
    have hp : ∀ p ∈ pulseList (finished T (onAxis axis times) prePost name),
        0 ≤ p.rabi ∧ p.detuning = 0 := by
      have hpi := Real.pi_pos
      have h1 : ∀ p ∈ pulseList (piSequence T (onAxis axis times) name), 0 ≤ p.rabi ∧ p.detuning = 0 := by
        rw [pulseList_planar T hx]
        intro p hp
        obtain ⟨t, -, rfl⟩ := List.mem_map.mp hp
        exact ⟨hpi.le, rfl⟩
      cases prePost with
      | false => exact h1
      | true =>
        intro p hp
        change p ∈ pulseList (withPrePost (finalAngle (onAxis axis times))
          (piSequence T (onAxis axis times) name)) at hp
        rw [pulseList_bracketed _ (by simp [piSequence]) (by simp [piSequence]) (by simp [piSequence])] at hp
        rcases List.mem_cons.mp hp with rfl | hp
        · exact ⟨by positivity, rfl⟩
        · rcases List.mem_append.mp hp with hp | hp
          · exact h1 p hp
          · rw [List.mem_singleton.mp hp]; exact ⟨by positivity, rfl⟩
    refine ⟨hR, hD, hm, fun p q => (hp p q).1, fun p q => by rw [(hp p q).2]; exact fun h => lt_irrefl _ h.2,
      ?_, (hgap hm).mpr hg⟩
    cases prePost with
    | false =>
      show ((onAxis axis times).map fun p => p.1).Pairwise (· < ·)
      rw [ho]; exact h.1
    | true =>
      show (0 :: (((onAxis axis times).map fun p => p.1) ++ [T])).Pairwise (· < ·)
      rw [ho, List.pairwise_cons, List.pairwise_append]
      refine ⟨?_, h.1, List.pairwise_singleton _ _, fun a ha b hb => ?_⟩
      · intro a ha
        rcases List.mem_append.mp ha with ha | ha
        · exact (h.2 a ha).1
        · rw [List.mem_singleton.mp ha]; exact hT
      · rw [List.mem_singleton.mp hb]; exact (h.2 a ha).2

end OpenControls
