import Mathlib.Topology.Order.MonotoneConvergence
import Mathlib.Topology.Algebra.Order.LiminfLimsup
import Verif.Proofs.EndToEnd
import Verif.Proofs.RoundedRates

/-!
# Faster hardware never hurts: how the conversion depends on its limits
-/

namespace OpenControls

open Spec Fl Filter Topology

variable {R D m R' D' m' : ℝ}

theorem gap_iff (hm : 0 ≤ m) (g : ℝ) :
    (m < g ∨ NearValue g m) ↔ m - (1 / 10 ^ 8 + 1 / 10 ^ 5 * m) ≤ g := by
  refine ⟨gap_ge hm, fun h => ?_⟩
  rcases lt_or_ge m g with h' | h'
  · exact .inl h'
  · right
    unfold NearValue
    rw [abs_of_nonneg hm, abs_of_nonpos (by linarith)]
    linarith

theorem width_faster {p : Pulse} (hp : 0 ≤ p.rabi) (hR : 0 < R) (hD : 0 < D) (hR' : R ≤ R')
    (hD' : D ≤ D') (hm' : m' ≤ m) : width R' D' m' p ≤ width R D m p := by
  unfold width
  split
  · exact max_le_max (div_le_div_of_nonneg_left hp hR hR') hm'
  · split
    · exact max_le_max (div_le_div_of_nonneg_left (abs_nonneg _) hD hD') hm'
    · exact le_rfl

theorem window_faster (T : ℝ) {p : Pulse} (h : width R' D' m' p ≤ width R D m p) :
    (window T R D m p).1 ≤ (window T R' D' m' p).1 ∧
      (window T R' D' m' p).2 ≤ (window T R D m p).2 := by
  unfold window
  split
  · exact ⟨le_rfl, h⟩
  · split
    · exact ⟨by simp only; linarith, le_rfl⟩
    · exact ⟨by simp only; linarith, by simp only; linarith⟩

theorem Spec.Convertible.faster {s : Sequence ℝ} (hs : s.Constructed) (hc : Convertible R D m s)
    (hR' : R ≤ R') (hD' : D ≤ D') (hm0 : 0 ≤ m') (hm' : m' ≤ m) : Convertible R' D' m' s := by
  have hrabi := pad_rabi hc
  obtain ⟨hR, hD, hm, h1, h2, h3, h4⟩ := hc
  refine ⟨hR.trans_le hR', hD.trans_le hD', hm0, h1, h2, h3, ?_⟩
  rw [windows_eq hs, EachGap] at h4 ⊢
  refine isChain_map_imp h4 fun a ha b hb h => ?_
  rw [gap_iff hm] at h
  rw [gap_iff hm0]
  have e1 := (window_faster s.duration (width_faster (hrabi a ha) hR hD hR' hD' hm')).2
  have e2 := (window_faster s.duration (width_faster (hrabi b hb) hR hD hR' hD' hm')).1
  linarith

/-! ## Thresholds -/

theorem window_le {T : ℝ} (hm : 0 ≤ m) {p : Pulse} (hb : 0 ≤ p.offset ∧ p.offset ≤ T) :
    (window T R D m p).1 ≤ T ∧ 0 ≤ (window T R D m p).2 := by
  have h0 := width_nonneg hm R D p
  unfold window
  split
  · exact ⟨hb.1.trans hb.2, h0⟩
  · split
    · exact ⟨by simp only; linarith, hb.1.trans hb.2⟩
    · exact ⟨by simp only; linarith, by simp only; linarith⟩

theorem isChain_before {β : Type} {P : β → β → Prop} {a : β} {l : List β} (h : (a :: l).IsChain P) :
    ∀ p ∈ l, ∃ q ∈ a :: l, P q p := by
  induction l generalizing a with
  | nil => simp
  | cons b l ih =>
    rw [List.isChain_cons_cons] at h
    intro p hp
    rcases List.mem_cons.mp hp with rfl | hp
    · exact ⟨a, by simp, h.1⟩
    · obtain ⟨q, hq, h'⟩ := ih h.2 p hp
      exact ⟨q, List.mem_cons_of_mem _ hq, h'⟩

theorem isChain_after {β : Type} {P : β → β → Prop} {a b : β} {l : List β}
    (h : (a :: (l ++ [b])).IsChain P) : ∃ q ∈ l ++ [b], P a q := by
  cases l with
  | nil => exact ⟨b, by simp, by simpa using h⟩
  | cons c l => exact ⟨c, by simp, (List.isChain_cons_cons.mp h).1⟩

/-- the instants of a sequence -/
theorem pad_offsets {s : Sequence ℝ} (hs : s.Constructed) (p : Pulse)
    (hp : p ∈ pad s.duration (pulseList s)) : 0 ≤ p.offset ∧ p.offset ≤ s.duration := by
  obtain ⟨hT, hb, hr, ha, hd⟩ := hs.facts
  have ho := pulseList_offsets s hr ha hd
  rcases pad_mem hp with h | rfl | rfl
  · exact hb _ (ho ▸ List.mem_map_of_mem h)
  · exact ⟨le_rfl, hT.le⟩
  · exact ⟨hT.le, le_rfl⟩

theorem pad_structure {s : Sequence ℝ} (hs : s.Constructed) (hinc : s.offsets.Pairwise (· < ·)) :
    ∃ a mid b, pad s.duration (pulseList s) = a :: (mid ++ [b]) ∧ a.offset = 0 ∧
      b.offset = s.duration ∧ ∀ p ∈ mid, 0 < p.offset ∧ p.offset < s.duration := by
  obtain ⟨hT, hb, hr, ha, hd⟩ := hs.facts
  have ho := pulseList_offsets s hr ha hd
  exact (pad_shape hT (pulseList s) (ho ▸ hinc) (fun p hp => hb _ (ho ▸ List.mem_map_of_mem hp))).2

/-- In a convertible sequence no pulse takes much longer than twice the sequence. -/
theorem Spec.Convertible.width_le {s : Sequence ℝ} (hs : s.Constructed) (hc : Convertible R D m s)
    {p : Pulse} (hp : p ∈ pulseList s) : width R D m p ≤ 2 * s.duration + 1 := by
  obtain ⟨hR, hD, hm, h1, h2, h3, h4⟩ := hc
  obtain ⟨a, mid, b, he, ha, hb, hmid⟩ := pad_structure hs h3
  have hoff := pad_offsets hs
  have hT := hs.facts.1
  have hmem : p ∈ pad s.duration (pulseList s) := by
    unfold pad; exact List.mem_append_left _ (List.mem_append_right _ hp)
  have hw0 := width_nonneg hm R D p
  rw [windows_eq hs, EachGap, List.isChain_map, he] at h4
  rw [he] at hmem hoff
  rcases List.mem_cons.mp hmem with rfl | hmem'
  · obtain ⟨q, hq, h⟩ := isChain_after h4
    rw [gap_iff hm] at h
    have e1 := (window_le (R := R) (D := D) hm (hoff q (List.mem_cons_of_mem _ hq))).1
    have e2 : (window s.duration R D m p).2 = width R D m p := by simp [window, ha]
    rw [e2] at h
    linarith
  · obtain ⟨q, hq, h⟩ := isChain_before h4 p hmem'
    rw [gap_iff hm] at h
    have e1 := (window_le (R := R) (D := D) hm (hoff q hq)).2
    have hp0 : p.offset ≠ 0 := by
      rcases List.mem_append.mp hmem' with h | h
      · exact (hmid p h).1.ne'
      · rw [List.mem_singleton.mp h, hb]; exact hT.ne'
    have e2 : (window s.duration R D m p).1 ≤ s.duration - width R D m p / 2 := by
      unfold window
      rw [if_neg hp0]
      split
      · simp only; linarith
      · have := (hoff p hmem).2
        simp only; linarith
    linarith

theorem Spec.Convertible.minimum_le {s : Sequence ℝ} (hs : s.Constructed)
    (hc : Convertible R D m s) : m ≤ 2 * s.duration + 1 := by
  obtain ⟨hR, hD, hm, h1, h2, h3, h4⟩ := hc
  obtain ⟨a, mid, b, he, ha, hb, hmid⟩ := pad_structure hs h3
  have hoff := pad_offsets hs
  have hT := hs.facts.1
  rw [windows_eq hs, EachGap, List.isChain_map, he] at h4
  rw [he] at hoff
  obtain ⟨q, hq, h⟩ := isChain_after h4
  rw [gap_iff hm] at h
  have e1 := (window_le (R := R) (D := D) hm (hoff q (List.mem_cons_of_mem _ hq))).1
  have e2 := (window_le (R := R) (D := D) hm (hoff a (by simp))).2
  linarith

section
variable {ι : Type} {F : Filter ι} {r d n : ι → ℝ}

theorem width_tendsto (hR : 0 < R) (hD : 0 < D) (hr : Tendsto r F (𝓝 R)) (hd : Tendsto d F (𝓝 D))
    (hn : Tendsto n F (𝓝 m)) (p : Pulse) :
    Tendsto (fun i => width (r i) (d i) (n i) p) F (𝓝 (width R D m p)) := by
  unfold width
  split
  · exact (tendsto_const_nhds.div hr hR.ne').max hn
  · split
    · exact (tendsto_const_nhds.div hd hD.ne').max hn
    · exact tendsto_const_nhds

theorem window_tendsto (T : ℝ) (hR : 0 < R) (hD : 0 < D) (hr : Tendsto r F (𝓝 R))
    (hd : Tendsto d F (𝓝 D)) (hn : Tendsto n F (𝓝 m)) (p : Pulse) :
    Tendsto (fun i => (window T (r i) (d i) (n i) p).1) F (𝓝 (window T R D m p).1) ∧
    Tendsto (fun i => (window T (r i) (d i) (n i) p).2) F (𝓝 (window T R D m p).2) := by
  have h := width_tendsto hR hD hr hd hn p
  unfold window
  split
  · exact ⟨tendsto_const_nhds, h⟩
  · split
    · exact ⟨tendsto_const_nhds.sub h, tendsto_const_nhds⟩
    · exact ⟨tendsto_const_nhds.sub (h.div_const 2), tendsto_const_nhds.add (h.div_const 2)⟩

theorem isChain_of_eventually {β : Type} {P : ι → β → β → Prop} {Q : β → β → Prop} {l : List β}
    (h : ∀ i, l.IsChain (P i)) (H : ∀ a b, (∀ i, P i a b) → Q a b) : l.IsChain Q := by
  induction l with
  | nil => simp
  | cons a l ih =>
    cases l with
    | nil => simp
    | cons b l =>
      simp only [List.isChain_cons_cons] at h ⊢
      exact ⟨H a b fun i => (h i).1, ih fun i => (h i).2⟩

/-- Convertibility is kept in limits of the rates and of the minimum duration. -/
theorem Spec.Convertible.limit [F.NeBot] {s : Sequence ℝ} (hs : s.Constructed) (hR : 0 < R)
    (hD : 0 < D) (hm : 0 ≤ m) (hr : Tendsto r F (𝓝 R)) (hd : Tendsto d F (𝓝 D))
    (hn : Tendsto n F (𝓝 m)) (h : ∀ i, Convertible (r i) (d i) (n i) s) : Convertible R D m s := by
  obtain ⟨i⟩ : Nonempty ι := Filter.nonempty_of_neBot F
  obtain ⟨-, -, -, h1, h2, h3, -⟩ := h i
  refine ⟨hR, hD, hm, h1, h2, h3, ?_⟩
  rw [windows_eq hs, EachGap, List.isChain_map]
  refine isChain_of_eventually (P := fun i a b => n i - (1 / 10 ^ 8 + 1 / 10 ^ 5 * n i) ≤
    (window s.duration (r i) (d i) (n i) b).1 - (window s.duration (r i) (d i) (n i) a).2)
    (fun i => ?_) fun a b hab => ?_
  · have h4 := (h i).2.2.2.2.2.2
    rw [windows_eq hs, EachGap, List.isChain_map] at h4
    exact h4.imp fun a b hab => (gap_iff (h i).2.2.1 _).mp hab
  · rw [gap_iff hm]
    exact le_of_tendsto_of_tendsto' (hn.sub (tendsto_const_nhds.add (tendsto_const_nhds.mul hn)))
      ((window_tendsto _ hR hD hr hd hn b).1.sub (window_tendsto _ hR hD hr hd hn a).2) hab

end

/-- an upward closed set of positive numbers that contains its limits from above has a least element -/
theorem upward_threshold {S : Set ℝ} (hne : S.Nonempty) {b : ℝ} (hb : 0 < b) (hlow : ∀ x ∈ S, b ≤ x)
    (hup : ∀ x ∈ S, ∀ y, x ≤ y → y ∈ S)
    (hlim : ∀ c, 0 < c → (∀ x, c < x → x ∈ S) → c ∈ S) : ∃ c, 0 < c ∧ ∀ x, x ∈ S ↔ c ≤ x := by
  have hbd : BddBelow S := ⟨b, hlow⟩
  have hc : 0 < sInf S := hb.trans_le (le_csInf hne hlow)
  have hmem : sInf S ∈ S := by
    refine hlim _ hc fun x hx => ?_
    obtain ⟨y, hy, hyx⟩ := exists_lt_of_csInf_lt hne hx
    exact hup y hy x hyx.le
  exact ⟨sInf S, hc, fun x => ⟨fun hx => csInf_le hbd hx, fun hx => hup _ hmem x hx⟩⟩

theorem tendsto_above (c : ℝ) :
    Tendsto (fun x : Set.Ioi c => (x : ℝ)) (comap Subtype.val (𝓝[>] c)) (𝓝 c) :=
  tendsto_comap.mono_right nhdsWithin_le_nhds

instance neBot_above (c : ℝ) : (comap (Subtype.val : Set.Ioi c → ℝ) (𝓝[>] c)).NeBot := by
  refine comap_neBot_iff.mpr fun t ht => ?_
  obtain ⟨x, hx⟩ := Filter.nonempty_of_mem (inter_mem ht self_mem_nhdsWithin)
  exact ⟨⟨x, hx.2⟩, hx.1⟩

theorem tendsto_below (c : ℝ) :
    Tendsto (fun x : Set.Ioo 0 c => (x : ℝ)) (comap Subtype.val (𝓝[<] c)) (𝓝 c) :=
  tendsto_comap.mono_right nhdsWithin_le_nhds

theorem neBot_below {c : ℝ} (hc : 0 < c) :
    (comap (Subtype.val : Set.Ioo 0 c → ℝ) (𝓝[<] c)).NeBot := by
  refine comap_neBot_iff.mpr fun t ht => ?_
  obtain ⟨x, hx⟩ := Filter.nonempty_of_mem (inter_mem ht (Ioo_mem_nhdsLT hc))
  exact ⟨⟨x, hx.2⟩, hx.1⟩

/-! ## Room for every sequence -/

theorem apart_exists {s : Sequence ℝ} : ∃ δ, 0 < δ ∧ Apart δ s := by
  unfold Apart
  generalize 0 :: s.duration :: s.offsets = l
  have key : ∀ a : ℝ, ∀ l : List ℝ, ∃ δ, 0 < δ ∧ ∀ b ∈ l, a < b → a + δ ≤ b := by
    intro a l
    induction l with
    | nil => exact ⟨1, one_pos, by simp⟩
    | cons c l ih =>
      obtain ⟨δ, hδ, h⟩ := ih
      by_cases hac : a < c
      · refine ⟨min δ (c - a), lt_min hδ (sub_pos.mpr hac), fun b hb hab => ?_⟩
        rcases List.mem_cons.mp hb with rfl | hb
        · have := min_le_right δ (b - a); linarith
        · have := min_le_left δ (c - a); linarith [h b hb hab]
      · refine ⟨δ, hδ, fun b hb hab => ?_⟩
        rcases List.mem_cons.mp hb with rfl | hb
        · exact absurd hab hac
        · exact h b hb hab
  have key' : ∀ l l' : List ℝ, ∃ δ, 0 < δ ∧ ∀ a ∈ l', ∀ b ∈ l, a < b → a + δ ≤ b := by
    intro l l'
    induction l' with
    | nil => exact ⟨1, one_pos, by simp⟩
    | cons c l' ih =>
      obtain ⟨δ, hδ, h⟩ := ih
      obtain ⟨ε, hε, h'⟩ := key c l
      refine ⟨min δ ε, lt_min hδ hε, fun a ha b hb hab => ?_⟩
      rcases List.mem_cons.mp ha with rfl | ha
      · have := min_le_right δ ε; linarith [h' b hb hab]
      · have := min_le_left δ ε; linarith [h a ha b hb hab]
  obtain ⟨δ, hδ, h⟩ := key' l l
  exact ⟨δ, hδ, fun a ha b hb hab => by linarith [h a ha b hb hab]⟩

end OpenControls
