import Verif.Spec.RoundedPipeline
import Verif.Proofs.RoundedRates
import Verif.Proofs.EndToEnd
import Verif.Proofs.RoundedFinish

/-!
# A predefined sequence computed and converted in floating point
-/

namespace OpenControls

open Spec Fl
open scoped Matrix.Norms.L2Operator

variable {r : Rounding}

/-! ## The pulses -/

/-- a pulse about an axis in the XY plane by π/2 to π, or about Z by π -/
def Standard (p : Pulse) : Prop :=
  ((p.detuning = 0 ∧ Real.pi / 2 ≤ p.rabi ∧ p.rabi ≤ Real.pi) ∨
    (p.rabi = 0 ∧ p.detuning = Real.pi)) ∧ |p.azimuthal| ≤ Real.pi

/-- `p'` is `p` with rounded angles -/
def RoundedPulse (r : Rounding) (p' p : Pulse) : Prop :=
  p'.rabi = r.rnd p.rabi ∧ p'.azimuthal = r.rnd p.azimuthal ∧ p'.detuning = r.rnd p.detuning

theorem Spec.WellFormed.standard' {T : ℝ} {prePost : Bool} {s : Sequence ℝ}
    (h : WellFormed T prePost s) : ∀ p ∈ pulseList s, Standard p := by
  intro p hp
  have hpi := Real.pi_pos
  obtain ⟨i, hi⟩ := pulseList_getElem hp
  have h0 : |(0 : ℝ)| ≤ Real.pi := by rw [abs_zero]; exact hpi.le
  have h1' : |Real.pi / 2| ≤ Real.pi := by rw [abs_of_pos (by positivity)]; linarith
  have h2' : |Real.pi| ≤ Real.pi := by rw [abs_of_pos hpi]
  rcases h.2.2.2.2.2 i _ _ _ _ hi with ⟨axis, h1, h2, h3⟩ | ⟨-, h1, h2, h3⟩
  · unfold Standard
    rw [h1, h2, h3]
    cases axis
    · exact ⟨.inl ⟨rfl, by show _ ≤ Real.pi; linarith, le_rfl⟩, h0⟩
    · exact ⟨.inl ⟨rfl, by show _ ≤ Real.pi; linarith, le_rfl⟩, h1'⟩
    · exact ⟨.inr ⟨rfl, rfl⟩, h0⟩
  · unfold Standard
    rw [h1, h2]
    refine ⟨.inl ⟨rfl, le_rfl, by linarith⟩, ?_⟩
    rcases h3 with ⟨-, -, h⟩ | ⟨-, -, h | h⟩ <;> rw [h] <;> assumption

theorem rnd_ge_one {x : ℝ} (h : Real.pi / 2 ≤ x) : 1 ≤ r.rnd x := by
  have h3 := Real.pi_gt_three
  have := r.mono (show (1 : ℝ) ≤ x by linarith)
  rwa [r.rnd_one] at this

theorem clear_zero : Clear r.u 0 := by
  left
  rw [abs_zero]
  have := r.u_le
  exact div_nonneg (by norm_num at *; linarith) (by positivity)

theorem clear_ge_one {x : ℝ} (h : 1 ≤ x) : Clear r.u x := by
  right
  rw [abs_of_pos (by linarith)]
  have := r.u_le
  have h2 : (1 + r.u) / 10 ^ 8 < 1 := by
    rw [div_lt_one (by positivity)]
    norm_num at *; linarith
  linarith

theorem not_negligible_ge_one {x : ℝ} (h : 1 ≤ x) : ¬ Negligible x := by
  unfold Negligible
  rw [abs_of_pos (by linarith)]
  push Not
  exact lt_of_lt_of_le (by norm_num) h

/-- everything about a rounded pulse -/
structure PulseFacts (r : Rounding) (p' p : Pulse) : Prop where
  nonneg : 0 ≤ p'.rabi
  notBoth : ¬ (0 < p'.rabi ∧ 0 < p'.detuning)
  clear : ClearPulse r.u p'
  pure : PurePulse p'
  width_le : ∀ R D m : ℝ, 0 < R → 0 < D → 0 ≤ m → width R D m p' ≤ (1 + r.u) * pulseTime R D m
  width_ge : ∀ R D m : ℝ, 0 < R → 0 < D → 0 ≤ m → (1 - r.u) * shortestPulse R D m ≤ width R D m p'
  turn_le : turn p' ≤ (1 + r.u) * Real.pi
  dist : ‖realised p' - realised p‖ ≤ 3 / 2 * Real.pi * r.u

theorem pulse_facts {p' p : Pulse} (h : RoundedPulse r p' p) (hp : Standard p) :
    PulseFacts r p' p := by
  obtain ⟨h1, h2, h3⟩ := h
  have hpi := Real.pi_pos
  have hu := r.u_nonneg
  have hu' := r.u_le
  have hu1 : r.u ≤ 1 := hu'.trans (by norm_num)
  have haz : |p'.azimuthal - p.azimuthal| ≤ Real.pi * r.u := by
    rw [h2]
    refine (r.close _).trans ?_
    rw [mul_comm]
    exact mul_le_mul_of_nonneg_right hp.2 hu
  rcases hp.1 with ⟨hd, ha, hb⟩ | ⟨hd, ha⟩
  · have e0 : p'.detuning = 0 := by rw [h3, hd, r.rnd_zero]
    have e1 : 1 ≤ p'.rabi := by rw [h1]; exact rnd_ge_one ha
    have hn := not_negligible_ge_one e1
    have hp1 : ¬ Negligible p.rabi := not_negligible_of_lt (by have := Real.pi_gt_three; linarith)
    have hc := abs_le.mp (r.close p.rabi)
    rw [abs_of_nonneg (show 0 ≤ p.rabi by linarith), ← h1] at hc
    have hup : p'.rabi ≤ (1 + r.u) * Real.pi := by
      have := mul_le_mul_of_nonneg_left hb hu
      linarith [hc.2]
    have hlo : (1 - r.u) * (Real.pi / 2) ≤ p'.rabi := by
      have := mul_le_mul_of_nonneg_left ha (sub_nonneg.mpr hu1)
      linarith [hc.1]
    refine ⟨by linarith, by rw [e0]; exact fun h => lt_irrefl _ h.2, ⟨clear_ge_one e1, ?_⟩, ?_, ?_, ?_,
      ?_, ?_⟩
    · rw [e0]; exact clear_zero
    · exact ⟨.inr e0, .inr hn, .inl e0⟩
    · intro R D m hR hD hm
      unfold width pulseTime
      rw [if_pos hn]
      refine max_le ?_ ?_
      · have : p'.rabi / R ≤ (1 + r.u) * (Real.pi / R) := by
          rw [← mul_div_assoc]
          exact div_le_div_of_nonneg_right hup hR.le
        refine this.trans (mul_le_mul_of_nonneg_left ?_ (by linarith))
        exact (le_max_left _ _).trans (le_max_left _ _)
      · have h4 : m ≤ max (max (Real.pi / R) (Real.pi / D)) m := le_max_right _ _
        have := mul_nonneg hu (hm.trans h4)
        linarith
    · intro R D m hR hD hm
      unfold width shortestPulse
      rw [if_pos hn, mul_max_of_nonneg _ _ (sub_nonneg.mpr hu1)]
      refine max_le_max ?_ ?_
      · refine (mul_le_mul_of_nonneg_left (min_le_left _ _) (sub_nonneg.mpr hu1)).trans ?_
        rw [← mul_div_assoc]
        exact div_le_div_of_nonneg_right hlo hR.le
      · have := mul_nonneg hu hm
        linarith
    · rw [(realised_rabi hn).2, abs_of_nonneg (by linarith)]
      exact hup
    · rw [(realised_rabi hn).1, (realised_rabi hp1).1]
      refine (rotation_dist _ _ _ _).trans ?_
      have : |p'.rabi - p.rabi| ≤ Real.pi * r.u := by
        rw [abs_le]
        have := mul_le_mul_of_nonneg_left hb hu
        constructor <;> linarith [hc.1, hc.2]
      linarith
  · have e0 : p'.rabi = 0 := by rw [h1, hd, r.rnd_zero]
    have e1 : 1 ≤ p'.detuning := by rw [h3, ha]; exact rnd_ge_one (by linarith)
    have hn := not_negligible_ge_one e1
    have hn0 : Negligible p'.rabi := by rw [e0]; simp [Negligible]
    have hp0 : Negligible p.rabi := by rw [hd]; simp [Negligible]
    have hp1 : ¬ Negligible p.detuning := by
      rw [ha]; exact not_negligible_of_lt (by have := Real.pi_gt_three; linarith)
    have hc := abs_le.mp (r.close p.detuning)
    rw [ha, abs_of_pos hpi, ← ha, ← h3, ha] at hc
    have hup : |p'.detuning| ≤ (1 + r.u) * Real.pi := by
      rw [abs_of_nonneg (by linarith)]
      linarith [hc.2]
    have hlo : (1 - r.u) * Real.pi ≤ |p'.detuning| := by
      rw [abs_of_nonneg (by linarith)]
      linarith [hc.1]
    refine ⟨e0.ge, by rw [e0]; exact fun h => lt_irrefl _ h.1, ⟨?_, clear_ge_one e1⟩, ?_, ?_, ?_,
      ?_, ?_⟩
    · rw [e0]; exact clear_zero
    · exact ⟨.inl e0, .inl e0, .inr hn⟩
    · intro R D m hR hD hm
      unfold width pulseTime
      rw [if_neg (not_not.mpr hn0), if_pos hn]
      refine max_le ?_ ?_
      · have : |p'.detuning| / D ≤ (1 + r.u) * (Real.pi / D) := by
          rw [← mul_div_assoc]
          exact div_le_div_of_nonneg_right hup hD.le
        refine this.trans (mul_le_mul_of_nonneg_left ?_ (by linarith))
        exact (le_max_right _ _).trans (le_max_left _ _)
      · have h4 : m ≤ max (max (Real.pi / R) (Real.pi / D)) m := le_max_right _ _
        have := mul_nonneg hu (hm.trans h4)
        linarith
    · intro R D m hR hD hm
      unfold width shortestPulse
      rw [if_neg (not_not.mpr hn0), if_pos hn, mul_max_of_nonneg _ _ (sub_nonneg.mpr hu1)]
      refine max_le_max ?_ ?_
      · refine (mul_le_mul_of_nonneg_left (min_le_right _ _) (sub_nonneg.mpr hu1)).trans ?_
        rw [← mul_div_assoc]
        exact div_le_div_of_nonneg_right hlo hD.le
      · have := mul_nonneg hu hm
        linarith
    · rw [(realised_detuning hn0 hn).2]
      exact hup
    · rw [(realised_detuning hn0 hn).1, (realised_detuning hp0 hp1).1]
      refine (pulseUnitary_z_dist _ _).trans ?_
      have : |p'.detuning - p.detuning| ≤ Real.pi * r.u := by
        rw [abs_le, ha]
        constructor <;> linarith [hc.1, hc.2]
      have := mul_nonneg hpi.le hu
      linarith

theorem realisedProduct_dist {l' l : List Pulse}
    (h : List.Forall₂ (fun p' p => PulseFacts r p' p) l' l) :
    ‖realisedProduct l' - realisedProduct l‖ ≤ l.length * (3 / 2 * Real.pi * r.u) := by
  induction h with
  | nil => simp
  | cons hp _ ih =>
    simp only [realisedProduct, List.length_cons]
    refine (mul_dist (realised_norm _) (realisedProduct_norm _)).trans ?_
    push_cast
    linarith [hp.dist]

theorem turning_le {l' l : List Pulse}
    (h : List.Forall₂ (fun p' p => PulseFacts r p' p) l' l) :
    turning l' ≤ l.length * ((1 + r.u) * Real.pi) := by
  induction h with
  | nil => simp [turning]
  | @cons p' p _ _ hp _ ih =>
    have := hp.turn_le
    unfold turn at this
    simp only [turning, List.map_cons, List.sum_cons, List.length_cons] at ih ⊢
    push_cast
    linarith

/-! ## The sequence -/

theorem forall₂_rounded {os' : List (Fl r)} {os rs as ds : List ℝ} (h : os'.length = os.length) :
    List.Forall₂ (fun p' p : Pulse => RoundedPulse r p' p)
      (List.zipWith (fun t x => ⟨t, x.1, x.2.1, x.2.2⟩) (os'.map val)
        (((rs.map (round r)).map val).zip (((as.map (round r)).map val).zip
          ((ds.map (round r)).map val))))
      (List.zipWith (fun t x => ⟨t, x.1, x.2.1, x.2.2⟩) os (rs.zip (as.zip ds))) := by
  induction os' generalizing os rs as ds with
  | nil => 
    obtain rfl : os = [] := List.length_eq_zero_iff.mp (by simpa using h.symm)
    simp
  | cons t' os' ih =>
    cases os with
    | nil => simp at h
    | cons t os =>
      cases rs with
      | nil => simp
      | cons x rs =>
        cases as with
        | nil => simp
        | cons a as =>
          cases ds with
          | nil => simp
          | cons d ds =>
            simp only [List.map_cons, List.zip_cons_cons, List.zipWith_cons_cons]
            exact .cons ⟨rfl, rfl, rfl⟩ (ih (by simpa using h))

theorem approximates_pulses {ε : ℝ} {s : Sequence (Fl r)} {e : Sequence ℝ} (h : Approximates ε s e) :
    List.Forall₂ (fun p' p : Pulse => RoundedPulse r p' p) (pulseList (s.map val)) (pulseList e) := by
  unfold pulseList
  have h1 : (s.map val).rabiRotations = (e.rabiRotations.map (round r)).map val := by
    rw [← h.rabi]; rfl
  have h2 : (s.map val).azimuthalAngles = (e.azimuthalAngles.map (round r)).map val := by
    rw [← h.azimuthal]; rfl
  have h3 : (s.map val).detuningRotations = (e.detuningRotations.map (round r)).map val := by
    rw [← h.detuning]; rfl
  rw [h1, h2, h3]
  exact forall₂_rounded h.count

theorem mem_instants {s : Sequence (Fl r)} {e : Sequence ℝ} (h : s.offsets.length = e.offsets.length)
    {a : ℝ} (ha : a ∈ 0 :: (s.map val).duration :: (s.map val).offsets) :
    ∃ a', (a, a') ∈ instants s e ∧ a' ∈ 0 :: e.duration :: e.offsets := by
  rcases List.mem_cons.mp ha with rfl | ha
  · exact ⟨0, by simp [instants], by simp⟩
  rcases List.mem_cons.mp ha with rfl | ha
  · exact ⟨e.duration, List.mem_cons_of_mem _ List.mem_cons_self, by simp⟩
  · have ha' : a ∈ s.offsets.map val := ha
    obtain ⟨i, hi, rfl⟩ := List.getElem_of_mem ha'
    rw [List.length_map] at hi
    refine ⟨e.offsets[i]'(h ▸ hi), List.mem_cons_of_mem _ (List.mem_cons_of_mem _ ?_),
      List.mem_cons_of_mem _ (List.mem_cons_of_mem _ (List.getElem_mem _))⟩
    have : (List.zipWith (fun (t : Fl r) t' => (t.val, t')) s.offsets e.offsets)[i]'(by
        rw [List.length_zipWith]; omega) = ((s.offsets.map val)[i], e.offsets[i]) := by simp
    rw [← this]
    exact List.getElem_mem _

theorem instants_close {ε : ℝ} {s : Sequence (Fl r)} {e : Sequence ℝ} (h : Approximates ε s e)
    (hε : 0 ≤ ε * e.duration) {p : ℝ × ℝ} (hp : p ∈ instants s e) : |p.1 - p.2| ≤ ε * e.duration := by
  unfold instants at hp
  rcases List.mem_cons.mp hp with rfl | hp
  · simpa using hε
  rcases List.mem_cons.mp hp with rfl | hp
  · simp only
    rw [h.duration, sub_self, abs_zero]; exact hε
  · obtain ⟨i, hi, rfl⟩ := List.getElem_of_mem hp
    rw [List.length_zipWith] at hi
    have hm : (s.offsets[i]'(by omega), e.offsets[i]'(by omega)) ∈ s.offsets.zip e.offsets := by
      have : (s.offsets.zip e.offsets)[i]'(by rw [List.length_zip]; omega) =
          (s.offsets[i]'(by omega), e.offsets[i]'(by omega)) := by simp
      rw [← this]; exact List.getElem_mem _
    have := h.offsets _ hm
    simpa using this

theorem approximates_apart {ε g : ℝ} {s : Sequence (Fl r)} {e : Sequence ℝ} (h : Approximates ε s e)
    (hε : 0 ≤ ε * e.duration) (ha : Apart g e) : Apart (g - 2 * (ε * e.duration)) (s.map val) := by
  intro a ha' b hb' hab
  obtain ⟨a₁, h1, h2⟩ := mem_instants h.count ha'
  obtain ⟨b₁, h3, h4⟩ := mem_instants h.count hb'
  have hlt : a₁ < b₁ := (h.order _ h1 _ h3).mp hab
  have := ha a₁ h2 b₁ h4 hlt
  have c1 := abs_le.mp (instants_close h hε h1)
  have c2 := abs_le.mp (instants_close h hε h3)
  simp only at c1 c2
  linarith [c1.1, c1.2, c2.1, c2.2]

theorem approximates_increasing {ε : ℝ} {s : Sequence (Fl r)} {e : Sequence ℝ}
    (h : Approximates ε s e) (hinc : e.offsets.Pairwise (· < ·)) :
    (s.map val).offsets.Pairwise (· < ·) := by
  show (s.offsets.map val).Pairwise (· < ·)
  rw [List.pairwise_iff_getElem] at hinc ⊢
  intro i j hi hj hij
  rw [List.length_map] at hi hj
  have hmem : ∀ k (hk : k < s.offsets.length),
      ((s.offsets.map val)[k]'(by simpa using hk), e.offsets[k]'(h.count ▸ hk)) ∈ instants s e := by
    intro k hk
    refine List.mem_cons_of_mem _ (List.mem_cons_of_mem _ ?_)
    have : (List.zipWith (fun (t : Fl r) t' => (t.val, t')) s.offsets e.offsets)[k]'(by
        rw [List.length_zipWith]; have := h.count; omega) =
        ((s.offsets.map val)[k]'(by simpa using hk), e.offsets[k]'(h.count ▸ hk)) := by simp
    rw [← this]
    exact List.getElem_mem _
  exact (h.order _ (hmem i hi) _ (hmem j hj)).mpr (hinc i j (h.count ▸ hi) (h.count ▸ hj) hij)

theorem approximates_constructed {ε T : ℝ} {prePost : Bool} {s : Sequence (Fl r)} {e : Sequence ℝ}
    (h : Approximates ε s e) (hT : 0 < T) (hw : WellFormed T prePost e) : s.Constructed := by
  obtain ⟨h1, h2, h3, h4, h5, -⟩ := hw
  refine ⟨s.duration, s.offsets, s.rabiRotations, s.azimuthalAngles, s.detuningRotations, s.name, ?_⟩
  have hd : s.duration.val = T := h.duration.trans h1
  have hr : s.rabiRotations.length = s.offsets.length := by
    rw [h.rabi, List.length_map, h2, h.count]
  have ha : s.azimuthalAngles.length = s.offsets.length := by
    rw [h.azimuthal, List.length_map, h3, h.count]
  have hdt : s.detuningRotations.length = s.offsets.length := by
    rw [h.detuning, List.length_map, h4, h.count]
  rw [Sequence.new_eq, if_pos (by rw [gt_iff, val_lit_zero, hd]; exact hT), if_pos, if_pos (by simpa using hr),
    if_pos (by simpa using ha), if_pos (by simpa using hdt)]
  rw [List.all_eq_true]
  intro t ht
  have hm : t.val ∈ 0 :: (s.map val).duration :: (s.map val).offsets :=
    List.mem_cons_of_mem _ (List.mem_cons_of_mem _ (List.mem_map_of_mem ht))
  obtain ⟨t', m1, m2⟩ := mem_instants h.count hm
  have hz : ((0 : ℝ), (0 : ℝ)) ∈ instants s e := by simp [instants]
  have hTm : (s.duration.val, e.duration) ∈ instants s e := by simp [instants]
  have hin : 0 ≤ t' ∧ t' ≤ T := by
    rcases List.mem_cons.mp m2 with rfl | m2
    · exact ⟨le_rfl, hT.le⟩
    rcases List.mem_cons.mp m2 with rfl | m2
    · rw [h1]; exact ⟨hT.le, le_rfl⟩
    · exact h5 t' m2
  have a1 := h.order _ m1 _ hz
  have a2 := h.order _ hTm _ m1
  simp only at a1 a2
  rw [Bool.and_eq_true, ge_iff, ge_iff, val_lit_zero]
  constructor
  · by_contra hc
    exact absurd (a1.mp (not_le.mp hc)) (not_lt.mpr hin.1)
  · by_contra hc
    have := a2.mp (not_le.mp hc)
    rw [h1] at this
    exact absurd this (not_lt.mpr hin.2)

/-- as `eachGap_of_room`, for any size of the gaps -/
theorem eachGap_of_room' {s : Sequence ℝ} (hs : s.Constructed) {R D m w G : ℝ} (hm : 0 ≤ m)
    (hinc : s.offsets.Pairwise (· < ·)) (hw0 : 0 ≤ w)
    (hw : ∀ p ∈ pulseList s, width R D m p ≤ w)
    (hroom : Apart (2 * w + G) s) : EachGap (fun g => G ≤ g) (windows R D m s) := by
  obtain ⟨hT, hb, hr, ha, hd⟩ := hs.facts
  have ho := pulseList_offsets s hr ha hd
  have hpad := (pad_shape hT (pulseList s) (ho ▸ hinc) (fun p hp =>
    hb _ (ho ▸ List.mem_map_of_mem hp))).1
  rw [windows_eq hs, EachGap, List.isChain_map]
  refine List.Pairwise.isChain ?_
  rw [List.pairwise_map] at hpad
  have hmem : ∀ p ∈ pad s.duration (pulseList s), width R D m p ≤ w ∧
      p.offset ∈ 0 :: s.duration :: s.offsets := by
    intro p hp
    rcases pad_mem hp with h | rfl | rfl
    · refine ⟨hw p h, List.mem_cons_of_mem _ (List.mem_cons_of_mem _ ?_)⟩
      exact ho ▸ List.mem_map_of_mem h
    · rw [width_idle]; exact ⟨hw0, by simp [idlePulse]⟩
    · rw [width_idle]; exact ⟨hw0, by simp [idlePulse]⟩
  refine hpad.imp_of_mem fun {p q} hp hq hlt => ?_
  have h := hroom _ (hmem p hp).2 _ (hmem q hq).2 hlt
  have h1 := (window_bounds (T := s.duration) hm (hmem p hp).1).2
  have h2 := (window_bounds (T := s.duration) hm (hmem q hq).1).1
  linarith

end OpenControls
