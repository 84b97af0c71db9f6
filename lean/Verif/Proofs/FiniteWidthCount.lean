import Verif.Proofs.FiniteWidth
import Verif.Props.Noise

/-!
# Signed counts of pulses
-/

namespace OpenControls

open Spec RealInst

variable {T R D m : ℝ}

theorem pulseList_pi (T : ℝ) (l : List (ℝ × Axis)) (name : Option String) :
    pulseList (piSequence T l name) = l.map tablePulse := by
  unfold pulseList piSequence
  induction l with
  | nil => rfl
  | cons p r ih =>
    simp only [List.map_cons, List.zip_cons_cons, List.zipWith_cons_cons] at ih ⊢
    rw [ih]; rfl

theorem axis_ext {a b : Axis} (h1 : a.rabi = b.rabi) (h2 : a.azimuthal = b.azimuthal)
    (h3 : a.detuning = b.detuning) : a = b := by
  have hpi := Real.pi_pos
  cases a <;> cases b <;> first
    | rfl
    | (exfalso; simp only [Axis.rabi, Axis.azimuthal, Axis.detuning] at h1 h2 h3; linarith)

theorem tablePulse_isPi (p : ℝ × Axis) (c : Axis) : (tablePulse p).IsPi c ↔ p.2 = c :=
  ⟨fun h => axis_ext h.1 h.2.1 h.2.2, fun h => by subst h; exact ⟨rfl, rfl, rfl⟩⟩

/-- signed count for a table, as a sum over the pulses -/
theorem signedCount_table (pulse noise : Axis) (T : ℝ) (l : List (ℝ × Axis)) (name : Option String) :
    signedCount pulse noise (piSequence T l name) =
      ((l.filter fun p => p.2 = pulse).map fun p => switching (axisFlips noise l) p.1).sum := by
  classical
  have e : piSequence T l name = finished T l false name := rfl
  unfold signedCount
  rw [pulseList_pi, List.filter_map, List.map_map]
  congr 1
  have hf : (l.filter ((fun p => decide (p.IsPi pulse)) ∘ tablePulse)) =
      l.filter fun p => p.2 = pulse := by
    apply List.filter_congr
    intro p _
    simp [tablePulse_isPi]
  rw [hf]
  apply List.map_congr_left
  intro p _
  show sensitivityAlong noise (piSequence T l name) p.1 = _
  rw [e, sensitivityAlong_finished]

theorem switching_first (noise : Axis) (p : ℝ × Axis) (r : List (ℝ × Axis))
    (h : ∀ q ∈ r, p.1 < q.1) : switching (axisFlips noise (p :: r)) p.1 = 1 := by
  unfold switching
  have : (axisFlips noise (p :: r)).countP (fun s => decide (s < p.1)) = 0 := by
    rw [List.countP_eq_zero]
    intro t ht
    unfold axisFlips at ht
    obtain ⟨q, hq, rfl⟩ := List.mem_map.mp ht
    have hq' := List.mem_of_mem_filter hq
    rcases List.mem_cons.mp hq' with rfl | hq'
    · simp
    · have := h q hq'
      simp [this.le]
  rw [this, pow_zero]

theorem switching_later (noise : Axis) (p : ℝ × Axis) (r : List (ℝ × Axis)) {t : ℝ} (h : p.1 < t) :
    switching (axisFlips noise (p :: r)) t =
      axisSign noise p.2 * switching (axisFlips noise r) t := by
  unfold switching axisFlips axisSign
  by_cases hp : p.2 = noise
  · simp [hp]
  · simp [hp, Ne.symm hp, List.countP_cons, h, pow_succ]

theorem crossSum_eq (pulse noise : Axis) (l : List (ℝ × Axis))
    (hs : l.Pairwise fun p q => p.1 < q.1) :
    ((l.filter fun p => p.2 = pulse).map fun p => switching (axisFlips noise l) p.1).sum =
      crossSum pulse noise l := by
  induction l with
  | nil => rfl
  | cons p r ih =>
    rw [List.pairwise_cons] at hs
    have hr : ((r.filter fun p => p.2 = pulse).map fun q =>
        switching (axisFlips noise (p :: r)) q.1).sum =
        axisSign noise p.2 * crossSum pulse noise r := by
      rw [← ih hs.2, ← List.sum_map_mul_left]
      congr 1
      apply List.map_congr_left
      intro q hq
      exact switching_later noise p r (hs.1 q (List.mem_of_mem_filter hq))
    by_cases hp : p.2 = pulse
    · rw [List.filter_cons_of_pos (by simpa using hp), List.map_cons, List.sum_cons, hr,
        switching_first noise p r hs.1, crossSum, if_pos hp]
    · rw [List.filter_cons_of_neg (by simpa using hp), hr, crossSum, if_neg hp, zero_add]

theorem crossSum_map (pulse noise : Axis) (f : ℝ × Axis → ℝ × Axis) (hf : ∀ p, (f p).2 = p.2)
    (l : List (ℝ × Axis)) : crossSum pulse noise (l.map f) = crossSum pulse noise l := by
  induction l with
  | nil => rfl
  | cons p r ih => simp only [List.map_cons, crossSum, hf, ih]

/-! ### The centres -/

theorem centres_bounds (hR : 0 < R) (hD : 0 < D) (l : List (ℝ × Axis)) (a : ℝ)
    (hf : fitsFrom T R D m a (l.map tablePulse)) :
    a ≤ T ∧ (∀ p ∈ l.map (centreOf T R D m), a < p.1 ∧ p.1 < T) ∧
      (l.map (centreOf T R D m)).Pairwise fun p q => p.1 < q.1 := by
  induction l generalizing a with
  | nil => exact ⟨hf, by simp, List.Pairwise.nil⟩
  | cons p r ih =>
    obtain ⟨h1, h2⟩ := hf
    obtain ⟨i1, i2, i3⟩ := ih _ h2
    have hw := piWidth_pos (m := m) hR hD p.2
    rw [window_centre] at h1 i1 i2
    simp only at h1 i1 i2
    refine ⟨by linarith, ?_, ?_⟩
    · intro q hq
      rw [List.map_cons] at hq
      rcases List.mem_cons.mp hq with rfl | hq
      · exact ⟨by linarith, by linarith⟩
      · have := i2 q hq
        exact ⟨by linarith, this.2⟩
    · rw [List.map_cons, List.pairwise_cons]
      exact ⟨fun q hq => by have := (i2 q hq).1; linarith, i3⟩

theorem sequence_table {s : Sequence ℝ} (hs : s.Constructed)
    (hp : ∀ p ∈ pulseList s, ∃ c : Axis, p.IsPi c) :
    ∃ l : List (ℝ × Axis), s = piSequence s.duration l s.name := by
  obtain ⟨-, -, hr, ha, hd⟩ := hs.facts
  have ho := pulseList_offsets s hr ha hd
  obtain ⟨h1, h2, h3⟩ := pulseList_columns s hr ha hd
  have key : ∀ ps : List Pulse, (∀ p ∈ ps, ∃ c : Axis, p.IsPi c) →
      ∃ l : List (ℝ × Axis), ps = l.map tablePulse := by
    intro ps
    induction ps with
    | nil => exact fun _ => ⟨[], rfl⟩
    | cons p r ih =>
      intro h
      obtain ⟨l, hl⟩ := ih fun q hq => h q (List.mem_cons_of_mem _ hq)
      obtain ⟨c, hc⟩ := h p List.mem_cons_self
      refine ⟨(p.offset, c) :: l, ?_⟩
      rw [List.map_cons, ← hl]
      congr 1
      obtain ⟨t, x, y, z⟩ := p
      obtain ⟨rfl, rfl, rfl⟩ := hc
      rfl
  obtain ⟨l, hl⟩ := key _ hp
  refine ⟨l, ?_⟩
  rw [hl, List.map_map] at ho h1 h2 h3
  obtain ⟨T, o, r, a, d, n⟩ := s
  simp only at ho h1 h2 h3
  unfold piSequence
  simp only [← ho, ← h1, ← h2, ← h3]
  rfl

theorem centred_table (T R D m : ℝ) (l : List (ℝ × Axis)) (name : Option String) :
    centred R D m (piSequence T l name) = piSequence T (l.map (centreOf T R D m)) name := by
  unfold centred
  rw [pulseList_pi]
  simp [piSequence, centreOf, Function.comp_def]

theorem tableProduct_unit (l : List (ℝ × Axis)) : IsUnit (tableProduct l) := by
  induction l with
  | nil => exact isUnit_one
  | cons p r ih =>
    refine ih.mul ?_
    have : axisPulse p.2 * -axisPulse p.2 = 1 := by
      cases p.2 <;> simp only [axisPulse, su2_neg, su2_mul, ← su2_one, su2_inj] <;> norm_num
    exact IsUnit.of_mul_eq_one _ this

end OpenControls
