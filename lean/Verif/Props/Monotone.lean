import Verif.Proofs.RoundedMonotone
import Verif.Props.Conversion

/-!
# C93: how the conversion depends on the limits of the hardware

`R` is the maximum Rabi rate, `D` the maximum detuning rate, `m` the minimum segment duration.
-/

namespace OpenControls

open Spec Fl Filter Topology

/-- **C93.** A sequence that converts on some hardware converts on all hardware that is at least as good:
rates at least as large, minimum duration at most as long. -/
theorem C93_faster (s : Sequence ℝ) (hs : s.Constructed) (R D m R' D' m' : ℝ)
    (name name' : Option String) (c : DrivenControl ℝ) (h : convertDDS s R D m name = .ok c)
    (hR : R ≤ R') (hD : D ≤ D') (hm0 : 0 ≤ m') (hm : m' ≤ m) :
    ∃ c', convertDDS s R' D' m' name' = .ok c' := by
  obtain ⟨c', hc', -⟩ := (C46_convertible s hs R' D' m' name').1
    ((converted hs h).1.faster hs hR hD hm0 hm)
  exact ⟨c', hc'⟩

/-- **C93**, floating point: with larger rates and the same minimum duration a sequence that converts
still converts, whatever the rounding errors. -/
theorem C93_faster_rounded {r : Rounding} (s : Sequence (Fl r)) (hs : s.Constructed)
    (R D m R' D' : Fl r) (name name' : Option String) (c : DrivenControl (Fl r))
    (h : convertDDS s R D m name = .ok c) (hR : R.val ≤ R'.val) (hD : D.val ≤ D'.val) :
    ∃ c', convertDDS s R' D' m name' = .ok c' := by
  by_cases hc : 0 < D.val ∧ 0 < R.val ∧ 0 ≤ m.val ∧ (∀ p ∈ pulseList (s.map val), 0 ≤ p.rabi) ∧
        (∀ p ∈ pulseList (s.map val), ¬ (0 < p.rabi ∧ 0 < p.detuning)) ∧
        (s.map val).offsets.Pairwise (· < ·) ∧ GapsPass m (fwindows s R D m)
  · obtain ⟨h1, h2, h3, h4, h5, h6, h7⟩ := hc
    obtain ⟨c', hc', -⟩ := (convertDDS_rounded hs R' D' m name').1
      ⟨h1.trans_le hD, h2.trans_le hR, h3, h4, h5, h6, gapsPass_faster hs h2 h1 h3 h4 h6 hR hD h7⟩
    exact ⟨c', hc'⟩
  · obtain ⟨d, hd⟩ := (convertDDS_rounded hs R D m name).2 hc
    rw [hd] at h
    cases h

/-- **C93**, every sequence converts on good hardware: if the pulses are at different, increasing times,
the Rabi rotations are not negative and no pulse has positive rotations of both kinds, there are positive
limits such that the conversion returns on all hardware at least as good. -/
theorem C93_good_enough (s : Sequence ℝ) (hs : s.Constructed)
    (hrabi : ∀ p ∈ pulseList s, 0 ≤ p.rabi)
    (hboth : ∀ p ∈ pulseList s, ¬ (0 < p.rabi ∧ 0 < p.detuning))
    (hinc : s.offsets.Pairwise (· < ·)) :
    ∃ R₀ D₀ m₀ : ℝ, 0 < R₀ ∧ 0 < D₀ ∧ 0 < m₀ ∧
      ∀ R D m : ℝ, R₀ ≤ R → D₀ ≤ D → 0 ≤ m → m ≤ m₀ → ∀ name,
        ∃ c, convertDDS s R D m name = .ok c := by
  obtain ⟨δ, hδ, hap⟩ := apart_exists (s := s)
  obtain ⟨M, hM, hle⟩ : ∃ M : ℝ, 0 < M ∧ ∀ p ∈ pulseList s, p.rabi ≤ M ∧ |p.detuning| ≤ M := by
    generalize pulseList s = l
    induction l with
    | nil => exact ⟨1, one_pos, by simp⟩
    | cons p l ih =>
      obtain ⟨M, hM, h⟩ := ih
      refine ⟨max M (max p.rabi |p.detuning|), lt_max_of_lt_left hM, fun q hq => ?_⟩
      rcases List.mem_cons.mp hq with rfl | hq
      · exact ⟨(le_max_left _ _).trans (le_max_right _ _), (le_max_right _ _).trans (le_max_right _ _)⟩
      · exact ⟨(h q hq).1.trans (le_max_left _ _), (h q hq).2.trans (le_max_left _ _)⟩
  have hq : 0 < 4 * M / δ := by positivity
  have hconv : Convertible (4 * M / δ) (4 * M / δ) (δ / 4) s := by
    refine convertible_of_eachGap hq hq (by linarith) hrabi hboth hinc
      (eachGap_of_room (w := δ / 4) hs (by linarith) hinc (by linarith) (fun p hp => ?_) ?_)
    · have e : M / (4 * M / δ) = δ / 4 := by field_simp
      unfold width
      split
      · exact max_le ((div_le_div_of_nonneg_right (hle p hp).1 hq.le).trans e.le) le_rfl
      · split
        · exact max_le ((div_le_div_of_nonneg_right (hle p hp).2 hq.le).trans e.le) le_rfl
        · linarith
    · intro a ha b hb hab
      have := hap a ha b hb hab
      linarith
  refine ⟨4 * M / δ, 4 * M / δ, δ / 4, hq, hq, by linarith, fun R D m hR hD h0 hm name => ?_⟩
  obtain ⟨c, hc, -⟩ := (C46_convertible s hs R D m name).1 (hconv.faster hs hR hD h0 hm)
  exact ⟨c, hc⟩

/-- **C93**, the slowest drive: a sequence with a Rabi pulse that converts at all for some maximum
detuning rate and minimum duration has a smallest maximum Rabi rate; it converts exactly from there on. -/
theorem C93_rabi_threshold (s : Sequence ℝ) (hs : s.Constructed) (D m : ℝ)
    (hp : ∃ p ∈ pulseList s, ¬ Negligible p.rabi) (name : Option String)
    (h : ∃ R c, convertDDS s R D m name = .ok c) :
    ∃ R₀, 0 < R₀ ∧ ∀ R, (∃ c, convertDDS s R D m name = .ok c) ↔ R₀ ≤ R := by
  have hiff : ∀ R, (∃ c, convertDDS s R D m name = .ok c) ↔ Convertible R D m s := fun R =>
    ⟨fun ⟨c, hc⟩ => (converted hs hc).1, fun hc => by
      obtain ⟨c, hc, -⟩ := (C46_convertible s hs R D m name).1 hc; exact ⟨c, hc⟩⟩
  simp only [hiff] at h ⊢
  obtain ⟨R₁, h₁⟩ := h
  obtain ⟨p, hpm, hpn⟩ := hp
  have hT := hs.facts.1
  have hpos : 0 < p.rabi := (h₁.2.2.2.1 p hpm).lt_of_ne fun h0 => hpn (by simp [Negligible, ← h0])
  refine upward_threshold (S := {R | Convertible R D m s}) (b := p.rabi / (2 * s.duration + 1))
    ⟨R₁, h₁⟩ (by positivity) (fun R hR => ?_)
    (fun R hR R' hle => Convertible.faster hs hR hle le_rfl hR.2.2.1 le_rfl)
    fun c hc hall => ?_
  · have hw := Convertible.width_le hs hR hpm
    unfold width at hw
    rw [if_pos hpn] at hw
    have := (le_max_left _ _).trans hw
    rw [div_le_iff₀ hR.1] at this
    rw [div_le_iff₀ (by positivity)]
    linarith
  · exact Convertible.limit (r := fun x : Set.Ioi c => (x : ℝ)) (d := fun _ => D) (n := fun _ => m)
      hs hc h₁.2.1 h₁.2.2.1 (tendsto_above c) tendsto_const_nhds tendsto_const_nhds
      fun x => hall x x.2

/-- **C93**, the slowest phase drive: the same for the maximum detuning rate and a sequence with a pulse
that only rotates about Z. -/
theorem C93_detuning_threshold (s : Sequence ℝ) (hs : s.Constructed) (R m : ℝ)
    (hp : ∃ p ∈ pulseList s, Negligible p.rabi ∧ ¬ Negligible p.detuning) (name : Option String)
    (h : ∃ D c, convertDDS s R D m name = .ok c) :
    ∃ D₀, 0 < D₀ ∧ ∀ D, (∃ c, convertDDS s R D m name = .ok c) ↔ D₀ ≤ D := by
  have hiff : ∀ D, (∃ c, convertDDS s R D m name = .ok c) ↔ Convertible R D m s := fun D =>
    ⟨fun ⟨c, hc⟩ => (converted hs hc).1, fun hc => by
      obtain ⟨c, hc, -⟩ := (C46_convertible s hs R D m name).1 hc; exact ⟨c, hc⟩⟩
  simp only [hiff] at h ⊢
  obtain ⟨D₁, h₁⟩ := h
  obtain ⟨p, hpm, hpr, hpn⟩ := hp
  have hT := hs.facts.1
  have hpos : 0 < |p.detuning| := abs_pos.mpr fun h0 => hpn (by simp [Negligible, h0])
  refine upward_threshold (S := {D | Convertible R D m s})
    (b := |p.detuning| / (2 * s.duration + 1)) ⟨D₁, h₁⟩ (by positivity) (fun D hD => ?_)
    (fun D hD D' hle => Convertible.faster hs hD le_rfl hle hD.2.2.1 le_rfl)
    fun c hc hall => ?_
  · have hw := Convertible.width_le hs hD hpm
    unfold width at hw
    rw [if_neg (not_not.mpr hpr), if_pos hpn] at hw
    have := (le_max_left _ _).trans hw
    rw [div_le_iff₀ hD.2.1] at this
    rw [div_le_iff₀ (by positivity)]
    linarith
  · exact Convertible.limit (r := fun _ => R) (d := fun x : Set.Ioi c => (x : ℝ)) (n := fun _ => m)
      hs h₁.1 hc h₁.2.2.1 tendsto_const_nhds (tendsto_above c) tendsto_const_nhds
      fun x => hall x x.2

/-- **C93**, the longest minimum: a sequence that converts for some minimum segment duration converts
exactly for those up to a largest one. -/
theorem C93_minimum_threshold (s : Sequence ℝ) (hs : s.Constructed) (R D : ℝ) (name : Option String)
    (h : ∃ m c, convertDDS s R D m name = .ok c) :
    ∃ m₀, 0 ≤ m₀ ∧ ∀ m, (∃ c, convertDDS s R D m name = .ok c) ↔ 0 ≤ m ∧ m ≤ m₀ := by
  have hiff : ∀ m, (∃ c, convertDDS s R D m name = .ok c) ↔ Convertible R D m s := fun m =>
    ⟨fun ⟨c, hc⟩ => (converted hs hc).1, fun hc => by
      obtain ⟨c, hc, -⟩ := (C46_convertible s hs R D m name).1 hc; exact ⟨c, hc⟩⟩
  simp only [hiff] at h ⊢
  obtain ⟨m₁, h₁⟩ := h
  set S := {m | Convertible R D m s}
  have hbd : BddAbove S := ⟨2 * s.duration + 1, fun m hm => Convertible.minimum_le hs hm⟩
  have hne : S.Nonempty := ⟨m₁, h₁⟩
  have h0 : 0 ≤ sSup S := h₁.2.2.1.trans (le_csSup hbd h₁)
  have hdown : ∀ m ∈ S, ∀ m', 0 ≤ m' → m' ≤ m → m' ∈ S := fun m hm m' h0 hle =>
    Convertible.faster hs hm le_rfl le_rfl h0 hle
  have hmem : sSup S ∈ S := by
    rcases h0.lt_or_eq with hlt | heq
    · have := neBot_below hlt
      refine Convertible.limit (r := fun _ => R) (d := fun _ => D)
        (n := fun x : Set.Ioo 0 (sSup S) => (x : ℝ)) hs h₁.1 h₁.2.1 h0 tendsto_const_nhds
        tendsto_const_nhds (tendsto_below (sSup S)) fun x => ?_
      obtain ⟨y, hy, hxy⟩ := exists_lt_of_lt_csSup hne x.2.2
      exact hdown y hy x x.2.1.le hxy.le
    · rw [← heq]; exact hdown m₁ h₁ 0 le_rfl h₁.2.2.1
  exact ⟨sSup S, h0, fun m => ⟨fun hm => ⟨hm.2.2.1, le_csSup hbd hm⟩,
    fun ⟨h1, h2⟩ => hdown _ hmem m h1 h2⟩⟩

/-- The hypotheses are met, also by a case on the very edge: one X rotation by 1 in the middle of a
sequence of duration 1 and no minimum converts exactly for maximum Rabi rates from `1/(1 + 2e-8)` on. -/
example : ∃ s : Sequence ℝ, s.Constructed ∧ (∃ p ∈ pulseList s, ¬ Negligible p.rabi) ∧
    ∀ R, Convertible R 1 0 s ↔ 1 / (1 + 2 / 10 ^ 8) ≤ R := by
  have hs : (single 1 (1 / 2) 1 0 0).Constructed := single_constructed (by norm_num) (by norm_num) (by norm_num)
  have hn : ¬ Negligible 1 := by unfold Negligible; norm_num
  refine ⟨single 1 (1 / 2) 1 0 0, hs, ⟨⟨1 / 2, 1, 0, 0⟩, by simp [pulseList, single], hn⟩,
    fun R => ?_⟩
  have key : ∀ x : ℝ, (0 < x ∨ NearValue x 0) ↔ -(1 / 10 ^ 8) ≤ x := fun x => by
    rw [gap_iff le_rfl]; norm_num
  have hwin : ∀ R : ℝ, 0 < R → window 1 R 1 0 ⟨1 / 2, 1, 0, 0⟩ =
      (1 / 2 - R⁻¹ / 2, 1 / 2 + R⁻¹ / 2) := fun R hR => by
    have hwid : width R 1 0 ⟨1 / 2, 1, 0, 0⟩ = R⁻¹ := by
      unfold width
      rw [if_pos hn, one_div, max_eq_left (inv_nonneg.mpr hR.le)]
    unfold window
    rw [hwid, if_neg (by norm_num), if_neg (by norm_num)]
  constructor
  · intro hc
    have hw := hc.2.2.2.2.2.2
    have hpos := hc.1
    simp [EachGap, windows, single, pulseList] at hw
    rw [show (2⁻¹ : ℝ) = 1 / 2 by norm_num, hwin R hpos] at hw
    have h1 := (key _).mp hw.1
    dsimp only at h1
    rw [div_le_iff₀ (by norm_num)]
    have h2 : R⁻¹ ≤ 1 + 2 / 10 ^ 8 := by linarith
    have h3 := mul_le_mul_of_nonneg_left h2 hpos.le
    rwa [mul_inv_cancel₀ hpos.ne'] at h3
  · intro h
    have hpos : 0 < R := lt_of_lt_of_le (by norm_num) h
    refine ⟨hpos, one_pos, le_rfl, by simp [pulseList, single], by simp [pulseList, single],
      by simp [single], ?_⟩
    simp [EachGap, windows, single, pulseList]
    rw [show (2⁻¹ : ℝ) = 1 / 2 by norm_num, hwin R hpos]
    have h2 : R⁻¹ ≤ 1 + 2 / 10 ^ 8 := by
      rw [inv_le_comm₀ hpos (by norm_num)]; simpa using h
    refine ⟨(key _).mpr (by dsimp only; linarith), ?_⟩
    rw [← sub_pos]
    exact (key _).mpr (by dsimp only; linarith)

end OpenControls
