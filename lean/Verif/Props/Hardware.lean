import Verif.Proofs.HardwareFamilies
import Verif.Props.Conversion

/-!
# C124: the hardware the predefined sequences need

`R` is the maximum Rabi rate, `D` the maximum detuning rate, `m` the minimum segment duration.
-/

namespace OpenControls

open Spec RealInst

theorem converts_iff {s : Sequence ℝ} (hs : s.Constructed) (R D m : ℝ) (cname : Option String) :
    (∃ c, convertDDS s R D m cname = .ok c) ↔ Convertible R D m s := by
  constructor
  · rintro ⟨c, hc⟩
    exact ((C46_convertible s hs R D m cname).ok hc).1
  · intro h
    obtain ⟨c, hc, -⟩ := (C46_convertible s hs R D m cname).1 h
    exact ⟨c, hc⟩

/-- the table of a family with pulses in the plane -/
theorem Spec.Family.planar {family : Family} (hp : family.InPlane) (hv : family.Valid) {T : ℝ} (hT : 0 < T) :
    ∃ axis times, axis ≠ Axis.z ∧ times ≠ [] ∧ Ordered T times ∧ family.table T = onAxis axis times := by
  have hr : ∀ n : ℝ, 1 ≤ n → List.range' 1 ⌊n⌋₊ ≠ [] := by
    intro n hn
    have := Nat.floor_pos.mpr hn
    rw [Ne, List.range'_eq_nil_iff]; omega
  cases family with
  | ramsey => exact hp.elim
  | spinEcho => exact ⟨.x, [T / 2], by decide, by simp, by simp [Ordered, hT], rfl⟩
  | carrPurcell n => exact ⟨.x, _, by decide, by simpa [cpmgTimes] using hr n hv, cpmg_ordered hT _, rfl⟩
  | cpmg n => exact ⟨.y, _, by decide, by simpa [cpmgTimes] using hr n hv, cpmg_ordered hT _, rfl⟩
  | uhrig n => exact ⟨.y, _, by decide, by simpa [uhrigTimes] using hr n hv, uhrig_ordered hT _, rfl⟩
  | periodic n => exact ⟨.x, _, by decide, by simpa [periodicTimes] using hr n hv, periodic_ordered hT _, rfl⟩
  | walsh k =>
    refine ⟨.x, _, by decide, ?_, walsh_ordered hT _, rfl⟩
    have hk : ⌊k⌋₊ ≠ 0 := (Nat.floor_pos.mpr hv.1).ne'
    refine List.ne_nil_of_mem ((mem_walsh_changing T ⌊k⌋₊ _).mpr ⟨1, one_pos, ?_, ?_, rfl⟩)
    · exact Nat.one_lt_two_pow (by omega)
    · rw [changing_odd hk (by norm_num), Finset.card_singleton]; exact odd_one
  | quadratic n k => exact hp.elim
  | xConcatenated l =>
    have hl : ⌊l⌋₊ ≠ 0 := (Nat.floor_pos.mpr hv).ne'
    refine ⟨.x, _, by decide, ?_, xOffsets_ordered hT hl, rfl⟩
    exact List.ne_nil_of_mem ((mem_xOffsets hT hl _).mpr
      ⟨1, one_pos, Nat.one_lt_two_pow hl, by simp, rfl⟩)
  | xyConcatenated l => exact hp.elim

/-- **C124.** A predefined sequence of π-pulses about an axis in the XY plane converts exactly if the limits are
positive (the minimum not negative), every pulse has room for half of itself, the π/2 rotation (if there is one)
and a shortest gap between its centre and either end, and any two pulses have room for one pulse and a shortest gap
between their centres. -/
theorem C124_room (family : Family) (hp : family.InPlane) (T : ℝ) (prePost : Bool) (name : Option String)
    (s : Sequence ℝ) (hs : family.call T prePost name = .ok s) (R D m : ℝ) (cname : Option String) :
    (∃ c, convertDDS s R D m cname = .ok c) ↔
      0 < R ∧ 0 < D ∧ 0 ≤ m ∧
        Spaced (piTime R m / 2 + endTime R m prePost + shortestGap m) (piTime R m + shortestGap m) s := by
  obtain ⟨⟨hT, hv⟩, hw⟩ := (C43_well_formed family T prePost name).ok hs
  have hdur : s.duration = T := hw.1
  rw [converts_iff (hw.constructed hT)]
  obtain ⟨axis, times, hx, hne, ho, ht⟩ := Family.planar hp hv hT
  rw [Family.call_eq hv hT, ht] at hs
  injection hs with hs
  unfold Spaced
  rw [hdur]
  subst hs
  have hpt : piPulseTimes (finished T (onAxis axis times) prePost name) = times := by
    rw [piPulseTimes_finished]
    cases axis with
    | x => exact flipTimes_onAxis_x times
    | y => exact flipTimes_onAxis_y times
    | z => exact absurd rfl hx
  rw [hpt]
  exact convertible_planar hT hx hne ho prePost name

/-- the room a family needs, from the distances between its pulses -/
theorem room_of_spaced {family : Family} (hp : family.InPlane) {T : ℝ} {prePost : Bool} {name : Option String}
    {s : Sequence ℝ} (hs : family.call T prePost name = .ok s) {times : List ℝ} {P : ℝ → ℝ → Prop}
    (ht : flipTimes (family.table T) = times)
    (h : ∀ E B, 0 < T → family.Valid → (TimesSpaced T E B times ↔ P E B)) (R D m : ℝ) (cname : Option String) :
    (∃ c, convertDDS s R D m cname = .ok c) ↔ 0 < R ∧ 0 < D ∧ 0 ≤ m ∧
      P (piTime R m / 2 + endTime R m prePost + shortestGap m) (piTime R m + shortestGap m) := by
  rw [C124_room family hp T prePost name s hs R D m cname]
  obtain ⟨⟨hT, hv⟩, hw⟩ := (C43_well_formed family T prePost name).ok hs
  rw [← h _ _ hT hv]
  unfold Spaced TimesSpaced
  rw [hw.1]
  rw [Family.call_eq hv hT] at hs
  injection hs with hs
  subst hs
  rw [piPulseTimes_finished, ht]

/-- **C124**, Ramsey: there must be room for the two rotations, if they are there, and a shortest gap. -/
theorem C124_ramsey (T : ℝ) (prePost : Bool) (name : Option String) (s : Sequence ℝ)
    (hs : newRamseySequence T prePost name = .ok s) (R D m : ℝ) (cname : Option String) :
    (∃ c, convertDDS s R D m cname = .ok c) ↔
      0 < R ∧ 0 < D ∧ 0 ≤ m ∧ 2 * endTime R m prePost + shortestGap m ≤ T := by
  have hs' : Family.call .ramsey T prePost name = .ok s := hs
  obtain ⟨⟨hT, hv⟩, hw⟩ := (C43_well_formed .ramsey T prePost name).ok hs'
  rw [converts_iff (hw.constructed hT)]
  rw [Family.call_eq hv hT] at hs'
  injection hs' with hs'
  subst hs'
  have hwin : windows R D m (finished T (Family.table .ramsey T) prePost name) =
      [(0, endTime R m prePost), (T - endTime R m prePost, T)] :=
    windows_planar (axis := .x) (times := []) hT (by decide) (by simp) prePost name
  have hchain : 0 ≤ m → (EachGap (fun g => m < g ∨ NearValue g m)
      [(0, endTime R m prePost), (T - endTime R m prePost, T)] ↔ 2 * endTime R m prePost + shortestGap m ≤ T) := by
    intro hm
    simp only [EachGap, List.isChain_cons_cons, List.isChain_singleton, and_true]
    rw [gap_passes hm]
    constructor <;> intro h <;> linarith
  have hpi := Real.pi_pos
  unfold Convertible
  rw [hwin]
  constructor
  · rintro ⟨h1, h2, h3, -, -, -, h⟩
    exact ⟨h1, h2, h3, (hchain h3).mp h⟩
  · rintro ⟨h1, h2, h3, h⟩
    refine ⟨h1, h2, h3, fun p hp => (hw.standard p hp).facts.1, fun p hp => (hw.standard p hp).facts.2.1, ?_,
      (hchain h3).mpr h⟩
    cases prePost with
    | false => exact List.Pairwise.nil
    | true => exact List.pairwise_pair.mpr hT

/-- **C124**, spin echo. -/
theorem C124_spin_echo (T : ℝ) (prePost : Bool) (name : Option String) (s : Sequence ℝ)
    (hs : newSpinEchoSequence T prePost name = .ok s) (R D m : ℝ) (cname : Option String) :
    (∃ c, convertDDS s R D m cname = .ok c) ↔ 0 < R ∧ 0 < D ∧ 0 ≤ m ∧
      piTime R m / 2 + endTime R m prePost + shortestGap m ≤ T / 2 := by
  refine room_of_spaced (family := .spinEcho) trivial hs (times := [T / 2]) (P := fun E _ => E ≤ T / 2)
    (flipTimes_onAxis_x [T / 2]) (fun E B _ _ => ?_) R D m cname
  constructor
  · intro h
    exact (h.1 _ (List.mem_singleton_self _)).1
  · intro h
    refine ⟨fun a ha => ?_, fun a ha b hb hab => ?_⟩
    · rw [List.mem_singleton.mp ha]; exact ⟨h, by linarith⟩
    · rw [List.mem_singleton.mp ha, List.mem_singleton.mp hb] at hab
      exact absurd hab (lt_irrefl _)

/-- **C124**, Carr-Purcell with `n` pulses: `T/2n` at the ends and `T/n` between the pulses. -/
theorem C124_carr_purcell (T n : ℝ) (prePost : Bool) (name : Option String) (s : Sequence ℝ)
    (hs : newCarrPurcellSequence T n prePost name = .ok s) (R D m : ℝ) (cname : Option String) :
    (∃ c, convertDDS s R D m cname = .ok c) ↔ 0 < R ∧ 0 < D ∧ 0 ≤ m ∧
      piTime R m / 2 + endTime R m prePost + shortestGap m ≤ T / (2 * ⌊n⌋₊) ∧
      (2 ≤ ⌊n⌋₊ → piTime R m + shortestGap m ≤ T / ⌊n⌋₊) :=
  room_of_spaced (family := .carrPurcell n) trivial hs
    (P := fun E B => E ≤ T / (2 * ⌊n⌋₊) ∧ (2 ≤ ⌊n⌋₊ → B ≤ T / ⌊n⌋₊)) (flipTimes_onAxis_x _)
    (fun E B hT hv => spaced_cpmg hT (Nat.floor_pos.mpr hv) E B) R D m cname

/-- **C124**, CPMG with `n` pulses: the same. -/
theorem C124_cpmg (T n : ℝ) (prePost : Bool) (name : Option String) (s : Sequence ℝ)
    (hs : newCPMGSequence T n prePost name = .ok s) (R D m : ℝ) (cname : Option String) :
    (∃ c, convertDDS s R D m cname = .ok c) ↔ 0 < R ∧ 0 < D ∧ 0 ≤ m ∧
      piTime R m / 2 + endTime R m prePost + shortestGap m ≤ T / (2 * ⌊n⌋₊) ∧
      (2 ≤ ⌊n⌋₊ → piTime R m + shortestGap m ≤ T / ⌊n⌋₊) :=
  room_of_spaced (family := .cpmg n) trivial hs
    (P := fun E B => E ≤ T / (2 * ⌊n⌋₊) ∧ (2 ≤ ⌊n⌋₊ → B ≤ T / ⌊n⌋₊)) (flipTimes_onAxis_y _)
    (fun E B hT hv => spaced_cpmg hT (Nat.floor_pos.mpr hv) E B) R D m cname

/-- **C124**, Uhrig with `n` pulses, `a = π/(2n+2)`: `T sin² a` at the ends and `T sin a sin 3a` between the
pulses. -/
theorem C124_uhrig (T n : ℝ) (prePost : Bool) (name : Option String) (s : Sequence ℝ)
    (hs : newUhrigSequence T n prePost name = .ok s) (R D m : ℝ) (cname : Option String) :
    (∃ c, convertDDS s R D m cname = .ok c) ↔ 0 < R ∧ 0 < D ∧ 0 ≤ m ∧
      piTime R m / 2 + endTime R m prePost + shortestGap m ≤
        T * Real.sin (Real.pi / (2 * (⌊n⌋₊ + 1))) ^ 2 ∧
      (2 ≤ ⌊n⌋₊ → piTime R m + shortestGap m ≤
        T * (Real.sin (Real.pi / (2 * (⌊n⌋₊ + 1))) * Real.sin (3 * (Real.pi / (2 * (⌊n⌋₊ + 1)))))) :=
  room_of_spaced (family := .uhrig n) trivial hs
    (P := fun E B => E ≤ T * Real.sin (Real.pi / (2 * (⌊n⌋₊ + 1))) ^ 2 ∧
      (2 ≤ ⌊n⌋₊ → B ≤
        T * (Real.sin (Real.pi / (2 * (⌊n⌋₊ + 1))) * Real.sin (3 * (Real.pi / (2 * (⌊n⌋₊ + 1)))))))
    (flipTimes_onAxis_y _)
    (fun E B hT hv => spaced_uhrig hT (Nat.floor_pos.mpr hv) E B) R D m cname

/-- **C124**, periodic with `n` pulses: `T/(n+1)` everywhere. -/
theorem C124_periodic (T n : ℝ) (prePost : Bool) (name : Option String) (s : Sequence ℝ)
    (hs : newPeriodicSequence T n prePost name = .ok s) (R D m : ℝ) (cname : Option String) :
    (∃ c, convertDDS s R D m cname = .ok c) ↔ 0 < R ∧ 0 < D ∧ 0 ≤ m ∧
      piTime R m / 2 + endTime R m prePost + shortestGap m ≤ T / (⌊n⌋₊ + 1) ∧
      (2 ≤ ⌊n⌋₊ → piTime R m + shortestGap m ≤ T / (⌊n⌋₊ + 1)) :=
  room_of_spaced (family := .periodic n) trivial hs
    (P := fun E B => E ≤ T / (⌊n⌋₊ + 1) ∧ (2 ≤ ⌊n⌋₊ → B ≤ T / (⌊n⌋₊ + 1))) (flipTimes_onAxis_x _)
    (fun E B hT hv => spaced_periodic hT (Nat.floor_pos.mpr hv) E B) R D m cname

/-- **C124**, Walsh of Paley order `k` with `d = log₂ k + 1` binary digits: `T/2^d` at the ends, and between the
pulses the same, except for the orders 3, 6, 12, 24, …, whose pulses are twice as far apart. -/
theorem C124_walsh (T k : ℝ) (prePost : Bool) (name : Option String) (s : Sequence ℝ)
    (hs : newWalshSequence T k prePost name = .ok s) (R D m : ℝ) (cname : Option String) :
    (∃ c, convertDDS s R D m cname = .ok c) ↔ 0 < R ∧ 0 < D ∧ 0 ≤ m ∧
      piTime R m / 2 + endTime R m prePost + shortestGap m ≤ T / 2 ^ (Nat.log2 ⌊k⌋₊ + 1) ∧
      (⌊k⌋₊ ≠ 1 → piTime R m + shortestGap m ≤
        if ⌊k⌋₊ = 3 * 2 ^ (Nat.log2 ⌊k⌋₊ - 1) then 2 * (T / 2 ^ (Nat.log2 ⌊k⌋₊ + 1))
        else T / 2 ^ (Nat.log2 ⌊k⌋₊ + 1)) :=
  room_of_spaced (family := .walsh k) trivial hs
    (P := fun E B => E ≤ T / 2 ^ (Nat.log2 ⌊k⌋₊ + 1) ∧
      (⌊k⌋₊ ≠ 1 → B ≤ if ⌊k⌋₊ = 3 * 2 ^ (Nat.log2 ⌊k⌋₊ - 1) then 2 * (T / 2 ^ (Nat.log2 ⌊k⌋₊ + 1))
        else T / 2 ^ (Nat.log2 ⌊k⌋₊ + 1)))
    (flipTimes_onAxis_x _)
    (fun E B hT hv => spaced_walsh hT (Nat.floor_pos.mpr hv.1).ne' E B) R D m cname

/-- **C124**, X-concatenated of order `l`: `T/2^l` at the ends; between the pulses `T/2` for order 2 and `T/2^l`
from order 3 on. -/
theorem C124_x_concatenated (T l : ℝ) (prePost : Bool) (name : Option String) (s : Sequence ℝ)
    (hs : newXConcatenatedSequence T l prePost name = .ok s) (R D m : ℝ) (cname : Option String) :
    (∃ c, convertDDS s R D m cname = .ok c) ↔ 0 < R ∧ 0 < D ∧ 0 ≤ m ∧
      piTime R m / 2 + endTime R m prePost + shortestGap m ≤ T / 2 ^ ⌊l⌋₊ ∧
      (⌊l⌋₊ ≠ 1 → piTime R m + shortestGap m ≤ if ⌊l⌋₊ = 2 then T / 2 else T / 2 ^ ⌊l⌋₊) := by
  refine room_of_spaced (family := .xConcatenated l) trivial hs
    (P := fun E B => E ≤ T / 2 ^ ⌊l⌋₊ ∧ (⌊l⌋₊ ≠ 1 → B ≤ if ⌊l⌋₊ = 2 then T / 2 else T / 2 ^ ⌊l⌋₊))
    (flipTimes_onAxis_x _) (fun E B hT hv => ?_) R D m cname
  obtain ⟨j, hj⟩ : ∃ j, ⌊l⌋₊ = j + 1 := ⟨⌊l⌋₊ - 1, by have := Nat.floor_pos.mpr hv; omega⟩
  have h1 : 2 ^ (j + 1) - 1 ≠ 0 := by
    have : 1 < 2 ^ (j + 1) := Nat.one_lt_two_pow (by omega)
    omega
  have key := spaced_walsh hT h1 E B
  rw [walsh_ones hT, log2_ones] at key
  show TimesSpaced T E B (xConcatenatedOffsets T ⌊l⌋₊) ↔ _
  rw [hj, key]
  refine and_congr_right fun _ => ?_
  have e1 : 2 ^ (j + 1) - 1 ≠ 1 ↔ j + 1 ≠ 1 := by
    rcases j with _ | j
    · norm_num
    · have : 4 ≤ 2 ^ (j + 1 + 1) := by
        calc 4 = 2 ^ 2 := by norm_num
          _ ≤ _ := Nat.pow_le_pow_right (by norm_num) (by omega)
      omega
  rw [e1]
  refine imp_congr_right fun hne => ?_
  have e2 : 2 ^ (j + 1) - 1 = 3 * 2 ^ (j - 1) ↔ j + 1 = 2 := by
    obtain ⟨i, rfl⟩ : ∃ i, j = i + 1 := ⟨j - 1, by omega⟩
    rw [Nat.add_sub_cancel]
    have p : 2 ^ (i + 1 + 1) = 4 * 2 ^ i := by rw [pow_succ, pow_succ]; ring
    rw [p]
    constructor
    · intro h
      have : 2 ^ i = 1 := by omega
      rcases i with _ | i
      · rfl
      · have : 1 < 2 ^ (i + 1) := Nat.one_lt_two_pow (by omega)
        omega
    · intro h
      have : i = 0 := by omega
      subst this; norm_num
  simp only [e2]
  split
  · rename_i h2
    rw [h2, show 2 * (T / 2 ^ 2) = T / 2 by ring]
  · rfl

/-! ### The least Rabi rate, without a minimum segment duration -/

theorem shortestGap_zero : shortestGap 0 = -(1 / 10 ^ 8) := by unfold shortestGap; ring

theorem piTime_zero {R : ℝ} (hR : 0 < R) : piTime R 0 = Real.pi / R :=
  max_eq_left (div_nonneg Real.pi_pos.le hR.le)

theorem endTime_zero {R : ℝ} (hR : 0 < R) : endTime R 0 true = Real.pi / R / 2 := by
  unfold endTime
  rw [if_pos rfl, max_eq_left (div_nonneg (by positivity) hR.le)]; ring

theorem rate_iff {R g : ℝ} (hg : 0 < g) : (0 < R ∧ Real.pi / R ≤ g) ↔ Real.pi / g ≤ R := by
  have hpi := Real.pi_pos
  constructor
  · rintro ⟨hR, h⟩
    rw [div_le_iff₀ hR] at h
    rw [div_le_iff₀ hg]; linarith
  · intro h
    have hR : 0 < R := lt_of_lt_of_le (by positivity) h
    refine ⟨hR, ?_⟩
    rw [div_le_iff₀ hg] at h
    rw [div_le_iff₀ hR]; linarith

/-- **C124**, the least Rabi rate of CPMG: with two pulses or more `π / (T/n)`, apart from the tolerance of 1e-8; with
pre and post rotations twice that. -/
theorem C124_cpmg_rate (T n : ℝ) (name : Option String) (D : ℝ) (hD : 0 < D) (R : ℝ) (cname : Option String) :
    (∀ s, newCPMGSequence T n false name = .ok s → 2 ≤ ⌊n⌋₊ →
      ((∃ c, convertDDS s R D 0 cname = .ok c) ↔ Real.pi / (T / ⌊n⌋₊ + 1 / 10 ^ 8) ≤ R)) ∧
    ∀ s, newCPMGSequence T n true name = .ok s →
      ((∃ c, convertDDS s R D 0 cname = .ok c) ↔ Real.pi / (T / (2 * ⌊n⌋₊) + 1 / 10 ^ 8) ≤ R) := by
  have hbasic : ∀ (pp : Bool) (s : Sequence ℝ), newCPMGSequence T n pp name = .ok s → 0 < T ∧ 1 ≤ ⌊n⌋₊ := by
    intro pp s hs
    obtain ⟨⟨hT, hv⟩, -⟩ := (C43_well_formed (.cpmg n) T pp name).ok hs
    exact ⟨hT, Nat.floor_pos.mpr hv⟩
  constructor
  · intro s hs h2
    obtain ⟨hT, hn⟩ := hbasic _ s hs
    have hn0 : (0 : ℝ) < ⌊n⌋₊ := by exact_mod_cast hn
    have hg : 0 < T / ⌊n⌋₊ + 1 / 10 ^ 8 := by positivity
    have he : T / (2 * (⌊n⌋₊ : ℝ)) = T / ⌊n⌋₊ / 2 := by field_simp
    rw [C124_cpmg T n false name s hs, ← rate_iff hg, he, shortestGap_zero]
    constructor
    · rintro ⟨hR, -, -, -, h⟩
      have := h h2
      rw [piTime_zero hR] at this
      exact ⟨hR, by linarith⟩
    · rintro ⟨hR, h⟩
      rw [piTime_zero hR]
      refine ⟨hR, hD, le_rfl, ?_, fun _ => by linarith⟩
      simp only [endTime, Bool.false_eq_true, if_false]
      linarith
  · intro s hs
    obtain ⟨hT, hn⟩ := hbasic _ s hs
    have hn0 : (0 : ℝ) < ⌊n⌋₊ := by exact_mod_cast hn
    have hg : 0 < T / (2 * ⌊n⌋₊) + 1 / 10 ^ 8 := by positivity
    have he : T / (2 * (⌊n⌋₊ : ℝ)) = T / ⌊n⌋₊ / 2 := by field_simp
    have hpos : 0 < T / (⌊n⌋₊ : ℝ) := by positivity
    rw [C124_cpmg T n true name s hs, ← rate_iff hg, he, shortestGap_zero]
    constructor
    · rintro ⟨hR, -, -, h, -⟩
      rw [piTime_zero hR, endTime_zero hR] at h
      exact ⟨hR, by linarith⟩
    · rintro ⟨hR, h⟩
      rw [piTime_zero hR, endTime_zero hR]
      exact ⟨hR, hD, le_rfl, by linarith, fun _ => by linarith⟩

/-- **C124**, the least Rabi rate of Uhrig with pre and post rotations: `π / (T sin²(π/(2n+2)))`, apart from the tolerance of
1e-8. It grows with the square of the number of pulses. -/
theorem C124_uhrig_rate (T n : ℝ) (name : Option String) (s : Sequence ℝ)
    (hs : newUhrigSequence T n true name = .ok s) (D : ℝ) (hD : 0 < D) (R : ℝ) (cname : Option String) :
    ((∃ c, convertDDS s R D 0 cname = .ok c) ↔
      Real.pi / (T * Real.sin (Real.pi / (2 * (⌊n⌋₊ + 1))) ^ 2 + 1 / 10 ^ 8) ≤ R) ∧
    T * Real.sin (Real.pi / (2 * (⌊n⌋₊ + 1))) ^ 2 ≤ T * (Real.pi / 2) ^ 2 / (⌊n⌋₊ + 1) ^ 2 := by
  obtain ⟨⟨hT, hv⟩, -⟩ := (C43_well_formed (.uhrig n) T true name).ok hs
  have hn : 1 ≤ ⌊n⌋₊ := Nat.floor_pos.mpr hv
  have hn1 : (1 : ℝ) ≤ ⌊n⌋₊ := by exact_mod_cast hn
  have hpi := Real.pi_pos
  rw [C124_uhrig T n true name s hs]
  set α := Real.pi / (2 * ((⌊n⌋₊ : ℝ) + 1)) with hα
  have hα0 : 0 < α := by positivity
  have hαpi : (2 * (⌊n⌋₊ : ℝ) + 2) * α = Real.pi := by rw [hα]; field_simp
  have hs0 : 0 < Real.sin α := Real.sin_pos_of_pos_of_lt_pi hα0 (by nlinarith)
  have hg : 0 < T * Real.sin α ^ 2 + 1 / 10 ^ 8 := by positivity
  constructor
  · rw [← rate_iff hg, shortestGap_zero]
    constructor
    · rintro ⟨hR, -, -, h, -⟩
      rw [piTime_zero hR, endTime_zero hR] at h
      exact ⟨hR, by linarith⟩
    · rintro ⟨hR, h⟩
      rw [piTime_zero hR, endTime_zero hR]
      refine ⟨hR, hD, le_rfl, by linarith, fun h2 => ?_⟩
      have h2' : (2 : ℝ) ≤ ⌊n⌋₊ := by exact_mod_cast h2
      have h3 : Real.sin α ≤ Real.sin (3 * α) := by
        apply Real.sin_le_sin_of_le_of_le_pi_div_two <;> nlinarith
      have : T * Real.sin α ^ 2 ≤ T * (Real.sin α * Real.sin (3 * α)) := by
        rw [pow_two]; gcongr
      linarith
  · have h1 : Real.sin α ≤ α := Real.sin_le hα0.le
    have h2 : Real.sin α ^ 2 ≤ α ^ 2 := by gcongr
    have h3 : T * (Real.pi / 2) ^ 2 / ((⌊n⌋₊ : ℝ) + 1) ^ 2 = T * α ^ 2 := by rw [hα]; field_simp
    rw [h3]
    gcongr

/-- CPMG with four pulses and duration 1: a Rabi rate of 4π suffices, one of 3π does not -/
example : ∃ s, newCPMGSequence (1 : ℝ) 4 false none = .ok s ∧
    (∃ c, convertDDS s (4 * Real.pi) 1 0 none = .ok c) ∧
    ¬ ∃ c, convertDDS s (3 * Real.pi) 1 0 none = .ok c := by
  obtain ⟨s, hs, -⟩ := (C43_well_formed (.cpmg 4) 1 false none).1 ⟨one_pos, by norm_num [Family.Valid]⟩
  have hf : ⌊(4 : ℝ)⌋₊ = 4 := by norm_num
  have hpi := Real.pi_pos
  refine ⟨s, hs, ?_, ?_⟩
  · rw [(C124_cpmg_rate 1 4 none 1 one_pos _ none).1 s hs (by rw [hf]; norm_num), hf,
      div_le_iff₀ (by norm_num)]
    push_cast
    nlinarith
  · rw [(C124_cpmg_rate 1 4 none 1 one_pos _ none).1 s hs (by rw [hf]; norm_num), hf,
      div_le_iff₀ (by norm_num)]
    push_cast
    nlinarith

/-- the Walsh sequence of Paley order 6 exists and is one of those with wide gaps; that of order 5 is not -/
example : (∃ s, newWalshSequence (1 : ℝ) 6 false none = .ok s) ∧
    (6 = 3 * 2 ^ (Nat.log2 6 - 1)) ∧ ¬ (5 = 3 * 2 ^ (Nat.log2 5 - 1)) := by
  obtain ⟨s, hs, -⟩ := (C43_well_formed (.walsh 6) 1 false none).1 ⟨one_pos, by norm_num [Family.Valid]⟩
  exact ⟨⟨s, hs⟩, by decide, by decide⟩

/-- the Uhrig sequence with three pulses and pre and post rotations exists -/
example : ∃ s, newUhrigSequence (1 : ℝ) 3 true none = .ok s := by
  obtain ⟨s, hs, -⟩ := (C43_well_formed (.uhrig 3) 1 true none).1 ⟨one_pos, by norm_num [Family.Valid]⟩
  exact ⟨s, hs⟩

end OpenControls
