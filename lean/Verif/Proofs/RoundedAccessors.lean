import Verif.Proofs.RoundedGaussian
import Verif.Proofs.ExpLipschitz
import Verif.Proofs.Control

/-!
# Accessors of a control in rounded arithmetic
-/

namespace OpenControls

open Spec Fl PyFloat Py

open scoped Matrix.Norms.L2Operator

variable {r : Rounding}

theorem constructed_rounded {c : DrivenControl (Fl r)} (h : c.Constructed) :
    (∀ t ∈ c.durations, 0 < t.val) ∧ ∀ x ∈ c.rabiRates, 0 ≤ x.val := by
  obtain ⟨t, ra, a, d, n, h⟩ := h
  rw [DrivenControl.new_eq] at h
  split at h
  · rename_i h1
    split at h
    · split at h
      · rename_i h3
        cases h
        simp only [List.all_eq_true, gt_iff, ge_iff, val_lit_zero] at h1 h3
        exact ⟨h1, h3⟩
      · cases h
    · cases h
  · cases h

theorem new_of_rounded {durations rates azimuths detunings : List (Fl r)} {name : Option String}
    (h1 : ∀ t ∈ durations, 0 < t.val) (h2 : rates.length = durations.length)
    (h3 : azimuths.length = durations.length) (h4 : detunings.length = durations.length)
    (h5 : ∀ x ∈ rates, 0 ≤ x.val) :
    DrivenControl.new durations (some rates) (some azimuths) (some detunings) name =
      .ok ⟨rates, azimuths, detunings, durations, name⟩ := by
  rw [DrivenControl.new_eq, if_pos, if_pos, if_pos]
  · rfl
  · simpa [List.all_eq_true] using h5
  · simp [h2, h3, h4]
  · simpa [List.all_eq_true] using h1

/-! ## Errors of the elementary operations -/

namespace Rel

theorem sqrt {k a x : ℝ} (h : Rel r k a x) (hx : 0 ≤ x) : Rel r (k / 2) (Real.sqrt a) (Real.sqrt x) := by
  obtain ⟨e, he, rfl⟩ := h
  refine ⟨e / 2, ?_, ?_⟩
  · rw [abs_div, abs_two]; linarith
  · rw [Real.sqrt_mul hx]
    congr 1
    rw [Real.sqrt_eq_iff_mul_self_eq (Real.exp_pos _).le (Real.exp_pos _).le, ← Real.exp_add]
    congr 1; ring

theorem sq {k a x : ℝ} (h : Rel r k a x) : Rel r (2 * k) (a ^ 2) (x ^ 2) := by
  have := h.mul h
  rw [← pow_two, ← pow_two, ← two_mul] at this
  exact this

/-- absolute error with a number of roundings that cannot matter -/
theorem small {k K a x : ℝ} (h : Rel r k a x) (hk : 0 ≤ k) (hk' : k ≤ 1000)
    (hK : 202 / 100 * k ≤ K) : |a - x| ≤ K * r.u * |x| := by
  have hu := u_small r
  have hu0 := r.u_nonneg
  refine (h.abs_error hk ?_).trans ?_
  · have := mul_le_mul hk' hu hu0 (by norm_num)
    linarith
  · exact mul_le_mul_of_nonneg_right (mul_le_mul_of_nonneg_right hK hu0) (abs_nonneg x)

end Rel

theorem amplitudeX_rel (Ω φ : Fl r) : Rel r 4 (Ω * PyFloat.cos φ).val (Ω.val * Real.cos φ.val) := by
  have h := ((Rel.refl Ω.val).mul (Rel.lib r.cos φ.val)).rnd
  exact h.mono (by norm_num)

theorem amplitudeY_rel (Ω φ : Fl r) : Rel r 4 (Ω * PyFloat.sin φ).val (Ω.val * Real.sin φ.val) := by
  have h := ((Rel.refl Ω.val).mul (Rel.lib r.sin φ.val)).rnd
  exact h.mono (by norm_num)

/-- the computed length of the vector `(Ω cos φ, Ω sin φ, Δ)` -/
noncomputable def roundedLength (Ω φ Δ : Fl r) : Fl r :=
  PyFloat.sqrt ((Ω * PyFloat.cos φ) * (Ω * PyFloat.cos φ) + (Ω * PyFloat.sin φ) * (Ω * PyFloat.sin φ) +
    Δ * Δ)

theorem roundedLength_rel (Ω φ Δ : Fl r) :
    Rel r (13 / 2) (roundedLength Ω φ Δ).val (Real.sqrt (Ω.val ^ 2 + Δ.val ^ 2)) := by
  have hx := (amplitudeX_rel Ω φ).mul (amplitudeX_rel Ω φ)
  have hy := (amplitudeY_rel Ω φ).mul (amplitudeY_rel Ω φ)
  have hz := ((Rel.refl (r := r) Δ.val).mul (Rel.refl Δ.val)).rnd
  have hxy := (hx.rnd.add hy.rnd (mul_self_nonneg _) (mul_self_nonneg _)).rnd
  have h := ((hxy.add (hz.mono (by norm_num)) (add_nonneg (mul_self_nonneg _) (mul_self_nonneg _))
    (mul_self_nonneg _)).rnd.sqrt (add_nonneg (add_nonneg (mul_self_nonneg _) (mul_self_nonneg _))
    (mul_self_nonneg _))).rnd
  have e : Ω.val * Real.cos φ.val * (Ω.val * Real.cos φ.val) +
      Ω.val * Real.sin φ.val * (Ω.val * Real.sin φ.val) + Δ.val * Δ.val = Ω.val ^ 2 + Δ.val ^ 2 := by
    linear_combination Ω.val ^ 2 * Real.cos_sq_add_sin_sq φ.val
  rw [e] at h
  exact h.mono (by norm_num)

theorem amplitudes_roundedLength (c : DrivenControl (Fl r)) (n : ℕ) (Ω φ Δ : Fl r)
    (hΩ : c.rabiRates[n]? = some Ω) (hφ : c.azimuthalAngles[n]? = some φ)
    (hΔ : c.detunings[n]? = some Δ) : c.amplitudes[n]? = some (roundedLength Ω φ Δ) := by
  simp [DrivenControl.amplitudes, DrivenControl.amplitudeX, DrivenControl.amplitudeY,
    List.getElem?_zipWith, hΩ, hφ, hΔ, roundedLength]

theorem amplitudes_length_rounded (c : DrivenControl (Fl r)) (h : c.Constructed) :
    c.amplitudes.length = c.numberOfSegments := by
  obtain ⟨h1, h2, h3, h4⟩ := h.lengths
  simp [DrivenControl.amplitudes, DrivenControl.amplitudeX, DrivenControl.amplitudeY, h1, h2, h3]

theorem isCloseAtol_zero_rounded (tol a : Fl r) (ha : 0 ≤ a.val) :
    isCloseAtol tol a (lit 0) = true ↔ a.val ≤ tol.val := by
  have h1 : r.rnd |a.val| = |a.val| := by rw [abs_of_nonneg ha, a.rnd_val]
  unfold isCloseAtol
  simp [val_lit_zero, a.rnd_val, tol.rnd_val, abs_of_nonneg ha]

theorem pyMin_rounded (a b : Fl r) : (pyMin a b).val = min a.val b.val := by
  unfold pyMin
  by_cases h : b.val < a.val
  · rw [if_pos (by simpa using h), min_eq_right h.le]
  · rw [if_neg (by simpa using h), min_eq_left (not_lt.mp h)]

theorem npAmin_rounded {l : List (Fl r)} (h : l ≠ []) :
    ∃ m, Py.npAmin l = .ok m ∧ m ∈ l ∧ ∀ x ∈ l, m.val ≤ x.val := by
  have key : ∀ (l : List (Fl r)) (a : Fl r), ∃ m, l.foldl Py.npMinimum a = m ∧ m ∈ a :: l ∧
      ∀ x ∈ a :: l, m.val ≤ x.val := by
    intro l
    induction l with
    | nil => intro a; exact ⟨a, rfl, by simp, by simp⟩
    | cons b l ih =>
      intro a
      obtain ⟨m, h1, h2, h3⟩ := ih (Py.npMinimum a b)
      have hmax : Py.npMinimum a b = if b.val < a.val then b else a := by
        unfold Py.npMinimum
        have e1 : PyFloat.eq a a = true := by simp
        have e2 : PyFloat.eq b b = true := by simp
        simp [e1, e2]
      refine ⟨m, h1, ?_, ?_⟩
      · rw [hmax] at h2
        rcases List.mem_cons.mp h2 with h | h
        · rw [h]; split <;> simp
        · simp [h]
      · intro x hx
        have hm := h3 (Py.npMinimum a b) (by simp)
        rw [hmax] at hm
        rcases List.mem_cons.mp hx with h | h
        · subst h
          split at hm <;> linarith
        · rcases List.mem_cons.mp h with h | h
          · subst h
            split at hm
            · exact hm
            · linarith
          · exact h3 x (by simp [h])
  cases l with
  | nil => exact absurd rfl h
  | cons a l =>
    obtain ⟨m, h1, h2, h3⟩ := key l a
    exact ⟨m, by simp [Py.npAmin, h1], h2, h3⟩

theorem directions_rounded (c : DrivenControl (Fl r)) (h : c.Constructed) (n : ℕ) (Ω φ Δ : Fl r)
    (hΩ : c.rabiRates[n]? = some Ω) (hφ : c.azimuthalAngles[n]? = some φ) (hΔ : c.detunings[n]? = some Δ)
    (habove : 11 / 10 / 10 ^ 8 < Real.sqrt (Ω.val ^ 2 + Δ.val ^ 2) ∨
      (0 < Real.sqrt (Ω.val ^ 2 + Δ.val ^ 2) ∧ ∀ (m : ℕ) (Ω' Δ' : Fl r), c.rabiRates[m]? = some Ω' →
        c.detunings[m]? = some Δ' → 11 / 10 / 10 ^ 20 * Real.sqrt (Ω'.val ^ 2 + Δ'.val ^ 2) ≤
          Real.sqrt (Ω.val ^ 2 + Δ.val ^ 2))) :
    ∃ ds nx ny nz, c.directions = .ok ds ∧ ds.length = c.numberOfSegments ∧ ds[n]? = some (nx, ny, nz) ∧
      Rel r (23 / 2) nx.val (Ω.val * Real.cos φ.val / Real.sqrt (Ω.val ^ 2 + Δ.val ^ 2)) ∧
      Rel r (23 / 2) ny.val (Ω.val * Real.sin φ.val / Real.sqrt (Ω.val ^ 2 + Δ.val ^ 2)) ∧
      Rel r (23 / 2) nz.val (Δ.val / Real.sqrt (Ω.val ^ 2 + Δ.val ^ 2)) := by
  have hn : n < c.numberOfSegments := (List.getElem?_eq_some_iff.mp hΩ).1
  have hal := amplitudes_length_rounded c h
  obtain ⟨l1, l2, l3, l4⟩ := h.lengths
  obtain ⟨A, hA, hmem, hmax⟩ := npAmax_rounded (l := c.amplitudes) (by rintro he; simp [he] at hal; omega)
  have hamp := amplitudes_roundedLength c n Ω φ Δ hΩ hφ hΔ
  have hrel := roundedLength_rel Ω φ Δ
  have hL0 : 0 ≤ (roundedLength Ω φ Δ).val := hrel.nonneg (Real.sqrt_nonneg _)
  have hu := r.u_nonneg
  have hu1 := u_small r
  set tol : Fl r := pyMin (lit (1 / 100000000000000000000) * A) (lit (1 / 100000000)) with htol
  set L : ℝ := Real.sqrt (Ω.val ^ 2 + Δ.val ^ 2) with hL
  have hLpos : 0 < L := by
    rcases habove with h | h
    · exact lt_trans (by norm_num) h
    · exact h.1
  have hlow : L * (1 - 14 * r.u) ≤ (roundedLength Ω φ Δ).val := by
    have := hrel.small (K := 14) (by norm_num) (by norm_num) (by norm_num)
    rw [abs_of_pos hLpos] at this
    have := (abs_le.mp this).1
    linarith
  have habv : ¬ (roundedLength Ω φ Δ).val ≤ tol.val := by
    rw [not_le, htol, pyMin_rounded]
    rcases habove with h1 | ⟨-, h1⟩
    · refine lt_of_le_of_lt (min_le_right _ _) ?_
      have h2 := Rel.of_rnd (r := r) (1 / 100000000)
      have h3 := h2.small (K := 3) (by norm_num) (by norm_num) (by norm_num)
      rw [abs_of_pos (a := (1 / 100000000 : ℝ)) (by norm_num)] at h3
      have h4 := (abs_le.mp h3).2
      have h5 : (lit (1 / 100000000) : Fl r).val = r.rnd (1 / 100000000) := by simp
      rw [h5]
      nlinarith
    · refine lt_of_le_of_lt (min_le_left _ _) ?_
      obtain ⟨k, hk, hkA⟩ := List.mem_iff_getElem.mp hmem
      obtain ⟨Ω', φ', Δ', _, e1, e2, e3, _⟩ := h.segment (show k < c.numberOfSegments by omega)
      have hA' : A = roundedLength Ω' φ' Δ' := by
        have := amplitudes_roundedLength c k Ω' φ' Δ' e1 e2 e3
        rw [List.getElem?_eq_getElem hk, hkA] at this
        exact Option.some.inj this
      have hk1 := h1 k Ω' Δ' e1 e3
      have h2 := ((Rel.of_rnd (r := r) (1 / 100000000000000000000)).mul (roundedLength_rel Ω' φ' Δ')).rnd
      have h3 := h2.small (K := 18) (by norm_num) (by norm_num) (by norm_num)
      have hs := Real.sqrt_nonneg (Ω'.val ^ 2 + Δ'.val ^ 2)
      rw [abs_of_nonneg (a := (1 / 100000000000000000000 : ℝ) * _) (by positivity)] at h3
      have h4 := (abs_le.mp h3).2
      have h5 : (lit (1 / 100000000000000000000) * A : Fl r).val =
          r.rnd (r.rnd (1 / 100000000000000000000) * (roundedLength Ω' φ' Δ').val) := by
        rw [hA']; simp
      rw [h5]
      nlinarith
  have hsafe : isCloseAtol tol (roundedLength Ω φ Δ) (lit 0) = false := by
    rw [← Bool.not_eq_true, isCloseAtol_zero_rounded _ _ hL0]
    exact habv
  let safe := c.amplitudes.map fun a => if isCloseAtol tol a (lit 0) then lit 1 else a
  refine ⟨List.zipWith (fun x yz => (x, yz)) (List.zipWith (fun x s => x / s) c.amplitudeX safe)
    (List.zipWith (fun y z => (y, z)) (List.zipWith (fun y s => y / s) c.amplitudeY safe)
      (List.zipWith (fun d s => d / s) c.detunings safe)),
    Ω * PyFloat.cos φ / roundedLength Ω φ Δ, Ω * PyFloat.sin φ / roundedLength Ω φ Δ,
    Δ / roundedLength Ω φ Δ, ?_, ?_, ?_, ?_, ?_, ?_⟩
  · unfold DrivenControl.directions
    dsimp only
    rw [hA]
    rfl
  · simp [safe, DrivenControl.amplitudeX, DrivenControl.amplitudeY, hal, l1, l2, l3]
  · simp [safe, List.getElem?_zipWith, DrivenControl.amplitudeX, DrivenControl.amplitudeY, hΩ, hφ, hΔ, hamp,
      hsafe]
  · exact ((amplitudeX_rel Ω φ).div hrel).rnd.mono (by norm_num)
  · exact ((amplitudeY_rel Ω φ).div hrel).rnd.mono (by norm_num)
  · exact ((Rel.refl Δ.val).div hrel).rnd.mono (by norm_num)

/-! ## Times -/

theorem cumsum_rounded {l : List (Fl r)} (hl : ∀ x ∈ l, 0 ≤ x.val) {acc : Fl r} {x k : ℝ} (hx : 0 ≤ x)
    (hk : 0 ≤ k) (hacc : Rel r k acc.val x) (n : ℕ) (hn : n ≤ l.length) :
    ∃ t, (acc :: cumsumFrom acc l)[n]? = some t ∧
      Rel r (k + n) t.val (x + ((l.take n).map val).sum) := by
  induction l generalizing acc x k n with
  | nil =>
    obtain rfl : n = 0 := by simpa using hn
    exact ⟨acc, rfl, by simpa using hacc⟩
  | cons d l ih =>
    cases n with
    | zero => exact ⟨acc, rfl, by simpa using hacc⟩
    | succ n =>
      have hd := hl d (by simp)
      have h1 : Rel r (k + 1) (acc + d).val (x + d.val) :=
        (hacc.add ((Rel.refl d.val).mono hk) hx hd).rnd
      obtain ⟨t, h2, h3⟩ := ih (fun y hy => hl y (by simp [hy])) (acc := acc + d) (x := x + d.val)
        (k := k + 1) (by linarith) (by linarith) h1 n (by simpa using hn)
      refine ⟨t, h2, ?_⟩
      have e : x + d.val + ((l.take n).map val).sum = x + (((d :: l).take (n + 1)).map val).sum := by
        simp [add_assoc]
      rw [e] at h3
      exact h3.mono (by push_cast; linarith)

theorem times_rounded (c : DrivenControl (Fl r)) (h : c.Constructed) (n : ℕ)
    (hn : n ≤ c.durations.length) :
    ∃ t, c.times[n]? = some t ∧ Rel r n t.val ((c.durations.take n).map val).sum := by
  have hpos := (constructed_rounded h).1
  unfold DrivenControl.times
  cases hd : c.durations with
  | nil =>
    rw [hd] at hn
    obtain rfl : n = 0 := by simpa using hn
    exact ⟨_, rfl, by simpa [val_lit_zero] using Rel.refl (r := r) 0⟩
  | cons d l =>
    rw [hd] at hn hpos
    cases n with
    | zero => exact ⟨_, rfl, by simpa [val_lit_zero] using Rel.refl (r := r) 0⟩
    | succ n =>
      obtain ⟨t, h1, h2⟩ := cumsum_rounded (l := l) (fun x hx => (hpos x (by simp [hx])).le) (acc := d)
        (hpos d (by simp)).le le_rfl (Rel.refl d.val) n (by simpa using hn)
      refine ⟨t, h1, ?_⟩
      simpa using h2.mono (k' := ((n + 1 : ℕ) : ℝ)) (by push_cast; linarith)

theorem cumsum_mono_rounded {l : List (Fl r)} (hl : ∀ x ∈ l, 0 ≤ x.val) (acc : Fl r) :
    (acc :: cumsumFrom acc l).Pairwise fun a b => a.val ≤ b.val := by
  induction l generalizing acc with
  | nil => simp [cumsumFrom]
  | cons d l ih =>
    have h1 : acc.val ≤ (acc + d).val := by
      have := r.mono (show acc.val ≤ acc.val + d.val by linarith [hl d (by simp)])
      rwa [acc.rnd_val] at this
    have h2 := ih (fun y hy => hl y (by simp [hy])) (acc + d)
    rw [cumsumFrom, List.pairwise_cons]
    refine ⟨?_, h2⟩
    intro b hb
    rw [List.pairwise_cons] at h2
    rcases List.mem_cons.mp hb with rfl | hb
    · exact h1
    · exact h1.trans (h2.1 b hb)

theorem times_mono_rounded (c : DrivenControl (Fl r)) (h : c.Constructed) :
    c.times.Pairwise fun a b => a.val ≤ b.val := by
  have hpos := (constructed_rounded h).1
  unfold DrivenControl.times
  cases hd : c.durations with
  | nil => simp [npCumsum]
  | cons d l =>
    rw [hd] at hpos
    have h2 := cumsum_mono_rounded (l := l) (fun y hy => (hpos y (by simp [hy])).le) d
    rw [npCumsum, List.pairwise_cons]
    refine ⟨?_, h2⟩
    intro b hb
    have hd0 := hpos d (by simp)
    rw [val_lit_zero]
    rw [List.pairwise_cons] at h2
    rcases List.mem_cons.mp hb with rfl | hb
    · exact hd0.le
    · exact hd0.le.trans (h2.1 b hb)

/-! ## Fields and their evolution -/

theorem field_segment (Ω φ Δ t : ℝ) : segmentUnitary Ω φ Δ t =
    NormedSpace.exp ((-Complex.I * (t : ℂ)) • ((1 / 2 : ℂ) •
      (((Ω * Real.cos φ : ℝ) : ℂ) • σx + ((Ω * Real.sin φ : ℝ) : ℂ) • σy + (Δ : ℂ) • σz))) := rfl

/-- Relative errors of the components of a field bound the error of the evolution. -/
theorem field_rel {K x y z t x' y' z' t' : ℝ} (hK : 0 ≤ K) (hx : |x' * t' - x * t| ≤ K * |x * t|)
    (hy : |y' * t' - y * t| ≤ K * |y * t|) (hz : |z' * t' - z * t| ≤ K * |z * t|) :
    ‖NormedSpace.exp ((-Complex.I * (t' : ℂ)) •
        ((1 / 2 : ℂ) • ((x' : ℂ) • σx + (y' : ℂ) • σy + (z' : ℂ) • σz))) -
      NormedSpace.exp ((-Complex.I * (t : ℂ)) •
        ((1 / 2 : ℂ) • ((x : ℂ) • σx + (y : ℂ) • σy + (z : ℂ) • σz)))‖ ≤
      K / 2 * (Real.sqrt (x ^ 2 + y ^ 2 + z ^ 2) * |t|) := by
  refine (field_dist _ _ _ _ _ _ _ _).trans ?_
  have key : ∀ a b : ℝ, |a - b| ≤ K * |b| → (a - b) ^ 2 ≤ K ^ 2 * b ^ 2 := by
    intro a b h
    have := pow_le_pow_left₀ (abs_nonneg _) h 2
    rwa [mul_pow, sq_abs, sq_abs] at this
  have h1 := key _ _ hx
  have h2 := key _ _ hy
  have h3 := key _ _ hz
  have : Real.sqrt ((x' * t' - x * t) ^ 2 + (y' * t' - y * t) ^ 2 + (z' * t' - z * t) ^ 2) ≤
      K * (Real.sqrt (x ^ 2 + y ^ 2 + z ^ 2) * |t|) := by
    rw [Real.sqrt_le_left (by positivity), mul_pow, mul_pow, Real.sq_sqrt (by positivity), sq_abs]
    nlinarith
  linarith

end OpenControls
