import Verif.Proofs.RoundedGaussian

/-!
# Rotation angles and rates of the Gaussian control in rounded arithmetic
-/

namespace OpenControls

open Spec Fl

open scoped Matrix.Norms.L2Operator

variable {r : Rounding}

/-- Rounding the quotient can only lose a segment, and only if the quotient is within rounding error
of an integer. -/
theorem roundedCount_cases {T d : Fl r} (hd : 0 < d.val) (hT : d.val < T.val)
    (hn : T.val / d.val * r.u ≤ 1 / 200) :
    roundedCount T d = ⌈T.val / d.val⌉₊ ∨
      (roundedCount T d + 1 = ⌈T.val / d.val⌉₊ ∧
        T.val / d.val ≤ roundedCount T d + r.u * (T.val / d.val)) := by
  have hu := r.u_nonneg
  have hu' := u_small r
  have hq : 1 < T.val / d.val := by rw [lt_div_iff₀ hd]; linarith
  set q := T.val / d.val with hqdef
  have hc := r.close q
  have hval : (T / d).val = r.rnd q := val_div _ _
  rw [abs_of_pos (by linarith : 0 < q), abs_le] at hc
  have hup : roundedCount T d ≤ ⌈q⌉₊ := by
    unfold roundedCount
    rw [hval, Nat.ceil_le]
    have h1 : (⌈q⌉₊ : ℝ) * r.u ≤ 1 := by
      have := Nat.ceil_lt_add_one (by linarith : 0 ≤ q)
      nlinarith
    have := r.mono (Nat.le_ceil q)
    rwa [r.nat _ h1] at this
  have hlow : r.rnd q ≤ roundedCount T d := by
    unfold roundedCount; rw [hval]; exact Nat.le_ceil _
  rcases hup.eq_or_lt with h | h
  · exact Or.inl h
  · right
    have h1 : q ≤ roundedCount T d + r.u * q := by linarith [hc.1]
    refine ⟨?_, h1⟩
    have h2 : q ≤ (roundedCount T d + 1 : ℕ) := by push_cast; linarith
    have := Nat.ceil_le.mpr h2
    omega

theorem roundedCount_small {T d : Fl r} (hd : 0 < d.val) (hT : d.val < T.val)
    (hn : T.val / d.val * r.u ≤ 1 / 200) : (roundedCount T d : ℝ) * r.u ≤ 1 / 100 := by
  have hu := r.u_nonneg
  have hu' := u_small r
  have hq : 1 < T.val / d.val := by rw [lt_div_iff₀ hd]; linarith
  have h1 : (roundedCount T d : ℝ) ≤ ⌈T.val / d.val⌉₊ := by
    rcases roundedCount_cases hd hT hn with h | h
    · rw [h]
    · rw [← h.1]; push_cast; linarith
  have := Nat.ceil_lt_add_one (by linarith : 0 ≤ T.val / d.val)
  nlinarith

theorem segment_rel {T : Fl r} {n : ℕ} (hn : n * r.u ≤ 1 / 100) :
    Rel r 1 (T / Py.nat n).val (T.val / n) := by
  rw [val_div, val_nat (by linarith)]
  exact Rel.of_rnd _

/-! ## The evolution -/

theorem evolution_roundedSigned (T : Fl r) (n : ℕ) (v : ℕ → Fl r) :
    ‖evolution ((roundedSigned T n v).map val) -
        rotation (((List.range n).map fun i => (v i).val * (T / Py.nat n).val).sum) 0‖ ≤
      ((List.range n).map fun i => if 0 ≤ (v i).val then 0 else Real.pi * r.u).sum := by
  set τ := (T / Py.nat n).val with hτ
  have key : ∀ l : List ℕ,
      ‖controlEvolution (l.map fun i => |(v i).val|)
        (l.map fun i => if 0 ≤ (v i).val then 0 else r.rnd Real.pi) (List.replicate l.length 0)
        (List.replicate l.length τ) - rotation ((l.map fun i => (v i).val * τ).sum) 0‖ ≤
      (l.map fun i => if 0 ≤ (v i).val then 0 else Real.pi * r.u).sum := by
    intro l
    induction l with
    | nil => simp [controlEvolution, rotation_zero]
    | cons a l ih =>
      simp only [List.map_cons, List.length_cons, List.replicate_succ, controlEvolution_cons,
        List.sum_cons, segmentUnitary_resonant]
      have e : rotation ((v a).val * τ + (l.map fun i => (v i).val * τ).sum) 0 =
          rotation ((l.map fun i => (v i).val * τ).sum) 0 * rotation ((v a).val * τ) 0 := by
        rw [rotation_mul_same, add_comm]
      rw [e]
      refine (mul_dist (rotation_norm _ _).le (rotation_norm _ _).le).trans ?_
      have h1 : ‖rotation (|(v a).val| * τ) (if 0 ≤ (v a).val then 0 else r.rnd Real.pi) -
          rotation ((v a).val * τ) 0‖ ≤ if 0 ≤ (v a).val then 0 else Real.pi * r.u := by
        by_cases h : 0 ≤ (v a).val
        · simp [h, abs_of_nonneg h]
        · simp only [if_neg h, abs_of_neg (not_le.mp h)]
          have e2 : rotation ((v a).val * τ) 0 = rotation (-(v a).val * τ) Real.pi := by
            have := rotation_axis_add_pi (-(v a).val * τ) 0
            rw [zero_add] at this
            rw [this]; congr 1; ring
          rw [e2]
          refine (rotation_axis_dist _ _ _).trans ?_
          have := r.close Real.pi
          rw [abs_of_pos Real.pi_pos] at this
          linarith
      linarith
  have := key (List.range n)
  rw [List.length_range] at this
  unfold evolution roundedSigned DrivenControl.map
  simp only [List.map_map, List.map_replicate, Function.comp_def, val_abs, val_lit_zero]
  refine le_of_eq_of_le ?_ this
  congr 5
  funext i
  by_cases h : 0 ≤ (v i).val <;> simp [h]

/-! ## No modulation -/

theorem two_pi_rounded : (PyFloat.lit 2 * PyFloat.pi : Fl r).val = 2 * r.rnd Real.pi := by
  rw [val_mul, val_lit_two, val_pi]
  have := r.rnd_mul_pow (r.rnd Real.pi) 1
  rw [r.idem] at this
  rw [mul_comm 2]
  simpa using this

theorem two_pi_rel : Rel r 1 (2 * r.rnd Real.pi) (2 * Real.pi) :=
  ((Rel.refl (2 : ℝ)).mul (Rel.of_rnd Real.pi)).mono (by norm_num)

/-- The computed full-rotation angle is a multiple of `2π`, up to three roundings; it is the
largest one not above the computed angle, but at least `2π`. -/
theorem roundedFullRotation_rel (R : Fl r) (hR : 0 < R.val) :
    Rel r 3 (roundedFullRotation R).val
      (2 * Real.pi * (max 1 ⌊R.val / (2 * r.rnd Real.pi)⌋₊ : ℕ)) ∧
    (1 ≤ ⌊R.val / (2 * r.rnd Real.pi)⌋₊ → (roundedFullRotation R).val ≤ R.val * Real.exp (2 * r.w)) := by
  have hu := r.u_nonneg
  have hu' := u_small r
  set P := 2 * r.rnd Real.pi with hP
  have hPpos : 0 < P := by
    have := (rnd_pos (r := r)).mpr Real.pi_pos
    positivity
  have hPP : Rel r 1 P (2 * Real.pi) := two_pi_rel
  set q := R.val / P with hq
  have hq0 : 0 ≤ q := by positivity
  have hfl : (⌊q⌋ : ℝ) = (⌊q⌋₊ : ℕ) := by
    have := Int.floor_toNat q
    have h0 : 0 ≤ ⌊q⌋ := Int.floor_nonneg.mpr hq0
    have h1 : ((⌊q⌋.toNat : ℕ) : ℤ) = ⌊q⌋ := Int.toNat_of_nonneg h0
    rw [← this]
    exact_mod_cast h1.symm
  set k := ⌊q⌋₊ with hk
  -- the remainder
  set ρ := R.val - P * k with hρ
  have hRq : R.val = P * q := by rw [hq]; field_simp
  have hρ0 : 0 ≤ ρ := by
    have := Nat.floor_le hq0
    rw [hρ, hRq]; nlinarith
  have hρ1 : ρ < P := by
    have := Nat.lt_floor_add_one q
    rw [hρ, hRq]; nlinarith
  have hmod : (PyFloat.mod R (PyFloat.lit 2 * PyFloat.pi) : Fl r).val = r.rnd ρ := by
    change r.rnd _ = _
    rw [two_pi_rounded, ← hP, ← hq, hfl]
  have hclose := r.close ρ
  rw [abs_of_nonneg hρ0] at hclose
  have huρ : r.u * ρ ≤ r.u * P := by gcongr
  set F0 := (R - PyFloat.mod R (PyFloat.lit 2 * PyFloat.pi) : Fl r).val with hF0
  have hF0' : F0 = r.rnd (R.val - r.rnd ρ) := by rw [hF0, val_sub, hmod]
  have hF : (roundedFullRotation R).val = if F0 < P then P else F0 := by
    unfold roundedFullRotation Py.pyMax
    rw [← two_pi_rounded (r := r)] at hP
    by_cases h : F0 < P
    · rw [if_pos h, if_pos (by rw [lt_iff]; rw [← hP]; exact h), hP]
    · rw [if_neg h, if_neg (by rw [lt_iff]; rw [← hP]; exact h)]
  have hdiff : |R.val - r.rnd ρ - P * k| ≤ r.u * P := by
    rw [show R.val - r.rnd ρ - P * k = -(r.rnd ρ - ρ) by rw [hρ]; ring, abs_neg]
    linarith
  have hexp1 : 1 ≤ Real.exp (2 * r.w) := Real.one_le_exp (by have := r.w_nonneg; linarith)
  rcases Nat.eq_zero_or_pos k with h0 | h1
  · -- less than one full rotation
    have hlt : F0 < P := by
      rw [h0] at hdiff
      have h2 := r.close (R.val - r.rnd ρ)
      have h3 : |R.val - r.rnd ρ| ≤ r.u * P := by simpa using hdiff
      have h4 : r.u * |R.val - r.rnd ρ| ≤ r.u * (r.u * P) := by gcongr
      rw [← hF0'] at h2
      have h5 : F0 ≤ r.u * P + r.u * (r.u * P) := by
        have := (abs_le.mp h2).2
        have := (abs_le.mp h3).2
        linarith
      have h6 : r.u * P ≤ 1 / 1000000 * P := by gcongr
      have h7 : r.u * (r.u * P) ≤ r.u * P := by
        have : 0 ≤ r.u * P := by positivity
        nlinarith
      linarith
    rw [hF, if_pos hlt, h0]
    refine ⟨?_, fun h => by omega⟩
    simpa using hPP.mono (by norm_num : (1 : ℝ) ≤ 3)
  · have hk1 : (1 : ℝ) ≤ k := by exact_mod_cast h1
    rw [max_eq_right h1]
    have hPk : P ≤ P * k := by nlinarith
    have e1 : Rel r 1 (R.val - r.rnd ρ) (P * k) := by
      refine Rel.of_close r.u_nonneg r.u_lt_one (by rw [one_mul, r.exp_neg_w]) ?_
      rw [abs_of_pos (by positivity : 0 < P * (k : ℝ))]
      refine hdiff.trans ?_
      gcongr
    have e2 : Rel r 2 F0 (P * k) := by
      rw [hF0']; exact e1.rnd.mono (by norm_num)
    have e3 : Rel r 1 (P * k) (2 * Real.pi * k) := (hPP.mul (Rel.refl (k : ℝ))).mono (by norm_num)
    have hPR : P * k ≤ R.val := by linarith
    rw [hF]
    by_cases hlt : F0 < P
    · rw [if_pos hlt]
      have hk' : k = 1 := by
        by_contra hne
        have hk2 : (2 : ℝ) ≤ k := by exact_mod_cast (by omega : 2 ≤ k)
        have h2 := (e2.bounds (by positivity)).1
        have h3 : Real.exp (-(2 * r.w)) = (1 - r.u) * (1 - r.u) := by
          rw [show -(2 * r.w) = -r.w + -r.w by ring, Real.exp_add, r.exp_neg_w]
        rw [h3] at h2
        have h4 : (1 : ℝ) / 2 ≤ (1 - r.u) * (1 - r.u) := by nlinarith
        have h5 : P * 2 * (1 / 2) ≤ P * k * ((1 - r.u) * (1 - r.u)) := by
          gcongr
        linarith
      rw [hk']
      refine ⟨by simpa using hPP.mono (by norm_num : (1 : ℝ) ≤ 3), fun _ => ?_⟩
      nlinarith
    · rw [if_neg hlt]
      refine ⟨(e2.trans e3).mono (by norm_num), fun _ => ?_⟩
      have := (e2.bounds (by positivity)).2
      refine this.trans (by gcongr)

section unmodulated

variable {Ω T : Fl r} {n : ℕ} {m : Fl r}

theorem roundedMax_rel (hT : 0 < T.val) (hn : n * r.u ≤ 1 / 100)
    (hm : IsRoundedMax n (baseSample T n) m) {m' : ℝ} (hm' : IsSampleMax T.val n (envelope T.val) m') :
    Rel r 600 m.val m' := by
  refine Rel.maximum (n := n) (f := fun i => (baseSample T n i).val)
    (g := fun i => envelope T.val (sampleTime T.val n i)) (fun i hi => roundedEnvelope_rel hT hi hn)
    (fun i _ => envelope_pos _ _) ⟨?_, hm.2⟩ hm'
  obtain ⟨i, hi, h⟩ := hm.1
  exact ⟨i, hi, by rw [h]⟩

theorem baseSample_pos (hT : 0 < T.val) (hn : n * r.u ≤ 1 / 100) {i : ℕ} (hi : i < n) :
    0 < (baseSample T n i).val := (roundedEnvelope_rel hT hi hn).pos (envelope_pos _ _)

theorem roundedMax_pos (hT : 0 < T.val) (hn : n * r.u ≤ 1 / 100)
    (hm : IsRoundedMax n (baseSample T n) m) : 0 < m.val := by
  obtain ⟨i, hi, h⟩ := hm.1
  rw [← h]; exact baseSample_pos hT hn hi

/-- the sum of the computed normalised samples -/
noncomputable def normalizedSum (T : Fl r) (n : ℕ) (m : Fl r) : ℝ :=
  ((List.range n).map fun i => (baseSample T n i / m).val).sum

theorem normalizedSum_pos (hT : 0 < T.val) (hn0 : 0 < n) (hn : n * r.u ≤ 1 / 100)
    (hm : IsRoundedMax n (baseSample T n) m) : 0 < normalizedSum T n m := by
  unfold normalizedSum
  apply List.sum_pos
  · intro x hx
    obtain ⟨i, hi, rfl⟩ := List.mem_map.mp hx
    rw [val_div, rnd_pos]
    exact div_pos (baseSample_pos hT hn (List.mem_range.mp hi)) (roundedMax_pos hT hn hm)
  · simp; omega

theorem roundedFullScale_sum (hT : 0 < T.val) (hn : n * r.u ≤ 1 / 100)
    (hm : IsRoundedMax n (baseSample T n) m) :
    Rel r (3 * n + 2) (roundedFullScale Ω T n m).val
      ((T / Py.nat n).val * normalizedSum T n m * Ω.val) := by
  have hl : ∀ x ∈ (List.range n).map (fun i => (baseSample T n i / m).val), 0 ≤ x := by
    intro x hx
    obtain ⟨i, hi, rfl⟩ := List.mem_map.mp hx
    rw [val_div]
    exact r.rnd_nonneg (div_pos (baseSample_pos hT hn (List.mem_range.mp hi))
      (roundedMax_pos hT hn hm)).le
  have h1 := Rel.of_sum (r := r) hl (by simpa using hn)
  rw [List.length_map, List.length_range] at h1
  unfold roundedFullScale
  rw [val_mul, val_mul, val_sum, List.map_map]
  have h2 := ((((Rel.refl (r := r) (T / Py.nat n).val).mul h1).rnd).mul (Rel.refl Ω.val)).rnd
  exact h2.mono (by linarith)

theorem roundedFullScale_rel (hT : 0 < T.val) (hn : n * r.u ≤ 1 / 100)
    (hm : IsRoundedMax n (baseSample T n) m) {m' : ℝ} (hm' : IsSampleMax T.val n (envelope T.val) m') :
    Rel r (3 * n + 1204) (roundedFullScale Ω T n m).val (fullScaleAngle Ω.val T.val n m') := by
  have hm0 : 0 < m' := by
    obtain ⟨⟨i, -, h⟩, -⟩ := hm'
    rw [← h]; exact envelope_pos _ _
  have h1 : Rel r 1201 (normalizedSum T n m)
      ((List.range n).map fun i => envelope T.val (sampleTime T.val n i) / m').sum := by
    refine Rel.sum_map (by norm_num) _ (fun i hi => ?_) fun i _ => (div_pos (envelope_pos _ _) hm0).le
    rw [val_div]
    exact (((roundedEnvelope_rel hT (List.mem_range.mp hi) hn).div (roundedMax_rel hT hn hm hm')).rnd).mono
      (by norm_num)
  have h2 := ((segment_rel (T := T) hn).mul h1).mul (Rel.refl Ω.val)
  exact ((roundedFullScale_sum hT hn hm).trans h2).mono (by linarith)

/-- a computed rate -/
noncomputable def unmodulatedRate (Ω T : Fl r) (n : ℕ) (m : Fl r) (i : ℕ) : Fl r :=
  baseSample T n i / m * Ω *
    (roundedFullRotation (roundedFullScale Ω T n m) / roundedFullScale Ω T n m)

theorem roundedFullScale_pos (hΩ : 0 < Ω.val) (hT : 0 < T.val) (hn0 : 0 < n) (hn : n * r.u ≤ 1 / 100)
    (hm : IsRoundedMax n (baseSample T n) m) : 0 < (roundedFullScale Ω T n m).val := by
  refine (roundedFullScale_sum hT hn hm).pos ?_
  have h1 := normalizedSum_pos hT hn0 hn hm
  have h2 : 0 < (T / Py.nat n).val := by
    rw [val_div, rnd_pos]
    exact div_pos hT (val_nat_pos hn0)
  positivity

/-- number of full rotations, as computed -/
noncomputable def rotations (Ω T : Fl r) (n : ℕ) (m : Fl r) : ℕ :=
  ⌊(roundedFullScale Ω T n m).val / (2 * r.rnd Real.pi)⌋₊

/-- The rates integrate to a multiple of `2π`, up to `3n + 8` roundings. -/
theorem unmodulated_total (hΩ : 0 < Ω.val) (hT : 0 < T.val) (hn0 : 0 < n) (hn : n * r.u ≤ 1 / 100)
    (hm : IsRoundedMax n (baseSample T n) m) :
    Rel r (3 * n + 8)
      ((List.range n).map fun i => (unmodulatedRate Ω T n m i).val * (T / Py.nat n).val).sum
      (2 * Real.pi * (max 1 (rotations Ω T n m) : ℕ)) := by
  have hR := roundedFullScale_pos hΩ hT hn0 hn hm
  have hF := (roundedFullRotation_rel _ hR).1
  have hS := normalizedSum_pos hT hn0 hn hm
  set R := roundedFullScale Ω T n m with hRdef
  set F := roundedFullRotation R with hFdef
  set τ := (T / Py.nat n).val with hτ
  have hτ0 : 0 < τ := by
    rw [hτ, val_div, rnd_pos]
    exact div_pos hT (val_nat_pos hn0)
  have hF0 : 0 < F.val := hF.pos (by positivity)
  -- each rate
  have h1 : ∀ i ∈ List.range n, Rel r 3 ((unmodulatedRate Ω T n m i).val * τ)
      ((baseSample T n i / m).val * (Ω.val * (F.val / R.val) * τ)) := by
    intro i _
    unfold unmodulatedRate
    rw [val_mul, val_mul, val_div F R]
    have e1 := (((Rel.of_rnd (r := r) ((baseSample T n i / m).val * Ω.val)).mul
      (Rel.of_rnd (F.val / R.val))).rnd).mul (Rel.refl τ)
    rw [show (baseSample T n i / m).val * Ω.val * (F.val / R.val) * τ =
      (baseSample T n i / m).val * (Ω.val * (F.val / R.val) * τ) by ring] at e1
    exact e1.mono (by norm_num)
  have h2 := Rel.sum_map (by norm_num) _ h1 fun i hi => by
    have : 0 ≤ (baseSample T n i / m).val := by
      rw [val_div]
      exact r.rnd_nonneg (div_pos (baseSample_pos hT hn (List.mem_range.mp hi))
        (roundedMax_pos hT hn hm)).le
    positivity
  have h3 : ((List.range n).map fun i =>
      (baseSample T n i / m).val * (Ω.val * (F.val / R.val) * τ)).sum =
      F.val * ((τ * normalizedSum T n m * Ω.val) / R.val) := by
    rw [List.sum_map_mul_right]
    unfold normalizedSum
    ring
  rw [h3] at h2
  have h4 : Rel r (3 * n + 2) ((τ * normalizedSum T n m * Ω.val) / R.val) 1 := by
    have := (roundedFullScale_sum (Ω := Ω) hT hn hm).inv.mul
      (Rel.refl (τ * normalizedSum T n m * Ω.val))
    rw [inv_mul_cancel₀ (by positivity)] at this
    rw [div_eq_inv_mul]
    exact this.mono (by linarith)
  have h5 := h2.trans ((Rel.refl F.val).mul h4)
  rw [mul_one] at h5
  exact (h5.trans hF).mono (by linarith)

theorem exp_small {k : ℝ} (hk : 0 ≤ k) (hk' : k ≤ 100) : Real.exp (k * r.w) ≤ 1 + 6 / 5 * k * r.u := by
  have hu := r.u_nonneg
  have hu' := u_small r
  have hw := r.w_le
  have hw0 := r.w_nonneg
  have h1 : k * r.w ≤ 101 / 100 * (k * r.u) := by nlinarith
  have h2 : k * r.u ≤ 1 / 10000 := by nlinarith
  have h0 : 0 ≤ k * r.w := by positivity
  have hku : 0 ≤ k * r.u := by positivity
  have h3 := Real.abs_exp_sub_one_sub_id_le (x := k * r.w) (by rw [abs_of_nonneg h0]; linarith)
  have h4 := (abs_le.mp h3).2
  nlinarith

/-- No computed rate exceeds the maximum Rabi rate by more than rounding if the Gaussian at that
rate turns by at least `2π`. -/
theorem unmodulatedRate_le (hΩ : 0 < Ω.val) (hT : 0 < T.val) (hn0 : 0 < n) (hn : n * r.u ≤ 1 / 100)
    (hm : IsRoundedMax n (baseSample T n) m) (hk : 1 ≤ rotations Ω T n m) {i : ℕ} (hi : i < n) :
    0 ≤ (unmodulatedRate Ω T n m i).val ∧ (unmodulatedRate Ω T n m i).val ≤ Ω.val * (1 + 6 * r.u) := by
  have hR := roundedFullScale_pos hΩ hT hn0 hn hm
  have hF := (roundedFullRotation_rel _ hR).2 hk
  have hF0 := (roundedFullRotation_rel _ hR).1.pos (by positivity)
  set R := roundedFullScale Ω T n m with hRdef
  set F := roundedFullRotation R with hFdef
  have hb := baseSample_pos hT hn hi
  have hmp := roundedMax_pos hT hn hm
  have hratio : (baseSample T n i / m).val ≤ 1 := by
    rw [val_div, ← r.rnd_one]
    exact r.mono ((div_le_one hmp).mpr (hm.2 i hi))
  have hratio0 : 0 < (baseSample T n i / m).val := by
    rw [val_div, rnd_pos]; exact div_pos hb hmp
  have hq : F.val / R.val ≤ Real.exp (2 * r.w) := by
    rw [div_le_iff₀ hR]; linarith
  have e1 : Rel r 3 (unmodulatedRate Ω T n m i).val
      ((baseSample T n i / m).val * Ω.val * (F.val / R.val)) := by
    unfold unmodulatedRate
    rw [val_mul, val_mul, val_div F R]
    exact (((Rel.of_rnd (r := r) ((baseSample T n i / m).val * Ω.val)).mul
      (Rel.of_rnd (F.val / R.val))).rnd).mono (by norm_num)
  have h0 : 0 ≤ (baseSample T n i / m).val * Ω.val * (F.val / R.val) := by positivity
  refine ⟨e1.nonneg h0, ((e1.bounds h0).2).trans ?_⟩
  have h2 : (baseSample T n i / m).val * Ω.val * (F.val / R.val) ≤ 1 * Ω.val * Real.exp (2 * r.w) := by
    gcongr
  calc (baseSample T n i / m).val * Ω.val * (F.val / R.val) * Real.exp (3 * r.w)
      ≤ 1 * Ω.val * Real.exp (2 * r.w) * Real.exp (3 * r.w) := by gcongr
    _ = Ω.val * Real.exp (5 * r.w) := by rw [one_mul, mul_assoc, ← Real.exp_add]; ring_nf
    _ ≤ Ω.val * (1 + 6 * r.u) := by
        gcongr
        have := exp_small (r := r) (k := 5) (by norm_num) (by norm_num)
        linarith

theorem unmodulatedRate_nonneg (hΩ : 0 < Ω.val) (hT : 0 < T.val) (hn0 : 0 < n)
    (hn : n * r.u ≤ 1 / 100) (hm : IsRoundedMax n (baseSample T n) m) {i : ℕ} (hi : i < n) :
    0 ≤ (unmodulatedRate Ω T n m i).val := by
  have hR := roundedFullScale_pos hΩ hT hn0 hn hm
  have hF0 := (roundedFullRotation_rel _ hR).1.pos (by positivity)
  unfold unmodulatedRate
  simp only [val_mul, val_div]
  refine r.rnd_nonneg (mul_nonneg (r.rnd_nonneg (mul_nonneg (r.rnd_nonneg ?_) hΩ.le))
    (r.rnd_nonneg (div_nonneg hF0.le hR.le)))
  exact (div_pos (baseSample_pos hT hn hi) (roundedMax_pos hT hn hm)).le

end unmodulated

/-! ## Modulation -/

section modulated

variable {Ω T f : Fl r} {n : ℕ} {m : Fl r}

/-- error of a computed sample of the modulated Gaussian -/
theorem modulatedSample_close (hT : 0 < T.val) (hn : n * r.u ≤ 1 / 100) {i : ℕ} (hi : i < n) :
    |(modulatedSample T f n i).val - waveform T.val f.val (sampleTime T.val n i)| ≤
      (1300 + 80 * (|f.val| * T.val)) * r.u := by
  have hu := r.u_nonneg
  have hu' := u_small r
  have hx := offset_close hT hi hn
  have hg := roundedEnvelope_rel hT hi hn
  have h0 : 0 ≤ sampleTime T.val n i := sampleTime_nonneg hT n i
  have h0' : sampleTime T.val n i ≤ T.val := sampleTime_le hT hi
  have hgpos := envelope_pos T.val (sampleTime T.val n i)
  have hgle : envelope T.val (sampleTime T.val n i) ≤ 1 := by
    unfold envelope
    rw [Real.exp_le_one_iff]
    have := sq_nonneg ((sampleTime T.val n i - T.val / 2) / (T.val / 10))
    linarith
  unfold modulatedSample waveform
  rw [val_mul, val_sin, val_mul, val_mul, two_pi_rounded, val_sub, val_half]
  change |r.rnd ((baseSample T n i).val * _) - _| ≤ _
  change Rel r 600 (baseSample T n i).val _ at hg
  set t := roundedTime (T / Py.nat n) i with ht
  set s := sampleTime T.val n i with hs
  set x := r.rnd (t.val - T.val / 2) with hxdef
  set g := envelope T.val s
  set g' := (baseSample T n i).val
  have huT : 0 ≤ r.u * T.val := by positivity
  have hxabs : |x| ≤ 51 / 100 * T.val := by
    rw [abs_le] at hx ⊢
    constructor <;> nlinarith [hx.1, hx.2]
  -- the argument of the sine
  have ha : Rel r 3 (r.rnd (r.rnd (2 * r.rnd Real.pi * f.val) * x)) (2 * Real.pi * f.val * x) :=
    ((((two_pi_rel (r := r)).mul (Rel.refl f.val)).rnd.mul (Rel.refl x)).rnd).mono (by norm_num)
  set a := r.rnd (r.rnd (2 * r.rnd Real.pi * f.val) * x) with hadef
  set α := 2 * Real.pi * f.val * (s - T.val / 2) with hα
  have hpi := Real.pi_pos
  have hpi' : Real.pi < 3.15 := Real.pi_lt_d2
  have hfT : 0 ≤ |f.val| * T.val := by positivity
  have hufT : 0 ≤ r.u * (|f.val| * T.val) := by positivity
  have ha1 : |a - 2 * Real.pi * f.val * x| ≤ 20 * (r.u * (|f.val| * T.val)) := by
    refine (ha.abs_error (by norm_num) (by linarith)).trans ?_
    rw [abs_mul, abs_mul, abs_of_pos (by positivity : 0 < 2 * Real.pi)]
    calc 202 / 100 * 3 * r.u * (2 * Real.pi * |f.val| * |x|)
        ≤ 202 / 100 * 3 * r.u * (2 * 3.15 * |f.val| * (51 / 100 * T.val)) := by gcongr
      _ ≤ 20 * (r.u * (|f.val| * T.val)) := by norm_num; nlinarith
  have ha2 : |2 * Real.pi * f.val * x - α| ≤ 51 * (r.u * (|f.val| * T.val)) := by
    rw [hα, ← mul_sub, abs_mul, abs_mul, abs_of_pos (by positivity : 0 < 2 * Real.pi)]
    calc 2 * Real.pi * |f.val| * |x - (s - T.val / 2)|
        ≤ 2 * 3.15 * |f.val| * (8 * r.u * T.val) := by gcongr
      _ ≤ 51 * (r.u * (|f.val| * T.val)) := by norm_num; nlinarith
  have haα : |a - α| ≤ 71 * (r.u * (|f.val| * T.val)) := by
    have := abs_sub_le a (2 * Real.pi * f.val * x) α
    linarith
  have hsin1 : |Real.sin a - Real.sin α| ≤ 71 * (r.u * (|f.val| * T.val)) := by
    have h1 := Real.abs_sin_sub_sin_le a α
    linarith
  have hsin2 : |r.sin.f a - Real.sin a| ≤ 2 * r.u := by
    have h1 := r.sin.close a
    have h2 := Real.abs_sin_le_one a
    have h3 : 2 * r.u * |Real.sin a| ≤ 2 * r.u * 1 := by gcongr
    linarith
  set σ' := r.sin.f a with hσ'
  have hσ : |σ' - Real.sin α| ≤ 2 * r.u + 71 * (r.u * (|f.val| * T.val)) := by
    have := abs_sub_le σ' (Real.sin a) (Real.sin α)
    linarith
  have hσ'1 : |σ'| ≤ 101 / 100 := by
    have := abs_sub_abs_le_abs_sub σ' (Real.sin a)
    have := Real.abs_sin_le_one a
    linarith
  have hg1 : |g' - g| ≤ 1212 * r.u := by
    refine (hg.abs_error (by norm_num) (by linarith)).trans ?_
    rw [abs_of_pos hgpos]
    nlinarith
  have hg'1 : |g'| ≤ 101 / 100 := by
    have := abs_sub_abs_le_abs_sub g' g
    rw [abs_of_pos hgpos] at this
    linarith
  have hprod : |g' * σ' - g * Real.sin α| ≤ 1227 * r.u + 71 * (r.u * (|f.val| * T.val)) := by
    rw [show g' * σ' - g * Real.sin α = (g' - g) * σ' + g * (σ' - Real.sin α) by ring]
    refine (abs_add_le _ _).trans ?_
    rw [abs_mul, abs_mul, abs_of_pos hgpos]
    have h1 : |g' - g| * |σ'| ≤ 1212 * r.u * (101 / 100) := by gcongr
    have h2 : g * |σ' - Real.sin α| ≤ 1 * (2 * r.u + 71 * (r.u * (|f.val| * T.val))) := by gcongr
    linarith
  have hrnd := r.close (g' * σ')
  have h1 : r.u * |g' * σ'| ≤ 2 * r.u := by
    rw [abs_mul]
    have : |g'| * |σ'| ≤ 2 := by nlinarith [abs_nonneg g', abs_nonneg σ']
    nlinarith
  have := abs_sub_le (r.rnd (g' * σ')) (g' * σ') (g * Real.sin α)
  linarith

/-- error bound of the samples -/
noncomputable def sampleError (r : Rounding) (fT : ℝ) : ℝ := (1300 + 80 * fT) * r.u

theorem modulatedMax_close (hT : 0 < T.val) (hn : n * r.u ≤ 1 / 100)
    (hm : IsRoundedMax n (modulatedSample T f n) m) {M : ℝ}
    (hM : IsSampleMax T.val n (waveform T.val f.val) M) :
    |m.val - M| ≤ sampleError r (|f.val| * T.val) := by
  obtain ⟨⟨i, hi, h1⟩, h2⟩ := hm
  obtain ⟨⟨j, hj, h3⟩, h4⟩ := hM
  have a := modulatedSample_close (f := f) hT hn hi
  have b := modulatedSample_close (f := f) hT hn hj
  rw [h1] at a
  rw [h3] at b
  have c := h2 j hj
  have e := h4 i hi
  unfold sampleError
  rw [abs_le] at a b ⊢
  constructor <;> linarith [a.1, a.2, b.1, b.2]

/-- a computed signed rate -/
noncomputable def modulatedRate (Ω T f : Fl r) (n : ℕ) (m : Fl r) (i : ℕ) : Fl r :=
  Ω * modulatedSample T f n i / m

theorem modulatedRate_rel (i : ℕ) : Rel r 2 (modulatedRate Ω T f n m i).val
    (Ω.val / m.val * (modulatedSample T f n i).val) := by
  unfold modulatedRate
  rw [val_div, val_mul]
  have := ((Rel.of_rnd (r := r) (Ω.val * (modulatedSample T f n i).val)).div (Rel.refl m.val)).rnd
  rw [show Ω.val * (modulatedSample T f n i).val / m.val =
    Ω.val / m.val * (modulatedSample T f n i).val by ring] at this
  exact this.mono (by norm_num)

theorem modulatedRate_le (hΩ : 0 < Ω.val) (hT : 0 < T.val) (hn : n * r.u ≤ 1 / 100)
    (hm : IsRoundedMax n (modulatedSample T f n) m) {M : ℝ}
    (hM : IsSampleMax T.val n (waveform T.val f.val) M)
    (hE : 2 * sampleError r (|f.val| * T.val) ≤ M) (hM0 : 0 < M) {i : ℕ} (hi : i < n) :
    |(modulatedRate Ω T f n m i).val| ≤
      Ω.val * (1 + 5 * (sampleError r (|f.val| * T.val) / M)) := by
  have hu := r.u_nonneg
  have hu' := u_small r
  set E := sampleError r (|f.val| * T.val) with hEdef
  have hEu : 1300 * r.u ≤ E := by
    rw [hEdef, sampleError]
    have : 0 ≤ 80 * (|f.val| * T.val) * r.u := by positivity
    linarith
  have hmM := modulatedMax_close hT hn hm hM
  rw [← hEdef, abs_le] at hmM
  have hs := modulatedSample_close (f := f) hT hn hi
  have hw := abs_waveform_le hM hi
  have hs' : |(modulatedSample T f n i).val| ≤ M + E := by
    have := abs_sub_abs_le_abs_sub (modulatedSample T f n i).val
      (waveform T.val f.val (sampleTime T.val n i))
    rw [hEdef, sampleError]
    linarith
  have hm0 : 0 < m.val := by linarith [hmM.1]
  obtain ⟨e, he, h⟩ := modulatedRate_rel (Ω := Ω) (T := T) (f := f) (n := n) (m := m) i
  have hexp : Real.exp e ≤ 1 + 3 * r.u := by
    refine (Real.exp_le_exp.mpr ((le_abs_self e).trans he)).trans ?_
    have := exp_small (r := r) (k := 2) (by norm_num) (by norm_num)
    linarith
  rw [h, abs_mul, abs_mul, abs_div, abs_of_pos hΩ, abs_of_pos hm0, abs_of_pos (Real.exp_pos e)]
  have hM1 : M ≤ 1 := by
    obtain ⟨⟨j, -, hj⟩, -⟩ := hM
    rw [← hj]
    unfold waveform
    have h1 : envelope T.val (sampleTime T.val n j) ≤ 1 := by
      unfold envelope
      rw [Real.exp_le_one_iff]
      have := sq_nonneg ((sampleTime T.val n j - T.val / 2) / (T.val / 10))
      linarith
    have h2 := envelope_pos T.val (sampleTime T.val n j)
    have h3 := Real.sin_le_one (2 * Real.pi * f.val * (sampleTime T.val n j - T.val / 2))
    nlinarith
  have hratio : |(modulatedSample T f n i).val| / m.val ≤ 1 + 4 * (E / M) := by
    rw [div_le_iff₀ hm0]
    have hEM : E / M ≤ 1 / 2 := by rw [div_le_iff₀ hM0]; linarith
    have hEM0 : 0 ≤ E / M := by apply div_nonneg <;> linarith
    have hME : M * (E / M) = E := by field_simp
    have h1 : (1 + 4 * (E / M)) * (M - E) ≤ (1 + 4 * (E / M)) * m.val := by
      apply mul_le_mul_of_nonneg_left _ (by linarith)
      linarith [hmM.1]
    nlinarith
  have hEM0 : 0 ≤ E / M := by apply div_nonneg <;> linarith
  have hEE : 1300 * r.u ≤ E / M := by
    rw [le_div_iff₀ hM0]
    nlinarith
  have hEM : E / M ≤ 1 / 2 := by rw [div_le_iff₀ hM0]; linarith
  calc Ω.val / m.val * |(modulatedSample T f n i).val| * Real.exp e
      = Ω.val * (|(modulatedSample T f n i).val| / m.val * Real.exp e) := by ring
    _ ≤ Ω.val * ((1 + 4 * (E / M)) * (1 + 3 * r.u)) := by gcongr
    _ ≤ Ω.val * (1 + 5 * (E / M)) := by
        gcongr
        nlinarith

/-- The signed rates nearly cancel. -/
theorem modulated_total (hΩ : 0 < Ω.val) (hT : 0 < T.val) (hn0 : 0 < n) (hn : n * r.u ≤ 1 / 100)
    (hm : IsRoundedMax n (modulatedSample T f n) m) {M : ℝ}
    (hM : IsSampleMax T.val n (waveform T.val f.val) M)
    (hE : 2 * sampleError r (|f.val| * T.val) ≤ M) (hM0 : 0 < M) :
    |((List.range n).map fun i => (modulatedRate Ω T f n m i).val * (T / Py.nat n).val).sum| ≤
      Ω.val * T.val / M * (5 / 2 * sampleError r (|f.val| * T.val)) := by
  have hu := r.u_nonneg
  have hu' := u_small r
  set E := sampleError r (|f.val| * T.val) with hEdef
  have hEu : 1300 * r.u ≤ E := by
    rw [hEdef, sampleError]
    have : 0 ≤ 80 * (|f.val| * T.val) * r.u := by positivity
    linarith
  have hmM := modulatedMax_close hT hn hm hM
  rw [← hEdef, abs_le] at hmM
  have hm0 : 0 < m.val := by linarith [hmM.1]
  have hn' : (0 : ℝ) < n := by exact_mod_cast hn0
  set τ := (T / Py.nat n).val with hτ
  have hτrel : Rel r 1 τ (T.val / n) := segment_rel hn
  have hτ0 : 0 < τ := hτrel.pos (by positivity)
  have hτT : n * τ ≤ 101 / 100 * T.val := by
    have h1 := (hτrel.bounds (by positivity)).2
    have h2 := exp_small (r := r) (k := 1) (by norm_num) (by norm_num)
    calc (n : ℝ) * τ ≤ n * (T.val / n * (1 + 6 / 5 * 1 * r.u)) := by
          gcongr
          exact h1.trans (by gcongr)
      _ = T.val * (1 + 6 / 5 * r.u) := by field_simp
      _ ≤ 101 / 100 * T.val := by nlinarith
  have hzero : ((List.range n).map fun i => waveform T.val f.val (sampleTime T.val n i)).sum = 0 :=
    sum_antisymmetric n _ fun i hi => waveform_mirror _ _ hn0 hi
  have hM1 : M ≤ 1 := by
    obtain ⟨⟨j, -, hj⟩, -⟩ := hM
    rw [← hj]
    unfold waveform
    have h1 : envelope T.val (sampleTime T.val n j) ≤ 1 := by
      unfold envelope
      rw [Real.exp_le_one_iff]
      have := sq_nonneg ((sampleTime T.val n j - T.val / 2) / (T.val / 10))
      linarith
    have h2 := envelope_pos T.val (sampleTime T.val n j)
    have h3 := Real.sin_le_one (2 * Real.pi * f.val * (sampleTime T.val n j - T.val / 2))
    nlinarith
  -- every rate is close to the exact waveform scaled by the computed factor
  have hrate : ∀ i < n, |(modulatedRate Ω T f n m i).val -
      Ω.val / m.val * waveform T.val f.val (sampleTime T.val n i)| ≤ Ω.val / m.val * (E + 10 * r.u) := by
    intro i hi
    have hs := modulatedSample_close (f := f) hT hn hi
    rw [show (1300 + 80 * (|f.val| * T.val)) * r.u = E from rfl] at hs
    have hw := abs_waveform_le hM hi
    have hs' : |(modulatedSample T f n i).val| ≤ 2 := by
      have := abs_sub_abs_le_abs_sub (modulatedSample T f n i).val
        (waveform T.val f.val (sampleTime T.val n i))
      linarith
    have h1 := (modulatedRate_rel (Ω := Ω) (T := T) (f := f) (n := n) (m := m) i).abs_error
      (by norm_num) (by linarith)
    have hΩm : 0 < Ω.val / m.val := by positivity
    rw [abs_mul, abs_of_pos hΩm] at h1
    have h2 : |Ω.val / m.val * (modulatedSample T f n i).val -
        Ω.val / m.val * waveform T.val f.val (sampleTime T.val n i)| ≤ Ω.val / m.val * E := by
      rw [← mul_sub, abs_mul, abs_of_pos hΩm]
      gcongr
    have h3 : 202 / 100 * 2 * r.u * (Ω.val / m.val * |(modulatedSample T f n i).val|) ≤
        Ω.val / m.val * (10 * r.u) := by
      calc 202 / 100 * 2 * r.u * (Ω.val / m.val * |(modulatedSample T f n i).val|)
          ≤ 202 / 100 * 2 * r.u * (Ω.val / m.val * 2) := by gcongr
        _ = Ω.val / m.val * (808 / 100 * r.u) := by ring
        _ ≤ Ω.val / m.val * (10 * r.u) := by gcongr; norm_num
    have := abs_sub_le (modulatedRate Ω T f n m i).val
      (Ω.val / m.val * (modulatedSample T f n i).val)
      (Ω.val / m.val * waveform T.val f.val (sampleTime T.val n i))
    rw [mul_add]
    linarith
  have hsum : ∀ l : List ℕ, (∀ i ∈ l, i < n) →
      |(l.map fun i => (modulatedRate Ω T f n m i).val * τ).sum -
        Ω.val / m.val * τ * (l.map fun i => waveform T.val f.val (sampleTime T.val n i)).sum| ≤
      l.length * (Ω.val / m.val * (E + 10 * r.u) * τ) := by
    intro l
    induction l with
    | nil => simp
    | cons a l ih =>
      intro h
      simp only [List.map_cons, List.sum_cons, List.length_cons]
      have h1 := ih fun i hi => h i (by simp [hi])
      have h2 := mul_le_mul_of_nonneg_right (hrate a (h a (by simp))) hτ0.le
      have h3 : |(modulatedRate Ω T f n m a).val * τ -
          Ω.val / m.val * waveform T.val f.val (sampleTime T.val n a) * τ| ≤
          Ω.val / m.val * (E + 10 * r.u) * τ := by
        rw [← sub_mul, abs_mul, abs_of_pos hτ0]; exact h2
      refine le_trans (le_of_eq_of_le (congrArg _ (by ring)) (abs_add_le
        ((modulatedRate Ω T f n m a).val * τ -
          Ω.val / m.val * waveform T.val f.val (sampleTime T.val n a) * τ)
        ((l.map fun i => (modulatedRate Ω T f n m i).val * τ).sum -
        Ω.val / m.val * τ * (l.map fun i => waveform T.val f.val (sampleTime T.val n i)).sum))) ?_
      push_cast
      linarith
  have h := hsum (List.range n) fun i hi => List.mem_range.mp hi
  rw [hzero, mul_zero, sub_zero, List.length_range] at h
  refine h.trans ?_
  have hminv : Ω.val / m.val ≤ Ω.val / (M / 2) := by
    gcongr
    linarith [hmM.1]
  have hE0 : 0 ≤ E := by linarith
  have h10 : 10 * r.u ≤ E / 130 := by linarith
  calc (n : ℝ) * (Ω.val / m.val * (E + 10 * r.u) * τ)
      = Ω.val / m.val * (E + 10 * r.u) * (n * τ) := by ring
    _ ≤ Ω.val / (M / 2) * (E + E / 130) * (101 / 100 * T.val) := by
        gcongr
    _ = Ω.val * T.val / M * ((131 / 130 * 2 * (101 / 100)) * E) := by field_simp; ring
    _ ≤ Ω.val * T.val / M * (5 / 2 * E) := by
        apply mul_le_mul_of_nonneg_left _ (by positivity)
        apply mul_le_mul_of_nonneg_right _ hE0
        norm_num

end modulated

end OpenControls
