import Verif.Proofs.Gaussian
import Verif.Proofs.RoundedControl

/-!
# The modulated Gaussian control in rounded arithmetic
-/

namespace OpenControls

open Spec Fl

open scoped Matrix.Norms.L2Operator

variable {r : Rounding}

/-! ## Tools -/

theorem npAmax_rounded {l : List (Fl r)} (h : l ≠ []) :
    ∃ m, Py.npAmax l = .ok m ∧ m ∈ l ∧ ∀ x ∈ l, x.val ≤ m.val := by
  have key : ∀ (l : List (Fl r)) (a : Fl r), ∃ m, l.foldl Py.npMaximum a = m ∧ m ∈ a :: l ∧
      ∀ x ∈ a :: l, x.val ≤ m.val := by
    intro l
    induction l with
    | nil => intro a; exact ⟨a, rfl, by simp, by simp⟩
    | cons b l ih =>
      intro a
      obtain ⟨m, h1, h2, h3⟩ := ih (Py.npMaximum a b)
      have hmax : Py.npMaximum a b = if a.val < b.val then b else a := by
        unfold Py.npMaximum
        have e1 : PyFloat.eq a a = true := by simp
        have e2 : PyFloat.eq b b = true := by simp
        simp [e1, e2]
      refine ⟨m, h1, ?_, ?_⟩
      · rw [hmax] at h2
        rcases List.mem_cons.mp h2 with h | h
        · rw [h]; split <;> simp
        · simp [h]
      · intro x hx
        have hm := h3 (Py.npMaximum a b) (by simp)
        rw [hmax] at hm
        rcases List.mem_cons.mp hx with h | h
        · subst h
          split at hm <;> linarith
        · rcases List.mem_cons.mp h with h | h
          · subst h
            split at hm
            · exact hm
            · linarith
          · exact h3 x (by simp [h])
  cases l with
  | nil => exact absurd rfl h
  | cons a l =>
    obtain ⟨m, h1, h2, h3⟩ := key l a
    exact ⟨m, by simp [Py.npAmax, h1], h2, h3⟩

theorem u_small (r : Rounding) : r.u ≤ 1 / 1000000 := by
  refine r.u_le.trans ?_; norm_num

namespace Rel

theorem sum_map {ι : Type} {k : ℝ} (hk : 0 ≤ k) (l : List ι) {f g : ι → ℝ}
    (h : ∀ i ∈ l, Rel r k (f i) (g i)) (hg : ∀ i ∈ l, 0 ≤ g i) :
    Rel r k (l.map f).sum (l.map g).sum := by
  induction l with
  | nil => simpa using (Rel.refl (r := r) 0).mono hk
  | cons a l ih =>
    simp only [List.map_cons, List.sum_cons]
    refine (h a (by simp)).add (ih (fun i hi => h i (by simp [hi])) fun i hi => hg i (by simp [hi]))
      (hg a (by simp)) (List.sum_nonneg fun x hx => ?_)
    obtain ⟨i, hi, rfl⟩ := List.mem_map.mp hx
    exact hg i (by simp [hi])

/-- the computed sum of nonnegative numbers -/
theorem of_sum {l : List ℝ} (hl : ∀ x ∈ l, 0 ≤ x) (hn : l.length * r.u ≤ 1 / 100) :
    Rel r (3 * l.length) (r.sum l) l.sum := by
  have hu := r.u_nonneg
  have h1 := r.sum_close l (by linarith)
  have h2 : (l.map fun x => |x|).sum = |l.sum| := by
    rw [abs_of_nonneg (List.sum_nonneg hl)]
    congr 1
    conv_rhs => rw [← List.map_id l]
    exact List.map_congr_left fun x hx => abs_of_nonneg (hl x hx)
  rw [h2] at h1
  set x : ℝ := l.length * r.u with hx
  have hx0 : 0 ≤ x := by positivity
  refine of_close (v := 2 * x) (by linarith) (by linarith) ?_ (by rw [hx]; nlinarith [h1])
  have h3 : 3 * x ≤ 3 * l.length * r.w := by
    have := mul_le_mul_of_nonneg_left r.u_le_w (by positivity : (0 : ℝ) ≤ l.length)
    rw [hx]; linarith
  refine (Real.exp_le_exp.mpr (neg_le_neg h3)).trans ?_
  rw [Real.exp_neg]
  have h4 := Real.add_one_le_exp (3 * x)
  refine (inv_anti₀ (by linarith) h4).trans ?_
  rw [inv_le_iff_one_le_mul₀ (by linarith)]
  nlinarith

theorem maximum {k : ℝ} {n : ℕ} {f g : ℕ → ℝ} {a x : ℝ} (h : ∀ i < n, Rel r k (f i) (g i))
    (hg : ∀ i < n, 0 < g i) (ha : (∃ i < n, f i = a) ∧ ∀ i < n, f i ≤ a)
    (hx : (∃ i < n, g i = x) ∧ ∀ i < n, g i ≤ x) : Rel r k a x := by
  obtain ⟨⟨i, hi, hia⟩, ha⟩ := ha
  obtain ⟨⟨j, hj, hjx⟩, hx⟩ := hx
  apply of_bounds (by rw [← hjx]; exact hg j hj)
  · have := ((h j hj).bounds (hg j hj).le).1
    rw [hjx] at this
    exact this.trans (ha j hj)
  · have := ((h i hi).bounds (hg i hi).le).2
    rw [hia] at this
    exact this.trans (mul_le_mul_of_nonneg_right (hx i hi) (Real.exp_pos _).le)

theorem abs_error {k : ℝ} (hk : 0 ≤ k) (hk' : k * r.u ≤ 1 / 2) {a x : ℝ} (h : Rel r k a x) :
    |a - x| ≤ 202 / 100 * k * r.u * |x| := by
  have hw := r.w_le
  have h0 := mul_le_mul_of_nonneg_left hw hk
  have h1 : k * r.w ≤ 1 := by linarith
  refine (h.close h1).trans (mul_le_mul_of_nonneg_right ?_ (abs_nonneg x))
  linarith

end Rel

/-! ## The samples -/

/-- midpoint of a segment, as computed -/
noncomputable def roundedTime (τ : Fl r) (i : ℕ) : Fl r := Py.nat i * τ + τ / PyFloat.lit 2

/-- the Gaussian at a time, as computed -/
noncomputable def roundedEnvelope (T t : Fl r) : Fl r :=
  PyFloat.exp (PyFloat.lit (-1 / 2) * ((t - PyFloat.lit (1 / 2) * T) / (PyFloat.lit (1 / 10) * T) *
    ((t - PyFloat.lit (1 / 2) * T) / (PyFloat.lit (1 / 10) * T))))

theorem val_lit_two : (PyFloat.lit 2 : Fl r).val = 2 := by
  rw [val_lit]; push_cast; exact r.rnd_two

theorem val_half (x : Fl r) : (x / PyFloat.lit 2).val = x.val / 2 := by
  rw [val_div, val_lit_two, r.half, x.rnd_val]

theorem val_lit_half_mul (x : Fl r) : (PyFloat.lit (1 / 2) * x).val = x.val / 2 := by
  have hlit : (PyFloat.lit (1 / 2) : Fl r).val = 1 / 2 := by
    rw [val_lit]; push_cast; exact r.rnd_half
  rw [val_mul, hlit, show 1 / 2 * x.val = x.val / 2 by ring, r.half, x.rnd_val]

theorem roundedTime_rel {T : Fl r} {n i : ℕ} (hT : 0 < T.val) (hi : i < n) (hn : n * r.u ≤ 1 / 100) :
    Rel r 3 (roundedTime (T / Py.nat n) i).val (sampleTime T.val n i) := by
  have hu := r.u_nonneg
  have hn0 : (0 : ℝ) < n := by exact_mod_cast (by omega : 0 < n)
  have hi' : (i : ℝ) * r.u ≤ 1 := by
    have : (i : ℝ) ≤ n := by exact_mod_cast hi.le
    nlinarith
  unfold roundedTime
  rw [val_add, val_half, val_mul, val_nat hi', val_div, val_nat (by linarith : (n : ℝ) * r.u ≤ 1)]
  have e1 : Rel r 1 (r.rnd (T.val / n)) (T.val / n) := Rel.of_rnd _
  have e2 : Rel r 2 (r.rnd (i * r.rnd (T.val / n))) (i * (T.val / n)) :=
    (((Rel.refl (i : ℝ)).mul e1).rnd).mono (by norm_num)
  have e3 : Rel r 2 (r.rnd (T.val / n) / 2) (T.val / n / 2) :=
    (e1.div (Rel.refl 2)).mono (by norm_num)
  have e4 := (e2.add e3 (by positivity) (by positivity)).rnd
  have e5 : (i : ℝ) * (T.val / n) + T.val / n / 2 = sampleTime T.val n i := by
    unfold sampleTime; ring
  rw [e5] at e4
  exact e4.mono (by norm_num)

theorem sampleTime_nonneg {T : ℝ} (hT : 0 < T) (n i : ℕ) : 0 ≤ sampleTime T n i := by
  unfold sampleTime; positivity

theorem sampleTime_le {T : ℝ} {n i : ℕ} (hT : 0 < T) (hi : i < n) : sampleTime T n i ≤ T := by
  have hn0 : (0 : ℝ) < n := by exact_mod_cast (by omega : 0 < n)
  have hi' : (i : ℝ) + 1 ≤ n := by exact_mod_cast hi
  unfold sampleTime
  calc ((i : ℝ) + 1 / 2) * (T / n) ≤ n * (T / n) := by gcongr; linarith
    _ = T := by field_simp

/-- distance of the sample from the middle -/
theorem offset_close {T : Fl r} {n i : ℕ} (hT : 0 < T.val) (hi : i < n) (hn : n * r.u ≤ 1 / 100) :
    |r.rnd ((roundedTime (T / Py.nat n) i).val - T.val / 2) - (sampleTime T.val n i - T.val / 2)| ≤
      8 * r.u * T.val := by
  have hu := r.u_nonneg
  have hu' := u_small r
  have h1 := (roundedTime_rel hT hi hn).close_units (T := T.val) (by norm_num) (by norm_num)
    (sampleTime_nonneg hT n i) (sampleTime_le hT hi)
  set t := (roundedTime (T / Py.nat n) i).val
  set s := sampleTime T.val n i with hs
  have h0 : 0 ≤ s := sampleTime_nonneg hT n i
  have h0' : s ≤ T.val := sampleTime_le hT hi
  have h2 := r.close (t - T.val / 2)
  have huT : 0 ≤ r.u * T.val := by positivity
  have h3 : |t - T.val / 2| ≤ T.val / 2 + 7 * r.u * T.val := by
    rw [abs_le] at h1 ⊢
    constructor <;> nlinarith [h1.1, h1.2]
  have h4 : |t - T.val / 2| ≤ T.val := h3.trans (by nlinarith)
  have h5 : r.u * |t - T.val / 2| ≤ r.u * T.val := by gcongr
  rw [abs_le] at h1 h2 ⊢
  constructor <;> nlinarith [h1.1, h1.2, h2.1, h2.2]

/-- The computed Gaussian is the Gaussian up to a relative error of 600 roundings. -/
theorem roundedEnvelope_rel {T : Fl r} {n i : ℕ} (hT : 0 < T.val) (hi : i < n)
    (hn : n * r.u ≤ 1 / 100) :
    Rel r 600 (roundedEnvelope T (roundedTime (T / Py.nat n) i)).val
      (envelope T.val (sampleTime T.val n i)) := by
  have hu := r.u_nonneg
  have hu' := u_small r
  have hx := offset_close hT hi hn
  have h0 : 0 ≤ sampleTime T.val n i := sampleTime_nonneg hT n i
  have h0' : sampleTime T.val n i ≤ T.val := sampleTime_le hT hi
  set t := roundedTime (T / Py.nat n) i with ht
  set s := sampleTime T.val n i with hs
  set x := r.rnd (t.val - T.val / 2) with hxdef
  have huT : 0 ≤ r.u * T.val := by positivity
  have hxabs : |x| ≤ 51 / 100 * T.val := by
    rw [abs_le] at hx ⊢
    constructor <;> nlinarith [hx.1, hx.2]
  -- the width
  have hwidth : Rel r 2 (PyFloat.lit (1 / 10) * T : Fl r).val (T.val / 10) := by
    rw [val_mul, val_lit]
    push_cast
    have := ((Rel.of_rnd (r := r) (1 / 10)).mul (Rel.refl T.val)).rnd
    rw [show (1 : ℝ) / 10 * T.val = T.val / 10 by ring] at this
    exact this.mono (by norm_num)
  set W := (PyFloat.lit (1 / 10) * T : Fl r).val
  -- the argument of the square
  have hz : Rel r 3 (r.rnd (x / W)) (x / (T.val / 10)) :=
    (((Rel.refl x).div hwidth).rnd).mono (by norm_num)
  set z := r.rnd (x / W) with hzdef
  set ζ := (s - T.val / 2) / (T.val / 10) with hζ
  have hq : |x / (T.val / 10)| ≤ 51 / 10 := by
    rw [abs_div, abs_of_pos (by positivity : 0 < T.val / 10), div_le_iff₀ (by positivity)]
    linarith
  have hz1 : |z - x / (T.val / 10)| ≤ 31 * r.u := by
    have := hz.abs_error (by norm_num) (by linarith)
    refine this.trans ?_
    nlinarith [abs_nonneg (x / (T.val / 10))]
  have hz2 : |x / (T.val / 10) - ζ| ≤ 80 * r.u := by
    rw [hζ, ← sub_div, abs_div, abs_of_pos (by positivity : 0 < T.val / 10),
      div_le_iff₀ (by positivity)]
    linarith
  have hzζ : |z - ζ| ≤ 111 * r.u := by
    have := abs_sub_le z (x / (T.val / 10)) ζ
    linarith
  have hζ5 : |ζ| ≤ 5 := by
    rw [hζ, abs_div, abs_of_pos (by positivity : 0 < T.val / 10), div_le_iff₀ (by positivity),
      abs_le]
    constructor <;> linarith
  have hz5 : |z| ≤ 501 / 100 := by
    have := abs_sub_abs_le_abs_sub z ζ
    linarith
  -- the exponent
  have hsq : |z * z - ζ * ζ| ≤ 1112 * r.u := by
    rw [show z * z - ζ * ζ = (z - ζ) * (z + ζ) by ring, abs_mul]
    have h1 : |z + ζ| ≤ 1001 / 100 := (abs_add_le z ζ).trans (by linarith)
    calc |z - ζ| * |z + ζ| ≤ 111 * r.u * (1001 / 100) := by gcongr
      _ ≤ 1112 * r.u := by linarith
  have hzz : |z * z| ≤ 26 := by
    rw [abs_mul]
    nlinarith [abs_nonneg z]
  have hrsq : |r.rnd (z * z) - ζ * ζ| ≤ 1138 * r.u := by
    have h1 := r.close (z * z)
    have h2 := abs_sub_le (r.rnd (z * z)) (z * z) (ζ * ζ)
    have h3 : r.u * |z * z| ≤ r.u * 26 := by gcongr
    linarith
  have hexp : (PyFloat.lit (-1 / 2) * ((t - PyFloat.lit (1 / 2) * T) / (PyFloat.lit (1 / 10) * T) *
      ((t - PyFloat.lit (1 / 2) * T) / (PyFloat.lit (1 / 10) * T))) : Fl r).val =
      -(r.rnd (z * z)) / 2 := by
    have hlit : (PyFloat.lit (-1 / 2) : Fl r).val = -(1 / 2) := by
      rw [val_lit]
      push_cast
      rw [show (-1 : ℝ) / 2 = -(1 / 2) by ring, r.neg, r.rnd_half]
    rw [val_mul, hlit, val_mul, val_div, val_sub, val_lit_half_mul, ← hxdef]
    change r.rnd (-(1 / 2) * r.rnd (z * z)) = _
    rw [show -(1 / 2) * r.rnd (z * z) = -(r.rnd (z * z)) / 2 by ring, r.half, r.neg, r.idem]
  unfold roundedEnvelope
  rw [val_exp, hexp]
  have hlib : Rel r 3 (r.exp.f (-(r.rnd (z * z)) / 2)) (Real.exp (-(r.rnd (z * z)) / 2)) :=
    Rel.lib r.exp _
  have henv : Rel r 569 (Real.exp (-(r.rnd (z * z)) / 2)) (envelope T.val s) := by
    refine ⟨-(r.rnd (z * z)) / 2 - -(1 / 2) * ζ ^ 2, ?_, ?_⟩
    · rw [show -(r.rnd (z * z)) / 2 - -(1 / 2) * ζ ^ 2 = -((r.rnd (z * z) - ζ * ζ) / 2) by ring,
        abs_neg, abs_div, abs_two]
      have := r.u_le_w
      linarith
    · unfold envelope
      rw [← Real.exp_add]
      congr 1
      ring
  exact (hlib.trans henv).mono (by norm_num)

/-! ## The control -/

/-- the control with the computed signed rates `v i` -/
noncomputable def roundedSigned (T : Fl r) (n : ℕ) (v : ℕ → Fl r) : DrivenControl (Fl r) where
  rabiRates := (List.range n).map fun i => PyFloat.abs (v i)
  azimuthalAngles := (List.range n).map fun i =>
    if Py.ge (v i) (PyFloat.lit 0) then PyFloat.lit 0 else PyFloat.pi
  detunings := List.replicate n (PyFloat.lit 0)
  durations := List.replicate n (T / Py.nat n)
  name := none

/-- number of segments -/
noncomputable def roundedCount (T d : Fl r) : ℕ := ⌈(T / d).val⌉₊

theorem pyCeil_rounded (x : Fl r) : Py.pyCeil x = .ok ⌈x.val⌉₊ := by
  unfold Py.pyCeil PyFloat.ceilInt
  simp only [Fl.instPyFloat]
  rw [Int.ceil_toNat]

theorem roundedCount_pos {T d : Fl r} (hd : 0 < d.val) (hT : d.val < T.val) :
    0 < roundedCount T d := by
  unfold roundedCount
  rw [Nat.ceil_pos, val_div]
  exact rnd_pos.mpr (by apply div_pos <;> linarith)

theorem val_nat_pos {n : ℕ} (hn : 0 < n) : 0 < (Py.nat n : Fl r).val := by
  unfold Py.nat
  rw [val_lit, rnd_pos]
  exact_mod_cast hn

theorem roundedSigned_new {T : Fl r} {n : ℕ} (hT : 0 < T.val) (hn : 0 < n) (v : ℕ → Fl r)
    (segments : List (Fl r)) (hs : segments = (List.range n).map v) :
    DrivenControl.new (List.replicate n (T / Py.nat n)) (some (segments.map PyFloat.abs))
      (some (segments.map fun v => if Py.ge v (PyFloat.lit 0) then PyFloat.lit 0 else PyFloat.pi))
      (some (List.replicate n (PyFloat.lit 0))) none = .ok (roundedSigned T n v) := by
  subst hs
  rw [DrivenControl.new_eq, if_pos, if_pos, if_pos]
  · simp [roundedSigned, List.map_map, Function.comp_def]
  · simp only [Option.getD_some, List.map_map, List.all_eq_true, List.mem_map, Function.comp,
      forall_exists_index, and_imp, forall_apply_eq_imp_iff₂, ge_iff, val_abs, val_lit_zero]
    intro i _
    exact abs_nonneg _
  · simp
  · simp only [List.all_eq_true, List.mem_replicate, and_imp, gt_iff, val_lit_zero]
    rintro x - rfl
    rw [val_div, rnd_pos]
    exact div_pos hT (val_nat_pos hn)

/-- `m` is the largest of the computed numbers `f 0, …, f (n - 1)` -/
def IsRoundedMax (n : ℕ) (f : ℕ → Fl r) (m : Fl r) : Prop :=
  (∃ i < n, f i = m) ∧ ∀ i < n, (f i).val ≤ m.val

theorem npAmax_range {n : ℕ} (hn : 0 < n) (f : ℕ → Fl r) :
    ∃ m, Py.npAmax ((List.range n).map f) = .ok m ∧ IsRoundedMax n f m := by
  obtain ⟨m, h1, h2, h3⟩ := npAmax_rounded (l := (List.range n).map f) (by simp; omega)
  refine ⟨m, h1, ?_, fun i hi => h3 _ (List.mem_map.mpr ⟨i, List.mem_range.mpr hi, rfl⟩)⟩
  obtain ⟨i, hi, rfl⟩ := List.mem_map.mp h2
  exact ⟨i, List.mem_range.mp hi, rfl⟩

/-- a computed sample of the Gaussian -/
noncomputable def baseSample (T : Fl r) (n i : ℕ) : Fl r :=
  roundedEnvelope T (roundedTime (T / Py.nat n) i)

/-- a computed sample of the modulated Gaussian -/
noncomputable def modulatedSample (T f : Fl r) (n i : ℕ) : Fl r :=
  baseSample T n i * PyFloat.sin (PyFloat.lit 2 * PyFloat.pi * f *
    (roundedTime (T / Py.nat n) i - T / PyFloat.lit 2))

/-- the computed rotation angle at full scale -/
noncomputable def roundedFullScale (Ω T : Fl r) (n : ℕ) (m : Fl r) : Fl r :=
  T / Py.nat n * PyFloat.sum ((List.range n).map fun i => baseSample T n i / m) * Ω

/-- the computed full-rotation angle -/
noncomputable def roundedFullRotation (R : Fl r) : Fl r :=
  Py.pyMax (R - PyFloat.mod R (PyFloat.lit 2 * PyFloat.pi)) (PyFloat.lit 2 * PyFloat.pi)

/-- the computed smallest maximum Rabi rate -/
noncomputable def roundedBound (T : Fl r) : Fl r :=
  PyFloat.sqrt (PyFloat.lit 2 * PyFloat.pi) / (PyFloat.lit (1 / 10) * T)

theorem gaussianMidpoints_rounded (T : Fl r) (n : ℕ) :
    gaussianMidpoints n (T / Py.nat n) = (List.range n).map (roundedTime (T / Py.nat n)) := rfl

theorem baseGaussian_rounded (T : Fl r) (n : ℕ) :
    baseGaussian T (gaussianMidpoints n (T / Py.nat n)) = (List.range n).map (baseSample T n) := by
  rw [gaussianMidpoints_rounded, baseGaussian, List.map_map]
  rfl

theorem newModulatedGaussianControl_rounded (Ω d T f : Fl r) {m m₀ : Fl r}
    (hm : 0 < roundedCount T d → IsRoundedMax (roundedCount T d) (modulatedSample T f (roundedCount T d)) m ∧
      Py.npAmax ((List.range (roundedCount T d)).map (modulatedSample T f (roundedCount T d))) = .ok m)
    (hm₀ : 0 < roundedCount T d → IsRoundedMax (roundedCount T d) (baseSample T (roundedCount T d)) m₀ ∧
      Py.npAmax ((List.range (roundedCount T d)).map (baseSample T (roundedCount T d))) = .ok m₀) :
    AcceptsExactly (newModulatedGaussianControl Ω d T f)
      (0 < Ω.val ∧ 0 < d.val ∧ d.val < T.val ∧ (roundedBound T).val ≤ Ω.val)
      (roundedSigned T (roundedCount T d) fun i =>
        if f.val ≠ 0 then Ω * modulatedSample T f (roundedCount T d) i / m
        else baseSample T (roundedCount T d) i / m₀ * Ω *
          (roundedFullRotation (roundedFullScale Ω T (roundedCount T d) m₀) /
            roundedFullScale Ω T (roundedCount T d) m₀)) := by
  unfold newModulatedGaussianControl
  refine AcceptsExactly.congr (AcceptsExactly.check
    (Q := 0 < Ω.val) (by simp) fun hΩ => AcceptsExactly.check (Q := 0 < d.val) (by simp) fun hd =>
    AcceptsExactly.check (Q := d.val < T.val) (by simp) fun hT => AcceptsExactly.check
    (Q := (roundedBound T).val ≤ Ω.val) (by rw [ge_iff]; rfl)
    fun _ => (?_ : AcceptsExactly _ True _)) (by simp)
  refine ⟨fun _ => ?_, fun h => absurd trivial h⟩
  have hn := roundedCount_pos hd hT
  replace hm := hm hn
  replace hm₀ := hm₀ hn
  rw [pyCeil_rounded, except_ok_bind]
  change (_ >>= _ : Except PyErr _) = _
  change ((if Py.ne f (PyFloat.lit 0) = true then
    modulatedSegments Ω T f (gaussianMidpoints (roundedCount T d) (T / Py.nat (roundedCount T d)))
      (baseGaussian T (gaussianMidpoints (roundedCount T d) (T / Py.nat (roundedCount T d))))
    else unmodulatedSegments Ω (T / Py.nat (roundedCount T d))
      (baseGaussian T (gaussianMidpoints (roundedCount T d) (T / Py.nat (roundedCount T d))))) >>= _) = _
  rw [baseGaussian_rounded]
  by_cases hf : f.val = 0
  · have hne : ¬ (Py.ne f (PyFloat.lit 0) = true) := by simp [hf]
    rw [if_neg hne]
    unfold unmodulatedSegments
    rw [hm₀.2, except_ok_bind]
    simp only [hf, ne_eq, not_true_eq_false, if_false]
    refine roundedSigned_new (T := T) (n := roundedCount T d) (by linarith) hn _ _ ?_
    simp only [List.map_map, Function.comp_def, roundedFullScale, roundedFullRotation]
  · have hne : (Py.ne f (PyFloat.lit 0) = true) := by simp [hf]
    rw [if_pos hne]
    unfold modulatedSegments
    rw [gaussianMidpoints_rounded, List.map_map]
    dsimp only
    rw [List.zipWith_map, List.zipWith_self]
    change ((Py.npAmax ((List.range (roundedCount T d)).map
      (modulatedSample T f (roundedCount T d))) >>= _) >>= _) = _
    rw [hm.2, except_ok_bind]
    simp only [hf, ne_eq, not_false_eq_true, if_true]
    refine roundedSigned_new (T := T) (n := roundedCount T d) (by linarith) hn _ _ ?_
    rw [List.map_map]
    rfl

end OpenControls
