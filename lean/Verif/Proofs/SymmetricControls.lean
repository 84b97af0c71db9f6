import Verif.Spec.SymmetricControls
import Verif.Props.Reversal
import Verif.Proofs.NoisySegments
import Verif.Proofs.ResidualError

/-! # Helpers for symmetric controls (C143) -/

namespace OpenControls

open Spec RealInst

theorem evolution_snoc (gs : List (Segment ℝ)) (g : Segment ℝ) (name : Option String) :
    evolution (ofSegments (gs ++ [g]) name) =
      segmentUnitary g.rabi g.azimuthal g.detuning g.duration * evolution (ofSegments gs name) := by
  simp only [evolution, ofSegments, List.map_append, List.map_cons, List.map_nil]
  exact controlEvolution_concat (by simp) (by simp) (by simp) _ _ _ _

/-- a map that exchanges the factors of products and fixes all segments turns the control round -/
theorem evolution_turned_round (τ : M2 → M2) (h1 : τ 1 = 1) (hm : ∀ A B, τ (A * B) = τ B * τ A) (name : Option String)
    (gs : List (Segment ℝ)) (hg : ∀ g ∈ gs, τ (segmentUnitary g.rabi g.azimuthal g.detuning g.duration) =
      segmentUnitary g.rabi g.azimuthal g.detuning g.duration) :
    τ (evolution (ofSegments gs name)) = evolution (ofSegments gs.reverse name) := by
  induction gs with
  | nil => exact h1
  | cons g gs ih =>
    rw [evolution_ofSegments_cons, hm, hg g (by simp), ih fun q hq => hg q (List.mem_cons_of_mem _ hq), List.reverse_cons,
      evolution_snoc]

theorem segment_quaternion (Ω φ Δ t : ℝ) : ∃ a w v, a ^ 2 + (w * Ω) ^ 2 + (v * Δ) ^ 2 = 1 ∧
    segmentUnitary Ω φ Δ t = su2 a (w * (Ω * Real.cos φ)) (w * (Ω * Real.sin φ)) (v * Δ) := by
  by_cases h : Ω ^ 2 + Δ ^ 2 = 0
  · have hΩ : Ω = 0 := by nlinarith [sq_nonneg Ω, sq_nonneg Δ]
    have hΔ : Δ = 0 := by nlinarith [sq_nonneg Ω, sq_nonneg Δ]
    subst hΩ hΔ
    refine ⟨1, 0, 0, by norm_num, ?_⟩
    rw [segmentUnitary_idle, ← su2_one]
    simp
  · have hp : 0 < Ω ^ 2 + Δ ^ 2 := lt_of_le_of_ne (by positivity) (Ne.symm h)
    have hr := Real.sq_sqrt hp.le
    have hr0 : Real.sqrt (Ω ^ 2 + Δ ^ 2) ≠ 0 := (Real.sqrt_pos.mpr hp).ne'
    refine ⟨_, Real.sin (Real.sqrt (Ω ^ 2 + Δ ^ 2) * t / 2) / Real.sqrt (Ω ^ 2 + Δ ^ 2),
      Real.sin (Real.sqrt (Ω ^ 2 + Δ ^ 2) * t / 2) / Real.sqrt (Ω ^ 2 + Δ ^ 2), ?_,
      (segmentUnitary_eq Ω φ Δ t _ hr hr0).trans (su2_inj.mpr ⟨rfl, by ring, by ring, by ring⟩)⟩
    have := Real.cos_sq_add_sin_sq (Real.sqrt (Ω ^ 2 + Δ ^ 2) * t / 2)
    generalize Real.sqrt (Ω ^ 2 + Δ ^ 2) = r at *
    field_simp
    linear_combination r ^ 2 * this - Real.sin (r * t / 2) ^ 2 * hr

theorem evolution_quaternion (gs : List (Segment ℝ)) (name : Option String) :
    ∃ a b c d, a ^ 2 + b ^ 2 + c ^ 2 + d ^ 2 = 1 ∧ evolution (ofSegments gs name) = su2 a b c d := by
  induction gs with
  | nil => exact ⟨1, 0, 0, 0, by norm_num, su2_one.symm⟩
  | cons g gs ih =>
    obtain ⟨a, b, c, d, h, e⟩ := ih
    obtain ⟨a', w, v, h', e'⟩ := segment_quaternion g.rabi g.azimuthal g.detuning g.duration
    rw [evolution_ofSegments_cons, e, e', su2_mul]
    refine ⟨_, _, _, _, ?_, rfl⟩
    have hφ := Real.cos_sq_add_sin_sq g.azimuthal
    have h'' : a' ^ 2 + (w * (g.rabi * Real.cos g.azimuthal)) ^ 2 + (w * (g.rabi * Real.sin g.azimuthal)) ^ 2 +
        (v * g.detuning) ^ 2 = 1 := by linear_combination h' + (w * g.rabi) ^ 2 * hφ
    generalize w * (g.rabi * Real.cos g.azimuthal) = b' at *
    generalize w * (g.rabi * Real.sin g.azimuthal) = c' at *
    generalize v * g.detuning = d' at *
    linear_combination (a' ^ 2 + b' ^ 2 + c' ^ 2 + d' ^ 2) * h + h''

/-- reflection at the XY plane -/
def mirrorXY (U : M2) : M2 := !![U 1 1, U 0 1; U 1 0, U 0 0]

theorem mirrorXY_mul (A B : M2) : mirrorXY (A * B) = mirrorXY B * mirrorXY A := by
  ext i j
  fin_cases i <;> fin_cases j <;> simp [mirrorXY, Matrix.mul_apply, Fin.sum_univ_two] <;> ring

theorem mirrorXY_su2 (a b c d : ℝ) : mirrorXY (su2 a b c d) = su2 a b c (-d) := by
  ext i j
  fin_cases i <;> fin_cases j <;> simp [mirrorXY, su2]

theorem mirrorXY_one : mirrorXY 1 = 1 := by
  rw [← su2_one, mirrorXY_su2, neg_zero]

/-- reflection at the plane of the Z axis and the axis with azimuthal angle `φ` -/
noncomputable def mirrorAxis (φ : ℝ) (U : M2) : M2 :=
  !![U 0 0, ⟨Real.cos (2 * φ), -Real.sin (2 * φ)⟩ * U 1 0; ⟨Real.cos (2 * φ), Real.sin (2 * φ)⟩ * U 0 1, U 1 1]

theorem mirrorAxis_mul (φ : ℝ) (A B : M2) : mirrorAxis φ (A * B) = mirrorAxis φ B * mirrorAxis φ A := by
  have h : (⟨Real.cos (2 * φ), -Real.sin (2 * φ)⟩ : ℂ) * ⟨Real.cos (2 * φ), Real.sin (2 * φ)⟩ = 1 := by
    apply Complex.ext
    · simp only [Complex.mul_re, Complex.one_re]
      linear_combination Real.cos_sq_add_sin_sq (2 * φ)
    · simp only [Complex.mul_im, Complex.one_im]
      ring
  unfold mirrorAxis
  generalize (⟨Real.cos (2 * φ), -Real.sin (2 * φ)⟩ : ℂ) = z at *
  generalize (⟨Real.cos (2 * φ), Real.sin (2 * φ)⟩ : ℂ) = z' at *
  ext i j
  fin_cases i <;> fin_cases j <;> simp [Matrix.mul_apply, Fin.sum_univ_two]
  · linear_combination -(A 0 1 * B 1 0) * h
  · ring
  · ring
  · linear_combination -(A 1 0 * B 0 1) * h

theorem mirrorAxis_su2 (φ a b c d : ℝ) : mirrorAxis φ (su2 a b c d) =
    su2 a (b * Real.cos (2 * φ) + c * Real.sin (2 * φ)) (b * Real.sin (2 * φ) - c * Real.cos (2 * φ)) d := by
  ext i j
  fin_cases i <;> fin_cases j <;> simp [mirrorAxis, su2, Complex.ext_iff] <;> constructor <;> ring

theorem mirrorAxis_fixed {φ a b c d : ℝ} :
    mirrorAxis φ (su2 a b c d) = su2 a b c d ↔ b * Real.sin φ = c * Real.cos φ := by
  rw [mirrorAxis_su2, su2_inj, Real.cos_two_mul, Real.sin_two_mul]
  have h := Real.cos_sq_add_sin_sq φ
  constructor
  · rintro ⟨-, h1, h2, -⟩
    linear_combination (b * Real.sin φ - c * Real.cos φ) * (-h) - Real.sin φ / 2 * h1 + Real.cos φ / 2 * h2 +
      (b * Real.sin φ) * h
  · intro e
    refine ⟨rfl, ?_, ?_, rfl⟩
    · linear_combination 2 * b * h - 2 * Real.sin φ * e
    · linear_combination 2 * Real.cos φ * e

theorem mirrorAxis_one (φ : ℝ) : mirrorAxis φ 1 = 1 := by
  rw [← su2_one, mirrorAxis_fixed]
  ring

theorem exists_polar (x y : ℝ) : ∃ ψ, x = Real.sqrt (x ^ 2 + y ^ 2) * Real.cos ψ ∧ y = Real.sqrt (x ^ 2 + y ^ 2) * Real.sin ψ := by
  have hn : ‖(⟨x, y⟩ : ℂ)‖ = Real.sqrt (x ^ 2 + y ^ 2) := by
    rw [Complex.norm_eq_sqrt_sq_add_sq]
  refine ⟨Complex.arg ⟨x, y⟩, ?_, ?_⟩
  · rw [← hn, Complex.norm_mul_cos_arg]
  · rw [← hn, Complex.norm_mul_sin_arg]

theorem su2_plane_rotation {a b c : ℝ} (h : a ^ 2 + b ^ 2 + c ^ 2 = 1) : ∃ θ ψ, su2 a b c 0 = rotation θ ψ := by
  obtain ⟨ψ, hb, hc⟩ := exists_polar b c
  refine ⟨2 * Real.arccos a, ψ, ?_⟩
  have ha : -1 ≤ a ∧ a ≤ 1 := abs_le.mp (abs_le_one_iff_mul_self_le_one.mpr (by nlinarith [sq_nonneg b, sq_nonneg c]))
  have hs : Real.sin (Real.arccos a) = Real.sqrt (b ^ 2 + c ^ 2) := by
    rw [Real.sin_arccos]
    congr 1
    linarith
  rw [rotation_eq, mul_div_cancel_left₀ _ two_ne_zero, Real.cos_arccos ha.1 ha.2, hs, ← hb, ← hc]

theorem su2_axis_pulse {a b c d φ : ℝ} (h : a ^ 2 + b ^ 2 + c ^ 2 + d ^ 2 = 1) (e : b * Real.sin φ = c * Real.cos φ) :
    ∃ Ω Δ, su2 a b c d = pulseUnitary Ω φ Δ := by
  have hφ := Real.cos_sq_add_sin_sq φ
  set w := b * Real.cos φ + c * Real.sin φ with hw
  have hb : b = w * Real.cos φ := by rw [hw]; linear_combination -b * hφ + Real.sin φ * e
  have hc : c = w * Real.sin φ := by rw [hw]; linear_combination -c * hφ - Real.cos φ * e
  have hw2 : w ^ 2 = b ^ 2 + c ^ 2 := by
    linear_combination -(w ^ 2) * hφ - (b + w * Real.cos φ) * hb - (c + w * Real.sin φ) * hc
  obtain ⟨χ, h1, h2⟩ := exists_polar w d
  have ha : -1 ≤ a ∧ a ≤ 1 :=
    abs_le.mp (abs_le_one_iff_mul_self_le_one.mpr (by nlinarith [sq_nonneg b, sq_nonneg c, sq_nonneg d]))
  have hr : 0 < 2 * (Real.arccos a + 2 * Real.pi) := by
    have := Real.arccos_nonneg a
    have := Real.pi_pos
    linarith
  have hs : Real.sin (Real.arccos a) = Real.sqrt (w ^ 2 + d ^ 2) := by
    rw [Real.sin_arccos]
    congr 1
    linarith
  refine ⟨2 * (Real.arccos a + 2 * Real.pi) * Real.cos χ, 2 * (Real.arccos a + 2 * Real.pi) * Real.sin χ, ?_⟩
  rw [pulseUnitary_eq_segmentUnitary, segmentUnitary_eq _ φ _ 1 (2 * (Real.arccos a + 2 * Real.pi))
    (by linear_combination -(2 * (Real.arccos a + 2 * Real.pi)) ^ 2 * Real.cos_sq_add_sin_sq χ) hr.ne']
  rw [mul_one, mul_div_cancel_left₀ _ two_ne_zero, Real.cos_add_two_pi, Real.sin_add_two_pi, Real.cos_arccos ha.1 ha.2, hs,
    mul_assoc _ (Real.cos χ), mul_assoc _ (Real.cos χ), mul_div_cancel_left₀ _ hr.ne', mul_div_cancel_left₀ _ hr.ne',
    mul_div_cancel_left₀ _ hr.ne', su2_inj]
  refine ⟨rfl, ?_, ?_, h2⟩
  · rw [← mul_assoc, ← h1, ← hb]
  · rw [← mul_assoc, ← h1, ← hc]

/-- a segment with errors -/
def Segment.errant (a d : ℝ) (g : Segment ℝ) : Segment ℝ := ⟨(1 + a) * g.rabi, g.azimuthal, g.detuning + d, g.duration⟩

theorem withSegmentErrors_ofSegments (a d : ℕ → ℝ) (gs : List (Segment ℝ)) (name : Option String) :
    withSegmentErrors a d (ofSegments gs name) = ofSegments (gs.mapIdx fun i g => g.errant (a i) (d i)) name := by
  simp only [withSegmentErrors, ofSegments, DrivenControl.mk.injEq, and_true]
  refine ⟨?_, ?_, ?_, ?_⟩ <;> apply List.ext_getElem <;> simp [Segment.errant]

theorem ofSegments_injective {gs gs' : List (Segment ℝ)} {name : Option String}
    (h : ofSegments gs name = ofSegments gs' name) : gs = gs' := by
  simp only [ofSegments, DrivenControl.mk.injEq, and_true] at h
  obtain ⟨h1, h2, h3, h4⟩ := h
  have hl : gs.length = gs'.length := by simpa using congrArg List.length h1
  refine List.ext_getElem hl fun i hi hi' => ?_
  have e : ∀ {f : Segment ℝ → ℝ}, gs.map f = gs'.map f → f gs[i] = f gs'[i] := fun {f} h => by
    have := congrArg (fun l => l[i]?) h
    simpa [hi, hi'] using this
  have e1 := e h1
  have e2 := e h2
  have e3 := e h3
  have e4 := e h4
  revert e1 e2 e3 e4
  generalize gs[i] = x
  generalize gs'[i] = y
  cases x
  cases y
  rintro rfl rfl rfl rfl
  rfl

theorem errant_reverse {gs : List (Segment ℝ)} (hr : gs.reverse = gs) {a d : ℕ → ℝ} (ha : SymmetricErrors gs.length a)
    (hd : SymmetricErrors gs.length d) : (gs.mapIdx fun i g => g.errant (a i) (d i)).reverse =
      gs.mapIdx fun i g => g.errant (a i) (d i) := by
  refine List.ext_getElem (by simp) fun i hi hi' => ?_
  have hi'' : i < gs.length := by simpa using hi'
  rw [List.getElem_reverse, List.getElem_mapIdx, List.getElem_mapIdx]
  simp only [List.length_mapIdx]
  rw [ha i hi'', hd i hi'']
  congr 1
  have := List.getElem_reverse (l := gs) (i := i) (by simpa using hi'')
  rw [← this]
  simp only [hr]

/-- a control that is the same run backwards, with symmetric errors -/
theorem symmetric_segments {c : DrivenControl ℝ} (hc : c.Constructed) (hr : reversed c = c) {a d : ℕ → ℝ}
    (ha : SymmetricErrors c.durations.length a) (hd : SymmetricErrors c.durations.length d) :
    ∃ gs : List (Segment ℝ), c = ofSegments gs c.name ∧
      withSegmentErrors a d c = ofSegments (gs.mapIdx fun i g => g.errant (a i) (d i)) c.name ∧
      (gs.mapIdx fun i g => g.errant (a i) (d i)).reverse = gs.mapIdx fun i g => g.errant (a i) (d i) := by
  obtain ⟨gs, e, -⟩ := constructed_segments hc
  refine ⟨gs, e, ?_, ?_⟩
  · conv_lhs => rw [e]
    exact withSegmentErrors_ofSegments a d gs _
  · have hl : c.durations.length = gs.length := by
      rw [e]
      simp [ofSegments]
    rw [hl] at ha hd
    refine errant_reverse (ofSegments_injective (name := c.name) ?_) ha hd
    rw [ofSegments_reverse, ← e, hr]

end OpenControls
