import Verif.Spec.ResidualError
import Verif.Proofs.TaylorBound

/-!
# The evolution of a control as a function of a systematic error
-/

namespace OpenControls

open Spec Complex

open scoped Matrix.Norms.L2Operator

/-- `f` has an expansion as described by `TameAt` -/
def Tame (b : ℝ) (f : ℝ → M2) : Prop := ∃ P Q, TameAt b f P Q

theorem TameAt.mono {b b' : ℝ} {f : ℝ → M2} {P Q : M2} (h : TameAt b f P Q) (hb : b ≤ b') :
    TameAt b' f P Q := by
  have h0 := h.pos
  refine ⟨h0.trans hb, h.bound, h.first.trans hb, h.second.trans ?_, fun x => (h.r0 x).trans ?_,
    fun x => (h.r1 x).trans ?_, fun x => (h.r2 x).trans ?_⟩ <;> gcongr

theorem Tame.one {b : ℝ} (hb : 0 ≤ b) : Tame b fun _ => (1 : M2) :=
  ⟨0, 0, (TameAt.const norm_one.le).mono hb⟩

theorem Tame.mul {b c : ℝ} {f g : ℝ → M2} (hf : Tame b f) (hg : Tame c g) :
    Tame (b + c) fun x => f x * g x := by
  obtain ⟨P, Q, hf⟩ := hf
  obtain ⟨P', Q', hg⟩ := hg
  exact ⟨_, _, hf.mul hg⟩

theorem su2_linear (x b c d b' c' d' : ℝ) :
    su2 0 (b + x * b') (c + x * c') (d + x * d') = su2 0 b c d + x • su2 0 b' c' d' := by
  ext i j
  fin_cases i <;> fin_cases j <;> simp [su2, Complex.ext_iff] <;> ring_nf <;> simp

theorem su2_norm (b c d : ℝ) : ‖su2 0 b c d‖ = Real.sqrt (b ^ 2 + c ^ 2 + d ^ 2) := by
  have h := su2_norm_sq 0 b c d
  have e : b ^ 2 + c ^ 2 + d ^ 2 = ‖su2 0 b c d‖ ^ 2 := by rw [h]; ring
  rw [e, Real.sqrt_sq (norm_nonneg _)]

theorem segment_su2 (Ω φ Δ t : ℝ) : segmentUnitary Ω φ Δ t =
    NormedSpace.exp (su2 0 (Ω * Real.cos φ * t / 2) (Ω * Real.sin φ * t / 2) (Δ * t / 2)) := by
  unfold segmentUnitary hamiltonian
  rw [su2_exponent]

theorem segment_amplitude (Ω φ Δ t : ℝ) :
    Tame (|Ω * t| / 2) fun e => segmentUnitary ((1 + e) * Ω) φ Δ t := by
  have h := tame_exp (su2_skew (Ω * Real.cos φ * t / 2) (Ω * Real.sin φ * t / 2) (Δ * t / 2))
    (su2_skew (Ω * Real.cos φ * t / 2) (Ω * Real.sin φ * t / 2) 0)
  have hn : ‖su2 0 (Ω * Real.cos φ * t / 2) (Ω * Real.sin φ * t / 2) 0‖ = |Ω * t| / 2 := by
    rw [su2_norm]
    have : (Ω * Real.cos φ * t / 2) ^ 2 + (Ω * Real.sin φ * t / 2) ^ 2 + 0 ^ 2 = (Ω * t / 2) ^ 2 := by
      linear_combination (Ω * t / 2) ^ 2 * Real.cos_sq_add_sin_sq φ
    rw [this, Real.sqrt_sq_eq_abs, abs_div, abs_of_pos (two_pos : (0 : ℝ) < 2)]
  rw [hn] at h
  have e : (fun e : ℝ => segmentUnitary ((1 + e) * Ω) φ Δ t) = fun x : ℝ => NormedSpace.exp
      (su2 0 (Ω * Real.cos φ * t / 2) (Ω * Real.sin φ * t / 2) (Δ * t / 2) +
        x • su2 0 (Ω * Real.cos φ * t / 2) (Ω * Real.sin φ * t / 2) 0) := by
    funext x
    rw [segment_su2, ← su2_linear]
    congr 2 <;> ring
  rw [e]
  exact h

theorem segment_detuning (Ω φ Δ t : ℝ) :
    Tame (|t| / 2) fun d => segmentUnitary Ω φ (Δ + d) t := by
  have h := tame_exp (su2_skew (Ω * Real.cos φ * t / 2) (Ω * Real.sin φ * t / 2) (Δ * t / 2))
    (su2_skew 0 0 (t / 2))
  have hn : ‖su2 0 0 0 (t / 2)‖ = |t| / 2 := by
    rw [su2_norm]
    have : (0 : ℝ) ^ 2 + 0 ^ 2 + (t / 2) ^ 2 = (t / 2) ^ 2 := by ring
    rw [this, Real.sqrt_sq_eq_abs, abs_div, abs_of_pos (two_pos : (0 : ℝ) < 2)]
  rw [hn] at h
  have e : (fun d : ℝ => segmentUnitary Ω φ (Δ + d) t) = fun x : ℝ => NormedSpace.exp
      (su2 0 (Ω * Real.cos φ * t / 2) (Ω * Real.sin φ * t / 2) (Δ * t / 2) +
        x • su2 0 0 0 (t / 2)) := by
    funext x
    rw [segment_su2, ← su2_linear]
    congr 2 <;> ring
  rw [e]
  exact h

theorem zipWith_abs_sum_nonneg (l l' : List ℝ) :
    0 ≤ (List.zipWith (fun Ω t => |Ω * t|) l l').sum := by
  induction l generalizing l' with
  | nil => simp
  | cons a l ih =>
    cases l' with
    | nil => simp
    | cons b l' =>
      rw [List.zipWith_cons_cons, List.sum_cons]
      exact add_nonneg (abs_nonneg _) (ih l')

theorem abs_sum_nonneg (l : List ℝ) : 0 ≤ (l.map fun t => |t|).sum := by
  induction l with
  | nil => simp
  | cons a l ih => simpa using add_nonneg (abs_nonneg _) ih

theorem lists_amplitude (Ωs φs Δs ts : List ℝ) :
    Tame ((List.zipWith (fun Ω t => |Ω * t|) Ωs ts).sum / 2)
      fun e => controlEvolution (Ωs.map ((1 + e) * ·)) φs Δs ts := by
  induction Ωs generalizing φs Δs ts with
  | nil => exact Tame.one (by simp)
  | cons Ω Ωs ih =>
    have hpos := zipWith_abs_sum_nonneg (Ω :: Ωs) ts
    rcases φs with _ | ⟨φ, φs⟩
    · exact Tame.one (by linarith)
    rcases Δs with _ | ⟨Δ, Δs⟩
    · exact Tame.one (by linarith)
    rcases ts with _ | ⟨t, ts⟩
    · exact Tame.one (by linarith)
    have h := (ih φs Δs ts).mul (segment_amplitude Ω φ Δ t)
    have e : (List.zipWith (fun Ω t => |Ω * t|) (Ω :: Ωs) (t :: ts)).sum / 2 =
        (List.zipWith (fun Ω t => |Ω * t|) Ωs ts).sum / 2 + |Ω * t| / 2 := by
      rw [List.zipWith_cons_cons, List.sum_cons]; ring
    rw [e]
    exact h

theorem lists_detuning (Ωs φs Δs ts : List ℝ) :
    Tame ((ts.map fun t => |t|).sum / 2)
      fun d => controlEvolution Ωs φs (Δs.map (· + d)) ts := by
  induction ts generalizing Ωs φs Δs with
  | nil =>
    have e : (fun d : ℝ => controlEvolution Ωs φs (Δs.map (· + d)) []) = fun _ => 1 := by
      funext d
      unfold controlEvolution
      split <;> simp_all
    rw [e]
    exact Tame.one (by simp)
  | cons t ts ih =>
    have hpos := abs_sum_nonneg (t :: ts)
    rcases Ωs with _ | ⟨Ω, Ωs⟩
    · exact Tame.one (by linarith)
    rcases φs with _ | ⟨φ, φs⟩
    · exact Tame.one (by linarith)
    rcases Δs with _ | ⟨Δ, Δs⟩
    · exact Tame.one (by linarith)
    have h := (ih Ωs φs Δs).mul (segment_detuning Ω φ Δ t)
    have e : ((t :: ts).map fun t => |t|).sum / 2 = (ts.map fun t => |t|).sum / 2 + |t| / 2 := by
      rw [List.map_cons, List.sum_cons]; ring
    rw [e]
    exact h

theorem tame_amplitude (c : DrivenControl ℝ) :
    Tame (sweptAngle c / 2) fun e => evolution (withAmplitudeError e c) :=
  lists_amplitude _ _ _ _

theorem tame_detuning (c : DrivenControl ℝ) :
    Tame (elapsedTime c / 2) fun d => evolution (withDetuningError d c) :=
  lists_detuning _ _ _ _

theorem withAmplitudeError_zero (c : DrivenControl ℝ) : withAmplitudeError 0 c = c := by
  cases c
  simp [withAmplitudeError]

theorem withDetuningError_zero (c : DrivenControl ℝ) : withDetuningError 0 c = c := by
  cases c
  simp [withDetuningError]

/-- the three bounds, from the expansion -/
theorem Tame.bounds {b : ℝ} {f : ℝ → M2} (h : Tame b f) (x : ℝ) :
    ‖f x - f 0‖ ≤ b * |x| ∧
    (FirstOrderInsensitive f → ‖f x - f 0‖ ≤ (b * |x|) ^ 2 / 2) ∧
    (SecondOrderInsensitive f → ‖f x - f 0‖ ≤ (b * |x|) ^ 3 / 6) := by
  obtain ⟨P, Q, h⟩ := h
  refine ⟨h.r0 x, fun h1 => ?_, fun h2 => ?_⟩
  · have := h.r1 x
    rw [h.first_zero h1, smul_zero, sub_zero] at this
    rw [mul_pow]
    exact this
  · have := h.r2 x
    obtain ⟨hP, hQ⟩ := h.second_zero h2
    rw [hP, hQ, smul_zero, smul_zero, sub_zero, sub_zero] at this
    rw [mul_pow]
    exact this

/-- the distance of two rotations about the same axis -/
theorem rotation_chord (a b φ : ℝ) : ‖rotation a φ - rotation b φ‖ = 2 * |Real.sin ((a - b) / 4)| := by
  have h : ‖rotation a φ - rotation b φ‖ ^ 2 = (2 * |Real.sin ((a - b) / 4)|) ^ 2 := by
    rw [rotation_eq, rotation_eq, su2_sub, su2_norm_sq, mul_pow, sq_abs]
    have h1 := Real.cos_sub (a / 2) (b / 2)
    have h2 := Real.cos_sq' ((a - b) / 4)
    have h3 := Real.cos_two_mul ((a - b) / 4)
    have e : 2 * ((a - b) / 4) = a / 2 - b / 2 := by ring
    rw [e, h1] at h3
    have h4 := Real.cos_sq_add_sin_sq φ
    linear_combination (Real.sin (a / 2) - Real.sin (b / 2)) ^ 2 * h4 +
      Real.cos_sq_add_sin_sq (a / 2) + Real.cos_sq_add_sin_sq (b / 2) - 2 * h3 + 4 * (-1) * h2
  exact (sq_eq_sq₀ (norm_nonneg _) (by positivity)).1 h

theorem sweptAngle_ofTable {Ω : ℝ} (hΩ : 0 < Ω) (table : List (ℝ × ℝ)) (name : Option String)
    (h : ∀ p ∈ table, 0 ≤ p.1) : sweptAngle (ofTable Ω table name) = (table.map Prod.fst).sum := by
  unfold sweptAngle ofTable
  induction table with
  | nil => simp
  | cons p table ih =>
    have := ih fun q hq => h q (List.mem_cons_of_mem _ hq)
    simp only [List.map_cons, List.zipWith_cons_cons, List.sum_cons] at this ⊢
    rw [this, mul_div_cancel₀ _ hΩ.ne', abs_of_nonneg (h p List.mem_cons_self)]

theorem elapsedTime_ofTable {Ω : ℝ} (hΩ : 0 < Ω) (table : List (ℝ × ℝ)) (name : Option String)
    (h : ∀ p ∈ table, 0 ≤ p.1) : elapsedTime (ofTable Ω table name) = (table.map Prod.fst).sum / Ω := by
  unfold elapsedTime ofTable
  induction table with
  | nil => simp
  | cons p table ih =>
    have := ih fun q hq => h q (List.mem_cons_of_mem _ hq)
    simp only [List.map_cons, List.sum_cons] at this ⊢
    rw [this, abs_of_nonneg (div_nonneg (h p List.mem_cons_self) hΩ.le)]
    ring

end OpenControls
