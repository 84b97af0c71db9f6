import Verif.Proofs.Extended
import Verif.Proofs.ExtendedSequences
import Verif.Proofs.ExtendedGaussian
import Verif.Props.Composite

/-!
# What the checks do with infinities and NaN
-/

namespace OpenControls

open PyFloat Py Spec XR

/-! ### The control constructor -/

section anyArithmetic
variable {α : Type} [Add α] [Sub α] [Mul α] [Div α] [Neg α] [PyFloat α]

/-- the part of a control without its azimuthal angles -/
def DrivenControl.forget (c : DrivenControl α) : DrivenControl α := { c with azimuthalAngles := [] }

/-- the constructor looks at the number of azimuthal angles only -/
theorem DrivenControl.new_azimuth (d : List α) (r δ : Option (List α)) (a a' : List α)
    (name : Option String) (h : a.length = a'.length) :
    (DrivenControl.new d r (some a) δ name).map DrivenControl.forget =
      (DrivenControl.new d r (some a') δ name).map DrivenControl.forget := by
  rw [DrivenControl.new_eq, DrivenControl.new_eq]
  simp only [Option.mem_some_iff, forall_eq', h, Option.getD_some]
  split
  · split
    · split <;> rfl
    · rfl
  · rfl

/-- the azimuthal angle does not influence the checks of a composite pulse -/
theorem scheme_azimuth (s : Scheme) (θ Ω φ φ' : α) (name : Option String) :
    (s.call θ Ω φ name).map DrivenControl.forget =
      (s.call θ Ω φ' name).map DrivenControl.forget := by
  cases s <;> simp only [Scheme.call, newPrimitiveControl, newBB1Control, newSK1Control,
    newScrofulousControl, newCorpseControl, newCorpseInBB1Control, newCorpseInSK1Control,
    newCorpseInScrofulousControl, newWamf1Control, map_bind]
  all_goals
    congr 1; funext _
    first
    | exact DrivenControl.new_azimuth _ _ _ _ _ _ (by simp)
    | (congr 1; funext _
       first
       | (simp only [corpseBlock, List.map_append, List.map_cons, List.map_nil]
          exact DrivenControl.new_azimuth _ _ _ _ _ _ (by simp))
       | exact DrivenControl.new_azimuth _ _ _ _ _ _ (by simp))

theorem validate_fail {θ Ω : α} (h : Py.gt Ω (lit 0) = false) :
    ∃ m, validateRabiParameters θ Ω = .error (.arguments m) := by
  unfold validateRabiParameters
  rw [checkArguments_bind, h]
  exact ⟨_, rfl⟩

/-- the outcome of validation -/
theorem validate_cases (θ Ω : α) : validateRabiParameters θ Ω = .ok () ∨
    ∃ m, validateRabiParameters θ Ω = .error (.arguments m) := by
  unfold validateRabiParameters
  rw [checkArguments_bind]
  split
  · unfold checkArguments
    split
    · exact Or.inl rfl
    · exact Or.inr ⟨_, rfl⟩
  · exact Or.inr ⟨_, rfl⟩

theorem new_reject {d : List α} {t : α} (r a δ : Option (List α)) (name : Option String)
    (ht : t ∈ d) (hb : Py.gt t (lit 0) = false) :
    ∃ m, DrivenControl.new d r a δ name = .error (.arguments m) := by
  rw [DrivenControl.new_eq, if_neg]
  · exact ⟨_, rfl⟩
  · intro h
    rw [List.all_eq_true] at h
    rw [h t ht] at hb
    cases hb

theorem bind_reject {β γ : Type} {x : Except PyErr β} {k : β → Except PyErr γ}
    (h : ∃ m, x = .error (.arguments m)) : ∃ m, (x >>= k) = .error (.arguments m) := by
  obtain ⟨m, h⟩ := h
  exact ⟨m, by rw [h]; rfl⟩

theorem check_reject {γ : Type} {c : Bool} {d : String} {k : Unit → Except PyErr γ}
    (h : c = true → ∃ m, k () = .error (.arguments m)) :
    ∃ m, (checkArguments c d >>= k) = .error (.arguments m) := by
  rw [checkArguments_bind]
  split
  · rename_i hc; exact h hc
  · exact ⟨_, rfl⟩

theorem validate_reject {γ : Type} {θ Ω : α} {k : Unit → Except PyErr γ}
    (h : ∃ m, k () = .error (.arguments m)) :
    ∃ m, (validateRabiParameters θ Ω >>= k) = .error (.arguments m) := by
  rcases validate_cases θ Ω with hv | hv
  · rw [hv]; exact h
  · exact bind_reject hv

theorem wimperis_reject {γ : Type} {θ : α} {k : α → Except PyErr γ}
    (h : ∀ x, ∃ m, k x = .error (.arguments m)) :
    ∃ m, (transformedRabiRotationWimperis θ >>= k) = .error (.arguments m) := by
  unfold transformedRabiRotationWimperis
  rw [checkArguments_bind]
  split
  · exact h _
  · exact ⟨_, rfl⟩

/-- a maximum Rabi rate that is not positive is rejected by every scheme -/
theorem scheme_rate_reject (s : Scheme) {θ Ω : α} (φ : α) (name : Option String)
    (h : Py.gt Ω (lit 0) = false) : ∃ m, s.call θ Ω φ name = .error (.arguments m) := by
  cases s <;> exact bind_reject (validate_fail h)

end anyArithmetic

/-! ### Composite pulses -/

theorem nan_div (x : XR) : XR.nan / x = nan := by cases x <;> rfl
theorem nan_mul (x : XR) : XR.nan * x = nan := by cases x <;> rfl
theorem mul_nan (x : XR) : x * XR.nan = nan := by cases x <;> rfl
theorem nan_add (x : XR) : XR.nan + x = nan := by cases x <;> rfl
theorem add_nan (x : XR) : x + XR.nan = nan := by cases x <;> rfl
theorem sub_nan (x : XR) : x - XR.nan = nan := by cases x <;> rfl
theorem nan_sub (x : XR) : XR.nan - x = nan := by cases x <;> rfl
theorem fin_div_inf (x : ℝ) : fin x / XR.inf = fin 0 := rfl

theorem not_gt_zero : Py.gt (fin 0) (lit 0) = false := by simp
theorem not_gt_nan : Py.gt XR.nan (lit 0) = false := by simp
theorem not_gt_negInf : Py.gt XR.negInf (lit 0) = false := by simp

theorem corpseK_fin_exists (x : ℝ) : ∃ k : ℝ, corpseK (fin x) = fin k := by
  refine ⟨Real.arcsin (Real.sin (x / 2) / 2), ?_⟩
  have h2 : ((2 : ℚ) : ℝ) ≠ 0 := by norm_num
  have h1 := Real.neg_one_le_sin (x / 2)
  have h3 := Real.sin_le_one (x / 2)
  unfold corpseK
  rw [XR.lit_eq, fin_div _ h2, sin_fin, fin_div _ h2, arcsin_fin]
  · simp
  · push_cast; linarith
  · push_cast; linarith

theorem corpseK_not_finite {θ : XR} (h : ¬θ.Finite) : corpseK θ = nan := by
  have h2 : (0 : ℝ) ≤ 2 := by norm_num
  cases θ with
  | fin x => exact absurd ⟨x, rfl⟩ h
  | nan => rfl
  | inf =>
    unfold corpseK
    have : XR.inf / lit 2 = inf := by
      show (if (0 : ℝ) ≤ ((2 : ℚ) : ℝ) then _ else _) = _
      rw [if_pos (by norm_num)]
    rw [this]
    rfl
  | negInf =>
    unfold corpseK
    have : XR.negInf / lit 2 = negInf := by
      show (if (0 : ℝ) ≤ ((2 : ℚ) : ℝ) then _ else _) = _
      rw [if_pos (by norm_num)]
    rw [this]
    rfl

/-- an infinite maximum Rabi rate is rejected by every scheme: some segment would last zero time -/
theorem scheme_rate_infinite (s : Scheme) (θ φ : XR) (name : Option String) :
    ∃ m, s.call θ inf φ name = .error (.arguments m) := by
  have hk : ∀ θ : XR, Py.gt ((lit 2 * PyFloat.pi - lit 2 * corpseK θ) / XR.inf) (lit 0) = false := by
    intro θ
    by_cases h : θ.Finite
    · obtain ⟨x, rfl⟩ := h
      obtain ⟨k, hk⟩ := corpseK_fin_exists x
      rw [hk]
      simp only [XR.lit_eq, XR.pi_eq, fin_mul, fin_sub, fin_div_inf]
      exact not_gt_zero
    · rw [corpseK_not_finite h, mul_nan, sub_nan, nan_div]
      exact not_gt_nan
  have hpi : Py.gt ((PyFloat.pi : XR) / XR.inf) (lit 0) = false := not_gt_zero
  have h2pi : Py.gt (((lit 2 : XR) * PyFloat.pi) / XR.inf) (lit 0) = false := not_gt_zero
  cases s
  · refine validate_reject (new_reject (t := θ / inf) _ _ _ _ (by simp) ?_)
    cases θ with
    | fin x => exact not_gt_zero
    | inf => exact not_gt_nan
    | negInf => exact not_gt_nan
    | nan => exact not_gt_nan
  · exact validate_reject (wimperis_reject fun _ => new_reject _ _ _ _ (by simp) hpi)
  · exact validate_reject (wimperis_reject fun _ => new_reject _ _ _ _ (by simp) h2pi)
  · exact validate_reject (check_reject fun _ => new_reject _ _ _ _ (by simp) hpi)
  · exact validate_reject (new_reject _ _ _ _ (by simp) (hk θ))
  · exact validate_reject (wimperis_reject fun _ => new_reject _ _ _ _ (by simp) hpi)
  · exact validate_reject (wimperis_reject fun _ => new_reject _ _ _ _ (by simp) h2pi)
  · exact validate_reject (check_reject fun _ => new_reject _ _ _ _ (by simp [corpseBlock])
      (hk PyFloat.pi))
  · refine validate_reject (check_reject fun _ => new_reject (t := (wamf1Thetas θ).1 / inf) _ _ _ _
      (by simp) ?_)
    unfold wamf1Thetas
    have h4 : ((4 : ℚ) : ℝ) ≠ 0 := by norm_num
    split
    · exact not_gt_zero
    · split
      · simp only [XR.lit_eq, XR.pi_eq, fin_mul, fin_add, fin_div _ h4, fin_div_inf]
        exact not_gt_zero
      · simp only [XR.lit_eq, XR.pi_eq, fin_mul, fin_add, fin_div _ h4, fin_div_inf]
        exact not_gt_zero

theorem wimperis_not_finite {θ : XR} (h : ¬θ.Finite) :
    ∃ m, transformedRabiRotationWimperis θ = .error (.arguments m) := by
  unfold transformedRabiRotationWimperis
  rw [checkArguments_bind, if_neg]
  · exact ⟨_, rfl⟩
  · cases θ with
    | fin x => exact absurd ⟨x, rfl⟩ h
    | nan => simp
    | inf => simp
    | negInf => simp

theorem supported_not_finite {θ : XR} (h : ¬θ.Finite) : isSupportedRotation θ = false := by
  have key : ∀ x : ℝ, isClose θ (fin x) = false := by
    intro x
    cases θ with
    | fin x => exact absurd ⟨x, rfl⟩ h
    | nan => simp [isClose, isCloseAtol]
    | inf => simp [isClose, isCloseAtol]
    | negInf => simp [isClose, isCloseAtol]
  unfold isSupportedRotation
  have h2 : ((2 : ℚ) : ℝ) ≠ 0 := by norm_num
  have h4 : ((4 : ℚ) : ℝ) ≠ 0 := by norm_num
  simp only [XR.pi_eq, XR.lit_eq, fin_div _ h2, fin_div _ h4, List.any_cons, key, List.any_nil,
    Bool.or_false]

/-- an infinite or NaN rotation is rejected, except that `new_primitive_control` takes `+inf` -/
theorem scheme_rotation_not_finite (s : Scheme) {θ : XR} (h : ¬θ.Finite) {Ω : ℝ} (hΩ : 0 < Ω)
    (φ : XR) (name : Option String) (hp : ¬(s = .primitive ∧ θ = inf)) :
    ∃ m, s.call θ (fin Ω) φ name = .error (.arguments m) := by
  have hs := supported_not_finite h
  cases s
  · refine validate_reject (new_reject (t := θ / fin Ω) _ _ _ _ (by simp) ?_)
    cases θ with
    | fin x => exact absurd ⟨x, rfl⟩ h
    | inf => exact absurd ⟨rfl, rfl⟩ hp
    | negInf =>
      have : XR.negInf / fin Ω = negInf := by
        show (if 0 ≤ Ω then _ else _) = _
        rw [if_pos hΩ.le]
      rw [this]; exact not_gt_negInf
    | nan => exact not_gt_nan
  · exact validate_reject (bind_reject (wimperis_not_finite h))
  · exact validate_reject (bind_reject (wimperis_not_finite h))
  · exact validate_reject (check_reject fun h => by rw [hs] at h; cases h)
  · refine validate_reject (new_reject (t := (lit 2 * PyFloat.pi - lit 2 * corpseK θ) / fin Ω)
      _ _ _ _ (by simp) ?_)
    rw [corpseK_not_finite h, mul_nan, sub_nan, nan_div]
    exact not_gt_nan
  · exact validate_reject (bind_reject (wimperis_not_finite h))
  · exact validate_reject (bind_reject (wimperis_not_finite h))
  · exact validate_reject (check_reject fun h => by rw [hs] at h; cases h)
  · exact validate_reject (check_reject fun h => by rw [hs] at h; cases h)

/-- `new_primitive_control(inf, ...)`: one segment of infinite duration -/
theorem primitive_infinite {Ω : ℝ} (hΩ : 0 < Ω) (φ : XR) (name : Option String) :
    newPrimitiveControl inf (fin Ω) φ name = .ok ⟨[fin Ω], [φ], [fin 0], [inf], name⟩ := by
  have h1 : XR.inf / fin Ω = inf := by
    show (if 0 ≤ Ω then _ else _) = _
    rw [if_pos hΩ.le]
  unfold newPrimitiveControl validateRabiParameters
  rw [h1, DrivenControl.new_eq]
  simp [checkArguments, hΩ, hΩ.le]

/-! ### Predefined sequences -/

section anyArithmetic
variable {α : Type} [Add α] [Sub α] [Mul α] [Div α] [Neg α] [PyFloat α]

theorem duration_reject {γ : Type} {T : α} {k : Unit → Except PyErr γ}
    (h : Py.gt T (lit 0) = false) : ∃ m, (checkDuration T >>= k) = .error (.arguments m) := by
  unfold checkDuration
  exact check_reject fun h' => by rw [h] at h'; cases h'

theorem duration_then {γ : Type} {T : α} {k : Unit → Except PyErr γ}
    (h : ∃ m, k () = .error (.arguments m)) :
    ∃ m, (checkDuration T >>= k) = .error (.arguments m) := by
  unfold checkDuration
  exact check_reject fun _ => h

theorem check_false {γ : Type} {c : Bool} {d : String} {k : Unit → Except PyErr γ}
    (h : c = false) : ∃ m, (checkArguments c d >>= k) = .error (.arguments m) :=
  check_reject fun h' => by rw [h] at h'; cases h'

/-- a duration that is not positive is rejected by every predefined sequence -/
theorem predefined_duration_reject (s : Predefined α) {T : α} (b : Bool) (name : Option String)
    (h : Py.gt T (lit 0) = false) : ∃ m, s.call T b name = .error (.arguments m) := by
  cases s <;> exact duration_reject h

end anyArithmetic

theorem not_nan_ge : Py.ge XR.nan (lit 1) = false := by simp

/-- a NaN count or order is rejected by every predefined sequence -/
theorem predefined_nan_reject (s : Predefined XR) (T : XR) (b : Bool) (name : Option String)
    (h : nan ∈ s.args) : ∃ m, s.call T b name = .error (.arguments m) := by
  cases s with
  | ramsey => simp [Predefined.args] at h
  | spinEcho => simp [Predefined.args] at h
  | carrPurcell n =>
    obtain rfl : nan = n := by simpa [Predefined.args] using h
    exact duration_then (check_false not_nan_ge)
  | cpmg n =>
    obtain rfl : nan = n := by simpa [Predefined.args] using h
    exact duration_then (check_false not_nan_ge)
  | uhrig n =>
    obtain rfl : nan = n := by simpa [Predefined.args] using h
    exact duration_then (check_false not_nan_ge)
  | periodic n =>
    obtain rfl : nan = n := by simpa [Predefined.args] using h
    exact duration_then (check_false not_nan_ge)
  | walsh n =>
    obtain rfl : nan = n := by simpa [Predefined.args] using h
    exact duration_then (check_false (by simp))
  | quadratic n m =>
    have h' : nan = n ∨ nan = m := by simpa [Predefined.args] using h
    rcases h' with rfl | rfl
    · exact duration_then (check_false not_nan_ge)
    · exact duration_then (check_reject fun _ => check_false not_nan_ge)
  | xConcatenated n =>
    obtain rfl : nan = n := by simpa [Predefined.args] using h
    exact duration_then (check_false not_nan_ge)
  | xyConcatenated n =>
    obtain rfl : nan = n := by simpa [Predefined.args] using h
    exact duration_then (check_false not_nan_ge)

theorem pyInt_inf : pyInt XR.inf = .error .overflowError := rfl

theorem counted_overflow {γ : Type} {T : XR} (hT : Lt (fin 0) T) {d : String}
    {k : ℕ → Except PyErr γ} :
    (checkDuration T >>= fun _ => checkArguments (Py.ge XR.inf (lit 1)) d >>= fun _ =>
      pyInt XR.inf >>= k) = .error .overflowError := by
  unfold checkDuration
  rw [checkArguments_bind, if_pos (by simpa using hT), checkArguments_bind, if_pos (by simp),
    pyInt_inf]
  rfl

/-- an infinite count or order passes the checks of all sequences but Walsh, and `int` raises -/
theorem predefined_infinite_count (s : Predefined XR) {T : XR} (hT : Lt (fin 0) T) (b : Bool)
    (name : Option String) (h : inf ∈ s.args) (h1 : ∀ n ∈ s.args, Le (fin 1) n)
    (hw : ∀ k, s ≠ .walsh k) : s.call T b name = .error .overflowError := by
  cases s with
  | ramsey => simp [Predefined.args] at h
  | spinEcho => simp [Predefined.args] at h
  | carrPurcell n =>
    obtain rfl : inf = n := by simpa [Predefined.args] using h
    exact counted_overflow hT
  | cpmg n =>
    obtain rfl : inf = n := by simpa [Predefined.args] using h
    exact counted_overflow hT
  | uhrig n =>
    obtain rfl : inf = n := by simpa [Predefined.args] using h
    exact counted_overflow hT
  | periodic n =>
    obtain rfl : inf = n := by simpa [Predefined.args] using h
    exact counted_overflow hT
  | walsh n => exact absurd rfl (hw n)
  | quadratic n m =>
    have h' : inf = n ∨ inf = m := by simpa [Predefined.args] using h
    have hn : Py.ge n (lit 1) = true := by
      have := h1 n (by simp [Predefined.args]); simpa using this
    have hm : Py.ge m (lit 1) = true := by
      have := h1 m (by simp [Predefined.args]); simpa using this
    simp only [Predefined.call, newQuadraticSequence, checkDuration]
    rw [checkArguments_bind, if_pos (by simpa using hT), checkArguments_bind, if_pos hn,
      checkArguments_bind, if_pos hm]
    rcases h' with rfl | rfl
    · rfl
    · cases n with
      | fin x => rfl
      | inf => rfl
      | negInf => rfl
      | nan => rfl
  | xConcatenated n =>
    obtain rfl : inf = n := by simpa [Predefined.args] using h
    exact counted_overflow hT
  | xyConcatenated n =>
    obtain rfl : inf = n := by simpa [Predefined.args] using h
    exact counted_overflow hT

/-- an infinite Paley order exceeds 2000 -/
theorem walsh_infinite (T : XR) (b : Bool) (name : Option String) :
    ∃ m, newWalshSequence T inf b name = .error (.arguments m) :=
  duration_then (check_false (by simp))

/-! ### Gaussian pulses -/

theorem new_reject_rabi {d r : List XR} (a δ : Option (List XR)) (name : Option String)
    (h : nan ∈ r) : ∃ m, DrivenControl.new d (some r) a δ name = .error (.arguments m) := by
  rw [DrivenControl.new_eq]
  split
  · split
    · rw [if_neg]
      · exact ⟨_, rfl⟩
      · intro hall
        rw [List.all_eq_true] at hall
        have := hall nan h
        simp at this
    · exact ⟨_, rfl⟩
  · exact ⟨_, rfl⟩

theorem not_finite_mul {x : XR} (h : ¬x.Finite) (y : XR) : ¬(x * y).Finite := by
  rintro ⟨z, hz⟩
  have hi : ∀ w, infOf w ≠ fin z := by
    intro w; unfold infOf; split
    · exact fun h => by cases h
    · split <;> exact fun h => by cases h
  cases x with
  | fin x => exact h ⟨x, rfl⟩
  | nan => rw [nan_mul] at hz; cases hz
  | inf =>
    cases y with
    | fin y => exact hi _ hz
    | inf => cases hz
    | negInf => cases hz
    | nan => cases hz
  | negInf =>
    cases y with
    | fin y => exact hi _ hz
    | inf => cases hz
    | negInf => cases hz
    | nan => cases hz

theorem fin_mul_not_finite {x : XR} (h : ¬x.Finite) (y : ℝ) : ¬(fin y * x).Finite := by
  rintro ⟨z, hz⟩
  have hi : ∀ w, infOf w ≠ fin z := by
    intro w; unfold infOf; split
    · exact fun h => by cases h
    · split <;> exact fun h => by cases h
  cases x with
  | fin x => exact h ⟨x, rfl⟩
  | nan => cases hz
  | inf => exact hi _ hz
  | negInf => exact hi _ hz

theorem sin_not_finite {x : XR} (h : ¬x.Finite) : PyFloat.sin x = nan := by
  cases x with
  | fin x => exact absurd ⟨x, rfl⟩ h
  | _ => rfl

/-- an infinite or NaN modulation frequency is always rejected: all Rabi rates would be NaN -/
theorem gaussian_frequency_reject (Ω d T : ℝ) {f : XR} (hf : ¬f.Finite) :
    ∃ m, newModulatedGaussianControl (fin Ω) (fin d) (fin T) f = .error (.arguments m) := by
  unfold newModulatedGaussianControl
  refine check_reject fun _ => check_reject fun hd => check_reject fun hT => check_reject fun _ => ?_
  simp only [XR.gt_eq, XR.lit_eq, decide_eq_true_eq, lt_fin, Rat.cast_zero] at hd hT
  have hn : ⌈T / d⌉₊ ≠ 0 := by
    have : 0 < T / d := div_pos (hd.trans hT) hd
    exact (Nat.ceil_pos.2 this).ne'
  rw [fin_div _ hd.ne', pyCeil_fin, RealInst.pyCeil_eq,
    except_ok_bind]
  have hne : Py.ne f (lit 0) = true := by
    cases f with
    | fin x => exact absurd ⟨x, rfl⟩ hf
    | _ => simp
  have hsin : ∀ t : XR, PyFloat.sin (lit 2 * PyFloat.pi * f * (t - fin T / lit 2)) = nan := by
    intro t
    exact sin_not_finite (not_finite_mul (fin_mul_not_finite hf _) _)
  obtain ⟨k, hk⟩ := Nat.exists_eq_succ_of_ne_zero hn
  simp only [hne, if_true, modulatedSegments, hsin]
  rw [hk]
  set base := baseGaussian (fin T) (gaussianMidpoints (k + 1) (fin T / Py.nat (k + 1))) with hb
  have hz : List.zipWith (fun g s : XR => g * s) base
      ((gaussianMidpoints (k + 1) (fin T / Py.nat (k + 1))).map fun _ => nan) =
      List.replicate (k + 1) nan := by
    apply List.ext_getElem
    · simp [hb, baseGaussian, gaussianMidpoints]
    · intro i h1 h2
      simp only [List.getElem_zipWith, List.getElem_map, List.getElem_replicate, mul_nan]
  rw [hz, List.replicate_succ]
  simp only [npAmax, except_ok_bind]
  refine new_reject_rabi _ _ _ ?_
  simp only [List.map_cons, mul_nan, nan_div]
  exact List.mem_cons_self

/-! ### Infinite hardware rates -/

/-- a window of zero length -/
def Instant (p : XR × XR) : Prop := ∃ x : ℝ, p = (fin x, fin x)

theorem pyMax_zero_zero : pyMax (fin 0) (fin 0) = fin 0 := by
  unfold pyMax; split <;> rfl

theorem instant_startEnd (o : Operation ℝ) :
    pulseStartEnd inf inf (fin 0) (finOp o) = (fin o.offset, fin o.offset) := by
  have h : halfPulseDuration inf inf (fin 0) (finOp o) = fin 0 := by
    unfold halfPulseDuration
    simp only [finOp, abs_fin, fin_div_inf, pyMax_zero_zero, XR.lit_eq, fin_mul, mul_zero,
      Rat.cast_zero, ite_self]
  unfold pulseStartEnd
  simp only [h]
  simp only [finOp, fin_sub, fin_add, sub_zero, add_zero]

theorem instant_start (o : Operation ℝ) : Instant (pulseStartEnd inf inf (fin 0) (finOp o)) :=
  ⟨o.offset, instant_startEnd o⟩

theorem instant_shiftFirst {l : List (XR × XR)} (h : ∀ p ∈ l, Instant p) :
    ∀ p ∈ shiftFirst l, Instant p := by
  cases l with
  | nil => exact h
  | cons q l =>
    obtain ⟨x, rfl⟩ := h q (by simp)
    simp only [shiftFirst]
    split
    · intro p hp
      rcases List.mem_cons.1 hp with rfl | hp
      · exact ⟨x + (0 - x), by simp⟩
      · exact h p (by simp [hp])
    · exact h

theorem instant_shiftLast (T : ℝ) {l : List (XR × XR)} (h : ∀ p ∈ l, Instant p) :
    ∀ p ∈ shiftLast (fin T) l, Instant p := by
  induction l with
  | nil => exact h
  | cons q l ih =>
    cases l with
    | nil =>
      obtain ⟨x, rfl⟩ := h q (by simp)
      simp only [shiftLast]
      split
      · intro p hp
        obtain rfl := List.mem_singleton.1 hp
        exact ⟨x - (x - T), by simp⟩
      · exact h
    | cons q' l =>
      simp only [shiftLast]
      intro p hp
      rcases List.mem_cons.1 hp with rfl | hp
      · exact h q (by simp)
      · exact ih (fun p hp => h p (List.mem_cons_of_mem _ hp)) p hp

theorem instant_pulseSegment (o : Operation XR) {p : XR × XR} (h : Instant p) :
    (pulseSegment o p).rabi = fin 0 ∧ (pulseSegment o p).detuning = fin 0 := by
  obtain ⟨x, rfl⟩ := h
  unfold pulseSegment
  simp

theorem instant_buildSegments {l : List (Operation XR × (XR × XR))}
    (h : ∀ x ∈ l, Instant x.2) :
    ∀ g ∈ buildSegments l, g.rabi = fin 0 ∧ g.detuning = fin 0 := by
  induction l with
  | nil => intro g hg; simp [buildSegments] at hg
  | cons x l ih =>
    obtain ⟨o, p⟩ := x
    have hp : Instant p := h (o, p) (by simp)
    cases l with
    | nil =>
      intro g hg
      simp only [buildSegments, List.mem_cons, List.not_mem_nil, or_false] at hg
      rcases hg with rfl | rfl
      · exact instant_pulseSegment o hp
      · simp
    | cons y l =>
      obtain ⟨o', p'⟩ := y
      intro g hg
      simp only [buildSegments, List.mem_cons] at hg
      rcases hg with rfl | rfl | hg
      · exact instant_pulseSegment o hp
      · simp
      · exact ih (fun x hx => h x (List.mem_cons_of_mem _ hx)) g (by simpa [buildSegments] using hg)

/-- with infinite rates and no minimum segment duration the control that is returned is idle -/
theorem convert_infinite_rates (s : Sequence ℝ) (name : Option String) (c : DrivenControl XR)
    (hc : convertDDS (s.map fin) inf inf (fin 0) name = .ok c) :
    (∀ r ∈ c.rabiRates, r = fin 0) ∧ ∀ d ∈ c.detunings, d = fin 0 := by
  unfold convertDDS at hc
  simp only [checkArguments_bind] at hc
  have g1 : Py.gt XR.inf (lit 0) = true := by simp
  have g2 : Py.ge (fin 0) (lit 0) = true := by simp
  simp only [g1, g2, if_true, Sequence.map, operationsOf_fin, padOperations_fin] at hc
  cases hr : (s.rabiRotations.map fin).all fun r => Py.ge r (lit 0)
  · rw [hr] at hc; cases hc
  rw [hr] at hc
  simp only [if_true] at hc
  cases hv : checkValidOperation (s.rabiRotations.map fin) (s.detuningRotations.map fin)
  · rw [hv] at hc; cases hc
  rw [hv] at hc
  simp only [if_true] at hc
  set ops := padOperations s.duration
    (operationsOf s.offsets s.rabiRotations s.azimuthalAngles s.detuningRotations) with hops
  cases ho : (npDiff ((ops.map finOp).map Operation.offset)).any fun d => PyFloat.le d (lit 0)
  swap
  · rw [ho] at hc; cases hc
  rw [ho] at hc
  simp only [Bool.false_eq_true, if_false, except_pure_bind] at hc
  set w := shiftLast (fin s.duration) (shiftFirst ((ops.map finOp).map
    (pulseStartEnd inf inf (fin 0)))) with hw
  have hinst : ∀ p ∈ w, Instant p := by
    refine instant_shiftLast _ (instant_shiftFirst ?_)
    intro p hp
    rw [List.map_map, List.mem_map] at hp
    obtain ⟨o, -, rfl⟩ := hp
    exact instant_start o
  cases hg : (gapDurations w).all fun g => Py.gt g (fin 0) || isClose g (fin 0)
  · rw [hg] at hc; cases hc
  rw [hg] at hc
  simp only [Bool.not_true, Bool.false_eq_true, if_false, except_pure_bind] at hc
  cases hz : w.all fun p => isClose p.1 (lit 0) && isClose p.2 (lit 0)
  swap
  · rw [hz, if_pos rfl, DrivenControl.new_eq] at hc
    split at hc
    · split at hc
      · split at hc
        · cases hc
          simp
        · cases hc
      · cases hc
    · cases hc
  · rw [hz, if_neg Bool.false_ne_true, DrivenControl.new_eq] at hc
    have hseg : ∀ g ∈ (buildSegments ((ops.map finOp).zip w)).filter
        (fun g => Py.gt g.duration (lit 0)), g.rabi = fin 0 ∧ g.detuning = fin 0 := by
      intro g hg
      refine instant_buildSegments ?_ g (List.mem_filter.1 hg).1
      intro x hx
      exact hinst _ (List.of_mem_zip (by simpa using hx : (x.1, x.2) ∈ _)).2
    split at hc
    · split at hc
      · split at hc
        · cases hc
          simp only [Option.getD_some, List.mem_map]
          constructor
          · rintro _ ⟨g, hg, rfl⟩; exact (hseg g hg).1
          · rintro _ ⟨g, hg, rfl⟩; exact (hseg g hg).2
        · cases hc
      · cases hc
    · cases hc

end OpenControls
