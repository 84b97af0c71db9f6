import Verif.Proofs.ExtendedRejects
import Verif.Proofs.ExtendedExport
import Verif.Props.Export
import Verif.Props.Gaussian
import Verif.Props.EndToEnd

/-!
# C64–C67: infinities and NaN

The functions of the package run on `XR`: the real numbers with the infinities and NaN of IEEE
arithmetic (`Verif/Extended.lean`).  The model is the same as everywhere else; only the number type
differs.
-/

namespace OpenControls

open PyFloat Spec XR

/-! ### C64: what the argument checks do with infinities and NaN -/

/-- **C64** The control constructor accepts exactly: equally long arrays, every duration a positive
number or `+inf`, every Rabi rate a non-negative number or `+inf`.  Azimuthal angles and detunings
are unrestricted, NaN included.  Otherwise it raises `ArgumentsValueError`; in particular NaN and
`-inf` are rejected among durations and Rabi rates. -/
theorem C64_control_accepts (d r a δ : List XR) (name : Option String) :
    AcceptsExactly (DrivenControl.new d (some r) (some a) (some δ) name)
      ((∀ t ∈ d, t = inf ∨ ∃ x : ℝ, 0 < x ∧ t = fin x) ∧
       (∀ t ∈ r, t = inf ∨ ∃ x : ℝ, 0 ≤ x ∧ t = fin x) ∧
       r.length = d.length ∧ a.length = d.length ∧ δ.length = d.length)
      ⟨r, a, δ, d, name⟩ := by
  have hpos : ∀ t : XR, Py.gt t (lit 0) = true ↔ (t = inf ∨ ∃ x : ℝ, 0 < x ∧ t = fin x) := by
    intro t
    cases t <;> simp
  have hnn : ∀ t : XR, Py.ge t (lit 0) = true ↔ (t = inf ∨ ∃ x : ℝ, 0 ≤ x ∧ t = fin x) := by
    intro t
    cases t <;> simp
  have hd : (d.all fun t => Py.gt t (lit 0)) = true ↔
      ∀ t ∈ d, t = inf ∨ ∃ x : ℝ, 0 < x ∧ t = fin x := by
    rw [List.all_eq_true]; exact forall₂_congr fun t _ => hpos t
  have hr : (r.all fun t => Py.ge t (lit 0)) = true ↔
      ∀ t ∈ r, t = inf ∨ ∃ x : ℝ, 0 ≤ x ∧ t = fin x := by
    rw [List.all_eq_true]; exact forall₂_congr fun t _ => hnn t
  rw [DrivenControl.new_eq]
  simp only [Option.mem_some_iff, forall_eq', Option.getD_some]
  constructor
  · rintro ⟨h1, h2, h3⟩
    rw [if_pos (hd.2 h1), if_pos h3, if_pos (hr.2 h2)]
  · intro h
    split
    · rename_i g1
      split
      · rename_i g2
        rw [if_neg fun g3 => h ⟨hd.1 g1, hr.1 g3, g2⟩]
        exact ⟨_, rfl⟩
      · exact ⟨_, rfl⟩
    · exact ⟨_, rfl⟩

/-- **C64** The sequence constructor accepts exactly: a positive or infinite duration, offsets that are
numbers between 0 and the duration (or `+inf`, if the duration is), equally long arrays.  The
rotations and angles are unrestricted, NaN included. -/
theorem C64_sequence_accepts (T : XR) (o r a δ : List XR) (name : Option String) :
    AcceptsExactly (Sequence.new T o r a δ name)
      (((T = inf ∧ ∀ t ∈ o, t = inf ∨ ∃ x : ℝ, 0 ≤ x ∧ t = fin x) ∨
        ∃ y : ℝ, 0 < y ∧ T = fin y ∧ ∀ t ∈ o, ∃ x : ℝ, 0 ≤ x ∧ x ≤ y ∧ t = fin x) ∧
       r.length = o.length ∧ a.length = o.length ∧ δ.length = o.length)
      ⟨T, o, r, a, δ, name⟩ := by
  have key : (Py.gt T (lit 0) = true ∧
        (o.all fun t => Py.ge t (lit 0) && Py.ge T t) = true) ↔
      ((T = inf ∧ ∀ t ∈ o, t = inf ∨ ∃ x : ℝ, 0 ≤ x ∧ t = fin x) ∨
        ∃ y : ℝ, 0 < y ∧ T = fin y ∧ ∀ t ∈ o, ∃ x : ℝ, 0 ≤ x ∧ x ≤ y ∧ t = fin x) := by
    rw [List.all_eq_true]
    cases T with
    | nan => simp
    | negInf => simp
    | inf =>
      simp only [XR.gt_eq, XR.lit_eq, fin_lt_inf, decide_true, true_and, reduceCtorEq, false_and,
        and_false, exists_false, or_false]
      refine forall₂_congr fun t _ => ?_
      cases t <;> simp
    | fin y =>
      simp only [XR.gt_eq, XR.lit_eq, lt_fin, Rat.cast_zero, decide_eq_true_eq, reduceCtorEq,
        false_and, false_or, fin_inj, Bool.and_eq_true, XR.ge_eq]
      constructor
      · rintro ⟨hy, h⟩
        refine ⟨y, hy, rfl, fun t ht => ?_⟩
        have := h t ht
        cases t with
        | fin x => exact ⟨x, by simpa using this.1, by simpa using this.2, rfl⟩
        | inf => simp at this
        | negInf => simp at this
        | nan => simp at this
      · rintro ⟨z, hz, rfl, h⟩
        refine ⟨hz, fun t ht => ?_⟩
        obtain ⟨x, h1, h2, rfl⟩ := h t ht
        simpa using ⟨h1, h2⟩
  rw [Sequence.new_eq]
  constructor
  · rintro ⟨h, h2, h3, h4⟩
    obtain ⟨g1, g2⟩ := key.2 h
    rw [if_pos g1, if_pos g2, if_pos h2, if_pos h3, if_pos h4]
  · intro h
    split
    · split
      · split
        · split
          · split
            · exact absurd ⟨key.1 ⟨by assumption, by assumption⟩, by assumption, by assumption,
                by assumption⟩ h
            · exact ⟨_, rfl⟩
          · exact ⟨_, rfl⟩
        · exact ⟨_, rfl⟩
      · exact ⟨_, rfl⟩
    · exact ⟨_, rfl⟩

/-- **C64** Not every non-number is caught: a control with a NaN azimuthal angle and a NaN detuning is
accepted, and so is a segment of infinite duration. -/
theorem C64_nan_accepted :
    DrivenControl.new [fin 1] (some [fin 1]) (some [nan]) (some [nan]) none =
      .ok ⟨[fin 1], [nan], [nan], [fin 1], none⟩ ∧
    DrivenControl.new [inf] (some [inf]) (some [inf]) (some [negInf]) none =
      .ok ⟨[inf], [inf], [negInf], [inf], none⟩ := by
  constructor
  · exact (C64_control_accepts _ _ _ _ _).1 (by simp)
  · exact (C64_control_accepts _ _ _ _ _).1 (by simp)

/-- **C64** The composite pulses: a call is accepted exactly if the maximum Rabi rate is a positive
number and the rotation is a number that the scheme accepts in exact arithmetic, except that the
primitive pulse also takes `+inf`.  The azimuthal angle is not checked: any value, NaN included, is
let through.  All other calls raise `ArgumentsValueError`. -/
theorem C64_composite (s : Scheme) (θ Ω φ : XR) (name : Option String) :
    ((∃ c, s.call θ Ω φ name = .ok c) ↔
      ∃ Ω' : ℝ, 0 < Ω' ∧ Ω = fin Ω' ∧
        ((∃ θ' : ℝ, θ = fin θ' ∧ accepts s θ') ∨ (s = .primitive ∧ θ = inf))) ∧
    ∀ e, s.call θ Ω φ name = .error e → e.isArguments = true := by
  have fin_case : ∀ θ' Ω' : ℝ,
      ((∃ c, s.call (fin θ') (fin Ω') φ name = .ok c) ↔ 0 < Ω' ∧ accepts s θ') ∧
      ∀ e, s.call (fin θ') (fin Ω') φ name = .error e → e.isArguments = true := by
    intro θ' Ω'
    have h := scheme_azimuth s (fin θ') (fin Ω') φ (fin 0) name
    rw [scheme_fin] at h
    have hb : s.call θ' Ω' 0 name = build s θ' Ω' 0 name := by cases s <;> rfl
    rw [hb] at h
    have hs := build_spec s θ' Ω' 0 name
    by_cases hP : 0 < Ω' ∧ accepts s θ'
    · rw [hs.1 hP] at h
      cases hc : s.call (fin θ') (fin Ω') φ name with
      | ok c => exact ⟨⟨fun _ => hP, fun _ => ⟨c, rfl⟩⟩, fun e he => by cases he⟩
      | error e => rw [hc] at h; cases h
    · obtain ⟨m, hm⟩ := hs.2 hP
      rw [hm] at h
      cases hc : s.call (fin θ') (fin Ω') φ name with
      | ok c => rw [hc] at h; cases h
      | error e =>
        rw [hc] at h
        cases h
        exact ⟨⟨fun ⟨c, hc⟩ => (by cases hc), fun h => absurd h hP⟩, fun e he => by cases he; rfl⟩
  have reject : ∀ {x : Except PyErr (DrivenControl XR)} {P : Prop}, ¬P →
      (∃ m, x = .error (.arguments m)) →
      (((∃ c, x = .ok c) ↔ P) ∧ ∀ e, x = .error e → e.isArguments = true) := by
    rintro x P hP ⟨m, rfl⟩
    exact ⟨⟨fun ⟨c, hc⟩ => (by cases hc), fun h => absurd h hP⟩, fun e he => by cases he; rfl⟩
  cases Ω with
  | nan => exact reject (by simp) (scheme_rate_reject s φ name (by simp))
  | negInf => exact reject (by simp) (scheme_rate_reject s φ name (by simp))
  | inf => exact reject (by simp) (scheme_rate_infinite s θ φ name)
  | fin Ω' =>
    by_cases hΩ : 0 < Ω'
    · by_cases hθ : θ.Finite
      · obtain ⟨θ', rfl⟩ := hθ
        obtain ⟨h1, h2⟩ := fin_case θ' Ω'
        refine ⟨h1.trans ?_, h2⟩
        simp [hΩ]
      · by_cases hp : s = .primitive ∧ θ = inf
        · obtain ⟨rfl, rfl⟩ := hp
          have := primitive_infinite hΩ φ name
          refine ⟨⟨fun _ => ⟨Ω', hΩ, rfl, Or.inr ⟨rfl, rfl⟩⟩, fun _ => ⟨_, this⟩⟩, fun e he => ?_⟩
          rw [show Scheme.call .primitive = newPrimitiveControl (α := XR) from rfl, this] at he
          cases he
        · refine reject ?_ (scheme_rotation_not_finite s hθ hΩ φ name hp)
          rintro ⟨y, -, hy, ⟨x, rfl, -⟩ | h⟩
          · exact hθ ⟨x, rfl⟩
          · exact hp h
    · refine reject ?_ (scheme_rate_reject s φ name (by simpa using hΩ))
      rintro ⟨y, hy, h, -⟩
      cases h
      exact hΩ hy

/-- **C64** Predefined sequences reject NaN: if the duration, a count or an order is NaN the call
raises `ArgumentsValueError`. -/
theorem C64_sequence_nan (s : Predefined XR) (T : XR) (prePost : Bool) (name : Option String)
    (h : T = nan ∨ nan ∈ s.args) :
    ∃ description, s.call T prePost name = .error (.arguments description) := by
  rcases h with rfl | h
  · exact predefined_duration_reject s _ name (by simp)
  · exact predefined_nan_reject s T _ name h

/-- **C64** An infinite count or order is not rejected properly: every sequence except Walsh raises
`OverflowError` instead of `ArgumentsValueError`. -/
theorem C64_infinite_count (s : Predefined XR) (T : ℝ) (hT : 0 < T) (prePost : Bool)
    (name : Option String) (h : inf ∈ s.args)
    (h1 : ∀ n ∈ s.args, n = inf ∨ ∃ x : ℝ, 1 ≤ x ∧ n = fin x) :
    (∃ k, s = .walsh k) ∧
      (∃ description, s.call (fin T) prePost name = .error (.arguments description)) ∨
    (∀ k, s ≠ .walsh k) ∧ s.call (fin T) prePost name = .error .overflowError := by
  by_cases hw : ∃ k, s = .walsh k
  · left
    obtain ⟨k, rfl⟩ := hw
    obtain rfl : inf = k := by simpa [Predefined.args] using h
    exact ⟨⟨_, rfl⟩, walsh_infinite _ _ _⟩
  · right
    push Not at hw
    refine ⟨hw, predefined_infinite_count s (by simpa using hT) _ _ h ?_ hw⟩
    intro n hn
    rcases h1 n hn with rfl | ⟨x, hx, rfl⟩
    · simp
    · simpa using hx

/-- **C64** The Gaussian pulse: NaN in any argument, and an infinite modulation frequency, raise
`ArgumentsValueError`; an infinite duration raises `OverflowError`. -/
theorem C64_gaussian (Ω d T : ℝ) :
    (∀ x y z : XR, (∃ m, newModulatedGaussianControl nan x y z = .error (.arguments m)) ∧
      (∃ m, newModulatedGaussianControl x nan y z = .error (.arguments m)) ∧
      ∃ m, newModulatedGaussianControl x y nan z = .error (.arguments m)) ∧
    (∀ f : XR, f = nan ∨ f = inf ∨ f = negInf →
      ∃ m, newModulatedGaussianControl (fin Ω) (fin d) (fin T) f = .error (.arguments m)) ∧
    (0 < Ω → 0 < d → ∀ f : XR,
      newModulatedGaussianControl (fin Ω) (fin d) inf f = .error .overflowError) := by
  refine ⟨fun x y z => ⟨?_, ?_, ?_⟩, fun f hf => ?_, fun hΩ hd f => ?_⟩
  · exact check_false (by simp)
  · exact check_reject fun _ => check_false (by simp)
  · exact check_reject fun _ => check_reject fun _ => check_false (by simp)
  · refine gaussian_frequency_reject Ω d T ?_
    rintro ⟨x, rfl⟩
    simp at hf
  · unfold newModulatedGaussianControl
    have h1 : lit (1 / 10) * XR.inf = inf := by
      show infOf _ = _
      rw [infOf, if_pos (by norm_num)]
    have h2 : sqrt (lit 2 * PyFloat.pi) / XR.inf = fin 0 := by
      have : (0 : ℝ) ≤ ((2 : ℚ) : ℝ) * Real.pi := by
        have := Real.pi_pos; positivity
      rw [XR.lit_eq, XR.pi_eq, fin_mul, sqrt_fin this]
      rfl
    have h3 : XR.inf / fin d = inf := by
      show (if 0 ≤ d then _ else _) = _
      rw [if_pos hd.le]
    simp only [checkArguments_bind, h1, h2, h3]
    rw [if_pos (by simpa using hΩ), if_pos (by simpa using hd), if_pos (by simp),
      if_pos (by simpa using hΩ.le)]
    rfl

/-- An accepted control with a NaN azimuth; an accepted call with an infinite rotation. -/
example : (∃ c, newBB1Control (fin 1) (fin 1) nan none = .ok c) ∧
    (∃ c, newPrimitiveControl inf (fin 1) (fin 0) none = .ok c) := by
  constructor
  · refine (C64_composite .bb1 (fin 1) (fin 1) nan none).1.2 ⟨1, one_pos, rfl, Or.inl ⟨1, rfl, ?_⟩⟩
    have := Real.pi_gt_three
    exact ⟨one_pos, by linarith⟩
  · exact (C64_composite .primitive inf (fin 1) (fin 0) none).1.2
      ⟨1, one_pos, rfl, Or.inr ⟨rfl, rfl⟩⟩

example : newUhrigSequence (fin 1) inf true none = .error .overflowError := by
  rcases C64_infinite_count (.uhrig inf) 1 one_pos true none (by simp [Predefined.args])
    (by simp [Predefined.args]) with h | h
  · obtain ⟨⟨k, hk⟩, -⟩ := h; cases hk
  · exact h.2

/-! ### C65: finite arguments give finite results -/

theorem numbers_map_finite (c : DrivenControl ℝ) : ∀ x ∈ (c.map fin).numbers, x.Finite := by
  intro x hx
  simp only [DrivenControl.numbers, DrivenControl.map, List.mem_append, List.mem_map] at hx
  rcases hx with ((⟨y, -, rfl⟩ | ⟨y, -, rfl⟩) | ⟨y, -, rfl⟩) | ⟨y, -, rfl⟩ <;> exact ⟨y, rfl⟩

theorem numbers_map_finite' (s : Sequence ℝ) : ∀ x ∈ (s.map fin).numbers, x.Finite := by
  intro x hx
  simp only [Sequence.numbers, Sequence.map, List.mem_append, List.mem_map, List.mem_cons] at hx
  rcases hx with rfl | ((⟨y, -, rfl⟩ | ⟨y, -, rfl⟩) | ⟨y, -, rfl⟩) | ⟨y, -, rfl⟩
  · exact ⟨_, rfl⟩
  all_goals exact ⟨y, rfl⟩

/-- **C65** A composite pulse built from ordinary numbers is the pulse of exact arithmetic: no division
by zero and no inverse trigonometric function outside its domain occurs, so that no number of the
control is infinite or NaN. -/
theorem C65_composite (s : Scheme) (θ Ω φ : ℝ) (name : Option String) :
    s.call (fin θ) (fin Ω) (fin φ) name = (s.call θ Ω φ name).map (DrivenControl.map fin) ∧
    ∀ c, s.call (fin θ) (fin Ω) (fin φ) name = .ok c → ∀ x ∈ c.numbers, x.Finite := by
  refine ⟨scheme_fin s θ Ω φ name, fun c hc => ?_⟩
  rw [scheme_fin] at hc
  cases h : s.call θ Ω φ name with
  | error e => rw [h] at hc; cases hc
  | ok c' => rw [h] at hc; cases hc; exact numbers_map_finite c'

/-- **C65** The same for the ten predefined sequences. -/
theorem C65_sequence (s : Predefined ℝ) (T : ℝ) (prePost : Bool) (name : Option String) :
    (s.map fin).call (fin T) prePost name = (s.call T prePost name).map (Sequence.map fin) ∧
    ∀ q, (s.map fin).call (fin T) prePost name = .ok q → ∀ x ∈ q.numbers, x.Finite := by
  refine ⟨predefined_fin s T prePost name, fun q hq => ?_⟩
  rw [predefined_fin] at hq
  cases h : s.call T prePost name with
  | error e => rw [h] at hq; cases hq
  | ok c' => rw [h] at hq; cases hq; exact numbers_map_finite' c'

/-- **C65** The same for the conversion of any sequence of ordinary numbers. -/
theorem C65_conversion (s : Sequence ℝ) (R D m : ℝ) (name : Option String) :
    convertDDS (s.map fin) (fin R) (fin D) (fin m) name =
      (convertDDS s R D m name).map (DrivenControl.map fin) ∧
    ∀ c, convertDDS (s.map fin) (fin R) (fin D) (fin m) name = .ok c →
      ∀ x ∈ c.numbers, x.Finite := by
  refine ⟨convertDDS_fin s R D m name, fun c hc => ?_⟩
  rw [convertDDS_fin] at hc
  cases h : convertDDS s R D m name with
  | error e => rw [h] at hc; cases hc
  | ok c' => rw [h] at hc; cases hc; exact numbers_map_finite c'

/-- **C65** The Gaussian pulse: no number of an accepted control is infinite or NaN.  If some sample of
the waveform is non-zero the control is the one of exact arithmetic; if all vanish (the only way to a
division by zero) the call raises `ArgumentsValueError`. -/
theorem C65_gaussian (Ω d T f : ℝ) :
    (GaussianArgs Ω d T → Modulates T f ⌈T / d⌉₊ →
      newModulatedGaussianControl (fin Ω) (fin d) (fin T) (fin f) =
        (newModulatedGaussianControl Ω d T f).map (DrivenControl.map fin)) ∧
    (GaussianArgs Ω d T → ¬Modulates T f ⌈T / d⌉₊ →
      ∃ m, newModulatedGaussianControl (fin Ω) (fin d) (fin T) (fin f) = .error (.arguments m)) ∧
    ∀ c, newModulatedGaussianControl (fin Ω) (fin d) (fin T) (fin f) = .ok c →
      ∀ x ∈ c.numbers, x.Finite := by
  have h1 : GaussianArgs Ω d T → Modulates T f ⌈T / d⌉₊ →
      newModulatedGaussianControl (fin Ω) (fin d) (fin T) (fin f) =
        (newModulatedGaussianControl Ω d T f).map (DrivenControl.map fin) :=
    fun _ hm => newModulatedGaussianControl_fin Ω d T f fun _ => hm
  have h2 : GaussianArgs Ω d T → ¬Modulates T f ⌈T / d⌉₊ →
      ∃ m, newModulatedGaussianControl (fin Ω) (fin d) (fin T) (fin f) =
        .error (.arguments m) := by
    intro hg hm
    unfold Modulates at hm
    push Not at hm
    exact ⟨_, newModulatedGaussianControl_nan hg hm.1 hm.2⟩
  refine ⟨h1, h2, fun c hc => ?_⟩
  have key : newModulatedGaussianControl (fin Ω) (fin d) (fin T) (fin f) =
      (newModulatedGaussianControl Ω d T f).map (DrivenControl.map fin) := by
    by_cases hg : GaussianArgs Ω d T
    · by_cases hm : Modulates T f ⌈T / d⌉₊
      · exact h1 hg hm
      · obtain ⟨m, hm⟩ := h2 hg hm
        rw [hm] at hc; cases hc
    · exact newModulatedGaussianControl_fin Ω d T f fun h => absurd h hg
  rw [key] at hc
  cases h : newModulatedGaussianControl Ω d T f with
  | error e => rw [h] at hc; cases hc
  | ok c' => rw [h] at hc; cases hc; exact numbers_map_finite c'

/-- **C65** The properties of a control of ordinary numbers are the ones of exact arithmetic; in
particular none is infinite or NaN, also for segments without drive and detuning (whose direction
would be `0/0`). -/
theorem C65_accessors (c : DrivenControl ℝ) :
    (c.map fin).angles = c.angles.map fin ∧
    (c.map fin).amplitudeX = c.amplitudeX.map fin ∧
    (c.map fin).amplitudeY = c.amplitudeY.map fin ∧
    (c.map fin).directions =
      c.directions.map (List.map fun p => (fin p.1, fin p.2.1, fin p.2.2)) ∧
    (c.map fin).times = c.times.map fin ∧
    (c.map fin).duration = fin c.duration ∧
    (c.map fin).maximumRabiRate = c.maximumRabiRate.map fin ∧
    (c.map fin).maximumDetuning = c.maximumDetuning.map fin ∧
    (c.map fin).maximumDuration = c.maximumDuration.map fin ∧
    (c.map fin).minimumDuration = c.minimumDuration.map fin :=
  ⟨c.angles_fin, c.amplitudeX_fin, c.amplitudeY_fin, c.directions_fin, c.times_fin, c.duration_fin,
    c.maximumRabiRate_fin, c.maximumDetuning_fin, c.maximumDuration_fin, c.minimumDuration_fin⟩

/-- **C65** The printed numbers of a constructed control of ordinary numbers are ordinary numbers, also
without drive or detuning. -/
theorem C65_text (c : DrivenControl ℝ) (h : c.Constructed) :
    (c.map fin).textData = c.textData.map (ControlText.map fin) := by
  obtain ⟨h1, h2, -⟩ := (DrivenControl.constructed_iff c).1 h
  exact c.textData_fin h1 h2.symm

/-- Accepted calls with finite arguments. -/
example : (∃ c, (Scheme.corpseInBB1).call (fin 1) (fin 2) (fin 3) none = .ok c) ∧
    (∃ q, (Predefined.map fin (.walsh 5)).call (fin 1) true none = .ok q) := by
  constructor
  · refine (C64_composite .corpseInBB1 (fin 1) (fin 2) (fin 3) none).1.2
      ⟨2, two_pos, rfl, Or.inl ⟨1, rfl, ?_⟩⟩
    have := Real.pi_gt_three
    exact ⟨one_pos, by linarith⟩
  · obtain ⟨q, hq, -⟩ := (C43_well_formed (.walsh 5) 1 true none).1
      ⟨one_pos, by norm_num [Family.Valid]⟩
    refine ⟨q.map fin, ?_⟩
    rw [(C65_sequence (.walsh 5) 1 true none).1]
    show Except.map _ (newWalshSequence (1 : ℝ) 5 true none) = _
    rw [show newWalshSequence (1 : ℝ) 5 true none = .ok q from hq]
    rfl

/-! ### C66: which exports are finite -/

/-- **C66** Exported files and plot data of a control of ordinary numbers are those of exact
arithmetic, hence finite, if some Rabi rate is non-zero; with dimensional plot data this holds for
every control. -/
theorem C66_finite (c : DrivenControl ℝ) (h : c.Constructed) (fs : FileSystem ℝ)
    (filename fileFormat fileType coordinates : String) :
    ((∃ r ∈ c.rabiRates, r ≠ 0) →
      (c.map fin).exportToFile (fs.map fin) filename fileFormat fileType coordinates =
        ((c.exportToFile fs filename fileFormat fileType coordinates).1,
          (c.exportToFile fs filename fileFormat fileType coordinates).2.map fin) ∧
      (c.map fin).exportPlot coordinates true =
        (c.exportPlot coordinates true).map (PlotData.map fin)) ∧
    (c.map fin).exportPlot coordinates false =
      (c.exportPlot coordinates false).map (PlotData.map fin) := by
  refine ⟨?_, c.exportPlot_fin _ _ (fun h => by cases h)⟩
  rintro ⟨r, hr, hr0⟩
  have hnn := ((DrivenControl.constructed_iff c).1 h).2.2.2.2
  have hm : c.maximumRabiRate ≠ .ok 0 := by
    intro hm
    have := ((npAmax_ok_iff _ _).1 hm).2 r hr
    exact hr0 (le_antisymm this (hnn r hr))
  exact ⟨c.exportToFile_fin fs _ _ _ _ hm, c.exportPlot_fin _ _ fun _ => hm⟩

/-- **C66** Without drive (all Rabi rates zero, as in the control converted from a Ramsey sequence)
the exported amplitudes are `0/0`: every export to a file succeeds and writes NaN for every segment,
and dimensionless plot data are NaN. -/
theorem C66_without_drive (c : DrivenControl ℝ) (h : c.Constructed) (hne : c.rabiRates ≠ [])
    (h0 : ∀ r ∈ c.rabiRates, r = 0) (fs : FileSystem XR) (filename : String) :
    (∃ fs' object, (c.map fin).exportToFile fs filename "Q-CTRL expanded" "JSON" "cylindrical" =
        (.ok (), fs') ∧ fs' filename = some (.json object) ∧
      field object "rabi_rates" = some (.arr (List.replicate c.numberOfSegments nan))) ∧
    (∃ fs' object, (c.map fin).exportToFile fs filename "Q-CTRL expanded" "JSON" "cartesian" =
        (.ok (), fs') ∧ fs' filename = some (.json object) ∧
      field object "amplitude_x" = some (.arr (List.replicate c.numberOfSegments nan)) ∧
      field object "amplitude_y" = some (.arr (List.replicate c.numberOfSegments nan))) ∧
    (∀ nm, c.name = some nm → ∃ fs' header rows,
      (c.map fin).exportToFile fs filename "Q-CTRL expanded" "CSV" "cylindrical" = (.ok (), fs') ∧
      fs' filename = some (.csv header rows) ∧ rows.length = c.numberOfSegments ∧
      ∀ row ∈ rows, cell header row "rabi_rates" = some nan) ∧
    (∀ nm, c.name = some nm → ∃ fs' header rows,
      (c.map fin).exportToFile fs filename "Q-CTRL expanded" "CSV" "cartesian" = (.ok (), fs') ∧
      fs' filename = some (.csv header rows) ∧ rows.length = c.numberOfSegments ∧
      ∀ row ∈ rows, cell header row "amplitude_x" = some nan ∧
        cell header row "amplitude_y" = some nan) ∧
    (∃ p, (c.map fin).exportPlot "cylindrical" true = .ok p ∧ ∀ l, p.rabiRate = some l →
      l.length = c.numberOfSegments ∧ ∀ v ∈ l, v.value.re = nan ∧ v.value.im = nan) ∧
    (∃ p, (c.map fin).exportPlot "cartesian" true = .ok p ∧ ∀ x y, p.xAmplitude = some x →
      p.yAmplitude = some y → x.length = c.numberOfSegments ∧ y.length = c.numberOfSegments ∧
      (∀ v ∈ x, v.value = nan) ∧ ∀ v ∈ y, v.value = nan) := by
  obtain ⟨hd, hl1, hl2, hl3, -⟩ := (DrivenControl.constructed_iff c).1 h
  have hz : infOf 0 = nan := by simp [infOf]
  have hm : (c.map fin).maximumRabiRate = .ok (fin 0) := by
    rw [DrivenControl.maximumRabiRate_fin]
    obtain ⟨m, hm⟩ := npAmax_exists hne
    have := h0 m ((npAmax_ok_iff _ _).1 hm).1
    rw [this] at hm
    rw [DrivenControl.maximumRabiRate, hm]; rfl
  have hc' : (c.map fin).Constructed := by
    refine ⟨c.durations.map fin, some (c.rabiRates.map fin), some (c.azimuthalAngles.map fin),
      some (c.detunings.map fin), c.name, (C64_control_accepts _ _ _ _ _).1 ⟨?_, ?_, ?_⟩⟩
    · intro t ht
      obtain ⟨x, hx, rfl⟩ := List.mem_map.1 ht
      exact Or.inr ⟨x, hd x hx, rfl⟩
    · intro t ht
      obtain ⟨x, hx, rfl⟩ := List.mem_map.1 ht
      exact Or.inr ⟨x, (h0 x hx).ge, rfl⟩
    · simp [hl1, hl2, hl3]
  have hr : (c.map fin).rabiRates = List.replicate c.numberOfSegments (fin 0) := by
    rw [DrivenControl.map_rabiRates]
    exact List.eq_replicate_iff.2 ⟨by simp [DrivenControl.numberOfSegments], fun b hb => by
      obtain ⟨x, hx, rfl⟩ := List.mem_map.1 hb
      rw [h0 x hx]⟩
  have hrep : c.rabiRates = List.replicate c.numberOfSegments 0 :=
    List.eq_replicate_iff.2 ⟨rfl, h0⟩
  have hzip : ∀ (n : ℕ) (l : List ℝ) (g : ℝ → ℝ → ℝ), l.length = n → (∀ y, g 0 y = 0) →
      List.zipWith g (List.replicate n 0) l = List.replicate n 0 := by
    intro n l g hl hg
    apply List.ext_getElem
    · simp [hl]
    · intro i h1 h2
      simp [hg]
  have hlen : c.azimuthalAngles.length = c.numberOfSegments := by
    rw [hl2, ← hl1]; rfl
  have hx : (c.map fin).amplitudeX = List.replicate c.numberOfSegments (fin 0) := by
    rw [DrivenControl.amplitudeX_fin, DrivenControl.amplitudeX, hrep,
      hzip _ _ _ hlen (fun y => by simp)]
    simp
  have hy : (c.map fin).amplitudeY = List.replicate c.numberOfSegments (fin 0) := by
    rw [DrivenControl.amplitudeY_fin, DrivenControl.amplitudeY, hrep,
      hzip _ _ _ hlen (fun y => by simp)]
    simp
  have hdiv : (List.replicate c.numberOfSegments (fin 0)).map (· / fin 0) =
      List.replicate c.numberOfSegments nan := by
    rw [List.map_replicate, fin_div_zero, hz]
  have hnseg : (c.map fin).numberOfSegments = c.numberOfSegments := by
    simp [DrivenControl.numberOfSegments, DrivenControl.map_rabiRates]
  refine ⟨?_, ?_, ?_, ?_, ?_, ?_⟩
  · obtain ⟨fs', object, h1, h2, -, -, -, -, -, h3, -⟩ :=
      C12_json (c.map fin) fs filename "cylindrical" _ hm (Or.inr rfl)
    refine ⟨fs', object, h1, h2, ?_⟩
    rw [(h3 rfl).1, hr, hdiv]
  · obtain ⟨fs', object, h1, h2, -, -, -, -, -, -, h3⟩ :=
      C12_json (c.map fin) fs filename "cartesian" _ hm (Or.inl rfl)
    refine ⟨fs', object, h1, h2, ?_, ?_⟩
    · rw [(h3 rfl).1, hx, hdiv]
    · rw [(h3 rfl).2.1, hy, hdiv]
  · intro nm hnm
    obtain ⟨fs', header, rows, h1, h2, -, h4, h5⟩ :=
      C10_csv_cylindrical (c.map fin) hc' fs filename nm _ hnm hm
    refine ⟨fs', header, rows, h1, h2, h4.trans hnseg, ?_⟩
    intro row hrow
    obtain ⟨i, hi, rfl⟩ := List.mem_iff_getElem.1 hrow
    have hi' : i < c.numberOfSegments := by omega
    obtain ⟨row', k1, -, k3, -⟩ := h5 i (fin 0) ((c.map fin).azimuthalAngles[i]'(by
        simpa [DrivenControl.map_azimuthalAngles, hlen] using hi'))
      ((c.map fin).detunings[i]'(by
        simpa [DrivenControl.map_detunings, hl3, ← hl1, DrivenControl.numberOfSegments] using hi'))
      ((c.map fin).durations[i]'(by
        simpa [DrivenControl.map_durations, ← hl1, DrivenControl.numberOfSegments] using hi'))
      (by rw [hr]; simp [hi']) (by simp) (by simp) (by simp)
    rw [List.getElem?_eq_getElem hi] at k1
    cases k1
    rw [k3, fin_div_zero, hz]
  · intro nm hnm
    obtain ⟨fs', header, rows, h1, h2, -, h4, h5⟩ :=
      C10_csv_cartesian (c.map fin) hc' fs filename nm _ hnm hm
    refine ⟨fs', header, rows, h1, h2, h4.trans hnseg, ?_⟩
    intro row hrow
    obtain ⟨i, hi, rfl⟩ := List.mem_iff_getElem.1 hrow
    have hi' : i < c.numberOfSegments := by omega
    have ha' : i < c.azimuthalAngles.length := by omega
    obtain ⟨row', k1, -, k3, k4, -⟩ := h5 i (fin 0) (fin c.azimuthalAngles[i])
      ((c.map fin).detunings[i]'(by
        simpa [DrivenControl.map_detunings, hl3, ← hl1, DrivenControl.numberOfSegments] using hi'))
      ((c.map fin).durations[i]'(by
        simpa [DrivenControl.map_durations, ← hl1, DrivenControl.numberOfSegments] using hi'))
      (by rw [hr]; simp [hi']) (by simp [DrivenControl.map_azimuthalAngles, ha']) (by simp) (by simp)
    rw [List.getElem?_eq_getElem hi] at k1
    cases k1
    rw [k3, k4, cos_fin, sin_fin, fin_mul, fin_mul, zero_mul, zero_mul, fin_div_zero, hz]
    exact ⟨rfl, rfl⟩
  · unfold DrivenControl.exportPlot
    rw [checkArguments_bind, if_pos (by simp [coordinateSystems]), if_pos rfl, hm, except_ok_bind]
    refine ⟨_, rfl, ?_⟩
    intro l hl
    simp only [beq_self_eq_true, if_true, Option.some.injEq] at hl
    subst hl
    rw [hr, hdiv]
    constructor
    · simp [DrivenControl.map_azimuthalAngles, DrivenControl.map_durations, hlen, ← hl1]
      exact le_of_eq rfl
    · intro v hv
      obtain ⟨i, hi, rfl⟩ := List.mem_iff_getElem.1 hv
      simp only [List.getElem_zipWith, List.getElem_replicate, cis, nan_mul, and_self]
  · unfold DrivenControl.exportPlot
    rw [checkArguments_bind, if_pos (by simp [coordinateSystems]), if_pos rfl, hm, except_ok_bind]
    refine ⟨_, rfl, ?_⟩
    intro x y h1 h2
    simp only [beq_self_eq_true, if_true, Option.some.injEq] at h1 h2
    subst h1 h2
    rw [hx, hy, hdiv]
    refine ⟨?_, ?_, ?_, ?_⟩
    · simp [DrivenControl.map_durations, ← hl1]
      exact le_of_eq rfl
    · simp [DrivenControl.map_durations, ← hl1]
      exact le_of_eq rfl
    · intro v hv
      obtain ⟨i, hi, rfl⟩ := List.mem_iff_getElem.1 hv
      simp only [List.getElem_zipWith, List.getElem_replicate]
    · intro v hv
      obtain ⟨i, hi, rfl⟩ := List.mem_iff_getElem.1 hv
      simp only [List.getElem_zipWith, List.getElem_replicate]

/-- A constructed control without drive: the one converted from a Ramsey sequence. -/
example : ∃ c : DrivenControl ℝ, convertDDS ⟨1, [], [], [], [], none⟩ 1 1 0 (some "ramsey") = .ok c ∧
    c.Constructed ∧ c.rabiRates ≠ [] ∧ ∀ r ∈ c.rabiRates, r = 0 := by
  refine ⟨⟨[0], [0], [0], [1], some "ramsey"⟩, ?_, ?_, by simp, by simp⟩
  · unfold convertDDS
    simp [checkArguments, operationsOf, padOperations, idleAt, Py.npDiff, pulseStartEnd,
      halfPulseDuration, shiftFirst, shiftLast, gapDurations, buildSegments, pulseSegment,
      RealInst.isClose_iff]
    rw [DrivenControl.new_eq]
    simp [checkValidOperation]
    norm_num
  · rw [DrivenControl.constructed_iff]; simp

/-! ### C67: infinite hardware rates -/

/-- **C67** Infinite rates are accepted by `convert_dds_to_driven_control`, and the pulses get lost:
with infinite maximum Rabi and detuning rates and no minimum segment duration, every control that the
conversion returns is idle, whatever the pulses of the sequence are. -/
theorem C67_infinite_rates (s : Sequence ℝ) (name : Option String) (c : DrivenControl XR)
    (hc : convertDDS (s.map fin) inf inf (fin 0) name = .ok c) :
    (∀ r ∈ c.rabiRates, r = fin 0) ∧ ∀ d ∈ c.detunings, d = fin 0 :=
  convert_infinite_rates s name c hc

/-- A spin echo is converted to a control without any pulse. -/
example : convertDDS (Sequence.map fin ⟨1, [1 / 2], [Real.pi], [0], [0], none⟩) inf inf (fin 0) none =
    .ok ⟨[fin 0, fin 0], [fin 0, fin 0], [fin 0, fin 0], [fin (1 / 2), fin (1 / 2)], none⟩ := by
  have hpi := Real.pi_pos
  have hops : padOperations (fin 1) [⟨fin (1 / 2), fin Real.pi, fin 0, fin 0⟩] =
      [finOp ⟨0, 0, 0, 0⟩, finOp ⟨1 / 2, Real.pi, 0, 0⟩, finOp ⟨1, 0, 0, 0⟩] := by
    simp [padOperations, idleAt, finOp]
  have e : Py.isClose (fin (1 / 2)) (fin 0) = false := by
    rw [isClose_fin, Bool.eq_false_iff, Ne, RealInst.isClose_iff]; norm_num
  have hv : checkValidOperation [fin Real.pi] [fin 0] = true := by
    simp [checkValidOperation]
  have a1 : lt (fin 0) (fin 0) = false := by simp
  have a2 : Py.gt (fin 1) (fin 1) = false := by simp
  have hs : shiftLast (fin 1) [(fin 0, fin 0), (fin (1 / 2), fin (1 / 2)), (fin 1, fin 1)] =
      [(fin 0, fin 0), (fin (1 / 2), fin (1 / 2)), (fin 1, fin 1)] := by
    unfold shiftLast
    unfold shiftLast
    unfold shiftLast
    simp only [a2, Bool.false_eq_true, if_false]
  have hd : ((Py.npDiff [fin 0, fin (1 / 2), fin 1]).any fun d => le d (fin 0)) = false := by
    simp [Py.npDiff]; norm_num
  have hg : ((gapDurations [(fin 0, fin 0), (fin (1 / 2), fin (1 / 2)), (fin 1, fin 1)]).all
      fun g => Py.gt g (fin 0) || Py.isClose g (fin 0)) = true := by
    simp [gapDurations]; norm_num
  have hb : (buildSegments ([finOp ⟨0, 0, 0, 0⟩, finOp ⟨1 / 2, Real.pi, 0, 0⟩,
      finOp ⟨1, 0, 0, 0⟩].zip
        [(fin 0, fin 0), (fin (1 / 2), fin (1 / 2)), (fin 1, fin 1)])).filter
          (fun g => Py.gt g.duration (fin 0)) =
      [⟨fin 0, fin 0, fin 0, fin (1 / 2)⟩, ⟨fin 0, fin 0, fin 0, fin (1 / 2)⟩] := by
    simp [buildSegments, pulseSegment]; norm_num
  unfold convertDDS
  simp only [Sequence.map, List.map_cons, List.map_nil, operationsOf, hops, checkArguments_bind, hv]
  simp only [instant_startEnd, shiftFirst, XR.lit_eq, Rat.cast_zero]
  simp only [a1, Bool.false_eq_true, if_false, hs, hg, hb, List.all_cons, e, Bool.and_false,
    Bool.false_and]
  rw [if_pos (by simp), if_pos (by simp), if_pos (by simp), if_pos (by simp [hpi.le]), if_pos trivial,
    if_neg (by simp only [finOp]; rw [hd]; decide)]
  simp only [Bool.not_true, Bool.false_eq_true, if_false, except_pure_bind]
  rw [DrivenControl.new_eq]
  simp

end OpenControls
