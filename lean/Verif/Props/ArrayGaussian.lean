import Verif.Proofs.ArrayGaussian
import Verif.Props.Gaussian
import Verif.Props.Shapes

/-!
# C137: the modulated Gaussian control called with arrays

`newModulatedGaussianArrays R m T f` is the call of `new_modulated_gaussian_control` with numpy arrays of any shape as maximum Rabi rate, minimum
segment duration, duration and modulation frequency; `newModulatedGaussianControl` is the call with numbers.  An array without axes
(`shape = []`) is a number.  `flatControl c` is the control `c` with its arrays, `columnControl c` the same with its durations as an `n × 1` array.
-/

namespace OpenControls

open Spec PyFloat Py NdArray

section

variable {α : Type} [Add α] [Sub α] [Mul α] [Div α] [Neg α] [PyFloat α]

/-- **C137** In any arithmetic: arrays with one item and at most one axis give the values of the call with numbers, exceptions included; if the
duration has an axis, so have the segment durations.  The minimum segment duration, and a frequency that is zero, may have any number of axes. -/
theorem C137_numbers (R m T f : NdArray α) (R₀ m₀ T₀ f₀ : α) (hR : R.data = [R₀]) (hm : m.data = [m₀]) (hT : T.data = [T₀])
    (hf : f.data = [f₀]) (rR : Regular R) (rm : Regular m) (rT : Regular T) (rf : Regular f) (aR : R.shape.length ≤ 1)
    (aT : T.shape.length ≤ 1) (af : f.shape.length ≤ 1 ∨ ne f₀ (lit 0) = false) :
    newModulatedGaussianArrays R m T f = (newModulatedGaussianControl R₀ m₀ T₀ f₀).map fun c =>
      if T.shape = [] then flatControl c else columnControl c := by
  have sT := single_form hT rT
  rw [single_form hR rR, single_form hm rm, single_form hf rf]
  conv_lhs => rw [sT]
  have key := gaussian_ones R.shape.length m.shape.length T.shape.length f.shape.length R₀ m₀ T₀ f₀
  have hK : gaussianAxes R.shape.length T.shape.length f.shape.length f₀ = 0 := by
    unfold gaussianAxes
    split
    · rename_i h
      have : f.shape.length ≤ 1 := af.resolve_right (by simp [h])
      omega
    · omega
  rw [hK] at key
  refine key.trans ?_
  rw [gaussian_numbers]
  simp only [checkArguments]
  cases gt R₀ (lit 0)
  · rfl
  cases gt m₀ (lit 0)
  · rfl
  cases gt T₀ m₀
  · rfl
  cases ge R₀ (sqrt (lit 2 * PyFloat.pi) / (lit (1 / 10) * T₀))
  · rfl
  cases pyCeil (T₀ / m₀) with
  | error e => rfl
  | ok n =>
    change (gaussianSegments R₀ T₀ f₀ n >>= _) = Except.map _ (gaussianSegments R₀ T₀ f₀ n >>= _)
    cases hl : gaussianSegments R₀ T₀ f₀ n with
    | error e => rfl
    | ok l =>
      have hlen := gaussianSegments_length hl
      change (signArrays (lineOf 0 n l) >>= _) = Except.map _ (DrivenControl.new _ _ _ _ _)
      rw [sign_line n l hlen]
      change NdControl.new _ (some (lineOf 0 n (l.map PyFloat.abs))) (some (vec (l.map _))) _ _ = _
      have hv : lineOf 0 n (l.map PyFloat.abs) = vec (l.map PyFloat.abs) := by
        rw [vec_line, List.length_map, hlen]
      rw [hv, column_new (by simp) (by simp) (by simp [hlen]) (by simp [hlen]) (by simp)]
      congr 1
      funext c
      have hT' : T.shape = [] ∨ T.shape = [1] := by
        have h1 : T.shape = List.replicate T.shape.length 1 := congrArg NdArray.shape sT
        have h2 : T.shape.length = 0 ∨ T.shape.length = 1 := by omega
        rcases h2 with h2 | h2 <;> rw [h2] at h1
        · exact .inl h1
        · exact .inr h1
      rcases hT' with h | h <;> simp [h, flatControl, columnControl, vec]

/-- **C137** In any arithmetic: with a maximum rate, a duration or a non-zero frequency of two or more axes, a call that would give at least two
segments with the numbers raises a `ValueError` (not the `ArgumentsValueError` of the library). -/
theorem C137_axes (R m T f : NdArray α) (R₀ m₀ T₀ f₀ : α) (hR : R.data = [R₀]) (hm : m.data = [m₀]) (hT : T.data = [T₀])
    (hf : f.data = [f₀]) (rR : Regular R) (rm : Regular m) (rT : Regular T) (rf : Regular f)
    (ha : 2 ≤ R.shape.length ∨ 2 ≤ T.shape.length ∨ (2 ≤ f.shape.length ∧ ne f₀ (lit 0) = true)) (c : DrivenControl α)
    (hc : newModulatedGaussianControl R₀ m₀ T₀ f₀ = .ok c) (h2 : 2 ≤ c.durations.length) :
    newModulatedGaussianArrays R m T f =
      .error (.valueError "The truth value of an array with more than one element is ambiguous.") := by
  rw [single_form hR rR, single_form hm rm, single_form hf rf, single_form hT rT]
  obtain ⟨h1, h3, h4, h5, n, l, hn, hl, hd, -⟩ := gaussian_accepted hc
  rw [hd, List.length_replicate] at h2
  have hK : 0 < gaussianAxes R.shape.length T.shape.length f.shape.length f₀ := by
    unfold gaussianAxes
    split
    · omega
    · rename_i h
      rcases ha with ha | ha | ha
      · omega
      · omega
      · exact absurd ha.2 h
  have key := gaussian_ones R.shape.length m.shape.length T.shape.length f.shape.length R₀ m₀ T₀ f₀
  refine key.trans ?_
  simp only [checkArguments, h1, h3, h4, h5, hn]
  change (gaussianSegments R₀ T₀ f₀ n >>= _) = _
  rw [hl]
  change (signArrays _ >>= _) = _
  rw [sign_matrix _ n l hK h2]
  rfl

/-- **C137** In any arithmetic: no argument may have several items, which raises a `ValueError`; an empty array as rate, minimum segment duration or
duration raises the `ArgumentsValueError` of a number that is too small; an empty array as frequency is a zero frequency. -/
theorem C137_items (R m T f : NdArray α) (rR : Regular R) (rm : Regular m) (rT : Regular T) :
    (2 ≤ R.data.length → newModulatedGaussianArrays R m T f =
      .error (.valueError "The truth value of an array with more than one element is ambiguous.")) ∧
    (R.data = [] → newModulatedGaussianArrays R m T f = .error (.arguments "Maximum Rabi rate must be greater than zero.")) ∧
    ∀ R₀, R.data = [R₀] → gt R₀ (lit 0) = true →
    (2 ≤ m.data.length → newModulatedGaussianArrays R m T f =
      .error (.valueError "The truth value of an array with more than one element is ambiguous.")) ∧
    (m.data = [] → newModulatedGaussianArrays R m T f = .error (.arguments "Minimum segment duration must be greater than zero.")) ∧
    ∀ m₀, m.data = [m₀] → gt m₀ (lit 0) = true →
    (2 ≤ T.data.length → newModulatedGaussianArrays R m T f =
      .error (.valueError "The truth value of an array with more than one element is ambiguous.")) ∧
    (T.data = [] → newModulatedGaussianArrays R m T f =
      .error (.arguments "Total duration must be greater than minimum segment duration.")) ∧
    ∀ T₀, T.data = [T₀] →
    (2 ≤ f.data.length → (∃ g c, newModulatedGaussianControl R₀ m₀ T₀ g = .ok c) → newModulatedGaussianArrays R m T f =
      .error (.valueError "The truth value of an array with more than one element is ambiguous.")) ∧
    (f.data = [] → ∀ g : α, ne g (lit 0) = false →
      newModulatedGaussianArrays R m T f = newModulatedGaussianArrays R m T ⟨[], [g]⟩) := by
  refine ⟨fun h => ?_, fun h => ?_, fun R₀ hR pR => ⟨fun h => ?_, fun h => ?_, fun m₀ hm pm => ⟨fun h => ?_, fun h => ?_,
    fun T₀ hT => ⟨fun h hg => ?_, fun h g hg => ?_⟩⟩⟩⟩
  · unfold newModulatedGaussianArrays
    rw [truth_several _ h]; rfl
  · unfold newModulatedGaussianArrays
    rw [truth_none _ h]; rfl
  · unfold newModulatedGaussianArrays
    rw [truth_single _ hR, truth_several _ h]
    simp only [pR]; rfl
  · unfold newModulatedGaussianArrays
    rw [truth_single _ hR, truth_none _ h]
    simp only [pR]; rfl
  · have ht : truthBoth gt T m = .error (.valueError "The truth value of an array with more than one element is ambiguous.") := by
      rw [single_form hm rm]
      exact (truthBoth_one gt rT _ m₀).trans (truth_several _ h)
    unfold newModulatedGaussianArrays
    rw [truth_single _ hR, truth_single _ hm, ht]
    simp only [pR, pm]; rfl
  · have ht : truthBoth gt T m = .ok false := by
      rw [single_form hm rm]
      exact (truthBoth_one gt rT _ m₀).trans (truth_none _ h)
    unfold newModulatedGaussianArrays
    rw [truth_single _ hR, truth_single _ hm, ht]
    simp only [pR, pm]; rfl
  · obtain ⟨g, c, hc⟩ := hg
    obtain ⟨h1, h3, h4, h5, n, l, hn, -⟩ := gaussian_accepted hc
    rw [single_form hR rR, single_form hm rm, single_form hT rT]
    refine (gaussian_frequency _ _ _ R₀ m₀ T₀ f).trans ?_
    simp only [checkArguments, h1, h3, h4, h5, hn]
    rw [truth_several _ h]
    rfl
  · rw [single_form hR rR, single_form hm rm, single_form hT rT]
    refine (gaussian_frequency _ _ _ R₀ m₀ T₀ f).trans (Eq.trans ?_ (gaussian_frequency _ _ _ R₀ m₀ T₀ ⟨[], [g]⟩).symm)
    rw [truth_none _ h, truth_single (a := ⟨[], [g]⟩) _ rfl, hg]
    rfl

end

/-- **C137** In the reals: a control is returned exactly if rate, minimum segment duration and duration have one item, the frequency at most
one, rate, duration and a non-zero frequency have at most one axis, and the call with the numbers is accepted (no item as frequency: zero). -/
theorem C137_accepts (R m T f : NdArray ℝ) (rR : Regular R) (rm : Regular m) (rT : Regular T) (rf : Regular f) :
    (∃ c, newModulatedGaussianArrays R m T f = .ok c) ↔
      ∃ R₀ m₀ T₀ f₀ : ℝ, R.data = [R₀] ∧ m.data = [m₀] ∧ T.data = [T₀] ∧ (f.data = [f₀] ∨ f.data = [] ∧ f₀ = 0) ∧
        R.shape.length ≤ 1 ∧ T.shape.length ≤ 1 ∧ (f.shape.length ≤ 1 ∨ f₀ = 0) ∧
        ∃ c, newModulatedGaussianControl R₀ m₀ T₀ f₀ = .ok c := by
  have hne : ∀ x : ℝ, ne x (lit 0) = false ↔ x = 0 := fun x => by simp
  have none_one : ∀ x : ℝ, Regular (⟨[], [x]⟩ : NdArray ℝ) := fun x => rfl
  obtain ⟨i1, i2, i3⟩ := C137_items R m T f rR rm rT
  constructor
  · rintro ⟨c, hc⟩
    match hR : R.data with
    | [] => rw [i2 hR] at hc; cases hc
    | _ :: _ :: _ => rw [i1 (by simp [hR])] at hc; cases hc
    | [R₀] =>
    by_cases pR : gt R₀ (lit 0 : ℝ) = true
    swap
    · unfold newModulatedGaussianArrays at hc
      rw [truth_single _ hR] at hc
      simp only [pR] at hc
      cases hc
    obtain ⟨j1, j2, j3⟩ := i3 R₀ hR pR
    match hm : m.data with
    | [] => rw [j2 hm] at hc; cases hc
    | _ :: _ :: _ => rw [j1 (by simp [hm])] at hc; cases hc
    | [m₀] =>
    by_cases pm : gt m₀ (lit 0 : ℝ) = true
    swap
    · unfold newModulatedGaussianArrays at hc
      rw [truth_single _ hR, truth_single _ hm] at hc
      simp only [pR, pm] at hc
      cases hc
    obtain ⟨k1, k2, k3⟩ := j3 m₀ hm pm
    match hT : T.data with
    | [] => rw [k2 hT] at hc; cases hc
    | _ :: _ :: _ => rw [k1 (by simp [hT])] at hc; cases hc
    | [T₀] =>
    obtain ⟨-, l2⟩ := k3 T₀ hT
    have main : ∀ (f' : NdArray ℝ) (f₀ : ℝ), f'.data = [f₀] → Regular f' → newModulatedGaussianArrays R m T f' = .ok c →
        R.shape.length ≤ 1 ∧ T.shape.length ≤ 1 ∧ (f'.shape.length ≤ 1 ∨ f₀ = 0) ∧
          ∃ c, newModulatedGaussianControl R₀ m₀ T₀ f₀ = .ok c := by
      intro f' f₀ hf rf' hc
      by_cases hK : R.shape.length ≤ 1 ∧ T.shape.length ≤ 1 ∧ (f'.shape.length ≤ 1 ∨ f₀ = 0)
      · refine ⟨hK.1, hK.2.1, hK.2.2, ?_⟩
        rw [C137_numbers R m T f' R₀ m₀ T₀ f₀ hR hm hT hf rR rm rT rf' hK.1 hK.2.1 (hK.2.2.imp_right fun h => (hne _).mpr h)] at hc
        cases hs : newModulatedGaussianControl R₀ m₀ T₀ f₀ with
        | error e => rw [hs] at hc; cases hc
        | ok d => exact ⟨d, rfl⟩
      · exfalso
        rw [single_form hR rR, single_form hm rm, single_form hT rT, single_form hf rf'] at hc
        obtain ⟨h1, h2, n, hn, hn2⟩ := gaussian_several_axes hc (by
          unfold gaussianAxes
          split
          · omega
          · rename_i h
            have : f₀ = 0 := by simpa using h
            have h' : ¬(R.shape.length ≤ 1 ∧ T.shape.length ≤ 1) := fun h => hK ⟨h.1, h.2, .inr this⟩
            omega)
        have e1 : (0 : ℝ) < m₀ := by simpa using h1
        have e2 : m₀ < T₀ := by simpa using h2
        rw [RealInst.pyCeil_eq, Except.ok.injEq] at hn
        have h3 : 1 < T₀ / m₀ := by rwa [lt_div_iff₀ e1, one_mul]
        have h4 : 1 < ⌈T₀ / m₀⌉₊ := Nat.lt_ceil.mpr (by exact_mod_cast h3)
        omega
    match hf : f.data with
    | [] =>
      obtain ⟨a, b, -, d⟩ := main ⟨[], [0]⟩ 0 rfl rfl (by rw [← l2 hf 0 ((hne 0).mpr rfl)]; exact hc)
      exact ⟨R₀, m₀, T₀, 0, rfl, rfl, rfl, .inr ⟨rfl, rfl⟩, a, b, .inr rfl, d⟩
    | _ :: _ :: _ =>
      rw [single_form hR rR, single_form hm rm, single_form hT rT] at hc
      exact absurd hc (gaussian_several _ _ _ _ _ _ (by simp [hf]) c)
    | [f₀] =>
      obtain ⟨a, b, e, d⟩ := main f f₀ hf rf hc
      exact ⟨R₀, m₀, T₀, f₀, rfl, rfl, rfl, .inl rfl, a, b, e, d⟩
  · rintro ⟨R₀, m₀, T₀, f₀, hR, hm, hT, hf, aR, aT, af, c, hc⟩
    rcases hf with hf | ⟨hf, rfl⟩
    · rw [C137_numbers R m T f R₀ m₀ T₀ f₀ hR hm hT hf rR rm rT rf aR aT (af.imp_right fun h => (hne _).mpr h), hc]
      exact ⟨_, rfl⟩
    · obtain ⟨h1, h3, -⟩ := gaussian_accepted hc
      rw [(((i3 R₀ hR h1).2.2 m₀ hm h3).2.2 T₀ hT).2 hf 0 ((hne 0).mpr rfl)]
      rw [C137_numbers R m T ⟨[], [0]⟩ R₀ m₀ T₀ 0 hR hm hT rfl rR rm rT (none_one 0) aR aT (.inl (by simp)), hc]
      exact ⟨_, rfl⟩

/-- **C137** In the reals, with a duration in a 1-D array: the control is accepted, its rates, azimuthal angles and total duration are right, but
`angles` is an `n × n` array. -/
theorem C137_column (R₀ m₀ T₀ f₀ : ℝ) (c : DrivenControl ℝ) (hc : newModulatedGaussianControl R₀ m₀ T₀ f₀ = .ok c) :
    newModulatedGaussianArrays ⟨[], [R₀]⟩ ⟨[], [m₀]⟩ ⟨[1], [T₀]⟩ ⟨[], [f₀]⟩ = .ok (columnControl c) ∧
    (columnControl c).duration = c.duration ∧ 2 ≤ c.durations.length ∧
    ∃ b, (columnControl c).angles = .ok b ∧ b.shape = [c.durations.length, c.durations.length] := by
  obtain ⟨n, hn, hd, -⟩ := C29_segmentation_partial R₀ m₀ T₀ f₀ c hc
  have h2 : 2 ≤ c.durations.length := by rw [hd, List.length_replicate]; exact hn
  obtain ⟨-, -, -, -, _, _, -, -, -, hcon⟩ := gaussian_accepted hc
  obtain ⟨-, h3, b, h4, h5, -⟩ := C79_column_angles c hcon h2
  refine ⟨?_, h3, h2, b, h4, h5⟩
  rw [C137_numbers ⟨[], [R₀]⟩ ⟨[], [m₀]⟩ ⟨[1], [T₀]⟩ ⟨[], [f₀]⟩ R₀ m₀ T₀ f₀ rfl rfl rfl rfl rfl rfl rfl rfl (by simp) (by simp)
    (.inl (by simp)), hc]
  rfl

/-- A Gaussian control of two segments with numbers, with a duration of shape `1`, of shape `1 × 1`, and with two durations. -/
example : ∃ c, newModulatedGaussianControl (9 : ℝ) 2 3 0 = .ok c ∧ c.durations.length = 2 ∧
    newModulatedGaussianArrays ⟨[], [(9 : ℝ)]⟩ ⟨[], [2]⟩ ⟨[1], [3]⟩ ⟨[], [0]⟩ = .ok (columnControl c) ∧
    newModulatedGaussianArrays ⟨[], [(9 : ℝ)]⟩ ⟨[], [2]⟩ ⟨[1, 1], [3]⟩ ⟨[], [0]⟩ =
      .error (.valueError "The truth value of an array with more than one element is ambiguous.") ∧
    newModulatedGaussianArrays ⟨[], [(9 : ℝ)]⟩ ⟨[], [2]⟩ ⟨[2], [3, 4]⟩ ⟨[], [0]⟩ =
      .error (.valueError "The truth value of an array with more than one element is ambiguous.") ∧
    newModulatedGaussianArrays ⟨[], [(9 : ℝ)]⟩ ⟨[1, 1], [2]⟩ ⟨[], [3]⟩ ⟨[0], []⟩ = .ok (flatControl c) := by
  obtain ⟨c, hc, hd, -⟩ := C29_too_short
  have h2 : c.durations.length = 2 := by rw [hd]; rfl
  have p9 : gt (9 : ℝ) (lit 0) = true := by simp
  have p2 : gt (2 : ℝ) (lit 0) = true := by simp
  refine ⟨c, hc, h2, (C137_column 9 2 3 0 c hc).1, ?_, ?_, ?_⟩
  · exact C137_axes ⟨[], [(9 : ℝ)]⟩ ⟨[], [2]⟩ ⟨[1, 1], [3]⟩ ⟨[], [0]⟩ 9 2 3 0 rfl rfl rfl rfl rfl rfl rfl rfl
      (.inr (.inl (by simp))) c hc (by omega)
  · exact (((C137_items ⟨[], [(9 : ℝ)]⟩ ⟨[], [2]⟩ ⟨[2], [3, 4]⟩ ⟨[], [0]⟩ rfl rfl rfl).2.2 9 rfl p9).2.2 2 rfl p2).1 (by simp)
  · rw [((((C137_items ⟨[], [(9 : ℝ)]⟩ ⟨[1, 1], [2]⟩ ⟨[], [3]⟩ ⟨[0], []⟩ rfl rfl rfl).2.2 9 rfl p9).2.2 2 rfl p2).2.2 3 rfl).2 rfl 0
      (by simp), C137_numbers ⟨[], [(9 : ℝ)]⟩ ⟨[1, 1], [2]⟩ ⟨[], [3]⟩ ⟨[], [0]⟩ 9 2 3 0 rfl rfl rfl rfl rfl rfl rfl rfl (by simp)
      (by simp) (.inl (by simp)), hc]
    rfl

end OpenControls
