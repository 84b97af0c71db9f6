import Verif.Proofs.ArrayCalls
import Verif.Props.ShapesAccess
import Verif.Props.Limited

/-!
# C120: composite pulses called with arrays

`s.callArrays θ Ω φ name` calls the constructor of the scheme `s` with numpy arrays of any shape as Rabi rotation, maximum
Rabi rate and azimuthal angle; `s.call` is the call with numbers.  An array without axes (`shape = []`) is a number.
-/

namespace OpenControls

open Spec PyFloat Py NdArray

section

variable {α : Type} [Add α] [Sub α] [Mul α] [Div α] [Neg α] [PyFloat α]

/-- **C120** With arrays that have one item the result is that of the call with numbers, exceptions included; the axes of the
rate are added to the Rabi rates and durations, those of the azimuthal angle to the azimuthal angles (CORPSE in SCROFULOUS
drops the latter). -/
theorem C120_numbers (s : Scheme) (θ₀ Ω₀ φ₀ : α) (Ω φ : NdArray α) (hΩ : Ω.data = [Ω₀]) (hφ : φ.data = [φ₀])
    (rΩ : Regular Ω) (rφ : Regular φ) (name : Option String) :
    s.callArrays ⟨[], [θ₀]⟩ Ω φ name = (s.call θ₀ Ω₀ φ₀ name).map
      (shapedControl Ω.shape (if s = .corpseInScrofulous then [] else φ.shape)) :=
  callArrays_single s rfl hΩ hφ rΩ rφ name

/-- **C120** No call is vectorised: a control is returned only if rotation, rate and azimuthal angle have one item each, and
then it has the numbers of the call with these. -/
theorem C120_control (s : Scheme) (θ Ω φ : NdArray α) (hθ : θ.shape = [] ∨ θ.data.length ≠ 1) (rΩ : Regular Ω)
    (rφ : Regular φ) (name : Option String) (c : NdControl α) :
    s.callArrays θ Ω φ name = .ok c ↔ ∃ θ₀ Ω₀ φ₀ d, θ = ⟨[], [θ₀]⟩ ∧ Ω.data = [Ω₀] ∧ φ.data = [φ₀] ∧
      s.call θ₀ Ω₀ φ₀ name = .ok d ∧
      c = shapedControl Ω.shape (if s = .corpseInScrofulous then [] else φ.shape) d := by
  constructor
  · intro h
    have lΩ : Ω.data.length = 1 := by
      by_contra hn
      rw [callArrays_rate hn, ← apply_ite] at h
      cases h
    obtain ⟨Ω₀, hΩ⟩ := List.length_eq_one_iff.mp lΩ
    have pΩ : gt Ω₀ (lit 0) = true := by
      by_contra hn
      rw [callArrays_zero_rate hΩ (by simpa using hn)] at h
      cases h
    have lθ : θ.data.length = 1 := by
      by_contra hn
      rw [callArrays_rotation hΩ pΩ hn, ← apply_ite] at h
      cases h
    obtain ⟨θ₀, hθ'⟩ := List.length_eq_one_iff.mp lθ
    have lφ : φ.data.length = 1 := by
      by_contra hn
      by_cases hs : s = .corpseInScrofulous
      · subst hs
        obtain ⟨e, he⟩ := (callArrays_scrofulous_azimuths hθ' hΩ hn θ₀ name).2
        rw [he] at h; cases h
      · rw [show φ.data.length = φ.shape.prod from rφ] at hn
        obtain ⟨e, he⟩ := (callArrays_azimuths hs hθ' hΩ rΩ hn θ₀ name).2
        rw [he] at h; cases h
    obtain ⟨φ₀, hφ⟩ := List.length_eq_one_iff.mp lφ
    rw [callArrays_single s hθ' hΩ hφ rΩ rφ] at h
    cases hd : s.call θ₀ Ω₀ φ₀ name with
    | error e => rw [hd] at h; cases h
    | ok d =>
      rw [hd] at h
      refine ⟨θ₀, Ω₀, φ₀, d, ?_, hΩ, hφ, hd, (Except.ok.inj h).symm⟩
      have : θ.shape = [] := hθ.resolve_right (by omega)
      cases θ
      simp_all
  · rintro ⟨θ₀, Ω₀, φ₀, d, rfl, hΩ, hφ, hd, rfl⟩
    rw [C120_numbers s θ₀ Ω₀ φ₀ Ω φ hΩ hφ rΩ rφ, hd]
    rfl

/-- **C120** Which exception is raised: arrays with several items as rate or rotation have no truth value, empty ones are
false.  Several azimuthal angles, or none, are found to be of a wrong length, by `np.asarray` for CORPSE in SCROFULOUS. -/
theorem C120_exceptions (s : Scheme) (θ Ω φ : NdArray α) (rΩ : Regular Ω) (rφ : Regular φ) (name : Option String) :
    (2 ≤ Ω.data.length → ∃ m, s.callArrays θ Ω φ name = .error (.valueError m)) ∧
    (Ω.data = [] → s.callArrays θ Ω φ name =
      .error (.arguments "Maximum rabi angular frequency should be greater than zero.")) ∧
    (∀ Ω₀, Ω.data = [Ω₀] → gt Ω₀ (lit 0) = true →
      (2 ≤ θ.data.length → ∃ m, s.callArrays θ Ω φ name = .error (.valueError m)) ∧
      (θ.data = [] → s.callArrays θ Ω φ name = .error (.arguments "The rabi rotation must be non-zero."))) ∧
    (∀ θ₀ Ω₀ φ₀ d, θ = ⟨[], [θ₀]⟩ → Ω.data = [Ω₀] → φ.data.length ≠ 1 → s.call θ₀ Ω₀ φ₀ name = .ok d →
      (s ≠ .corpseInScrofulous → s.callArrays θ Ω φ name = .error (.arguments
        "If set, rabi rates, azimuthal angles, detunings and durations must be of same length")) ∧
      (s = .corpseInScrofulous → ∃ m, s.callArrays θ Ω φ name = .error (.valueError m))) := by
  refine ⟨fun h => ?_, fun h => ?_, fun Ω₀ hΩ hp => ⟨fun h => ?_, fun h => ?_⟩, ?_⟩
  · rw [callArrays_rate (by omega), if_neg (by rintro e; rw [e] at h; cases h)]
    exact ⟨_, rfl⟩
  · rw [callArrays_rate (by simp [h]), if_pos h]
  · rw [callArrays_rotation hΩ hp (by omega), if_neg (by rintro e; rw [e] at h; cases h)]
    exact ⟨_, rfl⟩
  · rw [callArrays_rotation hΩ hp (by simp [h]), if_pos h]
  · rintro θ₀ Ω₀ φ₀ d rfl hΩ hφ hd
    refine ⟨fun hs => ?_, ?_⟩
    · exact (callArrays_azimuths hs rfl hΩ rΩ (by rwa [← show φ.data.length = φ.shape.prod from rφ]) φ₀ name).1 d hd
    · rintro rfl
      exact ⟨_, (callArrays_scrofulous_azimuths rfl hΩ hφ φ₀ name).1 d hd⟩

/-- **C120** A finding: an azimuthal angle given as an array with one axis and one item is accepted, and the amplitudes of the
control are then silently `n × n` arrays, of every Rabi rate with every azimuthal angle. -/
theorem C120_amplitudes (s : Scheme) (hs : s ≠ .corpseInScrofulous) (θ₀ Ω₀ φ₀ : α) (name : Option String)
    (d : DrivenControl α) (hd : s.call θ₀ Ω₀ φ₀ name = .ok d) (n : ℕ) (hn : d.numberOfSegments = n) :
    ∃ c, s.callArrays ⟨[], [θ₀]⟩ ⟨[], [Ω₀]⟩ ⟨[1], [φ₀]⟩ name = .ok c ∧
      c.amplitudeX = .ok ⟨[n, n], d.azimuthalAngles.flatMap fun a => d.rabiRates.map fun r => r * cos a⟩ ∧
      c.amplitudeY = .ok ⟨[n, n], d.azimuthalAngles.flatMap fun a => d.rabiRates.map fun r => r * sin a⟩ := by
  refine ⟨shapedControl [] [1] d, ?_, ?_⟩
  · rw [C120_numbers s θ₀ Ω₀ φ₀ ⟨[], [Ω₀]⟩ ⟨[1], [φ₀]⟩ rfl rfl rfl rfl, hd, if_neg hs]
    rfl
  · obtain ⟨h1, h2, h3, h4⟩ := (call_constructed s θ₀ Ω₀ φ₀ name d hd).lengths
    rw [hn] at h1 h2
    have hb : IsBroadcast [(shapedControl [] [1] d).rabiRates.shape, (shapedControl [] [1] d).azimuthalAngles.shape] [n, n] := by
      refine isBroadcast_of_pair ?_
      simp only [shapedControl, h1, h2, List.reverse_cons, List.reverse_nil, List.nil_append, List.cons_append, broadcast]
      split_ifs with h
      · rw [h]; rfl
      · rfl
    obtain ⟨hx, hy⟩ := (C104_amplitudes (shapedControl [] [1] d) (by simp [Regular, shapedControl])
      (by simp [Regular, shapedControl])).1 _ hb
    have e1 : stretchTo (shapedControl [] [1] d).rabiRates [n, n] = d.azimuthalAngles.flatMap fun _ => d.rabiRates := by
      rw [flatMap_const, h2, ← h1]
      exact stretchTo_vec d.rabiRates _
    have e2 : stretchTo (shapedControl [] [1] d).azimuthalAngles [n, n] =
        d.azimuthalAngles.flatMap fun a => List.replicate n a := by
      have e : stretchTo (shapedControl [] [1] d).azimuthalAngles [d.azimuthalAngles.length, n] = _ :=
        stretchTo_column d.azimuthalAngles n
      rwa [h2] at e
    have key : ∀ (f : α → α → α) (as : List α), List.zipWith f (as.flatMap fun _ => d.rabiRates)
        (as.flatMap fun a => List.replicate n a) = as.flatMap fun a => d.rabiRates.map fun r => f r a := by
      intro f as
      induction as with
      | nil => rfl
      | cons a as ih =>
        rw [List.flatMap_cons, List.flatMap_cons, List.flatMap_cons, List.zipWith_append (by simp [h1]), ih]
        congr 1
        rw [← h1]
        generalize d.rabiRates = l
        induction l with
        | nil => rfl
        | cons x l ih => simp [List.replicate_succ, ih]
    refine ⟨hx.trans ?_, hy.trans ?_⟩
    · simp only [DrivenControl.amplitudeX, stretched, e1, e2]
      rw [← key fun r a => r * cos a]
    · simp only [DrivenControl.amplitudeY, stretched, e1, e2]
      rw [← key fun r a => r * sin a]

end

/-- A BB1 pulse in the reals, accepted with numbers, with a rate of shape `1 × 1`, and with an azimuthal angle of shape `1`. -/
example : ∃ d, Scheme.bb1.call (Real.pi : ℝ) 2 1 none = .ok d ∧ d.numberOfSegments = 4 ∧
    Scheme.bb1.callArrays ⟨[], [Real.pi]⟩ ⟨[1, 1], [2]⟩ ⟨[1], [1]⟩ none = .ok (shapedControl [1, 1] [1] d) := by
  have hd : Scheme.bb1.call (Real.pi : ℝ) 2 1 none = .ok (ofTable 2 (bb1Table Real.pi 1) none) :=
    (newBB1Control_spec Real.pi 2 1 none).1 ⟨by norm_num, Real.pi_pos, by linarith [Real.pi_pos]⟩
  refine ⟨_, hd, rfl, ?_⟩
  · rw [C120_numbers .bb1 Real.pi 2 1 ⟨[1, 1], [2]⟩ ⟨[1], [1]⟩ rfl rfl rfl rfl, hd]
    rfl

/-- Two rates, an empty rotation, two azimuthal angles. -/
example : (∃ m, Scheme.sk1.callArrays (⟨[], [1]⟩ : NdArray ℝ) ⟨[2], [2, 3]⟩ ⟨[], [0]⟩ none = .error (.valueError m)) ∧
    Scheme.sk1.callArrays (⟨[0], []⟩ : NdArray ℝ) ⟨[], [2]⟩ ⟨[], [0]⟩ none =
      .error (.arguments "The rabi rotation must be non-zero.") ∧
    Scheme.primitive.callArrays (⟨[], [Real.pi]⟩ : NdArray ℝ) ⟨[], [2]⟩ ⟨[2], [0, 1]⟩ none = .error (.arguments
      "If set, rabi rates, azimuthal angles, detunings and durations must be of same length") := by
  refine ⟨(C120_exceptions .sk1 (⟨[], [1]⟩ : NdArray ℝ) ⟨[2], [2, 3]⟩ ⟨[], [0]⟩ rfl rfl none).1 (by simp), ?_, ?_⟩
  · exact ((C120_exceptions .sk1 (⟨[0], []⟩ : NdArray ℝ) ⟨[], [2]⟩ ⟨[], [0]⟩ rfl rfl none).2.2.1 2 rfl (by
      simp)).2 rfl
  · obtain ⟨d, hd⟩ := build_pi_ok .primitive
    exact ((C120_exceptions .primitive (⟨[], [Real.pi]⟩ : NdArray ℝ) ⟨[], [2]⟩ ⟨[2], [0, 1]⟩ rfl rfl none).2.2.2 Real.pi 2 1 d
      rfl rfl (by simp) hd).1 (by decide)

end OpenControls
