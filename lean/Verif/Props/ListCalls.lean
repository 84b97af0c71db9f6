import Verif.Proofs.ListCalls
import Verif.Props.ArrayCalls

/-!
# C146: composite pulses called with lists

`s.callFlat θ Ω φ name` calls the constructor of the scheme `s` with numbers, or lists or tuples of numbers, as Rabi rotation,
maximum Rabi rate and azimuthal angle; `s.call` is the call with numbers.
-/

namespace OpenControls

open Spec PyFloat Py NdArray

section
variable {α : Type} [Add α] [Sub α] [Mul α] [Div α] [Neg α] [PyFloat α]

/-- **C146** Exactly which calls return a control. The rate has to be a number. A list as rotation is accepted by WAMF1 only, and
one as azimuthal angle by the schemes that do not add π to it; such a list has one item, and the control has the numbers of
the call with this item, with one axis more of the azimuthal angles (except CORPSE in SCROFULOUS). -/
theorem C146_control (s : Scheme) (θ Ω φ : FlatArg α) (name : Option String) (c : NdControl α) :
    s.callFlat θ Ω φ name = .ok c ↔ ∃ θ₀ Ω₀ φ₀ d, (θ = .number θ₀ ∨ s = .wamf1 ∧ θ = .list [θ₀]) ∧ Ω = .number Ω₀ ∧
      (φ = .number φ₀ ∨ ¬ s.AddsPi ∧ φ = .list [φ₀]) ∧ s.call θ₀ Ω₀ φ₀ name = .ok d ∧
      c = shapedControl [] (if s = .corpseInScrofulous then [] else argumentShape φ) d := by
  have hnum : ∀ (θ₀ Ω₀ : α), s.callFlat (.number θ₀) (.number Ω₀) φ name = .ok c ↔ ∃ φ₀ d,
      (φ = .number φ₀ ∨ ¬ s.AddsPi ∧ φ = .list [φ₀]) ∧ s.call θ₀ Ω₀ φ₀ name = .ok d ∧
      c = shapedControl [] (if s = .corpseInScrofulous then [] else argumentShape φ) d := by
    intro θ₀ Ω₀
    have hshape : φ.toArray.shape = argumentShape φ := by cases φ <;> rfl
    by_cases hpi : s.AddsPi → ∃ x, φ = .number x
    · have hreg : Regular φ.toArray := by cases φ <;> simp [Regular, FlatArg.toArray]
      rw [flat_arrays s θ₀ Ω₀ φ hpi, C120_control s ⟨[], [θ₀]⟩ ⟨[], [Ω₀]⟩ φ.toArray (.inl rfl) rfl hreg]
      constructor
      · rintro ⟨θ₁, Ω₁, φ₁, d, h1, h2, h3, h4, h5⟩
        simp only [NdArray.mk.injEq, List.cons.injEq, and_true, true_and] at h1 h2
        subst h1 h2
        refine ⟨φ₁, d, ?_, h4, by rw [← hshape]; exact h5⟩
        cases φ with
        | number x =>
          simp only [FlatArg.toArray, List.cons.injEq, and_true] at h3
          exact .inl (by rw [h3])
        | list l =>
          simp only [FlatArg.toArray] at h3
          refine .inr ⟨fun hs => ?_, by rw [h3]⟩
          obtain ⟨x, hx⟩ := hpi hs
          cases hx
      · rintro ⟨φ₁, d, h1, h2, h3⟩
        refine ⟨θ₀, Ω₀, φ₁, d, rfl, rfl, ?_, h2, by rw [hshape]; exact h3⟩
        rcases h1 with rfl | ⟨-, rfl⟩ <;> rfl
    · rw [Classical.not_imp] at hpi
      obtain ⟨hs, hn⟩ := hpi
      cases φ with
      | number x => exact absurd ⟨x, rfl⟩ hn
      | list l =>
        refine ⟨fun h => absurd h (flat_pi hs _ _ l name c), ?_⟩
        rintro ⟨φ₁, d, h | ⟨h, -⟩, -⟩
        · cases h
        · exact absurd hs h
  cases Ω with
  | list l =>
    rw [flat_rate]
    refine ⟨fun h => (by cases h), ?_⟩
    rintro ⟨θ₀, Ω₀, φ₀, d, -, h, -⟩
    cases h
  | number Ω₀ =>
    cases θ with
    | number θ₀ =>
      rw [hnum]
      constructor
      · rintro ⟨φ₀, d, h⟩
        exact ⟨θ₀, Ω₀, φ₀, d, .inl rfl, rfl, h⟩
      · rintro ⟨θ₁, Ω₁, φ₀, d, h1 | ⟨-, h1⟩, h2, h⟩ <;> cases h1
        cases h2
        exact ⟨φ₀, d, h⟩
    | list l =>
      by_cases hs : s = .wamf1
      swap
      · refine ⟨fun h => absurd h (flat_rotation hs l _ _ name c), ?_⟩
        rintro ⟨θ₁, Ω₁, φ₀, d, h1 | ⟨h1, -⟩, -⟩
        · cases h1
        · exact absurd h1 hs
      subst hs
      by_cases hl : l.length = 1
      swap
      · refine ⟨fun h => absurd h (flat_wamf1_lists hl _ _ name c), ?_⟩
        rintro ⟨θ₁, Ω₁, φ₀, d, h1 | ⟨-, h1⟩, -⟩ <;> cases h1
        exact absurd rfl hl
      obtain ⟨θ₀, rfl⟩ := List.length_eq_one_iff.mp hl
      cases hθ : ne θ₀ (lit 0)
      · refine ⟨fun h => absurd h (flat_wamf1_zero hθ _ _ name c), ?_⟩
        rintro ⟨θ₁, Ω₁, φ₀, d, h1 | ⟨-, h1⟩, h2, h⟩ <;> cases h1
        cases h2
        have := (hnum θ₀ Ω₀).mpr ⟨φ₀, d, h⟩
        have hz : Scheme.wamf1.callFlat (.number θ₀) (.number Ω₀) φ name ≠ .ok c := by
          intro h
          simp only [Scheme.callFlat, newWamf1Flat, validateFlat, FlatArg.real, FlatArg.nonzero, hθ] at h
          cases hp : gt Ω₀ (lit 0) <;> simp only [hp, checkArguments, bind, Except.bind] at h <;> cases h
        exact absurd this hz
      · rw [flat_wamf1 θ₀ _ _ hθ, hnum]
        constructor
        · rintro ⟨φ₀, d, h⟩
          exact ⟨θ₀, Ω₀, φ₀, d, .inr ⟨rfl, rfl⟩, rfl, h⟩
        · rintro ⟨θ₁, Ω₁, φ₀, d, h1 | ⟨-, h1⟩, h2, h⟩ <;> cases h1
          cases h2
          exact ⟨φ₀, d, h⟩

/-- **C146** Which exception is raised: `TypeError` for a list as rate, whatever else is given; with a positive number as rate
`TypeError` for a list as rotation of a scheme for all rotations, also for an empty list, which is not taken for zero. -/
theorem C146_rate_and_rotation (s : Scheme) (φ : FlatArg α) (l : List α) (name : Option String) :
    (∀ θ, ∃ m, s.callFlat θ (.list l) φ name = .error (.typeError m)) ∧
    (¬ s.Tabulated → ∀ Ω₀, gt Ω₀ (lit 0) = true → ∃ m, s.callFlat (.list l) (.number Ω₀) φ name = .error (.typeError m)) := by
  refine ⟨fun θ => ⟨_, flat_rate s θ φ l name⟩, fun hs Ω₀ hΩ => ⟨"unsupported operand type(s)", ?_⟩⟩
  have hv : validateFlat (.list l) (.number Ω₀) = .ok Ω₀ := by
    simp only [validateFlat, FlatArg.real, FlatArg.nonzero, hΩ, checkArguments, bind, Except.bind]
    rfl
  cases s
  case scrofulous => exact absurd (.inl rfl) hs
  case corpseInScrofulous => exact absurd (.inr (.inl rfl)) hs
  case wamf1 => exact absurd (.inr (.inr rfl)) hs
  all_goals
    simp only [Scheme.callFlat, newPrimitiveFlat, newBB1Flat, newSK1Flat, newCorpseFlat, newCorpseInBB1Flat,
      newCorpseInSK1Flat, hv, except_ok_bind]
    rfl

/-- **C146** A list as rotation of the schemes for π, π/2 and π/4: with one item that is one of them it is a `TypeError`
(WAMF1 takes the item instead); with another item, or with three items of which none is the number at its place, it is an
`ArgumentsValueError`; otherwise a `ValueError`. -/
theorem C146_tabulated (s : Scheme) (hs : s.Tabulated) (φ : FlatArg α) (Ω₀ : α) (hΩ : gt Ω₀ (lit 0) = true) (name : Option String) :
    (∀ x, isSupportedRotation x = true → s ≠ .wamf1 →
      ∃ m, s.callFlat (.list [x]) (.number Ω₀) φ name = .error (.typeError m)) ∧
    (∀ x, ne x (lit 0) = true → Scheme.wamf1.callFlat (.list [x]) (.number Ω₀) φ name =
      Scheme.wamf1.callFlat (.number x) (.number Ω₀) φ name) ∧
    (∀ x, isSupportedRotation x = false → s.callFlat (.list [x]) (.number Ω₀) φ name =
      .error (.arguments "rabi_rotation angle must be either pi, pi/2 or pi/4")) ∧
    (∀ x y z, isClose x PyFloat.pi = false → isClose y (PyFloat.pi / lit 2) = false → isClose z (PyFloat.pi / lit 4) = false →
      s.callFlat (.list [x, y, z]) (.number Ω₀) φ name =
        .error (.arguments "rabi_rotation angle must be either pi, pi/2 or pi/4")) ∧
    (∀ x y z, (isClose x PyFloat.pi = true ∨ isClose y (PyFloat.pi / lit 2) = true ∨ isClose z (PyFloat.pi / lit 4) = true) →
      ∃ m, s.callFlat (.list [x, y, z]) (.number Ω₀) φ name = .error (.valueError m)) ∧
    (∀ l : List α, l.length ≠ 1 → l.length ≠ 3 → ∃ m, s.callFlat (.list l) (.number Ω₀) φ name = .error (.valueError m)) := by
  have hv : ∀ l : List α, validateFlat (.list l) (.number Ω₀) = .ok Ω₀ := fun l => by
    simp only [validateFlat, FlatArg.real, FlatArg.nonzero, hΩ, checkArguments, bind, Except.bind]
    rfl
  have herr : ∀ (l : List α) (e : PyErr), (FlatArg.list l).tabulated = .error e →
      s.callFlat (.list l) (.number Ω₀) φ name = .error e := by
    intro l e h
    rcases hs with rfl | rfl | rfl <;>
      simp only [Scheme.callFlat, newScrofulousFlat, newCorpseInScrofulousFlat, newWamf1Flat, hv, except_ok_bind, h] <;> rfl
  refine ⟨fun x hx hw => ⟨"unsupported operand type(s)", ?_⟩, fun x hx => flat_wamf1 x _ _ hx name, fun x hx => ?_,
    fun x y z hx hy hz => ?_, fun x y z h => ⟨"The truth value of an array with more than one element is ambiguous.", ?_⟩,
    fun l h1 h3 => ⟨"operands could not be broadcast together", ?_⟩⟩
  · have ht : (FlatArg.list [x]).tabulated = .ok x := by
      simp only [FlatArg.tabulated, hx, checkArguments]
      rfl
    rcases hs with rfl | rfl | rfl
    · simp only [Scheme.callFlat, newScrofulousFlat, hv, except_ok_bind, ht]
      rfl
    · simp only [Scheme.callFlat, newCorpseInScrofulousFlat, hv, except_ok_bind, ht]
      rfl
    · exact absurd rfl hw
  · refine herr _ _ ?_
    simp only [FlatArg.tabulated, hx, checkArguments]
    rfl
  · refine herr _ _ ?_
    simp only [FlatArg.tabulated, hx, hy, hz, checkArguments]
    rfl
  · refine herr _ _ ?_
    have : (isClose x PyFloat.pi || isClose y (PyFloat.pi / lit 2) || isClose z (PyFloat.pi / lit 4)) = true := by
      rcases h with h | h | h <;> simp [h]
    simp only [FlatArg.tabulated, this, checkArguments]
    rfl
  · refine herr _ _ ?_
    match l, h1, h3 with
    | [], _, _ => rfl
    | [_], h1, _ => exact absurd rfl h1
    | [_, _], _, _ => rfl
    | [_, _, _], _, h3 => exact absurd rfl h3
    | _ :: _ :: _ :: _ :: _, _, _ => rfl

/-- **C146** A list as azimuthal angle where a control is made with a number: `TypeError` by the schemes that add π to it; else a
list with other than one item is found to be of a wrong length, by `np.array` for CORPSE in SCROFULOUS. -/
theorem C146_azimuth (s : Scheme) (θ₀ Ω₀ φ₀ : α) (l : List α) (name : Option String) (d : DrivenControl α)
    (hd : s.call θ₀ Ω₀ φ₀ name = .ok d) :
    (s.AddsPi → ∃ m, s.callFlat (.number θ₀) (.number Ω₀) (.list l) name = .error (.typeError m)) ∧
    (¬ s.AddsPi → l.length ≠ 1 →
      (s ≠ .corpseInScrofulous → s.callFlat (.number θ₀) (.number Ω₀) (.list l) name = .error (.arguments
        "If set, rabi rates, azimuthal angles, detunings and durations must be of same length")) ∧
      (s = .corpseInScrofulous → ∃ m, s.callFlat (.number θ₀) (.number Ω₀) (.list l) name = .error (.valueError m))) := by
  constructor
  · intro hs
    have hnum := (C146_control s (.number θ₀) (.number Ω₀) (.number φ₀) name _).mpr
      ⟨θ₀, Ω₀, φ₀, d, .inl rfl, rfl, .inl rfl, hd, rfl⟩
    refine ⟨"can only concatenate list (not \"float\") to list", ?_⟩
    rcases hs with rfl | rfl | rfl <;>
    · simp only [Scheme.callFlat, newCorpseFlat, newCorpseInBB1Flat, newCorpseInSK1Flat] at hnum ⊢
      cases h1 : validateFlat (.number θ₀) (.number Ω₀) with
      | error e => rw [h1] at hnum; cases hnum
      | ok r =>
        rw [h1, except_ok_bind] at hnum
        rw [except_ok_bind]
        first
          | rfl
          | (cases h3 : transformedRabiRotationWimperis θ₀ with
            | error e => simp only [FlatArg.real, except_ok_bind, h3] at hnum; cases hnum
            | ok y => simp only [FlatArg.real, except_ok_bind, h3]; rfl)
  · intro hs hl
    rw [flat_arrays s θ₀ Ω₀ (.list l) fun h => absurd h hs]
    exact (C120_exceptions s ⟨[], [θ₀]⟩ ⟨[], [Ω₀]⟩ ⟨[l.length], l⟩ rfl (by simp [Regular]) name).2.2.2 θ₀ Ω₀ φ₀ d rfl rfl hl hd

end

/-- In the reals: WAMF1 with the rotation `[π]`, BB1 with the azimuthal angle `[1]`; CORPSE with this angle and a primitive pulse
with the rotation `[]` fail. -/
example : (∃ c, Scheme.wamf1.callFlat (.list [(Real.pi : ℝ)]) (.number 2) (.number 1) none = .ok c) ∧
    (∃ c, Scheme.bb1.callFlat (.number (Real.pi : ℝ)) (.number 2) (.list [1]) none = .ok c) ∧
    (∃ m, Scheme.corpse.callFlat (.number (Real.pi : ℝ)) (.number 2) (.list [1]) none = .error (.typeError m)) ∧
    ∃ m, Scheme.primitive.callFlat (.list ([] : List ℝ)) (.number 2) (.number 1) none = .error (.typeError m) := by
  obtain ⟨d1, h1⟩ := build_pi_ok .wamf1
  obtain ⟨d2, h2⟩ := build_pi_ok .bb1
  obtain ⟨d3, h3⟩ := build_pi_ok .corpse
  exact ⟨⟨_, (C146_control .wamf1 _ _ _ none _).mpr ⟨_, _, _, d1, .inr ⟨rfl, rfl⟩, rfl, .inl rfl, h1, rfl⟩⟩,
    ⟨_, (C146_control .bb1 _ _ _ none _).mpr ⟨_, _, _, d2, .inl rfl, rfl, .inr ⟨by simp [Scheme.AddsPi], rfl⟩, h2, rfl⟩⟩,
    (C146_azimuth .corpse _ _ _ [1] none d3 h3).1 (.inl rfl),
    (C146_rate_and_rotation .primitive _ [] none).2 (by simp [Scheme.Tabulated]) 2 (by simp)⟩

end OpenControls
