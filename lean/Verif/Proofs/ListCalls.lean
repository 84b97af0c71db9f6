import Verif.Spec.ListCalls
import Verif.Proofs.ArrayCalls

/-!
# Composite pulses called with lists: auxiliary results
-/

namespace OpenControls

open Spec PyFloat Py NdArray

variable {α : Type} [Add α] [Sub α] [Mul α] [Div α] [Neg α] [PyFloat α]

/-- once a list is no obstacle, the call is that with arrays -/
theorem flat_arrays (s : Scheme) (θ Ω : α) (φ : FlatArg α) (hs : s.AddsPi → ∃ x, φ = .number x) (name : Option String) :
    s.callFlat (.number θ) (.number Ω) φ name = s.callArrays ⟨[], [θ]⟩ ⟨[], [Ω]⟩ φ.toArray name := by
  have hpi : s.AddsPi → φ.plusPi = .ok () := fun h => by
    obtain ⟨x, rfl⟩ := hs h
    rfl
  cases h1 : gt Ω (lit 0)
  · cases s <;>
    · simp only [Scheme.callFlat, Scheme.callArrays, newPrimitiveFlat, newBB1Flat, newSK1Flat, newScrofulousFlat,
        newCorpseFlat, newCorpseInBB1Flat, newCorpseInSK1Flat, newCorpseInScrofulousFlat, newWamf1Flat, newPrimitiveArrays,
        newBB1Arrays, newSK1Arrays, newScrofulousArrays, newCorpseArrays, newCorpseInBB1Arrays, newCorpseInSK1Arrays,
        newCorpseInScrofulousArrays, newWamf1Arrays, validateFlat, validateArrays, NdArray.truth, FlatArg.real, h1,
        checkArguments, bind, Except.bind]
      rfl
  cases h2 : ne θ (lit 0)
  · cases s <;>
    · simp only [Scheme.callFlat, Scheme.callArrays, newPrimitiveFlat, newBB1Flat, newSK1Flat, newScrofulousFlat,
        newCorpseFlat, newCorpseInBB1Flat, newCorpseInSK1Flat, newCorpseInScrofulousFlat, newWamf1Flat, newPrimitiveArrays,
        newBB1Arrays, newSK1Arrays, newScrofulousArrays, newCorpseArrays, newCorpseInBB1Arrays, newCorpseInSK1Arrays,
        newCorpseInScrofulousArrays, newWamf1Arrays, validateFlat, validateArrays, NdArray.truth, FlatArg.real,
        FlatArg.nonzero, h1, h2, checkArguments, bind, Except.bind]
      rfl
  have hv : validateFlat (.number θ) (.number Ω) = .ok Ω := by
    simp only [validateFlat, FlatArg.real, FlatArg.nonzero, h1, h2, checkArguments, bind, Except.bind]
    rfl
  have hv' : validateArrays (⟨[], [θ]⟩ : NdArray α) ⟨[], [Ω]⟩ = .ok θ := by
    simp only [validateArrays, NdArray.truth, h1, h2, checkArguments, bind, Except.bind]
    rfl
  cases s
  case corpse =>
    simp only [Scheme.callFlat, newCorpseFlat, hv, FlatArg.real, hpi (.inl rfl), bind, Except.bind]
    rfl
  case corpseInBB1 =>
    simp only [Scheme.callFlat, newCorpseInBB1Flat, hv, FlatArg.real, hpi (.inr (.inl rfl)), bind, Except.bind]
    cases h : transformedRabiRotationWimperis θ
    · simp only [Scheme.callArrays, newCorpseInBB1Arrays, hv', h, bind, Except.bind]
    · rfl
  case corpseInSK1 =>
    simp only [Scheme.callFlat, newCorpseInSK1Flat, hv, FlatArg.real, hpi (.inr (.inr rfl)), bind, Except.bind]
    cases h : transformedRabiRotationWimperis θ
    · simp only [Scheme.callArrays, newCorpseInSK1Arrays, hv', h, bind, Except.bind]
    · rfl
  all_goals
    simp only [Scheme.callFlat, newPrimitiveFlat, newBB1Flat, newSK1Flat, newScrofulousFlat, newCorpseInScrofulousFlat,
      newWamf1Flat, hv, FlatArg.real, FlatArg.tabulated, bind, Except.bind]
    rfl

/-- a list as rate -/
theorem flat_rate (s : Scheme) (θ φ : FlatArg α) (l : List α) (name : Option String) :
    s.callFlat θ (.list l) φ name = .error (.typeError "unsupported operand type(s)") := by
  cases s <;> rfl

/-- a list as azimuthal angle where π is added -/
theorem flat_pi {s : Scheme} (hs : s.AddsPi) (θ : FlatArg α) (Ω : FlatArg α) (l : List α) (name : Option String)
    (c : NdControl α) : s.callFlat θ Ω (.list l) name ≠ .ok c := by
  intro h
  rcases hs with rfl | rfl | rfl <;>
  · simp only [Scheme.callFlat, newCorpseFlat, newCorpseInBB1Flat, newCorpseInSK1Flat] at h
    cases h1 : validateFlat θ Ω with
    | error e => rw [h1] at h; cases h
    | ok r =>
      rw [h1, except_ok_bind] at h
      cases h2 : θ.real with
      | error e => rw [h2] at h; cases h
      | ok x =>
        rw [h2, except_ok_bind] at h
        first
          | (cases h; done)
          | (cases h3 : transformedRabiRotationWimperis x with
            | error e => rw [h3] at h; cases h
            | ok y => rw [h3, except_ok_bind] at h; cases h)

/-- a list as rotation, except of WAMF1 -/
theorem flat_rotation {s : Scheme} (hs : s ≠ .wamf1) (l : List α) (Ω φ : FlatArg α) (name : Option String)
    (c : NdControl α) : s.callFlat (.list l) Ω φ name ≠ .ok c := by
  intro h
  cases s
  case wamf1 => exact hs rfl
  all_goals
    simp only [Scheme.callFlat, newPrimitiveFlat, newBB1Flat, newSK1Flat, newScrofulousFlat,
      newCorpseFlat, newCorpseInBB1Flat, newCorpseInSK1Flat, newCorpseInScrofulousFlat] at h
    cases h1 : validateFlat (.list l) Ω with
    | error e => rw [h1] at h; cases h
    | ok r =>
      rw [h1, except_ok_bind] at h
      first
        | (cases h; done)
        | (cases h2 : (FlatArg.list l).tabulated with
          | error e => rw [h2] at h; cases h
          | ok y => rw [h2, except_ok_bind] at h; cases h)

/-- a list with one item as rotation of WAMF1 -/
theorem flat_wamf1 (θ : α) (Ω φ : FlatArg α) (hθ : ne θ (lit 0) = true) (name : Option String) :
    Scheme.wamf1.callFlat (.list [θ]) Ω φ name = Scheme.wamf1.callFlat (.number θ) Ω φ name := by
  cases Ω with
  | list l => rw [flat_rate, flat_rate]
  | number Ω =>
    simp only [Scheme.callFlat, newWamf1Flat]
    have e : validateFlat (.list [θ]) (.number Ω) = validateFlat (.number θ) (.number Ω) := by
      simp only [validateFlat, FlatArg.nonzero, hθ]
    rw [e]
    cases h1 : validateFlat (.number θ) (.number Ω) with
    | error e => rfl
    | ok r =>
      rw [except_ok_bind, except_ok_bind]
      have hr : r = Ω ∧ gt Ω (lit 0) = true := by
        cases h2 : gt Ω (lit 0) <;>
          simp only [validateFlat, FlatArg.real, FlatArg.nonzero, h2, hθ, checkArguments, bind, Except.bind] at h1
        · cases h1
        · exact ⟨by cases h1; rfl, rfl⟩
      obtain ⟨rfl, hp⟩ := hr
      cases h3 : isSupportedRotation θ
      · have hv' : validateArrays (⟨[], [θ]⟩ : NdArray α) ⟨[], [r]⟩ = .ok θ := by
          simp only [validateArrays, NdArray.truth, hp, hθ, checkArguments, bind, Except.bind]
          rfl
        simp only [FlatArg.tabulated, newWamf1Arrays, hv', h3, checkArguments, bind, Except.bind]
        rfl
      · simp only [FlatArg.tabulated, h3, checkArguments]
        rfl

theorem flat_wamf1_zero {θ : α} (hθ : ne θ (lit 0) = false) (Ω φ : FlatArg α) (name : Option String) (c : NdControl α) :
    Scheme.wamf1.callFlat (.list [θ]) Ω φ name ≠ .ok c := by
  intro h
  simp only [Scheme.callFlat, newWamf1Flat] at h
  cases h1 : validateFlat (.list [θ]) Ω with
  | error e => rw [h1] at h; cases h
  | ok r =>
    rw [h1, except_ok_bind] at h
    cases h3 : isSupportedRotation θ
    · simp only [FlatArg.tabulated, h3, checkArguments] at h
      cases h
    · have ht : (FlatArg.list [θ]).tabulated = .ok θ := by
        simp only [FlatArg.tabulated, h3, checkArguments]
        rfl
      have hv' : ∃ e, validateArrays (⟨[], [θ]⟩ : NdArray α) ⟨[], [r]⟩ = .error e := by
        cases h4 : gt r (lit 0) <;>
          simp only [validateArrays, NdArray.truth, h4, hθ, checkArguments, bind, Except.bind] <;> exact ⟨_, rfl⟩
      obtain ⟨e, he⟩ := hv'
      rw [ht, except_ok_bind] at h
      simp only [newWamf1Arrays, he, bind, Except.bind] at h
      cases h

/-- other lists as rotation of WAMF1 -/
theorem flat_wamf1_lists {l : List α} (hl : l.length ≠ 1) (Ω φ : FlatArg α) (name : Option String) (c : NdControl α) :
    Scheme.wamf1.callFlat (.list l) Ω φ name ≠ .ok c := by
  intro h
  simp only [Scheme.callFlat, newWamf1Flat] at h
  cases h1 : validateFlat (.list l) Ω with
  | error e => rw [h1] at h; cases h
  | ok r =>
    rw [h1, except_ok_bind] at h
    match l, hl, h with
    | [], _, h => cases h
    | [x], hl, _ => exact hl rfl
    | [_, _], _, h => cases h
    | [x, y, z], _, h =>
      simp only [FlatArg.tabulated, checkArguments] at h
      split at h <;> cases h
    | _ :: _ :: _ :: _ :: _, _, h => cases h

end OpenControls
