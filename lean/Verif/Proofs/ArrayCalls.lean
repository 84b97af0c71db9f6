import Verif.Spec.ArrayCalls
import Verif.Proofs.Limited
import Verif.Proofs.Shapes
import Verif.Props.Construction

/-!
# Composite pulses called with arrays: auxiliary results
-/

namespace OpenControls

open Spec PyFloat Py NdArray

variable {α : Type} [Add α] [Sub α] [Mul α] [Div α] [Neg α] [PyFloat α]

theorem pyAll_line (p : α → Bool) {n : ℕ} {s : List ℕ} (hs : s.prod = 1) (l : List α) (hl : l.length = n) :
    NdArray.pyAll p ⟨n :: s, l⟩ = .ok (l.all p) := by
  unfold pyAll
  subst hl
  simp only [hs]
  cases l <;> simp

/-- the constructor on arrays with one number per segment -/
theorem line_new {n : ℕ} {s sa : List ℕ} (hs : s.prod = 1) {t r a d : List α} (ht : t.length = n) (hr : r.length = n)
    (ha : sa.prod = n → a.length = n) (hd : d.length = n) (name : Option String) :
    NdControl.new ⟨n :: s, t⟩ (some ⟨n :: s, r⟩) (some ⟨sa, a⟩) (some (vec d)) name =
      if sa.prod = n then (DrivenControl.new t (some r) (some a) (some d) name).map fun c =>
        ⟨⟨n :: s, c.rabiRates⟩, ⟨sa, c.azimuthalAngles⟩, vec c.detunings, ⟨n :: s, c.durations⟩, c.name⟩
      else if (t.all fun x => gt x (lit 0)) = true then .error (.arguments
        "If set, rabi rates, azimuthal angles, detunings and durations must be of same length")
      else .error (.arguments "Duration of driven control segments must all be greater than zero.") := by
  rw [nd_new_eq, pyAll_line _ hs t ht]
  by_cases h1 : (t.all fun x => gt x (lit 0)) = true
  swap
  · rw [DrivenControl.new_eq, if_neg h1, if_neg h1]
    rw [Bool.not_eq_true] at h1
    simp only [h1]
    split <;> rfl
  simp only [h1]
  have e1 : NdArray.size (⟨n :: s, r⟩ : NdArray α) = n := by simp [NdArray.size, hs]
  have e2 : NdArray.size (⟨n :: s, t⟩ : NdArray α) = n := by simp [NdArray.size, hs]
  have e3 : NdArray.size (vec d) = n := by simp [NdArray.size, vec, hd]
  have e4 : NdArray.size (⟨sa, a⟩ : NdArray α) = sa.prod := rfl
  by_cases h2 : sa.prod = n
  · rw [if_pos h2, if_pos (by
      rw [beq_iff_eq, pySet_length_one (n := n)]
      · simp [e1, e2, e3, e4, h2]
      · simp [e2])]
    simp only [NdArray.len, Option.getD_some, pyAll_line _ hs r hr]
    rw [DrivenControl.new_eq, if_pos h1, if_pos (by simp [hr, ht, ha h2, hd])]
    simp only [Option.getD_some]
    by_cases h3 : (r.all fun x => ge x (lit 0)) = true
    · rw [if_pos h3, h3]; rfl
    · rw [if_neg h3]
      rw [Bool.not_eq_true] at h3
      rw [h3]; rfl
  · rw [if_neg h2, if_neg (by
      rw [beq_iff_eq, pySet_length_one (n := n)]
      · simp [e1, e2, e3, e4, h2]
      · simp [e2])]
    rfl

theorem validate_single {θ Ω : NdArray α} {θ₀ Ω₀ : α} (hθ : θ.data = [θ₀]) (hΩ : Ω.data = [Ω₀]) :
    validateArrays θ Ω = (validateRabiParameters θ₀ Ω₀).map fun _ => θ₀ := by
  unfold validateArrays validateRabiParameters NdArray.truth
  rw [hθ, hΩ]
  generalize h1 : gt Ω₀ (lit 0) = a
  generalize h2 : ne θ₀ (lit 0) = b
  dsimp only
  rw [h1, h2]
  cases a <;> cases b <;> rfl

theorem flatten_singletons {β : Type} (l : List β) (f : β → α) : (l.map fun x => [f x]).flatten = l.map f := by
  induction l with
  | nil => rfl
  | cons x l ih => simp [ih]

theorem stack_single {β : Type} (s : List ℕ) (l : List β) (f : β → α) :
    stack s (l.map fun x => [f x]) = ⟨l.length :: s, l.map f⟩ := by
  unfold stack
  rw [flatten_singletons, List.length_map]

theorem azimuth_single {φ : NdArray α} {φ₀ : α} (hφ : φ.data = [φ₀]) (l : List (α → α)) :
    azimuthArrays φ l = ⟨l.length :: φ.shape, l.map fun f => f φ₀⟩ := by
  unfold azimuthArrays
  rw [hφ]
  exact stack_single _ l fun f => f φ₀

theorem constant_single {Ω : NdArray α} {Ω₀ : α} (hΩ : Ω.data = [Ω₀]) (hreg : Regular Ω) (rots : List α)
    {sa : List ℕ} {a : List α} (ha : sa.prod = rots.length → a.length = rots.length) (name : Option String) :
    constantRateArrays rots Ω ⟨sa, a⟩ name =
      if sa.prod = rots.length then (DrivenControl.new (rots.map fun r => r / Ω₀)
          (some (List.replicate rots.length Ω₀)) (some a) (some (List.replicate rots.length (lit 0))) name).map fun c =>
        ⟨⟨rots.length :: Ω.shape, c.rabiRates⟩, ⟨sa, c.azimuthalAngles⟩, vec c.detunings,
          ⟨rots.length :: Ω.shape, c.durations⟩, c.name⟩
      else if ((rots.map fun r => r / Ω₀).all fun x => gt x (lit 0)) = true then .error (.arguments
        "If set, rabi rates, azimuthal angles, detunings and durations must be of same length")
      else .error (.arguments "Duration of driven control segments must all be greater than zero.") := by
  have hs : Ω.shape.prod = 1 := by
    unfold Regular at hreg
    rw [← hreg, hΩ]; rfl
  unfold constantRateArrays
  rw [hΩ]
  have e1 : (stack Ω.shape (rots.map fun r => [Ω₀].map fun x => r / x)) = ⟨rots.length :: Ω.shape, rots.map fun r => r / Ω₀⟩ :=
    stack_single _ rots fun r => r / Ω₀
  have e2 : (stack Ω.shape (List.replicate rots.length [Ω₀])) = ⟨rots.length :: Ω.shape, List.replicate rots.length Ω₀⟩ := by
    have := stack_single Ω.shape rots fun _ => Ω₀
    rwa [List.map_const', List.map_const'] at this
  rw [e1, e2]
  exact line_new hs (by simp) (by simp) ha (by simp) name

/-- the call of a scheme with constant Rabi rate, with a single azimuthal angle -/
theorem callArrays_table {s : Scheme} (hs : s ≠ .wamf1) {θ Ω φ : NdArray α} {φ₀ : α}
    (hφ : φ.data = [φ₀]) (name : Option String) :
    s.callArrays θ Ω φ name = (validateArrays θ Ω >>= fun θ₀ => schemeTable θ₀ φ₀ s >>= fun t =>
      constantRateArrays (t.map Prod.fst) Ω
        ⟨t.length :: if s = .corpseInScrofulous then [] else φ.shape, t.map Prod.snd⟩ name) := by
  cases s
  case wamf1 => exact absurd rfl hs
  case primitive => simp only [Scheme.callArrays, newPrimitiveArrays, azimuth_single hφ]; rfl
  case corpse => simp only [Scheme.callArrays, newCorpseArrays, azimuth_single hφ]; rfl
  case scrofulous =>
    simp only [Scheme.callArrays, newScrofulousArrays, azimuth_single hφ, schemeTable]
    congr 1
    funext θ₀
    simp only [checkArguments_bind]
    split <;> rfl
  case corpseInScrofulous =>
    simp only [Scheme.callArrays, newCorpseInScrofulousArrays, hφ, schemeTable]
    congr 1
    funext θ₀
    simp only [checkArguments_bind]
    split <;> rfl
  all_goals
    simp only [Scheme.callArrays, newBB1Arrays, newSK1Arrays, newCorpseInBB1Arrays, newCorpseInSK1Arrays,
      azimuth_single hφ, schemeTable]
    congr 1
    funext θ₀
    cases transformedRabiRotationWimperis θ₀ <;> rfl

theorem shaped_eq {t r a d : List α} {name : Option String} {n : ℕ} (ht : t.length = n) (s z : List ℕ) :
    ((DrivenControl.new t (some r) (some a) (some d) name).map fun c =>
        (⟨⟨n :: s, c.rabiRates⟩, ⟨n :: z, c.azimuthalAngles⟩, vec c.detunings, ⟨n :: s, c.durations⟩, c.name⟩ :
          NdControl α)) =
      (DrivenControl.new t (some r) (some a) (some d) name).map (shapedControl s z) := by
  cases h : DrivenControl.new t (some r) (some a) (some d) name with
  | error e => rfl
  | ok c =>
    have := C02_stores_arguments _ _ _ _ _ _ h
    have e : c.numberOfSegments = n := by rw [this.2.2.2.2.2.1, ht]
    simp only [Except.map, shapedControl, this.2.2.2.2.2.2.1, this.2.2.2.2.2.2.2.1, this.2.2.2.2.2.2.2.2.2, e]

theorem callArrays_single (s : Scheme) {θ Ω φ : NdArray α} {θ₀ Ω₀ φ₀ : α} (hθ : θ.data = [θ₀]) (hΩ : Ω.data = [Ω₀])
    (hφ : φ.data = [φ₀]) (rΩ : Regular Ω) (rφ : Regular φ) (name : Option String) :
    s.callArrays θ Ω φ name = (s.call θ₀ Ω₀ φ₀ name).map
      (shapedControl Ω.shape (if s = .corpseInScrofulous then [] else φ.shape)) := by
  have pφ : φ.shape.prod = 1 := by
    unfold Regular at rφ
    rw [← rφ, hφ]; rfl
  by_cases hs : s = .wamf1
  · subst hs
    have pΩ : Ω.shape.prod = 1 := by
      unfold Regular at rΩ
      rw [← rΩ, hΩ]; rfl
    simp only [Scheme.callArrays, newWamf1Arrays, Scheme.call, newWamf1Control, validate_single hθ hΩ, hΩ,
      azimuth_single hφ]
    cases validateRabiParameters θ₀ Ω₀ with
    | error e => rfl
    | ok u =>
      simp only [Except.map, bind, Except.bind]
      cases isSupportedRotation θ₀ with
      | false => rfl
      | true =>
        simp only [checkArguments, if_true]
        have e : ∀ f : α → α, stack Ω.shape ([(wamf1Thetas θ₀).1, (wamf1Thetas θ₀).2, (wamf1Thetas θ₀).2,
            (wamf1Thetas θ₀).1].map fun r => [f r]) = ⟨4 :: Ω.shape, [(wamf1Thetas θ₀).1, (wamf1Thetas θ₀).2,
              (wamf1Thetas θ₀).2, (wamf1Thetas θ₀).1].map f⟩ := fun f => stack_single _ _ f
        refine Eq.trans ?_ (shaped_eq (n := 4) (by simp) _ _)
        have key := line_new (n := 4) (s := Ω.shape) (sa := 4 :: φ.shape) (t := List.replicate 4 ((wamf1Thetas θ₀).1 / Ω₀))
          (r := [(wamf1Thetas θ₀).1, (wamf1Thetas θ₀).2, (wamf1Thetas θ₀).2, (wamf1Thetas θ₀).1].map fun r =>
            r / ((wamf1Thetas θ₀).1 / Ω₀)) (a := List.replicate 4 φ₀) (d := List.replicate 4 (lit 0)) pΩ (by simp) (by simp)
          (by simp) (by simp) name
        rw [if_pos (by simp [pφ])] at key
        exact key
  · rw [callArrays_table hs hφ, validate_single hθ hΩ, call_table hs]
    cases validateRabiParameters θ₀ Ω₀ with
    | error e => rfl
    | ok u =>
      show (schemeTable θ₀ φ₀ s >>= _) = Except.map _ (schemeTable θ₀ φ₀ s >>= _)
      cases schemeTable θ₀ φ₀ s with
      | error e => rfl
      | ok t =>
        show constantRateArrays _ _ _ _ = Except.map _ (DrivenControl.new _ _ _ _ _)
        rw [constant_single hΩ rΩ _ (by simp), if_pos (by split <;> simp [pφ])]
        simp only [List.length_map, List.map_map, Function.comp_def]
        exact shaped_eq (by simp) _ _

/-- several azimuthal angles, or none: their array has another size -/
theorem callArrays_table_shape {s : Scheme} (hs : s ≠ .wamf1) (hs' : s ≠ .corpseInScrofulous) {θ Ω φ : NdArray α}
    {θ₀ Ω₀ : α} (hθ : θ.data = [θ₀]) (hΩ : Ω.data = [Ω₀]) (φ₀ : α) (name : Option String) :
    ∃ A, s.callArrays θ Ω φ name = (validateRabiParameters θ₀ Ω₀ >>= fun _ => schemeTable θ₀ φ₀ s >>= fun t =>
      constantRateArrays (t.map Prod.fst) Ω ⟨t.length :: φ.shape, A⟩ name) := by
  cases s
  case wamf1 => exact absurd rfl hs
  case corpseInScrofulous => exact absurd rfl hs'
  case primitive =>
    simp only [Scheme.callArrays, newPrimitiveArrays, validate_single hθ hΩ]
    cases validateRabiParameters θ₀ Ω₀ with
    | error e => exact ⟨[], rfl⟩
    | ok u => exact ⟨_, rfl⟩
  case corpse =>
    simp only [Scheme.callArrays, newCorpseArrays, validate_single hθ hΩ]
    cases validateRabiParameters θ₀ Ω₀ with
    | error e => exact ⟨[], rfl⟩
    | ok u => exact ⟨_, rfl⟩
  case scrofulous =>
    simp only [Scheme.callArrays, newScrofulousArrays, validate_single hθ hΩ, schemeTable]
    cases validateRabiParameters θ₀ Ω₀ with
    | error e => exact ⟨[], rfl⟩
    | ok u =>
      simp only [Except.map, bind, Except.bind]
      cases isSupportedRotation θ₀ with
      | false => exact ⟨[], rfl⟩
      | true => exact ⟨_, rfl⟩
  all_goals
    simp only [Scheme.callArrays, newBB1Arrays, newSK1Arrays, newCorpseInBB1Arrays, newCorpseInSK1Arrays,
      validate_single hθ hΩ, schemeTable]
    cases validateRabiParameters θ₀ Ω₀ with
    | error e => exact ⟨[], rfl⟩
    | ok u =>
      simp only [Except.map, bind, Except.bind]
      cases transformedRabiRotationWimperis θ₀ with
      | error e => exact ⟨[], rfl⟩
      | ok p => exact ⟨_, rfl⟩

theorem callArrays_azimuths {s : Scheme} (hs' : s ≠ .corpseInScrofulous) {θ Ω φ : NdArray α}
    {θ₀ Ω₀ : α} (hθ : θ.data = [θ₀]) (hΩ : Ω.data = [Ω₀]) (rΩ : Regular Ω) (pφ : φ.shape.prod ≠ 1) (φ₀ : α)
    (name : Option String) :
    (∀ d, s.call θ₀ Ω₀ φ₀ name = .ok d → s.callArrays θ Ω φ name = .error (.arguments
        "If set, rabi rates, azimuthal angles, detunings and durations must be of same length")) ∧
      ∃ e, s.callArrays θ Ω φ name = .error e := by
  have pΩ : Ω.shape.prod = 1 := by
    unfold Regular at rΩ
    rw [← rΩ, hΩ]; rfl
  have pos : ∀ {t r a z : List α} {d : DrivenControl α}, DrivenControl.new t (some r) (some a) (some z) name = .ok d →
      (t.all fun x => gt x (lit 0)) = true := by
    intro t r a z d h
    by_contra h1
    rw [DrivenControl.new_eq, if_neg h1] at h
    cases h
  by_cases hs : s = .wamf1
  · subst hs
    simp only [Scheme.callArrays, newWamf1Arrays, Scheme.call, newWamf1Control, validate_single hθ hΩ, hΩ]
    cases validateRabiParameters θ₀ Ω₀ with
    | error e => exact ⟨fun d h => (nomatch h), e, rfl⟩
    | ok u =>
      simp only [Except.map, bind, Except.bind]
      cases isSupportedRotation θ₀ with
      | false => exact ⟨fun d h => (nomatch h), _, rfl⟩
      | true =>
        simp only [checkArguments, if_true]
        have key := line_new (n := 4) (s := Ω.shape) (sa := 4 :: φ.shape) (t := List.replicate 4 ((wamf1Thetas θ₀).1 / Ω₀))
          (r := [(wamf1Thetas θ₀).1, (wamf1Thetas θ₀).2, (wamf1Thetas θ₀).2, (wamf1Thetas θ₀).1].map fun r =>
            r / ((wamf1Thetas θ₀).1 / Ω₀)) (a := (azimuthArrays φ (List.replicate 4 fun x => x)).data)
          (d := List.replicate 4 (lit 0)) pΩ (by simp) (by simp) (fun h => absurd h (by simp; omega)) (by simp) name
        rw [if_neg (by simp; omega)] at key
        refine ⟨fun d h => ?_, ?_⟩
        · refine Eq.trans key ?_
          rw [if_pos (pos h)]
        · rw [← apply_ite] at key
          exact ⟨_, key⟩
  · obtain ⟨A, hA⟩ := callArrays_table_shape hs hs' hθ hΩ φ₀ name (φ := φ)
    rw [hA, call_table hs]
    cases validateRabiParameters θ₀ Ω₀ with
    | error e => exact ⟨fun d h => (nomatch h), e, rfl⟩
    | ok u =>
      simp only [bind, Except.bind]
      cases ht : schemeTable θ₀ φ₀ s with
      | error e => exact ⟨fun d h => (nomatch h), e, rfl⟩
      | ok t =>
        have h0 : t.length ≠ 0 := fun h => schemeTable_ne_nil hs (θ := θ₀) (φ := φ₀) (by rw [ht, List.length_eq_zero_iff.mp h])
        have hne : (t.length :: φ.shape).prod ≠ (t.map Prod.fst).length := by
          rw [List.prod_cons, List.length_map]
          intro h
          exact pφ (Nat.eq_of_mul_eq_mul_left (Nat.pos_of_ne_zero h0) (by rw [h, Nat.mul_one]))
        dsimp only
        rw [constant_single hΩ rΩ _ (fun h => absurd h hne), if_neg hne]
        refine ⟨fun d h => ?_, ?_⟩
        · rw [if_pos (by simpa [List.map_map, Function.comp_def] using pos h)]
        · rw [← apply_ite]
          exact ⟨_, rfl⟩

theorem callArrays_rate {s : Scheme} {θ Ω φ : NdArray α} (hΩ : Ω.data.length ≠ 1) (name : Option String) :
    s.callArrays θ Ω φ name = if Ω.data = [] then
      .error (.arguments "Maximum rabi angular frequency should be greater than zero.")
      else .error (.valueError "The truth value of an array with more than one element is ambiguous.") := by
  have : validateArrays θ Ω = if Ω.data = [] then
      .error (.arguments "Maximum rabi angular frequency should be greater than zero.")
      else .error (.valueError "The truth value of an array with more than one element is ambiguous.") := by
    unfold validateArrays NdArray.truth
    rcases h : Ω.data with _ | ⟨x, _ | ⟨y, l⟩⟩
    · rfl
    · rw [h] at hΩ; exact absurd rfl hΩ
    · rfl
  cases s <;>
    simp only [Scheme.callArrays, newPrimitiveArrays, newBB1Arrays, newSK1Arrays, newCorpseArrays, newScrofulousArrays,
      newCorpseInBB1Arrays, newCorpseInSK1Arrays, newCorpseInScrofulousArrays, newWamf1Arrays, this] <;>
    split <;> rfl

theorem callArrays_rotation {s : Scheme} {θ Ω φ : NdArray α} {Ω₀ : α} (hΩ : Ω.data = [Ω₀]) (hp : gt Ω₀ (lit 0) = true)
    (hθ : θ.data.length ≠ 1) (name : Option String) :
    s.callArrays θ Ω φ name = if θ.data = [] then .error (.arguments "The rabi rotation must be non-zero.")
      else .error (.valueError "The truth value of an array with more than one element is ambiguous.") := by
  have : validateArrays θ Ω = if θ.data = [] then .error (.arguments "The rabi rotation must be non-zero.")
      else .error (.valueError "The truth value of an array with more than one element is ambiguous.") := by
    unfold validateArrays NdArray.truth
    simp only [hΩ, hp]
    rcases h : θ.data with _ | ⟨x, _ | ⟨y, l⟩⟩
    · rfl
    · rw [h] at hθ; exact absurd rfl hθ
    · rfl
  cases s <;>
    simp only [Scheme.callArrays, newPrimitiveArrays, newBB1Arrays, newSK1Arrays, newCorpseArrays, newScrofulousArrays,
      newCorpseInBB1Arrays, newCorpseInSK1Arrays, newCorpseInScrofulousArrays, newWamf1Arrays, this] <;>
    split <;> rfl

theorem callArrays_zero_rate {s : Scheme} {θ Ω φ : NdArray α} {Ω₀ : α} (hΩ : Ω.data = [Ω₀])
    (hp : gt Ω₀ (lit 0) = false) (name : Option String) :
    s.callArrays θ Ω φ name = .error (.arguments "Maximum rabi angular frequency should be greater than zero.") := by
  have : validateArrays θ Ω = .error (.arguments "Maximum rabi angular frequency should be greater than zero.") := by
    unfold validateArrays NdArray.truth
    simp only [hΩ, hp]
    rfl
  cases s <;>
    simp only [Scheme.callArrays, newPrimitiveArrays, newBB1Arrays, newSK1Arrays, newCorpseArrays, newScrofulousArrays,
      newCorpseInBB1Arrays, newCorpseInSK1Arrays, newCorpseInScrofulousArrays, newWamf1Arrays, this] <;>
    rfl

theorem callArrays_scrofulous_azimuths {θ Ω φ : NdArray α} {θ₀ Ω₀ : α} (hθ : θ.data = [θ₀]) (hΩ : Ω.data = [Ω₀])
    (hφ : φ.data.length ≠ 1) (φ₀ : α) (name : Option String) :
    (∀ d, Scheme.corpseInScrofulous.call θ₀ Ω₀ φ₀ name = .ok d →
      Scheme.corpseInScrofulous.callArrays θ Ω φ name =
        .error (.valueError "setting an array element with a sequence.")) ∧
      ∃ e, Scheme.corpseInScrofulous.callArrays θ Ω φ name = .error e := by
  rw [call_table (by decide)]
  simp only [Scheme.callArrays, newCorpseInScrofulousArrays, validate_single hθ hΩ, schemeTable]
  cases validateRabiParameters θ₀ Ω₀ with
  | error e => exact ⟨fun d h => (nomatch h), e, rfl⟩
  | ok u =>
    simp only [Except.map, bind, Except.bind]
    cases isSupportedRotation θ₀ with
    | false => exact ⟨fun d h => (nomatch h), _, rfl⟩
    | true =>
      simp only [checkArguments, if_true]
      rcases h : φ.data with _ | ⟨x, _ | ⟨y, l⟩⟩
      · exact ⟨fun _ _ => rfl, _, rfl⟩
      · rw [h] at hφ; exact absurd rfl hφ
      · exact ⟨fun _ _ => rfl, _, rfl⟩

end OpenControls
