import Verif.Spec.RoundedComposite
import Verif.Proofs.RoundedTabulated
import Verif.Props.Rounding

/-!
# C76: the composite pulses computed in floating-point arithmetic

The same model of the code as in C16-C25 is run on the numbers `Fl r` of any floating-point
arithmetic with unit roundoff `r.u` (double precision: `r = Rounding.double`, `u = 2⁻⁵³`).
Acceptance is exact; the control that comes out performs the requested rotation up to a small
multiple of `u`, for all arguments.
-/

namespace OpenControls

open Spec Fl

variable {r : Rounding}

/-- From the operator norm to the matrix entries. -/
private theorem within {c : DrivenControl (Fl r)} {U : M2} {ε : ℝ}
    (h : (open scoped Matrix.Norms.L2Operator in ‖evolution (c.map val) - U‖ ≤ ε)) :
    PerformsWithin ε c U := fun i j => (entry_le_norm _ i j).trans h

/-- **C76**, primitive pulse. -/
theorem C76_primitive (θ Ω φ : Fl r) (name : Option String) :
    (0 < Ω.val ∧ 0 < θ.val → ∃ c, newPrimitiveControl θ Ω φ name = .ok c ∧
      (∀ x ∈ c.rabiRates, x = Ω) ∧
      PerformsWithin (θ.val / 2 * r.u) c (rotation θ.val φ.val)) ∧
    (¬(0 < Ω.val ∧ 0 < θ.val) → ∃ d, newPrimitiveControl θ Ω φ name = .error (.arguments d)) := by
  obtain ⟨h1, h2⟩ := newPrimitive_rounded θ Ω φ name
  exact ⟨fun h => ⟨_, h1 h, by simp [roundedControl], within (evolution_primitive_rounded h.1 h.2 φ name)⟩, h2⟩

/-- **C76**, BB1.  The limit `4π` is four times the rounded π. -/
theorem C76_bb1 (θ Ω φ : Fl r) (name : Option String) :
    (0 < Ω.val ∧ 0 < θ.val ∧ θ.val ≤ 4 * r.rnd Real.pi → ∃ c, newBB1Control θ Ω φ name = .ok c ∧
      (∀ x ∈ c.rabiRates, x = Ω) ∧
      PerformsWithin ((θ.val / 2 + 13) * r.u) c (rotation θ.val φ.val)) ∧
    (¬(0 < Ω.val ∧ 0 < θ.val ∧ θ.val ≤ 4 * r.rnd Real.pi) →
      ∃ d, newBB1Control θ Ω φ name = .error (.arguments d)) := by
  obtain ⟨h1, h2⟩ := newBB1_rounded θ Ω φ name
  exact ⟨fun h => ⟨_, h1 h, by simp [roundedControl], within (evolution_bb1_rounded h.1 h.2.1 φ name)⟩, h2⟩

/-- **C76**, SK1. -/
theorem C76_sk1 (θ Ω φ : Fl r) (name : Option String) :
    (0 < Ω.val ∧ 0 < θ.val ∧ θ.val ≤ 4 * r.rnd Real.pi → ∃ c, newSK1Control θ Ω φ name = .ok c ∧
      (∀ x ∈ c.rabiRates, x = Ω) ∧
      PerformsWithin ((θ.val / 2 + 13) * r.u) c (rotation θ.val φ.val)) ∧
    (¬(0 < Ω.val ∧ 0 < θ.val ∧ θ.val ≤ 4 * r.rnd Real.pi) →
      ∃ d, newSK1Control θ Ω φ name = .error (.arguments d)) := by
  obtain ⟨h1, h2⟩ := newSK1_rounded θ Ω φ name
  exact ⟨fun h => ⟨_, h1 h, by simp [roundedControl], within (evolution_sk1_rounded h.1 h.2.1 φ name)⟩, h2⟩

/-- **C76**, CORPSE. -/
theorem C76_corpse (θ Ω φ : Fl r) (name : Option String) :
    (0 < Ω.val ∧ 0 < θ.val → ∃ c, newCorpseControl θ Ω φ name = .ok c ∧
      (∀ x ∈ c.rabiRates, x = Ω) ∧
      PerformsWithin ((2 * θ.val + |φ.val| + 33) * r.u) c (rotation θ.val φ.val)) ∧
    (¬(0 < Ω.val ∧ 0 < θ.val) → ∃ d, newCorpseControl θ Ω φ name = .error (.arguments d)) := by
  obtain ⟨h1, h2⟩ := newCorpse_rounded θ Ω φ name
  exact ⟨fun h => ⟨_, h1 h, by simp [roundedControl], within (evolution_corpse_rounded h.1 h.2 φ name)⟩, h2⟩

/-- **C76**, CORPSE in BB1. -/
theorem C76_corpse_in_bb1 (θ Ω φ : Fl r) (name : Option String) :
    (0 < Ω.val ∧ 0 < θ.val ∧ θ.val ≤ 4 * r.rnd Real.pi →
      ∃ c, newCorpseInBB1Control θ Ω φ name = .ok c ∧ (∀ x ∈ c.rabiRates, x = Ω) ∧
      PerformsWithin ((2 * θ.val + |φ.val| + 46) * r.u) c (rotation θ.val φ.val)) ∧
    (¬(0 < Ω.val ∧ 0 < θ.val ∧ θ.val ≤ 4 * r.rnd Real.pi) →
      ∃ d, newCorpseInBB1Control θ Ω φ name = .error (.arguments d)) := by
  obtain ⟨h1, h2⟩ := newCorpseInBB1_rounded θ Ω φ name
  exact ⟨fun h => ⟨_, h1 h, by simp [roundedControl],
    within (evolution_corpseBB1_rounded h.1 h.2.1 φ name)⟩, h2⟩

/-- **C76**, CORPSE in SK1. -/
theorem C76_corpse_in_sk1 (θ Ω φ : Fl r) (name : Option String) :
    (0 < Ω.val ∧ 0 < θ.val ∧ θ.val ≤ 4 * r.rnd Real.pi →
      ∃ c, newCorpseInSK1Control θ Ω φ name = .ok c ∧ (∀ x ∈ c.rabiRates, x = Ω) ∧
      PerformsWithin ((2 * θ.val + |φ.val| + 46) * r.u) c (rotation θ.val φ.val)) ∧
    (¬(0 < Ω.val ∧ 0 < θ.val ∧ θ.val ≤ 4 * r.rnd Real.pi) →
      ∃ d, newCorpseInSK1Control θ Ω φ name = .error (.arguments d)) := by
  obtain ⟨h1, h2⟩ := newCorpseInSK1_rounded θ Ω φ name
  exact ⟨fun h => ⟨_, h1 h, by simp [roundedControl],
    within (evolution_corpseSK1_rounded h.1 h.2.1 φ name)⟩, h2⟩

private theorem near_of_supported {θ : Fl r} (h : isSupportedRotation θ = true) :
    ∃ a, NearTabulated (4 / 10 ^ 5) θ.val a := by
  obtain ⟨a, -, -, ha, hn, -⟩ := roundedWamf h
  exact ⟨a, ha, hn⟩

private theorem supported_of {θ : Fl r} (h : ∃ a, NearTabulated (5 / 10 ^ 6) θ.val a) :
    isSupportedRotation θ = true := by
  obtain ⟨a, rfl | rfl | rfl, h⟩ := h
  · exact supported_of_near (.inl h)
  · exact supported_of_near (.inr (.inl h))
  · exact supported_of_near (.inr (.inr h))

/-- **C76**, SCROFULOUS: angles within `5e-6` of a tabulated one are accepted, angles further than
`4e-5` from all of them are rejected, and every accepted angle is treated to the accuracy of the
tables (`3e-3`, C20) up to rounding. -/
theorem C76_scrofulous (θ Ω φ : Fl r) (name : Option String) :
    (0 < Ω.val ∧ (∃ a, NearTabulated (5 / 10 ^ 6) θ.val a) → ∃ c, newScrofulousControl θ Ω φ name = .ok c) ∧
    (¬(0 < Ω.val ∧ ∃ a, NearTabulated (4 / 10 ^ 5) θ.val a) →
      ∃ d, newScrofulousControl θ Ω φ name = .error (.arguments d)) ∧
    (∀ c, newScrofulousControl θ Ω φ name = .ok c → (∀ x ∈ c.rabiRates, x = Ω) ∧
      PerformsWithin (3 / 1000 + (1200 + 3 * |φ.val|) * r.u) c (rotation θ.val φ.val)) := by
  have h := newScrofulous_rounded θ Ω φ name
  refine ⟨fun hh => ⟨_, h.1 ⟨hh.1, supported_of hh.2⟩⟩,
    fun hh => h.2 fun hs => hh ⟨hs.1, near_of_supported hs.2⟩, fun c hc => ?_⟩
  obtain ⟨hs, rfl⟩ := h.ok hc
  obtain ⟨θ₁, f⟩ := roundedAngle hs.2
  exact ⟨by simp [roundedControl], evolution_scrofulous_rounded hs.1 f φ name⟩

/-- **C76**, CORPSE in SCROFULOUS. -/
theorem C76_corpse_in_scrofulous (θ Ω φ : Fl r) (name : Option String) :
    (0 < Ω.val ∧ (∃ a, NearTabulated (5 / 10 ^ 6) θ.val a) →
      ∃ c, newCorpseInScrofulousControl θ Ω φ name = .ok c) ∧
    (¬(0 < Ω.val ∧ ∃ a, NearTabulated (4 / 10 ^ 5) θ.val a) →
      ∃ d, newCorpseInScrofulousControl θ Ω φ name = .error (.arguments d)) ∧
    (∀ c, newCorpseInScrofulousControl θ Ω φ name = .ok c → (∀ x ∈ c.rabiRates, x = Ω) ∧
      PerformsWithin (3 / 1000 + (1300 + 9 * |φ.val|) * r.u) c (rotation θ.val φ.val)) := by
  have h := newCorpseInScrofulous_rounded θ Ω φ name
  refine ⟨fun hh => ⟨_, h.1 ⟨hh.1, supported_of hh.2⟩⟩,
    fun hh => h.2 fun hs => hh ⟨hs.1, near_of_supported hs.2⟩, fun c hc => ?_⟩
  obtain ⟨hs, rfl⟩ := h.ok hc
  obtain ⟨θ₁, f⟩ := roundedAngle hs.2
  exact ⟨by simp [roundedControl], evolution_corpseScrofulous_rounded hs.1 f φ name⟩

/-- **C76**, WAMF1: the rotation is by the tabulated angle next to `θ` (up to the sign of the
evolution, as in C25).  The computed Rabi rates stay below the maximum only up to rounding. -/
theorem C76_wamf1 (θ Ω φ : Fl r) (name : Option String) :
    (0 < Ω.val ∧ (∃ a, NearTabulated (5 / 10 ^ 6) θ.val a) → ∃ c, newWamf1Control θ Ω φ name = .ok c) ∧
    (¬(0 < Ω.val ∧ ∃ a, NearTabulated (4 / 10 ^ 5) θ.val a) →
      ∃ d, newWamf1Control θ Ω φ name = .error (.arguments d)) ∧
    (∀ c, newWamf1Control θ Ω φ name = .ok c →
      (∀ x ∈ c.rabiRates, 0 < x.val ∧ x.val ≤ (1 + 3 * r.u) * Ω.val) ∧
      ∃ a, NearTabulated (4 / 10 ^ 5) θ.val a ∧
        PerformsWithin (30 * r.u) c (-rotation a φ.val)) := by
  have h := newWamf1_rounded θ Ω φ name
  refine ⟨fun hh => ⟨_, h.1 ⟨hh.1, supported_of hh.2⟩⟩,
    fun hh => h.2 fun hs => hh ⟨hs.1, near_of_supported hs.2⟩, fun c hc => ?_⟩
  obtain ⟨hs, rfl⟩ := h.ok hc
  obtain ⟨a, P, M, ha, hn, hsum, f⟩ := roundedWamf hs.2
  exact ⟨f.rates φ Ω hs.1 name, a, ⟨ha, hn⟩, within (f.evolution φ Ω hs.1 name a hsum)⟩

/-! ### The hypotheses can be met: double precision -/

/-- a π pulse in double precision -/
example : ∃ c, newBB1Control (round Rounding.double Real.pi) (round Rounding.double 10) (round Rounding.double 1)
    none = .ok c ∧ PerformsWithin (16 / 2 ^ 53) c (rotation (round Rounding.double Real.pi).val 1) := by
  have h10 : (round Rounding.double 10).val = 10 := by simpa using double_nat (n := 10) (by norm_num)
  have h1 : (round Rounding.double 1).val = 1 := by simpa using double_nat (n := 1) (by norm_num)
  have hb := rnd_pi_bounds (r := Rounding.double)
  norm_num at hb
  obtain ⟨c, hc, -, hp⟩ := (C76_bb1 (round Rounding.double Real.pi) (round Rounding.double 10)
    (round Rounding.double 1) none).1
    ⟨by rw [h10]; norm_num, by rw [val_round]; linarith, by rw [val_round]; linarith⟩
  refine ⟨c, hc, fun i j => ?_⟩
  have := hp i j
  rw [h1] at this
  refine this.trans ?_
  rw [double_u, val_round]
  rw [mul_one_div]
  gcongr
  linarith

example : ∃ c, newCorpseInScrofulousControl (round Rounding.double (Real.pi / 2)) (round Rounding.double 10)
    (round Rounding.double 1) none = .ok c := by
  have h10 : (round Rounding.double 10).val = 10 := by simpa using double_nat (n := 10) (by norm_num)
  refine (C76_corpse_in_scrofulous _ _ _ none).1 ⟨by rw [h10]; norm_num, Real.pi / 2, .inr (.inl rfl), ?_⟩
  have := Rounding.double.close (Real.pi / 2)
  have hpi := Real.pi_lt_d4
  rw [abs_of_pos (by positivity : 0 < Real.pi / 2), double_u] at this
  rw [val_round]
  refine this.trans ?_
  norm_num at *
  linarith

end OpenControls
