import Verif.Spec.Circuits
import Verif.Proofs.JoiningRounded
import Verif.Proofs.Joining
import Verif.Proofs.RoundedReload
import Verif.Proofs.Robustness
import Verif.Proofs.OperatorNorm
import Verif.Proofs.RoundedErrors

/-!
# One control for a list of gates: auxiliary results
-/

namespace OpenControls

open Spec PyFloat Py

section
variable {α : Type} [Add α] [Sub α] [Mul α] [Div α] [Neg α] [PyFloat α]

/-- the control with the arrays of a list of controls -/
def chained (cs : List (DrivenControl α)) (name : Option String) : DrivenControl α where
  rabiRates := cs.flatMap fun c => c.rabiRates
  azimuthalAngles := cs.flatMap fun c => c.azimuthalAngles
  detunings := cs.flatMap fun c => c.detunings
  durations := cs.flatMap fun c => c.durations
  name := name

theorem flatMap_lengths {β γ δ : Type} (l : List β) (f : β → List γ) (g : β → List δ) (h : ∀ x ∈ l, (f x).length = (g x).length) :
    (l.flatMap f).length = (l.flatMap g).length := by
  induction l with
  | nil => rfl
  | cons x l ih =>
    simp only [List.flatMap_cons, List.length_append]
    rw [h x (by simp), ih fun y hy => h y (by simp [hy])]

theorem circuit_eq {cs : List (DrivenControl α)} (h : ∀ c ∈ cs, c.Constructed) (name : Option String) :
    circuit cs name = .ok (chained cs name) := by
  unfold circuit
  rw [DrivenControl.new_eq, if_pos, if_pos, if_pos]
  · rfl
  · simp only [Option.getD_some, List.all_eq_true]
    intro x hx
    obtain ⟨c, hc, hx⟩ := List.mem_flatMap.mp hx
    exact (constructed_checks (h c hc)).2.1 x hx
  · have e1 := flatMap_lengths cs (fun c => c.rabiRates) (fun c => c.durations) fun c hc => (constructed_checks (h c hc)).2.2.1
    have e2 := flatMap_lengths cs (fun c => c.azimuthalAngles) (fun c => c.durations)
      fun c hc => (constructed_checks (h c hc)).2.2.2.1
    have e3 := flatMap_lengths cs (fun c => c.detunings) (fun c => c.durations)
      fun c hc => (constructed_checks (h c hc)).2.2.2.2
    refine ⟨?_, ?_, ?_⟩ <;> (rintro l ⟨⟩; assumption)
  · simp only [List.all_eq_true]
    intro x hx
    obtain ⟨c, hc, hx⟩ := List.mem_flatMap.mp hx
    exact (constructed_checks (h c hc)).1 x hx

theorem chained_map {β : Type} (f : α → β) (cs : List (DrivenControl α)) (name : Option String) :
    (chained cs name).map f = ⟨(cs.map fun c => c.map f).flatMap fun c => c.rabiRates,
      (cs.map fun c => c.map f).flatMap fun c => c.azimuthalAngles, (cs.map fun c => c.map f).flatMap fun c => c.detunings,
      (cs.map fun c => c.map f).flatMap fun c => c.durations, name⟩ := by
  simp only [chained, DrivenControl.map, List.map_flatMap, List.flatMap_map]

end

/-- arrays of equal lengths -/
def LevelArrays (c : DrivenControl ℝ) : Prop :=
  c.rabiRates.length = c.durations.length ∧ c.azimuthalAngles.length = c.durations.length ∧
    c.detunings.length = c.durations.length

theorem chained_evolution (cs : List (DrivenControl ℝ)) (h : ∀ c ∈ cs, LevelArrays c) (name : Option String) :
    evolution (chained cs name) = inTurn (cs.map evolution) := by
  induction cs with
  | nil => rfl
  | cons c cs ih =>
    obtain ⟨h1, h2, h3⟩ := h c (by simp)
    have := controlEvolution_append _ _ _ _ (cs.flatMap fun c => c.rabiRates) (cs.flatMap fun c => c.azimuthalAngles)
      (cs.flatMap fun c => c.detunings) (cs.flatMap fun c => c.durations) h1 h2 h3
    have ih' := ih fun c hc => h c (by simp [hc])
    unfold evolution chained at *
    simp only [List.flatMap_cons, List.map_cons, inTurn]
    rw [this, ih']

theorem chained_errors (e d : ℝ) (cs : List (DrivenControl ℝ)) (name : Option String) :
    withErrors e d (chained cs name) = chained (cs.map (withErrors e d)) name := by
  simp only [withErrors, withDetuningError, withAmplitudeError, chained, List.map_flatMap, List.flatMap_map]

theorem LevelArrays.withErrors {c : DrivenControl ℝ} (h : LevelArrays c) (e d : ℝ) : LevelArrays (withErrors e d c) := by
  obtain ⟨h1, h2, h3⟩ := h
  refine ⟨?_, ?_, ?_⟩ <;> simp [Spec.withErrors, withDetuningError, withAmplitudeError, *]

theorem chained_evolution_errors (e d : ℝ) (cs : List (DrivenControl ℝ)) (h : ∀ c ∈ cs, LevelArrays c) (name : Option String) :
    evolution (withErrors e d (chained cs name)) = inTurn (cs.map fun c => evolution (withErrors e d c)) := by
  rw [chained_errors, chained_evolution, List.map_map]
  · rfl
  · intro c hc
    obtain ⟨c, hc', rfl⟩ := List.mem_map.mp hc
    exact (h c hc').withErrors e d

theorem withErrors_amplitude (e : ℝ) (c : DrivenControl ℝ) : withErrors e 0 c = withAmplitudeError e c := by
  simp [withErrors, withDetuningError]

theorem withErrors_detuning (d : ℝ) (c : DrivenControl ℝ) : withErrors 0 d c = withDetuningError d c := by
  simp [withErrors, withDetuningError, withAmplitudeError]

theorem withErrors_none (c : DrivenControl ℝ) : withErrors 0 0 c = c := by
  simp [withErrors, withDetuningError, withAmplitudeError]

section
open scoped Matrix.Norms.L2Operator

theorem inTurn_norm : ∀ {l : List M2}, (∀ U ∈ l, ‖U‖ ≤ 1) → ‖inTurn l‖ ≤ 1
  | [], _ => by simp [inTurn]
  | U :: l, h => by
    refine (norm_mul_le _ _).trans (mul_le_one₀ ?_ (norm_nonneg _) (h U (by simp)))
    exact inTurn_norm fun V hV => h V (by simp [hV])

/-- errors add up -/
theorem inTurn_dist : ∀ (l m : List M2), l.length = m.length → (∀ U ∈ l, ‖U‖ ≤ 1) → (∀ U ∈ m, ‖U‖ ≤ 1) →
    ‖inTurn l - inTurn m‖ ≤ (List.zipWith (fun U V => ‖U - V‖) l m).sum
  | [], [], _, _, _ => by simp [inTurn]
  | U :: l, V :: m, hl, h, h' => by
    have ih := inTurn_dist l m (by simpa using hl) (fun W hW => h W (by simp [hW])) fun W hW => h' W (by simp [hW])
    have e : inTurn (U :: l) - inTurn (V :: m) = (inTurn l - inTurn m) * U + inTurn m * (U - V) := by
      simp only [inTurn]; noncomm_ring
    rw [e, List.zipWith_cons_cons, List.sum_cons, add_comm ‖U - V‖]
    refine (norm_add_le _ _).trans (add_le_add ?_ ?_)
    · exact (norm_mul_le _ _).trans ((mul_le_of_le_one_right (norm_nonneg _) (h U (by simp))).trans ih)
    · exact (norm_mul_le _ _).trans (mul_le_of_le_one_left (norm_nonneg _) (inTurn_norm fun W hW => h' W (by simp [hW])))

end

/-! ## Derivatives -/

theorem inTurn_first (Us : List (ℝ → M2)) (h : ∀ U ∈ Us, FirstOrderInsensitive U) :
    FirstOrderInsensitive fun e => inTurn (Us.map fun U => U e) := by
  induction Us with
  | nil =>
    intro i j
    exact hasDerivAt_const _ _
  | cons U Us ih =>
    have h1 : HasMatrixDerivAt U 0 0 := h U (by simp)
    have h2 : HasMatrixDerivAt (fun e => inTurn (Us.map fun U => U e)) 0 0 := ih fun V hV => h V (by simp [hV])
    have := HasMatrixDerivAt.mul h2 h1
    simp only [Matrix.zero_mul, Matrix.mul_zero, add_zero] at this
    exact this

theorem hasMatrixDerivAt_add {U V : ℝ → M2} {U' V' : M2} {x : ℝ} (hU : HasMatrixDerivAt U U' x) (hV : HasMatrixDerivAt V V' x) :
    HasMatrixDerivAt (fun e => U e + V e) (U' + V') x := fun i j => by
  simp only [Matrix.add_apply]
  exact (hU i j).fun_add (hV i j)

theorem inTurn_second (Us : List (ℝ → M2)) (h : ∀ U ∈ Us, SecondOrderInsensitive U) :
    SecondOrderInsensitive fun e => inTurn (Us.map fun U => U e) := by
  induction Us with
  | nil =>
    refine ⟨fun _ => 0, fun e i j => ?_, rfl, fun i j => ?_⟩
    · exact hasDerivAt_const _ _
    · exact hasDerivAt_const _ _
  | cons U Us ih =>
    obtain ⟨U', u1, u2, u3⟩ := h U (by simp)
    obtain ⟨V', v1, v2, v3⟩ := ih fun V hV => h V (by simp [hV])
    refine ⟨fun e => V' e * U e + inTurn (Us.map fun U => U e) * U' e, fun e => HasMatrixDerivAt.mul (v1 e) (u1 e), ?_, ?_⟩
    · simp only [v2, u2, Matrix.zero_mul, Matrix.mul_zero, add_zero]
    · have := hasMatrixDerivAt_add (HasMatrixDerivAt.mul v3 (u1 0)) (HasMatrixDerivAt.mul (v1 0) u3)
      simp only [v2, u2, Matrix.zero_mul, Matrix.mul_zero, add_zero] at this
      exact this

theorem compiled_constructed {α : Type} [Add α] [Sub α] [Mul α] [Div α] [Neg α] [PyFloat α] {Ω : α} {gates : List (Gate α)}
    {cs : List (DrivenControl α)} (hc : Compiled Ω gates cs) : ∀ c ∈ cs, c.Constructed := by
  unfold Compiled at hc
  induction hc with
  | nil => simp
  | cons hg _ ih =>
    intro c hm
    rcases List.mem_cons.mp hm with rfl | hm
    · exact call_constructed _ _ _ _ _ _ hg
    · exact ih c hm

/-- `n` equal rotations in turn -/
theorem inTurn_replicate (n : ℕ) (θ φ : ℝ) : inTurn (List.replicate n (rotation θ φ)) = rotation (n * θ) φ := by
  induction n with
  | zero => simp [inTurn, rotation_zero]
  | succ n ih =>
    rw [List.replicate_succ, inTurn, ih, rotation_mul_same]
    push_cast
    ring_nf

theorem zipWith_sum_le {β γ δ : Type} {R : β → γ → Prop} {l : List β} {m : List γ} (h : List.Forall₂ R l m) (f : γ → δ → ℝ)
    (t : β → δ) (bound : β → ℝ) (hb : ∀ g ∈ l, ∀ c, R g c → f c (t g) ≤ bound g) :
    (List.zipWith f m (l.map t)).sum ≤ (l.map bound).sum := by
  induction h with
  | nil => simp
  | @cons g c gates cs hgc _ ih =>
    rw [List.map_cons, List.zipWith_cons_cons, List.sum_cons, List.map_cons, List.sum_cons]
    exact add_le_add (hb g (by simp) c hgc) (ih fun g hm => hb g (by simp [hm]))

end OpenControls
