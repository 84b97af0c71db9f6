import Verif.Proofs.Circuits
import Verif.Props.RoundedErrors
import Verif.Props.RobustnessTable

/-!
# C132: one control for a list of gates

`circuit cs name` calls the constructor with the concatenated arrays of the controls `cs`; `inTurn Us` is the product of the operations `Us`,
the first one rightmost; `Compiled Ω gates cs` says that the composite pulse functions return `cs` for the gates.  Norms are operator norms.
-/

namespace OpenControls

open Spec PyFloat Py
open scoped Matrix.Norms.L2Operator

section
variable {α : Type} [Add α] [Sub α] [Mul α] [Div α] [Neg α] [PyFloat α]

/-- **C132** In any arithmetic: any list of controls can be played as one control, which has their segments and no others. -/
theorem C132_accepted (cs : List (DrivenControl α)) (h : ∀ c ∈ cs, c.Constructed) (name : Option String) :
    ∃ j, circuit cs name = .ok j ∧ j.name = name ∧ j.durations = cs.flatMap (fun c => c.durations) ∧
      j.rabiRates = cs.flatMap (fun c => c.rabiRates) ∧ j.azimuthalAngles = cs.flatMap (fun c => c.azimuthalAngles) ∧
      j.detunings = cs.flatMap (fun c => c.detunings) ∧ j.numberOfSegments = (cs.map fun c => c.numberOfSegments).sum := by
  refine ⟨_, circuit_eq h name, rfl, rfl, rfl, rfl, rfl, ?_⟩
  simp [DrivenControl.numberOfSegments, chained, List.length_flatMap]

end

/-- **C132** The control for a list of controls performs what they perform, in turn, with and without errors `e` of the Rabi rates and `d` of
the detuning; it takes as long as they take together. -/
theorem C132_evolution (cs : List (DrivenControl ℝ)) (h : ∀ c ∈ cs, c.Constructed) (name : Option String) (j : DrivenControl ℝ)
    (hj : circuit cs name = .ok j) :
    evolution j = inTurn (cs.map evolution) ∧
    (∀ e d, evolution (withErrors e d j) = inTurn (cs.map fun c => evolution (withErrors e d c))) ∧
    j.duration = (cs.map fun c => c.duration).sum := by
  rw [circuit_eq h, Except.ok.injEq] at hj
  subst hj
  have hl : ∀ c ∈ cs, LevelArrays c := fun c hc => (constructed_checks (h c hc)).2.2
  refine ⟨chained_evolution cs hl name, fun e d => chained_evolution_errors e d cs hl name, ?_⟩
  simp only [DrivenControl.duration, chained, RealInst.sum_eq]
  induction cs with
  | nil => simp
  | cons c cs ih =>
    rw [List.flatMap_cons, List.sum_append, List.map_cons, List.sum_cons]
    rw [ih (fun c hc => h c (by simp [hc])) fun c hc => hl c (by simp [hc])]

/-- **C132** Errors add up and do not multiply: whatever the operations `Us` are that the controls should perform, under systematic errors the
control for the list is off by at most the sum of what the single controls are off. -/
theorem C132_errors_add (cs : List (DrivenControl ℝ)) (h : ∀ c ∈ cs, c.Constructed) (name : Option String) (j : DrivenControl ℝ)
    (hj : circuit cs name = .ok j) (Us : List M2) (hl : Us.length = cs.length) (hU : ∀ U ∈ Us, ‖U‖ ≤ 1) (e d : ℝ) :
    ‖evolution (withErrors e d j) - inTurn Us‖ ≤
      (List.zipWith (fun c U => ‖evolution (withErrors e d c) - U‖) cs Us).sum := by
  rw [(C132_evolution cs h name j hj).2.1 e d]
  refine (inTurn_dist _ _ (by simp [hl]) ?_ hU).trans (le_of_eq ?_)
  · intro U hU
    obtain ⟨c, -, rfl⟩ := List.mem_map.mp hU
    exact controlEvolution_norm _ _ _ _
  · rw [List.zipWith_map_left]

/-- **C132** If all the controls are insensitive to errors of the Rabi rates, or of the detuning, to first order, so is the control for the
list; likewise to second order. -/
theorem C132_insensitive (cs : List (DrivenControl ℝ)) (h : ∀ c ∈ cs, c.Constructed) (name : Option String) (j : DrivenControl ℝ)
    (hj : circuit cs name = .ok j) :
    ((∀ c ∈ cs, FirstOrderInsensitive fun e => evolution (withAmplitudeError e c)) →
      FirstOrderInsensitive fun e => evolution (withAmplitudeError e j)) ∧
    ((∀ c ∈ cs, SecondOrderInsensitive fun e => evolution (withAmplitudeError e c)) →
      SecondOrderInsensitive fun e => evolution (withAmplitudeError e j)) ∧
    ((∀ c ∈ cs, FirstOrderInsensitive fun d => evolution (withDetuningError d c)) →
      FirstOrderInsensitive fun d => evolution (withDetuningError d j)) ∧
    ((∀ c ∈ cs, SecondOrderInsensitive fun d => evolution (withDetuningError d c)) →
      SecondOrderInsensitive fun d => evolution (withDetuningError d j)) := by
  have key := (C132_evolution cs h name j hj).2.1
  have ka : (fun e => evolution (withAmplitudeError e j)) =
      fun e => inTurn ((cs.map fun c => fun e => evolution (withAmplitudeError e c)).map fun U => U e) := by
    funext e
    rw [← withErrors_amplitude, key, List.map_map]
    refine congrArg inTurn (List.map_congr_left fun c _ => ?_)
    rw [withErrors_amplitude]; rfl
  have kd : (fun d => evolution (withDetuningError d j)) =
      fun d => inTurn ((cs.map fun c => fun d => evolution (withDetuningError d c)).map fun U => U d) := by
    funext d
    rw [← withErrors_detuning, key, List.map_map]
    refine congrArg inTurn (List.map_congr_left fun c _ => ?_)
    rw [withErrors_detuning]; rfl
  rw [ka, kd]
  refine ⟨fun hc => inTurn_first _ ?_, fun hc => inTurn_second _ ?_, fun hc => inTurn_first _ ?_, fun hc => inTurn_second _ ?_⟩ <;>
  · intro U hU
    obtain ⟨c, hm, rfl⟩ := List.mem_map.mp hU
    exact hc c hm

/-- **C132** Gates: the composite pulses for a list of gates can be played as one control; if their schemes are exact, this control performs
the requested rotations in turn. -/
theorem C132_gates (Ω : ℝ) (gates : List (Gate ℝ)) (cs : List (DrivenControl ℝ)) (hc : Compiled Ω gates cs) (name : Option String) :
    ∃ j, circuit cs name = .ok j ∧ ((∀ g ∈ gates, g.scheme.Exact) → evolution j = requested gates) := by
  have h := compiled_constructed hc
  refine ⟨_, circuit_eq h name, fun hg => ?_⟩
  rw [(C132_evolution cs h name _ (circuit_eq h name)).1]
  unfold requested
  congr 1
  clear h
  induction hc with
  | nil => rfl
  | @cons g c gates cs hgc _ ih =>
    rw [List.map_cons, List.map_cons, ih fun g hm => hg g (by simp [hm])]
    congr 1
    have := hg g (by simp)
    cases hs : g.scheme <;> rw [hs] at hgc this
    case primitive => exact (C16_primitive _ _ _ _).2 _ hgc
    case bb1 => exact (C17_bb1 _ _ _ _).2 _ hgc
    case sk1 => exact (C18_sk1 _ _ _ _).2 _ hgc
    case corpse => exact (C19_corpse _ _ _ _).2 _ hgc
    case corpseInBB1 => exact (C21_corpse_in_bb1 _ _ _ _).2 _ hgc
    case corpseInSK1 => exact (C22_corpse_in_sk1 _ _ _ _).2 _ hgc
    all_goals exact this.elim

/-- what the gates are off, one by one, bounds what the circuit is off -/
theorem compiled_bound (Ω : ℝ) (gates : List (Gate ℝ)) (cs : List (DrivenControl ℝ)) (hc : Compiled Ω gates cs)
    (name : Option String) (j : DrivenControl ℝ) (hj : circuit cs name = .ok j) (e d : ℝ) (bound : Gate ℝ → ℝ)
    (hb : ∀ g ∈ gates, ∀ c, g.scheme.call g.angle Ω g.azimuth none = .ok c →
      ‖evolution (withErrors e d c) - rotation g.angle g.azimuth‖ ≤ bound g) :
    ‖evolution (withErrors e d j) - requested gates‖ ≤ (gates.map bound).sum := by
  have h := compiled_constructed hc
  have hlen : (gates.map fun g => rotation g.angle g.azimuth).length = cs.length := by
    rw [List.length_map]
    exact List.Forall₂.length_eq hc
  have hn : ∀ U ∈ gates.map (fun g => rotation g.angle g.azimuth), ‖U‖ ≤ 1 := by
    intro U hU
    obtain ⟨g, -, rfl⟩ := List.mem_map.mp hU
    exact (rotation_norm _ _).le
  have h1 := C132_errors_add cs h name j hj _ hlen hn e d
  have h2 := zipWith_sum_le hc (fun c U => ‖evolution (withErrors e d c) - U‖) (fun g => rotation g.angle g.azimuth) bound hb
  exact le_trans h1 h2

/-- **C132** A circuit of BB1 pulses: for every error `e` of the Rabi rates it is within the sum of `((θ/2 + 2π) |e|)³ / 6` over its gates of the
requested rotations; a circuit of SK1 pulses within the sum of `((θ/2 + 2π) |e|)² / 2`. -/
theorem C132_amplitude (Ω : ℝ) (gates : List (Gate ℝ)) (cs : List (DrivenControl ℝ)) (hc : Compiled Ω gates cs)
    (name : Option String) (j : DrivenControl ℝ) (hj : circuit cs name = .ok j) (e : ℝ) :
    ((∀ g ∈ gates, g.scheme = .bb1) → ‖evolution (withAmplitudeError e j) - requested gates‖ ≤
      (gates.map fun g => ((g.angle / 2 + 2 * Real.pi) * |e|) ^ 3 / 6).sum) ∧
    ((∀ g ∈ gates, g.scheme = .sk1) → ‖evolution (withAmplitudeError e j) - requested gates‖ ≤
      (gates.map fun g => ((g.angle / 2 + 2 * Real.pi) * |e|) ^ 2 / 2).sum) := by
  rw [← withErrors_amplitude]
  refine ⟨fun hs => compiled_bound Ω gates cs hc name j hj e 0 _ fun g hg c hgc => ?_,
    fun hs => compiled_bound Ω gates cs hc name j hj e 0 _ fun g hg c hgc => ?_⟩
  · rw [withErrors_amplitude]
    rw [hs g hg] at hgc
    exact C102_bb1 _ _ _ _ _ hgc e
  · rw [withErrors_amplitude]
    rw [hs g hg] at hgc
    exact C102_sk1 _ _ _ _ _ hgc e

/-- **C132** A circuit of CORPSE pulses: for every error `d` of the detuning it is within the sum of `((θ/2 + 2π - 2k) d/Ω)² / 2` over its gates
of the requested rotations, where `k = arcsin(sin(θ/2)/2)`. -/
theorem C132_detuning (Ω : ℝ) (gates : List (Gate ℝ)) (cs : List (DrivenControl ℝ)) (hc : Compiled Ω gates cs)
    (name : Option String) (j : DrivenControl ℝ) (hj : circuit cs name = .ok j) (d : ℝ) (hs : ∀ g ∈ gates, g.scheme = .corpse) :
    ‖evolution (withDetuningError d j) - requested gates‖ ≤
      (gates.map fun g => ((g.angle / 2 + 2 * Real.pi - 2 * corpseAngle g.angle) * |d| / Ω) ^ 2 / 2).sum := by
  rw [← withErrors_detuning]
  refine compiled_bound Ω gates cs hc name j hj 0 d _ fun g hg c hgc => ?_
  rw [withErrors_detuning]
  rw [hs g hg] at hgc
  exact C102_corpse _ _ _ _ _ hgc d

/-- **C132** Primitive pulses: `n` of them about the same axis are off by exactly `2 |sin(n θ e / 4)|`, so that the errors do add up. -/
theorem C132_primitive (Ω θ φ : ℝ) (n : ℕ) (cs : List (DrivenControl ℝ))
    (hc : Compiled Ω (List.replicate n ⟨.primitive, θ, φ⟩) cs) (name : Option String) (j : DrivenControl ℝ)
    (hj : circuit cs name = .ok j) (e : ℝ) :
    ‖evolution (withAmplitudeError e j) - requested (List.replicate n ⟨.primitive, θ, φ⟩)‖ = 2 * |Real.sin (n * θ * e / 4)| := by
  have h := compiled_constructed hc
  have hall : cs.map (fun c => evolution (withAmplitudeError e c)) = List.replicate n (rotation (θ * (1 + e)) φ) := by
    clear h hj
    induction n generalizing cs with
    | zero => cases hc; rfl
    | succ n ih =>
      rw [List.replicate_succ] at hc
      obtain _ | ⟨hg, hc⟩ := hc
      rw [List.map_cons, ih _ hc, List.replicate_succ]
      congr 1
      obtain ⟨⟨hΩ, -⟩, rfl⟩ := (newPrimitiveControl_spec θ Ω φ none).ok hg
      simp only [evolution_amplitude hΩ.ne', primitiveTable, List.map_cons, List.map_nil,
        tableEvolution_cons, tableEvolution_nil, one_mul]
      congr 1
      ring
  rw [← withErrors_amplitude, (C132_evolution cs h name j hj).2.1]
  simp only [withErrors_amplitude]
  rw [hall, requested, List.map_replicate, inTurn_replicate, inTurn_replicate, rotation_chord]
  congr 3
  ring

section
variable {r : Rounding}

/-- **C132** BB1 pulses that are computed and put together in floating-point arithmetic: the same bound, up to rounding. -/
theorem C132_bb1_rounded (Ω : Fl r) (gates : List (Gate (Fl r))) (cs : List (DrivenControl (Fl r))) (hc : Compiled Ω gates cs)
    (hs : ∀ g ∈ gates, g.scheme = .bb1) (h3 : ∀ g ∈ gates, g.angle.val ≤ 3 * Real.pi) (name : Option String) :
    ∃ j, circuit cs name = .ok j ∧ ∀ e : ℝ,
      ‖evolution (withAmplitudeError e (j.map Fl.val)) - inTurn (gates.map fun g => rotation g.angle.val g.azimuth.val)‖ ≤
        (gates.map fun g => ((g.angle.val / 2 + 2 * Real.pi) * |e|) ^ 3 / 6 +
          (|g.azimuth.val| + 75) * (g.angle.val / 2 + 2 * Real.pi + 2) * (1 + |e|) * r.u).sum := by
  have h := compiled_constructed hc
  refine ⟨_, circuit_eq h name, fun e => ?_⟩
  have hm : (chained cs name).map Fl.val = chained (cs.map fun c => c.map Fl.val) name := chained_map _ _ _
  have hl : ∀ c ∈ cs.map (fun c => c.map Fl.val), LevelArrays c := by
    intro c hm
    obtain ⟨b, hb, rfl⟩ := List.mem_map.mp hm
    obtain ⟨-, -, h1, h2, h3⟩ := constructed_checks (h b hb)
    exact ⟨by simpa [DrivenControl.map] using h1, by simpa [DrivenControl.map] using h2, by simpa [DrivenControl.map] using h3⟩
  rw [hm, ← withErrors_amplitude, chained_evolution_errors e 0 _ hl]
  refine (inTurn_dist _ _ (by simp [hc.length_eq]) ?_ ?_).trans ?_
  · intro U hU
    obtain ⟨c, -, rfl⟩ := List.mem_map.mp hU
    exact controlEvolution_norm _ _ _ _
  · intro U hU
    obtain ⟨g, -, rfl⟩ := List.mem_map.mp hU
    exact (rotation_norm _ _).le
  · clear h hm hl
    induction hc with
    | nil => simp
    | @cons g c gates cs hgc _ ih =>
      simp only [List.map_cons, List.zipWith_cons_cons, List.sum_cons]
      refine add_le_add ?_ (ih (fun g hm => hs g (by simp [hm])) fun g hm => h3 g (by simp [hm]))
      rw [withErrors_amplitude]
      rw [hs g (by simp)] at hgc
      exact C105_bb1 _ _ _ _ _ hgc (h3 g (by simp)) e

end

/-- A circuit of a BB1 pulse for π about x and one for π/2 about y, with maximum Rabi rate 2. -/
example : ∃ cs j, Compiled (2 : ℝ) [⟨.bb1, Real.pi, 0⟩, ⟨.bb1, Real.pi / 2, Real.pi / 2⟩] cs ∧ circuit cs none = .ok j ∧
    j.numberOfSegments = 8 ∧ evolution j = rotation (Real.pi / 2) (Real.pi / 2) * rotation Real.pi 0 := by
  have h1 : Scheme.bb1.call (Real.pi : ℝ) 2 0 none = .ok (ofTable 2 (bb1Table Real.pi 0) none) :=
    (newBB1Control_spec Real.pi 2 0 none).1 ⟨by norm_num, Real.pi_pos, by linarith [Real.pi_pos]⟩
  have h2 : Scheme.bb1.call (Real.pi / 2 : ℝ) 2 (Real.pi / 2) none =
      .ok (ofTable 2 (bb1Table (Real.pi / 2) (Real.pi / 2)) none) :=
    (newBB1Control_spec (Real.pi / 2) 2 (Real.pi / 2) none).1
      ⟨by norm_num, by linarith [Real.pi_pos], by linarith [Real.pi_pos]⟩
  have hc : Compiled (2 : ℝ) [⟨.bb1, Real.pi, 0⟩, ⟨.bb1, Real.pi / 2, Real.pi / 2⟩]
      [ofTable 2 (bb1Table Real.pi 0) none, ofTable 2 (bb1Table (Real.pi / 2) (Real.pi / 2)) none] :=
    .cons h1 (.cons h2 .nil)
  obtain ⟨j, hj, hev⟩ := C132_gates 2 _ _ hc none
  refine ⟨_, j, hc, hj, ?_, ?_⟩
  · rw [circuit_eq (compiled_constructed hc), Except.ok.injEq] at hj
    subst hj
    rfl
  · rw [hev (by simp [Scheme.Exact])]
    simp [requested, inTurn]

end OpenControls
