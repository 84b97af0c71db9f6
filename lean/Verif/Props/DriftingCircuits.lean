import Verif.Proofs.DriftingCircuits
import Verif.Props.DriftingErrors
import Verif.Props.Circuits

/-!
# C136: a list of gates on hardware whose errors drift

`circuit cs name` is the control for the list `cs` (C132), `ErrantEvolution j e U` says that `U` solves Schrödinger's equation for the control
`j` on hardware with the errors `e` (C116), and `PlayedInTurn e 0 cs Us` that the controls `cs`, each played alone from the time on at which the
previous one ends, perform the operations `Us`.
-/

namespace OpenControls

open Spec RealInst Set
open scoped Matrix.Norms.L2Operator

/-- **C136** Whatever the errors do: the control for the list performs the operations of the single controls in turn, where each control meets the
errors of the time at which it is played. -/
theorem C136_in_turn (cs : List (DrivenControl ℝ)) (h : ∀ c ∈ cs, c.Constructed) (name : Option String) (j : DrivenControl ℝ)
    (hj : circuit cs name = .ok j) (e : DriftingErrors) (U : ℝ → M2) (hU : ErrantEvolution j e U) (Us : List M2)
    (hp : PlayedInTurn e 0 cs Us) : U j.durations.sum = inTurn Us := by
  rw [circuit_eq h, Except.ok.injEq] at hj
  subst hj
  obtain ⟨gss, h1, h2⟩ := chained_segments cs h name
  rw [h2] at hU ⊢
  obtain ⟨u0, cU, fU⟩ := errant_obeys.mp hU
  have := obeys_turns h1 0 Us hp (by rwa [zero_add]) fU
  rw [zero_add, u0, mul_one] at this
  exact this

/-- **C136** The single controls have such operations whenever the control for the list has an evolution; for errors that change continuously it
has one. -/
theorem C136_exists (cs : List (DrivenControl ℝ)) (h : ∀ c ∈ cs, c.Constructed) (name : Option String) (j : DrivenControl ℝ)
    (hj : circuit cs name = .ok j) (e : DriftingErrors) :
    (∀ U, ErrantEvolution j e U → ∃ Us, PlayedInTurn e 0 cs Us ∧ U j.durations.sum = inTurn Us) ∧
    (Continuous e.amplitude → Continuous e.phase → Continuous e.detuning → ∃ U, ErrantEvolution j e U) := by
  refine ⟨fun U hU => ?_, fun h1 h2 h3 => ?_⟩
  · have hj' := hj
    rw [circuit_eq h, Except.ok.injEq] at hj'
    subst hj'
    obtain ⟨gss, h1, h2⟩ := chained_segments cs h name
    have hU' := hU
    rw [h2] at hU'
    obtain ⟨u0, cU, fU⟩ := errant_obeys.mp hU'
    obtain ⟨Us, hp⟩ := obeys_played h1 0 (by rw [u0, star_one, one_mul]) (by rwa [zero_add]) fU
    exact ⟨Us, hp, C136_in_turn cs h name _ hj e U hU Us hp⟩
  · obtain ⟨U, hU, -⟩ := C116_exists j ⟨_, _, _, _, _, hj⟩ e h1 h2 h3
    exact ⟨U, hU⟩

/-- **C136** Errors add up: whatever operations `Ts` the controls should perform, the control for the list is off by at most the sum of what the
single controls are off when they are played. -/
theorem C136_errors_add (cs : List (DrivenControl ℝ)) (h : ∀ c ∈ cs, c.Constructed) (name : Option String) (j : DrivenControl ℝ)
    (hj : circuit cs name = .ok j) (e : DriftingErrors) (U : ℝ → M2) (hU : ErrantEvolution j e U) (Us Ts : List M2)
    (hp : PlayedInTurn e 0 cs Us) (hl : Ts.length = cs.length) (hT : ∀ T ∈ Ts, ‖T‖ ≤ 1) :
    ‖U j.durations.sum - inTurn Ts‖ ≤ (List.zipWith (fun V T => ‖V - T‖) Us Ts).sum := by
  rw [C136_in_turn cs h name j hj e U hU Us hp]
  exact inTurn_dist _ _ (by rw [playedInTurn_length hp, hl]) (playedInTurn_norm h hp) hT

theorem bb1_duration {θ Ω φ : ℝ} {name : Option String} {c : DrivenControl ℝ} (hc : newBB1Control θ Ω φ name = .ok c) :
    c.durations.sum = (θ + 4 * Real.pi) / Ω ∧ 0 < Ω ∧ 0 ≤ θ := by
  have hE := elapsed_constructed (call_constructed .bb1 _ _ _ _ _ hc)
  obtain ⟨⟨hΩ, h0, -⟩, rfl⟩ := (newBB1Control_spec θ Ω φ name).ok hc
  have hp := Real.pi_pos
  have hnn : ∀ p ∈ bb1Table θ φ, 0 ≤ p.1 := by
    intro p hp'
    simp only [bb1Table, List.mem_cons, List.not_mem_nil, or_false] at hp'
    rcases hp' with rfl | rfl | rfl | rfl <;> simp only <;> linarith
  have es : ((bb1Table θ φ).map Prod.fst).sum = θ + 4 * Real.pi := by
    simp only [bb1Table, List.map_cons, List.map_nil, List.sum_cons, List.sum_nil]
    ring
  refine ⟨?_, hΩ, h0.le⟩
  rw [← hE, elapsedTime_ofTable hΩ _ _ hnn, es]

theorem bb1_turns {e : DriftingErrors} {Ω E L P D T : ℝ} (hE : ∀ t ∈ Icc 0 T, |e.amplitude t| ≤ E)
    (hL : ∀ t ∈ Icc 0 T, ∀ s ∈ Icc 0 T, |e.amplitude t - e.amplitude s| ≤ L * |t - s|)
    (hP : ∀ t ∈ Icc 0 T, |e.phase t| ≤ P) (hD : ∀ t ∈ Icc 0 T, |e.detuning t| ≤ D) {gates : List (Gate ℝ)}
    {cs : List (DrivenControl ℝ)} (hcs : Compiled Ω gates cs) :
    (∀ g ∈ gates, g.scheme = .bb1) → ∀ (s : ℝ) (Us : List M2), 0 ≤ s → s + (cs.map fun c => c.durations.sum).sum ≤ T →
      PlayedInTurn e s cs Us →
      (List.zipWith (fun V T => ‖V - T‖) Us (gates.map fun g => rotation g.angle g.azimuth)).sum ≤
        (gates.map fun g => ((g.angle / 2 + 2 * Real.pi) * E) ^ 3 / 6 +
          (g.angle / 2 + 2 * Real.pi) * (L * ((g.angle + 4 * Real.pi) / Ω) + (1 + E) * P) +
          (g.angle + 4 * Real.pi) / (2 * Ω) * D).sum := by
  unfold Compiled at hcs
  induction hcs with
  | nil =>
    intro _ s Us _ _ hp
    cases hp
    simp
  | @cons g c gates cs hc hcs ih =>
    intro hg s Us h0 hT hp
    cases hp with
    | @cons _ _ _ V Us hV hp =>
      have hsch := hg g (by simp)
      rw [hsch] at hc
      have hc' : newBB1Control g.angle Ω g.azimuth none = .ok c := hc
      obtain ⟨hd, hΩ, hθ⟩ := bb1_duration hc'
      have hpi := Real.pi_pos
      have hpos : 0 ≤ c.durations.sum := by rw [hd]; positivity
      have hrest : 0 ≤ (cs.map fun c => c.durations.sum).sum := by
        refine List.sum_nonneg fun x hx => ?_
        obtain ⟨c', hc', rfl⟩ := List.mem_map.mp hx
        obtain ⟨i, hi, rfl⟩ := List.getElem_of_mem hc'
        have hi' : i < gates.length := by rw [hcs.length_eq]; exact hi
        have h1 := hcs.get hi' hi
        rw [hg _ (List.mem_cons_of_mem _ (List.get_mem _ _))] at h1
        obtain ⟨h2, h3, h4⟩ := bb1_duration (name := none) h1
        have h5 : cs[i].durations.sum = _ := h2
        rw [h5]
        positivity
      rw [List.map_cons, List.sum_cons] at hT
      have hs : s ∈ Icc 0 T := ⟨h0, by linarith⟩
      have hin : ∀ t ∈ Ico 0 c.durations.sum, s + t ∈ Icc 0 T := fun t ht => ⟨by linarith [ht.1], by linarith [ht.2]⟩
      have hL0 : 0 ≤ L ∨ c.durations.sum = 0 := by
        rcases hpos.eq_or_lt with h | h
        · exact .inr h.symm
        · refine .inl ?_
          have h1 := hL s hs (s + c.durations.sum) ⟨by linarith, by linarith⟩
          have h2 := (abs_nonneg _).trans h1
          have h3 : |s - (s + c.durations.sum)| = c.durations.sum := by
            rw [sub_add_cancel_left, abs_neg, abs_of_pos h]
          rw [h3] at h2
          exact nonneg_of_mul_nonneg_left h2 h
      have key := C116_bb1 g.angle Ω g.azimuth none c hc' (e.later s) V hV (e.amplitude s) (L * c.durations.sum) P D
        (fun t ht => by
          refine (hL _ (hin t ht) s hs).trans ?_
          rw [add_sub_cancel_left, abs_of_nonneg ht.1]
          rcases hL0 with h | h
          · exact mul_le_mul_of_nonneg_left ht.2.le h
          · have := ht.1.trans_lt ht.2
            linarith)
        (fun t ht => hP _ (hin t ht)) (fun t ht => hD _ (hin t ht))
      have hrec := ih (fun g hg' => hg g (by simp [hg'])) (s + c.durations.sum) Us (by linarith) (by linarith) hp
      have ha := hE s hs
      have hP0 : 0 ≤ P := (abs_nonneg _).trans (hP s hs)
      have hE0 : 0 ≤ E := (abs_nonneg _).trans ha
      have ha1 : |1 + e.amplitude s| ≤ 1 + E := (abs_add_le _ _).trans (by rw [abs_one]; linarith)
      have hx : 0 ≤ g.angle / 2 + 2 * Real.pi := by positivity
      have k1 : ((g.angle / 2 + 2 * Real.pi) * |e.amplitude s|) ^ 3 ≤ ((g.angle / 2 + 2 * Real.pi) * E) ^ 3 :=
        pow_le_pow_left₀ (by positivity) (mul_le_mul_of_nonneg_left ha hx) 3
      have k2 : (g.angle / 2 + 2 * Real.pi) * (L * c.durations.sum + |1 + e.amplitude s| * P) ≤
          (g.angle / 2 + 2 * Real.pi) * (L * c.durations.sum + (1 + E) * P) :=
        mul_le_mul_of_nonneg_left (add_le_add_right (mul_le_mul_of_nonneg_right ha1 hP0) _) hx
      simp only [List.map_cons, List.zipWith_cons_cons, List.sum_cons]
      rw [← hd]
      exact add_le_add (key.trans (by linarith)) hrec

/-- **C136** BB1 pulses for a list of gates, on hardware whose Rabi rate is off by at most `E` and whose error drifts by at most `L` per unit of
time, with phase errors up to `P` and detuning errors up to `D`: however long the list is and however far the error drifts, the
contribution of a gate with the angle `θ` is of third order in `E`, and of first order only in the drift during this gate, in `P` and in `D`. -/
theorem C136_bb1 (Ω : ℝ) (gates : List (Gate ℝ)) (hg : ∀ g ∈ gates, g.scheme = .bb1) (cs : List (DrivenControl ℝ))
    (hcs : Compiled Ω gates cs) (name : Option String) (j : DrivenControl ℝ) (hj : circuit cs name = .ok j) (e : DriftingErrors)
    (E L P D : ℝ) (hE : ∀ t ∈ Icc 0 j.durations.sum, |e.amplitude t| ≤ E)
    (hL : ∀ t ∈ Icc 0 j.durations.sum, ∀ s ∈ Icc 0 j.durations.sum, |e.amplitude t - e.amplitude s| ≤ L * |t - s|)
    (hP : ∀ t ∈ Icc 0 j.durations.sum, |e.phase t| ≤ P) (hD : ∀ t ∈ Icc 0 j.durations.sum, |e.detuning t| ≤ D)
    (U : ℝ → M2) (hU : ErrantEvolution j e U) :
    ‖U j.durations.sum - requested gates‖ ≤ (gates.map fun g =>
      ((g.angle / 2 + 2 * Real.pi) * E) ^ 3 / 6 +
        (g.angle / 2 + 2 * Real.pi) * (L * ((g.angle + 4 * Real.pi) / Ω) + (1 + E) * P) +
        (g.angle + 4 * Real.pi) / (2 * Ω) * D).sum := by
  have hcon := compiled_constructed hcs
  obtain ⟨Us, hp, -⟩ := (C136_exists cs hcon name j hj e).1 U hU
  have hsum : j.durations.sum = (cs.map fun c => c.durations.sum).sum := by
    rw [circuit_eq hcon, Except.ok.injEq] at hj
    rw [← hj]
    simp only [chained]
    clear * -
    induction cs with
    | nil => rfl
    | cons c cs ih => rw [List.flatMap_cons, List.sum_append, List.map_cons, List.sum_cons, ih]
  have h1 : ‖U j.durations.sum - inTurn (gates.map fun g => rotation g.angle g.azimuth)‖ ≤
      (List.zipWith (fun V T => ‖V - T‖) Us (gates.map fun g => rotation g.angle g.azimuth)).sum := by
    refine C136_errors_add cs hcon name j hj e U hU Us _ hp ?_ ?_
    · rw [List.length_map, hcs.length_eq]
    · intro T hT
      obtain ⟨g, -, rfl⟩ := List.mem_map.mp hT
      exact (rotation_norm _ _).le
  have h2 := bb1_turns hE hL hP hD hcs hg 0 Us le_rfl (by rw [zero_add, hsum]) hp
  unfold requested
  exact h1.trans h2

/-- Two BB1 gates on hardware whose Rabi rate error grows linearly. -/
example (rate : ℝ) : ∃ cs j U Us, Compiled (2 : ℝ) [⟨.bb1, Real.pi, 0⟩, ⟨.bb1, Real.pi / 2, Real.pi / 2⟩] cs ∧ circuit cs none = .ok j ∧
    j.numberOfSegments = 8 ∧ ErrantEvolution j ⟨fun t => rate * t, fun _ => 0, fun _ => 0⟩ U ∧
    PlayedInTurn ⟨fun t => rate * t, fun _ => 0, fun _ => 0⟩ 0 cs Us ∧ U j.durations.sum = inTurn Us ∧
    ∀ t s : ℝ, |rate * t - rate * s| ≤ |rate| * |t - s| := by
  have h1 : Scheme.bb1.call (Real.pi : ℝ) 2 0 none = .ok (ofTable 2 (bb1Table Real.pi 0) none) :=
    (newBB1Control_spec Real.pi 2 0 none).1 ⟨by norm_num, Real.pi_pos, by linarith [Real.pi_pos]⟩
  have h2 : Scheme.bb1.call (Real.pi / 2 : ℝ) 2 (Real.pi / 2) none =
      .ok (ofTable 2 (bb1Table (Real.pi / 2) (Real.pi / 2)) none) :=
    (newBB1Control_spec (Real.pi / 2) 2 (Real.pi / 2) none).1
      ⟨by norm_num, by linarith [Real.pi_pos], by linarith [Real.pi_pos]⟩
  have hc : Compiled (2 : ℝ) [⟨.bb1, Real.pi, 0⟩, ⟨.bb1, Real.pi / 2, Real.pi / 2⟩]
      [ofTable 2 (bb1Table Real.pi 0) none, ofTable 2 (bb1Table (Real.pi / 2) (Real.pi / 2)) none] :=
    .cons h1 (.cons h2 .nil)
  have hj := circuit_eq (compiled_constructed hc) none
  have hex := C136_exists _ (compiled_constructed hc) none _ hj ⟨fun t => rate * t, fun _ => 0, fun _ => 0⟩
  obtain ⟨U, hU⟩ := hex.2 (by fun_prop) continuous_const continuous_const
  obtain ⟨Us, hp, he⟩ := hex.1 U hU
  exact ⟨_, _, U, Us, hc, hj, rfl, hU, hp, he, fun t s => by rw [← mul_sub, abs_mul]⟩

end OpenControls
