import Verif.Proofs.Undo
import Verif.Props.Circuits
import Verif.Spec.RoundedAccessors

/-!
# C133: the control that undoes another control

`undo c name` calls the constructor with the reversed arrays of `c`, π added to the azimuthal angles and the opposite detunings.
-/

namespace OpenControls

open Spec PyFloat Py
open scoped Matrix.Norms.L2Operator

section
variable {α : Type} [Add α] [Sub α] [Mul α] [Div α] [Neg α] [PyFloat α]

/-- **C133** In any arithmetic: for every control the arrays that undo it are accepted. -/
theorem C133_accepted (c : DrivenControl α) (h : c.Constructed) (name : Option String) :
    ∃ u, undo c name = .ok u ∧ u.Constructed ∧ u.numberOfSegments = c.numberOfSegments ∧ u.durations = c.durations.reverse ∧
      u.rabiRates = c.rabiRates.reverse :=
  ⟨_, undo_eq h name, undo_constructed h name, by simp [DrivenControl.numberOfSegments, undone], rfl, rfl⟩

end

/-- **C133** The control undoes the other one, in either order, and does so for every error of the Rabi rates: the same error of both controls
cancels.  An error of the detuning does not cancel: what is undone is the control under the opposite error. -/
theorem C133_undoes (c : DrivenControl ℝ) (h : c.Constructed) (name : Option String) (u : DrivenControl ℝ)
    (hu : undo c name = .ok u) :
    u.duration = c.duration ∧
    (∀ e, evolution (withAmplitudeError e u) * evolution (withAmplitudeError e c) = 1 ∧
      evolution (withAmplitudeError e c) * evolution (withAmplitudeError e u) = 1) ∧
    (∀ e d, evolution (withErrors e d u) * evolution (withErrors e (-d) c) = 1) := by
  rw [undo_eq h, Except.ok.injEq] at hu
  subst hu
  have hl : LevelArrays c := (constructed_checks h).2.2
  refine ⟨by simp [DrivenControl.duration, undone], fun e => ?_, fun e d => undone_evolution_errors hl name e d⟩
  have := undone_evolution_errors hl name e 0
  rw [neg_zero, withErrors_amplitude, withErrors_amplitude] at this
  exact ⟨this, mul_eq_one_comm.mp this⟩

/-- **C133** A detuning error does not cancel: there are controls that, with a detuning error, are not undone. -/
theorem C133_detuning_remains : ∃ (c u : DrivenControl ℝ) (d : ℝ), c.Constructed ∧ undo c none = .ok u ∧
    evolution (withDetuningError d u) * evolution (withDetuningError d c) ≠ 1 := by
  have h : DrivenControl.Constructed (⟨[0], [0], [0], [1], none⟩ : DrivenControl ℝ) := by
    rw [DrivenControl.constructed_iff]; simp
  refine ⟨_, _, Real.pi, h, undo_eq h none, ?_⟩
  have e : ∀ φ Δ : ℝ, evolution (withDetuningError Real.pi (⟨[0], [φ], [Δ], [1], none⟩ : DrivenControl ℝ)) =
      segmentUnitary 0 φ (Δ + Real.pi) 1 := by
    intro φ Δ
    simp [evolution, withDetuningError, controlEvolution]
  have e1 : undone (⟨[0], [0], [0], [1], none⟩ : DrivenControl ℝ) none = ⟨[0], [0 + Real.pi], [-0], [1], none⟩ := rfl
  have hr : Real.pi ^ 2 = (0 : ℝ) ^ 2 + (0 + Real.pi) ^ 2 := by ring
  rw [e1, e, e, neg_zero, segmentUnitary_eq 0 _ _ 1 Real.pi hr Real.pi_ne_zero, segmentUnitary_eq 0 _ _ 1 Real.pi hr Real.pi_ne_zero,
    su2_mul]
  intro h
  have h := congrFun (congrFun h 0) 0
  simp [su2, Complex.ext_iff] at h
  norm_num at h

/-- **C133** Lists of controls followed by what undoes them, in opposite order: whatever the controls, and whatever the error of the Rabi rates,
nothing is done in the end. -/
theorem C133_echo (cs us : List (DrivenControl ℝ)) (h : ∀ c ∈ cs, c.Constructed) (name name' : Option String)
    (hu : List.Forall₂ (fun c u => undo c name = .ok u) cs us) :
    ∃ j, circuit (cs ++ us.reverse) name' = .ok j ∧ j.duration = 2 * (cs.map fun c => c.duration).sum ∧
      ∀ e, evolution (withAmplitudeError e j) = 1 := by
  have hus : us = cs.map fun c => undone c name := by
    clear name'
    induction hu with
    | nil => rfl
    | cons hcu _ ih =>
      rw [undo_eq (h _ (by simp)), Except.ok.injEq] at hcu
      rw [← hcu, ih fun c hc => h c (by simp [hc]), List.map_cons]
  subst hus
  have hall : ∀ c ∈ cs ++ (cs.map fun c => undone c name).reverse, c.Constructed := by
    intro c hc
    rcases List.mem_append.mp hc with hc | hc
    · exact h c hc
    · obtain ⟨b, hb, rfl⟩ := List.mem_map.mp (List.mem_reverse.mp hc)
      exact undo_constructed (h b hb) name
  refine ⟨_, circuit_eq hall name', ?_, fun e => ?_⟩
  · rw [(C132_evolution _ hall name' _ (circuit_eq hall name')).2.2, List.map_append, List.sum_append, List.map_reverse,
      List.sum_reverse, List.map_map]
    have : ((fun c : DrivenControl ℝ => c.duration) ∘ fun c => undone c name) = fun c => c.duration := by
      funext c
      simp [DrivenControl.duration, undone]
    rw [this]
    ring
  · rw [← withErrors_amplitude, (C132_evolution _ hall name' _ (circuit_eq hall name')).2.1, List.map_append, List.map_reverse,
      List.map_map]
    refine inTurn_undone cs _ _ fun c hc => ?_
    have := undone_evolution_errors (constructed_checks (h c hc)).2.2 name e 0
    rwa [neg_zero] at this

/-- **C133** The control that undoes another one is as insensitive to errors as the other one. -/
theorem C133_insensitive (c : DrivenControl ℝ) (h : c.Constructed) (name : Option String) (u : DrivenControl ℝ)
    (hu : undo c name = .ok u) :
    ((FirstOrderInsensitive fun e => evolution (withAmplitudeError e c)) →
      FirstOrderInsensitive fun e => evolution (withAmplitudeError e u)) ∧
    ((SecondOrderInsensitive fun e => evolution (withAmplitudeError e c)) →
      SecondOrderInsensitive fun e => evolution (withAmplitudeError e u)) ∧
    ((FirstOrderInsensitive fun d => evolution (withDetuningError d c)) →
      FirstOrderInsensitive fun d => evolution (withDetuningError d u)) ∧
    ((SecondOrderInsensitive fun d => evolution (withDetuningError d c)) →
      SecondOrderInsensitive fun d => evolution (withDetuningError d u)) := by
  rw [undo_eq h, Except.ok.injEq] at hu
  subst hu
  have hl : LevelArrays c := (constructed_checks h).2.2
  have ka : (fun e => evolution (withAmplitudeError e (undone c name))) = fun e => star (evolution (withAmplitudeError e c)) := by
    funext e
    have := undone_star hl name e 0
    rwa [neg_zero, withErrors_amplitude, withErrors_amplitude] at this
  have kd : (fun d => evolution (withDetuningError d (undone c name))) =
      fun d => star ((fun d => evolution (withDetuningError d c)) (-d)) := by
    funext d
    have := undone_star hl name 0 d
    rwa [withErrors_detuning, withErrors_detuning] at this
  rw [ka, kd]
  exact ⟨first_star, second_star, fun h => first_star (first_neg h), fun h => second_star (second_neg h)⟩

/-- **C133** Composite pulses: what undoes one that performs its rotation exactly performs the same rotation about the opposite axis.  For
primitive, SCROFULOUS and WAMF1 pulses it is the pulse of the same kind about the opposite axis. -/
theorem C133_schemes (s : Scheme) (θ Ω φ : ℝ) (n name : Option String) (c : DrivenControl ℝ) (hc : s.call θ Ω φ n = .ok c)
    (u : DrivenControl ℝ) (hu : undo c name = .ok u) :
    (s.Exact → evolution u = rotation θ (φ + Real.pi)) ∧ (s.Palindromic → s.call θ Ω (φ + Real.pi) name = .ok u) := by
  have h : c.Constructed := call_constructed _ _ _ _ _ _ hc
  refine ⟨fun hs => ?_, fun hs => ?_⟩
  · have h1 := ((C133_undoes c h name u hu).2.1 0).1
    have h2 : evolution c = rotation θ φ := by
      cases s
      case primitive => exact (C16_primitive _ _ _ _).2 _ hc
      case bb1 => exact (C17_bb1 _ _ _ _).2 _ hc
      case sk1 => exact (C18_sk1 _ _ _ _).2 _ hc
      case corpse => exact (C19_corpse _ _ _ _).2 _ hc
      case corpseInBB1 => exact (C21_corpse_in_bb1 _ _ _ _).2 _ hc
      case corpseInSK1 => exact (C22_corpse_in_sk1 _ _ _ _).2 _ hc
      all_goals exact hs.elim
    rw [← withErrors_amplitude, ← withErrors_amplitude, withErrors_none, withErrors_none, h2] at h1
    have h3 := segmentUnitary_opposite θ φ 0 1
    rw [neg_zero, segmentUnitary_resonant, segmentUnitary_resonant, mul_one] at h3
    calc evolution u = evolution u * (rotation θ φ * rotation θ (φ + Real.pi)) := by rw [h3, mul_one]
      _ = _ := by rw [← mul_assoc, h1, one_mul]
  · rw [undo_eq h, Except.ok.injEq] at hu
    subst hu
    cases s
    case primitive =>
      obtain ⟨hv, rfl⟩ := (newPrimitiveControl_spec θ Ω φ n).ok hc
      refine ((newPrimitiveControl_spec θ Ω (φ + Real.pi) name).1 hv).trans (congrArg _ ?_)
      simp [undone, ofTable, primitiveTable, PyFloat.pi]
    case scrofulous =>
      obtain ⟨hv, rfl⟩ := (newScrofulousControl_spec θ Ω φ n).ok hc
      refine ((newScrofulousControl_spec θ Ω (φ + Real.pi) name).1 hv).trans (congrArg _ ?_)
      simp [undone, ofTable, scrofulousTable, PyFloat.pi, add_right_comm]
    case wamf1 =>
      obtain ⟨hv, rfl⟩ := (newWamf1Control_spec θ Ω φ n).ok hc
      refine ((newWamf1Control_spec θ Ω (φ + Real.pi) name).1 hv).trans (congrArg _ ?_)
      simp [undone, wamf1Control, PyFloat.pi]
    all_goals exact hs.elim

section
variable {r : Rounding}

/-- **C133** In floating-point arithmetic only the addition of π is rounded: a control followed by what undoes it does nothing up to `u`, for
every error of the Rabi rates. -/
theorem C133_rounded (c : DrivenControl (Fl r)) (h : c.Constructed) (name : Option String) (A : ℝ)
    (hA : ∀ φ ∈ c.azimuthalAngles, |φ.val| ≤ A) (u : DrivenControl (Fl r)) (hu : undo c name = .ok u) (e : ℝ) (he : -1 ≤ e) :
    ‖evolution (withAmplitudeError e (u.map Fl.val)) * evolution (withAmplitudeError e (c.map Fl.val)) - 1‖ ≤
      (A + 7) / 2 * (1 + e) * totalRotation (c.map Fl.val) * r.u := by
  have hl := (constructed_checks h).2.2
  obtain ⟨hd, hr, -⟩ := constructed_checks h
  rw [undo_eq h, Except.ok.injEq] at hu
  subst hu
  have hl' : LevelArrays (c.map Fl.val) :=
    ⟨by simpa [DrivenControl.map] using hl.1, by simpa [DrivenControl.map] using hl.2.1, by simpa [DrivenControl.map] using hl.2.2⟩
  have hK : ∀ x : ℝ, |x| ≤ A → |r.rnd (x + r.rnd Real.pi) - (x + Real.pi)| ≤ (A + 7) * r.u := by
    intro x hx
    have h1 := r.close (x + r.rnd Real.pi)
    have h2 := r.close Real.pi
    rw [abs_of_pos Real.pi_pos] at h2
    have h3 := r.u_nonneg
    have h4 := r.u_le
    have h5 : |x + r.rnd Real.pi| ≤ A + 7 / 2 := by
      have := abs_add_le x (r.rnd Real.pi)
      have h6 : |r.rnd Real.pi| ≤ 7 / 2 := by
        have h7 := abs_sub_abs_le_abs_sub (r.rnd Real.pi) Real.pi
        rw [abs_of_pos Real.pi_pos] at h7
        have := Real.pi_lt_d2
        nlinarith
      linarith
    have h8 : |r.rnd (x + r.rnd Real.pi) - (x + Real.pi)| ≤ |r.rnd (x + r.rnd Real.pi) - (x + r.rnd Real.pi)| + |r.rnd Real.pi - Real.pi| := by
      rw [show r.rnd (x + r.rnd Real.pi) - (x + Real.pi) =
        (r.rnd (x + r.rnd Real.pi) - (x + r.rnd Real.pi)) + (r.rnd Real.pi - Real.pi) by ring]
      exact abs_add_le _ _
    have h9 := mul_le_mul_of_nonneg_left h5 h3
    have := Real.pi_lt_d2
    nlinarith
  have hback := undone_evolution_errors hl' name e 0
  rw [neg_zero, withErrors_amplitude, withErrors_amplitude] at hback
  have hW : ‖evolution (withAmplitudeError e (c.map Fl.val))‖ ≤ 1 := controlEvolution_norm _ _ _ _
  have hdist : ‖evolution (withAmplitudeError e ((undone c name).map Fl.val)) -
      evolution (withAmplitudeError e (undone (c.map Fl.val) name))‖ ≤ (A + 7) * r.u / 2 * ((1 + e) * totalRotation (c.map Fl.val)) := by
    have key := controlEvolution_azimuth_dist (fun x => r.rnd (x + r.rnd Real.pi)) (fun x => x + Real.pi) ((A + 7) * r.u)
      ((c.rabiRates.map Fl.val).reverse.map fun w => (1 + e) * w) (c.azimuthalAngles.map Fl.val).reverse
      ((c.detunings.map Fl.val).reverse.map fun x => -x) (c.durations.map Fl.val).reverse
      (fun x hx => by
        obtain ⟨y, hy, rfl⟩ := List.mem_map.mp (List.mem_reverse.mp hx)
        exact hK _ (hA y hy))
      (fun x hx => by
        obtain ⟨y, hy, rfl⟩ := List.mem_map.mp hx
        obtain ⟨z, hz, rfl⟩ := List.mem_map.mp (List.mem_reverse.mp hy)
        have := (Fl.ge_iff _ _).mp (hr z hz)
        simp only [Fl.val_lit, Rat.cast_zero, Rounding.rnd_zero] at this
        exact mul_nonneg (by linarith) this)
      (fun x hx => by
        obtain ⟨y, hy, rfl⟩ := List.mem_map.mp (List.mem_reverse.mp hx)
        have := (Fl.gt_iff _ _).mp (hd y hy)
        simp only [Fl.val_lit, Rat.cast_zero, Rounding.rnd_zero] at this
        exact this.le)
      (by simp [hl.1, hl.2.1]) (by simp [hl.1, hl.2.2]) (by simp [hl.1])
    have e1 : (List.zipWith (fun w t : ℝ => w * t) ((c.rabiRates.map Fl.val).reverse.map fun w => (1 + e) * w)
        (c.durations.map Fl.val).reverse).sum = (1 + e) * totalRotation (c.map Fl.val) := by
      rw [List.map_reverse, zipWith_reverse_eq _ (by simp [hl.1]), List.sum_reverse, List.zipWith_map_left]
      unfold totalRotation
      rw [show (c.map Fl.val).rabiRates = c.rabiRates.map Fl.val from rfl, show (c.map Fl.val).durations = c.durations.map Fl.val from rfl]
      generalize c.rabiRates.map Fl.val = ws
      generalize c.durations.map Fl.val = ts
      induction ws generalizing ts with
      | nil => simp
      | cons w ws ih =>
        cases ts with
        | nil => simp
        | cons t ts =>
          rw [List.zipWith_cons_cons, List.zipWith_cons_cons, List.sum_cons, List.sum_cons, ih]
          ring
    rw [e1] at key
    convert key using 3
    · simp only [evolution, withAmplitudeError, undone, DrivenControl.map, List.map_map, List.map_reverse]
      rfl
    · simp only [evolution, withAmplitudeError, undone, DrivenControl.map, List.map_map, List.map_reverse]
      rfl
  calc ‖evolution (withAmplitudeError e ((undone c name).map Fl.val)) * evolution (withAmplitudeError e (c.map Fl.val)) - 1‖
      = ‖(evolution (withAmplitudeError e ((undone c name).map Fl.val)) - evolution (withAmplitudeError e (undone (c.map Fl.val) name))) *
          evolution (withAmplitudeError e (c.map Fl.val))‖ := by rw [sub_mul, hback]
    _ ≤ _ := (norm_mul_le _ _).trans (mul_le_of_le_one_right (norm_nonneg _) hW)
    _ ≤ _ := hdist
    _ = _ := by ring

end

/-- A BB1 pulse and what undoes it. -/
example : ∃ c u : DrivenControl ℝ, Scheme.bb1.call Real.pi 2 0 none = .ok c ∧ undo c (some "back") = .ok u ∧ u.numberOfSegments = 4 ∧
    evolution u = rotation Real.pi (0 + Real.pi) := by
  have h1 : Scheme.bb1.call (Real.pi : ℝ) 2 0 none = .ok (ofTable 2 (bb1Table Real.pi 0) none) :=
    (newBB1Control_spec Real.pi 2 0 none).1 ⟨by norm_num, Real.pi_pos, by linarith [Real.pi_pos]⟩
  have hu := undo_eq (call_constructed _ _ _ _ _ _ h1) (some "back")
  exact ⟨_, _, h1, hu, rfl, (C133_schemes _ _ _ _ _ _ _ h1 _ hu).1 trivial⟩

end OpenControls
