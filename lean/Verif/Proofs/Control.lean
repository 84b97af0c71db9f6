import Verif.Props.Construction
import Verif.Spec.Reachable
import Mathlib.Algebra.BigOperators.Group.List.Basic
import Mathlib.Algebra.Order.BigOperators.Group.List

/-!
# Helper lemmas about constructed controls and their accessors
-/

namespace OpenControls

set_option linter.unusedSectionVars false

open PyFloat Py

section
variable {α : Type} [Add α] [Sub α] [Mul α] [Div α] [Neg α] [PyFloat α]

theorem DrivenControl.Constructed.lengths {c : DrivenControl α} (h : c.Constructed) :
    c.rabiRates.length = c.numberOfSegments ∧ c.azimuthalAngles.length = c.numberOfSegments ∧
    c.detunings.length = c.numberOfSegments ∧ c.durations.length = c.numberOfSegments := by
  obtain ⟨t, r, a, d, n, h⟩ := h
  have := C02_stores_arguments t r a d n c h
  exact this.2.2.2.2.2.2

theorem cumsumFrom_length (acc : α) (l : List α) : (cumsumFrom acc l).length = l.length := by
  induction l generalizing acc with
  | nil => rfl
  | cons x xs ih => simp [cumsumFrom, ih]

theorem npCumsum_length (l : List α) : (npCumsum l).length = l.length := by
  cases l with
  | nil => rfl
  | cons x xs => simp [npCumsum, cumsumFrom_length]

theorem cumsumFrom_step (acc : α) (l : List α) (i : Nat) (d t t' : α)
    (hd : l[i]? = some d) (ht : (acc :: cumsumFrom acc l)[i]? = some t)
    (ht' : (cumsumFrom acc l)[i]? = some t') : t' = t + d := by
  induction l generalizing acc i with
  | nil => simp at hd
  | cons x xs ih =>
    cases i with
    | zero => simp [cumsumFrom] at hd ht ht'; subst hd ht ht'; rfl
    | succ i =>
      simp only [cumsumFrom, List.getElem?_cons_succ] at hd ht ht'
      exact ih (acc + x) i hd ht ht'

end

theorem DrivenControl.constructed_iff (c : DrivenControl ℝ) :
    c.Constructed ↔ (∀ t ∈ c.durations, 0 < t) ∧ c.rabiRates.length = c.durations.length ∧
      c.azimuthalAngles.length = c.durations.length ∧
      c.detunings.length = c.durations.length ∧ ∀ x ∈ c.rabiRates, 0 ≤ x := by
  constructor
  · intro h
    obtain ⟨h1, h2, h3, h4⟩ := h.lengths
    obtain ⟨t, r, a, d, n, h⟩ := h
    have hs := C02_stores_arguments t r a d n c h
    have ha := (C01_accepts_iff_real t r a d n).mp ⟨c, h⟩
    refine ⟨?_, h1.trans h4.symm, h2.trans h4.symm, h3.trans h4.symm, ?_⟩
    · rw [hs.1]; exact ha.1
    · rw [hs.2.1]
      cases r with
      | none =>
        intro x hx
        have := List.eq_of_mem_replicate hx
        simp [this]
      | some l => exact ha.2.2.2.2 l rfl
  · rintro ⟨h1, h2, h3, h4, h5⟩
    obtain ⟨c', hc'⟩ := (C01_accepts_iff_real c.durations (some c.rabiRates)
      (some c.azimuthalAngles) (some c.detunings) c.name).mpr
      ⟨h1, by simpa using h2, by simpa using h3, by simpa using h4, by simpa using h5⟩
    have hs := C02_stores_arguments _ _ _ _ _ _ hc'
    have : c' = c := by
      cases c; cases c'
      simp [Spec.orZeros] at hs ⊢
      tauto
    exact ⟨_, _, _, _, _, this ▸ hc'⟩

theorem foldl_max_spec (xs : List ℝ) (x : ℝ) :
    (xs.foldl npMaximum x = x ∨ xs.foldl npMaximum x ∈ xs) ∧ x ≤ xs.foldl npMaximum x ∧
      ∀ y ∈ xs, y ≤ xs.foldl npMaximum x := by
  induction xs generalizing x with
  | nil => simp
  | cons z zs ih =>
    simp only [List.foldl_cons, RealInst.npMaximum_eq, List.mem_cons]
    obtain ⟨h1, h2, h3⟩ := ih (max x z)
    refine ⟨?_, le_trans (le_max_left _ _) h2, ?_⟩
    · rcases h1 with h1 | h1
      · rw [h1]
        rcases max_choice x z with h | h
        · exact Or.inl h
        · exact Or.inr (Or.inl h)
      · exact Or.inr (Or.inr h1)
    · rintro y (rfl | hy)
      · exact le_trans (le_max_right _ _) h2
      · exact h3 y hy

theorem foldl_min_spec (xs : List ℝ) (x : ℝ) :
    (xs.foldl npMinimum x = x ∨ xs.foldl npMinimum x ∈ xs) ∧ xs.foldl npMinimum x ≤ x ∧
      ∀ y ∈ xs, xs.foldl npMinimum x ≤ y := by
  induction xs generalizing x with
  | nil => simp
  | cons z zs ih =>
    simp only [List.foldl_cons, RealInst.npMinimum_eq, List.mem_cons]
    obtain ⟨h1, h2, h3⟩ := ih (min x z)
    refine ⟨?_, le_trans h2 (min_le_left _ _), ?_⟩
    · rcases h1 with h1 | h1
      · rw [h1]
        rcases min_choice x z with h | h
        · exact Or.inl h
        · exact Or.inr (Or.inl h)
      · exact Or.inr (Or.inr h1)
    · rintro y (rfl | hy)
      · exact le_trans h2 (min_le_right _ _)
      · exact h3 y hy

/-- `np.amax` returns a number exactly if that number is the maximum. -/
theorem npAmax_ok_iff (l : List ℝ) (m : ℝ) :
    npAmax l = .ok m ↔ m ∈ l ∧ ∀ x ∈ l, x ≤ m := by
  cases l with
  | nil => simp [npAmax]
  | cons x xs =>
    obtain ⟨h1, h2, h3⟩ := foldl_max_spec xs x
    simp only [npAmax, Except.ok.injEq, List.mem_cons, forall_eq_or_imp]
    constructor
    · rintro rfl; exact ⟨h1, h2, h3⟩
    · rintro ⟨hm, hx, hxs⟩
      apply le_antisymm
      · rcases h1 with h1 | h1
        · rw [h1]; exact hx
        · exact hxs _ h1
      · rcases hm with rfl | hm
        · exact h2
        · exact h3 _ hm

theorem npAmin_ok_iff (l : List ℝ) (m : ℝ) :
    npAmin l = .ok m ↔ m ∈ l ∧ ∀ x ∈ l, m ≤ x := by
  cases l with
  | nil => simp [npAmin]
  | cons x xs =>
    obtain ⟨h1, h2, h3⟩ := foldl_min_spec xs x
    simp only [npAmin, Except.ok.injEq, List.mem_cons, forall_eq_or_imp]
    constructor
    · rintro rfl; exact ⟨h1, h2, h3⟩
    · rintro ⟨hm, hx, hxs⟩
      apply le_antisymm
      · rcases hm with rfl | hm
        · exact h2
        · exact h3 _ hm
      · rcases h1 with h1 | h1
        · rw [h1]; exact hx
        · exact hxs _ h1

theorem npAmax_exists {α : Type} [PyFloat α] {l : List α} (h : l ≠ []) :
    ∃ m, npAmax l = .ok m := by
  cases l with
  | nil => exact absurd rfl h
  | cons x xs => exact ⟨_, rfl⟩

theorem npAmin_exists {α : Type} [PyFloat α] {l : List α} (h : l ≠ []) :
    ∃ m, npAmin l = .ok m := by
  cases l with
  | nil => exact absurd rfl h
  | cons x xs => exact ⟨_, rfl⟩

theorem cumsumFrom_getElem? (acc : ℝ) (l : List ℝ) (i : ℕ) (h : i ≤ l.length) :
    (acc :: cumsumFrom acc l)[i]? = some (acc + (l.take i).sum) := by
  induction l generalizing acc i with
  | nil =>
    have : i = 0 := by simpa using h
    subst this; simp
  | cons x xs ih =>
    cases i with
    | zero => simp
    | succ i =>
      have := ih (acc + x) i (by simpa using h)
      simp only [cumsumFrom, List.getElem?_cons_succ, List.take_succ_cons, List.sum_cons] at this ⊢
      rw [this, add_assoc]

theorem npCumsum_eq (l : List ℝ) : npCumsum l = cumsumFrom 0 l := by
  cases l with
  | nil => rfl
  | cons x xs => simp [npCumsum, cumsumFrom]

theorem times_getElem? (c : DrivenControl ℝ) (i : ℕ) (h : i ≤ c.durations.length) :
    c.times[i]? = some ((c.durations.take i).sum) := by
  have := cumsumFrom_getElem? 0 c.durations i h
  rw [zero_add, ← npCumsum_eq] at this
  simpa [DrivenControl.times] using this

theorem amplitudes_getElem? (c : DrivenControl ℝ) (n : ℕ) (Ω φ Δ : ℝ)
    (hΩ : c.rabiRates[n]? = some Ω) (hφ : c.azimuthalAngles[n]? = some φ)
    (hΔ : c.detunings[n]? = some Δ) :
    c.amplitudes[n]? = some (Real.sqrt (Ω ^ 2 + Δ ^ 2)) := by
  have : Ω * Real.cos φ * (Ω * Real.cos φ) + Ω * Real.sin φ * (Ω * Real.sin φ) + Δ * Δ
      = Ω ^ 2 + Δ ^ 2 := by
    linear_combination Ω ^ 2 * Real.cos_sq_add_sin_sq φ
  simp [DrivenControl.amplitudes, DrivenControl.amplitudeX, DrivenControl.amplitudeY,
    List.getElem?_zipWith, hΩ, hφ, hΔ, this]

theorem amplitudes_length (c : DrivenControl ℝ) (h : c.Constructed) :
    c.amplitudes.length = c.numberOfSegments := by
  obtain ⟨h1, h2, h3, h4⟩ := h.lengths
  simp [DrivenControl.amplitudes, DrivenControl.amplitudeX, DrivenControl.amplitudeY, h1, h2, h3]

/-- Reading one segment of a constructed control. -/
theorem DrivenControl.Constructed.segment {α : Type} [Add α] [Sub α] [Mul α] [Div α] [Neg α]
    [PyFloat α] {c : DrivenControl α} (h : c.Constructed) {n : ℕ} (hn : n < c.numberOfSegments) :
    ∃ Ω φ Δ t, c.rabiRates[n]? = some Ω ∧ c.azimuthalAngles[n]? = some φ ∧
      c.detunings[n]? = some Δ ∧ c.durations[n]? = some t := by
  obtain ⟨h1, h2, h3, h4⟩ := h.lengths
  exact ⟨c.rabiRates[n], c.azimuthalAngles[n]'(by omega), c.detunings[n]'(by omega),
    c.durations[n]'(by omega), List.getElem?_eq_getElem _, List.getElem?_eq_getElem _,
    List.getElem?_eq_getElem _, List.getElem?_eq_getElem _⟩

end OpenControls
