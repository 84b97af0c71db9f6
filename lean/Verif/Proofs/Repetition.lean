import Verif.Spec.Repetition
import Verif.Proofs.Optimal
import Verif.Proofs.Noise
import Verif.Proofs.Conversion
import Verif.Props.Construction

/-!
# Lemmas on sequences that are played several times
-/

namespace OpenControls

open Spec RealInst

/-! ### Sensitivity -/

/-- the times of `m` copies -/
noncomputable def copies (m : ℕ) (T : ℝ) (l : List ℝ) : List ℝ :=
  (List.range m).flatMap fun j : ℕ => l.map fun t => t + j * T

theorem copies_succ (m : ℕ) (T : ℝ) (l : List ℝ) :
    copies (m + 1) T l = copies m T l ++ l.map fun t => t + m * T := by
  simp [copies, List.range_succ]

theorem copies_mem {m : ℕ} {T : ℝ} {l : List ℝ} (hT : 0 < T) (h : ∀ t ∈ l, 0 ≤ t ∧ t ≤ T) {t : ℝ}
    (ht : t ∈ copies m T l) : 0 ≤ t ∧ t ≤ m * T := by
  induction m with
  | zero => simp [copies] at ht
  | succ m ih =>
    rw [copies_succ, List.mem_append] at ht
    push_cast
    rcases ht with ht | ht
    · obtain ⟨h1, h2⟩ := ih ht
      exact ⟨h1, by nlinarith⟩
    · obtain ⟨u, hu, rfl⟩ := List.mem_map.mp ht
      obtain ⟨h1, h2⟩ := h u hu
      exact ⟨by positivity, by linarith⟩

theorem copies_length (m : ℕ) (T : ℝ) (l : List ℝ) : (copies m T l).length = m * l.length := by
  induction m with
  | zero => simp [copies]
  | succ m ih => rw [copies_succ, List.length_append, ih, List.length_map]; ring

theorem switching_append (l l' : List ℝ) (t : ℝ) : switching (l ++ l') t = switching l t * switching l' t := by
  simp [switching, List.countP_append, pow_add]

theorem switching_after {l : List ℝ} {t : ℝ} (h : ∀ s ∈ l, s < t) : switching l t = (-1) ^ l.length := by
  unfold switching
  rw [List.countP_eq_length.mpr (by simpa using h)]

theorem switching_moved (l : List ℝ) (c t : ℝ) : switching (l.map fun s => s + c) (t + c) = switching l t := by
  unfold switching
  rw [List.countP_map]
  congr 1
  exact List.countP_congr fun s _ => by simp

theorem copies_integral {T : ℝ} (hT : 0 < T) {l : List ℝ} (h : ∀ t ∈ l, 0 ≤ t ∧ t ≤ T) {f : ℝ → ℝ} (hf : Continuous f)
    (m : ℕ) : ∫ t in 0..((m : ℝ) * T), switching (copies m T l) t * f t =
      ∑ j ∈ Finset.range m, (-1) ^ (j * l.length) * ∫ t in 0..T, switching l t * f (t + j * T) := by
  induction m with
  | zero => simp
  | succ m ih =>
    have hm : (0 : ℝ) ≤ m * T := by positivity
    have hle : (m : ℝ) * T ≤ ((m + 1 : ℕ) : ℝ) * T := by push_cast; linarith
    rw [Finset.sum_range_succ, ← ih,
      ← intervalIntegral.integral_add_adjacent_intervals (b := (m : ℝ) * T)
        (switching_integrable _ hf _)
        ((switching_integrable (copies (m + 1) T l) hf (((m + 1 : ℕ) : ℝ) * T)).mono_set (by
          rw [Set.uIcc_of_le hle, Set.uIcc_of_le (hm.trans hle)]
          exact Set.Icc_subset_Icc hm le_rfl))]
    congr 1
    · refine intervalIntegral.integral_congr_ae (Filter.Eventually.of_forall fun t ht => ?_)
      rw [Set.uIoc_of_le hm] at ht
      rw [copies_succ, switching_append, switching_eq_one (times := l.map fun t => t + m * T), mul_one]
      intro s hs
      obtain ⟨u, hu, rfl⟩ := List.mem_map.mp hs
      linarith [(h u hu).1, ht.2]
    · have e := intervalIntegral.integral_comp_add_right (a := 0) (b := T)
        (fun t => switching (copies (m + 1) T l) t * f t) (m * T)
      rw [zero_add, show T + m * T = ((m + 1 : ℕ) : ℝ) * T by push_cast; ring] at e
      rw [← e, ← intervalIntegral.integral_const_mul]
      refine intervalIntegral.integral_congr_ae (Filter.Eventually.of_forall fun t ht => ?_)
      rw [Set.uIoc_of_le hT.le] at ht
      rw [copies_succ, switching_append, switching_moved, switching_after, copies_length]
      · ring
      · intro s hs
        linarith [(copies_mem hT h hs).2, ht.1]

/-! ### Moments -/

theorem moved_moment {T : ℝ} (l : List ℝ) (c : ℝ) (k : ℕ) :
    ∫ t in 0..T, switching l t * (t + c) ^ k =
      ∑ i ∈ Finset.range (k + 1), (k.choose i * c ^ (k - i)) * ∫ t in 0..T, switching l t * t ^ i := by
  rw [show (fun t => switching l t * (t + c) ^ k) = fun t => ∑ i ∈ Finset.range (k + 1),
    (k.choose i * c ^ (k - i)) * (switching l t * t ^ i) by
      funext t; rw [add_pow, Finset.mul_sum]; exact Finset.sum_congr rfl fun i _ => by ring]
  rw [intervalIntegral.integral_finset_sum fun i _ => (switching_integrable l (continuous_pow i) T).const_mul _]
  simp only [intervalIntegral.integral_const_mul]

theorem alternating (m : ℕ) : ∑ j ∈ Finset.range m, (-1 : ℝ) ^ j = if Even m then 0 else 1 := by
  induction m with
  | zero => simp
  | succ m ih =>
    rw [Finset.sum_range_succ, ih]
    by_cases he : Even m
    · rw [if_pos he, if_neg (by simp [Nat.even_add_one, he]), he.neg_one_pow, zero_add]
    · rw [if_neg he, if_pos (by simp [Nat.even_add_one, he]), (Nat.not_even_iff_odd.mp he).neg_one_pow]; ring

theorem alternating_linear (r : ℕ) : ∑ j ∈ Finset.range (2 * r), (-1 : ℝ) ^ j * j = -r := by
  induction r with
  | zero => simp
  | succ r ih =>
    rw [show 2 * (r + 1) = 2 * r + 1 + 1 by ring, Finset.sum_range_succ, Finset.sum_range_succ, ih, pow_succ,
      pow_mul]
    push_cast
    norm_num
    ring

/-- the copies of a list of times that cancels `n` orders -/
theorem copies_moments {T : ℝ} (hT : 0 < T) {l : List ℝ} (h : ∀ t ∈ l, 0 ≤ t ∧ t ≤ T) {n : ℕ}
    (hz : ∀ k < n, ∫ t in 0..T, switching l t * t ^ k = 0) (m : ℕ) :
    (∀ k < n, ∫ t in 0..((m : ℝ) * T), switching (copies m T l) t * t ^ k = 0) ∧
    ∫ t in 0..((m : ℝ) * T), switching (copies m T l) t * t ^ n =
      (∑ j ∈ Finset.range m, (-1 : ℝ) ^ (j * l.length)) * ∫ t in 0..T, switching l t * t ^ n ∧
    ∫ t in 0..((m : ℝ) * T), switching (copies m T l) t * t ^ (n + 1) =
      (∑ j ∈ Finset.range m, (-1 : ℝ) ^ (j * l.length)) * (∫ t in 0..T, switching l t * t ^ (n + 1)) +
      (∑ j ∈ Finset.range m, (-1 : ℝ) ^ (j * l.length) * j) * ((n + 1) * T * ∫ t in 0..T, switching l t * t ^ n) := by
  have hlow : ∀ (c : ℝ) (k i : ℕ), i ≤ n → ∑ i ∈ Finset.range i, (k.choose i * c ^ (k - i)) *
      ∫ t in 0..T, switching l t * t ^ i = 0 := by
    intro c k i hi
    refine Finset.sum_eq_zero fun i' hi' => ?_
    rw [hz i' (by have := Finset.mem_range.mp hi'; omega), mul_zero]
  refine ⟨fun k hk => ?_, ?_, ?_⟩
  · rw [copies_integral hT h (continuous_pow k)]
    refine Finset.sum_eq_zero fun j _ => ?_
    rw [moved_moment, hlow _ _ _ hk, mul_zero]
  · rw [copies_integral hT h (continuous_pow n), Finset.sum_mul]
    refine Finset.sum_congr rfl fun j _ => ?_
    rw [moved_moment, Finset.sum_range_succ, hlow _ _ _ le_rfl]
    simp
  · rw [copies_integral hT h (continuous_pow (n + 1)), Finset.sum_mul, Finset.sum_mul, ← Finset.sum_add_distrib]
    refine Finset.sum_congr rfl fun j _ => ?_
    rw [moved_moment, Finset.sum_range_succ, Finset.sum_range_succ, hlow _ _ _ le_rfl]
    simp
    ring

/-! ### The arrays of the copies -/

theorem zip_copies {β : Type} (m : ℕ) (T : ℝ) (o : List ℝ) (r : List β) (h : r.length = o.length) :
    (copies m T o).zip (List.replicate m r).flatten =
      (List.range m).flatMap fun j : ℕ => (o.zip r).map fun p => (p.1 + j * T, p.2) := by
  induction m with
  | zero => simp [copies]
  | succ m ih =>
    rw [copies_succ, List.replicate_succ', List.flatten_append, List.zip_append, ih, List.range_succ,
      List.flatMap_append]
    · congr 1
      simp [List.zip_map_left]
    · rw [copies_length, List.length_flatten]; simp [h]

theorem zip_replicate {β γ : Type} (m : ℕ) (a : List β) (b : List γ) (h : a.length = b.length) :
    (List.replicate m a).flatten.zip (List.replicate m b).flatten = (List.replicate m (a.zip b)).flatten := by
  induction m with
  | zero => simp
  | succ m ih =>
    simp only [List.replicate_succ, List.flatten_cons]
    rw [List.zip_append h, ih]

theorem filter_copies {β : Type} (m : ℕ) (T : ℝ) (l : List (ℝ × β)) (P : β → Bool) :
    (((List.range m).flatMap fun j : ℕ => l.map fun p => (p.1 + j * T, p.2)).filter fun p => P p.2).map (fun p => p.1) =
      copies m T ((l.filter fun p => P p.2).map fun p => p.1) := by
  unfold copies
  rw [List.filter_flatMap, List.map_flatMap]
  congr 1
  funext j
  simp [List.filter_map, Function.comp_def]

/-- the sequence that is played `m` times -/
theorem played_eq {s : Sequence ℝ} (hs : s.Constructed) {m : ℕ} (hm : m ≠ 0) (name : Option String) :
    playedTimes m s name = .ok
      { duration := m * s.duration
        offsets := copies m s.duration s.offsets
        rabiRotations := (List.replicate m s.rabiRotations).flatten
        azimuthalAngles := (List.replicate m s.azimuthalAngles).flatten
        detuningRotations := (List.replicate m s.detuningRotations).flatten
        name := name } := by
  obtain ⟨hT, ho, hr, ha, hd⟩ := hs.facts
  have hm' : (0 : ℝ) < m := by exact_mod_cast Nat.pos_of_ne_zero hm
  obtain ⟨s', h'⟩ := (C33_accepts_iff_real (m * s.duration) (copies m s.duration s.offsets)
    (List.replicate m s.rabiRotations).flatten (List.replicate m s.azimuthalAngles).flatten
    (List.replicate m s.detuningRotations).flatten name).mpr
    ⟨by positivity, fun t ht => copies_mem hT ho ht, by simp [copies_length, hr], by simp [copies_length, ha],
      by simp [copies_length, hd]⟩
  have e : playedTimes m s name = .ok s' := h'
  obtain ⟨h1, h2, h3, h4, h5, h6⟩ := C33_stores_arguments _ _ _ _ _ _ _ h'
  rw [e]
  congr 1
  cases s'
  simp_all

open Classical in
theorem piPulseTimes_copies {s : Sequence ℝ} (hs : s.Constructed) (m : ℕ) (name : Option String) :
    piPulseTimes
      { duration := m * s.duration
        offsets := copies m s.duration s.offsets
        rabiRotations := (List.replicate m s.rabiRotations).flatten
        azimuthalAngles := (List.replicate m s.azimuthalAngles).flatten
        detuningRotations := (List.replicate m s.detuningRotations).flatten
        name := name } = copies m s.duration (piPulseTimes s) := by
  obtain ⟨-, -, hr, -, -⟩ := hs.facts
  unfold piPulseTimes
  rw [zip_copies _ _ _ _ hr]
  exact filter_copies m s.duration _ fun r => decide (r = Real.pi)

theorem piPulseTimes_within {s : Sequence ℝ} (hs : s.Constructed) : ∀ t ∈ piPulseTimes s, 0 ≤ t ∧ t ≤ s.duration := by
  intro t ht
  unfold piPulseTimes at ht
  obtain ⟨p, hp, rfl⟩ := List.mem_map.mp ht
  exact hs.facts.2.1 _ (List.of_mem_zip (List.mem_filter.mp hp).1).1

/-! ### Evolution -/

theorem interleave_append {free : ℝ → ℝ → M2} (hf : ∀ a b c, free b c * free a b = free a c) (T T' : ℝ) :
    ∀ (a : ℝ) (ts ωs φs δs ts' ωs' φs' δs' : List ℝ), ωs.length = ts.length → φs.length = ts.length →
      δs.length = ts.length →
      interleave free T' a (ts ++ ts') (ωs ++ ωs') (φs ++ φs') (δs ++ δs') =
        interleave free T' T ts' ωs' φs' δs' * interleave free T a ts ωs φs δs := by
  intro a ts
  induction ts generalizing a with
  | nil =>
    intro ωs φs δs ts' ωs' φs' δs' h1 h2 h3
    obtain rfl := List.length_eq_zero_iff.mp h1
    obtain rfl := List.length_eq_zero_iff.mp h2
    obtain rfl := List.length_eq_zero_iff.mp h3
    simp only [List.nil_append]
    rcases ts' with _ | ⟨t, ts'⟩ <;> rcases ωs' with _ | ⟨ω, ωs'⟩ <;> rcases φs' with _ | ⟨φ, φs'⟩ <;>
      rcases δs' with _ | ⟨δ, δs'⟩ <;> simp only [interleave, hf, Matrix.mul_assoc]
  | cons t ts ih =>
    intro ωs φs δs ts' ωs' φs' δs' h1 h2 h3
    obtain ⟨ω, ωs, rfl⟩ := List.exists_cons_of_length_eq_add_one h1
    obtain ⟨φ, φs, rfl⟩ := List.exists_cons_of_length_eq_add_one h2
    obtain ⟨δ, δs, rfl⟩ := List.exists_cons_of_length_eq_add_one h3
    simp only [List.cons_append, interleave]
    rw [ih t ωs φs δs ts' ωs' φs' δs' (by simpa using h1) (by simpa using h2) (by simpa using h3)]
    simp only [Matrix.mul_assoc]

theorem interleave_moved {free : ℝ → ℝ → M2} {c : ℝ} (hf : ∀ a b, free (a + c) (b + c) = free a b) (T : ℝ) :
    ∀ (a : ℝ) (ts ωs φs δs : List ℝ),
      interleave free (T + c) (a + c) (ts.map fun t => t + c) ωs φs δs = interleave free T a ts ωs φs δs := by
  intro a ts
  induction ts generalizing a with
  | nil => intro ωs φs δs; simp [interleave, hf]
  | cons t ts ih =>
    intro ωs φs δs
    rcases ωs with _ | ⟨ω, ωs⟩ <;> rcases φs with _ | ⟨φ, φs⟩ <;> rcases δs with _ | ⟨δ, δs⟩ <;>
      simp [interleave, hf, ih]

theorem interleave_copies {free : ℝ → ℝ → M2} (hf : ∀ a b c, free b c * free a b = free a c) (h1 : ∀ a, free a a = 1)
    {T : ℝ} (hp : ∀ a b, free (a + T) (b + T) = free a b) (o r a d : List ℝ) (hr : r.length = o.length)
    (ha : a.length = o.length) (hd : d.length = o.length) (m : ℕ) :
    interleave free (m * T) 0 (copies m T o) (List.replicate m r).flatten (List.replicate m a).flatten
      (List.replicate m d).flatten = interleave free T 0 o r a d ^ m := by
  have hp' : ∀ (m : ℕ) a b, free (a + m * T) (b + m * T) = free a b := by
    intro m
    induction m with
    | zero => simp
    | succ m ih =>
      intro a b
      push_cast
      rw [show a + (m + 1) * T = (a + m * T) + T by ring, show b + (m + 1) * T = (b + m * T) + T by ring, hp, ih]
  induction m with
  | zero => simp [copies, interleave, h1]
  | succ m ih =>
    rw [copies_succ, List.replicate_succ', List.replicate_succ', List.replicate_succ', List.flatten_append,
      List.flatten_append, List.flatten_append, interleave_append hf (m * T) _ _ _ _ _ _ _ _ _ _
        (by simp [copies_length, hr]) (by simp [copies_length, ha]) (by simp [copies_length, hd]), ih, pow_succ']
    congr 1
    have := interleave_moved (hp' m) T 0 o r a d
    simp only [List.flatten_cons, List.flatten_nil, List.append_nil]
    rw [← this]
    push_cast
    rw [zero_add, show (m + 1) * T = T + m * T by ring]

theorem staticNoise_comp (x y z a b c : ℝ) : staticNoise x y z b c * staticNoise x y z a b = staticNoise x y z a c := by
  unfold staticNoise
  rw [← Matrix.exp_add_of_commute]
  · congr 1
    rw [← add_smul]
    congr 1
    push_cast
    ring
  · exact ((Commute.refl _).smul_left _).smul_right _

end OpenControls
