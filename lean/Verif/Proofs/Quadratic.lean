import Verif.Proofs.Sequences

/-!
# The quadratic sequence
-/

namespace OpenControls

open Spec RealInst

theorem quadraticRows_eq (n₁ : ℕ) (T a : ℝ) (r : List ℝ) :
    (quadraticRows n₁ (a :: (r ++ [T]))).flatten =
      (quadraticTable n₁ T a r).map (fun p => p.1) ++ [T] := by
  induction r generalizing a with
  | nil =>
    simp [quadraticRows, quadraticTable, onAxis, uhrigOffsets_eq, Function.comp_def, add_comm]
  | cons b r ih =>
    simp only [List.cons_append, quadraticRows, List.flatten_cons, ih, quadraticTable]
    simp [onAxis, uhrigOffsets_eq, Function.comp_def, add_comm]

theorem quadratic_rabi (n₁ : ℕ) (T a : ℝ) (r : List ℝ) :
    (quadraticTable n₁ T a r).map (fun p => p.2.rabi) =
      (List.replicate r.length (List.replicate n₁ (0 : ℝ) ++ [Real.pi])).flatten ++
        List.replicate n₁ 0 := by
  induction r generalizing a with
  | nil => simp [quadraticTable, onAxis, Function.comp_def, Axis.rabi, uhrigTimes]
  | cons b r ih =>
    simp only [quadraticTable, List.map_append, List.map_cons, ih, List.length_cons,
      List.replicate_succ, List.flatten_cons]
    simp [onAxis, Function.comp_def, Axis.rabi, uhrigTimes]

theorem quadratic_detuning (n₁ : ℕ) (T a : ℝ) (r : List ℝ) :
    (quadraticTable n₁ T a r).map (fun p => p.2.detuning) =
      (List.replicate r.length (List.replicate n₁ Real.pi ++ [0])).flatten ++
        List.replicate n₁ Real.pi := by
  induction r generalizing a with
  | nil => simp [quadraticTable, onAxis, Function.comp_def, Axis.detuning, uhrigTimes]
  | cons b r ih =>
    simp only [quadraticTable, List.map_append, List.map_cons, ih, List.length_cons,
      List.replicate_succ, List.flatten_cons]
    simp [onAxis, Function.comp_def, Axis.detuning, uhrigTimes]

theorem quadratic_azimuthal (n₁ : ℕ) (T a : ℝ) (r : List ℝ) :
    (quadraticTable n₁ T a r).map (fun p => p.2.azimuthal) =
      List.replicate (quadraticTable n₁ T a r).length 0 := by
  rw [List.eq_replicate_iff]
  refine ⟨by simp, ?_⟩
  intro x hx
  obtain ⟨p, hp, rfl⟩ := List.mem_map.mp hx
  have : ∀ (r : List ℝ) (a : ℝ), ∀ p ∈ quadraticTable n₁ T a r, p.2.azimuthal = 0 := by
    intro r
    induction r with
    | nil =>
      intro a p hp
      simp only [quadraticTable, onAxis, List.mem_map] at hp
      obtain ⟨_, -, rfl⟩ := hp
      rfl
    | cons b r ih =>
      intro a p hp
      simp only [quadraticTable, onAxis, List.mem_append, List.mem_map, List.mem_cons] at hp
      rcases hp with ⟨_, -, rfl⟩ | rfl | hp
      · rfl
      · rfl
      · exact ih b p hp
  exact this r a p hp

theorem quadraticPulses_eq (T : ℝ) (n₁ n₂ : ℕ) :
    quadraticPulses T n₁ n₂ = tablePulses (quadraticTable n₁ T 0 (uhrigTimes T n₂)) := by
  unfold quadraticPulses tablePulses
  have hoff : (quadraticRows n₁ ([PyFloat.lit 0] ++ uhrigOffsets T n₂ ++ [T])).flatten.dropLast =
      (quadraticTable n₁ T 0 (uhrigTimes T n₂)).map (fun p => p.1) := by
    have := quadraticRows_eq n₁ T 0 (uhrigTimes T n₂)
    simp only [uhrigOffsets_eq, lit_eq, Rat.cast_zero, List.cons_append, List.nil_append]
    rw [this, List.dropLast_concat]
  simp only [hoff, quadratic_rabi, quadratic_detuning, quadratic_azimuthal]
  have hlen : (uhrigTimes T n₂).length = n₂ := by simp [uhrigTimes]
  congr 1
  · rw [List.range_succ, List.map_append, List.flatten_append]
    simp only [List.map_cons, List.map_nil, List.flatten_cons, List.flatten_nil, List.append_nil,
      lt_irrefl, if_false, hlen]
    rw [← List.append_assoc, List.dropLast_concat]
    congr 2
    · rw [List.eq_replicate_iff]
      refine ⟨by simp, ?_⟩
      intro x hx
      obtain ⟨i, hi, rfl⟩ := List.mem_map.mp hx
      rw [if_pos (List.mem_range.mp hi)]
      simp
    · simp
  · simp
  · rw [List.range_succ, List.map_append, List.flatten_append]
    simp only [List.map_cons, List.map_nil, List.flatten_cons, List.flatten_nil, List.append_nil,
      hlen]
    rw [← List.append_assoc, List.dropLast_concat]
    congr 2
    · rw [List.eq_replicate_iff]
      refine ⟨by simp, ?_⟩
      intro x hx
      obtain ⟨i, hi, rfl⟩ := List.mem_map.mp hx
      simp

theorem quadratic_ordered (n₁ : ℕ) (T a : ℝ) (r : List ℝ) (h : (a :: (r ++ [T])).Pairwise (· < ·)) :
    ((quadraticTable n₁ T a r).map fun p => p.1).Pairwise (· < ·) ∧
    ∀ t ∈ (quadraticTable n₁ T a r).map fun p => p.1, a < t ∧ t < T := by
  have inner : ∀ a b : ℝ, a < b → ((onAxis .z ((uhrigTimes (b - a) n₁).map (a + ·))).map
      fun p => p.1).Pairwise (· < ·) ∧
      ∀ t ∈ (onAxis .z ((uhrigTimes (b - a) n₁).map (a + ·))).map fun p => p.1, a < t ∧ t < b := by
    intro a b hab
    have ho := uhrig_ordered (sub_pos.mpr hab) n₁
    have e : (onAxis .z ((uhrigTimes (b - a) n₁).map (a + ·))).map (fun p => p.1) =
        (uhrigTimes (b - a) n₁).map (a + ·) := by simp [onAxis, Function.comp_def]
    rw [e]
    constructor
    · rw [List.pairwise_map]
      exact ho.1.imp fun h => by simpa using h
    · intro t ht
      obtain ⟨u, hu, rfl⟩ := List.mem_map.mp ht
      have := ho.2 u hu
      constructor <;> linarith
  induction r generalizing a with
  | nil =>
    simp only [List.nil_append, List.pairwise_cons, List.mem_singleton, forall_eq] at h
    exact inner a T h.1
  | cons b r ih =>
    rw [List.cons_append, List.pairwise_cons] at h
    have hab : a < b := h.1 b (by simp)
    have hbT : b < T := (List.pairwise_cons.mp h.2).1 T (by simp)
    obtain ⟨i1, i2⟩ := inner a b hab
    obtain ⟨j1, j2⟩ := ih b h.2
    simp only [quadraticTable, List.map_append, List.map_cons]
    constructor
    · rw [List.pairwise_append]
      refine ⟨i1, ?_, ?_⟩
      · rw [List.pairwise_cons]
        exact ⟨fun t ht => (j2 t ht).1, j1⟩
      · intro x hx y hy
        have := (i2 x hx).2
        rw [List.mem_cons] at hy
        rcases hy with rfl | hy
        · exact this
        · exact this.trans (j2 y hy).1
    · intro t ht
      rw [List.mem_append, List.mem_cons] at ht
      rcases ht with ht | rfl | ht
      · exact ⟨(i2 t ht).1, (i2 t ht).2.trans hbT⟩
      · exact ⟨hab, hbT⟩
      · exact ⟨hab.trans (j2 t ht).1, (j2 t ht).2⟩

theorem ordered_pairwise {T : ℝ} (hT : 0 < T) {times : List ℝ} (h : Ordered T times) :
    (0 :: (times ++ [T])).Pairwise (· < ·) := by
  rw [List.pairwise_cons, List.pairwise_append]
  refine ⟨?_, h.1, by simp, ?_⟩
  · intro t ht
    rw [List.mem_append, List.mem_singleton] at ht
    rcases ht with ht | rfl
    · exact (h.2 t ht).1
    · exact hT
  · intro x hx y hy
    rw [List.mem_singleton] at hy
    subst hy
    exact (h.2 x hx).2

theorem quadratic_times_ordered {T : ℝ} (hT : 0 < T) (n₁ n₂ : ℕ) :
    Ordered T ((quadraticTable n₁ T 0 (uhrigTimes T n₂)).map fun p => p.1) :=
  quadratic_ordered n₁ T 0 _ (ordered_pairwise hT (uhrig_ordered hT n₂))

theorem quadratic_length (n₁ : ℕ) (T a : ℝ) (r : List ℝ) :
    (quadraticTable n₁ T a r).length = n₁ + r.length * (n₁ + 1) := by
  induction r generalizing a with
  | nil => simp [quadraticTable, onAxis, uhrigTimes]
  | cons b r ih =>
    simp only [quadraticTable, List.length_append, List.length_cons, ih]
    simp [onAxis, uhrigTimes]
    ring

end OpenControls
