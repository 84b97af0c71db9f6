import Verif.Proofs.HardwareFamilies

/-!
# Lemmas on the hardware quadratic sequences need
-/

namespace OpenControls

open Spec RealInst

/-- neighbours in a list of windows are a gap apart -/
def GapRel (μ : ℝ) (v u : ℝ × ℝ) : Prop := μ ≤ u.1 - v.2

/-- pulses of width `w` at sorted times between two windows -/
theorem chain_block {μ w : ℝ} {x y : ℝ × ℝ} {rest : List (ℝ × ℝ)} {times : List ℝ} (hne : times ≠ [])
    (hs : times.Pairwise (· < ·)) :
    (x :: ((times.map fun t => (t - w / 2, t + w / 2)) ++ y :: rest)).IsChain (GapRel μ) ↔
      ((∀ t ∈ times, w / 2 + x.2 + μ ≤ t ∧ w / 2 + μ ≤ y.1 - t) ∧
        ∀ a ∈ times, ∀ b ∈ times, a < b → w + μ ≤ b - a) ∧ (y :: rest).IsChain (GapRel μ) := by
  have h0 := chain_both_ends (μ := μ) (w := w) (e := 0) (T := y.1 - x.2) (times := times.map (· - x.2))
    (by simpa using hne) (by
      rw [List.pairwise_map]
      exact hs.imp fun h => by linarith)
  have e1 : ((0, (0 : ℝ)) :: (((times.map (· - x.2)).map fun t => (t - w / 2, t + w / 2)) ++
      [(y.1 - x.2 - 0, y.1 - x.2)])).IsChain (fun v u : ℝ × ℝ => μ ≤ u.1 - v.2) ↔
      (x :: ((times.map fun t => (t - w / 2, t + w / 2)) ++ [y])).IsChain (GapRel μ) := by
    obtain ⟨t, l, rfl⟩ := List.exists_cons_of_ne_nil hne
    clear h0 hs hne
    simp only [List.map_cons, List.cons_append, List.isChain_cons_cons]
    refine and_congr (by unfold GapRel; simp only; constructor <;> intro h <;> linarith) ?_
    induction l generalizing t with
    | nil =>
      simp only [List.map_nil, List.nil_append, List.isChain_cons_cons, List.isChain_singleton, and_true]
      unfold GapRel; simp only; constructor <;> intro h <;> linarith
    | cons u l ih =>
      simp only [List.map_cons, List.cons_append, List.isChain_cons_cons]
      exact and_congr (by unfold GapRel; simp only; constructor <;> intro h <;> linarith) (ih u)
  have e2 : (x :: ((times.map fun t => (t - w / 2, t + w / 2)) ++ y :: rest)).IsChain (GapRel μ) ↔
      (x :: ((times.map fun t => (t - w / 2, t + w / 2)) ++ [y])).IsChain (GapRel μ) ∧
        (y :: rest).IsChain (GapRel μ) := by
    have := List.isChain_split (R := GapRel μ) (c := y)
      (l₁ := x :: (times.map fun t => (t - w / 2, t + w / 2))) (l₂ := rest)
    simpa only [List.cons_append] using this
  rw [e2, ← e1, h0]
  refine and_congr_left fun _ => ?_
  constructor
  · rintro ⟨h1, h2⟩
    refine ⟨fun t ht => ?_, fun a ha b hb hab => ?_⟩
    · have := h1 (t - x.2) (List.mem_map_of_mem ht)
      constructor <;> linarith [this.1, this.2]
    · have := h2 (a - x.2) (List.mem_map_of_mem ha) (b - x.2) (List.mem_map_of_mem hb) (by linarith)
      linarith
  · rintro ⟨h1, h2⟩
    refine ⟨fun t ht => ?_, fun a ha b hb hab => ?_⟩
    · obtain ⟨t, ht', rfl⟩ := List.mem_map.mp ht
      have := h1 t ht'
      constructor <;> linarith [this.1, this.2]
    · obtain ⟨a, ha', rfl⟩ := List.mem_map.mp ha
      obtain ⟨b, hb', rfl⟩ := List.mem_map.mp hb
      have := h2 a ha' b hb' (by linarith)
      linarith

/-- The inner pulses of one interval from `a` to `b`, whose neighbours reach `p` into the interval from the left and
`q` from the right. -/
theorem chain_inner {μ w a b p q : ℝ} (hab : a < b) {n : ℕ} (hn : 1 ≤ n) {x y : ℝ × ℝ} (hx : x.2 = a + p)
    (hy : y.1 = b - q) (rest : List (ℝ × ℝ)) :
    (x :: ((((uhrigTimes (b - a) n).map (a + ·)).map fun t => (t - w / 2, t + w / 2)) ++ y :: rest)).IsChain
        (GapRel μ) ↔
      ((w / 2 + p + μ ≤ (b - a) * Real.sin (Real.pi / (2 * (n + 1))) ^ 2 ∧
        w / 2 + q + μ ≤ (b - a) * Real.sin (Real.pi / (2 * (n + 1))) ^ 2) ∧
      (2 ≤ n → w + μ ≤
        (b - a) * (Real.sin (Real.pi / (2 * (n + 1))) * Real.sin (3 * (Real.pi / (2 * (n + 1))))))) ∧
      (y :: rest).IsChain (GapRel μ) := by
  have hT : 0 < b - a := by linarith
  have ho := uhrig_ordered hT n
  have hsym := uhrig_symmetric (b - a) n
  have hne : uhrigTimes (b - a) n ≠ [] := by
    unfold uhrigTimes
    rw [Ne, List.map_eq_nil_iff, List.range'_eq_nil_iff]; omega
  have hmir : ∀ t ∈ uhrigTimes (b - a) n, (b - a) - t ∈ uhrigTimes (b - a) n := by
    intro t ht
    have : (b - a) - t ∈ (uhrigTimes (b - a) n).map (b - a - ·) := List.mem_map_of_mem (f := (b - a - ·)) ht
    rw [← hsym] at this
    exact List.mem_reverse.mp this
  rw [chain_block (by simpa using hne) (by
    rw [List.pairwise_map]; exact ho.1.imp fun h => by linarith)]
  refine and_congr_left fun _ => ?_
  have hE := fun E B => spaced_uhrig hT hn E B
  constructor
  · rintro ⟨h1, h2⟩
    have k1 : TimesSpaced (b - a) (w / 2 + p + μ) (w + μ) (uhrigTimes (b - a) n) := by
      refine ⟨fun t ht => ⟨?_, ?_⟩, fun t ht u hu htu => ?_⟩
      · have := (h1 _ (List.mem_map_of_mem (f := (a + ·)) ht)).1
        rw [hx] at this; linarith
      · have := (h1 _ (List.mem_map_of_mem (f := (a + ·)) (hmir t ht))).1
        rw [hx] at this; linarith
      · have := h2 _ (List.mem_map_of_mem (f := (a + ·)) ht) _ (List.mem_map_of_mem (f := (a + ·)) hu)
          (by linarith)
        linarith
    have k2 : TimesSpaced (b - a) (w / 2 + q + μ) (w + μ) (uhrigTimes (b - a) n) := by
      refine ⟨fun t ht => ⟨?_, ?_⟩, k1.2⟩
      · have := (h1 _ (List.mem_map_of_mem (f := (a + ·)) (hmir t ht))).2
        rw [hy] at this; linarith
      · have := (h1 _ (List.mem_map_of_mem (f := (a + ·)) ht)).2
        rw [hy] at this; linarith
    rw [hE] at k1 k2
    exact ⟨⟨k1.1, k2.1⟩, k1.2⟩
  · rintro ⟨⟨h1, h2⟩, h3⟩
    have k1 := (hE (w / 2 + p + μ) (w + μ)).mpr ⟨h1, h3⟩
    have k2 := (hE (w / 2 + q + μ) (w + μ)).mpr ⟨h2, h3⟩
    refine ⟨fun t ht => ?_, fun t ht u hu htu => ?_⟩
    · obtain ⟨t, ht', rfl⟩ := List.mem_map.mp ht
      have g1 := (k1.1 t ht').1
      have g2 := (k2.1 t ht').2
      rw [hx, hy]
      constructor <;> linarith
    · obtain ⟨t, ht', rfl⟩ := List.mem_map.mp ht
      obtain ⟨u, hu', rfl⟩ := List.mem_map.mp hu
      have := k1.2 t ht' u hu' (by linarith)
      linarith

/-- the window of a pulse of the given axis: `w` wide in the plane, `z` wide about Z -/
noncomputable def axisWindow (w z : ℝ) (p : ℝ × Axis) : ℝ × ℝ :=
  if p.2 = .z then (p.1 - z / 2, p.1 + z / 2) else (p.1 - w / 2, p.1 + w / 2)

/-- the conditions of all intervals of a quadratic sequence: in each the inner pulses have room -/
def IntervalsRoom (n : ℕ) (T w z μ e : ℝ) : ℝ → ℝ → List ℝ → Prop
  | a, p, [] => (z / 2 + p + μ ≤ (T - a) * Real.sin (Real.pi / (2 * (n + 1))) ^ 2 ∧
      z / 2 + e + μ ≤ (T - a) * Real.sin (Real.pi / (2 * (n + 1))) ^ 2) ∧
      (2 ≤ n → z + μ ≤ (T - a) * (Real.sin (Real.pi / (2 * (n + 1))) * Real.sin (3 * (Real.pi / (2 * (n + 1))))))
  | a, p, b :: r => ((z / 2 + p + μ ≤ (b - a) * Real.sin (Real.pi / (2 * (n + 1))) ^ 2 ∧
      z / 2 + w / 2 + μ ≤ (b - a) * Real.sin (Real.pi / (2 * (n + 1))) ^ 2) ∧
      (2 ≤ n → z + μ ≤ (b - a) * (Real.sin (Real.pi / (2 * (n + 1))) * Real.sin (3 * (Real.pi / (2 * (n + 1))))))) ∧
      IntervalsRoom n T w z μ e b (w / 2) r

theorem chain_quadratic {n : ℕ} (hn : 1 ≤ n) {T w z μ e : ℝ} (r : List ℝ) (a p : ℝ) (x : ℝ × ℝ)
    (hx : x.2 = a + p) (hs : (a :: (r ++ [T])).Pairwise (· < ·)) :
    (x :: ((quadraticTable n T a r).map (axisWindow w z) ++ [(T - e, T)])).IsChain (GapRel μ) ↔
      IntervalsRoom n T w z μ e a p r := by
  have hz : ∀ ts : List ℝ, (onAxis .z ts).map (axisWindow w z) = ts.map fun t => (t - z / 2, t + z / 2) := by
    intro ts
    simp [onAxis, axisWindow, Function.comp_def]
  induction r generalizing a p x with
  | nil =>
    have haT : a < T := (List.pairwise_cons.mp hs).1 T (by simp)
    rw [quadraticTable, hz, chain_inner haT hn hx (y := (T - e, T)) rfl []]
    simp only [List.isChain_singleton, and_true, IntervalsRoom]
  | cons b r ih =>
    have hs' := List.pairwise_cons.mp hs
    have hab : a < b := hs'.1 b (by simp)
    rw [quadraticTable, List.map_append, List.map_cons, hz, List.append_assoc, List.cons_append]
    have hb : axisWindow w z (b, .x) = (b - w / 2, b + w / 2) := by simp [axisWindow]
    rw [hb]
    exact (chain_inner hab hn hx (y := (b - w / 2, b + w / 2)) (q := w / 2) rfl _).trans
      (and_congr_right fun _ => ih b (w / 2) (b - w / 2, b + w / 2) rfl hs'.2)

/-- If no interval is shorter than the first, the first decides. -/
theorem intervals_room {n : ℕ} (hn : 1 ≤ n) {T w z μ e L : ℝ} (r : List ℝ) (a p : ℝ)
    (hL : (a :: (r ++ [T])).Pairwise fun c d => L ≤ d - c)
    (h1 : z / 2 + p + μ ≤ L * Real.sin (Real.pi / (2 * (n + 1))) ^ 2)
    (h2 : z / 2 + w / 2 + μ ≤ L * Real.sin (Real.pi / (2 * (n + 1))) ^ 2)
    (h2' : z / 2 + e + μ ≤ L * Real.sin (Real.pi / (2 * (n + 1))) ^ 2)
    (h3 : 2 ≤ n → z + μ ≤ L * (Real.sin (Real.pi / (2 * (n + 1))) * Real.sin (3 * (Real.pi / (2 * (n + 1)))))) :
    IntervalsRoom n T w z μ e a p r := by
  have hpi := Real.pi_pos
  have hn1 : (1 : ℝ) ≤ n := by exact_mod_cast hn
  have hα : (2 * (n : ℝ) + 2) * (Real.pi / (2 * (n + 1))) = Real.pi := by field_simp
  have hα0 : 0 < Real.pi / (2 * ((n : ℝ) + 1)) := by positivity
  have hs1 : 0 ≤ Real.sin (Real.pi / (2 * ((n : ℝ) + 1))) :=
    Real.sin_nonneg_of_nonneg_of_le_pi hα0.le (by nlinarith)
  have hs3 : 0 ≤ Real.sin (3 * (Real.pi / (2 * ((n : ℝ) + 1)))) :=
    Real.sin_nonneg_of_nonneg_of_le_pi (by positivity) (by nlinarith)
  have up1 : ∀ d, L ≤ d → ∀ v, v ≤ L * Real.sin (Real.pi / (2 * ((n : ℝ) + 1))) ^ 2 →
      v ≤ d * Real.sin (Real.pi / (2 * ((n : ℝ) + 1))) ^ 2 :=
    fun d hd v hv => hv.trans (mul_le_mul_of_nonneg_right hd (by positivity))
  have up2 : ∀ d, L ≤ d → (2 ≤ n → z + μ ≤
      d * (Real.sin (Real.pi / (2 * ((n : ℝ) + 1))) * Real.sin (3 * (Real.pi / (2 * (n + 1)))))) :=
    fun d hd h => (h3 h).trans (mul_le_mul_of_nonneg_right hd (by positivity))
  induction r generalizing a p with
  | nil =>
    have hd := (List.pairwise_cons.mp hL).1 T (by simp)
    exact ⟨⟨up1 _ hd _ h1, up1 _ hd _ h2'⟩, up2 _ hd⟩
  | cons b r ih =>
    have hd := (List.pairwise_cons.mp hL).1 b (by simp)
    exact ⟨⟨⟨up1 _ hd _ h1, up1 _ hd _ h2⟩, up2 _ hd⟩, ih b (w / 2) (List.pairwise_cons.mp hL).2 h2⟩

theorem uhrig_intervals {T : ℝ} (hT : 0 < T) {n : ℕ} (hn : 1 ≤ n) :
    (0 :: (uhrigTimes T n ++ [T])).Pairwise
      fun c d => T * Real.sin (Real.pi / (2 * (n + 1))) ^ 2 ≤ d - c := by
  have hpi := Real.pi_pos
  have hn1 : (1 : ℝ) ≤ n := by exact_mod_cast hn
  have hα : (2 * (n : ℝ) + 2) * (Real.pi / (2 * (n + 1))) = Real.pi := by field_simp
  have hα0 : 0 < Real.pi / (2 * ((n : ℝ) + 1)) := by positivity
  have hs1 : 0 ≤ Real.sin (Real.pi / (2 * ((n : ℝ) + 1))) :=
    Real.sin_nonneg_of_nonneg_of_le_pi hα0.le (by nlinarith)
  have hsp := (spaced_uhrig hT hn (T * Real.sin (Real.pi / (2 * (n + 1))) ^ 2)
    (T * Real.sin (Real.pi / (2 * (n + 1))) ^ 2)).mpr ⟨le_rfl, fun h => by
      have h2 : (2 : ℝ) ≤ n := by exact_mod_cast h
      have : Real.sin (Real.pi / (2 * ((n : ℝ) + 1))) ≤ Real.sin (3 * (Real.pi / (2 * ((n : ℝ) + 1)))) := by
        apply Real.sin_le_sin_of_le_of_le_pi_div_two <;> nlinarith
      rw [pow_two]
      gcongr⟩
  have ho := uhrig_ordered hT n
  have hsin : Real.sin (Real.pi / (2 * ((n : ℝ) + 1))) ^ 2 ≤ 1 := by
    have := Real.sin_sq_add_cos_sq (Real.pi / (2 * ((n : ℝ) + 1)))
    nlinarith [sq_nonneg (Real.cos (Real.pi / (2 * ((n : ℝ) + 1))))]
  rw [List.pairwise_cons, List.pairwise_append]
  refine ⟨fun d hd => ?_, ?_, List.pairwise_singleton _ _, fun c hc d hd => ?_⟩
  · rcases List.mem_append.mp hd with hd | hd
    · rw [sub_zero]; exact (hsp.1 d hd).1
    · rw [List.mem_singleton.mp hd, sub_zero]; nlinarith
  · refine ho.1.imp_of_mem fun {c d} hc hd hcd => hsp.2 c hc d hd hcd
  · rw [List.mem_singleton.mp hd]; exact (hsp.1 c hc).2

/-- the first interval decides -/
theorem quadratic_room {T : ℝ} (hT : 0 < T) {n₁ n₂ : ℕ} (h₁ : 1 ≤ n₁) (h₂ : 1 ≤ n₂) (w z μ e : ℝ) :
    IntervalsRoom n₁ T w z μ e 0 e (uhrigTimes T n₂) ↔
      z / 2 + e + μ ≤ T * Real.sin (Real.pi / (2 * (n₂ + 1))) ^ 2 * Real.sin (Real.pi / (2 * (n₁ + 1))) ^ 2 ∧
      z / 2 + w / 2 + μ ≤
        T * Real.sin (Real.pi / (2 * (n₂ + 1))) ^ 2 * Real.sin (Real.pi / (2 * (n₁ + 1))) ^ 2 ∧
      (2 ≤ n₁ → z + μ ≤ T * Real.sin (Real.pi / (2 * (n₂ + 1))) ^ 2 *
        (Real.sin (Real.pi / (2 * (n₁ + 1))) * Real.sin (3 * (Real.pi / (2 * (n₁ + 1)))))) := by
  constructor
  · intro h
    obtain ⟨k, rfl⟩ : ∃ k, n₂ = k + 1 := ⟨n₂ - 1, by omega⟩
    have e1 : uhrigTimes T (k + 1) = T * Real.sin (Real.pi / (2 * (((k + 1 : ℕ) : ℝ) + 1))) ^ 2 ::
        (List.range' 2 k).map fun i : ℕ => T * Real.sin (i * Real.pi / (2 * (((k + 1 : ℕ) : ℝ) + 1))) ^ 2 := by
      unfold uhrigTimes
      rw [List.range'_succ, List.map_cons, Nat.cast_one, one_mul]
    rw [e1] at h
    obtain ⟨⟨⟨g1, g2⟩, g3⟩, -⟩ := h
    rw [sub_zero] at g1 g2 g3
    exact ⟨g1, g2, g3⟩
  · rintro ⟨g1, g2, g3⟩
    exact intervals_room h₁ _ 0 e (uhrig_intervals hT h₂) g1 g2 g1 g3

/-! ### Windows of a table -/

theorem width_axis (R D m t : ℝ) (axis : Axis) :
    width R D m ⟨t, axis.rabi, axis.azimuthal, axis.detuning⟩ =
      if axis = .z then zTime D m else piTime R m := by
  have h0 : Negligible (0 : ℝ) := by unfold Negligible; rw [abs_zero]; norm_num
  have k1 : ∀ p : Pulse, ¬ Negligible p.rabi → width R D m p = max (p.rabi / R) m := fun p h => if_pos h
  have k2 : ∀ p : Pulse, Negligible p.rabi → ¬ Negligible p.detuning →
      width R D m p = max (|p.detuning| / D) m := fun p h h' => by
    unfold width; rw [if_neg (not_not.mpr h), if_pos h']
  cases axis with
  | x => exact k1 _ not_negligible_pi
  | y => exact k1 _ not_negligible_pi
  | z =>
    refine (k2 _ h0 not_negligible_pi).trans ?_
    show max (|Real.pi| / D) m = _
    rw [abs_of_pos Real.pi_pos]; rfl

theorem pulseList_table (T : ℝ) (table : List (ℝ × Axis)) (name : Option String) :
    pulseList (piSequence T table name) =
      table.map fun p => ⟨p.1, p.2.rabi, p.2.azimuthal, p.2.detuning⟩ := by
  unfold pulseList piSequence
  induction table with
  | nil => rfl
  | cons t l ih =>
    simp only [List.map_cons, List.zip_cons_cons, List.zipWith_cons_cons] at ih ⊢
    rw [ih]

theorem map_window_table {T R D m : ℝ} {table : List (ℝ × Axis)} (h : ∀ p ∈ table, 0 < p.1 ∧ p.1 < T) :
    (table.map fun p => (⟨p.1, p.2.rabi, p.2.azimuthal, p.2.detuning⟩ : Pulse)).map (window T R D m) =
      table.map (axisWindow (piTime R m) (zTime D m)) := by
  rw [List.map_map]
  refine List.map_congr_left fun p hp => ?_
  obtain ⟨h1, h2⟩ := h p hp
  simp only [Function.comp, window, if_neg h1.ne', if_neg h2.ne, width_axis, axisWindow]
  split <;> rfl

theorem windows_table {T R D m : ℝ} (hT : 0 < T) {table : List (ℝ × Axis)}
    (h : ∀ p ∈ table, 0 < p.1 ∧ p.1 < T) (prePost : Bool) (name : Option String) :
    windows R D m (finished T table prePost name) =
      (0, endTime R m prePost) :: (table.map (axisWindow (piTime R m) (zTime D m)) ++
        [(T - endTime R m prePost, T)]) := by
  cases prePost with
  | false =>
    show windows R D m (piSequence T table name) = _
    unfold windows
    rw [pulseList_table, if_neg, if_neg, show (piSequence T table name).duration = T from rfl,
      map_window_table h]
    · simp [endTime]
    · intro hl
      obtain ⟨p, hp, he⟩ := List.mem_map.mp (List.mem_of_getLast? hl)
      exact absurd (h p hp).2 (by rw [he]; exact lt_irrefl _)
    · intro hl
      obtain ⟨p, hp, he⟩ := List.mem_map.mp (List.mem_of_mem_head? hl)
      exact absurd (h p hp).1 (by rw [he]; exact lt_irrefl _)
  | true =>
    show windows R D m (withPrePost (finalAngle table) (piSequence T table name)) = _
    unfold windows
    rw [pulseList_bracketed _ (by simp [piSequence]) (by simp [piSequence]) (by simp [piSequence]),
      pulseList_table]
    rw [if_pos (show (withPrePost (finalAngle table) (piSequence T table name)).offsets.head? = some 0 from rfl),
      if_pos (show (withPrePost (finalAngle table) (piSequence T table name)).offsets.getLast? =
        some (withPrePost (finalAngle table) (piSequence T table name)).duration by
      show (0 :: ((table.map fun p => p.1) ++ [T])).getLast? = some T
      rw [List.getLast?_cons, List.getLast?_append]; simp),
      show (withPrePost (finalAngle table) (piSequence T table name)).duration = T from rfl,
      show (piSequence T table name).duration = T from rfl]
    rw [List.map_cons, List.map_append, map_window_table h]
    simp only [List.map_cons, List.map_nil, window, if_true, if_neg hT.ne', width_half_pi,
      List.nil_append, List.append_nil]

end OpenControls
