import Verif.Proofs.Converted
import Verif.Props.Families
import Verif.Spec.EndToEnd

/-!
# Lemmas on converting the predefined sequences
-/

namespace OpenControls

open Spec RealInst

/-! ## Room for all pulses -/

theorem window_bounds {T R D m w : ℝ} (hm : 0 ≤ m) {p : Pulse} (hw : width R D m p ≤ w) :
    p.offset - w ≤ (window T R D m p).1 ∧ (window T R D m p).2 ≤ p.offset + w := by
  have h0 := width_nonneg hm R D p
  unfold window
  split
  · rename_i h; rw [h]; exact ⟨by simp; linarith, by simpa using hw⟩
  · split
    · rename_i h; rw [h]; exact ⟨by simp only; linarith, by simp only; linarith⟩
    · exact ⟨by simp only; linarith, by simp only; linarith⟩

/-- If any two instants (pulses, start and end) are at least two pulse widths and a minimum segment
apart, the gaps are at least the minimum. -/
theorem eachGap_of_room {s : Sequence ℝ} (hs : s.Constructed) {R D m w : ℝ} (hm : 0 ≤ m)
    (hinc : s.offsets.Pairwise (· < ·)) (hw0 : 0 ≤ w)
    (hw : ∀ p ∈ pulseList s, width R D m p ≤ w)
    (hroom : Apart (2 * w + m) s) : EachGap (fun g => m ≤ g) (windows R D m s) := by
  obtain ⟨hT, hb, hr, ha, hd⟩ := hs.facts
  have ho := pulseList_offsets s hr ha hd
  have hpad := (pad_shape hT (pulseList s) (ho ▸ hinc) (fun p hp =>
    hb _ (ho ▸ List.mem_map_of_mem hp))).1
  rw [windows_eq hs, EachGap, List.isChain_map]
  refine List.Pairwise.isChain ?_
  rw [List.pairwise_map] at hpad
  have hmem : ∀ p ∈ pad s.duration (pulseList s), width R D m p ≤ w ∧
      p.offset ∈ 0 :: s.duration :: s.offsets := by
    intro p hp
    rcases pad_mem hp with h | rfl | rfl
    · refine ⟨hw p h, List.mem_cons_of_mem _ (List.mem_cons_of_mem _ ?_)⟩
      exact ho ▸ List.mem_map_of_mem h
    · rw [width_idle]; exact ⟨hw0, by simp [idlePulse]⟩
    · rw [width_idle]; exact ⟨hw0, by simp [idlePulse]⟩
  refine hpad.imp_of_mem fun {p q} hp hq hlt => ?_
  have h := hroom _ (hmem p hp).2 _ (hmem q hq).2 hlt
  have h1 := (window_bounds (T := s.duration) hm (hmem p hp).1).2
  have h2 := (window_bounds (T := s.duration) hm (hmem q hq).1).1
  linarith

theorem convertible_of_eachGap {s : Sequence ℝ} {R D m : ℝ} (hR : 0 < R)
    (hD : 0 < D) (hm : 0 ≤ m) (hrabi : ∀ p ∈ pulseList s, 0 ≤ p.rabi)
    (hboth : ∀ p ∈ pulseList s, ¬ (0 < p.rabi ∧ 0 < p.detuning))
    (hinc : s.offsets.Pairwise (· < ·)) (hg : EachGap (fun g => m ≤ g) (windows R D m s)) :
    Convertible R D m s := by
  refine ⟨hR, hD, hm, hrabi, hboth, hinc, EachGap.mono hg fun g h => ?_⟩
  rcases h.lt_or_eq with h | rfl
  · exact .inl h
  · exact .inr (by unfold NearValue; rw [sub_self, abs_zero]; positivity)

/-! ## The pulses of the predefined sequences -/

theorem not_negligible_of_lt {x : ℝ} (h : 1 < x) : ¬ Negligible x := by
  unfold Negligible
  rw [abs_of_pos (by linarith)]
  push Not
  exact lt_trans (by norm_num) h

/-- a pulse of a predefined sequence: a π-pulse or a pre or post rotation -/
def StandardPulse (p : Pulse) : Prop :=
  (∃ axis : Axis, p.rabi = axis.rabi ∧ p.detuning = axis.detuning) ∨
    (p.rabi = Real.pi / 2 ∧ p.detuning = 0)

theorem StandardPulse.facts {p : Pulse} (h : StandardPulse p) : 0 ≤ p.rabi ∧
    ¬ (0 < p.rabi ∧ 0 < p.detuning) ∧ PurePulse p ∧ p.rabi ≤ Real.pi ∧ |p.detuning| ≤ Real.pi := by
  have h3 := Real.pi_gt_three
  have hpi : ¬ Negligible Real.pi := not_negligible_of_lt (by linarith)
  have hpi2 : ¬ Negligible (Real.pi / 2) := not_negligible_of_lt (by linarith)
  rcases h with ⟨axis, h1, h2⟩ | ⟨h1, h2⟩
  · unfold PurePulse
    rw [h1, h2]
    cases axis <;> simp [Axis.rabi, Axis.detuning, hpi, Real.pi_pos.le, abs_of_pos Real.pi_pos]
  · unfold PurePulse
    rw [h1, h2]
    refine ⟨by linarith, by simp, ⟨.inr rfl, .inr hpi2, .inl rfl⟩, by linarith, by simp; linarith⟩

theorem pulseList_getElem {s : Sequence ℝ} {p : Pulse} (h : p ∈ pulseList s) :
    ∃ i : ℕ, PulseAt s i p.offset p.rabi p.azimuthal p.detuning := by
  obtain ⟨i, hi⟩ := List.mem_iff_getElem?.mp h
  refine ⟨i, ?_⟩
  unfold pulseList at hi
  rw [List.getElem?_zipWith] at hi
  unfold PulseAt
  cases h1 : s.offsets[i]? with
  | none => rw [h1] at hi; simp at hi
  | some t =>
    cases h2 : (s.rabiRotations.zip (s.azimuthalAngles.zip s.detuningRotations))[i]? with
    | none => rw [h1, h2] at hi; simp at hi
    | some q =>
      rw [h1, h2] at hi
      simp only [Option.some.injEq] at hi
      rw [List.getElem?_zip_eq_some, List.getElem?_zip_eq_some] at h2
      subst hi
      exact ⟨rfl, h2.1, h2.2.1, h2.2.2⟩

theorem Spec.WellFormed.standard {T : ℝ} {prePost : Bool} {s : Sequence ℝ}
    (h : WellFormed T prePost s) : ∀ p ∈ pulseList s, StandardPulse p := by
  intro p hp
  obtain ⟨i, hi⟩ := pulseList_getElem hp
  rcases h.2.2.2.2.2 i _ _ _ _ hi with ⟨axis, h1, -, h2⟩ | ⟨-, h1, h2, -⟩
  · exact .inl ⟨axis, h1, h2⟩
  · exact .inr ⟨h1, h2⟩

theorem Spec.WellFormed.constructed {T : ℝ} (hT : 0 < T) {prePost : Bool} {s : Sequence ℝ}
    (h : WellFormed T prePost s) : s.Constructed := by
  obtain ⟨h1, h2, h3, h4, h5, -⟩ := h
  refine ⟨s.duration, s.offsets, s.rabiRotations, s.azimuthalAngles, s.detuningRotations, s.name, ?_⟩
  rw [Sequence.new_eq, if_pos (by simpa [h1] using hT), if_pos, if_pos (by simpa using h2),
    if_pos (by simpa using h3), if_pos (by simpa using h4)]
  rw [List.all_eq_true]
  intro t ht
  simpa [h1] using h5 t ht

theorem standard_width {R D m : ℝ} (hR : 0 < R) (hD : 0 < D) (hm : 0 ≤ m) {p : Pulse}
    (h : StandardPulse p) : width R D m p ≤ pulseTime R D m := by
  obtain ⟨h0, -, -, h1, h2⟩ := h.facts
  unfold width pulseTime
  split
  · refine max_le_max ((div_le_div_of_nonneg_right h1 hR.le).trans (le_max_left _ _)) le_rfl
  · split
    · exact max_le_max ((div_le_div_of_nonneg_right h2 hD.le).trans (le_max_right _ _)) le_rfl
    · exact hm.trans (le_max_right _ _)

/-! ## A least distance -/

/-- distinct values of a finite list have a least distance -/
theorem exists_least_distance (l : List ℝ) :
    ∃ δ : ℝ, 0 < δ ∧ ∀ a ∈ l, ∀ b ∈ l, a < b → δ ≤ b - a := by
  induction l with
  | nil => exact ⟨1, one_pos, by simp⟩
  | cons x l ih =>
    obtain ⟨δ, hδ, h⟩ := ih
    have : ∀ l' : List ℝ, ∃ ε : ℝ, 0 < ε ∧ ∀ a ∈ l', a ≠ x → ε ≤ |a - x| := by
      intro l'
      induction l' with
      | nil => exact ⟨1, one_pos, by simp⟩
      | cons y l' ih' =>
        obtain ⟨ε, hε, h'⟩ := ih'
        by_cases hy : y = x
        · refine ⟨ε, hε, ?_⟩
          intro a ha hne
          rcases List.mem_cons.mp ha with rfl | ha
          · exact absurd hy hne
          · exact h' a ha hne
        · refine ⟨min ε |y - x|, lt_min hε (abs_pos.mpr (sub_ne_zero.mpr hy)), ?_⟩
          intro a ha hne
          rcases List.mem_cons.mp ha with rfl | ha
          · exact min_le_right _ _
          · exact (min_le_left _ _).trans (h' a ha hne)
    obtain ⟨ε, hε, hx⟩ := this l
    refine ⟨min δ ε, lt_min hδ hε, ?_⟩
    intro a ha b hb hab
    rcases List.mem_cons.mp ha with rfl | ha'
    · rcases List.mem_cons.mp hb with rfl | hb
      · exact absurd hab (lt_irrefl _)
      · have := hx b hb hab.ne'
        rw [abs_of_pos (by linarith)] at this
        exact (min_le_right _ _).trans this
    · rcases List.mem_cons.mp hb with rfl | hb
      · have := hx a ha' hab.ne
        rw [abs_of_neg (by linarith)] at this
        exact (min_le_right _ _).trans (by linarith)
      · exact (min_le_left _ _).trans (h a ha' b hb hab)

/-! ## Coinciding pulses of the XY-concatenated sequence -/

/-- the beginning of every order from three on -/
def xyBeginning : List Int := (concatenationXY 3).take 31

theorem prefix_dropLast {p l : List Int} (h : p <+: l) (hl : p.length < l.length) :
    p <+: l.dropLast := by
  obtain ⟨r, rfl⟩ := h
  have hr : r ≠ [] := by rintro rfl; simp at hl
  rw [List.dropLast_append_of_ne_nil hr]
  exact List.prefix_append _ _

theorem prefix_setLast {p l : List Int} (h : p <+: l) (hl : p.length < l.length) (v : Int) :
    p <+: setLast l v ∧ (setLast l v).length = l.length := by
  cases l with
  | nil => simp at hl
  | cons x l =>
    refine ⟨(prefix_dropLast h hl).trans (List.prefix_append _ _), ?_⟩
    simp [setLast]

theorem concatenationXY_prefix {p : List Int} (n : ℕ) (hh : p <+: concatenationXY (n + 1))
    (hp : p.length + 4 ≤ (concatenationXY (n + 1)).length) :
    p <+: concatenationXY (n + 2) ∧ p.length + 4 ≤ (concatenationXY (n + 2)).length := by
  have hl : 8 ≤ (concatenationXY (n + 1)).length := (concatenationXY_head n).2
  generalize hc : concatenationXY (n + 1) = c at hh hl hp
  have app : ∀ {a : List Int} (b : List Int), p <+: a → p <+: a ++ b :=
    fun b h => h.trans (List.prefix_append _ _)
  obtain ⟨g1, g1'⟩ := prefix_setLast (l := (c ++ [-1]).dropLast) (by simpa using hh)
    (by simp; omega) (-3)
  generalize hs1 : setLast (c ++ [-1]).dropLast (-3) = s1 at g1 g1'
  have g1'' : p.length + 4 ≤ s1.length := by rw [g1']; simp; omega
  have g2 : p <+: (s1 ++ c ++ [-2]).dropLast.dropLast :=
    prefix_dropLast (prefix_dropLast (app _ (app _ g1)) (by simp; omega)) (by simp; omega)
  have g2' : p.length + 4 ≤ ((s1 ++ c ++ [-2]).dropLast.dropLast).length := by simp; omega
  generalize hs2 : (s1 ++ c ++ [-2]).dropLast.dropLast = s2 at g2 g2'
  obtain ⟨g3, g3'⟩ := prefix_setLast (l := (s2 ++ c ++ [-1]).dropLast)
    (prefix_dropLast (app _ (app _ g2)) (by simp; omega)) (by simp; omega) (-3)
  generalize hs3 : setLast (s2 ++ c ++ [-1]).dropLast (-3) = s3 at g3 g3'
  have g3'' : p.length + 4 ≤ s3.length := by rw [g3']; simp; omega
  simp only [concatenationXY, hc, hs1, hs2, hs3]
  split
  · refine ⟨prefix_dropLast (prefix_dropLast (app _ (app _ g3)) (by simp; omega))
      (by simp; omega), by simp; omega⟩
  · exact ⟨app _ (app _ g3), by simp; omega⟩

theorem concatenationXY_beginning (n : ℕ) : xyBeginning <+: concatenationXY (n + 3) := by
  suffices h : xyBeginning <+: concatenationXY (n + 3) ∧
      xyBeginning.length + 4 ≤ (concatenationXY (n + 3)).length from h.1
  induction n with
  | zero => exact ⟨List.take_prefix _ _, by decide⟩
  | succ n ih => exact concatenationXY_prefix (n + 2) ih.1 ih.2

theorem xy_coincide {T : ℝ} (hT : 0 < T) (n : ℕ) :
    ∃ t, (t, Axis.x) ∈ xyTable T (n + 3) ∧ (t, Axis.z) ∈ xyTable T (n + 3) := by
  have hu : 0 < T / 2 ^ ((n + 2 + 1) * 2) := by positivity
  obtain ⟨r, hr⟩ := concatenationXY_beginning n
  have kx : IsKind (-1) (-2) (-3) := by unfold IsKind; decide
  have kz : IsKind (-3) (-2) (-1) := by unfold IsKind; decide
  have hfree : freeUnits xyBeginning = 16 := by decide
  have key : ∀ {op other other' : Int}, IsKind op other other' →
      (unitTimes op other other' xyBeginning).count 15 = 2 →
      (unitTimes op other other' (concatenationXY (n + 2 + 1))).count 15 = 2 := by
    intro op other other' hk h
    rw [show n + 2 + 1 = n + 3 from rfl, ← hr, unitTimes_append hk, List.count_append, h,
      List.count_eq_zero_of_not_mem]
    intro hm
    obtain ⟨k, -, hk⟩ := List.mem_map.mp hm
    omega
  have mem : ∀ {op other other' : Int},
      (unitTimes op other other' (concatenationXY (n + 2 + 1))).count 15 = 2 →
      ((15 : ℕ) : ℝ) * (T / 2 ^ ((n + 2 + 1) * 2)) ∈
        xyOffsetsOf (T / 2 ^ ((n + 2 + 1) * 2)) op other other' (concatenationXY (n + 2 + 1)) := by
    intro op other other' h
    refine (mem_xyOffsetsOf hu _ _ _ _ _).mpr ⟨15, ?_, by rw [h]; exact even_two, rfl⟩
    exact List.count_pos_iff.mp (by rw [h]; norm_num)
  refine ⟨_, (mem_xyTable hT (n + 2) _ _).mpr (.inl ⟨rfl, mem (key kx (by decide))⟩),
    (mem_xyTable hT (n + 2) _ _).mpr (.inr (.inr ⟨rfl, mem (key kz (by decide))⟩))⟩

theorem not_increasing_of_coincide {table : List (ℝ × Axis)} {t : ℝ} {a b : Axis} (hab : a ≠ b)
    (ha : (t, a) ∈ table) (hb : (t, b) ∈ table) :
    ¬ (table.map fun p => p.1).Pairwise (· < ·) := by
  intro h
  have hinj := List.inj_on_of_nodup_map (h.imp ne_of_lt)
  exact hab (Prod.ext_iff.mp (hinj ha hb rfl)).2

/-- nothing happens at the end of the order-two sequence -/
theorem xy_two_end {T : ℝ} (hT : 0 < T) : ∀ p ∈ xyTable T 2, p.1 < T := by
  have hu : 0 < T / 2 ^ ((1 + 1) * 2) := by positivity
  intro p hp
  have key : ∀ {op other other' : Int},
      (∀ k ∈ unitTimes op other other' (concatenationXY (1 + 1)),
        Even ((unitTimes op other other' (concatenationXY (1 + 1))).count k) → k < 16) →
      p.1 ∈ xyOffsetsOf (T / 2 ^ ((1 + 1) * 2)) op other other' (concatenationXY (1 + 1)) →
      p.1 < T := by
    intro op other other' h hm
    obtain ⟨k, hk, he, e⟩ := (mem_xyOffsetsOf hu _ _ _ _ _).mp hm
    have : (k : ℝ) < 16 := by exact_mod_cast h k hk he
    rw [e, show (2 : ℝ) ^ ((1 + 1) * 2) = 16 from by norm_num]
    rw [mul_div_assoc', div_lt_iff₀ (by norm_num)]
    nlinarith
  rcases (mem_xyTable hT 1 p.1 p.2).mp hp with ⟨-, h⟩ | ⟨-, h⟩ | ⟨-, h⟩
  · exact key (by decide) h
  · exact key (by decide) h
  · exact key (by decide) h

/-- the order-one sequence has a Y pulse at the end -/
theorem xy_one_end {T : ℝ} (hT : 0 < T) : (T, Axis.y) ∈ xyTable T 1 := by
  have hu : 0 < T / 2 ^ ((0 + 1) * 2) := by positivity
  refine (mem_xyTable hT 0 _ _).mpr (.inr (.inl ⟨rfl, (mem_xyOffsetsOf hu _ _ _ _ _).mpr
    ⟨4, by decide, by decide, ?_⟩⟩))
  norm_num
  ring

/-- the times of a predefined sequence are strictly increasing exactly if it is separate -/
theorem Spec.Family.increasing_iff {family : Family} {T : ℝ} {prePost : Bool}
    {name : Option String} {s : Sequence ℝ} (hs : family.call T prePost name = .ok s) :
    s.offsets.Pairwise (· < ·) ↔ family.Separate prePost := by
  by_cases hxy : ∀ l, family ≠ .xyConcatenated l
  · refine iff_of_true (C43_increasing family hxy T prePost name s hs) ?_
    cases family with
    | xyConcatenated l => exact absurd rfl (hxy l)
    | _ => trivial
  · push Not at hxy
    obtain ⟨l, rfl⟩ := hxy
    obtain ⟨⟨hT, hv⟩, -⟩ := (C43_well_formed _ T prePost name).ok hs
    rw [Family.call_eq hv hT] at hs
    injection hs with hs
    subst hs
    replace hv : 1 ≤ l := hv
    have hb := Family.table_bounds (family := .xyConcatenated l) hv hT
    have hl0 : ⌊l⌋₊ ≠ 0 := (Nat.floor_pos.mpr hv).ne'
    have htab : Family.table (.xyConcatenated l) T = xyTable T ⌊l⌋₊ := rfl
    rw [htab] at hb ⊢
    have hl0' : 0 ≤ l := by linarith
    have offs : (finished T (xyTable T ⌊l⌋₊) prePost name).offsets =
        if prePost then 0 :: ((xyTable T ⌊l⌋₊).map (fun p => p.1) ++ [T])
        else (xyTable T ⌊l⌋₊).map fun p => p.1 := by
      unfold finished
      cases prePost <;> rfl
    rw [offs]
    show _ ↔ l < 3 ∧ (l < 2 → prePost = false)
    obtain h1 | h2 | h3 : ⌊l⌋₊ = 1 ∨ ⌊l⌋₊ = 2 ∨ 3 ≤ ⌊l⌋₊ := by omega
    · have hlt : l < 2 := by
        have := Nat.lt_floor_add_one l
        rw [h1] at this; norm_num at this; linarith
      have ho := (xy_order_one hT).1
      rw [h1] at hb ⊢
      cases prePost with
      | false => simpa [show l < 3 from by linarith] using ho
      | true =>
        simp only [if_true, Bool.true_eq_false, imp_false, not_lt]
        refine iff_of_false ?_ (fun h => absurd h.2 (not_le.mpr hlt))
        intro hp
        rw [List.pairwise_cons, List.pairwise_append] at hp
        exact absurd (hp.2.2.2 T (List.mem_map.mpr ⟨_, xy_one_end hT, rfl⟩) T (by simp))
          (lt_irrefl _)
    · have hlt : 2 ≤ l ∧ l < 3 := by
        have := Nat.lt_floor_add_one l
        have h' := Nat.floor_le hl0'
        rw [h2] at this h'; norm_num at this h'; exact ⟨h', by linarith⟩
      have ho := (xy_order_two hT).1
      rw [h2] at hb ⊢
      have he := xy_two_end hT
      cases prePost with
      | false => simpa [hlt.2] using ho
      | true =>
        simp only [if_true, Bool.true_eq_false, imp_false, not_lt]
        refine iff_of_true ?_ ⟨hlt.2, hlt.1⟩
        exact ordered_pairwise hT ⟨ho, by
          intro t ht
          obtain ⟨p, hp, rfl⟩ := List.mem_map.mp ht
          exact ⟨(hb p hp).1, he p hp⟩⟩
    · have hge : 3 ≤ l := by
        have := Nat.floor_le hl0'
        have h' : (3 : ℝ) ≤ ⌊l⌋₊ := by exact_mod_cast h3
        linarith
      obtain ⟨n, hn⟩ : ∃ n, ⌊l⌋₊ = n + 3 := ⟨⌊l⌋₊ - 3, by omega⟩
      obtain ⟨t, hx, hz⟩ := xy_coincide hT n
      have hno := not_increasing_of_coincide (by decide) hx hz
      rw [hn]
      refine iff_of_false ?_ (fun h => absurd h.1 (not_lt.mpr hge))
      cases prePost with
      | false => simpa using hno
      | true =>
        simp only [if_true]
        intro hp
        rw [List.pairwise_cons, List.pairwise_append] at hp
        exact hno hp.2.1

end OpenControls
