import Verif.Spec.Joining
import Verif.Proofs.Repetition
import Verif.Props.Conversion

/-!
# Lemmas on controls and sequences that are played one after another
-/

namespace OpenControls

open Spec RealInst

/-! ### Controls -/

theorem controlEvolution_append (r a d t r' a' d' t' : List ℝ) (hr : r.length = t.length) (ha : a.length = t.length)
    (hd : d.length = t.length) :
    controlEvolution (r ++ r') (a ++ a') (d ++ d') (t ++ t') =
      controlEvolution r' a' d' t' * controlEvolution r a d t := by
  induction t generalizing r a d with
  | nil =>
    obtain rfl := List.length_eq_zero_iff.mp hr
    obtain rfl := List.length_eq_zero_iff.mp ha
    obtain rfl := List.length_eq_zero_iff.mp hd
    simp [controlEvolution]
  | cons x t ih =>
    obtain ⟨_, r, rfl⟩ := List.exists_cons_of_length_eq_add_one hr
    obtain ⟨_, a, rfl⟩ := List.exists_cons_of_length_eq_add_one ha
    obtain ⟨_, d, rfl⟩ := List.exists_cons_of_length_eq_add_one hd
    simp only [List.cons_append, controlEvolution]
    rw [ih r a d (by simpa using hr) (by simpa using ha) (by simpa using hd), mul_assoc]

/-- the control with concatenated arrays -/
def appended {α : Type} (c c' : DrivenControl α) (name : Option String) : DrivenControl α where
  rabiRates := c.rabiRates ++ c'.rabiRates
  azimuthalAngles := c.azimuthalAngles ++ c'.azimuthalAngles
  detunings := c.detunings ++ c'.detunings
  durations := c.durations ++ c'.durations
  name := name

theorem joinedControl_eq {c c' : DrivenControl ℝ} (hc : c.Constructed) (hc' : c'.Constructed) (name : Option String) :
    joinedControl c c' name = .ok (appended c c' name) := by
  obtain ⟨h1, h2, h3, h4, h5⟩ := (DrivenControl.constructed_iff c).mp hc
  obtain ⟨h1', h2', h3', h4', h5'⟩ := (DrivenControl.constructed_iff c').mp hc'
  unfold joinedControl
  rw [DrivenControl.new_eq, if_pos, if_pos, if_pos]
  · rfl
  · simp only [Option.getD_some, List.all_eq_true, ge_iff, lit_eq, Rat.cast_zero]
    intro x hx
    rcases List.mem_append.mp hx with h | h
    · exact h5 x h
    · exact h5' x h
  · simp [h2, h3, h4, h2', h3', h4']
  · simp only [List.all_eq_true, gt_iff, lit_eq, Rat.cast_zero]
    intro x hx
    rcases List.mem_append.mp hx with h | h
    · exact h1 x h
    · exact h1' x h

theorem drivesAt_range {c : DrivenControl ℝ} (hc : c.Constructed) {t : ℝ} {v : ℝ × ℝ × ℝ} (h : DrivesAt c t v) :
    0 ≤ t ∧ t < c.durations.sum := by
  obtain ⟨hd, -⟩ := (DrivenControl.constructed_iff c).mp hc
  obtain ⟨k, -, -, -, h1, h2⟩ := h
  have h3 : 0 ≤ (c.durations.take k).sum := List.sum_nonneg fun x hx => (hd x (List.mem_of_mem_take hx)).le
  have h4 : 0 ≤ (c.durations.drop (k + 1)).sum := List.sum_nonneg fun x hx => (hd x (List.mem_of_mem_drop hx)).le
  have h5 := congrArg List.sum (List.take_append_drop (k + 1) c.durations)
  rw [List.sum_append] at h5
  exact ⟨h3.trans h1, by linarith⟩

theorem drivesAt_appended {c c' : DrivenControl ℝ} (hc : c.Constructed) (hc' : c'.Constructed) (name : Option String) :
    PlaysInTurn (appended c c' name) c.durations.sum c c' := by
  obtain ⟨h1, h2, h3, h4, h5⟩ := (DrivenControl.constructed_iff c).mp hc
  obtain ⟨h1', h2', h3', h4', h5'⟩ := (DrivenControl.constructed_iff c').mp hc'
  intro t v
  constructor
  · rintro ⟨k, a1, a2, a3, a4, a5⟩
    simp only [appended] at a1 a2 a3 a4 a5
    rcases lt_or_ge k c.durations.length with hk | hk
    · rw [List.getElem?_append_left (by omega)] at a1 a2 a3
      rw [List.take_append_of_le_length (by omega)] at a4 a5
      exact .inl ⟨k, a1, a2, a3, a4, a5⟩
    · obtain ⟨i, rfl⟩ := Nat.exists_eq_add_of_le hk
      rw [List.getElem?_append_right (by omega)] at a1 a2 a3
      rw [h2, Nat.add_sub_cancel_left] at a1
      rw [h3, Nat.add_sub_cancel_left] at a2
      rw [h4, Nat.add_sub_cancel_left] at a3
      rw [List.take_length_add_append, List.sum_append] at a4
      rw [add_assoc, List.take_length_add_append, List.sum_append] at a5
      exact .inr ⟨i, a1, a2, a3, by linarith, by linarith⟩
  · rintro (⟨k, a1, a2, a3, a4, a5⟩ | ⟨i, a1, a2, a3, a4, a5⟩)
    · have hk : k < c.durations.length := by
        rw [← h2]
        exact (List.getElem?_eq_some_iff.mp a1).1
      refine ⟨k, ?_, ?_, ?_, ?_, ?_⟩ <;> simp only [appended]
      · rwa [List.getElem?_append_left (by omega)]
      · rwa [List.getElem?_append_left (by omega)]
      · rwa [List.getElem?_append_left (by omega)]
      · rwa [List.take_append_of_le_length (by omega)]
      · rwa [List.take_append_of_le_length (by omega)]
    · refine ⟨c.durations.length + i, ?_, ?_, ?_, ?_, ?_⟩ <;> simp only [appended]
      · rwa [List.getElem?_append_right (by omega), h2, Nat.add_sub_cancel_left]
      · rwa [List.getElem?_append_right (by omega), h3, Nat.add_sub_cancel_left]
      · rwa [List.getElem?_append_right (by omega), h4, Nat.add_sub_cancel_left]
      · rw [List.take_length_add_append, List.sum_append]; linarith
      · rw [add_assoc, List.take_length_add_append, List.sum_append]; linarith

theorem zipWith_joined {α β γ : Type} (f : α → β → γ) (a a' : List α) (b b' : List β) (h : a.length = b.length) :
    List.zipWith f (a ++ a') (b ++ b') = List.zipWith f a b ++ List.zipWith f a' b' :=
  List.zipWith_append h

theorem cumsumFrom_moved (a b : ℝ) (l : List ℝ) :
    Py.cumsumFrom (a + b) l = (Py.cumsumFrom a l).map fun t => t + b := by
  induction l generalizing a with
  | nil => rfl
  | cons x l ih =>
    simp only [Py.cumsumFrom, List.map_cons]
    rw [← ih, show a + b + x = a + x + b by ring]

theorem cumsumFrom_joined (l l' : List ℝ) :
    Py.cumsumFrom 0 (l ++ l') = Py.cumsumFrom 0 l ++ (Py.cumsumFrom 0 l').map fun t => t + l.sum := by
  have : ∀ a, Py.cumsumFrom a (l ++ l') = Py.cumsumFrom a l ++ Py.cumsumFrom (a + l.sum) l' := by
    induction l with
    | nil => simp [Py.cumsumFrom]
    | cons x l ih => intro a; simp [Py.cumsumFrom, ih, add_assoc]
  rw [this, cumsumFrom_moved]

theorem npCumsum_real (l : List ℝ) : Py.npCumsum l = Py.cumsumFrom 0 l := by
  cases l with
  | nil => rfl
  | cons x l => simp [Py.npCumsum, Py.cumsumFrom]

/-! ### Sequences -/

/-- the sequence with concatenated arrays -/
noncomputable def followed (s s' : Sequence ℝ) (name : Option String) : Sequence ℝ where
  duration := s.duration + s'.duration
  offsets := s.offsets ++ s'.offsets.map fun t => t + s.duration
  rabiRotations := s.rabiRotations ++ s'.rabiRotations
  azimuthalAngles := s.azimuthalAngles ++ s'.azimuthalAngles
  detuningRotations := s.detuningRotations ++ s'.detuningRotations
  name := name

theorem joinedSequence_eq {s s' : Sequence ℝ} (hs : s.Constructed) (hs' : s'.Constructed) (name : Option String) :
    joinedSequence s s' name = .ok (followed s s' name) := by
  obtain ⟨hT, ho, hr, ha, hd⟩ := hs.facts
  obtain ⟨hT', ho', hr', ha', hd'⟩ := hs'.facts
  unfold joinedSequence
  rw [Sequence.new_eq, if_pos (by simp only [gt_iff, lit_eq, Rat.cast_zero]; linarith), if_pos, if_pos (by simp [hr, hr']),
    if_pos (by simp [ha, ha']), if_pos (by simp [hd, hd'])]
  · rfl
  · simp only [List.all_eq_true, Bool.and_eq_true, ge_iff, lit_eq, Rat.cast_zero]
    intro t ht
    rcases List.mem_append.mp ht with h | h
    · exact ⟨(ho t h).1, by linarith [(ho t h).2]⟩
    · obtain ⟨u, hu, rfl⟩ := List.mem_map.mp h
      exact ⟨by linarith [(ho' u hu).1], by linarith [(ho' u hu).2]⟩

/-- a pulse, later -/
def later (T : ℝ) (p : Pulse) : Pulse := { p with offset := p.offset + T }

theorem pulseList_followed {s s' : Sequence ℝ} (hs : s.Constructed) (name : Option String) :
    pulseList (followed s s' name) = pulseList s ++ (pulseList s').map (later s.duration) := by
  obtain ⟨hT, ho, hr, ha, hd⟩ := hs.facts
  unfold pulseList followed
  simp only
  rw [List.zip_append (by omega), List.zip_append (by simp; omega), List.zipWith_append (by simp; omega), List.zipWith_map_left,
    List.map_zipWith]
  rfl

theorem width_later (R D m T : ℝ) (p : Pulse) : width R D m (later T p) = width R D m p := rfl

theorem drive_later (R D m T : ℝ) (p : Pulse) : drive R D m (later T p) = drive R D m p := rfl

theorem window_joined {T T' R D m : ℝ} {p : Pulse} (h : p.offset ≤ T) (hn : p.offset ≠ T) (hT' : 0 < T') :
    window (T + T') R D m p = window T R D m p := by
  unfold window
  rw [if_neg hn, if_neg (show p.offset ≠ T + T' by intro h'; linarith)]

theorem window_later {T T' R D m : ℝ} {p : Pulse} (h : 0 ≤ p.offset) (hn : p.offset ≠ 0) (hT : 0 < T) :
    window (T + T') R D m (later T p) = ((window T' R D m p).1 + T, (window T' R D m p).2 + T) := by
  unfold window
  rw [width_later]
  have e : (later T p).offset = p.offset + T := rfl
  rw [e, if_neg hn, if_neg (show p.offset + T ≠ 0 by intro h'; linarith)]
  by_cases h' : p.offset = T'
  · rw [if_pos h', if_pos (by rw [h']; ring)]
    ext <;> simp only <;> ring
  · rw [if_neg h', if_neg (by intro h''; exact h' (by linarith))]
    ext <;> simp only <;> ring

theorem pulse_offset_mem {s : Sequence ℝ} (hs : s.Constructed) {p : Pulse} (hp : p ∈ pulseList s) : p.offset ∈ s.offsets := by
  obtain ⟨-, -, hr, ha, hd⟩ := hs.facts
  rw [← pulseList_offsets s hr ha hd]
  exact List.mem_map_of_mem hp

open Classical in
theorem windows_followed {s s' : Sequence ℝ} (hs : s.Constructed) (hs' : s'.Constructed) (hj : NoPulseAtJoint s s')
    (name : Option String) (R D m : ℝ) :
    ∃ W W', windows R D m s = W ++ [(s.duration, s.duration)] ∧ windows R D m s' = (0, 0) :: W' ∧
      windows R D m (followed s s' name) = W ++ W'.map fun w => (w.1 + s.duration, w.2 + s.duration) := by
  obtain ⟨hT, ho, hr, ha, hd⟩ := hs.facts
  obtain ⟨hT', ho', hr', ha', hd'⟩ := hs'.facts
  refine ⟨(if s.offsets.head? = some 0 then [] else [(0, 0)]) ++ (pulseList s).map (window s.duration R D m),
    (pulseList s').map (window s'.duration R D m) ++
      (if s'.offsets.getLast? = some s'.duration then [] else [(s'.duration, s'.duration)]), ?_, ?_, ?_⟩
  · unfold windows
    rw [if_neg (c := s.offsets.getLast? = _) fun h => hj.1 (List.mem_of_getLast? h)]
  · unfold windows
    rw [if_neg (c := s'.offsets.head? = _) fun h => hj.2 (List.mem_of_head? h)]
    simp
  · unfold windows
    rw [pulseList_followed hs, List.map_append, List.map_map]
    have e1 : (pulseList s).map (window (followed s s' name).duration R D m) = (pulseList s).map (window s.duration R D m) :=
      List.map_congr_left fun p hp => window_joined (ho _ (pulse_offset_mem hs hp)).2
        (fun h => hj.1 (h ▸ pulse_offset_mem hs hp)) hT'
    have e2 : (pulseList s').map (window (followed s s' name).duration R D m ∘ later s.duration) =
        ((pulseList s').map (window s'.duration R D m)).map fun w => (w.1 + s.duration, w.2 + s.duration) := by
      rw [List.map_map]
      exact List.map_congr_left fun p hp => window_later (ho' _ (pulse_offset_mem hs' hp)).1
        (fun h => hj.2 (h ▸ pulse_offset_mem hs' hp)) hT
    rw [e1, e2]
    have e3 : ((followed s s' name).offsets.head? = some 0) ↔ (s.offsets.head? = some 0) := by
      show (s.offsets ++ _).head? = _ ↔ _
      cases h : s.offsets with
      | nil =>
        cases h' : s'.offsets with
        | nil => simp
        | cons x l =>
          have := (ho' x (by simp [h'])).1
          simp
          intro h''
          linarith
      | cons x l => simp
    have e4 : ((followed s s' name).offsets.getLast? = some (followed s s' name).duration) ↔
        (s'.offsets.getLast? = some s'.duration) := by
      show (s.offsets ++ _).getLast? = some (s.duration + s'.duration) ↔ _
      rcases List.eq_nil_or_concat s'.offsets with h | ⟨l, x, h⟩
      · rw [h]
        simp only [List.map_nil, List.append_nil, List.getLast?_nil, reduceCtorEq, iff_false]
        intro h''
        have := (ho _ (List.mem_of_getLast? h'')).2
        linarith
      · rw [h, List.concat_eq_append, List.map_append, ← List.append_assoc]
        simp only [List.map_cons, List.map_nil, List.getLast?_concat, Option.some.injEq]
        constructor <;> intro h'' <;> linarith
    simp only [e3, e4]
    by_cases h : s'.offsets.getLast? = some s'.duration
    · simp [h]
    · simp [h, followed, add_comm]

theorem eachGap_joined {P : ℝ → Prop} {W W' : List (ℝ × ℝ)} {T : ℝ} (h : EachGap P (W ++ [(T, T)]))
    (h' : EachGap P ((0, 0) :: W')) (hP : ∀ w ∈ W.getLast?, ∀ w' ∈ W'.head?, P (T - w.2) → P (w'.1 - 0) → P (w'.1 - 0 + (T - w.2))) :
    EachGap P (W ++ W'.map fun w => (w.1 + T, w.2 + T)) := by
  unfold EachGap at h h' ⊢
  rw [List.isChain_append] at h ⊢
  rw [List.isChain_cons] at h'
  refine ⟨h.1, ?_, ?_⟩
  · rw [List.isChain_map]
    exact h'.2.imp fun a b hab => by rwa [add_sub_add_right_eq_sub]
  · intro w hw w' hw'
    rw [List.head?_map] at hw'
    obtain ⟨u, hu, rfl⟩ := Option.mem_map.mp hw'
    have := hP w hw u hu (h.2.2 w hw (T, T) (by simp)) (h'.1 u hu)
    convert this using 1
    ring

theorem noOverlap_followed {s s' : Sequence ℝ} (hs : s.Constructed) (hs' : s'.Constructed) (hj : NoPulseAtJoint s s')
    (name : Option String) {R D m : ℝ} (h : NoOverlap R D m s) (h' : NoOverlap R D m s') :
    NoOverlap R D m (followed s s' name) := by
  obtain ⟨W, W', e1, e2, e3⟩ := windows_followed hs hs' hj name R D m
  unfold NoOverlap at h h' ⊢
  rw [e1] at h
  rw [e2] at h'
  rw [e3]
  exact eachGap_joined h h' fun w _ w' _ a b => add_nonneg b a

theorem convertible_followed {s s' : Sequence ℝ} (hs : s.Constructed) (hs' : s'.Constructed) (hj : NoPulseAtJoint s s')
    (name : Option String) {R D m : ℝ} (hn : NoOverlap R D m s) (h : Convertible R D m s) (h' : Convertible R D m s') :
    Convertible R D m (followed s s' name) := by
  obtain ⟨hT, ho, -⟩ := hs.facts
  obtain ⟨hT', ho', -⟩ := hs'.facts
  obtain ⟨hR, hD, hm, a1, a2, a3, a4⟩ := h
  obtain ⟨-, -, -, b1, b2, b3, b4⟩ := h'
  have hl := pulseList_followed (s' := s') hs name
  refine ⟨hR, hD, hm, ?_, ?_, ?_, ?_⟩
  · intro p hp
    rw [hl] at hp
    rcases List.mem_append.mp hp with h | h
    · exact a1 p h
    · obtain ⟨q, hq, rfl⟩ := List.mem_map.mp h
      exact b1 q hq
  · intro p hp
    rw [hl] at hp
    rcases List.mem_append.mp hp with h | h
    · exact a2 p h
    · obtain ⟨q, hq, rfl⟩ := List.mem_map.mp h
      exact b2 q hq
  · show (s.offsets ++ s'.offsets.map _).Pairwise _
    refine List.pairwise_append.mpr ⟨a3, ?_, ?_⟩
    · rw [List.pairwise_map]
      exact b3.imp fun h => by linarith
    · intro x hx y hy
      obtain ⟨u, hu, rfl⟩ := List.mem_map.mp hy
      have h1 := (ho x hx).2
      have h2 : x ≠ s.duration := fun h => hj.1 (h ▸ hx)
      have h3 := lt_of_le_of_ne h1 h2
      linarith [(ho' u hu).1]
  · obtain ⟨W, W', e1, e2, e3⟩ := windows_followed hs hs' hj name R D m
    unfold NoOverlap at hn
    rw [e1] at a4 hn
    rw [e2] at b4
    rw [e3]
    refine eachGap_joined a4 b4 fun w hw w' hw' a b => ?_
    have hg : 0 ≤ s.duration - w.2 := (List.isChain_append.mp hn).2.2 w hw (s.duration, s.duration) (by simp)
    generalize s.duration - w.2 = g at a hg
    generalize w'.1 - 0 = g' at b
    rcases lt_or_ge m (g' + g) with h | h
    · exact .inl h
    · rcases b with b | b
      · linarith
      · refine .inr ?_
        unfold NearValue at b ⊢
        rw [abs_of_nonpos (by linarith)] at b ⊢
        linarith

theorem interleave_later (free : ℝ → ℝ → M2) (c T : ℝ) : ∀ (a : ℝ) (ts ωs φs δs : List ℝ),
    interleave free (T + c) (a + c) (ts.map fun t => t + c) ωs φs δs =
      interleave (fun x y => free (x + c) (y + c)) T a ts ωs φs δs := by
  intro a ts
  induction ts generalizing a with
  | nil => intro ωs φs δs; simp [interleave]
  | cons t ts ih =>
    intro ωs φs δs
    rcases ωs with _ | ⟨ω, ωs⟩ <;> rcases φs with _ | ⟨φ, φs⟩ <;> rcases δs with _ | ⟨δ, δs⟩ <;>
      simp [interleave, ih]

theorem pulse_inside {s : Sequence ℝ} (hs : s.Constructed) {R D m : ℝ} (hc : Convertible R D m s) (hn : NoOverlap R D m s) :
    ∀ p ∈ pulseList s, 0 ≤ (window s.duration R D m p).1 ∧ (window s.duration R D m p).2 ≤ s.duration := by
  obtain ⟨a, l, he, h1, h2, -⟩ := pad_cons hs hc
  unfold NoOverlap at hn
  rw [windows_eq hs, he] at hn
  intro p hp
  have := windows_inside hc.2.2.1 a l hn p (he ▸ mem_pad hp)
  rwa [h1, h2] at this

theorem productOf_append (l l' : List Pulse) : productOf (l ++ l') = productOf l' * productOf l := by
  unfold productOf
  rw [List.map_append, List.map_append, List.map_append, pulseProduct_append _ _ _ _ _ _ (by simp) (by simp)]

theorem effective_later (T : ℝ) (p : Pulse) : (effective (later T p)).rabi = (effective p).rabi ∧
    (effective (later T p)).azimuthal = (effective p).azimuthal ∧
    (effective (later T p)).detuning = (effective p).detuning := by
  unfold effective later
  simp only
  split_ifs <;> simp

end OpenControls
