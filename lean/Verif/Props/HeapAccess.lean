import Verif.Proofs.HeapAccess
import Verif.Proofs.Converted
import Verif.Proofs.HeapConvert
import Verif.Props.HeapDriven
import Verif.RealInst

/-!
# C92: reading a control or a sequence

The theorems are about the statement-level model of the properties and exporters (`Verif/Model/HeapAccess.lean`) and hold
for every arithmetic `α`.
-/

namespace OpenControls

open PyM Spec

section
variable {α : Type} [Add α] [Sub α] [Mul α] [Div α] [Neg α] [PyFloat α]

theorem wellFormed_of_constructed {h : Heap α} {c : ControlObj} (hx : ∀ r ∈ c.refs, r < h.length)
    (hc : (c.value h).Constructed) : c.WellFormed h := by
  obtain ⟨d, r, a, t, name, hc⟩ := hc
  obtain ⟨-, -, -, -, -, -, l1, l2, l3, l4⟩ := C02_stores_arguments _ _ _ _ _ _ hc
  exact ⟨hx, l2.trans l1.symm, l3.trans l1.symm, l4.trans l1.symm⟩

theorem wellFormed_writes {h : Heap α} {c : ControlObj} (w : c.WellFormed h) (ws : List (Nat × Nat × α)) :
    c.WellFormed (Heap.writes ws h) where
  exist r hr := by rw [writes_length]; exact w.exist r hr
  azimuthal := by rw [writes_items_length, writes_items_length]; exact w.azimuthal
  detuning := by rw [writes_items_length, writes_items_length]; exact w.detuning
  durations := by rw [writes_items_length, writes_items_length]; exact w.durations

/-- a computation that returns constructed controls only -/
def Constructs (m : Except PyErr (DrivenControl α)) : Prop := ∀ c, m = .ok c → c.Constructed

theorem Constructs.bind {β : Type} {m : Except PyErr β} {f : β → Except PyErr (DrivenControl α)}
    (hf : ∀ x, Constructs (f x)) : Constructs (m >>= f) := fun c hc => by
  cases m with
  | error x => simp [Bind.bind, Except.bind] at hc
  | ok x => exact hf x c hc

theorem Constructs.new (d : List α) (r a t : Option (List α)) (name : Option String) :
    Constructs (DrivenControl.new d r a t name) := fun _ hc => ⟨d, r, a, t, name, hc⟩

theorem controlCall_constructs (call : ControlCall α) : Constructs call.result := by
  cases call with
  | composite scheme θ Ω φ name =>
    cases scheme with
    | primitive => exact .bind fun _ => .new _ _ _ _ _
    | bb1 => exact .bind fun _ => .bind fun _ => .new _ _ _ _ _
    | sk1 => exact .bind fun _ => .bind fun _ => .new _ _ _ _ _
    | scrofulous => exact .bind fun _ => .bind fun _ => .new _ _ _ _ _
    | corpse => exact .bind fun _ => .new _ _ _ _ _
    | corpseInBB1 => exact .bind fun _ => .bind fun _ => .new _ _ _ _ _
    | corpseInSK1 => exact .bind fun _ => .bind fun _ => .new _ _ _ _ _
    | corpseInScrofulous => exact .bind fun _ => .bind fun _ => .new _ _ _ _ _
    | wamf1 => exact .bind fun _ => .bind fun _ => .new _ _ _ _ _
  | gaussian Ω d T f =>
    exact .bind fun _ => .bind fun _ => .bind fun _ => .bind fun _ => .bind fun _ => .bind fun _ =>
      .new _ _ _ _ _

/-- **C92.** Every control that the constructor, the conversion of a sequence or a predefined function returns has
existing arrays of equal lengths, and keeps them under any assignments to items of arrays. -/
theorem C92_obtained (c : ControlObj) (h₀ h : Heap α)
    (hc : (∃ (d : Arg α) (r a t : Option (Arg α)) (name : Option String), d.Valid h₀ ∧
        (∀ x ∈ [r, a, t], ∀ y, x = some y → y.Valid h₀) ∧ newControlH d r a t name h₀ = (.ok c, h)) ∨
      (∃ (s : SequenceObj α) (Ω Δ m : α) (name : Option String), s.WellFormed h₀ ∧
        convertH s Ω Δ m name h₀ = (.ok c, h)) ∨
      ∃ call : ControlCall α, call.run h₀ = (.ok c, h))
    (ws : List (Nat × Nat × α)) : c.WellFormed (Heap.writes ws h) := by
  apply wellFormed_writes
  rcases hc with ⟨d, r, a, t, name, hd, hv, hc⟩ | ⟨s, Ω, Δ, m, name, w, hc⟩ | ⟨call, hc⟩
  · simp only [List.mem_cons, List.not_mem_nil, or_false, forall_eq_or_imp, forall_eq] at hv
    have run := (newControlH_run d r a t name h₀ hd hv.1 hv.2.1 hv.2.2).1
    rw [hc] at run
    exact wellFormed_of_constructed (run.valid c rfl) ⟨_, _, _, _, _, run.value.symm⟩
  · have run := convertH_run h₀ s w.exist w.rabi w.azimuthal w.detuning Ω Δ m name
    rw [hc] at run
    exact wellFormed_of_constructed (fun r hr => ((run.fresh c rfl).1 r hr).2)
      (convertDDS_constructed run.value.symm)
  · have run := controlCall_run call h₀
    rw [hc] at run
    exact wellFormed_of_constructed (run.exist c rfl) (controlCall_constructs call _ run.value.symm)

/-- **C92.** Reading a control in any way changes no array, whether it returns or raises, also when the attributes of
the control were reassigned to arrays of different lengths; an array that is returned is a new one. -/
theorem C92_reads_pure (c : ControlObj) (read : ControlRead α) (h : Heap α) :
    (∀ r < h.length, (read.run c h).2.items r = h.items r) ∧
    ∀ r, (read.run c h).1 = .ok (.array r) → h.length ≤ r ∧ r < (read.run c h).2.length :=
  ⟨(controlRead_grows c read h).items, controlRead_new c read h⟩

theorem gives_view {h : Heap α} {m : PyM α Nat} {v : Except PyErr (List α)} (g : Gives h (m h) v) :
    ((m >>= fun x => (pure (.array x) : PyM α (Answer α))) h).1.map
      (Answer.view ((m >>= fun x => (pure (.array x) : PyM α (Answer α))) h).2) = v.map Reading.array := by
  rcases hm : m h with ⟨r, h'⟩
  rw [hm] at g
  cases r with
  | error x => rw [bind_error hm, ← g.value]; rfl
  | ok k => rw [bind_ok hm, ← g.value]; rfl

theorem shows_view {β : Type} {h : Heap α} {m : PyM α β} {v : Except PyErr β} (f : β → Reading α)
    (g : (m h).1 = v) :
    ((m >>= fun x => (pure (.plain (f x)) : PyM α (Answer α))) h).1.map
      (Answer.view ((m >>= fun x => (pure (.plain (f x)) : PyM α (Answer α))) h).2) = v.map f := by
  rcases hm : m h with ⟨r, h'⟩
  rw [hm] at g
  subst g
  cases r with
  | error x => rw [bind_error hm]; rfl
  | ok k => rw [bind_ok hm]; rfl

/-- **C92.** What one reads is a function of the current contents of the control's arrays: the reading that the
value-level model gives for them, exceptions included. -/
theorem C92_reads_value (c : ControlObj) (h : Heap α) (w : c.WellFormed h) (read : ControlRead α) :
    (read.run c h).1.map (Answer.view (read.run c h).2) = read.result (c.value h) := by
  cases read with
  | numberOfSegments => rfl
  | maximumRabiRate => exact shows_view _ rfl
  | maximumDetuning => exact shows_view _ rfl
  | amplitudeX => exact gives_view (amplitudeXH_gives w)
  | amplitudeY => exact gives_view (amplitudeYH_gives w)
  | angles => exact gives_view (anglesH_gives w)
  | directions =>
    refine (gives_view (directionsH_gives w)).trans ?_
    simp only [ControlRead.result]
    cases (c.value h).directions <;> rfl
  | times => exact gives_view (timesH_gives h c)
  | maximumDuration => exact shows_view _ rfl
  | minimumDuration => exact shows_view _ rfl
  | duration => rfl
  | «export» k b => exact shows_view _ (exportPlotH_shows w k b).value
  | text => exact shows_view _ (controlTextH_shows h c).value
  | toFile fs f a t k => exact shows_view _ (exportToFileH_shows w fs f a t k).value

/-- two heaps agree on the first `n` arrays -/
theorem agree_set {n : Nat} {h₁ h₂ : Heap α} (l₁ : n ≤ h₁.length) (l₂ : n ≤ h₂.length)
    (e : ∀ r < n, h₁.items r = h₂.items r) (k i : Nat) (v : α) (r : Nat) (hr : r < n) :
    ((PyM.setItem k i v h₁).2).items r = ((PyM.setItem k i v h₂).2).items r := by
  rw [setItem_snd, setItem_snd, items_set, items_set]
  by_cases hk : k = r
  · subst hk
    rw [if_pos ⟨rfl, by omega⟩, if_pos ⟨rfl, by omega⟩, e k hr]
  · rw [if_neg (fun h => hk h.1), if_neg (fun h => hk h.1), e r hr]

theorem history_agree (c : ControlObj) {n : Nat} (steps : List (Step α)) {h₁ h₂ : Heap α}
    (l₁ : n ≤ h₁.length) (l₂ : n ≤ h₂.length) (e : ∀ r < n, h₁.items r = h₂.items r) :
    n ≤ (steps.foldl (Step.perform c) h₁).length ∧
    ∀ r < n, (steps.foldl (Step.perform c) h₁).items r =
      (Heap.writes (Step.assignments steps) h₂).items r := by
  induction steps generalizing h₁ h₂ with
  | nil => exact ⟨l₁, e⟩
  | cons s steps ih =>
    cases s with
    | assign k i v =>
      have l : ∀ h : Heap α, (PyM.setItem k i v h).2.length = h.length := fun h => by
        rw [setItem_snd, List.length_set]
      exact ih (h₁ := (PyM.setItem k i v h₁).2) (h₂ := (PyM.setItem k i v h₂).2) (by rw [l]; exact l₁)
        (by rw [l]; exact l₂) (agree_set l₁ l₂ e k i v)
    | read what =>
      have g := controlRead_grows c what h₁
      exact ih (h₁ := (what.run c h₁).2) (h₂ := h₂) (l₁.trans g.length) l₂
        (fun r hr => (g.items r (by omega)).trans (e r hr))

/-- **C92.** Nothing is cached: after any history of item assignments and readings, in any order and any number, a
reading shows what the value-level model gives for the control with the assignments alone. -/
theorem C92_history (c : ControlObj) (h : Heap α) (w : c.WellFormed h) (steps : List (Step α))
    (read : ControlRead α) :
    let h' := steps.foldl (Step.perform c) h
    (read.run c h').1.map (Answer.view (read.run c h').2) =
      read.result (c.value (Heap.writes (Step.assignments steps) h)) := by
  intro h'
  obtain ⟨l, e⟩ := history_agree c steps (le_refl h.length) (le_refl h.length) fun _ _ => rfl
  have w' := wellFormed_writes w (Step.assignments steps)
  have := w'.extend ⟨by rw [writes_length]; exact l, fun r hr => e r (by rwa [writes_length] at hr)⟩
  rw [C92_reads_value c h' this.1 read, this.2]

/-- **C92.** A returned array is independent of the control: assignments to its items do not change the control, and
assignments to the items of all arrays that existed before do not change it. -/
theorem C92_results_isolated (c : ControlObj) (h : Heap α) (w : c.WellFormed h) (read : ControlRead α) (r : Nat)
    (h' : Heap α) (hr : read.run c h = (.ok (.array r), h')) :
    (∀ ws : List (Nat × Nat × α), (∀ x ∈ ws, x.1 = r) → c.value (Heap.writes ws h') = c.value h) ∧
    ∀ ws : List (Nat × Nat × α), (∀ x ∈ ws, x.1 < h.length) → (Heap.writes ws h').items r = h'.items r := by
  obtain ⟨p, n⟩ := C92_reads_pure c read h
  rw [hr] at p n
  have n := n r rfl
  refine ⟨fun ws hw => (w.extend ⟨?_, fun k hk => ?_⟩).2, fun ws hw => ?_⟩
  · rw [writes_length]
    have := (controlRead_grows c read h).length
    rwa [hr] at this
  · rw [writes_other ws h' k fun x hx e => by have := hw x hx; omega]
    exact p k hk
  · exact writes_other ws h' r fun x hx e => by have := hw x hx; omega

/-- **C92.** Reading a sequence in any way (also exporting it to a file, which converts it) changes no array, and shows
what the value-level model gives for the current contents of its arrays. -/
theorem C92_sequence_reads (s : SequenceObj α) (h : Heap α) (w : s.WellFormed h) (read : SequenceRead α) :
    (∀ r < h.length, (read.run s h).2.items r = h.items r) ∧
    (read.run s h).1.map (Answer.view (read.run s h).2) = read.result (s.value h) := by
  cases read with
  | «export» => exact ⟨fun _ _ => rfl, rfl⟩
  | text =>
    have g := sequenceTextH_shows (h := h) w.exist
    refine ⟨?_, shows_view _ g.value⟩
    have : (SequenceRead.run s .text h).2 = (sequenceTextH s h).2 := by
      simp only [SequenceRead.run]
      rcases hm : sequenceTextH s h with ⟨r, h'⟩
      cases r with
      | error x => rw [bind_error hm]
      | ok k => rw [bind_ok hm, pure_apply]
    rw [this]
    exact g.ext.items
  | toFile fs f a t k Ω Δ =>
    have run := convertH_run h s w.exist w.rabi w.azimuthal w.detuning Ω Δ (PyFloat.lit 0) s.name
    have g : Shows h (exportSequenceToFileH s fs f a t k Ω Δ h)
        (.ok ((s.value h).exportToFile fs f a t k Ω Δ)) := by
      unfold exportSequenceToFileH Sequence.exportToFile
      have name : (s.value h).name = s.name := rfl
      rw [name]
      revert run
      rcases convertH s Ω Δ (PyFloat.lit 0) s.name h with ⟨r, h'⟩
      rintro ⟨⟨e, he⟩, hv, hf⟩
      change h' = h ++ e at he
      rw [← hv]
      have x : Extends h h' := he ▸ Extends.append h e
      cases r with
      | error y => exact ⟨x, rfl⟩
      | ok c =>
        have w' := wellFormed_of_constructed (fun r hr => ((hf c rfl).1 r hr).2)
          (convertDDS_constructed hv.symm)
        have := exportToFileH_shows w' fs f a t k
        exact ⟨x.trans this.ext, this.value⟩
    refine ⟨?_, shows_view _ g.value⟩
    have : (SequenceRead.run s (.toFile fs f a t k Ω Δ) h).2 = (exportSequenceToFileH s fs f a t k Ω Δ h).2 := by
      simp only [SequenceRead.run]
      rcases hm : exportSequenceToFileH s fs f a t k Ω Δ h with ⟨r, h'⟩
      cases r with
      | error x => rw [bind_error hm]
      | ok k => rw [bind_ok hm, pure_apply]
    rw [this]
    exact g.ext.items

/-- **C92.** What the constructor checks is not checked again when attributes are reassigned.  With a `rabi_rates`
array of `n` and an `azimuthal_angles` array of `m` entries, `amplitude_x` raises `ValueError` if and only if `n ≠ m` and
none of them is 1; if one is 1, its only entry is used for all segments. -/
theorem C92_reassigned (c : ControlObj) (h : Heap α) (hx : ∀ r ∈ c.refs, r < h.length) :
    let rates := h.items c.rabiRates
    let angles := h.items c.azimuthalAngles
    let seen := (ControlRead.run c .amplitudeX h).1.map (Answer.view (ControlRead.run c .amplitudeX h).2)
    ((∃ message, seen = .error (.valueError message)) ↔
      rates.length ≠ angles.length ∧ rates.length ≠ 1 ∧ angles.length ≠ 1) ∧
    (rates.length = angles.length → seen = .ok (.array (List.zipWith (fun r a => r * PyFloat.cos a) rates angles))) ∧
    (∀ r, rates = [r] → seen = .ok (.array (angles.map fun a => r * PyFloat.cos a))) ∧
    ∀ a, angles = [a] → seen = .ok (.array (rates.map fun r => r * PyFloat.cos a)) := by
  intro rates angles seen
  have key : ∀ v, Gives h (amplitudeXH c h) v → seen = v.map Reading.array := fun v g => gives_view g
  obtain ⟨h1, k1, hu, x1, b1, v1⟩ := (unaryH_gives h PyFloat.cos c.azimuthalAngles).run
  have e1 : h1.items c.rabiRates = rates := x1.items _ (hx c.rabiRates (by simp [ControlObj.refs]))
  have step : ∀ v, Gives h1 (binaryH (fun r x => r * x) c.rabiRates k1 h1) v →
      seen = v.map Reading.array := fun v g => key v (by
    unfold amplitudeXH
    rw [bind_ok hu]
    exact g.weaken x1)
  have eq : rates.length = angles.length →
      seen = .ok (.array (List.zipWith (fun r a => r * PyFloat.cos a) rates angles)) := fun l => by
    have g := binaryH_gives h1 (fun r x => r * x) c.rabiRates k1 (by rw [v1, e1, List.length_map]; exact l)
    rw [v1, e1, List.zipWith_map_right] at g
    exact step _ g
  have one : ∀ r, rates = [r] → seen = .ok (.array (angles.map fun a => r * PyFloat.cos a)) := fun r hr => by
    by_cases l : rates.length = angles.length
    · rw [eq l]
      obtain ⟨a, ha⟩ := List.length_eq_one_iff.1 (l.symm.trans (by rw [hr]; rfl))
      rw [hr, ha]
      rfl
    · refine step (.ok (angles.map fun a => r * PyFloat.cos a)) ?_
      unfold binaryH
      rw [bind_load, bind_load, e1, v1, if_neg (by simpa using l), hr]
      have := alloc_gives h1 ((angles.map PyFloat.cos).map fun y => r * y)
      have e : (angles.map PyFloat.cos).map (fun y => r * y) = angles.map fun a => r * PyFloat.cos a := by
        rw [List.map_map]; rfl
      rw [e] at this
      rcases ha : (h.items c.azimuthalAngles).map PyFloat.cos with _ | ⟨y, _ | ⟨y', ys⟩⟩
      all_goals
        rw [← e, show angles.map PyFloat.cos = _ from ha]
        exact alloc_gives h1 _
  have one' : ∀ a, angles = [a] → seen = .ok (.array (rates.map fun r => r * PyFloat.cos a)) := fun a ha => by
    by_cases l : rates.length = angles.length
    · rw [eq l]
      obtain ⟨r, hr⟩ := List.length_eq_one_iff.1 (l.trans (by rw [ha]; rfl))
      rw [hr, ha]
      rfl
    · refine step (.ok (rates.map fun r => r * PyFloat.cos a)) ?_
      unfold binaryH
      have ha' : h.items c.azimuthalAngles = [a] := ha
      rw [bind_load, bind_load, e1, v1, if_neg (by simpa using l), ha']
      rw [ha] at l
      rcases hr : rates with _ | ⟨r, _ | ⟨r', rs⟩⟩
      · exact alloc_gives h1 _
      · rw [hr] at l; exact absurd rfl l
      · exact alloc_gives h1 _
  refine ⟨⟨?_, ?_⟩, eq, one, one'⟩
  · rintro ⟨m, hm⟩
    refine ⟨fun l => ?_, fun l => ?_, fun l => ?_⟩
    · rw [eq l] at hm; cases hm
    · obtain ⟨r, hr⟩ := List.length_eq_one_iff.1 l
      rw [one r hr] at hm; cases hm
    · obtain ⟨a, ha⟩ := List.length_eq_one_iff.1 l
      rw [one' a ha] at hm; cases hm
  · rintro ⟨l, l1, l2⟩
    refine ⟨"operands could not be broadcast together",
      step (.error (.valueError "operands could not be broadcast together")) ?_⟩
    unfold binaryH
    rw [bind_load, bind_load, e1, v1, if_neg (by simpa using l)]
    have l2' : ((h.items c.azimuthalAngles).map PyFloat.cos).length ≠ 1 := by
      rw [List.length_map]; exact l2
    rcases hr : rates with _ | ⟨r, _ | ⟨r', rs⟩⟩
    · rcases ha : (h.items c.azimuthalAngles).map PyFloat.cos with _ | ⟨y, _ | ⟨y', ys⟩⟩
      · exact ⟨Extends.refl h1, rfl, fun k hk => by simp [raise] at hk⟩
      · rw [ha] at l2'; exact absurd rfl l2'
      · exact ⟨Extends.refl h1, rfl, fun k hk => by simp [raise] at hk⟩
    · rw [hr] at l1; exact absurd rfl l1
    · rcases ha : (h.items c.azimuthalAngles).map PyFloat.cos with _ | ⟨y, _ | ⟨y', ys⟩⟩
      · exact ⟨Extends.refl h1, rfl, fun k hk => by simp [raise] at hk⟩
      · rw [ha] at l2'; exact absurd rfl l2'
      · exact ⟨Extends.refl h1, rfl, fun k hk => by simp [raise] at hk⟩

end

/-- a concrete control with one segment -/
example : ∃ (c : ControlObj) (h : Heap ℝ), newControlH (.list [2]) (some (.list [3])) none none none [] =
    (.ok c, h) ∧ c.WellFormed h ∧
    (ControlRead.run c .times h).1.map (Answer.view (ControlRead.run c .times h).2) = .ok (.array [0, 2]) ∧
    (let h' := [Step.read .angles, .assign c.durations 0 5, .read .times].foldl (Step.perform c) h;
      (ControlRead.run c .times h').1.map (Answer.view (ControlRead.run c .times h').2) =
        .ok (.array [0, 5])) := by
  have hv : ∀ x ∈ [some (Arg.list [(3 : ℝ)]), none, none], ∀ y, x = some y → y.Valid ([] : Heap ℝ) := by
    simp [Arg.Valid, Arg.ref?]
  have run := (newControlH_run (.list [(2 : ℝ)]) (some (.list [3])) none none none [] (by simp [Arg.Valid, Arg.ref?])
    (hv _ (by simp)) (hv _ (by simp)) (hv _ (by simp))).1
  have ok : DrivenControl.new [(2 : ℝ)] (some [3]) none none none =
      .ok ⟨[3], [0], [0], [2], none⟩ := by
    rw [DrivenControl.new_eq, if_pos (by simp), if_pos (by simp), if_pos (by simp)]
    simp
  have hval := run.value
  rcases hr : newControlH (.list [(2 : ℝ)]) (some (.list [3])) none none none [] with ⟨r, h⟩
  rw [hr] at hval
  change Except.map _ _ = DrivenControl.new [(2 : ℝ)] (some [3]) none none none at hval
  rw [ok] at hval
  cases r with
  | error x => cases hval
  | ok c =>
    simp only [Except.map, Except.ok.injEq] at hval
    have w : c.WellFormed h := by
      have := C92_obtained c [] h (.inl ⟨_, _, _, _, _, by simp [Arg.Valid, Arg.ref?], hv, hr⟩) []
      exact this
    refine ⟨c, h, rfl, w, ?_, ?_⟩
    · rw [C92_reads_value c h w, hval]
      simp [ControlRead.result, DrivenControl.times, Py.npCumsum, Py.cumsumFrom]
    · refine (C92_history c h w _ _).trans ?_
      have d : (c.value (Heap.writes [(c.durations, 0, 5)] h)).durations = [5] := by
        have e : h.items c.durations = [2] := congrArg DrivenControl.durations hval
        simp only [ControlObj.value, Heap.writes]
        rw [setItem_snd, items_set, if_pos ⟨rfl, w.exist _ (by simp [ControlObj.refs])⟩, e]
        rfl
      have a : Step.assignments [Step.read .angles, .assign c.durations 0 (5 : ℝ), .read .times] =
          [(c.durations, 0, 5)] := rfl
      simp only [ControlRead.result, DrivenControl.times, a, d]
      simp [Py.npCumsum, Py.cumsumFrom]

end OpenControls
