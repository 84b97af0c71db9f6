import Verif.Proofs.Reports
import Verif.Proofs.Composite
import Verif.Proofs.Gaussian
import Verif.Proofs.Families

/-!
# What the reports name
-/

namespace OpenControls

open PyFloat Py Spec

section
variable {α : Type} [Add α] [Sub α] [Mul α] [Div α] [Neg α] [PyFloat α] {β γ A : Type}

theorem checkR_bind (c : Bool) (d : String) (a : List (String × Reported α))
    (e : Option (List (String × Reported α))) (f : Unit → Except (Raised α) β) :
    (checkR c d a e >>= f) = if c then f () else .error (.report ⟨d, a, e⟩) := by
  cases c <;> rfl

theorem checkR_eq (c : Bool) (d : String) (a : List (String × Reported α))
    (e : Option (List (String × Reported α))) :
    checkR c d a e = if c then .ok () else .error (.report ⟨d, a, e⟩) := rfl

theorem raised_inj {r r' : Report α} (h : (Except.error (.report r) : Except (Raised α) β) = .error (.report r')) :
    r = r' := by cases h; rfl

theorem newR_eq (ds : List α) (rs as dets : Option (List α)) (name : Option String) :
    DrivenControl.newR ds rs as dets name =
      if (ds.all fun d => gt d (lit 0)) then
        if (pySet ([rs, as, dets, some ds].filterMap (Option.map List.length))).length == 1 then
          if ((rs.getD (List.replicate ds.length (lit 0))).all fun r => ge r (lit 0)) then
            .ok ⟨rs.getD (List.replicate ds.length (lit 0)), as.getD (List.replicate ds.length (lit 0)),
              dets.getD (List.replicate ds.length (lit 0)), ds, name⟩
          else .error (.report ⟨"All rabi rates must be greater than zero.",
            [("rabi_rates", .arr (rs.getD (List.replicate ds.length (lit 0))))], none⟩)
        else .error (.report ⟨"If set, rabi rates, azimuthal angles, detunings and durations must be of same length",
          [("rabi_rates", .optArr rs), ("azimuthal_angles", .optArr as), ("detunings", .optArr dets),
            ("durations", .arr ds)], none⟩)
      else .error (.report ⟨"Duration of driven control segments must all be greater than zero.",
        [("durations", .arr ds)], none⟩) := by
  unfold DrivenControl.newR
  simp only [checkR_bind]
  rfl

theorem sequenceR_eq (T : α) (os rs as ds : List α) (name : Option String) :
    Sequence.newR T os rs as ds name =
      if gt T (lit 0) then
        if (os.all fun t => ge t (lit 0) && ge T t) then
          if rs.length == os.length then
            if as.length == os.length then
              if ds.length == os.length then .ok ⟨T, os, rs, as, ds, name⟩
              else .error (.report ⟨"detuning rotations must have the same length as offsets. ",
                [("offsets", .arr os), ("detuning_rotations", .arr ds)], none⟩)
            else .error (.report ⟨"azimuthal angles must have the same length as offsets. ",
              [("offsets", .arr os), ("azimuthal_angles", .arr as)], none⟩)
          else .error (.report ⟨"rabi rotations must have the same length as offsets. ",
            [("offsets", .arr os), ("rabi_rotations", .arr rs)], none⟩)
        else .error (.report
          ⟨"Offsets for dynamic decoupling sequence must be between 0 and the sequence duration (inclusive). ",
          [("offsets", .arr os), ("duration", .num T)], none⟩)
      else .error (.report ⟨"Sequence duration must be above zero.", [("duration", .num T)], none⟩) := by
  unfold Sequence.newR
  simp only [checkR_bind]
  rfl

theorem optArr_inj {a b : Option (List α)} (h : Reported.optArr a = Reported.optArr b) : a = b := by
  cases a <;> cases b <;> simp_all [Reported.optArr]

theorem optArr_arr {a : Option (List α)} {l : List α} (h : Reported.arr l = Reported.optArr a) : a = some l := by
  cases a <;> simp_all [Reported.optArr]

theorem explained_control (h0 : ge (lit 0 : α) (lit 0) = true) (a : ControlInit α) :
    Explained ControlInit.parameters ControlInit.call a := by
  obtain ⟨ds, rs, as, dets, name⟩ := a
  intro r h
  simp only [ControlInit.call, newR_eq] at h
  split at h
  · split at h
    · split at h
      · cases h
      · next h3 =>
        cases raised_inj h
        cases rs with
        | none =>
          exfalso
          apply h3
          simp [h0]
        | some rs =>
          refine ⟨by simp, by simp [ControlInit.parameters, Reported.optArr], fun b hb => ?_⟩
          obtain ⟨ds', rs', as', dets', name'⟩ := b
          have hr : rs' = some rs := by
            have := hb _ (List.mem_singleton.mpr rfl)
            simp only [ControlInit.parameters, List.mem_cons, Prod.mk.injEq] at this
            simp at this
            exact optArr_arr this
          subst hr
          simp only [ControlInit.call, newR_eq]
          split
          · split
            · rw [if_neg (by simpa using h3)]
              exact ⟨_, rfl⟩
            · exact ⟨_, rfl⟩
          · exact ⟨_, rfl⟩
    · next h2 =>
      cases raised_inj h
      refine ⟨by simp, by simp [ControlInit.parameters], fun b hb => ?_⟩
      obtain ⟨ds', rs', as', dets', name'⟩ := b
      simp [ControlInit.parameters] at hb
      obtain ⟨e1, e2, e3, e4⟩ := hb
      cases optArr_inj e1
      cases optArr_inj e2
      cases optArr_inj e3
      subst e4
      simp only [ControlInit.call, newR_eq]
      split_ifs <;> exact ⟨_, rfl⟩
  · next h1 =>
    cases raised_inj h
    refine ⟨by simp, by simp [ControlInit.parameters], fun b hb => ?_⟩
    obtain ⟨ds', rs', as', dets', name'⟩ := b
    simp [ControlInit.parameters] at hb
    subst hb
    simp only [ControlInit.call, newR_eq]
    rw [if_neg h1]
    exact ⟨_, rfl⟩

theorem explained_sequence (a : SequenceInit α) : Explained SequenceInit.parameters SequenceInit.call a := by
  obtain ⟨T, os, rs, as, ds, name⟩ := a
  intro r h
  simp only [SequenceInit.call, sequenceR_eq] at h
  split at h
  · split at h
    · split at h
      · split at h
        · split at h
          · cases h
          · next h5 =>
            cases raised_inj h
            refine ⟨by simp, by simp [SequenceInit.parameters], fun b hb => ?_⟩
            obtain ⟨T', os', rs', as', ds', name'⟩ := b
            simp [SequenceInit.parameters] at hb
            obtain ⟨rfl, rfl⟩ := hb
            simp only [SequenceInit.call, sequenceR_eq]
            rw [if_neg h5]
            split_ifs <;> exact ⟨_, rfl⟩
        · next h4 =>
          cases raised_inj h
          refine ⟨by simp, by simp [SequenceInit.parameters], fun b hb => ?_⟩
          obtain ⟨T', os', rs', as', ds', name'⟩ := b
          simp [SequenceInit.parameters] at hb
          obtain ⟨rfl, rfl⟩ := hb
          simp only [SequenceInit.call, sequenceR_eq]
          rw [if_neg h4]
          split_ifs <;> exact ⟨_, rfl⟩
      · next h3 =>
        cases raised_inj h
        refine ⟨by simp, by simp [SequenceInit.parameters], fun b hb => ?_⟩
        obtain ⟨T', os', rs', as', ds', name'⟩ := b
        simp [SequenceInit.parameters] at hb
        obtain ⟨rfl, rfl⟩ := hb
        simp only [SequenceInit.call, sequenceR_eq]
        rw [if_neg h3]
        split_ifs <;> exact ⟨_, rfl⟩
    · next h2 =>
      cases raised_inj h
      refine ⟨by simp, by simp [SequenceInit.parameters], fun b hb => ?_⟩
      obtain ⟨T', os', rs', as', ds', name'⟩ := b
      simp [SequenceInit.parameters] at hb
      obtain ⟨rfl, rfl⟩ := hb
      simp only [SequenceInit.call, sequenceR_eq]
      rw [if_neg h2]
      split_ifs <;> exact ⟨_, rfl⟩
  · next h1 =>
    cases raised_inj h
    refine ⟨by simp, by simp [SequenceInit.parameters], fun b hb => ?_⟩
    obtain ⟨T', os', rs', as', ds', name'⟩ := b
    simp [SequenceInit.parameters] at hb
    subst hb
    simp only [SequenceInit.call, sequenceR_eq]
    rw [if_neg h1]
    exact ⟨_, rfl⟩

theorem SameCall_ok {x : Except (Raised α) β} {y : Except PyErr β} {c : β} (h : SameCall x y) (hy : y = .ok c) :
    x = .ok c := by
  subst hy
  match x, h with
  | .ok b, h => cases h; rfl

theorem SameCall_error {x : Except (Raised α) β} {y : Except PyErr β} {d : String} (h : SameCall x y)
    (hy : y = .error (.arguments d)) : ∃ r, x = .error (.report r) := by
  subst hy
  match x, h with
  | .error (.report r), _ => exact ⟨r, rfl⟩
  | .error (.other e), h => exact absurd h.2 (by rw [h.1]; simp [PyErr.isArguments])

theorem explained_sequenceArgs {N : Type} {f : α → N → Bool → Option String → Except (Raised α) (Sequence α)}
    {numbers : N → List (String × Reported α)}
    (hdur : ∀ T n b name, ¬ gt T (lit 0) = true →
      f T n b name = .error (.report ⟨"Sequence duration must be greater than zero.", [("duration", .num T)], none⟩))
    (hkeys : ∀ n, ∀ kv ∈ numbers n, kv.1 ≠ "duration" ∧ kv.1 ≠ "pre_post_rotation" ∧ kv.1 ≠ "name")
    (hrest : ∀ T n b name r, gt T (lit 0) = true → f T n b name = .error (.report r) →
      r.arguments ≠ [] ∧ (∀ kv ∈ r.arguments, kv ∈ numbers n) ∧
      ∀ T' n' b' name', gt T' (lit 0) = true → (∀ kv ∈ r.arguments, kv ∈ numbers n') →
        ∃ r', f T' n' b' name' = .error (.report r'))
    (a : SequenceArgs α N) : Explained (SequenceArgs.parameters numbers) (SequenceArgs.call f) a := by
  obtain ⟨T, n, b, name⟩ := a
  intro r h
  simp only [SequenceArgs.call] at h
  by_cases hT : gt T (lit 0) = true
  · obtain ⟨h1, h2, h3⟩ := hrest T n b name r hT h
    refine ⟨h1, fun kv hkv => ?_, fun a' ha' => ?_⟩
    · simp [SequenceArgs.parameters, h2 kv hkv]
    · obtain ⟨T', n', b', name'⟩ := a'
      by_cases hT' : gt T' (lit 0) = true
      · refine h3 T' n' b' name' hT' fun kv hkv => ?_
        have := ha' kv hkv
        obtain ⟨k1, k2, k3⟩ := hkeys n kv (h2 kv hkv)
        obtain ⟨k, v⟩ := kv
        simp only [SequenceArgs.parameters, List.cons_append, List.mem_cons, List.mem_append, Prod.mk.injEq,
          List.not_mem_nil, or_false] at this
        rcases this with h | h | h | h
        · exact absurd h.1 k1
        · exact h
        · exact absurd h.1 k2
        · exact absurd h.1 k3
      · exact ⟨_, hdur T' n' b' name' hT'⟩
  · rw [hdur T n b name hT] at h
    cases raised_inj h
    refine ⟨by simp, by simp [SequenceArgs.parameters], fun a' ha' => ?_⟩
    obtain ⟨T', n', b', name'⟩ := a'
    have := ha' _ (List.mem_singleton.mpr rfl)
    have hTT : T = T' := by
      by_contra hne
      simp only [SequenceArgs.parameters, List.cons_append, List.mem_cons, List.mem_append, Prod.mk.injEq,
        List.not_mem_nil, or_false, Reported.num.injEq] at this
      rcases this with h | h | h | h
      · exact hne h.2
      · exact (hkeys _ _ h).1 rfl
      · simp at h
      · simp at h
    subst hTT
    exact ⟨_, hdur _ n' b' name' hT⟩

end

/-! ## Predefined sequences of real numbers -/

/-- one number, under the name of its parameter -/
def oneNumber (key : String) (x : ℝ) : List (String × Reported ℝ) := [(key, .num x)]

theorem explained_noNumbers {f : ℝ → Bool → Option String → Except (Raised ℝ) (Sequence ℝ)}
    (hdur : ∀ T b name, ¬ gt T (lit 0) = true →
      f T b name = .error (.report ⟨"Sequence duration must be greater than zero.", [("duration", .num T)], none⟩))
    (hok : ∀ T b name, 0 < T → ∃ s, f T b name = .ok s) (a : SequenceArgs ℝ Unit) :
    Explained (SequenceArgs.parameters fun _ => []) (SequenceArgs.call fun T _ => f T) a := by
  refine explained_sequenceArgs (fun T _ b name h => hdur T b name h) (by simp) ?_ a
  intro T _ b name r hT h
  obtain ⟨s, hs⟩ := hok T b name (by simpa using hT)
  rw [hs] at h
  cases h

theorem explained_oneNumber {f : ℝ → ℝ → Bool → Option String → Except (Raised ℝ) (Sequence ℝ)} {key : String}
    (hkey : key ≠ "duration" ∧ key ≠ "pre_post_rotation" ∧ key ≠ "name") {P : ℝ → Prop} {d : String}
    (hdur : ∀ T n b name, ¬ gt T (lit 0) = true →
      f T n b name = .error (.report ⟨"Sequence duration must be greater than zero.", [("duration", .num T)], none⟩))
    (hbad : ∀ T n b name, 0 < T → ¬ P n → f T n b name = .error (.report ⟨d, [(key, .num n)], none⟩))
    (hok : ∀ T n b name, 0 < T → P n → ∃ s, f T n b name = .ok s) (a : SequenceArgs ℝ ℝ) :
    Explained (SequenceArgs.parameters (oneNumber key)) (SequenceArgs.call f) a := by
  refine explained_sequenceArgs hdur ?_ ?_ a
  · intro n kv hkv
    rw [oneNumber, List.mem_singleton] at hkv
    subst hkv
    exact hkey
  · intro T n b name r hT h
    have hT : 0 < T := by simpa using hT
    by_cases hn : P n
    · obtain ⟨s, hs⟩ := hok T n b name hT hn
      rw [hs] at h
      cases h
    · rw [hbad T n b name hT hn] at h
      cases raised_inj h
      refine ⟨by simp, by simp [oneNumber], fun T' n' b' name' hT' hb => ?_⟩
      simp only [oneNumber, List.mem_singleton, forall_eq, Prod.mk.injEq, Reported.num.injEq, true_and] at hb
      subst hb
      exact ⟨_, hbad T' n b' name' (by simpa using hT') hn⟩

theorem family_predefined_ok {p : Predefined ℝ} {f : Family} (hp : ∀ T b name, p.call T b name = f.call T b name)
    (hv : f.Valid) {T : ℝ} (hT : 0 < T) (b : Bool) (name : Option String) : ∃ s, p.callR T b name = .ok s :=
  ⟨_, SameCall_ok (sameCall_predefined p T b name) ((hp T b name).trans (Family.call_eq hv hT ..))⟩

theorem checkDurationR_neg {T : ℝ} (h : ¬ gt T (lit 0) = true) {β : Type} (g : Unit → Except (Raised ℝ) β) :
    (checkDurationR T >>= g) =
      .error (.report ⟨"Sequence duration must be greater than zero.", [("duration", .num T)], none⟩) := by
  unfold checkDurationR
  rw [checkR_bind, if_neg h]

theorem checkDurationR_pos {T : ℝ} (h : 0 < T) {β : Type} (g : Unit → Except (Raised ℝ) β) :
    (checkDurationR T >>= g) = g () := by
  unfold checkDurationR
  rw [checkR_bind, if_pos (by simpa using h)]

theorem checkR_neg {c : Bool} (h : c = false) {β : Type} (d : String) (a : List (String × Reported ℝ))
    (e : Option (List (String × Reported ℝ))) (g : Unit → Except (Raised ℝ) β) :
    (checkR c d a e >>= g) = .error (.report ⟨d, a, e⟩) := by
  rw [checkR_bind, if_neg (by simp [h])]

theorem explained_ramsey (a : SequenceArgs ℝ Unit) :
    Explained (SequenceArgs.parameters fun _ => []) (SequenceArgs.call fun T _ => newRamseySequenceR T) a :=
  explained_noNumbers (fun _ _ _ h => checkDurationR_neg h _)
    (fun _ b name hT => family_predefined_ok (p := .ramsey) (f := .ramsey) (fun _ _ _ => rfl) trivial hT b name) a

theorem explained_spinEcho (a : SequenceArgs ℝ Unit) :
    Explained (SequenceArgs.parameters fun _ => []) (SequenceArgs.call fun T _ => newSpinEchoSequenceR T) a :=
  explained_noNumbers (fun _ _ _ h => checkDurationR_neg h _)
    (fun _ b name hT => family_predefined_ok (p := .spinEcho) (f := .spinEcho) (fun _ _ _ => rfl) trivial hT b name) a

theorem ge_one_false {n : ℝ} (h : ¬ 1 ≤ n) : Py.ge n (lit 1) = false := by
  rw [Bool.eq_false_iff]
  simpa using h

theorem explained_carrPurcell (a : SequenceArgs ℝ ℝ) :
    Explained (SequenceArgs.parameters (oneNumber "offset_count")) (SequenceArgs.call newCarrPurcellSequenceR) a :=
  explained_oneNumber (by decide) (P := fun n => 1 ≤ n) (fun _ _ _ _ h => checkDurationR_neg h _)
    (fun _ _ _ _ hT hn => (checkDurationR_pos hT _).trans (checkR_neg (ge_one_false hn) _ _ _ _))
    (fun _ n b name hT hn =>
      family_predefined_ok (p := .carrPurcell n) (f := .carrPurcell n) (fun _ _ _ => rfl) hn hT b name) a

theorem explained_cpmg (a : SequenceArgs ℝ ℝ) :
    Explained (SequenceArgs.parameters (oneNumber "offset_count")) (SequenceArgs.call newCPMGSequenceR) a :=
  explained_oneNumber (by decide) (P := fun n => 1 ≤ n) (fun _ _ _ _ h => checkDurationR_neg h _)
    (fun _ _ _ _ hT hn => (checkDurationR_pos hT _).trans (checkR_neg (ge_one_false hn) _ _ _ _))
    (fun _ n b name hT hn => family_predefined_ok (p := .cpmg n) (f := .cpmg n) (fun _ _ _ => rfl) hn hT b name) a

theorem explained_uhrig (a : SequenceArgs ℝ ℝ) :
    Explained (SequenceArgs.parameters (oneNumber "offset_count")) (SequenceArgs.call newUhrigSequenceR) a :=
  explained_oneNumber (by decide) (P := fun n => 1 ≤ n) (fun _ _ _ _ h => checkDurationR_neg h _)
    (fun _ _ _ _ hT hn => (checkDurationR_pos hT _).trans (checkR_neg (ge_one_false hn) _ _ _ _))
    (fun _ n b name hT hn => family_predefined_ok (p := .uhrig n) (f := .uhrig n) (fun _ _ _ => rfl) hn hT b name) a

theorem explained_periodic (a : SequenceArgs ℝ ℝ) :
    Explained (SequenceArgs.parameters (oneNumber "offset_count")) (SequenceArgs.call newPeriodicSequenceR) a :=
  explained_oneNumber (by decide) (P := fun n => 1 ≤ n) (fun _ _ _ _ h => checkDurationR_neg h _)
    (fun _ _ _ _ hT hn => (checkDurationR_pos hT _).trans (checkR_neg (ge_one_false hn) _ _ _ _))
    (fun _ n b name hT hn =>
      family_predefined_ok (p := .periodic n) (f := .periodic n) (fun _ _ _ => rfl) hn hT b name) a

theorem explained_xConcatenated (a : SequenceArgs ℝ ℝ) :
    Explained (SequenceArgs.parameters (oneNumber "concatenation_order"))
      (SequenceArgs.call newXConcatenatedSequenceR) a :=
  explained_oneNumber (by decide) (P := fun n => 1 ≤ n) (fun _ _ _ _ h => checkDurationR_neg h _)
    (fun _ _ _ _ hT hn => (checkDurationR_pos hT _).trans (checkR_neg (ge_one_false hn) _ _ _ _))
    (fun _ n b name hT hn =>
      family_predefined_ok (p := .xConcatenated n) (f := .xConcatenated n) (fun _ _ _ => rfl) hn hT b name) a

theorem explained_xyConcatenated (a : SequenceArgs ℝ ℝ) :
    Explained (SequenceArgs.parameters (oneNumber "concatenation_order"))
      (SequenceArgs.call newXYConcatenatedSequenceR) a :=
  explained_oneNumber (by decide) (P := fun n => 1 ≤ n) (fun _ _ _ _ h => checkDurationR_neg h _)
    (fun _ _ _ _ hT hn => (checkDurationR_pos hT _).trans (checkR_neg (ge_one_false hn) _ _ _ _))
    (fun _ n b name hT hn =>
      family_predefined_ok (p := .xyConcatenated n) (f := .xyConcatenated n) (fun _ _ _ => rfl) hn hT b name) a

theorem explained_walsh (a : SequenceArgs ℝ ℝ) :
    Explained (SequenceArgs.parameters (oneNumber "paley_order")) (SequenceArgs.call newWalshSequenceR) a :=
  explained_oneNumber (by decide) (P := fun n => 1 ≤ n ∧ n ≤ 2000) (fun _ _ _ _ h => checkDurationR_neg h _)
    (fun _ _ _ _ hT hn => (checkDurationR_pos hT _).trans
      (checkR_neg (by rw [Bool.eq_false_iff]; simpa using hn) _ _ _ _))
    (fun _ n b name hT hn => family_predefined_ok (p := .walsh n) (f := .walsh n) (fun _ _ _ => rfl) hn hT b name) a

/-- the two numbers of the quadratic sequence -/
def quadraticNumbers (n : ℝ × ℝ) : List (String × Reported ℝ) :=
  [("inner_offset_count", .num n.1), ("outer_offset_count", .num n.2)]

theorem quadraticR_inner {T n m : ℝ} (hT : 0 < T) (hn : ¬ 1 ≤ n) (b : Bool) (name : Option String) :
    newQuadraticSequenceR T n m b name = .error (.report
      ⟨"Number of offsets of inner pulses must be greater than zero.", [("inner_offset_count", .num n)], none⟩) :=
  (checkDurationR_pos hT _).trans (checkR_neg (ge_one_false hn) _ _ _ _)

theorem quadraticR_outer {T n m : ℝ} (hT : 0 < T) (hn : 1 ≤ n) (hm : ¬ 1 ≤ m) (b : Bool) (name : Option String) :
    newQuadraticSequenceR T n m b name = .error (.report
      ⟨"Number of offsets of outer pulses must be greater than zero.", [("outer_offset_count", .num m)], none⟩) := by
  refine (checkDurationR_pos hT _).trans ?_
  rw [checkR_bind, if_pos (by simpa using hn), checkR_neg (ge_one_false hm)]

theorem explained_quadratic (a : SequenceArgs ℝ (ℝ × ℝ)) :
    Explained (SequenceArgs.parameters quadraticNumbers)
      (SequenceArgs.call fun T n => newQuadraticSequenceR T n.1 n.2) a := by
  refine explained_sequenceArgs (fun _ _ _ _ h => checkDurationR_neg h _) ?_ ?_ a
  · intro n kv hkv
    simp only [quadraticNumbers, List.mem_cons, List.not_mem_nil, or_false] at hkv
    rcases hkv with rfl | rfl <;> simp
  · rintro T ⟨n, m⟩ b name r hT h
    have hT : 0 < T := by simpa using hT
    change newQuadraticSequenceR T n m b name = _ at h
    by_cases hn : 1 ≤ n
    · by_cases hm : 1 ≤ m
      · obtain ⟨s, hs⟩ := family_predefined_ok (p := .quadratic n m) (f := .quadratic n m) (fun _ _ _ => rfl)
          ⟨hn, hm⟩ hT b name
        rw [show newQuadraticSequenceR T n m b name = .ok s from hs] at h
        cases h
      · rw [quadraticR_outer hT hn hm] at h
        cases raised_inj h
        refine ⟨by simp, by simp [quadraticNumbers], fun T' n' b' name' hT' hb => ?_⟩
        obtain ⟨n', m'⟩ := n'
        simp [quadraticNumbers] at hb
        subst hb
        have hT' : 0 < T' := by simpa using hT'
        by_cases hn' : 1 ≤ n'
        · exact ⟨_, quadraticR_outer hT' hn' hm _ _⟩
        · exact ⟨_, quadraticR_inner hT' hn' _ _⟩
    · rw [quadraticR_inner hT hn] at h
      cases raised_inj h
      refine ⟨by simp, by simp [quadraticNumbers], fun T' n' b' name' hT' hb => ?_⟩
      obtain ⟨n', m'⟩ := n'
      simp [quadraticNumbers] at hb
      subst hb
      exact ⟨_, quadraticR_inner (by simpa using hT') hn _ _⟩

/-! ## Predefined controls of real numbers -/

theorem validateR_bind (θ Ω : ℝ) {β : Type} (g : Unit → Except (Raised ℝ) β) :
    (validateRabiParametersR θ Ω >>= g) =
      if 0 < Ω then
        if θ ≠ 0 then g ()
        else .error (.report ⟨"The rabi rotation must be non-zero.", [("rabi_rotation", .num θ)], none⟩)
      else .error (.report ⟨"Maximum rabi angular frequency should be greater than zero.",
        [("maximum_rabi_rate", .num Ω)], none⟩) := by
  unfold validateRabiParametersR
  by_cases h1 : 0 < Ω
  · by_cases h2 : θ = 0
    · rw [if_pos h1, if_neg (by simpa using h2), checkR_eq, if_pos (by simpa using h1)]
      subst h2
      simp [checkR, Py.ne]
      rfl
    · rw [if_pos h1, if_pos h2, checkR_eq, if_pos (by simpa using h1)]
      simp [checkR, h2]
      rfl
  · rw [if_neg h1, checkR_eq, if_neg (by simpa using h1)]
    rfl

theorem wimperisR_bind (θ : ℝ) {β : Type} (g : ℝ → Except (Raised ℝ) β) :
    (transformedRabiRotationWimperisR θ >>= g) =
      if -4 * Real.pi ≤ θ ∧ θ ≤ 4 * Real.pi then g (PyFloat.arccos (-θ / (lit 4 * PyFloat.pi)))
      else .error (.report ⟨"The polar angle must be between -4 pi and 4 pi (inclusive).",
        [("rabi_rotation", .num θ)], none⟩) := by
  unfold transformedRabiRotationWimperisR
  have hc : (PyFloat.le (lit (-4) * PyFloat.pi) θ && PyFloat.le θ (lit 4 * PyFloat.pi)) = true ↔
      -4 * Real.pi ≤ θ ∧ θ ≤ 4 * Real.pi := by simp [neg_mul]
  by_cases h : -4 * Real.pi ≤ θ ∧ θ ≤ 4 * Real.pi
  · rw [if_pos h, checkR_eq, if_pos (hc.mpr h)]
    rfl
  · rw [if_neg h, checkR_eq, if_neg (fun h' => h (hc.mp h'))]
    rfl

theorem supportedR_bind (θ : ℝ) {β : Type} (g : Unit → Except (Raised ℝ) β) :
    (checkR (isSupportedRotation θ) "rabi_rotation angle must be either pi, pi/2 or pi/4"
        [("rabi_rotation", .num θ)] none >>= g) =
      if isSupportedRotation θ then g ()
      else .error (.report ⟨"rabi_rotation angle must be either pi, pi/2 or pi/4",
        [("rabi_rotation", .num θ)], none⟩) := checkR_bind _ _ _ _ _

/-- A predefined control checks the rate, then the rotation is not zero, then something else about the rotation
alone, and then calls the constructor. -/
theorem explained_pulse {s : Scheme} {Q : ℝ → Prop} {d : String}
    (h1 : ∀ (θ Ω φ : ℝ) (name : Option String), ¬ 0 < Ω → s.callR θ Ω φ name = .error (.report
      ⟨"Maximum rabi angular frequency should be greater than zero.", [("maximum_rabi_rate", .num Ω)], none⟩))
    (h2 : ∀ (θ Ω φ : ℝ) (name : Option String), 0 < Ω → θ = 0 → s.callR θ Ω φ name = .error (.report
      ⟨"The rabi rotation must be non-zero.", [("rabi_rotation", .num θ)], none⟩))
    (h3 : ∀ (θ Ω φ : ℝ) (name : Option String), 0 < Ω → θ ≠ 0 → ¬ Q θ → s.callR θ Ω φ name = .error (.report
      ⟨d, [("rabi_rotation", .num θ)], none⟩))
    (a : PulseArgs ℝ)
    (h4 : 0 < a.maximumRabiRate → a.rabiRotation ≠ 0 → Q a.rabiRotation → ∃ c, a.call s = .ok c) :
    Explained PulseArgs.parameters (PulseArgs.call s) a := by
  obtain ⟨θ, Ω, φ, name⟩ := a
  intro r h
  simp only [PulseArgs.call] at h h4
  by_cases hΩ : 0 < Ω
  · have key : ∀ a' : PulseArgs ℝ, a'.rabiRotation = θ → (θ = 0 ∨ ¬ Q θ) →
        ∃ r', a'.call s = .error (.report r') := by
      rintro ⟨θ', Ω', φ', name'⟩ rfl hbad
      simp only [PulseArgs.call]
      by_cases hΩ' : 0 < Ω'
      · by_cases hθ : θ' = 0
        · exact ⟨_, h2 _ _ _ _ hΩ' hθ⟩
        · exact ⟨_, h3 _ _ _ _ hΩ' hθ (hbad.resolve_left hθ)⟩
      · exact ⟨_, h1 _ _ _ _ hΩ'⟩
    by_cases hθ : θ = 0
    · rw [h2 θ Ω φ name hΩ hθ] at h
      cases raised_inj h
      refine ⟨by simp, by simp [PulseArgs.parameters], fun b hb => key b ?_ (.inl hθ)⟩
      simp [PulseArgs.parameters] at hb
      exact hb.symm
    · by_cases hQ : Q θ
      · obtain ⟨c, hc⟩ := h4 hΩ hθ hQ
        rw [hc] at h
        cases h
      · rw [h3 θ Ω φ name hΩ hθ hQ] at h
        cases raised_inj h
        refine ⟨by simp, by simp [PulseArgs.parameters], fun b hb => key b ?_ (.inr hQ)⟩
        simp [PulseArgs.parameters] at hb
        exact hb.symm
  · rw [h1 θ Ω φ name hΩ] at h
    cases raised_inj h
    refine ⟨by simp, by simp [PulseArgs.parameters], fun b hb => ?_⟩
    obtain ⟨θ', Ω', φ', name'⟩ := b
    simp [PulseArgs.parameters] at hb
    subst hb
    exact ⟨_, h1 _ _ _ _ hΩ⟩

theorem callR_rate (s : Scheme) (θ Ω φ : ℝ) (name : Option String) (h : ¬ 0 < Ω) :
    s.callR θ Ω φ name = .error (.report
      ⟨"Maximum rabi angular frequency should be greater than zero.", [("maximum_rabi_rate", .num Ω)], none⟩) := by
  cases s <;> exact (validateR_bind θ Ω _).trans (if_neg h)

theorem callR_zero (s : Scheme) (θ Ω φ : ℝ) (name : Option String) (h : 0 < Ω) (h0 : θ = 0) :
    s.callR θ Ω φ name = .error (.report
      ⟨"The rabi rotation must be non-zero.", [("rabi_rotation", .num θ)], none⟩) := by
  cases s <;> exact (validateR_bind θ Ω _).trans ((if_pos h).trans (if_neg (by simpa using h0)))

/-- the call after the checks of the rate and of a rotation that is zero -/
theorem scheme_ok {s : Scheme} {θ Ω φ : ℝ} {name : Option String} {P : Prop} {c : DrivenControl ℝ}
    (h : AcceptsExactly (s.call θ Ω φ name) P c) (hP : P) : ∃ c, s.callR θ Ω φ name = .ok c :=
  ⟨c, SameCall_ok (sameCall_scheme s θ Ω φ name) (h.1 hP)⟩

theorem explained_scheme (s : Scheme) (a : PulseArgs ℝ) (ha : s.HasTable ∨ 0 ≤ a.rabiRotation) :
    Explained PulseArgs.parameters (PulseArgs.call s) a := by
  have hpos : ¬ s.HasTable → a.rabiRotation ≠ 0 → 0 < a.rabiRotation := fun hs h =>
    lt_of_le_of_ne (ha.resolve_left hs) (Ne.symm h)
  have hw : ∀ s' : Scheme, s' = s → s'.Wimperis → ∀ (θ Ω φ : ℝ) (name : Option String), 0 < Ω → θ ≠ 0 →
      ¬ (-4 * Real.pi ≤ θ ∧ θ ≤ 4 * Real.pi) → s'.callR θ Ω φ name = .error (.report
        ⟨"The polar angle must be between -4 pi and 4 pi (inclusive).", [("rabi_rotation", .num θ)], none⟩) := by
    intro s' _ hs θ Ω φ name hΩ hθ hQ
    cases s' <;> first
      | exact False.elim hs
      | exact (validateR_bind θ Ω _).trans ((if_pos hΩ).trans ((if_pos hθ).trans
          ((wimperisR_bind θ _).trans (if_neg hQ))))
  have ht : ∀ s' : Scheme, s' = s → s'.HasTable → ∀ (θ Ω φ : ℝ) (name : Option String), 0 < Ω → θ ≠ 0 →
      ¬ Tabulated θ → s'.callR θ Ω φ name = .error (.report
        ⟨"rabi_rotation angle must be either pi, pi/2 or pi/4", [("rabi_rotation", .num θ)], none⟩) := by
    intro s' _ hs θ Ω φ name hΩ hθ hQ
    cases s' <;> first
      | exact False.elim hs
      | exact (validateR_bind θ Ω _).trans ((if_pos hΩ).trans ((if_pos hθ).trans
          ((supportedR_bind θ _).trans (if_neg fun h => hQ ((isSupported_iff θ).mp h)))))
  cases s
  case primitive =>
    exact explained_pulse (Q := fun _ => True) (d := "") (callR_rate _) (callR_zero _)
      (fun _ _ _ _ _ _ h => absurd trivial h) a fun h1 h2 _ =>
        scheme_ok (s := .primitive) (newPrimitiveControl_spec _ _ _ _) ⟨h1, hpos (by simp [Scheme.HasTable]) h2⟩
  case corpse =>
    exact explained_pulse (Q := fun _ => True) (d := "") (callR_rate _) (callR_zero _)
      (fun _ _ _ _ _ _ h => absurd trivial h) a fun h1 h2 _ =>
        scheme_ok (s := .corpse) (newCorpseControl_spec _ _ _ _) ⟨h1, hpos (by simp [Scheme.HasTable]) h2⟩
  case bb1 =>
    exact explained_pulse (callR_rate _) (callR_zero _) (hw _ rfl trivial) a fun h1 h2 h3 =>
      scheme_ok (s := .bb1) (newBB1Control_spec _ _ _ _) ⟨h1, hpos (by simp [Scheme.HasTable]) h2, h3.2⟩
  case sk1 =>
    exact explained_pulse (callR_rate _) (callR_zero _) (hw _ rfl trivial) a fun h1 h2 h3 =>
      scheme_ok (s := .sk1) (newSK1Control_spec _ _ _ _) ⟨h1, hpos (by simp [Scheme.HasTable]) h2, h3.2⟩
  case corpseInBB1 =>
    exact explained_pulse (callR_rate _) (callR_zero _) (hw _ rfl trivial) a fun h1 h2 h3 =>
      scheme_ok (s := .corpseInBB1) (newCorpseInBB1Control_spec _ _ _ _)
        ⟨h1, hpos (by simp [Scheme.HasTable]) h2, h3.2⟩
  case corpseInSK1 =>
    exact explained_pulse (callR_rate _) (callR_zero _) (hw _ rfl trivial) a fun h1 h2 h3 =>
      scheme_ok (s := .corpseInSK1) (newCorpseInSK1Control_spec _ _ _ _)
        ⟨h1, hpos (by simp [Scheme.HasTable]) h2, h3.2⟩
  case scrofulous =>
    exact explained_pulse (callR_rate _) (callR_zero _) (ht _ rfl trivial) a fun h1 _ h3 =>
      scheme_ok (s := .scrofulous) (newScrofulousControl_spec _ _ _ _) ⟨h1, h3⟩
  case corpseInScrofulous =>
    exact explained_pulse (callR_rate _) (callR_zero _) (ht _ rfl trivial) a fun h1 _ h3 =>
      scheme_ok (s := .corpseInScrofulous) (newCorpseInScrofulousControl_spec _ _ _ _) ⟨h1, h3⟩
  case wamf1 =>
    exact explained_pulse (callR_rate _) (callR_zero _) (ht _ rfl trivial) a fun h1 _ h3 =>
      scheme_ok (s := .wamf1) (newWamf1Control_spec _ _ _ _) ⟨h1, h3⟩

/-- the constructor called with one rate for every segment either accepts or reports the durations -/
theorem newR_uniform {Ω : ℝ} (hΩ : 0 < Ω) (ds as : List ℝ) (n : ℕ) (hd : ds.length = n) (ha : as.length = n)
    (name : Option String) :
    (∃ c, DrivenControl.newR ds (some (List.replicate n Ω)) (some as) (some (List.replicate n (lit 0))) name = .ok c) ∨
    DrivenControl.newR ds (some (List.replicate n Ω)) (some as) (some (List.replicate n (lit 0))) name =
      .error (.report ⟨"Duration of driven control segments must all be greater than zero.",
        [("durations", .arr ds)], none⟩) := by
  rw [newR_eq]
  by_cases h : (ds.all fun d => gt d (lit 0)) = true
  · left
    rw [if_pos h, if_pos (by simp [pySet, hd, ha]), if_pos]
    · exact ⟨_, rfl⟩
    · simp only [Option.getD_some, List.all_eq_true, List.mem_replicate]
      rintro x ⟨-, rfl⟩
      simpa using hΩ.le
  · right
    rw [if_neg h]

theorem negative_scheme (s : Scheme) (hs : ¬ s.HasTable) {θ Ω : ℝ} (hΩ : 0 < Ω) (hθ : θ < 0)
    (hw : s.Wimperis → -4 * Real.pi ≤ θ) (φ : ℝ) (name : Option String) :
    ∃ r, s.callR θ Ω φ name = .error (.report r) ∧ namedIn r = ["durations"] := by
  have hw' : s.Wimperis → -4 * Real.pi ≤ θ ∧ θ ≤ 4 * Real.pi := fun h =>
    ⟨hw h, by have := Real.pi_pos; linarith⟩
  have key : ∀ {x : Except (Raised ℝ) (DrivenControl ℝ)} {ds : List ℝ} {P : Prop} {c : DrivenControl ℝ},
      s.callR θ Ω φ name = x → AcceptsExactly (s.call θ Ω φ name) P c → ¬ P →
      ((∃ c, x = .ok c) ∨ x = .error (.report
        ⟨"Duration of driven control segments must all be greater than zero.", [("durations", .arr ds)], none⟩)) →
      ∃ r, s.callR θ Ω φ name = .error (.report r) ∧ namedIn r = ["durations"] := by
    intro x ds P c hx hacc hP hor
    obtain ⟨d, hd⟩ := hacc.2 hP
    obtain ⟨r, hr⟩ := SameCall_error (sameCall_scheme s θ Ω φ name) hd
    rcases hor with ⟨c, hc⟩ | he
    · rw [hx, hc] at hr
      cases hr
    · exact ⟨_, hx.trans he, rfl⟩
  cases s
  case scrofulous | corpseInScrofulous | wamf1 => exact absurd trivial hs
  case primitive =>
    exact key ((validateR_bind θ Ω _).trans ((if_pos hΩ).trans (if_pos hθ.ne))) (newPrimitiveControl_spec θ Ω φ name)
      (fun h => absurd h.2 (not_lt.mpr hθ.le)) (newR_uniform hΩ _ _ 1 rfl rfl name)
  case corpse =>
    exact key ((validateR_bind θ Ω _).trans ((if_pos hΩ).trans (if_pos hθ.ne))) (newCorpseControl_spec θ Ω φ name)
      (fun h => absurd h.2 (not_lt.mpr hθ.le)) (newR_uniform hΩ _ _ 3 rfl rfl name)
  case bb1 =>
    exact key ((validateR_bind θ Ω _).trans ((if_pos hΩ).trans ((if_pos hθ.ne).trans
        ((wimperisR_bind θ _).trans (if_pos (hw' trivial)))))) (newBB1Control_spec θ Ω φ name)
      (fun h => absurd h.2.1 (not_lt.mpr hθ.le)) (newR_uniform hΩ _ _ 4 rfl rfl name)
  case sk1 =>
    exact key ((validateR_bind θ Ω _).trans ((if_pos hΩ).trans ((if_pos hθ.ne).trans
        ((wimperisR_bind θ _).trans (if_pos (hw' trivial)))))) (newSK1Control_spec θ Ω φ name)
      (fun h => absurd h.2.1 (not_lt.mpr hθ.le)) (newR_uniform hΩ _ _ 3 rfl rfl name)
  case corpseInBB1 =>
    exact key ((validateR_bind θ Ω _).trans ((if_pos hΩ).trans ((if_pos hθ.ne).trans
        ((wimperisR_bind θ _).trans (if_pos (hw' trivial)))))) (newCorpseInBB1Control_spec θ Ω φ name)
      (fun h => absurd h.2.1 (not_lt.mpr hθ.le)) (newR_uniform hΩ _ _ 6 rfl rfl name)
  case corpseInSK1 =>
    exact key ((validateR_bind θ Ω _).trans ((if_pos hΩ).trans ((if_pos hθ.ne).trans
        ((wimperisR_bind θ _).trans (if_pos (hw' trivial)))))) (newCorpseInSK1Control_spec θ Ω φ name)
      (fun h => absurd h.2.1 (not_lt.mpr hθ.le)) (newR_uniform hΩ _ _ 5 rfl rfl name)

end OpenControls
