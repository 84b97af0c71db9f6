import Verif.Proofs.ShapesConversion
import Verif.Props.Reassigned
import Verif.Props.Shapes
import Verif.Props.Monotone

/-!
# C97: converting sequences given by columns or matrices

The constructor of a sequence accepts arrays with any number of axes (C79).  `convertNd` is the conversion
of such a sequence, `flattened s` the sequence with the numbers of its arrays in 1-D arrays, and
`rowSize a` the number of items at each place along the first axis of `a`: 1 for a 1-D array or a column.
-/

namespace OpenControls

open Spec RealInst NdArray

/-- What the constructor accepts is well shaped. -/
theorem accepted_wellShaped {T : ℝ} {o r a d : NdArray ℝ} {name : Option String} {s : NdSequence ℝ}
    (ho : Regular o) (hr : Regular r) (ha : Regular a) (hd : Regular d)
    (h : NdSequence.new T o r a d name = .ok s) :
    s = ⟨T, o, r, a, d, name⟩ ∧ WellShaped s ∧ 0 < T ∧ ∀ t ∈ o.data, 0 ≤ t ∧ t ≤ T := by
  obtain ⟨hT, hdata, n, hn⟩ := (C79_sequence_accepts T o r a d name).mp ⟨s, h⟩
  have e : s = ⟨T, o, r, a, d, name⟩ := by
    unfold NdSequence.new at h
    simp only [except_bind_ok] at h
    obtain ⟨-, -, -, -, -, -, -, -, -, -, -, -, -, -, -, -, -, -, hs⟩ := h
    exact (Except.ok.inj hs).symm
  subst e
  exact ⟨rfl, ⟨ho, hr, ha, hd, n, hn⟩, hT, hdata⟩

/-- **C97**, 1-D arrays: nothing new. -/
theorem C97_flat (s : Sequence ℝ) (hs : s.Constructed) (R D m : ℝ) (name : Option String) :
    convertNd (flatSequence s) R D m name = convertDDS s R D m name :=
  convertNd_flat s hs.facts.2.2.1 hs.facts.2.2.2.1 hs.facts.2.2.2.2 R D m name

/-- The offsets begin after 0 or end before the duration, so that the conversion adds an idle pulse. -/
def NeedsPadding (T : ℝ) (offsets : List ℝ) : Prop :=
  offsets.head? ≠ some 0 ∨ offsets.getLast? ≠ some T

/-- **C97.** Which sequences that have offsets convert, and to what.  All four arrays must be 1-D or columns;
if no idle pulse is added they must also have the same shape.  The control is that of the flattened
sequence; or there is none for that because its offsets are not increasing, all arrays are columns, and no
offset is less than the one before by more than 1e-8. -/
theorem C97_returns (T : ℝ) (o r a d : NdArray ℝ) (nm : Option String) (ho : Regular o) (hr : Regular r)
    (ha : Regular a) (hd : Regular d) (s : NdSequence ℝ) (hs : NdSequence.new T o r a d nm = .ok s)
    (hne : o.data ≠ []) (R D m : ℝ) (name : Option String) :
    (∀ c, convertNd s R D m name = .ok c →
      (rowSize o = 1 ∧ rowSize r = 1 ∧ rowSize a = 1 ∧ rowSize d = 1) ∧
      (NeedsPadding T o.data ∨ (r.shape = o.shape ∧ a.shape = o.shape ∧ d.shape = o.shape)) ∧
      (convertDDS (flattened s) R D m name = .ok c ∨
        ((∃ text, convertDDS (flattened s) R D m name = .error (.arguments text)) ∧
          2 ≤ o.shape.length ∧ ¬ NeedsPadding T o.data ∧ ¬ o.data.Pairwise (· < ·) ∧
          o.data.IsChain fun x y => x ≤ y + 1 / 10 ^ 8))) ∧
    (rowSize o = 1 ∧ rowSize r = 1 ∧ rowSize a = 1 ∧ rowSize d = 1 →
      (NeedsPadding T o.data ∨ (r.shape = o.shape ∧ a.shape = o.shape ∧ d.shape = o.shape)) →
      ∀ c, convertDDS (flattened s) R D m name = .ok c → convertNd s R D m name = .ok c) := by
  obtain ⟨rfl, hw, hT, hdata⟩ := accepted_wellShaped ho hr ha hd hs
  have hsize : o.size ≠ 0 := by
    unfold NdArray.size; rw [← ho]; simpa using hne
  have hlen : ∀ {x : NdArray ℝ} {n : ℕ}, Regular x → FirstAxis n x → rowSize x = 1 →
      x.data.length = n := by
    rintro x n hx ⟨rest, hrest⟩ h1
    unfold rowSize at h1
    rw [hrest] at h1
    rw [hx, hrest, List.prod_cons]
    rw [List.tail_cons] at h1
    rw [h1, mul_one]
  obtain ⟨-, -, -, -, n, hn1, hn2, hn3, hn4⟩ := id hw
  constructor
  · intro c hc
    obtain ⟨⟨h1, h2, h3, h4⟩, hp, hres⟩ := convertNd_ok hw hsize hc
    refine ⟨⟨h1, h2, h3, h4⟩, ?_, ?_⟩
    · rcases hp with ⟨t, ht, hne⟩ | ⟨e, he, hne⟩ | hp
      · exact .inl (.inl (by rw [show o.data.head? = some t from ht]; simpa using hne))
      · exact .inl (.inr (by rw [show o.data.getLast? = some e from he]; simpa using hne))
      · exact .inr hp
    · have lo := hlen ho hn1 h1
      have hcon : (flattened ⟨T, o, r, a, d, nm⟩).Constructed :=
        constructed_of_facts hT hdata ((hlen hr hn2 h2).trans lo.symm) ((hlen ha hn3 h3).trans lo.symm)
          ((hlen hd hn4 h4).trans lo.symm)
      rcases hres with hres | ⟨h2', ⟨t, ht, ht'⟩, ⟨e, he, he'⟩, hdiff, hm, hcc⟩
      · exact .inl hres
      · right
        have hnp : ¬ o.data.Pairwise (· < ·) := by
          intro hp
          have hchain := hp.isChain
          have : ∀ l : List ℝ, l.IsChain (· < ·) →
              (Py.npDiff l).any (fun d => PyFloat.le d (PyFloat.lit 0)) = false := by
            intro l
            induction l with
            | nil => intro _; rfl
            | cons x l ih =>
              intro h
              cases l with
              | nil => rfl
              | cons y l =>
                rw [List.isChain_cons_cons] at h
                simp only [Py.npDiff, List.any_cons, Bool.or_eq_false_iff]
                refine ⟨?_, ih h.2⟩
                have := h.1
                simpa using this
          rw [this _ hchain] at hdiff
          cases hdiff
        refine ⟨?_, h2', ?_, hnp, ?_⟩
        · exact (convertDDS_returns hcon R D m name).2 fun hconv => hnp hconv.2.2.2.2.2.1
        · rintro (h | h)
          · apply h
            rw [show o.data.head? = some t from ht]
            simpa using ht'
          · apply h
            rw [show o.data.getLast? = some e from he]
            simpa using he'
        · have lr := (hlen hr hn2 h2).trans lo.symm
          have la := (hlen ha hn3 h3).trans lo.symm
          have ld := (hlen hd hn4 h4).trans lo.symm
          have hmap := operationsOf_offsets o.data r.data a.data d.data lr la ld
          have := convertOperations_order (by simpa using hm) (T := T) (fun p hp => by
            have : p.offset ∈ (operationsOf o.data r.data a.data d.data).map Operation.offset :=
              List.mem_map_of_mem hp
            rw [hmap] at this
            exact hdata _ this) hcc
          rwa [hmap] at this
  · rintro ⟨h1, h2, h3, h4⟩ hp c hc
    obtain ⟨t, e, ht, he⟩ := ends_of_size ho hsize
    refine convertNd_of_flat hw hsize h1 h2 h3 h4 ht he ?_ hc
    rcases hp with (hp | hp) | hp
    · left; rw [ht] at hp; simpa using hp
    · right; left; rw [he] at hp; simpa using hp
    · exact .inr (.inr hp)

/-- **C97**, errors: a conversion that does not return raises `ArgumentsValueError` or `ValueError`. -/
theorem C97_errors (T : ℝ) (o r a d : NdArray ℝ) (nm : Option String) (ho : Regular o) (hr : Regular r)
    (ha : Regular a) (hd : Regular d) (s : NdSequence ℝ) (hs : NdSequence.new T o r a d nm = .ok s)
    (R D m : ℝ) (name : Option String) (e : PyErr) (he : convertNd s R D m name = .error e) :
    (∃ text, e = .arguments text) ∨ ∃ text, e = .valueError text := by
  obtain ⟨rfl, hw, -, -⟩ := accepted_wellShaped ho hr ha hd hs
  obtain ⟨-, -, -, -, n, ⟨rest, hn⟩, -⟩ := id hw
  have args : ∀ e : PyErr, e.isArguments = true →
      (∃ text, e = .arguments text) ∨ ∃ text, e = .valueError text := by
    intro e h
    cases e <;> first | exact .inl ⟨_, rfl⟩ | cases h
  have ops : ∀ (l : List (Operation ℝ)) e, convertOperations T l R D m name = .error e →
      e.isArguments = true := by
    intro l e h
    unfold convertOperations at h
    simp only at h
    split at h
    · cases h; rfl
    · split at h
      · exact C01_only_arguments_error _ _ _ _ _ _ h
      · exact C01_only_arguments_error _ _ _ _ _ _ h
  have pad : ∀ e, padNd T ⟨o, r, a, d⟩ = .error e → ∃ text, e = .valueError text := by
    intro e h
    by_cases hsize : o.size = 0
    · unfold padNd at h
      simp only [if_pos hsize] at h
      simp [itemDiffers, vec, bind, Except.bind, pure, Except.pure] at h
    · obtain ⟨t, f, ht, hf⟩ := ends_of_size ho hsize
      by_cases h1 : rest.prod = 1
      · rw [padNd_line T ⟨o, r, a, d⟩ hn (by
          rintro rfl; apply hsize; unfold NdArray.size; rw [show o.shape = _ from hn]; simp) h1 ht hf] at h
        cases h
      · obtain ⟨text, he⟩ := padNd_rows T ⟨o, r, a, d⟩ hn hsize h1 ht
        rw [he] at h
        cases h
        exact ⟨_, rfl⟩
  rw [convertNd_tail] at he
  simp only [checkArguments_bind] at he
  split at he
  · split at he
    · split at he
      · split at he
        · split at he
          · unfold tailNd at he
            cases hp : padNd T ⟨o, r, a, d⟩ with
            | error e' =>
              rw [hp] at he
              cases he
              exact .inr (pad _ hp)
            | ok p =>
              rw [hp, except_ok_bind] at he
              cases hn : p.offsets.someDiffNonpositive with
              | true => rw [hn] at he; cases he; exact .inl ⟨_, rfl⟩
              | false =>
                rw [hn] at he
                simp only [Bool.false_eq_true, if_false] at he
                split at he
                · cases he; exact .inr ⟨_, rfl⟩
                · exact args _ (ops _ _ he)
          · cases he; exact .inl ⟨_, rfl⟩
        · cases he; exact .inl ⟨_, rfl⟩
      · cases he; exact .inl ⟨_, rfl⟩
    · cases he; exact .inl ⟨_, rfl⟩
  · cases he; exact .inl ⟨_, rfl⟩

/-- **C97**, no offsets: an array of offsets without items, for instance of shape 2 × 0, is accepted together
with any rotations at its places along the first axis.  The conversion checks them and then drops them: if
it returns, the control is free evolution. -/
theorem C97_no_offsets (T : ℝ) (o r a d : NdArray ℝ) (nm : Option String) (ho : Regular o) (hr : Regular r)
    (ha : Regular a) (hd : Regular d) (s : NdSequence ℝ) (hs : NdSequence.new T o r a d nm = .ok s)
    (hne : o.data = []) (R D m : ℝ) (name : Option String) :
    Returns (convertNd s R D m name)
      (0 < R ∧ 0 < D ∧ 0 ≤ m ∧ (∀ x ∈ r.data, 0 ≤ x) ∧ NoCommonRow r d ∧ (m < T ∨ NearValue T m))
      (fun c => c = ⟨[0], [0], [0], [T], name⟩) := by
  obtain ⟨rfl, -, hT, -⟩ := accepted_wellShaped ho hr ha hd hs
  have hsize : o.size = 0 := by
    unfold NdArray.size; rw [← ho, hne]; rfl
  have hvalid : checkValidOperationNd r d = true ↔ NoCommonRow r d := by
    rw [checkValidOperationNd_iff]
    simp [NoCommonRow]
  have hcon : Sequence.Constructed ⟨T, [], [], [], [], nm⟩ := constructed_of_facts hT (by simp) rfl rfl rfl
  have hret := convertDDS_returns hcon R D m name
  rw [empty_convertible hT] at hret
  have hflat := C97_flat _ hcon R D m name
  rw [convertNd_tail] at hflat
  simp only [flatSequence] at hflat
  rw [tailNd_empty T (a := ⟨vec [], vec [], vec [], vec []⟩) rfl] at hflat
  rw [convertNd_tail]
  simp only
  rw [tailNd_empty T (a := ⟨o, r, a, d⟩) hsize]
  generalize tailNd T _ R D m name = tl at hflat
  simp only [checkArguments_bind] at hflat ⊢
  by_cases hD : 0 < D
  · by_cases hR : 0 < R
    · by_cases hm : 0 ≤ m
      · have cD : Py.gt D (PyFloat.lit 0) = true := by simpa using hD
        have cR : Py.gt R (PyFloat.lit 0) = true := by simpa using hR
        have cm : Py.ge m (PyFloat.lit 0) = true := by simpa using hm
        rw [if_pos cD, if_pos cR, if_pos cm] at hflat ⊢
        rw [if_pos (by simp [vec]), if_pos (by rw [checkValidOperationNd_iff]; simp [vec])] at hflat
        subst hflat
        by_cases hr0 : ∀ x ∈ r.data, 0 ≤ x
        · rw [if_pos (by simpa using hr0)]
          by_cases hv : NoCommonRow r d
          · rw [if_pos (hvalid.mpr hv)]
            constructor
            · rintro ⟨-, -, -, -, -, h⟩
              obtain ⟨c, hc⟩ := hret.1 ⟨hR, hD, hm, h⟩
              exact ⟨c, hc.1, (empty_conversion hc.1).2⟩
            · intro h
              exact hret.2 fun h' => h ⟨hR, hD, hm, hr0, hv, h'.2.2.2⟩
          · rw [if_neg (by rwa [hvalid])]
            exact ⟨fun h => absurd h.2.2.2.2.1 hv, fun _ => ⟨_, rfl⟩⟩
        · rw [if_neg (by simpa using hr0)]
          exact ⟨fun h => absurd h.2.2.2.1 hr0, fun _ => ⟨_, rfl⟩⟩
      · rw [if_pos (by simpa using hD), if_pos (by simpa using hR), if_neg (by simpa using hm)]
        exact ⟨fun h => absurd h.2.2.1 hm, fun _ => ⟨_, rfl⟩⟩
    · rw [if_pos (by simpa using hD), if_neg (by simpa using hR)]
      exact ⟨fun h => absurd h.1 hR, fun _ => ⟨_, rfl⟩⟩
  · rw [if_neg (by simpa using hD)]
    exact ⟨fun h => absurd h.2.1 hD, fun _ => ⟨_, rfl⟩⟩

/-- the column with the given numbers -/
def columnNd (xs : List ℝ) : NdArray ℝ := ⟨[xs.length, 1], xs⟩

theorem columnNd_regular (xs : List ℝ) : Regular (columnNd xs) := by simp [Regular, columnNd]

/-- **C97.** Offsets that are not increasing: as a column they are converted, as a 1-D array they are
rejected. -/
theorem C97_unordered : ∃ s, NdSequence.new 2 (columnNd [0, 1, 1, 2]) (columnNd [0, 0, 0, 0])
      (columnNd [0, 0, 0, 0]) (columnNd [0, 0, 0, 0]) none = .ok s ∧
    convertNd s 1 1 0 none = .ok ⟨[0, 0], [0, 0], [0, 0], [1, 1], none⟩ ∧
    ∃ text, convertDDS (flattened s) 1 1 0 none = .error (.arguments text) := by
  obtain ⟨s, hs⟩ := (C79_sequence_accepts 2 (columnNd [0, 1, 1, 2]) (columnNd [0, 0, 0, 0])
      (columnNd [0, 0, 0, 0]) (columnNd [0, 0, 0, 0]) none).mpr ⟨by norm_num, by
        simp only [columnNd, List.mem_cons, List.not_mem_nil, or_false]
        rintro t (rfl | rfl | rfl | rfl) <;> norm_num, 4, ⟨_, rfl⟩, ⟨_, rfl⟩, ⟨_, rfl⟩, ⟨_, rfl⟩⟩
  obtain ⟨rfl, hw, hT, hdata⟩ := accepted_wellShaped (columnNd_regular _) (columnNd_regular _)
    (columnNd_regular _) (columnNd_regular _) hs
  refine ⟨_, hs, ?_, ?_⟩
  · rw [convertNd_tail]
    have hv : checkValidOperationNd (columnNd [0, 0, 0, 0]) (columnNd [0, 0, 0, 0]) = true := by
      rw [checkValidOperationNd_line _ _ rfl rfl, checkValidOperation_iff_items]
      intro i x y hx _ gx
      have := List.mem_of_getElem? hx
      simp only [columnNd, List.mem_cons, List.not_mem_nil, or_false, or_self] at this
      subst this
      simp at gx
    simp only [checkArguments_bind]
    rw [if_pos (by simp), if_pos (by simp), if_pos (by simp), if_pos (by simp [columnNd]), if_pos hv]
    unfold tailNd
    rw [padNd_line _ _ (n := 4) (rest := [1]) rfl (by simp) rfl (t := 0) (e := 2) rfl rfl]
    have z : ∀ x : ℝ, Py.ne x x = false := by intro x; simp [Py.ne]
    have zl : (PyFloat.lit 0 : ℝ) = 0 := by simp
    have c0 : ∀ x : ℝ, Py.isClose x x = true := fun x => by
      rw [isClose_near]; simp only [NearValue, sub_self, abs_zero]; positivity
    have c1 : Py.isClose (1 : ℝ) 0 = false := close_false (by unfold Negligible; norm_num)
    have hse : ∀ t : ℝ, pulseStartEnd 1 1 0 (⟨t, 0, 0, 0⟩ : Operation ℝ) = (t, t) := by
      intro t
      simp [pulseStartEnd, halfPulseDuration, zl, c0]
    have hops : operationsOf [0, 1, 1, (2 : ℝ)] [0, 0, 0, 0] [0, 0, 0, 0] [0, 0, 0, 0] =
        [⟨0, 0, 0, 0⟩, ⟨1, 0, 0, 0⟩, ⟨1, 0, 0, 0⟩, ⟨2, 0, 0, 0⟩] := rfl
    have hgap : gapDurations [((0 : ℝ), (0 : ℝ)), (1, 1), (1, 1), (2, 2)] = [1, 0, 1] := by
      simp only [gapDurations]; norm_num
    have hsh : shiftLast 2 (shiftFirst [((0 : ℝ), (0 : ℝ)), (1, 1), (1, 1), (2, 2)]) =
        [(0, 0), (1, 1), (1, 1), (2, 2)] := by
      simp [shiftFirst, shiftLast]
    simp only [zl, z, padArray, Bool.or_self, Bool.false_eq_true, if_false, except_ok_bind, columnNd,
      someDiffNonpositive]
    rw [hops]
    simp only [convertOperations, List.map_cons, List.map_nil, hse, hsh, hgap]
    simp [c0, c1, buildSegments, pulseSegment, DrivenControl.new_eq]
    norm_num
  · refine (convertDDS_returns (constructed_of_facts hT hdata rfl rfl rfl) 1 1 0 none).2 fun h => ?_
    have := h.2.2.2.2.2.1
    simp [flattened, columnNd] at this

/-! ### The hypotheses of the theorems above are met -/

/-- a pulse given by columns converts like the one given by 1-D arrays -/
example : ∃ s c, NdSequence.new 1 (columnNd [1 / 4]) (columnNd [1]) (vec [0]) (columnNd [0]) none = .ok s ∧
    (∃ R D m, convertNd s R D m none = .ok c) := by
  have hs : (single 1 (1 / 4) 1 0 0).Constructed :=
    single_constructed (by norm_num) (by norm_num) (by norm_num)
  obtain ⟨R, D, m, hR, hD, hm, h⟩ := C93_good_enough (single 1 (1 / 4) 1 0 0) hs
    (by simp [pulseList, single]) (by simp [pulseList, single]) (by simp [single])
  obtain ⟨c, hc⟩ := h R D m le_rfl le_rfl hm.le le_rfl none
  obtain ⟨s, hs'⟩ := (C79_sequence_accepts 1 (columnNd [1 / 4]) (columnNd [1]) (vec [0]) (columnNd [0])
    none).mpr ⟨by norm_num, by
        simp only [columnNd, List.mem_cons, List.not_mem_nil, or_false]
        rintro t rfl; norm_num, 1, ⟨_, rfl⟩, ⟨_, rfl⟩, ⟨_, rfl⟩, ⟨_, rfl⟩⟩
  have hv : Regular (vec [(0 : ℝ)]) := by simp [Regular, vec]
  refine ⟨s, c, hs', R, D, m, ?_⟩
  refine (C97_returns 1 _ _ _ _ none (columnNd_regular _) (columnNd_regular _) hv
    (columnNd_regular _) s hs' (by simp [columnNd]) R D m none).2 ⟨rfl, rfl, rfl, rfl⟩
    (.inl (.inl (by norm_num [columnNd]))) c ?_
  obtain ⟨rfl, -⟩ := accepted_wellShaped (columnNd_regular _) (columnNd_regular _) hv
    (columnNd_regular _) hs'
  exact hc

/-- two π rotations without offsets: accepted, and converted to free evolution -/
example : ∃ s, NdSequence.new 1 ⟨[2, 0], []⟩ (vec [Real.pi, Real.pi]) (vec [0, 0]) (vec [0, 0]) none = .ok s ∧
    convertNd s 1 1 0 none = .ok ⟨[0], [0], [0], [1], none⟩ := by
  obtain ⟨s, hs'⟩ := (C79_sequence_accepts 1 ⟨[2, 0], []⟩ (vec [Real.pi, Real.pi]) (vec [0, 0]) (vec [0, 0])
    none).mpr ⟨by norm_num, by simp, 2, ⟨_, rfl⟩, ⟨_, rfl⟩, ⟨_, rfl⟩, ⟨_, rfl⟩⟩
  have hv : ∀ x y : ℝ, Regular (vec [x, y]) := by simp [Regular, vec]
  obtain ⟨c, hc, rfl⟩ := (C97_no_offsets 1 _ _ _ _ none (by simp [Regular]) (hv _ _) (hv _ _) (hv _ _) s hs' rfl
    1 1 0 none).1 ⟨by norm_num, by norm_num, le_rfl, by simp [vec, Real.pi_pos.le], by
      intro i j x y hx hy h0 h1
      have := List.mem_of_getElem? hy
      simp only [vec, List.mem_cons, List.not_mem_nil, or_false, or_self] at this
      subst this
      exact absurd h1 (lt_irrefl _), .inl (by norm_num)⟩
  exact ⟨s, hs', hc⟩

/-- a matrix of offsets is accepted by the constructor but does not convert -/
example : ∃ s, NdSequence.new (1 : ℝ) ⟨[1, 2], [1 / 4, 3 / 4]⟩ (vec [0]) (vec [0]) (vec [0]) none = .ok s ∧
    ∀ R D m c, convertNd s R D m none ≠ .ok c := by
  obtain ⟨s, hs'⟩ := (C79_sequence_accepts 1 ⟨[1, 2], [1 / 4, 3 / 4]⟩ (vec [0]) (vec [0]) (vec [0])
    none).mpr ⟨by norm_num, by
        simp only [List.mem_cons, List.not_mem_nil, or_false]
        rintro t (rfl | rfl) <;> norm_num, 1, ⟨_, rfl⟩, ⟨_, rfl⟩, ⟨_, rfl⟩, ⟨_, rfl⟩⟩
  have hv : Regular (vec [(0 : ℝ)]) := by simp [Regular, vec]
  refine ⟨s, hs', fun R D m c hc => ?_⟩
  have := ((C97_returns 1 _ _ _ _ none (by simp [Regular]) hv hv hv s hs' (by simp) R D m none).1 c hc).1.1
  simp [rowSize] at this

end OpenControls
