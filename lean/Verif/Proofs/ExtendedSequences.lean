import Verif.Proofs.Extended
import Mathlib.Data.Nat.Log

/-!
# Predefined sequences and their conversion with infinities and NaN
-/

namespace OpenControls

open PyFloat Py XR Spec

/-- pulses with a function applied to all numbers -/
def Pulses.map {α β : Type} (f : α → β) (p : Pulses α) : Pulses β where
  offsets := p.offsets.map f
  rabiRotations := p.rabiRotations.map f
  azimuthalAngles := p.azimuthalAngles.map f
  detuningRotations := p.detuningRotations.map f

theorem countPulses_fin (p q r : XR → Bool) (x y z : List ℝ) :
    countPulses p q r (x.map fin) (y.map fin) (z.map fin) =
      countPulses (fun v => p (fin v)) (fun v => q (fin v)) (fun v => r (fin v)) x y z := by
  induction x generalizing y z with
  | nil => simp [countPulses]
  | cons a x ih =>
    cases y with
    | nil => simp [countPulses]
    | cons b y =>
      cases z with
      | nil => simp [countPulses]
      | cons c z => simp only [List.map_cons, countPulses, ih]

theorem addPrePostRotations_fin (T : ℝ) (p : Pulses ℝ) :
    addPrePostRotations (fin T) (p.map fin) = (addPrePostRotations T p).map (Pulses.map fin) := by
  have h2 : (2 : ℝ) ≠ 0 := two_ne_zero
  unfold addPrePostRotations
  simp only [Pulses.map, countPulses_fin, XR.pi_eq, XR.lit_eq, Rat.cast_ofNat, Rat.cast_zero,
    fin_div _ h2, isClose_fin, List.length_map, RealInst.pi_eq, RealInst.lit_eq,
    checkArguments_bind]
  split
  · show Except.ok _ = Except.ok _
    congr 1
    simp only [Pulses.map, List.map_append, List.map_cons, List.map_nil]
    congr 3
    split <;> simp
  · rfl

theorem finishSequence_fin (T : ℝ) (b : Bool) (name : Option String) (p : Pulses ℝ) :
    finishSequence (fin T) b name (p.map fin) =
      (finishSequence T b name p).map (Sequence.map fin) := by
  unfold finishSequence
  cases b
  · exact Sequence.new_fin T _ _ _ _ name
  · simp only [if_true, map_bind, addPrePostRotations_fin]
    cases addPrePostRotations T p with
    | error e => rfl
    | ok q => exact Sequence.new_fin T _ _ _ _ name

theorem checkDuration_fin (T : ℝ) : checkDuration (fin T) = checkDuration T := by
  unfold checkDuration
  congr 1

theorem uniformPulses_fin (l : List ℝ) (a : ℝ) :
    uniformPulses (l.map fin) (fin a) = (uniformPulses l a).map fin := by
  simp [uniformPulses, Pulses.map]

theorem cpmgOffsets_fin (T : ℝ) {n : ℕ} (hn : n ≠ 0) :
    cpmgOffsets (fin T) n = (cpmgOffsets T n).map fin := by
  have hn' : (n : ℝ) ≠ 0 := by exact_mod_cast hn
  simp [cpmgOffsets, fin_div _ hn']

theorem uhrigOffsets_fin (T : ℝ) (n : ℕ) :
    uhrigOffsets (fin T) n = (uhrigOffsets T n).map fin := by
  have hn' : ((2 * n + 2 : ℕ) : ℝ) ≠ 0 := by positivity
  simp only [uhrigOffsets, XR.nat_eq, XR.lit_eq, fin_div _ hn', XR.pi_eq, fin_mul, sin_fin,
    List.map_map]
  apply List.map_congr_left
  intro i _
  simp

theorem periodicOffsets_fin (T : ℝ) (n : ℕ) :
    periodicOffsets (fin T) n = (periodicOffsets T n).map fin := by
  have hn' : ((n + 1 : ℕ) : ℝ) ≠ 0 := by positivity
  simp only [periodicOffsets, XR.nat_eq, XR.lit_eq, fin_div _ hn', fin_mul, List.map_map]
  apply List.map_congr_left
  intro i _
  simp

theorem newRamseySequence_fin (T : ℝ) (b : Bool) (name : Option String) :
    newRamseySequence (fin T) b name = (newRamseySequence T b name).map (Sequence.map fin) := by
  have h2 : (2 : ℝ) ≠ 0 := two_ne_zero
  unfold newRamseySequence
  rw [checkDuration_fin, map_bind]
  cases checkDuration T with
  | error e => rfl
  | ok u =>
    simp only [except_ok_bind]
    split
    · rw [← Sequence.new_fin]
      simp [fin_div _ h2]
    · rw [← Sequence.new_fin]; rfl

theorem newSpinEchoSequence_fin (T : ℝ) (b : Bool) (name : Option String) :
    newSpinEchoSequence (fin T) b name =
      (newSpinEchoSequence T b name).map (Sequence.map fin) := by
  have h2 : (2 : ℝ) ≠ 0 := two_ne_zero
  unfold newSpinEchoSequence
  rw [checkDuration_fin, map_bind]
  cases checkDuration T with
  | error e => rfl
  | ok u =>
    simp only [except_ok_bind]
    rw [← finishSequence_fin]
    simp [fin_div _ h2, Pulses.map]

/-- what the constructors with a number of pulses have in common -/
theorem counted_fin (T x : ℝ) (msg : String) (b : Bool) (name : Option String)
    (P : ℕ → Pulses ℝ) (P' : ℕ → Pulses XR) (h : ∀ n, 1 ≤ n → P' n = (P n).map fin) :
    (do checkDuration (fin T)
        checkArguments (Py.ge (fin x) (lit 1)) msg
        let n ← pyInt (fin x)
        finishSequence (fin T) b name (P' n)) =
      Except.map (Sequence.map fin) (do
        checkDuration T
        checkArguments (Py.ge x (lit 1)) msg
        let n ← pyInt x
        finishSequence T b name (P n)) := by
  have hg : Py.ge (fin x) (lit 1) = Py.ge x (lit 1) := by rw [Bool.eq_iff_iff]; simp
  rw [checkDuration_fin, map_bind]
  cases checkDuration T with
  | error e => rfl
  | ok u =>
    simp only [except_ok_bind, checkArguments_bind, hg]
    split
    · rename_i h1
      simp only [RealInst.ge_iff, RealInst.lit_eq, Rat.cast_one] at h1
      rw [pyInt_fin, RealInst.pyInt_of_nonneg (zero_le_one.trans h1), except_ok_bind,
        except_ok_bind, h _ (Nat.le_floor (by simpa using h1)), finishSequence_fin]
    · rfl

theorem newCarrPurcellSequence_fin (T x : ℝ) (b : Bool) (name : Option String) :
    newCarrPurcellSequence (fin T) (fin x) b name =
      (newCarrPurcellSequence T x b name).map (Sequence.map fin) :=
  counted_fin T x _ b name (fun n => uniformPulses (cpmgOffsets T n) (lit 0)) _ fun n hn => by
    rw [cpmgOffsets_fin T (by omega : n ≠ 0), ← uniformPulses_fin]; rfl

theorem newCPMGSequence_fin (T x : ℝ) (b : Bool) (name : Option String) :
    newCPMGSequence (fin T) (fin x) b name =
      (newCPMGSequence T x b name).map (Sequence.map fin) :=
  counted_fin T x _ b name (fun n => uniformPulses (cpmgOffsets T n) (PyFloat.pi / lit 2)) _
    fun n hn => by
    have h2 : (2 : ℝ) ≠ 0 := two_ne_zero
    rw [cpmgOffsets_fin T (by omega : n ≠ 0), ← uniformPulses_fin]
    simp [fin_div _ h2]

theorem newUhrigSequence_fin (T x : ℝ) (b : Bool) (name : Option String) :
    newUhrigSequence (fin T) (fin x) b name =
      (newUhrigSequence T x b name).map (Sequence.map fin) :=
  counted_fin T x _ b name (fun n => uniformPulses (uhrigOffsets T n) (PyFloat.pi / lit 2)) _
    fun n hn => by
    have h2 : (2 : ℝ) ≠ 0 := two_ne_zero
    rw [uhrigOffsets_fin, ← uniformPulses_fin]
    simp [fin_div _ h2]

theorem newPeriodicSequence_fin (T x : ℝ) (b : Bool) (name : Option String) :
    newPeriodicSequence (fin T) (fin x) b name =
      (newPeriodicSequence T x b name).map (Sequence.map fin) :=
  counted_fin T x _ b name (fun n => uniformPulses (periodicOffsets T n) (lit 0)) _
    fun n hn => by
    rw [periodicOffsets_fin, ← uniformPulses_fin]; rfl

theorem xConcatenatedOffsets_fin (T : ℝ) (l : ℕ) :
    xConcatenatedOffsets (fin T) l = (xConcatenatedOffsets T l).map fin := by
  have hn' : ((2 ^ l : ℕ) : ℝ) ≠ 0 := by positivity
  unfold xConcatenatedOffsets
  have e : ((concatenationX l).map fun c => (Py.nat c : XR) * (fin T / Py.nat (2 ^ l))) =
      ((concatenationX l).map fun c => (Py.nat c : ℝ) * (T / Py.nat (2 ^ l))).map fin := by
    rw [List.map_map]
    apply List.map_congr_left
    intro c _
    simp only [XR.nat_eq, fin_div _ hn', fin_mul, Function.comp_apply, RealInst.nat_eq]
  simp only [e, npCumsum_fin, evenlyRepeated_fin]
  split
  · rw [List.map_dropLast]
  · rfl

theorem newXConcatenatedSequence_fin (T x : ℝ) (b : Bool) (name : Option String) :
    newXConcatenatedSequence (fin T) (fin x) b name =
      (newXConcatenatedSequence T x b name).map (Sequence.map fin) :=
  counted_fin T x _ b name (fun n => uniformPulses (xConcatenatedOffsets T n) (lit 0)) _
    fun n hn => by
    rw [xConcatenatedOffsets_fin, ← uniformPulses_fin]; rfl

theorem xyOffsetsOf_fin (u : ℝ) (a b c : Int) (l : List Int) :
    xyOffsetsOf (fin u) a b c l = (xyOffsetsOf u a b c l).map fin := by
  unfold xyOffsetsOf
  rw [← evenlyRepeated_fin, ← npCumsum_fin, List.map_map]
  show evenlyRepeated (npCumsum _) = _
  congr 2
  apply List.map_congr_left
  intro i _
  by_cases h : i = a <;> simp [h]

theorem xyMerge_fin (x y : List ℝ) :
    xyMerge (x.map fin) (y.map fin) =
      (xyMerge x y).map fun r => (fin r.1, fin r.2.1, fin r.2.2) := by
  have h2 : (2 : ℝ) ≠ 0 := two_ne_zero
  fun_induction xyMerge x y with
  | case1 => simp [xyMerge]
  | case2 x xs ih => simp only [List.map_cons, List.map_nil] at ih ⊢; rw [xyMerge, ih]; simp
  | case3 y ys ih =>
    simp only [List.map_cons, List.map_nil] at ih ⊢; rw [xyMerge, ih]; simp [fin_div _ h2]
  | case4 x xs y ys h ih =>
    simp only [RealInst.lt_iff] at h
    simp only [List.map_cons] at ih ⊢; rw [xyMerge, ih]; simp [h]
  | case5 x xs y ys h ih =>
    simp only [RealInst.lt_iff] at h
    simp only [List.map_cons] at ih ⊢; rw [xyMerge, ih]; simp [h, fin_div _ h2]

theorem shiftInsert_fin (l : List ℝ) (i : ℕ) (v : ℝ) :
    shiftInsert (l.map fin) i (fin v) = (shiftInsert l i v).map fin := by
  simp [shiftInsert, List.map_take, List.map_drop, List.map_dropLast]

theorem insertZ_fin (is : List ℕ) (zs : List ℝ) (p : Pulses ℝ) :
    insertZ is (zs.map fin) (p.map fin) = (insertZ is zs p).map fin := by
  induction is generalizing zs p with
  | nil => simp [insertZ]
  | cons i is ih =>
    cases zs with
    | nil => simp [insertZ]
    | cons z zs =>
      have ho : (p.map fin).offsets[i]? = p.offsets[i]?.map fin := by simp [Pulses.map]
      have hneg : insertZ is (fin z :: zs.map fin) (p.map fin) =
          (insertZ is (z :: zs) p).map fin := by rw [← List.map_cons, ih]
      rw [List.map_cons, insertZ, insertZ]
      cases hp : p.offsets[i]? with
      | none =>
        rw [hp, Option.map_none] at ho
        simp only [ho]
        exact hneg
      | some t =>
        rw [hp, Option.map_some] at ho
        simp only [ho]
        have hg : Py.gt (fin t) (fin z) = Py.gt t z := by rw [Bool.eq_iff_iff]; simp
        rw [hg]
        split
        · rw [← ih]
          congr 1
          simp only [Pulses.map, ← shiftInsert_fin, List.map_set]
          simp
        · exact hneg

theorem xyConcatenatedPulses_fin (T : ℝ) (l : ℕ) :
    xyConcatenatedPulses (fin T) l = (xyConcatenatedPulses T l).map fin := by
  have hn' : ((2 ^ (l * 2) : ℕ) : ℝ) ≠ 0 := by positivity
  unfold xyConcatenatedPulses
  simp only [XR.nat_eq, fin_div _ hn', RealInst.nat_eq, xyOffsetsOf_fin, xyMerge_fin]
  rw [← insertZ_fin]
  congr 1
  · simp
  · simp [Pulses.map]

theorem newXYConcatenatedSequence_fin (T x : ℝ) (b : Bool) (name : Option String) :
    newXYConcatenatedSequence (fin T) (fin x) b name =
      (newXYConcatenatedSequence T x b name).map (Sequence.map fin) :=
  counted_fin T x _ b name (fun n => xyConcatenatedPulses T n) _
    fun n _ => xyConcatenatedPulses_fin T n

theorem quadraticRows_fin (n : ℕ) (l : List ℝ) :
    quadraticRows n (l.map fin) = (quadraticRows n l).map (List.map fin) := by
  induction l with
  | nil => simp [quadraticRows]
  | cons a l ih =>
    cases l with
    | nil => simp [quadraticRows]
    | cons b l =>
      simp only [List.map_cons] at ih
      simp only [List.map_cons, quadraticRows, ih, fin_sub, uhrigOffsets_fin]
      simp

theorem quadraticPulses_fin (T : ℝ) (n m : ℕ) :
    quadraticPulses (fin T) n m = (quadraticPulses T n m).map fin := by
  have ho : ([lit 0] ++ uhrigOffsets (fin T) m ++ [fin T] : List XR) =
      ([lit 0] ++ uhrigOffsets T m ++ [T]).map fin := by
    simp [uhrigOffsets_fin]
  unfold quadraticPulses
  simp only [ho, quadraticRows_fin, ← List.map_flatten, Pulses.map, ← List.map_dropLast,
    List.length_map, List.map_replicate]
  congr 1
  · rw [List.map_dropLast]
    congr 1
    rw [List.map_flatten, List.map_map]
    congr 1
    apply List.map_congr_left
    intro i _
    by_cases h : i < m <;> simp [h]
  · rw [List.map_dropLast]
    congr 1
    rw [List.map_flatten, List.map_map]
    congr 1
    apply List.map_congr_left
    intro i _
    simp

theorem newQuadraticSequence_fin (T x y : ℝ) (b : Bool) (name : Option String) :
    newQuadraticSequence (fin T) (fin x) (fin y) b name =
      (newQuadraticSequence T x y b name).map (Sequence.map fin) := by
  have hg : ∀ x : ℝ, Py.ge (fin x) (lit 1) = Py.ge x (lit 1) := fun x => by
    rw [Bool.eq_iff_iff]; simp
  unfold newQuadraticSequence
  rw [checkDuration_fin, map_bind]
  cases checkDuration T with
  | error e => rfl
  | ok u =>
    simp only [except_ok_bind, checkArguments_bind, hg, pyInt_fin]
    split
    · split
      · rw [map_bind]
        cases pyInt x with
        | error e => rfl
        | ok n =>
          rw [except_ok_bind, except_ok_bind, map_bind]
          cases pyInt y with
          | error e => rfl
          | ok m =>
            rw [except_ok_bind, except_ok_bind, quadraticPulses_fin, finishSequence_fin]
      · rfl
    · rfl

theorem walshHammingWeight_fin {k : ℕ} (hk : 1 ≤ k) :
    walshHammingWeight XR k = walshHammingWeight ℝ k := by
  have h : (0 : ℝ) < k := by exact_mod_cast hk
  unfold walshHammingWeight
  rw [XR.nat_eq, log2_fin h, pyInt_fin, RealInst.nat_eq]
  rfl

theorem npArange_fin (a b : ℝ) {c : ℝ} (hc : c ≠ 0) :
    npArange (fin a) (fin b) (fin c) = (npArange a b c).map (List.map fin) := by
  unfold npArange
  rw [fin_sub, fin_div _ hc, pyCeil_fin, map_bind]
  cases pyCeil ((b - a) / c) with
  | error e => rfl
  | ok n =>
    show Except.ok _ = Except.ok _
    congr 1
    rw [List.map_map]
    apply List.map_congr_left
    intro i _
    simp

theorem walshRelativeOffsets_fin {s : ℕ} (hs : s ≠ 0) :
    walshRelativeOffsets (α := XR) s = (walshRelativeOffsets (α := ℝ) s).map (List.map fin) := by
  have h1 : ((2 * s : ℕ) : ℝ) ≠ 0 := by positivity
  have h2 : (s : ℝ) ≠ 0 := by positivity
  unfold walshRelativeOffsets
  have h3 : (1 / s : ℝ) ≠ 0 := by positivity
  simp only [XR.lit_eq, XR.nat_eq, fin_div _ h1, fin_div _ h2, Rat.cast_one]
  rw [npArange_fin _ _ h3]
  simp

theorem powBit_fin (x : ℝ) (b : ℕ) : powBit (fin x) b = fin (powBit x b) := by
  unfold powBit
  split <;> simp

theorem walshArray_fin (h s : ℕ) (l : List ℝ) (digits : List ℕ) :
    walshArray h s (l.map fin) digits = (walshArray h s l digits).map (List.map fin) := by
  unfold walshArray
  rw [List.length_map]
  split
  · rfl
  · show Except.ok _ = Except.ok _
    congr 1
    have key : ∀ (is : List ℕ) (arr : List ℝ),
        is.foldl (fun (arr : List XR) i => List.zipWith (fun w x =>
          w * powBit (sign (sin (Py.nat (2 ^ (i + 1)) * PyFloat.pi * x)))
            (digits.getD (h - 1 - i) 0)) arr (l.map fin)) (arr.map fin) =
        (is.foldl (fun (arr : List ℝ) i => List.zipWith (fun w x =>
          w * powBit (sign (sin (Py.nat (2 ^ (i + 1)) * PyFloat.pi * x)))
            (digits.getD (h - 1 - i) 0)) arr l) arr).map fin := by
      intro is
      induction is with
      | nil => intro arr; rfl
      | cons i is ih =>
        intro arr
        rw [List.foldl_cons, List.foldl_cons, ← ih]
        congr 1
        rw [List.zipWith_map, List.map_zipWith]
        congr 1
        funext w x
        simp only [XR.nat_eq, XR.pi_eq, fin_mul, sin_fin, sign_fin, powBit_fin]
        simp
    rw [← key]
    congr 1
    simp

theorem walshSwitches_fin {s : ℕ} (hs : s ≠ 0) (i : ℕ) (l : List ℝ) :
    walshSwitches s i (l.map fin) = (walshSwitches s i l).map fin := by
  have h2 : (s : ℝ) ≠ 0 := by positivity
  induction l generalizing i with
  | nil => simp [walshSwitches]
  | cons a l ih =>
    cases l with
    | nil => simp [walshSwitches]
    | cons b l =>
      have hne : Py.ne (fin a) (fin b) = Py.ne a b := by rw [Bool.eq_iff_iff]; simp
      have ih' := ih (i + 1)
      simp only [List.map_cons] at ih' ⊢
      simp only [walshSwitches, hne, ih']
      split
      · simp [fin_div _ h2]
      · rfl

theorem walshOffsets_fin (T : ℝ) {k : ℕ} (hk : 1 ≤ k) :
    walshOffsets (fin T) k = (walshOffsets T k).map (List.map fin) := by
  unfold walshOffsets
  rw [walshHammingWeight_fin hk, map_bind]
  cases walshHammingWeight ℝ k with
  | error e => rfl
  | ok h =>
    have hs : (2 ^ h : ℕ) ≠ 0 := by positivity
    simp only [except_ok_bind, walshRelativeOffsets_fin hs, map_bind]
    cases walshRelativeOffsets (α := ℝ) (2 ^ h) with
    | error e => rfl
    | ok l =>
      simp only [except_ok_bind, except_map_ok, map_bind]
      cases walshBinaryOrder k h with
      | error e => rfl
      | ok digits =>
        simp only [except_ok_bind, walshArray_fin, map_bind]
        cases walshArray h (2 ^ h) l digits with
        | error e => rfl
        | ok arr =>
          simp only [except_ok_bind, except_map_ok, walshSwitches_fin hs]
          show Except.ok _ = Except.ok _
          congr 1
          rw [List.map_map, List.map_map]
          apply List.map_congr_left
          intro i _
          simp

theorem newWalshSequence_fin (T x : ℝ) (b : Bool) (name : Option String) :
    newWalshSequence (fin T) (fin x) b name =
      (newWalshSequence T x b name).map (Sequence.map fin) := by
  have hg : (PyFloat.le (lit 1) (fin x) && PyFloat.le (fin x) (lit 2000)) =
      (PyFloat.le (lit 1) x && PyFloat.le x (lit 2000)) := by
    rw [Bool.eq_iff_iff]; simp
  unfold newWalshSequence
  rw [checkDuration_fin, map_bind]
  cases checkDuration T with
  | error e => rfl
  | ok u =>
    simp only [except_ok_bind, checkArguments_bind, hg]
    split
    · rename_i h1
      simp only [Bool.and_eq_true, RealInst.le_iff, RealInst.lit_eq, Rat.cast_one] at h1
      have hk : 1 ≤ ⌊x⌋₊ := Nat.le_floor (by simpa using h1.1)
      rw [pyInt_fin, RealInst.pyInt_of_nonneg (zero_le_one.trans h1.1), except_ok_bind,
        except_ok_bind, walshOffsets_fin T hk, map_bind]
      cases walshOffsets T ⌊x⌋₊ with
      | error e => rfl
      | ok l =>
        rw [except_map_ok, except_ok_bind, except_ok_bind, ← finishSequence_fin,
          ← uniformPulses_fin]
        simp
    · rfl

/-- the ten predefined sequences -/
theorem predefined_fin (s : Predefined ℝ) (T : ℝ) (b : Bool) (name : Option String) :
    (s.map fin).call (fin T) b name = (s.call T b name).map (Sequence.map fin) := by
  cases s
  · exact newRamseySequence_fin T b name
  · exact newSpinEchoSequence_fin T b name
  · exact newCarrPurcellSequence_fin T _ b name
  · exact newCPMGSequence_fin T _ b name
  · exact newUhrigSequence_fin T _ b name
  · exact newPeriodicSequence_fin T _ b name
  · exact newWalshSequence_fin T _ b name
  · exact newQuadraticSequence_fin T _ _ b name
  · exact newXConcatenatedSequence_fin T _ b name
  · exact newXYConcatenatedSequence_fin T _ b name

/-! ### The conversion -/

/-- an operation with `fin` applied to its numbers -/
def finOp (o : Operation ℝ) : Operation XR :=
  ⟨fin o.offset, fin o.rabi, fin o.azimuthal, fin o.detuning⟩

/-- a window with `fin` applied to its ends -/
def finPair (p : ℝ × ℝ) : XR × XR := (fin p.1, fin p.2)

/-- a segment with `fin` applied to its numbers -/
def finSeg (o : Segment ℝ) : Segment XR :=
  ⟨fin o.rabi, fin o.azimuthal, fin o.detuning, fin o.duration⟩

theorem gt_fin (a b : ℝ) : Py.gt (fin a) (fin b) = Py.gt a b := by rw [Bool.eq_iff_iff]; simp
theorem gt_fin_zero (a : ℝ) : Py.gt (fin a) (lit 0) = Py.gt a (lit 0) := by
  rw [Bool.eq_iff_iff]; simp
theorem ge_fin_zero (a : ℝ) : Py.ge (fin a) (lit 0) = Py.ge a (lit 0) := by
  rw [Bool.eq_iff_iff]; simp
theorem ne_fin (a b : ℝ) : Py.ne (fin a) (fin b) = Py.ne a b := by rw [Bool.eq_iff_iff]; simp
theorem lt_fin_zero (a : ℝ) : PyFloat.lt (fin a) (lit 0) = PyFloat.lt a (lit 0) := by
  rw [Bool.eq_iff_iff]; simp
theorem le_fin_zero (a : ℝ) : PyFloat.le (fin a) (lit 0) = PyFloat.le a (lit 0) := by
  rw [Bool.eq_iff_iff]; simp
theorem isClose_fin_zero (a : ℝ) : isClose (fin a) (lit 0) = isClose a (lit 0) := by
  rw [XR.lit_eq, isClose_fin]; rfl

theorem checkValidOperation_fin (r d : List ℝ) :
    checkValidOperation (r.map fin) (d.map fin) = checkValidOperation r d := by
  unfold checkValidOperation
  rw [List.zipWith_map]
  simp only [gt_fin_zero]

theorem operationsOf_fin (t r a d : List ℝ) :
    operationsOf (t.map fin) (r.map fin) (a.map fin) (d.map fin) =
      (operationsOf t r a d).map finOp := by
  induction t generalizing r a d with
  | nil => simp [operationsOf]
  | cons t ts ih =>
    cases r with
    | nil => simp [operationsOf]
    | cons r rs =>
      cases a with
      | nil => simp [operationsOf]
      | cons a as =>
        cases d with
        | nil => simp [operationsOf]
        | cons d ds => simp [operationsOf, ih, finOp]

theorem idleAt_fin (t : ℝ) : idleAt (fin t) = finOp (idleAt t) := by simp [idleAt, finOp]

theorem padOperations_fin (T : ℝ) (ops : List (Operation ℝ)) :
    padOperations (fin T) (ops.map finOp) = (padOperations T ops).map finOp := by
  have hz : idleAt (lit 0 : XR) = finOp (idleAt (lit 0)) := by simp [idleAt, finOp]
  have last : ∀ l : List (Operation ℝ),
      (match (l.map finOp).getLast? with
        | some o => if Py.ne o.offset (fin T) then l.map finOp ++ [idleAt (fin T)] else l.map finOp
        | none => l.map finOp) =
      (match l.getLast? with
        | some o => if Py.ne o.offset T then l ++ [idleAt T] else l
        | none => l).map finOp := by
    intro l
    rw [List.getLast?_map]
    cases l.getLast? with
    | none => rfl
    | some o =>
      simp only [Option.map_some]
      have : (finOp o).offset = fin o.offset := rfl
      rw [this, ne_fin]
      split
      · simp [idleAt_fin]
      · rfl
  unfold padOperations
  simp only
  cases ops with
  | nil =>
    have := last [idleAt (lit 0), idleAt T]
    simp only [List.map_cons, List.map_nil, ← hz, ← idleAt_fin] at this
    simp only [List.map_nil, List.isEmpty_nil, if_true]
    have e1 : Py.ne (idleAt (lit 0 : XR)).offset (lit 0) = false := by simp [idleAt]
    have e2 : Py.ne (idleAt (lit 0 : ℝ)).offset (lit 0) = false := by simp [idleAt]
    simp only [e1, e2, Bool.false_eq_true, if_false]
    exact this
  | cons o r =>
    have e : Py.ne (finOp o).offset (lit 0) = Py.ne o.offset (lit 0) := by
      rw [Bool.eq_iff_iff]; simp [finOp]
    cases hb : Py.ne o.offset (lit 0)
    · have := last (o :: r)
      simp only [List.map_cons] at this
      simp only [List.map_cons, List.isEmpty_cons, Bool.false_eq_true, if_false, e, hb]
      exact this
    · have := last (idleAt (lit 0) :: o :: r)
      simp only [List.map_cons, ← hz] at this
      simp only [List.map_cons, List.isEmpty_cons, Bool.false_eq_true, if_false, if_true, e, hb]
      exact this

theorem pulseStartEnd_fin {R D : ℝ} (hR : R ≠ 0) (hD : D ≠ 0) (m : ℝ) (o : Operation ℝ) :
    pulseStartEnd (fin R) (fin D) (fin m) (finOp o) = finPair (pulseStartEnd R D m o) := by
  have h : halfPulseDuration (fin R) (fin D) (fin m) (finOp o) =
      fin (halfPulseDuration R D m o) := by
    unfold halfPulseDuration
    simp only [finOp, isClose_fin_zero]
    split
    · simp [fin_div _ hR]
    · split
      · simp [fin_div _ hD]
      · simp
  unfold pulseStartEnd
  simp only [h]
  simp only [finPair, finOp, fin_sub, fin_add]

theorem shiftFirst_fin (l : List (ℝ × ℝ)) :
    shiftFirst (l.map finPair) = (shiftFirst l).map finPair := by
  cases l with
  | nil => rfl
  | cons p l =>
    obtain ⟨s, e⟩ := p
    simp only [List.map_cons, finPair, shiftFirst, lt_fin_zero]
    split
    · simp [finPair]
    · rfl

theorem shiftLast_fin (T : ℝ) (l : List (ℝ × ℝ)) :
    shiftLast (fin T) (l.map finPair) = (shiftLast T l).map finPair := by
  induction l with
  | nil => rfl
  | cons p l ih =>
    cases l with
    | nil =>
      obtain ⟨s, e⟩ := p
      simp only [List.map_cons, List.map_nil, finPair, shiftLast, gt_fin]
      split
      · simp [finPair]
      · rfl
    | cons q l =>
      simp only [List.map_cons] at ih
      simp only [List.map_cons, shiftLast, ih]

theorem gapDurations_fin (l : List (ℝ × ℝ)) :
    gapDurations (l.map finPair) = (gapDurations l).map fin := by
  induction l with
  | nil => rfl
  | cons p l ih =>
    cases l with
    | nil => rfl
    | cons q l =>
      simp only [List.map_cons] at ih
      simp only [List.map_cons, gapDurations, ih]
      simp only [finPair, fin_sub]

theorem pulseSegment_fin (o : Operation ℝ) (p : ℝ × ℝ) :
    pulseSegment (finOp o) (finPair p) = finSeg (pulseSegment o p) := by
  unfold pulseSegment
  simp only [finOp, finPair, fin_sub, gt_fin_zero, isClose_fin_zero]
  split
  · rename_i h
    have h0 : p.2 - p.1 ≠ 0 := by
      simp only [RealInst.gt_iff, RealInst.lit_eq, Rat.cast_zero] at h
      exact h.ne'
    split
    · simp [finSeg, fin_div _ h0]
    · split
      · simp [finSeg, fin_div _ h0]
      · simp [finSeg]
  · simp [finSeg]

theorem buildSegments_fin (l : List (Operation ℝ × (ℝ × ℝ))) :
    buildSegments (l.map fun x => (finOp x.1, finPair x.2)) = (buildSegments l).map finSeg := by
  induction l with
  | nil => rfl
  | cons x l ih =>
    obtain ⟨o, p⟩ := x
    cases l with
    | nil => simp [buildSegments, pulseSegment_fin, finSeg]
    | cons y l =>
      obtain ⟨o', p'⟩ := y
      simp only [List.map_cons] at ih
      simp only [List.map_cons, buildSegments, ih, pulseSegment_fin]
      simp [finSeg, finPair]

theorem convertDDS_fin (s : Sequence ℝ) (R D m : ℝ) (name : Option String) :
    convertDDS (s.map fin) (fin R) (fin D) (fin m) name =
      (convertDDS s R D m name).map (DrivenControl.map fin) := by
  unfold convertDDS
  simp only [checkArguments_bind, gt_fin_zero, ge_fin_zero]
  simp only [Sequence.map]
  simp only [checkValidOperation_fin, operationsOf_fin, padOperations_fin, List.all_map,
    Function.comp_def, ge_fin_zero]
  cases hD : Py.gt D (lit 0)
  · rfl
  cases hR : Py.gt R (lit 0)
  · rfl
  simp only [RealInst.gt_iff, RealInst.lit_eq, Rat.cast_zero] at hD hR
  cases hm : Py.ge m (lit 0)
  · rfl
  cases hr : s.rabiRotations.all fun x => Py.ge x (lit 0)
  · rfl
  cases hv : checkValidOperation s.rabiRotations s.detuningRotations
  · rfl
  simp only [if_true]
  set ops := padOperations s.duration
    (operationsOf s.offsets s.rabiRotations s.azimuthalAngles s.detuningRotations) with hops
  have e1 : (ops.map finOp).map Operation.offset = (ops.map Operation.offset).map fin := by
    rw [List.map_map, List.map_map]; rfl
  have e2 : (ops.map finOp).map (pulseStartEnd (fin R) (fin D) (fin m)) =
      (ops.map (pulseStartEnd R D m)).map finPair := by
    rw [List.map_map, List.map_map]
    apply List.map_congr_left
    intro o _
    exact pulseStartEnd_fin hR.ne' hD.ne' m o
  simp only [e1, npDiff_fin, List.any_map, Function.comp_def, le_fin_zero, e2, shiftFirst_fin,
    shiftLast_fin, gapDurations_fin, List.all_map, gt_fin, isClose_fin]
  cases ho : (npDiff (ops.map Operation.offset)).any fun d => PyFloat.le d (lit 0)
  swap; · rfl
  simp only [Bool.false_eq_true, if_false, except_pure_bind]
  set w := shiftLast s.duration (shiftFirst (ops.map (pulseStartEnd R D m))) with hw
  cases hg : (gapDurations w).all fun g => Py.gt g m || isClose g m
  · rfl
  simp only [Bool.not_true, Bool.false_eq_true, if_false, except_pure_bind, finPair,
    isClose_fin_zero]
  cases hz : w.all fun p => isClose p.1 (lit 0) && isClose p.2 (lit 0)
  swap
  · simp only [if_true]
    rw [← DrivenControl.new_fin]
    simp
  · simp only [Bool.false_eq_true, if_false]
    have e3 : (ops.map finOp).zip (w.map finPair) =
        (ops.zip w).map fun x => (finOp x.1, finPair x.2) := by
      rw [List.zip_map]; rfl
    rw [e3, buildSegments_fin, List.filter_map]
    have e4 : ((fun g : Segment XR => Py.gt g.duration (lit 0)) ∘ finSeg) =
        fun g : Segment ℝ => Py.gt g.duration (lit 0) := by
      funext g; exact gt_fin_zero g.duration
    rw [e4, ← DrivenControl.new_fin]
    simp only [List.map_map, Option.map_some]
    rfl

end OpenControls
