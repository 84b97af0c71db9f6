import Verif.Spec.TimeUnit
import Verif.Spec.Conversion
import Verif.Spec.Families
import Verif.Proofs.Basic

/-!
# Changing the unit of time: the laws of the arithmetic that are used, and what follows
-/

namespace OpenControls

open Spec PyFloat Py

variable {α : Type} [Add α] [Sub α] [Mul α] [Div α] [Neg α] [PyFloat α]

/-- multiplication and division by a unit, both exact -/
structure Rescaling (α : Type) [Add α] [Sub α] [Mul α] [Div α] [Neg α] [PyFloat α] where
  up : α → α
  down : α → α
  mul_up : ∀ x y, x * up y = up (x * y)
  up_mul : ∀ x y, up x * y = up (x * y)
  mul_down : ∀ x y, x * down y = down (x * y)
  down_mul : ∀ x y, down x * y = down (x * y)
  up_div : ∀ x y, up x / y = up (x / y)
  down_div : ∀ x y, down x / y = down (x / y)
  div_up : ∀ x y, x / up y = down (x / y)
  div_down : ∀ x y, x / down y = up (x / y)
  up_down : ∀ x, up (down x) = x
  down_up : ∀ x, down (up x) = x
  add_up : ∀ x y, up x + up y = up (x + y)
  sub_up : ∀ x y, up x - up y = up (x - y)
  add_down : ∀ x y, down x + down y = down (x + y)
  up_zero : up (lit 0) = lit 0
  down_zero : down (lit 0) = lit 0
  lt_up : ∀ x y, lt (up x) (up y) = lt x y
  le_up : ∀ x y, le (up x) (up y) = le x y
  eq_up : ∀ x y, eq (up x) (up y) = eq x y
  lt_down : ∀ x y, lt (down x) (down y) = lt x y
  le_down : ∀ x y, le (down x) (down y) = le x y
  eq_down : ∀ x y, eq (down x) (down y) = eq x y
  abs_down : ∀ x, PyFloat.abs (down x) = down (PyFloat.abs x)
  sqrt_down : ∀ x, PyFloat.sqrt (down (down x)) = down (PyFloat.sqrt x)

/-- multiplication by a positive number in the reals -/
noncomputable def Rescaling.real (k : ℝ) (hk : 0 < k) : Rescaling ℝ where
  up x := k * x
  down x := x / k
  mul_up x y := by ring
  up_mul x y := by ring
  mul_down x y := by ring
  down_mul x y := by ring
  up_div x y := by ring
  down_div x y := by ring
  div_up x y := by rw [mul_comm k, div_mul_eq_div_div]
  div_down x y := by rw [div_div_eq_mul_div]; ring
  up_down x := by field_simp
  down_up x := by field_simp
  add_up x y := by ring
  sub_up x y := by ring
  add_down x y := by ring
  up_zero := by simp
  down_zero := by simp
  lt_up x y := by simp [PyFloat.lt, hk]
  le_up x y := by simp [PyFloat.le, hk]
  eq_up x y := by simp [PyFloat.eq, hk.ne']
  lt_down x y := by simp [PyFloat.lt, div_lt_div_iff_of_pos_right hk]
  le_down x y := by simp [PyFloat.le, div_le_div_iff_of_pos_right hk]
  eq_down x y := by simp [PyFloat.eq, div_left_inj' hk.ne']
  abs_down x := by simp [PyFloat.abs, abs_div, abs_of_pos hk]
  sqrt_down x := by
    change Real.sqrt (x / k / k) = Real.sqrt x / k
    rw [div_div, Real.sqrt_div' _ (by positivity), Real.sqrt_mul_self hk.le]

theorem val_timesTwoPow {r : Rounding} (n : ℤ) (x : Fl r) : (timesTwoPow n x).val = 2 ^ n * x.val := rfl

theorem timesTwoPow_abs {r : Rounding} (n : ℤ) (x : Fl r) : PyFloat.abs (timesTwoPow n x) = timesTwoPow n (PyFloat.abs x) := by
  apply Fl.ext
  rw [Fl.val_abs, val_timesTwoPow, val_timesTwoPow, Fl.val_abs, abs_mul, abs_of_pos (by positivity : (0 : ℝ) < 2 ^ n)]

theorem timesTwoPow_order {r : Rounding} (n : ℤ) (x y : Fl r) :
    lt (timesTwoPow n x) (timesTwoPow n y) = lt x y ∧ le (timesTwoPow n x) (timesTwoPow n y) = le x y ∧
      eq (timesTwoPow n x) (timesTwoPow n y) = eq x y := by
  have h : (0 : ℝ) < 2 ^ n := by positivity
  refine ⟨?_, ?_, ?_⟩
  · change decide (2 ^ n * x.val < 2 ^ n * y.val) = decide (x.val < y.val)
    exact decide_eq_decide.mpr (mul_lt_mul_iff_right₀ h)
  · change decide (2 ^ n * x.val ≤ 2 ^ n * y.val) = decide (x.val ≤ y.val)
    exact decide_eq_decide.mpr (mul_le_mul_iff_right₀ h)
  · change decide (2 ^ n * x.val = 2 ^ n * y.val) = decide (x.val = y.val)
    exact decide_eq_decide.mpr (mul_right_inj' h.ne')

/-- multiplication by a power of two in floating-point arithmetic -/
noncomputable def Rescaling.float (r : Rounding) (n : ℤ) : Rescaling (Fl r) where
  up := timesTwoPow n
  down := timesTwoPow (-n)
  mul_up x y := Fl.ext (by
    rw [val_timesTwoPow, Fl.val_mul, Fl.val_mul, ← r.rnd_two_zpow]; congr 1; 
    simp only [val_timesTwoPow, zpow_neg]; ring)
  up_mul x y := Fl.ext (by
    rw [val_timesTwoPow, Fl.val_mul, Fl.val_mul, ← r.rnd_two_zpow]; congr 1; 
    simp only [val_timesTwoPow, zpow_neg]; ring)
  mul_down x y := Fl.ext (by
    rw [val_timesTwoPow, Fl.val_mul, Fl.val_mul, ← r.rnd_two_zpow]; congr 1; 
    simp only [val_timesTwoPow, zpow_neg]; ring)
  down_mul x y := Fl.ext (by
    rw [val_timesTwoPow, Fl.val_mul, Fl.val_mul, ← r.rnd_two_zpow]; congr 1; 
    simp only [val_timesTwoPow, zpow_neg]; ring)
  up_div x y := Fl.ext (by
    rw [val_timesTwoPow, Fl.val_div, Fl.val_div, ← r.rnd_two_zpow]; congr 1; 
    simp only [val_timesTwoPow, zpow_neg]; ring)
  down_div x y := Fl.ext (by
    rw [val_timesTwoPow, Fl.val_div, Fl.val_div, ← r.rnd_two_zpow]; congr 1; 
    simp only [val_timesTwoPow, zpow_neg]; ring)
  div_up x y := Fl.ext (by
    rw [val_timesTwoPow, Fl.val_div, Fl.val_div, ← r.rnd_two_zpow]; congr 1; 
    simp only [val_timesTwoPow, zpow_neg]; rw [div_mul_eq_div_div_swap]; ring)
  div_down x y := Fl.ext (by
    rw [val_timesTwoPow, Fl.val_div, Fl.val_div, ← r.rnd_two_zpow]; congr 1; 
    simp only [val_timesTwoPow, zpow_neg]; rw [div_mul_eq_div_div_swap]; simp only [div_inv_eq_mul]; ring)
  up_down x := Fl.ext (by
    have h : (2 : ℝ) ^ n ≠ 0 := by positivity
    simp only [val_timesTwoPow, zpow_neg]; rw [mul_inv_cancel_left₀ h])
  down_up x := Fl.ext (by
    have h : (2 : ℝ) ^ n ≠ 0 := by positivity
    simp only [val_timesTwoPow, zpow_neg]; rw [inv_mul_cancel_left₀ h])
  add_up x y := Fl.ext (by
    rw [val_timesTwoPow, Fl.val_add, Fl.val_add, ← r.rnd_two_zpow]; congr 1; 
    simp only [val_timesTwoPow, zpow_neg]; ring)
  sub_up x y := Fl.ext (by
    rw [val_timesTwoPow, Fl.val_sub, Fl.val_sub, ← r.rnd_two_zpow]; congr 1; 
    simp only [val_timesTwoPow, zpow_neg]; ring)
  add_down x y := Fl.ext (by
    rw [val_timesTwoPow, Fl.val_add, Fl.val_add, ← r.rnd_two_zpow]; congr 1; 
    simp only [val_timesTwoPow, zpow_neg]; ring)
  up_zero := Fl.ext (by rw [val_timesTwoPow, Fl.val_lit, ← r.rnd_two_zpow]; simp)
  down_zero := Fl.ext (by rw [val_timesTwoPow, Fl.val_lit, ← r.rnd_two_zpow]; simp)
  lt_up x y := (timesTwoPow_order n x y).1
  le_up x y := (timesTwoPow_order n x y).2.1
  eq_up x y := (timesTwoPow_order n x y).2.2
  lt_down x y := (timesTwoPow_order (-n) x y).1
  le_down x y := (timesTwoPow_order (-n) x y).2.1
  eq_down x y := (timesTwoPow_order (-n) x y).2.2
  abs_down x := timesTwoPow_abs _ x
  sqrt_down x := Fl.ext (by
    have h : (0 : ℝ) < 2 ^ (-n) := by positivity
    rw [Fl.val_sqrt, val_timesTwoPow, val_timesTwoPow, val_timesTwoPow, Fl.val_sqrt, ← r.rnd_two_zpow, ← mul_assoc,
      Real.sqrt_mul (by positivity), Real.sqrt_mul_self h.le])

namespace Rescaling

variable (u : Rescaling α)

/-- a control in other units -/
def control (c : DrivenControl α) : DrivenControl α where
  rabiRates := c.rabiRates.map u.down
  azimuthalAngles := c.azimuthalAngles
  detunings := c.detunings.map u.down
  durations := c.durations.map u.up
  name := c.name

/-- a sequence in other units -/
def sequence (s : Sequence α) : Sequence α := { s with duration := u.up s.duration, offsets := s.offsets.map u.up }

theorem lt_zero_up (x : α) : lt (lit 0) (u.up x) = lt (lit 0) x := by
  conv_lhs => rw [← u.up_zero]
  rw [u.lt_up]

theorem lt_zero_down (x : α) : lt (lit 0) (u.down x) = lt (lit 0) x := by
  conv_lhs => rw [← u.down_zero]
  rw [u.lt_down]

theorem le_zero_up (x : α) : le (lit 0) (u.up x) = le (lit 0) x := by
  conv_lhs => rw [← u.up_zero]
  rw [u.le_up]

theorem le_zero_down (x : α) : le (lit 0) (u.down x) = le (lit 0) x := by
  conv_lhs => rw [← u.down_zero]
  rw [u.le_down]

theorem gt_zero_up (x : α) : gt (u.up x) (lit 0) = gt x (lit 0) := u.lt_zero_up x
theorem gt_zero_down (x : α) : gt (u.down x) (lit 0) = gt x (lit 0) := u.lt_zero_down x
theorem ge_zero_up (x : α) : ge (u.up x) (lit 0) = ge x (lit 0) := u.le_zero_up x
theorem ge_zero_down (x : α) : ge (u.down x) (lit 0) = ge x (lit 0) := u.le_zero_down x

theorem new_control (durations : List α) (rabiRates azimuthalAngles detunings : List α) (name : Option String) :
    DrivenControl.new (durations.map u.up) (some (rabiRates.map u.down)) (some azimuthalAngles)
      (some (detunings.map u.down)) name =
    (DrivenControl.new durations (some rabiRates) (some azimuthalAngles) (some detunings) name).map u.control := by
  unfold DrivenControl.new
  simp only [checkArguments_bind, List.all_map, Function.comp_def, gt_zero_up, ge_zero_down, List.length_map,
    List.filterMap_cons, Option.map_some, Option.getD_some]
  split
  · split
    · split <;> rfl
    · rfl
  · rfl

theorem ge_up (x y : α) : ge (u.up x) (u.up y) = ge x y := u.le_up y x

theorem gt_up (x y : α) : gt (u.up x) (u.up y) = gt x y := u.lt_up y x

theorem new_sequence (T : α) (offsets rabi azimuthal detuning : List α) (name : Option String) :
    Sequence.new (u.up T) (offsets.map u.up) rabi azimuthal detuning name =
      (Sequence.new T offsets rabi azimuthal detuning name).map u.sequence := by
  unfold Sequence.new
  simp only [checkArguments_bind, List.all_map, Function.comp_def, gt_zero_up, ge_zero_up, ge_up, List.length_map]
  split
  · split
    · split
      · split
        · split <;> rfl
        · rfl
      · rfl
    · rfl
  · rfl

omit [Add α] [Sub α] [Mul α] [Div α] [Neg α] [PyFloat α] in
theorem map_of_bind {β γ δ : Type} (x : Except PyErr β) (f : β → Except PyErr γ) (g : γ → δ) :
    (x >>= f).map g = x >>= fun b => (f b).map g := by
  cases x <;> rfl

theorem validate (θ Ω : α) : validateRabiParameters θ (u.down Ω) = validateRabiParameters θ Ω := by
  unfold validateRabiParameters
  rw [u.gt_zero_down]

theorem new_uniform (durations : List α) (n : ℕ) (Ω : α) (azimuthalAngles : List α) (m : ℕ) (name : Option String) :
    DrivenControl.new (durations.map fun r => r / u.down Ω) (some (List.replicate n (u.down Ω))) (some azimuthalAngles)
      (some (List.replicate m (lit 0))) name =
    (DrivenControl.new (durations.map fun r => r / Ω) (some (List.replicate n Ω)) (some azimuthalAngles)
      (some (List.replicate m (lit 0))) name).map u.control := by
  rw [← new_control, List.map_replicate, List.map_replicate, u.down_zero, List.map_map]
  simp only [Function.comp_def, u.div_down]

theorem composite (s : Scheme) (θ Ω φ : α) (name : Option String) :
    s.call θ (u.down Ω) φ name = (s.call θ Ω φ name).map u.control := by
  cases s with
  | primitive =>
    unfold Scheme.call newPrimitiveControl
    simp only [map_of_bind, validate]
    congr 1; funext _
    exact u.new_uniform [θ] 1 Ω [φ] 1 name
  | wamf1 =>
    unfold Scheme.call newWamf1Control
    simp only [map_of_bind, validate]
    congr 1; funext _
    congr 1; funext _
    rw [← new_control]
    simp only [List.map_replicate, List.map_map, Function.comp_def, u.down_zero, u.div_down, u.div_up]
  | corpseInScrofulous =>
    unfold Scheme.call newCorpseInScrofulousControl
    simp only [map_of_bind, validate]
    congr 1; funext _
    congr 1; funext _
    rw [← new_control]
    simp only [List.map_replicate, List.map_map, Function.comp_def, u.down_zero, u.div_down]
  | _ =>
    unfold Scheme.call
    simp only [newBB1Control, newSK1Control, newScrofulousControl, newCorpseControl, newCorpseInBB1Control,
      newCorpseInSK1Control, map_of_bind, validate, new_uniform]

/-- maxima commute with a function that keeps the order -/
theorem npAmax_map (f : α → α) (h : ∀ x y, npMaximum (f x) (f y) = f (npMaximum x y)) (l : List α) :
    npAmax (l.map f) = (npAmax l).map f := by
  cases l with
  | nil => rfl
  | cons x l =>
    simp only [List.map_cons, npAmax, Except.map]
    congr 1
    induction l generalizing x with
    | nil => rfl
    | cons y l ih => rw [List.map_cons, List.foldl_cons, h, ih, List.foldl_cons]

theorem gaussian (Ω m T f : α) :
    newModulatedGaussianControl (u.down Ω) (u.up m) (u.up T) (u.down f) =
      (newModulatedGaussianControl Ω m T f).map u.control := by
  unfold newModulatedGaussianControl
  have e1 : ∀ x y : α, u.up x / u.up y = x / y := fun x y => by rw [u.up_div, u.div_up, u.up_down]
  have e2 : ∀ (n : ℕ) (d : α), gaussianMidpoints n (u.up d) = (gaussianMidpoints n d).map u.up := fun n d => by
    unfold gaussianMidpoints
    simp only [List.map_map, Function.comp_def, u.mul_up, u.up_div, u.add_up]
  have e3 : ∀ (T : α) (l : List α), baseGaussian (u.up T) (l.map u.up) = baseGaussian T l := fun T l => by
    unfold baseGaussian
    simp only [List.map_map, Function.comp_def, u.mul_up, u.sub_up, e1]
  have e4 : ∀ x y : α, u.down x * u.up y = x * y := fun x y => by rw [u.down_mul, u.mul_up, u.down_up]
  have e5 : ∀ l b : List α, modulatedSegments (u.down Ω) (u.up T) (u.down f) (l.map u.up) b =
      (modulatedSegments Ω T f l b).map (List.map u.down) := fun l b => by
    unfold modulatedSegments
    simp only [List.map_map, Function.comp_def, u.up_div, u.sub_up, u.mul_down, e4, map_of_bind]
    congr 1; funext m
    simp only [pure, Except.pure, Except.map, List.map_map, Function.comp_def, u.down_mul, u.down_div]
  have e6 : ∀ (d : α) (b : List α), unmodulatedSegments (u.down Ω) (u.up d) b =
      (unmodulatedSegments Ω d b).map (List.map u.down) := fun d b => by
    unfold unmodulatedSegments
    simp only [u.up_mul, u.mul_down, u.down_up, u.up_down, map_of_bind]
    congr 1; funext m
    simp only [pure, Except.pure, Except.map, List.map_map, Function.comp_def, u.mul_down, u.down_mul]
  have e7 : ne (u.down f) (lit 0) = ne f (lit 0) := by
    unfold ne
    conv_lhs => rw [← u.down_zero, u.eq_down]
  have e8 : ge (u.down Ω) (u.down (sqrt (lit 2 * PyFloat.pi) / (lit (1 / 10) * T))) =
      ge Ω (sqrt (lit 2 * PyFloat.pi) / (lit (1 / 10) * T)) := u.le_down _ _
  simp only [gt_zero_down, gt_zero_up, gt_up, u.mul_up, u.div_up, e8, map_of_bind, e2, e3, u.up_div, u.down_up, e7]
  congr 1; funext _
  congr 1; funext _
  congr 1; funext _
  congr 1; funext _
  congr 1; funext n
  have e9 : ∀ x : Except PyErr (List α), ((x.map (List.map u.down)) >>= fun segments =>
      DrivenControl.new (List.replicate n (u.up (T / nat n))) (some (segments.map PyFloat.abs))
        (some (segments.map fun v => if ge v (lit 0) then lit 0 else PyFloat.pi)) (some (List.replicate n (lit 0))) none) =
      x >>= fun segments => (DrivenControl.new (List.replicate n (T / nat n)) (some (segments.map PyFloat.abs))
        (some (segments.map fun v => if ge v (lit 0) then lit 0 else PyFloat.pi)) (some (List.replicate n (lit 0)))
          none).map u.control := by
    intro x
    cases x with
    | error e => rfl
    | ok l =>
      simp only [Except.map, bind, Except.bind]
      rw [← Except.map.eq_def, ← new_control]
      simp only [List.map_map, List.map_replicate, Function.comp_def, u.abs_down, u.down_zero, ge_zero_down]
  split
  · rw [e5, e9]
  · rw [e6, e9]

/-- pulses in other units -/
def pulses (p : Pulses α) : Pulses α := { p with offsets := p.offsets.map u.up }

theorem finish (T : α) (pp : Bool) (name : Option String) (p : Pulses α) :
    finishSequence (u.up T) pp name (u.pulses p) = (finishSequence T pp name p).map u.sequence := by
  unfold finishSequence
  cases pp with
  | false => exact u.new_sequence T p.offsets p.rabiRotations p.azimuthalAngles p.detuningRotations name
  | true =>
    simp only [if_true, addPrePostRotations, pulses, List.length_map, map_of_bind, bind_assoc]
    congr 1; funext _
    have e : [lit 0] ++ p.offsets.map u.up ++ [u.up T] = ([lit 0] ++ p.offsets ++ [T]).map u.up := by
      simp only [List.map_append, List.map_cons, List.map_nil, u.up_zero]
    simp only [pure, Except.pure, bind, Except.bind]
    rw [e]
    exact u.new_sequence T _ _ _ _ name

theorem uniform (T : α) (pp : Bool) (name : Option String) (offsets : List α) (φ : α) :
    finishSequence (u.up T) pp name (uniformPulses (offsets.map u.up) φ) =
      (finishSequence T pp name (uniformPulses offsets φ)).map u.sequence := by
  rw [← finish]
  simp only [uniformPulses, pulses, List.length_map]

theorem cpmg (T : α) (n : ℕ) : cpmgOffsets (u.up T) n = (cpmgOffsets T n).map u.up := by
  unfold cpmgOffsets
  simp only [List.map_map, Function.comp_def, u.mul_up]

theorem uhrig (T : α) (n : ℕ) : uhrigOffsets (u.up T) n = (uhrigOffsets T n).map u.up := by
  unfold uhrigOffsets
  simp only [List.map_map, Function.comp_def, u.up_mul]

theorem periodic (T : α) (n : ℕ) : periodicOffsets (u.up T) n = (periodicOffsets T n).map u.up := by
  unfold periodicOffsets
  simp only [List.map_map, Function.comp_def, u.up_mul]

theorem walsh (T : α) (k : ℕ) : walshOffsets (u.up T) k = (walshOffsets T k).map (List.map u.up) := by
  unfold walshOffsets
  simp only [map_of_bind, u.up_mul]
  congr 1; funext _
  congr 1; funext _
  congr 1; funext _
  congr 1; funext _
  simp only [pure, Except.pure, Except.map, List.map_map, Function.comp_def]

theorem rows (n : ℕ) : ∀ l : List α, quadraticRows n (l.map u.up) = (quadraticRows n l).map (List.map u.up)
  | [] => rfl
  | [_] => rfl
  | a :: b :: r => by
    have ih := rows n (b :: r)
    simp only [List.map_cons] at ih
    simp only [List.map_cons, quadraticRows, ih, u.sub_up, uhrig, List.map_map, List.map_append, List.map_nil,
      Function.comp_def, u.add_up]

theorem quadratic (T : α) (n m : ℕ) : quadraticPulses (u.up T) n m = u.pulses (quadraticPulses T n m) := by
  unfold quadraticPulses
  have e : [lit 0] ++ uhrigOffsets (u.up T) m ++ [u.up T] = ([lit 0] ++ uhrigOffsets T m ++ [T]).map u.up := by
    simp only [List.map_append, List.map_cons, List.map_nil, u.up_zero, uhrig]
  simp only [e, rows, pulses, ← List.map_flatten, List.map_dropLast, List.length_dropLast, List.length_map]

theorem cumsumFrom (a : α) (l : List α) : Py.cumsumFrom (u.up a) (l.map u.up) = (Py.cumsumFrom a l).map u.up := by
  induction l generalizing a with
  | nil => rfl
  | cons x l ih => simp only [List.map_cons, Py.cumsumFrom, u.add_up, ih]

theorem cumsum (l : List α) : npCumsum (l.map u.up) = (npCumsum l).map u.up := by
  cases l with
  | nil => rfl
  | cons x l => simp only [List.map_cons, npCumsum, cumsumFrom]

theorem insertCount (x : α) (l : List (α × ℕ)) : Py.insertCount (u.up x) (l.map fun v => (u.up v.1, v.2)) =
    (Py.insertCount x l).map fun v => (u.up v.1, v.2) := by
  induction l with
  | nil => rfl
  | cons v l ih =>
    obtain ⟨y, c⟩ := v
    simp only [List.map_cons, Py.insertCount, u.lt_up, u.eq_up]
    split
    · rfl
    · split
      · rfl
      · rw [ih]; rfl

theorem unique (l : List α) : npUnique (l.map u.up) = (npUnique l).map fun v => (u.up v.1, v.2) := by
  unfold npUnique
  have : ∀ (l : List α) (acc : List (α × ℕ)), (l.map u.up).foldl (fun acc x => Py.insertCount x acc)
      (acc.map fun v => (u.up v.1, v.2)) = (l.foldl (fun acc x => Py.insertCount x acc) acc).map fun v => (u.up v.1, v.2) := by
    intro l
    induction l with
    | nil => intro acc; rfl
    | cons x l ih => intro acc; rw [List.map_cons, List.foldl_cons, insertCount, ih, List.foldl_cons]
  exact this l []

theorem repeated (l : List α) : evenlyRepeated (l.map u.up) = (evenlyRepeated l).map u.up := by
  unfold evenlyRepeated
  rw [unique, List.filter_map, List.map_map, List.map_map]
  rfl

theorem xConcatenated (T : α) (l : ℕ) : xConcatenatedOffsets (u.up T) l = (xConcatenatedOffsets T l).map u.up := by
  unfold xConcatenatedOffsets
  have : ∀ s : α, (concatenationX l).map (fun c => nat c * u.up s) = ((concatenationX l).map fun c => nat c * s).map u.up := by
    intro s
    simp only [List.map_map, Function.comp_def, u.mul_up]
  simp only [u.up_div, this, cumsum, repeated]
  split
  · rw [List.map_dropLast]
  · rfl

theorem xyOffsets (s : α) (a b c : Int) (l : List Int) : xyOffsetsOf (u.up s) a b c l = (xyOffsetsOf s a b c l).map u.up := by
  unfold xyOffsetsOf
  have : ∀ l : List Int, l.map (fun c => (if c != a then lit 1 else lit 0) * u.up s) =
      (l.map fun c => (if c != a then lit 1 else lit 0) * s).map u.up := by
    intro l
    simp only [List.map_map, Function.comp_def, u.mul_up]
  simp only [this, cumsum, repeated]

theorem merge : ∀ x y : List α, xyMerge (x.map u.up) (y.map u.up) = (xyMerge x y).map fun v => (u.up v.1, v.2)
  | [], [] => by simp [xyMerge]
  | x :: xs, [] => by
    have := merge xs []
    simp only [List.map_nil, List.map_cons] at this ⊢
    rw [xyMerge, xyMerge, this]; rfl
  | [], y :: ys => by
    have := merge [] ys
    simp only [List.map_nil, List.map_cons] at this ⊢
    rw [xyMerge, xyMerge, this]; rfl
  | x :: xs, y :: ys => by
    have h1 := merge xs (y :: ys)
    have h2 := merge (x :: xs) ys
    simp only [List.map_cons] at h1 h2 ⊢
    rw [xyMerge, xyMerge, u.lt_up, h1, h2]
    split <;> rfl
  termination_by x y => x.length + y.length

theorem insertZ : ∀ (is : List ℕ) (zs : List α) (p : Pulses α),
    OpenControls.insertZ is (zs.map u.up) (u.pulses p) = u.pulses (OpenControls.insertZ is zs p)
  | [], _, _ => by simp only [OpenControls.insertZ]
  | _ :: _, [], _ => by simp only [List.map_nil, OpenControls.insertZ]
  | i :: is, z :: zs, p => by
    have hc : (u.pulses p).offsets[i]? = (p.offsets[i]?).map u.up := by simp only [pulses, List.getElem?_map]
    have h1 := fun p => insertZ is zs p
    have h2 := fun p => insertZ is (z :: zs) p
    simp only [List.map_cons] at h2 ⊢
    rw [OpenControls.insertZ, OpenControls.insertZ]
    cases h : p.offsets[i]? with
    | none =>
      simp only [hc, h, Option.map_none, Bool.false_eq_true, if_false, h2]
    | some t =>
      simp only [hc, h, Option.map_some, u.gt_up]
      split
      · rw [← h1]
        congr 1
        simp only [pulses, shiftInsert, List.map_append, List.map_take, List.map_cons, List.map_nil, List.map_dropLast,
          List.map_drop]
      · rw [h2]

theorem xyConcatenated (T : α) (l : ℕ) : xyConcatenatedPulses (u.up T) l = u.pulses (xyConcatenatedPulses T l) := by
  unfold xyConcatenatedPulses
  simp only [u.up_div, xyOffsets, merge, List.length_map, List.length_append, List.length_replicate]
  rw [← insertZ]
  congr 1
  simp only [pulses, List.map_append, List.map_map, List.map_replicate, u.up_zero, Function.comp_def]

theorem predefined (s : Predefined α) (T : α) (pp : Bool) (name : Option String) :
    s.call (u.up T) pp name = (s.call T pp name).map u.sequence := by
  have hd : checkDuration (u.up T) = checkDuration T := by
    unfold checkDuration
    rw [u.gt_zero_up]
  cases s with
  | ramsey =>
    simp only [Predefined.call, newRamseySequence, hd, map_of_bind]
    congr 1; funext _
    split
    · rw [← new_sequence]
      simp only [List.map_cons, List.map_nil, u.up_mul]
    · exact u.new_sequence T [] [] [] [] name
  | spinEcho =>
    simp only [Predefined.call, newSpinEchoSequence, hd, map_of_bind]
    congr 1; funext _
    rw [← finish]
    simp only [pulses, List.map_cons, List.map_nil, u.up_div]
  | carrPurcell n => simp only [Predefined.call, newCarrPurcellSequence, hd, map_of_bind, cpmg, uniform]
  | cpmg n => simp only [Predefined.call, newCPMGSequence, hd, map_of_bind, cpmg, uniform]
  | uhrig n => simp only [Predefined.call, newUhrigSequence, hd, map_of_bind, uhrig, uniform]
  | periodic n => simp only [Predefined.call, newPeriodicSequence, hd, map_of_bind, periodic, uniform]
  | walsh k =>
    simp only [Predefined.call, newWalshSequence, hd, map_of_bind, walsh]
    congr 1; funext _
    congr 1; funext _
    congr 1; funext k
    cases walshOffsets T k with
    | error e => rfl
    | ok l => exact u.uniform T pp name l (lit 0)
  | quadratic n m => simp only [Predefined.call, newQuadraticSequence, hd, map_of_bind, quadratic, finish]
  | xConcatenated l => simp only [Predefined.call, newXConcatenatedSequence, hd, map_of_bind, xConcatenated, uniform]
  | xyConcatenated l => simp only [Predefined.call, newXYConcatenatedSequence, hd, map_of_bind, xyConcatenated, finish]

end Rescaling

end OpenControls
