import Verif.Model.ArrayGaussian
import Verif.Proofs.ArrayCalls
import Verif.Proofs.ArraySequences
import Verif.Proofs.ArrayLimits

/-!
# The modulated Gaussian control called with arrays: auxiliary results
-/

namespace OpenControls

open Spec PyFloat Py NdArray

set_option linter.unusedSectionVars false

variable {α : Type} [Add α] [Sub α] [Mul α] [Div α] [Neg α] [PyFloat α]

/-! ## Broadcasting of numbers and lines with any number of axes -/

theorem single_form {a : NdArray α} {x : α} (h : a.data = [x]) (hr : Regular a) : a = ⟨List.replicate a.shape.length 1, [x]⟩ := by
  obtain ⟨s, d⟩ := a
  simp only at h
  subst h
  rw [NdArray.mk.injEq]
  exact ⟨ones_of_prod (by unfold Regular at hr; simpa using hr.symm), rfl⟩

theorem broadcast_axes : ∀ j k : ℕ, broadcast (List.replicate j 1) (List.replicate k 1) = some (List.replicate (max j k) 1)
  | 0, k => by simp [broadcast]
  | j + 1, 0 => by simp [broadcast, List.replicate_succ]
  | j + 1, k + 1 => by
    rw [List.replicate_succ, List.replicate_succ]
    simp only [broadcast]
    rw [if_pos trivial, broadcast_axes j k, Option.map_some, ← List.replicate_succ]
    congr 2
    omega

theorem broadcast_line_ones (n k j : ℕ) :
    broadcast (n :: List.replicate k 1) (List.replicate j 1) = some (n :: List.replicate (max k (j - 1)) 1) := by
  cases j with
  | zero => simp [broadcast]
  | succ j =>
    rw [List.replicate_succ]
    by_cases h : n = 1
    · subst h
      simp only [broadcast]
      rw [if_pos trivial, broadcast_axes]
      simp
    · simp only [broadcast]
      rw [if_neg h, broadcast_axes]
      simp [h]

theorem broadcast_ones_line (n k j : ℕ) :
    broadcast (List.replicate j 1) (n :: List.replicate k 1) = some (n :: List.replicate (max k (j - 1)) 1) := by
  cases j with
  | zero => simp [broadcast]
  | succ j =>
    rw [List.replicate_succ]
    simp only [broadcast]
    by_cases h : 1 = n
    · subst h
      rw [if_pos trivial, broadcast_axes]
      simp [max_comm]
    · rw [if_neg h, if_pos trivial, broadcast_axes]
      simp [max_comm]

theorem broadcast_lines (n k j : ℕ) :
    broadcast (n :: List.replicate k 1) (n :: List.replicate j 1) = some (n :: List.replicate (max k j) 1) := by
  simp only [broadcast]
  rw [if_pos trivial, broadcast_axes]
  rfl

/-- a line with `k` further axes of length 1 -/
def lineOf (k n : ℕ) (xs : List α) : NdArray α := ⟨List.replicate k 1 ++ [n], xs⟩

/-- a number with `k` axes of length 1 -/
def oneOf (k : ℕ) (x : α) : NdArray α := ⟨List.replicate k 1, [x]⟩

theorem vec_line (xs : List α) : vec xs = lineOf 0 xs.length xs := rfl

theorem un_line (f : α → α) (k n : ℕ) (xs : List α) : un f (lineOf k n xs) = lineOf k n (xs.map f) := rfl

theorem un_one (f : α → α) (k : ℕ) (x : α) : un f (oneOf k x) = oneOf k (f x) := rfl

theorem ravel_axes {n m k : ℕ} (s : List ℕ) (h : m < n) : ravel (n :: List.replicate k 1) (unravel (n :: s) m) = m := by
  unfold unravel
  simp only [ravel]
  rw [ravel_ones, mul_zero, add_zero]
  split
  · omega
  · exact Nat.mod_eq_of_lt h

theorem bin_ones (f : α → α → α) (j k : ℕ) (x y : α) : bin f (oneOf j x) (oneOf k y) = .ok (oneOf (max j k) (f x y)) := by
  unfold bin oneOf
  simp only [List.reverse_replicate]
  rw [broadcast_axes]
  simp [ravel_ones, List.range_succ]

theorem truth_ones (p : α → α → Bool) (j k : ℕ) (x y : α) : truthBoth p (oneOf j x) (oneOf k y) = .ok (p x y) := by
  unfold truthBoth oneOf
  simp only [List.reverse_replicate]
  rw [broadcast_axes]
  simp [ravel_ones, List.range_succ]

theorem bin_line_one (f : α → α → α) (k j : ℕ) (xs : List α) (y : α) :
    bin f (lineOf k xs.length xs) (oneOf j y) = .ok (lineOf (max k (j - 1)) xs.length (xs.map fun x => f x y)) := by
  unfold bin lineOf oneOf
  simp only [List.reverse_append, List.reverse_replicate, List.reverse_cons, List.reverse_nil, List.nil_append, List.singleton_append]
  rw [broadcast_line_ones]
  simp only [Except.ok.injEq, NdArray.mk.injEq, List.reverse_cons, List.reverse_replicate, true_and]
  rw [← filterMap_getElem_map xs]
  rw [List.prod_cons, List.prod_replicate, one_pow, mul_one]
  refine List.filterMap_congr fun m hm => ?_
  rw [ravel_ones, ravel_axes _ (List.mem_range.mp hm)]
  cases xs[m]? <;> rfl

theorem bin_one_line (f : α → α → α) (k j : ℕ) (xs : List α) (y : α) :
    bin f (oneOf j y) (lineOf k xs.length xs) = .ok (lineOf (max k (j - 1)) xs.length (xs.map fun x => f y x)) := by
  unfold bin lineOf oneOf
  simp only [List.reverse_append, List.reverse_replicate, List.reverse_cons, List.reverse_nil, List.nil_append, List.singleton_append]
  rw [broadcast_ones_line]
  simp only [Except.ok.injEq, NdArray.mk.injEq, List.reverse_cons, List.reverse_replicate, true_and]
  rw [← filterMap_getElem_map xs]
  rw [List.prod_cons, List.prod_replicate, one_pow, mul_one]
  refine List.filterMap_congr fun m hm => ?_
  rw [ravel_ones, ravel_axes _ (List.mem_range.mp hm)]
  rfl

theorem bin_lines (f : α → α → α) (k j n : ℕ) (xs ys : List α) (hx : xs.length = n) (hy : ys.length = n) :
    bin f (lineOf k n xs) (lineOf j n ys) = .ok (lineOf (max k j) n (List.zipWith f xs ys)) := by
  unfold bin lineOf
  simp only [List.reverse_append, List.reverse_replicate, List.reverse_cons, List.reverse_nil, List.nil_append, List.singleton_append]
  rw [broadcast_lines]
  simp only [Except.ok.injEq, NdArray.mk.injEq, List.reverse_cons, List.reverse_replicate, true_and]
  rw [List.prod_cons, List.prod_replicate, one_pow, mul_one]
  have key : ((List.range n).filterMap fun m => xs[m]?.bind fun x => ys[m]?.map fun y => f x y) = List.zipWith f xs ys := by
    obtain ⟨h1, h2⟩ := filterMap_range (fun m => xs[m]?.bind fun x => ys[m]?.map fun y => f x y) n fun m hm => by
      rw [List.getElem?_eq_getElem (by omega), List.getElem?_eq_getElem (by omega)]; rfl
    refine List.ext_getElem? fun m => ?_
    by_cases hm : m < n
    · rw [h2 m hm, List.getElem?_zipWith, List.getElem?_eq_getElem (by omega), List.getElem?_eq_getElem (by omega)]
      rfl
    · rw [List.getElem?_eq_none (by omega), List.getElem?_eq_none (by simp; omega)]
  rw [← key]
  refine List.filterMap_congr fun m hm => ?_
  rw [ravel_axes _ (List.mem_range.mp hm), ravel_axes _ (List.mem_range.mp hm)]

/-! ## The steps of the function -/

theorem midpoint_one (n j : ℕ) (d : α) :
    midpointArrays n (oneOf j d) = .ok (lineOf (j - 1) n (gaussianMidpoints n d)) := by
  unfold midpointArrays
  rw [vec_line, bin_line_one]
  simp only [List.length_map, List.length_range]
  have h := bin_line_one (fun x y : α => x + y) (max 0 (j - 1)) j (((List.range n).map fun i => (nat i : α)).map fun x => x * d) (d / lit 2)
  simp only [List.length_map, List.length_range] at h
  refine Eq.trans h ?_
  rw [show max (max 0 (j - 1)) (j - 1) = j - 1 by omega]
  simp only [List.map_map, gaussianMidpoints]
  rfl

theorem base_line (j n : ℕ) (T : α) (xs : List α) (hx : xs.length = n) :
    baseArrays (oneOf j T) (lineOf (j - 1) n xs) = .ok (lineOf (j - 1) n (baseGaussian T xs)) := by
  subst hx
  unfold baseArrays
  rw [un_one, un_one, bin_line_one]
  have h := bin_line_one (fun x y : α => x / y) (max (j - 1) (j - 1)) j (xs.map fun x => x - lit (1 / 2) * T) (lit (1 / 10) * T)
  simp only [List.length_map] at h
  refine Eq.trans (congrArg (fun x => x >>= fun z => pure (un (fun z => exp (lit (-1 / 2) * (z * z))) z)) h) ?_
  rw [show max (max (j - 1) (j - 1)) (j - 1) = j - 1 by omega]
  simp only [baseGaussian]
  change Except.ok _ = Except.ok _
  rw [un_line, List.map_map, List.map_map]
  rfl

theorem modulated_line (jr j jf n : ℕ) (R T f : α) (mids base : List α) (hm : mids.length = n) (hb : base.length = n) :
    modulatedArrays (oneOf jr R) (oneOf j T) (oneOf jf f) (lineOf (j - 1) n mids) (lineOf (j - 1) n base) =
      (modulatedSegments R T f mids base).map (lineOf (max (j - 1) (max (jr - 1) (jf - 1))) n) := by
  unfold modulatedArrays modulatedSegments
  have h1 := bin_line_one (fun x y : α => x - y) (j - 1) j mids (T / lit 2)
  have h2 := bin_one_line (fun x y : α => x * y) (max (j - 1) (j - 1)) jf (mids.map fun x => x - T / lit 2) (lit 2 * PyFloat.pi * f)
  simp only [List.length_map] at h2
  rw [hm] at h1 h2
  rw [un_one, un_one]
  simp only [h1, h2, bind, Except.bind]
  rw [un_line, bin_lines _ _ _ _ _ _ hb (by simp [hm])]
  simp only [List.map_map]
  have e : (sin ∘ (fun x => lit 2 * PyFloat.pi * f * x) ∘ fun x => x - T / lit 2) =
      fun t : α => sin (lit 2 * PyFloat.pi * f * (t - T / lit 2)) := rfl
  rw [e]
  generalize hw : List.zipWith (fun g s => g * s) base
    (mids.map fun t => sin (lit 2 * PyFloat.pi * f * (t - T / lit 2))) = w
  have hl : w.length = n := by rw [← hw]; simp [hm, hb]
  have h3 := bin_one_line (fun x y : α => x * y) (max (j - 1) (max (max (j - 1) (j - 1)) (jf - 1))) jr w R
  rw [hl] at h3
  simp only [h3]
  simp only [lineOf]
  cases npAmax w with
  | error e => rfl
  | ok m =>
    simp only [pure, Except.pure, Except.map, un, List.map_map]
    rw [show max (max (j - 1) (max (max (j - 1) (j - 1)) (jf - 1))) (jr - 1) = max (j - 1) (max (jr - 1) (jf - 1)) by omega]
    rfl

theorem unmodulated_line (jr j n : ℕ) (R D : α) (base : List α) (hb : base.length = n) :
    unmodulatedArrays (oneOf jr R) (oneOf j D) (lineOf (j - 1) n base) =
      (unmodulatedSegments R D base).map (lineOf (max (j - 1) (jr - 1)) n) := by
  unfold unmodulatedArrays unmodulatedSegments
  simp only [lineOf]
  cases npAmax base with
  | error e => rfl
  | ok m =>
    simp only [bind, Except.bind, un_one, bin_ones, un, oneOf, List.map_cons, List.map_nil]
    generalize hw : base.map (fun g => g / m) = w
    have hl : w.length = n := by rw [← hw]; simp [hb]
    have h0 := bin_ones (fun x y : α => x * y) j jr (D * PyFloat.sum w) R
    simp only [oneOf] at h0
    rw [h0]
    generalize D * PyFloat.sum w * R = a
    simp only [maxArrays, List.map_cons, List.map_nil]
    have h1 := bin_line_one (fun x y : α => x * y) (j - 1) jr w R
    rw [hl] at h1
    simp only [lineOf, oneOf] at h1
    have hfull : ∀ x : α, ∀ k, k ≤ max j jr → bin (fun x y : α => x / y) ⟨List.replicate k 1, [x]⟩ ⟨List.replicate (max j jr) 1, [a]⟩ =
        .ok ⟨List.replicate (max j jr) 1, [x / a]⟩ := by
      intro x k hk
      have := bin_ones (fun x y : α => x / y) k (max j jr) x a
      simp only [oneOf] at this
      rw [this, max_eq_right hk]
    have h2 : ∀ y : α, bin (fun x y : α => x * y) ⟨List.replicate (max (j - 1) (jr - 1)) 1 ++ [n], w.map fun x => x * R⟩
        ⟨List.replicate (max j jr) 1, [y]⟩ =
        .ok ⟨List.replicate (max (j - 1) (jr - 1)) 1 ++ [n], w.map fun g => g * R * y⟩ := by
      intro y
      have := bin_line_one (fun x y : α => x * y) (max (j - 1) (jr - 1)) (max j jr) (w.map fun x => x * R) y
      simp only [List.length_map, hl, lineOf, oneOf, List.map_map] at this
      rw [this, show max (max (j - 1) (jr - 1)) (max j jr - 1) = max (j - 1) (jr - 1) by omega]
      rfl
    rw [h1]
    unfold pyMax
    by_cases h : gt (lit 2 * PyFloat.pi) (a - mod a (lit 2 * PyFloat.pi)) = true
    · have h' : lt (a - mod a (lit 2 * PyFloat.pi)) (lit 2 * PyFloat.pi) = true := h
      simp only [h, h', if_true]
      have := hfull (lit 2 * PyFloat.pi) 0 (by omega)
      simp only [List.replicate_zero] at this
      rw [this]
      simp only [h2]
      rfl
    · have h' : ¬ lt (a - mod a (lit 2 * PyFloat.pi)) (lit 2 * PyFloat.pi) = true := h
      simp only [h, h', Bool.false_eq_true, if_false]
      rw [hfull _ _ le_rfl]
      simp only [h2]
      rfl

theorem sign_line (n : ℕ) (xs : List α) (hx : xs.length = n) :
    signArrays (lineOf 0 n xs) = .ok (xs.map fun v => if ge v (lit 0) then lit 0 else PyFloat.pi) := by
  unfold signArrays lineOf
  simp only [List.replicate_zero, List.nil_append, List.prod_nil, if_true]
  cases xs with
  | nil => subst hx; rfl
  | cons x xs => subst hx; simp

theorem sign_matrix (k n : ℕ) (xs : List α) (hk : 0 < k) (hn : 2 ≤ n) :
    signArrays (lineOf k n xs) = .error (.valueError "The truth value of an array with more than one element is ambiguous.") := by
  obtain ⟨k, rfl⟩ : ∃ l, k = l + 1 := ⟨k - 1, by omega⟩
  unfold signArrays lineOf
  simp only [List.replicate_succ, List.cons_append, List.prod_append, List.prod_replicate, one_pow, one_mul, List.prod_singleton]
  rw [if_neg (by omega), if_neg (by omega), if_neg (by omega)]

/-- the constructor on lines, with durations that have further axes -/
theorem column_new {n : ℕ} {s : List ℕ} (hs : s.prod = 1) {t r a d : List α} (ht : t.length = n) (hr : r.length = n)
    (ha : a.length = n) (hd : d.length = n) (name : Option String) :
    NdControl.new ⟨n :: s, t⟩ (some (vec r)) (some (vec a)) (some (vec d)) name =
      (DrivenControl.new t (some r) (some a) (some d) name).map fun c =>
        ⟨vec c.rabiRates, vec c.azimuthalAngles, vec c.detunings, ⟨c.durations.length :: s, c.durations⟩, c.name⟩ := by
  rw [nd_new_eq, pyAll_line _ hs t ht]
  by_cases h1 : (t.all fun x => gt x (lit 0)) = true
  swap
  · rw [DrivenControl.new_eq, if_neg h1]
    rw [Bool.not_eq_true] at h1
    simp only [h1]
    rfl
  simp only [h1]
  have e2 : NdArray.size (⟨n :: s, t⟩ : NdArray α) = n := by simp [NdArray.size, hs]
  have e : ∀ l : List α, l.length = n → NdArray.size (vec l) = n := fun l hl => by simp [NdArray.size, vec, hl]
  rw [if_pos (by
      rw [beq_iff_eq, pySet_length_one (n := n)]
      · simp [e2, e r hr, e a ha, e d hd]
      · simp [e2])]
  have hv : NdArray.pyAll (fun x => ge x (lit 0)) (vec r) = .ok (r.all fun x => ge x (lit 0)) :=
    pyAll_line _ (s := []) rfl r rfl
  simp only [NdArray.len, Option.getD_some, hv]
  rw [DrivenControl.new_eq, if_pos h1, if_pos (by simp [hr, ht, ha, hd])]
  simp only [Option.getD_some]
  by_cases h3 : (r.all fun x => ge x (lit 0)) = true
  · rw [if_pos h3, h3, ← ht]; rfl
  · rw [if_neg h3]
    rw [Bool.not_eq_true] at h3
    rw [h3]; rfl

/-! ## Durations with several items -/

theorem broadcast_any_ones : ∀ (s : List ℕ) (k : ℕ),
    broadcast s (List.replicate k 1) = some (s ++ List.replicate (k - s.length) 1)
  | [], k => by simp [broadcast]
  | a :: s, 0 => by simp [broadcast]
  | a :: s, k + 1 => by
    rw [List.replicate_succ]
    simp only [broadcast]
    rw [broadcast_any_ones s k]
    by_cases h : a = 1 <;> simp [h]

theorem ravel_same : ∀ (s t : List ℕ) {m : ℕ}, m < s.prod → ravel s (unravel (s ++ t) m) = m
  | [], t, m, h => by
    simp at h
    subst h
    simp [ravel]
  | a :: s, t, m, h => by
    rw [List.prod_cons] at h
    simp only [List.cons_append, unravel, ravel]
    have ha : 0 < a := by
      rcases Nat.eq_zero_or_pos a with rfl | h'
      · simp at h
      · exact h'
    rw [ravel_same s t (Nat.div_lt_of_lt_mul h)]
    split
    · rename_i h1
      subst h1
      simp
    · exact Nat.mod_add_div m a

/-- comparison of any array with a number -/
theorem truthBoth_one (p : α → α → Bool) {a : NdArray α} (ha : Regular a) (k : ℕ) (y : α) :
    truthBoth p a (oneOf k y) = a.truth fun x => p x y := by
  unfold truthBoth oneOf
  simp only [List.reverse_replicate]
  rw [broadcast_any_ones]
  simp only [List.prod_append, List.prod_replicate, one_pow, mul_one]
  have key : ((List.range a.shape.reverse.prod).filterMap fun m =>
      (a.data[ravel a.shape.reverse (unravel (a.shape.reverse ++ List.replicate (k - a.shape.reverse.length) 1) m)]?).bind fun x =>
        (([y] : List α)[ravel (List.replicate k 1)
          (unravel (a.shape.reverse ++ List.replicate (k - a.shape.reverse.length) 1) m)]?).map fun y => p x y) =
      a.data.map fun x => p x y := by
    have hl : a.shape.reverse.prod = a.data.length := by rw [List.prod_reverse]; exact ha.symm
    have h1 : ((List.range a.data.length).filterMap fun m => (a.data[m]?).map fun x => p x y) = a.data.map fun x => p x y := by
      obtain ⟨h1, h2⟩ := filterMap_range (fun m => (a.data[m]?).map fun x => p x y) a.data.length fun m hm => by
        rw [List.getElem?_eq_getElem hm]; rfl
      refine List.ext_getElem? fun m => ?_
      by_cases hm : m < a.data.length
      · rw [h2 m hm, List.getElem?_map]
      · rw [List.getElem?_eq_none (by omega), List.getElem?_eq_none (by simp; omega)]
    rw [← h1, ← hl]
    refine List.filterMap_congr fun m hm => ?_
    rw [ravel_same _ _ (List.mem_range.mp hm), ravel_ones]
    cases a.data[m]? <;> rfl
  rw [key]
  unfold truth
  match a.data with
  | [] => rfl
  | [x] => rfl
  | x :: y :: r => rfl

/-! ## The function -/

/-- the shape of the segments -/
def gaussianAxes (jr j jf : ℕ) (f : α) : ℕ :=
  if ne f (lit 0) then max (j - 1) (max (jr - 1) (jf - 1)) else max (j - 1) (jr - 1)

/-- the segments of the function on numbers -/
def gaussianSegments (R T f : α) (n : ℕ) : Except PyErr (List α) :=
  if ne f (lit 0) then modulatedSegments R T f (gaussianMidpoints n (T / nat n)) (baseGaussian T (gaussianMidpoints n (T / nat n)))
  else unmodulatedSegments R (T / nat n) (baseGaussian T (gaussianMidpoints n (T / nat n)))

theorem gaussianSegments_length {R T f : α} {n : ℕ} {l : List α} (h : gaussianSegments R T f n = .ok l) : l.length = n := by
  unfold gaussianSegments modulatedSegments unmodulatedSegments at h
  split at h
  · dsimp only at h
    generalize hw : List.zipWith (fun g s : α => g * s) _ _ = w at h
    have hl : w.length = n := by rw [← hw]; simp [baseGaussian, gaussianMidpoints]
    cases hm : npAmax w with
    | error e => simp only [hm] at h; cases h
    | ok m => simp only [hm] at h; cases h; simpa using hl
  · generalize hw : baseGaussian T (gaussianMidpoints n (T / nat n)) = w at h
    have hl : w.length = n := by rw [← hw]; simp [baseGaussian, gaussianMidpoints]
    cases hm : npAmax w with
    | error e => simp only [hm] at h; cases h
    | ok m => simp only [hm] at h; cases h; simpa using hl

theorem gaussian_numbers (R m T f : α) : newModulatedGaussianControl R m T f = (do
    checkArguments (gt R (lit 0)) "Maximum Rabi rate must be greater than zero."
    checkArguments (gt m (lit 0)) "Minimum segment duration must be greater than zero."
    checkArguments (gt T m) "Total duration must be greater than minimum segment duration."
    checkArguments (ge R (sqrt (lit 2 * PyFloat.pi) / (lit (1 / 10) * T)))
      "Maximum Rabi rate must be large enough to permit a 2Pi rotation."
    let n ← pyCeil (T / m)
    let l ← gaussianSegments R T f n
    DrivenControl.new (List.replicate n (T / nat n)) (some (l.map PyFloat.abs))
      (some (l.map fun v => if ge v (lit 0) then lit 0 else PyFloat.pi)) (some (List.replicate n (lit 0))) none) := rfl

theorem gaussian_frequency (jr jm j : ℕ) (R m T : α) (f : NdArray α) :
    newModulatedGaussianArrays (oneOf jr R) (oneOf jm m) (oneOf j T) f = (do
    checkArguments (gt R (lit 0)) "Maximum Rabi rate must be greater than zero."
    checkArguments (gt m (lit 0)) "Minimum segment duration must be greater than zero."
    checkArguments (gt T m) "Total duration must be greater than minimum segment duration."
    checkArguments (ge R (sqrt (lit 2 * PyFloat.pi) / (lit (1 / 10) * T)))
      "Maximum Rabi rate must be large enough to permit a 2Pi rotation."
    let n ← pyCeil (T / m)
    let b ← f.truth fun x => ne x (lit 0)
    let l ← (if b then modulatedArrays (oneOf jr R) (oneOf j T) f (lineOf (j - 1) n (gaussianMidpoints n (T / nat n)))
        (lineOf (j - 1) n (baseGaussian T (gaussianMidpoints n (T / nat n))))
      else unmodulatedArrays (oneOf jr R) (oneOf j (T / nat n)) (lineOf (j - 1) n (baseGaussian T (gaussianMidpoints n (T / nat n)))))
    let a ← signArrays l
    NdControl.new ⟨n :: List.replicate j 1, List.replicate n (T / nat n)⟩ (some (un PyFloat.abs l)) (some (vec a))
      (some (vec (List.replicate n (lit 0)))) none) := by
  unfold newModulatedGaussianArrays
  have t : ∀ (p : α → Bool) (k : ℕ) (x : α), (oneOf k x).truth p = .ok (p x) := fun p k x => truth_single p rfl
  have e : ∀ {β : Type} (x : β) (k : β → Except PyErr (NdControl α)), ((Except.ok x : Except PyErr β) >>= k) = k x := fun _ _ => rfl
  simp only [t, e, truth_ones, un_one, bin_ones]
  have st : ∀ (k : ℕ) (x : α), (oneOf k x).stored = .ok x := fun _ _ => rfl
  simp only [st, e]
  congr 1; funext _
  congr 1; funext _
  congr 1; funext _
  congr 1; funext _
  congr 1; funext n
  rw [midpoint_one, e, base_line _ _ _ _ (by simp [gaussianMidpoints]), e]
  have hst : stack (oneOf j T).shape (List.replicate n (oneOf j (T / nat n)).data) =
      ⟨n :: List.replicate j 1, List.replicate n (T / nat n)⟩ := by
    simp only [stack, oneOf, List.length_replicate, NdArray.mk.injEq, true_and]
    exact List.flatten_replicate_singleton
  rw [hst]

theorem gaussian_ones (jr jm j jf : ℕ) (R m T f : α) :
    newModulatedGaussianArrays (oneOf jr R) (oneOf jm m) (oneOf j T) (oneOf jf f) = (do
    checkArguments (gt R (lit 0)) "Maximum Rabi rate must be greater than zero."
    checkArguments (gt m (lit 0)) "Minimum segment duration must be greater than zero."
    checkArguments (gt T m) "Total duration must be greater than minimum segment duration."
    checkArguments (ge R (sqrt (lit 2 * PyFloat.pi) / (lit (1 / 10) * T)))
      "Maximum Rabi rate must be large enough to permit a 2Pi rotation."
    let n ← pyCeil (T / m)
    let l ← gaussianSegments R T f n
    let a ← signArrays (lineOf (gaussianAxes jr j jf f) n l)
    NdControl.new ⟨n :: List.replicate j 1, List.replicate n (T / nat n)⟩
      (some (lineOf (gaussianAxes jr j jf f) n (l.map PyFloat.abs))) (some (vec a))
      (some (vec (List.replicate n (lit 0)))) none) := by
  rw [gaussian_frequency]
  congr 1; funext _
  congr 1; funext _
  congr 1; funext _
  congr 1; funext _
  congr 1; funext n
  have t : (oneOf jf f).truth (fun x => ne x (lit 0)) = .ok (ne f (lit 0)) := truth_single _ rfl
  have e : ∀ {β : Type} (x : β) (k : β → Except PyErr (NdControl α)), ((Except.ok x : Except PyErr β) >>= k) = k x := fun _ _ => rfl
  rw [t, e]
  unfold gaussianSegments gaussianAxes
  by_cases h : ne f (lit 0) = true
  · simp only [h, if_true]
    rw [modulated_line _ _ _ _ _ _ _ _ _ (by simp [gaussianMidpoints]) (by simp [gaussianMidpoints, baseGaussian])]
    cases modulatedSegments R T f _ _ <;> rfl
  · simp only [h]
    rw [unmodulated_line _ _ _ _ _ _ (by simp [gaussianMidpoints, baseGaussian])]
    cases unmodulatedSegments R _ _ <;> rfl

/-- a call with numbers that is accepted -/
theorem gaussian_accepted {R m T f : α} {c : DrivenControl α} (h : newModulatedGaussianControl R m T f = .ok c) :
    gt R (lit 0) = true ∧ gt m (lit 0) = true ∧ gt T m = true ∧
    ge R (sqrt (lit 2 * PyFloat.pi) / (lit (1 / 10) * T)) = true ∧ ∃ n l, pyCeil (T / m) = .ok n ∧
    gaussianSegments R T f n = .ok l ∧ c.durations = List.replicate n (T / nat n) ∧ c.Constructed := by
  rw [gaussian_numbers] at h
  simp only [checkArguments] at h
  by_cases h1 : gt R (lit 0) = true
  swap
  · simp only [h1] at h; cases h
  by_cases h2 : gt m (lit 0) = true
  swap
  · simp only [h1, h2] at h; cases h
  by_cases h3 : gt T m = true
  swap
  · simp only [h1, h2, h3] at h; cases h
  by_cases h4 : ge R (sqrt (lit 2 * PyFloat.pi) / (lit (1 / 10) * T)) = true
  swap
  · simp only [h1, h2, h3, h4] at h; cases h
  simp only [h1, h2, h3, h4] at h
  refine ⟨h1, h2, h3, h4, ?_⟩
  cases hn : pyCeil (T / m) with
  | error e => rw [hn] at h; cases h
  | ok n =>
    rw [hn] at h
    cases hl : gaussianSegments R T f n with
    | error e =>
      change (gaussianSegments R T f n >>= _) = _ at h
      rw [hl] at h; cases h
    | ok l =>
      change (gaussianSegments R T f n >>= _) = _ at h
      rw [hl] at h
      change DrivenControl.new _ _ _ _ _ = _ at h
      refine ⟨n, l, rfl, hl, ?_, _, _, _, _, _, h⟩
      rw [DrivenControl.new_eq] at h
      split at h
      · split at h
        · split at h
          · cases h; rfl
          · cases h
        · cases h
      · cases h

theorem gaussian_several (jr jm j : ℕ) (R m T : α) {f : NdArray α} (hf : 2 ≤ f.data.length) (c : NdControl α) :
    newModulatedGaussianArrays (oneOf jr R) (oneOf jm m) (oneOf j T) f ≠ .ok c := by
  rw [gaussian_frequency]
  simp only [checkArguments]
  rw [truth_several _ hf]
  cases gt R (lit 0)
  · exact fun h => nomatch h
  cases gt m (lit 0)
  · exact fun h => nomatch h
  cases gt T m
  · exact fun h => nomatch h
  cases ge R (sqrt (lit 2 * PyFloat.pi) / (lit (1 / 10) * T))
  · exact fun h => nomatch h
  cases pyCeil (T / m) with
  | error e => exact fun h => nomatch h
  | ok n => exact fun h => nomatch h

theorem gaussian_several_axes {jr jm j jf : ℕ} {R m T f : α} {c : NdControl α}
    (h : newModulatedGaussianArrays (oneOf jr R) (oneOf jm m) (oneOf j T) (oneOf jf f) = .ok c) (hK : 0 < gaussianAxes jr j jf f) :
    gt m (lit 0) = true ∧ gt T m = true ∧ ∃ n, pyCeil (T / m) = .ok n ∧ n < 2 := by
  rw [gaussian_ones] at h
  simp only [checkArguments] at h
  cases h1 : gt R (lit 0)
  · rw [h1] at h; cases h
  cases h2 : gt m (lit 0)
  · rw [h1, h2] at h; cases h
  cases h3 : gt T m
  · rw [h1, h2, h3] at h; cases h
  cases h4 : ge R (sqrt (lit 2 * PyFloat.pi) / (lit (1 / 10) * T))
  · rw [h1, h2, h3, h4] at h; cases h
  refine ⟨rfl, rfl, ?_⟩
  rw [h1, h2, h3, h4] at h
  cases hn : pyCeil (T / m) with
  | error e => rw [hn] at h; cases h
  | ok n =>
    rw [hn] at h
    refine ⟨n, rfl, ?_⟩
    by_contra hlt
    change (gaussianSegments R T f n >>= _) = _ at h
    cases hl : gaussianSegments R T f n with
    | error e => rw [hl] at h; cases h
    | ok l =>
      rw [hl] at h
      change (signArrays _ >>= _) = _ at h
      rw [sign_matrix _ n l hK (by omega)] at h
      cases h

end OpenControls
