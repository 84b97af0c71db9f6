import Verif.Proofs.LimitedConversion
import Verif.Proofs.RoundedFamilies
import Verif.Proofs.RoundedConcatenated
import Verif.Proofs.RoundedWalsh
import Verif.Proofs.RoundedQuadratic
import Verif.Spec.RoundedPipeline

/-!
# Predefined sequences with and without limits of the range of numbers: helper lemmas
-/

namespace OpenControls

open PyFloat Py Spec

variable {r : Rounding} {L : Limits r}

theorem same_seq_new {T' : Lim L} {T : Fl r} (hT : SameValue T' T) {o ra a d : List (Lim L)}
    {o' ra' a' d' : List (Fl r)} (ho : List.Forall₂ SameValue o o') (hr : List.Forall₂ SameValue ra ra')
    (ha : List.Forall₂ SameValue a a') (hd : List.Forall₂ SameValue d d') (name : Option String) :
    SameSequenceOutcome (Sequence.new T' o ra a d name) (Sequence.new T o' ra' a' d' name) := by
  rw [Sequence.new_eq, Sequence.new_eq]
  have e1 : (o.all fun t => Py.ge t (lit 0) && Py.ge T' t) = o'.all fun t => Py.ge t (lit 0) && Py.ge T t :=
    same_all (fun _ _ h => by rw [same_ge h same_zero, same_ge hT h]) ho
  rw [e1, same_gt hT same_zero, ho.length_eq, hr.length_eq, ha.length_eq, hd.length_eq]
  split
  · split
    · split
      · split
        · split
          · exact .inl ⟨_, _, rfl, rfl, hT, ho, hr, ha, hd, rfl⟩
          · exact .inr ⟨_, rfl, rfl⟩
        · exact .inr ⟨_, rfl, rfl⟩
      · exact .inr ⟨_, rfl, rfl⟩
    · exact .inr ⟨_, rfl, rfl⟩
  · exact .inr ⟨_, rfl, rfl⟩

theorem same_seq_step {x : Except PyErr (Sequence (Lim L))} {y : Except PyErr (Sequence (Fl r))} {b b' : Bool}
    (hb : b = b') (text : String) (h : b' = true → SameSequenceOutcome x y) :
    SameSequenceOutcome (checkArguments b text >>= fun _ => x) (checkArguments b' text >>= fun _ => y) := by
  rw [checkArguments_bind, checkArguments_bind, hb]
  split
  · exact h ‹_›
  · exact .inr ⟨_, rfl, rfl⟩

/-- the same pulses, without huge angles -/
structure SamePulses (p' : Pulses (Lim L)) (p : Pulses (Fl r)) : Prop where
  offsets : List.Forall₂ SameValue p'.offsets p.offsets
  rabi : List.Forall₂ (Bounded 220) p'.rabiRotations p.rabiRotations
  azimuthal : List.Forall₂ (Bounded 220) p'.azimuthalAngles p.azimuthalAngles
  detuning : List.Forall₂ (Bounded 220) p'.detuningRotations p.detuningRotations

theorem same_countPulses {p q s : Lim L → Bool} {p' q' s' : Fl r → Bool} (hp : ∀ a b, Bounded 220 a b → p a = p' b)
    (hq : ∀ a b, Bounded 220 a b → q a = q' b) (hs : ∀ a b, Bounded 220 a b → s a = s' b) {x y z : List (Lim L)}
    {x' y' z' : List (Fl r)} (hx : List.Forall₂ (Bounded 220) x x') (hy : List.Forall₂ (Bounded 220) y y')
    (hz : List.Forall₂ (Bounded 220) z z') : countPulses p q s x y z = countPulses p' q' s' x' y' z' := by
  induction hx generalizing y z y' z' with
  | nil => rfl
  | cons h1 _ ih =>
    cases hy with
    | nil => rfl
    | cons h2 hy =>
      cases hz with
      | nil => rfl
      | cons h3 hz => rw [countPulses, countPulses, hp _ _ h1, hq _ _ h2, hs _ _ h3, ih hy hz]

theorem sized_pi_half : Sized 5 (PyFloat.pi / lit 2 : Lim L) (PyFloat.pi / lit 2) := Sized.pi.div Sized.two (by norm_num)

theorem forall₂_append {A B : Type} {R : A → B → Prop} {a c : List A} {b d : List B} (h : List.Forall₂ R a b)
    (h' : List.Forall₂ R c d) : List.Forall₂ R (a ++ c) (b ++ d) := List.rel_append h h'

theorem forall₂_same {k : ℕ} {a : List (Lim L)} {b : List (Fl r)} (h : List.Forall₂ (Bounded k) a b) :
    List.Forall₂ SameValue a b := h.imp fun _ _ hab => hab.1

theorem same_finish {T' : Lim L} {T : Fl r} (hT : SameValue T' T) {p' : Pulses (Lim L)} {p : Pulses (Fl r)}
    (h : SamePulses p' p) (prePost : Bool) (name : Option String) :
    SameSequenceOutcome (finishSequence T' prePost name p') (finishSequence T prePost name p) := by
  have bpi : Bounded 220 (PyFloat.pi : Lim L) (PyFloat.pi : Fl r) := Sized.pi.bounded.mono (by norm_num)
  cases prePost with
  | false => exact same_seq_new hT h.offsets (forall₂_same h.rabi) (forall₂_same h.azimuthal) (forall₂_same h.detuning) name
  | true =>
    have e0 : ∀ (a : Lim L) (b : Fl r), Bounded 220 a b → isClose a (lit 0) = isClose b (lit 0) :=
      fun _ _ => same_isClose_zero
    have e1 : ∀ (a : Lim L) (b : Fl r), Bounded 220 a b → isClose a PyFloat.pi = isClose b PyFloat.pi :=
      fun _ _ hab => same_isClose_of hab (Sized.pi.zeroOr.mono (by norm_num))
    have e2 : ∀ (a : Lim L) (b : Fl r), Bounded 220 a b →
        isClose a (PyFloat.pi / lit 2) = isClose b (PyFloat.pi / lit 2) :=
      fun _ _ hab => same_isClose_of hab (sized_pi_half.zeroOr.mono (by norm_num))
    show SameSequenceOutcome (addPrePostRotations T' p' >>= _) (addPrePostRotations T p >>= _)
    unfold addPrePostRotations
    dsimp only
    rw [same_countPulses e1 e0 e0 h.rabi h.azimuthal h.detuning, same_countPulses e1 e2 e0 h.rabi h.azimuthal h.detuning,
      same_countPulses e0 e0 e1 h.rabi h.azimuthal h.detuning, h.offsets.length_eq]
    simp only [bind_assoc]
    refine same_seq_step rfl _ fun _ => ?_
    have hz : List.Forall₂ SameValue [(lit 0 : Lim L)] [(lit 0 : Fl r)] := .cons same_zero .nil
    have hh : List.Forall₂ SameValue [(PyFloat.pi / lit 2 : Lim L)] [(PyFloat.pi / lit 2 : Fl r)] :=
      .cons sized_pi_half.same .nil
    refine same_seq_new hT ?_ ?_ ?_ ?_ name
    · exact forall₂_append (forall₂_append hz h.offsets) (.cons hT .nil)
    · exact forall₂_append (forall₂_append hh (forall₂_same h.rabi)) hh
    · refine forall₂_append (forall₂_append hz (forall₂_same h.azimuthal)) (.cons ?_ .nil)
      split
      · exact same_pi
      · exact same_zero
    · exact forall₂_append (forall₂_append hz (forall₂_same h.detuning)) hz

theorem bounded_replicate {k : ℕ} {a : Lim L} {b : Fl r} (h : Bounded k a b) (n : ℕ) :
    List.Forall₂ (Bounded k) (List.replicate n a) (List.replicate n b) := by
  induction n with
  | zero => exact .nil
  | succ n ih => exact .cons h ih

theorem bounded_pi {k : ℕ} (hk : 2 ≤ k) : Bounded k (PyFloat.pi : Lim L) (PyFloat.pi : Fl r) := Sized.pi.bounded.mono hk

theorem same_uniform {o' : List (Lim L)} {o : List (Fl r)} (h : List.Forall₂ SameValue o' o) {a' : Lim L} {a : Fl r}
    (ha : Bounded 220 a' a) : SamePulses (uniformPulses o' a') (uniformPulses o a) := by
  refine ⟨h, ?_, ?_, ?_⟩ <;> simp only [uniformPulses] <;> rw [h.length_eq]
  · exact bounded_replicate (bounded_pi (by norm_num)) _
  · exact bounded_replicate ha _
  · exact bounded_replicate Bounded.zero _

theorem same_pyInt {a : Lim L} {b : Fl r} (h : SameValue a b) : pyInt a = pyInt b := by
  have : toInt a = toInt b := by
    show toInt a.val = toInt b
    rw [h]; rfl
  unfold pyInt
  rw [this]

/-- the checks of a constructor with a number of offsets -/
theorem same_counted {T' n' : Lim L} {T n : Fl r} (hT : SameValue T' T) (hn : SameValue n' n) (message : String)
    {f' : ℕ → Except PyErr (Sequence (Lim L))} {f : ℕ → Except PyErr (Sequence (Fl r))}
    (h : 0 < T.val → 1 ≤ n.val → SameSequenceOutcome (f' ⌊n.val⌋₊) (f ⌊n.val⌋₊)) :
    SameSequenceOutcome
      (do checkDuration T'
          checkArguments (Py.ge n' (lit 1)) message
          let k ← pyInt n'
          f' k)
      (do checkDuration T
          checkArguments (Py.ge n (lit 1)) message
          let k ← pyInt n
          f k) := by
  have hone : SameValue (lit 1 : Lim L) (lit 1) := same_lit (by norm_num) (by norm_num)
  refine same_seq_step (same_gt hT same_zero) _ fun h1 => ?_
  refine same_seq_step (same_ge hn hone) _ fun h2 => ?_
  rw [Fl.gt_iff, Fl.val_lit_zero] at h1
  rw [Fl.ge_iff, val_lit_one] at h2
  rw [same_pyInt hn, pyInt_rounded (by linarith)]
  exact h h1 h2

theorem sized_one : Sized 1 (lit 1 : Lim L) (lit 1 : Fl r) := Sized.lit (k := 0) (by norm_num) (by norm_num) (by norm_num)

theorem sized_nat {n k : ℕ} (h0 : 1 ≤ n) (h : n ≤ 2 ^ k) (hk : k + 1 ≤ 249) :
    Sized (k + 1) (Py.nat n : Lim L) (Py.nat n : Fl r) := by
  have h0' : (1 : ℝ) ≤ n := by exact_mod_cast h0
  have h' : (n : ℝ) ≤ 2 ^ k := by exact_mod_cast h
  refine Sized.lit ?_ ?_ hk
  · rw [Rat.cast_natCast, abs_of_nonneg (by linarith)]
    refine le_trans ?_ h0'
    rw [div_le_one (by positivity)]
    exact one_le_pow₀ (by norm_num)
  · rw [Rat.cast_natCast, abs_of_nonneg (by linarith)]
    exact h'

theorem zeroOr_nat {n k : ℕ} (h : n ≤ 2 ^ k) (hk : k + 1 ≤ 249) :
    ZeroOrSized (k + 1) (Py.nat n : Lim L) (Py.nat n : Fl r) := by
  rcases Nat.eq_zero_or_pos n with rfl | h0
  · have e : (Py.nat 0 : Fl r).val = 0 := by simp [Py.nat]
    refine ⟨?_, .inl e, by rw [e, abs_zero]; positivity⟩
    exact same_lit (by simp) (by simp)
  · exact (sized_nat h0 h hk).zeroOr

theorem forall₂_map_range {A B : Type} {R : A → B → Prop} {f : ℕ → A} {g : ℕ → B} (l : List ℕ)
    (h : ∀ i ∈ l, R (f i) (g i)) : List.Forall₂ R (l.map f) (l.map g) := by
  induction l with
  | nil => exact .nil
  | cons i l ih => exact .cons (h i (by simp)) (ih fun j hj => h j (List.mem_cons_of_mem _ hj))

theorem Fl.mul_nonneg' {a b : Fl r} (ha : 0 ≤ a.val) (hb : 0 ≤ b.val) : 0 ≤ (a * b).val := by
  have := r.mono (mul_nonneg ha hb)
  rwa [r.rnd_zero] at this

theorem Fl.div_nonneg' {a b : Fl r} (ha : 0 ≤ a.val) (hb : 0 ≤ b.val) : 0 ≤ (a / b).val := by
  have := r.mono (div_nonneg ha hb)
  rwa [r.rnd_zero] at this

theorem Fl.nat_nonneg (n : ℕ) : 0 ≤ (Py.nat n : Fl r).val := by
  have : (0 : ℝ) ≤ n := by positivity
  have := r.mono this
  rw [r.rnd_zero] at this
  simpa [Py.nat] using this

/-- a sum of non-negative numbers, the second of which is not small -/
theorem Sized.add_of {k : ℕ} {a a' : Lim L} {b b' : Fl r} (h : Bounded k a b) (h' : Sized k a' b') (h0 : 0 ≤ b.val)
    (h0' : 0 ≤ b'.val) (hk : k + 2 ≤ 249) : Sized (k + 2) (a + a') (b + b') := by
  have hb := h.add h'.bounded (by omega)
  refine ⟨hb.1, ?_, hb.2⟩
  have hle : b'.val ≤ (b + b').val := by
    rw [Fl.val_add]
    conv_lhs => rw [← b'.rnd_val]
    exact r.mono (by linarith)
  have hlo := (h'.mono (k := k + 2) (by omega)).lo
  rw [abs_of_nonneg h0'] at hlo
  rw [abs_of_nonneg (h0'.trans hle)]
  exact hlo.trans hle

theorem same_cpmg {T' : Lim L} {T : Fl r} (hT : Sized 100 T' T) {n : ℕ} (h : n ≤ 2 ^ 56) :
    List.Forall₂ SameValue (cpmgOffsets T' n) (cpmgOffsets T n) := by
  unfold cpmgOffsets
  refine forall₂_map_range _ fun i hi => ?_
  have hi' : i < n := List.mem_range.mp hi
  have q : Sized 2 (lit (1 / 2) : Lim L) (lit (1 / 2) : Fl r) := Sized.lit (by norm_num) (by norm_num) (by norm_num)
  have h1 : Sized 59 (lit 1 / Py.nat n : Lim L) (lit 1 / Py.nat n : Fl r) :=
    sized_one.div (sized_nat (by omega) h (by norm_num)) (by norm_num)
  have h2 : Sized 62 _ _ := h1.mul q (by norm_num)
  have h3 : ZeroOrSized 117 _ _ := ZeroOrSized.mul h1 (zeroOr_nat (k := 56) (by omega : i ≤ 2 ^ 56) (by norm_num)) (by norm_num)
  have n1 : 0 ≤ (lit 1 / Py.nat n : Fl r).val := Fl.div_nonneg' (by rw [val_lit_one]; norm_num) (Fl.nat_nonneg n)
  have n2 : 0 ≤ (lit (1 / 2) : Fl r).val := by
    have := r.mono (show (0 : ℝ) ≤ ((1 / 2 : Rat) : ℝ) by norm_num)
    rwa [r.rnd_zero] at this
  have h4 := Sized.add_of h3.bounded (h2.mono (k := 117) (by norm_num)) (Fl.mul_nonneg' n1 (Fl.nat_nonneg i))
    (Fl.mul_nonneg' n1 n2) (by norm_num)
  exact (h4.mul hT (by norm_num)).same

theorem same_periodic {T' : Lim L} {T : Fl r} (hT : Sized 100 T' T) {n : ℕ} (h : n + 1 ≤ 2 ^ 56) :
    List.Forall₂ SameValue (periodicOffsets T' n) (periodicOffsets T n) := by
  unfold periodicOffsets
  refine forall₂_map_range _ fun i hi => ?_
  have hi' := List.mem_range'_1.mp hi
  have h1 : Sized 59 (lit 1 / Py.nat (n + 1) : Lim L) (lit 1 / Py.nat (n + 1) : Fl r) :=
    sized_one.div (sized_nat (by omega) h (by norm_num)) (by norm_num)
  have h2 := (sized_nat (r := r) (L := L) (k := 56) hi'.1 (by omega) (by norm_num)).mul h1 (by norm_num)
  exact (hT.mul h2 (by norm_num)).same

theorem sin_large {x : ℝ} (h0 : 0 ≤ x) (h : x ≤ 2) : x / 4 ≤ Real.sin x := by
  have hp := Real.pi_gt_three
  have hp' := Real.pi_lt_d2
  have key : ∀ y, 0 ≤ y → y ≤ Real.pi / 2 → y / 2 ≤ Real.sin y := by
    intro y hy hy'
    refine le_trans ?_ (Real.mul_le_sin hy hy')
    have : 1 / 2 ≤ 2 / Real.pi := by rw [div_le_div_iff₀ (by norm_num) Real.pi_pos]; linarith
    nlinarith
  rcases le_total x (Real.pi / 2) with h1 | h1
  · exact le_trans (by linarith) (key x h0 h1)
  · rw [← Real.sin_pi_sub]
    exact le_trans (by linarith) (key _ (by linarith) (by linarith))

/-- the square of the sine in an Uhrig time -/
theorem sized_uhrig {n i : ℕ} (h1 : 1 ≤ i) (h2 : i ≤ n) (hn : 24 * (n + 1 : ℕ) * r.u ≤ 1) (hn' : n + 1 ≤ 2 ^ 27) :
    Sized 63 (PyFloat.sin (PyFloat.pi * Py.nat i * (lit 1 / Py.nat (2 * n + 2))) *
      PyFloat.sin (PyFloat.pi * Py.nat i * (lit 1 / Py.nat (2 * n + 2))) : Lim L)
      (PyFloat.sin (PyFloat.pi * Py.nat i * (lit 1 / Py.nat (2 * n + 2))) *
      PyFloat.sin (PyFloat.pi * Py.nat i * (lit 1 / Py.nat (2 * n + 2))) : Fl r) := by
  have hc : Sized 31 (lit 1 / Py.nat (2 * n + 2) : Lim L) (lit 1 / Py.nat (2 * n + 2) : Fl r) :=
    sized_one.div (sized_nat (k := 28) (by omega) (by omega) (by norm_num)) (by norm_num)
  have hi : Sized 31 (PyFloat.pi * Py.nat i : Lim L) (PyFloat.pi * Py.nat i : Fl r) :=
    Sized.pi.mul (sized_nat (k := 27) h1 (by omega) (by norm_num)) (by norm_num)
  have ha := hi.mul hc (by norm_num)
  set y : Fl r := PyFloat.pi * Py.nat i * (lit 1 / Py.nat (2 * n + 2)) with hy
  have hu := r.u_nonneg
  have hn0 : (0 : ℝ) ≤ n := by positivity
  have h1' : (1 : ℝ) ≤ i := by exact_mod_cast h1
  have h2' : (i : ℝ) ≤ n := by exact_mod_cast h2
  have hN : (n : ℝ) + 1 ≤ 2 ^ 27 := by exact_mod_cast hn'
  push_cast at hn
  have h2n : ((2 * n + 2 : ℕ) : ℝ) * r.u ≤ 1 := by
    push_cast
    nlinarith [mul_nonneg hn0 hu]
  have hiu : (i : ℝ) * r.u ≤ 1 := by nlinarith [mul_nonneg hn0 hu]
  have e : y.val = r.rnd (r.rnd (r.rnd Real.pi * i) * r.rnd (1 / ((2 * n + 2 : ℕ) : ℝ))) := by
    rw [hy]
    simp only [Fl.val_mul, Fl.val_pi, Fl.val_div, val_nat h2n, val_nat hiu, val_lit_one]
  have e3 := ((((Rel.of_rnd (r := r) Real.pi).mul (Rel.refl (i : ℝ))).rnd).mul
    (Rel.of_rnd (r := r) (1 / ((2 * n + 2 : ℕ) : ℝ)))).rnd
  rw [← e] at e3
  have e5 : Real.pi * i * (1 / ((2 * n + 2 : ℕ) : ℝ)) = i * Real.pi / (2 * (n + 1)) := by
    push_cast; field_simp
  rw [e5] at e3
  have hp := Real.pi_gt_three
  have hp' := Real.pi_lt_d2
  have hc' := (e3.mono (show _ ≤ (4 : ℝ) by norm_num)).close (by have := r.w_le; have := r.u_small.2; linarith)
  have hx0 : 0 < (i : ℝ) * Real.pi / (2 * (n + 1)) := by positivity
  have hx1 : (i : ℝ) * Real.pi / (2 * (n + 1)) ≤ 16 / 10 := by
    rw [div_le_iff₀ (by positivity)]
    nlinarith
  have hx2 : 1 / 2 ^ 27 ≤ (i : ℝ) * Real.pi / (2 * (n + 1)) := by
    rw [div_le_div_iff₀ (by positivity) (by positivity)]
    nlinarith
  rw [abs_of_pos hx0] at hc'
  have hw : 2 * (4 * r.w) ≤ 1 / 10 := by have := r.w_le; have := r.u_small.2; linarith
  have hb := abs_le.mp (hc'.trans (mul_le_mul_of_nonneg_right hw hx0.le))
  have y1 : 1 / 2 ^ 28 ≤ y.val := by
    have : (1 : ℝ) / 2 ^ 27 = 2 * (1 / 2 ^ 28) := by norm_num
    linarith
  have y2 : y.val ≤ 2 := by linarith
  have hs := sin_large (le_trans (by positivity) y1) y2
  have s : Sized 31 _ _ := Sized.sin (k := 30) ha.same (by norm_num) (by
    rw [abs_of_nonneg (le_trans (by positivity) ((div_le_div_of_nonneg_right y1 (by norm_num)).trans hs))]
    refine le_trans (le_of_eq ?_) ((div_le_div_of_nonneg_right y1 (by norm_num)).trans hs)
    norm_num)
  exact s.mul s (by norm_num)

theorem same_uhrig {T' : Lim L} {T : Fl r} {k : ℕ} (hT : Sized k T' T) (hk : k ≤ 180) {n : ℕ}
    (hn : 24 * (n + 1 : ℕ) * r.u ≤ 1) (hn' : n + 1 ≤ 2 ^ 27) :
    List.Forall₂ (Sized (k + 64)) (uhrigOffsets T' n) (uhrigOffsets T n) := by
  unfold uhrigOffsets
  refine forall₂_map_range _ fun i hi => ?_
  have hi' := List.mem_range'_1.mp hi
  exact hT.mul (sized_uhrig hi'.1 (by omega) hn hn') (by omega)

/-! ## Concatenated -/

/-- `k` units added one after the other, with limits -/
noncomputable def limStep (U : Lim L) : ℕ → Lim L
  | 0 => lit 0
  | k + 1 => limStep U k + U

theorem Lim.zero_val : (lit 0 : Lim L).val = .fin 0 := by
  have := same_zero (r := r) (L := L)
  unfold SameValue at this
  rwa [Fl.val_lit_zero] at this

theorem lim_lim {x : Lim L} : L.lim x.val = x.val := by
  obtain ⟨x, hx⟩ := x
  show L.lim x = x
  cases x with
  | fin x =>
    obtain ⟨h1, h2⟩ := hx
    have := abs_le.mp h2
    unfold Limits.lim
    dsimp only
    rw [h1, if_neg (by linarith), if_neg (by linarith)]
  | inf => rfl
  | negInf => rfl
  | nan => rfl

theorem lim_add_zero {x y : Lim L} (hy : y.val = .fin 0) : x + y = x := by
  apply Lim.ext
  show L.lim (x.val + y.val) = x.val
  have : x.val + y.val = x.val := by
    rw [hy]
    cases x.val with
    | fin x => show XR.fin (x + 0) = XR.fin x; rw [add_zero]
    | inf => rfl
    | negInf => rfl
    | nan => rfl
  rw [this, lim_lim]

theorem limStep_add (U : Lim L) (f : ℕ → Lim L) (h0 : (f 0).val = .fin 0) (h1 : f 1 = U) (a c : ℕ) (hc : c ≤ 1) :
    limStep U a + f c = limStep U (a + c) := by
  interval_cases c
  · exact lim_add_zero h0
  · rw [h1]; rfl

theorem npCumsum_limStep {U' : Lim L} {U : Fl r} (hU : Bounded 220 U' U) (f : ℕ → Lim L) (h0 : (f 0).val = .fin 0)
    (h1 : f 1 = U') (l : List ℕ) (hl : ∀ c ∈ l, c ≤ 1) : npCumsum (l.map f) = (cumsumFrom 0 l).map (limStep U') := by
  cases l with
  | nil => rfl
  | cons x l =>
    have hx : f x = limStep U' x := by
      have := hl x (by simp)
      interval_cases x
      · apply Lim.ext; rw [h0]; exact Lim.zero_val.symm
      · rw [h1]
        apply Lim.ext
        show U'.val = L.lim ((lit 0 : Lim L).val + U'.val)
        rw [Lim.zero_val, hU.1]
        have : XR.fin 0 + XR.fin U.val = XR.fin U.val := by show XR.fin (0 + U.val) = _; rw [zero_add]
        rw [this, ← show U'.val = XR.fin U.val from hU.1, lim_lim]
    simp only [List.map_cons, npCumsum, cumsumFrom, zero_add]
    rw [hx, cumsumFrom_units f (limStep_add U' f h0 h1) x l fun c hc => hl c (by simp [hc])]

theorem same_limStep {U' : Lim L} {U : Fl r} (hU : Bounded 100 U' U) (h0 : 0 ≤ U.val) {N k : ℕ} (hk : k ≤ N)
    (hN : 7 * (N : ℝ) ^ 2 * r.u ≤ 1) (hN' : N ≤ 2 ^ 30) : SameValue (limStep U' k) (stepSum U k) := by
  induction k with
  | zero => exact same_zero
  | succ k ih =>
    have ih := ih (by omega)
    refine same_add ih hU.1 ?_
    have hc := stepSum_close h0 (show k ≤ N by omega) hN
    have hb := hU.2
    rw [abs_of_nonneg h0] at hb
    have hN0 : (0 : ℝ) ≤ N := by positivity
    have hk' : (k : ℝ) ≤ N := by exact_mod_cast (by omega : k ≤ N)
    have hNN : (N : ℝ) ≤ 2 ^ 30 := by exact_mod_cast hN'
    have hu := r.u_nonneg
    have h1 : 3 * (N : ℝ) * r.u ≤ 2 ^ 30 := by
      have := r.u_small.2
      nlinarith
    have h2 : (N : ℝ) * U.val ≤ 2 ^ 30 * 2 ^ 100 := mul_le_mul hNN hb h0 (by positivity)
    have h2' : (k : ℝ) * U.val ≤ 2 ^ 30 * 2 ^ 100 := mul_le_mul (hk'.trans hNN) hb h0 (by positivity)
    have h3 : 3 * (N : ℝ) * r.u * (N * U.val) ≤ 2 ^ 30 * (2 ^ 30 * 2 ^ 100) :=
      mul_le_mul h1 h2 (by positivity) (by positivity)
    have h4 : 0 ≤ (k : ℝ) * U.val := by positivity
    have := abs_le.mp (hc.trans h3)
    rw [abs_le]
    norm_num at this h2' hb ⊢
    constructor <;> linarith

theorem limStep_embeds {U' : Lim L} {U : Fl r} (hU : Bounded 100 U' U) (h0 : 0 < U.val) {N : ℕ}
    (hN : 7 * (N : ℝ) ^ 2 * r.u ≤ 1) (hN' : N ≤ 2 ^ 30) : Embeds N (limStep U') := by
  intro a b ha hb
  have h := stepSum_embeds h0 hN a b ha hb
  have ea := same_limStep hU h0.le ha hN hN'
  have eb := same_limStep hU h0.le hb hN hN'
  rw [← h.1, ← h.2]
  refine ⟨same_lt ea eb, ?_⟩
  have := same_ne ea eb
  unfold Py.ne at this
  exact Bool.not_inj this

theorem lim_one_mul {U' : Lim L} {U : Fl r} (hU : SameValue U' U) : (lit 1 : Lim L) * U' = U' := by
  apply Lim.ext
  show L.lim ((lit 1 : Lim L).val * U'.val) = U'.val
  have h1 : (lit 1 : Lim L).val = .fin 1 := by
    have := sized_one.same (r := r) (L := L)
    unfold SameValue at this
    rwa [val_lit_one] at this
  rw [h1, hU]
  have : XR.fin 1 * XR.fin U.val = XR.fin U.val := by show XR.fin (1 * U.val) = _; rw [one_mul]
  rw [this, ← show U'.val = XR.fin U.val from hU, lim_lim]

theorem lim_zero_mul {U' : Lim L} {U : Fl r} (hU : SameValue U' U) : ((lit 0 : Lim L) * U').val = .fin 0 := by
  show L.lim ((lit 0 : Lim L).val * U'.val) = .fin 0
  rw [Lim.zero_val, hU]
  have : XR.fin 0 * XR.fin U.val = XR.fin 0 := by show XR.fin (0 * U.val) = _; rw [zero_mul]
  rw [this, ← Lim.zero_val (L := L), lim_lim]

/-- one unit of a concatenated sequence -/
theorem sized_unit {T' : Lim L} {T : Fl r} (hT : Sized 100 T' T) {k : ℕ} (hk : k ≤ 60) :
    Bounded 100 (T' / Py.nat (2 ^ k)) (T / Py.nat (2 ^ k)) := by
  have h : Sized 61 (Py.nat (2 ^ k) : Lim L) (Py.nat (2 ^ k) : Fl r) :=
    sized_nat (k := 60) Nat.one_le_two_pow (Nat.pow_le_pow_right (by norm_num) hk) (by norm_num)
  refine ⟨(hT.div h (by norm_num)).same, ?_⟩
  rw [unit_exact, abs_div, abs_of_nonneg (show (0 : ℝ) ≤ 2 ^ k by positivity)]
  exact (div_le_self (abs_nonneg _) (one_le_pow₀ (by norm_num))).trans hT.hi

theorem same_x {T' : Lim L} {T : Fl r} (hT : Sized 100 T' T) (h0 : 0 < T.val) {l : ℕ} (hl : l ≠ 0)
    (hN : 7 * ((2 ^ l : ℕ) : ℝ) ^ 2 * r.u ≤ 1) (hl' : l ≤ 30) :
    List.Forall₂ SameValue (xConcatenatedOffsets T' l) (xConcatenatedOffsets T l) := by
  have hU := sized_unit hT (k := l) (by omega)
  have hU0 : 0 < (T / Py.nat (2 ^ l) : Fl r).val := by rw [unit_exact]; positivity
  have hN' : 2 ^ l ≤ 2 ^ 30 := Nat.pow_le_pow_right (by norm_num) hl'
  have e : xConcatenatedOffsets T' l = (xPositions l).map (limStep (T' / Py.nat (2 ^ l))) := by
    unfold xConcatenatedOffsets xPositions
    simp only
    rw [npCumsum_limStep (hU.mono (by norm_num)) (fun c => Py.nat c * (T' / Py.nat (2 ^ l))) ?_ ?_ _
      (concatenationX_le_one l), evenlyRepeated_embeds (limStep_embeds hU hU0 hN hN') (concatenationX_cumsum_le hl)]
    · split
      · rw [List.map_dropLast]
      · rfl
    · have := lim_zero_mul hU.1
      simpa [Py.nat] using this
    · have := lim_one_mul hU.1
      simpa [Py.nat] using this
  rw [e, xOffsets_rounded h0 hl hN]
  exact forall₂_map_range _ fun k hk => same_limStep hU hU0.le (xPositions_bounds hl k hk).2.le hN hN'

theorem bounded_angleOf (c : ℕ) : Bounded 220 (angleOf c : Lim L) (angleOf c : Fl r) := by
  match c with
  | 0 => exact Bounded.zero
  | 1 => exact bounded_pi (by norm_num)
  | c + 2 => exact sized_pi_half.bounded.mono (by norm_num)

theorem same_xy {T' : Lim L} {T : Fl r} (hT : Sized 100 T' T) (h0 : 0 < T.val) (n : ℕ)
    (hN : 7 * ((4 ^ (n + 1) : ℕ) : ℝ) ^ 2 * r.u ≤ 1) (hn : n + 1 ≤ 15) :
    SamePulses (xyConcatenatedPulses T' (n + 1)) (xyConcatenatedPulses T (n + 1)) := by
  have hU := sized_unit hT (k := (n + 1) * 2) (by omega)
  have hU0 : 0 < (T / Py.nat (2 ^ ((n + 1) * 2)) : Fl r).val := by rw [unit_exact]; positivity
  have hN' : 4 ^ (n + 1) ≤ 2 ^ 30 := by
    have : 4 ^ (n + 1) ≤ 4 ^ 15 := Nat.pow_le_pow_right (by norm_num) hn
    norm_num at this ⊢
    exact this
  have e : xyConcatenatedPulses T' (n + 1) = (xyPositions (n + 1)).image (limStep (T' / Py.nat (2 ^ ((n + 1) * 2)))) := by
    apply xyPulses_image (limStep_embeds hU hU0 hN hN') rfl
    intro op other other' _
    unfold xyOffsetsOf unitTimes
    simp only
    rw [← npCumsum_limStep (hU.mono (by norm_num)) (fun c => Py.nat c * (T' / Py.nat (2 ^ ((n + 1) * 2)))), List.map_map]
    · congr 2
      apply List.map_congr_left
      intro c _
      simp only [Function.comp_apply]
      split <;> simp [Py.nat]
    · have := lim_zero_mul hU.1
      simpa [Py.nat] using this
    · have := lim_one_mul hU.1
      simpa [Py.nat] using this
    · intro c hc
      obtain ⟨x, -, rfl⟩ := List.mem_map.mp hc
      split <;> omega
  rw [e, xyPulses_rounded h0 n hN]
  obtain ⟨l, h1, -, h3, -⟩ := xyPositions_table h0 n
  refine ⟨?_, ?_, ?_, ?_⟩
  · show List.Forall₂ SameValue ((xyPositions (n + 1)).offsets.map _) ((xyPositions (n + 1)).offsets.map _)
    refine forall₂_map_range _ fun k hk => ?_
    rw [← h1] at hk
    obtain ⟨p, hp, rfl⟩ := List.mem_map.mp hk
    exact same_limStep hU hU0.le (h3 p hp).2 hN hN'
  · exact forall₂_map_range _ fun k _ => bounded_angleOf k
  · exact forall₂_map_range _ fun k _ => bounded_angleOf k
  · exact forall₂_map_range _ fun k _ => bounded_angleOf k

/-! ## Walsh -/

theorem same_sign {a : Lim L} {b : Fl r} (h : SameValue a b) : SameValue (PyFloat.sign a) (PyFloat.sign b) := by
  unfold SameValue
  show L.lim (PyFloat.sign a.val) = .fin (r.rnd (Real.sign b.val))
  rw [h]
  show L.lim (.fin (Real.sign b.val)) = _
  have hs : Real.sign b.val = 0 ∨ |Real.sign b.val| = 1 := by
    rcases Real.sign_apply_eq b.val with e | e | e <;> rw [e] <;> simp
  refine L.lim_moderate ?_ ?_
  · rcases hs with e | e
    · exact .inl e
    · right; rw [e]; rw [div_le_one (by positivity)]; exact one_le_pow₀ (by norm_num)
  · rcases hs with e | e
    · rw [e]; simp
    · rw [e]; exact one_le_pow₀ (by norm_num)

theorem same_hammingWeight {k : ℕ} (hk : k ≠ 0) (hk' : k ≤ 2000) :
    walshHammingWeight (Lim L) k = walshHammingWeight (Fl r) k := by
  have h1 : 1 ≤ k := by omega
  have hn := (sized_nat (r := r) (L := L) (k := 11) h1 (by omega) (by norm_num)).same
  have hv : (Py.nat k : Fl r).val = k := val_nat' (by omega)
  have hk1 : (1 : ℝ) ≤ k := by exact_mod_cast h1
  have hk2 : (k : ℝ) ≤ 2000 := by exact_mod_cast hk'
  have : SameValue (PyFloat.log2 (Py.nat k) : Lim L) (PyFloat.log2 (Py.nat k) : Fl r) := by
    unfold SameValue
    have e : (PyFloat.log2 (Py.nat k) : Lim L).val = L.lim (.fin (r.log2.f (Py.nat k : Fl r).val)) := by
      show L.lim (match (Py.nat k : Lim L).val with
        | .fin x => open Classical in if 0 < x then .fin (r.log2.f x) else PyFloat.log2 (XR.fin x)
        | x => PyFloat.log2 x) = _
      rw [hn]
      dsimp only
      rw [if_pos (by rw [hv]; linarith)]
    rw [e]
    have hc := r.log2.close (Py.nat k : Fl r).val
    rw [Fl.val_log2]
    rw [hv] at hc ⊢
    have hl0 : 0 ≤ Real.logb 2 k := Real.logb_nonneg (by norm_num) hk1
    have hl1 : Real.logb 2 k ≤ 11 := by
      rw [Real.logb_le_iff_le_rpow (by norm_num) (by linarith)]
      norm_num
      linarith
    have hu := r.u_small.2
    have hu0 := r.u_nonneg
    rw [abs_of_nonneg hl0] at hc
    have hb := abs_le.mp hc
    refine same_rep (r.log2.representable _) ?_ ?_
    · rcases Nat.lt_or_ge k 2 with h | h
      · left
        have : k = 1 := by omega
        subst this
        simp at hc
        simpa using hc
      · right
        have hk3 : (2 : ℝ) ≤ k := by exact_mod_cast h
        have hl2 : 1 ≤ Real.logb 2 k := by
          rw [Real.le_logb_iff_rpow_le (by norm_num) (by linarith)]
          simpa using hk3
        have : 1 / 2 ≤ r.log2.f k := by nlinarith
        rw [abs_of_nonneg (by linarith)]
        refine le_trans ?_ this
        norm_num
    · rw [abs_le]
      norm_num
      constructor <;> nlinarith
  unfold walshHammingWeight
  rw [same_pyInt this]

theorem same_relativeOffsets {m : ℕ} (hm : m ≤ 11) :
    ∃ l' : List (Lim L), walshRelativeOffsets (2 ^ m) = .ok l' ∧
      List.Forall₂ SameValue l' ((List.range (2 ^ m)).map fun i : ℕ => Fl.round r ((2 * i + 1 : ℕ) / 2 ^ (m + 1))) := by
  have hN : 2 ^ m ≤ 2 ^ 11 := Nat.pow_le_pow_right (by norm_num) hm
  have h0 : 1 ≤ 2 ^ m := Nat.one_le_two_pow
  have s1 : Sized 15 (lit 1 / Py.nat (2 * 2 ^ m) : Lim L) (lit 1 / Py.nat (2 * 2 ^ m) : Fl r) :=
    sized_one.div (sized_nat (k := 12) (by omega) (by omega) (by norm_num)) (by norm_num)
  have s2 : Sized 14 (lit 1 / Py.nat (2 ^ m) : Lim L) (lit 1 / Py.nat (2 ^ m) : Fl r) :=
    sized_one.div (sized_nat (k := 11) (by omega) (by omega) (by norm_num)) (by norm_num)
  have v1 : (lit 1 / Py.nat (2 * 2 ^ m) : Fl r).val ≤ 1 / 2 := by
    rw [Fl.val_div, val_lit_one, val_nat' (by omega)]
    have h1 : (1 : ℝ) / (2 * 2 ^ m : ℕ) ≤ 1 / 2 := by
      apply one_div_le_one_div_of_le (by norm_num)
      push_cast
      have : (1 : ℝ) ≤ 2 ^ m := one_le_pow₀ (by norm_num)
      linarith
    refine (r.mono h1).trans (le_of_eq ?_)
    rw [r.half, r.rnd_one]
  have v0 : 0 ≤ (lit 1 / Py.nat (2 * 2 ^ m) : Fl r).val :=
    Fl.div_nonneg' (by rw [val_lit_one]; norm_num) (Fl.nat_nonneg _)
  have s3 : Sized 17 (lit 1 - lit 1 / Py.nat (2 * 2 ^ m) : Lim L) (lit 1 - lit 1 / Py.nat (2 * 2 ^ m) : Fl r) := by
    have hb := (sized_one.bounded.mono (show 1 ≤ 15 by norm_num)).sub s1.bounded (by norm_num)
    refine ⟨hb.1, ?_, hb.2⟩
    rw [Fl.val_sub]
    refine le_trans ?_ rnd_half_le
    rw [val_lit_one, abs_of_nonneg (by linarith)]
    have : (1 : ℝ) / 2 ^ 17 ≤ 1 / 4 := by norm_num
    linarith
  have s4 := (s3.div s2 (by norm_num)).same
  have e := walshRelativeOffsets_rounded (r := r) hm
  unfold walshRelativeOffsets npArange at e ⊢
  have ec : pyCeil ((lit 1 - lit 1 / Py.nat (2 * 2 ^ m)) / (lit 1 / Py.nat (2 ^ m)) : Lim L) =
      pyCeil ((lit 1 - lit 1 / Py.nat (2 * 2 ^ m)) / (lit 1 / Py.nat (2 ^ m)) : Fl r) := by
    have : ceilInt ((lit 1 - lit 1 / Py.nat (2 * 2 ^ m)) / (lit 1 / Py.nat (2 ^ m)) : Lim L) =
        ceilInt ((lit 1 - lit 1 / Py.nat (2 * 2 ^ m)) / (lit 1 / Py.nat (2 ^ m)) : Fl r) := by
      show ceilInt (_ : Lim L).val = _
      rw [s4]; rfl
    unfold pyCeil
    rw [this]
  rw [ec]
  cases hc : pyCeil ((lit 1 - lit 1 / Py.nat (2 * 2 ^ m)) / (lit 1 / Py.nat (2 ^ m)) : Fl r) with
  | error x => rw [hc] at e; exact absurd e (by simp [bind, Except.bind])
  | ok n =>
    rw [hc, except_ok_bind] at e
    rw [except_ok_bind]
    injection e with e
    refine ⟨_, rfl, ?_⟩
    rw [← e]
    have hn : n = 2 ^ m := by
      have := congrArg List.length e
      simpa using this
    refine forall₂_map_range _ fun i hi => ?_
    have hi' : i < n := List.mem_range.mp hi
    have h5 := ZeroOrSized.mul s2 (zeroOr_nat (r := r) (L := L) (n := i) (k := 11) (by omega) (by norm_num)) (by norm_num)
    have h6 : ZeroOrSized 27 (Py.nat i * (lit 1 / Py.nat (2 ^ m)) : Lim L) (Py.nat i * (lit 1 / Py.nat (2 ^ m)) : Fl r) := by
      rcases Nat.eq_zero_or_pos i with rfl | hi0
      · have e0 : (Py.nat 0 : Fl r).val = 0 := by simp [Py.nat]
        have e1 : (Py.nat 0 * (lit 1 / Py.nat (2 ^ m)) : Fl r).val = 0 := by rw [Fl.val_mul, e0, zero_mul, r.rnd_zero]
        refine ⟨?_, .inl e1, by rw [e1, abs_zero]; positivity⟩
        refine same_mul (zeroOr_nat (k := 11) (by norm_num) (by norm_num)).1 s2.same ?_ ?_
        · left; rw [e0, zero_mul]
        · rw [e0, zero_mul, abs_zero]; positivity
      · exact ((sized_nat (k := 11) hi0 (by omega) (by norm_num)).mul s2 (by norm_num)).zeroOr
    exact ((s1.bounded.mono (show 15 ≤ 27 by norm_num)).add h6.bounded (by norm_num)).1

/-- the computed sine whose sign is used is not small -/
theorem sin_walsh_size {m i c : ℕ} (hm : m ≤ 10) (hi : i ≤ m) (hc : c < 2 ^ (m + 1)) :
    1 / 2 ^ 12 ≤ |Real.sin (Py.nat (2 ^ (i + 1)) * PyFloat.pi *
      Fl.round r (((2 * c + 1 : ℕ) : ℝ) / 2 ^ (m + 2)) : Fl r).val| := by
  have hu := r.u_nonneg
  have hw := r.w_le
  have hw0 := r.w_nonneg
  have hu' : r.u ≤ 1 / 1000000 := r.u_le.trans (by norm_num)
  have hpi := Real.pi_pos
  have hN : 2 ^ (m + 1) ≤ 2 ^ 11 := Nat.pow_le_pow_right (by norm_num) (by omega)
  have hI : 2 ^ (i + 1) ≤ 2 ^ 11 := Nat.pow_le_pow_right (by norm_num) (by omega)
  norm_num at hN hI
  set q := c / 2 ^ (m - i) with hq
  set d := m - i with hd
  have hmi : m = i + d := by omega
  set x : ℝ := ((2 * c + 1 : ℕ) : ℝ) / 2 ^ (m + 2) with hx
  have hxr : r.rnd x = x := by rw [hx, r.rnd_div_pow, r.rnd_nat (by omega)]
  have ha : (Py.nat (2 ^ (i + 1)) * PyFloat.pi * Fl.round r x : Fl r).val =
      r.rnd (2 ^ (i + 1) * r.rnd Real.pi * x) := by
    simp only [Fl.val_mul, Fl.val_round, hxr, Fl.val_pi]
    rw [val_nat' (by omega)]
    push_cast
    rw [mul_comm (2 ^ (i + 1)) (r.rnd Real.pi), r.rnd_mul_pow, r.idem]
  rw [ha]
  set a := r.rnd (2 ^ (i + 1) * r.rnd Real.pi * x) with haa
  have hrel : Rel r 2 a (2 ^ (i + 1) * Real.pi * x) :=
    ((((Rel.refl ((2 : ℝ) ^ (i + 1))).mul (Rel.of_rnd Real.pi)).mul (Rel.refl x)).rnd).mono
      (by norm_num)
  have hx0 : 0 < x := by positivity
  have hx1 : x ≤ 1 := by
    rw [hx, div_le_one (by positivity)]
    have : 2 * c + 1 ≤ 2 ^ (m + 2) := by rw [pow_succ 2 (m + 1)]; omega
    exact_mod_cast this
  have hclose := hrel.close (by nlinarith)
  rw [abs_of_pos (mul_pos (mul_pos (by positivity) hpi) hx0)] at hclose
  have hP : (0 : ℝ) < 2 ^ (i + 1) := by positivity
  have hD : (0 : ℝ) < 2 ^ d := by positivity
  have hD' : (2 : ℝ) ^ d ≤ 1024 := by
    calc (2 : ℝ) ^ d ≤ 2 ^ 10 := pow_le_pow_right₀ (by norm_num) (by omega)
      _ = 1024 := by norm_num
  have hPx : 2 ^ (i + 1) * x * (2 * 2 ^ d) = 2 * c + 1 := by
    rw [hx, hmi]; push_cast; rw [show i + d + 2 = (i + 1) + (d + 1) by ring, pow_add (2 : ℝ) (i + 1), pow_succ (2 : ℝ) d]
    field_simp
  have hq1 : (q : ℝ) * 2 ^ d ≤ c := by exact_mod_cast Nat.div_mul_le_self c (2 ^ d)
  have hq2 : (c : ℝ) + 1 ≤ (q + 1) * 2 ^ d := by
    have := Nat.lt_mul_div_succ c (show 0 < 2 ^ d by positivity)
    rw [mul_comm] at this
    exact_mod_cast this
  set y := 2 ^ (i + 1) * x with hy
  have hy0 : 0 < y := by positivity
  have hyle : y ≤ 2 ^ (i + 1) := by nlinarith
  have hI' : (2 : ℝ) ^ (i + 1) * 2 ^ d ≤ 2048 := by
    have : 2 ^ (i + 1) * 2 ^ d ≤ 2048 := by
      rw [← pow_add, show i + 1 + d = m + 1 by omega]; exact hN
    exact_mod_cast this
  have hyD : y * 2 ^ d ≤ 2048 := le_trans (by gcongr) hI'
  have e : 2 ^ (i + 1) * Real.pi * x = Real.pi * y := by rw [hy]; ring
  rw [e] at hclose
  have hb : |a / Real.pi - y| ≤ 4 * r.w * y := by
    rw [show a / Real.pi - y = (a - Real.pi * y) / Real.pi by field_simp, abs_div, abs_of_pos hpi,
      div_le_iff₀ hpi]
    linarith
  obtain ⟨hb1, hb2⟩ := abs_le.mp hb
  have hwy : 4 * r.w * y * 2 ^ d ≤ 1 / 4 := by
    calc 4 * r.w * y * 2 ^ d = 4 * r.w * (y * 2 ^ d) := by ring
      _ ≤ 4 * r.w * 2048 := by gcongr
      _ ≤ 1 / 4 := by linarith
  set t := a / Real.pi - q with ht
  have t1 : 1 / 4096 ≤ t := by
    have h1 : 1 / 4 ≤ t * 2 ^ d := by
      have := mul_le_mul_of_nonneg_right (show y - 4 * r.w * y - q ≤ t by linarith) hD.le
      nlinarith
    have : t * 2 ^ d ≤ max t 0 * 1024 := mul_le_mul (le_max_left _ _) hD' hD.le (le_max_right _ _)
    rcases le_total t 0 with h | h
    · rw [max_eq_right h] at this; linarith
    · rw [max_eq_left h] at this; linarith
  have t2 : 1 / 4096 ≤ 1 - t := by
    have h1 : 1 / 4 ≤ (1 - t) * 2 ^ d := by
      have := mul_le_mul_of_nonneg_right (show q + 1 - (y + 4 * r.w * y) ≤ 1 - t by linarith) hD.le
      nlinarith
    have : (1 - t) * 2 ^ d ≤ max (1 - t) 0 * 1024 := mul_le_mul (le_max_left _ _) hD' hD.le (le_max_right _ _)
    rcases le_total (1 - t) 0 with h | h
    · rw [max_eq_right h] at this; linarith
    · rw [max_eq_left h] at this; linarith
  have ea : a = Real.pi * t + q * Real.pi := by rw [ht]; field_simp; ring
  have key : ∀ s : ℝ, 1 / 4096 ≤ s → s ≤ 1 / 2 → 1 / 4096 ≤ Real.sin (Real.pi * s) := by
    intro s h1 h2
    refine le_trans ?_ (Real.mul_le_sin (by nlinarith) (by nlinarith))
    rw [show 2 / Real.pi * (Real.pi * s) = 2 * s by field_simp]
    linarith
  have hsin : 1 / 4096 ≤ Real.sin (Real.pi * t) := by
    rcases le_total t (1 / 2) with h | h
    · exact key t t1 h
    · have := key (1 - t) t2 (by linarith)
      rwa [show Real.pi * (1 - t) = Real.pi - Real.pi * t by ring, Real.sin_pi_sub] at this
  rw [ea, Real.sin_add_nat_mul_pi, abs_mul, abs_pow, abs_neg, abs_one, one_pow, one_mul]
  refine le_trans ?_ (le_abs_self _)
  norm_num at hsin ⊢
  exact hsin

/-- the same value, plus or minus one -/
def SameUnit (a : Lim L) (b : Fl r) : Prop := SameValue a b ∧ (b.val = 1 ∨ b.val = -1)

theorem SameUnit.sized {a : Lim L} {b : Fl r} (h : SameUnit a b) : Sized 1 a b := by
  refine ⟨h.1, ?_, ?_⟩ <;> rcases h.2 with e | e <;> rw [e] <;> norm_num

theorem sameUnit_one : SameUnit (lit 1 : Lim L) (lit 1 : Fl r) := ⟨sized_one.same, .inl val_lit_one⟩

theorem SameUnit.mul {a a' : Lim L} {b b' : Fl r} (h : SameUnit a b) (h' : SameUnit a' b') : SameUnit (a * a') (b * b') := by
  refine ⟨(h.sized.mul h'.sized (by norm_num)).same, ?_⟩
  have h1 := r.rnd_one
  have h2 : r.rnd (-1) = -1 := by rw [r.neg, h1]
  rw [Fl.val_mul]
  rcases h.2 with e | e <;> rcases h'.2 with e' | e' <;> rw [e, e'] <;> simp [h1, h2]

theorem sameUnit_sign {m i c : ℕ} (hm : m ≤ 10) (hi : i ≤ m) (hc : c < 2 ^ (m + 1)) {x' : Lim L}
    (hx : SameValue x' (Fl.round r (((2 * c + 1 : ℕ) : ℝ) / 2 ^ (m + 2)))) :
    SameUnit (PyFloat.sign (PyFloat.sin (Py.nat (2 ^ (i + 1)) * PyFloat.pi * x')))
      (PyFloat.sign (PyFloat.sin (Py.nat (2 ^ (i + 1)) * PyFloat.pi *
        Fl.round r (((2 * c + 1 : ℕ) : ℝ) / 2 ^ (m + 2))))) := by
  have hN : 2 ^ (m + 1) ≤ 2 ^ 11 := Nat.pow_le_pow_right (by norm_num) (by omega)
  have hN' : 2 ^ (m + 2) ≤ 2 ^ 12 := Nat.pow_le_pow_right (by norm_num) (by omega)
  have hv : (Fl.round r (((2 * c + 1 : ℕ) : ℝ) / 2 ^ (m + 2))).val = ((2 * c + 1 : ℕ) : ℝ) / 2 ^ (m + 2) := by
    rw [Fl.val_round, r.rnd_div_pow, r.rnd_nat (by omega)]
  have hx' : Sized 12 x' (Fl.round r (((2 * c + 1 : ℕ) : ℝ) / 2 ^ (m + 2))) := by
    have p : (0 : ℝ) < 2 ^ (m + 2) := by positivity
    have hNr : (2 : ℝ) ^ (m + 2) ≤ 2 ^ 12 := by exact_mod_cast hN'
    have h1 : (1 : ℝ) ≤ ((2 * c + 1 : ℕ) : ℝ) := by exact_mod_cast (by omega : 1 ≤ 2 * c + 1)
    have h2 : ((2 * c + 1 : ℕ) : ℝ) ≤ 2 ^ 12 := by exact_mod_cast (by omega : 2 * c + 1 ≤ 2 ^ 12)
    refine ⟨hx, ?_, ?_⟩ <;> rw [hv, abs_of_nonneg (by positivity)]
    · rw [div_le_div_iff₀ (by positivity) p]
      nlinarith
    · refine (div_le_self (by positivity) (one_le_pow₀ (by norm_num))).trans h2
  have ha := ((sized_nat (r := r) (L := L) (n := 2 ^ (i + 1)) (k := 11) Nat.one_le_two_pow
    (Nat.pow_le_pow_right (by norm_num) (by omega)) (by norm_num)).mul Sized.pi (by norm_num)).mul hx' (by norm_num)
  have hs : Sized 13 _ _ := Sized.sin ha.same (by norm_num) (sin_walsh_size hm hi hc)
  refine ⟨same_sign hs.same, ?_⟩
  rw [sign_sin_rounded hm hi hc, Fl.val_round]
  rcases one_or_neg (c / 2 ^ (m - i)) with e | e <;> rw [e]
  · left; exact r.rnd_one
  · right; rw [r.neg, r.rnd_one]

theorem forall₂_zipWith {A B C A' B' C' : Type} {R : A → A' → Prop} {S : B → B' → Prop} {Q : C → C' → Prop}
    {f : A → B → C} {g : A' → B' → C'} (h : ∀ a a' b b', R a a' → S b b' → Q (f a b) (g a' b')) {l : List A}
    {l' : List A'} {k : List B} {k' : List B'} (hl : List.Forall₂ R l l') (hk : List.Forall₂ S k k') :
    List.Forall₂ Q (List.zipWith f l k) (List.zipWith g l' k') := by
  induction hl generalizing k k' with
  | nil => exact .nil
  | cons h1 _ ih =>
    cases hk with
    | nil => exact .nil
    | cons h2 hk => exact .cons (h _ _ _ _ h1 h2) (ih hk)

theorem same_walshSwitches {s : ℕ} (hs : 1 ≤ s) (hs' : s ≤ 2 ^ 11) {a : List (Lim L)} {b : List (Fl r)}
    (h : List.Forall₂ SameUnit a b) (i : ℕ) (hi : i + b.length ≤ 2 ^ 12) :
    List.Forall₂ (Sized 28) (walshSwitches s i a) (walshSwitches s i b) := by
  have s2 : Sized 14 (lit 1 / Py.nat s : Lim L) (lit 1 / Py.nat s : Fl r) :=
    sized_one.div (sized_nat (k := 11) hs hs' (by norm_num)) (by norm_num)
  induction h generalizing i with
  | nil => exact .nil
  | cons h1 h2 ih =>
    cases h2 with
    | nil => exact .nil
    | cons h3 h4 =>
      have ih := ih (i + 1) (by simp only [List.length_cons] at hi ⊢; omega)
      rw [walshSwitches, walshSwitches, same_ne h1.1 h3.1]
      split
      · refine .cons ?_ ih
        exact (sized_nat (k := 12) (by omega) (by simp only [List.length_cons] at hi; omega) (by norm_num)).mul s2
          (by norm_num)
      · exact ih

theorem same_scaled {j k : ℕ} {T' : Lim L} {T : Fl r} (hT : Sized j T' T) {a : List (Lim L)} {b : List (Fl r)}
    (h : List.Forall₂ (Sized k) a b) (hk : j + k + 1 ≤ 249) :
    List.Forall₂ SameValue (a.map fun x => T' * x) (b.map fun x => T * x) := by
  rw [List.forall₂_map_left_iff, List.forall₂_map_right_iff]
  exact h.imp fun a b hab => (hT.mul hab hk).same

theorem same_walsh {T' : Lim L} {T : Fl r} (hT : Sized 100 T' T) {k : ℕ} (hk : k ≠ 0) (hk' : k ≤ 2000) :
    ∃ o' o, walshOffsets T' k = .ok o' ∧ walshOffsets T k = .ok o ∧ List.Forall₂ SameValue o' o := by
  have hm := log2_le_ten hk hk'
  set m := Nat.log2 k with hmk
  obtain ⟨l', e1, h1⟩ := same_relativeOffsets (r := r) (L := L) (m := m + 1) (by omega)
  have hN : 2 ^ (m + 1) ≤ 2 ^ 11 := Nat.pow_le_pow_right (by norm_num) (by omega)
  set l := (List.range (2 ^ (m + 1))).map fun i : ℕ => Fl.round r ((2 * i + 1 : ℕ) / 2 ^ (m + 1 + 1)) with hl
  have hlen : l.length = 2 ^ (m + 1) := by simp [hl]
  have h2 : List.Forall₂ (fun (x' : Lim L) x => SameValue x' x ∧
      ∃ c < 2 ^ (m + 1), x = Fl.round r (((2 * c + 1 : ℕ) : ℝ) / 2 ^ (m + 2))) l' l := by
    rw [List.forall₂_iff_get] at h1 ⊢
    refine ⟨h1.1, fun i a b => ⟨h1.2 i a b, i, by rw [← hlen]; exact b, ?_⟩⟩
    simp [hl]
  have fold : ∀ (js : List ℕ) (a' : List (Lim L)) (a : List (Fl r)), (∀ j ∈ js, j ≤ m) → List.Forall₂ SameUnit a' a →
      List.Forall₂ SameUnit
        (js.foldl (fun arr i => List.zipWith (fun w x => w * powBit (PyFloat.sign (PyFloat.sin
          (Py.nat (2 ^ (i + 1)) * PyFloat.pi * x))) ((Nat.digits 2 k).reverse.getD (m + 1 - 1 - i) 0)) arr l') a')
        (js.foldl (fun arr i => List.zipWith (fun w x => w * powBit (PyFloat.sign (PyFloat.sin
          (Py.nat (2 ^ (i + 1)) * PyFloat.pi * x))) ((Nat.digits 2 k).reverse.getD (m + 1 - 1 - i) 0)) arr l) a) := by
    intro js
    induction js with
    | nil => exact fun _ _ _ h => h
    | cons j js ih =>
      intro a' a hj ha
      refine ih _ _ (fun i hi => hj i (List.mem_cons_of_mem _ hi)) ?_
      refine forall₂_zipWith ?_ ha h2
      rintro w' w x' x hw ⟨hx, c, hc, rfl⟩
      refine hw.mul ?_
      unfold powBit
      split
      · exact sameUnit_one
      · exact sameUnit_sign hm (hj j (by simp)) hc hx
  have f := fold (List.range (m + 1)) (List.replicate (2 ^ (m + 1)) (lit 1)) (List.replicate (2 ^ (m + 1)) (lit 1))
    (fun j hj => by have := List.mem_range.mp hj; omega) (by
      generalize 2 ^ (m + 1) = n
      induction n with
      | zero => exact .nil
      | succ n ih => exact .cons sameUnit_one ih)
  have flen : (List.foldl (fun arr i => List.zipWith (fun w x => w * powBit (PyFloat.sign (PyFloat.sin
          (Py.nat (2 ^ (i + 1)) * PyFloat.pi * x))) ((Nat.digits 2 k).reverse.getD (m + 1 - 1 - i) 0)) arr l)
      (List.replicate (2 ^ (m + 1)) (lit 1)) (List.range (m + 1))).length ≤ 2 ^ (m + 1) := by
    have : ∀ (js : List ℕ) (a : List (Fl r)), a.length ≤ 2 ^ (m + 1) →
        (js.foldl (fun arr i => List.zipWith (fun w x => w * powBit (PyFloat.sign (PyFloat.sin
          (Py.nat (2 ^ (i + 1)) * PyFloat.pi * x))) ((Nat.digits 2 k).reverse.getD (m + 1 - 1 - i) 0)) arr l) a).length ≤
          2 ^ (m + 1) := by
      intro js
      induction js with
      | nil => exact fun _ h => h
      | cons j js ih =>
        intro a ha
        refine ih _ ?_
        rw [List.length_zipWith]
        exact (min_le_left _ _).trans ha
    exact this _ _ (by simp)
  have sw := same_walshSwitches (s := 2 ^ (m + 1)) Nat.one_le_two_pow hN f 0 (by omega)
  have sw' := same_scaled hT sw (by norm_num)
  refine ⟨_, _, ?_, ?_, sw'⟩
  · unfold walshOffsets
    rw [same_hammingWeight hk hk', walshHammingWeight_rounded hk hk', except_ok_bind]
    simp only
    rw [← hmk, e1, except_ok_bind, walshBinaryOrder_eq hk, except_ok_bind]
    unfold walshArray
    rw [if_neg (by simp [h1.length_eq, hlen]), except_ok_bind]
    rfl
  · unfold walshOffsets
    rw [walshHammingWeight_rounded hk hk', except_ok_bind]
    simp only
    rw [← hmk, walshRelativeOffsets_rounded (by omega), except_ok_bind, walshBinaryOrder_eq hk, except_ok_bind]
    unfold walshArray
    rw [if_neg (by simp), except_ok_bind]
    rfl

/-! ## Quadratic -/

theorem same_rows {n : ℕ} (hn : 24 * (n + 1 : ℕ) * r.u ≤ 1) (hn' : n + 1 ≤ 2 ^ 27) {l' : List (Lim L)} {l : List (Fl r)}
    (h : List.Forall₂ (Bounded 102) l' l) (hc : l.IsChain fun a b => 1 / 2 ^ 154 ≤ b.val - a.val) :
    List.Forall₂ SameValue (quadraticRows n l').flatten (quadraticRows n l).flatten := by
  induction h with
  | nil => exact .nil
  | @cons a' a l' l h1 h2 ih =>
    cases h2 with
    | nil => exact .nil
    | @cons b' b l' l h3 h4 =>
      rw [List.isChain_cons_cons] at hc
      have hb := h3.sub h1 (by norm_num)
      have hs : Sized 155 (b' - a') (b - a) := by
        refine ⟨hb.1, ?_, hb.2.trans (pow_le_pow_right₀ (by norm_num) (by norm_num))⟩
        rw [Fl.val_sub]
        refine le_trans ?_ rnd_half_le
        rw [pow_succ, ← div_div]
        have := le_abs_self (b.val - a.val)
        have h5 := hc.1
        gcongr
        linarith
      have hu := same_uhrig hs (by norm_num) hn hn'
      rw [quadraticRows, quadraticRows, List.flatten_cons, List.flatten_cons]
      refine forall₂_append (forall₂_append ?_ (.cons h3.1 .nil)) (ih hc.2)
      rw [List.forall₂_map_left_iff, List.forall₂_map_right_iff]
      exact hu.imp fun x y hxy => (hxy.bounded.add (h1.mono (by norm_num)) (by norm_num)).1

/-- the outer times, the ends included -/
noncomputable def outerTime (T : Fl r) (n i : ℕ) : Fl r :=
  if i = 0 then lit 0 else if i ≤ n then uhrigRounded T n i else T

theorem outerTime_list (T : Fl r) (n : ℕ) :
    [lit 0] ++ uhrigOffsets T n ++ [T] = (List.range' 0 (n + 2)).map (outerTime T n) := by
  rw [show n + 2 = 1 + (n + 1) by omega, ← List.range'_append_1, ← List.range'_append_1 (m := n) (n := 1)]
  simp only [List.range'_one, List.map_append, List.map_cons, List.map_nil, zero_add, List.append_assoc]
  congr 1
  congr 1
  · unfold uhrigOffsets
    apply List.map_congr_left
    intro i hi
    have := List.mem_range'_1.mp hi
    unfold outerTime
    rw [if_neg (by omega), if_pos (by omega)]
    rfl
  · unfold outerTime
    rw [if_neg (by omega), if_neg (by omega)]

theorem outerTime_close {T : Fl r} (hT : 0 < T.val) {n i : ℕ} (hn : 70 * ((n : ℝ) + 1) ^ 2 * r.u < 1) (hi : i ≤ n + 1) :
    |(outerTime T n i).val - T.val * innerShare n i| ≤ 33 * r.u * T.val := by
  have hu := r.u_nonneg
  unfold outerTime
  split
  · subst i
    rw [share_zero, Fl.val_lit_zero]
    simp
    positivity
  split
  · rename_i h1 h2
    refine (uhrig_good hT hn .x).close (uhrigRounded T n i, T.val * innerShare n i, Axis.x) ?_
    unfold Times.onAxis
    rw [List.map_map]
    exact List.mem_map.mpr ⟨i, List.mem_range'_1.mpr ⟨by omega, by omega⟩, rfl⟩
  · have : i = n + 1 := by omega
    subst this
    rw [share_last, mul_one, sub_self, abs_zero]
    positivity

theorem outerTime_chain {T : Fl r} (hT : 1 / 2 ^ 100 ≤ T.val) {n : ℕ} (hn : 300 * ((n : ℝ) + 1) ^ 2 * r.u < 1)
    (hn' : n + 1 ≤ 2 ^ 26) :
    ((List.range' 0 (n + 2)).map (outerTime T n)).IsChain fun a b => 1 / 2 ^ 154 ≤ b.val - a.val := by
  have hT0 : 0 < T.val := lt_of_lt_of_le (by positivity) hT
  have hu := r.u_nonneg
  have hB : (n : ℝ) + 1 ≤ 2 ^ 26 := by exact_mod_cast hn'
  have hB0 : (0 : ℝ) < (n : ℝ) + 1 := by positivity
  have h70 : 70 * ((n : ℝ) + 1) ^ 2 * r.u < 1 := by
    have : 0 ≤ ((n : ℝ) + 1) ^ 2 * r.u := by positivity
    linarith
  apply List.Pairwise.isChain
  rw [List.pairwise_map]
  refine (List.pairwise_lt_range' (s := 0) (n := n + 2)).imp_of_mem ?_
  intro i j hi hj hij
  rw [List.mem_range'_1] at hi hj
  have c1 := abs_le.mp (outerTime_close hT0 h70 (show i ≤ n + 1 by omega))
  have c2 := abs_le.mp (outerTime_close hT0 h70 (show j ≤ n + 1 by omega))
  have g := mul_le_mul_of_nonneg_left (share_gap hij (by omega : j ≤ n + 1)) hT0.le
  rw [mul_add] at g
  have e : 66 * r.u * T.val ≤ T.val * (1 / ((n : ℝ) + 1) ^ 2) / 2 := by
    rw [mul_one_div, div_div, le_div_iff₀ (by positivity)]
    nlinarith
  have e2 : 1 / 2 ^ 154 ≤ T.val * (1 / ((n : ℝ) + 1) ^ 2) / 2 := by
    have h1 : 1 / 2 ^ 52 ≤ 1 / ((n : ℝ) + 1) ^ 2 := by
      apply one_div_le_one_div_of_le (by positivity)
      calc ((n : ℝ) + 1) ^ 2 ≤ (2 ^ 26) ^ 2 := by gcongr
        _ = 2 ^ 52 := by norm_num
    have h2 : 1 / 2 ^ 100 * (1 / 2 ^ 52) ≤ T.val * (1 / ((n : ℝ) + 1) ^ 2) :=
      mul_le_mul hT h1 (by positivity) hT0.le
    refine le_trans ?_ (div_le_div_of_nonneg_right h2 (by norm_num))
    norm_num
  linarith

theorem same_quadratic {T' : Lim L} {T : Fl r} (hT : Sized 100 T' T) (h0 : 0 < T.val) {n₁ n₂ : ℕ}
    (hn : 300 * (((n₁ : ℝ) + 1) * (n₂ + 1)) ^ 2 * r.u < 1) (hn₁ : n₁ + 1 ≤ 2 ^ 26) (hn₂ : n₂ + 1 ≤ 2 ^ 26) :
    SamePulses (quadraticPulses T' n₁ n₂) (quadraticPulses T n₁ n₂) := by
  have hu := r.u_nonneg
  have hA : (1 : ℝ) ≤ (n₁ : ℝ) + 1 := by have : (0 : ℝ) ≤ n₁ := by positivity
                                         linarith
  have hB : (1 : ℝ) ≤ (n₂ : ℝ) + 1 := by have : (0 : ℝ) ≤ n₂ := by positivity
                                         linarith
  set A := (n₁ : ℝ) + 1 with hAdef
  set B := (n₂ : ℝ) + 1 with hBdef
  have hA2 : A ≤ A ^ 2 := by nlinarith
  have hB1 : B ≤ B ^ 2 := by nlinarith
  have hB2 : 1 ≤ B ^ 2 := by nlinarith
  have hAB : A ^ 2 ≤ A ^ 2 * B ^ 2 := le_mul_of_one_le_right (by positivity) hB2
  have hAB' : B ^ 2 ≤ A ^ 2 * B ^ 2 := le_mul_of_one_le_left (by positivity) (by nlinarith)
  rw [mul_pow] at hn
  have hp : 0 ≤ A ^ 2 * B ^ 2 * r.u := by positivity
  have h24 : 24 * (n₁ + 1 : ℕ) * r.u ≤ 1 := by
    push_cast
    rw [← hAdef]
    have : A * r.u ≤ A ^ 2 * B ^ 2 * r.u := mul_le_mul_of_nonneg_right (hA2.trans hAB) hu
    linarith
  have h24' : 24 * (n₂ + 1 : ℕ) * r.u ≤ 1 := by
    push_cast
    rw [← hBdef]
    have : B * r.u ≤ A ^ 2 * B ^ 2 * r.u := mul_le_mul_of_nonneg_right (hB1.trans hAB') hu
    linarith
  have h300 : 300 * B ^ 2 * r.u < 1 := by
    have : B ^ 2 * r.u ≤ A ^ 2 * B ^ 2 * r.u := mul_le_mul_of_nonneg_right hAB' hu
    linarith
  have h70 : 70 * B ^ 2 * r.u < 1 := by
    have : 0 ≤ B ^ 2 * r.u := by positivity
    linarith
  have hTlo := hT.lo
  have hThi := hT.hi
  rw [abs_of_pos h0] at hTlo hThi
  have outer : List.Forall₂ (Bounded 102) ([lit 0] ++ uhrigOffsets T' n₂ ++ [T']) ([lit 0] ++ uhrigOffsets T n₂ ++ [T]) := by
    apply forall₂_bounded
    · exact forall₂_append (forall₂_append (.cons same_zero .nil)
        ((same_uhrig hT (by norm_num) h24' (by omega)).imp fun _ _ h => h.same)) (.cons hT.same .nil)
    · intro x hx
      rw [outerTime_list] at hx
      obtain ⟨i, hi, rfl⟩ := List.mem_map.mp hx
      rw [List.mem_range'_1] at hi
      have c := abs_le.mp (outerTime_close h0 h70 (show i ≤ n₂ + 1 by omega))
      have s0 : 0 ≤ innerShare n₂ i := sq_nonneg _
      have s1 : innerShare n₂ i ≤ 1 := Real.sin_sq_le_one _
      have hus := r.u_small.2
      have hs : 0 ≤ T.val * innerShare n₂ i := by positivity
      have hs1 : T.val * innerShare n₂ i ≤ T.val := by nlinarith
      have h33 : 33 * r.u * T.val ≤ T.val := by nlinarith
      have e : (2 : ℝ) ^ 102 = 4 * 2 ^ 100 := by norm_num
      rw [abs_le, e]
      generalize (2 : ℝ) ^ 100 = M at *
      constructor <;> linarith
  have hrows := same_rows h24 (by omega) outer (by
    rw [outerTime_list]
    exact outerTime_chain hTlo h300 hn₂)
  have hdrop : ∀ {A B : Type} {R : A → B → Prop} {a : List A} {b : List B}, List.Forall₂ R a b →
      List.Forall₂ R a.dropLast b.dropLast := by
    intro A B R a b h
    rw [List.dropLast_eq_take, List.dropLast_eq_take, h.length_eq]
    exact List.forall₂_take _ h
  refine ⟨hdrop hrows, ?_, ?_, ?_⟩
  · refine hdrop ?_
    generalize List.range (n₂ + 1) = js
    induction js with
    | nil => exact .nil
    | cons j js ih =>
      rw [List.map_cons, List.map_cons, List.flatten_cons, List.flatten_cons]
      refine forall₂_append (forall₂_append (bounded_replicate Bounded.zero _) (.cons ?_ .nil)) ih
      split
      · exact bounded_pi (by norm_num)
      · exact Bounded.zero
  · show List.Forall₂ (Bounded 220) (List.replicate _ _) (List.replicate _ _)
    rw [(hdrop hrows).length_eq]
    exact bounded_replicate Bounded.zero _
  · refine hdrop ?_
    generalize List.range (n₂ + 1) = js
    induction js with
    | nil => exact .nil
    | cons j js ih =>
      rw [List.map_cons, List.map_cons, List.flatten_cons, List.flatten_cons]
      exact forall₂_append (forall₂_append (bounded_replicate (bounded_pi (by norm_num)) _) (.cons Bounded.zero .nil)) ih

end OpenControls
