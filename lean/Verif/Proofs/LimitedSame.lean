import Verif.Proofs.Limited
import Verif.Proofs.RoundedTabulated
import Verif.Proofs.RoundedGaussianAngle

/-!
# Composite pulses with and without limits of the range of numbers: helper lemmas
-/

namespace OpenControls

open PyFloat Py Spec

variable {r : Rounding} {L : Limits r}

/-- zero or of moderate size -/
def Moderate (x : ℝ) : Prop := x = 0 ∨ (1 / 2 ^ 110 ≤ |x| ∧ |x| ≤ 2 ^ 110)

theorem same_round {x : ℝ} (h : x = 0 ∨ 1 / 2 ^ 250 ≤ |x|) (hb : |x| ≤ 2 ^ 249) :
    SameValue (Lim.round L (.fin x)) (Fl.round r x) := L.lim_moderate h hb

theorem same_rep {x : ℝ} (hr : r.rnd x = x) (h : x = 0 ∨ 1 / 2 ^ 250 ≤ |x|) (hb : |x| ≤ 2 ^ 249) :
    L.lim (.fin x) = .fin x := by rw [L.lim_moderate h hb, hr]

theorem same_lit {q : Rat} (h : (q : ℝ) = 0 ∨ 1 / 2 ^ 250 ≤ |(q : ℝ)|) (hb : |(q : ℝ)| ≤ 2 ^ 249) :
    SameValue (lit q : Lim L) (lit q) := same_round h hb

theorem same_zero : SameValue (lit 0 : Lim L) (lit 0) := same_lit (by simp) (by simp)

theorem same_pi : SameValue (PyFloat.pi : Lim L) PyFloat.pi := by
  have := Real.pi_gt_three
  have := Real.pi_lt_four
  apply same_round
  · right; rw [abs_of_nonneg (by linarith)]; norm_num; linarith
  · rw [abs_of_nonneg (by linarith)]; norm_num; linarith

theorem same_neg {a : Lim L} {b : Fl r} (h : SameValue a b) : SameValue (-a) (-b) := by
  unfold SameValue at h ⊢
  have ha := a.2
  change L.Rep a.val at ha
  rw [h] at ha
  rw [Lim.val_neg, h]
  apply L.lim_rep_eq
  exact ⟨by rw [L.neg, ha.1], by rw [abs_neg]; exact ha.2⟩

theorem same_add {a a' : Lim L} {b b' : Fl r} (h : SameValue a b) (h' : SameValue a' b')
    (hb : |b.val + b'.val| ≤ 2 ^ 249) : SameValue (a + a') (b + b') := by
  unfold SameValue at h h' ⊢
  have ha := a.2
  have ha' := a'.2
  change L.Rep a.val at ha
  change L.Rep a'.val at ha'
  rw [h] at ha
  rw [h'] at ha'
  rw [Lim.val_add, h, h', XR.fin_add, Fl.val_add, ← L.add _ _ ha.1 ha'.1]
  apply L.lim_eq
  rw [L.add _ _ ha.1 ha'.1]
  have := Limits.rnd_le (r := r) (x := b.val + b'.val)
  linarith [L.big]

theorem same_sub {a a' : Lim L} {b b' : Fl r} (h : SameValue a b) (h' : SameValue a' b')
    (hb : |b.val - b'.val| ≤ 2 ^ 249) : SameValue (a - a') (b - b') := by
  have e : a.val - a'.val = a.val + (-a').val := by
    have := same_neg h'
    unfold SameValue at this h'
    rw [this, h']
    rfl
  have hv : (a - a').val = (a + -a').val := by rw [Lim.val_sub, e, Lim.val_add]
  have := same_add h (same_neg h') (by rwa [Fl.val_neg, ← sub_eq_add_neg])
  unfold SameValue at this ⊢
  rw [hv, this, Fl.val_add, Fl.val_sub, Fl.val_neg, sub_eq_add_neg]

theorem same_mul {a a' : Lim L} {b b' : Fl r} (h : SameValue a b) (h' : SameValue a' b')
    (hl : b.val * b'.val = 0 ∨ 1 / 2 ^ 250 ≤ |b.val * b'.val|) (hb : |b.val * b'.val| ≤ 2 ^ 249) :
    SameValue (a * a') (b * b') := by
  unfold SameValue at h h' ⊢
  rw [Lim.val_mul, h, h', XR.fin_mul]
  exact L.lim_moderate hl hb

theorem same_div {a a' : Lim L} {b b' : Fl r} (h : SameValue a b) (h' : SameValue a' b') (h0 : b'.val ≠ 0)
    (hl : b.val / b'.val = 0 ∨ 1 / 2 ^ 250 ≤ |b.val / b'.val|) (hb : |b.val / b'.val| ≤ 2 ^ 249) :
    SameValue (a / a') (b / b') := by
  unfold SameValue at h h' ⊢
  rw [Lim.val_div, h, h', XR.fin_div _ h0]
  exact L.lim_moderate hl hb

theorem same_gt {a a' : Lim L} {b b' : Fl r} (h : SameValue a b) (h' : SameValue a' b') : gt a a' = gt b b' := by
  rw [Bool.eq_iff_iff, Lim.gt_iff, Fl.gt_iff, h, h']
  exact Iff.rfl

theorem same_ge {a a' : Lim L} {b b' : Fl r} (h : SameValue a b) (h' : SameValue a' b') : ge a a' = ge b b' := by
  rw [Bool.eq_iff_iff, Lim.ge_iff, Fl.ge_iff, h, h']
  exact Iff.rfl

theorem same_le {a a' : Lim L} {b b' : Fl r} (h : SameValue a b) (h' : SameValue a' b') :
    PyFloat.le a a' = PyFloat.le b b' := by
  rw [Bool.eq_iff_iff, Lim.le_iff, Fl.le_iff, h, h']
  exact Iff.rfl

theorem same_ne {a a' : Lim L} {b b' : Fl r} (h : SameValue a b) (h' : SameValue a' b') : ne a a' = ne b b' := by
  rw [Bool.eq_iff_iff, Lim.ne_iff, Fl.ne_iff, h, h']
  exact Iff.rfl

theorem same_replicate {a : Lim L} {b : Fl r} (h : SameValue a b) (n : ℕ) :
    List.Forall₂ SameValue (List.replicate n a) (List.replicate n b) := by
  induction n with
  | zero => exact .nil
  | succ n ih => exact .cons h ih

theorem same_all {p : Lim L → Bool} {q : Fl r → Bool} (hpq : ∀ a b, SameValue a b → p a = q b) {l : List (Lim L)}
    {l' : List (Fl r)} (h : List.Forall₂ SameValue l l') : l.all p = l'.all q := by
  induction h with
  | nil => rfl
  | cons hab _ ih => rw [List.all_cons, List.all_cons, hpq _ _ hab, ih]

theorem same_new {a b c d : List (Lim L)} {a' b' c' d' : List (Fl r)} (ha : List.Forall₂ SameValue a a')
    (hb : List.Forall₂ SameValue b b') (hc : List.Forall₂ SameValue c c') (hd : List.Forall₂ SameValue d d')
    (name : Option String) :
    SameOutcome (DrivenControl.new a (some b) (some c) (some d) name)
      (DrivenControl.new a' (some b') (some c') (some d') name) := by
  rw [DrivenControl.new_eq, DrivenControl.new_eq]
  have e1 : a.all (fun x => gt x (lit 0)) = a'.all fun x => gt x (lit 0) :=
    same_all (fun _ _ h => same_gt h same_zero) ha
  have e2 : b.all (fun x => ge x (lit 0)) = b'.all fun x => ge x (lit 0) :=
    same_all (fun _ _ h => same_ge h same_zero) hb
  simp only [Option.mem_some_iff, forall_eq', Option.getD_some]
  rw [e1, e2, ha.length_eq, hb.length_eq, hc.length_eq, hd.length_eq]
  split
  · split
    · split
      · exact .inl ⟨_, _, rfl, rfl, hb, hc, hd, ha, rfl⟩
      · exact .inr ⟨_, rfl, rfl⟩
    · exact .inr ⟨_, rfl, rfl⟩
  · exact .inr ⟨_, rfl, rfl⟩

/-- the same segments, of moderate rotation angles -/
def SameTable (x : Except PyErr (List (Lim L × Lim L))) (y : Except PyErr (List (Fl r × Fl r))) : Prop :=
  (∃ t t', x = .ok t ∧ y = .ok t' ∧
    List.Forall₂ (fun a b => SameValue a.1 b.1 ∧ Moderate b.1.val ∧ SameValue a.2 b.2) t t') ∨
    ∃ e, x = .error e ∧ y = .error e

theorem same_quotient {a w : Lim L} {b v : Fl r} (h : SameValue a b) (hw : SameValue w v) (hb : Moderate b.val)
    (h1 : 1 / 2 ^ 100 ≤ v.val) (h2 : v.val ≤ 2 ^ 100) : SameValue (a / w) (b / v) := by
  have hv : 0 < v.val := lt_of_lt_of_le (by positivity) h1
  refine same_div h hw hv.ne' ?_ ?_
  · rcases hb with h0 | ⟨h3, -⟩
    · left; rw [h0, zero_div]
    · right
      rw [abs_div, abs_of_pos hv, le_div_iff₀ hv]
      refine le_trans ?_ h3
      calc 1 / 2 ^ 250 * v.val ≤ 1 / 2 ^ 250 * 2 ^ 100 := by gcongr
        _ ≤ _ := by norm_num
  · rw [abs_div, abs_of_pos hv, div_le_iff₀ hv]
    have h3 : |b.val| ≤ 2 ^ 110 := by
      rcases hb with h0 | ⟨-, h3⟩
      · rw [h0]; simp
      · exact h3
    refine h3.trans ?_
    calc (2 : ℝ) ^ 110 ≤ 2 ^ 249 * (1 / 2 ^ 100) := by norm_num
      _ ≤ _ := by gcongr

theorem same_call {s : Scheme} (hs : s ≠ .wamf1) {θ' Ω' φ' : Lim L} {θ Ω φ : Fl r} (hθ : SameValue θ' θ)
    (hΩ : SameValue Ω' Ω) (h1 : 1 / 2 ^ 100 ≤ Ω.val) (h2 : Ω.val ≤ 2 ^ 100)
    (ht : SameTable (schemeTable θ' φ' s) (schemeTable θ φ s)) (name : Option String) :
    SameOutcome (s.call θ' Ω' φ' name) (s.call θ Ω φ name) := by
  rw [call_table hs, call_table hs]
  have hv : validateRabiParameters θ' Ω' = validateRabiParameters θ Ω := by
    unfold validateRabiParameters
    rw [same_gt hΩ same_zero, same_ne hθ same_zero]
  rw [hv]
  cases validateRabiParameters θ Ω with
  | error e => exact .inr ⟨e, rfl, rfl⟩
  | ok _ =>
    rcases ht with ⟨t, t', e, e', h⟩ | ⟨e, h, h'⟩
    · rw [e, e']
      refine same_new (a := t.map fun a => a.1 / Ω') (a' := t'.map fun a => a.1 / Ω) ?_ ?_ ?_ ?_ name
      · rw [List.forall₂_map_left_iff, List.forall₂_map_right_iff]
        exact h.imp fun a b hab => same_quotient hab.1 hΩ hab.2.1 h1 h2
      · rw [h.length_eq]; exact same_replicate hΩ _
      · rw [List.forall₂_map_left_iff, List.forall₂_map_right_iff]
        exact h.imp fun a b hab => hab.2.2
      · rw [h.length_eq]; exact same_replicate same_zero _
    · rw [h, h']
      exact .inr ⟨e, rfl, rfl⟩

theorem moderate_pi : Moderate (PyFloat.pi : Fl r).val := by
  obtain ⟨h1, h2⟩ := rnd_pi_bounds (r := r)
  right
  rw [Fl.val_pi, abs_of_nonneg (by linarith)]
  norm_num at h1 h2 ⊢
  constructor <;> linarith

theorem same_two_pi : SameValue (lit 2 * PyFloat.pi : Lim L) (lit 2 * PyFloat.pi) ∧
    Moderate (lit 2 * PyFloat.pi : Fl r).val := by
  obtain ⟨h1, h2⟩ := rnd_pi_bounds (r := r)
  have e : (lit 2 : Fl r).val = 2 := by simpa using r.rnd_two
  have hs : SameValue (lit 2 : Lim L) (lit 2) := same_lit (by norm_num) (by norm_num)
  refine ⟨same_mul hs same_pi ?_ ?_, ?_⟩
  · rw [e, Fl.val_pi, abs_of_nonneg (by linarith)]; right; norm_num at h1 h2 ⊢; linarith
  · rw [e, Fl.val_pi, abs_of_nonneg (by linarith)]; norm_num at h1 h2 ⊢; linarith
  · right; rw [two_pi_rounded, abs_of_nonneg (by linarith)]; norm_num at h1 h2 ⊢; constructor <;> linarith

theorem four_pi_rounded : (lit 4 * PyFloat.pi : Fl r).val = 4 * r.rnd Real.pi := by
  have e : (lit 4 : Fl r).val = 4 := by
    have := r.rnd_nat (n := 4) (by norm_num)
    simpa using this
  rw [Fl.val_mul, e, Fl.val_pi]
  have := r.rnd_mul_pow (r.rnd Real.pi) 2
  rw [r.idem] at this
  rw [mul_comm]
  norm_num at this ⊢
  exact this

theorem same_four_pi : SameValue (lit 4 * PyFloat.pi : Lim L) (lit 4 * PyFloat.pi) := by
  obtain ⟨h1, h2⟩ := rnd_pi_bounds (r := r)
  have e : (lit 4 : Fl r).val = 4 := by
    have := r.rnd_nat (n := 4) (by norm_num)
    simpa using this
  have hs : SameValue (lit 4 : Lim L) (lit 4) := same_lit (by norm_num) (by norm_num)
  refine same_mul hs same_pi ?_ ?_
  · rw [e, Fl.val_pi, abs_of_nonneg (by linarith)]; right; norm_num at h1 h2 ⊢; linarith
  · rw [e, Fl.val_pi, abs_of_nonneg (by linarith)]; norm_num at h1 h2 ⊢; linarith

theorem same_minus_four_pi : SameValue (lit (-4) * PyFloat.pi : Lim L) (lit (-4) * PyFloat.pi) := by
  obtain ⟨h1, h2⟩ := rnd_pi_bounds (r := r)
  have e : (lit (-4) : Fl r).val = -4 := by
    have := r.rnd_nat (n := 4) (by norm_num)
    have h := r.neg 4
    rw [Fl.val_lit]
    push_cast at this ⊢
    rw [h, this]
  have hs : SameValue (lit (-4) : Lim L) (lit (-4)) := same_lit (by norm_num) (by norm_num)
  refine same_mul hs same_pi ?_ ?_
  · rw [e, Fl.val_pi, neg_mul, abs_neg, abs_of_nonneg (by linarith)]; right; norm_num at h1 h2 ⊢; linarith
  · rw [e, Fl.val_pi, neg_mul, abs_neg, abs_of_nonneg (by linarith)]; norm_num at h1 h2 ⊢; linarith

theorem same_arccos {a : Lim L} {b : Fl r} (h : SameValue a b) (h1 : -1 ≤ b.val) (h2 : b.val ≤ 1)
    (hl : r.arccos.f b.val = 0 ∨ 1 / 2 ^ 250 ≤ |r.arccos.f b.val|) : SameValue (arccos a) (arccos b) := by
  have hu := r.u_le
  have hc := r.arccos.close b.val
  have h0 := Real.arccos_nonneg b.val
  have hpi := Real.arccos_le_pi b.val
  have h4 := Real.pi_lt_four
  show L.lim (XR.onDomain _ r.arccos.f a.val) = _
  unfold SameValue at h
  rw [h, XR.onDomain, if_pos ⟨h1, h2⟩]
  refine same_rep (r.arccos.representable _) hl ?_
  rw [abs_of_nonneg h0] at hc
  have := abs_le.mp hc
  norm_num at hu
  rw [abs_le]
  norm_num
  constructor <;> nlinarith

/-- the angle of the Wimperis sequences -/
theorem same_wimperis {θ' : Lim L} {θ : Fl r} (hθ : SameValue θ' θ) (h1 : 1 / 2 ^ 100 ≤ θ.val) :
    (∃ p' p, transformedRabiRotationWimperis θ' = .ok p' ∧ transformedRabiRotationWimperis θ = .ok p ∧
      SameValue p' p ∧ 1 ≤ p.val ∧ p.val ≤ 4) ∨
    ∃ e, transformedRabiRotationWimperis θ' = .error e ∧ transformedRabiRotationWimperis θ = .error e := by
  obtain ⟨b1, b2⟩ := rnd_pi_bounds (r := r)
  have hpos : 0 < θ.val := lt_of_lt_of_le (by positivity) h1
  unfold transformedRabiRotationWimperis
  rw [checkArguments_bind, checkArguments_bind, same_le same_minus_four_pi hθ, same_le hθ same_four_pi]
  split
  · rename_i h
    rw [Bool.and_eq_true, Fl.le_iff, Fl.le_iff, four_pi_rounded] at h
    refine .inl ⟨_, _, rfl, rfl, ?_⟩
    have hq : SameValue (-θ' / (lit 4 * PyFloat.pi)) (-θ / (lit 4 * PyFloat.pi)) := by
      refine same_div (same_neg hθ) same_four_pi ?_ ?_ ?_
      · rw [four_pi_rounded]; positivity
      · right
        rw [four_pi_rounded, Fl.val_neg, abs_div, abs_neg, abs_of_pos hpos, abs_of_pos (by linarith),
          le_div_iff₀ (by linarith)]
        refine le_trans ?_ h1
        calc 1 / 2 ^ 250 * (4 * r.rnd Real.pi) ≤ 1 / 2 ^ 250 * 16 := by gcongr; norm_num at b2; linarith
          _ ≤ _ := by norm_num
      · rw [four_pi_rounded, Fl.val_neg, abs_div, abs_neg, abs_of_pos hpos, abs_of_pos (by linarith),
          div_le_iff₀ (by linarith)]
        norm_num
        nlinarith
    have hv : (-θ / (lit 4 * PyFloat.pi) : Fl r).val ≤ 0 := by
      rw [Fl.val_div, four_pi_rounded, Fl.val_neg, neg_div, r.neg]
      have := r.rnd_nonneg (x := θ.val / (4 * r.rnd Real.pi)) (by positivity)
      linarith
    have hv1 : -1 ≤ (-θ / (lit 4 * PyFloat.pi) : Fl r).val := by
      rw [Fl.val_div, four_pi_rounded, Fl.val_neg, neg_div, r.neg]
      have := r.mono (show θ.val / (4 * r.rnd Real.pi) ≤ 1 by rw [div_le_one (by linarith)]; exact h.2)
      rw [r.rnd_one] at this
      linarith
    have hp : 1 ≤ (arccos (-θ / (lit 4 * PyFloat.pi)) : Fl r).val ∧
        (arccos (-θ / (lit 4 * PyFloat.pi)) : Fl r).val ≤ 4 := by
      generalize (-θ / (lit 4 * PyFloat.pi) : Fl r) = x at hv hv1
      rw [Fl.val_arccos]
      have hu := r.u_le
      have hc := r.arccos.close x.val
      have h0 : Real.pi / 2 ≤ Real.arccos x.val := by
        rw [← Real.arccos_zero]
        exact Real.arccos_le_arccos hv
      have hpi := Real.arccos_le_pi x.val
      have h3 := Real.pi_gt_three
      have h4 := Real.pi_lt_d2
      rw [abs_of_nonneg (by linarith : (0 : ℝ) ≤ Real.arccos x.val)] at hc
      have := abs_le.mp hc
      norm_num at hu h4
      constructor <;> nlinarith
    refine ⟨same_arccos hq hv1 (by linarith) (.inr ?_), hp⟩
    rw [Fl.val_arccos] at hp
    rw [abs_of_nonneg (by linarith)]
    exact le_trans (by norm_num) hp.1
  · exact .inr ⟨_, rfl, rfl⟩

theorem same_add_angle {φ' p' : Lim L} {φ p : Fl r} (hφ : SameValue φ' φ) (hp : SameValue p' p)
    (h1 : |φ.val| ≤ 2 ^ 100) (h2 : |p.val| ≤ 16) : SameValue (φ' + p') (φ + p) ∧ SameValue (φ' - p') (φ - p) := by
  constructor
  · refine same_add hφ hp ((abs_add_le _ _).trans ?_)
    norm_num at h1 ⊢; linarith
  · refine same_sub hφ hp ((abs_sub _ _).trans ?_)
    norm_num at h1 ⊢; linarith

theorem same_three {p' : Lim L} {p : Fl r} (hp : SameValue p' p) (h1 : 1 ≤ p.val) (h2 : p.val ≤ 4) :
    SameValue (lit 3 * p') (lit 3 * p) ∧ |(lit 3 * p).val| ≤ 16 := by
  have e : (lit 3 : Fl r).val = 3 := by
    have := r.rnd_nat (n := 3) (by norm_num)
    simpa using this
  have hs : SameValue (lit 3 : Lim L) (lit 3) := same_lit (by norm_num) (by norm_num)
  constructor
  · refine same_mul hs hp ?_ ?_
    · rw [e, abs_of_nonneg (by linarith)]; right; norm_num; linarith
    · rw [e, abs_of_nonneg (by linarith)]; norm_num; linarith
  · rw [Fl.val_mul, e]
    have hc := r.close (3 * p.val)
    have hu := r.u_le
    norm_num at hu
    rw [abs_of_nonneg (show 0 ≤ 3 * p.val by linarith)] at hc
    have := abs_le.mp hc
    rw [abs_le]
    constructor <;> nlinarith

theorem moderate_of {x : ℝ} (h1 : 1 / 2 ^ 100 ≤ x) (h2 : x ≤ 2 ^ 100) : Moderate x := by
  have h0 : 0 < x := lt_of_lt_of_le (by positivity) h1
  right
  rw [abs_of_pos h0]
  norm_num at h1 h2 ⊢
  constructor <;> linarith

theorem same_table_primitive {θ' φ' : Lim L} {θ φ : Fl r} (hθ : SameValue θ' θ) (hφ : SameValue φ' φ)
    (h1 : 1 / 2 ^ 100 ≤ θ.val) (h2 : θ.val ≤ 2 ^ 100) :
    SameTable (schemeTable θ' φ' .primitive) (schemeTable θ φ .primitive) :=
  .inl ⟨_, _, rfl, rfl, .cons ⟨hθ, moderate_of h1 h2, hφ⟩ .nil⟩

theorem same_table_bb1 {θ' φ' : Lim L} {θ φ : Fl r} (hθ : SameValue θ' θ) (hφ : SameValue φ' φ)
    (h1 : 1 / 2 ^ 100 ≤ θ.val) (h2 : θ.val ≤ 2 ^ 100) (h3 : |φ.val| ≤ 2 ^ 100) :
    SameTable (schemeTable θ' φ' .bb1) (schemeTable θ φ .bb1) := by
  simp only [schemeTable]
  rcases same_wimperis hθ h1 with ⟨p', p, e', e, hp, hp1, hp4⟩ | ⟨e, h, h'⟩
  · rw [e, e']
    have ha := same_add_angle hφ hp h3 (by rw [abs_of_nonneg (by linarith)]; linarith)
    have hb := same_three hp hp1 hp4
    refine .inl ⟨_, _, rfl, rfl, ?_⟩
    exact .cons ⟨hθ, moderate_of h1 h2, hφ⟩ (.cons ⟨same_pi, moderate_pi, ha.1⟩
      (.cons ⟨same_two_pi.1, (same_two_pi (L := L)).2, (same_add_angle hφ hb.1 h3 hb.2).1⟩
        (.cons ⟨same_pi, moderate_pi, ha.1⟩ .nil)))
  · rw [h, h']
    exact .inr ⟨e, rfl, rfl⟩

theorem same_table_sk1 {θ' φ' : Lim L} {θ φ : Fl r} (hθ : SameValue θ' θ) (hφ : SameValue φ' φ)
    (h1 : 1 / 2 ^ 100 ≤ θ.val) (h2 : θ.val ≤ 2 ^ 100) (h3 : |φ.val| ≤ 2 ^ 100) :
    SameTable (schemeTable θ' φ' .sk1) (schemeTable θ φ .sk1) := by
  simp only [schemeTable]
  rcases same_wimperis hθ h1 with ⟨p', p, e', e, hp, hp1, hp4⟩ | ⟨e, h, h'⟩
  · rw [e, e']
    have ha := same_add_angle hφ hp h3 (by rw [abs_of_nonneg (by linarith)]; linarith)
    refine .inl ⟨_, _, rfl, rfl, ?_⟩
    exact .cons ⟨hθ, moderate_of h1 h2, hφ⟩ (.cons ⟨same_two_pi.1, (same_two_pi (L := L)).2, ha.2⟩
      (.cons ⟨same_two_pi.1, (same_two_pi (L := L)).2, ha.1⟩ .nil))
  · rw [h, h']
    exact .inr ⟨e, rfl, rfl⟩

end OpenControls
