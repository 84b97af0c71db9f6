import Verif.Proofs.LimitedSame
import Verif.Proofs.RoundedErrors

/-!
# CORPSE, SCROFULOUS and WAMF1 with and without limits of the range of numbers: helper lemmas
-/

namespace OpenControls

open PyFloat Py Spec

variable {r : Rounding} {L : Limits r}

/-- the same value, of a size that multiplications and divisions do not take out of the range -/
structure Sized (k : ℕ) (a : Lim L) (b : Fl r) : Prop where
  same : SameValue a b
  lo : 1 / 2 ^ k ≤ |b.val|
  hi : |b.val| ≤ 2 ^ k

theorem rnd_half_le {x : ℝ} : |x| / 2 ≤ |r.rnd x| := by
  have h := r.close x
  have hu := r.u_small.2
  have h0 := abs_nonneg x
  have := abs_sub_abs_le_abs_sub x (r.rnd x)
  rw [abs_sub_comm] at this
  nlinarith

namespace Sized

variable {a a' : Lim L} {b b' : Fl r} {j k : ℕ}

theorem of_round {x : ℝ} {y : XR} (ha : a.val = L.lim y) (hy : y = .fin x) (hb : b.val = r.rnd x)
    (hk : k + 1 ≤ 249) (lo : 1 / 2 ^ k ≤ |x|) (hi : |x| ≤ 2 ^ k) : Sized (k + 1) a b := by
  have hp : (1 : ℝ) ≤ 2 := by norm_num
  have e1 : (2 : ℝ) ^ k ≤ 2 ^ 249 := pow_le_pow_right₀ hp (by omega)
  have e2 : (1 : ℝ) / 2 ^ 250 ≤ 1 / 2 ^ k := by
    apply one_div_le_one_div_of_le (by positivity)
    exact pow_le_pow_right₀ hp (by omega)
  refine ⟨?_, ?_, ?_⟩
  · unfold SameValue
    rw [ha, hy, hb]
    exact L.lim_moderate (.inr (e2.trans lo)) (hi.trans e1)
  · rw [hb]
    refine le_trans ?_ rnd_half_le
    rw [pow_succ, ← div_div]
    gcongr
  · rw [hb, pow_succ]
    refine Limits.rnd_le.trans ?_
    linarith

theorem mul (h : Sized j a b) (h' : Sized k a' b') (hk : j + k + 1 ≤ 249) : Sized (j + k + 1) (a * a') (b * b') := by
  refine of_round (x := b.val * b'.val) rfl ?_ rfl hk ?_ ?_
  · rw [h.same, h'.same]; rfl
  · rw [abs_mul, pow_add, show (1 : ℝ) / (2 ^ j * 2 ^ k) = 1 / 2 ^ j * (1 / 2 ^ k) by field_simp]
    exact mul_le_mul h.lo h'.lo (by positivity) (abs_nonneg _)
  · rw [abs_mul, pow_add]
    exact mul_le_mul h.hi h'.hi (abs_nonneg _) (by positivity)

theorem ne_zero (h : Sized j a b) : b.val ≠ 0 := by
  intro e
  have := h.lo
  rw [e, abs_zero] at this
  have : (0 : ℝ) < 1 / 2 ^ j := by positivity
  linarith

theorem div (h : Sized j a b) (h' : Sized k a' b') (hk : j + k + 1 ≤ 249) : Sized (j + k + 1) (a / a') (b / b') := by
  have h0 : 0 < |b'.val| := abs_pos.mpr h'.ne_zero
  refine of_round (x := b.val / b'.val) rfl ?_ rfl hk ?_ ?_
  · rw [h.same, h'.same]; exact XR.fin_div _ h'.ne_zero
  · rw [abs_div, le_div_iff₀ h0]
    refine le_trans ?_ h.lo
    calc 1 / 2 ^ (j + k) * |b'.val| ≤ 1 / 2 ^ (j + k) * 2 ^ k := by gcongr; exact h'.hi
      _ = _ := by rw [pow_add]; field_simp
  · rw [abs_div, div_le_iff₀ h0]
    refine h.hi.trans ?_
    calc (2 : ℝ) ^ j = 2 ^ (j + k) * (1 / 2 ^ k) := by rw [pow_add]; field_simp
      _ ≤ _ := by gcongr; exact h'.lo

theorem neg (h : Sized j a b) : Sized j (-a) (-b) :=
  ⟨same_neg h.same, by rw [Fl.val_neg, abs_neg]; exact h.lo, by rw [Fl.val_neg, abs_neg]; exact h.hi⟩

theorem mono (h : Sized j a b) (hjk : j ≤ k) : Sized k a b := by
  have hp : (2 : ℝ) ^ j ≤ 2 ^ k := pow_le_pow_right₀ (by norm_num) hjk
  exact ⟨h.same, (one_div_le_one_div_of_le (by positivity) hp).trans h.lo, h.hi.trans hp⟩

/-- a library function -/
theorem library {f : ℝ → ℝ} (g : LibraryFunction r.rnd r.u f) {P : ℝ → Prop} (h : SameValue a b)
    (ha : a'.val = L.lim (XR.onDomain P g.f a.val)) (hb : b'.val = g.f b.val) (hP : P b.val)
    (hk : k + 1 ≤ 249) (lo : 1 / 2 ^ k ≤ |f b.val|) (hi : |f b.val| ≤ 2 ^ k) : Sized (k + 1) a' b' := by
  have hc := g.close b.val
  have hu := r.u_small.2
  have h0 := abs_nonneg (f b.val)
  have h1 := abs_sub_abs_le_abs_sub (f b.val) (g.f b.val)
  have h2 := abs_sub_abs_le_abs_sub (g.f b.val) (f b.val)
  rw [abs_sub_comm] at h1
  have lo' : 1 / 2 ^ (k + 1) ≤ |g.f b.val| := by
    rw [pow_succ, ← div_div]
    nlinarith
  have hi' : |g.f b.val| ≤ 2 ^ (k + 1) := by
    rw [pow_succ]
    nlinarith
  have hp : (1 : ℝ) ≤ 2 := by norm_num
  refine ⟨?_, by rw [hb]; exact lo', by rw [hb]; exact hi'⟩
  unfold SameValue
  rw [ha, hb, h, XR.onDomain, if_pos hP]
  refine same_rep (g.representable _) (.inr (le_trans ?_ lo')) (hi'.trans (pow_le_pow_right₀ hp hk))
  apply one_div_le_one_div_of_le (by positivity)
  exact pow_le_pow_right₀ hp (by omega)

theorem sin (h : SameValue a b) (hk : k + 1 ≤ 249) (lo : 1 / 2 ^ k ≤ |Real.sin b.val|) :
    Sized (k + 1) (PyFloat.sin a) (PyFloat.sin b) :=
  library r.sin h rfl rfl trivial hk lo ((Real.abs_sin_le_one _).trans (one_le_pow₀ (by norm_num)))

theorem cos (h : SameValue a b) (hk : k + 1 ≤ 249) (lo : 1 / 2 ^ k ≤ |Real.cos b.val|) :
    Sized (k + 1) (PyFloat.cos a) (PyFloat.cos b) :=
  library r.cos h rfl rfl trivial hk lo ((Real.abs_cos_le_one _).trans (one_le_pow₀ (by norm_num)))

theorem arcsin (h : Sized k a b) (hk : k + 1 ≤ 249) (h1 : |b.val| ≤ 1) (h2 : 1 ≤ k) :
    Sized (k + 1) (PyFloat.arcsin a) (PyFloat.arcsin b) := by
  have hb := abs_le.mp h1
  refine library r.arcsin h.same rfl rfl hb hk (h.lo.trans ?_) ?_
  · have key : ∀ y : ℝ, 0 ≤ y → y ≤ 1 → y ≤ Real.arcsin y := by
      intro y h0 h1
      have := Real.sin_le (Real.arcsin_nonneg.mpr h0)
      rwa [Real.sin_arcsin (by linarith) h1] at this
    rcases le_total 0 b.val with h0 | h0
    · rw [abs_of_nonneg h0, abs_of_nonneg (Real.arcsin_nonneg.mpr h0)]
      exact key _ h0 hb.2
    · rw [abs_of_nonpos h0, abs_of_nonpos (Real.arcsin_nonpos.mpr h0), ← Real.arcsin_neg]
      exact key _ (by linarith) (by linarith)
  · have h3 := Real.arcsin_le_pi_div_two b.val
    have h4 := Real.neg_pi_div_two_le_arcsin b.val
    have h5 := Real.pi_lt_four
    have : (2 : ℝ) ^ 1 ≤ 2 ^ k := pow_le_pow_right₀ (by norm_num) h2
    rw [abs_le]
    constructor <;> linarith

theorem lit {q : Rat} (lo : 1 / 2 ^ k ≤ |(q : ℝ)|) (hi : |(q : ℝ)| ≤ 2 ^ k) (hk : k + 1 ≤ 249) :
    Sized (k + 1) (PyFloat.lit q : Lim L) (PyFloat.lit q) := of_round rfl rfl rfl hk lo hi

theorem pi : Sized 2 (PyFloat.pi : Lim L) PyFloat.pi := by
  obtain ⟨h1, h2⟩ := rnd_pi_bounds (r := r)
  norm_num at h1 h2
  refine ⟨same_pi, ?_, ?_⟩ <;> rw [Fl.val_pi, abs_of_pos (by linarith)]
  · norm_num; linarith
  · norm_num; linarith

theorem two : Sized 2 (PyFloat.lit 2 : Lim L) (PyFloat.lit 2) := lit (by norm_num) (by norm_num) (by norm_num)

theorem four : Sized 3 (PyFloat.lit 4 : Lim L) (PyFloat.lit 4) := lit (by norm_num) (by norm_num) (by norm_num)

end Sized

theorem sized_of {θ' : Lim L} {θ : Fl r} (hθ : SameValue θ' θ) (h1 : 1 / 2 ^ 100 ≤ θ.val) (h2 : θ.val ≤ 2 ^ 100) :
    Sized 100 θ' θ := by
  have h0 : 0 < θ.val := lt_of_lt_of_le (by positivity) h1
  exact ⟨hθ, by rwa [abs_of_pos h0], by rwa [abs_of_pos h0]⟩

theorem sized_corpseK {θ' : Lim L} {θ : Fl r} (hθ : Sized 100 θ' θ) (hs : 1 / 2 ^ 100 ≤ |Real.sin (θ.val / 2)|) :
    Sized 105 (corpseK θ') (corpseK θ) := by
  unfold corpseK
  have e : (θ / lit 2 : Fl r).val = θ.val / 2 := half_rounded θ
  have h1 := Sized.sin (hθ.div Sized.two (by norm_num)).same (k := 100) (by norm_num) (by rwa [e])
  have h2 := h1.div Sized.two (by norm_num)
  refine (h2.arcsin (by norm_num) ?_ (by norm_num))
  rw [half_rounded, abs_div, abs_two, Fl.val_sin]
  have hc := r.sin.close (θ / lit 2 : Fl r).val
  have h3 := Real.abs_sin_le_one (θ / lit 2 : Fl r).val
  have h4 := abs_sub_abs_le_abs_sub (r.sin.f (θ / lit 2 : Fl r).val) (Real.sin (θ / lit 2 : Fl r).val)
  have hu := r.u_small.2
  have hu0 := r.u_nonneg
  have h0 := abs_nonneg (Real.sin (θ / lit 2 : Fl r).val)
  rw [div_le_one (by norm_num)]
  nlinarith

/-- the three rotation angles of CORPSE -/
theorem same_corpse {θ' : Lim L} {θ : Fl r} (hθ : SameValue θ' θ) (h1 : 1 / 2 ^ 100 ≤ θ.val) (h2 : θ.val ≤ 2 ^ 100)
    (hs : 1 / 2 ^ 100 ≤ |Real.sin (θ.val / 2)|) :
    (SameValue (lit 2 * PyFloat.pi + θ' / lit 2 - corpseK θ') (lit 2 * PyFloat.pi + θ / lit 2 - corpseK θ) ∧
      Moderate (lit 2 * PyFloat.pi + θ / lit 2 - corpseK θ).val) ∧
    (SameValue (lit 2 * PyFloat.pi - lit 2 * corpseK θ') (lit 2 * PyFloat.pi - lit 2 * corpseK θ) ∧
      Moderate (lit 2 * PyFloat.pi - lit 2 * corpseK θ).val) ∧
    SameValue (θ' / lit 2 - corpseK θ') (θ / lit 2 - corpseK θ) ∧ Moderate (θ / lit 2 - corpseK θ).val := by
  have h0 : 0 < θ.val := lt_of_lt_of_le (by positivity) h1
  obtain ⟨b1, b2⟩ := rnd_pi_bounds (r := r)
  norm_num at b1 b2
  have hu := r.u_small.2
  have hu0 := r.u_nonneg
  have hz := sized_of hθ h1 h2
  have hk' := sized_corpseK hz hs
  have hk := hk'.same
  obtain ⟨k1, k2⟩ := corpseK_rounded θ
  rw [abs_of_pos h0] at k2
  have k1' := abs_le.mp k1
  have k2' := abs_le.mp k2
  have hh : SameValue (θ' / lit 2) (θ / lit 2) := (hz.div Sized.two (by norm_num)).same
  have eh : (θ / lit 2 : Fl r).val = θ.val / 2 := half_rounded θ
  have ep : (lit 2 * PyFloat.pi : Fl r).val = 2 * r.rnd Real.pi := two_pi_rounded
  have ek : (lit 2 * corpseK θ : Fl r).val = 2 * (corpseK θ).val := two_mul_rounded _
  have hp := (same_two_pi (L := L)).1
  norm_num at h2
  have s1 : SameValue (lit 2 * PyFloat.pi + θ' / lit 2) (lit 2 * PyFloat.pi + θ / lit 2) := by
    refine same_add hp hh ?_
    rw [ep, eh, abs_of_nonneg (by linarith)]
    norm_num
    linarith
  have n1 : (lit 2 * PyFloat.pi + θ / lit 2 : Fl r).val = r.rnd (2 * r.rnd Real.pi + θ.val / 2) := by
    rw [Fl.val_add, ep, eh]
  have a0 : |2 * r.rnd Real.pi + θ.val / 2| = 2 * r.rnd Real.pi + θ.val / 2 := abs_of_nonneg (by linarith)
  have c1 := r.close (2 * r.rnd Real.pi + θ.val / 2)
  rw [a0] at c1
  have c1' := abs_le.mp c1
  have lo1 : 6 ≤ (lit 2 * PyFloat.pi + θ / lit 2 : Fl r).val := by rw [n1]; nlinarith
  have hi1 : (lit 2 * PyFloat.pi + θ / lit 2 : Fl r).val ≤ 7 + θ.val := by rw [n1]; nlinarith
  have mk : ∀ x : ℝ, 1 / 2 ^ 108 ≤ x → x ≤ 2 ^ 108 → Moderate (r.rnd x) := by
    intro x h1 h2
    have hx : 0 < x := lt_of_lt_of_le (by positivity) h1
    have l1 := rnd_half_le (r := r) (x := x)
    have l2 := Limits.rnd_le (r := r) (x := x)
    rw [abs_of_pos hx] at l1 l2
    right
    norm_num at h1 h2 ⊢
    constructor <;> linarith
  have big1 : 10 + θ.val ≤ 2 ^ 249 := by norm_num; linarith
  have big2 : 10 + θ.val ≤ 2 ^ 108 := by norm_num; linarith
  have small1 : (1 : ℝ) / 2 ^ 108 ≤ 1 := by norm_num
  refine ⟨⟨same_sub s1 hk ?_, ?_⟩, ⟨same_sub hp ?_ ?_, ?_⟩, same_sub hh hk ?_, ?_⟩
  · rw [abs_of_nonneg (by linarith)]; linarith
  · rw [Fl.val_sub]
    apply mk
    · linarith
    · linarith
  · refine same_mul Sized.two.same hk ?_ ?_
    · have e2 : (lit 2 : Fl r).val = 2 := by simpa using r.rnd_two
      rw [e2, abs_mul, abs_two]
      right
      have : (1 : ℝ) / 2 ^ 250 ≤ 1 / 2 ^ 105 := by norm_num
      have h5 := hk'.lo
      have h6 := abs_nonneg (corpseK θ).val
      linarith
    · have e2 : (lit 2 : Fl r).val = 2 := by simpa using r.rnd_two
      rw [e2, abs_mul, abs_two]; norm_num at k1 ⊢; linarith
  · rw [ep, ek, abs_of_nonneg (by linarith)]; norm_num; linarith
  · rw [Fl.val_sub, ep, ek]
    apply mk
    · norm_num; linarith
    · norm_num; linarith
  · rw [eh, abs_of_nonneg (by linarith)]; norm_num; linarith
  · rw [Fl.val_sub, eh]
    apply mk
    · norm_num at h1 ⊢; linarith
    · norm_num; linarith

theorem lim_add_comm (a b : Lim L) : a + b = b + a := by
  apply Lim.ext
  rw [Lim.val_add, Lim.val_add]
  congr 1
  cases a.val <;> cases b.val <;> first | rfl | exact congrArg XR.fin (add_comm _ _)

theorem same_shift {φ' p' : Lim L} {φ p : Fl r} (hφ : SameValue φ' φ) (hp : SameValue p' p)
    (h1 : |φ.val| ≤ 2 ^ 100) (h2 : |p.val| ≤ 2 ^ 100) :
    SameValue (φ' + p') (φ + p) ∧ SameValue (φ' - p') (φ - p) := by
  constructor
  · refine same_add hφ hp ((abs_add_le _ _).trans ?_)
    norm_num at h1 h2 ⊢; linarith
  · refine same_sub hφ hp ((abs_sub _ _).trans ?_)
    norm_num at h1 h2 ⊢; linarith

theorem same_table_corpse {θ' φ' : Lim L} {θ φ : Fl r} (hθ : SameValue θ' θ) (hφ : SameValue φ' φ)
    (h1 : 1 / 2 ^ 100 ≤ θ.val) (h2 : θ.val ≤ 2 ^ 100) (h3 : |φ.val| ≤ 2 ^ 100)
    (hs : 1 / 2 ^ 100 ≤ |Real.sin (θ.val / 2)|) :
    SameTable (schemeTable θ' φ' .corpse) (schemeTable θ φ .corpse) := by
  obtain ⟨c1, c2, c3⟩ := same_corpse hθ h1 h2 hs
  have hp := (same_shift hφ (same_pi (L := L)) h3 (Sized.pi.mono (L := L) (by norm_num)).hi).1
  refine .inl ⟨_, _, rfl, rfl, ?_⟩
  rw [lim_add_comm (θ' / lit 2), add_comm_rounded (θ / lit 2)]
  exact .cons ⟨c1.1, c1.2, hφ⟩ (.cons ⟨c2.1, c2.2, hp⟩ (.cons ⟨c3.1, c3.2, hφ⟩ .nil))

theorem same_table_corpseInBB1 {θ' φ' : Lim L} {θ φ : Fl r} (hθ : SameValue θ' θ) (hφ : SameValue φ' φ)
    (h1 : 1 / 2 ^ 100 ≤ θ.val) (h2 : θ.val ≤ 2 ^ 100) (h3 : |φ.val| ≤ 2 ^ 100)
    (hs : 1 / 2 ^ 100 ≤ |Real.sin (θ.val / 2)|) :
    SameTable (schemeTable θ' φ' .corpseInBB1) (schemeTable θ φ .corpseInBB1) := by
  obtain ⟨c1, c2, c3⟩ := same_corpse hθ h1 h2 hs
  have hpi := (same_shift hφ (same_pi (L := L)) h3 (Sized.pi.mono (L := L) (by norm_num)).hi).1
  simp only [schemeTable]
  rcases same_wimperis hθ h1 with ⟨p', p, e', e, hp, hp1, hp4⟩ | ⟨e, h, h'⟩
  · rw [e, e']
    have ha := same_add_angle hφ hp h3 (by rw [abs_of_nonneg (by linarith)]; linarith)
    have hb := same_three hp hp1 hp4
    refine .inl ⟨_, _, rfl, rfl, ?_⟩
    exact .cons ⟨c1.1, c1.2, hφ⟩ (.cons ⟨c2.1, c2.2, hpi⟩ (.cons ⟨c3.1, c3.2, hφ⟩
      (.cons ⟨same_pi, moderate_pi, ha.1⟩
      (.cons ⟨same_two_pi.1, (same_two_pi (L := L)).2, (same_add_angle hφ hb.1 h3 hb.2).1⟩
        (.cons ⟨same_pi, moderate_pi, ha.1⟩ .nil)))))
  · rw [h, h']
    exact .inr ⟨e, rfl, rfl⟩

theorem same_table_corpseInSK1 {θ' φ' : Lim L} {θ φ : Fl r} (hθ : SameValue θ' θ) (hφ : SameValue φ' φ)
    (h1 : 1 / 2 ^ 100 ≤ θ.val) (h2 : θ.val ≤ 2 ^ 100) (h3 : |φ.val| ≤ 2 ^ 100)
    (hs : 1 / 2 ^ 100 ≤ |Real.sin (θ.val / 2)|) :
    SameTable (schemeTable θ' φ' .corpseInSK1) (schemeTable θ φ .corpseInSK1) := by
  obtain ⟨c1, c2, c3⟩ := same_corpse hθ h1 h2 hs
  have hpi := (same_shift hφ (same_pi (L := L)) h3 (Sized.pi.mono (L := L) (by norm_num)).hi).1
  simp only [schemeTable]
  rcases same_wimperis hθ h1 with ⟨p', p, e', e, hp, hp1, hp4⟩ | ⟨e, h, h'⟩
  · rw [e, e']
    have ha := same_add_angle hφ hp h3 (by rw [abs_of_nonneg (by linarith)]; linarith)
    refine .inl ⟨_, _, rfl, rfl, ?_⟩
    exact .cons ⟨c1.1, c1.2, hφ⟩ (.cons ⟨c2.1, c2.2, hpi⟩ (.cons ⟨c3.1, c3.2, hφ⟩
      (.cons ⟨same_two_pi.1, (same_two_pi (L := L)).2, ha.2⟩
      (.cons ⟨same_two_pi.1, (same_two_pi (L := L)).2, ha.1⟩ .nil))))
  · rw [h, h']
    exact .inr ⟨e, rfl, rfl⟩

/-! Tabulated angles -/

theorem same_abs {a : Lim L} {b : Fl r} (h : SameValue a b) : SameValue (PyFloat.abs a) (PyFloat.abs b) := by
  unfold SameValue at h ⊢
  have ha := a.2
  change L.Rep a.val at ha
  rw [h] at ha
  have e : (PyFloat.abs a).val = L.lim (PyFloat.abs a.val) := rfl
  rw [e, h, XR.abs_fin, Fl.val_abs]
  apply L.lim_rep_eq
  refine ⟨?_, by rw [abs_abs]; exact ha.2⟩
  rcases abs_choice b.val with h | h <;> rw [h]
  · exact ha.1
  · rw [L.neg, ha.1]

theorem same_isClose {a b : Lim L} {x y : Fl r} (ha : SameValue a x) (hb : Sized 10 b y) (hx : |x.val| ≤ 2 ^ 100) :
    Py.isClose a b = Py.isClose x y := by
  have fa : isFinite a = true := by
    show isFinite a.val = true
    rw [ha]; rfl
  have fb : isFinite b = true := by
    show isFinite b.val = true
    rw [hb.same]; rfl
  unfold Py.isClose Py.isCloseAtol
  rw [fa, fb, Fl.isFinite_eq, Fl.isFinite_eq]
  have e1 : SameValue (PyFloat.abs (a - b)) (PyFloat.abs (x - y)) := by
    refine same_abs (same_sub ha hb.same ((abs_sub _ _).trans ?_))
    have := hb.hi
    norm_num at this hx ⊢
    linarith
  have hy : Sized 10 (PyFloat.abs b) (PyFloat.abs y) :=
    ⟨same_abs hb.same, by rw [Fl.val_abs, abs_abs]; exact hb.lo, by rw [Fl.val_abs, abs_abs]; exact hb.hi⟩
  have q1 : Sized 28 (lit (1 / 100000000) : Lim L) (lit (1 / 100000000)) :=
    Sized.lit (by norm_num) (by norm_num) (by norm_num)
  have q2 : Sized 28 (lit (1 / 100000) : Lim L) (lit (1 / 100000)) :=
    Sized.lit (by norm_num) (by norm_num) (by norm_num)
  have q3 := q2.mul hy (by norm_num)
  have e2 : SameValue (lit (1 / 100000000) + lit (1 / 100000) * PyFloat.abs b)
      (lit (1 / 100000000) + lit (1 / 100000) * PyFloat.abs y) := by
    refine same_add q1.same q3.same ((abs_add_le _ _).trans ?_)
    have h1 := q1.hi
    have h2 := q3.hi
    have : (2 : ℝ) ^ 28 + 2 ^ (28 + 10 + 1) ≤ 2 ^ 249 := by norm_num
    linarith
  simp only [Bool.and_self, if_true]
  exact same_le e1 e2

theorem same_supported {θ' : Lim L} {θ : Fl r} (hθ : SameValue θ' θ) (h : |θ.val| ≤ 2 ^ 100) :
    isSupportedRotation θ' = isSupportedRotation θ := by
  have h2 := Sized.pi.div (Sized.two (L := L) (r := r)) (by norm_num)
  have h4 := Sized.pi.div (Sized.four (L := L) (r := r)) (by norm_num)
  simp only [isSupportedRotation, List.any_cons, List.any_nil, Bool.or_false]
  rw [same_isClose hθ (Sized.pi.mono (by norm_num)) h, same_isClose hθ (h2.mono (by norm_num)) h,
    same_isClose hθ (h4.mono (by norm_num)) h]

theorem sized_half_pi : Sized 5 (lit (1 / 2) * PyFloat.pi : Lim L) (lit (1 / 2) * PyFloat.pi) := by
  have : Sized 2 (lit (1 / 2) : Lim L) (lit (1 / 2)) := Sized.lit (by norm_num) (by norm_num) (by norm_num)
  exact this.mul Sized.pi (by norm_num)

theorem sized_degrees {q : Rat} (lo : 1 / 2 ^ 8 ≤ |(q : ℝ)|) (hi : |(q : ℝ)| ≤ 2 ^ 8) :
    Sized 22 (degreesToRadians (lit q) : Lim L) (degreesToRadians (lit q)) := by
  have h1 : Sized 9 (lit q : Lim L) (lit q) := Sized.lit lo hi (by norm_num)
  have h2 : Sized 9 (lit 180 : Lim L) (lit 180) := Sized.lit (by norm_num) (by norm_num) (by norm_num)
  exact (h1.div h2 (by norm_num)).mul Sized.pi (by norm_num)

theorem sized_theta1 {θ' : Lim L} {θ : Fl r} (hθ : SameValue θ' θ) (h : |θ.val| ≤ 2 ^ 100) :
    Sized 22 (scrofulousTheta1 θ') (scrofulousTheta1 θ) := by
  unfold scrofulousTheta1
  rw [same_isClose hθ (Sized.pi.mono (by norm_num)) h, same_isClose hθ (sized_half_pi.mono (by norm_num)) h]
  split
  · exact sized_degrees (by norm_num) (by norm_num)
  split
  · exact sized_degrees (by norm_num) (by norm_num)
  · exact sized_degrees (by norm_num) (by norm_num)

theorem sized_arccos {a : Lim L} {b : Fl r} (h : SameValue a b) (hb : |b.val| ≤ 19 / 20) :
    Sized 5 (PyFloat.arccos a) (PyFloat.arccos b) := by
  have hb' := abs_le.mp hb
  have h1 := abs_arcsin_le (hb.trans (by norm_num))
  have h2 := abs_le.mp h1
  have h3 := Real.pi_gt_three
  have h4 := Real.pi_lt_four
  have h0 : 1 / 2 ^ 4 ≤ Real.arccos b.val := by
    rw [Real.arccos_eq_pi_div_two_sub_arcsin]
    norm_num
    nlinarith
  refine Sized.library r.arccos h rfl rfl ⟨by linarith, by linarith⟩ (by norm_num) ?_ ?_
  · exact h0.trans (le_abs_self _)
  · rw [abs_of_nonneg (Real.arccos_nonneg _)]
    have := Real.arccos_le_pi b.val
    norm_num
    linarith

section

variable {θ' : Lim L} {θ t : Fl r} {t' : Lim L} {θ₁ : ℝ}

theorem RoundedAngle.lower (f : RoundedAngle θ t θ₁) : 166 / 100 ≤ θ₁ := by
  have h := f.facts.b2
  have hl := f.lo
  have hpi := Real.pi_gt_d2
  norm_num at hpi
  rw [neg_div, abs_neg, abs_of_nonneg (by positivity), div_le_iff₀ (by linarith)] at h
  linarith

theorem RoundedAngle.cos_size (f : RoundedAngle θ t θ₁) : 1 / 2 ^ 5 ≤ |Real.cos t.val| := by
  have hc := cos_sub_le t.val θ₁
  have he := f.err
  have hl := f.lower
  have hh := f.hi
  have hu := r.u_small.1
  have h3 := Real.pi_lt_d2
  have h3' := Real.pi_gt_three
  norm_num at h3
  have hs := Real.mul_le_sin (x := θ₁ - Real.pi / 2) (by linarith) (by linarith)
  rw [Real.sin_sub_pi_div_two] at hs
  have : 2 / Real.pi * (θ₁ - Real.pi / 2) ≥ 1 / 20 := by
    rw [ge_iff_le, div_mul_eq_mul_div, le_div_iff₀ (by linarith)]
    linarith
  have h4 := abs_le.mp (hc.trans he)
  have h5 : Real.cos t.val ≤ -(1 / 32) := by linarith
  rw [abs_of_neg (by linarith)]
  norm_num
  linarith

theorem sin_half_size {t θ₁ : ℝ} (h : |t - θ₁| ≤ 1 / 100) (h1 : 1 ≤ θ₁) (h2 : θ₁ ≤ Real.pi) :
    1 / 2 ^ 3 ≤ Real.sin (t / 2) := by
  have hc := sin_sub_le (t / 2) (θ₁ / 2)
  have h3 := Real.pi_lt_four
  have h3' := Real.pi_gt_three
  have hs := Real.mul_le_sin (x := θ₁ / 2) (by linarith) (by linarith)
  have : 1 / 4 ≤ 2 / Real.pi * (θ₁ / 2) := by
    rw [div_mul_eq_mul_div, le_div_iff₀ (by linarith)]
    linarith
  rw [show t / 2 - θ₁ / 2 = (t - θ₁) / 2 by ring, abs_div, abs_two] at hc
  have h4 := abs_le.mp (hc.trans (by linarith : |t - θ₁| / 2 ≤ 1 / 100))
  norm_num
  linarith

theorem RoundedAngle.near (f : RoundedAngle θ t θ₁) : |t.val - θ₁| ≤ 1 / 100 := by
  have := f.err
  have hu := r.u_small.1
  linarith

theorem sized_phi1 (f : RoundedAngle θ t θ₁) (hθ : Sized 100 θ' θ) (ht : Sized 22 t' t) :
    Sized 5 (PyFloat.arccos (scrofulousPhi1Arg t' θ')) (PyFloat.arccos (scrofulousPhi1Arg t θ)) := by
  have hc := Sized.cos ht.same (k := 5) (by norm_num) f.cos_size
  have eh : (θ / lit 2 : Fl r).val = θ.val / 2 := half_rounded θ
  have hs := Sized.sin (hθ.div Sized.two (by norm_num)).same (k := 2) (by norm_num) (by
    rw [eh]
    have := f.facts.bs
    rw [abs_of_nonneg (by linarith)]
    norm_num
    linarith)
  have h := ((((Sized.pi.neg.mul hc (by norm_num)).div Sized.two (by norm_num)).div ht (by norm_num)).div hs
    (by norm_num)).same
  refine sized_arccos h ?_
  have h1 := f.arg1
  have b1 := f.facts.b1
  have hu := r.u_small.1
  have := abs_sub_abs_le_abs_sub (scrofulousPhi1Arg t θ).val
    (-Real.pi * Real.cos θ₁ / (2 * θ₁ * Real.sin (θ.val / 2)))
  linarith

theorem sized_phi2 (f : RoundedAngle θ t θ₁) (ht : Sized 22 t' t) :
    Sized 5 (PyFloat.arccos (scrofulousPhi2Arg t')) (PyFloat.arccos (scrofulousPhi2Arg t)) := by
  have h := ((Sized.pi.neg.div Sized.two (by norm_num)).div ht (by norm_num)).same
  refine sized_arccos h ?_
  have h1 := f.arg2
  have b1 := f.facts.b2
  have hu := r.u_small.1
  have := abs_sub_abs_le_abs_sub (scrofulousPhi2Arg t).val (-Real.pi / (2 * θ₁))
  linarith

theorem same_axes (f : RoundedAngle θ t θ₁) (hθ : Sized 100 θ' θ) (ht : Sized 22 t' t) :
    SameValue (PyFloat.arccos (scrofulousPhi1Arg t' θ') - PyFloat.arccos (scrofulousPhi2Arg t'))
      (PyFloat.arccos (scrofulousPhi1Arg t θ) - PyFloat.arccos (scrofulousPhi2Arg t)) ∧
    |(PyFloat.arccos (scrofulousPhi1Arg t θ) - PyFloat.arccos (scrofulousPhi2Arg t)).val| ≤ 128 := by
  have h1 := sized_phi1 f hθ ht
  have h2 := sized_phi2 f ht
  have b : |(PyFloat.arccos (scrofulousPhi1Arg t θ)).val - (PyFloat.arccos (scrofulousPhi2Arg t)).val| ≤ 64 := by
    refine (abs_sub _ _).trans ?_
    have := h1.hi
    have := h2.hi
    norm_num at *
    linarith
  refine ⟨same_sub h1.same h2.same (b.trans (by norm_num)), ?_⟩
  rw [Fl.val_sub]
  exact Limits.rnd_le.trans (by linarith)

theorem moderate_theta1 (f : RoundedAngle θ t θ₁) : 1 ≤ t.val ∧ t.val ≤ 4 := by
  have h := abs_le.mp f.near
  have := f.lower
  have := f.hi
  have := Real.pi_lt_d2
  norm_num at *
  constructor <;> linarith

end

theorem supported_size {θ : Fl r} (h : isSupportedRotation θ = true) : 1 / 2 ≤ θ.val ∧ θ.val ≤ 4 := by
  have hpi := Real.pi_gt_three
  have hpi' := Real.pi_lt_d2
  norm_num at hpi'
  rcases supported_cases h with ⟨-, h⟩ | ⟨-, -, h⟩ | ⟨-, -, h⟩ <;> have h := abs_le.mp h <;>
    norm_num at h <;> constructor <;> linarith

theorem same_table_scrofulous {θ' φ' : Lim L} {θ φ : Fl r} (hθ : SameValue θ' θ) (hφ : SameValue φ' φ)
    (h1 : 1 / 2 ^ 100 ≤ θ.val) (h2 : θ.val ≤ 2 ^ 100) (h3 : |φ.val| ≤ 2 ^ 100) :
    SameTable (schemeTable θ' φ' .scrofulous) (schemeTable θ φ .scrofulous) := by
  have hz := sized_of hθ h1 h2
  simp only [schemeTable, checkArguments_bind]
  rw [same_supported hθ hz.hi]
  split
  swap
  · exact .inr ⟨_, rfl, rfl⟩
  rename_i hs
  obtain ⟨θ₁, f⟩ := roundedAngle hs
  have ht := sized_theta1 hθ hz.hi
  obtain ⟨t1, t4⟩ := moderate_theta1 f
  have mt : Moderate (scrofulousTheta1 θ).val := moderate_of (le_trans (by norm_num) t1) (t4.trans (by norm_num))
  have ha := sized_phi1 f hz ht
  have hb := same_axes f hz ht
  have a1 := (same_shift hφ ha.same h3 (ha.hi.trans (by norm_num))).1
  have a2 := (same_shift hφ hb.1 h3 (hb.2.trans (by norm_num))).1
  exact .inl ⟨_, _, rfl, rfl, .cons ⟨ht.same, mt, a1⟩ (.cons ⟨same_pi, moderate_pi, a2⟩ (.cons ⟨ht.same, mt, a1⟩ .nil))⟩

theorem same_block {φ' t' p' : Lim L} {φ t p : Fl r} (hφ : SameValue φ' φ) (ht : SameValue t' t) (hp : SameValue p' p)
    (h1 : 1 ≤ t.val) (h2 : t.val ≤ 4) (hs : 1 / 2 ^ 3 ≤ Real.sin (t.val / 2)) (h3 : |φ.val| ≤ 2 ^ 100)
    (h4 : |p.val| ≤ 128) :
    List.Forall₂ (fun a b => SameValue a.1 b.1 ∧ Moderate b.1.val ∧ SameValue a.2 b.2) (corpseBlock φ' t' p')
      (corpseBlock φ t p) := by
  obtain ⟨c1, c2, c3⟩ := same_corpse ht (le_trans (by norm_num) h1) (h2.trans (by norm_num)) (by
    rw [abs_of_nonneg (le_trans (by norm_num) hs)]
    exact le_trans (by norm_num) hs)
  have a1 := (same_shift hp hφ (h4.trans (by norm_num)) h3).1
  have a2 : SameValue (PyFloat.pi + p') (PyFloat.pi + p) ∧ |(PyFloat.pi + p : Fl r).val| ≤ 2 ^ 100 := by
    refine ⟨(same_shift same_pi hp (Sized.pi.mono (L := L) (by norm_num)).hi (h4.trans (by norm_num))).1, ?_⟩
    rw [Fl.val_add]
    refine Limits.rnd_le.trans ?_
    have := abs_add_le (PyFloat.pi : Fl r).val p.val
    have := (Sized.pi (L := L)).hi
    norm_num at *
    linarith
  have a3 := (same_shift a2.1 hφ a2.2 h3).1
  exact .cons ⟨c1.1, c1.2, a1⟩ (.cons ⟨c2.1, c2.2, a3⟩ (.cons ⟨c3.1, c3.2, a1⟩ .nil))

theorem same_table_corpseInScrofulous {θ' φ' : Lim L} {θ φ : Fl r} (hθ : SameValue θ' θ) (hφ : SameValue φ' φ)
    (h1 : 1 / 2 ^ 100 ≤ θ.val) (h2 : θ.val ≤ 2 ^ 100) (h3 : |φ.val| ≤ 2 ^ 100) :
    SameTable (schemeTable θ' φ' .corpseInScrofulous) (schemeTable θ φ .corpseInScrofulous) := by
  have hz := sized_of hθ h1 h2
  simp only [schemeTable, checkArguments_bind]
  rw [same_supported hθ hz.hi]
  split
  swap
  · exact .inr ⟨_, rfl, rfl⟩
  rename_i hs
  obtain ⟨θ₁, f⟩ := roundedAngle hs
  have ht := sized_theta1 hθ hz.hi
  obtain ⟨t1, t4⟩ := moderate_theta1 f
  have ha := sized_phi1 f hz ht
  have hb := same_axes f hz ht
  have s1 := sin_half_size f.near f.lo f.hi
  have b1 := same_block hφ ht.same ha.same t1 t4 s1 h3 (ha.hi.trans (by norm_num))
  obtain ⟨p1, p2⟩ := rnd_pi_bounds (r := r)
  have hpe := pi_error (r := r)
  have hu := r.u_small.1
  have b2 := same_block hφ (same_pi (L := L)) hb.1 (by rw [Fl.val_pi]; norm_num at p1; linarith)
    (by rw [Fl.val_pi]; norm_num at p2; linarith)
    (sin_half_size (θ₁ := Real.pi) (by rw [Fl.val_pi]; linarith) (by linarith [Real.pi_gt_three]) le_rfl) h3 hb.2
  exact .inl ⟨_, _, rfl, rfl, List.rel_append (List.rel_append b1 b2) b1⟩

theorem sized_wamf_angle {a b : Lim L} {x y : Fl r} (h : SameValue a x) (h' : SameValue b y) {s : ℝ}
    (hs : |(x + y).val - s| ≤ 1 / 100) (h1 : 1 ≤ s) (h2 : s ≤ 4) (hx : |x.val| ≤ 2 ^ 100) (hy : |y.val| ≤ 2 ^ 100) :
    SameValue (PyFloat.pi * (a + b) / lit 4) (PyFloat.pi * (x + y) / lit 4) := by
  have hs := abs_le.mp hs
  have e : Sized 3 (a + b) (x + y) := by
    refine ⟨(same_shift h h' hx hy).1, ?_, ?_⟩
    · rw [abs_of_nonneg (by linarith)]; generalize (x + y).val = z at *; norm_num; linarith
    · rw [abs_of_nonneg (by linarith)]; generalize (x + y).val = z at *; norm_num; linarith
  exact ((Sized.pi.mul e (by norm_num)).div Sized.four (by norm_num)).same

theorem sized_wamf_angle' {a b : Lim L} {x y : Fl r} (h : SameValue a x) (h' : SameValue b y) {s : ℝ}
    (hs : |(x - y).val - s| ≤ 1 / 100) (h1 : 1 ≤ s) (h2 : s ≤ 4) (hx : |x.val| ≤ 2 ^ 100) (hy : |y.val| ≤ 2 ^ 100) :
    SameValue (PyFloat.pi * (a - b) / lit 4) (PyFloat.pi * (x - y) / lit 4) := by
  have hs := abs_le.mp hs
  have e : Sized 3 (a - b) (x - y) := by
    refine ⟨(same_shift h h' hx hy).2, ?_, ?_⟩
    · rw [abs_of_nonneg (by linarith)]; generalize (x - y).val = z at *; norm_num; linarith
    · rw [abs_of_nonneg (by linarith)]; generalize (x - y).val = z at *; norm_num; linarith
  exact ((Sized.pi.mul e (by norm_num)).div Sized.four (by norm_num)).same

theorem same_wamf_row (a b : Rat) (h1 : 1 ≤ a) (h2 : 0 < b) (h3 : a + b ≤ 316 / 100) (h4 : 1 ≤ a - b)
    (h5 : 1 / 2 ^ 10 ≤ b) :
    SameValue (PyFloat.pi * (lit a + lit b) / lit 4 : Lim L) (PyFloat.pi * (lit a + lit b) / lit 4) ∧
    SameValue (PyFloat.pi * (lit a - lit b) / lit 4 : Lim L) (PyFloat.pi * (lit a - lit b) / lit 4) := by
  obtain ⟨e1, e2⟩ := wamf_sum_rounded (r := r) (a := a) (b := b) (by linarith) h2.le h3
  have hu := r.u_small.1
  have g1 : (1 : ℝ) ≤ a := by exact_mod_cast h1
  have g2 : (0 : ℝ) < b := by exact_mod_cast h2
  have g3 : (a : ℝ) + b ≤ 316 / 100 := by
    have : ((a + b : Rat) : ℝ) ≤ ((316 / 100 : Rat) : ℝ) := by exact_mod_cast h3
    push_cast at this
    exact this
  have g4 : (1 : ℝ) ≤ a - b := by
    have : ((1 : Rat) : ℝ) ≤ ((a - b : Rat) : ℝ) := by exact_mod_cast h4
    push_cast at this
    exact this
  have g5 : (1 : ℝ) / 2 ^ 10 ≤ b := by
    have : ((1 / 2 ^ 10 : Rat) : ℝ) ≤ (b : ℝ) := by exact_mod_cast h5
    push_cast at this
    exact this
  have sa : Sized 11 (lit a : Lim L) (lit a) := by
    refine Sized.lit ?_ ?_ (by norm_num) <;> rw [abs_of_nonneg (by linarith)]
    · exact le_trans (by norm_num) g1
    · norm_num; linarith
  have sb : Sized 11 (lit b : Lim L) (lit b) := by
    refine Sized.lit ?_ ?_ (by norm_num) <;> rw [abs_of_nonneg (by linarith)]
    · exact g5
    · norm_num; linarith
  exact ⟨sized_wamf_angle sa.same sb.same (s := a + b) (e1.trans (by linarith)) (by linarith) (by linarith)
      (sa.hi.trans (by norm_num)) (sb.hi.trans (by norm_num)),
    sized_wamf_angle' sa.same sb.same (s := a - b) (e2.trans (by linarith)) (by linarith) (by linarith)
      (sa.hi.trans (by norm_num)) (sb.hi.trans (by norm_num))⟩

theorem same_wamf1Thetas {θ' : Lim L} {θ : Fl r} (hθ : SameValue θ' θ) (h : |θ.val| ≤ 2 ^ 100) :
    SameValue (wamf1Thetas θ').1 (wamf1Thetas θ).1 ∧ SameValue (wamf1Thetas θ').2 (wamf1Thetas θ).2 := by
  unfold wamf1Thetas
  rw [same_isClose hθ (Sized.pi.mono (by norm_num)) h, same_isClose hθ (sized_half_pi.mono (by norm_num)) h]
  split
  · exact ⟨same_pi, (Sized.pi.div Sized.two (by norm_num)).same⟩
  split
  · exact same_wamf_row _ _ (by norm_num) (by norm_num) (by norm_num) (by norm_num) (by norm_num)
  · exact same_wamf_row _ _ (by norm_num) (by norm_num) (by norm_num) (by norm_num) (by norm_num)

theorem sized_wamf1Thetas {θ' : Lim L} {θ : Fl r} (hθ : SameValue θ' θ) (h : isSupportedRotation θ = true) :
    Sized 3 (wamf1Thetas θ').1 (wamf1Thetas θ).1 ∧ Sized 3 (wamf1Thetas θ').2 (wamf1Thetas θ).2 := by
  obtain ⟨l1, l2⟩ := supported_size h
  obtain ⟨s1, s2⟩ := same_wamf1Thetas hθ (by rw [abs_of_nonneg (by linarith)]; exact l2.trans (by norm_num))
  obtain ⟨a, P, M, -, -, -, f⟩ := roundedWamf h
  obtain ⟨p1, p2, p3, p4⟩ := f.pos
  have hu := r.u_small.1
  have hm := abs_le.mp f.em
  have hM := f.hM
  refine ⟨⟨s1, ?_, ?_⟩, s2, ?_, ?_⟩
  · rw [abs_of_pos p1]; norm_num; linarith
  · rw [abs_of_pos p1]; norm_num at p4 ⊢; linarith
  · rw [abs_of_pos p2]; norm_num; linarith
  · rw [abs_of_pos p2]; norm_num at p4 ⊢; linarith

theorem same_wamf1 {θ' Ω' φ' : Lim L} {θ Ω φ : Fl r} (hθ : SameValue θ' θ) (hΩ : SameValue Ω' Ω)
    (hφ : SameValue φ' φ) (h1 : 1 / 2 ^ 100 ≤ θ.val) (h2 : θ.val ≤ 2 ^ 100) (w1 : 1 / 2 ^ 100 ≤ Ω.val)
    (w2 : Ω.val ≤ 2 ^ 100) (name : Option String) :
    SameOutcome (newWamf1Control θ' Ω' φ' name) (newWamf1Control θ Ω φ name) := by
  have hz := sized_of hθ h1 h2
  have hw := sized_of hΩ w1 w2
  have hv : validateRabiParameters θ' Ω' = validateRabiParameters θ Ω := by
    unfold validateRabiParameters
    rw [same_gt hΩ same_zero, same_ne hθ same_zero]
  unfold newWamf1Control
  rw [hv]
  cases validateRabiParameters θ Ω with
  | error e => exact .inr ⟨e, rfl, rfl⟩
  | ok _ =>
    show SameOutcome (checkArguments (isSupportedRotation θ') _ >>= fun _ => _)
      (checkArguments (isSupportedRotation θ) _ >>= fun _ => _)
    rw [checkArguments_bind, checkArguments_bind, same_supported hθ hz.hi]
    split
    swap
    · exact .inr ⟨_, rfl, rfl⟩
    rename_i hs
    obtain ⟨hp, hm⟩ := sized_wamf1Thetas hθ hs
    have hd := hp.div hw (by norm_num)
    have r1 := (hp.div hd (by norm_num)).same
    have r2 := (hm.div hd (by norm_num)).same
    exact same_new (same_replicate hd.same 4) (.cons r1 (.cons r2 (.cons r2 (.cons r1 .nil)))) (same_replicate hφ 4)
      (same_replicate same_zero 4) name

end OpenControls
