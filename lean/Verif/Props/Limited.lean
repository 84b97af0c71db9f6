import Verif.Proofs.LimitedSchemes
import Verif.Proofs.LimitedInst
import Verif.Props.RoundedComposite
import Verif.Spec.Outcome

/-!
# C109: overflow and underflow in the predefined driven controls

The model is run on the numbers `Lim L` of a floating-point arithmetic with rounding, a largest number, a smallest
positive number, infinities and NaN (`Verif/Limited.lean`); `Limits.double` is IEEE-754 double precision.  In a wide
range of arguments the results are those of the arithmetic without limits (`Fl r`, C76, C105).  Outside of it, valid
arguments are rejected because a duration becomes zero, or accepted with infinite durations.
-/

namespace OpenControls

open PyFloat Py Spec

variable {r : Rounding} {L : Limits r}

/-- **C109**, arguments in range: every predefined driven control is the same as without limits. -/
theorem C109_in_range (s : Scheme) {θ' Ω' φ' : Lim L} {θ Ω φ : Fl r} (hθ : SameValue θ' θ) (hΩ : SameValue Ω' Ω)
    (hφ : SameValue φ' φ) (h1 : 1 / 2 ^ 100 ≤ θ.val) (h2 : θ.val ≤ 2 ^ 100) (w1 : 1 / 2 ^ 100 ≤ Ω.val)
    (w2 : Ω.val ≤ 2 ^ 100) (h3 : |φ.val| ≤ 2 ^ 100)
    (hs : s = .corpse ∨ s = .corpseInBB1 ∨ s = .corpseInSK1 → 1 / 2 ^ 100 ≤ |Real.sin (θ.val / 2)|)
    (name : Option String) : SameOutcome (s.call θ' Ω' φ' name) (s.call θ Ω φ name) := by
  cases s
  case wamf1 => exact same_wamf1 hθ hΩ hφ h1 h2 w1 w2 name
  case primitive =>
    exact same_call (s := .primitive) (by simp) hθ hΩ w1 w2 (same_table_primitive hθ hφ h1 h2) name
  case bb1 =>
    exact same_call (s := .bb1) (by simp) hθ hΩ w1 w2 (same_table_bb1 hθ hφ h1 h2 h3) name
  case sk1 =>
    exact same_call (s := .sk1) (by simp) hθ hΩ w1 w2 (same_table_sk1 hθ hφ h1 h2 h3) name
  case corpse =>
    exact same_call (s := .corpse) (by simp) hθ hΩ w1 w2
      (same_table_corpse hθ hφ h1 h2 h3 (hs (by simp))) name
  case corpseInBB1 =>
    exact same_call (s := .corpseInBB1) (by simp) hθ hΩ w1 w2
      (same_table_corpseInBB1 hθ hφ h1 h2 h3 (hs (by simp))) name
  case corpseInSK1 =>
    exact same_call (s := .corpseInSK1) (by simp) hθ hΩ w1 w2
      (same_table_corpseInSK1 hθ hφ h1 h2 h3 (hs (by simp))) name
  case scrofulous =>
    exact same_call (s := .scrofulous) (by simp) hθ hΩ w1 w2 (same_table_scrofulous hθ hφ h1 h2 h3) name
  case corpseInScrofulous =>
    exact same_call (s := .corpseInScrofulous) (by simp) hθ hΩ w1 w2
      (same_table_corpseInScrofulous hθ hφ h1 h2 h3) name

/-- **C109**, arguments in range, the rotation: BB1 in double precision returns a control, all of whose numbers are
finite and that performs the requested rotation up to rounding. -/
theorem C109_in_range_bb1 {θ' Ω' φ' : Lim L} {θ Ω φ : Fl r} (hθ : SameValue θ' θ) (hΩ : SameValue Ω' Ω)
    (hφ : SameValue φ' φ) (h1 : 1 / 2 ^ 100 ≤ θ.val) (h2 : θ.val ≤ 4 * r.rnd Real.pi) (w1 : 1 / 2 ^ 100 ≤ Ω.val)
    (w2 : Ω.val ≤ 2 ^ 100) (h3 : |φ.val| ≤ 2 ^ 100) (name : Option String) :
    ∃ c d, newBB1Control θ' Ω' φ' name = .ok c ∧ SameControl c d ∧
      PerformsWithin ((θ.val / 2 + 13) * r.u) d (rotation θ.val φ.val) := by
  have t0 : 0 < θ.val := lt_of_lt_of_le (by positivity) h1
  have w0 : 0 < Ω.val := lt_of_lt_of_le (by positivity) w1
  obtain ⟨d, e, -, hd⟩ := (C76_bb1 θ Ω φ name).1 ⟨w0, t0, h2⟩
  have h2' : θ.val ≤ 2 ^ 100 := by
    have := (rnd_pi_bounds (r := r)).2
    norm_num at this ⊢
    linarith
  rcases C109_in_range .bb1 hθ hΩ hφ h1 h2' w1 w2 h3 (by simp) name with ⟨c, d', e1, e2, h⟩ | ⟨x, -, e2⟩
  · have : d' = d := by
      have e2' : newBB1Control θ Ω φ name = .ok d' := e2
      rw [e] at e2'
      exact (Except.ok.inj e2').symm
    subst this
    exact ⟨c, d', e1, h, hd⟩
  · have e2' : newBB1Control θ Ω φ name = .error x := e2
    rw [e] at e2'
    cases e2'

/-- the arguments 1, 5 and -3 have the same value with and without limits, and are in range -/
example : SameValue (lit 1 : Lim Limits.double) (lit 1 : Fl Rounding.double) ∧
    SameValue (lit 5 : Lim Limits.double) (lit 5) ∧ SameValue (lit (-3) : Lim Limits.double) (lit (-3)) ∧
    1 / 2 ^ 100 ≤ (lit 1 : Fl Rounding.double).val ∧ (lit 1 : Fl Rounding.double).val ≤ 2 ^ 100 ∧
    1 / 2 ^ 100 ≤ |Real.sin ((lit 1 : Fl Rounding.double).val / 2)| := by
  have e : (lit 1 : Fl Rounding.double).val = 1 := by simp [Rounding.rnd_one]
  refine ⟨same_lit (by norm_num) (by norm_num), same_lit (by norm_num) (by norm_num),
    same_lit (by norm_num) (by norm_num), by rw [e]; norm_num, by rw [e]; norm_num, ?_⟩
  rw [e]
  have h := Real.pi_gt_three
  have h' := Real.pi_lt_four
  have := Real.mul_le_sin (x := 1 / 2) (by norm_num) (by linarith)
  have h2 : 1 / 4 ≤ 2 / Real.pi * (1 / 2) := by
    rw [div_mul_eq_mul_div, le_div_iff₀ (by linarith)]
    linarith
  rw [abs_of_nonneg (by linarith)]
  exact le_trans (by norm_num) (h2.trans this)

/-- **C109**, acceptance: with a finite positive rate, the composite pulses (other than WAMF1) are accepted exactly if
no duration becomes zero, i.e. if every rotation angle (a duration at the rate 1) exceeds half of the smallest positive
number times the rate; then they are the pulses for the rate 1 with the durations divided by the rate. -/
theorem C109_rates {s : Scheme} (hs : s ≠ .wamf1) {θ φ Ω : Lim L} {name : Option String} {c₁ : DrivenControl (Lim L)}
    (h : s.call θ (lit 1) φ name = .ok c₁) {w : ℝ} (hΩ : Ω.val = .fin w) (hw : 0 < w) :
    AcceptsExactly (s.call θ Ω φ name) (∀ t ∈ c₁.durations, XR.Lt (.fin (L.tiny / 2 * w)) t.val)
      { c₁ with rabiRates := c₁.durations.map fun _ => Ω, durations := c₁.durations.map fun t => t / Ω } := by
  obtain ⟨-, h2, t, ht, -, -, rfl⟩ := (call_ok_iff hs θ (lit 1) φ name c₁).mp h
  have hd : (t.map fun a => a.1 / lit 1) = t.map Prod.fst := List.map_congr_left fun a _ => Lim.div_one a.1
  have hΩ0 : gt Ω (lit 0) = true := by rw [Lim.gt_iff, Lim.val_zero, hΩ]; exact hw
  have hΩ1 : ge Ω (lit 0) = true := by rw [Lim.ge_iff, Lim.val_zero, hΩ]; exact hw.le
  simp only [hd]
  constructor
  · intro hp
    rw [call_ok_iff hs]
    refine ⟨hΩ0, h2, t, ht, fun a ha => ?_, fun _ => hΩ1, ?_⟩
    · rw [Lim.div_pos_iff hΩ hw]
      exact hp _ (List.mem_map_of_mem ha)
    · simp
      exact List.ext_getElem (by simp) (by simp)
  · intro hp
    cases hc : s.call θ Ω φ name with
    | error e =>
      obtain ⟨text, rfl⟩ := call_error hs hc
      exact ⟨text, rfl⟩
    | ok c =>
      obtain ⟨-, -, t', ht', h3, -⟩ := (call_ok_iff hs θ Ω φ name c).mp hc
      rw [ht] at ht'
      cases ht'
      refine absurd (fun x hx => ?_) hp
      obtain ⟨a, ha, rfl⟩ := List.mem_map.mp hx
      exact (Lim.div_pos_iff hΩ hw).mp (h3 a ha)

/-- **C109**, acceptance: what is rejected for the rate 1 is rejected for every finite positive rate, and every pulse
is rejected for an infinite rate. -/
theorem C109_rates_rejected {s : Scheme} (hs : s ≠ .wamf1) {θ φ Ω : Lim L} {name : Option String} :
    ((∀ c, s.call θ (lit 1) φ name ≠ .ok c) → (∃ w, Ω.val = .fin w) →
      ∃ text, s.call θ Ω φ name = .error (.arguments text)) ∧
    (Ω.val = .inf → ∃ text, s.call θ Ω φ name = .error (.arguments text)) := by
  constructor
  · rintro h1 ⟨w, hΩ⟩
    cases hc : s.call θ Ω φ name with
    | error e =>
      obtain ⟨text, rfl⟩ := call_error hs hc
      exact ⟨text, rfl⟩
    | ok c =>
      obtain ⟨h0, h2, t, ht, h3, -, -⟩ := (call_ok_iff hs θ Ω φ name c).mp hc
      have hw : 0 < w := by rwa [Lim.gt_iff, Lim.val_zero, hΩ] at h0
      refine absurd ((call_ok_iff hs θ (lit 1) φ name _).mpr ⟨?_, h2, t, ht, fun a ha => ?_, fun _ => ?_, rfl⟩) (h1 _)
      · rw [Lim.gt_iff, Lim.val_zero, Lim.val_one]; exact one_pos
      · rw [Lim.div_one, Lim.gt_iff, Lim.val_zero]
        have := (Lim.div_pos_iff hΩ hw).mp (h3 a ha)
        have hp : 0 < L.tiny / 2 * w := by have := L.tiny_pos; positivity
        cases e : a.1.val with
        | fin x => rw [e, XR.lt_fin] at this; rw [XR.lt_fin]; linarith
        | inf => trivial
        | negInf => rw [e] at this; exact this
        | nan => rw [e] at this; exact this
      · rw [Lim.ge_iff, Lim.val_zero, Lim.val_one]; exact zero_le_one
  · intro hΩ
    cases hc : s.call θ Ω φ name with
    | error e =>
      obtain ⟨text, rfl⟩ := call_error hs hc
      exact ⟨text, rfl⟩
    | ok c =>
      obtain ⟨-, -, t, ht, h3, -, -⟩ := (call_ok_iff hs θ Ω φ name c).mp hc
      obtain ⟨a, ha⟩ : ∃ a, a ∈ t := by
        cases t with
        | nil => exact absurd ht (schemeTable_ne_nil hs)
        | cons a l => exact ⟨a, by simp⟩
      have := h3 a ha
      rw [Lim.gt_iff, Lim.val_zero, Lim.val_div, hΩ] at this
      cases e : a.1.val with
      | fin x =>
        rw [e, show XR.fin x / XR.inf = XR.fin 0 from rfl, L.lim_pos_iff] at this
        linarith [L.tiny_pos]
      | inf => rw [e] at this; exact this.elim
      | negInf => rw [e] at this; exact this.elim
      | nan => rw [e] at this; exact this.elim

/-- **C109**, the primitive pulse in particular: positive arguments are rejected if the quotient underflows. -/
theorem C109_primitive {θ φ Ω : Lim L} {w : ℝ} (hΩ : Ω.val = .fin w) (hw : 0 < w) (name : Option String) :
    AcceptsExactly (newPrimitiveControl θ Ω φ name) (XR.Lt (.fin (L.tiny / 2 * w)) θ.val)
      ⟨[Ω], [φ], [lit 0], [θ / Ω], name⟩ := by
  have hΩ0 : gt Ω (lit 0) = true := by rw [Lim.gt_iff, Lim.val_zero, hΩ]; exact hw
  have hΩ1 : ge Ω (lit 0) = true := by rw [Lim.ge_iff, Lim.val_zero, hΩ]; exact hw.le
  have hs : Scheme.primitive ≠ .wamf1 := nofun
  constructor
  · intro h
    refine (call_ok_iff hs θ Ω φ name _).mpr ⟨hΩ0, ?_, _, rfl, ?_, fun _ => hΩ1, rfl⟩
    · rw [Lim.ne_iff, Lim.val_zero]
      have hp : 0 < L.tiny / 2 * w := by have := L.tiny_pos; positivity
      cases e : θ.val with
      | fin x => rw [e, XR.lt_fin] at h; rw [XR.eq_fin]; linarith
      | inf => exact id
      | negInf => exact id
      | nan => exact id
    · intro a ha
      rw [List.mem_singleton] at ha
      subst ha
      exact (Lim.div_pos_iff hΩ hw).mpr h
  · intro h
    cases hc : newPrimitiveControl θ Ω φ name with
    | error e =>
      obtain ⟨text, rfl⟩ := call_error hs hc
      exact ⟨text, rfl⟩
    | ok c =>
      obtain ⟨-, -, t, ht, h3, -⟩ := (call_ok_iff hs θ Ω φ name c).mp hc
      cases ht
      exact absurd ((Lim.div_pos_iff hΩ hw).mp (h3 (θ, φ) (by simp))) h

/-- **C109**, overflow: if a rotation angle exceeds the rate by more than a factor of twice the largest number, the
composite pulse is returned with an infinite duration. -/
theorem C109_overflow {s : Scheme} (hs : s ≠ .wamf1) {θ φ Ω : Lim L} {name : Option String}
    {c₁ c : DrivenControl (Lim L)} (h₁ : s.call θ (lit 1) φ name = .ok c₁) (h : s.call θ Ω φ name = .ok c) {w : ℝ}
    (hΩ : Ω.val = .fin w) (hw : 0 < w) {t : Lim L} (ht : t ∈ c₁.durations) {x : ℝ} (hx : t.val = .fin x)
    (hb : 2 * L.biggest * w ≤ x) : ∃ d ∈ c.durations, d.val = .inf := by
  have ha := C109_rates hs h₁ hΩ hw
  by_cases hp : ∀ t ∈ c₁.durations, XR.Lt (.fin (L.tiny / 2 * w)) t.val
  · have e := ha.1 hp
    rw [h] at e
    cases e
    refine ⟨t / Ω, List.mem_map_of_mem ht, ?_⟩
    rw [Lim.val_div, hx, hΩ, XR.fin_div _ hw.ne']
    exact L.lim_inf (by rw [le_div_iff₀ hw]; exact hb)
  · obtain ⟨text, e⟩ := ha.2 hp
    rw [h] at e
    cases e

/-- **C109**, overflow in WAMF1: with a small enough rate, a control of infinite durations and zero Rabi rates is
returned. -/
theorem C109_overflow_wamf1 {θ' φ Ω : Lim L} {θ : Fl r} (hθ : SameValue θ' θ) (h : isSupportedRotation θ = true)
    {w : ℝ} (hΩ : Ω.val = .fin w) (hw : 0 < w) (hb : 4 * L.biggest * w ≤ 1) (name : Option String) :
    ∃ c, newWamf1Control θ' Ω φ name = .ok c ∧ c.durations.length = 4 ∧ (∀ d ∈ c.durations, d.val = .inf) ∧
      ∀ x ∈ c.rabiRates, x.val = .fin 0 := by
  obtain ⟨l1, l2⟩ := supported_size h
  obtain ⟨hp, hm⟩ := sized_wamf1Thetas hθ h
  obtain ⟨a, P, M, -, -, -, f⟩ := roundedWamf h
  have hge : 1 / 2 ≤ (wamf1Thetas θ).1.val := by
    have := abs_le.mp f.ep
    have := r.u_small.1
    have := f.hM
    have := f.hMP
    linarith
  have ed : ((wamf1Thetas θ').1 / Ω).val = .inf := by
    rw [Lim.val_div, hp.same, hΩ, XR.fin_div _ hw.ne']
    apply L.lim_inf
    rw [le_div_iff₀ hw]
    linarith
  have e0 : ∀ {x : Lim L} {y : Fl r}, SameValue x y → (x / ((wamf1Thetas θ').1 / Ω)).val = .fin 0 := by
    intro x y hxy
    rw [Lim.val_div, ed, hxy, show XR.fin y.val / XR.inf = XR.fin 0 from rfl, L.lim_eq (by
      rw [L.rnd_zero, abs_zero]; exact L.biggest_pos.le), L.rnd_zero]
  have hv : validateRabiParameters θ' Ω = .ok () := by
    have h1 : gt Ω (lit 0) = true := by rw [Lim.gt_iff, Lim.val_zero, hΩ]; exact hw
    have h2 : ne θ' (lit 0) = true := by
      rw [Lim.ne_iff, Lim.val_zero, hθ, XR.eq_fin]
      linarith
    unfold validateRabiParameters
    rw [h1, h2]
    rfl
  have hsup := same_supported hθ (by rw [abs_of_nonneg (by linarith)]; exact l2.trans (by norm_num))
  refine ⟨⟨[(wamf1Thetas θ').1 / ((wamf1Thetas θ').1 / Ω), (wamf1Thetas θ').2 / ((wamf1Thetas θ').1 / Ω),
    (wamf1Thetas θ').2 / ((wamf1Thetas θ').1 / Ω), (wamf1Thetas θ').1 / ((wamf1Thetas θ').1 / Ω)],
    List.replicate 4 φ, List.replicate 4 (lit 0), List.replicate 4 ((wamf1Thetas θ').1 / Ω), name⟩, ?_, rfl, ?_, ?_⟩
  · unfold newWamf1Control
    rw [hv]
    show (checkArguments (isSupportedRotation θ') _ >>= fun _ => _) = _
    rw [checkArguments_bind, hsup, if_pos h]
    have z1 : ge ((wamf1Thetas θ').1 / ((wamf1Thetas θ').1 / Ω)) (lit 0) = true := by
      rw [Lim.ge_iff, e0 hp.same, Lim.val_zero]; exact le_refl (0 : ℝ)
    have z2 : ge ((wamf1Thetas θ').2 / ((wamf1Thetas θ').1 / Ω)) (lit 0) = true := by
      rw [Lim.ge_iff, e0 hm.same, Lim.val_zero]; exact le_refl (0 : ℝ)
    have z3 : gt ((wamf1Thetas θ').1 / Ω) (lit 0) = true := by
      rw [Lim.gt_iff, ed, Lim.val_zero]; trivial
    simp [DrivenControl.new_eq, z1, z2, z3, List.replicate]
  · intro d hd
    rw [(List.mem_replicate.mp hd).2]
    exact ed
  · intro x hx
    simp only [List.mem_cons, List.not_mem_nil, or_false] at hx
    rcases hx with rfl | rfl | rfl | rfl
    · exact e0 hp.same
    · exact e0 hm.same
    · exact e0 hm.same
    · exact e0 hp.same

/-- **C109**, angles: the reported angle of a pulse along x in double precision.  If the square of the rate underflows,
the angle is zero although the duration is the one for the requested angle; if it overflows, the angle is infinite. -/
theorem C109_angles {θ Ω : Lim Limits.double} {w : ℝ} (hΩ : Ω.val = .fin w) (hw : 0 < w) {name : Option String}
    {c : DrivenControl (Lim Limits.double)} (h : newPrimitiveControl θ Ω (lit 0) name = .ok c) :
    (w * w ≤ 2 ^ (-1075 : ℤ) → (∀ d ∈ c.durations, ∃ x, d.val = .fin x) → c.angles.map (·.val) = [.fin 0]) ∧
    (w * w ≤ 2 ^ (-1075 : ℤ) → (∀ d ∈ c.durations, d.val = .inf) → c.angles.map (·.val) = [.nan]) ∧
    (2 ^ (1025 : ℤ) ≤ w * w → c.angles.map (·.val) = [.inf]) := by
  have ha := C109_primitive (φ := (lit 0 : Lim Limits.double)) (θ := θ) hΩ hw name
  by_cases hp : XR.Lt (.fin (Limits.double.tiny / 2 * w)) θ.val
  swap
  · obtain ⟨text, e⟩ := ha.2 hp
    rw [h] at e
    cases e
  have e := ha.1 hp
  rw [h] at e
  cases e
  have h0 : Limits.double.lim (.fin 0) = .fin 0 := by
    rw [Limits.double.lim_eq (by rw [Limits.rnd_zero, abs_zero]; exact Limits.double.biggest_pos.le),
      Limits.rnd_zero]
  have hpos : XR.Lt (.fin 0) (θ / Ω).val := by
    have := (Lim.div_pos_iff hΩ hw).mpr hp
    rwa [Lim.gt_iff, Lim.val_zero] at this
  have hcos : (cos (lit 0) : Lim Limits.double).val = .fin 1 := by
    show Limits.double.lim (XR.onDomain (fun _ => True) Rounding.double.cos.f (lit 0 : Lim Limits.double).val) = _
    rw [Lim.val_zero]
    have : Rounding.double.cos.f 0 = 1 := by
      show Bits.rnd 53 (Real.cos 0) = 1
      rw [Real.cos_zero]
      exact Rounding.double.rnd_one
    simp only [XR.onDomain, if_true, this]
    have := Lim.val_one (L := Limits.double)
    rw [Lim.val_lit] at this
    simpa using this
  have hsin : (sin (lit 0) : Lim Limits.double).val = .fin 0 := by
    show Limits.double.lim (XR.onDomain (fun _ => True) Rounding.double.sin.f (lit 0 : Lim Limits.double).val) = _
    rw [Lim.val_zero]
    have : Rounding.double.sin.f 0 = 0 := by
      show Bits.rnd 53 (Real.sin 0) = 0
      rw [Real.sin_zero]
      exact Rounding.double.rnd_zero
    simp only [XR.onDomain, if_true, this]
    exact h0
  have hx : (Ω * cos (lit 0)).val = .fin w := by
    rw [Lim.val_mul, hcos, hΩ, XR.fin_mul, mul_one, ← hΩ]
    exact Limits.double.lim_rep_eq Ω.2
  have hy : (Ω * sin (lit 0)).val = .fin 0 := by
    rw [Lim.val_mul, hsin, hΩ, XR.fin_mul, mul_zero]
    exact h0
  have key : ∀ {A : XR}, Limits.double.lim (.fin (w * w)) = A → (A = .fin 0 ∨ A = .inf) →
      (sqrt (Ω * cos (lit 0) * (Ω * cos (lit 0)) + Ω * sin (lit 0) * (Ω * sin (lit 0)) + lit 0 * lit 0) :
        Lim Limits.double).val = A := by
    intro A hA hA2
    have e1 : (Ω * cos (lit 0) * (Ω * cos (lit 0)) : Lim Limits.double).val = A := by
      rw [Lim.val_mul, hx, XR.fin_mul, hA]
    have e2 : (Ω * sin (lit 0) * (Ω * sin (lit 0)) : Lim Limits.double).val = .fin 0 := by
      rw [Lim.val_mul, hy, XR.fin_mul, mul_zero, h0]
    have e3 : (lit 0 * lit 0 : Lim Limits.double).val = .fin 0 := by
      rw [Lim.val_mul, Lim.val_zero, XR.fin_mul, mul_zero, h0]
    have e4 : Limits.double.lim (A + .fin 0) = A := by
      rcases hA2 with rfl | rfl
      · rw [XR.fin_add, add_zero, h0]
      · rfl
    show Limits.double.lim (PyFloat.sqrt _) = A
    rw [Lim.val_add, Lim.val_add, e1, e2, e3, e4, e4]
    rcases hA2 with rfl | rfl
    · rw [XR.sqrt_fin le_rfl, Real.sqrt_zero, h0]
    · rfl
  have hang : (⟨[Ω], [lit 0], [lit 0], [θ / Ω], name⟩ : DrivenControl (Lim Limits.double)).angles.map (·.val) =
      [Limits.double.lim ((sqrt (Ω * cos (lit 0) * (Ω * cos (lit 0)) + Ω * sin (lit 0) * (Ω * sin (lit 0)) +
        lit 0 * lit 0) : Lim Limits.double).val * (θ / Ω).val)] := rfl
  have hsmall : w * w ≤ 2 ^ (-1075 : ℤ) → Limits.double.lim (.fin (w * w)) = .fin 0 := by
    intro hh
    have e : Limits.double.rnd (w * w) = 0 := by
      rw [Limits.double.underflow _ (by positivity)]
      refine hh.trans (le_of_eq ?_)
      show _ = (2 : ℝ) ^ (-1074 : ℤ) / 2
      rw [eq_div_iff two_ne_zero, ← zpow_add_one₀ two_ne_zero]
      norm_num
    rw [Limits.double.lim_eq (by rw [e, abs_zero]; exact Limits.double.biggest_pos.le), e]
  refine ⟨fun hh hd => ?_, fun hh hd => ?_, fun hh => ?_⟩
  · obtain ⟨x, hx'⟩ := hd (θ / Ω) (by simp)
    rw [hang, key (hsmall hh) (.inl rfl), hx', XR.fin_mul, zero_mul, h0]
  · rw [hang, key (hsmall hh) (.inl rfl), hd (θ / Ω) (by simp)]
    have : (XR.fin 0 * XR.inf) = .nan := by
      show XR.infOf 0 = _
      simp [XR.infOf]
    rw [this]
    rfl
  · have hA : Limits.double.lim (.fin (w * w)) = .inf := by
      apply Limits.double.lim_inf
      exact Limits.double_biggest.trans hh
    rw [hang, key hA (.inr rfl)]
    cases e : (θ / Ω).val with
    | fin x =>
      rw [e, XR.lt_fin] at hpos
      have : XR.inf * XR.fin x = .inf := by
        show XR.infOf x = _
        rw [XR.infOf, if_pos hpos]
      rw [this]
      rfl
    | inf => rfl
    | negInf => rw [e] at hpos; exact hpos.elim
    | nan => rw [e] at hpos; exact hpos.elim

/-- a rotation by 1 with the rate `2⁻¹⁰⁶⁰` is returned with an infinite duration, and reports an undefined angle -/
example : ∃ (Ω : Lim Limits.double) (c : DrivenControl (Lim Limits.double)), Ω.val = .fin (2 ^ (-1060 : ℤ)) ∧
    newPrimitiveControl (lit 1) Ω (lit 0) none = .ok c ∧ (∃ d ∈ c.durations, d.val = .inf) ∧
    c.angles.map (·.val) = [.nan] := by
  obtain ⟨Ω, hΩ⟩ := Lim.exists_pow (k := -1060) (by norm_num) (by norm_num)
  have hw : (0 : ℝ) < 2 ^ (-1060 : ℤ) := by positivity
  have hc : newPrimitiveControl (lit 1) Ω (lit 0) none = .ok ⟨[Ω], [lit 0], [lit 0], [lit 1 / Ω], none⟩ := by
    apply (C109_primitive hΩ hw none).1
    rw [Lim.val_one, XR.lt_fin]
    show (2 : ℝ) ^ (-1074 : ℤ) / 2 * 2 ^ (-1060 : ℤ) < 1
    have h1 : (2 : ℝ) ^ (-1074 : ℤ) ≤ 1 := zpow_le_one_of_nonpos₀ (by norm_num) (by norm_num)
    have h2 : (2 : ℝ) ^ (-1060 : ℤ) ≤ 1 := zpow_le_one_of_nonpos₀ (by norm_num) (by norm_num)
    nlinarith
  have hc1 : newPrimitiveControl (lit 1 : Lim Limits.double) (lit 1) (lit 0) none =
      .ok ⟨[lit 1], [lit 0], [lit 0], [lit 1 / lit 1], none⟩ := by
    apply (C109_primitive Lim.val_one one_pos none).1
    rw [Lim.val_one, XR.lt_fin]
    show (2 : ℝ) ^ (-1074 : ℤ) / 2 * 1 < 1
    have h1 : (2 : ℝ) ^ (-1074 : ℤ) ≤ 1 := zpow_le_one_of_nonpos₀ (by norm_num) (by norm_num)
    linarith
  have ho := C109_overflow (s := .primitive) (by simp) hc1 hc hΩ hw (t := lit 1 / lit 1) (by simp) (x := 1)
    (by rw [Lim.div_one, Lim.val_one]) (by
      have e : (2 : ℝ) ^ (1025 : ℤ) * 2 ^ (-1060 : ℤ) = 2 ^ (-35 : ℤ) := Bits.two_zpow_mul (by norm_num)
      have := mul_le_mul_of_nonneg_right Limits.double_biggest hw.le
      rw [e] at this
      refine this.trans ?_
      exact zpow_le_one_of_nonpos₀ (by norm_num) (by norm_num))
  refine ⟨Ω, _, hΩ, hc, ho, (C109_angles hΩ hw hc).2.1 ?_ ?_⟩
  · rw [Bits.two_zpow_mul rfl]
    exact zpow_le_zpow_right₀ (by norm_num) (by norm_num)
  · obtain ⟨d, hd, hd'⟩ := ho
    rw [List.mem_singleton] at hd
    subst hd
    simpa using hd'

/-- a rotation by `2⁻¹⁰⁰` with the rate `2¹⁰⁰⁰` is rejected -/
example : ∃ θ Ω : Lim Limits.double, θ.val = .fin (2 ^ (-100 : ℤ)) ∧ Ω.val = .fin (2 ^ (1000 : ℤ)) ∧
    ∃ text, newPrimitiveControl θ Ω (lit 0) none = .error (.arguments text) := by
  obtain ⟨θ, hθ⟩ := Lim.exists_pow (k := -100) (by norm_num) (by norm_num)
  obtain ⟨Ω, hΩ⟩ := Lim.exists_pow (k := 1000) (by norm_num) (by norm_num)
  refine ⟨θ, Ω, hθ, hΩ, (C109_primitive hΩ (by positivity) none).2 ?_⟩
  rw [hθ, XR.lt_fin, not_lt]
  show (2 : ℝ) ^ (-100 : ℤ) ≤ 2 ^ (-1074 : ℤ) / 2 * 2 ^ (1000 : ℤ)
  have e : (2 : ℝ) ^ (-1074 : ℤ) * 2 ^ (1000 : ℤ) = 2 ^ (-74 : ℤ) := Bits.two_zpow_mul (by norm_num)
  rw [div_mul_eq_mul_div, e]
  norm_num

/-- a rotation by π with WAMF1 at the rate `2⁻¹⁰⁷⁴` meets the hypotheses of `C109_overflow_wamf1` -/
example : ∃ (Ω : Lim Limits.double) (c : DrivenControl (Lim Limits.double)), Ω.val = .fin (2 ^ (-1074 : ℤ)) ∧
    newWamf1Control PyFloat.pi Ω (lit 0) none = .ok c ∧ (∀ d ∈ c.durations, d.val = .inf) ∧
    ∀ x ∈ c.rabiRates, x.val = .fin 0 := by
  obtain ⟨Ω, hΩ⟩ := Lim.exists_pow (k := -1074) (by norm_num) (by norm_num)
  have hw : (0 : ℝ) < 2 ^ (-1074 : ℤ) := by positivity
  obtain ⟨c, h1, -, h2, h3⟩ := C109_overflow_wamf1 (θ := (PyFloat.pi : Fl Rounding.double)) same_pi (by
    unfold isSupportedRotation
    simp [Fl.isClose_refl]) hΩ hw (by
      have e : (2 : ℝ) ^ (1025 : ℤ) * 2 ^ (-1074 : ℤ) = 2 ^ (-49 : ℤ) := Bits.two_zpow_mul (by norm_num)
      have := mul_le_mul_of_nonneg_right Limits.double_biggest hw.le
      rw [e] at this
      have h : (2 : ℝ) ^ (-49 : ℤ) ≤ 1 / 2 := by norm_num
      have h' := this.trans h
      generalize (2 : ℝ) ^ (-1074 : ℤ) = t at h' ⊢
      linarith) none
  exact ⟨Ω, c, hΩ, h1, h2, h3⟩

end OpenControls
