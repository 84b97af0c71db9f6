import Verif.Limited
import Verif.Proofs.Basic
import Verif.Spec.Extended
import Verif.Spec.Limited

/-!
# Arithmetic of limited range: helper lemmas
-/

set_option linter.unusedSectionVars false

namespace OpenControls

open PyFloat Py Spec

section

variable {α : Type} [Add α] [Sub α] [Mul α] [Div α] [Neg α] [PyFloat α]

/-- rotation angles and azimuthal angles of the segments of a scheme with constant Rabi rate -/
def schemeTable (θ φ : α) : Scheme → Except PyErr (List (α × α))
  | .primitive => .ok [(θ, φ)]
  | .bb1 => do
    let p ← transformedRabiRotationWimperis θ
    return [(θ, φ), (PyFloat.pi, φ + p), (lit 2 * PyFloat.pi, φ + lit 3 * p), (PyFloat.pi, φ + p)]
  | .sk1 => do
    let p ← transformedRabiRotationWimperis θ
    return [(θ, φ), (lit 2 * PyFloat.pi, φ - p), (lit 2 * PyFloat.pi, φ + p)]
  | .corpse => .ok [(θ / lit 2 + lit 2 * PyFloat.pi - corpseK θ, φ),
      (lit 2 * PyFloat.pi - lit 2 * corpseK θ, φ + PyFloat.pi), (θ / lit 2 - corpseK θ, φ)]
  | .corpseInBB1 => do
    let p ← transformedRabiRotationWimperis θ
    return [(lit 2 * PyFloat.pi + θ / lit 2 - corpseK θ, φ), (lit 2 * PyFloat.pi - lit 2 * corpseK θ, φ + PyFloat.pi),
      (θ / lit 2 - corpseK θ, φ), (PyFloat.pi, φ + p), (lit 2 * PyFloat.pi, φ + lit 3 * p), (PyFloat.pi, φ + p)]
  | .corpseInSK1 => do
    let p ← transformedRabiRotationWimperis θ
    return [(lit 2 * PyFloat.pi + θ / lit 2 - corpseK θ, φ), (lit 2 * PyFloat.pi - lit 2 * corpseK θ, φ + PyFloat.pi),
      (θ / lit 2 - corpseK θ, φ), (lit 2 * PyFloat.pi, φ - p), (lit 2 * PyFloat.pi, φ + p)]
  | .scrofulous => do
    checkArguments (isSupportedRotation θ) "rabi_rotation angle must be either pi, pi/2 or pi/4"
    let t := scrofulousTheta1 θ
    let p := arccos (scrofulousPhi1Arg t θ)
    return [(t, φ + p), (PyFloat.pi, φ + (p - arccos (scrofulousPhi2Arg t))), (t, φ + p)]
  | .corpseInScrofulous => do
    checkArguments (isSupportedRotation θ) "rabi_rotation angle must be either pi, pi/2 or pi/4"
    let t := scrofulousTheta1 θ
    let p := arccos (scrofulousPhi1Arg t θ)
    return corpseBlock φ t p ++ corpseBlock φ PyFloat.pi (p - arccos (scrofulousPhi2Arg t)) ++ corpseBlock φ t p
  | .wamf1 => .ok []

theorem call_table {s : Scheme} (hs : s ≠ .wamf1) (θ Ω φ : α) (name : Option String) :
    s.call θ Ω φ name = (validateRabiParameters θ Ω >>= fun _ => schemeTable θ φ s >>= fun t =>
      DrivenControl.new (t.map fun a => a.1 / Ω) (some (List.replicate t.length Ω)) (some (t.map Prod.snd))
        (some (List.replicate t.length (lit 0))) name) := by
  cases s
  case wamf1 => exact absurd rfl hs
  case primitive => rfl
  case corpse => rfl
  case scrofulous =>
    simp only [Scheme.call, newScrofulousControl, schemeTable, checkArguments_bind]
    split <;> rfl
  case corpseInScrofulous =>
    simp only [Scheme.call, newCorpseInScrofulousControl, schemeTable, checkArguments_bind]
    split <;> rfl
  all_goals
    simp only [Scheme.call, newBB1Control, newSK1Control, newCorpseInBB1Control, newCorpseInSK1Control, schemeTable]
    cases transformedRabiRotationWimperis θ <;> rfl

theorem schemeTable_error {s : Scheme} {θ φ : α} {e : PyErr} (h : schemeTable θ φ s = .error e) :
    ∃ text, e = .arguments text := by
  have hw : ∀ e, transformedRabiRotationWimperis θ = .error e → ∃ text, e = .arguments text := by
    intro e he
    unfold transformedRabiRotationWimperis at he
    rw [checkArguments_bind] at he
    split at he
    · cases he
    · exact ⟨_, (Except.error.inj he).symm⟩
  cases s
  case primitive => cases h
  case wamf1 => cases h
  case corpse => cases h
  case scrofulous =>
    simp only [schemeTable, checkArguments_bind] at h
    split at h
    · cases h
    · exact ⟨_, (Except.error.inj h).symm⟩
  case corpseInScrofulous =>
    simp only [schemeTable, checkArguments_bind] at h
    split at h
    · cases h
    · exact ⟨_, (Except.error.inj h).symm⟩
  all_goals
    simp only [schemeTable] at h
    revert h hw
    cases transformedRabiRotationWimperis θ with
    | ok p => intro _ h; cases h
    | error e' => intro hw h; cases h; exact hw _ rfl

/-- when a scheme with constant Rabi rate returns, and what -/
theorem call_ok_iff {s : Scheme} (hs : s ≠ .wamf1) (θ Ω φ : α) (name : Option String) (c : DrivenControl α) :
    s.call θ Ω φ name = .ok c ↔ gt Ω (lit 0) = true ∧ ne θ (lit 0) = true ∧ ∃ t, schemeTable θ φ s = .ok t ∧
      (∀ a ∈ t, gt (a.1 / Ω) (lit 0) = true) ∧ (t ≠ [] → ge Ω (lit 0) = true) ∧
      c = ⟨List.replicate t.length Ω, t.map Prod.snd, List.replicate t.length (lit 0), t.map fun a => a.1 / Ω, name⟩ := by
  have hv : ∀ f : Unit → Except PyErr (DrivenControl α), (validateRabiParameters θ Ω >>= f) =
      if gt Ω (lit 0) = true then if ne θ (lit 0) = true then f () else
        .error (.arguments "The rabi rotation must be non-zero.")
      else .error (.arguments "Maximum rabi angular frequency should be greater than zero.") := by
    intro f
    unfold validateRabiParameters
    cases gt Ω (lit 0) <;> cases ne θ (lit 0) <;> rfl
  rw [call_table hs, hv]
  by_cases h1 : gt Ω (lit 0) = true
  swap
  · rw [if_neg h1]
    exact ⟨nofun, fun h => absurd h.1 h1⟩
  by_cases h2 : ne θ (lit 0) = true
  swap
  · rw [if_pos h1, if_neg h2]
    exact ⟨nofun, fun h => absurd h.2.1 h2⟩
  rw [if_pos h1, if_pos h2]
  cases hT : schemeTable θ φ s with
  | error e => exact ⟨nofun, fun ⟨_, _, _, h, _⟩ => by cases h⟩
  | ok t =>
    have e : (Except.ok t >>= fun t => DrivenControl.new (t.map fun a => a.1 / Ω)
        (some (List.replicate t.length Ω)) (some (t.map Prod.snd)) (some (List.replicate t.length (lit 0))) name) =
        DrivenControl.new (t.map fun a => a.1 / Ω) (some (List.replicate t.length Ω)) (some (t.map Prod.snd))
          (some (List.replicate t.length (lit 0))) name := rfl
    rw [e, DrivenControl.new_eq]
    simp only [Option.mem_some_iff, forall_eq', List.length_replicate, List.length_map, and_self, if_true,
      Option.getD_some, List.all_eq_true, List.mem_map, forall_exists_index, and_imp, forall_apply_eq_imp_iff₂,
      List.mem_replicate]
    constructor
    · intro h
      split at h
      · rename_i g1
        split at h
        · rename_i g2
          exact ⟨h1, h2, t, rfl, g1, fun ht => by
            simpa [List.all_eq_true, ht] using g2, (Except.ok.inj h).symm⟩
        · cases h
      · cases h
    · rintro ⟨-, -, t', ht, h3, h4, rfl⟩
      cases ht
      rw [if_pos h3, if_pos]
      rw [List.all_eq_true]
      intro x hx
      obtain ⟨hn, rfl⟩ := List.mem_replicate.mp hx
      exact h4 (by simpa using hn)

theorem schemeTable_ne_nil {s : Scheme} (hs : s ≠ .wamf1) {θ φ : α} : schemeTable θ φ s ≠ .ok [] := by
  intro h
  cases s
  case wamf1 => exact hs rfl
  case primitive => cases h
  case corpse => cases h
  case scrofulous =>
    simp only [schemeTable, checkArguments_bind] at h
    split at h <;> cases h
  case corpseInScrofulous =>
    simp only [schemeTable, checkArguments_bind] at h
    split at h <;> cases h
  all_goals
    simp only [schemeTable] at h
    revert h
    cases transformedRabiRotationWimperis θ with
    | ok p => intro h; cases h
    | error e' => intro h; cases h

theorem call_error {s : Scheme} (hs : s ≠ .wamf1) {θ Ω φ : α} {name : Option String} {e : PyErr}
    (h : s.call θ Ω φ name = .error e) : ∃ text, e = .arguments text := by
  rw [call_table hs] at h
  have hv : ∀ e, validateRabiParameters θ Ω = .error e → ∃ text, e = .arguments text := by
    unfold validateRabiParameters
    cases gt Ω (lit 0) <;> cases ne θ (lit 0)
    · exact fun e he => ⟨_, (Except.error.inj he).symm⟩
    · exact fun e he => ⟨_, (Except.error.inj he).symm⟩
    · exact fun e he => ⟨_, (Except.error.inj he).symm⟩
    · exact nofun
  revert h hv
  cases validateRabiParameters θ Ω with
  | error e' => intro h hv; cases h; exact hv _ rfl
  | ok _ =>
    intro h _
    have ht := schemeTable_error (s := s) (θ := θ) (φ := φ) (e := e)
    revert h ht
    cases schemeTable θ φ s with
    | error e' => intro h ht; cases h; exact ht rfl
    | ok t =>
      intro h _
      have h' : DrivenControl.new (t.map fun a => a.1 / Ω) (some (List.replicate t.length Ω))
        (some (t.map Prod.snd)) (some (List.replicate t.length (lit 0))) name = .error e := h
      rw [DrivenControl.new_eq] at h'
      split at h'
      · split at h'
        · split at h'
          · cases h'
          · exact ⟨_, (Except.error.inj h').symm⟩
        · exact ⟨_, (Except.error.inj h').symm⟩
      · exact ⟨_, (Except.error.inj h').symm⟩

end

namespace Limits

variable {r : Rounding} (L : Limits r)

theorem rnd_zero : L.rnd 0 = 0 := (L.underflow 0 le_rfl).mpr (by linarith [L.tiny_pos])

theorem smallest_pos : 0 < L.smallest := lt_of_lt_of_le L.tiny_pos L.tiny_le

theorem big : (2 : ℝ) ^ 249 ≤ L.biggest / 2 := by
  have := L.le_biggest
  rw [pow_succ] at this
  linarith

theorem biggest_pos : 0 < L.biggest := lt_of_lt_of_le (by positivity) L.le_biggest

theorem lim_eq {x : ℝ} (h : |L.rnd x| ≤ L.biggest) : L.lim (.fin x) = .fin (L.rnd x) := by
  have := abs_le.mp h
  unfold lim
  dsimp only
  rw [if_neg (by linarith), if_neg (by linarith)]

theorem lim_rep_eq {x : XR} (h : L.Rep x) : L.lim x = x := by
  cases x with
  | fin x => rw [L.lim_eq (by rw [h.1]; exact h.2), h.1]
  | inf => rfl
  | negInf => rfl
  | nan => rfl

theorem rnd_le {x : ℝ} : |r.rnd x| ≤ 2 * |x| := by
  have h := r.close x
  have hu := r.u_le
  have h0 := abs_nonneg x
  have : |r.rnd x| ≤ |r.rnd x - x| + |x| := by
    calc |r.rnd x| = |(r.rnd x - x) + x| := by ring_nf
      _ ≤ _ := abs_add_le _ _
  norm_num at hu
  nlinarith

/-- numbers of moderate size are rounded as without limits -/
theorem lim_moderate {x : ℝ} (h : x = 0 ∨ 1 / 2 ^ 250 ≤ |x|) (hb : |x| ≤ 2 ^ 249) :
    L.lim (.fin x) = .fin (r.rnd x) := by
  have e : L.rnd x = r.rnd x := by
    rcases h with rfl | h
    · rw [L.rnd_zero, r.rnd_zero]
    · exact L.normal x (L.smallest_le.trans h)
  rw [← e]
  apply L.lim_eq
  rw [e]
  have := rnd_le (r := r) (x := x)
  linarith [L.big]

/-- numbers twice as large as the largest number are rounded to infinity -/
theorem lim_inf {x : ℝ} (h : 2 * L.biggest ≤ x) : L.lim (.fin x) = .inf := by
  have hb := L.biggest_pos
  have h1 : L.smallest ≤ |x| := by
    rw [abs_of_nonneg (by linarith)]
    have h2 := L.smallest_le
    have h3 := L.le_biggest
    have h4 : (1 : ℝ) / 2 ^ 250 ≤ 2 ^ 250 := by norm_num
    linarith
  have hc := r.close x
  have hu := r.u_le
  norm_num at hu
  rw [abs_of_nonneg (by linarith : 0 ≤ x)] at hc
  have h5 := abs_le.mp hc
  unfold lim
  dsimp only
  rw [if_pos]
  rw [L.normal x h1]
  nlinarith

theorem rnd_pos_iff {x : ℝ} : 0 < L.rnd x ↔ L.tiny / 2 < x := by
  have ht := L.tiny_pos
  constructor
  · intro h
    by_contra hc
    rcases le_total 0 x with hx | hx
    · have := (L.underflow x hx).mpr (not_lt.mp hc)
      linarith
    · have := L.mono hx
      rw [L.rnd_zero] at this
      linarith
  · intro h
    have hx : 0 ≤ x := by linarith
    have h1 := L.mono hx
    rw [L.rnd_zero] at h1
    refine lt_of_le_of_ne h1 fun h2 => ?_
    have := (L.underflow x hx).mp h2.symm
    linarith

theorem lim_pos_iff (x : ℝ) : XR.Lt (.fin 0) (L.lim (.fin x)) ↔ L.tiny / 2 < x := by
  rw [← L.rnd_pos_iff]
  have hb := L.biggest_pos
  unfold lim
  dsimp only
  split
  · exact ⟨fun _ => by linarith, fun _ => trivial⟩
  split
  · exact ⟨False.elim, fun _ => by linarith⟩
  · exact Iff.rfl

end Limits

namespace Lim

variable {r : Rounding} {L : Limits r}

@[simp] theorem val_div (a b : Lim L) : (a / b).val = L.lim (a.val / b.val) := rfl
@[simp] theorem val_mul (a b : Lim L) : (a * b).val = L.lim (a.val * b.val) := rfl
@[simp] theorem val_add (a b : Lim L) : (a + b).val = L.lim (a.val + b.val) := rfl
@[simp] theorem val_sub (a b : Lim L) : (a - b).val = L.lim (a.val - b.val) := rfl
@[simp] theorem val_neg (a : Lim L) : (-a).val = L.lim (-a.val) := rfl
@[simp] theorem gt_iff (a b : Lim L) : gt a b = true ↔ XR.Lt b.val a.val := by
  exact @decide_eq_true_iff _ (Classical.propDecidable _)
@[simp] theorem ge_iff (a b : Lim L) : ge a b = true ↔ XR.Le b.val a.val := by
  exact @decide_eq_true_iff _ (Classical.propDecidable _)
@[simp] theorem le_iff (a b : Lim L) : PyFloat.le a b = true ↔ XR.Le a.val b.val := by
  exact @decide_eq_true_iff _ (Classical.propDecidable _)
@[simp] theorem ne_iff (a b : Lim L) : ne a b = true ↔ ¬XR.Eq' a.val b.val := by
  rw [Py.ne, Bool.not_eq_true', ← Bool.not_eq_true]
  exact not_congr (@decide_eq_true_iff _ (Classical.propDecidable _))

theorem val_lit (q : Rat) : (lit q : Lim L).val = L.lim (.fin (q : ℝ)) := rfl

theorem val_zero : (lit 0 : Lim L).val = .fin 0 := by
  rw [val_lit, Limits.lim_moderate _ (by simp) (by simp)]; simp

theorem val_nat {n : ℕ} (h : n * r.u ≤ 1) (hb : n ≤ 2 ^ 249) : (lit (n : Rat) : Lim L).val = .fin n := by
  rw [val_lit, Limits.lim_moderate]
  · rw [← r.nat n h]; simp
  · rcases Nat.eq_zero_or_pos n with rfl | hn
    · simp
    · right
      have : (1 : ℝ) ≤ n := by exact_mod_cast hn
      rw [Rat.cast_natCast, abs_of_nonneg (by positivity)]
      refine le_trans ?_ this
      rw [div_le_one (by positivity)]
      exact one_le_pow₀ (by norm_num)
  · rw [Rat.cast_natCast, abs_of_nonneg (by positivity)]
    exact_mod_cast hb

theorem val_one : (lit 1 : Lim L).val = .fin 1 := by
  have hu := r.u_le
  norm_num at hu
  have := val_nat (L := L) (n := 1) (by push_cast; linarith) (Nat.one_le_pow _ _ (by norm_num))
  simpa using this

theorem div_one (a : Lim L) : a / lit 1 = a := by
  apply ext
  rw [val_div, val_one]
  have : a.val / XR.fin 1 = a.val := by
    cases h : a.val with
    | fin x => rw [XR.fin_div _ one_ne_zero]; simp
    | inf => show (if (0 : ℝ) ≤ 1 then _ else _) = _; simp
    | negInf => show (if (0 : ℝ) ≤ 1 then _ else _) = _; simp
    | nan => rfl
  rw [this]
  exact L.lim_rep_eq a.2

/-- when a quotient is positive -/
theorem div_pos_iff {a b : Lim L} {w : ℝ} (hb : b.val = .fin w) (hw : 0 < w) :
    gt (a / b) (lit 0) = true ↔ XR.Lt (.fin (L.tiny / 2 * w)) a.val := by
  rw [gt_iff, val_zero, val_div, hb]
  cases h : a.val with
  | fin x =>
    rw [XR.fin_div _ hw.ne', L.lim_pos_iff, XR.lt_fin, lt_div_iff₀ hw]
  | inf =>
    have : XR.inf / XR.fin w = .inf := by show (if 0 ≤ w then _ else _) = _; rw [if_pos hw.le]
    rw [this]
    exact ⟨fun _ => trivial, fun _ => trivial⟩
  | negInf =>
    have : XR.negInf / XR.fin w = .negInf := by show (if 0 ≤ w then _ else _) = _; rw [if_pos hw.le]
    rw [this]
    exact ⟨False.elim, False.elim⟩
  | nan => exact ⟨False.elim, False.elim⟩

end Lim

end OpenControls
