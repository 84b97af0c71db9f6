import Verif.Props.FloatRepr
import Verif.Props.Limited

/-!
# C119: files of composite pulses are read back without any error
-/

namespace OpenControls

open Spec PyFloat Py

set_option linter.unusedSectionVars false

section anyArithmetic

variable {α : Type} [Add α] [Sub α] [Mul α] [Div α] [Neg α] [PyFloat α]

/-- the numbers in a JSON file -/
theorem json_numbers {object : List (String × Val α)} (hn : (object.map Prod.fst).Nodup) {keys : List String}
    (hk : ∀ k, field object k ≠ none → k ∈ keys) {P : α → Prop}
    (h : ∀ k ∈ keys, ∀ v, field object k = some v → ∀ x ∈ v.numbers, P x) :
    ∀ x ∈ (FileContent.json object).numbers, P x := by
  intro x hx
  simp only [FileContent.numbers, List.mem_flatMap] at hx
  obtain ⟨kv, hkv, hx⟩ := hx
  have hf : field object kv.1 = some kv.2 := by
    clear hk h hx
    induction object with
    | nil => cases hkv
    | cons a l ih =>
      rw [List.map_cons, List.nodup_cons] at hn
      unfold field
      rcases List.mem_cons.mp hkv with rfl | hkv
      · simp [List.lookup]
      · have hne : (kv.1 == a.1) = false := by
          rw [beq_eq_false_iff_ne]
          rintro e
          exact hn.1 (e ▸ List.mem_map_of_mem hkv)
        rw [List.lookup, hne]
        exact ih hn.2 hkv
  exact h kv.1 (hk kv.1 (by rw [hf]; simp)) kv.2 hf x hx

/-- **C99** (any arithmetic), JSON in cylindrical coordinates, for a formatting that prints some numbers as JSON numbers
and the rest as `NaN` or `Infinity`. -/
theorem reload_json_some (fmt : α → String)
    (hfmt : ∀ x, isNumber (fmt x).toList = true ∨ isNonFinite (fmt x).toList)
    (parse : List Char → Option α) (c : DrivenControl α)
    (fs : FileSystem α) (filename : String) (m : α) (hm : c.maximumRabiRate = .ok m)
    (hnum : ∀ x ∈ m :: c.rabiRates.map (· / m) ++ c.azimuthalAngles ++ c.detunings ++ c.durations,
      isNumber (fmt x).toList = true)
    (hparse : ∀ x ∈ m :: c.rabiRates.map (· / m) ++ c.azimuthalAngles ++ c.detunings ++ c.durations,
      parse (fmt x).toList = some x) :
    ∃ fs' content, c.exportToFile fs filename "Q-CTRL expanded" "JSON" "cylindrical" = (.ok (), fs') ∧
      fs' filename = some content ∧
      reloadJson parse (fileText fmt content) = some (DrivenControl.new c.durations
        (some (c.rabiRates.map fun x => m * (x / m))) (some c.azimuthalAngles) (some c.detunings) c.name) := by
  obtain ⟨fs', content, h1, h2, -, -, h3⟩ := C74_json_text fmt hfmt c fs filename "cylindrical" m hm (.inr rfl)
  obtain ⟨fs2, object, k1, k2, k3, k4, k5, k6, k7, k8, -⟩ := C12_json c fs filename "cylindrical" m hm (.inr rfl)
  obtain ⟨k8, k9, k10⟩ := k8 rfl
  have e1 : fs2 = fs' := (Prod.mk.inj (k1.symm.trans h1)).2
  have e2 : content = .json object := by
    rw [e1, h2] at k2
    exact Option.some.inj k2
  simp only [List.cons_append, List.mem_cons, List.mem_append] at hparse hnum
  obtain ⟨obj, h4, -, h5, h6, h7, h8, h9, -⟩ := h3 (by
    rw [e2]
    refine json_numbers k3 k10 ?_
    intro k hk v hv x hx
    simp only [List.mem_cons, List.not_mem_nil, or_false] at hk
    rcases hk with rfl | rfl | rfl | rfl | rfl | rfl
    · rw [k4] at hv; cases hv; exact hnum x (.inl (by simpa [Val.numbers] using hx))
    · rw [k5] at hv; cases hv; exact hnum x (by simp only [Val.numbers] at hx; tauto)
    · rw [k6] at hv; cases hv; exact hnum x (by simp only [Val.numbers] at hx; tauto)
    · rw [k7] at hv
      cases hn : c.name with
      | none => rw [hn] at hv; cases hv
      | some n => rw [hn] at hv; cases hv; simp [Val.numbers] at hx
    · rw [k8] at hv; cases hv; exact hnum x (by simp only [Val.numbers] at hx; tauto)
    · rw [k9] at hv; cases hv; exact hnum x (by simp only [Val.numbers] at hx; tauto))
  obtain ⟨h9, h10⟩ := h9 rfl
  refine ⟨fs', content, h1, h2, ?_⟩
  unfold reloadJson
  simp only [h4, h5, h6, h7, h8, h9, h10, Option.bind_eq_bind, Option.bind_some]
  rw [parse_json fmt parse _ fun x hx => hparse x (by tauto),
    parse_json fmt parse _ fun x hx => hparse x (by tauto),
    parse_json fmt parse _ fun x hx => hparse x (by tauto),
    parse_json fmt parse _ fun x hx => hparse x (by tauto)]
  simp only [jsonNumber, hparse m (by simp), Option.bind_some, List.map_map]
  cases c.name <;> simp [jsonText] <;> rfl

theorem npAmax_replicate (x : α) (n : ℕ) : Py.npAmax (List.replicate (n + 1) x) = .ok x := by
  have h : Py.npMaximum x x = x := by unfold Py.npMaximum; split <;> [rfl; (split <;> rfl)]
  have key : ∀ n, (List.replicate n x).foldl Py.npMaximum x = x := by
    intro n
    induction n with
    | zero => rfl
    | succ n ih => rw [List.replicate_succ, List.foldl_cons, h, ih]
  rw [List.replicate_succ]
  exact congrArg Except.ok (key n)

/-- a composite pulse with constant Rabi rate -/
theorem scheme_rates {s : Scheme} (hs : s ≠ .wamf1) {θ Ω φ : α} {name : Option String} {c : DrivenControl α}
    (h : s.call θ Ω φ name = .ok c) :
    c.maximumRabiRate = .ok Ω ∧ (∀ x ∈ c.rabiRates, x = Ω) ∧ gt Ω (lit 0) = true := by
  obtain ⟨h0, -, t, ht, -, -, rfl⟩ := (call_ok_iff hs θ Ω φ name c).mp h
  obtain ⟨n, hn⟩ : ∃ n, t.length = n + 1 :=
    Nat.exists_eq_succ_of_ne_zero (fun e => schemeTable_ne_nil hs (List.length_eq_zero_iff.mp e ▸ ht))
  refine ⟨?_, fun x hx => List.eq_of_mem_replicate hx, h0⟩
  show Py.npAmax (List.replicate t.length Ω) = _
  rw [hn, npAmax_replicate]

theorem new_of_constructed_any {c : DrivenControl α} (h : c.Constructed) :
    DrivenControl.new c.durations (some c.rabiRates) (some c.azimuthalAngles) (some c.detunings) c.name = .ok c := by
  obtain ⟨l1, l2, l3, l4⟩ := h.lengths
  obtain ⟨t, ra, a, d, n, h⟩ := h
  have hs := C02_stores_arguments _ _ _ _ _ _ h
  rw [DrivenControl.new_eq] at h
  by_cases h1 : (t.all fun t => gt t (lit 0)) = true
  · rw [if_pos h1] at h
    by_cases h2 : (∀ l ∈ ra, l.length = t.length) ∧ (∀ l ∈ a, l.length = t.length) ∧ ∀ l ∈ d, l.length = t.length
    · rw [if_pos h2] at h
      by_cases h3 : ((ra.getD (List.replicate t.length (lit 0))).all fun x => ge x (lit 0)) = true
      · rw [if_pos h3] at h
        have e := Except.ok.inj h
        rw [DrivenControl.new_eq, if_pos (by rw [hs.1]; exact h1), if_pos (by
          simp only [Option.mem_def, Option.some.injEq, forall_eq']
          exact ⟨l1.trans l4.symm, l2.trans l4.symm, l3.trans l4.symm⟩), if_pos (by rw [← e]; exact h3)]
        rfl
      · rw [if_neg h3] at h; cases h
    · rw [if_neg h2] at h; cases h
  · rw [if_neg h1] at h; cases h

theorem reloaded_same {c : DrivenControl α} (h : c.Constructed) {m : α} (hx : ∀ x ∈ c.rabiRates, m * (x / m) = x) :
    DrivenControl.new c.durations (some (c.rabiRates.map fun x => m * (x / m))) (some c.azimuthalAngles)
      (some c.detunings) c.name = .ok c := by
  have e : (c.rabiRates.map fun x => m * (x / m)) = c.rabiRates := by
    conv_rhs => rw [← List.map_id c.rabiRates]
    exact List.map_congr_left hx
  rw [e, new_of_constructed_any h]

end anyArithmetic

section

variable {p : ℕ} {hp : 20 ≤ p} {choose : ℝ → ℕ × ℤ}

/-- **C119.** A control whose Rabi rates are all equal to their maximum or zero is read back from the text of a CSV or
JSON file as it was, although rates are divided and multiplied by the maximum and all numbers are written in decimal. -/
theorem C119_control (hc : Prints (Rounding.bits p hp).rnd choose) (c : DrivenControl (Fl (Rounding.bits p hp)))
    (h : c.Constructed) (m : Fl (Rounding.bits p hp)) (hm : 0 < m.val) (hmem : m ∈ c.rabiRates)
    (hrates : ∀ x ∈ c.rabiRates, x = m ∨ x.val = 0) (fs : FileSystem (Fl (Rounding.bits p hp))) (filename : String) :
    (c.name ≠ none → ∃ fs' content,
      c.exportToFile fs filename "Q-CTRL expanded" "CSV" "cylindrical" = (.ok (), fs') ∧
      fs' filename = some content ∧
      reloadCsv (readFl (Rounding.bits p hp)) c.name (fileText (flText choose) content) = some (.ok c)) ∧
    ∃ fs' content,
      c.exportToFile fs filename "Q-CTRL expanded" "JSON" "cylindrical" = (.ok (), fs') ∧
      fs' filename = some content ∧
      reloadJson (readFl (Rounding.bits p hp)) (fileText (flText choose) content) = some (.ok c) := by
  have hmax : c.maximumRabiRate = .ok m := by
    obtain ⟨M, h1, h2, h3⟩ := npAmax_rounded (List.ne_nil_of_mem hmem)
    have h4 := h3 m hmem
    rcases hrates M h2 with rfl | h0
    · exact h1
    · linarith
  have hsame : ∀ x ∈ c.rabiRates, m * (x / m) = x := by
    intro x hx
    apply Fl.ext
    rw [Fl.val_mul, Fl.val_div]
    rcases hrates x hx with rfl | h0
    · rw [div_self hm.ne', Rounding.rnd_one, mul_one]
      exact x.2
    · rw [h0]; simp
  constructor
  · intro hn
    obtain ⟨nm, hnm⟩ := Option.ne_none_iff_exists'.mp hn
    obtain ⟨fs', content, h1, h2, h3⟩ := C99_csv (flText choose) (readFl (Rounding.bits p hp)) c h fs filename nm m hnm
      hmax (fun x _ => flText_read hc x) c.name
    exact ⟨fs', content, h1, h2, by rw [h3, reloaded_same h hsame]⟩
  · obtain ⟨fs', content, h1, h2, h3⟩ := reload_json_some (flText choose) (fun x => .inl (flText_number hc x))
      (readFl (Rounding.bits p hp)) c fs filename m hmax (fun x _ => flText_number hc x) (fun x _ => flText_read hc x)
    exact ⟨fs', content, h1, h2, by rw [h3, reloaded_same h hsame]⟩

/-- **C119.** So is every predefined composite pulse but WAMF1, whatever the arguments. -/
theorem C119_scheme (hc : Prints (Rounding.bits p hp).rnd choose) {s : Scheme} (hs : s ≠ .wamf1)
    (θ Ω φ : Fl (Rounding.bits p hp)) (name : Option String) (c : DrivenControl (Fl (Rounding.bits p hp)))
    (h : s.call θ Ω φ name = .ok c) (fs : FileSystem (Fl (Rounding.bits p hp))) (filename : String) :
    (name ≠ none → ∃ fs' content,
      c.exportToFile fs filename "Q-CTRL expanded" "CSV" "cylindrical" = (.ok (), fs') ∧
      fs' filename = some content ∧
      reloadCsv (readFl (Rounding.bits p hp)) name (fileText (flText choose) content) = some (.ok c)) ∧
    ∃ fs' content,
      c.exportToFile fs filename "Q-CTRL expanded" "JSON" "cylindrical" = (.ok (), fs') ∧
      fs' filename = some content ∧
      reloadJson (readFl (Rounding.bits p hp)) (fileText (flText choose) content) = some (.ok c) := by
  obtain ⟨h1, h2, h3⟩ := scheme_rates hs h
  have hname : c.name = name := by
    obtain ⟨-, -, t, -, -, -, rfl⟩ := (call_ok_iff hs θ Ω φ name c).mp h
    rfl
  obtain ⟨M, k1, k2, -⟩ := npAmax_rounded (l := c.rabiRates) (by
    rintro e
    unfold DrivenControl.maximumRabiRate at h1
    rw [e] at h1
    cases h1)
  rw [← hname]
  exact C119_control hc c (call_constructed s θ Ω φ name c h) Ω (by simpa using h3) (h2 M k2 ▸ k2)
    (fun x hx => .inl (h2 x hx)) fs filename

/-- **C119.** In double precision with its limits, the same holds if all numbers are finite. -/
theorem C119_control_limited (hc : Prints Limits.double.rnd choose) (c : DrivenControl (Lim Limits.double))
    (h : c.Constructed) (m : Lim Limits.double) (hmax : c.maximumRabiRate = .ok m) (hm : gt m (lit 0) = true)
    (hrates : ∀ x ∈ c.rabiRates, x = m ∨ x.val = .fin 0)
    (hfin : ∀ x ∈ m :: c.azimuthalAngles ++ c.detunings ++ c.durations, ∃ v, x.val = .fin v)
    (fs : FileSystem (Lim Limits.double)) (filename : String) :
    (c.name ≠ none → ∃ fs' content,
      c.exportToFile fs filename "Q-CTRL expanded" "CSV" "cylindrical" = (.ok (), fs') ∧
      fs' filename = some content ∧
      reloadCsv (readLim Limits.double) c.name (fileText (limText choose) content) = some (.ok c)) ∧
    ∃ fs' content,
      c.exportToFile fs filename "Q-CTRL expanded" "JSON" "cylindrical" = (.ok (), fs') ∧
      fs' filename = some content ∧
      reloadJson (readLim Limits.double) (fileText (limText choose) content) = some (.ok c) := by
  simp only [List.cons_append, List.mem_cons, List.mem_append] at hfin
  obtain ⟨v, hv⟩ := hfin m (by simp)
  have hv0 : v ≠ 0 := by
    rw [Lim.gt_iff, hv, Lim.val_zero] at hm
    have : 0 < v := hm
    exact this.ne'
  have h0 : Limits.double.lim (.fin 0) = .fin 0 := by
    have := Limits.double.lim_rep_eq (lit 0 : Lim Limits.double).2
    have e : (lit 0 : Lim Limits.double).1 = .fin 0 := Lim.val_zero
    rwa [e] at this
  have h1 : Limits.double.lim (.fin 1) = .fin 1 := by
    have := Limits.double.lim_rep_eq (lit 1 : Lim Limits.double).2
    have e : (lit 1 : Lim Limits.double).1 = .fin 1 := Lim.val_one
    rwa [e] at this
  have hdiv : ∀ x ∈ c.rabiRates, (x / m).val = .fin 1 ∧ x = m ∨ (x / m).val = .fin 0 ∧ x.val = .fin 0 := by
    intro x hx
    rcases hrates x hx with rfl | e
    · refine .inl ⟨?_, rfl⟩
      rw [Lim.val_div, hv, XR.fin_div _ hv0, div_self hv0, h1]
    · refine .inr ⟨?_, e⟩
      rw [Lim.val_div, hv, e, XR.fin_div _ hv0, zero_div, h0]
  have hsame : ∀ x ∈ c.rabiRates, m * (x / m) = x := by
    intro x hx
    apply Lim.ext
    rw [Lim.val_mul]
    rcases hdiv x hx with ⟨e1, e2⟩ | ⟨e1, e2⟩
    · rw [e1, e2, hv, XR.fin_mul, mul_one, ← hv]
      exact Limits.double.lim_rep_eq m.2
    · rw [e1, e2, hv, XR.fin_mul, mul_zero, h0]
  have hall : ∀ x ∈ m :: c.rabiRates.map (· / m) ++ c.azimuthalAngles ++ c.detunings ++ c.durations,
      ∃ v, x.val = .fin v := by
    intro x hx
    simp only [List.cons_append, List.mem_cons, List.mem_append, List.mem_map] at hx
    rcases hx with hx | ((⟨y, hy, rfl⟩ | hx) | hx) | hx
    · exact hfin x (.inl hx)
    · rcases hdiv y hy with ⟨e, -⟩ | ⟨e, -⟩ <;> exact ⟨_, e⟩
    all_goals exact hfin x (by tauto)
  constructor
  · intro hn
    obtain ⟨nm, hnm⟩ := Option.ne_none_iff_exists'.mp hn
    obtain ⟨fs', content, h1, h2, h3⟩ := C117_reload_limited hc c h fs filename m hmax hall nm hnm
    exact ⟨fs', content, h1, h2, by rw [h3, reloaded_same h hsame]⟩
  · have hfmt : ∀ x : Lim Limits.double,
        isNumber (limText choose x).toList = true ∨ isNonFinite (limText choose x).toList := by
      intro x
      cases hx : x.val with
      | fin v => exact .inl (C117_limited hc x ⟨v, hx⟩).1
      | inf => exact .inr (by unfold limText; rw [hx]; exact .inr (.inl rfl))
      | negInf => exact .inr (by unfold limText; rw [hx]; exact .inr (.inr rfl))
      | nan => exact .inr (by unfold limText; rw [hx]; exact .inl rfl)
    obtain ⟨fs', content, h1, h2, h3⟩ := reload_json_some (limText choose) hfmt (readLim Limits.double) c fs filename m hmax
      (fun x hx => (C117_limited hc x (hall x hx)).1) (fun x hx => (C117_limited hc x (hall x hx)).2)
    exact ⟨fs', content, h1, h2, by rw [h3, reloaded_same h hsame]⟩

/-- **C119.** So are the composite pulses but WAMF1 whose angles and durations are finite. -/
theorem C119_scheme_limited (hc : Prints Limits.double.rnd choose) {s : Scheme} (hs : s ≠ .wamf1)
    (θ Ω φ : Lim Limits.double) (name : Option String) (c : DrivenControl (Lim Limits.double))
    (h : s.call θ Ω φ name = .ok c) (hfin : ∀ x ∈ c.azimuthalAngles ++ c.durations, ∃ v, x.val = .fin v)
    (fs : FileSystem (Lim Limits.double)) (filename : String) :
    (name ≠ none → ∃ fs' content,
      c.exportToFile fs filename "Q-CTRL expanded" "CSV" "cylindrical" = (.ok (), fs') ∧
      fs' filename = some content ∧
      reloadCsv (readLim Limits.double) name (fileText (limText choose) content) = some (.ok c)) ∧
    ∃ fs' content,
      c.exportToFile fs filename "Q-CTRL expanded" "JSON" "cylindrical" = (.ok (), fs') ∧
      fs' filename = some content ∧
      reloadJson (readLim Limits.double) (fileText (limText choose) content) = some (.ok c) := by
  obtain ⟨h1, h2, h3⟩ := scheme_rates hs h
  have hcon := call_constructed s θ Ω φ name c h
  obtain ⟨g0, -, t, ht, g1, -, rfl⟩ := (call_ok_iff hs θ Ω φ name c).mp h
  refine C119_control_limited hc _ hcon Ω h1 h3 (fun x hx => .inl (h2 x hx)) ?_ fs filename
  intro x hx
  simp only [List.cons_append, List.mem_cons, List.mem_append] at hx hfin
  rcases hx with rfl | (hx | hx) | hx
  · -- an infinite rate makes durations zero or undefined
    obtain ⟨a, l, rfl⟩ := List.exists_cons_of_ne_nil (l := t) (fun e => schemeTable_ne_nil hs (ht.trans (congrArg _ e)))
    have hd := g1 a (by simp)
    rw [Lim.gt_iff, Lim.val_zero, Lim.val_div] at hd
    rw [Lim.gt_iff, Lim.val_zero] at g0
    cases hx : x.val with
    | fin v => exact ⟨v, rfl⟩
    | nan => rw [hx] at g0; exact absurd g0 (by simp [XR.Lt])
    | negInf => rw [hx] at g0; exact absurd g0 (by simp [XR.Lt])
    | inf =>
      rw [hx] at hd
      have h0 : Limits.double.lim (.fin 0) = .fin 0 := by
        have := Limits.double.lim_rep_eq (lit 0 : Lim Limits.double).2
        have e : (lit 0 : Lim Limits.double).1 = .fin 0 := Lim.val_zero
        rwa [e] at this
      cases ha : a.1.val with
      | fin w =>
        rw [ha, show XR.fin w / XR.inf = XR.fin 0 from rfl, h0] at hd
        exact absurd hd (lt_irrefl (0 : ℝ))
      | inf => rw [ha] at hd; exact hd.elim
      | negInf => rw [ha] at hd; exact hd.elim
      | nan => rw [ha] at hd; exact hd.elim
  · exact hfin x (.inl hx)
  · rw [List.eq_of_mem_replicate hx]
    exact ⟨0, Lim.val_zero⟩
  · exact hfin x (.inr hx)

theorem same_finite {r : Rounding} {L : Limits r} {l : List (Lim L)} {k : List (Fl r)} (h : List.Forall₂ SameValue l k) :
    ∀ x ∈ l, ∃ v, x.val = .fin v := by
  induction h with
  | nil => intro x hx; cases hx
  | cons h _ ih =>
    intro x hx
    rcases List.mem_cons.mp hx with rfl | hx
    · exact ⟨_, h⟩
    · exact ih x hx

/-- **C119.** From the arguments to the file and back in double precision, with rounding, overflow, underflow, and decimal
texts: whoever reads the text of the file of a BB1 pulse with a rotation and a rate in `[2⁻¹⁰⁰, 4π]` and `[2⁻¹⁰⁰, 2¹⁰⁰]`
gets a control that performs the rotation up to `(θ / 2 + 13) u`. -/
theorem C119_bb1 (hc : Prints Limits.double.rnd choose) {θ' Ω' φ' : Lim Limits.double} {θ Ω φ : Fl Rounding.double}
    (hθ : SameValue θ' θ) (hΩ : SameValue Ω' Ω) (hφ : SameValue φ' φ) (h1 : 1 / 2 ^ 100 ≤ θ.val)
    (h2 : θ.val ≤ 4 * Rounding.double.rnd Real.pi) (w1 : 1 / 2 ^ 100 ≤ Ω.val) (w2 : Ω.val ≤ 2 ^ 100)
    (h3 : |φ.val| ≤ 2 ^ 100) (name : String) (fs : FileSystem (Lim Limits.double)) (filename : String) :
    ∃ c, newBB1Control θ' Ω' φ' (some name) = .ok c ∧
      (∃ fs' content c' d, c.exportToFile fs filename "Q-CTRL expanded" "CSV" "cylindrical" = (.ok (), fs') ∧
        fs' filename = some content ∧
        reloadCsv (readLim Limits.double) (some name) (fileText (limText choose) content) = some (.ok c') ∧
        SameControl c' d ∧ PerformsWithin ((θ.val / 2 + 13) * Rounding.double.u) d (rotation θ.val φ.val)) ∧
      ∃ fs' content c' d, c.exportToFile fs filename "Q-CTRL expanded" "JSON" "cylindrical" = (.ok (), fs') ∧
        fs' filename = some content ∧
        reloadJson (readLim Limits.double) (fileText (limText choose) content) = some (.ok c') ∧
        SameControl c' d ∧ PerformsWithin ((θ.val / 2 + 13) * Rounding.double.u) d (rotation θ.val φ.val) := by
  obtain ⟨c, d, e, hs, hd⟩ := C109_in_range_bb1 hθ hΩ hφ h1 h2 w1 w2 h3 (some name)
  obtain ⟨k1, fs2, content2, k2, k3, k4⟩ := C119_scheme_limited hc (s := .bb1) (by simp) θ' Ω' φ' (some name) c e (by
    intro x hx
    rcases List.mem_append.mp hx with hx | hx
    · exact same_finite hs.2.1 x hx
    · exact same_finite hs.2.2.2.1 x hx) fs filename
  obtain ⟨fs1, content1, l2, l3, l4⟩ := k1 (by simp)
  exact ⟨c, e, ⟨fs1, content1, c, d, l2, l3, l4, hs, hd⟩, fs2, content2, c, d, k2, k3, k4, hs, hd⟩

end

/-- the arguments 1, 5 and -3 of a BB1 pulse, and a way to print numbers -/
example : ∃ choose, Prints Limits.double.rnd choose ∧
    SameValue (lit 1 : Lim Limits.double) (lit 1 : Fl Rounding.double) ∧
    SameValue (lit 5 : Lim Limits.double) (lit 5) ∧ SameValue (lit (-3) : Lim Limits.double) (lit (-3)) ∧
    1 / 2 ^ 100 ≤ (lit 1 : Fl Rounding.double).val ∧
    (lit 1 : Fl Rounding.double).val ≤ 4 * Rounding.double.rnd Real.pi := by
  obtain ⟨choose, hc⟩ := C117_exists C117_double
  have e : (lit 1 : Fl Rounding.double).val = 1 := by simp [Rounding.rnd_one]
  refine ⟨choose, hc, same_lit (by norm_num) (by norm_num), same_lit (by norm_num) (by norm_num),
    same_lit (by norm_num) (by norm_num), by rw [e]; norm_num, ?_⟩
  have := (rnd_pi_bounds (r := Rounding.double)).1
  rw [e]
  norm_num at this
  linarith

theorem twenty_le : 20 ≤ 53 := by norm_num

local notation "bits53" => Rounding.bits 53 twenty_le

/-- a BB1 pulse with rounding -/
example : ∃ choose c, Prints (bits53).rnd choose ∧
    Scheme.bb1.call (lit 1 : Fl bits53) (lit 5) (lit (-3)) (some "pulse") = .ok c := by
  obtain ⟨choose, hc⟩ := C117_exists (C117_bits 53 (by norm_num))
  have e1 : (lit 1 : Fl bits53).val = 1 := by simp [Rounding.rnd_one]
  have e5 : 0 < (lit 5 : Fl bits53).val := by
    rw [Fl.val_lit, rnd_pos]; norm_num
  have := (rnd_pi_bounds (r := bits53)).1
  norm_num at this
  obtain ⟨c, h, -⟩ := (C76_bb1 (lit 1 : Fl bits53) (lit 5) (lit (-3)) (some "pulse")).1
    ⟨e5, by rw [e1]; norm_num, by rw [e1]; linarith⟩
  exact ⟨choose, c, hc, h⟩

/-- two segments with drive around one without -/
example : ∃ c : DrivenControl (Fl bits53), c.Constructed ∧ (lit 1 : Fl bits53) ∈ c.rabiRates ∧
    0 < (lit 1 : Fl bits53).val ∧ (∀ x ∈ c.rabiRates, x = lit 1 ∨ x.val = 0) ∧ ∃ x ∈ c.rabiRates, x.val = 0 := by
  have e1 : (lit 1 : Fl bits53).val = 1 := by simp [Rounding.rnd_one]
  have e0 : (lit 0 : Fl bits53).val = 0 := Fl.val_lit_zero
  refine ⟨⟨[lit 1, lit 0, lit 1], [lit 0, lit 1, lit 1], [lit 0, lit 0, lit 1], [lit 1, lit 1, lit 1], none⟩,
    ⟨_, _, _, _, _, new_of_rounded (by simp [-Fl.val_lit, e1]) rfl rfl rfl (by simp [-Fl.val_lit, e1, e0])⟩,
    by simp, by rw [e1]; norm_num, by simp [-Fl.val_lit, e0], lit 0, by simp, e0⟩

theorem forty_nine : (bits53).rnd (49 * (bits53).rnd (1 / 49)) < 1 := by
  show Bits.rnd 53 (49 * Bits.rnd 53 (1 / 49)) < 1
  have h1 : Bits.rnd 53 (1 / 49) = 5882252574524729 * 2 ^ (-58 : ℤ) := by
    have := Bits.roundPos_scaled (p := 53) (y := 2 ^ 58 / 49) (j := -58) (k := 0) (by norm_num) (by norm_num)
    rw [Bits.nearest_eq (n := 5882252574524729) (by rw [abs_lt]; constructor <;> norm_num)] at this
    rw [Bits.rnd_of_nonneg (by norm_num), show (1 / 49 : ℝ) = 2 ^ 58 / 49 * 2 ^ (-58 : ℤ) by norm_num, this]
    norm_num
  have := Bits.roundPos_scaled (p := 53) (y := 49 * 5882252574524729) (j := -58) (k := 5) (by norm_num) (by norm_num)
  rw [Bits.nearest_eq (n := 2 ^ 53 - 1) (by rw [abs_lt]; constructor <;> norm_num)] at this
  rw [h1, ← mul_assoc, Bits.rnd_of_nonneg (by positivity), this]
  norm_num

/-- **C119**, the condition is needed: of a control with the Rabi rates 49 and 1, in 53 bits, the second rate that is read
back is less than 1. -/
theorem C119_lossy : ∃ c : DrivenControl (Fl bits53), c.Constructed ∧ c.name = some "pulse" ∧
    (∃ x ∈ c.rabiRates, x.val = 1) ∧
    ∀ choose, Prints (bits53).rnd choose → ∀ fs filename,
      ∃ fs' content, ∃ c' : DrivenControl (Fl bits53),
        c.exportToFile fs filename "Q-CTRL expanded" "CSV" "cylindrical" = (.ok (), fs') ∧
        fs' filename = some content ∧
        reloadCsv (readFl bits53) c.name (fileText (flText choose) content) = some (.ok c') ∧
        ∃ x ∈ c'.rabiRates, 0 < x.val ∧ x.val < 1 := by
  have e49 : (lit 49 : Fl bits53).val = 49 := by
    have := Bits.rnd_nat (p := 53) (by norm_num) (n := 49) (by norm_num)
    rw [Fl.val_lit]
    push_cast at this ⊢
    exact this
  have e1 : (lit 1 : Fl bits53).val = 1 := by simp [Rounding.rnd_one]
  have e0 : (lit 0 : Fl bits53).val = 0 := Fl.val_lit_zero
  let c : DrivenControl (Fl bits53) := ⟨[lit 49, lit 1], [lit 0, lit 0], [lit 0, lit 0], [lit 1, lit 1], some "pulse"⟩
  have hcon : c.Constructed := ⟨_, _, _, _, _, new_of_rounded (durations := [lit 1, lit 1]) (rates := [lit 49, lit 1])
    (azimuths := [lit 0, lit 0]) (detunings := [lit 0, lit 0]) (name := some "pulse") (by simp [-Fl.val_lit, e1]) rfl rfl rfl
    (by simp [-Fl.val_lit, e1, e49])⟩
  refine ⟨c, hcon, rfl, ⟨lit 1, by simp [c], e1⟩, ?_⟩
  intro choose hc fs filename
  obtain ⟨M, h1, h2, h3⟩ := npAmax_rounded (l := c.rabiRates) (by simp [c])
  have hM : M = lit 49 := by
    have h4 := h3 (lit 49) (by simp [c])
    simp only [c, List.mem_cons, List.not_mem_nil, or_false] at h2
    rcases h2 with h2 | h2
    · exact h2
    · rw [h2, e49, e1] at h4
      norm_num at h4
  subst hM
  obtain ⟨fs', content, k1, k2, k3⟩ := C99_csv (flText choose) (readFl bits53) c hcon fs filename "pulse" (lit 49) rfl h1
    (fun x _ => flText_read hc x) c.name
  have hlt : ((lit 49 : Fl bits53) * (lit 1 / lit 49)).val < 1 := by
    rw [Fl.val_mul, Fl.val_div, e49, e1]
    exact forty_nine
  have hpos : ∀ x : Fl bits53, 0 < x.val → 0 < ((lit 49 : Fl bits53) * (x / lit 49)).val := by
    intro x hx
    rw [Fl.val_mul, Fl.val_div, rnd_pos, e49]
    have : 0 < (bits53).rnd (x.val / 49) := by rw [rnd_pos]; positivity
    positivity
  refine ⟨fs', content, ⟨_, _, _, _, _⟩, k1, k2, k3.trans (congrArg some
    (new_of_rounded (by simp [c, -Fl.val_lit, e1]) rfl rfl rfl ?_)), ⟨(lit 49 : Fl bits53) * (lit 1 / lit 49), ?_, ?_, hlt⟩⟩
  · intro x hx
    simp only [c, List.map_cons, List.map_nil, List.mem_cons, List.not_mem_nil, or_false] at hx
    rcases hx with rfl | rfl
    · exact (hpos _ (by rw [e49]; norm_num)).le
    · exact (hpos _ (by rw [e1]; norm_num)).le
  · simp [c]
  · exact hpos _ (by rw [e1]; norm_num)

end OpenControls
