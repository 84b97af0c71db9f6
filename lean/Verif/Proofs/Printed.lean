import Verif.Spec.Printed
import Verif.Props.Text
import Verif.Proofs.FileText

/-!
# Reading printed controls and sequences
-/

namespace OpenControls

open Spec PyFloat

set_option linter.unusedSectionVars false

namespace Printed

variable {α : Type} [Add α] [Sub α] [Mul α] [Div α] [Neg α] [PyFloat α]

/-- a text without the characters that separate numbers -/
def Plain (cs : List Char) : Prop := cs ≠ [] ∧ ∀ c ∈ cs, c ≠ ',' ∧ c ≠ ' ' ∧ c ≠ ']' ∧ c ≠ '\n'

theorem toList_joinWith (sep : String) (l : List String) :
    (joinWith sep l).toList = [sep.toList].flatten.intercalate (l.map String.toList) := by
  rw [joinWith_eq]
  induction l with
  | nil => simp
  | cons x xs ih =>
    cases xs with
    | nil => simp
    | cons y ys =>
      rw [String.intercalate_cons_cons, String.toList_append, String.toList_append, ih]
      simp [List.intercalate]

theorem splitOn_append (x : Char) (a b : List Char) (h : x ∉ a) : (a ++ x :: b).splitOn x = a :: b.splitOn x := by
  rw [List.splitOn_eq_splitOnP, List.splitOn_eq_splitOnP]
  exact List.splitOnP_append_cons_of_forall_mem (by
    intro c hc
    have : c ≠ x := fun e => h (e ▸ hc)
    simpa using this) x (by simp) b

theorem splitOn_append_last (x : Char) (a b : List Char) (h : x ∉ b) :
    (a ++ x :: b).splitOn x = a.splitOn x ++ [b] := by
  rw [List.splitOn_eq_splitOnP, List.splitOn_eq_splitOnP, List.splitOnP_append_cons a b (by simp),
    List.splitOnP_eq_singleton (xs := b)]
  intro c hc
  have : c ≠ x := fun e => h (e ▸ hc)
  simpa using this

theorem Plain.drop_spaces {cs sp : List Char} (h : Plain cs) (hsp : ∀ c ∈ sp, c = ' ') :
    (sp ++ cs).dropWhile (· == ' ') = cs := by
  rw [List.dropWhile_append_of_pos (by intro c hc; rw [hsp c hc]; rfl)]
  cases cs with
  | nil => rfl
  | cons c cs => exact List.dropWhile_cons_of_neg (by have := (h.2 c (by simp)).2.1; simpa using this)

/-- reading a list of numbers -/
theorem listed_join {β : Type} (parse : List Char → Option α) (value : β → α) (render : β → List Char) (sp : List Char)
    (hsp : ∀ c ∈ sp, c = ' ') (l : List β) (hp : ∀ x ∈ l, Plain (render x))
    (hr : ∀ x ∈ l, parse (render x) = some (value x)) :
    listed parse ((',' :: sp).intercalate (l.map render)) = some (l.map value) := by
  have key : ∀ (l : List β) (sp' : List Char), (∀ c ∈ sp', c = ' ') → l ≠ [] → (∀ x ∈ l, Plain (render x)) →
      (∀ x ∈ l, parse (render x) = some (value x)) →
      ((sp' ++ (',' :: sp).intercalate (l.map render)).splitOn ',').mapM
        (fun entry => parse (entry.dropWhile (· == ' '))) = some (l.map value) := by
    intro l
    induction l with
    | nil => intro _ _ h; exact absurd rfl h
    | cons x xs ih =>
      intro sp' hsp' _ hp hr
      have hpx := hp x (by simp)
      have hc : ',' ∉ sp' ++ render x := by
        intro h
        rcases List.mem_append.mp h with h | h
        · exact absurd (hsp' _ h) (by decide)
        · exact (hpx.2 _ h).1 rfl
      cases xs with
      | nil =>
        rw [List.map_singleton, List.intercalate_singleton, List.splitOn_eq_singleton hc]
        simp [hpx.drop_spaces hsp', hr x (by simp)]
      | cons y ys =>
        have e : sp' ++ (',' :: sp).intercalate ((x :: y :: ys).map render) =
            (sp' ++ render x) ++ ',' :: (sp ++ (',' :: sp).intercalate ((y :: ys).map render)) := by
          simp [List.intercalate]
        rw [e, splitOn_append _ _ _ hc, List.mapM_cons, hpx.drop_spaces hsp', hr x (by simp),
          ih sp hsp (by simp) (fun z hz => hp z (by simp [hz])) (fun z hz => hr z (by simp [hz]))]
        rfl
  unfold listed
  cases l with
  | nil => simp [List.intercalate]
  | cons x xs =>
    have hne : (',' :: sp).intercalate ((x :: xs).map render) ≠ [] := by
      have := (hp x (by simp)).1
      cases xs with
      | nil => simpa [List.intercalate] using this
      | cons y ys => simp [List.intercalate, this]
    rw [if_neg (by simpa using hne)]
    exact key (x :: xs) [] (by simp) (by simp) hp hr

theorem intercalate_chars {β : Type} (render : β → List Char) (sp : List Char) (hsp : ∀ c ∈ sp, c = ' ') (l : List β)
    (hp : ∀ x ∈ l, Plain (render x)) :
    ∀ c ∈ (',' :: sp).intercalate (l.map render), c ≠ ']' ∧ c ≠ '\n' := by
  induction l with
  | nil => simp [List.intercalate]
  | cons x xs ih =>
    have hx := (hp x (by simp)).2
    intro c hc
    cases xs with
    | nil =>
      have : c ∈ render x := by simpa [List.intercalate] using hc
      exact (hx c this).2.2
    | cons y ys =>
      have e : (',' :: sp).intercalate ((x :: y :: ys).map render) =
          render x ++ ',' :: (sp ++ (',' :: sp).intercalate ((y :: ys).map render)) := by
        simp [List.intercalate]
      rw [e] at hc
      simp only [List.mem_append, List.mem_cons] at hc
      rcases hc with h | rfl | h | h
      · exact (hx c h).2.2
      · decide
      · rw [hsp c h]; decide
      · exact ih (fun z hz => hp z (by simp [hz])) c h

/-- reading a line with a list -/
theorem listLine_join {β : Type} (parse : List Char → Option α) (title : String) (value : β → α)
    (render : β → List Char) (sp : List Char) (hsp : ∀ c ∈ sp, c = ' ') (l : List β) (hp : ∀ x ∈ l, Plain (render x))
    (hr : ∀ x ∈ l, parse (render x) = some (value x)) (ftext : List Char) (f : α) (hf : factor parse ftext = some f) :
    listLine parse title ((title ++ " = [").toList ++ ((',' :: sp).intercalate (l.map render) ++
      ']' :: ' ' :: 'x' :: ' ' :: ftext)) = some (l.map fun x => value x * f) := by
  have hc := intercalate_chars render sp hsp l hp
  have hneg : ∀ c ∈ (',' :: sp).intercalate (l.map render), (c != ']') = true := fun c h => by simpa using (hc c h).1
  unfold listLine
  dsimp only
  rw [if_pos (by simp), List.drop_left, List.dropWhile_append_of_pos hneg, List.takeWhile_append_of_pos hneg]
  simp only [List.dropWhile_cons_of_neg (p := (· != ']')) (a := ']') (by simp : ¬ ((']' : Char) != ']') = true),
    List.takeWhile_cons_of_neg (p := (· != ']')) (a := ']') (by simp : ¬ ((']' : Char) != ']') = true),
    List.append_nil, hf, listed_join parse value render sp hsp l hp hr]
  simp [List.map_map, Function.comp_def]

theorem splitOn_lines (ls : List (List Char)) (h0 : ls ≠ []) (h : ∀ l ∈ ls, '\n' ∉ l) :
    (['\n'].intercalate ls).splitOn '\n' = ls := by
  induction ls with
  | nil => exact absurd rfl h0
  | cons x xs ih =>
    have hx := h x (by simp)
    cases xs with
    | nil => rw [List.intercalate_singleton, List.splitOn_eq_singleton hx]
    | cons y ys =>
      have e : ['\n'].intercalate (x :: y :: ys) = x ++ '\n' :: ['\n'].intercalate (y :: ys) := by
        simp [List.intercalate]
      rw [e, splitOn_append _ _ _ hx, ih (by simp) (fun l hl => h l (by simp [hl]))]

/-- the lines after an optional name, which may itself have several lines -/
theorem splitOn_named (name : Option (List Char)) (ls : List (List Char)) (h0 : ls ≠ []) (h : ∀ l ∈ ls, '\n' ∉ l) :
    ∃ pre, (['\n'].intercalate (name.toList ++ ls)).splitOn '\n' = pre ++ ls := by
  cases name with
  | none => exact ⟨[], by simpa using splitOn_lines ls h0 h⟩
  | some n =>
    refine ⟨n.splitOn '\n', ?_⟩
    obtain ⟨y, ys, rfl⟩ := List.exists_cons_of_ne_nil h0
    have e : ['\n'].intercalate ((some n).toList ++ y :: ys) = n ++ '\n' :: ['\n'].intercalate (y :: ys) := by
      simp [List.intercalate]
    rw [e]
    conv_rhs => rw [← splitOn_lines (y :: ys) h0 h]
    rw [List.splitOn_eq_splitOnP, List.splitOn_eq_splitOnP, List.splitOn_eq_splitOnP,
      List.splitOnP_append_cons _ _ (by simp)]

theorem plain_of_number {cs : List Char} (h : isNumber cs = true) : Plain cs := by
  obtain ⟨h1, h2⟩ := isNumber_all h
  refine ⟨h1, fun c hc => ?_⟩
  have h3 : isNumberChar c = true := List.all_eq_true.mp h2 c hc
  refine ⟨?_, ?_, ?_, ?_⟩ <;> rintro rfl <;> exact absurd h3 (by decide)

theorem factor_number (parse : List Char → Option α) {cs : List Char} (h : isNumber cs = true) :
    factor parse cs = parse cs := by
  unfold factor
  rw [if_neg]
  rintro rfl
  exact absurd h (by decide)

section lines

variable (fmt : α → String) (parse : List Char → Option α)

/-- the value of an entry -/
def shownValue : Shown α → α
  | .num x => x
  | .zero => lit 0

theorem title_line (title body ftext : String) :
    (title ++ " = [" ++ body ++ "] x " ++ ftext).toList =
      (title ++ " = [").toList ++ (body.toList ++ ']' :: ' ' :: 'x' :: ' ' :: ftext.toList) := by
  simp [String.toList_append]

theorem joined {β : Type} (sep : List Char) (render : β → String) (l : List β) :
    (joinWith (String.ofList (',' :: sep)) (l.map render)).toList =
      (',' :: sep).intercalate (l.map fun x => (render x).toList) := by
  rw [toList_joinWith]
  simp [Function.comp_def]

theorem line_plain {title : String} (ht : '\n' ∉ title.toList) {β : Type} (render : β → String) (sep : List Char)
    (hsp : ∀ c ∈ sep, c = ' ') (l : List β) (hp : ∀ x ∈ l, Plain (render x).toList) (ftext : String)
    (hf : '\n' ∉ ftext.toList) :
    '\n' ∉ (title ++ " = [" ++ joinWith (String.ofList (',' :: sep)) (l.map render) ++ "] x " ++ ftext).toList := by
  rw [title_line, joined]
  have h1 := intercalate_chars (fun x => (render x).toList) sep hsp l hp
  simp only [List.mem_append, List.mem_cons, String.toList_append]
  rintro ((h | h) | h | h | h | h | h | h)
  · exact ht h
  · exact absurd h (by decide)
  · exact (h1 _ h).2 rfl
  · exact absurd h (by decide)
  · exact absurd h (by decide)
  · exact absurd h (by decide)
  · exact absurd h (by decide)
  · exact hf h

theorem line_read {β : Type} (title : String) (value : β → α) (render : β → String) (sep : List Char)
    (hsp : ∀ c ∈ sep, c = ' ') (l : List β) (hp : ∀ x ∈ l, Plain (render x).toList)
    (hr : ∀ x ∈ l, parse (render x).toList = some (value x)) (ftext : String) (f : α)
    (hf : factor parse ftext.toList = some f) :
    listLine parse title (title ++ " = [" ++ joinWith (String.ofList (',' :: sep)) (l.map render) ++ "] x " ++ ftext).toList =
      some (l.map fun x => value x * f) := by
  rw [title_line, joined]
  exact listLine_join parse title value _ sep hsp l hp hr _ f hf

variable {fmt parse}

theorem lines_text (name : Option String) (head ls : List String) (h : head = (name.map fun n => n ++ ":").toList) :
    (joinWith "\n" (head ++ ls)).toList =
      ['\n'].intercalate ((name.map fun n => (n ++ ":").toList).toList ++ ls.map String.toList) := by
  subst h
  rw [toList_joinWith]
  cases name <;> simp

theorem retypeControl_lines (name : Option String) (head : Option (List Char)) (a b c d : List Char) (ha : '\n' ∉ a)
    (hb : '\n' ∉ b) (hc : '\n' ∉ c) (hd : '\n' ∉ d) :
    retypeControl parse name (['\n'].intercalate (head.toList ++ [a, b, c, d])) = (do
      let rates ← listLine parse "Rabi Rates" a
      let angles ← listLine parse "Azimuthal Angles" b
      let detunings ← listLine parse "Detunings" c
      let durations ← listLine parse "Durations" d
      return DrivenControl.new durations (some rates) (some angles) (some detunings) name) := by
  obtain ⟨pre, hpre⟩ := splitOn_named head [a, b, c, d] (by simp) (by simp [ha, hb, hc, hd])
  unfold retypeControl
  rw [hpre, List.reverse_append]
  rfl

theorem retypeSequence_lines (name : Option String) (head : Option (List Char)) (o a b c d : List Char) (ho : '\n' ∉ o)
    (ha : '\n' ∉ a) (hb : '\n' ∉ b) (hc : '\n' ∉ c) (hd : '\n' ∉ d) :
    retypeSequence parse name (['\n'].intercalate (head.toList ++ [o, a, b, c, d])) = (do
      let duration ← numberLine parse "Duration" o
      let offsets ← listLine parse "Offsets" a
      let rotations ← listLine parse "Rabi Rotations" b
      let angles ← listLine parse "Azimuthal Angles" c
      let detunings ← listLine parse "Detuning Rotations" d
      return Sequence.new duration offsets rotations angles detunings name) := by
  obtain ⟨pre, hpre⟩ := splitOn_named head [o, a, b, c, d] (by simp) (by simp [ho, ha, hb, hc, hd])
  unfold retypeSequence
  rw [hpre, List.reverse_append]
  rfl

/-- typing in a printed control, in any arithmetic in which the texts of numbers can be read back -/
theorem retype_control_text (hn : ∀ x, isNumber (fmt x).toList = true) (hr : ∀ x, parse (fmt x).toList = some x)
    (h0 : parse ['0'] = some (lit 0)) (c : DrivenControl α) {m d : α} (hm : c.maximumRabiRate = .ok m)
    (hd : c.maximumDetuning = .ok d) (name : Option String) :
    ∃ text, c.toStr fmt = .ok text ∧ retypeControl parse name text.toList = some (DrivenControl.new
      (c.durations.map fun t => t / c.duration * c.duration)
      (some (c.rabiRates.map fun x => (if Py.ne m (lit 0) then x / m else lit 0) * m))
      (some (c.azimuthalAngles.map fun x => x / PyFloat.pi * PyFloat.pi))
      (some (c.detunings.map fun x => (if Py.ne d (lit 0) then x / d else lit 0) * d)) name) := by
  have hz : (Shown.render fmt Shown.zero).toList = ['0'] := by simp [Shown.render]
  have hp : ∀ x, Plain (Shown.render fmt x).toList := by
    intro x
    cases x with
    | num x => exact plain_of_number (hn x)
    | zero => rw [hz]; exact plain_of_number (by decide)
  have hv : ∀ x, parse (Shown.render fmt x).toList = some (shownValue x) := by
    intro x
    cases x with
    | num x => exact hr x
    | zero => rw [hz]; exact h0
  have hnl : ∀ x, '\n' ∉ (fmt x).toList := fun x h => ((plain_of_number (hn x)).2 _ h).2.2.2 rfl
  have hf : ∀ x, factor parse (fmt x).toList = some x := fun x => (factor_number parse (hn x)).trans (hr x)
  have hpi : factor parse "pi".toList = some PyFloat.pi := by simp [factor]
  have hsep : "," = String.ofList (',' :: []) := rfl
  have t1 : "Rabi Rates = [" = "Rabi Rates" ++ " = [" := by decide
  have t2 : "Azimuthal Angles = [" = "Azimuthal Angles" ++ " = [" := by decide
  have t3 : "Detunings = [" = "Detunings" ++ " = [" := by decide
  have t4 : "Durations = [" = "Durations" ++ " = [" := by decide
  have t5 : "] x pi" = "] x " ++ "pi" := by decide
  unfold DrivenControl.toStr DrivenControl.textData
  rw [hm, hd]
  refine ⟨_, rfl, ?_⟩
  dsimp only
  rw [lines_text c.name _ _ (by cases c.name <;> rfl), t1, t2, t3, t4, t5, hsep]
  simp only [← String.append_assoc]
  set A := c.rabiRates.map fun r => if Py.ne m (lit 0) then Shown.num (r / m) else .zero with hA
  set B := c.azimuthalAngles.map fun r => Shown.num (r / PyFloat.pi) with hB
  set C := c.detunings.map fun r => if Py.ne d (lit 0) then Shown.num (r / d) else .zero with hC
  set D := c.durations.map fun r => Shown.num (r / c.duration) with hD
  have r1 := line_read parse "Rabi Rates" shownValue (Shown.render fmt) [] (by simp) A (fun x _ => hp x) (fun x _ => hv x) _ _ (hf m)
  have r2 := line_read parse "Azimuthal Angles" shownValue (Shown.render fmt) [] (by simp) B (fun x _ => hp x) (fun x _ => hv x) _ _ hpi
  have r3 := line_read parse "Detunings" shownValue (Shown.render fmt) [] (by simp) C (fun x _ => hp x) (fun x _ => hv x) _ _ (hf d)
  have r4 := line_read parse "Durations" shownValue (Shown.render fmt) [] (by simp) D (fun x _ => hp x) (fun x _ => hv x) _ _ (hf c.duration)
  simp only [List.map_cons, List.map_nil]
  rw [retypeControl_lines _ _ _ _ _ _
    (line_plain (by decide) _ [] (by simp) A (fun x _ => hp x) _ (hnl m))
    (line_plain (by decide) _ [] (by simp) B (fun x _ => hp x) _ (by decide))
    (line_plain (by decide) _ [] (by simp) C (fun x _ => hp x) _ (hnl d))
    (line_plain (by decide) _ [] (by simp) D (fun x _ => hp x) _ (hnl c.duration))]
  rw [r1, r2, r3, r4]
  simp only [Option.bind_eq_bind, Option.bind_some, Option.pure_def, hA, hB, hC, hD, List.map_map, Function.comp_def]
  congr 4
  · congr 1; funext x; split <;> rfl
  · congr 1; funext x; split <;> rfl

/-- typing in a printed sequence -/
theorem retype_sequence_text (hn : ∀ x, isNumber (fmt x).toList = true) (hr : ∀ x, parse (fmt x).toList = some x)
    (s : Sequence α) (name : Option String) :
    retypeSequence parse name (s.toStr fmt).toList = some (Sequence.new s.duration
      (s.offsets.map fun t => t / s.duration * s.duration)
      (s.rabiRotations.map fun x => x / PyFloat.pi * PyFloat.pi)
      (s.azimuthalAngles.map fun x => x / PyFloat.pi * PyFloat.pi)
      (s.detuningRotations.map fun x => x / PyFloat.pi * PyFloat.pi) name) := by
  have hp : ∀ x, Plain (fmt x).toList := fun x => plain_of_number (hn x)
  have hnl : ∀ x, '\n' ∉ (fmt x).toList := fun x h => ((plain_of_number (hn x)).2 _ h).2.2.2 rfl
  have hf : ∀ x, factor parse (fmt x).toList = some x := fun x => (factor_number parse (hn x)).trans (hr x)
  have hpi : factor parse "pi".toList = some PyFloat.pi := by simp [factor]
  have hsep : ", " = String.ofList (',' :: [' ']) := rfl
  have hsp : ∀ c ∈ [' '], c = ' ' := by simp
  have t0 : "Duration = " = "Duration" ++ " = " := by decide
  have t1 : "Offsets = [" = "Offsets" ++ " = [" := by decide
  have t2 : "Rabi Rotations = [" = "Rabi Rotations" ++ " = [" := by decide
  have t3 : "Azimuthal Angles = [" = "Azimuthal Angles" ++ " = [" := by decide
  have t4 : "Detuning Rotations = [" = "Detuning Rotations" ++ " = [" := by decide
  have t5 : "] x pi" = "] x " ++ "pi" := by decide
  unfold Sequence.toStr Sequence.textData
  dsimp only
  rw [lines_text s.name _ _ (by cases s.name <;> rfl), t0, t1, t2, t3, t4, t5, hsep]
  simp only [← String.append_assoc]
  have r0 : numberLine parse "Duration" ("Duration" ++ " = " ++ fmt s.duration).toList = some s.duration := by
    unfold numberLine
    dsimp only
    rw [String.toList_append (s := "Duration" ++ " = "), if_pos (by simp), List.drop_left, hr]
  have rd : ∀ (title : String) (l : List α) (ftext : String) (f : α), factor parse ftext.toList = some f →
      listLine parse title (title ++ " = [" ++ joinWith (String.ofList (',' :: [' '])) (l.map fmt) ++ "] x " ++
        ftext).toList = some (l.map fun x => id x * f) := fun title l ftext f h =>
    line_read parse title id fmt [' '] hsp l (fun x _ => hp x) (fun x _ => hr x) ftext f h
  simp only [List.map_cons, List.map_nil]
  rw [retypeSequence_lines _ _ _ _ _ _ _
    (by
      rw [String.toList_append, List.mem_append]
      rintro (h | h)
      · exact absurd h (by decide)
      · exact hnl _ h)
    (line_plain (by decide) _ [' '] hsp _ (fun x _ => hp x) _ (hnl s.duration))
    (line_plain (by decide) _ [' '] hsp _ (fun x _ => hp x) _ (by decide))
    (line_plain (by decide) _ [' '] hsp _ (fun x _ => hp x) _ (by decide))
    (line_plain (by decide) _ [' '] hsp _ (fun x _ => hp x) _ (by decide))]
  rw [r0, rd _ _ _ _ (hf s.duration), rd _ _ _ _ hpi, rd _ _ _ _ hpi, rd _ _ _ _ hpi]
  simp only [Option.bind_eq_bind, Option.bind_some, Option.pure_def, List.map_map, Function.comp_def, id]

end lines

end Printed

end OpenControls
