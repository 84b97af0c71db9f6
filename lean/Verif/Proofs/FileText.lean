import Verif.Model.FileText
import Verif.Spec.FileText
import Mathlib.Tactic.Common
import Mathlib.Tactic.Linarith

/-!
# Reading back the characters of exported files
-/

namespace OpenControls

open Spec

/-! ## CSV -/

theorem readCsv_plain (s : List Char) (field : List Char) (row : List (List Char)) (rest : List Char)
    (h : ∀ c ∈ s, c ≠ ',' ∧ c ≠ '"' ∧ c ≠ '\r' ∧ c ≠ '\n') :
    readCsvFrom .plain field row (s ++ rest) = readCsvFrom .plain (field ++ s) row rest := by
  induction s generalizing field with
  | nil => simp
  | cons c s ih =>
    obtain ⟨h1, h2, h3, h4⟩ := h c (by simp)
    rw [List.cons_append, readCsvFrom, if_neg h2, if_neg h1, if_neg h3, if_neg h4,
      ih _ (fun c hc => h c (by simp [hc]))]
    simp

theorem readCsv_quoted (s : List Char) (field : List Char) (row : List (List Char)) (rest : List Char) :
    readCsvFrom .quoted field row ((s.flatMap fun c => if c == '"' then ['"', '"'] else [c]) ++
      '"' :: rest) = readCsvFrom .closing (field ++ s) row rest := by
  induction s generalizing field with
  | nil => simp [readCsvFrom]
  | cons c s ih =>
    rw [List.flatMap_cons]
    by_cases h : c = '"'
    · subst h
      simp only [beq_self_eq_true, if_true, List.cons_append, List.nil_append]
      rw [readCsvFrom, if_pos rfl, readCsvFrom, if_pos rfl, ih]
      simp
    · have hb : (c == '"') = false := by simpa using h
      simp only [hb, Bool.false_eq_true, if_false, List.cons_append, List.nil_append]
      rw [readCsvFrom, if_neg h, ih]
      simp

/-- After a field the reader is at a comma or at the end of the record with that field. -/
theorem readCsv_field (s : List Char) (row : List (List Char)) (rest : List Char) :
    readCsvFrom .start [] row (csvField s ++ ',' :: rest) = readCsvFrom .start [] (row ++ [s]) rest ∧
    readCsvFrom .start [] row (csvField s ++ '\r' :: rest) = readCsvFrom .cr s row rest := by
  unfold csvField
  by_cases h : (s.any fun c => c == ',' || c == '"' || c == '\r' || c == '\n') = true
  · rw [if_pos h]
    simp only [List.cons_append, List.append_assoc, List.nil_append]
    rw [readCsvFrom, if_pos rfl, readCsv_quoted, readCsvFrom, if_pos rfl, readCsv_quoted]
    simp [readCsvFrom]
  · rw [if_neg h]
    have hc : ∀ c ∈ s, c ≠ ',' ∧ c ≠ '"' ∧ c ≠ '\r' ∧ c ≠ '\n' := by
      intro c hc
      simp only [List.any_eq_true, Bool.or_eq_true, beq_iff_eq, not_exists, not_and, not_or] at h
      obtain ⟨⟨⟨h1, h2⟩, h3⟩, h4⟩ := h c hc
      exact ⟨h1, h2, h3, h4⟩
    cases s with
    | nil => simp [readCsvFrom]
    | cons c s =>
      obtain ⟨h1, h2, h3, h4⟩ := hc c (by simp)
      have hs : ∀ c ∈ s, c ≠ ',' ∧ c ≠ '"' ∧ c ≠ '\r' ∧ c ≠ '\n' := fun c h => hc c (by simp [h])
      simp only [List.cons_append]
      rw [readCsvFrom, if_neg h2, if_neg h1, if_neg h3, if_neg h4, readCsv_plain _ _ _ _ hs,
        readCsvFrom, if_neg h2, if_neg h1, if_neg h3, if_neg h4, readCsv_plain _ _ _ _ hs]
      simp [readCsvFrom]

theorem readCsv_join (l : List (List Char)) (hl : l ≠ []) (row : List (List Char)) (rest : List Char) :
    readCsvFrom .start [] row (csvJoin l ++ '\r' :: '\n' :: rest) =
      (readCsvFrom .start [] [] rest).map fun rows => (row ++ l) :: rows := by
  induction l generalizing row with
  | nil => exact absurd rfl hl
  | cons x l ih =>
    cases l with
    | nil =>
      rw [csvJoin, (readCsv_field x row _).2, readCsvFrom, if_pos rfl]
    | cons y l =>
      rw [csvJoin, List.append_assoc, List.cons_append, (readCsv_field x row _).1, ih (by simp)]
      simp

theorem readCsv_line (l : List (List Char)) (hl : l ≠ []) (rest : List Char) :
    readCsv (csvLine l ++ rest) = (readCsv rest).map fun rows => l :: rows := by
  unfold readCsv csvLine
  rw [List.append_assoc]
  simpa using readCsv_join l hl [] rest

theorem readCsv_lines (rows : List (List (List Char))) (h : ∀ r ∈ rows, r ≠ []) :
    readCsv (rows.flatMap csvLine) = some rows := by
  induction rows with
  | nil => simp [readCsv, readCsvFrom]
  | cons r rows ih =>
    rw [List.flatMap_cons, readCsv_line _ (h r (by simp)), ih fun r hr => h r (by simp [hr])]
    rfl

/-! ## JSON strings -/

theorem hexDigit_ascii (n : Nat) (h : n < 16) : (hexDigit n).toNat < 128 := by
  rcases n with _ | _ | _ | _ | _ | _ | _ | _ | _ | _ | _ | _ | _ | _ | _ | _ | n <;> first | decide | omega

theorem hexValue_hexDigit (n : Nat) (h : n < 16) : hexValue (hexDigit n) = some n := by
  rcases n with _ | _ | _ | _ | _ | _ | _ | _ | _ | _ | _ | _ | _ | _ | _ | _ | n <;> first | decide | omega

theorem readHex4_hex4 (n : Nat) (h : n < 65536) (rest : List Char) :
    readHex4 (hex4 n ++ rest) = some (n, rest) := by
  unfold hex4
  simp only [List.cons_append, List.nil_append, readHex4]
  rw [hexValue_hexDigit _ (Nat.mod_lt _ (by decide)), hexValue_hexDigit _ (Nat.mod_lt _ (by decide)),
    hexValue_hexDigit _ (Nat.mod_lt _ (by decide)), hexValue_hexDigit _ (Nat.mod_lt _ (by decide))]
  simp only [Option.bind_eq_bind, Option.bind_some, Option.pure_def, Option.some.injEq, Prod.mk.injEq,
    and_true]
  omega

theorem jsonChar_head (c : Char) : ∃ d l, jsonChar c = d :: l ∧ d ≠ '"' := by
  unfold jsonChar
  repeat' split
  all_goals first | exact ⟨_, _, rfl, by decide⟩ | skip
  rename_i h _ _ _ _ _ _ _
  exact ⟨_, _, rfl, by simpa using h⟩

theorem readChar_jsonChar (c : Char) (rest : List Char) :
    readChar (jsonChar c ++ rest) = some (c, rest) := by
  unfold jsonChar
  by_cases h1 : c = '"'
  · subst h1; rfl
  by_cases h2 : c = '\\'
  · subst h2; rfl
  by_cases h3 : c = '\n'
  · subst h3; rfl
  by_cases h4 : c = '\r'
  · subst h4; rfl
  by_cases h5 : c = '\t'
  · subst h5; rfl
  by_cases h6 : c = '\x0c'
  · subst h6; rfl
  by_cases h7 : c = '\x08'
  · subst h7; rfl
  simp only [beq_iff_eq, h1, h2, h3, h4, h5, h6, h7, if_false]
  have hval := c.valid
  by_cases h8 : 32 ≤ c.toNat ∧ c.toNat ≤ 126
  · rw [if_pos h8]
    simp only [List.cons_append, List.nil_append]
    rw [readChar.eq_def]
    split
    · rename_i heq; simp only [List.cons.injEq] at heq; exact absurd heq.1 h2
    · rename_i heq
      simp only [List.cons.injEq] at heq
      obtain ⟨rfl, rfl⟩ := heq
      rw [if_neg]
      simp [h1, h2]
      omega
    · rename_i heq; simp at heq
  · rw [if_neg h8]
    have hn : c.toNat.isValidChar := c.valid
    by_cases h9 : c.toNat < 65536
    · rw [if_pos h9]
      simp only [List.cons_append]
      rw [readChar]
      simp only [show ('u' : Char) ≠ '"' by decide, show ('u' : Char) ≠ '\\' by decide,
        show ('u' : Char) ≠ '/' by decide, show ('u' : Char) ≠ 'b' by decide,
        show ('u' : Char) ≠ 'f' by decide, show ('u' : Char) ≠ 'n' by decide,
        show ('u' : Char) ≠ 'r' by decide, show ('u' : Char) ≠ 't' by decide, if_false, if_true]
      rw [readHex4_hex4 _ h9]
      simp only
      rw [if_pos, Char.ofNat_toNat]
      rcases hn with hn | hn <;> omega
    · rw [if_neg h9]
      simp only [List.cons_append, List.append_assoc]
      rw [readChar]
      have hb : c.toNat < 0x110000 := by rcases hn with hn | hn <;> omega
      simp only [show ('u' : Char) ≠ '"' by decide, show ('u' : Char) ≠ '\\' by decide,
        show ('u' : Char) ≠ '/' by decide, show ('u' : Char) ≠ 'b' by decide,
        show ('u' : Char) ≠ 'f' by decide, show ('u' : Char) ≠ 'n' by decide,
        show ('u' : Char) ≠ 'r' by decide, show ('u' : Char) ≠ 't' by decide, if_false, if_true]
      rw [readHex4_hex4 _ (by omega)]
      simp only
      rw [if_neg (by omega), if_pos (by omega), readHex4_hex4 _ (by omega)]
      simp only
      rw [if_pos (by omega)]
      have e : 65536 + (55296 + (c.toNat - 65536) / 1024 - 55296) * 1024 +
          (56320 + (c.toNat - 65536) % 1024 - 56320) = c.toNat := by omega
      rw [e, Char.ofNat_toNat]

theorem readString_json (s : List Char) (rest : List Char) (fuel : Nat) (h : s.length < fuel) :
    readString fuel (s.flatMap jsonChar ++ '"' :: rest) = some (s, rest) := by
  induction s generalizing fuel with
  | nil =>
    obtain ⟨f, rfl⟩ : ∃ f, fuel = f + 1 := ⟨fuel - 1, by omega⟩
    simp [readString]
  | cons c s ih =>
    obtain ⟨f, rfl⟩ : ∃ f, fuel = f + 1 := ⟨fuel - 1, by omega⟩
    rw [List.flatMap_cons, List.append_assoc]
    have hc := readChar_jsonChar c (s.flatMap jsonChar ++ '"' :: rest)
    obtain ⟨d, l, e, hd⟩ := jsonChar_head c
    rw [e, List.cons_append] at hc ⊢
    rw [readString.eq_def]
    simp only
    split
    · rename_i heq; simp only [List.cons.injEq] at heq; exact absurd heq.1 hd
    · rw [hc]
      simp only
      rw [ih f (by simp at h; omega)]
      rfl

/-! ## JSON numbers -/

theorem isDigit_numberChar {c : Char} (h : isDigit c = true) : isNumberChar c = true := by
  simp [isNumberChar, h]

theorem isDigits_all {cs : List Char} (h : isDigits cs = true) : cs.all isNumberChar = true := by
  simp only [isDigits, Bool.and_eq_true, List.all_eq_true] at h ⊢
  exact fun c hc => isDigit_numberChar (h.2 c hc)

theorem isExponent_all {cs : List Char} (h : isExponent cs = true) : cs.all isNumberChar = true := by
  cases cs with
  | nil => rfl
  | cons c cs =>
    simp only [isExponent, Bool.and_eq_true, Bool.or_eq_true, beq_iff_eq] at h
    have hc : isNumberChar c = true := by rcases h.1 with rfl | rfl <;> decide
    have h2 := h.2
    simp only [List.all_cons, hc, Bool.true_and]
    split at h2
    · simp only [List.all_cons, isDigits_all h2]; decide
    · simp only [List.all_cons, isDigits_all h2]; decide
    · exact isDigits_all h2

theorem takeDrop_all {p : Char → Bool} {q : Char → Bool} (hpq : ∀ c, p c = true → q c = true)
    (cs : List Char) (h : (cs.dropWhile p).all q = true) : cs.all q = true := by
  induction cs with
  | nil => rfl
  | cons c cs ih =>
    by_cases hc : p c = true
    · rw [List.dropWhile_cons_of_pos hc] at h
      simp [hpq c hc, ih h] 
    · rwa [List.dropWhile_cons_of_neg hc] at h

theorem isFraction_all {cs : List Char} (h : isFraction cs = true) : cs.all isNumberChar = true := by
  unfold isFraction at h
  split at h
  · simp only [Bool.and_eq_true] at h
    simp only [List.all_cons, takeDrop_all (fun c => isDigit_numberChar) _ (isExponent_all h.2)]
    decide
  · exact isExponent_all h

theorem isUnsigned_all {cs : List Char} (h : isUnsigned cs = true) :
    cs ≠ [] ∧ cs.all isNumberChar = true := by
  unfold isUnsigned at h
  split at h
  · refine ⟨by simp, ?_⟩
    simp only [List.all_cons, isFraction_all h]; decide
  · simp only [Bool.and_eq_true] at h
    refine ⟨by simp, ?_⟩
    simp only [List.all_cons, takeDrop_all (fun c => isDigit_numberChar) _ (isFraction_all h.2),
      isDigit_numberChar h.1]
    decide
  · simp at h

theorem isNumber_all {cs : List Char} (h : isNumber cs = true) :
    cs ≠ [] ∧ cs.all isNumberChar = true := by
  unfold isNumber at h
  split at h
  · refine ⟨by simp, ?_⟩
    simp only [List.all_cons, (isUnsigned_all h).2]; decide
  · exact isUnsigned_all h

theorem isNumberChar_ne {c : Char} (h : isNumberChar c = true) :
    isSpace c = false ∧ c ≠ '{' ∧ c ≠ '[' ∧ c ≠ '"' ∧ c ≠ 't' ∧ c ≠ 'f' ∧ c ≠ 'n' := by
  refine ⟨?_, ?_, ?_, ?_, ?_, ?_, ?_⟩
  · by_contra hs
    simp only [Bool.not_eq_false, isSpace, Bool.or_eq_true, beq_iff_eq] at hs
    rcases hs with ((rfl | rfl) | rfl) | rfl <;> exact absurd h (by decide)
  all_goals rintro rfl; exact absurd h (by decide)

/-- what may follow a value -/
def Stops (rest : List Char) : Prop := ∀ c cs, rest = c :: cs → isNumberChar c = false

theorem takeWhile_token {tok rest : List Char} (h : tok.all isNumberChar = true) (hr : Stops rest) :
    (tok ++ rest).takeWhile isNumberChar = tok ∧ (tok ++ rest).dropWhile isNumberChar = rest := by
  induction tok with
  | nil =>
    cases rest with
    | nil => simp
    | cons c cs => simp [hr c cs rfl]
  | cons c tok ih =>
    simp only [List.all_cons, Bool.and_eq_true] at h
    obtain ⟨h1, h2⟩ := ih h.2
    simp [h.1, h1, h2]

theorem dropWhile_spaces {w : List Char} (hw : w.all isSpace = true) (rest : List Char) :
    (w ++ rest).dropWhile isSpace = rest.dropWhile isSpace := by
  induction w with
  | nil => rfl
  | cons c w ih =>
    simp only [List.all_cons, Bool.and_eq_true] at hw
    rw [List.cons_append, List.dropWhile_cons_of_pos hw.1, ih hw.2]

theorem dropWhile_nonspace {c : Char} (h : isSpace c = false) (rest : List Char) :
    (c :: rest).dropWhile isSpace = c :: rest := by
  rw [List.dropWhile_cons_of_neg (by simp [h])]

theorem readValue_number {w tok rest : List Char} (hw : w.all isSpace = true) (h : isNumber tok = true)
    (hr : Stops rest) (fuel : Nat) :
    readValue (fuel + 1) (w ++ tok ++ rest) = some (.num tok, rest) := by
  obtain ⟨hne, hall⟩ := isNumber_all h
  obtain ⟨h1, h2⟩ := takeWhile_token hall hr
  cases tok with
  | nil => exact absurd rfl hne
  | cons c tok =>
    simp only [List.all_cons, Bool.and_eq_true] at hall
    obtain ⟨hs, n1, n2, n3, n4, n5, n6⟩ := isNumberChar_ne hall.1
    rw [List.append_assoc, readValue, dropWhile_spaces hw, List.cons_append, dropWhile_nonspace hs]
    simp only [n1, n2, n3, n4, n5, n6, if_false, List.cons.injEq, false_and]
    rw [List.cons_append] at h1 h2
    rw [h1, h2, if_pos h]

theorem readValue_nonFinite {w tok rest : List Char} (hw : w.all isSpace = true) (h : isNonFinite tok)
    (fuel : Nat) : readValue fuel (w ++ tok ++ rest) = none := by
  cases fuel with
  | zero => simp [readValue]
  | succ fuel =>
    rw [List.append_assoc, readValue, dropWhile_spaces hw]
    rcases h with rfl | rfl | rfl <;> rfl

/-! ## JSON values -/

/-- the JSON value a value of the exported dictionary stands for -/
def Val.json (fmt : α → String) : Val α → Json
  | .num x => .num (fmt x).toList
  | .str s => .str s.toList
  | .arr l => .arr (l.map fun x => .num (fmt x).toList)

theorem newline_space (n : Nat) : (newline n).all isSpace = true := by
  simp only [newline, List.all_cons, Bool.and_eq_true, List.all_eq_true]
  refine ⟨by decide, fun c hc => ?_⟩
  rw [(List.mem_replicate.mp hc).2]; decide

theorem stops_newline (n : Nat) (rest : List Char) : Stops (newline n ++ rest) := by
  intro c cs h
  simp only [newline, List.cons_append, List.cons.injEq] at h
  rw [← h.1]; decide

theorem stops_comma (rest : List Char) : Stops (',' :: rest) := by
  intro c cs h
  simp only [List.cons.injEq] at h
  rw [← h.1]; decide

theorem readElements_tokens (toks : List (List Char)) (hne : toks ≠ [])
    (ht : ∀ t ∈ toks, isNumber t = true ∨ isNonFinite t) (w rest : List Char) (hw : w.all isSpace = true)
    (fuel : Nat) (hf : toks.length < fuel) :
    readElements fuel (w ++ joinChars (',' :: newline 2) toks ++ newline 1 ++ ']' :: rest) =
      if toks.all isNumber then some (toks.map .num, rest) else none := by
  induction toks generalizing w fuel with
  | nil => exact absurd rfl hne
  | cons t toks ih =>
    obtain ⟨f, rfl⟩ : ∃ f, fuel = f + 2 := ⟨fuel - 2, by simp at hf; omega⟩
    rw [readElements]
    cases toks with
    | nil =>
      rw [joinChars, List.append_assoc]
      rcases ht t (by simp) with h | h
      · rw [readValue_number hw h (stops_newline _ _)]
        simp only
        rw [dropWhile_spaces (newline_space 1), dropWhile_nonspace (by decide)]
        simp [h]
      · rw [readValue_nonFinite hw h]
        have : isNumber t = false := by rcases h with rfl | rfl | rfl <;> decide
        simp [this]
    | cons y toks =>
      rw [joinChars]
      have e : w ++ (t ++ ',' :: newline 2 ++ joinChars (',' :: newline 2) (y :: toks)) ++ newline 1 ++
          ']' :: rest = w ++ t ++ ',' :: (newline 2 ++ joinChars (',' :: newline 2) (y :: toks) ++
            newline 1 ++ ']' :: rest) := by simp
      rw [e]
      rcases ht t (by simp) with h | h
      · rw [readValue_number hw h (stops_comma _)]
        simp only
        rw [dropWhile_nonspace (by decide)]
        simp only
        rw [ih (by simp) (fun t ht' => ht t (by simp only [List.mem_cons] at ht' ⊢; exact Or.inr ht')) _
          (newline_space 2) _ (by simp at hf ⊢; omega)]
        have hall : (t :: y :: toks).all isNumber = (y :: toks).all isNumber := by
          rw [List.all_cons, h, Bool.true_and]
        rw [hall]
        split <;> rfl
      · rw [readValue_nonFinite hw h]
        have : isNumber t = false := by rcases h with rfl | rfl | rfl <;> decide
        simp [this]

/-- fuel needed for a value -/
def Val.cost : Val α → Nat
  | .num _ => 1
  | .str s => s.toList.length + 1
  | .arr l => l.length + 2

/-- the numbers in a value are formatted as numbers of JSON -/
def Val.valid (fmt : α → String) : Val α → Bool
  | .num x => isNumber (fmt x).toList
  | .str _ => true
  | .arr l => l.all fun x => isNumber (fmt x).toList

/-- the numbers in a value -/
def Val.members : Val α → List α
  | .num x => [x]
  | .arr l => l
  | .str _ => []

theorem joinChars_head (sep x : List Char) (l : List (List Char)) (c : Char) (x' : List Char)
    (h : x = c :: x') : ∃ r, joinChars sep (x :: l) = c :: r := by
  cases l with
  | nil => exact ⟨_, h⟩
  | cons y l => rw [joinChars, h]; exact ⟨_, rfl⟩

theorem readValue_val (fmt : α → String) (v : Val α)
    (hv : ∀ x ∈ v.members, isNumber (fmt x).toList = true ∨ isNonFinite (fmt x).toList)
    (rest : List Char) (hr : Stops rest) (fuel : Nat) (hf : v.cost ≤ fuel) :
    readValue fuel (' ' :: jsonVal fmt v ++ rest) =
      if v.valid fmt then some (v.json fmt, rest) else none := by
  have hsp : [' '].all isSpace = true := by decide
  cases v with
  | num x =>
    obtain ⟨f, rfl⟩ : ∃ f, fuel = f + 1 := ⟨fuel - 1, by simp [Val.cost] at hf; omega⟩
    rcases hv x (by simp [Val.members]) with h | h
    · have := readValue_number hsp h hr f
      simp only [jsonVal, Val.valid, h, if_true, Val.json]
      exact this
    · have hn : isNumber (fmt x).toList = false := by rcases h with h | h | h <;> rw [h] <;> decide
      have := readValue_nonFinite (rest := rest) hsp h (f + 1)
      simp only [jsonVal, Val.valid, hn, Bool.false_eq_true, if_false]
      exact this
  | str s =>
    obtain ⟨f, rfl⟩ : ∃ f, fuel = f + 1 := ⟨fuel - 1, by simp [Val.cost] at hf; omega⟩
    simp only [jsonVal, jsonString, Val.valid, if_true, Val.json, readValue]
    have e : ' ' :: ('"' :: s.toList.flatMap jsonChar ++ ['"']) ++ rest =
        [' '] ++ ('"' :: (s.toList.flatMap jsonChar ++ '"' :: rest)) := by simp
    rw [e, dropWhile_spaces hsp, dropWhile_nonspace (by decide)]
    simp only [show ('"' : Char) ≠ '{' by decide, show ('"' : Char) ≠ '[' by decide, if_false, if_true]
    rw [readString_json _ _ _ (by simp [Val.cost] at hf; omega)]
    rfl
  | arr l =>
    obtain ⟨f, rfl⟩ : ∃ f, fuel = f + 1 := ⟨fuel - 1, by simp [Val.cost] at hf; omega⟩
    cases l with
    | nil =>
      simp only [jsonVal, Val.valid, List.all_nil, if_true, Val.json, List.map_nil, readValue]
      have e : ' ' :: ['[', ']'] ++ rest = [' '] ++ ('[' :: ']' :: rest) := by simp
      rw [e, dropWhile_spaces hsp, dropWhile_nonspace (by decide)]
      simp only [show ('[' : Char) ≠ '{' by decide, if_false, if_true]
      rw [dropWhile_nonspace (by decide)]
      rfl
    | cons x l =>
      simp only [jsonVal, readValue]
      set toks := (x :: l).map fun x => (fmt x).toList with htoks
      have hne : toks ≠ [] := by simp [htoks]
      have htv : ∀ t ∈ toks, isNumber t = true ∨ isNonFinite t := by
        intro t ht
        obtain ⟨y, hy, rfl⟩ := List.mem_map.mp ht
        exact hv y hy
      have e : ' ' :: ('[' :: newline 2 ++ joinChars (',' :: newline 2) toks ++ newline 1 ++ [']']) ++ rest =
          [' '] ++ ('[' :: (newline 2 ++ (joinChars (',' :: newline 2) toks ++ newline 1 ++ ']' :: rest))) := by
        simp
      rw [e, dropWhile_spaces hsp, dropWhile_nonspace (by decide)]
      simp only [show ('[' : Char) ≠ '{' by decide, if_false, if_true]
      rw [dropWhile_spaces (newline_space 2)]
      -- the first token starts with neither a space nor a bracket
      obtain ⟨c, t', hc, hcs, hcb⟩ : ∃ c t', (fmt x).toList = c :: t' ∧ isSpace c = false ∧ c ≠ ']' := by
        rcases hv x (by simp [Val.members]) with h | h
        · obtain ⟨hne, hall⟩ := isNumber_all h
          cases hh : (fmt x).toList with
          | nil => exact absurd hh hne
          | cons c t' =>
            rw [hh] at hall
            simp only [List.all_cons, Bool.and_eq_true] at hall
            refine ⟨c, t', rfl, (isNumberChar_ne hall.1).1, ?_⟩
            rintro rfl
            exact absurd hall.1 (by decide)
        · rcases h with h | h | h <;> rw [h] <;> exact ⟨_, _, rfl, by decide, by decide⟩
      obtain ⟨r, hr'⟩ := joinChars_head (',' :: newline 2) _ (l.map fun x => (fmt x).toList) c t' hc
      have hj : joinChars (',' :: newline 2) toks = c :: r := by rw [htoks, List.map_cons]; exact hr'
      have hd : (joinChars (',' :: newline 2) toks ++ newline 1 ++ ']' :: rest).dropWhile isSpace =
          joinChars (',' :: newline 2) toks ++ newline 1 ++ ']' :: rest := by
        rw [hj, List.cons_append, List.cons_append, dropWhile_nonspace hcs]
      rw [hd]
      have hel := readElements_tokens toks hne htv [] rest (by rfl) f
        (by simp [Val.cost] at hf; simp [htoks]; omega)
      rw [List.nil_append] at hel
      have hval : (Val.arr (x :: l)).valid fmt = toks.all isNumber := by
        simp [Val.valid, htoks]
        rfl
      have hjson : (Val.arr (x :: l)).json fmt = .arr (toks.map .num) := by
        simp [Val.json, htoks]
      rw [hval, hjson]
      split
      · rename_i heq
        rw [hj, List.cons_append, List.cons_append, List.cons.injEq] at heq
        exact absurd heq.1 hcb
      · rw [hel]
        split <;> rfl

/-! ## JSON objects -/

/-- fuel needed for the members of an object -/
def membersCost : List (String × Val α) → Nat
  | [] => 1
  | kv :: l => kv.1.toList.length + kv.2.cost + 1 + membersCost l

theorem readMembers_fields (fmt : α → String) (l : List (String × Val α)) (hne : l ≠ [])
    (hl : ∀ kv ∈ l, ∀ x ∈ kv.2.members, isNumber (fmt x).toList = true ∨ isNonFinite (fmt x).toList)
    (w rest : List Char) (hw : w.all isSpace = true) (fuel : Nat) (hf : membersCost l ≤ fuel) :
    readMembers fuel (w ++ joinChars (',' :: newline 1) (l.map (jsonMember fmt)) ++ newline 0 ++ '}' :: rest) =
      if l.all fun kv => kv.2.valid fmt then
        some (l.map fun kv => (kv.1.toList, kv.2.json fmt), rest) else none := by
  induction l generalizing w fuel with
  | nil => exact absurd rfl hne
  | cons kv l ih =>
    obtain ⟨k, v⟩ := kv
    rw [membersCost] at hf
    simp only at hf
    obtain ⟨f, rfl⟩ : ∃ f, fuel = f + 1 := ⟨fuel - 1, by omega⟩
    have hv := hl (k, v) (by simp)
    simp only at hv
    rw [readMembers]
    cases l with
    | nil =>
      have e : w ++ joinChars (',' :: newline 1) ([(k, v)].map (jsonMember fmt)) ++ newline 0 ++ '}' :: rest =
          w ++ '"' :: (k.toList.flatMap jsonChar ++ '"' :: ':' :: (' ' :: jsonVal fmt v ++
            (newline 0 ++ '}' :: rest))) := by
        simp [joinChars, jsonMember, jsonString]
      rw [e, dropWhile_spaces hw, dropWhile_nonspace (by decide)]
      simp only
      rw [readString_json _ _ _ (by omega)]
      simp only
      rw [dropWhile_nonspace (by decide)]
      simp only
      rw [readValue_val fmt v hv _ (stops_newline _ _) _ (by simp [membersCost] at hf; omega)]
      cases hval : v.valid fmt with
      | false => simp [hval]
      | true =>
        simp only [if_true]
        rw [dropWhile_spaces (newline_space 0), dropWhile_nonspace (by decide)]
        simp [hval]
    | cons y l =>
      have e : w ++ joinChars (',' :: newline 1) (((k, v) :: y :: l).map (jsonMember fmt)) ++ newline 0 ++
          '}' :: rest = w ++ '"' :: (k.toList.flatMap jsonChar ++ '"' :: ':' :: (' ' :: jsonVal fmt v ++
            (',' :: (newline 1 ++ joinChars (',' :: newline 1) ((y :: l).map (jsonMember fmt)) ++ newline 0 ++
              '}' :: rest)))) := by
        simp [joinChars, jsonMember, jsonString]
      rw [e, dropWhile_spaces hw, dropWhile_nonspace (by decide)]
      simp only
      rw [readString_json _ _ _ (by omega)]
      simp only
      rw [dropWhile_nonspace (by decide)]
      simp only
      rw [readValue_val fmt v hv _ (stops_comma _) _ (by omega)]
      cases hval : v.valid fmt with
      | false => simp [hval]
      | true =>
        simp only [if_true]
        rw [dropWhile_nonspace (by decide)]
        simp only
        rw [ih (by simp) (fun kv hkv => hl kv (by simp only [List.mem_cons] at hkv ⊢; exact Or.inr hkv)) _
          (newline_space 1) _ (by omega)]
        have hall : (((k, v) :: y :: l).all fun kv => kv.2.valid fmt) =
            (y :: l).all fun kv => kv.2.valid fmt := by
          rw [List.all_cons, hval, Bool.true_and]
        rw [hall]
        split <;> rfl

theorem flatMap_jsonChar_length (s : List Char) : s.length ≤ (s.flatMap jsonChar).length := by
  induction s with
  | nil => simp
  | cons c s ih =>
    obtain ⟨d, l, e, -⟩ := jsonChar_head c
    rw [List.flatMap_cons, e]
    simp only [List.length_append, List.length_cons]
    omega

theorem joinChars_length (sep : List Char) (l : List (List Char)) :
    (l.map List.length).sum ≤ (joinChars sep l).length := by
  induction l with
  | nil => simp
  | cons x l ih =>
    cases l with
    | nil => simp [joinChars]
    | cons y l =>
      rw [joinChars]
      simp only [List.map_cons, List.sum_cons, List.length_append] at ih ⊢
      omega

theorem cost_le (fmt : α → String) (v : Val α)
    (hv : ∀ x ∈ v.members, isNumber (fmt x).toList = true ∨ isNonFinite (fmt x).toList) :
    v.cost ≤ (jsonVal fmt v).length := by
  have hpos : ∀ x, (isNumber (fmt x).toList = true ∨ isNonFinite (fmt x).toList) →
      1 ≤ (fmt x).toList.length := by
    intro x h
    rcases h with h | h | h | h
    · exact List.length_pos_iff.mpr (isNumber_all h).1
    all_goals rw [h]; decide
  cases v with
  | num x => exact hpos x (hv x (by simp [Val.members]))
  | str s =>
    have := flatMap_jsonChar_length s.toList
    simp only [Val.cost, jsonVal, jsonString, List.length_append, List.length_cons, List.length_nil]
    omega
  | arr l =>
    cases l with
    | nil => simp [Val.cost, jsonVal]
    | cons x l =>
      have hj := joinChars_length (',' :: newline 2) ((x :: l).map fun x => (fmt x).toList)
      have hs : (x :: l).length ≤ (((x :: l).map fun x => (fmt x).toList).map List.length).sum := by
        have : ∀ m : List α, (∀ y ∈ m, 1 ≤ (fmt y).toList.length) →
            m.length ≤ ((m.map fun x => (fmt x).toList).map List.length).sum := by
          intro m
          induction m with
          | nil => simp
          | cons y m ih =>
            intro h
            have h1 := h y (by simp)
            have h2 := ih fun z hz => h z (by simp [hz])
            simp only [List.map_cons, List.sum_cons, List.length_cons]
            omega
        exact this _ fun y hy => hpos y (hv y hy)
      have e : jsonVal fmt (.arr (x :: l)) = '[' :: newline 2 ++
        joinChars (',' :: newline 2) ((x :: l).map fun x => (fmt x).toList) ++ newline 1 ++ [']'] := rfl
      rw [e]
      simp only [Val.cost, List.length_append, List.length_cons, List.length_nil] at hs ⊢
      omega

theorem membersCost_le (fmt : α → String) (l : List (String × Val α))
    (hl : ∀ kv ∈ l, ∀ x ∈ kv.2.members, isNumber (fmt x).toList = true ∨ isNonFinite (fmt x).toList) :
    membersCost l ≤ (((l.map (jsonMember fmt))).map List.length).sum + 1 := by
  induction l with
  | nil => simp [membersCost]
  | cons kv l ih =>
    have h1 := cost_le fmt kv.2 (hl kv (by simp))
    have h2 := ih fun kv h => hl kv (by simp [h])
    have h3 := flatMap_jsonChar_length kv.1.toList
    simp only [membersCost, List.map_cons, List.sum_cons, jsonMember, jsonString, List.length_append,
      List.length_cons, List.length_nil] at h1 h2 h3 ⊢
    omega

/-- A JSON file can be read exactly if every number in it is formatted as a number of JSON, and then the reader
gets the object. -/
theorem readJson_text (fmt : α → String) (l : List (String × Val α))
    (hl : ∀ kv ∈ l, ∀ x ∈ kv.2.members, isNumber (fmt x).toList = true ∨ isNonFinite (fmt x).toList) :
    readJson (fileText fmt (.json l)) =
      if l.all fun kv => kv.2.valid fmt then
        some (.obj (l.map fun kv => (kv.1.toList, kv.2.json fmt))) else none := by
  cases l with
  | nil => rfl
  | cons kv l =>
    unfold readJson
    have e : fileText fmt (.json (kv :: l)) = '{' :: (newline 1 ++
        (joinChars (',' :: newline 1) ((kv :: l).map (jsonMember fmt)) ++ newline 0 ++ '}' :: [])) := by
      simp [fileText]
    have hlen : membersCost (kv :: l) ≤ 4 * (fileText fmt (.json (kv :: l))).length + 3 := by
      have h1 := membersCost_le fmt (kv :: l) hl
      have h2 := joinChars_length (',' :: newline 1) ((kv :: l).map (jsonMember fmt))
      rw [e]
      simp only [List.length_append, List.length_cons, List.length_nil]
      omega
    generalize hF : 4 * (fileText fmt (.json (kv :: l))).length + 3 = F at hlen
    have hm := readMembers_fields fmt (kv :: l) (by simp) hl [] [] rfl F hlen
    rw [List.nil_append] at hm
    obtain ⟨r, hr⟩ := joinChars_head (',' :: newline 1) (jsonMember fmt kv) (l.map (jsonMember fmt)) '"'
      _ (by simp only [jsonMember, jsonString, List.cons_append]; rfl)
    have hj : joinChars (',' :: newline 1) ((kv :: l).map (jsonMember fmt)) = '"' :: r := by
      rw [List.map_cons]; exact hr
    have hd : (joinChars (',' :: newline 1) ((kv :: l).map (jsonMember fmt)) ++ newline 0 ++
        '}' :: []).dropWhile isSpace =
          joinChars (',' :: newline 1) ((kv :: l).map (jsonMember fmt)) ++ newline 0 ++ '}' :: [] := by
      rw [hj, List.cons_append, List.cons_append, dropWhile_nonspace (by decide)]
    have hread : readValue (F + 1) (fileText fmt (.json (kv :: l))) =
        (readMembers F (joinChars (',' :: newline 1) ((kv :: l).map (jsonMember fmt)) ++ newline 0 ++
          '}' :: [])).map fun r => (Json.obj r.1, r.2) := by
      rw [e, readValue, dropWhile_nonspace (by decide)]
      simp only [if_true]
      rw [dropWhile_spaces (newline_space 1), hd]
      split
      · rename_i heq
        rw [hj, List.cons_append, List.cons_append, List.cons.injEq] at heq
        exact absurd heq.1 (by decide)
      · rfl
    rw [show 4 * (fileText fmt (.json (kv :: l))).length + 4 = F + 1 by omega, hread, hm]
    cases (kv :: l).all fun kv => kv.2.valid fmt <;> rfl

/-! ## ASCII -/

theorem Spec.Ascii.cons {c : Char} {l : List Char} (hc : c.toNat < 128) (hl : Ascii l) : Ascii (c :: l) := by
  intro d hd
  rcases List.mem_cons.mp hd with rfl | h
  · exact hc
  · exact hl d h

theorem Spec.Ascii.append {l m : List Char} (hl : Ascii l) (hm : Ascii m) : Ascii (l ++ m) := by
  intro d hd
  rcases List.mem_append.mp hd with h | h
  · exact hl d h
  · exact hm d h

theorem Spec.Ascii.nil : Ascii [] := fun _ h => absurd h (by simp)

theorem hex4_ascii (n : Nat) : Ascii (hex4 n) := by
  have h : ∀ m, (hexDigit (m % 16)).toNat < 128 := fun m => hexDigit_ascii _ (Nat.mod_lt _ (by decide))
  exact .cons (h _) (.cons (h _) (.cons (h _) (.cons (h _) .nil)))

theorem jsonChar_ascii (c : Char) : Ascii (jsonChar c) := by
  have h2 : ∀ d : Char, d.toNat < 128 → Ascii ['\\', d] := fun d hd => .cons (by decide) (.cons hd .nil)
  have hu : ∀ n, Ascii ('\\' :: 'u' :: hex4 n) := fun n => .cons (by decide) (.cons (by decide) (hex4_ascii n))
  unfold jsonChar
  by_cases h1 : (c == '"') = true
  · rw [if_pos h1]; exact h2 _ (by decide)
  rw [if_neg h1]
  by_cases h1 : (c == '\\') = true
  · rw [if_pos h1]; exact h2 _ (by decide)
  rw [if_neg h1]
  by_cases h1 : (c == '\n') = true
  · rw [if_pos h1]; exact h2 _ (by decide)
  rw [if_neg h1]
  by_cases h1 : (c == '\r') = true
  · rw [if_pos h1]; exact h2 _ (by decide)
  rw [if_neg h1]
  by_cases h1 : (c == '\t') = true
  · rw [if_pos h1]; exact h2 _ (by decide)
  rw [if_neg h1]
  by_cases h1 : (c == '\x0c') = true
  · rw [if_pos h1]; exact h2 _ (by decide)
  rw [if_neg h1]
  by_cases h1 : (c == '\x08') = true
  · rw [if_pos h1]; exact h2 _ (by decide)
  rw [if_neg h1]
  by_cases h1 : 32 ≤ c.toNat ∧ c.toNat ≤ 126
  · rw [if_pos h1]; exact .cons (by omega) .nil
  rw [if_neg h1]
  split
  · exact hu _
  · exact (hu _).append (hu _)

theorem jsonString_ascii (s : String) : Ascii (jsonString s) := by
  refine (Ascii.cons (by decide) ?_).append (.cons (by decide) .nil)
  intro d hd
  obtain ⟨c, -, hc⟩ := List.mem_flatMap.mp hd
  exact jsonChar_ascii c d hc

theorem newline_ascii (n : Nat) : Ascii (newline n) := by
  refine .cons (by decide) fun c hc => ?_
  rw [(List.mem_replicate.mp hc).2]; decide

theorem joinChars_ascii {sep : List Char} (hsep : Ascii sep) (l : List (List Char)) (h : ∀ x ∈ l, Ascii x) :
    Ascii (joinChars sep l) := by
  induction l with
  | nil => exact .nil
  | cons x l ih =>
    cases l with
    | nil => exact h x (by simp)
    | cons y l =>
      rw [joinChars]
      exact ((h x (by simp)).append hsep).append (ih fun z hz => h z (List.mem_cons_of_mem _ hz))

theorem number_ascii {tok : List Char} (h : isNumber tok = true ∨ isNonFinite tok) : Ascii tok := by
  rcases h with h | h | h | h
  · intro c hc
    have := List.all_eq_true.mp (isNumber_all h).2 c hc
    simp only [isNumberChar, isDigit, Bool.or_eq_true, Bool.and_eq_true, decide_eq_true_eq,
      beq_iff_eq] at this
    rcases this with ((((h | rfl) | rfl) | rfl) | rfl) | rfl
    · have h9 : c.toNat ≤ ('9' : Char).toNat := h.2
      have : ('9' : Char).toNat = 57 := by decide
      omega
    all_goals decide
  all_goals subst h; intro c hc; revert c; decide

theorem jsonVal_ascii (fmt : α → String) (v : Val α)
    (hv : ∀ x ∈ v.members, isNumber (fmt x).toList = true ∨ isNonFinite (fmt x).toList) :
    Ascii (jsonVal fmt v) := by
  cases v with
  | num x => exact number_ascii (hv x (by simp [Val.members]))
  | str s => exact jsonString_ascii s
  | arr l =>
    cases l with
    | nil => exact .cons (by decide) (.cons (by decide) .nil)
    | cons x l =>
      refine (((Ascii.cons (by decide) (newline_ascii 2)).append
        (joinChars_ascii (.cons (by decide) (newline_ascii 2)) _ ?_)).append (newline_ascii 1)).append
        (.cons (by decide) .nil)
      intro t ht
      obtain ⟨y, hy, rfl⟩ := List.mem_map.mp ht
      exact number_ascii (hv y hy)

/-- A JSON file is ASCII whatever the strings in it. -/
theorem jsonText_ascii (fmt : α → String) (l : List (String × Val α))
    (hl : ∀ kv ∈ l, ∀ x ∈ kv.2.members, isNumber (fmt x).toList = true ∨ isNonFinite (fmt x).toList) :
    Ascii (fileText fmt (.json l)) := by
  cases l with
  | nil => exact .cons (by decide) (.cons (by decide) .nil)
  | cons kv l =>
    refine (((Ascii.cons (by decide) (newline_ascii 1)).append
      (joinChars_ascii (.cons (by decide) (newline_ascii 1)) _ ?_)).append (newline_ascii 0)).append
      (.cons (by decide) .nil)
    intro t ht
    obtain ⟨y, hy, rfl⟩ := List.mem_map.mp ht
    exact (jsonString_ascii y.1).append (.cons (by decide) (.cons (by decide)
      (jsonVal_ascii fmt y.2 (hl y hy))))

end OpenControls
