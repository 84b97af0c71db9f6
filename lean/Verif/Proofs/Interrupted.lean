import Verif.Proofs.FileText

/-!
# Cutting off a JSON text

A reader that succeeds on a text gives the same result on a longer text, as long as what it read is not a number at
the end of the text.
-/

namespace OpenControls

open Spec

theorem dropWhile_append_cons {p : Char → Bool} {s t : List Char} {c : Char} {cs : List Char}
    (h : s.dropWhile p = c :: cs) : (s ++ t).dropWhile p = c :: (cs ++ t) := by
  induction s with
  | nil => simp at h
  | cons a s ih =>
    rw [List.cons_append]
    by_cases ha : p a = true
    · rw [List.dropWhile_cons_of_pos ha] at h ⊢
      exact ih h
    · rw [List.dropWhile_cons_of_neg ha] at h ⊢
      cases h
      rfl

theorem takeWhile_append_cons {p : Char → Bool} {s t : List Char} {c : Char} {cs : List Char}
    (h : s.dropWhile p = c :: cs) : (s ++ t).takeWhile p = s.takeWhile p := by
  induction s with
  | nil => simp at h
  | cons a s ih =>
    rw [List.cons_append]
    by_cases ha : p a = true
    · rw [List.dropWhile_cons_of_pos ha] at h
      rw [List.takeWhile_cons_of_pos ha, List.takeWhile_cons_of_pos ha, ih h]
    · rw [List.takeWhile_cons_of_neg ha, List.takeWhile_cons_of_neg ha]

theorem readHex4_append {s r : List Char} {n : Nat} (h : readHex4 s = some (n, r)) (t : List Char) :
    readHex4 (s ++ t) = some (n, r ++ t) := by
  rcases s with _ | ⟨a, _ | ⟨b, _ | ⟨c, _ | ⟨d, s⟩⟩⟩⟩ <;> try simp [readHex4] at h
  simp only [List.cons_append, readHex4]
  cases ha : hexValue a <;> cases hb : hexValue b <;> cases hc : hexValue c <;> cases hd : hexValue d <;>
    simp_all

theorem readChar_append {s r : List Char} {x : Char} (h : readChar s = some (x, r)) (t : List Char) :
    readChar (s ++ t) = some (x, r ++ t) := by
  rcases s with _ | ⟨a, s⟩
  · simp [readChar] at h
  by_cases ha : a = '\\'
  · subst ha
    rcases s with _ | ⟨b, s⟩
    · simp [readChar] at h
    simp only [List.cons_append, readChar] at h ⊢
    by_cases hk : b = '"'
    · rw [if_pos hk] at h ⊢; cases h; rfl
    rw [if_neg hk] at h ⊢; clear hk
    by_cases hk : b = '\\'
    · rw [if_pos hk] at h ⊢; cases h; rfl
    rw [if_neg hk] at h ⊢; clear hk
    by_cases hk : b = '/'
    · rw [if_pos hk] at h ⊢; cases h; rfl
    rw [if_neg hk] at h ⊢; clear hk
    by_cases hk : b = 'b'
    · rw [if_pos hk] at h ⊢; cases h; rfl
    rw [if_neg hk] at h ⊢; clear hk
    by_cases hk : b = 'f'
    · rw [if_pos hk] at h ⊢; cases h; rfl
    rw [if_neg hk] at h ⊢; clear hk
    by_cases hk : b = 'n'
    · rw [if_pos hk] at h ⊢; cases h; rfl
    rw [if_neg hk] at h ⊢; clear hk
    by_cases hk : b = 'r'
    · rw [if_pos hk] at h ⊢; cases h; rfl
    rw [if_neg hk] at h ⊢; clear hk
    by_cases hk : b = 't'
    · rw [if_pos hk] at h ⊢; cases h; rfl
    rw [if_neg hk] at h ⊢; clear hk
    by_cases hk : b = 'u'
    swap
    · rw [if_neg hk] at h; cases h
    rw [if_pos hk] at h ⊢; clear hk
    cases hn : readHex4 s with
    | none => simp [hn] at h
    | some nr =>
      obtain ⟨n, r'⟩ := nr
      rw [readHex4_append hn]
      simp only [hn] at h ⊢
      split_ifs at h ⊢ with k1 k2
      · cases h; rfl
      · rcases r' with _ | ⟨d, _ | ⟨e, r'⟩⟩
        · simp at h
        · split at h <;> simp_all
        · by_cases hd : d = '\\'
          · by_cases he : e = 'u'
            · subst hd he
              simp only [List.cons_append] at h ⊢
              cases hm : readHex4 r' with
              | none => simp [hm] at h
              | some mr =>
                obtain ⟨m, r''⟩ := mr
                rw [readHex4_append hm]
                simp only [hm] at h ⊢
                split_ifs at h ⊢ with k3
                simp only [Option.some.injEq, Prod.mk.injEq] at h ⊢
                exact ⟨h.1, by rw [h.2]⟩
            · split at h <;> simp_all
          · split at h <;> simp_all
  · have e : ∀ u, readChar (a :: u) = if a.toNat < 32 ∨ a = '"' ∨ a = '\\' then none else some (a, u) := by
      intro u
      rw [readChar.eq_def]
      split <;> simp_all
    rw [List.cons_append, e] at *
    split_ifs at h ⊢
    cases h; rfl

theorem readString_succ (fuel : Nat) (a : Char) (s : List Char) :
    readString (fuel + 1) (a :: s) = if a = '"' then some ([], s) else
      match readChar (a :: s) with
      | none => none
      | some (c, cs) => (readString fuel cs).map fun r => (c :: r.1, r.2) := by
  by_cases ha : a = '"'
  · subst ha; simp [readString]
  · rw [readString, if_neg ha]
    · rfl
    intro cs heq
    exact absurd (List.cons.inj heq).1 ha

theorem readString_append {fuel : Nat} {s r x : List Char} (h : readString fuel s = some (x, r)) (t : List Char) :
    readString fuel (s ++ t) = some (x, r ++ t) := by
  induction fuel generalizing s r x with
  | zero => simp [readString] at h
  | succ fuel ih =>
    rcases s with _ | ⟨a, s⟩
    · simp [readString, readChar] at h
    rw [List.cons_append, readString_succ] at *
    split_ifs at h ⊢ with ha
    · cases h; rfl
    · cases hc : readChar (a :: s) with
      | none => simp [hc] at h
      | some p =>
        obtain ⟨c, cs⟩ := p
        have := readChar_append hc t
        rw [List.cons_append] at this
        simp only [hc, this] at h ⊢
        cases hs : readString fuel cs with
        | none => simp [hs] at h
        | some p =>
          obtain ⟨y, r'⟩ := p
          rw [ih hs]
          rw [hs] at h
          cases h; rfl

theorem readString_mono {fuel : Nat} {s : List Char} {x : List Char × List Char}
    (h : readString fuel s = some x) : readString (fuel + 1) s = some x := by
  induction fuel generalizing s x with
  | zero => simp [readString] at h
  | succ fuel ih =>
    rcases s with _ | ⟨a, s⟩
    · simp [readString, readChar] at h
    rw [readString_succ] at *
    split_ifs at h ⊢ with ha
    · exact h
    · cases hc : readChar (a :: s) with
      | none => simp [hc] at h
      | some p =>
        obtain ⟨c, cs⟩ := p
        simp only [hc] at h ⊢
        cases hs : readString fuel cs with
        | none => simp [hs] at h
        | some p =>
          rw [ih hs]
          rw [hs] at h
          exact h

/-- a value that ends with its own last character, or is followed by something -/
def Delimited (v : Json) (rest : List Char) : Prop := rest ≠ [] ∨ ∀ tok, v ≠ .num tok

theorem read_append (fuel : Nat) :
    (∀ s v r, readValue fuel s = some (v, r) → Delimited v r → ∀ t, readValue fuel (s ++ t) = some (v, r ++ t)) ∧
    (∀ s v r, readElements fuel s = some (v, r) → ∀ t, readElements fuel (s ++ t) = some (v, r ++ t)) ∧
    (∀ s v r, readMembers fuel s = some (v, r) → ∀ t, readMembers fuel (s ++ t) = some (v, r ++ t)) := by
  induction fuel with
  | zero => simp [readValue, readElements, readMembers]
  | succ fuel ih =>
    obtain ⟨ihv, ihe, ihm⟩ := ih
    refine ⟨?_, ?_, ?_⟩
    · intro s v r h hd t
      rw [readValue] at h ⊢
      cases hs : s.dropWhile isSpace with
      | nil => simp [hs] at h
      | cons c cs =>
        rw [dropWhile_append_cons hs]
        simp only [hs] at h ⊢
        by_cases h1 : c = '{'
        · simp only [h1, if_true] at h ⊢
          cases hw : cs.dropWhile isSpace with
          | nil =>
            simp only [hw] at h
            cases fuel <;> simp [readMembers] at h
          | cons d ds =>
            rw [dropWhile_append_cons hw]
            simp only [hw] at h ⊢
            by_cases hd : d = '}'
            · subst hd
              simp only at h ⊢
              cases h; rfl
            · split at h
              · rename_i heq; exact absurd (List.cons.inj heq).1 hd
              split
              · rename_i heq; exact absurd (List.cons.inj heq).1 hd
              cases hm : readMembers fuel (d :: ds) with
              | none => simp [hm] at h
              | some p =>
                have := ihm _ p.1 p.2 hm t
                rw [List.cons_append] at this
                rw [this]
                rw [hm] at h
                cases h; rfl
        · simp only [h1, if_false] at h ⊢
          by_cases h2 : c = '['
          · simp only [h2, if_true] at h ⊢
            cases hw : cs.dropWhile isSpace with
            | nil =>
              simp only [hw] at h
              cases fuel with
              | zero => simp [readElements] at h
              | succ f => cases f <;> simp [readElements, readValue] at h
            | cons d ds =>
              rw [dropWhile_append_cons hw]
              simp only [hw] at h ⊢
              by_cases hd : d = ']'
              · subst hd
                simp only at h ⊢
                cases h; rfl
              · split at h
                · rename_i heq; exact absurd (List.cons.inj heq).1 hd
                split
                · rename_i heq; exact absurd (List.cons.inj heq).1 hd
                cases hm : readElements fuel (d :: ds) with
                | none => simp [hm] at h
                | some p =>
                  have := ihe _ p.1 p.2 hm t
                  rw [List.cons_append] at this
                  rw [this]
                  rw [hm] at h
                  cases h; rfl
          · simp only [h2, if_false] at h ⊢
            by_cases h3 : c = '"'
            · simp only [h3, if_true] at h ⊢
              cases hm : readString (fuel + 1) cs with
              | none => simp [hm] at h
              | some p =>
                rw [readString_append (x := p.1) (r := p.2) hm]
                rw [hm] at h
                cases h; rfl
            · simp only [h3, if_false] at h ⊢
              have htake : ∀ (n : ℕ) (l : List Char), l.length = n → cs.take n = l →
                  (cs ++ t).take n = l ∧ (cs ++ t).drop n = cs.drop n ++ t := by
                intro n l hl he
                have hn : n ≤ cs.length := by
                  have := congrArg List.length he
                  rw [List.length_take, hl] at this
                  omega
                rw [List.take_append_of_le_length hn, List.drop_append_of_le_length hn]
                exact ⟨he, rfl⟩
              by_cases h4 : c :: cs.take 3 = ['t', 'r', 'u', 'e']
              · rw [if_pos h4] at h
                simp only [List.cons.injEq] at h4
                obtain ⟨e1, e2⟩ := htake 3 ['r', 'u', 'e'] rfl h4.2
                rw [if_pos (by rw [e1, h4.1]), e2]
                cases h; rfl
              rw [if_neg h4] at h
              by_cases h5 : c :: cs.take 4 = ['f', 'a', 'l', 's', 'e']
              · rw [if_pos h5] at h
                simp only [List.cons.injEq] at h5
                obtain ⟨e1, e2⟩ := htake 4 ['a', 'l', 's', 'e'] rfl h5.2
                rw [if_neg (by rw [h5.1]; simp), if_pos (by rw [e1, h5.1]), e2]
                cases h; rfl
              rw [if_neg h5] at h
              by_cases h6 : c :: cs.take 3 = ['n', 'u', 'l', 'l']
              · rw [if_pos h6] at h
                simp only [List.cons.injEq] at h6
                obtain ⟨e1, e2⟩ := htake 3 ['u', 'l', 'l'] rfl h6.2
                rw [if_neg (by rw [h6.1]; simp), if_neg (by rw [h6.1]; simp), if_pos (by rw [e1, h6.1]), e2]
                cases h; rfl
              rw [if_neg h6] at h
              split_ifs at h with h7
              simp only [Option.some.injEq, Prod.mk.injEq] at h
              obtain ⟨rfl, rfl⟩ := h
              have hc : isNumberChar c = true := by
                by_contra hc
                rw [List.takeWhile_cons_of_neg hc] at h7
                exact absurd h7 (by decide)
              obtain ⟨-, -, -, -, n1, n2, n3⟩ := isNumberChar_ne hc
              rw [if_neg (by simp [n1]), if_neg (by simp [n2]), if_neg (by simp [n3])]
              rcases hd with hd | hd
              · obtain ⟨d, ds, hds⟩ := List.exists_cons_of_ne_nil hd
                rw [← List.cons_append, takeWhile_append_cons hds, if_pos h7, dropWhile_append_cons hds, hds]
                rfl
              · exact absurd rfl (hd _)
    · intro s v r h t
      rw [readElements] at h ⊢
      cases hv : readValue fuel s with
      | none => simp [hv] at h
      | some p =>
        obtain ⟨x, cs⟩ := p
        simp only [hv] at h
        cases hw : cs.dropWhile isSpace with
        | nil => simp [hw] at h
        | cons d ds =>
          rw [ihv s x cs hv (Or.inl (by rintro rfl; simp at hw))]
          simp only [dropWhile_append_cons hw, hw] at h ⊢
          by_cases h1 : d = ','
          · subst h1
            simp only at h ⊢
            cases hm : readElements fuel ds with
            | none => simp [hm] at h
            | some p =>
              rw [ihe _ p.1 p.2 hm]
              rw [hm] at h
              cases h; rfl
          · by_cases h2 : d = ']'
            · subst h2
              simp only at h ⊢
              cases h; rfl
            · split at h <;> simp_all
    · intro s v r h t
      rw [readMembers] at h ⊢
      cases hs : s.dropWhile isSpace with
      | nil => simp [hs] at h
      | cons c cs =>
        rw [dropWhile_append_cons hs]
        simp only [hs] at h ⊢
        by_cases hc : c = '"'
        · subst hc
          simp only at h ⊢
          cases hk : readString (fuel + 1) cs with
          | none => simp [hk] at h
          | some p =>
            obtain ⟨k, ks⟩ := p
            rw [readString_append hk]
            simp only [hk] at h ⊢
            cases hw : ks.dropWhile isSpace with
            | nil => simp [hw] at h
            | cons d ds =>
              rw [dropWhile_append_cons hw]
              simp only [hw] at h ⊢
              by_cases hd : d = ':'
              · subst hd
                simp only at h ⊢
                cases hv : readValue fuel ds with
                | none => simp [hv] at h
                | some p =>
                  obtain ⟨x, xs⟩ := p
                  simp only [hv] at h
                  cases hw : xs.dropWhile isSpace with
                  | nil => simp [hw] at h
                  | cons e es =>
                    rw [ihv ds x xs hv (Or.inl (by rintro rfl; simp at hw))]
                    simp only [dropWhile_append_cons hw, hw] at h ⊢
                    by_cases h1 : e = ','
                    · subst h1
                      simp only at h ⊢
                      cases hm : readMembers fuel es with
                      | none => simp [hm] at h
                      | some p =>
                        rw [ihm _ p.1 p.2 hm]
                        rw [hm] at h
                        cases h; rfl
                    · by_cases h2 : e = '}'
                      · subst h2
                        simp only at h ⊢
                        cases h; rfl
                      · split at h <;> simp_all
              · split at h <;> simp_all
        · split at h <;> simp_all

theorem read_mono (fuel : Nat) :
    (∀ s x, readValue fuel s = some x → readValue (fuel + 1) s = some x) ∧
    (∀ s x, readElements fuel s = some x → readElements (fuel + 1) s = some x) ∧
    (∀ s x, readMembers fuel s = some x → readMembers (fuel + 1) s = some x) := by
  induction fuel with
  | zero => simp [readValue, readElements, readMembers]
  | succ fuel ih =>
    obtain ⟨ihv, ihe, ihm⟩ := ih
    refine ⟨?_, ?_, ?_⟩
    · intro s x h
      rw [readValue] at h ⊢
      cases hs : s.dropWhile isSpace with
      | nil => simp [hs] at h
      | cons c cs =>
        simp only [hs] at h ⊢
        split_ifs at h ⊢ with h1 h2 h3
        · split at h
          · exact h
          · rw [Option.map_eq_some_iff] at h ⊢
            obtain ⟨a, ha, rfl⟩ := h
            exact ⟨a, ihm _ _ ha, rfl⟩
        · split at h
          · exact h
          · rw [Option.map_eq_some_iff] at h ⊢
            obtain ⟨a, ha, rfl⟩ := h
            exact ⟨a, ihe _ _ ha, rfl⟩
        · rw [Option.map_eq_some_iff] at h ⊢
          obtain ⟨a, ha, rfl⟩ := h
          exact ⟨a, readString_mono ha, rfl⟩
        all_goals exact h
    · intro s x h
      rw [readElements] at h ⊢
      cases hv : readValue fuel s with
      | none => simp [hv] at h
      | some p =>
        rw [ihv _ _ hv]
        simp only [hv] at h ⊢
        split at h
        · rw [Option.map_eq_some_iff] at h ⊢
          obtain ⟨a, ha, rfl⟩ := h
          exact ⟨a, ihe _ _ ha, rfl⟩
        · exact h
        · cases h
    · intro s x h
      rw [readMembers] at h ⊢
      split at h
      · cases hk : readString (fuel + 1) ‹_› with
        | none => simp [hk] at h
        | some p =>
          rw [readString_mono hk]
          simp only [hk] at h ⊢
          split at h
          · cases hv : readValue fuel ‹_› with
            | none => simp [hv] at h
            | some p =>
              rw [ihv _ _ hv]
              simp only [hv] at h ⊢
              split at h
              · rw [Option.map_eq_some_iff] at h ⊢
                obtain ⟨a, ha, rfl⟩ := h
                exact ⟨a, ihm _ _ ha, rfl⟩
              · exact h
              · cases h
          · cases h
      · cases h

theorem readValue_mono {f g : Nat} (hfg : f ≤ g) {s : List Char} {x : Json × List Char}
    (h : readValue f s = some x) : readValue g s = some x := by
  induction hfg with
  | refl => exact h
  | step _ ih => exact (read_mono _).1 _ _ ih

/-- A JSON text that starts with `{` and ends with `}` is no longer one when anything is missing at its end. -/
theorem readJson_cut {body p : List Char} {value : Json} (h : readJson ('{' :: body ++ ['}']) = some value)
    (hp : p <+: '{' :: body ++ ['}']) (hne : p ≠ '{' :: body ++ ['}']) : readJson p = none := by
  obtain ⟨q, hq⟩ := hp
  by_contra hread
  obtain ⟨v, hv⟩ := Option.ne_none_iff_exists'.mp hread
  have hq0 : q ≠ [] := by
    rintro rfl
    exact hne (by simpa using hq)
  unfold readJson at hv h
  cases h1 : readValue (4 * p.length + 4) p with
  | none => simp [h1] at hv
  | some vr =>
    obtain ⟨v', r⟩ := vr
    rcases p with _ | ⟨c, p⟩
    · simp [readValue] at h1
    obtain rfl : c = '{' := by
      have := congrArg List.head? hq
      simpa using this
    have hnum : ∀ tok, v' ≠ .num tok := by
      rintro tok rfl
      rw [readValue, dropWhile_nonspace (by decide)] at h1
      simp only [if_true] at h1
      split at h1
      · simp at h1
      · rw [Option.map_eq_some_iff] at h1
        obtain ⟨a, -, ha⟩ := h1
        simp at ha
    have h2 := (read_append _).1 _ _ _ h1 (Or.inr hnum) q
    rw [hq] at h2
    have hlen : 4 * ('{' :: p).length + 4 ≤ 4 * ('{' :: body ++ ['}']).length + 4 := by
      rw [← hq]; simp
    rw [readValue_mono hlen h2] at h
    simp only at h
    split_ifs at h with hsp
    rw [List.all_append, Bool.and_eq_true, List.all_eq_true, List.all_eq_true] at hsp
    have hlast : q.getLast hq0 = '}' := by
      have e : (('{' :: p) ++ q).getLast (by simp) = '}' := by
        simp only [hq]
        exact List.getLast_concat
      rwa [List.getLast_append_of_ne_nil _ hq0] at e
    exact absurd (hsp.2 _ (List.getLast_mem hq0)) (by rw [hlast]; decide)

end OpenControls
