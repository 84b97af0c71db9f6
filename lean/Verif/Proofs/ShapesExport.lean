import Verif.Spec.ShapesExport
import Verif.Spec.Shapes
import Verif.Proofs.Disk
import Verif.Proofs.Export

/-!
# Helper lemmas for exporting arrays of any shape
-/

namespace OpenControls

set_option linter.unusedSectionVars false

open PyFloat Spec Py NdArray

variable {α : Type} [Add α] [Sub α] [Mul α] [Div α] [Neg α] [PyFloat α]

theorem writeFile_reliable (disk : Disk) (filename : String) (pieces : List (Except PyErr (List Char))) :
    writeFile reliable disk filename pieces = (.of (upTo pieces).1, disk.put filename (upTo pieces).2) := by
  obtain ⟨-, h2, h3⟩ := writePieces_spec reliable 0 [] pieces
  have h3 := h3 fun _ => rfl
  rcases h2 with h2 | h2
  · rw [h3] at h2
    cases h : (upTo pieces).1 <;> rw [h] at h2 <;> cases h2
  · unfold writeFile
    rw [if_pos (show reliable.opens = true from rfl)]
    dsimp only
    rw [h2.1, h2.2, List.nil_append]

theorem upTo_append (a b : List (Except PyErr (List Char))) :
    upTo (a ++ b) = match (upTo a).1 with
      | .ok () => ((upTo b).1, (upTo a).2 ++ (upTo b).2)
      | .error e => (.error e, (upTo a).2) := by
  induction a with
  | nil => simp [upTo]
  | cons p a ih =>
    cases p with
    | error e => simp [upTo]
    | ok s =>
      simp only [List.cons_append, upTo, ih]
      cases (upTo a).1 <;> simp

/-- an item that is not an array -/
def liftVal : Val α → NdVal α
  | .num x => .num x
  | .arr l => .cells (l.map .num)
  | .str s => .str s

/-- members with separators -/
def joinFrom (fmt : α → String) (before : List Char) : List (String × Val α) → List Char
  | [] => []
  | kv :: l => before ++ jsonMember fmt kv ++ joinFrom fmt (',' :: newline 1) l

theorem joinFrom_eq (fmt : α → String) (before : List Char) (kv : String × Val α) (l : List (String × Val α)) :
    joinFrom fmt before (kv :: l) =
      before ++ joinChars (',' :: newline 1) ((kv :: l).map (jsonMember fmt)) := by
  induction l generalizing before kv with
  | nil => simp [joinFrom, joinChars]
  | cons kv' l ih => rw [joinFrom, ih]; simp [joinChars]

theorem fileText_joinFrom (fmt : α → String) (kv : String × Val α) (l : List (String × Val α)) :
    fileText fmt (.json (kv :: l)) = joinFrom fmt ('{' :: newline 1) (kv :: l) ++ (newline 0 ++ ['}']) := by
  rw [joinFrom_eq]; simp [fileText]

theorem cellPieces_num (fmt : α → String) (before : List Char) (x : α) (l : List α) :
    upTo (cellPieces fmt before ((x :: l).map .num)) = (.ok (), before ++
      joinChars (',' :: newline 2) ((x :: l).map fun x => (fmt x).toList) ++ newline 1 ++ [']']) := by
  induction l generalizing before x with
  | nil => simp [cellPieces, upTo, joinChars]
  | cons y l ih =>
    rw [List.map_cons, cellPieces, upTo, ih]
    simp [joinChars]

theorem valPieces_lift (fmt : α → String) (v : Val α) :
    upTo (valPieces fmt (liftVal v)) = (.ok (), jsonVal fmt v) := by
  cases v with
  | num x => simp [liftVal, valPieces, upTo, jsonVal]
  | str s => simp [liftVal, valPieces, upTo, jsonVal]
  | arr l =>
    cases l with
    | nil => simp [liftVal, valPieces, upTo, jsonVal]
    | cons x l =>
      have := cellPieces_num fmt ('[' :: newline 2) x l
      rw [List.map_cons] at this
      simp only [liftVal, List.map_cons, valPieces]
      rw [this]
      simp [jsonVal]

theorem memberPieces_good (fmt : α → String) (before : List Char) (l : List (String × Val α)) :
    upTo (memberPieces fmt before (l.map fun kv => (kv.1, liftVal kv.2))) =
      (.ok (), joinFrom fmt before l ++ (newline 0 ++ ['}'])) := by
  induction l generalizing before with
  | nil => simp [memberPieces, upTo, joinFrom]
  | cons kv l ih =>
    obtain ⟨k, v⟩ := kv
    rw [List.map_cons, memberPieces, List.cons_append, upTo, upTo_append, valPieces_lift, ih]
    simp [joinFrom, jsonMember]

/-- a list of arrays that is not empty -/
def BadVal (v : NdVal α) : Prop := ∃ a l, v = .cells (.sub a :: l)

theorem memberPieces_bad (fmt : α → String) (x : α) (before : List Char) (l : List (String × NdVal α))
    (hl : ∀ kv ∈ l, BadVal kv.2 ∨ ∃ v, kv.2 = liftVal v) (hbad : ∃ kv ∈ l, BadVal kv.2) :
    ∃ message text kv rest, upTo (memberPieces fmt before l) = (.error (.typeError message), text) ∧
      text <+: joinFrom fmt before (kv :: rest) := by
  induction l generalizing before with
  | nil => obtain ⟨kv, h, -⟩ := hbad; simp at h
  | cons kv l ih =>
    obtain ⟨k, v⟩ := kv
    by_cases hk : BadVal v
    · obtain ⟨a, l', rfl⟩ := hk
      refine ⟨"Object of type ndarray is not JSON serializable",
        before ++ jsonString k ++ [':', ' '] ++ ('[' :: newline 2 ++ []), (k, .arr [x]), [], ?_, ?_⟩
      · rw [memberPieces, List.cons_append, upTo, upTo_append]
        simp only [valPieces, cellPieces, upTo]
      · simp only [joinFrom, jsonMember, jsonVal, List.map_cons, List.map_nil, joinChars]
        refine ⟨(fmt x).toList ++ newline 1 ++ [']'], ?_⟩
        simp
    · obtain ⟨w, hw⟩ := (hl (k, v) (by simp)).resolve_left hk
      obtain ⟨message, text, kv, rest, h1, h2⟩ := ih (',' :: newline 1) (fun kv h => hl kv (by simp [h]))
        (by
          obtain ⟨kv, h, hb⟩ := hbad
          rcases List.mem_cons.mp h with rfl | h
          · exact absurd hb hk
          · exact ⟨kv, h, hb⟩)
      have hw' : v = liftVal w := hw
      refine ⟨message, before ++ jsonString k ++ [':', ' '] ++ (jsonVal fmt w ++ text), (k, w), kv :: rest, ?_, ?_⟩
      · rw [memberPieces, List.cons_append, upTo, upTo_append, hw', valPieces_lift, h1]
      · obtain ⟨u, hu⟩ := h2
        refine ⟨u, ?_⟩
        rw [joinFrom, ← hu]
        simp [jsonMember]

theorem toList_cases (a : NdArray α) :
    (a.shape = [] ∧ ∃ m, a.toList = .error (.typeError m)) ∨
    (a.shape.length = 1 ∧ a.toList = .ok (a.data.map .num)) ∨
    (∃ n rest, a.shape = n :: rest ∧ rest ≠ [] ∧ ∃ l, a.toList = .ok l ∧ l.length = n ∧
      (n ≠ 0 → BadVal (.cells l))) := by
  unfold NdArray.toList
  rcases h : a.shape with _ | ⟨n, _ | ⟨k, rest⟩⟩
  · exact .inl ⟨rfl, _, rfl⟩
  · exact .inr (.inl ⟨rfl, rfl⟩)
  · refine .inr (.inr ⟨n, k :: rest, rfl, by simp, _, rfl, by simp, fun hn => ?_⟩)
    obtain ⟨n, rfl⟩ := Nat.exists_eq_succ_of_ne_zero hn
    exact ⟨_, _, by rw [List.range_succ_eq_map]; rfl⟩

/-- what `memberPieces` leaves when a member cannot be written is not JSON -/
theorem memberPieces_cut (fmt : α → String) (hfmt : ∀ x, isNumber (fmt x).toList = true) (x : α)
    (kv : String × NdVal α) (l : List (String × NdVal α))
    (hl : ∀ kv' ∈ kv :: l, BadVal kv'.2 ∨ ∃ v, kv'.2 = liftVal v) (hbad : ∃ kv' ∈ kv :: l, BadVal kv'.2) :
    ∃ message text, upTo (memberPieces fmt ('{' :: newline 1) (kv :: l)) = (.error (.typeError message), text) ∧
      readJson text = none := by
  obtain ⟨message, text, kv', rest, h1, h2⟩ := memberPieces_bad fmt x ('{' :: newline 1) _ hl hbad
  refine ⟨message, text, h1, ?_⟩
  have hv : ∀ v : Val α, v.valid fmt = true := by
    intro v; cases v <;> simp [Val.valid, hfmt]
  have h3 := readJson_text fmt (kv' :: rest) fun _ _ x _ => .inl (hfmt x)
  rw [if_pos (by simp [hv])] at h3
  have h4 : text <+: fileText fmt (.json (kv' :: rest)) := by
    rw [fileText_joinFrom]
    exact h2.trans (List.prefix_append _ _)
  have h5 : text ≠ fileText fmt (.json (kv' :: rest)) := by
    intro h
    have := h2.length_le
    rw [h, fileText_joinFrom] at this
    simp at this
  exact readJson_cut (body := newline 1 ++ joinChars (',' :: newline 1) ((kv' :: rest).map (jsonMember fmt)) ++
    newline 0) (by simpa [fileText] using h3) (by simpa [fileText] using h4) (by simpa [fileText] using h5)

/-- rows up to the first one that raises -/
theorem upTo_rows (f : ℕ → Except PyErr (List (List Char))) (g : ℕ → List (List Char)) (K : ℕ)
    (hg : ∀ i < K, f i = .ok (g i)) :
    upTo ((List.range K).map fun i => (f i).map csvLine) = (.ok (), ((List.range K).map g).flatMap csvLine) ∧
    ∀ N e, K < N → f K = .error e →
      upTo ((List.range N).map fun i => (f i).map csvLine) = (.error e, ((List.range K).map g).flatMap csvLine) := by
  have h1 : upTo ((List.range K).map fun i => (f i).map csvLine) =
      (.ok (), ((List.range K).map g).flatMap csvLine) := by
    have e : ((List.range K).map fun i => (f i).map csvLine) = ((List.range K).map fun i => csvLine (g i)).map .ok := by
      rw [List.map_map]
      refine List.map_congr_left fun i hi => ?_
      rw [hg i (List.mem_range.mp hi)]
      rfl
    rw [e, upTo_ok, List.flatMap_map]
    rfl
  refine ⟨h1, fun N e hN he => ?_⟩
  obtain ⟨d, rfl⟩ := Nat.exists_eq_add_of_lt hN
  have : List.range (K + d + 1) = List.range K ++ K :: (List.range d).map (K + 1 + ·) := by
    rw [show K + d + 1 = K + (d + 1) by ring, List.range_add, List.range_succ_eq_map]
    simp [Nat.add_assoc, Nat.add_comm 1]
  rw [this, List.map_append, upTo_append, h1, List.map_cons, he]
  simp [Except.map, upTo]

/-- the sorted members of an export -/
def ndItems (name : Option String) (m : α) (cartesian : Bool) (l1 l2 l3 l4 : List (Cell α)) :
    List (String × NdVal α) :=
  let n : List (String × NdVal α) := match name with
    | some n => [("name", .str n)]
    | none => []
  if cartesian then
    [("amplitude_x", .cells l1), ("amplitude_y", .cells l2), ("detuning", .cells l3), ("duration", .cells l4),
      ("maximum_rabi_rate", .num m)] ++ n
  else
    [("azimuthal_angles", .cells l1), ("detuning", .cells l2), ("duration", .cells l3),
      ("maximum_rabi_rate", .num m)] ++ n ++ [("rabi_rates", .cells l4)]

/-- the same members, if all items are numbers -/
def valItems (name : Option String) (m : α) (cartesian : Bool) (l1 l2 l3 l4 : List α) : List (String × Val α) :=
  let n : List (String × Val α) := match name with
    | some n => [("name", .str n)]
    | none => []
  if cartesian then
    [("amplitude_x", .arr l1), ("amplitude_y", .arr l2), ("detuning", .arr l3), ("duration", .arr l4),
      ("maximum_rabi_rate", .num m)] ++ n
  else
    [("azimuthal_angles", .arr l1), ("detuning", .arr l2), ("duration", .arr l3),
      ("maximum_rabi_rate", .num m)] ++ n ++ [("rabi_rates", .arr l4)]

theorem ndItems_lift (name : Option String) (m : α) (b : Bool) (l1 l2 l3 l4 : List α) :
    ndItems name m b (l1.map .num) (l2.map .num) (l3.map .num) (l4.map .num) =
      (valItems name m b l1 l2 l3 l4).map fun kv => (kv.1, liftVal kv.2) := by
  cases b <;> cases name <;> rfl

theorem ndItems_bad (name : Option String) (m : α) (b : Bool) (l1 l2 l3 l4 : List (Cell α))
    (o1 : BadVal (.cells l1) ∨ ∃ v, NdVal.cells l1 = liftVal v)
    (o2 : BadVal (.cells l2) ∨ ∃ v, NdVal.cells l2 = liftVal v)
    (o3 : BadVal (.cells l3) ∨ ∃ v, NdVal.cells l3 = liftVal v)
    (o4 : BadVal (.cells l4) ∨ ∃ v, NdVal.cells l4 = liftVal v)
    (hb : BadVal (.cells l1) ∨ BadVal (.cells l2) ∨ BadVal (.cells l3) ∨ BadVal (.cells l4)) :
    (∀ kv ∈ ndItems name m b l1 l2 l3 l4, BadVal kv.2 ∨ ∃ v, kv.2 = liftVal v) ∧
    ∃ kv ∈ ndItems name m b l1 l2 l3 l4, BadVal kv.2 := by
  have om : BadVal (.num m : NdVal α) ∨ ∃ v, NdVal.num m = liftVal v := .inr ⟨.num m, rfl⟩
  have on : ∀ n, BadVal (.str n : NdVal α) ∨ ∃ v : Val α, NdVal.str n = liftVal v := fun n => .inr ⟨.str n, rfl⟩
  refine ⟨?_, ?_⟩
  · unfold ndItems
    cases b <;> cases name <;>
      simp only [Bool.false_eq_true, if_false, if_true, List.append_nil, List.cons_append, List.nil_append,
        List.mem_cons, List.not_mem_nil, or_false, forall_eq_or_imp, forall_eq]
    · exact ⟨o1, o2, o3, om, o4⟩
    · exact ⟨o1, o2, o3, om, on _, o4⟩
    · exact ⟨o1, o2, o3, o4, om⟩
    · exact ⟨o1, o2, o3, o4, om, on _⟩
  · have key : ∀ l, (l = l1 ∨ l = l2 ∨ l = l3 ∨ l = l4) →
        ∃ k, (k, NdVal.cells l) ∈ ndItems name m b l1 l2 l3 l4 := by
      intro l h
      unfold ndItems
      cases b
      · rcases h with rfl | rfl | rfl | rfl
        · exact ⟨"azimuthal_angles", by simp⟩
        · exact ⟨"detuning", by simp⟩
        · exact ⟨"duration", by simp⟩
        · exact ⟨"rabi_rates", by simp⟩
      · rcases h with rfl | rfl | rfl | rfl
        · exact ⟨"amplitude_x", by simp⟩
        · exact ⟨"amplitude_y", by simp⟩
        · exact ⟨"detuning", by simp⟩
        · exact ⟨"duration", by simp⟩
    rcases hb with h | h | h | h
    · obtain ⟨k, hk⟩ := key l1 (.inl rfl); exact ⟨_, hk, h⟩
    · obtain ⟨k, hk⟩ := key l2 (.inr (.inl rfl)); exact ⟨_, hk, h⟩
    · obtain ⟨k, hk⟩ := key l3 (.inr (.inr (.inl rfl))); exact ⟨_, hk, h⟩
    · obtain ⟨k, hk⟩ := key l4 (.inr (.inr (.inr rfl))); exact ⟨_, hk, h⟩

theorem member_json (fmt : α → String) (l : List (String × Val α)) (key : String) :
    member (l.map fun kv => (kv.1.toList, kv.2.json fmt)) key = (dictGet key l).map (Val.json fmt) := by
  unfold member
  induction l with
  | nil => rfl
  | cons kv l ih =>
    obtain ⟨k, v⟩ := kv
    simp only [List.map_cons, List.lookup_cons, ih]
    by_cases hk : key = k
    · subst hk; simp [dictGet]
    · have hk' : key.toList ≠ k.toList := fun h => hk (String.toList_inj.mp h)
      simp [beq_eq_false_iff_ne.mpr hk', dictGet, Ne.symm hk]

/-- the columns of an export -/
def ndColumns (n : ℕ) (m : α) (cartesian : Bool) (l1 l2 l3 l4 : List (Cell α)) : List (String × List (Cell α)) :=
  if cartesian then
    [("amplitude_x", l1), ("amplitude_y", l2), ("detuning", l3), ("duration", l4),
      ("maximum_rabi_rate", List.replicate n (.num m))]
  else
    [("azimuthal_angles", l1), ("detuning", l2), ("duration", l3),
      ("maximum_rabi_rate", List.replicate n (.num m)), ("rabi_rates", l4)]

theorem exported_four {c : NdControl α} {m : α} {coordinates : String} {arrays : List (String × NdArray α)}
    (h : Exported c m coordinates arrays) :
    ∃ t1 a1 t2 a2 t3 a3 t4 a4, arrays = [(t1, a1), (t2, a2), (t3, a3), (t4, a4)] := by
  rcases h with ⟨-, rfl⟩ | ⟨-, x, y, -, -, rfl⟩ <;> exact ⟨_, _, _, _, _, _, _, _, rfl⟩

theorem exportContent_scalar {c : NdControl α} {m : α} (hm : npAmax c.rabiRates.data = .ok m) {coordinates : String}
    {arrays : List (String × NdArray α)} (h : Exported c m coordinates arrays)
    (h0 : ∃ a ∈ arrays, a.2.shape = []) : ∃ message, c.exportContent coordinates = .error (.typeError message) := by
  have key : ∀ a : NdArray α, a.toList = .error (.typeError "iteration over a 0-d array") ∨
      ∃ l, a.toList = .ok l ∧ a.shape ≠ [] := by
    intro a
    unfold NdArray.toList
    rcases a.shape with _ | ⟨n, _ | ⟨k, rest⟩⟩ <;> simp
  unfold NdControl.exportContent
  rw [hm]
  rcases h with ⟨rfl, rfl⟩ | ⟨rfl, x, y, hx, hy, rfl⟩
  · simp only [List.mem_cons, List.not_mem_nil, or_false, exists_eq_or_imp, exists_eq_left] at h0
    rcases key c.detunings with h1 | ⟨l1, h1, g1⟩
    · exact ⟨"iteration over a 0-d array", by simp only [h1, bind, Except.bind]⟩
    rcases key c.durations with h2 | ⟨l2, h2, g2⟩
    · exact ⟨"iteration over a 0-d array", by simp only [h1, h2, bind, Except.bind]⟩
    rcases key (c.rabiRates.un fun v => v / m) with h3 | ⟨l3, h3, g3⟩
    · refine ⟨"iteration over a 0-d array", ?_⟩
      simp only [h1, h2, h3, bind, Except.bind]
      rw [if_neg (by decide)]
    rcases key c.azimuthalAngles with h4 | ⟨l4, h4, g4⟩
    · refine ⟨"iteration over a 0-d array", ?_⟩
      simp only [h1, h2, h3, h4, bind, Except.bind]
      rw [if_neg (by decide)]
    tauto
  · simp only [List.mem_cons, List.not_mem_nil, or_false, exists_eq_or_imp, exists_eq_left] at h0
    rcases key c.detunings with h1 | ⟨l1, h1, g1⟩
    · exact ⟨"iteration over a 0-d array", by simp only [h1, bind, Except.bind]⟩
    rcases key c.durations with h2 | ⟨l2, h2, g2⟩
    · exact ⟨"iteration over a 0-d array", by simp only [h1, h2, bind, Except.bind]⟩
    rcases key (x.un fun v => v / m) with h3 | ⟨l3, h3, g3⟩
    · refine ⟨"iteration over a 0-d array", ?_⟩
      simp only [h1, h2, hx, h3, bind, Except.bind]
      rw [if_pos (by decide)]
    rcases key (y.un fun v => v / m) with h4 | ⟨l4, h4, g4⟩
    · refine ⟨"iteration over a 0-d array", ?_⟩
      simp only [h1, h2, hx, h3, hy, h4, bind, Except.bind]
      rw [if_pos (by decide)]
    tauto

/-- the dictionary in insertion order -/
def ndContent (name : Option String) (m : α) (cartesian : Bool) (l1 l2 l3 l4 : List (Cell α)) :
    List (String × NdVal α) :=
  let n : List (String × NdVal α) := match name with
    | some n => [("name", .str n)]
    | none => []
  if cartesian then
    [("maximum_rabi_rate", .num m), ("detuning", .cells l3), ("duration", .cells l4)] ++ n ++
      [("amplitude_x", .cells l1), ("amplitude_y", .cells l2)]
  else
    [("maximum_rabi_rate", .num m), ("detuning", .cells l2), ("duration", .cells l3)] ++ n ++
      [("rabi_rates", .cells l4), ("azimuthal_angles", .cells l1)]

/-- the dictionary of a CSV export -/
def ndCsvContent (n : ℕ) (m : α) (cartesian : Bool) (l1 l2 l3 l4 : List (Cell α)) :
    List (String × NdVal α) :=
  if cartesian then
    [("maximum_rabi_rate", .cells (List.replicate n (.num m))), ("detuning", .cells l3), ("duration", .cells l4),
      ("amplitude_x", .cells l1), ("amplitude_y", .cells l2)]
  else
    [("maximum_rabi_rate", .cells (List.replicate n (.num m))), ("detuning", .cells l2), ("duration", .cells l3),
      ("rabi_rates", .cells l4), ("azimuthal_angles", .cells l1)]

theorem exportContent_list {c : NdControl α} {m : α} (hm : npAmax c.rabiRates.data = .ok m) {coordinates : String}
    {t1 t2 t3 t4 : String} {a1 a2 a3 a4 : NdArray α}
    (h : Exported c m coordinates [(t1, a1), (t2, a2), (t3, a3), (t4, a4)])
    {l1 l2 l3 l4 : List (Cell α)} (h1 : a1.toList = .ok l1) (h2 : a2.toList = .ok l2) (h3 : a3.toList = .ok l3)
    (h4 : a4.toList = .ok l4) :
    c.exportContent coordinates = .ok (ndContent c.name m (coordinates == "cartesian") l1 l2 l3 l4) := by
  rcases h with ⟨rfl, he⟩ | ⟨rfl, x, y, hx, hy, he⟩
  · simp only [List.cons.injEq, Prod.mk.injEq, and_true] at he
    obtain ⟨⟨rfl, rfl⟩, ⟨rfl, rfl⟩, ⟨rfl, rfl⟩, ⟨rfl, rfl⟩⟩ := he
    unfold NdControl.exportContent
    simp only [hm, h1, h2, h3, h4, bind, Except.bind]
    rw [if_neg (by decide)]
    cases c.name <;> simp [ndContent, dictSet, pure, Except.pure]
  · simp only [List.cons.injEq, Prod.mk.injEq, and_true] at he
    obtain ⟨⟨rfl, rfl⟩, ⟨rfl, rfl⟩, ⟨rfl, rfl⟩, ⟨rfl, rfl⟩⟩ := he
    unfold NdControl.exportContent
    simp only [hm, hx, hy, h1, h2, h3, h4, bind, Except.bind]
    rw [if_pos (by decide)]
    cases c.name <;> simp [ndContent, dictSet, pure, Except.pure]

theorem ndContent_sorted (name : Option String) (m : α) (b : Bool) (l1 l2 l3 l4 : List (Cell α)) :
    ((sortStrings ((ndContent name m b l1 l2 l3 l4).map Prod.fst)).filterMap fun k =>
      (dictGet k (ndContent name m b l1 l2 l3 l4)).map fun v => (k, v)) = ndItems name m b l1 l2 l3 l4 := by
  cases b
  · cases name
    · simp [ndContent, ndItems, sort4, dictGet_self, dictGet_ne]
    · simp [ndContent, ndItems, sort3, dictGet_self, dictGet_ne]
  · cases name
    · simp [ndContent, ndItems, sort2, dictGet_self, dictGet_ne]
    · simp [ndContent, ndItems, sort1, dictGet_self, dictGet_ne]

theorem ndContent_name (name : Option String) (m : α) (b : Bool) (l1 l2 l3 l4 : List (Cell α)) :
    dictGet "name" (ndContent name m b l1 l2 l3 l4) = name.map .str := by
  cases b <;> cases name <;> simp [ndContent, dictGet_self, dictGet_ne] <;> rfl

theorem ndContent_csv (name : Option String) (m : α) (b : Bool) (l1 l2 l3 l4 : List (Cell α)) (n : ℕ) :
    dictSet "maximum_rabi_rate" (.cells (List.replicate n (.num m)))
      (dictErase "name" (ndContent name m b l1 l2 l3 l4)) = ndCsvContent n m b l1 l2 l3 l4 := by
  cases b <;> cases name <;> simp [ndContent, ndCsvContent, dictErase, dictSet]

theorem ndCsvContent_sorted (m : α) (b : Bool) (l1 l2 l3 l4 : List (Cell α)) (n : ℕ) :
    sortStrings ((ndCsvContent n m b l1 l2 l3 l4).map Prod.fst) = (ndColumns n m b l1 l2 l3 l4).map Prod.fst := by
  cases b
  · simp [ndCsvContent, ndColumns, sort4]
  · simp [ndCsvContent, ndColumns, sort2]

theorem ndCsvContent_get (m : α) (b : Bool) (l1 l2 l3 l4 : List (Cell α)) (n : ℕ) :
    ∀ p ∈ ndColumns n m b l1 l2 l3 l4, dictGet p.1 (ndCsvContent n m b l1 l2 l3 l4) = some (.cells p.2) := by
  cases b <;> simp [ndCsvContent, ndColumns, dictGet_self, dictGet_ne]

/-- the fields of a row -/
theorem ndCsvRow_eq (fmt : α → String) (fmtArray : NdArray α → String) (info : List (String × NdVal α))
    (columns : List (String × List (Cell α)))
    (h : ∀ p ∈ columns, dictGet p.1 info = some (.cells p.2)) (i : ℕ) :
    ((∀ p ∈ columns, i < p.2.length) → ndCsvRow fmt fmtArray info (columns.map Prod.fst) i =
      .ok (columns.map fun p => ((p.2[i]?).map (cellText fmt fmtArray)).getD [])) ∧
    ((∃ p ∈ columns, p.2.length ≤ i) →
      ndCsvRow fmt fmtArray info (columns.map Prod.fst) i = .error .indexError) := by
  unfold ndCsvRow
  induction columns with
  | nil => simp [pure, Except.pure]
  | cons p columns ih =>
    obtain ⟨ih1, ih2⟩ := ih fun p hp => h p (by simp [hp])
    simp only [List.map_cons, List.mapM_cons, h p (by simp)]
    refine ⟨fun hi => ?_, fun hi => ?_⟩
    · have hp := hi p (by simp)
      rw [ih1 fun p hp => hi p (by simp [hp])]
      simp [List.getElem?_eq_getElem hp, bind, Except.bind, pure, Except.pure]
    · by_cases hp : p.2.length ≤ i
      · simp [List.getElem?_eq_none hp, bind, Except.bind]
      · rw [ih2 (by
          obtain ⟨q, hq, hi⟩ := hi
          rcases List.mem_cons.mp hq with rfl | hq
          · exact absurd hi hp
          · exact ⟨q, hq, hi⟩)]
        simp [List.getElem?_eq_getElem (not_le.mp hp), bind, Except.bind]

theorem toList_itemText (fmt : α → String) (fmtArray : NdArray α → String) {a : NdArray α} {l : List (Cell α)}
    (h : a.toList = .ok l) (i : ℕ) : (l[i]?).map (cellText fmt fmtArray) = itemText fmt fmtArray a i := by
  unfold NdArray.toList at h
  unfold itemText
  rcases hs : a.shape with _ | ⟨n, _ | ⟨k, rest⟩⟩ <;> rw [hs] at h <;> simp only [Except.ok.injEq, reduceCtorEq] at h
  · subst h; simp [cellText]; rfl
  · subst h
    by_cases hi : i < n <;> simp [List.getElem?_range, hi, cellText]

end OpenControls
