import Verif.Proofs.ShapesExport
import Verif.Props.Interrupted
import Verif.Props.Shapes

/-!
# C101: exporting controls whose arrays are not 1-D

`fmt` and `fmtArray` print numbers and arrays; the operating system is `reliable`, except in `C101_flat`.
-/

namespace OpenControls

set_option linter.unusedSectionVars false

open PyFloat Spec Py NdArray

section

variable {α : Type} [Add α] [Sub α] [Mul α] [Div α] [Neg α] [PyFloat α]

theorem nd_export_eq (fmt : α → String) (fmtArray : NdArray α → String) (os : Os) (c : NdControl α) (disk : Disk)
    (filename fileType coordinates : String) (ht : fileType = "CSV" ∨ fileType = "JSON")
    (hc : coordinates = "cartesian" ∨ coordinates = "cylindrical") :
    c.exportToDisk fmt fmtArray os disk filename "Q-CTRL expanded" fileType coordinates =
      c.exportExpandedDisk fmt fmtArray os disk filename fileType coordinates := by
  unfold NdControl.exportToDisk
  rcases hc with rfl | rfl <;> rcases ht with rfl | rfl <;>
    simp [fileFormats, fileTypes, coordinateSystems]

theorem exported_coordinates {c : NdControl α} {m : α} {coordinates : String} {arrays : List (String × NdArray α)}
    (h : Exported c m coordinates arrays) : coordinates = "cartesian" ∨ coordinates = "cylindrical" := by
  rcases h with ⟨h, -⟩ | ⟨h, -⟩
  · exact .inr h
  · exact .inl h

/-- an array that can be listed -/
theorem toList_some {a : NdArray α} (h : a.shape ≠ []) : ∃ l, a.toList = .ok l ∧
    ∀ n rest, a.shape = n :: rest → (rest = [] → a.data.length = n) → l.length = n := by
  unfold NdArray.toList
  rcases hs : a.shape with _ | ⟨n, _ | ⟨k, rest⟩⟩
  · exact absurd hs h
  · refine ⟨_, rfl, fun n' rest h1 h2 => ?_⟩
    simp only [List.cons.injEq] at h1
    obtain ⟨rfl, rfl⟩ := h1
    simpa using h2 rfl
  · refine ⟨_, rfl, fun n' rest' h1 h2 => ?_⟩
    simp only [List.cons.injEq] at h1
    obtain ⟨rfl, -⟩ := h1
    simp

/-- **C101** An array without axes (a single number) cannot be exported: `TypeError`, and no file is touched. -/
theorem C101_scalar (fmt : α → String) (fmtArray : NdArray α → String) (os : Os) (c : NdControl α) (disk : Disk)
    (filename fileType coordinates : String) (ht : fileType = "CSV" ∨ fileType = "JSON") (m : α)
    (hm : npAmax c.rabiRates.data = .ok m) (arrays : List (String × NdArray α))
    (h : Exported c m coordinates arrays) (h0 : ∃ a ∈ arrays, a.2.shape = []) :
    ∃ message, c.exportToDisk fmt fmtArray os disk filename "Q-CTRL expanded" fileType coordinates =
      (.raised (.typeError message), disk) := by
  obtain ⟨message, he⟩ := exportContent_scalar hm h h0
  refine ⟨message, ?_⟩
  rw [nd_export_eq fmt fmtArray os c disk filename fileType coordinates ht (exported_coordinates h),
    NdControl.exportExpandedDisk, he]

/-- **C101** A JSON export of 1-D arrays (or arrays with no item along the first axis) returns, and the file can be read
back; if some other array has several axes, `TypeError` is raised when the file has been opened: its old contents are
gone, and what is left of it is not JSON. -/
theorem C101_json (fmt : α → String) (hfmt : ∀ x, isNumber (fmt x).toList = true) (fmtArray : NdArray α → String)
    (c : NdControl α) (disk : Disk) (filename coordinates : String) (m : α)
    (hm : npAmax c.rabiRates.data = .ok m) (arrays : List (String × NdArray α))
    (h : Exported c m coordinates arrays) (hreg : ∀ a ∈ arrays, Regular a.2) (h0 : ∀ a ∈ arrays, a.2.shape ≠ []) :
    ((∀ a ∈ arrays, a.2.shape.length = 1 ∨ FirstAxis 0 a.2) → ∃ text object,
      c.exportToDisk fmt fmtArray reliable disk filename "Q-CTRL expanded" "JSON" coordinates =
        (.returned, disk.put filename text) ∧
      readJson text = some (.obj object) ∧
      (∀ a ∈ arrays, member object a.1 = some (.arr ((a.2.data.map fun x => (fmt x).toList).map .num))) ∧
      member object "maximum_rabi_rate" = some (.num (fmt m).toList) ∧
      member object "name" = c.name.map (fun n => .str n.toList)) ∧
    ((∃ a ∈ arrays, a.2.shape.length ≠ 1 ∧ ¬ FirstAxis 0 a.2) → ∃ text message,
      c.exportToDisk fmt fmtArray reliable disk filename "Q-CTRL expanded" "JSON" coordinates =
        (.raised (.typeError message), disk.put filename text) ∧ readJson text = none) := by
  have hco := exported_coordinates h
  obtain ⟨t1, a1, t2, a2, t3, a3, t4, a4, rfl⟩ := exported_four h
  simp only [List.mem_cons, List.not_mem_nil, or_false, forall_eq_or_imp, forall_eq, exists_eq_or_imp,
    exists_eq_left] at hreg h0 ⊢
  obtain ⟨l1, e1, -⟩ := toList_some h0.1
  obtain ⟨l2, e2, -⟩ := toList_some h0.2.1
  obtain ⟨l3, e3, -⟩ := toList_some h0.2.2.1
  obtain ⟨l4, e4, -⟩ := toList_some h0.2.2.2
  have hexp := exportContent_list hm h e1 e2 e3 e4
  have hw : c.exportToDisk fmt fmtArray reliable disk filename "Q-CTRL expanded" "JSON" coordinates =
      (.of (upTo (memberPieces fmt ('{' :: newline 1)
        (ndItems c.name m (coordinates == "cartesian") l1 l2 l3 l4))).1,
       disk.put filename (upTo (memberPieces fmt ('{' :: newline 1)
        (ndItems c.name m (coordinates == "cartesian") l1 l2 l3 l4))).2) := by
    rw [nd_export_eq fmt fmtArray _ c disk filename "JSON" coordinates (.inr rfl) hco,
      NdControl.exportExpandedDisk, hexp]
    dsimp only
    rw [if_neg (by decide), jsonPieces, ndContent_sorted]
    have : ∃ kv l, ndItems c.name m (coordinates == "cartesian") l1 l2 l3 l4 = kv :: l := by
      unfold ndItems
      cases (coordinates == "cartesian") <;> simp
    obtain ⟨kv, l, hl⟩ := this
    rw [hl]
    exact writeFile_reliable disk filename _
  have hlist : ∀ {a : NdArray α} {l : List (Cell α)}, a.toList = .ok l → a.shape ≠ [] → Regular a →
      ((a.shape.length = 1 ∨ FirstAxis 0 a) → l = a.data.map .num) ∧
      (¬ (a.shape.length = 1 ∨ FirstAxis 0 a) → BadVal (.cells l)) := by
    intro a l e hs hr
    rcases toList_cases a with ⟨h, -⟩ | ⟨h, h'⟩ | ⟨n, rest, h, hne, l', h', hl, hb⟩
    · exact absurd h hs
    · rw [e] at h'; cases h'
      exact ⟨fun _ => rfl, fun hn => absurd (.inl h) hn⟩
    · rw [e] at h'; cases h'
      refine ⟨fun ho => ?_, fun hn => hb fun h0 => hn (.inr ⟨rest, by rw [h, h0]⟩)⟩
      rcases ho with ho | ⟨rest', ho⟩
      · rw [h] at ho
        simp only [List.length_cons, Nat.add_eq_right, List.length_eq_zero_iff] at ho
        exact absurd ho hne
      · rw [h] at ho
        simp only [List.cons.injEq] at ho
        obtain ⟨rfl, -⟩ := ho
        rw [Regular, h] at hr
        simp only [List.prod_cons, zero_mul, List.length_eq_zero_iff] at hr
        rw [hr, List.length_eq_zero_iff.mp hl]
        rfl
  have g1 := hlist e1 h0.1 hreg.1
  have g2 := hlist e2 h0.2.1 hreg.2.1
  have g3 := hlist e3 h0.2.2.1 hreg.2.2.1
  have g4 := hlist e4 h0.2.2.2 hreg.2.2.2
  refine ⟨fun hall => ?_, fun hbad => ?_⟩
  · have r1 := g1.1 hall.1
    have r2 := g2.1 hall.2.1
    have r3 := g3.1 hall.2.2.1
    have r4 := g4.1 hall.2.2.2
    have hup : upTo (memberPieces fmt ('{' :: newline 1)
        (ndItems c.name m (coordinates == "cartesian") l1 l2 l3 l4)) =
        (.ok (), fileText fmt (.json (valItems c.name m (coordinates == "cartesian") a1.data a2.data a3.data
          a4.data))) := by
      rw [r1, r2, r3, r4, ndItems_lift, memberPieces_good]
      have : ∃ kv l, valItems c.name m (coordinates == "cartesian") a1.data a2.data a3.data a4.data = kv :: l := by
        unfold valItems
        cases (coordinates == "cartesian") <;> simp
      obtain ⟨kv, l, hl⟩ := this
      rw [hl, fileText_joinFrom]
    have hread := readJson_text fmt (valItems c.name m (coordinates == "cartesian") a1.data a2.data a3.data a4.data)
      fun _ _ x _ => .inl (hfmt x)
    have hv : ∀ v : Val α, v.valid fmt = true := by
      intro v; cases v <;> simp [Val.valid, hfmt]
    rw [if_pos (by simp [hv])] at hread
    refine ⟨_, _, by rw [hw, hup]; rfl, hread, ?_, ?_, ?_⟩
    · simp only [member_json]
      rcases h with ⟨rfl, he⟩ | ⟨rfl, x, y, hx, hy, he⟩ <;>
      · simp only [List.cons.injEq, Prod.mk.injEq, and_true] at he
        obtain ⟨⟨rfl, -⟩, ⟨rfl, -⟩, ⟨rfl, -⟩, ⟨rfl, -⟩⟩ := he
        cases c.name <;> simp [valItems, dictGet_self, dictGet_ne, Val.json]
    · rw [member_json]
      cases (coordinates == "cartesian") <;> simp [valItems, dictGet_self, dictGet_ne, Val.json]
    · rw [member_json]
      cases (coordinates == "cartesian") <;> cases c.name <;>
        simp [valItems, dictGet_self, dictGet_ne, Val.json] <;> rfl
  · have hor : ∀ {a : NdArray α} {l : List (Cell α)},
        ((a.shape.length = 1 ∨ FirstAxis 0 a) → l = a.data.map .num) ∧
        (¬ (a.shape.length = 1 ∨ FirstAxis 0 a) → BadVal (.cells l)) →
        BadVal (.cells l) ∨ ∃ v, NdVal.cells l = liftVal v := by
      intro a l g
      by_cases ha : a.shape.length = 1 ∨ FirstAxis 0 a
      · exact .inr ⟨.arr a.data, by rw [g.1 ha]; rfl⟩
      · exact .inl (g.2 ha)
    have hb : BadVal (.cells l1) ∨ BadVal (.cells l2) ∨ BadVal (.cells l3) ∨ BadVal (.cells l4) := by
      rcases hbad with h | h | h | h
      · exact .inl (g1.2 (not_or.mpr h))
      · exact .inr (.inl (g2.2 (not_or.mpr h)))
      · exact .inr (.inr (.inl (g3.2 (not_or.mpr h))))
      · exact .inr (.inr (.inr (g4.2 (not_or.mpr h))))
    obtain ⟨hall, hex⟩ := ndItems_bad c.name m (coordinates == "cartesian") l1 l2 l3 l4 (hor g1) (hor g2) (hor g3)
      (hor g4) hb
    obtain ⟨kv, l, hl⟩ : ∃ kv l, ndItems c.name m (coordinates == "cartesian") l1 l2 l3 l4 = kv :: l := by
      unfold ndItems
      cases (coordinates == "cartesian") <;> simp
    rw [hl] at hall hex hw
    obtain ⟨message, text, hu, hr⟩ := memberPieces_cut fmt hfmt m kv l hall hex
    exact ⟨text, message, by rw [hw, hu]; rfl, hr⟩

theorem csvRows_columns (columns : List (String × List (List Char))) (hnd : (columns.map Prod.fst).Nodup) (K : ℕ)
    (hK : ∀ p ∈ columns, K ≤ p.2.length) :
    ∀ p ∈ columns, column ((columns.map fun p => p.1.toList) ::
      (List.range K).map fun i => columns.map fun p => (p.2[i]?).getD []) p.1 = some (p.2.take K) := by
  have hlook : ∀ (l : List (String × List (List Char))) (i : ℕ), (l.map Prod.fst).Nodup → ∀ p ∈ l,
      ((l.map fun p => p.1.toList).zip (l.map fun p => (p.2[i]?).getD [])).lookup p.1.toList =
        some ((p.2[i]?).getD []) := by
    intro l i hnd
    induction l with
    | nil => simp
    | cons q l ih =>
      intro p hp
      simp only [List.map_cons, List.nodup_cons] at hnd
      rcases List.mem_cons.mp hp with rfl | hp
      · simp [List.lookup]
      · have : p.1.toList ≠ q.1.toList := by
          intro h
          exact hnd.1 (List.mem_map.mpr ⟨p, hp, String.toList_inj.mp h⟩)
        simp only [List.map_cons, List.zip_cons_cons, List.lookup_cons, beq_eq_false_iff_ne.mpr this]
        exact ih hnd.2 p hp
  intro p hp
  unfold column
  apply mapM_getElem
  · simp [hK p hp]
  · intro i r x h1 h2
    simp only [List.getElem?_map, Option.map_eq_some_iff, List.getElem?_take] at h1 h2
    obtain ⟨j, hj, rfl⟩ := h1
    obtain ⟨hlt, rfl⟩ := List.getElem?_eq_some_iff.mp hj
    simp only [List.getElem_range, List.length_range] at hlt ⊢
    rw [if_pos hlt] at h2
    rw [hlook columns i hnd p hp, h2]
    rfl

/-- **C101** A CSV export of a named control whose Rabi rates have `N` places along the first axis: rows are written
while every array has a place left.  If that is so for all `N` rows the export returns, otherwise it raises `IndexError`
and leaves a shorter table.  An item that is itself an array is written as a text.  The file can be read in any case. -/
theorem C101_csv (fmt : α → String) (fmtArray : NdArray α → String)
    (c : NdControl α) (disk : Disk) (filename coordinates : String) (m : α) (hname : c.name ≠ none)
    (hm : npAmax c.rabiRates.data = .ok m) (arrays : List (String × NdArray α))
    (h : Exported c m coordinates arrays) (hreg : ∀ a ∈ arrays, Regular a.2) (h0 : ∀ a ∈ arrays, a.2.shape ≠ [])
    (N : ℕ) (hN : FirstAxis N c.rabiRates) :
    ∃ K text records,
      c.exportToDisk fmt fmtArray reliable disk filename "Q-CTRL expanded" "CSV" coordinates =
        (if K = N then .returned else .raised .indexError, disk.put filename text) ∧
      K ≤ N ∧ (∀ a ∈ arrays, ∀ n, FirstAxis n a.2 → K ≤ n) ∧ (K ≠ N → ∃ a ∈ arrays, FirstAxis K a.2) ∧
      readCsv text = some records ∧
      column records "maximum_rabi_rate" = some (List.replicate K (fmt m).toList) ∧
      ∀ a ∈ arrays, ∃ texts, column records a.1 = some texts ∧ texts.length = K ∧
        ∀ i < K, texts[i]? = itemText fmt fmtArray a.2 i := by
  have hco := exported_coordinates h
  obtain ⟨nm, hname⟩ := Option.ne_none_iff_exists'.mp hname
  obtain ⟨t1, a1, t2, a2, t3, a3, t4, a4, rfl⟩ := exported_four h
  have hlen : ∀ a ∈ [(t1, a1), (t2, a2), (t3, a3), (t4, a4)], ∃ l, a.2.toList = .ok l ∧ FirstAxis l.length a.2 := by
    intro a ha
    obtain ⟨l, e, g⟩ := toList_some (h0 a ha)
    refine ⟨l, e, ?_⟩
    rcases hs : a.2.shape with _ | ⟨n, rest⟩
    · exact absurd hs (h0 a ha)
    · have := g n rest hs fun hr => by
        have := hreg a ha
        rw [Regular, hs, hr] at this
        simpa using this
      exact ⟨rest, by rw [hs, this]⟩
  have huniq : ∀ {a : NdArray α} {n k : ℕ}, FirstAxis n a → FirstAxis k a → n = k := by
    rintro a n k ⟨r, h1⟩ ⟨r', h2⟩
    rw [h1] at h2
    exact (List.cons.inj h2).1
  obtain ⟨l1, e1, f1⟩ := hlen (t1, a1) (by simp)
  obtain ⟨l2, e2, f2⟩ := hlen (t2, a2) (by simp)
  obtain ⟨l3, e3, f3⟩ := hlen (t3, a3) (by simp)
  obtain ⟨l4, e4, f4⟩ := hlen (t4, a4) (by simp)
  have hexp := exportContent_list hm h e1 e2 e3 e4
  generalize hb : (coordinates == "cartesian") = b at hexp
  have hget := ndCsvContent_get m b l1 l2 l3 l4 N
  have hrow := ndCsvRow_eq fmt fmtArray (ndCsvContent N m b l1 l2 l3 l4) (ndColumns N m b l1 l2 l3 l4) hget
  obtain ⟨K, hK⟩ : ∃ K, K = min N (min (min l1.length l2.length) (min l3.length l4.length)) := ⟨_, rfl⟩
  have hKcol : ∀ p ∈ ndColumns N m b l1 l2 l3 l4, K ≤ p.2.length := by
    cases b <;> simp [ndColumns] <;> omega
  have hKmin : K ≠ N → ∃ p ∈ ndColumns N m b l1 l2 l3 l4, p.2.length ≤ K := by
    intro hne
    cases b <;> simp [ndColumns] <;> omega
  have hpieces : ∀ os, c.exportToDisk fmt fmtArray os disk filename "Q-CTRL expanded" "CSV" coordinates =
      writeFile os disk filename (.ok (csvLine ((ndColumns N m b l1 l2 l3 l4).map fun p => p.1.toList)) ::
        (List.range N).map fun i => (ndCsvRow fmt fmtArray (ndCsvContent N m b l1 l2 l3 l4)
          ((ndColumns N m b l1 l2 l3 l4).map Prod.fst) i).map csvLine) := by
    intro os
    obtain ⟨rest, hN⟩ := hN
    rw [nd_export_eq fmt fmtArray os c disk filename "CSV" coordinates (.inl rfl) hco,
      NdControl.exportExpandedDisk, hexp]
    dsimp only
    rw [if_pos (by decide), ndContent_name, hname, hm, hN]
    simp only [Option.map_some]
    rw [ndContent_csv, ndCsvContent_sorted, List.map_map]
    rfl
  let g : ℕ → List (List Char) := fun i => (ndColumns N m b l1 l2 l3 l4).map fun p =>
    ((p.2[i]?).map (cellText fmt fmtArray)).getD []
  obtain ⟨u1, u2⟩ := upTo_rows (fun i => ndCsvRow fmt fmtArray (ndCsvContent N m b l1 l2 l3 l4)
    ((ndColumns N m b l1 l2 l3 l4).map Prod.fst) i) g K fun i hi =>
      (hrow i).1 fun p hp => lt_of_lt_of_le hi (hKcol p hp)
  let cols : List (String × List (List Char)) := (ndColumns N m b l1 l2 l3 l4).map fun p =>
    (p.1, p.2.map (cellText fmt fmtArray))
  have hg : ∀ i, g i = cols.map fun p => (p.2[i]?).getD [] := by
    intro i
    simp [g, cols]
  have hcols1 : cols.map (fun p => p.1.toList) = (ndColumns N m b l1 l2 l3 l4).map fun p => p.1.toList := by
    simp [cols]
  have hnd : (cols.map Prod.fst).Nodup := by
    have : cols.map Prod.fst = (ndColumns N m b l1 l2 l3 l4).map Prod.fst := by simp [cols]
    rw [this]
    cases b <;> simp [ndColumns]
  have hcolumn := csvRows_columns cols hnd K fun p hp => by
    obtain ⟨q, hq, rfl⟩ := List.mem_map.mp hp
    simpa using hKcol q hq
  have hne : cols ≠ [] := by
    intro h
    have : cols.length = 0 := by rw [h]; rfl
    cases b <;> simp [cols, ndColumns] at this
  let records := (cols.map fun p => p.1.toList) :: (List.range K).map g
  have hread : readCsv (records.flatMap csvLine) = some records := by
    refine readCsv_lines records fun r hr => ?_
    rcases List.mem_cons.mp hr with rfl | hr
    · simpa using hne
    · obtain ⟨i, -, rfl⟩ := List.mem_map.mp hr
      rw [hg]
      simpa using hne
  have hrec : records = (cols.map fun p => p.1.toList) ::
      (List.range K).map fun i => cols.map fun p => (p.2[i]?).getD [] := by
    simp only [records]
    congr 1
    exact List.map_congr_left fun i _ => hg i
  have hcell : ∀ (t : String) (a : NdArray α) (l : List (Cell α)), a.toList = .ok l →
      (t, l) ∈ ndColumns N m b l1 l2 l3 l4 →
      ∃ texts, column records t = some texts ∧ texts.length = K ∧
        ∀ i < K, texts[i]? = itemText fmt fmtArray a i := by
    intro t a l e hmem
    refine ⟨(l.map (cellText fmt fmtArray)).take K, ?_, ?_, ?_⟩
    · rw [hrec]
      exact hcolumn (t, l.map (cellText fmt fmtArray)) (List.mem_map.mpr ⟨_, hmem, rfl⟩)
    · simpa using hKcol _ hmem
    · intro i hi
      rw [List.getElem?_take, if_pos hi, List.getElem?_map, toList_itemText fmt fmtArray e]
  refine ⟨K, records.flatMap csvLine, records, ?_, by omega, ?_, ?_, hread, ?_, ?_⟩
  · rw [hpieces, writeFile_reliable]
    by_cases hKN : K = N
    · rw [hKN] at u1
      rw [if_pos hKN, upTo, u1]
      simp only [records, List.flatMap_cons, hcols1]
      rw [hKN]
      rfl
    · rw [if_neg hKN, upTo, u2 N .indexError (by omega) ((hrow K).2 (hKmin hKN))]
      simp only [records, List.flatMap_cons, hcols1]
      rfl
  · intro a ha n hn
    simp only [List.mem_cons, List.not_mem_nil, or_false] at ha
    rcases ha with rfl | rfl | rfl | rfl
    · have := huniq hn f1; omega
    · have := huniq hn f2; omega
    · have := huniq hn f3; omega
    · have := huniq hn f4; omega
  · intro hKN
    have : K = l1.length ∨ K = l2.length ∨ K = l3.length ∨ K = l4.length := by clear hKmin hKcol; omega
    rcases this with h | h | h | h
    · exact ⟨(t1, a1), by simp, by rw [h]; exact f1⟩
    · exact ⟨(t2, a2), by simp, by rw [h]; exact f2⟩
    · exact ⟨(t3, a3), by simp, by rw [h]; exact f3⟩
    · exact ⟨(t4, a4), by simp, by rw [h]; exact f4⟩
  · have hmem : ("maximum_rabi_rate", List.replicate N (.num m)) ∈ ndColumns N m b l1 l2 l3 l4 := by
      cases b <;> simp [ndColumns]
    have := hcolumn _ (List.mem_map.mpr ⟨_, hmem, rfl⟩)
    rw [hrec, this]
    simp only [List.map_replicate, List.take_replicate, cellText]
    rw [show min K N = K by omega]
  · have hmem : (t1, l1) ∈ ndColumns N m b l1 l2 l3 l4 ∧ (t2, l2) ∈ ndColumns N m b l1 l2 l3 l4 ∧
        (t3, l3) ∈ ndColumns N m b l1 l2 l3 l4 ∧ (t4, l4) ∈ ndColumns N m b l1 l2 l3 l4 := by
      rw [← hb]
      rcases h with ⟨rfl, he⟩ | ⟨rfl, x, y, hx, hy, he⟩ <;>
      · simp only [List.cons.injEq, Prod.mk.injEq, and_true] at he
        obtain ⟨⟨rfl, -⟩, ⟨rfl, -⟩, ⟨rfl, -⟩, ⟨rfl, -⟩⟩ := he
        simp [ndColumns]
    intro a ha
    simp only [List.mem_cons, List.not_mem_nil, or_false] at ha
    rcases ha with rfl | rfl | rfl | rfl
    · exact hcell _ _ _ e1 hmem.1
    · exact hcell _ _ _ e2 hmem.2.1
    · exact hcell _ _ _ e3 hmem.2.2.1
    · exact hcell _ _ _ e4 hmem.2.2.2

/-- **C101** A control without a name cannot be exported to CSV, whatever its shapes: `KeyError`, no file is touched. -/
theorem C101_csv_unnamed (fmt : α → String) (fmtArray : NdArray α → String) (os : Os)
    (c : NdControl α) (disk : Disk) (filename coordinates : String) (m : α) (hname : c.name = none)
    (hm : npAmax c.rabiRates.data = .ok m) (arrays : List (String × NdArray α))
    (h : Exported c m coordinates arrays) (h0 : ∀ a ∈ arrays, a.2.shape ≠ []) :
    c.exportToDisk fmt fmtArray os disk filename "Q-CTRL expanded" "CSV" coordinates =
      (.raised (.keyError "name"), disk) := by
  have hco := exported_coordinates h
  obtain ⟨t1, a1, t2, a2, t3, a3, t4, a4, rfl⟩ := exported_four h
  obtain ⟨l1, e1, -⟩ := toList_some (h0 (t1, a1) (by simp))
  obtain ⟨l2, e2, -⟩ := toList_some (h0 (t2, a2) (by simp))
  obtain ⟨l3, e3, -⟩ := toList_some (h0 (t3, a3) (by simp))
  obtain ⟨l4, e4, -⟩ := toList_some (h0 (t4, a4) (by simp))
  rw [nd_export_eq fmt fmtArray os c disk filename "CSV" coordinates (.inl rfl) hco,
    NdControl.exportExpandedDisk, exportContent_list hm h e1 e2 e3 e4]
  dsimp only
  rw [if_pos (by decide), ndContent_name, hname]
  rfl

theorem toList_vec (xs : List α) : (vec xs).toList = .ok (xs.map .num) := rfl

/-- what is exported of a control with 1-D arrays -/
theorem exported_flat (c : DrivenControl α) (h : c.Constructed) (m : α) (coordinates : String)
    (hc : coordinates = "cartesian" ∨ coordinates = "cylindrical") :
    ∃ d1 d2 d3 d4 t1 t2 t3 t4, Exported (flatControl c) m coordinates
      [(t1, vec d1), (t2, vec d2), (t3, vec d3), (t4, vec d4)] ∧
      valItems c.name m (coordinates == "cartesian") d1 d2 d3 d4 = jsonObject c m (coordinates == "cartesian") ∧
      (coordinates = "cylindrical" → d1 = c.azimuthalAngles ∧ d2 = c.detunings ∧ d3 = c.durations ∧
        d4 = c.rabiRates.map (· / m)) ∧
      (coordinates = "cartesian" → d1 = c.amplitudeX.map (· / m) ∧ d2 = c.amplitudeY.map (· / m) ∧
        d3 = c.detunings ∧ d4 = c.durations) := by
  obtain ⟨h1, h2, h3, h4⟩ := h.lengths
  rcases hc with rfl | rfl
  · have hf := flat_amplitudes (c := c) (k := flatControl c) (h2.trans h1.symm) (h3.trans h1.symm) rfl rfl rfl
    refine ⟨_, _, _, _, "amplitude_x", "amplitude_y", "detuning", "duration", .inr ⟨rfl, _, _, hf.1, hf.2.1, ?_⟩, ?_, fun hh => absurd hh (by decide),
      fun _ => ⟨rfl, rfl, rfl, rfl⟩⟩
    · simp only [un_vec]; rfl
    · cases hn : c.name <;> simp [valItems, jsonObject, hn]
  · refine ⟨_, _, _, _, "azimuthal_angles", "detuning", "duration", "rabi_rates", .inl ⟨rfl, ?_⟩, ?_, fun _ => ⟨rfl, rfl, rfl, rfl⟩,
      fun hh => absurd hh (by decide)⟩
    · simp only [flatControl, un_vec]
    · cases hn : c.name <;> simp [valItems, jsonObject, hn]

/-- **C101** (any arithmetic) With 1-D arrays, an export does what C100 says of the rest of the model, on any operating
system. -/
theorem C101_flat (fmt : α → String) (fmtArray : NdArray α → String) (os : Os) (c : DrivenControl α)
    (h : c.Constructed) (disk : Disk) (filename fileFormat fileType coordinates : String) :
    Interrupted fmt os disk filename
      (c.exportToFile (fun _ => none) filename fileFormat fileType coordinates)
      ((flatControl c).exportToDisk fmt fmtArray os disk filename fileFormat fileType coordinates) := by
  unfold DrivenControl.exportToFile NdControl.exportToDisk
  split_ifs with hf ht hc he
  · exact nothing_interrupted fmt os disk filename (.error _)
  · exact nothing_interrupted fmt os disk filename (.error _)
  · exact nothing_interrupted fmt os disk filename (.error _)
  · have hc' : coordinates = "cartesian" ∨ coordinates = "cylindrical" := by
      simp [coordinateSystems] at hc; tauto
    have ht' : fileType = "CSV" ∨ fileType = "JSON" := by
      simp [fileTypes] at ht; tauto
    cases hm : c.maximumRabiRate with
    | error e =>
      rw [exportExpanded_error c _ filename fileType coordinates e hm]
      have hm' : npAmax (flatControl c).rabiRates.data = .error e := hm
      have : (flatControl c).exportExpandedDisk fmt fmtArray os disk filename fileType coordinates =
          (.of (.error e), disk) := by
        unfold NdControl.exportExpandedDisk NdControl.exportContent
        rw [hm']
        rfl
      rw [this]
      exact nothing_interrupted fmt os disk filename (.error e)
    | ok m =>
      have hm' : npAmax (flatControl c).rabiRates.data = .ok m := hm
      obtain ⟨d1, d2, d3, d4, t1, t2, t3, t4, hx, hitems, hcyl, hcart⟩ := exported_flat c h m coordinates hc'
      have hexp := exportContent_list hm' hx (toList_vec d1) (toList_vec d2) (toList_vec d3) (toList_vec d4)
      have hnm : (flatControl c).name = c.name := rfl
      rw [hnm] at hexp
      rcases ht' with rfl | rfl
      · cases hname : c.name with
        | none =>
          obtain ⟨e, h1, h2⟩ := exportExpanded_csv_unnamed c (fun _ => none) filename coordinates hname
          rw [h1, h2 m hm]
          have : (flatControl c).exportExpandedDisk fmt fmtArray os disk filename "CSV" coordinates =
              (.of (.error (.keyError "name")), disk) := by
            rw [NdControl.exportExpandedDisk, hexp]
            dsimp only
            rw [if_pos (by decide), ndContent_name, hname]
            rfl
          rw [this]
          exact nothing_interrupted fmt os disk filename (.error _)
        | some nm =>
          have hN : (flatControl c).rabiRates.shape = [c.numberOfSegments] := rfl
          have hpieces : (flatControl c).exportExpandedDisk fmt fmtArray os disk filename "CSV" coordinates =
              writeFile os disk filename (.ok (csvLine ((ndColumns c.numberOfSegments m (coordinates == "cartesian")
                (d1.map .num) (d2.map .num) (d3.map .num) (d4.map .num)).map fun p => p.1.toList)) ::
              (List.range c.numberOfSegments).map fun i => (ndCsvRow fmt fmtArray (ndCsvContent c.numberOfSegments m
                (coordinates == "cartesian") (d1.map .num) (d2.map .num) (d3.map .num) (d4.map .num))
                ((ndColumns c.numberOfSegments m (coordinates == "cartesian") (d1.map .num) (d2.map .num)
                  (d3.map .num) (d4.map .num)).map Prod.fst) i).map csvLine) := by
            rw [NdControl.exportExpandedDisk, hexp]
            dsimp only
            rw [if_pos (by decide), ndContent_name, hname, hm', hN]
            simp only [Option.map_some]
            rw [ndContent_csv, ndCsvContent_sorted, List.map_map]
            rfl
          rw [hpieces]
          have hrow := ndCsvRow_eq fmt fmtArray _ _ (ndCsvContent_get m (coordinates == "cartesian")
            (d1.map .num) (d2.map .num) (d3.map .num) (d4.map .num) c.numberOfSegments)
          have hl : ∀ i < c.numberOfSegments, ∀ p ∈ ndColumns c.numberOfSegments m (coordinates == "cartesian")
              (d1.map .num) (d2.map .num) (d3.map .num) (d4.map .num), i < p.2.length := by
            intro i hi
            obtain ⟨k1, k2, k3, k4⟩ := h.lengths
            rcases hc' with rfl | rfl
            · obtain ⟨rfl, rfl, rfl, rfl⟩ := hcart rfl
              simp [ndColumns, DrivenControl.amplitudeX, DrivenControl.amplitudeY, k1, k2, k3, k4, hi]
            · obtain ⟨rfl, rfl, rfl, rfl⟩ := hcyl rfl
              simp [ndColumns, k1, k2, k3, k4, hi]
          have hu := (upTo_rows _ _ c.numberOfSegments fun i hi => (hrow i).1 (hl i hi)).1
          rcases hc' with rfl | rfl
          · rw [exportExpanded_csv_cart c h _ filename nm m hm hname]
            refine writeFile_interrupted fmt os disk filename _ _ _ ?_ _
            rw [upTo, hu]
            obtain ⟨rfl, rfl, rfl, rfl⟩ := hcart rfl
            simp only [cartCsv, fileText]
            refine Prod.ext rfl ?_
            simp only [ndColumns, beq_self_eq_true, if_true, List.flatMap_map]
            congr 1
            refine List.flatMap_congr fun i hi => ?_
            obtain ⟨Ω, φ, Δ, t, h1, h2, h3, h4⟩ := h.segment (List.mem_range.mp hi)
            have hi' : i < c.numberOfSegments := List.mem_range.mp hi
            simp [h1, h2, h3, h4, hi', DrivenControl.amplitudeX, DrivenControl.amplitudeY, List.getElem?_zipWith,
              cellText]
          · rw [exportExpanded_csv_cyl c h _ filename "cylindrical" nm m hm hname (by decide)]
            refine writeFile_interrupted fmt os disk filename _ _ _ ?_ _
            rw [upTo, hu]
            obtain ⟨rfl, rfl, rfl, rfl⟩ := hcyl rfl
            simp only [cylCsv, fileText]
            refine Prod.ext rfl ?_
            have hb : ("cylindrical" == "cartesian") = false := by decide
            simp only [ndColumns, hb, Bool.false_eq_true, if_false, List.flatMap_map]
            congr 1
            refine List.flatMap_congr fun i hi => ?_
            obtain ⟨Ω, φ, Δ, t, h1, h2, h3, h4⟩ := h.segment (List.mem_range.mp hi)
            have hi' : i < c.numberOfSegments := List.mem_range.mp hi
            simp [h1, h2, h3, h4, hi', cellText]
      · rw [exportExpanded_json c _ filename "JSON" coordinates m hm (by decide), ← hitems]
        have : (flatControl c).exportExpandedDisk fmt fmtArray os disk filename "JSON" coordinates =
            writeFile os disk filename (memberPieces fmt ('{' :: newline 1)
              ((valItems c.name m (coordinates == "cartesian") d1 d2 d3 d4).map fun kv => (kv.1, liftVal kv.2))) := by
          rw [NdControl.exportExpandedDisk, hexp]
          dsimp only
          rw [if_neg (by decide), jsonPieces, ndContent_sorted, ndItems_lift]
          obtain ⟨kv, l, hl⟩ : ∃ kv l, valItems c.name m (coordinates == "cartesian") d1 d2 d3 d4 = kv :: l := by
            unfold valItems
            cases (coordinates == "cartesian") <;> simp
          rw [hl]
          rfl
        rw [this]
        refine writeFile_interrupted fmt os disk filename _ _ _ ?_ _
        rw [memberPieces_good]
        obtain ⟨kv, l, hl⟩ : ∃ kv l, valItems c.name m (coordinates == "cartesian") d1 d2 d3 d4 = kv :: l := by
          unfold valItems
          cases (coordinates == "cartesian") <;> simp
        rw [hl, fileText_joinFrom]
  · exact nothing_interrupted fmt os disk filename (.ok ())

end

/-- what the constructor makes of its arguments -/
theorem accepted_control {durations : NdArray ℝ} {r a d : Option (NdArray ℝ)} {name : Option String} {c : NdControl ℝ}
    (hreg : ∀ x ∈ [r, a, d, some durations], ∀ y, x = some y → Regular y)
    (h : NdControl.new durations r a d name = .ok c) :
    c.name = name ∧ c.durations = durations ∧ AllItems (fun t => 0 < t) c.durations ∧
      AllItems (fun x => 0 ≤ x) c.rabiRates ∧
      ∀ x ∈ [c.rabiRates, c.azimuthalAngles, c.detunings, c.durations], Regular x ∧ x.size = durations.size := by
  obtain ⟨h1, h2, h3⟩ := (C79_control_accepts durations r a d name).mp ⟨c, h⟩
  obtain ⟨n, rest, hs, hn⟩ := id h1
  have hsize : durations.size = n := by
    rcases hn with rfl | ⟨hn, -⟩
    · simp [NdArray.size, hs]
    · simp [NdArray.size, hs, hn]
  have hlen : durations.len = .ok n := by rw [NdArray.len, hs]
  have hce : c = ⟨r.getD (vec (List.replicate n (lit 0))), a.getD (vec (List.replicate n (lit 0))),
      d.getD (vec (List.replicate n (lit 0))), durations, name⟩ := by
    rw [nd_new_eq, hlen] at h
    dsimp only at h
    split at h
    · cases h
    · cases h
    · split_ifs at h
      split at h
      · cases h
      · cases h
      · exact (Except.ok.inj h).symm
  have hz : Regular (vec (List.replicate n (lit 0 : ℝ))) ∧ (vec (List.replicate n (lit 0 : ℝ))).size = n := by
    simp [Regular, vec, NdArray.size]
  have hopt : ∀ x ∈ [r, a, d], Regular (x.getD (vec (List.replicate n (lit 0)))) ∧
      (x.getD (vec (List.replicate n (lit 0)))).size = durations.size := by
    intro x hx
    cases hxe : x with
    | none => rw [Option.getD_none, hsize]; exact hz
    | some y =>
      rw [Option.getD_some]
      refine ⟨hreg x ?_ y hxe, h2 x hx y hxe⟩
      simp only [List.mem_cons, List.not_mem_nil, or_false] at hx ⊢
      tauto
  subst hce
  refine ⟨rfl, rfl, h1, ?_, ?_⟩
  · dsimp only
    cases r with
    | none =>
      exact ⟨n, [], by simp [vec], .inr ⟨rfl, fun x hx => by
        rw [Option.getD_none, vec] at hx
        rw [List.eq_of_mem_replicate hx]
        simp⟩⟩
    | some y => exact h3 y rfl
  · intro x hx
    simp only [List.mem_cons, List.not_mem_nil, or_false] at hx
    rcases hx with rfl | rfl | rfl | rfl
    · exact hopt r (by simp)
    · exact hopt a (by simp)
    · exact hopt d (by simp)
    · exact ⟨hreg (some _) (by simp) _ rfl, rfl⟩

/-- **C101** Which of the controls that the constructor accepts can be exported in cylindrical coordinates.  JSON: those
with 1-D arrays only.  CSV: those with a name whose azimuthal angles and detunings, too, have a single number at each
place along the first axis.  Every other attempt to write JSON, if no array is a single number, destroys the file. -/
theorem C101_accepted (fmt : ℝ → String) (hfmt : ∀ x, isNumber (fmt x).toList = true) (fmtArray : NdArray ℝ → String)
    (durations : NdArray ℝ) (r a d : Option (NdArray ℝ)) (name : Option String) (c : NdControl ℝ)
    (hreg : ∀ x ∈ [r, a, d, some durations], ∀ y, x = some y → Regular y)
    (h : NdControl.new durations r a d name = .ok c) (hne : durations.size ≠ 0) (disk : Disk) (filename : String) :
    ((c.exportToDisk fmt fmtArray reliable disk filename "Q-CTRL expanded" "JSON" "cylindrical").1 = .returned ↔
      ∀ x ∈ [c.rabiRates, c.azimuthalAngles, c.detunings, c.durations], x.shape.length = 1) ∧
    ((c.exportToDisk fmt fmtArray reliable disk filename "Q-CTRL expanded" "CSV" "cylindrical").1 = .returned ↔
      name ≠ none ∧ LineLike c.azimuthalAngles ∧ LineLike c.detunings) ∧
    ((∀ x ∈ [c.rabiRates, c.azimuthalAngles, c.detunings, c.durations], x.shape ≠ []) →
      (∃ x ∈ [c.rabiRates, c.azimuthalAngles, c.detunings, c.durations], x.shape.length ≠ 1) →
      ∃ text, (c.exportToDisk fmt fmtArray reliable disk filename "Q-CTRL expanded" "JSON" "cylindrical").2 filename =
        some text ∧ readJson text = none) := by
  obtain ⟨hn, -, hpos, hnonneg, hall⟩ := accepted_control hreg h
  have hax : ∀ x ∈ [c.rabiRates, c.azimuthalAngles, c.detunings, c.durations], ¬ FirstAxis 0 x := by
    rintro x hx ⟨rest, hs⟩
    have := (hall x hx).2
    rw [NdArray.size, hs] at this
    simp at this
    exact hne this.symm
  obtain ⟨m, hm⟩ : ∃ m, npAmax c.rabiRates.data = .ok m := by
    refine npAmax_exists fun he => ?_
    obtain ⟨h1, h2⟩ := hall c.rabiRates (by simp)
    rw [Regular, he] at h1
    exact hne (h2.symm.trans h1.symm)
  have hx : Exported c m "cylindrical" [("azimuthal_angles", c.azimuthalAngles), ("detuning", c.detunings),
      ("duration", c.durations), ("rabi_rates", c.rabiRates.un fun v => v / m)] := .inl ⟨rfl, rfl⟩
  have hunshape : (c.rabiRates.un fun v => v / m).shape = c.rabiRates.shape := rfl
  have hregs : ∀ b ∈ [("azimuthal_angles", c.azimuthalAngles), ("detuning", c.detunings),
      ("duration", c.durations), ("rabi_rates", c.rabiRates.un fun v => v / m)], Regular b.2 := by
    simp only [List.mem_cons, List.not_mem_nil, or_false, forall_eq_or_imp, forall_eq] at hall ⊢
    refine ⟨hall.2.1.1, hall.2.2.1.1, hall.2.2.2.1, ?_⟩
    have := hall.1.1
    simpa [Regular, NdArray.un] using this
  obtain ⟨N, restN, hNs, hN0⟩ := hnonneg
  have hN1 : restN.prod = 1 := by
    rcases hN0 with rfl | ⟨h, -⟩
    · exact absurd ⟨restN, hNs⟩ (hax c.rabiRates (by simp))
    · exact h
  have hNsize : durations.size = N := by
    rw [← (hall c.rabiRates (by simp)).2, NdArray.size, hNs]; simp [hN1]
  by_cases h0 : ∀ x ∈ [c.rabiRates, c.azimuthalAngles, c.detunings, c.durations], x.shape ≠ []
  · have h0' : ∀ b ∈ [("azimuthal_angles", c.azimuthalAngles), ("detuning", c.detunings),
        ("duration", c.durations), ("rabi_rates", c.rabiRates.un fun v => v / m)], b.2.shape ≠ [] := by
      simp only [List.mem_cons, List.not_mem_nil, or_false, forall_eq_or_imp, forall_eq, hunshape] at h0 ⊢
      tauto
    obtain ⟨j1, j2⟩ := C101_json fmt hfmt fmtArray c disk filename "cylindrical" m hm _ hx hregs h0'
    have hbad : (∃ x ∈ [c.rabiRates, c.azimuthalAngles, c.detunings, c.durations], x.shape.length ≠ 1) →
        ∃ b ∈ [("azimuthal_angles", c.azimuthalAngles), ("detuning", c.detunings),
          ("duration", c.durations), ("rabi_rates", c.rabiRates.un fun v => v / m)],
          b.2.shape.length ≠ 1 ∧ ¬ FirstAxis 0 b.2 := by
      rintro ⟨x, hx, hs⟩
      have hax' := hax x hx
      simp only [List.mem_cons, List.not_mem_nil, or_false] at hx
      rcases hx with rfl | rfl | rfl | rfl
      · exact ⟨("rabi_rates", c.rabiRates.un fun v => v / m), by simp, hs, hax'⟩
      · exact ⟨("azimuthal_angles", _), by simp, hs, hax'⟩
      · exact ⟨("detuning", _), by simp, hs, hax'⟩
      · exact ⟨("duration", _), by simp, hs, hax'⟩
    refine ⟨⟨fun hr => ?_, fun hl => ?_⟩, ?_, fun _ hb => ?_⟩
    · by_contra hc
      push Not at hc
      obtain ⟨text, message, he, -⟩ := j2 (hbad hc)
      rw [he] at hr
      cases hr
    · obtain ⟨text, object, he, -⟩ := j1 (by
        simp only [List.mem_cons, List.not_mem_nil, or_false, forall_eq_or_imp, forall_eq, hunshape] at hl ⊢
        exact ⟨.inl hl.2.1, .inl hl.2.2.1, .inl hl.2.2.2, .inl hl.1⟩)
      rw [he]
    · by_cases hname : c.name = none
      · rw [C101_csv_unnamed fmt fmtArray _ c disk filename "cylindrical" m hname hm _ hx h0', ← hn, hname]
        simp
      · obtain ⟨K, text, records, he, hKN, hKle, hKex, -⟩ := C101_csv fmt fmtArray c disk filename "cylindrical" m hname hm _
          hx hregs h0' N ⟨restN, hNs⟩
        have hret : (c.exportToDisk fmt fmtArray reliable disk filename "Q-CTRL expanded" "CSV" "cylindrical").1 =
            .returned ↔ K = N := by
          rw [he]
          by_cases hk : K = N <;> simp [hk]
        rw [hret, ← hn]
        have hline : ∀ x ∈ [c.rabiRates, c.azimuthalAngles, c.detunings, c.durations], ∀ n, FirstAxis n x →
            (LineLike x ↔ N ≤ n) := by
          rintro x hx n ⟨rest, hs⟩
          have h1 := (hall x hx).2
          rw [hNsize, NdArray.size, hs, List.prod_cons] at h1
          have hn0 : n ≠ 0 := by rintro rfl; exact hax x hx ⟨rest, hs⟩
          constructor
          · rintro ⟨n', rest', hs', hp⟩
            rw [hs] at hs'
            obtain ⟨rfl, rfl⟩ := List.cons.inj hs'
            rw [hp, mul_one] at h1
            omega
          · intro hle
            refine ⟨n, rest, hs, ?_⟩
            rcases hp : rest.prod with _ | _ | k
            · rw [hp] at h1; omega
            · rfl
            · rw [hp] at h1
              exfalso
              have : n * (k + 1 + 1) = n * (k + 1) + n := by ring
              have : n * 1 ≤ n * (k + 1) := Nat.mul_le_mul_left n (by omega)
              omega
        have hfirst : ∀ x ∈ [c.rabiRates, c.azimuthalAngles, c.detunings, c.durations], ∃ n, FirstAxis n x := by
          intro x hx
          rcases hs : x.shape with _ | ⟨n, rest⟩
          · exact absurd hs (h0 x hx)
          · exact ⟨n, rest, hs⟩
        constructor
        · rintro rfl
          refine ⟨hname, ?_, ?_⟩
          · obtain ⟨n, hn⟩ := hfirst c.azimuthalAngles (by simp)
            exact (hline _ (by simp) n hn).mpr (hKle ("azimuthal_angles", c.azimuthalAngles) (by simp) n hn)
          · obtain ⟨n, hn⟩ := hfirst c.detunings (by simp)
            exact (hline _ (by simp) n hn).mpr (hKle ("detuning", c.detunings) (by simp) n hn)
        · rintro ⟨-, ha, hd⟩
          by_contra hne'
          obtain ⟨b, hb, hKb⟩ := hKex hne'
          simp only [List.mem_cons, List.not_mem_nil, or_false] at hb
          have hdur : LineLike c.durations := by
            obtain ⟨n, rest, hs, hz⟩ := hpos
            rcases hz with rfl | ⟨hz, -⟩
            · exact absurd ⟨rest, hs⟩ (hax c.durations (by simp))
            · exact ⟨n, rest, hs, hz⟩
          rcases hb with rfl | rfl | rfl | rfl
          · have := (hline c.azimuthalAngles (by simp) K hKb).mp ha
            omega
          · have := (hline c.detunings (by simp) K hKb).mp hd
            omega
          · have := (hline c.durations (by simp) K hKb).mp hdur
            omega
          · have := (hline c.rabiRates (by simp) K hKb).mp ⟨N, restN, hNs, hN1⟩
            omega
    · obtain ⟨text, message, he, hr⟩ := j2 (hbad hb)
      exact ⟨text, by rw [he]; simp [Disk.put], hr⟩
  · have hsc : ∃ b ∈ [("azimuthal_angles", c.azimuthalAngles), ("detuning", c.detunings),
        ("duration", c.durations), ("rabi_rates", c.rabiRates.un fun v => v / m)], b.2.shape = [] := by
      push Not at h0
      simp only [List.mem_cons, List.not_mem_nil, or_false, exists_eq_or_imp, exists_eq_left, hunshape] at h0 ⊢
      tauto
    obtain ⟨m1, e1⟩ := C101_scalar fmt fmtArray reliable c disk filename "JSON" "cylindrical" (.inr rfl) m hm _ hx hsc
    obtain ⟨m2, e2⟩ := C101_scalar fmt fmtArray reliable c disk filename "CSV" "cylindrical" (.inl rfl) m hm _ hx hsc
    refine ⟨?_, ?_, fun hh => absurd hh h0⟩
    · rw [e1]
      simp only [reduceCtorEq, false_iff]
      intro hl
      apply h0
      intro x hx hs
      have := hl x hx
      rw [hs] at this
      cases this
    · rw [e2]
      simp only [reduceCtorEq, false_iff]
      rintro ⟨-, ⟨n1, r1, s1, -⟩, ⟨n2, r2, s2, -⟩⟩
      obtain ⟨n3, r3, s3, -⟩ := hpos
      apply h0
      simp only [List.mem_cons, List.not_mem_nil, or_false, forall_eq_or_imp, forall_eq]
      refine ⟨by rw [hNs]; simp, by rw [s1]; simp, by rw [s2]; simp, by rw [s3]; simp⟩

/-- **C101** So a failing export can destroy a good file: a control that is accepted, with its durations as a column,
overwrites an existing file with something that is not JSON. -/
theorem C101_destroys (fmt : ℝ → String) (hfmt : ∀ x, isNumber (fmt x).toList = true)
    (fmtArray : NdArray ℝ → String) (old : List Char) :
    ∃ (c : NdControl ℝ) (message : String) (text : List Char),
      NdControl.new ⟨[2, 1], [1, 1]⟩ none none none (some "a") = .ok c ∧
      c.exportToDisk fmt fmtArray reliable (fun _ => some old) "a.json" "Q-CTRL expanded" "JSON" "cylindrical" =
        (.raised (.typeError message), Disk.put (fun _ => some old) "a.json" text) ∧ readJson text = none := by
  obtain ⟨c, hc⟩ := (C79_control_accepts ⟨[2, 1], [1, 1]⟩ none none none (some "a")).mpr
    ⟨⟨2, [1], rfl, .inr ⟨rfl, by simp⟩⟩, by simp, by simp⟩
  have hreg : ∀ x ∈ [none, none, none, some (⟨[2, 1], [1, 1]⟩ : NdArray ℝ)], ∀ y, x = some y → Regular y := by
    simp [Regular]
  obtain ⟨-, hd, -, hnonneg, hall⟩ := accepted_control hreg hc
  obtain ⟨m, hm⟩ : ∃ m, npAmax c.rabiRates.data = .ok m := by
    refine npAmax_exists fun he => ?_
    obtain ⟨h1, h2⟩ := hall c.rabiRates (by simp)
    rw [Regular, he] at h1
    have := h2.symm.trans h1.symm
    simp [NdArray.size] at this
  have hce : c = ⟨vec [0, 0], vec [0, 0], vec [0, 0], ⟨[2, 1], [1, 1]⟩, some "a"⟩ := by
    have h1 : (⟨[2, 1], [1, 1]⟩ : NdArray ℝ).pyAll (fun t => gt t (lit 0)) = .ok true :=
      (pyAll_true_iff _ _).mpr ⟨2, [1], rfl, .inr ⟨rfl, by simp⟩⟩
    have h2 := (sizes_iff (⟨[2, 1], [1, 1]⟩ : NdArray ℝ) none none none).mpr (by
      intro x hx y hy
      simp only [List.mem_cons, List.not_mem_nil, or_false] at hx
      rcases hx with rfl | rfl | rfl <;> cases hy)
    rw [nd_new_eq, h1] at hc
    simp only [h2, if_true, NdArray.len, Option.getD_none] at hc
    split at hc
    · cases hc
    · cases hc
    · rw [← Except.ok.inj hc]
      simp [List.replicate]
  obtain ⟨text, message, he, hr⟩ := (C101_json fmt hfmt fmtArray c (fun _ => some old) "a.json" "cylindrical" m hm _
    (.inl ⟨rfl, rfl⟩) (by
      simp only [List.mem_cons, List.not_mem_nil, or_false, forall_eq_or_imp, forall_eq]
      rw [hce]
      simp [Regular, vec, NdArray.un]) (by
      simp only [List.mem_cons, List.not_mem_nil, or_false, forall_eq_or_imp, forall_eq]
      rw [hce]
      simp [vec, NdArray.un])).2 ⟨("duration", c.durations), by simp, by rw [hce]; simp, by
        rw [hce]
        rintro ⟨rest, h⟩
        simp at h⟩
  exact ⟨c, message, text, hc, he, hr⟩

/-- The hypothesis on `fmt` can be met. -/
example : ∃ fmt : ℝ → String, ∀ x, isNumber (fmt x).toList = true := ⟨fun _ => "0.5", fun _ => (by decide : isNumber "0.5".toList = true)⟩

/-- The hypotheses of `C101_accepted` and both kinds of shapes: azimuthal angles as a column, detunings as a number. -/
example : ∃ c : NdControl ℝ, NdControl.new ⟨[1], [2]⟩ (some ⟨[1], [3]⟩) (some ⟨[1, 1], [1]⟩) (some ⟨[], [1]⟩) (some "a") =
    .ok c ∧ (⟨[1], [2]⟩ : NdArray ℝ).size ≠ 0 := by
  obtain ⟨c, hc⟩ := (C79_control_accepts ⟨[1], [2]⟩ (some ⟨[1], [3]⟩) (some ⟨[1, 1], [1]⟩) (some ⟨[], [1]⟩)
    (some "a")).mpr ⟨⟨1, [], rfl, .inr ⟨rfl, by simp⟩⟩, by simp [NdArray.size], by
      intro y hy; cases hy; exact ⟨1, [], rfl, .inr ⟨rfl, by simp⟩⟩⟩
  exact ⟨c, hc, by simp [NdArray.size]⟩

end OpenControls
