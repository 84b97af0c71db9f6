import Verif.Proofs.HeapPredefined

/-!
# The quadratic sequence on the heap
-/

namespace OpenControls

open PyFloat Py PyM

set_option linter.unusedSectionVars false

section Grid
variable {α : Type}

theorem flatten_length_grid (G : List (List α)) (w : Nat) (hG : ∀ row ∈ G, row.length = w) :
    G.flatten.length = G.length * w := by
  induction G with
  | nil => simp
  | cons r G ih =>
    rw [List.flatten_cons, List.length_append, hG r List.mem_cons_self,
      ih fun row h => hG row (List.mem_cons_of_mem _ h), List.length_cons, Nat.succ_mul, Nat.add_comm]

theorem slice_grid (A B C ys : List α) (hB : B.length = ys.length) :
    (A ++ (B ++ C)).take A.length ++ ys ++ (A ++ (B ++ C)).drop (A.length + ys.length) =
      A ++ (ys ++ C) := by
  rw [List.take_left', ← List.drop_drop, List.drop_left', ← hB, List.drop_left', List.append_assoc]
    <;> rfl

theorem set_grid (A B C : List α) (x v : α) :
    (A ++ (B ++ x :: C)).set (A.length + B.length) v = A ++ (B ++ v :: C) := by
  rw [List.set_append_right _ _ (by omega), Nat.add_sub_cancel_left,
    List.set_append_right _ _ (by omega), Nat.sub_self]
  rfl

/-- a loop that rewrites the rows of a grid one after the other -/
theorem gridLoop (body : Nat → PyM α Unit) (S : List (List α) → Heap α → Prop)
    (Q R : Nat → List α) (tail : List (List α)) (k : Nat) :
    ∀ (i : Nat) (done : List (List α)) (hp : Heap α), done.length = i →
    (∀ j, i ≤ j → j < i + k → ∀ (d rest : List (List α)) (hp : Heap α), d.length = j →
      S (d ++ Q j :: rest) hp →
      ∃ hp', body j hp = (.ok (), hp') ∧ S (d ++ R j :: rest) hp') →
    S (done ++ (List.range' i k).map Q ++ tail) hp →
    ∃ hp', forFrom body i k hp = (.ok (), hp') ∧ S (done ++ (List.range' i k).map R ++ tail) hp' := by
  induction k with
  | zero => intro i done hp _ _ hS; exact ⟨hp, rfl, by simpa using hS⟩
  | succ k ih =>
    intro i done hp hd hb hS
    rw [List.range'_succ, List.map_cons, List.append_assoc, List.cons_append] at hS
    obtain ⟨hp1, hr1, hS1⟩ := hb i (Nat.le_refl _) (by omega) done _ hp hd hS
    obtain ⟨hp2, hr2, hS2⟩ := ih (i + 1) (done ++ [R i]) hp1 (by simp [hd])
      (fun j h1 h2 => hb j (by omega) (by omega)) (by simpa using hS1)
    refine ⟨hp2, ?_, ?_⟩
    · unfold forFrom
      rw [bind_ok hr1, hr2]
    · rw [List.range'_succ, List.map_cons]
      simpa using hS2

end Grid

variable {α : Type} [Add α] [Sub α] [Mul α] [Div α] [Neg α] [PyFloat α]

theorem npDiff_eq (o : List α) : npDiff o =
    (List.range (o.length - 1)).map fun i => o.getD (i + 1) (lit 0) - o.getD i (lit 0) := by
  induction o with
  | nil => rfl
  | cons a r ih =>
    cases r with
    | nil => rfl
    | cons b r =>
      rw [npDiff, ih]
      simp only [List.length_cons, Nat.add_sub_cancel]
      rw [List.range_succ_eq_map, List.map_cons, List.map_map]
      rfl

/-- a row of the offsets -/
def quadraticRow (n1 : Nat) (o : List α) (i : Nat) : List α :=
  (uhrigOffsets (o.getD (i + 1) (lit 0) - o.getD i (lit 0)) n1).map
    (fun t => t + o.getD i (lit 0)) ++ [o.getD (i + 1) (lit 0)]

theorem quadraticRows_range (n1 : Nat) (o : List α) : quadraticRows n1 o =
    (List.range (o.length - 1)).map (quadraticRow n1 o) := by
  induction o with
  | nil => rfl
  | cons a r ih =>
    cases r with
    | nil => rfl
    | cons b r =>
      rw [quadraticRows, ih]
      simp only [List.length_cons, Nat.add_sub_cancel]
      rw [List.range_succ_eq_map, List.map_cons, List.map_map]
      rfl

theorem uhrigOffsets_length' (T : α) (n : Nat) : (uhrigOffsets T n).length = n := by
  simp [uhrigOffsets]

/-- the heap while the rows of `offsets` are filled -/
def QuadGrid (h : Heap α) (x u o : List α) (w : Nat) (G : List (List α)) (hp : Heap α) : Prop :=
  (∃ junk, hp = h ++ ([x, u, o, npDiff o, G.flatten] ++ junk)) ∧ ∀ row ∈ G, row.length = w

theorem getD_some (o : List α) (i : Nat) (hi : i < o.length) :
    o[i]? = some (o.getD i (lit 0)) := by
  rw [List.getD_eq_getElem?_getD, List.getElem?_eq_getElem hi]
  rfl

theorem quadraticBody_run (h : Heap α) (x u o : List α) (n1 j : Nat) (hj : j < o.length - 1)
    (d rest : List (List α)) (hp : Heap α) (hd : d.length = j)
    (hS : QuadGrid h x u o (n1 + 1) (d ++ List.replicate (n1 + 1) (lit 0) :: rest) hp) :
    ∃ hp', quadraticBody n1 (h.length + 3) (h.length + 2) (h.length + 4) j hp = (.ok (), hp') ∧
      QuadGrid h x u o (n1 + 1) (d ++ ((uhrigOffsets (o.getD (j + 1) (lit 0) - o.getD j (lit 0)) n1).map
        (fun t => t + o.getD j (lit 0)) ++ [lit 0]) :: rest) hp' := by
  obtain ⟨⟨junk, rfl⟩, hrows⟩ := hS
  have hdr : ∀ row ∈ d, row.length = n1 + 1 := fun row hr => hrows row (by simp [hr])
  have hlen : d.flatten.length = j * (n1 + 1) := by rw [flatten_length_grid d _ hdr, hd]
  unfold quadraticBody
  have hD : (npDiff o)[j]? = some (o.getD (j + 1) (lit 0) - o.getD j (lit 0)) := by
    rw [npDiff_eq, List.getElem?_map, List.getElem?_range hj]; rfl
  rw [bind_getAt (xs := npDiff o) _ rfl hD]
  obtain ⟨y, hy⟩ := uhrigOffsetsH_at h
    ([x, u, o, npDiff o, (d ++ List.replicate (n1 + 1) (lit 0) :: rest).flatten] ++ junk)
    (o.getD (j + 1) (lit 0) - o.getD j (lit 0)) n1
  rw [bind_ok hy, bind_load_at (xs := uhrigOffsets (o.getD (j + 1) (lit 0) - o.getD j (lit 0)) n1) _
    (by rw [List.getElem?_append_right (by omega)]; simp),
    bind_getAt (xs := o) (x := o.getD j (lit 0)) _ rfl (getD_some o j (by omega)), bind_alloc_at,
    bind_load_at _ List.getElem?_concat_length]
  set us := uhrigOffsets (o.getD (j + 1) (lit 0) - o.getD j (lit 0)) n1 with hus
  have hul : us.length = n1 := uhrigOffsets_length' _ _
  have hgrid : (d ++ List.replicate (n1 + 1) (lit 0) :: rest).flatten =
      d.flatten ++ (List.replicate n1 (lit 0 : α) ++ ([lit 0] ++ rest.flatten)) := by
    simp [List.replicate_succ']
  rw [hgrid, ← hlen, setSlice_at (xs := d.flatten ++ (List.replicate n1 (lit 0) ++ ([lit 0] ++
    rest.flatten))) rfl (by simp [hul])]
  refine ⟨_, rfl, ⟨junk ++ [y, us] ++ [us.map fun t => t + o.getD j (lit 0)], ?_⟩, ?_⟩
  · rw [slice_grid _ _ _ _ (by simp [hul])]
    simp
  · intro row hr
    rcases List.mem_append.mp hr with hr | hr
    · exact hdr row hr
    · rcases List.mem_cons.mp hr with rfl | hr
      · simp [hul]
      · exact hrows row (by simp [hr])

theorem quadraticLast_run (h : Heap α) (x u o : List α) (n1 j : Nat) (hj : j < o.length - 1)
    (d rest : List (List α)) (hp : Heap α) (hd : d.length = j)
    (hS : QuadGrid h x u o (n1 + 1) (d ++
      ((uhrigOffsets (o.getD (j + 1) (lit 0) - o.getD j (lit 0)) n1).map
        (fun t => t + o.getD j (lit 0)) ++ [lit 0]) :: rest) hp) :
    ∃ hp', (getItem (h.length + 2) (j + 1) >>= fun t =>
        setItem (h.length + 4) (j * (n1 + 1) + n1) t) hp = (.ok (), hp') ∧
      QuadGrid h x u o (n1 + 1) (d ++ quadraticRow n1 o j :: rest) hp' := by
  obtain ⟨⟨junk, rfl⟩, hrows⟩ := hS
  have hdr : ∀ row ∈ d, row.length = n1 + 1 := fun row hr => hrows row (by simp [hr])
  have hlen : d.flatten.length = j * (n1 + 1) := by rw [flatten_length_grid d _ hdr, hd]
  rw [bind_getAt (xs := o) (x := o.getD (j + 1) (lit 0)) _ rfl (getD_some o (j + 1) (by omega))]
  unfold quadraticRow
  set us := (uhrigOffsets (o.getD (j + 1) (lit 0) - o.getD j (lit 0)) n1).map
    (fun t => t + o.getD j (lit 0)) with hus
  have hul : us.length = n1 := by rw [hus, List.length_map]; exact uhrigOffsets_length' _ _
  have hgrid : (d ++ (us ++ [lit 0]) :: rest).flatten =
      d.flatten ++ (us ++ lit 0 :: rest.flatten) := by simp
  rw [hgrid, ← hlen, setAt (xs := d.flatten ++ (us ++ lit 0 :: rest.flatten)) _ rfl
    (by simp [hul])]
  refine ⟨_, rfl, ⟨junk, ?_⟩, ?_⟩
  · have := set_grid d.flatten us rest.flatten (lit 0) (o.getD (j + 1) (lit 0))
    rw [hul] at this
    rw [this]
    simp
  · intro row hr
    rcases List.mem_append.mp hr with hr | hr
    · exact hdr row hr
    · rcases List.mem_cons.mp hr with rfl | hr
      · simp [hul]
      · exact hrows row (by simp [hr])

/-- the heap while the rows of cell `k` are filled -/
def CellGrid (h e : Heap α) (k w : Nat) (G : List (List α)) (hp : Heap α) : Prop :=
  hp = h ++ e.set k G.flatten ∧ ∀ row ∈ G, row.length = w

theorem rabiRow_run (h e : Heap α) (k : Nat) (hk : k < e.length) (n1 j : Nat)
    (d rest : List (List α)) (hp : Heap α) (hd : d.length = j)
    (hS : CellGrid h e k (n1 + 1) (d ++ List.replicate (n1 + 1) (lit 0) :: rest) hp) :
    ∃ hp', setItem (h.length + k) (j * (n1 + 1) + n1) PyFloat.pi hp = (.ok (), hp') ∧
      CellGrid h e k (n1 + 1) (d ++ (List.replicate n1 (lit 0) ++ [PyFloat.pi]) :: rest) hp' := by
  obtain ⟨rfl, hrows⟩ := hS
  have hdr : ∀ row ∈ d, row.length = n1 + 1 := fun row hr => hrows row (by simp [hr])
  have hlen : d.flatten.length = j * (n1 + 1) := by rw [flatten_length_grid d _ hdr, hd]
  have hgrid : (d ++ List.replicate (n1 + 1) (lit 0) :: rest).flatten =
      d.flatten ++ (List.replicate n1 (lit 0 : α) ++ lit 0 :: rest.flatten) := by
    simp [List.replicate_succ']
  rw [hgrid, ← hlen, setAt (xs := d.flatten ++ (List.replicate n1 (lit 0) ++ lit 0 :: rest.flatten)) _
    (List.getElem?_set_self hk) (by simp)]
  refine ⟨_, rfl, ?_, ?_⟩
  · have := set_grid d.flatten (List.replicate n1 (lit 0)) rest.flatten (lit 0) (PyFloat.pi : α)
    rw [List.length_replicate] at this
    rw [this, List.set_set]
    simp
  · intro row hr
    rcases List.mem_append.mp hr with hr | hr
    · exact hdr row hr
    · rcases List.mem_cons.mp hr with rfl | hr
      · simp
      · exact hrows row (by simp [hr])

theorem detuningRow_run (h e : Heap α) (k : Nat) (hk : k < e.length) (n1 j : Nat)
    (d rest : List (List α)) (hp : Heap α) (hd : d.length = j)
    (hS : CellGrid h e k (n1 + 1) (d ++ List.replicate (n1 + 1) (lit 0) :: rest) hp) :
    ∃ hp', setSlice (h.length + k) (j * (n1 + 1)) (List.replicate n1 PyFloat.pi) hp =
        (.ok (), hp') ∧
      CellGrid h e k (n1 + 1) (d ++ (List.replicate n1 PyFloat.pi ++ [lit 0]) :: rest) hp' := by
  obtain ⟨rfl, hrows⟩ := hS
  have hdr : ∀ row ∈ d, row.length = n1 + 1 := fun row hr => hrows row (by simp [hr])
  have hlen : d.flatten.length = j * (n1 + 1) := by rw [flatten_length_grid d _ hdr, hd]
  have hgrid : (d ++ List.replicate (n1 + 1) (lit 0) :: rest).flatten =
      d.flatten ++ (List.replicate n1 (lit 0 : α) ++ ([lit 0] ++ rest.flatten)) := by
    simp [List.replicate_succ']
  rw [hgrid, ← hlen, setSlice_at (xs := d.flatten ++ (List.replicate n1 (lit 0) ++ ([lit 0] ++
    rest.flatten))) (List.getElem?_set_self hk) (by simp)]
  refine ⟨_, rfl, ?_, ?_⟩
  · rw [slice_grid _ _ _ _ (by simp), List.set_set]
    simp
  · intro row hr
    rcases List.mem_append.mp hr with hr | hr
    · exact hdr row hr
    · rcases List.mem_cons.mp hr with rfl | hr
      · simp
      · exact hrows row (by simp [hr])

theorem replicate_gridH (m w : Nat) (v : α) : List.replicate (m * w) v =
    ((List.range' 0 m).map fun _ => List.replicate w v).flatten := by
  induction m with
  | zero => simp
  | succ m ih =>
    rw [List.range'_concat, List.map_append, List.flatten_append, ← ih, Nat.succ_mul,
      List.replicate_add]
    simp

theorem quadraticH_run (h : Heap α) (T : α) (n1 n2 : Nat) :
    ∃ a e, quadraticH T n1 n2 h = (.ok a, h ++ e) ∧ Holds h e a (quadraticPulses T n1 n2) := by
  unfold quadraticH quadraticPulses
  dsimp only
  obtain ⟨x, hx⟩ := uhrigOffsetsH_run h T n2
  rw [bind_ok hx, bind_load_at (xs := uhrigOffsets T n2) _ rfl, bind_alloc_at,
    bind_load_at _ List.getElem?_concat_length, bind_alloc_at,
    bind_load_at _ List.getElem?_concat_length]
  set o := [lit 0] ++ uhrigOffsets T n2 ++ [T] with ho
  have hol : o.length = n2 + 2 := by rw [ho]; simp [uhrigOffsets_length']
  have hdl : (npDiff o).length = n2 + 1 := by rw [npDiff_eq, List.length_map, List.length_range, hol]; omega
  have hqr : quadraticRows n1 o = (List.range' 0 (n2 + 1)).map (quadraticRow n1 o) := by
    rw [quadraticRows_range, hol, List.range_eq_range']
    rfl
  rw [hdl, hqr, bind_alloc_at]
  -- the rows of `offsets`
  have hQ0 : QuadGrid h x (uhrigOffsets T n2) o (n1 + 1)
      ([] ++ (List.range' 0 (n2 + 1)).map (fun _ => List.replicate (n1 + 1) (lit 0)) ++ [])
      (h ++ ([x, uhrigOffsets T n2] ++ [o] ++ [npDiff o] ++
        [List.replicate ((n2 + 1) * (n1 + 1)) (lit 0)])) := by
    refine ⟨⟨[], ?_⟩, ?_⟩
    · rw [replicate_gridH]; simp
    · intro row hr
      simp only [List.nil_append, List.append_nil, List.mem_map] at hr
      obtain ⟨_, _, rfl⟩ := hr
      simp
  obtain ⟨hp1, hr1, hQ1⟩ := gridLoop
    (quadraticBody n1 (h.length + 3) (h.length + 2) (h.length + 4))
    (QuadGrid h x (uhrigOffsets T n2) o (n1 + 1)) (fun _ => List.replicate (n1 + 1) (lit 0))
    (fun j => (uhrigOffsets (o.getD (j + 1) (lit 0) - o.getD j (lit 0)) n1).map
        (fun t => t + o.getD j (lit 0)) ++ [lit 0]) [] (n2 + 1) 0 [] _ rfl
    (fun j _ h2 d rest hp hd hS => quadraticBody_run h x _ o n1 j (by omega) d rest hp hd hS) hQ0
  obtain ⟨hp2, hr2, hQ2⟩ := gridLoop
    (fun i => getItem (h.length + 2) (i + 1) >>= fun t =>
        setItem (h.length + 4) (i * (n1 + 1) + n1) t)
    (QuadGrid h x (uhrigOffsets T n2) o (n1 + 1))
    (fun j => (uhrigOffsets (o.getD (j + 1) (lit 0) - o.getD j (lit 0)) n1).map
        (fun t => t + o.getD j (lit 0)) ++ [lit 0]) (quadraticRow n1 o) [] (n2 + 1) 0 [] hp1 rfl
    (fun j _ h2 d rest hp hd hS => quadraticLast_run h x _ o n1 j (by omega) d rest hp hd hS) hQ1
  obtain ⟨⟨junk, rfl⟩, -⟩ := hQ2
  rw [List.nil_append, List.append_nil] at hr2
  simp only [List.length_append, List.length_cons, List.length_nil]
  rw [bind_ok hr1, bind_ok hr2]
  set F := ((List.range' 0 (n2 + 1)).map (quadraticRow n1 o)).flatten with hF
  set e1 := [x, uhrigOffsets T n2, o, npDiff o, F] ++ junk with he1
  rw [bind_alloc_at, bind_alloc_at]
  set Z := List.replicate ((n2 + 1) * (n1 + 1)) (lit 0 : α) with hZ
  -- the rows of `rabi_rotations`
  have hR0 : CellGrid h (e1 ++ [Z] ++ [Z]) e1.length (n1 + 1)
      ([] ++ (List.range' 0 n2).map (fun _ => List.replicate (n1 + 1) (lit 0)) ++
        [List.replicate (n1 + 1) (lit 0)]) (h ++ (e1 ++ [Z] ++ [Z])) := by
    constructor
    · have : ([] ++ (List.range' 0 n2).map (fun _ => List.replicate (n1 + 1) (lit 0 : α)) ++
          [List.replicate (n1 + 1) (lit 0)]).flatten = Z := by
        rw [hZ, replicate_gridH, List.range'_concat]; simp
      rw [this, set_concat2]
    · intro row hr
      simp only [List.nil_append, List.mem_append, List.mem_map, List.mem_singleton] at hr
      rcases hr with ⟨_, _, rfl⟩ | rfl <;> simp
  obtain ⟨hp3, hr3, hR1⟩ := gridLoop
    (fun i => setItem (h.length + e1.length) (i * (n1 + 1) + n1) PyFloat.pi)
    (CellGrid h (e1 ++ [Z] ++ [Z]) e1.length (n1 + 1)) (fun _ => List.replicate (n1 + 1) (lit 0))
    (fun _ => List.replicate n1 (lit 0) ++ [PyFloat.pi]) [List.replicate (n1 + 1) (lit 0)] n2 0 []
    _ rfl
    (fun j _ _ d rest hp hd hS => rabiRow_run h _ _ (by simp) n1 j d rest hp hd hS) hR0
  obtain ⟨rfl, -⟩ := hR1
  rw [bind_ok hr3, set_concat2]
  set R := ([] ++ (List.range' 0 n2).map (fun _ => List.replicate n1 (lit 0 : α) ++ [PyFloat.pi]) ++
    [List.replicate (n1 + 1) (lit 0)]).flatten with hR
  -- the rows of `detuning_rotations`
  have hD0 : CellGrid h (e1 ++ [R] ++ [Z]) (e1 ++ [R]).length (n1 + 1)
      ([] ++ (List.range' 0 (n2 + 1)).map (fun _ => List.replicate (n1 + 1) (lit 0)) ++ [])
      (h ++ (e1 ++ [R] ++ [Z])) := by
    constructor
    · rw [List.nil_append, List.append_nil, ← replicate_gridH, set_concat]
    · intro row hr
      simp only [List.nil_append, List.append_nil, List.mem_map] at hr
      obtain ⟨_, _, rfl⟩ := hr
      simp
  obtain ⟨hp4, hr4, hD1⟩ := gridLoop
    (fun i => setSlice (h.length + (e1 ++ [R]).length) (i * (n1 + 1))
      (List.replicate n1 PyFloat.pi))
    (CellGrid h (e1 ++ [R] ++ [Z]) (e1 ++ [R]).length (n1 + 1))
    (fun _ => List.replicate (n1 + 1) (lit 0))
    (fun _ => List.replicate n1 PyFloat.pi ++ [lit 0]) [] (n2 + 1) 0 [] _ rfl
    (fun j _ _ d rest hp hd hS => detuningRow_run h _ _ (by simp) n1 j d rest hp hd hS) hD0
  obtain ⟨rfl, -⟩ := hD1
  rw [List.nil_append, List.append_nil] at hr4
  rw [show h.length + (e1 ++ [Z]).length = h.length + (e1 ++ [R]).length by simp, bind_ok hr4,
    set_concat]
  set D := ((List.range' 0 (n2 + 1)).map
    (fun _ => List.replicate n1 (PyFloat.pi : α) ++ [lit 0])).flatten with hD
  -- the copies
  rw [bind_load_at (xs := F) _ (by simp [he1]), bind_alloc_at,
    bind_load_at (xs := R) _ (by simp [List.getElem?_append]), bind_alloc_at,
    bind_load_at (xs := D) _ (by simp [List.getElem?_append]), bind_alloc_at,
    bind_load_at (xs := F) _ (by simp [List.getElem?_append]), bind_alloc_at,
    bind_load_at (xs := R) _ (by simp [List.getElem?_append]), bind_alloc_at,
    bind_load_at (xs := D) _ (by simp [List.getElem?_append]), bind_alloc_at,
    bind_alloc_at, pure_apply]
  have hRv : ((List.range (n2 + 1)).map fun i => List.replicate n1 (lit 0 : α) ++
      [if i < n2 then PyFloat.pi else lit 0]).flatten = R := by
    rw [hR, List.range_succ, List.map_append, List.flatten_append, List.flatten_append,
      List.nil_append, List.range_eq_range']
    congr 1
    · congr 1
      apply List.map_congr_left
      intro i hi
      have : i < n2 := by simp at hi; omega
      rw [if_pos this]
    · simp [List.replicate_succ']
  have hDv : ((List.range (n2 + 1)).map fun _ => List.replicate n1 (PyFloat.pi : α) ++
      [lit 0]).flatten = D := by
    rw [hD, List.range_eq_range']
  refine ⟨_, _, rfl, ?_⟩
  rw [hRv, hDv]
  refine Holds.of h _ _ _ _ _ _ ?_ ?_ ?_ ?_ ?_
  · simp [List.getElem?_append]
  · simp [List.getElem?_append]
  · simp [List.getElem?_append]
  · simp [List.getElem?_append]
  · simp

theorem newQuadraticH_run (h : Heap α) (T n m : α) (prePost : Bool) (name : Option String) :
    PredefinedRun h (newQuadraticH T n m prePost name h)
      (newQuadraticSequence T n m prePost name) := by
  unfold newQuadraticH newQuadraticSequence checkDurationH checkDuration
  cases b1 : gt T (lit 0) with
  | false => rw [bind_check_false rfl]; exact PredefinedRun.error' h _
  | true =>
  rw [bind_check_true rfl]
  cases b2 : ge n (lit 1) with
  | false => rw [bind_check_false rfl]; exact PredefinedRun.error' h _
  | true =>
  rw [bind_check_true rfl]
  cases b3 : ge m (lit 1) with
  | false => rw [bind_check_false rfl]; exact PredefinedRun.error' h _
  | true =>
  rw [bind_check_true rfl]
  cases b4 : pyInt n with
  | error x => rw [bind_lift_error]; exact PredefinedRun.error' h _
  | ok n1 =>
  rw [bind_lift_ok]
  cases b5 : pyInt m with
  | error x => rw [bind_lift_error]; exact PredefinedRun.error' h _
  | ok n2 =>
  rw [bind_lift_ok]
  exact build_run T prePost name (quadraticH_run h T n1 n2)

end OpenControls
