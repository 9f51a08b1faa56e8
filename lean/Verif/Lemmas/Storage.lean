import Verif.Spec.Storage

/-!
# The heap model of grids follows the value model and writes only to new objects
-/

namespace Tve
namespace Heap

variable {K : Type} {h0 h h' h'' : Heap K} {a c : Addr} {o : GridObj K} {g : Grid K}

/-! ### heaps -/

theorem Untouched.refl (h : Heap K) : h.Untouched h := by
  intro x _
  cases x <;> rfl

theorem Same.has {x : Cell} (H : h.Has x) (s : h.Same h' x) : h'.Has x := by
  have key : ∀ {α : Type} {l l' : List α} {i : ℕ}, i < l.length → l[i]? = l'[i]? → i < l'.length := by
    intro α l l' i hi e
    rw [List.getElem?_eq_getElem hi] at e
    exact (List.getElem?_eq_some_iff.1 e.symm).1
  cases x <;> exact key H s

theorem Untouched.trans (a : h.Untouched h') (b : h'.Untouched h'') : h.Untouched h'' := by
  intro x hx
  have h1 := a x hx
  have h2 := b x (h1.has hx)
  cases x <;> exact Eq.trans h1 h2

theorem getD_same {α : Type} {l l' : List (List α)} {i : ℕ} (e : l[i]? = l'[i]?) : l.getD i [] = l'.getD i [] := by
  rw [List.getD_eq_getElem?_getD, List.getD_eq_getElem?_getD, e]

/-- a grid whose objects are unchanged has the same value -/
theorem value_same (hs : ∀ x ∈ h.Cells a, h.Same h' x) : h'.value a = h.value a := by
  have e : h.grids[a]? = h'.grids[a]? := hs (.grids a) (Or.inl rfl)
  unfold value
  rw [← e]
  rcases ho : h.grids[a]? with _ | o
  · rfl
  have hi (b) (hb : b ∈ intLists o) : h.ints[b]? = h'.ints[b]? := hs (.ints b) (Or.inr ⟨o, ho, Or.inl ⟨b, hb, rfl⟩⟩)
  have hp (b) (hb : b ∈ pairLists o) : h.pairs[b]? = h'.pairs[b]? :=
    hs (.pairs b) (Or.inr ⟨o, ho, Or.inr (Or.inl ⟨b, hb, rfl⟩)⟩)
  have ht : h.tris[o.triangles]? = h'.tris[o.triangles]? :=
    hs (.tris _) (Or.inr ⟨o, ho, Or.inr (Or.inr (Or.inl rfl))⟩)
  have hv : h.vecs[o.points]? = h'.vecs[o.points]? :=
    hs (.vecs _) (Or.inr ⟨o, ho, Or.inr (Or.inr (Or.inr (Or.inl rfl)))⟩)
  have hn (l) (hl : h.vecs[o.points]? = some l) (p) (hp : p ∈ l) : h.nums[p]? = h'.nums[p]? :=
    hs (.nums p) (Or.inr ⟨o, ho, Or.inr (Or.inr (Or.inr (Or.inr ⟨l, hl, p, hp, rfl⟩)))⟩)
  simp only [intLists, List.mem_cons, List.not_mem_nil, or_false, forall_eq_or_imp, forall_eq] at hi
  simp only [pairLists, List.mem_cons, List.not_mem_nil, or_false, forall_eq_or_imp, forall_eq] at hp
  have epts : h'.points o.points = h.points o.points := by
    unfold points
    rw [getD_same hv.symm]
    apply List.map_congr_left
    intro p hp
    rcases hl : h.vecs[o.points]? with _ | l
    · rw [List.getD_eq_getElem?_getD, hl] at hp
      simp at hp
    · rw [List.getD_eq_getElem?_getD, hl] at hp
      rw [getD_same (hn l hl p hp).symm]
  simp only [Option.map_some, grid, boundary, epts, getD_same hi.1.symm, getD_same hi.2.1.symm, getD_same hi.2.2.1.symm,
    getD_same hi.2.2.2.symm, getD_same hp.1.symm, getD_same hp.2.1.symm, getD_same hp.2.2.1.symm,
    getD_same hp.2.2.2.symm, getD_same ht.symm]

theorem cells_same (hs : ∀ x ∈ h.Cells a, h.Same h' x) : h'.Cells a = h.Cells a := by
  have e : h.grids[a]? = h'.grids[a]? := hs (.grids a) (Or.inl rfl)
  ext x
  unfold Cells
  rw [Set.mem_setOf_eq, Set.mem_setOf_eq, ← e]
  refine or_congr Iff.rfl (exists_congr fun o => and_congr_right fun ho => ?_)
  have hv : h.vecs[o.points]? = h'.vecs[o.points]? :=
    hs (.vecs _) (Or.inr ⟨o, ho, Or.inr (Or.inr (Or.inr (Or.inl rfl)))⟩)
  rw [hv]

theorem Untouched.value (u : h.Untouched h') (G : h.IsGrid a) : h'.value a = h.value a :=
  value_same fun x hx => u x (G x hx)

theorem Untouched.cells (u : h.Untouched h') (G : h.IsGrid a) : h'.Cells a = h.Cells a :=
  cells_same fun x hx => u x (G x hx)

theorem Untouched.isGrid (u : h.Untouched h') (G : h.IsGrid a) : h'.IsGrid a := by
  intro x hx
  rw [u.cells G] at hx
  exact (u x (G x hx)).has (G x hx)

theorem IsGrid.obj (G : h.IsGrid a) : ∃ o, h.grids[a]? = some o ∧ h.value a = some (h.grid o) := by
  have : a < h.grids.length := G (.grids a) (Or.inl rfl)
  exact ⟨_, List.getElem?_eq_getElem this, by unfold Heap.value; rw [List.getElem?_eq_getElem this]; rfl⟩

theorem Untouched.obj (u : h.Untouched h') (G : h.IsGrid a) (ho : h.grids[a]? = some o) :
    h'.grids[a]? = some o ∧ h'.grid o = h.grid o := by
  have e : h.grids[a]? = h'.grids[a]? := u (.grids a) (G (.grids a) (Or.inl rfl))
  have v := u.value G
  unfold Heap.value at v
  rw [← e, ho] at v
  exact ⟨e ▸ ho, Option.some.inj v⟩

/-! ### ownership -/

/-- the grid object `a`, created after `h0`, represents `g` in `h`; nothing that existed in `h0` has changed -/
structure Own (h0 : Heap K) (a : Addr) (o : GridObj K) (h : Heap K) (g : Grid K) : Prop where
  keep : h0.Untouched h
  fresh : h0.grids.length ≤ a
  obj : h.grids[a]? = some { o with mean := g.meanEdgeLength }
  ints : ∀ b ∈ intLists o, h0.ints.length ≤ b ∧ b < h.ints.length
  pairs : ∀ b ∈ pairLists o, h0.pairs.length ≤ b ∧ b < h.pairs.length
  tris : h0.tris.length ≤ o.triangles ∧ o.triangles < h.tris.length
  vecs : h0.vecs.length ≤ o.points ∧ o.points < h.vecs.length
  nums : ∀ p ∈ h.vecs.getD o.points [], h0.nums.length ≤ p ∧ p < h.nums.length
  intNodup : (intLists o).Nodup
  pairNodup : (pairLists o).Nodup
  val : h.grid { o with mean := g.meanEdgeLength } = g

theorem getElem?_modify_ne {α : Type} {l : List α} {i j : ℕ} {f : α → α} (hij : i ≠ j) : (l.modify i f)[j]? = l[j]? := by
  rw [List.getElem?_modify]
  simp [hij]

theorem getD_modify_self {α : Type} {l : List (List α)} {i : ℕ} {m : List α} (hi : i < l.length) :
    (l.modify i (· ++ m)).getD i [] = l.getD i [] ++ m := by
  rw [List.getD_eq_getElem?_getD, List.getD_eq_getElem?_getD, List.getElem?_modify,
    List.getElem?_eq_getElem hi]
  simp

theorem getD_modify_ne {α : Type} {l : List (List α)} {i j : ℕ} {f : List α → List α} (hij : i ≠ j) :
    (l.modify i f).getD j [] = l.getD j [] := by
  rw [List.getD_eq_getElem?_getD, List.getD_eq_getElem?_getD, getElem?_modify_ne hij]

theorem Untouched.ints (u : h0.Untouched h) {b : Addr} (hb : h0.ints.length ≤ b) (f : List Vertex → List Vertex) :
    h0.Untouched { h with ints := h.ints.modify b f } := by
  intro x hx
  cases x
  case ints i => exact (u (.ints i) hx).trans (getElem?_modify_ne (Nat.ne_of_gt (Nat.lt_of_lt_of_le (show i < h0.ints.length from hx) hb))).symm
  all_goals exact u _ hx

theorem Untouched.pairs (u : h0.Untouched h) {b : Addr} (hb : h0.pairs.length ≤ b) (f : List Edge → List Edge) :
    h0.Untouched { h with pairs := h.pairs.modify b f } := by
  intro x hx
  cases x
  case pairs i => exact (u (.pairs i) hx).trans (getElem?_modify_ne (Nat.ne_of_gt (Nat.lt_of_lt_of_le (show i < h0.pairs.length from hx) hb))).symm
  all_goals exact u _ hx

theorem Untouched.tris (u : h0.Untouched h) {b : Addr} (hb : h0.tris.length ≤ b) (f : List Tri → List Tri) :
    h0.Untouched { h with tris := h.tris.modify b f } := by
  intro x hx
  cases x
  case tris i => exact (u (.tris i) hx).trans (getElem?_modify_ne (Nat.ne_of_gt (Nat.lt_of_lt_of_le (show i < h0.tris.length from hx) hb))).symm
  all_goals exact u _ hx

theorem Untouched.vecs (u : h0.Untouched h) {b : Addr} (hb : h0.vecs.length ≤ b) (f : List Addr → List Addr) :
    h0.Untouched { h with vecs := h.vecs.modify b f } := by
  intro x hx
  cases x
  case vecs i => exact (u (.vecs i) hx).trans (getElem?_modify_ne (Nat.ne_of_gt (Nat.lt_of_lt_of_le (show i < h0.vecs.length from hx) hb))).symm
  all_goals exact u _ hx

theorem Untouched.grids (u : h0.Untouched h) {b : Addr} (hb : h0.grids.length ≤ b) (f : GridObj K → GridObj K) :
    h0.Untouched { h with grids := h.grids.modify b f } := by
  intro x hx
  cases x
  case grids i => exact (u (.grids i) hx).trans (getElem?_modify_ne (Nat.ne_of_gt (Nat.lt_of_lt_of_le (show i < h0.grids.length from hx) hb))).symm
  all_goals exact u _ hx

/-- a heap with more lists of numbers -/
theorem untouched_newNums (h : Heap K) (l : List (List K)) : h.Untouched { h with nums := h.nums ++ l } := by
  intro x hx
  cases x
  case nums i => exact (List.getElem?_append_left hx).symm
  all_goals rfl

theorem untouched_newVecs (h : Heap K) (l : List (List Addr)) : h.Untouched { h with vecs := h.vecs ++ l } := by
  intro x hx
  cases x
  case vecs i => exact (List.getElem?_append_left hx).symm
  all_goals rfl

theorem untouched_newInts (h : Heap K) (l : List (List Vertex)) : h.Untouched { h with ints := h.ints ++ l } := by
  intro x hx
  cases x
  case ints i => exact (List.getElem?_append_left hx).symm
  all_goals rfl

theorem untouched_newPairs (h : Heap K) (l : List (List Edge)) : h.Untouched { h with pairs := h.pairs ++ l } := by
  intro x hx
  cases x
  case pairs i => exact (List.getElem?_append_left hx).symm
  all_goals rfl

theorem untouched_newTris (h : Heap K) (l : List (List Tri)) : h.Untouched { h with tris := h.tris ++ l } := by
  intro x hx
  cases x
  case tris i => exact (List.getElem?_append_left hx).symm
  all_goals rfl

theorem untouched_newObj (h : Heap K) (l : List (GridObj K)) : h.Untouched { h with grids := h.grids ++ l } := by
  intro x hx
  cases x
  case grids i => exact (List.getElem?_append_left hx).symm
  all_goals rfl

namespace Own

theorem mem_ints (o : GridObj K) : o.vertices ∈ intLists o ∧ o.boundary.vertices ∈ intLists o ∧
    o.dirichlet.vertices ∈ intLists o ∧ o.neumann.vertices ∈ intLists o := by simp [intLists]

theorem mem_pairs (o : GridObj K) : o.edges ∈ pairLists o ∧ o.boundary.edges ∈ pairLists o ∧
    o.dirichlet.edges ∈ pairLists o ∧ o.neumann.edges ∈ pairLists o := by simp [pairLists]

theorem int_ne (w : Own h0 a o h g) : o.vertices ≠ o.boundary.vertices ∧ o.vertices ≠ o.dirichlet.vertices ∧
    o.vertices ≠ o.neumann.vertices ∧ o.boundary.vertices ≠ o.dirichlet.vertices ∧
    o.boundary.vertices ≠ o.neumann.vertices ∧ o.dirichlet.vertices ≠ o.neumann.vertices := by
  have := w.intNodup
  simp [intLists] at this
  tauto

theorem pair_ne (w : Own h0 a o h g) : o.edges ≠ o.boundary.edges ∧ o.edges ≠ o.dirichlet.edges ∧
    o.edges ≠ o.neumann.edges ∧ o.boundary.edges ≠ o.dirichlet.edges ∧
    o.boundary.edges ≠ o.neumann.edges ∧ o.dirichlet.edges ≠ o.neumann.edges := by
  have := w.pairNodup
  simp [pairLists] at this
  tauto

/-- in-place extension of one of the lists of vertices -/
theorem extendInts (w : Own h0 a o h g) {b : Addr} (hb : b ∈ intLists o) (l : List Vertex) {g' : Grid K}
    (hm : g'.meanEdgeLength = g.meanEdgeLength)
    (hv : ({ h with ints := h.ints.modify b (· ++ l) } : Heap K).grid { o with mean := g.meanEdgeLength } = g') :
    Own h0 a o { h with ints := h.ints.modify b (· ++ l) } g' :=
  { w with
    keep := w.keep.ints (w.ints b hb).1 _
    obj := by rw [hm]; exact w.obj
    ints := fun x hx => by rw [List.length_modify]; exact w.ints x hx
    val := by rw [hm]; exact hv }

theorem extendPairs (w : Own h0 a o h g) {b : Addr} (hb : b ∈ pairLists o) (l : List Edge) {g' : Grid K}
    (hm : g'.meanEdgeLength = g.meanEdgeLength)
    (hv : ({ h with pairs := h.pairs.modify b (· ++ l) } : Heap K).grid { o with mean := g.meanEdgeLength } = g') :
    Own h0 a o { h with pairs := h.pairs.modify b (· ++ l) } g' :=
  { w with
    keep := w.keep.pairs (w.pairs b hb).1 _
    obj := by rw [hm]; exact w.obj
    pairs := fun x hx => by rw [List.length_modify]; exact w.pairs x hx
    val := by rw [hm]; exact hv }

theorem vertices (w : Own h0 a o h g) (l : List Vertex) : Own h0 a o { h with ints := h.ints.modify o.vertices (· ++ l) }
    { g with vertices := g.vertices ++ l } := by
  obtain ⟨e1, e2, e3, -⟩ := w.int_ne
  refine w.extendInts (mem_ints o).1 l rfl ?_
  have v := w.val
  have hl := (w.ints _ (mem_ints o).1).2
  rw [← v]
  simp only [grid, boundary, points, getD_modify_self hl, getD_modify_ne e1, getD_modify_ne e2, getD_modify_ne e3]

theorem boundary (w : Own h0 a o h g) (l : List Vertex) (m : List Edge) : Own h0 a o
    { h with ints := h.ints.modify o.boundary.vertices (· ++ l), pairs := h.pairs.modify o.boundary.edges (· ++ m) }
    { g with boundary := ⟨g.boundary.vertices ++ l, g.boundary.edges ++ m⟩ } := by
  obtain ⟨e1, e2, e3, e4, e5, e6⟩ := w.int_ne
  obtain ⟨f1, f2, f3, f4, f5, f6⟩ := w.pair_ne
  have hl := (w.ints _ (mem_ints o).2.1).2
  have hp := (w.pairs _ (mem_pairs o).2.1).2
  have w1 : Own h0 a o { h with ints := h.ints.modify o.boundary.vertices (· ++ l) }
      { g with boundary := ⟨g.boundary.vertices ++ l, g.boundary.edges⟩ } := by
    refine w.extendInts (mem_ints o).2.1 l rfl ?_
    have v := w.val
    rw [← v]
    simp only [grid, Heap.boundary, points, getD_modify_self hl, getD_modify_ne e1.symm, getD_modify_ne e4,
      getD_modify_ne e5]
  refine w1.extendPairs (mem_pairs o).2.1 m rfl ?_
  have v := w.val
  rw [← v]
  simp only [grid, Heap.boundary, points, getD_modify_self hl, getD_modify_self hp, getD_modify_ne e1.symm,
    getD_modify_ne e4, getD_modify_ne e5, getD_modify_ne f1.symm, getD_modify_ne f4, getD_modify_ne f5]

theorem dirichlet (w : Own h0 a o h g) (l : List Vertex) (m : List Edge) : Own h0 a o
    { h with ints := h.ints.modify o.dirichlet.vertices (· ++ l), pairs := h.pairs.modify o.dirichlet.edges (· ++ m) }
    { g with dirichlet := ⟨g.dirichlet.vertices ++ l, g.dirichlet.edges ++ m⟩ } := by
  obtain ⟨e1, e2, e3, e4, e5, e6⟩ := w.int_ne
  obtain ⟨f1, f2, f3, f4, f5, f6⟩ := w.pair_ne
  have hl := (w.ints _ (mem_ints o).2.2.1).2
  have hp := (w.pairs _ (mem_pairs o).2.2.1).2
  have w1 : Own h0 a o { h with ints := h.ints.modify o.dirichlet.vertices (· ++ l) }
      { g with dirichlet := ⟨g.dirichlet.vertices ++ l, g.dirichlet.edges⟩ } := by
    refine w.extendInts (mem_ints o).2.2.1 l rfl ?_
    have v := w.val
    rw [← v]
    simp only [grid, Heap.boundary, points, getD_modify_self hl, getD_modify_ne e2.symm, getD_modify_ne e4.symm,
      getD_modify_ne e6]
  refine w1.extendPairs (mem_pairs o).2.2.1 m rfl ?_
  have v := w.val
  rw [← v]
  simp only [grid, Heap.boundary, points, getD_modify_self hl, getD_modify_self hp, getD_modify_ne e2.symm,
    getD_modify_ne e4.symm, getD_modify_ne e6, getD_modify_ne f2.symm, getD_modify_ne f4.symm, getD_modify_ne f6]

theorem neumann (w : Own h0 a o h g) (l : List Vertex) (m : List Edge) : Own h0 a o
    { h with ints := h.ints.modify o.neumann.vertices (· ++ l), pairs := h.pairs.modify o.neumann.edges (· ++ m) }
    { g with neumann := ⟨g.neumann.vertices ++ l, g.neumann.edges ++ m⟩ } := by
  obtain ⟨e1, e2, e3, e4, e5, e6⟩ := w.int_ne
  obtain ⟨f1, f2, f3, f4, f5, f6⟩ := w.pair_ne
  have hl := (w.ints _ (mem_ints o).2.2.2).2
  have hp := (w.pairs _ (mem_pairs o).2.2.2).2
  have w1 : Own h0 a o { h with ints := h.ints.modify o.neumann.vertices (· ++ l) }
      { g with neumann := ⟨g.neumann.vertices ++ l, g.neumann.edges⟩ } := by
    refine w.extendInts (mem_ints o).2.2.2 l rfl ?_
    have v := w.val
    rw [← v]
    simp only [grid, Heap.boundary, points, getD_modify_self hl, getD_modify_ne e3.symm, getD_modify_ne e5.symm,
      getD_modify_ne e6.symm]
  refine w1.extendPairs (mem_pairs o).2.2.2 m rfl ?_
  have v := w.val
  rw [← v]
  simp only [grid, Heap.boundary, points, getD_modify_self hl, getD_modify_self hp, getD_modify_ne e3.symm,
    getD_modify_ne e5.symm, getD_modify_ne e6.symm, getD_modify_ne f3.symm, getD_modify_ne f5.symm,
    getD_modify_ne f6.symm]

theorem triangles (w : Own h0 a o h g) (l : List Tri) : Own h0 a o { h with tris := h.tris.modify o.triangles (· ++ l) }
    { g with triangles := g.triangles ++ l } :=
  { w with
    keep := w.keep.tris w.tris.1 _
    tris := by rw [List.length_modify]; exact w.tris
    val := by
      have v := w.val
      have : g.triangles = h.tris.getD o.triangles [] := by rw [← v]; rfl
      rw [this]
      conv_rhs => rw [← v]
      simp only [grid, Heap.boundary, points, getD_modify_self w.tris.2] }

/-- `append_edge` for a new edge -/
theorem edge (w : Own h0 a o h g) (e : Edge) (m : Option K) : Own h0 a o
    { h with
      grids := h.grids.modify a fun o => { o with mean := m }
      pairs := h.pairs.modify o.edges (· ++ [e]) }
    { g with edges := g.edges ++ [e], meanEdgeLength := m } := by
  obtain ⟨f1, f2, f3, f4, f5, f6⟩ := w.pair_ne
  have hp := (w.pairs _ (mem_pairs o).1).2
  refine { w with
    keep := (w.keep.pairs (w.pairs _ (mem_pairs o).1).1 _).grids w.fresh _
    obj := ?_
    pairs := fun x hx => by rw [List.length_modify]; exact w.pairs x hx
    val := ?_ }
  · rw [List.getElem?_modify, w.obj]
    simp
  · have v := w.val
    have : g.edges = h.pairs.getD o.edges [] := by rw [← v]; rfl
    rw [this]
    conv_rhs => rw [← v]
    simp only [grid, Heap.boundary, points, getD_modify_self hp, getD_modify_ne f1, getD_modify_ne f2, getD_modify_ne f3]

/-- a new vector is appended to the points -/
theorem point (w : Own h0 a o h g) (q : Vec K) : Own h0 a o
    { h with
      nums := h.nums ++ [q.data]
      vecs := h.vecs.modify o.points (· ++ [h.nums.length]) }
    { g with points := g.points ++ [q] } := by
  have hk : h0.nums.length ≤ h.nums.length := by
    by_contra hlt
    push Not at hlt
    have : h.Has (.nums h.nums.length) := (w.keep (.nums h.nums.length) hlt).has hlt
    exact absurd this (lt_irrefl _)
  refine { w with
    keep := (w.keep.trans (untouched_newNums h [q.data])).vecs w.vecs.1 _
    vecs := by rw [List.length_modify]; exact w.vecs
    nums := ?_
    val := ?_ }
  · intro p hp
    simp only [getD_modify_self w.vecs.2] at hp
    simp only [List.length_append, List.length_singleton]
    rcases List.mem_append.1 hp with hp | hp
    · exact ⟨(w.nums p hp).1, Nat.lt_succ_of_lt (w.nums p hp).2⟩
    · rw [List.mem_singleton.1 hp]
      exact ⟨hk, Nat.lt_succ_self _⟩
  · have v := w.val
    have e : g.points = h.points o.points := by rw [← v]; rfl
    rw [e]
    conv_rhs => rw [← v]
    have e2 : (h.vecs.getD o.points []).map (fun p => (⟨(h.nums ++ [q.data]).getD p []⟩ : Vec K)) = h.points o.points := by
      apply List.map_congr_left
      intro p hp
      have := (w.nums p hp).2
      rw [List.getD_eq_getElem?_getD, List.getD_eq_getElem?_getD, List.getElem?_append_left this]
    simp only [grid, Heap.boundary, Heap.points, getD_modify_self w.vecs.2, List.map_append, e2, List.map_cons, List.map_nil]
    simp [List.getD_eq_getElem?_getD, Heap.points]

end Own

/-! ### simulation -/

/-- the heap program `y` follows the value program `x`; if it raises, what existed in `h0` is unchanged -/
def Follows {σ τ : Type} (h0 : Heap K) (R : σ → τ → Heap K → Prop) (x : PyM σ) (y : PyM τ × Heap K) : Prop :=
  match x with
  | .ok s => ∃ t, y.1 = .ok t ∧ R s t y.2
  | .error e => y.1 = .error e ∧ h0.Untouched y.2

variable {σ τ σ' τ' ι : Type} {R : σ → τ → Heap K → Prop} {R' : σ' → τ' → Heap K → Prop}

theorem Follows.bind {x : PyM σ} {y : PyS (Heap K) τ} {f : σ → PyM σ'} {fH : τ → PyS (Heap K) τ'}
    (hx : Follows h0 R x (y h)) (hf : ∀ s t h', R s t h' → Follows h0 R' (f s) (fH t h')) :
    Follows h0 R' (x >>= f) ((y >>= fH) h) := by
  show Follows h0 R' (x >>= f) (PyS.bind y fH h)
  rcases x with e | s
  · obtain ⟨h1, h2⟩ := hx
    unfold PyS.bind
    rcases hy : y h with ⟨r, h'⟩
    rw [hy] at h1 h2
    rw [show r = .error e from h1]
    exact ⟨rfl, h2⟩
  · obtain ⟨t, h1, h2⟩ := hx
    unfold PyS.bind
    rcases hy : y h with ⟨r, h'⟩
    rw [hy] at h1 h2
    rw [show r = .ok t from h1]
    exact hf s t h' h2

/-- a computation without side effects -/
theorem Follows.lift {x : PyM σ} {f : σ → PyM σ'} {fH : σ → PyS (Heap K) τ'} (u : h0.Untouched h)
    (hf : ∀ s, x = .ok s → Follows h0 R' (f s) (fH s h)) : Follows h0 R' (x >>= f) ((PyS.lift x >>= fH) h) := by
  rcases x with e | s
  · exact ⟨rfl, u⟩
  · exact hf s rfl

/-- a step of the heap program alone -/
theorem Follows.step {x : PyM σ'} {y : PyS (Heap K) τ} {t : τ} {fH : τ → PyS (Heap K) τ'}
    (hy : y h = (.ok t, h')) (hf : Follows h0 R' x (fH t h')) : Follows h0 R' x ((y >>= fH) h) := by
  show Follows h0 R' x (PyS.bind y fH h)
  unfold PyS.bind
  rw [hy]
  exact hf

theorem Follows.loop {f : σ → ι → PyM σ} {fH : τ → ι → PyS (Heap K) τ}
    (hf : ∀ s t h i, R s t h → Follows h0 R (f s i) (fH t i h)) :
    ∀ (l : List ι) {s : σ} {t : τ} {h : Heap K}, R s t h → Follows h0 R (pyFor l s f) (forLoop l t fH h)
  | [], _, t, _, r => ⟨t, rfl, r⟩
  | i :: l, s, t, h, r => (hf s t h i r).bind fun _ _ _ r' => Follows.loop hf l r'

theorem Follows.each {f : σ → ι → PyM σ} {fH : ι → PyS (Heap K) Unit} {R : σ → Heap K → Prop}
    (hf : ∀ s h i, R s h → Follows h0 (fun s (_ : Unit) h => R s h) (f s i) (fH i h)) :
    ∀ (l : List ι) {s : σ} {h : Heap K}, R s h →
      Follows h0 (fun s (_ : Unit) h => R s h) (pyFor l s f) (PyS.forEach l fH h)
  | [], _, _, r => ⟨(), rfl, r⟩
  | i :: l, s, h, r => (hf s h i r).bind fun _ _ _ r' => Follows.each hf l r'

end Heap
end Tve
