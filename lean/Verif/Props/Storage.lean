import Verif.Lemmas.StorageRefine
import Verif.Props.Sample
import Verif.Props.Refine
import Verif.Props.GridQuery

/-!
# C83: grids are independent objects

The lists of a grid are objects that are changed in place by `append_edge` and during `refine`. `grid` and `refine` create new
objects only and change no object that existed before; a grid they return shares no object with any grid that
existed before, apart from the coarse grid that a refined grid hands out on request.
-/

namespace Tve
namespace Heap

variable {K : Type} {h0 h h' h'' : Heap K} {a b c : Addr} {o : GridObj K} {g : Grid K}

/-! ### ownership in terms of the specification -/

theorem Own.value (w : Own h0 a o h g) : h.value a = some g := by
  unfold Heap.value
  rw [w.obj, Option.map_some, w.val]

theorem Own.isGrid (w : Own h0 a o h g) : h.IsGrid a := by
  rintro x (rfl | ⟨o', ho, H⟩)
  · exact (List.getElem?_eq_some_iff.1 w.obj).1
  obtain rfl := Option.some.inj (w.obj.symm.trans ho)
  rcases H with ⟨i, hi, rfl⟩ | ⟨i, hi, rfl⟩ | rfl | rfl | ⟨l, hl, p, hp, rfl⟩
  · exact (w.ints i hi).2
  · exact (w.pairs i hi).2
  · exact w.tris.2
  · exact w.vecs.2
  · refine (w.nums p ?_).2
    rw [List.getD_eq_getElem?_getD, show h.vecs[o.points]? = some l from hl]
    exact hp

theorem Own.cells_fresh (w : Own h0 a o h g) {x : Cell} (hx : x ∈ h.Cells a) : ¬ h0.Has x := by
  rcases hx with rfl | ⟨o', ho, H⟩
  · exact Nat.not_lt.2 w.fresh
  obtain rfl := Option.some.inj (w.obj.symm.trans ho)
  rcases H with ⟨i, hi, rfl⟩ | ⟨i, hi, rfl⟩ | rfl | rfl | ⟨l, hl, p, hp, rfl⟩
  · exact Nat.not_lt.2 (w.ints i hi).1
  · exact Nat.not_lt.2 (w.pairs i hi).1
  · exact Nat.not_lt.2 w.tris.1
  · exact Nat.not_lt.2 w.vecs.1
  · refine Nat.not_lt.2 (w.nums p ?_).1
    rw [List.getD_eq_getElem?_getD, show h.vecs[o.points]? = some l from hl]
    exact hp

theorem Own.unshared (w : Own h0 a o h g) : h.Unshared a := by
  intro o' ho
  obtain rfl := Option.some.inj (w.obj.symm.trans ho)
  exact ⟨w.intNodup, w.pairNodup⟩

/-- a heap without objects -/
def empty : Heap K := ⟨[], [], [], [], [], []⟩

theorem own_of (G : h.IsGrid a) (U : h.Unshared a) (ho : h.grids[a]? = some o) : Own empty a o h (h.grid o) where
  keep := by rintro x hx; cases x <;> exact absurd hx (Nat.not_lt_zero _)
  fresh := Nat.zero_le _
  obj := ho
  ints := fun i hi => ⟨Nat.zero_le _, G (.ints i) (Or.inr ⟨o, ho, Or.inl ⟨i, hi, rfl⟩⟩)⟩
  pairs := fun i hi => ⟨Nat.zero_le _, G (.pairs i) (Or.inr ⟨o, ho, Or.inr (Or.inl ⟨i, hi, rfl⟩)⟩)⟩
  tris := ⟨Nat.zero_le _, G (.tris _) (Or.inr ⟨o, ho, Or.inr (Or.inr (Or.inl rfl))⟩)⟩
  vecs := ⟨Nat.zero_le _, G (.vecs _) (Or.inr ⟨o, ho, Or.inr (Or.inr (Or.inr (Or.inl rfl)))⟩)⟩
  nums := by
    intro p hp
    refine ⟨Nat.zero_le _, ?_⟩
    rcases hl : h.vecs[o.points]? with _ | l
    · rw [List.getD_eq_getElem?_getD, hl] at hp
      simp at hp
    · rw [List.getD_eq_getElem?_getD, hl] at hp
      exact G (.nums p) (Or.inr ⟨o, ho, Or.inr (Or.inr (Or.inr (Or.inr ⟨l, hl, p, hp, rfl⟩)))⟩)
  intNodup := (U o ho).1
  pairNodup := (U o ho).2
  val := rfl

/-! ### C83 -/

section
variable [Field K] [LinearOrder K] [PySqrt K]

/-- **C83** (`refine` leaves everything as it was). `domain.refine(grid, n)` on grid objects returns what the model of C22–C27 says,
or raises the same exception; in both cases no object that existed before has changed, in particular not the coarse
grid. The coarse grid of the result is the grid object that was passed. -/
theorem C83_refine (d : RectDomain K) (G : h.IsGrid c) (hc : h.value c = some g) (n : ℤ) :
    h.Untouched (refine c n h).2 ∧
    (∀ e, d.refine g n = .error e → (refine c n h).1 = .error e) ∧
    ∀ r, d.refine g n = .ok r → ∃ o, (refine c n h).1 = .ok o ∧ o.coarse = c ∧
      (refine c n h).2.refinedValue o = some r := by
  have F := refine_follows d G hc n
  unfold Follows at F
  rcases hr : d.refine g n with e | r
  · rw [hr] at F
    exact ⟨F.2, fun e' he => by cases he; exact F.1, fun r hr => by cases hr⟩
  · rw [hr] at F
    obtain ⟨o, h1, h2, h3, h4, o', w⟩ := F
    refine ⟨w.keep, fun e he => (by cases he), fun r' hr' => ?_⟩
    cases hr'
    refine ⟨o, h1, h3, ?_⟩
    unfold refinedValue
    rw [w.value, h3, w.keep.value G, hc]
    simp only [Option.bind_eq_bind, Option.bind_some, h4]
    rw [← h2]
    rfl

omit [Field K] [LinearOrder K] [PySqrt K] in
/-- two grids without common objects: changing one leaves the other as it is -/
theorem independent_of_disjoint (D : ∀ x ∈ h.Cells a, x ∉ h.Cells b) :
    (∀ h2, (∀ x, x ∉ h.Cells b → h.Same h2 x) → h2.value a = h.value a) ∧
    ∀ h2, (∀ x, x ∉ h.Cells a → h.Same h2 x) → h2.value b = h.value b :=
  ⟨fun _ hs => value_same fun x hx => hs x (D x hx), fun _ hs => value_same fun x hx => hs x fun hx' => D x hx' hx⟩

/-- **C83** (refined grids share nothing). The grid returned by `refine` consists of objects of its own: whatever is done in
place to the objects of a grid that existed before (the coarse one or any other) does not change it, and
whatever is done in place to its objects does not change any grid that existed before. -/
theorem C83_refine_independent (d : RectDomain K) (G : h.IsGrid c) (hc : h.value c = some g) {n : ℤ} {r : RefinedGrid K}
    (hr : d.refine g n = .ok r) {o : RefinedObj K} (ho : refine c n h = (.ok o, h')) :
    h'.IsGrid o.grid ∧ h'.Unshared o.grid ∧ h'.value o.grid = some r.toGrid ∧
    ∀ b, h.IsGrid b → h'.value b = h.value b ∧
      (∀ h2, (∀ x, x ∉ h'.Cells b → h'.Same h2 x) → h2.value o.grid = h'.value o.grid) ∧
      ∀ h2, (∀ x, x ∉ h'.Cells o.grid → h'.Same h2 x) → h2.value b = h'.value b := by
  have F := refine_follows d G hc n
  rw [hr, ho] at F
  obtain ⟨o1, h1, -, -, -, o', w⟩ := F
  cases h1
  refine ⟨w.isGrid, w.unshared, w.value, fun b hb => ⟨w.keep.value hb, independent_of_disjoint fun x hx hx' => ?_⟩⟩
  rw [w.keep.cells hb] at hx'
  exact w.cells_fresh hx (hb x hx')

/-- **C83** (`grid` returns a new grid). `domain.grid(scale)` changes no existing object, and the grid it returns shares no object
with any existing grid, in particular not with those returned by earlier calls. -/
theorem C83_grid [FloorRing K] {it : SetIter} {d : RectDomain K} {scale : K} (hg : d.grid it scale = .ok g) (h : Heap K) :
    ∃ a h', rectGrid it d scale h = (.ok a, h') ∧ h.Untouched h' ∧ h'.IsGrid a ∧ h'.Unshared a ∧ h'.value a = some g ∧
    ∀ b, h.IsGrid b → h'.value b = h.value b ∧
      (∀ h2, (∀ x, x ∉ h'.Cells b → h'.Same h2 x) → h2.value a = h'.value a) ∧
      ∀ h2, (∀ x, x ∉ h'.Cells a → h'.Same h2 x) → h2.value b = h'.value b := by
  obtain ⟨h', e, w⟩ := rectGrid_ok hg h
  refine ⟨_, h', e, w.keep, w.isGrid, w.unshared, w.value, fun b hb =>
    ⟨w.keep.value hb, independent_of_disjoint fun x hx hx' => ?_⟩⟩
  rw [w.keep.cells hb] at hx'
  exact w.cells_fresh hx (hb x hx')

end

section
variable [Field K] [PySqrt K]

/-- **C83** (`append_edge` changes one grid). On a grid object, `append_edge` does what the model of C19 says, and changes no
object that is not part of this grid. -/
theorem C83_append_edge (G : h.IsGrid a) (U : h.Unshared a) (hv : h.value a = some g) (e : Edge) :
    (∀ x, x ∉ h.Cells a → h.Same (appendEdge a e h).2 x) ∧
    (∀ err, g.appendEdge e = .error err → appendEdge a e h = (.error err, h)) ∧
    ∀ g', g.appendEdge e = .ok g' → (appendEdge a e h).1 = .ok () ∧ (appendEdge a e h).2.value a = some g' ∧
      (appendEdge a e h).2.IsGrid a ∧ (appendEdge a e h).2.Unshared a := by
  obtain ⟨o, ho, hv'⟩ := G.obj
  obtain rfl := Option.some.inj (hv'.symm.trans hv)
  have w := own_of G U ho
  have F := appendEdge_follows w e
  have eq : appendEdge a e h = (if e ∉ (h.grid o).edges ∧ (e.2, e.1) ∉ (h.grid o).edges then
      match gridEdgeLength (h.grid o).points e with
      | .error err => (.error err, h)
      | .ok l => (.ok (), { h with
          grids := h.grids.modify a fun o' => { o' with mean := some (match (h.grid o).meanEdgeLength with
            | none => l
            | some m => m * ((h.grid o).edges.length : K) / (((h.grid o).edges.length : K) + 1) +
                l / (((h.grid o).edges.length : K) + 1)) }
          pairs := h.pairs.modify o.edges (· ++ [e]) })
      else (.ok (), h)) := by
    show PyS.bind (obj a) _ h = _
    unfold PyS.bind
    rw [obj_eq ho]
    simp only
    show PyS.bind (PyS.get fun h => h.grid o) _ h = _
    unfold PyS.bind PyS.get
    simp only
    split
    · rcases gridEdgeLength (h.grid o).points e with err | l
      · rfl
      · rfl
    · rfl
  refine ⟨?_, ?_, ?_⟩
  · intro x hx
    rw [eq]
    split
    · rcases gridEdgeLength (h.grid o).points e with err | l
      · cases x <;> rfl
      · cases x
        case grids i =>
          exact (getElem?_modify_ne fun hi => hx (Or.inl (by rw [hi]))).symm
        case pairs i =>
          exact (getElem?_modify_ne fun hi => hx (Or.inr ⟨o, ho, Or.inr (Or.inl ⟨i, by rw [← hi]; exact (Own.mem_pairs o).1, rfl⟩)⟩)).symm
        all_goals rfl
    · cases x <;> rfl
  · intro err he
    unfold Grid.appendEdge at he
    rw [eq]
    split at he
    · rename_i hc
      rw [if_pos hc]
      rcases hl : gridEdgeLength (h.grid o).points e with err' | l
      · rw [hl] at he
        cases he
        rfl
      · rw [hl] at he
        cases he
    · cases he
  · intro g' hg'
    rw [hg'] at F
    obtain ⟨u, h1, w'⟩ := F
    exact ⟨h1, w'.value, w'.isGrid, w'.unshared⟩

end

section
variable [Field K] [LinearOrder K] [PySqrt K]

/-- **C83** (after a refinement). Appending an edge to the coarse grid afterwards leaves the refined grid as it is, but shows in
`refined.coarse()`, which is the same object; appending an edge to the refined grid leaves the coarse grid as it is. -/
theorem C83_append_after_refine (d : RectDomain K) (G : h.IsGrid c) (U : h.Unshared c) (hc : h.value c = some g) {n : ℤ}
    {r : RefinedGrid K} (hr : d.refine g n = .ok r) {o : RefinedObj K} (ho : refine c n h = (.ok o, h')) (e : Edge) :
    (∀ g', g.appendEdge e = .ok g' →
      (appendEdge c e h').2.refinedValue o = some { r with coarseGrid := g' }) ∧
    ∀ g', r.toGrid.appendEdge e = .ok g' →
      (appendEdge o.grid e h').2.refinedValue o = some { r with toGrid := g' } ∧
      (appendEdge o.grid e h').2.value c = some g := by
  obtain ⟨R1, -, R3⟩ := C83_refine d G hc n
  obtain ⟨o1, h1, h2, h3⟩ := R3 r hr
  rw [ho] at R1 h1 h3
  cases h1
  simp only at R1 h3
  obtain ⟨I1, I2, I3, I4⟩ := C83_refine_independent d G hc hr ho
  obtain ⟨I5, I6, I7⟩ := I4 c G
  have vc : h'.value c = some g := by rw [I5, hc]
  have er : r = ⟨r.toGrid, g, o.maps.coarseTriangle, o.maps.coarseBary, o.maps.coarseEdge, o.maps.coarseEdgeCoords⟩ := by
    unfold refinedValue at h3
    rw [I3, h2, vc] at h3
    exact (Option.some.inj h3).symm
  have Uc : h'.Unshared c := by
    intro oc hoc
    have e1 : h.grids[c]? = h'.grids[c]? := R1 (.grids c) (G (.grids c) (Or.inl rfl))
    exact U oc (e1.trans hoc)
  constructor
  · intro g' hg'
    obtain ⟨A1, -, A2⟩ := C83_append_edge (R1.isGrid G) Uc vc e
    obtain ⟨-, A3, -, -⟩ := A2 g' hg'
    unfold refinedValue
    rw [I6 _ A1, I3, h2, A3]
    simp only [Option.bind_eq_bind, Option.bind_some]
    rw [er]
    rfl
  · intro g' hg'
    obtain ⟨A1, -, A2⟩ := C83_append_edge I1 I2 I3 e
    obtain ⟨-, A3, -, -⟩ := A2 g' hg'
    refine ⟨?_, (I7 _ A1).trans vc⟩
    unfold refinedValue
    rw [A3, h2, I7 _ A1, vc]
    simp only [Option.bind_eq_bind, Option.bind_some]
    rw [er]
    rfl

end

/-- **C83** (the constructor of `Grid` copies nothing). This is why `refine` has to copy: of two grids constructed from the same
lists, `append_edge` on one also changes the edges of the other, whose mean edge length then is that of before. -/
theorem C83_constructor_shares [Field K] [PySqrt K] (G : h.IsGrid a) (U : h.Unshared a) (hv : h.value a = some g)
    {g2 : Grid K} (hg : Grid.new g.vertices g.edges g.triangles g.boundary g.dirichlet g.neumann g.points = .ok g2) :
    ∃ o h', h.grids[a]? = some o ∧ newGrid o h = (.ok h.grids.length, h') ∧ h.Untouched h' ∧
      h'.value h.grids.length = some g2 ∧
      ∀ e g', g.appendEdge e = .ok g' → (appendEdge a e h').1 = .ok () ∧ (appendEdge a e h').2.value a = some g' ∧
        (appendEdge a e h').2.value h.grids.length = some { g2 with edges := g'.edges } := by
  obtain ⟨o, ho, hv'⟩ := G.obj
  obtain rfl := Option.some.inj (hv'.symm.trans hv)
  have w := own_of G U ho
  obtain ⟨h', e, w2⟩ := newGrid_own w hg o.mean
  have e2 : newGrid o h = (.ok h.grids.length, h') := e
  have u : h.Untouched h' := by
    have e3 : newGrid o h = (.ok h.grids.length, { h with grids := h.grids ++ [{ o with mean := g2.meanEdgeLength }] }) := by
      show PyS.bind (PyS.get fun h' => h'.grid o) (fun v => PyS.bind (PyS.lift (Grid.new v.vertices v.edges
        v.triangles v.boundary v.dirichlet v.neumann v.points)) fun g => newObj { o with mean := g.meanEdgeLength }) h = _
      simp only [PyS.bind, PyS.get, PyS.lift, hg]
      rfl
    rw [e3] at e2
    cases e2
    exact untouched_newObj h _
  refine ⟨o, h', ho, e2, u, w2.value, ?_⟩
  intro ed g' hg'
  have Ga := u.isGrid G
  have oa := u.obj G ho
  have Ua : h'.Unshared a := by
    intro o' ho'
    exact U o' (by rw [ho, ← oa.1, ho'])
  obtain ⟨-, -, A⟩ := C83_append_edge Ga Ua (u.value G |>.trans hv) ed
  obtain ⟨A1, A2, -, -⟩ := A g' hg'
  refine ⟨A1, A2, ?_⟩
  have F := appendEdge_follows (own_of Ga Ua oa.1) ed
  rw [oa.2, hg'] at F
  obtain ⟨-, -, w3⟩ := F
  have hne : Cell.grids h.grids.length ∉ h'.Cells a := by
    intro hx
    rw [u.cells G] at hx
    exact absurd (G _ hx) (lt_irrefl _)
  have e4 : h'.grids[h.grids.length]? = (appendEdge a ed h').2.grids[h.grids.length]? :=
    (C83_append_edge Ga Ua (u.value G |>.trans hv) ed).1 _ hne
  have e5 : (appendEdge a ed h').2.grid { o with mean := g2.meanEdgeLength } =
      { g' with meanEdgeLength := g2.meanEdgeLength } := by
    have v := w3.val
    conv_rhs => rw [← v]
    rfl
  unfold Heap.value
  rw [← e4, w2.obj, Option.map_some, e5, (grid_new_self hg).2]
  unfold Grid.appendEdge at hg'
  split at hg'
  · rcases hl : gridEdgeLength (h.grid o).points ed with err | l
    · rw [hl] at hg'; cases hg'
    · rw [hl] at hg'
      cases hg'
      rfl
  · cases hg'
    rfl

/-- C83 on the sample grid (`2 × 2` cells), created, refined by 2 and extended by the edge `(0, 8)`: the refined grid still has 25
vertices, 32 triangles and its edges; the coarse grid has the new edge -/
example (it : SetIter) : ∃ c h1 o h2, rectGrid it sampleDomain (1 / 2) (empty : Heap ℝ) = (.ok c, h1) ∧
    refine c 2 h1 = (.ok o, h2) ∧ ∃ r g', h2.refinedValue o = some r ∧ r.toGrid.vertices.length = 25 ∧
      r.toGrid.triangles.length = 32 ∧ r.coarseGrid.edges.length = 16 ∧
      (appendEdge c (0, 8) h2).2.refinedValue o = some { r with coarseGrid := g' } ∧
      g'.edges = (sampleGrid it).edges ++ [(0, 8)] := by
  obtain ⟨c, h1, e1, -, G, U, v, -⟩ := C83_grid (sampleGrid_eq it) (empty : Heap ℝ)
  obtain ⟨r, hr, -, hco, -, -, hv, ht⟩ := C22_refine (sampleGrid_library it) sampleDomain (n := 2) (by norm_num) (by norm_num)
  obtain ⟨u, -, R⟩ := C83_refine sampleDomain G v 2
  obtain ⟨o, ho, hc, hval⟩ := R r hr
  have e2 : refine c 2 h1 = (.ok o, (refine c 2 h1).2) := by rw [← ho]
  have ea : ∃ g', (sampleGrid it).appendEdge (0, 8) = .ok g' ∧ g'.edges = (sampleGrid it).edges ++ [(0, 8)] := by
    obtain ⟨i1, i2, i3⟩ := C19_library (sampleGrid_library it)
    obtain ⟨g1, j1, -, -, j4⟩ := appendEdge_step i1 i3 (e := (0, 8)) (by rw [sampleGrid_length]; decide)
    refine ⟨g1, j1, ?_⟩
    rw [(sampleGrid_lists it).2.1] at j4 ⊢
    rw [j4]
    decide
  obtain ⟨g', hg', he'⟩ := ea
  refine ⟨c, h1, o, _, e1, e2, r, g', hval, ?_, ?_, ?_, (C83_append_after_refine sampleDomain G U v hr e2 (0, 8)).1 g' hg', he'⟩
  · rw [hv]
  · rw [ht, (sampleGrid_lists it).2.2]; rfl
  · have : r.coarseGrid = sampleGrid it := hco
    rw [this, (sampleGrid_lists it).2.1]; rfl

end Heap
end Tve
