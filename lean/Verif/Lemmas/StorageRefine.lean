import Verif.Lemmas.Storage

/-!
# `refine` in the heap model
-/

namespace Tve
namespace Heap

variable {K : Type} {h0 h h' h'' : Heap K} {a c : Addr} {o : GridObj K} {g : Grid K}

theorem obj_eq (ho : h.grids[a]? = some o) : obj a h = (.ok o, h) := by
  simp only [obj, PyS.read, pyGet, ho]

section
variable {σ τ σ' τ' : Type} {R' : σ' → τ' → Heap K → Prop}

theorem Follows.read {x : PyM σ} {f : σ → PyM σ'} {r : Heap K → PyM σ} {fH : σ → PyS (Heap K) τ'} (u : h0.Untouched h)
    (hr : r h = x) (hf : ∀ s, x = .ok s → Follows h0 R' (f s) (fH s h)) :
    Follows h0 R' (x >>= f) ((PyS.read r >>= fH) h) := by
  subst hr
  show Follows h0 R' (r h >>= f) (PyS.bind (PyS.read r) fH h)
  unfold PyS.bind PyS.read
  rcases hx : r h with e | s
  · exact ⟨rfl, u⟩
  · exact hf s hx

theorem Follows.error {e : PyErr} {y : PyM τ' × Heap K} (h1 : y.1 = .error e) (h2 : h0.Untouched y.2) :
    Follows h0 R' (.error e : PyM σ') y := ⟨h1, h2⟩

end

theorem appendEdge_follows [Field K] [PySqrt K] (w : Own h0 a o h g) (e : Edge) :
    Follows h0 (fun g (_ : Unit) h => Own h0 a o h g) (g.appendEdge e) (appendEdge a e h) := by
  unfold appendEdge Grid.appendEdge
  refine .step (obj_eq w.obj) (.step (t := g) (h' := h) ?_ ?_)
  · simp only [PyS.get, w.val]
  split
  · refine .lift w.keep fun l hl => ?_
    exact ⟨(), rfl, w.edge e _⟩
  · exact ⟨(), rfl, w⟩

variable [Field K] [LinearOrder K] [PySqrt K]

/-- the local variables and the intermediate grid during the vertex loop -/
def VertRel (h0 : Heap K) (a : Addr) (o : GridObj K) (s : VertState K) (t : Vertex × PyDict (ℕ × ℕ) Vertex) (h : Heap K) :
    Prop := Own h0 a o h s.grid ∧ t = (s.nextVertex, s.tv)

theorem refineVertex_follows (n : ℕ) (p1 p2 p3 : Vec K) (s : VertState K) (t : Vertex × PyDict (ℕ × ℕ) Vertex) (h : Heap K)
    (kl : ℕ × ℕ) (r : VertRel h0 a o s t h) :
    Follows h0 (VertRel h0 a o) (Tve.refineVertex n p1 p2 p3 s kl) (refineVertex a n p1 p2 p3 t kl h) := by
  obtain ⟨w, rfl⟩ := r
  unfold Tve.refineVertex refineVertex
  split
  · exact ⟨_, rfl, w, rfl⟩
  split
  · exact ⟨_, rfl, w, rfl⟩
  split
  · exact ⟨_, rfl, w, rfl⟩
  refine .lift w.keep fun x hx => .lift w.keep fun q hq => .step (obj_eq w.obj) (.read w.keep (by rw [w.val]) fun old ho => ?_)
  rcases old with _ | v
  · exact ⟨_, rfl, (w.vertices [s.nextVertex]).point q, rfl⟩
  · exact ⟨_, rfl, w, rfl⟩

/-- the dictionaries and the intermediate grid -/
def RefRel (h0 : Heap K) (a : Addr) (o : GridObj K) (s : RefState K) (t : RefMaps K) (h : Heap K) : Prop :=
  Own h0 a o h s.grid ∧ t = ⟨s.coarseTriangle, s.coarseBary, s.coarseEdge, s.coarseEdgeCoords⟩

theorem refineLower_follows (n : ℕ) (tri : Tri) (tv : PyDict (ℕ × ℕ) Vertex) (s : RefState K) (t : RefMaps K) (h : Heap K)
    (kl : ℕ × ℕ) (r : RefRel h0 a o s t h) :
    Follows h0 (RefRel h0 a o) (Tve.refineLower n tri tv s kl) (refineLower a n tri tv t kl h) := by
  obtain ⟨w, rfl⟩ := r
  unfold Tve.refineLower refineLower
  refine .lift w.keep fun x hx => .lift w.keep fun y hy => .lift w.keep fun z hz =>
    .step (obj_eq w.obj) (.read w.keep (by rw [w.val]) fun _ _ => .read w.keep (by rw [w.val]) fun _ _ => ?_)
  exact ⟨_, rfl, w.triangles [(x, y, z)], rfl⟩

theorem refineUpper_follows (n : ℕ) (tri : Tri) (tv : PyDict (ℕ × ℕ) Vertex) (s : RefState K) (t : RefMaps K) (h : Heap K)
    (kl : ℕ × ℕ) (r : RefRel h0 a o s t h) :
    Follows h0 (RefRel h0 a o) (Tve.refineUpper n tri tv s kl) (refineUpper a n tri tv t kl h) := by
  obtain ⟨w, rfl⟩ := r
  unfold Tve.refineUpper refineUpper
  refine .lift w.keep fun x hx => .lift w.keep fun y hy => .lift w.keep fun z hz => .step (obj_eq w.obj) ?_
  exact ⟨_, rfl, w.triangles [(x, y, z)], rfl⟩

theorem refineEdges_follows (hc vc dc : Bool) (tv : PyDict (ℕ × ℕ) Vertex) (g : Grid K) (h : Heap K) (kl : ℕ × ℕ)
    (w : Own h0 a o h g) :
    Follows h0 (fun g (_ : Unit) h => Own h0 a o h g) (Tve.refineEdges hc vc dc tv g kl) (refineEdges a hc vc dc tv kl h) := by
  unfold Tve.refineEdges refineEdges
  refine .lift w.keep fun x hx => .lift w.keep fun y hy => (appendEdge_follows w _).bind fun g' _ h' w' =>
    .lift w'.keep fun z hz => (appendEdge_follows w' _).bind fun g' _ h' w' => appendEdge_follows w' _

omit [Field K] [LinearOrder K] [PySqrt K] in
theorem refineBoundaries_eq (G : h0.IsGrid c) {co : GridObj K} (hco : h0.grids[c]? = some co) (w : Own h0 a o h g)
    (eev : Edge × List Vertex) :
    ∃ h', refineBoundaries c a eev h = (.ok (), h') ∧ Own h0 a o h' (Tve.refineBoundaries (h0.grid co) g eev) := by
  have key : ∀ {h : Heap K}, h0.Untouched h → h.boundary co.boundary = (h0.grid co).boundary ∧
      h.boundary co.dirichlet = (h0.grid co).dirichlet ∧ h.boundary co.neumann = (h0.grid co).neumann := by
    intro h u
    have e := (u.obj G hco).2
    rw [← e]
    exact ⟨rfl, rfl, rfl⟩
  have one : ∀ (b ib : BoundaryObj) (h : Heap K), refineBoundaryEdge eev.1 eev.2 b ib h =
      (.ok (), if eev.1 ∉ (h.boundary b).edges then h else
        { h with ints := h.ints.modify ib.vertices (· ++ eev.2.tail.dropLast)
                 pairs := h.pairs.modify ib.edges (· ++ (eev.2.dropLast.zip eev.2.tail)) }) := by
    intro b ib h
    have e : refineBoundaryEdge eev.1 eev.2 b ib h = (if eev.1 ∉ (h.boundary b).edges then PyS.pure () else
        PyS.bind (Heap.extendInts ib.vertices eev.2.tail.dropLast) fun _ =>
          Heap.extendPairs ib.edges (eev.2.dropLast.zip eev.2.tail)) h := rfl
    rw [e]
    split
    · rfl
    · rfl
  obtain ⟨k1, -, -⟩ := key w.keep
  have w1 : Own h0 a o (if eev.1 ∉ (h.boundary co.boundary).edges then h else
        { h with ints := h.ints.modify o.boundary.vertices (· ++ eev.2.tail.dropLast)
                 pairs := h.pairs.modify o.boundary.edges (· ++ (eev.2.dropLast.zip eev.2.tail)) })
      { g with boundary := Tve.refineBoundaryEdge eev.1 eev.2 (h0.grid co).boundary g.boundary } := by
    rw [k1]
    unfold Tve.refineBoundaryEdge
    split
    · exact w
    · exact w.boundary _ _
  generalize hh1 : (if eev.1 ∉ (h.boundary co.boundary).edges then h else _) = h1 at w1
  obtain ⟨-, k2, -⟩ := key w1.keep
  have w2 : Own h0 a o (if eev.1 ∉ (h1.boundary co.dirichlet).edges then h1 else
        { h1 with ints := h1.ints.modify o.dirichlet.vertices (· ++ eev.2.tail.dropLast)
                  pairs := h1.pairs.modify o.dirichlet.edges (· ++ (eev.2.dropLast.zip eev.2.tail)) })
      { g with boundary := Tve.refineBoundaryEdge eev.1 eev.2 (h0.grid co).boundary g.boundary
               dirichlet := Tve.refineBoundaryEdge eev.1 eev.2 (h0.grid co).dirichlet g.dirichlet } := by
    rw [k2]
    unfold Tve.refineBoundaryEdge at w1 ⊢
    split
    · exact w1
    · exact w1.dirichlet _ _
  generalize hh2 : (if eev.1 ∉ (h1.boundary co.dirichlet).edges then h1 else _) = h2 at w2
  obtain ⟨-, -, k3⟩ := key w2.keep
  have w3 : Own h0 a o (if eev.1 ∉ (h2.boundary co.neumann).edges then h2 else
        { h2 with ints := h2.ints.modify o.neumann.vertices (· ++ eev.2.tail.dropLast)
                  pairs := h2.pairs.modify o.neumann.edges (· ++ (eev.2.dropLast.zip eev.2.tail)) })
      (Tve.refineBoundaries (h0.grid co) g eev) := by
    rw [k3]
    unfold Tve.refineBoundaries
    unfold Tve.refineBoundaryEdge at w2 ⊢
    split
    · exact w2
    · exact w2.neumann _ _
  refine ⟨_, ?_, w3⟩
  show PyS.bind (obj c) (fun co => PyS.bind (obj a) fun o => PyS.bind (refineBoundaryEdge eev.1 eev.2 co.boundary o.boundary)
    fun _ => PyS.bind (refineBoundaryEdge eev.1 eev.2 co.dirichlet o.dirichlet) fun _ =>
      refineBoundaryEdge eev.1 eev.2 co.neumann o.neumann) h = _
  unfold PyS.bind
  simp only [obj_eq (w.keep.obj G hco).1, obj_eq w.obj, one, hh1, hh2]

theorem refineCoarseEdges_grid (n : ℕ) (hc vc dc : Bool) (ch cv cd : Edge) (tv : PyDict (ℕ × ℕ) Vertex) (l : List ℕ) :
    ∀ {s s' : RefState K}, pyFor l s (refineCoarseEdges n hc vc dc ch cv cd tv) = .ok s' → s'.grid = s.grid := by
  induction l with
  | nil => intro s s' h; cases h; rfl
  | cons i l ih =>
    intro s s' h
    unfold pyFor at h
    rcases h1 : refineCoarseEdges n hc vc dc ch cv cd tv s i with e | s1
    · rw [h1] at h; cases h
    · rw [h1] at h
      rw [ih h]
      have key : ∀ {α β : Type} {x : PyM α} {f : α → PyM β} {b : β}, (x >>= f) = .ok b → ∃ a, x = .ok a ∧ f a = .ok b := by
        intro α β x f b h
        rcases x with e | a
        · cases h
        · exact ⟨a, rfl, h⟩
      unfold refineCoarseEdges at h1
      obtain ⟨_, -, h1⟩ := key h1
      obtain ⟨_, -, h1⟩ := key h1
      obtain ⟨_, -, h1⟩ := key h1
      obtain ⟨_, -, h1⟩ := key h1
      obtain ⟨_, -, h1⟩ := key h1
      obtain ⟨_, -, h1⟩ := key h1
      cases h1
      rfl

theorem refineTriangle_follows (G : h0.IsGrid c) {co : GridObj K} (hco : h0.grids[c]? = some co) (n : ℕ) (s : RefState K)
    (t : RefMaps K) (h : Heap K) (tri : Tri) (r : RefRel h0 a o s t h) :
    Follows h0 (RefRel h0 a o) (Tve.refineTriangle (h0.grid co) n s tri) (refineTriangle c a n t tri h) := by
  obtain ⟨w, rfl⟩ := r
  obtain ⟨i1, i2, i3⟩ := tri
  unfold Tve.refineTriangle refineTriangle
  refine .step (obj_eq (w.keep.obj G hco).1) (.read w.keep (by rw [(w.keep.obj G hco).2]) fun p hp => ?_)
  obtain ⟨p1, p2, p3⟩ := p
  refine .lift w.keep fun y1 _ => .lift w.keep fun y2 _ => ?_
  split
  · exact .error rfl w.keep
  refine .lift w.keep fun x2 _ => .lift w.keep fun x3 _ => ?_
  split
  · exact .error rfl w.keep
  refine .step (obj_eq w.obj) (.read w.keep (by rw [w.val]) fun last _ => ?_)
  refine (Follows.loop (refineVertex_follows n p1 p2 p3) (vertexIndices n)
    (s := ⟨s.grid, last + 1, _⟩) ⟨w, rfl⟩).bind fun vs vt h1 r1 => ?_
  obtain ⟨w1, rfl⟩ := r1
  refine (Follows.loop (refineLower_follows n (i1, i2, i3) vs.tv) (lowerIndices n)
    (s := { s with grid := vs.grid }) ⟨w1, rfl⟩).bind fun s2 t2 h2 r2 => ?_
  refine (Follows.loop (refineUpper_follows n (i1, i2, i3) vs.tv) (upperIndices n) r2).bind fun s3 t3 h3 r3 => ?_
  obtain ⟨w3, rfl⟩ := r3
  refine .step (t := h0.grid co) (h' := h3) (by rw [← (w3.keep.obj G hco).2]; rfl) ?_
  refine (Follows.each (refineEdges_follows _ _ _ vs.tv) (lowerIndices n) w3).bind fun g4 _ h4 w4 => ?_
  refine .lift w4.keep fun hvs _ => .lift w4.keep fun vvs _ => ?_
  obtain ⟨h5, e5, w5⟩ := refineBoundaries_eq G hco w4 (orientPair (decide ((i1, i2) ∈ (h0.grid co).edges)) (i1, i2),
    orientList (decide ((i1, i2) ∈ (h0.grid co).edges)) hvs)
  obtain ⟨h6, e6, w6⟩ := refineBoundaries_eq G hco w5 (orientPair (decide ((i2, i3) ∈ (h0.grid co).edges)) (i2, i3),
    orientList (decide ((i2, i3) ∈ (h0.grid co).edges)) vvs)
  refine .step (t := ()) (h' := h6) ?_ ?_
  · unfold PyS.forEach PyS.forEach PyS.forEach PyS.bind
    simp only [e5, e6]
    rfl
  simp only [List.foldl_cons, List.foldl_nil]
  refine .step (obj_eq w6.obj) (.step (congrArg (fun g => ((Except.ok g : PyM (Grid K)), h6)) w6.val) ?_)
  rcases hx : pyFor (List.range n) (RefState.mk _ _ _ _ _) (refineCoarseEdges n _ _ _ _ _ _ _) with e | A
  · exact ⟨rfl, w6.keep⟩
  · refine ⟨_, rfl, ?_, rfl⟩
    rw [refineCoarseEdges_grid _ _ _ _ _ _ _ _ _ hx]
    exact w6

omit [Field K] [LinearOrder K] [PySqrt K] in
theorem newVectors_eq (l : List (Vec K)) (h : Heap K) : newVectors l h =
    (.ok ((List.range l.length).map (h.nums.length + ·)), { h with nums := h.nums ++ l.map Vec.data }) := by
  have key : ∀ (l : List (Vec K)) (acc : List Addr) (h : Heap K),
      forLoop l acc (fun acc p => (do let a ← newNums p.data; return acc ++ [a] : PyS (Heap K) (List Addr))) h =
      (.ok (acc ++ (List.range l.length).map (h.nums.length + ·)), { h with nums := h.nums ++ l.map Vec.data }) := by
    intro l
    induction l with
    | nil => intro acc h; simp [forLoop, PyS.pure]
    | cons p l ih =>
      intro acc h
      have e : forLoop (p :: l) acc (fun acc p => (do let a ← newNums p.data; return acc ++ [a] : PyS (Heap K) (List Addr))) h =
        forLoop l (acc ++ [h.nums.length]) (fun acc p => (do let a ← newNums p.data; return acc ++ [a] :
          PyS (Heap K) (List Addr))) { h with nums := h.nums ++ [p.data] } := rfl
      rw [e, ih]
      simp only [List.length_append, List.length_nil, List.append_assoc, List.singleton_append, List.length_cons,
        List.map_cons, List.range_succ_eq_map, List.map_map]
      congr 4
      apply List.map_congr_left
      intro x _
      simp only [Function.comp_apply]
      omega
  have := key l [] h
  rw [List.nil_append] at this
  exact this

omit [Field K] [LinearOrder K] [PySqrt K] in
theorem newPoints_eq (l : List (Vec K)) (h : Heap K) : newPoints l h = (.ok h.vecs.length,
    { h with nums := h.nums ++ l.map Vec.data, vecs := h.vecs ++ [(List.range l.length).map (h.nums.length + ·)] }) := by
  show PyS.bind (newVectors l) newVecs h = _
  simp only [PyS.bind, newVectors_eq, newVecs]

/-- the object made of newly allocated copies of the lists of a grid -/
def freshObj (h : Heap K) : GridObj K :=
  ⟨h.ints.length, h.pairs.length, h.tris.length, ⟨h.ints.length + 1, h.pairs.length + 1⟩,
    ⟨h.ints.length + 2, h.pairs.length + 2⟩, ⟨h.ints.length + 3, h.pairs.length + 3⟩, h.vecs.length, none⟩

/-- the heap after the lists of `g` have been allocated -/
def allocHeap (h : Heap K) (g : Grid K) : Heap K where
  nums := h.nums ++ g.points.map Vec.data
  vecs := h.vecs ++ [(List.range g.points.length).map (h.nums.length + ·)]
  ints := h.ints ++ [g.vertices, g.boundary.vertices, g.dirichlet.vertices, g.neumann.vertices]
  pairs := h.pairs ++ [g.edges, g.boundary.edges, g.dirichlet.edges, g.neumann.edges]
  tris := h.tris ++ [g.triangles]
  grids := h.grids

omit [Field K] [LinearOrder K] [PySqrt K] in
theorem allocHeap_untouched (h : Heap K) (g : Grid K) : h.Untouched (allocHeap h g) := by
  intro x hx
  cases x
  case grids i => rfl
  all_goals exact (List.getElem?_append_left hx).symm

omit [Field K] [LinearOrder K] [PySqrt K] in
theorem allocHeap_grid (h : Heap K) (g : Grid K) (m : Option K) :
    (allocHeap h g).grid { freshObj h with mean := m } = { g with meanEdgeLength := m } := by
  have hp : (allocHeap h g).points h.vecs.length = g.points := by
    unfold points allocHeap
    simp only [List.getD_eq_getElem?_getD, List.getElem?_concat_length, Option.getD_some, List.map_map]
    apply List.ext_getElem?
    intro i
    rw [List.getElem?_map]
    rcases Nat.lt_or_ge i g.points.length with hi | hi
    · rw [List.getElem?_range hi, List.getElem?_eq_getElem hi]
      simp [List.getElem?_append_right, hi]
    · rw [List.getElem?_eq_none (by simpa using hi), List.getElem?_eq_none hi]
      rfl
  simp [grid, boundary, freshObj, hp]
  simp [allocHeap, List.getD_eq_getElem?_getD, List.getElem?_append_right]

omit [LinearOrder K] in
theorem newGrid_alloc (h : Heap K) (g : Grid K) {g' : Grid K}
    (hg : Grid.new g.vertices g.edges g.triangles g.boundary g.dirichlet g.neumann g.points = .ok g') :
    ∃ h', newGrid (freshObj h) (allocHeap h g) = (.ok h.grids.length, h') ∧
      Own h h.grids.length (freshObj h) h' { g with meanEdgeLength := g'.meanEdgeLength } := by
  refine ⟨{ allocHeap h g with grids := h.grids ++ [{ freshObj h with mean := g'.meanEdgeLength }] }, ?_, ?_⟩
  · have e := allocHeap_grid h g none
    show PyS.bind (PyS.get fun h' => h'.grid (freshObj h)) (fun v => PyS.bind (PyS.lift (Grid.new v.vertices v.edges v.triangles
      v.boundary v.dirichlet v.neumann v.points)) fun g => newObj { freshObj h with mean := g.meanEdgeLength })
      (allocHeap h g) = _
    have e' : (allocHeap h g).grid (freshObj h) = { g with meanEdgeLength := none } := e
    simp only [PyS.bind, PyS.get, e', PyS.lift, hg]
    rfl
  · have hl : (allocHeap h g).vecs.getD h.vecs.length [] = (List.range g.points.length).map (h.nums.length + ·) := by
      simp [allocHeap, List.getD_eq_getElem?_getD]
    constructor
    · exact (allocHeap_untouched h g).trans (untouched_newObj (allocHeap h g) _)
    · exact le_refl _
    · simp
    · intro b hb
      simp only [intLists, freshObj, List.mem_cons, List.not_mem_nil, or_false] at hb
      simp only [allocHeap, List.length_append, List.length_cons, List.length_nil]
      rcases hb with rfl | rfl | rfl | rfl <;> constructor <;> simp
    · intro b hb
      simp only [pairLists, freshObj, List.mem_cons, List.not_mem_nil, or_false] at hb
      simp only [allocHeap, List.length_append, List.length_cons, List.length_nil]
      rcases hb with rfl | rfl | rfl | rfl <;> constructor <;> simp
    · simp [allocHeap, freshObj]
    · simp [allocHeap, freshObj]
    · intro p hp
      have hp' : p ∈ (allocHeap h g).vecs.getD h.vecs.length [] := hp
      rw [hl] at hp'
      obtain ⟨i, hi, rfl⟩ := List.mem_map.1 hp'
      have := List.mem_range.1 hi
      simp [allocHeap, this]
    · simp [intLists, freshObj]
    · simp [pairLists, freshObj]
    · exact allocHeap_grid h g g'.meanEdgeLength

omit [LinearOrder K] in
theorem grid_new_self {v : List Vertex} {e : List Edge} {t : List Tri} {b d n : Boundary} {p : List (Vec K)} {g : Grid K}
    (hg : Grid.new v e t b d n p = .ok g) :
    Grid.new g.vertices g.edges g.triangles g.boundary g.dirichlet g.neumann g.points = .ok g ∧
      g = ⟨v, e, t, b, d, n, p, g.meanEdgeLength⟩ := by
  have hg' := hg
  unfold Grid.new at hg
  split at hg
  · cases hg
    exact ⟨rfl, rfl⟩
  · rename_i e1 es
    rcases hl : pyMap (e1 :: es) (gridEdgeLength p) with err | l
    · rw [hl] at hg; cases hg
    · rw [hl] at hg
      cases hg
      exact ⟨hg', rfl⟩

theorem rectGrid_ok [FloorRing K] {it : SetIter} {d : RectDomain K} {scale : K} {g : Grid K}
    (hg : d.grid it scale = .ok g) (h : Heap K) :
    ∃ h', rectGrid it d scale h = (.ok h.grids.length, h') ∧ Own h h.grids.length (freshObj h) h' g := by
  have hn : Grid.new g.vertices g.edges g.triangles g.boundary g.dirichlet g.neumann g.points = .ok g := by
    unfold RectDomain.grid at hg
    rcases h1 : numVertices d.width scale with e | nh
    · rw [h1] at hg; cases hg
    rw [h1] at hg
    rcases h2 : numVertices d.height scale with e | nv
    · rw [h2] at hg; cases hg
    rw [h2] at hg
    rcases h3 : RectGrid.tagState it nh nv d.fix with e | s
    · simp only [bind, Except.bind, h3] at hg; cases hg
    simp only [bind, Except.bind, h3] at hg
    exact (grid_new_self hg).1
  obtain ⟨h', e, w⟩ := newGrid_alloc h g hn
  refine ⟨h', ?_, w⟩
  rw [← e]
  simp only [rectGrid, bind, PyS.bind, PyS.lift, hg, newInts, newPairs, newTris, newPoints, newVectors_eq, newVecs,
    List.length_append, List.length_cons, List.length_nil, List.append_assoc, List.cons_append, List.nil_append]
  rfl

omit [LinearOrder K] in
/-- a second grid object with the same lists -/
theorem newGrid_own (w : Own h0 a o h g) {g' : Grid K}
    (hg : Grid.new g.vertices g.edges g.triangles g.boundary g.dirichlet g.neumann g.points = .ok g') (m : Option K) :
    ∃ h', newGrid { o with mean := m } h = (.ok h.grids.length, h') ∧ Own h0 h.grids.length o h' g' := by
  have hl : h0.grids.length ≤ h.grids.length := by
    by_contra hlt
    push Not at hlt
    have : h.Has (.grids h.grids.length) := (w.keep (.grids h.grids.length) hlt).has hlt
    exact absurd this (lt_irrefl _)
  have hv : h.grid { o with mean := m } = { g with meanEdgeLength := m } := by
    have v := w.val
    conv_rhs => rw [← v]
    rfl
  have e' := (grid_new_self hg).2
  refine ⟨{ h with grids := h.grids ++ [{ o with mean := g'.meanEdgeLength }] }, ?_, ?_⟩
  · show PyS.bind (PyS.get fun h' => h'.grid { o with mean := m }) (fun v => PyS.bind (PyS.lift (Grid.new v.vertices v.edges
      v.triangles v.boundary v.dirichlet v.neumann v.points)) fun g => newObj { o with mean := g.meanEdgeLength }) h = _
    simp only [PyS.bind, PyS.get, hv, PyS.lift, hg]
    rfl
  · refine { w with
      keep := w.keep.trans (untouched_newObj h _)
      fresh := hl
      obj := by simp
      val := ?_ }
    conv_rhs => rw [e']
    have v := w.val
    conv_rhs => rw [← v]
    rfl

omit [LinearOrder K] in
theorem newIntermediate_ok (g : Grid K) (h : Heap K) :
    ∃ h', newIntermediate g h = (.ok h.grids.length, h') ∧ Own h h.grids.length (freshObj h) h'
      ⟨g.vertices, [], [], ⟨g.boundary.vertices, []⟩, ⟨g.dirichlet.vertices, []⟩, ⟨g.neumann.vertices, []⟩, g.points, none⟩ := by
  obtain ⟨h', e, w⟩ := newGrid_alloc h
    ⟨g.vertices, [], [], ⟨g.boundary.vertices, []⟩, ⟨g.dirichlet.vertices, []⟩, ⟨g.neumann.vertices, []⟩, g.points, none⟩ rfl
  refine ⟨h', ?_, w⟩
  rw [← e]
  simp only [newIntermediate, bind, PyS.bind, newInts, newPairs, newTris, newPoints, newVectors_eq, newVecs,
    List.length_append, List.length_cons, List.length_nil, List.append_assoc, List.cons_append, List.nil_append]
  rfl

/-- `refine` follows the value model, creates new objects only and returns a grid made of new objects -/
theorem refine_follows (d : RectDomain K) (G : h0.IsGrid c) {cg : Grid K} (hc : h0.value c = some cg) (n : ℤ) :
    Follows h0 (fun (r : RefinedGrid K) (ro : RefinedObj K) h => r.coarseGrid = cg ∧ ro.coarse = c ∧
      ro.maps = ⟨r.coarseTriangle, r.coarseBary, r.coarseEdge, r.coarseEdgeCoords⟩ ∧
      ∃ o, Own h0 ro.grid o h r.toGrid) (d.refine cg n) (refine c n h0) := by
  obtain ⟨co, hco, hv⟩ := G.obj
  obtain rfl : h0.grid co = cg := Option.some.inj (hv.symm.trans hc)
  unfold RectDomain.refine refine
  split
  · exact ⟨rfl, .refl _⟩
  · have hn : Grid.new (h0.grid co).vertices [] [] ⟨(h0.grid co).boundary.vertices, []⟩ ⟨(h0.grid co).dirichlet.vertices, []⟩
        ⟨(h0.grid co).neumann.vertices, []⟩ (h0.grid co).points = .ok ⟨(h0.grid co).vertices, [], [],
        ⟨(h0.grid co).boundary.vertices, []⟩, ⟨(h0.grid co).dirichlet.vertices, []⟩,
        ⟨(h0.grid co).neumann.vertices, []⟩, (h0.grid co).points, none⟩ := rfl
    obtain ⟨h1, e1, w1⟩ := newIntermediate_ok (h0.grid co) h0
    rw [hn]
    refine .step (obj_eq hco) (.step (t := h0.grid co) (h' := h0) rfl (.step e1 ?_))
    refine (Follows.loop (refineTriangle_follows G hco n.toNat) (h0.grid co).triangles
      (t := ⟨PyDict.empty, PyDict.empty, PyDict.empty, PyDict.empty⟩) ⟨w1, rfl⟩).bind fun s t h2 r => ?_
    obtain ⟨w2, rfl⟩ := r
    refine .step (obj_eq w2.obj) ?_
    rcases hg : Grid.new s.grid.vertices s.grid.edges s.grid.triangles s.grid.boundary s.grid.dirichlet s.grid.neumann
      s.grid.points with e | g
    · have e3 : newGrid { freshObj h0 with mean := s.grid.meanEdgeLength } h2 = (.error e, h2) := by
        show PyS.bind (PyS.get fun h' => h'.grid { freshObj h0 with mean := s.grid.meanEdgeLength }) (fun v => PyS.bind
          (PyS.lift (Grid.new v.vertices v.edges v.triangles v.boundary v.dirichlet v.neumann v.points)) fun g =>
            newObj { freshObj h0 with mean := g.meanEdgeLength }) h2 = _
        simp only [PyS.bind, PyS.get, w2.val, PyS.lift, hg]
      have e4 : (do
          let r ← newGrid { freshObj h0 with mean := s.grid.meanEdgeLength }
          pure (⟨r, c, ⟨s.coarseTriangle, s.coarseBary, s.coarseEdge, s.coarseEdgeCoords⟩⟩ : RefinedObj K) :
            PyS (Heap K) (RefinedObj K)) h2 = (.error e, h2) := by
        show PyS.bind _ _ h2 = _
        simp only [PyS.bind, e3]
      rw [e4]
      exact ⟨rfl, w2.keep⟩
    · obtain ⟨h3, e3, w3⟩ := newGrid_own w2 hg s.grid.meanEdgeLength
      refine .step e3 ⟨_, rfl, rfl, rfl, rfl, _, w3⟩

end Heap
end Tve
