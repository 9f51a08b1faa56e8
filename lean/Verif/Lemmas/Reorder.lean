import Verif.Spec.Reorder
import Verif.Lemmas.RefineFull
import Verif.Lemmas.SimSuccess

/-! Objects that differ only in the order of their boundary lists. -/

namespace Tve

/-! ### computations with related results -/

/-- both computations raise the same exception or return related values -/
inductive PyRel {α β : Type} (R : α → β → Prop) : PyM α → PyM β → Prop
  | ok {a b} (h : R a b) : PyRel R (.ok a) (.ok b)
  | err (e) : PyRel R (.error e) (.error e)

namespace PyRel
variable {α β γ δ : Type} {R : α → β → Prop} {S : γ → δ → Prop}

theorem bind {x : PyM α} {y : PyM β} {f : α → PyM γ} {g : β → PyM δ} (h : PyRel R x y)
    (hf : ∀ a b, R a b → PyRel S (f a) (g b)) : PyRel S (x >>= f) (y >>= g) := by
  cases h with
  | ok h => exact hf _ _ h
  | err e => exact .err e

theorem bind_eq {x : PyM α} {f : α → PyM γ} {g : α → PyM δ} (hf : ∀ a, PyRel S (f a) (g a)) :
    PyRel S (x >>= f) (x >>= g) := by
  cases x with
  | ok a => exact hf a
  | error e => exact .err e

theorem pyFor {ι : Type} {f : α → ι → PyM α} {g : β → ι → PyM β} (l : List ι)
    (h : ∀ a b i, R a b → PyRel R (f a i) (g b i)) {a : α} {b : β} (hab : R a b) :
    PyRel R (pyFor l a f) (Tve.pyFor l b g) := by
  induction l generalizing a b with
  | nil => exact .ok hab
  | cons i t ih => exact (h a b i hab).bind fun a' b' h' => ih h'

theorem ok_left {x : PyM α} {y : PyM β} (h : PyRel R x y) {a : α} (hx : x = .ok a) : ∃ b, y = .ok b ∧ R a b := by
  subst hx
  cases h with
  | ok h => exact ⟨_, rfl, h⟩

end PyRel

/-! ### grids -/

namespace Boundary.Reordered

theorem refl (b : Boundary) : b.Reordered b := ⟨.refl _, .refl _⟩

theorem symm {b b' : Boundary} (h : b.Reordered b') : b'.Reordered b := ⟨h.1.symm, h.2.symm⟩

end Boundary.Reordered

namespace Grid.Reordered

theorem refl (g : Grid ℝ) : g.Reordered g := ⟨rfl, rfl, rfl, rfl, rfl, .refl _, .refl _, .refl _⟩

theorem symm {g g' : Grid ℝ} (h : g.Reordered g') : g'.Reordered g :=
  ⟨h.vertices.symm, h.points.symm, h.edges.symm, h.triangles.symm, h.mean.symm, h.boundary.symm, h.dirichlet.symm,
    h.neumann.symm⟩

theorem eq {g g' : Grid ℝ} (h : g.Reordered g') :
    g' = { g with boundary := g'.boundary, dirichlet := g'.dirichlet, neumann := g'.neumann } := by
  obtain ⟨h1, h2, h3, h4, h5, -, -, -⟩ := h
  cases g; cases g'
  simp only at h1 h2 h3 h4 h5
  subst h1 h2 h3 h4 h5
  rfl

end Grid.Reordered

theorem RefinedGrid.Reordered.symm {r r' : RefinedGrid ℝ} (h : r.Reordered r') : r'.Reordered r :=
  ⟨h.fine.symm, h.coarse.symm, h.coarseTriangle.symm, h.coarseBary.symm, h.coarseEdge.symm, h.coarseEdgeCoords.symm⟩

/-- the grid with other boundary lists -/
def Grid.retag (g : Grid ℝ) (b d n : Boundary) : Grid ℝ := { g with boundary := b, dirichlet := d, neumann := n }

section
variable (g : Grid ℝ) (b d n : Boundary)

theorem findPoint_retag (p : Vec ℝ) (l : List (Vec ℝ)) (i : ℕ) : (g.retag b d n).findPoint p l i = g.findPoint p l i := by
  induction l generalizing i with
  | nil => rfl
  | cons q t ih =>
    unfold Grid.findPoint
    rw [ih]
    rfl

theorem pointToVertex_retag (p : Vec ℝ) : (g.retag b d n).pointToVertex p = g.pointToVertex p :=
  findPoint_retag g b d n p _ _

theorem appendEdge_rel (e : Edge) :
    PyRel (fun t t' => t' = t.retag b d n ∧ t.boundary = g.boundary ∧ t.dirichlet = g.dirichlet ∧ t.neumann = g.neumann)
      (g.appendEdge e) ((g.retag b d n).appendEdge e) := by
  unfold Grid.appendEdge
  change PyRel _ _ (if e ∉ g.edges ∧ (e.2, e.1) ∉ g.edges then _ else _)
  split_ifs
  · exact .bind_eq fun l => .ok ⟨rfl, rfl, rfl, rfl⟩
  · exact .ok ⟨rfl, rfl, rfl, rfl⟩

end

theorem Grid.Reordered.retag_eq {g g' : Grid ℝ} (h : g.Reordered g') :
    g' = g.retag g'.boundary g'.dirichlet g'.neumann := h.eq

theorem Grid.reordered_retag {g : Grid ℝ} {b d n : Boundary} (hb : g.boundary.Reordered b) (hd : g.dirichlet.Reordered d)
    (hn : g.neumann.Reordered n) : g.Reordered (g.retag b d n) := ⟨rfl, rfl, rfl, rfl, rfl, hb, hd, hn⟩

/-! ### refinement -/

/-- relation between the states of the vertex loop: other boundary lists, and the boundary lists on the left are `B D N` -/
def VertState.Rel (B D N b d n : Boundary) (s s' : VertState ℝ) : Prop :=
  s' = { s with grid := s.grid.retag b d n } ∧ s.grid.boundary = B ∧ s.grid.dirichlet = D ∧ s.grid.neumann = N

theorem refineVertex_rel {k : ℕ} {p1 p2 p3 : Vec ℝ} {B D N b d n : Boundary} {s s' : VertState ℝ} {kl : ℕ × ℕ}
    (h : VertState.Rel B D N b d n s s') :
    PyRel (VertState.Rel B D N b d n) (refineVertex k p1 p2 p3 s kl) (refineVertex k p1 p2 p3 s' kl) := by
  obtain ⟨rfl, rfl, rfl, rfl⟩ := h
  unfold refineVertex
  split_ifs
  · exact .ok ⟨rfl, rfl, rfl, rfl⟩
  · exact .ok ⟨rfl, rfl, rfl, rfl⟩
  · exact .ok ⟨rfl, rfl, rfl, rfl⟩
  refine .bind_eq fun a => .bind_eq fun q => ?_
  simp only [pointToVertex_retag]
  refine .bind_eq fun o => ?_
  cases o
  · exact .ok ⟨rfl, rfl, rfl, rfl⟩
  · exact .ok ⟨rfl, rfl, rfl, rfl⟩

/-- the same for the states of the other loops -/
def RefState.Rel (B D N b d n : Boundary) (s s' : RefState ℝ) : Prop :=
  s' = { s with grid := s.grid.retag b d n } ∧ s.grid.boundary = B ∧ s.grid.dirichlet = D ∧ s.grid.neumann = N

def GridRel (B D N b d n : Boundary) (g g' : Grid ℝ) : Prop :=
  g' = g.retag b d n ∧ g.boundary = B ∧ g.dirichlet = D ∧ g.neumann = N

theorem refineLower_rel {k : ℕ} {t : Tri} {tv : PyDict (ℕ × ℕ) Vertex} {B D N b d n : Boundary} {s s' : RefState ℝ}
    {kl : ℕ × ℕ} (h : RefState.Rel B D N b d n s s') :
    PyRel (RefState.Rel B D N b d n) (refineLower k t tv s kl) (refineLower k t tv s' kl) := by
  obtain ⟨rfl, rfl, rfl, rfl⟩ := h
  unfold refineLower
  exact .bind_eq fun _ => .bind_eq fun _ => .bind_eq fun _ => .bind_eq fun _ => .bind_eq fun _ =>
    .ok ⟨rfl, rfl, rfl, rfl⟩

theorem refineUpper_rel {k : ℕ} {t : Tri} {tv : PyDict (ℕ × ℕ) Vertex} {B D N b d n : Boundary} {s s' : RefState ℝ}
    {kl : ℕ × ℕ} (h : RefState.Rel B D N b d n s s') :
    PyRel (RefState.Rel B D N b d n) (refineUpper k t tv s kl) (refineUpper k t tv s' kl) := by
  obtain ⟨rfl, rfl, rfl, rfl⟩ := h
  unfold refineUpper
  exact .bind_eq fun _ => .bind_eq fun _ => .bind_eq fun _ => .ok ⟨rfl, rfl, rfl, rfl⟩

theorem appendEdge_gridRel {B D N b d n : Boundary} {g g' : Grid ℝ} (e : Edge) (h : GridRel B D N b d n g g') :
    PyRel (GridRel B D N b d n) (g.appendEdge e) (g'.appendEdge e) := by
  obtain ⟨rfl, rfl, rfl, rfl⟩ := h
  exact appendEdge_rel g b d n e

theorem refineEdges_rel {hc vc dc : Bool} {tv : PyDict (ℕ × ℕ) Vertex} {B D N b d n : Boundary} {g g' : Grid ℝ}
    {kl : ℕ × ℕ} (h : GridRel B D N b d n g g') :
    PyRel (GridRel B D N b d n) (refineEdges hc vc dc tv g kl) (refineEdges hc vc dc tv g' kl) := by
  unfold refineEdges
  exact .bind_eq fun _ => .bind_eq fun _ => (appendEdge_gridRel _ h).bind fun _ _ h => .bind_eq fun _ =>
    (appendEdge_gridRel _ h).bind fun _ _ h => appendEdge_gridRel _ h

theorem refineCoarseEdges_rel {k : ℕ} {hc vc dc : Bool} {ch cv cd : Edge} {tv : PyDict (ℕ × ℕ) Vertex}
    {B D N b d n : Boundary} {s s' : RefState ℝ} {i : ℕ} (h : RefState.Rel B D N b d n s s') :
    PyRel (RefState.Rel B D N b d n) (refineCoarseEdges k hc vc dc ch cv cd tv s i)
      (refineCoarseEdges k hc vc dc ch cv cd tv s' i) := by
  obtain ⟨rfl, rfl, rfl, rfl⟩ := h
  unfold refineCoarseEdges
  exact .bind_eq fun _ => .bind_eq fun _ => .bind_eq fun _ => .bind_eq fun _ => .bind_eq fun _ => .bind_eq fun _ =>
    .ok ⟨rfl, rfl, rfl, rfl⟩

theorem refineBoundaryEdge_rel {e : Edge} {vs : List Vertex} {c c' b b' : Boundary} (hc : c.Reordered c')
    (hb : b.Reordered b') : (refineBoundaryEdge e vs c b).Reordered (refineBoundaryEdge e vs c' b') := by
  unfold refineBoundaryEdge
  by_cases he : e ∈ c.edges
  · rw [if_neg (not_not.2 he), if_neg (not_not.2 (hc.2.mem_iff.1 he))]
    exact ⟨hb.1.append_right _, hb.2.append_right _⟩
  · rw [if_pos he, if_pos (fun h => he (hc.2.mem_iff.2 h))]
    exact hb

theorem refineBoundaries_rel {c c' g g' : Grid ℝ} {x : Edge × List Vertex} (hc : c.Reordered c') (h : g.Reordered g') :
    (refineBoundaries c g x).Reordered (refineBoundaries c' g' x) :=
  ⟨h.vertices, h.points, h.edges, h.triangles, h.mean, refineBoundaryEdge_rel hc.boundary h.boundary,
    refineBoundaryEdge_rel hc.dirichlet h.dirichlet, refineBoundaryEdge_rel hc.neumann h.neumann⟩

/-- the same state up to the order of the boundary lists -/
structure RefState.Reordered (s s' : RefState ℝ) : Prop where
  grid : s.grid.Reordered s'.grid
  coarseTriangle : s.coarseTriangle = s'.coarseTriangle
  coarseBary : s.coarseBary = s'.coarseBary
  coarseEdge : s.coarseEdge = s'.coarseEdge
  coarseEdgeCoords : s.coarseEdgeCoords = s'.coarseEdgeCoords

theorem RefState.Reordered.rel {s s' : RefState ℝ} (h : s.Reordered s') :
    RefState.Rel s.grid.boundary s.grid.dirichlet s.grid.neumann s'.grid.boundary s'.grid.dirichlet s'.grid.neumann s s' := by
  refine ⟨?_, rfl, rfl, rfl⟩
  rw [← h.grid.retag_eq]
  obtain ⟨-, h1, h2, h3, h4⟩ := h
  cases s; cases s'
  simp only at h1 h2 h3 h4
  subst h1 h2 h3 h4
  rfl

theorem RefState.Rel.reordered {B D N b d n : Boundary} {s s' : RefState ℝ} (h : RefState.Rel B D N b d n s s')
    (hB : B.Reordered b) (hD : D.Reordered d) (hN : N.Reordered n) : s.Reordered s' := by
  obtain ⟨rfl, rfl, rfl, rfl⟩ := h
  exact ⟨Grid.reordered_retag hB hD hN, rfl, rfl, rfl, rfl⟩

theorem refineCoarseEdges_loop {k : ℕ} {hc vc dc : Bool} {ch cv cd : Edge} {tv : PyDict (ℕ × ℕ) Vertex}
    {B D N b d n : Boundary} {s s' : RefState ℝ} (h : RefState.Rel B D N b d n s s') {g g' : Grid ℝ} (hg : g.Reordered g')
    {l : List ℕ} :
    PyRel RefState.Reordered (pyFor l { s with grid := g } (refineCoarseEdges k hc vc dc ch cv cd tv))
      (pyFor l { s' with grid := g' } (refineCoarseEdges k hc vc dc ch cv cd tv)) := by
  have hst : RefState.Reordered { s with grid := g } { s' with grid := g' } := by
    obtain ⟨rfl, -⟩ := h
    exact ⟨hg, rfl, rfl, rfl, rfl⟩
  have h5 := PyRel.pyFor (f := refineCoarseEdges k hc vc dc ch cv cd tv) (g := refineCoarseEdges k hc vc dc ch cv cd tv) l
    (fun _ _ _ h => refineCoarseEdges_rel h) hst.rel
  have h6 := PyRel.bind h5 (f := fun x => Except.ok x) (g := fun x => Except.ok x) (S := RefState.Reordered)
    fun a b hab => .ok (hab.reordered hst.grid.boundary hst.grid.dirichlet hst.grid.neumann)
  have idb : ∀ x : PyM (RefState ℝ), (x >>= fun x => Except.ok x) = x := fun x => by cases x <;> rfl
  rw [idb, idb] at h6
  exact h6

theorem refineTriangle_rel {c c' : Grid ℝ} (hc : c.Reordered c') {k : ℕ} {s s' : RefState ℝ} {t : Tri}
    (h : s.Reordered s') : PyRel RefState.Reordered (refineTriangle c k s t) (refineTriangle c' k s' t) := by
  have hR := h.rel
  have hB := h.grid.boundary
  have hD := h.grid.dirichlet
  have hN := h.grid.neumann
  have hcE := hc.edges
  have hcT : c'.triangleVertices t = c.triangleVertices t := by rw [hc.retag_eq]; rfl
  unfold refineTriangle
  rw [hcT, ← hcE, ← h.grid.vertices]
  generalize s.grid.boundary = B at *
  generalize s.grid.dirichlet = D at *
  generalize s.grid.neumann = N at *
  generalize s'.grid.boundary = b at *
  generalize s'.grid.dirichlet = d at *
  generalize s'.grid.neumann = n at *
  obtain ⟨i1, i2, i3⟩ := t
  refine .bind_eq fun ⟨p1, p2, p3⟩ => .bind_eq fun y1 => .bind_eq fun y2 => ?_
  simp only
  split_ifs
  · exact .err _
  refine .bind_eq fun x2 => .bind_eq fun x3 => ?_
  split_ifs
  · exact .err _
  refine .bind_eq fun last => ?_
  refine PyRel.bind (R := VertState.Rel B D N b d n) (PyRel.pyFor _ ?_ ?_) ?_
  · intro a a' i ha; exact refineVertex_rel ha
  · obtain ⟨rfl, rfl, rfl, rfl⟩ := hR
    exact ⟨rfl, rfl, rfl, rfl⟩
  intro v v' hv
  have htv : v'.tv = v.tv := by obtain ⟨rfl, -⟩ := hv; rfl
  rw [htv]
  refine PyRel.bind (R := RefState.Rel B D N b d n) (PyRel.pyFor _ ?_ ?_) ?_
  · intro a a' i ha; exact refineLower_rel ha
  · obtain ⟨rfl, -⟩ := hR
    obtain ⟨rfl, rfl, rfl, rfl⟩ := hv
    exact ⟨rfl, rfl, rfl, rfl⟩
  intro s1 s1' h1
  refine PyRel.bind (R := RefState.Rel B D N b d n) (PyRel.pyFor _ ?_ h1) ?_
  · intro a a' i ha; exact refineUpper_rel ha
  intro s2 s2' h2
  refine PyRel.bind (R := GridRel B D N b d n) (PyRel.pyFor _ ?_ ?_) ?_
  · intro a a' i ha; exact refineEdges_rel ha
  · obtain ⟨rfl, rfl, rfl, rfl⟩ := h2
    exact ⟨rfl, rfl, rfl, rfl⟩
  intro g g' hg
  refine .bind_eq fun hvs => .bind_eq fun vvs => ?_
  have hgr : g.Reordered g' := by
    obtain ⟨rfl, rfl, rfl, rfl⟩ := hg
    exact Grid.reordered_retag hB hD hN
  exact refineCoarseEdges_loop h2 (refineBoundaries_rel hc (refineBoundaries_rel hc hgr))

theorem gridNew_rel {V : List Vertex} {E : List Edge} {T : List Tri} {B D N b d n : Boundary} {P : List (Vec ℝ)}
    (hB : B.Reordered b) (hD : D.Reordered d) (hN : N.Reordered n) :
    PyRel Grid.Reordered (Grid.new V E T B D N P) (Grid.new V E T b d n P) := by
  unfold Grid.new
  cases E with
  | nil => exact .ok ⟨rfl, rfl, rfl, rfl, rfl, hB, hD, hN⟩
  | cons e t => exact .bind_eq fun _ => .ok ⟨rfl, rfl, rfl, rfl, rfl, hB, hD, hN⟩

theorem refine_rel {D D' : RectDomain ℝ} {g g' : Grid ℝ} (h : g.Reordered g') (k : ℤ) :
    PyRel RefinedGrid.Reordered (D.refine g k) (D'.refine g' k) := by
  unfold RectDomain.refine
  split_ifs
  · exact .err _
  rw [← h.vertices, ← h.points, ← h.triangles]
  refine PyRel.bind (gridNew_rel ⟨h.boundary.1, .refl _⟩ ⟨h.dirichlet.1, .refl _⟩ ⟨h.neumann.1, .refl _⟩) ?_
  intro ig ig' hig
  refine PyRel.bind (R := RefState.Reordered) (PyRel.pyFor (f := refineTriangle g k.toNat)
    (g := refineTriangle g' k.toNat) _ (fun _ _ _ hs => refineTriangle_rel h hs)
    ⟨hig, rfl, rfl, rfl, rfl⟩) ?_
  intro s s' hs
  rw [← hs.grid.vertices, ← hs.grid.edges, ← hs.grid.triangles, ← hs.grid.points, ← hs.coarseTriangle, ← hs.coarseBary,
    ← hs.coarseEdge, ← hs.coarseEdgeCoords]
  exact (gridNew_rel hs.grid.boundary hs.grid.dirichlet hs.grid.neumann).bind fun G G' hG =>
    .ok ⟨hG, h, rfl, rfl, rfl, rfl⟩

end Tve
