import Verif.Lemmas.Constraints
import Verif.Props.InterpC1
import Verif.Props.GridQuery

/-!
# C64: the Dirichlet constraints of the regularized mechanical problem
-/

namespace Tve
open Sim Bell

/-- the equations at an edge of a library grid, in terms of the deformation on the edge -/
theorem edge_identity_iff {g : Grid ℝ} {nx ny : ℕ} {h : ℝ} (G : LibraryGrid g nx ny h) {A B : List (List ℝ)} {I1 I2 : Interp}
    (h1 : C1Interpolation g A = .ok I1) (h2 : C1Interpolation g B = .ok I2) {e : Edge} (he : e ∈ g.dirichlet.edges) :
    (EdgeEqs 0 (g.xy e.1) (g.xy e.2) (nodeParam A e.1) (nodeParam A e.2) ∧
      EdgeEqs 1 (g.xy e.1) (g.xy e.2) (nodeParam B e.1) (nodeParam B e.2)) ↔
    ∀ t, 0 ≤ t → t ≤ 1 → (⟨I1, I2⟩ : Deformation).onEdge e t = .ok (vec2 (edgePoint (g.xy e.1) (g.xy e.2) t)) := by
  have U := G.usable
  have hE := U.wf.dirichlet.2 e he
  have hm := U.wf.edges e hE
  obtain ⟨a6, aL, rfl⟩ := C1_of h1
  obtain ⟨b6, bL, rfl⟩ := C1_of h2
  obtain ⟨t, ht, i, j, hij, e1, e2⟩ := edge_in_triangle G hE
  have hne : g.xy e.1 ≠ g.xy e.2 := by
    rw [← e1, ← e2]
    intro hh
    have h' : g.corners t i = g.corners t j := hh
    apply G.nondegenerate ht
    fin_cases i <;> fin_cases j <;> simp_all [cross] <;> ring
  have oA : ∀ t, C1.onEdge g A e t = .ok (eVal (g.xy e.1) (g.xy e.2) (nodeParam A e.1) (nodeParam A e.2) t) := fun t => by
    rw [C1_onEdge_eq U.wf a6 aL hm.1 hm.2, onEdge_eq hne]
  have oB : ∀ t, C1.onEdge g B e t = .ok (eVal (g.xy e.1) (g.xy e.2) (nodeParam B e.1) (nodeParam B e.2) t) := fun t => by
    rw [C1_onEdge_eq U.wf b6 bL hm.1 hm.2, onEdge_eq hne]
  rw [edgeEqs_iff, edgeEqs_iff]
  simp only [Deformation.onEdge, oA, oB, bind_ok, pure_eq_ok]
  constructor
  · rintro ⟨a, b⟩ t h0 h1
    rw [a t h0 h1, b t h0 h1]; rfl
  · intro h
    refine ⟨fun t h0 h1 => ?_, fun t h0 h1 => ?_⟩
    all_goals
      have := h t h0 h1
      simp only [vec2, Except.ok.injEq, Vec.mk.injEq, List.cons.injEq, and_true] at this
    · rw [this.1]; rfl
    · rw [this.2]; rfl

/-- **C64**. The constraints of the regularized mechanical problem (six for each component and each Dirichlet edge) hold if and
only if the deformation returned by `y()`, interpolated with `C1Interpolation`, is the identity on the whole of every
Dirichlet edge. -/
theorem C64_constraints {a : RegMech} (h : (MechStep.reg a).Reachable) {nx ny : ℕ} {s : ℝ}
    (G : LibraryGrid a.model.grid nx ny s) :
    (MechStep.reg a).problem.ConstraintsHold ↔
    ∃ A B I1 I2, a.y.block 0 = .ok A ∧ a.y.block 1 = .ok B ∧ C1Interpolation a.model.grid A = .ok I1 ∧
      C1Interpolation a.model.grid B = .ok I2 ∧ ∀ e ∈ a.model.grid.dirichlet.edges, ∀ p q, a.model.grid.At e.1 p →
        a.model.grid.At e.2 q → ∀ t, 0 ≤ t → t ≤ 1 →
        (⟨I1, I2⟩ : Deformation).onEdge e t = .ok (vec2 (edgePoint p q t)) := by
  have U := G.usable
  obtain ⟨ys, ts, n, k, w, rfl, rfl⟩ := h.wf
  have hn : (nx + 1) * (ny + 1) = n := by rw [← w.vertices, U.length]
  obtain ⟨hA, hA6⟩ := varValues2_shape w.y1
  obtain ⟨hB, hB6⟩ := varValues2_shape w.y2
  have hc := NdArray.block_pairs hA hB hA6 hB6 w.pos
  obtain ⟨I1, hI1⟩ := C1_ok (g := a.model.grid) (u := varValues2 a.model.y1) hA6 (by rw [hA, w.vertices])
  obtain ⟨I2, hI2⟩ := C1_ok (g := a.model.grid) (u := varValues2 a.model.y2) hB6 (by rw [hB, w.vertices])
  have key := constraintsHold_iff (m := a.model) (k := k) U rfl (hn ▸ w.toWF)
  have hAt : ∀ e ∈ a.model.grid.dirichlet.edges, a.model.grid.At e.1 (a.model.grid.xy e.1) ∧
      a.model.grid.At e.2 (a.model.grid.xy e.2) := by
    intro e he
    have hm := U.wf.edges e (U.wf.dirichlet.2 e he)
    exact ⟨WF.at_xy U.wf hm.1, WF.at_xy U.wf hm.2⟩
  refine key.trans ⟨fun hd => ?_, ?_⟩
  · refine ⟨_, _, I1, I2, hc.1, hc.2, hI1, hI2, fun e he p q hp hq => ?_⟩
    rw [← xy_of_at hp, ← xy_of_at hq]
    exact (edge_identity_iff G hI1 hI2 he).1 (hd _ _ hc.1 hc.2 e he)
  · rintro ⟨A, B, J1, J2, hA', hB', hJ1, hJ2, hh⟩ A' B' eA eB e he
    have eA' := eA.symm.trans hA'
    have eB' := eB.symm.trans hB'
    cases eA'; cases eB'
    exact (edge_identity_iff G hJ1 hJ2 he).2 (hh e he _ _ (hAt e he).1 (hAt e he).2)

/-- **C64** (start). A newly created regularized mechanical step satisfies the constraints: they are compatible with each other
and with the starting guess. -/
theorem C64_initial {g : Grid ℝ} {nx ny : ℕ} {h : ℝ} (G : LibraryGrid g nx ny h) {mp : MechParams}
    {refined : Option (RefinedGrid ℝ)} (F : RefinedOk refined) {traction : Traction} {m : MechStep}
    (hm : mechanicalStep g mp refined traction = .ok m) : m.problem.ConstraintsHold := by
  have U := G.usable
  rcases (mechanicalStep_cases U F.usable hm).2 with ⟨h1, G1, G2, h2, rfl⟩ | ⟨reg, f, k, h1, h2, hk, rfl⟩
  · trivial
  · have W := (MechStep.Reachable.new G F hm).wf
    obtain ⟨ys, ts, n, k', w, -, -⟩ := W
    have hn : (nx + 1) * (ny + 1) = n := by
      rw [← w.vertices]; exact U.length.symm
    refine (constraintsHold_iff (k := k') U rfl (hn ▸ w.toWF)).2 ?_
    have hy := (mechanicalStep_facts U F.usable hm).2.1.y
    have hp := ((mechanicalStep_initial U F.usable hm).2.2.2 (by rw [h1]; simp)).1
    refine Eq.mpr (congrArg (DirichletId g) (Eq.trans ?_ (hy.trans hp))) (dirichletId_initial U)
    rfl

section
variable {solver : Solver} {domain : RectDomain ℝ} {params : SimParams} {ext : ExtTemp} {traction : Traction} {s : Sim}

/-- **C64** (simulations). If the solver satisfies the constraints whenever it returns normally, the deformation of every
recorded step of a regularized simulation, whatever failed on the way, is the identity on the whole of every Dirichlet edge,
evaluated on the edge or in any triangle containing it. -/
theorem C64_simulation (hs : s.Reachable solver domain params ext traction) (hc : solver.RespectsConstraints)
    (hr : params.regularization ≠ none) {st : Step} (hst : st ∈ s.steps) {e : Edge} (he : e ∈ s.grid.dirichlet.edges)
    {p q : ℝ × ℝ} (hp : s.grid.At e.1 p) (hq : s.grid.At e.2 q) {t : ℝ} (h0 : 0 ≤ t) (h1 : t ≤ 1) :
    (⟨st.y.y1.base, st.y.y2.base⟩ : Deformation).onEdge e t = .ok (vec2 (edgePoint p q t)) ∧
    ∀ T ∈ s.grid.triangles, ∀ i j : Fin 3, i ≠ j → T.get i = e.1 → T.get j = e.2 →
      (⟨st.y.y1.base, st.y.y2.base⟩ : Deformation).call T (edgeCoords i j t) = .ok (vec2 (edgePoint p q t)) := by
  obtain ⟨m0, t0, c, -, h⟩ := hs.dirichletId hc hr
  obtain ⟨it, hg⟩ := c.grid
  obtain ⟨Sh, -, F⟩ := c.setup.simShape hg c.refined c.mech0
  have G := (c.setup.grids hg c.refined).1
  have U := G.usable
  have hd := h st hst
  rcases makeStep_parts Sh (c.has st hst).1 (c.has st hst).2 (c.made st hst) with ⟨hreg, -⟩ |
    ⟨-, n, A, B, r, pl, I1, I2, I3, U', hA, hB, hA6, hB6, hy, hs', -, i1, i2, i3, -, hst'⟩
  · exact absurd hreg hr
  have hb := NdArray.block_pairs hA hB hA6 hB6 U'.pos
  rw [hy] at hd
  have h3 := (edge_identity_iff G i1 i2 he).1 (hd _ _ hb.1 hb.2 e he) t h0 h1
  rw [xy_of_at hp, xy_of_at hq] at h3
  have e1 : st.y = ⟨⟨I1⟩, ⟨I2⟩⟩ := by rw [hst']
  rw [e1]
  refine ⟨h3, fun T hT i j hij ei ej => ?_⟩
  obtain ⟨-, x, x1, x2, -⟩ := C41_grid U.wf i1 hT (G.nondegenerate hT) hij t
  obtain ⟨-, z, z1, z2, -⟩ := C41_grid U.wf i2 hT (G.nondegenerate hT) hij t
  rw [← h3, ← Prod.mk.eta (p := e), ← ei, ← ej]
  simp only [Deformation.onEdge, Deformation.call, x1, x2, z1, z2]

end

end Tve
