import Verif.Lemmas.SimInitial

/-!
# Helper lemmas: the Dirichlet constraints of the regularized problem
-/

namespace Tve
open Sim Bell

/-- coordinate `c` of a point -/
def coord (c : ℕ) (z : ℝ × ℝ) : ℝ := if c = 0 then z.1 else z.2

/-- the six equations -/
def EdgeEqs (c : ℕ) (P Q : ℝ × ℝ) (p q : Fin 6 → ℝ) : Prop :=
  p 0 = coord c P ∧ p 1 * (Q.1 - P.1) + p 2 * (Q.2 - P.2) = coord c Q - coord c P ∧
  p 3 * (Q.1 - P.1) ^ 2 + 2 * p 4 * (Q.1 - P.1) * (Q.2 - P.2) + p 5 * (Q.2 - P.2) ^ 2 = 0 ∧
  q 0 = coord c Q ∧ q 1 * (Q.1 - P.1) + q 2 * (Q.2 - P.2) = coord c Q - coord c P ∧
  q 3 * (Q.1 - P.1) ^ 2 + 2 * q 4 * (Q.1 - P.1) * (Q.2 - P.2) + q 5 * (Q.2 - P.2) ^ 2 = 0

/-- the six equations hold if and only if the edge restriction is affine with the right end points -/
theorem edgeEqs_iff (c : ℕ) (P Q : ℝ × ℝ) (p q : Fin 6 → ℝ) :
    EdgeEqs c P Q p q ↔ ∀ t, 0 ≤ t → t ≤ 1 → eVal P Q p q t = coord c (edgePoint P Q t) := by
  have hc : ∀ t, coord c (edgePoint P Q t) = t * coord c P + (1 - t) * coord c Q := by
    intro t; unfold coord edgePoint; split <;> simp
  constructor
  · rintro ⟨h1, h2, h3, h4, h5, h6⟩ t - -
    rw [hc]
    simp only [eVal]
    rw [h1, h4]
    linear_combination (t ^ 4 * (1 - t) + 4 * t ^ 3 * (1 - t) ^ 2) * h2 + (t ^ 3 * (1 - t) ^ 2 / 2) * h3 -
      ((1 - t) ^ 4 * t + 4 * (1 - t) ^ 3 * t ^ 2) * h5 + ((1 - t) ^ 3 * t ^ 2 / 2) * h6
  · intro h
    have expand : ∀ t, eVal P Q p q t =
        (t ^ 5 + 5 * t ^ 4 * (1 - t) + 10 * t ^ 3 * (1 - t) ^ 2) * p 0 +
        (t ^ 4 * (1 - t) + 4 * t ^ 3 * (1 - t) ^ 2) * (p 1 * (Q.1 - P.1) + p 2 * (Q.2 - P.2)) +
        t ^ 3 * (1 - t) ^ 2 / 2 *
          (p 3 * (Q.1 - P.1) ^ 2 + 2 * p 4 * (Q.1 - P.1) * (Q.2 - P.2) + p 5 * (Q.2 - P.2) ^ 2) +
        ((1 - t) ^ 5 + 5 * (1 - t) ^ 4 * t + 10 * (1 - t) ^ 3 * t ^ 2) * q 0 -
        ((1 - t) ^ 4 * t + 4 * (1 - t) ^ 3 * t ^ 2) * (q 1 * (Q.1 - P.1) + q 2 * (Q.2 - P.2)) +
        (1 - t) ^ 3 * t ^ 2 / 2 *
          (q 3 * (Q.1 - P.1) ^ 2 + 2 * q 4 * (Q.1 - P.1) * (Q.2 - P.2) + q 5 * (Q.2 - P.2) ^ 2) := by
      intro t; simp only [eVal]; ring
    unfold EdgeEqs
    simp only [expand, hc] at h
    generalize p 1 * (Q.1 - P.1) + p 2 * (Q.2 - P.2) = A at h ⊢
    generalize q 1 * (Q.1 - P.1) + q 2 * (Q.2 - P.2) = A' at h ⊢
    generalize p 3 * (Q.1 - P.1) ^ 2 + 2 * p 4 * (Q.1 - P.1) * (Q.2 - P.2) + p 5 * (Q.2 - P.2) ^ 2 = B at h ⊢
    generalize q 3 * (Q.1 - P.1) ^ 2 + 2 * q 4 * (Q.1 - P.1) * (Q.2 - P.2) + q 5 * (Q.2 - P.2) ^ 2 = B' at h ⊢
    have e0 := h 0 (by norm_num) (by norm_num)
    have e1 := h 1 (by norm_num) (by norm_num)
    have a := h (1 / 2) (by norm_num) (by norm_num)
    have b := h (1 / 3) (by norm_num) (by norm_num)
    have b' := h (2 / 3) (by norm_num) (by norm_num)
    have d := h (1 / 4) (by norm_num) (by norm_num)
    norm_num at e0 e1
    rw [e0, e1] at a b b' d
    norm_num at a b b' d
    refine ⟨e1, ?_, ?_, e0, ?_, ?_⟩ <;> linarith

/-- the left and right sides of the constraints -/
theorem dirichletConstraint_eq {y : List (List ℝ)} {e : Edge} {P Q : ℝ × ℝ} {c : ℕ} (hc : c < 2)
    (h6 : ∀ r ∈ y, r.length = 6) (h1 : e.1 < y.length) (h2 : e.2 < y.length) :
    (∀ id, 1 ≤ id → id ≤ 6 → ∃ a, dirichletConstraint y e (vec2 P, vec2 Q) id c = .ok (a, a)) ↔
      EdgeEqs c P Q (nodeParam y e.1) (nodeParam y e.2) := by
  have hget : ∀ v, v < y.length → ∀ k, k < 6 → (do let row ← pyGet y v; pyGet row k : PyM ℝ) = .ok ((y.getD v []).getD k 0) := by
    intro v hv k hk
    rw [pyGet_getD hv [], bind_ok, pyGet_getD]
    rw [List.getD_eq_getElem?_getD, List.getElem?_eq_getElem hv]
    simp only [Option.getD_some]
    rw [h6 _ (List.getElem_mem hv)]; exact hk
  have hsub : (vec2 Q).sub (vec2 P) = .ok (vec2 (Q.1 - P.1, Q.2 - P.2)) := by
    rw [vec2_sub]
  have g0 : ∀ z : ℝ × ℝ, (vec2 z).getItem 0 = .ok z.1 := fun z => rfl
  have g1 : ∀ z : ℝ × ℝ, (vec2 z).getItem 1 = .ok z.2 := fun z => rfl
  have gc : ∀ z : ℝ × ℝ, (vec2 z).getItem c = .ok (coord c z) := by
    intro z; interval_cases c <;> rfl
  have i1 := hget e.1 h1
  have i2 := hget e.2 h2
  have key : ∀ x z : ℝ, (∃ a, (Except.ok (x, z) : PyM (ℝ × ℝ)) = .ok (a, a)) ↔ x = z := by
    intro x z
    constructor
    · rintro ⟨a, h⟩; cases h; rfl
    · rintro rfl; exact ⟨_, rfl⟩
  have q1 : dirichletConstraint y e (vec2 P, vec2 Q) 1 c = .ok (nodeParam y e.1 0, coord c P) := by
    simp only [dirichletConstraint, hsub, bind_ok, g0, g1, gc, i1 0 (by norm_num)]; rfl
  have q2 : dirichletConstraint y e (vec2 P, vec2 Q) 2 c = .ok (nodeParam y e.1 1 * (Q.1 - P.1) + nodeParam y e.1 2 * (Q.2 - P.2),
      coord c (Q.1 - P.1, Q.2 - P.2)) := by
    simp only [dirichletConstraint, hsub, bind_ok, g0, g1, gc, i1 1 (by norm_num), i1 2 (by norm_num)]; rfl
  have q3 : dirichletConstraint y e (vec2 P, vec2 Q) 3 c = .ok (nodeParam y e.1 3 * (Q.1 - P.1) ^ 2 +
      2 * nodeParam y e.1 4 * (Q.1 - P.1) * (Q.2 - P.2) + nodeParam y e.1 5 * (Q.2 - P.2) ^ 2, 0) := by
    simp only [dirichletConstraint, hsub, bind_ok, g0, g1, i1 3 (by norm_num), i1 4 (by norm_num), i1 5 (by norm_num)]; rfl
  have q4 : dirichletConstraint y e (vec2 P, vec2 Q) 4 c = .ok (nodeParam y e.2 0, coord c Q) := by
    simp only [dirichletConstraint, hsub, bind_ok, g0, g1, gc, i2 0 (by norm_num)]; rfl
  have q5 : dirichletConstraint y e (vec2 P, vec2 Q) 5 c = .ok (nodeParam y e.2 1 * (Q.1 - P.1) + nodeParam y e.2 2 * (Q.2 - P.2),
      coord c (Q.1 - P.1, Q.2 - P.2)) := by
    simp only [dirichletConstraint, hsub, bind_ok, g0, g1, gc, i2 1 (by norm_num), i2 2 (by norm_num)]; rfl
  have q6 : dirichletConstraint y e (vec2 P, vec2 Q) 6 c = .ok (nodeParam y e.2 3 * (Q.1 - P.1) ^ 2 +
      2 * nodeParam y e.2 4 * (Q.1 - P.1) * (Q.2 - P.2) + nodeParam y e.2 5 * (Q.2 - P.2) ^ 2, 0) := by
    simp only [dirichletConstraint, hsub, bind_ok, g0, g1, i2 3 (by norm_num), i2 4 (by norm_num), i2 5 (by norm_num)]; rfl
  have hd : coord c (Q.1 - P.1, Q.2 - P.2) = coord c Q - coord c P := by unfold coord; split <;> rfl
  rw [hd] at q2 q5
  constructor
  · intro h
    have a1 := h 1 (by norm_num) (by norm_num)
    have a2 := h 2 (by norm_num) (by norm_num)
    have a3 := h 3 (by norm_num) (by norm_num)
    have a4 := h 4 (by norm_num) (by norm_num)
    have a5 := h 5 (by norm_num) (by norm_num)
    have a6 := h 6 (by norm_num) (by norm_num)
    rw [q1, key] at a1
    rw [q2, key] at a2
    rw [q3, key] at a3
    rw [q4, key] at a4
    rw [q5, key] at a5
    rw [q6, key] at a6
    exact ⟨a1, a2, a3, a4, a5, a6⟩
  · rintro ⟨a1, a2, a3, a4, a5, a6⟩ id h1 h6
    interval_cases id
    · rw [q1, key]; exact a1
    · rw [q2, key]; exact a2
    · rw [q3, key]; exact a3
    · rw [q4, key]; exact a4
    · rw [q5, key]; exact a5
    · rw [q6, key]; exact a6

/-- the six equations at every Dirichlet edge, for an array returned by `y()` -/
def DirichletId (g : Grid ℝ) (y : NdArray) : Prop := ∀ A B, y.block 0 = .ok A → y.block 1 = .ok B →
  ∀ e ∈ g.dirichlet.edges,
    EdgeEqs 0 (g.xy e.1) (g.xy e.2) (nodeParam A e.1) (nodeParam A e.2) ∧
    EdgeEqs 1 (g.xy e.1) (g.xy e.2) (nodeParam B e.1) (nodeParam B e.2)

theorem Grid.Usable.edgeVertices {g : Grid ℝ} {n : ℕ} (U : g.Usable n) {e : Edge} (he : e ∈ g.dirichlet.edges) :
    e.1 < n ∧ e.2 < n ∧ g.edgeVertices e = .ok (vec2 (g.xy e.1), vec2 (g.xy e.2)) := by
  have hm := U.wf.edges e (U.wf.dirichlet.2 e he)
  have h1 : e.1 < n := List.mem_range.1 (U.vertices ▸ hm.1)
  have h2 : e.2 < n := List.mem_range.1 (U.vertices ▸ hm.2)
  refine ⟨h1, h2, ?_⟩
  rw [Grid.edgeVertices, if_neg (not_not.2 (U.wf.dirichlet.2 e he)), WF.pyGet_point U.wf hm.1, WF.pyGet_point U.wf hm.2]
  rfl

theorem constraintsHold_iff {g : Grid ℝ} {n k : ℕ} (U : g.Usable n) {m : RegMechModel} (hg : m.grid = g) (w : m.WF n k) :
    (Problem.mechReg m).ConstraintsHold ↔ DirichletId g (Problem.mechReg m).y := by
  subst hg
  obtain ⟨hA, hA6⟩ := varValues2_shape w.y1
  obtain ⟨hB, hB6⟩ := varValues2_shape w.y2
  have hc := NdArray.block_pairs hA hB hA6 hB6 U.pos
  have key : ∀ c < 2, ∀ i, ∀ hi : i < m.grid.dirichlet.edges.length,
      ((∀ id, 1 ≤ id → id ≤ 6 → ∃ a, m.constraint c (i + 1) id = .ok (a, a)) ↔
        EdgeEqs c (m.grid.xy m.grid.dirichlet.edges[i].1) (m.grid.xy m.grid.dirichlet.edges[i].2)
          (nodeParam (if c = 0 then varValues2 m.y1 else varValues2 m.y2) m.grid.dirichlet.edges[i].1)
          (nodeParam (if c = 0 then varValues2 m.y1 else varValues2 m.y2) m.grid.dirichlet.edges[i].2)) := by
    intro c hc i hi
    obtain ⟨h1, h2, h3⟩ := U.edgeVertices (List.getElem_mem hi)
    have hlen : (if c = 0 then varValues2 m.y1 else varValues2 m.y2).length = n := by split <;> assumption
    have h6 : ∀ r ∈ (if c = 0 then varValues2 m.y1 else varValues2 m.y2), r.length = 6 := by split <;> assumption
    rw [← dirichletConstraint_eq hc h6 (by rw [hlen]; exact h1) (by rw [hlen]; exact h2)]
    have e : ∀ id, m.constraint c (i + 1) id = dirichletConstraint (if c = 0 then varValues2 m.y1 else varValues2 m.y2)
        m.grid.dirichlet.edges[i] (vec2 (m.grid.xy m.grid.dirichlet.edges[i].1), vec2 (m.grid.xy m.grid.dirichlet.edges[i].2))
        id c := by
      intro id
      rw [RegMechModel.constraint, Nat.add_sub_cancel, pyGet_eq_ok.2 (List.getElem?_eq_getElem hi), bind_ok, h3, bind_ok]
    simp only [e]
  constructor
  · intro h A B eA eB e he
    have eA' := eA.symm.trans hc.1
    have eB' := eB.symm.trans hc.2
    cases eA'; cases eB'
    obtain ⟨i, hi, rfl⟩ := List.mem_iff_getElem.1 he
    exact ⟨(key 0 (by norm_num) i hi).1 (h 0 (by norm_num) (i + 1) (by omega) (by omega)),
      (key 1 (by norm_num) i hi).1 (h 1 (by norm_num) (i + 1) (by omega) (by omega))⟩
  · intro h c hc2 en h1 h2
    obtain ⟨i, rfl⟩ : ∃ i, en = i + 1 := ⟨en - 1, by omega⟩
    have hi : i < m.grid.dirichlet.edges.length := by omega
    obtain ⟨a, b⟩ := h _ _ hc.1 hc.2 _ (List.getElem_mem hi)
    refine (key c hc2 i hi).2 ?_
    interval_cases c
    · exact a
    · exact b

/-- the identity satisfies the equations -/
theorem dirichletId_initial {g : Grid ℝ} {n : ℕ} (U : g.Usable n) : DirichletId g (RegMech.pairs (c1xs g n) (c1ys g n)) := by
  have hx : (c1xs g n).length = n := by simp [c1xs]
  have hy : (c1ys g n).length = n := by simp [c1ys]
  have hc := NdArray.block_pairs hx hy (by simp [c1xs]) (by simp [c1ys]) U.pos
  intro A B eA eB e he
  have eA' := eA.symm.trans hc.1
  have eB' := eB.symm.trans hc.2
  cases eA'; cases eB'
  obtain ⟨h1, h2, -⟩ := U.edgeVertices he
  have kx : ∀ v < n, nodeParam (c1xs g n) v = ![(g.xy v).1, 1, 0, 0, 0, 0] := by
    intro v hv; funext i; fin_cases i <;> simp [nodeParam, c1xs, hv]
  have ky : ∀ v < n, nodeParam (c1ys g n) v = ![(g.xy v).2, 0, 1, 0, 0, 0] := by
    intro v hv; funext i; fin_cases i <;> simp [nodeParam, c1ys, hv]
  rw [kx _ h1, kx _ h2, ky _ h1, ky _ h2]
  constructor <;> simp [EdgeEqs, coord]

theorem MechStep.load_problem (m : MechStep) (o : Outcome) : (m.load o).problem = m.problem.load o := by
  cases m <;> rfl

theorem MechStep.static_reg {a b : RegMech} (h : (MechStep.reg a).static = (MechStep.reg b).static) :
    a.model.grid = b.model.grid ∧ a.model.refined = b.model.refined := by
  simp only [MechStep.static, MechStep.eraseY, MechStep.eraseTheta, MechStep.eraseTraction, MechStep.reg.injEq] at h
  rw [RegMech.mk.injEq, RegMechModel.mk.injEq] at h
  exact ⟨h.2.2.1, h.2.2.2.1⟩

section
variable {solver : Solver} {domain : RectDomain ℝ} {params : SimParams} {ext : ExtTemp} {traction : Traction} {s : Sim}

/-- properties of deformations that hold initially and are preserved by every successful mechanical solve hold for all
recorded deformations -/
theorem Sim.Reachable.y_inv (hs : s.Reachable solver domain params ext traction) (P : MechStep → NdArray → Prop)
    (h0 : ∀ (s : Sim) m0 t0, s.Context domain params ext traction m0 t0 → P m0 m0.prevY)
    (h1 : ∀ (s : Sim) m0 t0, s.Context domain params ext traction m0 t0 → ∀ m : MechStep, m.WF m0.yShape m0.thetaShape →
      m.static = m0.static → m.unknowns.map VarData.fixed = m0.unknowns.map VarData.fixed →
      ∀ cs y θ time, MechReady m y θ time → P m0 y → (solver cs m.problem).err = none →
      P m0 (m.load (solver cs m.problem)).y) :
    ∃ m0 t0, s.Context domain params ext traction m0 t0 ∧ P m0 s.therm.y ∧ ∀ st ∈ s.steps, P m0 st.yData := by
  induction hs with
  | @new it s S h =>
    obtain ⟨m, t, step0, step1, r1, r2, w, c⟩ := Sim.of_new S h
    have cx := c.context S w
    obtain ⟨Sh, ⟨n, U⟩, F⟩ := S.simShape c.grid c.refined c.mech
    obtain ⟨a1, a2, -⟩ := mechanicalStep_facts U F c.mech
    have w1 := a1.load (solver [] m.problem)
    obtain ⟨c1, c2, -⟩ := thermalStep_cases U F a1.prevY.2 w1.1.y.2 a1.prevTheta.2 c.therm
    rw [a1.prevY.1, a1.prevTheta.1] at c1
    have w2 := c1.load (solver [m.problem] t.problem)
    have eq := c.eq
    have hst : s.steps = [step0, step1] := by rw [Sim.steps, eq, c.steps]
    have ht : s.therm = t.load (solver [m.problem] t.problem) := by rw [eq]
    have base := h0 s m t cx
    have key : P m (m.load (solver [] m.problem)).y := h1 s m t cx m a1 rfl rfl _ _ _ _ a2 base c.mechOk
    have hy : s.therm.y = (m.load (solver [] m.problem)).y := by rw [ht, w2.2.2.1, c2.y]
    refine ⟨m, t, cx, by rw [hy]; exact key, ?_⟩
    intro st hmem
    rw [hst] at hmem
    simp only [List.mem_cons, List.not_mem_nil, or_false] at hmem
    rcases hmem with rfl | rfl
    · rw [c.stepY0]; exact base
    · rw [c.stepY1, hy]; exact key
  | run _ ih =>
    obtain ⟨m0, t0, c, g1, g2⟩ := ih
    refine ⟨m0, t0, Sim.run_inv (fun s => s.Context domain params ext traction m0 t0 ∧
      P m0 s.therm.y ∧ ∀ st ∈ s.steps, P m0 st.yData) ?_ ⟨c, g1, g2⟩⟩
    rintro s ⟨c, g1, g2⟩
    refine ⟨c.single, ?_⟩
    rcases runSingle_any solver c.wf with ⟨m, t, step, r, s', e1, w, h⟩ | ⟨e, s', e1, w, h⟩
    · have hst : s'.steps = s.steps ++ [step] := by rw [Sim.steps, h.eq, h.steps]; rfl
      have ht : s'.therm = t.load (solver (s.calls ++ [m.problem]) t.problem) := by rw [h.eq]
      have hy : s'.therm.y = (m.load (solver s.calls m.problem)).y := by
        rw [ht, (h.thermWF.load _).2.2.1, h.thermReady.y]
      have key := h1 s m0 t0 c m h.mechWF (h.mechStatic.trans c.mech) (h.mechFixed.trans c.fixed) _ _ _ _ h.mechReady g1
        h.mechOk
      simp only [e1]
      refine ⟨by rw [hy]; exact key, ?_⟩
      intro st hmem
      rw [hst] at hmem
      simp only [List.mem_append, List.mem_singleton] at hmem
      rcases hmem with hmem | rfl
      · exact g2 st hmem
      · rw [h.stepY, hy]; exact key
    · have hst : s'.steps = s.steps := by rw [Sim.steps, h.record]; rfl
      simp only [e1, hst]
      refine ⟨?_, g2⟩
      rcases h.y with hy | ⟨m, w, sm, fx, rd, ok, hy⟩
      · rw [hy]; exact g1
      · rw [hy]; exact h1 s m0 t0 c m w (sm.trans c.mech) (fx.trans c.fixed) _ _ _ _ rd g1 ok

theorem Sim.Context.reg_facts {m0 t0} (c : s.Context domain params ext traction m0 t0) (hr : params.regularization ≠ none) :
    ∃ b f k n, m0 = .reg b ∧ b.model.grid = s.grid ∧
      s.grid.Usable n ∧ m0.yShape = [n, 2, 6] ∧ m0.thetaShape = [k] ∧ m0.prevY = RegMech.pairs (c1xs s.grid n) (c1ys s.grid n) ∧
      s.refined = some f := by
  obtain ⟨it, hg⟩ := c.grid
  obtain ⟨Sh, ⟨n, U⟩, F⟩ := c.setup.simShape hg c.refined c.mech0
  rcases (mechanicalStep_cases U F c.mech0).2 with ⟨h1, -⟩ | ⟨reg, f, k, h1, h2, hk, rfl⟩
  · exact absurd h1 hr
  · exact ⟨_, f, _, n, rfl, rfl, U, by simp [MechStep.yShape, initialRegMech, U.length], rfl, rfl, h2⟩

theorem Sim.Context.dirichletId_init {m0 t0} (c : s.Context domain params ext traction m0 t0)
    (hr : params.regularization ≠ none) : DirichletId m0.grid m0.prevY := by
  obtain ⟨b, f, k, n, rfl, hb, U, -, -, hp, -⟩ := c.reg_facts hr
  rw [hp]
  show DirichletId b.model.grid _
  rw [hb]; exact dirichletId_initial U

theorem Sim.Context.dirichletId_step {m0 t0} (c : s.Context domain params ext traction m0 t0)
    (hr : params.regularization ≠ none) (hc : solver.RespectsConstraints) {m : MechStep}
    (w : m.WF m0.yShape m0.thetaShape) (sm : m.static = m0.static) {cs : List Problem}
    (ok : (solver cs m.problem).err = none) : DirichletId m0.grid (m.load (solver cs m.problem)).y := by
  obtain ⟨b, f, k, n, rfl, hb, U, hys, hts, hp, -⟩ := c.reg_facts hr
  rcases m with a | a
  · exfalso
    simp [MechStep.static, MechStep.eraseY, MechStep.eraseTheta, MechStep.eraseTraction] at sm
  have hg := (MechStep.static_reg sm).1
  have hw := (w.load (solver cs (MechStep.reg a).problem)).1
  have h := hc cs _ ok
  rw [← MechStep.load_problem] at h
  rw [← MechStep.problem_y]
  obtain ⟨n', k', w', e1, e2⟩ := hw
  rw [hys] at e1
  cases e1
  show DirichletId b.model.grid _
  rw [hb]
  have hg' : a.model.grid = s.grid := hg.trans hb
  refine (constraintsHold_iff (k := k') U ?_ ?_).1 h
  · exact hg'
  · exact w'.toWF

/-- all recorded deformations of regularized simulations satisfy the equations at the Dirichlet edges -/
theorem Sim.Reachable.dirichletId (hs : s.Reachable solver domain params ext traction) (hc : solver.RespectsConstraints)
    (hr : params.regularization ≠ none) :
    ∃ m0 t0, s.Context domain params ext traction m0 t0 ∧ DirichletId s.grid s.therm.y ∧
      ∀ st ∈ s.steps, DirichletId s.grid st.yData := by
  obtain ⟨m0, t0, c, h1, h2⟩ := hs.y_inv (fun m0 y => DirichletId m0.grid y) (fun s m0 t0 c => c.dirichletId_init hr)
    (fun s m0 t0 c m w sm fx cs y θ time rd hy ok => c.dirichletId_step hr hc w sm ok)
  obtain ⟨b, f, k, n, rfl, hb, -⟩ := c.reg_facts hr
  refine ⟨_, t0, c, ?_, ?_⟩
  · rw [← hb]; exact h1
  · rw [← hb]; exact h2

end

end Tve
