import Verif.Lemmas.EnergyMech
import Verif.Props.BellC1
import Verif.Props.Dirichlet

/-!
# Energies along a simulation
-/

namespace Tve

open Bell MvPolynomial

/-- the deformation is the identity on the grid -/
structure Deformation.IsId (D : Deformation) (G : Grid ℝ) : Prop where
  value : ∀ t ∈ G.triangles, ∀ c : Bary ℝ, c.Normalized → D.call t c = .ok (vec2 (G.pointAt t c))
  strain : ∀ t ∈ G.triangles, ∀ c : Bary ℝ, c.Normalized → D.strain t c = .ok (matOf (1 : Matrix (Fin 2) (Fin 2) ℝ))

section
variable {g : Grid ℝ} {nx ny n : ℕ} {s : ℝ}

theorem matOf_one : matOf (1 : Matrix (Fin 2) (Fin 2) ℝ) = matOf !![1, 0; 0, 1] := by
  rw [Matrix.one_fin_two]

theorem xsOf_at (U : g.Usable n) {v : Vertex} {q : ℝ × ℝ} (h : g.At v q) :
    (xsOf g n)[v]? = some q.1 ∧ (ysOf g n)[v]? = some q.2 := by
  have hv : v < n := by rw [← U.num]; exact at_lt h
  rw [← xy_of_at h]
  simp [xsOf, ysOf, hv]

theorem isId_p1 (G : LibraryGrid g nx ny s) (U : g.Usable n) {D : Deformation}
    (h : deformOf g none (P1Mech.pairs (xsOf g n) (ysOf g n)) = .ok D) : D.IsId g := by
  have hc := NdArray.col_pairs (a := xsOf g n) (b := ysOf g n) (by simp [xsOf]) (by simp [ysOf]) U.pos
  rw [deformOf, hc.1, bind_ok, hc.2, bind_ok, P1MechModel.deformation] at h
  obtain ⟨I1, h1⟩ := bind_ok_left h
  rw [h1, bind_ok] at h
  obtain ⟨I2, h2⟩ := bind_ok_left h
  rw [h2, bind_ok] at h
  cases h
  have e1 := fun t ht c hc => C34_reproduces_affine G.wellFormed h1 (t := t) ht (G.nondegenerate ht) 0 1 0
    (fun v q hq => by rw [(xsOf_at U hq).1]; simp) c hc
  have e2 := fun t ht c hc => C34_reproduces_affine G.wellFormed h2 (t := t) ht (G.nondegenerate ht) 0 0 1
    (fun v q hq => by rw [(xsOf_at U hq).2]; simp) c hc
  constructor
  · intro t ht c hc
    rw [Deformation.call]
    simp only
    rw [(e1 t ht c hc).1, (e2 t ht c hc).1]
    simp [vec2]
  · intro t ht c hc
    rw [Deformation.strain]
    simp only
    rw [(e1 t ht c hc).2, (e2 t ht c hc).2, bind_ok, bind_ok, stack_pairs, matOf_one]

theorem bell_linear {k : Fin 2} {u : List (List ℝ)} {I : Interp} (W : g.WellFormed) (h : C1Interpolation g u = .ok I)
    {t : Tri} (ht : t ∈ g.triangles) (hd : Nondegenerate (g.corners t))
    (hu : ∀ j, nodeParam u (t.get j) = nodal (X k) (g.corners t j)) {c : Bary ℝ} (hc : c.Normalized) :
    I.call t c = .ok (![(g.pointAt t c).1, (g.pointAt t c).2] k) ∧
    I.gradient t c = .ok (vecOf ![if k = 0 then 1 else 0, if k = 1 then 1 else 0]) ∧
    I.hessian t c = .ok (matOf !![0, 0; 0, 0]) := by
  obtain ⟨h6, hl, rfl⟩ := C1_of h
  obtain ⟨e1, e2, e3⟩ := C1_call_eq W h6 hl ht c
  obtain ⟨q1, q2, q3⟩ := C38_quartics (g.corners t) hd (X k) (by rw [totalDegree_X]; norm_num) ![c.l1, c.l2, c.l3] hc
  have hfun : (fun j => nodeParam u (t.get j)) = fun m => nodal (X k) (g.corners t m) := funext hu
  simp only
  rw [e1, e2, e3, hfun]
  refine ⟨q1.trans ?_, q2.trans ?_, q3.trans ?_⟩
  · simp [polyAt]; rfl
  · fin_cases k <;> simp [polyAt, pderiv_X, Pi.single_apply]
  · fin_cases k <;> simp [polyAt, pderiv_X, Pi.single_apply]

theorem isId_reg (G : LibraryGrid g nx ny s) (U : g.Usable n) {f : ℕ} (hf : 1 ≤ f) (hs : 1 / 10 ^ 15 ≤ s / f) {d : RectDomain ℝ}
    {r : RefinedGrid ℝ} (hr : d.refine g f = .ok r) {D : Deformation}
    (h : deformOf g (some r) (RegMech.pairs (c1xs g n) (c1ys g n)) = .ok D) :
    D.IsId r.toGrid ∧ ∀ t ∈ r.toGrid.triangles, ∀ c : Bary ℝ, c.Normalized →
      D.hyperStrain t c = .ok (tenOf (fun (_ _ _ : Fin 2) => (0 : ℝ))) := by
  have hc := NdArray.block_pairs (a := c1xs g n) (b := c1ys g n) (by simp [c1xs]) (by simp [c1ys]) (by simp [c1xs])
    (by simp [c1ys]) U.pos
  rw [deformOf, hc.1, bind_ok, hc.2, bind_ok, RegMechModel.deformation] at h
  obtain ⟨I1, h1⟩ := bind_ok_left h
  rw [h1, bind_ok] at h
  obtain ⟨I2, h2⟩ := bind_ok_left h
  rw [h2, bind_ok] at h
  cases h
  have kx : ∀ v < n, nodeParam (c1xs g n) v = nodal (X 0) (g.xy v) := by
    intro v hv; funext i; fin_cases i <;> simp [nodeParam, c1xs, hv, nodal, polyAt, pderiv_X, Pi.single_apply]
  have ky : ∀ v < n, nodeParam (c1ys g n) v = nodal (X 1) (g.xy v) := by
    intro v hv; funext i; fin_cases i <;> simp [nodeParam, c1ys, hv, nodal, polyAt, pderiv_X, Pi.single_apply]
  have lt : ∀ t ∈ g.triangles, ∀ j, t.get j < n := fun t ht j => by
    rw [← U.num]; exact at_lt (WF.at_xy U.wf (WF.mem_get U.wf ht j))
  have e1 := fun t ht c hc => bell_linear (k := 0) (t := t) (c := c) G.wellFormed h1 ht (G.nondegenerate ht)
    (fun j => kx _ (lt t ht j)) hc
  have e2 := fun t ht c hc => bell_linear (k := 1) (t := t) (c := c) G.wellFormed h2 ht (G.nondegenerate ht)
    (fun j => ky _ (lt t ht j)) hc
  refine ⟨⟨?_, ?_⟩, ?_⟩ <;> intro t ht c hc <;>
    obtain ⟨t1, k1, c1, k2, -, k0, k5, k3, k4⟩ := C43_same_point G hf hs hr I1 ht hc <;>
    obtain ⟨t2, l1, c2, l2, -, l0, l5, l3, l4⟩ := C43_same_point G hf hs hr I2 ht hc
  · rw [Deformation.call]
    simp only
    rw [k5, l5, (e1 t1 k1 c1 k2).1, (e2 t2 l1 c2 l2).1, k0, l0]
    rfl
  · rw [Deformation.strain]
    simp only
    rw [k3, l3, (e1 t1 k1 c1 k2).2.1, (e2 t2 l1 c2 l2).2.1, bind_ok, bind_ok, stack_pairs, matOf_one]
    simp
  · rw [Deformation.hyperStrain]
    simp only
    rw [k4, l4, (e1 t1 k1 c1 k2).2.2, (e2 t2 l1 c2 l2).2.2, bind_ok, bind_ok]
    simp [Mat.stack, matOf, tenOf, Ten3.new, List.ofFn_succ, Mat.rows]

end

section
variable {domain : RectDomain ℝ} {params : SimParams} {ext : ExtTemp} {traction : Traction} {s : Sim} {m0 : MechStep}
  {t0 : ThermStep}

theorem MechStep.static_regularization {a b : RegMech} (h : (MechStep.reg a).static = (MechStep.reg b).static) :
    a.model.regularization = b.model.regularization := by
  simp only [MechStep.static, MechStep.eraseY, MechStep.eraseTheta, MechStep.eraseTraction, MechStep.reg.injEq] at h
  rw [RegMech.mk.injEq, RegMechModel.mk.injEq] at h
  exact h.2.2.2.2.2.1

theorem Sim.Context.energetic (c : s.Context domain params ext traction m0 t0) : Energetic s.grid s.refined := by
  obtain ⟨it, hg⟩ := c.grid
  obtain ⟨G, h1, h2⟩ := c.setup.grids hg c.refined
  by_cases hr : params.regularization = none
  · rw [h1 hr]; exact .coarse G
  · obtain ⟨n, r, p, k1, k2, k3, k4, -⟩ := h2 hr
    rw [k3]
    exact .fine G k1 (c.setup.fine' k2).2 k4

theorem Sim.Context.mechEnv (c : s.Context domain params ext traction m0 t0) {m : MechStep} {ys ts : List ℕ} (w : m.WF ys ts)
    (hm : m.static = m0.static) : MechEnv m s.grid s.refined params traction := by
  obtain ⟨it, hg⟩ := c.grid
  obtain ⟨Sh, ⟨n, U⟩, F⟩ := c.setup.simShape hg c.refined c.mech0
  obtain ⟨a1, a2, a3, a4, a5, a6, a7⟩ := mechanicalStep_facts U F c.mech0
  have S := c.setup
  obtain ⟨G, h1, h2⟩ := S.grids hg c.refined
  have hs := S.facts.2.2.2.1
  refine ⟨⟨ys, ts, w⟩, (MechStep.static_grid hm).trans a4, ?_, (MechStep.static_fps hm).trans a5, c.energetic, ⟨n, U⟩,
    (C15_neumann_vertices_partial hs S.width S.height hg).2.2.1, fun hr => ?_, fun κ hκ => ?_⟩
  · rw [MechStep.static_refined hm]
    by_cases hr : params.regularization = none
    · rw [(a6 hr).2.1, h1 hr]
    · exact (a7 hr).2.1
  · rw [MechStep.static_traction hm]; exact (a6 hr).1
  · rcases (mechanicalStep_cases U F c.mech0).2 with ⟨b1, -⟩ | ⟨reg, f, k, b1, b2, hk, rfl⟩
    · have b1' : params.regularization = none := b1
      rw [hκ] at b1'; cases b1'
    · have b1' : params.regularization = some reg := b1
      rw [hκ] at b1'; cases b1'
      rcases m with a | a
      · exfalso
        simp [MechStep.static, MechStep.eraseY, MechStep.eraseTheta, MechStep.eraseTraction] at hm
      · exact ⟨a, rfl, MechStep.static_regularization hm⟩

theorem MechReady.tractionAt {m : MechStep} {Y θ : NdArray} {time : ℝ} (h : MechReady m Y θ time) : m.TractionAt time :=
  h.traction

theorem MechStep.TractionAt.load {m : MechStep} {time : ℝ} (h : m.TractionAt time) (o : Outcome) :
    (m.load o).TractionAt time := by
  rcases m with s | s <;> exact h

/-- the identity preserves the orientation -/
theorem Oriented.of_id {g : Grid ℝ} {refined : Option (RefinedGrid ℝ)} {y : NdArray} {D : Deformation}
    (h : deformOf g refined y = .ok D) (hD : D.IsId (energyGrid g refined)) : Oriented g refined y := by
  obtain ⟨r, hr, hg⟩ := energyRule_good refined
  exact ⟨D, r, h, hr, fun t ht b hb => ⟨1, hD.strain t ht b (hg.inside b hb).1, by simp⟩⟩

theorem Sim.Context.initial (c : s.Context domain params ext traction m0 t0) :
    ∃ D, deformOf s.grid s.refined m0.prevY = .ok D ∧ D.IsId (energyGrid s.grid s.refined) ∧
      (params.regularization ≠ none → ∀ t ∈ (energyGrid s.grid s.refined).triangles, ∀ c : Bary ℝ, c.Normalized →
        D.hyperStrain t c = .ok (tenOf (fun (_ _ _ : Fin 2) => (0 : ℝ)))) := by
  obtain ⟨it, hg⟩ := c.grid
  obtain ⟨Sh, ⟨n, U⟩, F⟩ := c.setup.simShape hg c.refined c.mech0
  obtain ⟨a1, -⟩ := mechanicalStep_facts U F c.mech0
  obtain ⟨i1, i2, i3, i4⟩ := mechanicalStep_initial U F c.mech0
  obtain ⟨⟨D, hD⟩, -⟩ := (c.mechEnv a1 rfl).deform
  obtain ⟨G, h1, h2⟩ := c.setup.grids hg c.refined
  refine ⟨D, hD, ?_⟩
  by_cases hr : params.regularization = none
  · rw [(i3 hr).1, h1 hr] at hD
    refine ⟨?_, fun h => absurd hr h⟩
    rw [h1 hr]
    exact isId_p1 G U hD
  · obtain ⟨f, r, p, k1, k2, k3, k4, -⟩ := h2 hr
    rw [(i4 hr).1, k3] at hD
    obtain ⟨e1, e2⟩ := isId_reg G U k1 (c.setup.fine' k2).2 k4 hD
    rw [k3]
    exact ⟨e1, fun _ => e2⟩

theorem matOf_inj {A B : Matrix (Fin 2) (Fin 2) ℝ} (h : matOf A = matOf B) : A = B := by
  ext i j
  have := congrArg (fun M : Mat ℝ => (M.data.getD i []).getD j 0) h
  fin_cases i <;> fin_cases j <;> simpa [matOf, List.ofFn_succ] using this

/-- arrays of the right shape describe deformations -/
theorem Sim.Context.deform_has (c : s.Context domain params ext traction m0 t0) {y : NdArray} (hy : y.Has m0.yShape) :
    ∃ D, deformOf s.grid s.refined y = .ok D ∧ (params.regularization = none → ∃ n A B, 0 < n ∧ A.length = n ∧ B.length = n ∧
      y = P1Mech.pairs A B ∧ P1MechModel.deformation s.grid A B = .ok D) := by
  obtain ⟨it, hg⟩ := c.grid
  obtain ⟨Sh, ⟨n, U⟩, F⟩ := c.setup.simShape hg c.refined c.mech0
  obtain ⟨a1, a2, a3, a4, a5, a6, a7⟩ := mechanicalStep_facts U F c.mech0
  obtain ⟨G, h1, h2⟩ := c.setup.grids hg c.refined
  by_cases hr : params.regularization = none
  · rw [(a6 hr).2.2.1] at hy
    obtain ⟨A, B, hA, hB, rfl⟩ := NdArray.exists_cols hy U.pos
    have hc := NdArray.col_pairs hA hB U.pos
    obtain ⟨I1, k1⟩ := P1_ok (g := s.grid) (hA.trans U.length.symm)
    obtain ⟨I2, k2⟩ := P1_ok (g := s.grid) (hB.trans U.length.symm)
    have hD : P1MechModel.deformation s.grid A B = .ok ⟨I1, I2⟩ := by
      rw [P1MechModel.deformation, k1, bind_ok, k2, bind_ok]; rfl
    rw [h1 hr]
    exact ⟨⟨I1, I2⟩, by rw [deformOf, hc.1, bind_ok, hc.2, bind_ok]; exact hD, fun _ => ⟨n, A, B, U.pos, hA, hB, rfl, hD⟩⟩
  · obtain ⟨r, k, e1, e2, e3, e4⟩ := (a7 hr).2.2
    rw [e3] at hy
    obtain ⟨A, B, hA, hB, hA6, hB6, rfl⟩ := NdArray.exists_blocks hy U.pos
    have hc := NdArray.block_pairs hA hB hA6 hB6 U.pos
    obtain ⟨I1, k1⟩ := C1_ok (g := s.grid) hA6 (hA.trans U.length.symm)
    obtain ⟨I2, k2⟩ := C1_ok (g := s.grid) hB6 (hB.trans U.length.symm)
    rw [e1]
    exact ⟨⟨RefinedInterpolation I1 r, RefinedInterpolation I2 r⟩, by
      rw [deformOf, hc.1, bind_ok, hc.2, bind_ok, RegMechModel.deformation, k1, bind_ok, k2, bind_ok]; rfl,
      fun h => absurd h hr⟩

variable {solver : Solver} {leg : LegGauss} {q : GaussRule ℝ}

/-- one mechanical solve of a simulation -/
theorem Sim.Context.solve (c : s.Context domain params ext traction m0 t0) (hq : GaussRule.new leg 1 = .ok q)
    (hd : solver.Decreases leg) {m : MechStep} {ys ts : List ℕ} (w : m.WF ys ts) (hm : m.static = m0.static)
    {y θ : NdArray} {time : ℝ} (rd : MechReady m y θ time) (ho : Oriented s.grid s.refined y) (cs : List Problem)
    (ok : (solver cs m.problem).err = none) :
    ∃ v0 v1, IsMechObjective leg params traction s.grid s.refined time y y θ v0 ∧
      IsMechObjective leg params traction s.grid s.refined time y (m.load (solver cs m.problem)).y θ v1 ∧ v1 ≤ v0 := by
  have M := c.mechEnv w hm
  have w' := w.load (solver cs m.problem)
  have M' : MechEnv (m.load (solver cs m.problem)) s.grid s.refined params traction :=
    c.mechEnv w'.1 (by rw [← hm]; cases m <;> rfl)
  obtain ⟨i0, -⟩ := M.objective_iff hq rd.tractionAt
  obtain ⟨i1, -⟩ := M'.objective_iff hq (rd.tractionAt.load (solver cs m.problem))
  obtain ⟨v0, hv0⟩ := (M.objective_oriented hq rd.tractionAt).2 (by rw [rd.y]; exact ho)
  obtain ⟨v1, hle, hv1⟩ := hd cs m.problem ok v0 hv0
  rw [← MechStep.load_problem] at hv1
  have k0 := (i0 v0).1 hv0
  have k1 := (i1 v1).1 hv1
  rw [rd.prevY, rd.y, rd.prevTheta] at k0
  rw [w'.2.1, w'.2.2.1, rd.prevY, rd.prevTheta] at k1
  exact ⟨v0, v1, k0, k1, hle⟩

theorem IsMechObjective.oriented {g : Grid ℝ} {refined : Option (RefinedGrid ℝ)} (G : Energetic g refined) {time v : ℝ}
    {y0 y θ : NdArray} (h : IsMechObjective leg params traction g refined time y0 y θ v) : Oriented g refined y := by
  obtain ⟨E, d, h, -⟩ := h
  exact h.oriented G

theorem Sim.Context.grids_eq {m0 t0} (c : s.Context domain params ext traction m0 t0) :
    m0.grid = s.grid ∧ m0.problem.refined = s.refined := by
  obtain ⟨it, hg⟩ := c.grid
  obtain ⟨Sh, ⟨n, U⟩, F⟩ := c.setup.simShape hg c.refined c.mech0
  have M := c.mechEnv (mechanicalStep_facts U F c.mech0).1 rfl
  exact ⟨M.grid, M.fine⟩

theorem Sim.Context.oriented_init {m0 t0} (c : s.Context domain params ext traction m0 t0) :
    Oriented m0.grid m0.problem.refined m0.prevY := by
  rw [c.grids_eq.1, c.grids_eq.2]
  obtain ⟨D, hD, hid, -⟩ := c.initial
  exact .of_id hD hid

theorem Sim.Context.oriented_step {m0 t0} (c : s.Context domain params ext traction m0 t0) (hq : GaussRule.new leg 1 = .ok q)
    (hd : solver.Decreases leg) {m : MechStep} (w : m.WF m0.yShape m0.thetaShape) (sm : m.static = m0.static)
    {y θ : NdArray} {time : ℝ} (rd : MechReady m y θ time) (hy : Oriented m0.grid m0.problem.refined y) (cs : List Problem)
    (ok : (solver cs m.problem).err = none) : Oriented m0.grid m0.problem.refined (m.load (solver cs m.problem)).y := by
  rw [c.grids_eq.1, c.grids_eq.2] at hy ⊢
  obtain ⟨v0, v1, -, h, -⟩ := c.solve hq hd w sm rd hy cs ok
  exact h.oriented c.energetic

/-- all recorded deformations preserve the orientation -/
theorem Sim.Reachable.oriented (hs : s.Reachable solver domain params ext traction) (hq : GaussRule.new leg 1 = .ok q)
    (hd : solver.Decreases leg) :
    Oriented s.grid s.refined s.therm.y ∧ ∀ st ∈ s.steps, Oriented s.grid s.refined st.yData := by
  obtain ⟨m0, t0, c, h1, h2⟩ := hs.y_inv (fun m0 y => Oriented m0.grid m0.problem.refined y)
    (fun s m0 t0 c => c.oriented_init)
    (fun s m0 t0 c m w sm fx cs y θ time rd hy ok => c.oriented_step hq hd w sm rd hy cs ok)
  rw [c.grids_eq.1, c.grids_eq.2] at h1 h2
  exact ⟨h1, h2⟩

end

end Tve
