import Verif.Lemmas.SimHistory
import Verif.Props.InterpEval

/-!
# Helper lemmas: fixed variables
-/

namespace Tve
open Sim

/-- the position of the value (not a derivative) of component `j` at vertex `v` in `y().data` -/
def valueIndex (ys : List ℕ) (v j : ℕ) : ℕ :=
  match ys with
  | [_, _, _] => 6 * (2 * v + j)
  | _ => 2 * v + j

theorem deformed_eq {a : NdArray} {ys : List ℕ} (h : a.shape = ys) (v : ℕ) :
    a.deformed v = (a.data.getD (valueIndex ys v 0) 0, a.data.getD (valueIndex ys v 1) 0) := by
  unfold NdArray.deformed valueIndex
  rw [h]
  split
  · refine Prod.ext ?_ ?_ <;> simp only [NdArray.at3]
    · rw [show (v * 2 + 0) * 6 + 0 = 6 * (2 * v + 0) by ring]
    · rw [show (v * 2 + 1) * 6 + 0 = 6 * (2 * v + 1) by ring]
  · refine Prod.ext ?_ ?_ <;> simp only [NdArray.at2]
    · rw [show v * 2 + 0 = 2 * v + 0 by ring]
    · rw [show v * 2 + 1 = 2 * v + 1 by ring]

/-- agreement of two lists at the flagged places -/
def AgreeAt (flags : List Bool) (a b : List ℝ) : Prop := ∀ i : ℕ, flags[i]? = some true → a[i]? = b[i]?

theorem AgreeAt.of_answer {us : List VarData} {r : ℝ} {xs zs base : List ℝ}
    (h0 : AgreeAt (us.map VarData.fixed) xs base)
    (h1 : List.Forall₂ (fun (v : VarData) x => v.Around x r) us xs)
    (h2 : List.Forall₂ (fun (v : VarData) x => v.fixed = true → x = v.value) us zs) :
    AgreeAt (us.map VarData.fixed) zs base := by
  intro i hi
  rw [← h0 i hi]
  rw [List.getElem?_map] at hi
  rcases hu : us[i]? with _ | u
  · rw [hu] at hi; cases hi
  · rw [hu] at hi
    simp only [Option.map_some, Option.some.injEq] at hi
    obtain ⟨hlt, hu'⟩ := List.getElem?_eq_some_iff.1 hu
    rw [List.forall₂_iff_get] at h1 h2
    have l1 : i < xs.length := h1.1 ▸ hlt
    have l2 : i < zs.length := h2.1 ▸ hlt
    have a1 := h1.2 i hlt l1
    have a2 := h2.2 i hlt l2
    simp only [List.get_eq_getElem] at a1 a2
    rw [hu'] at a1 a2
    rw [List.getElem?_eq_getElem l1, List.getElem?_eq_getElem l2, a2 hi, a1.1]

section
variable {g : Grid ℝ} {n : ℕ}

theorem flags_p1 (L : List ℝ) (hL : L.length = n) (r : ℝ) {v : ℕ} (hv : v < n) :
    ((fixVertices (pySet g.dirichlet.vertices) (L.map fun x => VarData.centred x r))[v]?.map VarData.fixed) =
      some (decide (v ∈ g.dirichlet.vertices)) := by
  rw [fixVertices_getElem? (nodup_pySet _), List.getElem?_map, List.getElem?_eq_getElem (hL ▸ hv)]
  simp only [mem_pySet]
  split
  · rename_i h; rw [decide_eq_true h]; rfl
  · rename_i h; rw [decide_eq_false h]; rfl

theorem flags_reg (U : g.Usable n) (L : List (List ℝ)) (hL : L.length = n) (h6 : ∀ x ∈ L, x.length = 6) (r : ℝ) {v j : ℕ}
    (hv : v < n) (hj : j < 6) :
    (((fixValues g.dirichlet.vertices (L.map fun row => row.map fun x => VarData.centred x r))[v]?.bind
      fun row => row[j]?).map VarData.fixed) = some (decide (v ∈ g.dirichlet.vertices ∧ j = 0)) := by
  rw [fixValues_getElem? U.nodupD, List.getElem?_map, List.getElem?_eq_getElem (hL ▸ hv)]
  have h := h6 _ (List.getElem_mem (hL ▸ hv : v < L.length))
  generalize L[v]'(hL ▸ hv) = row at h
  match row, h with
  | [a, b, c, d, e, f], _ =>
    split
    · rename_i hd
      simp only [hd, true_and]
      interval_cases j <;> simp [VarData.fix, VarData.centred, List.modify]
    · rename_i hd
      simp only [hd, false_and]
      interval_cases j <;> simp [VarData.centred]

/-- after creation exactly the values at the Dirichlet vertices are fixed, and the deformation is the identity -/
theorem mechanicalStep_fixed (U : g.Usable n) {params : MechParams} {refined : Option (RefinedGrid ℝ)}
    (F : ∀ r, refined = some r → ∃ k, r.toGrid.Usable k) {tr : Traction} {m : MechStep}
    (h : mechanicalStep g params refined tr = .ok m) {v : ℕ} (hv : v < n) :
    (∀ j, j < 2 → (m.unknowns.map VarData.fixed)[valueIndex m.yShape v j]? = some (decide (v ∈ g.dirichlet.vertices))) ∧
    m.prevY.data[valueIndex m.yShape v 0]? = some (g.xy v).1 ∧ m.prevY.data[valueIndex m.yShape v 1]? = some (g.xy v).2 := by
  rcases (mechanicalStep_cases U F h).2 with ⟨h1, G1, G2, h2, rfl⟩ | ⟨reg, f, k, h1, h2, hk, rfl⟩
  · have hx : (xsOf g n).length = n := by simp [xsOf]
    have hy : (ysOf g n).length = n := by simp [ysOf]
    have e := fun l1 l2 => interleave_getElem? (a := fixVertices (pySet g.dirichlet.vertices)
      ((xsOf g n).map fun x => VarData.centred x params.searchRadius)) (b := fixVertices (pySet g.dirichlet.vertices)
      ((ysOf g n).map fun x => VarData.centred x params.searchRadius)) l1 l2
    have hl := e (by simp [length_fixVertices, hx, hy]) v
    have hd := interleave_getElem? (a := xsOf g n) (b := ysOf g n) (hx.trans hy.symm) v
    refine ⟨?_, ?_, ?_⟩
    · intro j hj
      simp only [MechStep.unknowns, MechStep.problem, Problem.unknowns, initialP1Mech, MechStep.yShape, valueIndex,
        List.getElem?_map]
      interval_cases j
      · rw [add_zero, hl.1]; exact flags_p1 _ hx _ hv
      · rw [hl.2]; exact flags_p1 _ hy _ hv
    · simp only [MechStep.prevY, P1Mech.prevY, initialP1Mech, MechStep.yShape, valueIndex, add_zero, pairs_data, hd.1]
      simp [xsOf, hv]
    · simp only [MechStep.prevY, P1Mech.prevY, initialP1Mech, MechStep.yShape, valueIndex, pairs_data, hd.2]
      simp [ysOf, hv]
  · have hx : (c1xs g n).length = n := by simp [c1xs]
    have hy : (c1ys g n).length = n := by simp [c1ys]
    have hx6 : ∀ x ∈ c1xs g n, x.length = 6 := by simp [c1xs]
    have hy6 : ∀ x ∈ c1ys g n, x.length = 6 := by simp [c1ys]
    have six : ∀ L : List (List ℝ), (∀ x ∈ L, x.length = 6) → ∀ x ∈ fixValues g.dirichlet.vertices
        (L.map fun row => row.map fun x => VarData.centred x params.searchRadius), x.length = 6 := by
      intro L h6 x hx
      obtain ⟨i, hi⟩ := List.mem_iff_getElem?.1 hx
      rw [fixValues_getElem? U.nodupD, List.getElem?_map] at hi
      rcases hL : L[i]? with _ | row
      · rw [hL] at hi; simp at hi
      · have := h6 row (List.mem_iff_getElem?.2 ⟨i, hL⟩)
        rw [hL] at hi
        simp only [Option.map_some] at hi
        split at hi <;> cases hi <;> simp [this]
    have hl := fun l1 => interleave2_getElem? (a := fixValues g.dirichlet.vertices
      ((c1xs g n).map fun row => row.map fun x => VarData.centred x params.searchRadius)) (b := fixValues g.dirichlet.vertices
      ((c1ys g n).map fun row => row.map fun x => VarData.centred x params.searchRadius)) l1 (six _ hx6) (six _ hy6) v
      (j := 0) (by norm_num)
    have hl := hl (by simp [length_fixValues, hx, hy])
    have hd := interleave2_getElem? (a := c1xs g n) (b := c1ys g n) (hx.trans hy.symm) hx6 hy6 v (j := 0) (by norm_num)
    simp only [add_zero] at hl hd
    refine ⟨?_, ?_, ?_⟩
    · intro j hj
      simp only [MechStep.unknowns, MechStep.problem, Problem.unknowns, initialRegMech, MechStep.yShape, valueIndex,
        List.getElem?_map]
      interval_cases j
      · rw [add_zero, hl.1]; simpa using flags_reg U _ hx hx6 params.searchRadius hv (j := 0) (by norm_num)
      · rw [hl.2]; simpa using flags_reg U _ hy hy6 params.searchRadius hv (j := 0) (by norm_num)
    · simp only [MechStep.prevY, RegMech.prevY, initialRegMech, MechStep.yShape, valueIndex, add_zero, pairs3_data, hd.1]
      simp [c1xs, hv]
    · simp only [MechStep.prevY, RegMech.prevY, initialRegMech, MechStep.yShape, valueIndex, pairs3_data, hd.2]
      simp [c1ys, hv]

end

section
variable {solver : Solver} {domain : RectDomain ℝ} {params : SimParams} {ext : ExtTemp} {traction : Traction} {s : Sim}

/-- the recorded deformations agree with the initial one at the fixed variables -/
theorem Sim.Reachable.agree (hs : s.Reachable solver domain params ext traction) (hf : solver.RespectsFixed) :
    ∃ m0 t0, s.Context domain params ext traction m0 t0 ∧
      AgreeAt (m0.unknowns.map VarData.fixed) s.therm.y.data m0.prevY.data ∧
      ∀ st ∈ s.steps, AgreeAt (m0.unknowns.map VarData.fixed) st.yData.data m0.prevY.data := by
  induction hs with
  | @new it s S h =>
    obtain ⟨m, t, step0, step1, r1, r2, w, c⟩ := Sim.of_new S h
    have cx := c.context S w
    obtain ⟨Sh, ⟨n, U⟩, F⟩ := S.simShape c.grid c.refined c.mech
    obtain ⟨a1, a2, -⟩ := mechanicalStep_facts U F c.mech
    have w1 := a1.load (solver [] m.problem)
    obtain ⟨c1, c2, -⟩ := thermalStep_cases U F a1.prevY.2 w1.1.y.2 a1.prevTheta.2 c.therm
    rw [a1.prevY.1, a1.prevTheta.1] at c1
    have w2 := c1.load (solver [m.problem] t.problem)
    have eq := c.eq
    have hst : s.steps = [step0, step1] := by rw [Sim.steps, eq, c.steps]
    have ht : s.therm = t.load (solver [m.problem] t.problem) := by rw [eq]
    have base : AgreeAt (m.unknowns.map VarData.fixed) m.prevY.data m.prevY.data := fun _ _ => rfl
    have key : AgreeAt (m.unknowns.map VarData.fixed) (m.load (solver [] m.problem)).y.data m.prevY.data := by
      rw [w1.2.2.2.1]
      exact base.of_answer a2.around (hf _ _ c.mechOk)
    have hy : s.therm.y = (m.load (solver [] m.problem)).y := by rw [ht, w2.2.2.1, c2.y]
    refine ⟨m, t, cx, by rw [hy]; exact key, ?_⟩
    intro st hmem
    rw [hst] at hmem
    simp only [List.mem_cons, List.not_mem_nil, or_false] at hmem
    rcases hmem with rfl | rfl
    · rw [c.stepY0]; exact base
    · rw [c.stepY1, hy]; exact key
  | run _ ih =>
    obtain ⟨m0, t0, c, h1, h2⟩ := ih
    refine ⟨m0, t0, Sim.run_inv (fun s => s.Context domain params ext traction m0 t0 ∧
      AgreeAt (m0.unknowns.map VarData.fixed) s.therm.y.data m0.prevY.data ∧
      ∀ st ∈ s.steps, AgreeAt (m0.unknowns.map VarData.fixed) st.yData.data m0.prevY.data) ?_ ⟨c, h1, h2⟩⟩
    rintro s ⟨c, h1, h2⟩
    have solved : ∀ m : MechStep, m.WF m0.yShape m0.thetaShape → m.unknowns.map VarData.fixed = s.mech.unknowns.map VarData.fixed →
        MechReady m s.therm.y s.therm.theta s.record.currentTime → (solver s.calls m.problem).err = none →
        AgreeAt (m0.unknowns.map VarData.fixed) (m.load (solver s.calls m.problem)).y.data m0.prevY.data := by
      intro m w e rd ok
      have e' := e.trans c.fixed
      rw [(w.load _).2.2.2.1, ← e']
      rw [← e'] at h1
      exact h1.of_answer rd.around (hf _ _ ok)
    refine ⟨c.single, ?_⟩
    rcases runSingle_any solver c.wf with ⟨m, t, step, r, s', e1, w, h⟩ | ⟨e, s', e1, w, h⟩
    · have hst : s'.steps = s.steps ++ [step] := by rw [Sim.steps, h.eq, h.steps]; rfl
      have ht : s'.therm = t.load (solver (s.calls ++ [m.problem]) t.problem) := by rw [h.eq]
      have hy : s'.therm.y = (m.load (solver s.calls m.problem)).y := by
        rw [ht, (h.thermWF.load _).2.2.1, h.thermReady.y]
      have key := solved m h.mechWF h.mechFixed h.mechReady h.mechOk
      simp only [e1]
      refine ⟨by rw [hy]; exact key, ?_⟩
      intro st hmem
      rw [hst] at hmem
      simp only [List.mem_append, List.mem_singleton] at hmem
      rcases hmem with hmem | rfl
      · exact h2 st hmem
      · rw [h.stepY, hy]; exact key
    · have hst : s'.steps = s.steps := by rw [Sim.steps, h.record]; rfl
      simp only [e1, hst]
      refine ⟨?_, h2⟩
      rcases h.y with hy | ⟨m, w, -, fx, rd, ok, hy⟩
      · rw [hy]; exact h1
      · rw [hy]; exact solved m w fx rd ok

/-! ### evaluation of recorded steps at vertices -/

theorem deformed_pairs {A B : List ℝ} {n : ℕ} (hA : A.length = n) (hB : B.length = n) (hn : 0 < n) (v : ℕ) :
    (P1Mech.pairs A B).deformed v = (A.getD v 0, B.getD v 0) := by
  have hs : (P1Mech.pairs A B).shape = [n, 2] := by
    rcases A with _ | ⟨a, A⟩
    · simp at hA; omega
    · rcases B with _ | ⟨b, B⟩
      · simp at hB; omega
      · simp at hA hB
        simp [P1Mech.pairs, NdArray.of2]
        omega
  rw [deformed_eq hs]
  simp only [valueIndex, pairs_data, List.getD_eq_getElem?_getD, add_zero]
  rw [(interleave_getElem? (hA.trans hB.symm) v).1, (interleave_getElem? (hA.trans hB.symm) v).2]

theorem deformed_pairs3 {A B : List (List ℝ)} {n : ℕ} (hA : A.length = n) (hB : B.length = n) (hA6 : ∀ x ∈ A, x.length = 6)
    (hB6 : ∀ x ∈ B, x.length = 6) (hs : (RegMech.pairs A B).shape = [n, 2, 6]) (v : ℕ) :
    (RegMech.pairs A B).deformed v = ((A[v]?.bind fun row => row[0]?).getD 0, (B[v]?.bind fun row => row[0]?).getD 0) := by
  have e := interleave2_getElem? (hA.trans hB.symm) hA6 hB6 v (j := 0) (by norm_num)
  simp only [add_zero] at e
  rw [deformed_eq hs]
  simp only [valueIndex, pairs3_data, List.getD_eq_getElem?_getD, add_zero]
  rw [e.1, e.2]

/-- the parts of a recorded step -/
theorem makeStep_parts {g : Grid ℝ} {refined : Option (RefinedGrid ℝ)} {ys ts : List ℕ}
    (S : SimShape domain params g refined ys ts) {y θ : NdArray} (hy : y.Has ys) (ht : θ.Has ts) {st : Step}
    (hst : makeStep domain params g refined y θ = .ok st) :
    (params.regularization = none ∧ ∃ n A B I1 I2 I3, g.Usable n ∧ A.length = n ∧ B.length = n ∧ y = P1Mech.pairs A B ∧
      P1Interpolation g A = .ok I1 ∧ P1Interpolation g B = .ok I2 ∧ P1Interpolation g θ.data = .ok I3 ∧
      st = ⟨y, θ, ⟨⟨I1⟩, ⟨I2⟩⟩, ⟨I3⟩, g⟩) ∨
    (params.regularization ≠ none ∧ ∃ n A B r p I1 I2 I3, g.Usable n ∧ A.length = n ∧ B.length = n ∧
      (∀ x ∈ A, x.length = 6) ∧ (∀ x ∈ B, x.length = 6) ∧ y = RegMech.pairs A B ∧ y.shape = [n, 2, 6] ∧ refined = some r ∧
      C1Interpolation g A = .ok I1 ∧ C1Interpolation g B = .ok I2 ∧ P1Interpolation r.toGrid θ.data = .ok I3 ∧
      domain.refine r.toGrid plottingRefinementFactor = .ok p ∧
      st = ⟨y, θ, ⟨⟨I1⟩, ⟨I2⟩⟩, ⟨I3⟩, p.toGrid⟩) := by
  unfold SimShape at S
  unfold makeStep at hst
  split at S
  · rename_i hreg
    obtain ⟨n, U, rfl, rfl⟩ := S
    obtain ⟨A, B, hA, hB, rfl⟩ := NdArray.exists_cols hy U.pos
    have hc := NdArray.col_pairs hA hB U.pos
    simp only [hreg, Step.new] at hst
    rw [if_neg (by rw [hy.1, U.vertices]; simp), if_neg (by rw [ht.1, U.vertices]; simp), hc.1, bind_ok] at hst
    obtain ⟨I1, i1, hst⟩ := bind_eq_ok.1 hst
    rw [hc.2, bind_ok] at hst
    obtain ⟨I2, i2, hst⟩ := bind_eq_ok.1 hst
    obtain ⟨I3, i3, hst⟩ := bind_eq_ok.1 hst
    cases hst
    exact Or.inl ⟨hreg, n, A, B, I1, I2, I3, U, hA, hB, rfl, i1, i2, i3, rfl⟩
  · rename_i reg hreg
    obtain ⟨n, k, r, p, U, rfl, F, hp, rfl, rfl⟩ := S
    obtain ⟨A, B, hA, hB, hA6, hB6, rfl⟩ := NdArray.exists_blocks hy U.pos
    have hc := NdArray.block_pairs hA hB hA6 hB6 U.pos
    simp only [hreg, Step.newRegularized] at hst
    rw [if_neg (by rw [hy.1, U.vertices]; simp), if_neg (by rw [ht.1, F.vertices]; simp), hc.1, bind_ok] at hst
    obtain ⟨I1, i1, hst⟩ := bind_eq_ok.1 hst
    rw [hc.2, bind_ok] at hst
    obtain ⟨I2, i2, hst⟩ := bind_eq_ok.1 hst
    obtain ⟨I3, i3, hst⟩ := bind_eq_ok.1 hst
    rw [hp, bind_ok] at hst
    cases hst
    exact Or.inr ⟨by rw [hreg]; simp, n, A, B, r, p, I1, I2, I3, U, hA, hB, hA6, hB6, rfl, hy.1, rfl, i1, i2, i3, hp, rfl⟩

theorem makeStep_eval {g : Grid ℝ} {refined : Option (RefinedGrid ℝ)} {ys ts : List ℕ}
    (S : SimShape domain params g refined ys ts) {nx ny : ℕ} {h : ℝ} (G : LibraryGrid g nx ny h) (hh : 15 / 10 ^ 6 < h)
    {y θ : NdArray} (hy : y.Has ys) (ht : θ.Has ts) {st : Step} (hst : makeStep domain params g refined y θ = .ok st)
    {v : Vertex} {z : ℝ × ℝ} (hv : g.At v z) :
    st.y.call z.1 z.2 = .ok (vecOf ![(y.deformed v).1, (y.deformed v).2]) := by
  obtain ⟨p1, p2⟩ := C44_vertices G hh hv
  rcases makeStep_parts S hy ht hst with ⟨-, n, A, B, I1, I2, I3, U, hA, hB, rfl, i1, i2, i3, rfl⟩ |
    ⟨-, n, A, B, r, p, I1, I2, I3, U, hA, hB, hA6, hB6, rfl, hs, -, i1, i2, i3, -, rfl⟩
  · obtain ⟨a, ha, ha'⟩ := p1 _ _ i1
    obtain ⟨b, hb, hb'⟩ := p1 _ _ i2
    rw [deformed_pairs hA hB U.pos, List.getD_eq_getElem?_getD, List.getD_eq_getElem?_getD, ha, hb]
    exact (C44_deformation _ _ _).1 a b ha' hb'
  · obtain ⟨a, _, _, _, _, _, ha, ha', -⟩ := p2 _ _ i1
    obtain ⟨b, _, _, _, _, _, hb, hb', -⟩ := p2 _ _ i2
    rw [deformed_pairs3 hA hB hA6 hB6 hs, ha, hb]
    exact (C44_deformation _ _ _).1 a b ha' hb'

theorem makeStep_theta {g : Grid ℝ} {refined : Option (RefinedGrid ℝ)} {ys ts : List ℕ}
    (S : SimShape domain params g refined ys ts) {y θ : NdArray} (hy : y.Has ys) (ht : θ.Has ts) {st : Step}
    (hst : makeStep domain params g refined y θ = .ok st) {g' : Grid ℝ}
    (hg1 : params.regularization = none → g' = g) (hg2 : params.regularization ≠ none → ∀ r, refined = some r → g' = r.toGrid)
    {nx ny : ℕ} {h : ℝ} (G : LibraryGrid g' nx ny h) (hh : 15 / 10 ^ 6 < h)
    {v : Vertex} {z : ℝ × ℝ} (hv : g'.At v z) : ∃ x, θ.data[v]? = some x ∧ st.theta.call z.1 z.2 = .ok x := by
  obtain ⟨p1, -⟩ := C44_vertices G hh hv
  rcases makeStep_parts S hy ht hst with ⟨hreg, n, A, B, I1, I2, I3, U, hA, hB, rfl, i1, i2, i3, rfl⟩ |
    ⟨hreg, n, A, B, r, p, I1, I2, I3, U, hA, hB, hA6, hB6, rfl, hs, hr, i1, i2, i3, -, rfl⟩
  · obtain rfl := hg1 hreg
    exact p1 _ _ i3
  · obtain rfl := hg2 hreg r hr
    exact p1 _ _ i3

end

end Tve
