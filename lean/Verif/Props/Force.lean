import Verif.Lemmas.Force
import Verif.Props.Optimal

/-!
# C92: the balance of forces
-/

namespace Tve

open Helpers Topology

/-! ### stresses -/

theorem IsStress.unique {W : Matrix (Fin 2) (Fin 2) ℝ → PyM ℝ} {F S S' : Matrix (Fin 2) (Fin 2) ℝ} (h : IsStress W F S)
    (h' : IsStress W F S') : S = S' := by
  ext a b
  obtain ⟨w, h1, h2⟩ := h (Matrix.single a b 1)
  obtain ⟨w', h3, h4⟩ := h' (Matrix.single a b 1)
  have e : w =ᶠ[𝓝 0] w' := by
    filter_upwards [h1, h3] with τ k1 k2
    exact Except.ok.inj (k1.symm.trans k2)
  have := h2.unique (h4.congr_of_eventuallyEq e)
  fin_cases a <;> fin_cases b <;> simpa [Fin.sum_univ_two, Matrix.single_apply] using this

/-- **C92** (stresses). At every strain that preserves the orientation the total elastic potential has exactly one derivative
`S` at every temperature, and the Kirchhoff stress `S Fᵀ` is symmetric. -/
theorem C92_elastic_stress {F : Matrix (Fin 2) (Fin 2) ℝ} (hF : 0 < F.det) (x : ℝ) :
    ∃ S, IsStress (fun A => totalElasticPotential (matOf A) x) F S ∧
      (∀ S', IsStress (fun A => totalElasticPotential (matOf A) x) F S' → S' = S) ∧ (S * F.transpose).IsSymm := by
  refine ⟨_, isStress_elastic hF x, fun S' h => h.unique (isStress_elastic hF x), ?_⟩
  ext i j
  fin_cases i <;> fin_cases j <;> simp [stressE, stressA, stressM, cof, Matrix.mul_apply, Fin.sum_univ_two] <;> ring

/-- **C92** (stresses). The dissipation potential has exactly one derivative with respect to the new strain, which is zero if
the strain does not change, and the same for opposite changes up to the sign. -/
theorem C92_viscous_stress (F0 F : Matrix (Fin 2) (Fin 2) ℝ) :
    ∃ V, IsStress (fun A => dissipationPotential (matOf F0) (matOf A)) F V ∧
      (∀ V', IsStress (fun A => dissipationPotential (matOf F0) (matOf A)) F V' → V' = V) ∧ (F = F0 → V = 0) ∧
      IsStress (fun A => dissipationPotential (matOf F0) (matOf A)) (F0 - (F - F0)) (-V) ∧ (F0.det ≠ 0 → V = 0 →
        dissipationPotential (matOf F0) (matOf F) = .ok 0) := by
  refine ⟨_, isStress_viscous F0 F, fun S' h => h.unique (isStress_viscous F0 F), fun h => ?_, ?_, fun h0 h => ?_⟩
  · rw [h]; simp [stressV]
  · have e : stressV F0 (F0 - (F - F0)) = - stressV F0 F := by
      ext i j
      fin_cases i <;> fin_cases j <;> simp [stressV, Matrix.mul_apply, Fin.sum_univ_two] <;> ring
    rw [← e]
    exact isStress_viscous _ _
  · have h1 : (F - F0).transpose * F0 + F0.transpose * (F - F0) = 0 := by
      have hu : IsUnit F0.det := isUnit_iff_ne_zero.2 h0
      have h2 : F0 * ((F - F0).transpose * F0 + F0.transpose * (F - F0)) = 0 := by
        have := congrArg (fun A => (1 / 2 : ℝ) • A) h
        simpa [stressV, smul_smul] using this
      have := congrArg (fun A => F0⁻¹ * A) h2
      simpa [← Matrix.mul_assoc, Matrix.nonsing_inv_mul F0 hu] using this
    rw [C51_value, h1]
    simp

/-! ### fixed unknowns -/

/-- the vertex an entry of an array returned by `y()` belongs to -/
def vertexOf (shape : List ℕ) (i : ℕ) : ℕ :=
  match shape with
  | [_, _, _] => i / 12
  | _ => i / 2

theorem vanishes_getD2 {z : NdArray} {n : ℕ} (hz : z.Has [n, 2]) {i : ℕ} (h : z.deformed (i / 2) = (0, 0)) : z.data.getD i 0 = 0 := by
  rw [NdArray.deformed, hz.1, Prod.mk.injEq] at h
  simp only [NdArray.at2] at h
  rcases Nat.mod_two_eq_zero_or_one i with hm | hm
  · rw [show i = i / 2 * 2 + 0 by omega]; exact h.1
  · rw [show i = i / 2 * 2 + 1 by omega]; exact h.2

theorem vanishes_getD3 {z : NdArray} {n : ℕ} (hz : z.Has [n, 2, 6]) {i : ℕ} (h6 : i % 6 = 0) (h : z.deformed (i / 12) = (0, 0)) :
    z.data.getD i 0 = 0 := by
  rw [NdArray.deformed, hz.1, Prod.mk.injEq] at h
  simp only [NdArray.at3] at h
  rcases Nat.mod_two_eq_zero_or_one (i / 6) with hm | hm
  · rw [show i = (i / 12 * 2 + 0) * 6 + 0 by omega]; exact h.1
  · rw [show i = (i / 12 * 2 + 1) * 6 + 0 by omega]; exact h.2

/-- only variables of Dirichlet vertices are fixed; with regularization only those for the values -/
theorem mechanicalStep_flags {g : Grid ℝ} {n : ℕ} (U : g.Usable n) {params : MechParams} {refined : Option (RefinedGrid ℝ)}
    (F : ∀ r, refined = some r → ∃ k, r.toGrid.Usable k) {tr : Traction} {m : MechStep}
    (h : mechanicalStep g params refined tr = .ok m) {i : ℕ} (hi : (m.unknowns.map VarData.fixed)[i]? = some true) :
    vertexOf m.yShape i ∈ g.dirichlet.vertices ∧ (m.yShape.length = 3 → i % 6 = 0) := by
  rcases (mechanicalStep_cases U F h).2 with ⟨h1, G1, G2, h2, rfl⟩ | ⟨reg, f, k, h1, h2, hk, rfl⟩
  · have hx : (xsOf g n).length = n := by simp [xsOf]
    have hy : (ysOf g n).length = n := by simp [ysOf]
    have hl := interleave_getElem? (a := fixVertices (pySet g.dirichlet.vertices)
      ((xsOf g n).map fun x => VarData.centred x params.searchRadius)) (b := fixVertices (pySet g.dirichlet.vertices)
      ((ysOf g n).map fun x => VarData.centred x params.searchRadius)) (by simp [length_fixVertices, hx, hy]) (i / 2)
    simp only [MechStep.unknowns, MechStep.problem, Problem.unknowns, initialP1Mech, List.getElem?_map] at hi
    refine ⟨?_, fun h => by simp [MechStep.yShape, initialP1Mech] at h⟩
    show i / 2 ∈ _
    have hv : i / 2 < n := by
      by_contra hn
      have hlen : ∀ L : List ℝ, L.length = n → (fixVertices (pySet g.dirichlet.vertices)
          (L.map fun x => VarData.centred x params.searchRadius))[i / 2]? = none := fun L hL => by
        rw [List.getElem?_eq_none]; rw [length_fixVertices, List.length_map, hL]; omega
      rcases Nat.mod_two_eq_zero_or_one i with hm | hm
      · rw [show i = 2 * (i / 2) by omega, hl.1, hlen _ hx] at hi; cases hi
      · rw [show i = 2 * (i / 2) + 1 by omega, hl.2, hlen _ hy] at hi; cases hi
    rcases Nat.mod_two_eq_zero_or_one i with hm | hm
    · rw [show i = 2 * (i / 2) by omega, hl.1, flags_p1 _ hx _ hv] at hi
      simpa using hi
    · rw [show i = 2 * (i / 2) + 1 by omega, hl.2, flags_p1 _ hy _ hv] at hi
      simpa using hi
  · have hx : (c1xs g n).length = n := by simp [c1xs]
    have hy : (c1ys g n).length = n := by simp [c1ys]
    have hx6 : ∀ x ∈ c1xs g n, x.length = 6 := by simp [c1xs]
    have hy6 : ∀ x ∈ c1ys g n, x.length = 6 := by simp [c1ys]
    have six : ∀ L : List (List ℝ), (∀ x ∈ L, x.length = 6) → ∀ x ∈ fixValues g.dirichlet.vertices
        (L.map fun row => row.map fun x => VarData.centred x params.searchRadius), x.length = 6 := by
      intro L h6 x hx
      obtain ⟨i, hi⟩ := List.mem_iff_getElem?.1 hx
      rw [fixValues_getElem? U.nodupD, List.getElem?_map] at hi
      rcases hL : L[i]? with _ | row
      · rw [hL] at hi; simp at hi
      · have := h6 row (List.mem_iff_getElem?.2 ⟨i, hL⟩)
        rw [hL] at hi
        simp only [Option.map_some] at hi
        split at hi <;> cases hi <;> simp [this]
    have hl := fun l1 => interleave2_getElem? (a := fixValues g.dirichlet.vertices
      ((c1xs g n).map fun row => row.map fun x => VarData.centred x params.searchRadius)) (b := fixValues g.dirichlet.vertices
      ((c1ys g n).map fun row => row.map fun x => VarData.centred x params.searchRadius)) l1 (six _ hx6) (six _ hy6) (i / 12)
      (j := i % 6) (by omega)
    have hl := hl (by simp [length_fixValues, hx, hy])
    simp only [MechStep.unknowns, MechStep.problem, Problem.unknowns, initialRegMech, List.getElem?_map] at hi
    show i / 12 ∈ _ ∧ _
    have hv : i / 12 < n := by
      by_contra hn
      have hlen : ∀ L : List (List ℝ), L.length = n → (fixValues g.dirichlet.vertices
          (L.map fun row => row.map fun x => VarData.centred x params.searchRadius))[i / 12]? = none := fun L hL => by
        rw [List.getElem?_eq_none]; rw [length_fixValues, List.length_map, hL]; omega
      rcases Nat.mod_two_eq_zero_or_one (i / 6) with hm | hm
      · rw [show i = 6 * (2 * (i / 12)) + i % 6 by omega, hl.1, hlen _ hx] at hi; cases hi
      · rw [show i = 6 * (2 * (i / 12) + 1) + i % 6 by omega, hl.2, hlen _ hy] at hi; cases hi
    rcases Nat.mod_two_eq_zero_or_one (i / 6) with hm | hm
    · rw [show i = 6 * (2 * (i / 12)) + i % 6 by omega, hl.1, flags_reg U _ hx hx6 _ hv (by omega)] at hi
      simp only [Option.some.injEq, decide_eq_true_eq] at hi
      exact ⟨hi.1, fun _ => hi.2⟩
    · rw [show i = 6 * (2 * (i / 12) + 1) + i % 6 by omega, hl.2, flags_reg U _ hy hy6 _ hv (by omega)] at hi
      simp only [Option.some.injEq, decide_eq_true_eq] at hi
      exact ⟨hi.1, fun _ => hi.2⟩

theorem edgeEqs_along {c : ℕ} {P Q : ℝ × ℝ} {p q z w : Fin 6 → ℝ} (h : EdgeEqs c P Q p q) (τ : ℝ) (z0 : z 0 = 0)
    (z1 : z 1 * (Q.1 - P.1) + z 2 * (Q.2 - P.2) = 0)
    (z2 : z 3 * (Q.1 - P.1) ^ 2 + 2 * z 4 * (Q.1 - P.1) * (Q.2 - P.2) + z 5 * (Q.2 - P.2) ^ 2 = 0) (w0 : w 0 = 0)
    (w1 : w 1 * (Q.1 - P.1) + w 2 * (Q.2 - P.2) = 0)
    (w2 : w 3 * (Q.1 - P.1) ^ 2 + 2 * w 4 * (Q.1 - P.1) * (Q.2 - P.2) + w 5 * (Q.2 - P.2) ^ 2 = 0) :
    EdgeEqs c P Q (fun k => p k + τ * z k) (fun k => q k + τ * w k) := by
  obtain ⟨q1, q2, q3, q4, q5, q6⟩ := h
  refine ⟨?_, ?_, ?_, ?_, ?_, ?_⟩
  · linear_combination q1 + τ * z0
  · linear_combination q2 + τ * z1
  · linear_combination q3 + τ * z2
  · linear_combination q4 + τ * w0
  · linear_combination q5 + τ * w1
  · linear_combination q6 + τ * w2

theorem dirichletId_along {g : Grid ℝ} {n : ℕ} (U : g.Usable n) (hD : ∀ v, IsEndpoint v g.dirichlet.edges → v ∈ g.dirichlet.vertices)
    {y z : NdArray} (hy : y.Has [n, 2, 6]) (hz : z.Has [n, 2, 6]) (hv : z.VanishesOnDirichlet g) (τ : ℝ)
    (h : DirichletId g y) : DirichletId g (y.along z τ) := by
  have ha := along_has hy hz τ
  have hnode : ∀ (a : NdArray) (j : ℕ) (v : Vertex), v < n →
      nodeParam ((List.range n).map fun i => (List.range 6).map fun k => a.at3 2 6 i j k) v =
        fun k : Fin 6 => a.at3 2 6 v j k := by
    intro a j v hv
    funext k
    rw [nodeParam]
    simp [List.getD_eq_getElem?_getD, hv]
  have hat : ∀ v j k, (y.along z τ).at3 2 6 v j k = y.at3 2 6 v j k + τ * z.at3 2 6 v j k := by
    intro v j k
    unfold NdArray.at3
    exact along_getD (has_length hy hz) τ _
  have h0 : ∀ v ∈ g.dirichlet.vertices, ∀ i < 2, z.at3 2 6 v i 0 = 0 := by
    intro v hm i hi
    have := hv.1 v hm
    rw [NdArray.deformed, hz.1, Prod.mk.injEq] at this
    interval_cases i
    · exact this.1
    · exact this.2
  intro A B hA hB e he
  rw [NdArray.block_eq ha (by norm_num)] at hA hB
  cases hA
  cases hB
  have := h _ _ (NdArray.block_eq hy (by norm_num)) (NdArray.block_eq hy (by norm_num)) e he
  obtain ⟨h1, h2, -⟩ := U.edgeVertices he
  have d1 := hD e.1 ⟨e, he, Or.inl rfl⟩
  have d2 := hD e.2 ⟨e, he, Or.inr rfl⟩
  have hz3 : z.shape.length = 3 := by rw [hz.1]; rfl
  have t1 := fun i hi => hv.2 hz3 e he e.1 (Or.inl rfl) i hi _ _ rfl
  have t2 := fun i hi => hv.2 hz3 e he e.2 (Or.inr rfl) i hi _ _ rfl
  rw [hnode _ 0 _ h1, hnode _ 0 _ h2, hnode _ 1 _ h1, hnode _ 1 _ h2] at this ⊢
  have key : ∀ i < 2, EdgeEqs i (g.xy e.1) (g.xy e.2) (fun k : Fin 6 => y.at3 2 6 e.1 i k) (fun k : Fin 6 => y.at3 2 6 e.2 i k) →
      EdgeEqs i (g.xy e.1) (g.xy e.2) (fun k : Fin 6 => (y.along z τ).at3 2 6 e.1 i k)
        (fun k : Fin 6 => (y.along z τ).at3 2 6 e.2 i k) := by
    intro i hi hq
    simp only [hat]
    exact edgeEqs_along (z := fun k : Fin 6 => z.at3 2 6 e.1 i k) (w := fun k : Fin 6 => z.at3 2 6 e.2 i k) hq τ (h0 _ d1 i hi)
      (t1 i hi).1 (t1 i hi).2 (h0 _ d2 i hi) (t2 i hi).1 (t2 i hi).2
  exact ⟨key 0 (by norm_num) this.1, key 1 (by norm_num) this.2⟩

section
variable {solver : Solver} {domain : RectDomain ℝ} {params : SimParams} {ext : ExtTemp} {traction : Traction} {s : Sim}
  {leg : LegGauss} {q : GaussRule ℝ}

/-- **C92** (the derivative). Between two recorded steps `a` and `b`, for all deformations `y` that preserve the orientation and all
displacements `z`: near `0` the objective of the mechanical problem at `y + τ z` is a differentiable function of `τ`, and its
derivative at `0` is the residual of the balance of forces at `y` for the virtual displacement `z`. Every array of the right
shape is the answer of some outcome. -/
theorem C92_derivative (hs : s.Healthy solver domain params ext traction) (hq : GaussRule.new leg 1 = .ok q) {k : ℕ}
    {a b : Step} (ha : s.steps[k]? = some a) (hb : s.steps[k + 1]? = some b) :
    ∃ p, s.calls[2 * k]? = some p ∧ (∀ y : NdArray, y.Has a.yData.shape → ∃ o, p.answer o = y.data) ∧
      ∀ y z : NdArray, y.Has a.yData.shape → z.Has a.yData.shape → Oriented s.grid s.refined y →
      ∃ (J : ℝ → ℝ) (R : ℝ),
        (∀ᶠ τ in 𝓝 (0 : ℝ), ∀ o, p.answer o = (y.along z τ).data → (p.load o).objective leg = .ok (J τ)) ∧
        HasDerivAt J R 0 ∧
        IsForceBalance leg params traction s.grid s.refined (k / params.fps) a.yData y a.thetaData z R := by
  obtain ⟨m0, t0, c, H⟩ := hs.history
  obtain ⟨m, t, h1, h2, st1, st2, -, S⟩ := H.each k _ _ ha hb
  have w := S.mechWF
  have hsh : a.yData.shape = deformShape s.grid s.refined := by
    rw [← c.yShape_eq]; exact (c.has a (List.mem_of_getElem? ha)).1.1
  rw [c.yShape_eq] at w
  rw [hsh]
  have hM : ∀ o, MechEnv (m.load o) s.grid s.refined params traction := fun o =>
    c.mechEnv (w.load o).1 (by rw [← st1]; cases m <;> rfl)
  have hobj : ∀ o v, (m.problem.load o).objective leg = .ok v ↔
      IsMechObjective leg params traction s.grid s.refined (k / params.fps) a.yData (m.load o).y a.thetaData v := by
    intro o v
    have w' := w.load o
    have i1 := ((hM o).objective_iff hq (S.mech.tractionAt.load o)).1 v
    rwa [w'.2.1, w'.2.2.1, MechStep.load_problem, S.mech.prevY, S.mech.prevTheta] at i1
  have hans : ∀ o (y : NdArray), y.Has (deformShape s.grid s.refined) → m.problem.answer o = y.data → (m.load o).y = y := by
    intro o y hy ho
    have w' := w.load o
    have e1 := w'.1.y.1
    have e2 := w'.2.2.2.1
    rw [ho] at e2
    have hy1 := hy.1
    generalize (m.load o).y = Y at e1 e2
    cases Y; cases y
    simp_all
  refine ⟨m.problem, h1, fun y hy => ?_, fun y z hy hz hor => ?_⟩
  · obtain ⟨o, ho⟩ := w.exists_outcome hy
    exact ⟨o, by rw [← (w.load o).2.2.2.1, ho]⟩
  · obtain ⟨o, ho⟩ := w.exists_outcome hy
    have hdef := ((hM o).objective_oriented hq (S.mech.tractionAt.load o)).2 (by rw [ho]; exact hor)
    rw [MechStep.load_problem] at hdef
    obtain ⟨v, hv⟩ := hdef
    rw [hobj, ho] at hv
    obtain ⟨J, R, j1, j2, j3⟩ := mechObjective_deriv c.energetic hy hz hv
    refine ⟨J, R, ?_, j2, j3⟩
    filter_upwards [j1] with τ hτ o ho
    rw [hobj, hans o _ (along_has hy hz τ) ho]
    exact hτ

/-- **C92** (equilibrium). If the deformation found by the solver is optimal, it is in equilibrium: the balance of forces holds for all
virtual displacements that vanish on the Dirichlet part of the boundary and in all entries that moved by the search radius. With
regularization the virtual displacements may have any normal derivatives there: only the position of the boundary is fixed. -/
theorem C92_equilibrium (hs : s.Healthy solver domain params ext traction) (hq : GaussRule.new leg 1 = .ok q) {k : ℕ}
    {a b : Step} (ha : s.steps[k]? = some a) (hb : s.steps[k + 1]? = some b) {p : Problem} (hp : s.calls[2 * k]? = some p)
    (hopt : p.IsOptimal leg (solver (s.calls.take (2 * k)) p)) {z : NdArray} (hz : z.Has a.yData.shape)
    (hD : z.VanishesOnDirichlet s.grid)
    (hr : ∀ (i : ℕ) (u v w : ℝ), a.yData.data[i]? = some u → b.yData.data[i]? = some v → z.data[i]? = some w → w ≠ 0 →
      |v - u| < params.searchRadius) :
    IsForceBalance leg params traction s.grid s.refined (k / params.fps) a.yData b.yData a.thetaData z 0 := by
  obtain ⟨p', h1, h2, h3⟩ := C92_derivative hs hq ha hb
  cases h1.symm.trans hp
  obtain ⟨p', k1, -, k2, k3⟩ := C63_objective hs hq ha hb
  cases k1.symm.trans hp
  have hor : Oriented s.grid s.refined b.yData := k3.1 (by obtain ⟨-, v, hv, -⟩ := hopt; exact ⟨v, hv⟩)
  obtain ⟨m0, t0, c, H⟩ := hs.history
  obtain ⟨m, t, l1, l2, st1, st2, fx, S⟩ := H.each k _ _ ha hb
  cases l1.symm.trans hp
  have hab : a.yData.shape = m0.yShape := (c.has a (List.mem_of_getElem? ha)).1.1
  have hbY := (c.has b (List.mem_of_getElem? hb)).1
  have haY := (c.has a (List.mem_of_getElem? ha)).1
  rw [hab] at h3 hz
  obtain ⟨J, R, j1, j2, j3⟩ := h3 b.yData z hbY hz hor
  set o := solver (s.calls.take (2 * k)) m.problem with ho
  obtain ⟨hadm, v, hv, hmin⟩ := hopt
  obtain ⟨it, hg⟩ := c.grid
  obtain ⟨Sh, ⟨n, U⟩, F⟩ := c.setup.simShape hg c.refined c.mech0
  obtain ⟨a1, a2, a3, a4, a5, a6, a7⟩ := mechanicalStep_facts U F c.mech0
  have hrad : m.searchRadius = params.searchRadius := (MechStep.static_searchRadius st1).trans a3
  have w := S.mechWF
  have hM : ∀ o, MechEnv (m.load o) s.grid s.refined params traction := fun o =>
    c.mechEnv (w.load o).1 (by rw [← st1]; cases m <;> rfl)
  have hcon : ∀ o, (m.problem.load o).ConstraintsHold ↔ (s.refined ≠ none → DirichletId s.grid (m.load o).y) := by
    intro o
    rw [← MechStep.load_problem]
    exact (hM o).constraints_iff
  have hnt : ¬ m.problem.IsTherm := by cases m <;> simp [MechStep.problem, Problem.IsTherm]
  have hby : m.problem.answer o = b.yData.data := by rw [← (w.load o).2.2.2.1, ← S.y]
  -- the line stays admissible
  have hbox : ∀ᶠ τ in 𝓝 (0 : ℝ), List.Forall₂ (fun (v : VarData) x => v.lb ≤ x ∧ x ≤ v.ub ∧ (v.fixed = true → x = v.value))
      m.problem.unknowns (b.yData.along z τ).data := by
    have e1 := hadm.1
    rw [hby] at e1
    have e2 := S.mech.around
    have lz := has_length hbY hz
    have lu : m.problem.unknowns.length = b.yData.data.length := e1.length_eq
    rw [List.forall₂_iff_get] at e1 e2
    have key : ∀ i : Fin m.problem.unknowns.length, ∀ᶠ τ in 𝓝 (0 : ℝ), ∀ x, (b.yData.along z τ).data[(i : ℕ)]? = some x →
        (m.problem.unknowns[i].lb ≤ x ∧ x ≤ m.problem.unknowns[i].ub ∧
          (m.problem.unknowns[i].fixed = true → x = m.problem.unknowns[i].value)) := by
      intro i
      have i1 : (i : ℕ) < b.yData.data.length := lu ▸ i.2
      have i2 : (i : ℕ) < z.data.length := lz ▸ i1
      have i3 : (i : ℕ) < a.yData.data.length := by rw [has_length haY hbY]; exact i1
      have f1 := e1.2 i i.2 i1
      have f2 := e2.2 i i.2 i3
      simp only [List.get_eq_getElem] at f1 f2
      have hget : ∀ τ, (b.yData.along z τ).data[(i : ℕ)]? = some (b.yData.data[(i : ℕ)] + τ * z.data[(i : ℕ)]) := by
        intro τ
        simp only [NdArray.along, List.getElem?_zipWith]
        rw [List.getElem?_eq_getElem i1, List.getElem?_eq_getElem i2]
      by_cases hw : z.data[(i : ℕ)] = 0
      · refine Filter.Eventually.of_forall fun τ x hx => ?_
        rw [hget, hw] at hx
        cases hx
        simpa using f1
      · have hlt := hr i _ _ _ (List.getElem?_eq_getElem i3) (List.getElem?_eq_getElem i1) (List.getElem?_eq_getElem i2) hw
        obtain ⟨f3, f4, f5⟩ := f2
        rw [hrad] at f4 f5
        have hcont : Filter.Tendsto (fun τ : ℝ => b.yData.data[(i : ℕ)] + τ * z.data[(i : ℕ)]) (𝓝 0) (𝓝 (b.yData.data[(i : ℕ)])) := by
          have : Continuous fun τ : ℝ => b.yData.data[(i : ℕ)] + τ * z.data[(i : ℕ)] := by fun_prop
          simpa using this.tendsto 0
        rw [abs_lt] at hlt
        have g1 := hcont.eventually (lt_mem_nhds (show a.yData.data[(i : ℕ)] - params.searchRadius < b.yData.data[(i : ℕ)] by linarith))
        have g2 := hcont.eventually (gt_mem_nhds (show b.yData.data[(i : ℕ)] < a.yData.data[(i : ℕ)] + params.searchRadius by linarith))
        filter_upwards [g1, g2] with τ t1 t2 x hx
        rw [hget] at hx
        cases hx
        have f4' : m.problem.unknowns[i].lb = a.yData.data[(i : ℕ)] - params.searchRadius := f4
        have f5' : m.problem.unknowns[i].ub = a.yData.data[(i : ℕ)] + params.searchRadius := f5
        refine ⟨by rw [f4']; exact t1.le, by rw [f5']; exact t2.le, fun hfix => absurd ?_ hw⟩
        have hflag : (m0.unknowns.map VarData.fixed)[(i : ℕ)]? = some true := by
          rw [← fx, List.getElem?_map]
          show Option.map VarData.fixed m.problem.unknowns[(i : ℕ)]? = _
          rw [List.getElem?_eq_getElem i.2]
          exact congrArg some hfix
        have hm := mechanicalStep_flags U F c.mech0 hflag
        have : z.data.getD (i : ℕ) 0 = 0 := by
          by_cases hreg : params.regularization = none
          · have hsh := (a6 hreg).2.2.1
            rw [hsh] at hm hz
            exact vanishes_getD2 hz (hD.1 _ hm.1)
          · obtain ⟨-, -, r, k, -, -, hsh, -⟩ := a7 hreg
            rw [hsh] at hm hz
            exact vanishes_getD3 hz (hm.2 rfl) (hD.1 _ hm.1)
        rwa [List.getD_eq_getElem?_getD, List.getElem?_eq_getElem i2] at this
    filter_upwards [Filter.eventually_all.2 key] with τ hτ
    rw [List.forall₂_iff_get]
    have hl : (b.yData.along z τ).data.length = b.yData.data.length := by
      simp [NdArray.along, lz]
    refine ⟨lu.trans hl.symm, fun i q1 q2 => ?_⟩
    have := hτ ⟨i, q1⟩ _ (List.getElem?_eq_getElem q2)
    exact this
  have hDir : ∀ τ, ∀ o', m.problem.answer o' = (b.yData.along z τ).data → (m.problem.load o').ConstraintsHold := by
    intro τ o' ho'
    rw [hcon]
    intro hne
    have hreg : params.regularization ≠ none := fun h0 => hne ((c.setup.grids hg c.refined).2.1 h0)
    obtain ⟨-, -, r, k, -, -, hsh, -⟩ := a7 hreg
    rw [hsh] at hz hbY
    have e : (m.load o').y = b.yData.along z τ := by
      have w' := w.load o'
      have e1 := w'.1.y.1
      have e2 := w'.2.2.2.1
      rw [ho'] at e2
      have e3 : (b.yData.along z τ).shape = m0.yShape := by rw [hsh]; exact hbY.1
      generalize (m.load o').y = Y at e1 e2
      generalize b.yData.along z τ = Y' at e2 e3
      cases Y; cases Y'
      simp_all
    rw [e]
    refine dirichletId_along U (fun v hv => ((C14_dirichlet_vertices c.setup.facts.2.2.2.1 c.setup.width c.setup.height hg).2.2 v).2 hv)
      hbY hz hD τ ?_
    have := (hcon o).1 hadm.2.2 hne
    rwa [← S.y] at this
  have hR : R = 0 := by
    refine IsLocalMin.hasDerivAt_eq_zero ?_ j2
    have h0 := j1.self_of_nhds
    have e0 : (b.yData.along z 0).data = b.yData.data := by
      have lz := has_length hbY hz
      apply List.ext_getElem
      · simp [NdArray.along, lz]
      · intro i q1 q2
        simp [NdArray.along]
    rw [e0] at h0
    have hJ0 : v = J 0 := Except.ok.inj (hv.symm.trans (h0 o hby))
    filter_upwards [j1, hbox] with τ t1 t2
    obtain ⟨o', ho'⟩ := h2 (b.yData.along z τ) (by rw [hab]; exact along_has hbY hz τ)
    rw [← hJ0]
    exact hmin o' _ ⟨by rw [ho']; exact t2, fun h => absurd h hnt, hDir τ o' ho'⟩ (t1 o' ho')
  rw [hR] at j3
  exact j3

/-! ### the total force -/

theorem constant_displacement {g : Grid ℝ} (E : Energetic g none) {n : ℕ} (U : g.Usable n) (c : ℝ × ℝ) :
    ∃ z : NdArray, z.Has [n, 2] ∧ (∀ v < n, z.deformed v = c) ∧
      ∀ r G, energyRule none = .ok r ∨ dissipationRule none = .ok r → IsStrainField g none r z G →
        ∀ t ∈ g.triangles, ∀ b ∈ r.points, G t b = 0 := by
  have hsh : deformShape g none = [n, 2] := by rw [deformShape, U.length]
  set z := P1Mech.pairs (List.replicate n c.1) (List.replicate n c.2) with hz
  have hdef : ∀ v < n, z.deformed v = c := by
    intro v hv
    rw [hz, deformed_pairs (by simp) (by simp) U.pos]
    simp [List.getD_eq_getElem?_getD, hv]
  have hhas : z.Has [n, 2] := NdArray.has_pairs (by simp) (by simp) U.pos
  refine ⟨z, hhas, hdef, fun r G hr h t ht b hb => ?_⟩
  obtain ⟨τ, L, M, F⟩ := E.forms
  obtain ⟨D, hD, hDS, -⟩ := F.deform z (by rw [hsh]; exact hhas)
  obtain ⟨D', h1, h2⟩ := h
  cases hD.symm.trans h1
  have hn : b.Normalized := by
    rcases hr with hr | hr
    · obtain ⟨r', e, hg⟩ := energyRule_good none
      cases hr.symm.trans e
      exact (hg.inside b hb).1
    · obtain ⟨r', e, hg⟩ := dissipationRule_good none
      cases hr.symm.trans e
      exact (hg.inside b hb).1
  have e := matOf_inj (Except.ok.inj ((h2 t ht b hb).symm.trans (hDS t ht b hn)))
  rw [e]
  have hmem := F.mem t ht b hn
  have hdof : ∀ (i : Fin 2) (v : ℕ), v < n → ∀ k : Fin 6, z.dof i v k = if k = 0 then ![c.1, c.2] i else 0 := by
    intro i v hv k
    have := hdef v hv
    rw [NdArray.deformed, hhas.1] at this
    rw [NdArray.dof, hhas.1]
    simp only [Prod.ext_iff] at this
    show (if k = 0 then z.at2 2 v i else 0) = _
    split
    · fin_cases i
      · exact this.1
      · exact this.2
    · rfl
  ext i j
  show dofForm (τ t b) (L t b j) (z.dof i) = 0
  have hlt : ∀ a, (τ t b).get a < n := by
    intro a
    have := WF.len U.wf (u := g.vertices) rfl (WF.mem_get U.wf hmem a)
    rwa [U.length] at this
  have : dofForm (τ t b) (L t b j) (z.dof i) = ∑ a, L t b j a 0 * ![c.1, c.2] i := by
    unfold dofForm
    refine Finset.sum_congr rfl fun a _ => ?_
    rw [Finset.sum_eq_single (0 : Fin 6)]
    · rw [hdof i _ (hlt a)]; simp
    · intro k _ hk
      rw [hdof i _ (hlt a), if_neg hk, mul_zero]
    · simp
  rw [this, ← Finset.sum_mul, F.grad t ht b hn j, zero_mul]

/-- **C92** (the total force). Without regularization, if no side of the domain is fixed, the deformation found by the solver is
optimal, and no vertex coordinate moved by the search radius, then the total force of the boundary traction is zero. In other
words: if the tractions on a free body do not cancel, some vertex moves as far as the search radius allows. -/
theorem C92_resultant (hs : s.Healthy solver domain params ext traction) (hq : GaussRule.new leg 1 = .ok q)
    (hreg : params.regularization = none) (hfix : domain.fix.options = []) {k : ℕ}
    {a b : Step} (ha : s.steps[k]? = some a) (hb : s.steps[k + 1]? = some b) {p : Problem} (hp : s.calls[2 * k]? = some p)
    (hopt : p.IsOptimal leg (solver (s.calls.take (2 * k)) p))
    (hr : ∀ (i : ℕ) (u v : ℝ), a.yData.data[i]? = some u → b.yData.data[i]? = some v → |v - u| < params.searchRadius) :
    IsTotalTraction leg s.grid traction (k / params.fps) (0, 0) := by
  obtain ⟨m0, t0, c, H⟩ := hs.history
  obtain ⟨it, hg⟩ := c.grid
  obtain ⟨Sh, ⟨n, U⟩, F⟩ := c.setup.simShape hg c.refined c.mech0
  have hnone : s.refined = none := (c.setup.grids hg c.refined).2.1 hreg
  have E := c.energetic
  have hsh : a.yData.shape = [n, 2] := by
    rw [(c.has a (List.mem_of_getElem? ha)).1.1, c.yShape_eq, hnone, deformShape, U.length]
  have hN := (C15_neumann_vertices_partial c.setup.facts.2.2.2.1 c.setup.width c.setup.height hg).2.2.1
  have hD : ∀ v, v ∉ s.grid.dirichlet.vertices := by
    intro v hv
    obtain ⟨_, _, f, hf, -⟩ := ((C14_dirichlet_vertices c.setup.facts.2.2.2.1 c.setup.width c.setup.height hg).2.1 v).1 hv
    rw [hfix] at hf
    cases hf
  rw [hnone] at E
  have key : ∀ d : ℝ × ℝ, ∃ z : NdArray, (∀ v < n, z.deformed v = d) ∧ IsBoundaryWork leg s.grid traction (k / params.fps) z 0 := by
    intro d
    obtain ⟨z, z1, z2, z3⟩ := constant_displacement E U d
    have := C92_equilibrium hs hq ha hb hp hopt (z := z) (by rw [hsh]; exact z1)
      ⟨fun v hv => absurd hv (hD v), fun h => by rw [z1.1] at h; simp at h⟩
      fun i u v w e1 e2 _ _ => hr i u v e1 e2
    rw [hnone] at this
    obtain ⟨e, f, ⟨r1, -, G, S', -, -, hr1, -, hG, -, -, rfl⟩, ⟨r2, -, -, G2, V, hr2, -, -, hG2, -, rfl⟩, h1, -⟩ := this
    obtain ⟨w, hw, hw'⟩ := h1 hreg
    have q1 : (energyGrid s.grid none).quad r1 (fun t b => ∑ i, ∑ j, S' t b i j * G t b i j) = 0 := by
      obtain ⟨r', e, hg⟩ := energyRule_good none
      cases hr1.symm.trans e
      exact quad_zero hg fun t ht b hb => by rw [z3 _ _ (Or.inl hr1) hG t ht b hb]; simp
    have q2 : (energyGrid s.grid none).quad r2 (fun t b => ∑ i, ∑ j, V t b i j * G2 t b i j) = 0 := by
      obtain ⟨r', e, hg⟩ := dissipationRule_good none
      cases hr2.symm.trans e
      exact quad_zero hg fun t ht b hb => by rw [z3 _ _ (Or.inr hr2) hG2 t ht b hb]; simp
    rw [q1, q2] at hw'
    have hw0 : w = 0 := by linarith
    exact ⟨z, z2, hw0 ▸ hw⟩
  obtain ⟨z1, d1, b1⟩ := key (1, 0)
  obtain ⟨z2, d2, b2⟩ := key (0, 1)
  have b1' := b1
  obtain ⟨r, T, hr', hT, e1⟩ := b1'
  have e2 := b2.unique hN ⟨r, T, hr', hT, rfl⟩
  have hv : ∀ e ∈ s.grid.neumann.edges, e.1 < n ∧ e.2 < n := by
    intro e he
    have hm := U.wf.edges e (U.wf.neumann.2 e he)
    exact ⟨List.mem_range.1 (U.vertices ▸ hm.1), List.mem_range.1 (U.vertices ▸ hm.2)⟩
  refine ⟨r, T, hr', hT, e1.trans ?_, e2.trans ?_⟩
  · unfold Grid.edgeQuad
    refine congrArg List.sum (List.map_congr_left fun e he => ?_)
    obtain ⟨v1, v2⟩ := hv e he
    congr 2
    funext s
    simp only [d1 _ v1, d1 _ v2]
    ring
  · unfold Grid.edgeQuad
    refine congrArg List.sum (List.map_congr_left fun e he => ?_)
    obtain ⟨v1, v2⟩ := hv e he
    congr 2
    funext s
    simp only [d2 _ v1, d2 _ v2]
    ring

end

/-! ### examples -/

/-- simulations whose every step is optimal exist for all admissible parameters -/
theorem optimal_run {domain : RectDomain ℝ} {params : SimParams} (S : Setup domain params) (hf : 0 < params.fps) {ext : ExtTemp}
    {traction : Traction} (hB : BoundaryDataOk ext traction) (it : SetIter) :
    ∃ (leg : LegGauss) (q : GaussRule ℝ) (solver : Solver) (s : Sim), GaussRule.new leg 1 = .ok q ∧ q.value (fun _ => 1) = 1 ∧
      solver.RespectsFixed ∧ solver.Decreases leg ∧
      s.Healthy solver domain params ext traction ∧ s.steps.length = 3 ∧ s.calls.length = 4 ∧
      ∀ (k : ℕ) (p : Problem), s.calls[k]? = some p → p.IsOptimal leg (solver (s.calls.take k) p) := by
  have hq := gauss_new_ok (lg := fun _ => .ok ([0], [2])) (n := 1) (P := [0]) (W := [2]) rfl
  obtain ⟨solver, h1, -, h3, h4, h5, h6', h7⟩ := C78_optimal_solver _ hq
  obtain ⟨s, hs⟩ := C55_usable_partial S hf h5 it fun _ => hB
  have hh := Sim.Healthy.new S hs
  obtain ⟨s', h6, h8⟩ := C66_succeeds hh h5 h4 h3 (fun _ => hB) (n := 1) (by norm_num)
  have hl : s'.steps.length = 3 := by
    have := C60_run hh.reachable h6
    rw [C60_new S hs] at this
    push_cast at this
    omega
  obtain ⟨m0, t0, c, H⟩ := h8.history
  have := H.calls
  refine ⟨_, _, solver, s', hq, ?_, h1, h6', h8, hl, by omega, h7 h8.reachable⟩
  simp [GaussRule.value]

/-- a square all of whose sides are fixed -/
noncomputable def clampedDomain : RectDomain ℝ := ⟨1, 1, .many [.lower, .right, .upper, .left]⟩

/-- a large search radius -/
noncomputable def clampedParams : SimParams := ⟨1, 2, 3, 1 / 2, none, none⟩

theorem clampedSetup : Setup clampedDomain clampedParams where
  valid := ⟨1, 2, 3, 1 / 2, none, some 7, (C55_validation_partial _ _ _ _ _ _).1
    ⟨by norm_num, by norm_num, by norm_num, by norm_num, by simp, by rintro x ⟨⟩; norm_num, by simp⟩⟩
  width := by norm_num [clampedParams, clampedDomain]
  height := by norm_num [clampedParams, clampedDomain]
  fine := by intro n h; cases h

theorem clamped_cells : cells clampedDomain.width (1 / 2) = 2 ∧ cells clampedDomain.height (1 / 2) = 2 := by
  constructor <;> rw [cells, Nat.floor_eq_iff (by norm_num [clampedDomain])] <;> norm_num [clampedDomain]

/-- the displacement of the vertex in the centre by `(3, -5)` -/
noncomputable def centreDisplacement : NdArray :=
  ⟨[9, 2], [0, 0, 0, 0, 0, 0, 0, 0, 3, -5, 0, 0, 0, 0, 0, 0, 0, 0]⟩

/-- in a square with fixed sides and a large search radius every optimal step is in equilibrium for displacements of the
centre -/
example (it : SetIter) : ∃ (leg : LegGauss) (solver : Solver) (s : Sim) (a b : Step),
    s.Healthy solver clampedDomain clampedParams (fun t => .ok (t ^ 2)) (fun t x y => .ok [t + x, y]) ∧
    s.steps[1]? = some a ∧ s.steps[2]? = some b ∧
    IsForceBalance leg clampedParams (fun t x y => .ok [t + x, y]) s.grid s.refined (1 / 3) a.yData b.yData a.thetaData
      centreDisplacement 0 := by
  obtain ⟨leg, q, solver, s, h1, -, h3, h4, h5, h6, h7, h8⟩ := optimal_run clampedSetup (by norm_num [clampedParams]) exampleBoundary it
  have ha : s.steps[1]? = some s.steps[1] := List.getElem?_eq_getElem _
  have hb : s.steps[1 + 1]? = some s.steps[2] := List.getElem?_eq_getElem _
  refine ⟨leg, solver, s, _, _, h5, ha, hb, ?_⟩
  have hp : s.calls[2 * 1]? = some s.calls[2] := List.getElem?_eq_getElem _
  obtain ⟨m0, t0, c, H⟩ := h5.history
  obtain ⟨it', hg⟩ := c.grid
  have hspec := rect_grid_spec it' clampedDomain (s := 1 / 2) (by norm_num [clampedDomain]) (by norm_num [clampedDomain])
    (by norm_num)
  rw [clamped_cells.1, clamped_cells.2] at hspec
  obtain ⟨g, ts, hg', R⟩ := hspec
  cases hg.symm.trans hg'
  have hv : s.grid.vertices = [0, 1, 2, 3, 4, 5, 6, 7, 8] := R.vertices.trans (by decide)
  have ht : s.grid.triangles = [(0, 1, 4), (3, 4, 7), (1, 2, 5), (4, 5, 8), (4, 3, 0), (7, 6, 3), (5, 4, 1), (8, 7, 4)] :=
    R.triangles.trans (by decide)
  have hat : ∀ {i j : ℕ}, i ≤ 2 → j ≤ 2 → s.grid.At (3 * j + i) (i / 2, j / 2) := by
    intro i j hi hj
    have h := R.at_lab (a := (i, j)) ⟨hi, hj⟩
    rw [lab_rowMajor hi hj] at h
    have h1 : RectGrid.pv (2 + 1) i j = 3 * j + i := by simp [RectGrid.pv, mul_comm]
    rw [h1] at h
    have h2 : pos (1 / 2) (i, j) = ((i : ℝ) / 2, (j : ℝ) / 2) := by simp [pos, div_eq_mul_inv]
    rw [h2] at h
    exact h
  have hD := (C14_dirichlet_vertices c.setup.facts.2.2.2.1 c.setup.width c.setup.height hg).2.1
  have hsides : (((cells clampedDomain.width clampedParams.scale : ℕ) : ℝ) * clampedParams.scale = 1) ∧
      (((cells clampedDomain.height clampedParams.scale : ℕ) : ℝ) * clampedParams.scale = 1) := by
    show ((cells clampedDomain.width (1 / 2) : ℕ) : ℝ) * (1 / 2) = 1 ∧ ((cells clampedDomain.height (1 / 2) : ℕ) : ℝ) * (1 / 2) = 1
    rw [clamped_cells.1, clamped_cells.2]
    norm_num
  rw [hsides.1, hsides.2] at hD
  have hfixed : ∀ st ∈ s.steps, ∀ {i j : ℕ}, i ≤ 2 → j ≤ 2 → i ≠ 1 ∨ j ≠ 1 →
      st.yData.deformed (3 * j + i) = ((i : ℝ) / 2, (j : ℝ) / 2) := by
    intro st hst i j hi hj hij
    refine C57_fixed_boundary h5.reachable h3 hst ((hD _).2 ⟨_, hat hi hj, ?_⟩) (hat hi hj)
    rcases hij with hij | hij
    · obtain rfl | rfl : i = 0 ∨ i = 2 := by omega
      · exact ⟨.left, by simp [clampedDomain, Fix.options], by simp [OnSide]⟩
      · exact ⟨.right, by simp [clampedDomain, Fix.options], by simp [OnSide]⟩
    · obtain rfl | rfl : j = 0 ∨ j = 2 := by omega
      · exact ⟨.lower, by simp [clampedDomain, Fix.options], by simp [OnSide]⟩
      · exact ⟨.upper, by simp [clampedDomain, Fix.options], by simp [OnSide]⟩
  have hin : ∀ st ∈ s.steps, 0 < (st.yData.deformed 4).1 ∧ (st.yData.deformed 4).1 < 1 ∧ 0 < (st.yData.deformed 4).2 ∧
      (st.yData.deformed 4).2 < 1 := by
    intro st hst
    have hT := C73_triangles h5.reachable h1 h4 rfl st hst
    have f0 : st.yData.deformed 0 = (0, 0) := by simpa using hfixed st hst (i := 0) (j := 0) (by norm_num) (by norm_num) (by norm_num)
    have f1 : st.yData.deformed 1 = (1 / 2, 0) := by simpa using hfixed st hst (i := 1) (j := 0) (by norm_num) (by norm_num) (by norm_num)
    have f3 : st.yData.deformed 3 = (0, 1 / 2) := by simpa using hfixed st hst (i := 0) (j := 1) (by norm_num) (by norm_num) (by norm_num)
    have f5 : st.yData.deformed 5 = (1, 1 / 2) := by simpa using hfixed st hst (i := 2) (j := 1) (by norm_num) (by norm_num) (by norm_num)
    have f7 : st.yData.deformed 7 = (1 / 2, 1) := by simpa using hfixed st hst (i := 1) (j := 2) (by norm_num) (by norm_num) (by norm_num)
    have f8 : st.yData.deformed 8 = (1, 1) := by simpa using hfixed st hst (i := 2) (j := 2) (by norm_num) (by norm_num) (by norm_num)
    have t1 := (hT (0, 1, 4) (by rw [ht]; simp)).2
    have t2 := (hT (4, 5, 8) (by rw [ht]; simp)).2
    have t3 := (hT (4, 3, 0) (by rw [ht]; simp)).2
    have t4 := (hT (8, 7, 4) (by rw [ht]; simp)).2
    simp only [f0, f1, f3, f5, f7, f8, cross] at t1 t2 t3 t4
    refine ⟨?_, ?_, ?_, ?_⟩ <;> linarith
  have hlen : s.grid.vertices.length = 9 := by rw [hv]; rfl
  have hnone : s.refined = none := (c.setup.grids hg c.refined).2.1 rfl
  have hsh : ∀ st ∈ s.steps, st.yData.shape = [9, 2] := by
    intro st hst
    rw [(c.has st hst).1.1, c.yShape_eq, hnone, deformShape, hlen]
  have key := C92_equilibrium h5 h1 ha hb hp (h8 _ _ hp) (z := centreDisplacement)
    (by rw [hsh _ (List.getElem_mem _)]; exact ⟨rfl, rfl⟩) ?_ ?_
  · norm_num [clampedParams] at key ⊢
    exact key
  · refine ⟨fun v hvD => ?_, fun h => by simp [centreDisplacement] at h⟩
    have hv9 : v ∈ s.grid.vertices := (c.setup.simShape hg c.refined c.mech0).2.1.choose_spec.wf.dirichlet.1 v hvD
    have hv4 : v ≠ 4 := by
      rintro rfl
      obtain ⟨z, hz, f, hf, hs⟩ := (hD 4).1 hvD
      have h4 := hat (i := 1) (j := 1) (by norm_num) (by norm_num)
      have : z = (1 / 2, 1 / 2) := by
        have := xy_of_at hz
        have h4' := xy_of_at h4
        rw [← this]
        simpa using h4'
      subst this
      simp only [clampedDomain, Fix.options, List.mem_cons, List.not_mem_nil, or_false] at hf
      rcases hf with rfl | rfl | rfl | rfl <;> norm_num [OnSide] at hs
    rw [hv] at hv9
    simp only [List.mem_cons, List.not_mem_nil, or_false] at hv9
    rcases hv9 with rfl | rfl | rfl | rfl | rfl | rfl | rfl | rfl | rfl <;>
      first | exact absurd rfl hv4 | rfl
  · intro i u v w hu hv hw hw0
    have hi : i = 8 ∨ i = 9 := by
      have hlt : i < 18 := (List.getElem?_eq_some_iff.1 hw).1
      by_contra hne
      push Not at hne
      apply hw0
      interval_cases i <;> first | (exact absurd rfl hne.1) | (exact absurd rfl hne.2) | (simp [centreDisplacement] at hw; exact hw.symm)
    have ea := deformed_eq (hsh _ (List.getElem_mem (by omega : 1 < s.steps.length))) 4
    have eb := deformed_eq (hsh _ (List.getElem_mem (by omega : 2 < s.steps.length))) 4
    simp only [valueIndex] at ea eb
    have ia := hin _ (List.getElem_mem (by omega : 1 < s.steps.length))
    have ib := hin _ (List.getElem_mem (by omega : 2 < s.steps.length))
    rw [ea] at ia
    rw [eb] at ib
    simp only [List.getD_eq_getElem?_getD] at ia ib
    show _ < 2
    rcases hi with rfl | rfl
    · norm_num [hu, hv] at ia ib
      rw [abs_lt]; constructor <;> linarith
    · norm_num [hu, hv] at ia ib
      rw [abs_lt]; constructor <;> linarith

/-- a square none of whose sides is fixed -/
noncomputable def freeDomain : RectDomain ℝ := ⟨1, 1, .none⟩

theorem freeSetup : Setup freeDomain exampleParams where
  valid := exampleSetup.valid
  width := by norm_num [exampleParams, freeDomain]
  height := by norm_num [exampleParams, freeDomain]
  fine := by intro n h; cases h

/-- if a free body is pulled to the right, in every optimal step some vertex coordinate moves by the search radius -/
example (it : SetIter) : ∃ (solver : Solver) (s : Sim) (a b : Step),
    s.Healthy solver freeDomain exampleParams (fun t => .ok (t ^ 2)) (fun _ _ _ => .ok [1, 0]) ∧
    s.steps[1]? = some a ∧ s.steps[2]? = some b ∧
    ∃ (i : ℕ) (u v : ℝ), a.yData.data[i]? = some u ∧ b.yData.data[i]? = some v ∧ 1 / 8 ≤ |v - u| := by
  obtain ⟨leg, q, solver, s, h1, h2, h3, h4, h5, h6, h7, h8⟩ := optimal_run freeSetup (by norm_num [exampleParams])
    (ext := fun t => .ok (t ^ 2)) (traction := fun _ _ _ => .ok [1, 0])
    ⟨fun _ _ _ => ⟨_, _, rfl⟩, fun t => ⟨_, sq_nonneg t, rfl⟩⟩ it
  have ha : s.steps[1]? = some s.steps[1] := List.getElem?_eq_getElem _
  have hb : s.steps[1 + 1]? = some s.steps[2] := List.getElem?_eq_getElem _
  refine ⟨solver, s, _, _, h5, ha, hb, ?_⟩
  have hp : s.calls[2 * 1]? = some s.calls[2] := List.getElem?_eq_getElem _
  by_contra hne
  push Not at hne
  obtain ⟨r, T, hr, hT, hw, -⟩ := C92_resultant h5 h1 rfl rfl ha hb hp (h8 _ _ hp) hne
  cases h1.symm.trans hr
  obtain ⟨m0, t0, c, H⟩ := h5.history
  obtain ⟨it', hg⟩ := c.grid
  have G := (c.setup.grids hg c.refined).1
  have hN := (C15_neumann_vertices_partial c.setup.facts.2.2.2.1 c.setup.width c.setup.height hg).2.2.1
  have hT1 : ∀ e ∈ s.grid.neumann.edges, (T e.1).1 = 1 ∧ (T e.2).1 = 1 := by
    intro e he
    constructor
    · obtain ⟨l, e1, e2, -⟩ := hT e.1 (hN _ ⟨e, he, Or.inl rfl⟩)
      cases e1
      simpa using e2.symm
    · obtain ⟨l, e1, e2, -⟩ := hT e.2 (hN _ ⟨e, he, Or.inr rfl⟩)
      cases e1
      simpa using e2.symm
  have hsum : (s.grid.neumann.edges.map (edgeLen s.grid.xy)).sum = 0 := by
    rw [show (0 : ℝ) = _ from hw, Grid.edgeQuad]
    refine congrArg List.sum (List.map_congr_left fun e he => ?_)
    obtain ⟨t1, t2⟩ := hT1 e he
    simp only [t1, t2]
    have : (fun s : ℝ => s * 1 + (1 - s) * 1) = fun _ => (1 : ℝ) := by funext s; ring
    rw [this, h2, mul_one]
  have hspec := rect_grid_spec it' freeDomain (s := 1 / 2) (by norm_num [freeDomain]) (by norm_num [freeDomain]) (by norm_num)
  rw [show cells freeDomain.width (1 / 2) = 2 from clamped_cells.1, show cells freeDomain.height (1 / 2) = 2 from clamped_cells.2]
    at hspec
  obtain ⟨g, ts, hg', R⟩ := hspec
  cases hg.symm.trans hg'
  have hat : ∀ {i : ℕ}, i ≤ 2 → s.grid.At i ((i : ℝ) / 2, 0) := by
    intro i hi
    have h := R.at_lab (a := (i, 0)) ⟨hi, by norm_num⟩
    rw [lab_rowMajor hi (by norm_num)] at h
    have h1 : RectGrid.pv (2 + 1) i 0 = i := by simp [RectGrid.pv]
    rw [h1] at h
    have h2 : pos (1 / 2) (i, 0) = ((i : ℝ) / 2, 0) := by simp [pos, div_eq_mul_inv]
    rw [h2] at h
    exact h
  have hbe : ((0, 1) : Edge) ∈ s.grid.boundary.edges := by
    rw [R.boundary]
    exact (by decide : ((0, 1) : Edge) ∈ RectGrid.boundaryEdges (2 + 1) (2 + 1))
  have hne' : ((0, 1) : Edge) ∈ s.grid.neumann.edges := by
    rw [R.memNE]
    refine ⟨hbe, fun hd => ?_⟩
    rw [R.memDE] at hd
    obtain ⟨f, hf, -⟩ := hd
    cases hf
  have hpos : 0 < edgeLen s.grid.xy (0, 1) := by
    have e0 := xy_of_at (hat (i := 0) (by norm_num))
    have e1 := xy_of_at (hat (i := 1) (by norm_num))
    simp only [edgeLen, e0, e1]
    apply Real.sqrt_pos.2
    norm_num
  have := sum_map_ge (f := edgeLen s.grid.xy) (fun e _ => Real.sqrt_nonneg _) hne'
  linarith

end Tve
