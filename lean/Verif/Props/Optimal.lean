import Verif.Lemmas.Optimal
import Verif.Lemmas.Posed
import Verif.Lemmas.SimSuccess
import Verif.Spec.Optimal
import Verif.Props.Rigid
import Verif.Props.Dirichlet
import Verif.Props.Simulation
import Verif.Props.Thermal

/-!
# C78: every problem posed to the solver has an optimal solution
-/

namespace Tve

open Helpers

/-! ### the values of the unknowns -/

theorem box_compact (l : List VarData) (N : ℕ) : IsCompact {x : Fin N → ℝ |
    List.Forall₂ (fun (v : VarData) x => v.lb ≤ x ∧ x ≤ v.ub ∧ (v.fixed = true → x = v.value)) l (List.ofFn x)} := by
  by_cases hl : l.length = N
  · subst hl
    have : {x : Fin l.length → ℝ |
        List.Forall₂ (fun (v : VarData) x => v.lb ≤ x ∧ x ≤ v.ub ∧ (v.fixed = true → x = v.value)) l (List.ofFn x)} =
        Set.univ.pi fun i => {y | l[i].lb ≤ y ∧ y ≤ l[i].ub ∧ (l[i].fixed = true → y = l[i].value)} := by
      ext x
      simp only [Set.mem_ofPred_eq, List.forall₂_iff_get, List.length_ofFn, true_and, Set.mem_univ_pi]
      constructor
      · intro h i
        have := h i i.2 i.2
        simpa using this
      · intro h i h1 h2
        have := h ⟨i, h1⟩
        simpa using this
    rw [this]
    refine isCompact_univ_pi fun i => ?_
    have e : {y | l[i].lb ≤ y ∧ y ≤ l[i].ub ∧ (l[i].fixed = true → y = l[i].value)} =
        Set.Icc l[i].lb l[i].ub ∩ {y | l[i].fixed = true → y = l[i].value} := by
      ext y; simp [and_assoc]
    rw [e]
    refine isCompact_Icc.inter_right ?_
    by_cases hf : l[i].fixed = true
    · simp only [hf, forall_const]
      exact isClosed_eq continuous_id continuous_const
    · have : {y : ℝ | l[i].fixed = true → y = l[i].value} = Set.univ := by
        ext y; simp only [Set.mem_univ, iff_true]; exact fun h => absurd h hf
      rw [this]
      exact isClosed_univ
  · convert isCompact_empty
    ext x
    simp only [Set.mem_ofPred_eq, Set.mem_empty_iff_false, iff_false]
    intro h
    have := h.length_eq
    rw [List.length_ofFn] at this
    exact hl this

theorem mapIdx_getD {α : Type} (l : List α) {A : List ℝ} (h : l.length = A.length) : (l.mapIdx fun i _ => A.getD i 0) = A := by
  apply List.ext_getElem
  · simpa using h
  · intro i h1 h2
    simp [List.getD_eq_getElem?_getD, h2]

theorem mapIdx2_getD {α : Type} (l : List (List α)) {A : List (List ℝ)} {n : ℕ} (h : l.length = n ∧ ∀ x ∈ l, x.length = 6)
    (hA : A.length = n) (hA6 : ∀ r ∈ A, r.length = 6) :
    (l.mapIdx fun i row => row.mapIdx fun j _ => (A.getD i []).getD j 0) = A := by
  apply List.ext_getElem
  · simp [h.1, hA]
  · intro i h1 h2
    have h1' : i < l.length := by simpa using h1
    rw [List.getElem_mapIdx]
    have e : A.getD i [] = A[i] := by simp [List.getD_eq_getElem?_getD, h2]
    rw [e]
    exact mapIdx_getD _ ((h.2 _ (List.getElem_mem h1')).trans (hA6 _ (List.getElem_mem h2)).symm)

theorem MechStep.WF.exists_outcome {m : MechStep} {ys ts : List ℕ} (w : m.WF ys ts) {y : NdArray} (hy : y.Has ys) :
    ∃ o : Outcome, (m.load o).y = y := by
  rcases m with s | s
  · obtain ⟨n, w, rfl, rfl⟩ := w
    obtain ⟨A, B, hA, hB, rfl⟩ := NdArray.exists_cols hy w.pos
    refine ⟨⟨fun i _ => A.getD i 0, fun i _ => B.getD i 0, fun _ => 0, none⟩, ?_⟩
    show P1Mech.pairs (varValues (loadVars _ s.model.y1)) (varValues (loadVars _ s.model.y2)) = _
    rw [varValues_loadVars, varValues_loadVars, mapIdx_getD _ (w.y1.trans hA.symm), mapIdx_getD _ (w.y2.trans hB.symm)]
  · obtain ⟨n, k, w, rfl, rfl⟩ := w
    obtain ⟨A, B, hA, hB, hA6, hB6, rfl⟩ := NdArray.exists_blocks hy w.pos
    refine ⟨⟨fun i k => (A.getD i []).getD k 0, fun i k => (B.getD i []).getD k 0, fun _ => 0, none⟩, ?_⟩
    show RegMech.pairs (varValues2 (loadVars2 _ s.model.y1)) (varValues2 (loadVars2 _ s.model.y2)) = _
    rw [varValues2_loadVars2, varValues2_loadVars2, mapIdx2_getD _ w.y1 hA hA6, mapIdx2_getD _ w.y2 hB hB6]

/-! ### the constraints -/

theorem dirichletId_closed {g : Grid ℝ} {n : ℕ} (U : g.Usable n) {N : ℕ} (hN : [n, 2, 6].prod = N) :
    IsClosed {x : Fin N → ℝ | DirichletId g (arrOf [n, 2, 6] x)} := by
  have hnode : ∀ (x : Fin N → ℝ) (j : ℕ) (v : Vertex), v < n →
      nodeParam ((List.range n).map fun i => (List.range 6).map fun k => (arrOf [n, 2, 6] x).at3 2 6 i j k) v =
        fun k : Fin 6 => (arrOf [n, 2, 6] x).at3 2 6 v j k := by
    intro x j v hv
    funext k
    rw [nodeParam]
    simp [List.getD_eq_getElem?_getD, hv]
  have : {x : Fin N → ℝ | DirichletId g (arrOf [n, 2, 6] x)} = ⋂ e ∈ g.dirichlet.edges, {x |
      EdgeEqs 0 (g.xy e.1) (g.xy e.2) (fun k : Fin 6 => (arrOf [n, 2, 6] x).at3 2 6 e.1 0 k)
        (fun k : Fin 6 => (arrOf [n, 2, 6] x).at3 2 6 e.2 0 k) ∧
      EdgeEqs 1 (g.xy e.1) (g.xy e.2) (fun k : Fin 6 => (arrOf [n, 2, 6] x).at3 2 6 e.1 1 k)
        (fun k : Fin 6 => (arrOf [n, 2, 6] x).at3 2 6 e.2 1 k)} := by
    ext x
    have b0 := NdArray.block_eq (arrOf_has hN x) (j := 0) (by norm_num)
    have b1 := NdArray.block_eq (arrOf_has hN x) (j := 1) (by norm_num)
    simp only [Set.mem_ofPred_eq, Set.mem_iInter]
    constructor
    · intro h e he
      have := h _ _ b0 b1 e he
      obtain ⟨h1, h2, -⟩ := U.edgeVertices he
      rw [hnode x 0 _ h1, hnode x 0 _ h2, hnode x 1 _ h1, hnode x 1 _ h2] at this
      exact this
    · intro h A B hA hB e he
      cases b0.symm.trans hA
      cases b1.symm.trans hB
      obtain ⟨h1, h2, -⟩ := U.edgeVertices he
      rw [hnode x 0 _ h1, hnode x 0 _ h2, hnode x 1 _ h1, hnode x 1 _ h2]
      exact h e he
  rw [this]
  have c : ∀ v j k, Continuous fun x : Fin N → ℝ => (arrOf [n, 2, 6] x).at3 2 6 v j k := fun v j k => continuous_at3 _ _ _ _ _ _
  have key : ∀ (a : ℕ) (P Q : ℝ × ℝ) (v w : Vertex) (j : ℕ), IsClosed {x : Fin N → ℝ |
      EdgeEqs a P Q (fun k : Fin 6 => (arrOf [n, 2, 6] x).at3 2 6 v j k) (fun k : Fin 6 => (arrOf [n, 2, 6] x).at3 2 6 w j k)} := by
    intro a P Q v w j
    unfold EdgeEqs
    have c2 := fun v i k => ((c v j k).mul (continuous_const (y := (Q.1 - P.1)))).add ((c v j i).mul (continuous_const (y := (Q.2 - P.2))))
    have c3 : ∀ v, Continuous fun x : Fin N → ℝ => (arrOf [n, 2, 6] x).at3 2 6 v j (3 : Fin 6) * (Q.1 - P.1) ^ 2 +
        2 * (arrOf [n, 2, 6] x).at3 2 6 v j (4 : Fin 6) * (Q.1 - P.1) * (Q.2 - P.2) +
        (arrOf [n, 2, 6] x).at3 2 6 v j (5 : Fin 6) * (Q.2 - P.2) ^ 2 := fun v =>
      (((c v j _).mul continuous_const).add (((continuous_const.mul (c v j _)).mul continuous_const).mul continuous_const)).add
        ((c v j _).mul continuous_const)
    exact (isClosed_eq (c v j _) continuous_const).inter ((isClosed_eq (c2 v _ _) continuous_const).inter
      ((isClosed_eq (c3 v) continuous_const).inter ((isClosed_eq (c w j _) continuous_const).inter
      ((isClosed_eq (c2 w _ _) continuous_const).inter (isClosed_eq (c3 w) continuous_const)))))
  exact isClosed_iInter fun e => isClosed_iInter fun _ => (key _ _ _ _ _ _).inter (key _ _ _ _ _ _)

section
variable {g : Grid ℝ} {refined : Option (RefinedGrid ℝ)} {params : SimParams} {traction : Traction} {m : MechStep}

theorem MechEnv.constraints_iff (M : MechEnv m g refined params traction) :
    m.problem.ConstraintsHold ↔ (refined ≠ none → DirichletId g m.y) := by
  obtain ⟨ys, ts, w⟩ := M.wf
  obtain ⟨n, U⟩ := M.usable
  have hg := M.grid
  have hr := M.fine
  rcases m with s | s
  · have : refined = none := hr.symm
    simp [this, MechStep.problem, Problem.ConstraintsHold]
  · obtain ⟨n', k, w, rfl, rfl⟩ := w
    have hn : n' = n := by
      have h1 := w.vertices
      have h2 := U.vertices
      have hg' : s.model.grid = g := hg
      rw [hg', h2] at h1
      simpa using h1.symm
    subst hn
    have : refined ≠ none := by rw [← hr]; simp [MechStep.problem, Problem.refined]
    simp only [this, ne_eq, not_false_eq_true, true_imp_iff]
    exact constraintsHold_iff U hg w.toWF

theorem mech_optimal {leg : LegGauss} {q : GaussRule ℝ} {ts : List ℕ} {time : ℝ}
    (hM : ∀ o, MechEnv (m.load o) g refined params traction)
    (w : m.WF (deformShape g refined) ts) (hq : GaussRule.new leg 1 = .ok q) (hT : m.TractionAt time)
    (hθ : ∀ x ∈ m.prevTheta.data, 0 ≤ x) {o1 : Outcome} {v1 : ℝ} (ho : m.problem.Admits o1)
    (hv : (m.problem.load o1).objective leg = .ok v1) : ∃ o, m.problem.IsOptimal leg o := by
  have hobj : ∀ o v, (m.problem.load o).objective leg = .ok v ↔
      IsMechObjective leg params traction g refined time m.prevY (m.load o).y m.prevTheta v := by
    intro o v
    have w' := w.load o
    have i1 := ((hM o).objective_iff hq (hT.load o)).1 v
    rwa [w'.2.1, w'.2.2.1, MechStep.load_problem] at i1
  have hcon : ∀ o, (m.problem.load o).ConstraintsHold ↔ (refined ≠ none → DirichletId g (m.load o).y) := by
    intro o
    rw [← MechStep.load_problem]
    exact (hM o).constraints_iff
  have hnt : ¬ m.problem.IsTherm := by cases m <;> simp [MechStep.problem, Problem.IsTherm]
  set shape := deformShape g refined with hshape
  have hx : ∀ o, ∃ x : Fin shape.prod → ℝ, (m.load o).y = arrOf shape x ∧ m.problem.answer o = List.ofFn x := by
    intro o
    have w' := w.load o
    obtain ⟨x, hx⟩ := exists_arrOf rfl w'.1.y
    refine ⟨x, hx, ?_⟩
    rw [← w'.2.2.2.1, hx]; rfl
  set K : Set (Fin shape.prod → ℝ) := {x | List.Forall₂ (fun (v : VarData) x => v.lb ≤ x ∧ x ≤ v.ub ∧
    (v.fixed = true → x = v.value)) m.problem.unknowns (List.ofFn x)} ∩ {x | refined ≠ none → DirichletId g (arrOf shape x)} with hKdef
  have hadm : ∀ o x, (m.load o).y = arrOf shape x → (m.problem.Admits o ↔ x ∈ K) := by
    intro o x hox
    have w' := w.load o
    have ha : m.problem.answer o = List.ofFn x := by rw [← w'.2.2.2.1, hox]; rfl
    rw [Problem.Admits, ha, hcon, hox]
    simp [hnt, hKdef]
  have hK : IsCompact K := by
    refine (box_compact _ _).inter_right ?_
    by_cases hr : refined = none
    · simp [hr]
    · simp only [ne_eq, hr, not_false_eq_true, true_imp_iff]
      obtain ⟨n, U⟩ := (hM o1).usable
      have : shape = [n, 2, 6] := by
        rw [hshape]
        cases refined with
        | none => exact absurd rfl hr
        | some r => rw [deformShape, U.length]
      have := dirichletId_closed U (N := shape.prod) (by rw [this])
      rwa [← ‹shape = [n, 2, 6]›] at this
  obtain ⟨x1, hx1, -⟩ := hx o1
  have hv1 := (hobj o1 v1).1 hv
  rw [hx1] at hv1
  obtain ⟨x, hxK, v, hxv, hmin⟩ := mech_minimizer (hM o1).energetic rfl hθ (hM o1).endpoints hK ((hadm o1 x1 hx1).1 ho) hv1
  obtain ⟨o, hox⟩ := w.exists_outcome (arrOf_has rfl x)
  refine ⟨o, (hadm o x hox).2 hxK, v, (hobj o v).2 (by rw [hox]; exact hxv), fun o' v' ha' hv' => ?_⟩
  obtain ⟨x', hx', -⟩ := hx o'
  refine hmin x' ((hadm o' x' hx').1 ha') v' ?_
  rw [← hx']
  exact (hobj o' v').1 hv'

/-! ### thermal problems -/

theorem anti_continuous : Continuous anti := by
  rw [continuous_iff_continuousAt]
  exact fun t => (anti_deriv t).continuousAt

theorem tempAntider_value {F : Matrix (Fin 2) (Fin 2) ℝ} (h : 0 < F.det) (x : ℝ) :
    tempAntiderInternalEnergyNoEntropy (matOf F) x = .ok (anti x * (wA F - wM F)) := by
  rw [tempAntiderInternalEnergyNoEntropy, antider_eq, bind_ok, austPot_eq h, bind_ok, martPot_eq h.ne']
  rfl

theorem IsThermObjective.unique (W : (energyGrid g refined).WellFormed) {leg : LegGauss} {ext : ExtTemp} {time : ℝ}
    {y0 y θ0 θ : NdArray} {v v' : ℝ} (h : IsThermObjective leg params ext g refined time y0 y θ0 θ v)
    (h' : IsThermObjective leg params ext g refined time y0 y θ0 θ v') : v = v' := by
  obtain ⟨b, h1, h2⟩ := h.code W
  obtain ⟨b', h1', h2'⟩ := h'.code W
  cases h1.unique h1'
  exact Except.ok.inj (h2.symm.trans h2')

/-- the objective of the thermal step is a continuous function of the temperatures at the vertices -/
theorem therm_fun (E : Energetic g refined) {N : ℕ} (hN : (energyGrid g refined).vertices.length = N) {leg : LegGauss}
    {ext : ExtTemp} {time : ℝ} {y0 y θ0 θ1 : NdArray} {v1 : ℝ}
    (h : IsThermObjective leg params ext g refined time y0 y θ0 θ1 v1) :
    ∃ φ : (Fin N → ℝ) → ℝ, Continuous φ ∧ ∀ x θ, θ.data = List.ofFn x →
      IsThermObjective leg params ext g refined time y0 y θ0 θ (φ x) := by
  obtain ⟨r, F0, F, K, x0, x, q, a, u, G, b, hr, hs, -, hk, hb, -⟩ := h
  obtain ⟨nx, ny, sc, L⟩ := E.lib
  set Z : (Fin N → ℝ) → Tri → Bary ℝ → ℝ := fun x => p1Value (List.ofFn x) with hZ
  set H : (Fin N → ℝ) → Tri → Bary ℝ → Fin 2 → ℝ := fun x => p1Gradient (energyGrid g refined) (List.ofFn x) with hH
  have cZ : ∀ t c, Continuous fun x => Z x t c := by
    intro t c
    simp only [hZ, p1Value]
    exact ((continuous_const.mul (continuous_getD _)).add (continuous_const.mul (continuous_getD _))).add
      (continuous_const.mul (continuous_getD _))
  have cH : ∀ t c (i : Fin 2), Continuous fun x => H x t c i := by
    intro t c i
    simp only [hH, p1Gradient]
    have key : ∀ w : Fin 3 → ℝ, Continuous fun x : Fin N → ℝ =>
        ∑ j, w j * (List.ofFn x).getD (t.get j) 0 / Bell.twoD ((energyGrid g refined).corners t) := fun w =>
      continuous_finsetSum _ fun j _ => (continuous_const.mul (continuous_getD _)).div_const _
    fin_cases i
    · exact key _
    · exact key _
  have hbd : ∃ β : (Fin N → ℝ) → ℝ, Continuous β ∧ ∀ x, IsBoundaryHeat leg params ext g time (List.ofFn x) (β x) := by
    by_cases hreg : params.regularization = none
    · obtain ⟨rg, e, h1, h2, -⟩ := hb.1 hreg
      refine ⟨fun x => g.edgeQuad g.boundary.edges rg fun ed s =>
        transferCoeff / 2 * (s * (List.ofFn x).getD ed.1 0 + (1 - s) * (List.ofFn x).getD ed.2 0 - e) ^ 2, ?_, fun x =>
        ⟨fun _ => ⟨rg, e, h1, h2, rfl⟩, fun h0 => absurd hreg h0⟩⟩
      unfold Grid.edgeQuad GaussRule.value
      rw [← continuousOn_univ]
      refine continuousOn_list_sum _ fun e _ => continuousOn_const.mul ?_
      refine continuousOn_list_sum _ fun p _ => continuousOn_const.mul (Continuous.continuousOn ?_)
      exact continuous_const.mul ((((continuous_const.mul (continuous_getD _)).add
        (continuous_const.mul (continuous_getD _))).sub continuous_const).pow 2)
    · exact ⟨fun _ => 0, continuous_const, fun x => ⟨fun h0 => absurd h0 hreg, fun _ => rfl⟩⟩
  obtain ⟨β, cβ, hβ⟩ := hbd
  refine ⟨fun x => (energyGrid g refined).quad r (fun t c => H x t c ⬝ᵥ (K t c).mulVec (H x t c) - q t c * Z x t c) + β x +
      params.fps * (energyGrid g refined).quad r (fun t c => 10 / 2 * (Z x t c - x0 t c) ^ 2 +
        (anti (Z x t c) * (wA (F t c) - wM (F t c)) - u t c * Z x t c)), ?_, ?_⟩
  · have k1 : Continuous fun x => (energyGrid g refined).quad r
        (fun t c => H x t c ⬝ᵥ (K t c).mulVec (H x t c) - q t c * Z x t c) := by
      rw [← continuousOn_univ]
      refine quad_continuousOn fun t ht c hc => Continuous.continuousOn ?_
      refine Continuous.sub ?_ (continuous_const.mul (cZ t c))
      simp only [dotProduct, Matrix.mulVec]
      exact continuous_finsetSum _ fun i _ => (cH t c i).mul (continuous_finsetSum _ fun j _ => continuous_const.mul (cH t c j))
    have k2 : Continuous fun x => (energyGrid g refined).quad r (fun t c => 10 / 2 * (Z x t c - x0 t c) ^ 2 +
        (anti (Z x t c) * (wA (F t c) - wM (F t c)) - u t c * Z x t c)) := by
      rw [← continuousOn_univ]
      refine quad_continuousOn fun t ht c hc => Continuous.continuousOn ?_
      exact (continuous_const.mul (((cZ t c).sub continuous_const).pow 2)).add
        (((anti_continuous.comp (cZ t c)).mul continuous_const).sub (continuous_const.mul (cZ t c)))
    exact (k1.add cβ).add (continuous_const.mul k2)
  · intro x θ hθ
    refine ⟨r, F0, F, K, x0, Z x, q, fun t c => anti (Z x t c) * (wA (F t c) - wM (F t c)), u, H x, β x, hr, hs, ?_, ?_, ?_, rfl⟩
    · rw [hθ]
      exact tempField L r (by simp [hN])
    · intro t ht c hc
      obtain ⟨l1, l2, l3⟩ := hk t ht c hc
      exact ⟨l1, tempAntider_value (antider_pos l2) _, l3⟩
    · rw [hθ]; exact hβ x

theorem ThermStep.WF.exists_outcome {t : ThermStep} {ys ts : List ℕ} (w : t.WF ys ts) {d : List ℝ}
    (hd : d.length = t.unknowns.length) : ∃ o : Outcome, (t.load o).theta.data = d := by
  refine ⟨⟨fun _ _ => 0, fun _ _ => 0, fun i => d.getD i 0, none⟩, ?_⟩
  rw [(w.load _).2.2.2.2.1]
  cases t <;> exact mapIdx_getD _ hd.symm

theorem therm_optimal {t : ThermStep} {leg : LegGauss} {q : GaussRule ℝ} {ys ts : List ℕ} {ext : ExtTemp} {time : ℝ}
    (hM : ∀ o, ThermEnv (t.load o) g refined params ext) (w : t.WF ys ts) (hq : GaussRule.new leg 1 = .ok q)
    (hT : t.ExtAt time) {o1 : Outcome} {v1 : ℝ} (ho : t.problem.Admits o1)
    (hv : (t.problem.load o1).objective leg = .ok v1) : ∃ o, t.problem.IsOptimal leg o := by
  have hobj : ∀ o v, (t.problem.load o).objective leg = .ok v ↔
      IsThermObjective leg params ext g refined time t.prevY t.y t.prevTheta (t.load o).theta v := by
    intro o v
    have w' := w.load o
    have i1 := (hM o).objective_iff hq (hT.load o) v
    rwa [w'.2.1, w'.2.2.1, w'.2.2.2.1, ThermStep.load_problem] at i1
  have hcon : ∀ o, (t.problem.load o).ConstraintsHold := by intro o; cases t <;> trivial
  have hth : t.problem.IsTherm := by cases t <;> trivial
  set N := (energyGrid g refined).vertices.length with hNdef
  have hun : t.unknowns.length = N := by
    have h1 := (hM o1).lengths.2.2
    have h2 := congrArg List.length (w.load o1).2.2.2.2.2.1
    simp only [List.length_map] at h2
    rw [← h2]; exact h1
  have hx : ∀ o, ∃ x : Fin N → ℝ, (t.load o).theta.data = List.ofFn x := by
    intro o
    have := (hM o).lengths.2.1
    exact ⟨fun i => (t.load o).theta.data[i]'(by omega), by
      apply List.ext_getElem
      · simp [this, hNdef]
      · intro i h1 h2; simp⟩
  obtain ⟨x1, hx1⟩ := hx o1
  have hv1 := (hobj o1 v1).1 hv
  obtain ⟨φ, cφ, hφ⟩ := therm_fun (hM o1).energetic rfl hv1
  set K : Set (Fin N → ℝ) := {x | List.Forall₂ (fun (v : VarData) x => v.lb ≤ x ∧ x ≤ v.ub ∧
    (v.fixed = true → x = v.value)) t.problem.unknowns (List.ofFn x)} ∩ {x | ∀ i, 0 ≤ x i} with hKdef
  have hK : IsCompact K := by
    refine (box_compact _ _).inter_right ?_
    simp only [Set.ofPred_forall]
    exact isClosed_iInter fun i => isClosed_le continuous_const (continuous_apply i)
  have hadm : ∀ o x, (t.load o).theta.data = List.ofFn x → (t.problem.Admits o ↔ x ∈ K) := by
    intro o x hox
    have ha : t.problem.answer o = List.ofFn x := by rw [← (w.load o).2.2.2.2.1, hox]
    rw [Problem.Admits, ha]
    simp only [hth, hcon, true_imp_iff, and_true, hKdef, Set.mem_inter_iff, Set.mem_ofPred_eq]
    simp [List.mem_ofFn]
  obtain ⟨x, hxK, hmin⟩ := hK.exists_isMinOn ⟨x1, (hadm o1 x1 hx1).1 ho⟩ cφ.continuousOn
  obtain ⟨o, hox⟩ := w.exists_outcome (d := List.ofFn x) (by simp [hun])
  refine ⟨o, (hadm o x hox).2 hxK, φ x, (hobj o _).2 (hφ x _ hox), fun o' v' ha' hv' => ?_⟩
  obtain ⟨x', hx'⟩ := hx o'
  rw [((hobj o' v').1 hv').unique (hM o1).energetic.wf (hφ x' _ hx')]
  exact hmin ((hadm o' x' hx').1 ha')

end

/-! ### C78 -/

section
variable {solver : Solver} {domain : RectDomain ℝ} {params : SimParams} {ext : ExtTemp} {traction : Traction} {s : Sim}
  {leg : LegGauss} {q : GaussRule ℝ}

/-- staying at the values a problem starts from -/
theorem forall₂_stay {us : List VarData} {xs : List ℝ} {r : ℝ} (hr : 0 ≤ r)
    (h : List.Forall₂ (fun (v : VarData) x => v.Around x r) us xs) :
    List.Forall₂ (fun (v : VarData) x => v.lb ≤ x ∧ x ≤ v.ub ∧ (v.fixed = true → x = v.value)) us xs := by
  refine h.imp fun v x hv => ?_
  obtain ⟨h1, h2, h3⟩ := hv
  exact ⟨by linarith, by linarith, fun _ => h1.symm⟩

/-- **C78**. Every problem posed to the solver (in any simulation, also before, in and after failing calls of `run`) that has an
admissible solution with a defined objective has an optimal solution. -/
theorem C78_attained (hs : s.Reachable solver domain params ext traction) (hq : GaussRule.new leg 1 = .ok q) {p : Problem}
    (hp : p ∈ s.calls) {o : Outcome} {v : ℝ} (ho : p.Admits o) (hv : (p.load o).objective leg = .ok v) :
    ∃ o', p.IsOptimal leg o' := by
  obtain ⟨m0, t0, c, -, H⟩ := hs.posed (fun _ _ => True) (fun _ _ _ _ => trivial) (fun _ _ _ _ _ _ _ _ _ _ _ _ _ _ _ => trivial)
  cases H p hp with
  | mech m w st fx rd hn _ =>
    rw [c.yShape_eq] at w
    rw [← rd.prevTheta] at hn
    exact mech_optimal (fun o => c.mechEnv (w.load o).1 (by rw [← st]; cases m <;> rfl)) w hq rd.tractionAt hn ho hv
  | therm t w st rd _ _ =>
    exact therm_optimal (fun o => c.thermEnv (w.load o).1 (by rw [← st]; cases t <;> rfl)) w hq rd.extAt ho hv

theorem feasible_admits {p : Problem} (h : p.Feasible) (cs : List Problem) : p.Admits (staySolver cs p) := by
  refine ⟨?_, fun ht => ?_, ?_⟩
  · rw [stay_answer]
    exact forall₂_map_value fun v hv => ⟨(h.1 v hv).1, (h.1 v hv).2, fun _ => rfl⟩
  · rw [stay_answer]
    intro x hx
    obtain ⟨v, hv, rfl⟩ := List.mem_map.1 hx
    exact h.2.1 ht v hv
  · rw [stay_load]; exact h.2.2

/-- the starting guess of every problem posed is feasible -/
theorem posed_start (hs : s.Reachable solver domain params ext traction) (hc : solver.RespectsConstraints) {p : Problem}
    (hp : p ∈ s.calls) : p.Feasible := by
  obtain ⟨m0, t0, c, -, H⟩ := hs.posed (fun m0 y => params.regularization ≠ none → DirichletId m0.grid y)
    (fun s m0 t0 c => c.dirichletId_init)
    (fun s m0 t0 c m w sm fx cs y θ time rd hy ok => fun hr => c.dirichletId_step hr hc w sm ok)
  rw [c.grids_eq.1] at H
  obtain ⟨r1, r2⟩ := c.searchRadius
  have rpos : 0 ≤ params.searchRadius := c.setup.facts.2.1.le
  cases H p hp with
  | mech m w st fx rd hn P =>
    have M := c.mechEnv w st
    obtain ⟨it, hg⟩ := c.grid
    obtain ⟨Sh, ⟨n, U⟩, F⟩ := c.setup.simShape hg c.refined c.mech0
    refine MechReady.feasible w U M.grid ?_ rd (by rw [MechStep.static_searchRadius st, r1]; exact rpos) ?_
    · intro k hk
      by_cases hr : params.regularization = none
      · exfalso
        have hn := (c.setup.grids hg c.refined).2.1 hr
        rw [c.yShape_eq, hn] at hk
        simp [deformShape] at hk
      · obtain ⟨b, f, k', n', -, -, U', hys, -⟩ := c.reg_facts hr
        rw [hys] at hk
        have : n' = n := U'.length.symm.trans U.length
        simp only [List.cons.injEq, and_true] at hk
        omega
    · rintro ⟨a, rfl⟩
      refine P fun hr => ?_
      obtain ⟨n', k, w', e1, e2⟩ := w
      have hn := (c.setup.grids hg c.refined).2.1 hr
      rw [c.yShape_eq, hn] at e1
      simp [deformShape] at e1
  | therm t w st rd P0 P1 => exact rd.feasible (by rw [ThermStep.static_searchRadius st, r2]; exact rpos)

/-- the starting guess of every problem posed is feasible and has a defined objective -/
theorem posed_feasible (hs : s.Reachable solver domain params ext traction) (hq : GaussRule.new leg 1 = .ok q)
    (hc : solver.RespectsConstraints) (hd : solver.Decreases leg) {p : Problem} (hp : p ∈ s.calls) :
    p.Feasible ∧ ∃ v, p.objective leg = .ok v := by
  refine ⟨posed_start hs hc hp, ?_⟩
  obtain ⟨m0, t0, c, -, H⟩ := hs.posed (fun m0 y => Oriented m0.grid m0.problem.refined y)
    (fun s m0 t0 c => c.oriented_init)
    (fun s m0 t0 c m w sm fx cs y θ time rd hy ok => c.oriented_step hq hd w sm rd hy cs ok)
  rw [c.grids_eq.1, c.grids_eq.2] at H
  cases H p hp with
  | mech m w st fx rd hn P => exact ((c.mechEnv w st).objective_oriented hq rd.tractionAt).2 (by rw [rd.y]; exact P)
  | therm t w st rd P0 P1 =>
    exact ((c.thermEnv w st).objective_oriented hq rd.extAt).2 (by rw [rd.prevY, rd.y]; exact ⟨P0, P1⟩)

/-- **C78** (existence). If the solver keeps the constraints and does not increase the objective, every problem posed to it
(in any simulation, also before, in and after failing calls of `run`) has an optimal solution: the values it starts from are
admissible and have a defined objective. -/
theorem C78_exists (hs : s.Reachable solver domain params ext traction) (hq : GaussRule.new leg 1 = .ok q)
    (hc : solver.RespectsConstraints) (hd : solver.Decreases leg) {p : Problem} (hp : p ∈ s.calls) :
    (∃ o v, p.Admits o ∧ (p.load o).objective leg = .ok v ∧ p.objective leg = .ok v) ∧ ∃ o, p.IsOptimal leg o := by
  obtain ⟨hf, v, hv⟩ := posed_feasible hs hq hc hd hp
  have h1 := feasible_admits hf []
  have h2 : (p.load (staySolver [] p)).objective leg = .ok v := by rw [stay_load]; exact hv
  exact ⟨⟨_, v, h1, h2, hv⟩, C78_attained hs hq hp h1 h2⟩

end

/-! ### solvers that find optimal solutions -/

open Classical in
/-- a solver that returns an optimal solution if the starting guess is feasible and there is one, stays at a feasible starting
guess if there is none, and raises otherwise -/
noncomputable def optSolver (leg : LegGauss) : Solver := fun cs p =>
  if h : p.Feasible ∧ ∃ o, p.IsOptimal leg o then { h.2.choose with err := none } else staySolver cs p

theorem optSolver_spec (leg : LegGauss) (cs : List Problem) (p : Problem) :
    ((optSolver leg cs p).err = none ↔ p.Feasible) ∧
    (p.Feasible → p.Admits (optSolver leg cs p)) ∧
    (p.Feasible → (∃ o, p.IsOptimal leg o) → p.IsOptimal leg (optSolver leg cs p)) ∧
    (p.Feasible → ∀ a, p.objective leg = .ok a → ∃ b ≤ a, (p.load (optSolver leg cs p)).objective leg = .ok b) := by
  by_cases h : p.Feasible ∧ ∃ o, p.IsOptimal leg o
  · have e : optSolver leg cs p = { h.2.choose with err := none } := by rw [optSolver, dif_pos h]
    have ho : p.IsOptimal leg { h.2.choose with err := none } := by
      have := h.2.choose_spec
      cases p <;> exact this
    rw [e]
    refine ⟨⟨fun _ => h.1, fun _ => rfl⟩, fun _ => ho.1, fun _ _ => ho, fun hf a ha => ?_⟩
    obtain ⟨-, v, hv, hmin⟩ := ho
    exact ⟨v, hmin (staySolver cs p) a (feasible_admits hf cs) (by rw [stay_load]; exact ha), hv⟩
  · have e : optSolver leg cs p = staySolver cs p := by rw [optSolver, dif_neg h]
    rw [e]
    refine ⟨⟨stay_feasible, stay_contracts.2.2.2.2.1 cs p⟩, fun hf => feasible_admits hf cs, fun hf ho => absurd ⟨hf, ho⟩ h, fun hf a ha =>
      ⟨a, le_refl _, by rw [stay_load]; exact ha⟩⟩

/-- **C78** (optimal runs). There is a solver that meets all contracts (fixed variables, bounds, domains, constraints, decrease of
the objective, success for feasible starting guesses) and whose every answer in every simulation is an optimal solution of the
problem posed. -/
theorem C78_optimal_solver (leg : LegGauss) {q : GaussRule ℝ} (hq : GaussRule.new leg 1 = .ok q) :
    ∃ solver : Solver, solver.RespectsFixed ∧ solver.RespectsBounds ∧ solver.RespectsDomain ∧ solver.RespectsConstraints ∧
      solver.Succeeds ∧ solver.Decreases leg ∧
      ∀ {domain params ext traction} {s : Sim}, s.Reachable solver domain params ext traction →
        ∀ (k : ℕ) (p : Problem), s.calls[k]? = some p → p.IsOptimal leg (solver (s.calls.take k) p) := by
  have S := optSolver_spec leg
  have hA : ∀ cs p, (optSolver leg cs p).err = none → p.Admits (optSolver leg cs p) :=
    fun cs p h => (S cs p).2.1 ((S cs p).1.1 h)
  have hc : (optSolver leg).RespectsConstraints := fun cs p h => (hA cs p h).2.2
  have hd : (optSolver leg).Decreases leg := fun cs p h => (S cs p).2.2.2 ((S cs p).1.1 h)
  refine ⟨optSolver leg, fun cs p h => (hA cs p h).1.imp fun v x hv => hv.2.2,
    fun cs p h => (hA cs p h).1.imp fun v x hv _ => ⟨hv.1, hv.2.1⟩, fun cs p ht h => (hA cs p h).2.1 ht, hc,
    fun cs p h => (S cs p).1.2 h, hd, ?_⟩
  intro domain params ext traction s hs k p hp
  have hp' := List.mem_of_getElem? hp
  exact (S _ p).2.2.1 (posed_feasible hs hq hc hd hp').1 (C78_exists hs hq hc hd hp').2

/-- simulations whose every step is optimal exist, with and without regularization -/
theorem example_optimal (it : SetIter) {params : SimParams} (hp : params = exampleParams ∨ params = exampleParamsReg) :
    ∃ (leg : LegGauss) (q : GaussRule ℝ) (solver : Solver) (s : Sim), GaussRule.new leg 1 = .ok q ∧
      s.Healthy solver exampleDomain params (fun t => .ok (t ^ 2)) (fun t x y => .ok [t + x, y]) ∧ s.steps.length = 6 ∧
      s.calls.length = 10 ∧ ∀ (k : ℕ) (p : Problem), s.calls[k]? = some p → p.IsOptimal leg (solver (s.calls.take k) p) := by
  have S : Setup exampleDomain params := by
    rcases hp with rfl | rfl
    · exact exampleSetup
    · exact exampleSetupReg
  have hf : 0 < params.fps := by rcases hp with rfl | rfl <;> norm_num [exampleParams, exampleParamsReg]
  have hq := gauss_new_ok (lg := fun _ => .ok ([0], [2])) (n := 1) (P := [0]) (W := [2]) rfl
  obtain ⟨solver, -, -, h3, h4, h5, -, h7⟩ := C78_optimal_solver _ hq
  obtain ⟨s, hs⟩ := C55_usable_partial S hf h5 it fun _ => exampleBoundary
  have hh := Sim.Healthy.new S hs
  obtain ⟨s', h6, h8⟩ := C66_succeeds hh h5 h4 h3 (fun _ => exampleBoundary) (n := 4) (by norm_num)
  have hl : s'.steps.length = 6 := by
    have := C60_run hh.reachable h6
    rw [C60_new S hs] at this
    push_cast at this
    omega
  obtain ⟨m0, t0, c, H⟩ := h8.history
  have := H.calls
  exact ⟨_, _, solver, s', hq, h8, hl, by omega, h7 h8.reachable⟩

end Tve
