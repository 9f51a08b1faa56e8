import Verif.Lemmas.EnergySim

/-!
# Strains and hyperstrains depend linearly on the array of the deformation
-/

namespace Tve

open Bell

/-- the degrees of freedom of component `i` of an array returned by `y()`: values at the vertices without regularization,
value and derivatives up to order two at the vertices with regularization -/
noncomputable def NdArray.dof (a : NdArray) (i : ℕ) (v : ℕ) (k : Fin 6) : ℝ :=
  match a.shape with
  | [_, _, _] => a.at3 2 6 v i k
  | _ => if k = 0 then a.at2 2 v i else 0

/-- a linear form in the degrees of freedom of a triangle -/
def dofForm (τ : Tri) (L : Fin 3 → Fin 6 → ℝ) (u : ℕ → Fin 6 → ℝ) : ℝ := ∑ i, ∑ k, L i k * u (τ.get i) k

theorem nodal_one (z : ℝ × ℝ) : nodal 1 z = fun k => if k = 0 then 1 else 0 := by
  funext k
  fin_cases k <;> simp [nodal, polyAt]

theorem vecOf_inj {n : ℕ} {a b : Fin n → ℝ} (h : vecOf a = vecOf b) : a = b := by
  have : (vecOf a).data = (vecOf b).data := by rw [h]
  exact List.ofFn_injective this

/-- gradient and hessian of the Bell interpolation in terms of the parameters -/
theorem bell_forms (P : Fin 3 → ℝ × ℝ) (hP : Nondegenerate P) (c : Bary ℝ) (hc : c.Normalized) :
    ∃ (L : Fin 2 → Fin 3 → Fin 6 → ℝ) (M : Fin 2 → Fin 2 → Fin 3 → Fin 6 → ℝ),
      (∀ j, ∑ i, L j i 0 = 0) ∧ (∀ j l, ∑ i, M j l i 0 = 0) ∧ ∀ p : Fin 3 → Fin 6 → ℝ,
        interpolationGradient (tvOf P) c (parOf p) =
          .ok (vecOf ![∑ i, ∑ k, L 0 i k * p i k, ∑ i, ∑ k, L 1 i k * p i k]) ∧
        interpolationHessian (tvOf P) c (parOf p) =
          .ok (matOf !![∑ i, ∑ k, M 0 0 i k * p i k, ∑ i, ∑ k, M 0 1 i k * p i k;
            ∑ i, ∑ k, M 1 0 i k * p i k, ∑ i, ∑ k, M 1 1 i k * p i k]) := by
  let w : Fin 3 → ℝ := ![c.l1, c.l2, c.l3]
  have hw : baryOf w = c := rfl
  let e : Fin 2 → Fin 3 → ℝ := ![bb P, cc P]
  let d1 : Fin 3 → Fin 6 → Fin 3 → ℝ := fun i k j => ((NN i k).diff (LL j)).eval (env w (bb P) (cc P))
  let d2 : Fin 3 → Fin 6 → Fin 3 → Fin 3 → ℝ := fun i k j l =>
    (((NN i k).diff (LL j)).diff (LL l)).eval (env w (bb P) (cc P))
  let L : Fin 2 → Fin 3 → Fin 6 → ℝ := fun r i k => ∑ j, e r j * d1 i k j / twoD P
  let M : Fin 2 → Fin 2 → Fin 3 → Fin 6 → ℝ := fun r s i k => ∑ j, ∑ l, e r j * e s l * d2 i k j l / twoD P ^ 2
  have hL : ∀ (r : Fin 2) (p : Fin 3 → Fin 6 → ℝ), ∑ j, e r j * bder P p w j / twoD P = ∑ i, ∑ k, L r i k * p i k := by
    intro r p
    simp only [L, bder, Finset.mul_sum, Finset.sum_mul, Finset.sum_div]
    rw [Finset.sum_comm]
    refine Finset.sum_congr rfl fun i _ => ?_
    rw [Finset.sum_comm]
    refine Finset.sum_congr rfl fun k _ => Finset.sum_congr rfl fun j _ => ?_
    simp only [d1]
    ring
  have hM : ∀ (r s : Fin 2) (p : Fin 3 → Fin 6 → ℝ), ∑ j, ∑ l, e r j * e s l * bder2 P p w j l / twoD P ^ 2 =
      ∑ i, ∑ k, M r s i k * p i k := by
    intro r s p
    simp only [M, bder2, Finset.mul_sum, Finset.sum_mul, Finset.sum_div]
    have : ∀ j : Fin 3, ∑ l : Fin 3, ∑ i : Fin 3, ∑ k : Fin 6, e r j * e s l *
        ((((NN i k).diff (LL j)).diff (LL l)).eval (env w (bb P) (cc P)) * p i k) / twoD P ^ 2 =
        ∑ i : Fin 3, ∑ k : Fin 6, ∑ l : Fin 3, e r j * e s l * d2 i k j l / twoD P ^ 2 * p i k := by
      intro j
      rw [Finset.sum_comm]
      refine Finset.sum_congr rfl fun i _ => ?_
      rw [Finset.sum_comm]
      refine Finset.sum_congr rfl fun k _ => Finset.sum_congr rfl fun l _ => ?_
      simp only [d2]
      ring
    simp only [this]
    rw [Finset.sum_comm]
    refine Finset.sum_congr rfl fun i _ => ?_
    rw [Finset.sum_comm]
  have hg : ∀ p : Fin 3 → Fin 6 → ℝ, interpolationGradient (tvOf P) c (parOf p) =
      .ok (vecOf ![∑ i, ∑ k, L 0 i k * p i k, ∑ i, ∑ k, L 1 i k * p i k]) := by
    intro p
    rw [← hw, gradient_eq hP, ← hL 0 p, ← hL 1 p]
    rfl
  have hh : ∀ p : Fin 3 → Fin 6 → ℝ, interpolationHessian (tvOf P) c (parOf p) =
      .ok (matOf !![∑ i, ∑ k, M 0 0 i k * p i k, ∑ i, ∑ k, M 0 1 i k * p i k;
            ∑ i, ∑ k, M 1 0 i k * p i k, ∑ i, ∑ k, M 1 1 i k * p i k]) := by
    intro p
    rw [← hw, hessian_eq hP, ← hM 0 0 p, ← hM 0 1 p, ← hM 1 0 p, ← hM 1 1 p]
    rfl
  refine ⟨L, M, ?_, ?_, fun p => ⟨hg p, hh p⟩⟩
  · have q := (C38_quartics P hP 1 (by simp) w hc).2.1
    rw [hw, hg] at q
    have q' := vecOf_inj (Except.ok.inj q)
    have key : ∀ j, ∑ i, ∑ k, L j i k * nodal 1 (P i) k = ∑ i, L j i 0 := by
      intro j
      simp [nodal_one]
    intro j
    rw [← key j]
    fin_cases j
    · simpa [polyAt] using congrFun q' 0
    · simpa [polyAt] using congrFun q' 1
  · have q := (C38_quartics P hP 1 (by simp) w hc).2.2
    rw [hw, hh] at q
    have q' := matOf_injective (Except.ok.inj q)
    have key : ∀ j l, ∑ i, ∑ k, M j l i k * nodal 1 (P i) k = ∑ i, M j l i 0 := by
      intro j l
      simp [nodal_one]
    intro j l
    rw [← key j l]
    fin_cases j <;> fin_cases l
    · simpa [polyAt] using congrFun (congrFun q' 0) 0
    · simpa [polyAt] using congrFun (congrFun q' 0) 1
    · simpa [polyAt] using congrFun (congrFun q' 1) 0
    · simpa [polyAt] using congrFun (congrFun q' 1) 1

/-- the shape of the arrays of a deformation -/
def deformShape (g : Grid ℝ) (refined : Option (RefinedGrid ℝ)) : List ℕ :=
  match refined with
  | none => [g.vertices.length, 2]
  | some _ => [g.vertices.length, 2, 6]

/-- the strain and the hyperstrain are given by linear forms in the degrees of freedom, the same for both components,
which vanish on constants -/
structure StrainForms (g : Grid ℝ) (refined : Option (RefinedGrid ℝ)) (τ : Tri → Bary ℝ → Tri)
    (L : Tri → Bary ℝ → Fin 2 → Fin 3 → Fin 6 → ℝ) (M : Tri → Bary ℝ → Fin 2 → Fin 2 → Fin 3 → Fin 6 → ℝ) : Prop where
  mem : ∀ t ∈ (energyGrid g refined).triangles, ∀ c : Bary ℝ, c.Normalized → τ t c ∈ g.triangles
  grad : ∀ t ∈ (energyGrid g refined).triangles, ∀ c : Bary ℝ, c.Normalized → ∀ j, ∑ i, L t c j i 0 = 0
  hess : ∀ t ∈ (energyGrid g refined).triangles, ∀ c : Bary ℝ, c.Normalized → ∀ j l, ∑ i, M t c j l i 0 = 0
  deform : ∀ y : NdArray, y.Has (deformShape g refined) → ∃ D, deformOf g refined y = .ok D ∧
    D.Strains (energyGrid g refined) (fun t c => Matrix.of fun i j => dofForm (τ t c) (L t c j) (y.dof i)) ∧
    (refined ≠ none → ∀ t ∈ (energyGrid g refined).triangles, ∀ c : Bary ℝ, c.Normalized →
      D.hyperStrain t c = .ok (tenOf fun i j l : Fin 2 => dofForm (τ t c) (M t c j l) (y.dof i)))

theorem Energetic.forms {g : Grid ℝ} {refined : Option (RefinedGrid ℝ)} (E : Energetic g refined) :
    ∃ τ L M, StrainForms g refined τ L M := by
  cases E with
  | @coarse nx ny s G =>
    have W := G.wellFormed
    refine ⟨fun t _ => t, fun t _ j i k => if k = 0 then ![bb (g.corners t), cc (g.corners t)] j i / twoD (g.corners t) else 0,
      fun _ _ _ _ _ _ => 0, fun t ht _ _ => ht, ?_, fun _ _ _ _ _ _ => by simp, ?_⟩
    · intro t ht c hc j
      fin_cases j <;> simp [Fin.sum_univ_three, bb, cc] <;> ring
    · intro y hy
      have hc0 := NdArray.col_eq hy (j := 0) (by norm_num)
      have hc1 := NdArray.col_eq hy (j := 1) (by norm_num)
      set A := (List.range g.vertices.length).map fun i => y.at2 2 i 0 with hA
      set B := (List.range g.vertices.length).map fun i => y.at2 2 i 1 with hB
      obtain ⟨I1, h1⟩ := P1_ok (g := g) (u := A) (by simp [hA])
      obtain ⟨I2, h2⟩ := P1_ok (g := g) (u := B) (by simp [hB])
      have hD : P1MechModel.deformation g A B = .ok ⟨I1, I2⟩ := by
        rw [P1MechModel.deformation, h1, bind_ok, h2, bind_ok]; rfl
      refine ⟨⟨I1, I2⟩, ?_, ?_, fun h => absurd rfl h⟩
      · rw [deformOf, hc0, bind_ok, hc1, bind_ok, hD]
      · intro t ht c hc
        rw [p1_strains G hD t ht c hc]
        have hlen : ∀ k, t.get k < g.vertices.length := fun k => WF.len W (u := g.vertices) rfl (WF.mem_get W ht k)
        have hg : ∀ (k : Fin 3) (i : ℕ), ((List.range g.vertices.length).map fun v => y.at2 2 v i).getD (t.get k) 0 =
            y.dof i (t.get k) 0 := by
          intro k i
          have hy1 := hy.1
          have : y.dof i (t.get k) 0 = y.at2 2 (t.get k) i := by
            rw [NdArray.dof, hy1]
            simp [deformShape]
          rw [this, List.getD_eq_getElem?_getD]
          simp [hlen k]
        have hS : p1Strain g A B t c = Matrix.of fun i j : Fin 2 => dofForm t
            (fun i k => if k = 0 then ![bb (g.corners t), cc (g.corners t)] j i / twoD (g.corners t) else 0) (y.dof i) := by
          rw [p1Strain]
          simp only [hA, hB, hg]
          ext i j
          fin_cases i <;> fin_cases j <;> simp [dofForm] <;> refine Finset.sum_congr rfl fun k _ => ?_ <;> ring
        rw [hS]
  | @fine nx ny n s d r G hn hs hr =>
    have W := G.wellFormed
    have key : ∀ t c, ∃ (τ : Tri) (L : Fin 2 → Fin 3 → Fin 6 → ℝ) (M : Fin 2 → Fin 2 → Fin 3 → Fin 6 → ℝ),
        t ∈ r.toGrid.triangles → c.Normalized → τ ∈ g.triangles ∧ (∀ j, ∑ i, L j i 0 = 0) ∧ (∀ j l, ∑ i, M j l i 0 = 0) ∧
        ∀ (u : List (List ℝ)) (I : Interp), C1Interpolation g u = .ok I →
          (RefinedInterpolation I r).gradient t c = .ok (vecOf ![dofForm τ (L 0) (nodeParam u), dofForm τ (L 1) (nodeParam u)]) ∧
          (RefinedInterpolation I r).hessian t c = .ok (matOf
            !![dofForm τ (M 0 0) (nodeParam u), dofForm τ (M 0 1) (nodeParam u);
               dofForm τ (M 1 0) (nodeParam u), dofForm τ (M 1 1) (nodeParam u)]) := by
      intro t c
      by_cases h : t ∈ r.toGrid.triangles ∧ c.Normalized
      · obtain ⟨ht, hc⟩ := h
        obtain ⟨b, h1, h2, h3, -, -⟩ := C24_stored_triangle_partial G hn hs hr ht hc
        obtain ⟨L, M, k1, k2, k3⟩ := bell_forms (g.corners b.triangle) (G.nondegenerate h2) b.coordinates h3
        refine ⟨b.triangle, L, M, fun _ _ => ⟨h2, k1, k2, fun u I hI => ?_⟩⟩
        obtain ⟨h6, hu, rfl⟩ := C1_of hI
        obtain ⟨-, e2, e3⟩ := C1_call_eq W h6 hu h2 b.coordinates
        obtain ⟨f2, f3⟩ := k3 fun k => nodeParam u (b.triangle.get k)
        constructor
        · simp only [RefinedInterpolation, toCoarseParameters, h1, bind_ok, pure_eq_ok]
          rw [e2, f2]
          rfl
        · simp only [RefinedInterpolation, toCoarseParameters, h1, bind_ok, pure_eq_ok]
          rw [e3, f3]
          rfl
      · exact ⟨t, 0, 0, fun a b => absurd ⟨a, b⟩ h⟩
    choose τ L M hk using key
    refine ⟨τ, L, M, fun t ht c hc => (hk t c ht hc).1, fun t ht c hc => (hk t c ht hc).2.1,
      fun t ht c hc => (hk t c ht hc).2.2.1, fun y hy => ?_⟩
    have hb0 := NdArray.block_eq hy (j := 0) (by norm_num)
    have hb1 := NdArray.block_eq hy (j := 1) (by norm_num)
    set U : ℕ → List (List ℝ) := fun j =>
      (List.range g.vertices.length).map fun i => (List.range 6).map fun k => y.at3 2 6 i j k with hU
    have h6 : ∀ j, ∀ p ∈ U j, p.length = 6 := by
      intro j p hp
      obtain ⟨i, -, rfl⟩ := List.mem_map.1 hp
      simp
    obtain ⟨I1, h1⟩ := C1_ok (g := g) (u := U 0) (h6 0) (by simp [hU])
    obtain ⟨I2, h2⟩ := C1_ok (g := g) (u := U 1) (h6 1) (by simp [hU])
    have hD : RegMechModel.deformation g r (U 0) (U 1) = .ok ⟨RefinedInterpolation I1 r, RefinedInterpolation I2 r⟩ := by
      rw [RegMechModel.deformation, h1, bind_ok, h2, bind_ok]; rfl
    have hg : ∀ (t : Tri) (c : Bary ℝ), t ∈ r.toGrid.triangles → c.Normalized → ∀ (Λ : Fin 3 → Fin 6 → ℝ) (j : ℕ),
        dofForm (τ t c) Λ (nodeParam (U j)) = dofForm (τ t c) Λ (y.dof j) := by
      intro t c ht hc Λ j
      have hm := (hk t c ht hc).1
      refine Finset.sum_congr rfl fun i _ => Finset.sum_congr rfl fun k _ => ?_
      congr 1
      have hl : (τ t c).get i < g.vertices.length := WF.len W (u := g.vertices) rfl (WF.mem_get W hm i)
      have hy1 := hy.1
      rw [NdArray.dof, hy1, nodeParam, List.getD_eq_getElem?_getD, List.getD_eq_getElem?_getD]
      simp [deformShape, hU, hl]
    refine ⟨⟨RefinedInterpolation I1 r, RefinedInterpolation I2 r⟩, ?_, ?_, fun _ t ht c hc => ?_⟩
    · rw [deformOf, hb0, bind_ok, hb1, bind_ok]
      exact hD
    · intro t ht c hc
      rw [Deformation.strain]
      simp only
      rw [((hk t c ht hc).2.2.2 _ _ h1).1, bind_ok, ((hk t c ht hc).2.2.2 _ _ h2).1, bind_ok, stack_pairs]
      simp only [hg t c ht hc]
      congr 2
      ext i j
      fin_cases i <;> fin_cases j <;> rfl
    · rw [Deformation.hyperStrain]
      simp only
      rw [((hk t c ht hc).2.2.2 _ _ h1).2, bind_ok, ((hk t c ht hc).2.2.2 _ _ h2).2, bind_ok]
      simp only [hg t c ht hc]
      simp [Mat.stack, matOf, tenOf, Ten3.new, List.ofFn_succ, Mat.rows]

end Tve
