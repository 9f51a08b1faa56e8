import Verif.Props.FirstLaw
import Verif.Props.Force

/-!
# An example for C98: a free square is stretched and warms up
-/

namespace Tve
open Helpers

/-- a stretch of 10 per cent that preserves the area -/
noncomputable def stretch : Matrix (Fin 2) (Fin 2) ℝ := !![11 / 10, 0; 0, 10 / 11]

/-- the solver of the example: it stretches the body and sets all temperatures to `c` -/
noncomputable def stretchSolver (c : ℝ) : Solver := fun _ p =>
  match p with
  | .mechP1 m => ⟨fun i _ => 11 / 10 * (varValues m.y1).getD i 0, fun i _ => 10 / 11 * (varValues m.y2).getD i 0, fun _ => c, none⟩
  | _ => ⟨fun _ _ => 0, fun _ _ => 0, fun _ => c, none⟩

theorem stretchSolver_ok (c : ℝ) (cs : List Problem) (p : Problem) : (stretchSolver c cs p).err = none := by
  cases p <;> rfl

theorem stretchSolver_theta (c : ℝ) (cs : List Problem) (p : Problem) : (stretchSolver c cs p).theta = fun _ => c := by
  cases p <;> rfl

/-- the temperature after the stretch -/
theorem stretch_temp : ∃ c : ℝ, 1 < c ∧ c ≤ 17 / 16 ∧ ∀ (K : Matrix (Fin 2) (Fin 2) ℝ) (q u u0 : ℝ),
    IsHeatCoeff 3 1 stretch 1 K q → internalEnergy (matOf stretch) c = .ok u →
    internalEnergy (matOf (1 : Matrix (Fin 2) (Fin 2) ℝ)) 1 = .ok u0 → 0 < q ∧ 3 * (u - u0) = q := by
  have hdet : stretch.det = 1 := by rw [Matrix.det_fin_two]; norm_num [stretch]
  set d := wA stretch - wM stretch with hd
  have hdv : d = (121 / 100 + 100 / 121 - 2) - (121 / 100 + 100 / 121 - 9 / 4) ^ 2 := by
    rw [hd, wA, wM, hdet, fsq]
    norm_num [stretch]
  have h1 : wA 1 - wM 1 = -(1 / 16) := by norm_num [wA, wM, fsq, Matrix.one_apply]
  set w := fun x : ℝ => 1 - Real.exp (-5 * x) - x * (5 * Real.exp (-5 * x)) with hw
  have hw0 : ∀ x : ℝ, 0 ≤ x → 0 ≤ w x ∧ w x ≤ 1 := by
    intro x hx
    have e1 := Real.exp_pos (-5 * x)
    have e2 : (1 + 5 * x) * Real.exp (-5 * x) ≤ 1 := by
      have := Real.add_one_le_exp (5 * x)
      calc (1 + 5 * x) * Real.exp (-5 * x) ≤ Real.exp (5 * x) * Real.exp (-5 * x) := by
            apply mul_le_mul_of_nonneg_right _ e1.le; linarith
        _ = 1 := by rw [← Real.exp_add]; simp
    constructor
    · show 0 ≤ 1 - Real.exp (-5 * x) - x * (5 * Real.exp (-5 * x))
      linarith
    · show 1 - Real.exp (-5 * x) - x * (5 * Real.exp (-5 * x)) ≤ 1
      have : 0 ≤ x * (5 * Real.exp (-5 * x)) := by positivity
      linarith
  set δ : ℝ := 6 * ((1 / 5) ^ 2 + (2 / 11) ^ 2) / 2 with hδ
  set T : ℝ := heatOf (-(1 / 16)) 1 + δ with hT
  have hc : Continuous (heatOf d) := by unfold heatOf; fun_prop
  obtain ⟨c, ⟨c1, c2⟩, c3⟩ := intermediate_value_Icc (show (1 : ℝ) ≤ 17 / 16 by norm_num) hc.continuousOn
    (show T ∈ Set.Icc (heatOf d 1) (heatOf d (17 / 16)) by
      obtain ⟨a1, a2⟩ := hw0 1 zero_le_one
      obtain ⟨b1, b2⟩ := hw0 (17 / 16) (by norm_num)
      have e1 : heatOf d 1 = w 1 * d + 10 * 1 := rfl
      have e2 : heatOf d (17 / 16) = w (17 / 16) * d + 10 * (17 / 16) := rfl
      have e3 : heatOf (-(1 / 16)) 1 = w 1 * -(1 / 16) + 10 * 1 := rfl
      rw [hT, e1, e2, e3]
      constructor
      · nlinarith
      · nlinarith)
  have hne : c ≠ 1 := by
    rintro rfl
    obtain ⟨a1, a2⟩ := hw0 1 zero_le_one
    have e1 : heatOf d 1 = w 1 * d + 10 * 1 := rfl
    have e3 : heatOf (-(1 / 16)) 1 = w 1 * -(1 / 16) + 10 * 1 := rfl
    rw [hT, e1, e3] at c3
    nlinarith
  refine ⟨c, lt_of_le_of_ne c1 hne.symm, c2, fun K q u u0 hq hu hu0 => ?_⟩
  rw [internalEnergy_eq (by rw [hdet]; norm_num)] at hu
  rw [internalEnergy_eq (by simp), h1] at hu0
  have e1 : u = heatOf d c := (Except.ok.inj hu).symm
  have e2 : u0 = heatOf (-(1 / 16)) 1 := (Except.ok.inj hu0).symm
  obtain ⟨-, ξ, A, k1, k2, rfl⟩ := hq
  have hA : A = 0 := (matOf_inj (Except.ok.inj ((C50_stress_free 1).2.2.symm.trans k2))).symm
  have kd : dissipationPotential (matOf (1 : Matrix (Fin 2) (Fin 2) ℝ)) (matOf stretch) = .ok (((1 / 5) ^ 2 + (2 / 11) ^ 2) / 2) := by
    have := C51_value (n := 1) 1 stretch
    rw [Matrix.transpose_one, Matrix.mul_one, Matrix.one_mul] at this
    rw [this]
    congr 2
    show ∑ i : Fin 2, ∑ j : Fin 2, ((stretch - 1).transpose + (stretch - 1)) i j ^ 2 = _
    simp only [Fin.sum_univ_two, Matrix.add_apply, Matrix.transpose_apply, Matrix.sub_apply]
    norm_num [stretch, Matrix.one_apply]
  rw [C51_rate _ _ _ _ (by norm_num) kd] at k1
  have hξ : ξ = 3 * δ := by
    rw [← Except.ok.inj k1, hδ]
    norm_num
  rw [e1, e2, c3, hT, hA, hξ]
  constructor
  · simp [hδ]; norm_num
  · simp

/-- the stretched body warms up uniformly -/
theorem IsHeatBalance.stretch {solver : Solver} {domain : RectDomain ℝ} {traction : Traction} {s : Sim} {leg : LegGauss}
    {c time R κ : ℝ} (hs : s.Healthy solver domain exampleParams (fun _ => .ok c) traction) {y0 y θ0 θ η : NdArray}
    (hl : θ.data.length = (energyGrid s.grid s.refined).vertices.length) {D0 D : Deformation}
    (h0 : deformOf s.grid s.refined y0 = .ok D0) (h : deformOf s.grid s.refined y = .ok D)
    (hS0 : D0.Strains (energyGrid s.grid s.refined) fun _ _ => 1) (hS : D.Strains (energyGrid s.grid s.refined) fun _ _ => stretch)
    (k0 : ∀ x ∈ θ0.data, x = 1) (k1 : ∀ x ∈ θ.data, x = c)
    (hc : ∀ (K : Matrix (Fin 2) (Fin 2) ℝ) (q u u0 : ℝ), IsHeatCoeff 3 1 stretch 1 K q →
      internalEnergy (matOf stretch) c = .ok u → internalEnergy (matOf (1 : Matrix (Fin 2) (Fin 2) ℝ)) 1 = .ok u0 →
      0 < q ∧ 3 * (u - u0) = q)
    (hb : IsHeatBalance κ leg exampleParams (fun _ => .ok c) s.grid s.refined time y0 y θ0 θ η R) : R = 0 := by
  obtain ⟨E, hnone⟩ := hs.grids
  have hn := hnone rfl
  obtain ⟨r, F0, F, K, x0, x, z, qq, u, u0, G, H, b, a1, a2, a3, a4, a5, a6, rfl⟩ := hb
  obtain ⟨r', r1, Rg⟩ := energyRule_good s.refined
  cases a1.symm.trans r1
  obtain ⟨D0', D', T0, c1, c2, c3, c4⟩ := a2
  cases h0.symm.trans c1
  cases h.symm.trans c2
  obtain ⟨T, b1, b2⟩ := a3
  have hb0 : b = 0 := by
    obtain ⟨r1, e, f1, f2, rfl⟩ := a6.1 rfl
    cases f2
    rw [Grid.edgeQuad]
    apply List.sum_eq_zero
    intro x hx
    obtain ⟨ed, hed, rfl⟩ := List.mem_map.1 hx
    have W := E.wf
    rw [hn] at W hl
    have hv := W.edges ed (W.boundary.2 ed hed)
    have key : ∀ v ∈ s.grid.vertices, θ.data.getD v 0 = c := by
      intro v hv
      have hl' : θ.data.length = s.grid.vertices.length := hl
      have hv' : v < θ.data.length := by
        rw [hl']
        have e : s.grid.vertices = List.range s.grid.points.length := W.vertices
        rw [e] at hv ⊢
        simpa using hv
      simp only [List.getD_eq_getElem?_getD, hv', List.getElem?_eq_getElem, Option.getD_some]
      exact k1 _ (List.getElem_mem _)
    have e : ∀ a : ℝ, a * θ.data.getD ed.1 0 + (1 - a) * θ.data.getD ed.2 0 - c = 0 := by
      intro a
      rw [key _ hv.1, key _ hv.2]
      ring
    simp only [e, GaussRule.value, mul_zero, zero_mul]
    simp
  have hp : ∀ t ∈ (energyGrid s.grid s.refined).triangles, ∀ b ∈ r.points, 3 * (u t b - u0 t b) = qq t b ∧ G t b = 0 := by
    intro t ht b hb
    have hin := (Rg.inside b hb).1
    obtain ⟨p1, p2, p3⟩ := c4 t ht b hb
    obtain ⟨q1, q2, q3⟩ := a5 t ht b hb
    obtain ⟨p4, p5⟩ := b2 t ht b hb
    have e1 : F0 t b = 1 := matOf_inj (Except.ok.inj (p1.symm.trans (hS0 t ht b hin)))
    have e2 : F t b = Tve.stretch := matOf_inj (Except.ok.inj (p2.symm.trans (hS t ht b hin)))
    have e3 : x0 t b = 1 := Except.ok.inj (p3.symm.trans (E.const_field c3 k0 ht hin).1)
    have e4 : x t b = c := Except.ok.inj (p4.symm.trans (E.const_field b1 k1 ht hin).1)
    have e5 : G t b = ![0, 0] := vecOf_inj (Except.ok.inj (p5.symm.trans (E.const_field b1 k1 ht hin).2))
    rw [e1, e2, e3] at q1
    rw [e2, e4] at q2
    rw [e1, e3] at q3
    exact ⟨(hc _ _ _ _ q1 q2 q3).2, by rw [e5]; ext i; fin_cases i <;> rfl⟩
  rw [hb0, quad_zero (F := fun t p => G t p ⬝ᵥ (κ • K t p).mulVec (H t p)) Rg fun t ht b hb => by rw [(hp t ht b hb).2]; simp,
    quad_congr (F := fun t p => (u t p - u0 t p) / (1 / exampleParams.fps) * z t p) (F' := fun t p => qq t p * z t p)
      fun t ht b hb => by
        rw [← (hp t ht b hb).1, show exampleParams.fps = 3 from rfl]
        ring]
  ring

/-- the hypotheses of C98 hold in an example in which heat is produced -/
theorem example_first_law (it : SetIter) : ∃ (c : ℝ) (solver : Solver) (s : Sim) (a b : Step) (p : Problem) (leg : LegGauss)
    (q : GaussRule ℝ), 1 < c ∧ GaussRule.new leg 1 = .ok q ∧
    s.Healthy solver freeDomain exampleParams (fun _ => .ok c) (fun _ _ _ => .ok [0, 0]) ∧
    s.steps[0]? = some a ∧ s.steps[1]? = some b ∧ s.calls[1]? = some p ∧ Oriented s.grid s.refined a.yData ∧
    Oriented s.grid s.refined b.yData ∧ p.IsOptimal leg (solver (s.calls.take 1) p) ∧
    List.Forall₂ (fun u v => 0 < v ∧ |v - u| < exampleParams.searchRadius) a.thetaData.data b.thetaData.data ∧
    (∀ x ∈ a.thetaData.data, x = 1) ∧ (∀ x ∈ b.thetaData.data, x = c) := by
  obtain ⟨c, hc1, hc2, hc⟩ := stretch_temp
  have hB : BoundaryDataOk (fun _ => .ok c) (fun _ _ _ => .ok [0, 0]) :=
    ⟨fun _ _ _ => ⟨_, _, rfl⟩, fun _ => ⟨c, by linarith, rfl⟩⟩
  obtain ⟨s, hs⟩ := C55_usable_partial freeSetup (show 0 < exampleParams.fps by norm_num [exampleParams])
    (fun cs p _ => stretchSolver_ok c cs p) it fun _ => hB
  have hh := Sim.Healthy.new freeSetup hs
  have hq := gauss_new_ok (lg := fun _ => .ok ([0], [2])) (n := 1) (P := [0]) (W := [2]) rfl
  obtain ⟨E, hnone⟩ := hh.grids
  have hn := hnone rfl
  obtain ⟨m0, t0, cx, Hi⟩ := hh.history
  have htwo := Hi.two
  obtain ⟨a, ha, -, hθ, D0, hD0, hS0⟩ := C68_initial hh.reachable
  have hb : s.steps[0 + 1]? = some (s.steps[1]'(by omega)) := List.getElem?_eq_getElem _
  set b := s.steps[1]'(by omega)
  obtain ⟨m, t, h1, h2, st1, st2, -, S⟩ := Hi.each 0 a b ha hb
  have hy : a.yData.Has (deformShape s.grid s.refined) := by
    rw [← cx.yShape_eq]
    exact (cx.has a (List.mem_of_getElem? ha)).1
  have hrigid : a.yData.RigidMotion stretch 0 b.yData := by
    have w := S.mechWF
    rw [S.y, ← S.mech.y]
    have sh := cx.yShape_eq
    rw [hn, deformShape] at sh
    cases m with
    | reg m =>
      obtain ⟨n, k, -, e, -⟩ := w
      rw [sh] at e
      simp at e
    | p1 m =>
      obtain ⟨n, w, e, -⟩ := w
      set o := stretchSolver c (s.calls.take (2 * 0)) (MechStep.p1 m).problem with ho
      have l1 : (varValues m.model.y1).length = n := by simp [varValues, w.y1]
      have l2 : (varValues m.model.y2).length = n := by simp [varValues, w.y2]
      have l3 : (varValues (loadVars (fun i => o.y1 i 0) m.model.y1)).length = n := by simp [varValues, loadVars, w.y1]
      have l4 : (varValues (loadVars (fun i => o.y2 i 0) m.model.y2)).length = n := by simp [varValues, loadVars, w.y2]
      have s1 := NdArray.has_pairs l1 l2 w.pos
      have s2 := NdArray.has_pairs l3 l4 w.pos
      show (P1Mech.pairs _ _).RigidMotion stretch 0 (P1Mech.pairs (varValues (loadVars (fun i => o.y1 i 0) m.model.y1))
        (varValues (loadVars (fun i => o.y2 i 0) m.model.y2)))
      rw [NdArray.RigidMotion, s1.1]
      refine ⟨s2, fun v hv i => ?_⟩
      obtain ⟨p1, p2⟩ := NdArray.at2_pairs l1 l2 hv
      obtain ⟨p3, p4⟩ := NdArray.at2_pairs l3 l4 hv
      have g1 : (varValues (loadVars (fun i => o.y1 i 0) m.model.y1)).getD v 0 = 11 / 10 * (varValues m.model.y1).getD v 0 := by
        rw [varValues_loadVars, List.getD_eq_getElem?_getD, List.getElem?_mapIdx,
          List.getElem?_eq_getElem (by rw [w.y1]; exact hv)]
        rfl
      have g2 : (varValues (loadVars (fun i => o.y2 i 0) m.model.y2)).getD v 0 = 10 / 11 * (varValues m.model.y2).getD v 0 := by
        rw [varValues_loadVars, List.getD_eq_getElem?_getD, List.getElem?_mapIdx,
          List.getElem?_eq_getElem (by rw [w.y2]; exact hv)]
        rfl
      rw [Fin.sum_univ_two]
      fin_cases i
      · show (P1Mech.pairs _ _).at2 2 v 0 = stretch 0 0 * (P1Mech.pairs _ _).at2 2 v 0 + stretch 0 1 * (P1Mech.pairs _ _).at2 2 v 1 + 0
        rw [p1, p2, p3, g1]
        simp [stretch]
      · show (P1Mech.pairs _ _).at2 2 v 1 = stretch 1 0 * (P1Mech.pairs _ _).at2 2 v 0 + stretch 1 1 * (P1Mech.pairs _ _).at2 2 v 1 + 0
        rw [p1, p2, p4, g2]
        simp [stretch]
  obtain ⟨D0', D, F0, H, d1, d2, d3, d4, -⟩ := E.rigid hy hrigid
  cases hD0.symm.trans d1
  have hS1 : D0.Strains (energyGrid s.grid s.refined) fun _ _ => 1 := fun t ht c hc => (hS0 t ht c hc).2.1
  have hS : D.Strains (energyGrid s.grid s.refined) fun _ _ => stretch := by
    intro t ht c hc
    have e : F0 t c = 1 := matOf_inj (Except.ok.inj ((d3 t ht c hc).symm.trans (hS1 t ht c hc)))
    rw [d4 t ht c hc]
    show Except.ok (matOf (stretch * F0 t c)) = _
    rw [e, mul_one]
  obtain ⟨r, hr, Rg⟩ := energyRule_good s.refined
  have hm : ModerateStrain s.grid s.refined b.yData := by
    have hdet : stretch.det = 1 := by rw [Matrix.det_fin_two]; norm_num [stretch]
    refine ⟨D, r, d2, hr, fun t ht b hb => ⟨stretch, _, _, hS t ht b (Rg.inside b hb).1, austPot_eq (by rw [hdet]; norm_num),
      martPot_eq (by rw [hdet]; norm_num), ?_⟩⟩
    have e : wM stretch ≤ 1 ∧ 0 ≤ wA stretch := by
      rw [wM, wA, hdet, fsq]
      constructor <;> norm_num [stretch]
    have := Real.add_one_le_exp 1
    linarith
  have oa : Oriented s.grid s.refined a.yData :=
    ⟨D0, r, hD0, hr, fun t ht b hb => ⟨1, hS1 t ht b (Rg.inside b hb).1, by simp⟩⟩
  obtain ⟨n, hnv, hu, hth, V, hV, hder⟩ := therm_value hh hq ha hb oa hm.oriented h2
  obtain ⟨-, hb0, hbd⟩ := therm_unknowns hh ha hb h2
  have hbc : b.thetaData.data = nodalList n fun _ => c := by
    rw [hb0, therm_answer hth, hu, stretchSolver_theta]
  have ha1 : ∀ x ∈ a.thetaData.data, x = 1 := by
    rw [hθ]
    exact fun x hx => List.eq_of_mem_replicate hx
  have hb1 : ∀ x ∈ b.thetaData.data, x = c := by
    rw [hbc]
    intro x hx
    obtain ⟨i, -, rfl⟩ := List.mem_map.1 hx
    rfl
  have hopt : t.problem.IsOptimal (fun _ => .ok ([0], [2])) (stretchSolver c (s.calls.take (2 * 0 + 1)) t.problem) := by
    refine C84_balance_optimal hh hq (by simp) ha hb oa hm h2 ?_ fun η hη => ?_
    · rw [therm_admits hth]
      rw [List.forall₂_iff_get] at hbd
      intro i hi
      obtain ⟨b1, b2, b3⟩ := hbd.2 i hi (hbd.1 ▸ hi)
      have e : a.thetaData.data[i]'(hbd.1 ▸ hi) = 1 := ha1 _ (List.getElem_mem _)
      simp only [List.get_eq_getElem, e, show exampleParams.searchRadius = 1 / 8 from rfl] at b1 b2 b3
      rw [stretchSolver_theta, b1, b2, b3]
      exact ⟨by linarith, by linarith, fun h => absurd h Bool.false_ne_true, by linarith⟩
    · obtain ⟨R, -, r2⟩ := hder (fun _ => c) fun i => η.data.getD i 0
      have e1 : t.problem.answer (stretchSolver c (s.calls.take (2 * 0 + 1)) t.problem) = nodalList n fun _ => c := by
        rw [therm_answer hth, hu, stretchSolver_theta]
      have e2 : η.data = nodalList n fun i => η.data.getD i 0 := by
        rw [hu] at hη
        refine List.ext_getElem (by simp [nodalList, hη]) fun i h1 h2 => ?_
        simp [nodalList, List.getD_eq_getElem?_getD, h1]
      have r3 : IsHeatBalance 2 (fun _ => .ok ([0], [2])) exampleParams (fun _ => .ok c) s.grid s.refined
          (((0 : ℕ) : ℝ) / exampleParams.fps) a.yData b.yData a.thetaData
          (NdArray.of1 (t.problem.answer (stretchSolver c (s.calls.take (2 * 0 + 1)) t.problem))) η R := by
        rw [IsHeatBalance] at r2 ⊢
        rw [e1, e2]
        exact r2
      have := IsHeatBalance.stretch hh (by rw [e1, hnv]; simp [NdArray.of1, nodalList]) hD0 d2 hS1 hS ha1 (by
        rw [e1]
        intro x hx
        obtain ⟨i, -, rfl⟩ := List.mem_map.1 hx
        rfl) hc r3
      rwa [this] at r3
  refine ⟨c, _, s, a, b, _, _, _, hc1, hq, hh, ha, hb, h2, oa, hm.oriented, hopt, ?_, ha1, hb1⟩
  rw [List.forall₂_iff_get]
  have hlen : a.thetaData.data.length = b.thetaData.data.length := by
    rw [hθ, hbc, hnv]; simp [nodalList]
  refine ⟨hlen, fun i h1 h2 => ?_⟩
  simp only [List.get_eq_getElem]
  rw [ha1 _ (List.getElem_mem h1), hb1 _ (List.getElem_mem h2), show exampleParams.searchRadius = 1 / 8 from rfl, abs_lt]
  exact ⟨by linarith, by linarith, by linarith⟩

end Tve
