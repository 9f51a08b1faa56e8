import Verif.Lemmas.Rigid
import Verif.Lemmas.EnergyThermEnv
import Verif.Props.Energy
import Verif.Props.Recorded

/-!
# C80: frame indifference
-/

namespace Tve

open Helpers

theorem totalElastic_rot {R : Matrix (Fin 2) (Fin 2) ℝ} (hR : IsRotation R) (F : Matrix (Fin 2) (Fin 2) ℝ) (x : ℝ) :
    totalElasticPotential (matOf (R * F)) x = totalElasticPotential (matOf F) x := by
  simp only [totalElasticPotential, (C48_invariance F R hR).1, (C49_invariance F R hR).1]

theorem internalEnergyNoEntropy_rot {R : Matrix (Fin 2) (Fin 2) ℝ} (hR : IsRotation R) (F : Matrix (Fin 2) (Fin 2) ℝ) (x : ℝ) :
    internalEnergyNoEntropy (matOf (R * F)) x = internalEnergyNoEntropy (matOf F) x := by
  simp only [internalEnergyNoEntropy, (C48_invariance F R hR).1, (C49_invariance F R hR).1]

theorem tempAntider_rot {R : Matrix (Fin 2) (Fin 2) ℝ} (hR : IsRotation R) (F : Matrix (Fin 2) (Fin 2) ℝ) (x : ℝ) :
    tempAntiderInternalEnergyNoEntropy (matOf (R * F)) x = tempAntiderInternalEnergyNoEntropy (matOf F) x := by
  simp only [tempAntiderInternalEnergyNoEntropy, (C48_invariance F R hR).1, (C49_invariance F R hR).1]

section
variable {g : Grid ℝ} {refined : Option (RefinedGrid ℝ)} {R : Matrix (Fin 2) (Fin 2) ℝ} {c c0 : Fin 2 → ℝ}
  {y0 y0' y y' θ : NdArray}

theorem elastic_rigid (E : Energetic g refined) (hR : IsRotation R) (hy : y.Has (deformShape g refined))
    (h : y.RigidMotion R c y') (e : ℝ) : IsElasticEnergy g refined y' θ e ↔ IsElasticEnergy g refined y θ e := by
  obtain ⟨D, D', S, H, hD, hD', hS, hS', -⟩ := E.rigid hy h
  obtain ⟨r, hr, hg⟩ := energyRule_good refined
  constructor
  · rintro ⟨D1, T, r1, W, k1, k2, k3, k4, k5⟩
    cases hD'.symm.trans k1
    cases hr.symm.trans k3
    refine ⟨D, T, r, W, hD, k2, hr, fun t ht b hb => ?_, k5⟩
    obtain ⟨F, x, l1, l2, l3⟩ := k4 t ht b hb
    have hb' := (hg.inside b hb).1
    cases l1.symm.trans (hS' t ht b hb')
    exact ⟨_, x, hS t ht b hb', l2, by rw [← l3, totalElastic_rot hR]⟩
  · rintro ⟨D1, T, r1, W, k1, k2, k3, k4, k5⟩
    cases hD.symm.trans k1
    cases hr.symm.trans k3
    refine ⟨D', T, r, W, hD', k2, hr, fun t ht b hb => ?_, k5⟩
    obtain ⟨F, x, l1, l2, l3⟩ := k4 t ht b hb
    have hb' := (hg.inside b hb).1
    cases l1.symm.trans (hS t ht b hb')
    exact ⟨_, x, hS' t ht b hb', l2, by rw [← l3, totalElastic_rot hR]⟩

theorem dissipation_rigid (E : Energetic g refined) (hR : IsRotation R) (hy0 : y0.Has (deformShape g refined))
    (hy : y.Has (deformShape g refined)) (h0 : y0.RigidMotion R c0 y0') (h : y.RigidMotion R c y') (d : ℝ) :
    IsDissipation g refined y0' y' d ↔ IsDissipation g refined y0 y d := by
  obtain ⟨D0, D0', S0, -, hD0, hD0', hS0, hS0', -⟩ := E.rigid hy0 h0
  obtain ⟨D, D', S, -, hD, hD', hS, hS', -⟩ := E.rigid hy h
  obtain ⟨r, hr, hg⟩ := dissipationRule_good refined
  constructor
  · rintro ⟨A, B, r1, W, k1, k2, k3, k4, k5⟩
    cases hD0'.symm.trans k1
    cases hD'.symm.trans k2
    cases hr.symm.trans k3
    refine ⟨D0, D, r, W, hD0, hD, hr, fun t ht b hb => ?_, k5⟩
    obtain ⟨F, F', l1, l2, l3⟩ := k4 t ht b hb
    have hb' := (hg.inside b hb).1
    cases l1.symm.trans (hS0' t ht b hb')
    cases l2.symm.trans (hS' t ht b hb')
    exact ⟨_, _, hS0 t ht b hb', hS t ht b hb', by rw [← l3, C51_frame_indifference _ _ _ hR.1]⟩
  · rintro ⟨A, B, r1, W, k1, k2, k3, k4, k5⟩
    cases hD0.symm.trans k1
    cases hD.symm.trans k2
    cases hr.symm.trans k3
    refine ⟨D0', D', r, W, hD0', hD', hr, fun t ht b hb => ?_, k5⟩
    obtain ⟨F, F', l1, l2, l3⟩ := k4 t ht b hb
    have hb' := (hg.inside b hb).1
    cases l1.symm.trans (hS0 t ht b hb')
    cases l2.symm.trans (hS t ht b hb')
    exact ⟨_, _, hS0' t ht b hb', hS' t ht b hb', by rw [← l3, C51_frame_indifference _ _ _ hR.1]⟩

theorem hyper_rigid {r : RefinedGrid ℝ} (E : Energetic g (some r)) (hR : IsRotation R) (hy : y.Has (deformShape g (some r)))
    (h : y.RigidMotion R c y') (e : ℝ) : IsHyperEnergy g r y' e ↔ IsHyperEnergy g r y e := by
  obtain ⟨D, D', S, H, hD, hD', -, -, hH⟩ := E.rigid hy h
  replace hH := hH (by simp)
  obtain ⟨q, hq, hg⟩ := dunavant5_good
  constructor
  · rintro ⟨D1, r1, W, k1, k3, k4, k5⟩
    cases hD'.symm.trans k1
    cases hq.symm.trans k3
    refine ⟨D, q, W, hD, hq, fun t ht b hb => ?_, k5⟩
    obtain ⟨F, l1, l3⟩ := k4 t ht b hb
    have hb' := (hg.inside b hb).1
    cases l1.symm.trans (hH t ht b hb').2
    exact ⟨_, (hH t ht b hb').1, by rw [l3, C70_frame_indifference R hR.1]⟩
  · rintro ⟨D1, r1, W, k1, k3, k4, k5⟩
    cases hD.symm.trans k1
    cases hq.symm.trans k3
    refine ⟨D', q, W, hD', hq, fun t ht b hb => ?_, k5⟩
    obtain ⟨F, l1, l3⟩ := k4 t ht b hb
    have hb' := (hg.inside b hb).1
    cases l1.symm.trans (hH t ht b hb').1
    exact ⟨_, (hH t ht b hb').2, by rw [l3, C70_frame_indifference R hR.1]⟩

theorem coupling_rot (hR : IsRotation R) {F : Matrix (Fin 2) (Fin 2) ℝ} (hF : 0 < F.det) (x : ℝ) :
    ∃ A A' : Matrix (Fin 2) (Fin 2) ℝ, strainDerivativeCouplingPotential (matOf F) x = .ok (matOf A) ∧
      strainDerivativeCouplingPotential (matOf (R * F)) x = .ok (matOf A') ∧
      ∀ Δ : Matrix (Fin 2) (Fin 2) ℝ, ∑ i, ∑ j, A' i j * (R * Δ) i j = ∑ i, ∑ j, A i j * Δ i j := by
  obtain ⟨a, Wa, Wm, Df, -, h⟩ := C50_coupling x
  have hF' : 0 < (R * F).det := by rw [Matrix.det_mul, hR.2, one_mul]; exact hF
  obtain ⟨-, -, k1, k2⟩ := h (fun i j => F i j) hF
  obtain ⟨-, -, l1, l2⟩ := h (fun i j => (R * F) i j) hF'
  refine ⟨_, _, k1, l1, fun Δ => ?_⟩
  let Rot : (Fin 2 → Fin 2 → ℝ) →L[ℝ] (Fin 2 → Fin 2 → ℝ) := LinearMap.toContinuousLinearMap
    { toFun := fun G i j => (R * Matrix.of G) i j
      map_add' := by intro G G'; funext i j; simp [Matrix.mul_apply, mul_add, Finset.sum_add_distrib]
      map_smul' := by intro m G; funext i j; simp [Matrix.mul_apply]; ring }
  have hRot : ∀ G, Rot G = fun i j => (R * Matrix.of G) i j := fun G => rfl
  have c1 : HasFDerivAt (fun G => a * (Wa (Rot G) - Wm (Rot G)))
      ((strainPairing (Df fun i j => (R * F) i j)).comp Rot) (fun i j => F i j) :=
    HasFDerivAt.comp (g := fun G => a * (Wa G - Wm G)) (f := fun G => Rot G) (fun i j => F i j) l2 Rot.hasFDerivAt
  have hopen : ∀ᶠ G : Fin 2 → Fin 2 → ℝ in nhds (fun i j => F i j), 0 < (Matrix.of G).det := by
    have hc : Continuous fun G : Fin 2 → Fin 2 → ℝ => (Matrix.of G).det := by
      simp only [Matrix.det_fin_two, Matrix.of_apply]
      fun_prop
    exact hc.continuousAt.eventually_mem (isOpen_Ioi.mem_nhds hF)
  have heq : (fun G => a * (Wa (Rot G) - Wm (Rot G))) =ᶠ[nhds (fun i j => F i j)] fun G => a * (Wa G - Wm G) := by
    filter_upwards [hopen] with G hG
    have hG' : 0 < (Matrix.of (Rot G)).det := by
      rw [hRot]
      show 0 < (R * Matrix.of G).det
      rw [Matrix.det_mul, hR.2, one_mul]; exact hG
    obtain ⟨e1, e2, -, -⟩ := h G hG
    obtain ⟨e1', e2', -, -⟩ := h (Rot G) hG'
    have i1 := (C48_invariance (Matrix.of G) R hR).1
    have i2 := (C49_invariance (Matrix.of G) R hR).1
    have v1 : Wa (Rot G) = Wa G := Except.ok.inj (e1'.symm.trans (i1.trans e1))
    have v2 : Wm (Rot G) = Wm G := Except.ok.inj (e2'.symm.trans (i2.trans e2))
    rw [v1, v2]
  have hu := (c1.congr_of_eventuallyEq heq.symm).unique k2
  have := congrArg (fun f => f (fun i j => Δ i j)) hu
  have e : (Matrix.of fun i j => Δ i j) = Δ := rfl
  simpa [strainPairing, hRot, e] using this

theorem heatCoeff_rot (hR : IsRotation R) {F0 F : Matrix (Fin 2) (Fin 2) ℝ} (hF : 0 < F0.det) (fps x : ℝ)
    (K : Matrix (Fin 2) (Fin 2) ℝ) (q : ℝ) :
    IsHeatCoeff fps (R * F0) (R * F) x K q ↔ IsHeatCoeff fps F0 F x K q := by
  obtain ⟨A, A', h1, h2, h3⟩ := coupling_rot hR hF x
  have hs : ∑ i, ∑ j, A' i j * (fps * ((R * F) i j - (R * F0) i j)) = ∑ i, ∑ j, A i j * (fps * (F i j - F0 i j)) := by
    have := h3 (F - F0)
    rw [Matrix.mul_sub] at this
    have e : ∀ B G : Matrix (Fin 2) (Fin 2) ℝ, ∑ i, ∑ j, B i j * (fps * G i j) = fps * ∑ i, ∑ j, B i j * G i j := by
      intro B G
      simp only [Fin.sum_univ_two]
      ring
    exact (e A' (R * F - R * F0)).trans ((congrArg (fps * ·) this).trans (e A (F - F0)).symm)
  have hd : dissipationRate (matOf (R * F0)) (matOf (R * F)) fps = dissipationRate (matOf F0) (matOf F) fps := by
    simp only [dissipationRate, C51_frame_indifference F0 F R hR.1]
  unfold IsHeatCoeff
  rw [C52_frame_indifference F0 R hF hR, hd, h1, h2]
  constructor
  · rintro ⟨k1, ξ, B, k2, k3, k4⟩
    refine ⟨k1, ξ, A, k2, rfl, ?_⟩
    rw [k4, ← matOf_injective (Except.ok.inj k3), hs]
  · rintro ⟨k1, ξ, B, k2, k3, k4⟩
    refine ⟨k1, ξ, A', k2, rfl, ?_⟩
    rw [k4, ← matOf_injective (Except.ok.inj k3), hs]

theorem internalEnergy_det {F : Matrix (Fin 2) (Fin 2) ℝ} {x u : ℝ} (h : internalEnergyNoEntropy (matOf F) x = .ok u) :
    0 < F.det := by
  by_contra hn
  rw [internalEnergyNoEntropy, bind_eq_ok] at h
  obtain ⟨w, -, h⟩ := h
  rw [austPot_err (not_lt.1 hn)] at h
  cases h

theorem therm_rigid (E : Energetic g refined) (hR : IsRotation R) (hy0 : y0.Has (deformShape g refined))
    (hy : y.Has (deformShape g refined)) (h0 : y0.RigidMotion R c0 y0') (h : y.RigidMotion R c y') {leg : LegGauss}
    {params : SimParams} {ext : ExtTemp} {time : ℝ} {θ0 θ : NdArray} (v : ℝ) :
    IsThermObjective leg params ext g refined time y0' y' θ0 θ v ↔
      IsThermObjective leg params ext g refined time y0 y θ0 θ v := by
  obtain ⟨D0, D0', S0, -, hD0, hD0', hS0, hS0', -⟩ := E.rigid hy0 h0
  obtain ⟨D, D', S, -, hD, hD', hS, hS', -⟩ := E.rigid hy h
  obtain ⟨r, hr, hg⟩ := energyRule_good refined
  have hdet : ∀ F : Matrix (Fin 2) (Fin 2) ℝ, (R * F).det = F.det := fun F => by rw [Matrix.det_mul, hR.2, one_mul]
  constructor
  · rintro ⟨r1, F0, F, K, x0, x, q, a, u, G, b, k1, ⟨A, B, T0, m1, m2, m3, m4⟩, k3, k4, k5, k6⟩
    cases hr.symm.trans k1
    cases hD0'.symm.trans m1
    cases hD'.symm.trans m2
    refine ⟨r, S0, S, K, x0, x, q, a, u, G, b, hr, ⟨D0, D, T0, hD0, hD, m3, fun t ht p hp => ?_⟩, k3, fun t ht p hp => ?_, k5, k6⟩
    · have hb' := (hg.inside p hp).1
      exact ⟨hS0 t ht p hb', hS t ht p hb', (m4 t ht p hp).2.2⟩
    · have hb' := (hg.inside p hp).1
      obtain ⟨n1, n2, -⟩ := m4 t ht p hp
      have e1 := matOf_injective (Except.ok.inj (n1.symm.trans (hS0' t ht p hb')))
      have e2 := matOf_injective (Except.ok.inj (n2.symm.trans (hS' t ht p hb')))
      obtain ⟨l1, l2, l3⟩ := k4 t ht p hp
      rw [e1] at l1 l3
      rw [e2] at l1 l2
      have pos := internalEnergy_det l3
      rw [hdet] at pos
      exact ⟨(heatCoeff_rot hR pos _ _ _ _).1 l1, by rw [← l2, tempAntider_rot hR], by
        rw [← l3, internalEnergyNoEntropy_rot hR]⟩
  · rintro ⟨r1, F0, F, K, x0, x, q, a, u, G, b, k1, ⟨A, B, T0, m1, m2, m3, m4⟩, k3, k4, k5, k6⟩
    cases hr.symm.trans k1
    cases hD0.symm.trans m1
    cases hD.symm.trans m2
    refine ⟨r, fun t p => R * S0 t p, fun t p => R * S t p, K, x0, x, q, a, u, G, b, hr,
      ⟨D0', D', T0, hD0', hD', m3, fun t ht p hp => ?_⟩, k3, fun t ht p hp => ?_, k5, k6⟩
    · have hb' := (hg.inside p hp).1
      exact ⟨hS0' t ht p hb', hS' t ht p hb', (m4 t ht p hp).2.2⟩
    · have hb' := (hg.inside p hp).1
      obtain ⟨n1, n2, -⟩ := m4 t ht p hp
      have e1 := matOf_injective (Except.ok.inj (n1.symm.trans (hS0 t ht p hb')))
      have e2 := matOf_injective (Except.ok.inj (n2.symm.trans (hS t ht p hb')))
      obtain ⟨l1, l2, l3⟩ := k4 t ht p hp
      rw [e1] at l1 l3
      rw [e2] at l1 l2
      have pos := internalEnergy_det l3
      exact ⟨(heatCoeff_rot hR pos _ _ _ _).2 l1, by rw [← l2, tempAntider_rot hR], by
        rw [← l3, internalEnergyNoEntropy_rot hR]⟩

end

section
variable {solver : Solver} {domain : RectDomain ℝ} {params : SimParams} {ext : ExtTemp} {traction : Traction} {s : Sim}
  {R : Matrix (Fin 2) (Fin 2) ℝ} {c c0 : Fin 2 → ℝ} {y0 y0' y y' θ0 θ : NdArray}

/-- the arrays of a simulation have the shape of its deformations -/
theorem Sim.Context.yShape_eq {m0 : MechStep} {t0 : ThermStep} (c : s.Context domain params ext traction m0 t0) :
    m0.yShape = deformShape s.grid s.refined := by
  obtain ⟨it, hg⟩ := c.grid
  obtain ⟨Sh, ⟨n, U⟩, F⟩ := c.setup.simShape hg c.refined c.mech0
  obtain ⟨a1, a2, a3, a4, a5, a6, a7⟩ := mechanicalStep_facts U F c.mech0
  obtain ⟨G, h1, h2⟩ := c.setup.grids hg c.refined
  by_cases hr : params.regularization = none
  · rw [(a6 hr).2.2.1, h1 hr, deformShape, U.length]
  · obtain ⟨r, k, e1, e2, e3, e4⟩ := (a7 hr).2.2
    rw [e3, e1, deformShape, U.length]

/-- **C80** (elastic energy). Let `y` be any array of the shape of the recorded deformations. Following the deformation by a
rotation and a translation does not change its elastic energy, and does not change whether it is defined. -/
theorem C80_elastic (hs : s.Reachable solver domain params ext traction) (hR : IsRotation R) {st : Step} (hst : st ∈ s.steps)
    (hy : y.Has st.yData.shape) (h : y.RigidMotion R c y') (E : ℝ) :
    IsElasticEnergy s.grid s.refined y' θ E ↔ IsElasticEnergy s.grid s.refined y θ E := by
  obtain ⟨m0, t0, C⟩ := hs.context
  rw [(C.has st hst).1.1, C.yShape_eq] at hy
  exact elastic_rigid C.energetic hR hy h E

/-- **C80** (dissipation). Following both deformations by the same rotation (and by translations, which may differ) does not
change the dissipation. -/
theorem C80_dissipation (hs : s.Reachable solver domain params ext traction) (hR : IsRotation R) {st : Step}
    (hst : st ∈ s.steps) (hy0 : y0.Has st.yData.shape) (hy : y.Has st.yData.shape) (h0 : y0.RigidMotion R c0 y0')
    (h : y.RigidMotion R c y') (d : ℝ) :
    IsDissipation s.grid s.refined y0' y' d ↔ IsDissipation s.grid s.refined y0 y d := by
  obtain ⟨m0, t0, C⟩ := hs.context
  rw [(C.has st hst).1.1, C.yShape_eq] at hy hy0
  exact dissipation_rigid C.energetic hR hy0 hy h0 h d

/-- **C80** (hyper elastic energy). -/
theorem C80_hyper (hs : s.Reachable solver domain params ext traction) (hR : IsRotation R) {st : Step} (hst : st ∈ s.steps)
    (hy : y.Has st.yData.shape) (h : y.RigidMotion R c y') {r : RefinedGrid ℝ} (hr : s.refined = some r) (e : ℝ) :
    IsHyperEnergy s.grid r y' e ↔ IsHyperEnergy s.grid r y e := by
  obtain ⟨m0, t0, C⟩ := hs.context
  have E := C.energetic
  rw [(C.has st hst).1.1, C.yShape_eq] at hy
  rw [hr] at hy E
  exact hyper_rigid E hR hy h e

/-- **C80** (mechanical objective). In regularized simulations, whose objective has no traction term, the whole objective of
the mechanical step does not change if the previous and the new deformation are followed by the same rotation. -/
theorem C80_mechanical (hs : s.Reachable solver domain params ext traction) (hR : IsRotation R) {st : Step}
    (hst : st ∈ s.steps) (hy0 : y0.Has st.yData.shape) (hy : y.Has st.yData.shape) (h0 : y0.RigidMotion R c0 y0')
    (h : y.RigidMotion R c y') (hreg : params.regularization ≠ none) {leg : LegGauss} {time : ℝ} (v : ℝ) :
    IsMechObjective leg params traction s.grid s.refined time y0' y' θ0 v ↔
      IsMechObjective leg params traction s.grid s.refined time y0 y θ0 v := by
  constructor
  · rintro ⟨E, d, h1, h2, -, h4⟩
    refine ⟨E, d, (C80_elastic hs hR hst hy h E).1 h1, (C80_dissipation hs hR hst hy0 hy h0 h d).1 h2,
      fun hn => absurd hn hreg, fun κ hκ => ?_⟩
    obtain ⟨r, e, k1, k2, k3⟩ := h4 κ hκ
    exact ⟨r, e, k1, (C80_hyper hs hR hst hy h k1 e).1 k2, k3⟩
  · rintro ⟨E, d, h1, h2, -, h4⟩
    refine ⟨E, d, (C80_elastic hs hR hst hy h E).2 h1, (C80_dissipation hs hR hst hy0 hy h0 h d).2 h2,
      fun hn => absurd hn hreg, fun κ hκ => ?_⟩
    obtain ⟨r, e, k1, k2, k3⟩ := h4 κ hκ
    exact ⟨r, e, k1, (C80_hyper hs hR hst hy h k1 e).2 k2, k3⟩

/-- **C80** (thermal objective). The objective of the thermal step, as a function of the temperature, does not change if the
previous and the new deformation are followed by the same rotation: heat is produced and conducted in the same way. -/
theorem C80_thermal (hs : s.Reachable solver domain params ext traction) (hR : IsRotation R) {st : Step} (hst : st ∈ s.steps)
    (hy0 : y0.Has st.yData.shape) (hy : y.Has st.yData.shape) (h0 : y0.RigidMotion R c0 y0') (h : y.RigidMotion R c y')
    {leg : LegGauss} {time : ℝ} (v : ℝ) :
    IsThermObjective leg params ext s.grid s.refined time y0' y' θ0 θ v ↔
      IsThermObjective leg params ext s.grid s.refined time y0 y θ0 θ v := by
  obtain ⟨m0, t0, C⟩ := hs.context
  rw [(C.has st hst).1.1, C.yShape_eq] at hy hy0
  exact therm_rigid C.energetic hR hy0 hy h0 h v

/-- every array can be moved rigidly -/
theorem rigidMotion_exists {g : Grid ℝ} {refined : Option (RefinedGrid ℝ)} (R : Matrix (Fin 2) (Fin 2) ℝ) (c : Fin 2 → ℝ)
    (hy : y.Has (deformShape g refined)) : ∃ y', y.RigidMotion R c y' := by
  have fin2 : ∀ i : Fin 2, Fin.ofNat 2 (i : ℕ) = i := fun i => by ext; simp
  have fin6 : ∀ k : Fin 6, Fin.ofNat 6 (k : ℕ) = k := fun k => by ext; simp
  cases refined with
  | none =>
    set n := g.vertices.length with hn
    refine ⟨⟨[n, 2], (List.range (n * 2)).map fun p =>
      ∑ j : Fin 2, R (Fin.ofNat 2 (p % 2)) j * y.at2 2 (p / 2) j + c (Fin.ofNat 2 (p % 2))⟩, ?_⟩
    have hy1 : y.shape = [n, 2] := hy.1
    rw [NdArray.RigidMotion, hy1]
    refine ⟨⟨rfl, by simp [NdArray.Ok]⟩, fun v hv i => ?_⟩
    have hi := i.isLt
    have h1 : (v * 2 + i) / 2 = v := by omega
    have h2 : (v * 2 + i) % 2 = i := by omega
    rw [NdArray.at2, List.getD_eq_getElem?_getD, List.getElem?_map, List.getElem?_range (by omega)]
    simp only [Option.map_some, Option.getD_some, h1, h2, fin2]
  | some r =>
    set n := g.vertices.length with hn
    refine ⟨⟨[n, 2, 6], (List.range (n * (2 * 6))).map fun p =>
      ∑ j : Fin 2, R (Fin.ofNat 2 (p / 6 % 2)) j * y.at3 2 6 (p / 12) j (p % 6) +
        if Fin.ofNat 6 (p % 6) = 0 then c (Fin.ofNat 2 (p / 6 % 2)) else 0⟩, ?_⟩
    have hy1 : y.shape = [n, 2, 6] := hy.1
    rw [NdArray.RigidMotion, hy1]
    refine ⟨⟨rfl, by simp [NdArray.Ok]⟩, fun v hv i k => ?_⟩
    have hi := i.isLt
    have hk := k.isLt
    have h1 : ((v * 2 + i) * 6 + k) / 12 = v := by omega
    have h2 : ((v * 2 + i) * 6 + k) / 6 % 2 = i := by omega
    have h3 : ((v * 2 + i) * 6 + k) % 6 = k := by omega
    rw [NdArray.at3, List.getD_eq_getElem?_getD, List.getElem?_map, List.getElem?_range (by omega)]
    simp only [Option.map_some, Option.getD_some, h1, h2, h3, fin2, fin6]

/-- C80 is not vacuous: in a simulation (with or without regularization) with defined elastic energy, the quarter turn of a
recorded deformation, moved by `(3, -1)`, has the same elastic energy. -/
example (it : SetIter) {params : SimParams} (hp : params = exampleParams ∨ params = exampleParamsReg) :
    ∃ (s : Sim) (a : Step) (y' : NdArray) (E : ℝ), s.Reachable staySolver exampleDomain params (fun t => .ok (t ^ 2))
        (fun t x y => .ok [t + x, y]) ∧ a ∈ s.steps ∧ a.yData.RigidMotion !![0, -1; 1, 0] ![3, -1] y' ∧
      IsElasticEnergy s.grid s.refined a.yData a.thetaData E ∧ IsElasticEnergy s.grid s.refined y' a.thetaData E := by
  obtain ⟨leg, q, s, a, b, -, h2, -, -, h5, -, h7, -⟩ := example_energy it hp
  have ha : a ∈ s.steps := List.mem_of_getElem? h5
  obtain ⟨m0, t0, C⟩ := h2.context
  have hy := (C.has a ha).1
  have hy' := hy
  rw [C.yShape_eq] at hy'
  obtain ⟨y', hm⟩ := rigidMotion_exists !![0, -1; 1, 0] ![3, -1] hy'
  have hR : IsRotation !![0, -1; 1, 0] := by
    refine ⟨?_, by simp [Matrix.det_fin_two]⟩
    ext i j
    fin_cases i <;> fin_cases j <;> simp [Matrix.mul_apply]
  obtain ⟨-, -, -, -, -, -, -, -, -, -, -, -, -, -, -, -, -, -, T, hT, -⟩ := step_grids h2 ha
  obtain ⟨E, hE⟩ := h7.energy C.energetic.wf hT
  exact ⟨s, a, y', E, h2, ha, hm, hE, (C80_elastic h2 hR ha ⟨rfl, by rw [← hy.1] at hy; exact hy.2⟩ hm E).2 hE⟩

end

end Tve
