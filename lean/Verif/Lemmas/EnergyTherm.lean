import Verif.Lemmas.EnergySim
import Verif.Spec.Thermal

/-!
# The objective of the thermal step
-/

namespace Tve

open Bell

/-! ### one point -/

theorem vecOf_dot {n : ℕ} (f g : Fin n → ℝ) : (vecOf f).dot (vecOf g) = f ⬝ᵥ g := by
  simp [Vec.dot, vecOf, zipWith_ofFn, List.sum_ofFn, dotProduct]

theorem energyPotential_eq {fps x0 q : ℝ} {F0 F K : Matrix (Fin 2) (Fin 2) ℝ} (h : IsHeatCoeff fps F0 F x0 K q) (x : ℝ)
    (G : Fin 2 → ℝ) :
    Thermal.energyPotential fps (matOf F0) (matOf F) x0 x (vecOf G) = .ok (G ⬝ᵥ K.mulVec G - q * x) := by
  obtain ⟨h1, ξ, A, h2, h3, rfl⟩ := h
  rw [Thermal.energyPotential, h1, bind_ok, dot_matOf (r := 1), bind_ok]
  simp only
  rw [sub_matOf2, bind_ok, smul_matOf2, bind_ok, h2, bind_ok, h3, bind_ok, (C07_matrix_scalars (r := 1) A _).2, bind_ok, vecOf_dot]
  rw [pure_eq_ok]
  congr 1
  change _ + -(ξ + ∑ i : Fin 2, ∑ j : Fin 2, A i j * _) * x = _
  simp only [Matrix.sub_apply, Matrix.of_apply, Fin.sum_univ_two]
  ring

theorem heatCoeff_exists {F0 F : Matrix (Fin 2) (Fin 2) ℝ} (h : 0 < F0.det) (fps x0 : ℝ) :
    ∃ K q, IsHeatCoeff fps F0 F x0 K q := by
  obtain ⟨K, hK, -⟩ := C52_positive_definite F0 h
  obtain ⟨a, Wa, Wm, D, -, hD⟩ := C50_coupling x0
  have hD' := (hD (fun i j => F0 i j) h).2.2.1
  have e1 := C51_value (n := 1) F0 F
  obtain ⟨ξ, hξ⟩ : ∃ ξ, Helpers.dissipationRate (matOf F0) (matOf F) fps = .ok ξ := by
    rw [Helpers.dissipationRate, e1]; exact ⟨_, rfl⟩
  exact ⟨K, ξ + ∑ i, ∑ j, Matrix.of (D fun i j => F0 i j) i j * (fps * (F i j - F0 i j)), hK, ξ,
    Matrix.of (D fun i j => F0 i j), hξ, hD', rfl⟩

theorem dissipationPotential_eq {F0 F : Matrix (Fin 2) (Fin 2) ℝ} {x0 x a u : ℝ}
    (h1 : Helpers.tempAntiderInternalEnergyNoEntropy (matOf F) x = .ok a)
    (h2 : Helpers.internalEnergyNoEntropy (matOf F0) x0 = .ok u) :
    Thermal.dissipationPotential (matOf F0) (matOf F) x0 x = .ok (10 / 2 * (x - x0) ^ 2 + (a - u * x)) := by
  rw [Thermal.dissipationPotential, h1]
  simp only [bind_ok]
  rw [h2]
  rfl

theorem dissipationPotential_pos {F0 F : Matrix (Fin 2) (Fin 2) ℝ} {x0 x v : ℝ}
    (h : Thermal.dissipationPotential (matOf F0) (matOf F) x0 x = .ok v) : 0 < F0.det ∧ 0 < F.det := by
  rw [Thermal.dissipationPotential, bind_eq_ok] at h
  obtain ⟨a, ha, h⟩ := h
  rw [bind_eq_ok] at h
  obtain ⟨u, hu, -⟩ := h
  constructor
  · by_contra hn
    rw [Helpers.internalEnergyNoEntropy, Helpers.weight_eq, bind_ok, Helpers.austPot_err (not_lt.1 hn)] at hu
    cases hu
  · by_contra hn
    rw [Helpers.tempAntiderInternalEnergyNoEntropy, Helpers.antider_eq, bind_ok, Helpers.austPot_err (not_lt.1 hn)] at ha
    cases ha

theorem energy_pos {F : Matrix (Fin 2) (Fin 2) ℝ} {x u : ℝ}
    (hu : Helpers.internalEnergyNoEntropy (matOf F) x = .ok u) : 0 < F.det := by
  by_contra hn
  rw [Helpers.internalEnergyNoEntropy, Helpers.weight_eq, bind_ok, Helpers.austPot_err (not_lt.1 hn)] at hu
  cases hu

theorem antider_pos {F : Matrix (Fin 2) (Fin 2) ℝ} {x u : ℝ}
    (hu : Helpers.tempAntiderInternalEnergyNoEntropy (matOf F) x = .ok u) : 0 < F.det := by
  by_contra hn
  rw [Helpers.tempAntiderInternalEnergyNoEntropy, Helpers.antider_eq, bind_ok, Helpers.austPot_err (not_lt.1 hn)] at hu
  cases hu

/-! ### fields -/

section
variable {g : Grid ℝ} {refined : Option (RefinedGrid ℝ)}

/-- the gradient of a piecewise affine function -/
noncomputable def p1Gradient (g : Grid ℝ) (u : List ℝ) (t : Tri) (_ : Bary ℝ) : Fin 2 → ℝ :=
  ![∑ j, bb (g.corners t) j * u.getD (t.get j) 0 / twoD (g.corners t),
    ∑ j, cc (g.corners t) j * u.getD (t.get j) 0 / twoD (g.corners t)]

/-- the value of a piecewise affine function -/
noncomputable def p1Value (u : List ℝ) (t : Tri) (c : Bary ℝ) : ℝ :=
  c.l1 * u.getD t.1 0 + c.l2 * u.getD t.2.1 0 + c.l3 * u.getD t.2.2 0

theorem tempField {nx ny : ℕ} {s : ℝ} (L : LibraryGrid g nx ny s) (r : TriRule ℝ) {u : List ℝ}
    (hu : u.length = g.vertices.length) : IsTempField g r u (p1Value u) (p1Gradient g u) := by
  obtain ⟨T, hT⟩ := P1_ok (g := g) hu
  refine ⟨T, hT, fun t ht b _ => ⟨temp_call L.wellFormed hT t ht b, ?_⟩⟩
  obtain ⟨-, rfl⟩ := P1_of hT
  exact P1_gradient_eq L.wellFormed hu ht (L.nondegenerate ht) b

/-- the objective without the boundary term -/
noncomputable def thermCode (g : Grid ℝ) (refined : Option (RefinedGrid ℝ)) (fps : ℝ) (y0 y θ0 θ : NdArray) (b : ℝ) : PyM ℝ := do
  let D0 ← deformOf g refined y0
  let D ← deformOf g refined y
  let T0 ← P1Interpolation (energyGrid g refined) θ0.data
  let T ← P1Interpolation (energyGrid g refined) θ.data
  let rule ← energyRule refined
  let I ← Integrator.new rule (energyGrid g refined).triangles (energyGrid g refined).points
  let e ← Thermal.energy I D0 D T0 T fps
  let d ← Thermal.dissipation I D0 D T0 T
  return e + b + fps * d

theorem IsThermObjective.code (W : (energyGrid g refined).WellFormed) {leg : LegGauss} {params : SimParams} {ext : ExtTemp}
    {time : ℝ} {y0 y θ0 θ : NdArray} {v : ℝ} (h : IsThermObjective leg params ext g refined time y0 y θ0 θ v) :
    ∃ b, IsBoundaryHeat leg params ext g time θ.data b ∧ thermCode g refined params.fps y0 y θ0 θ b = .ok v := by
  obtain ⟨r, F0, F, K, x0, x, q, a, u, G, b, hr, ⟨D0, D, T0, h1, h2, h3, h4⟩, ⟨T, h5, h6⟩, h7, hb, rfl⟩ := h
  refine ⟨b, hb, ?_⟩
  rw [thermCode, h1, bind_ok, h2, bind_ok, h3, bind_ok, h5, bind_ok, hr, bind_ok, integrator_ok W, bind_ok, Thermal.energy,
    call_quad (fun t c => G t c ⬝ᵥ (K t c).mulVec (G t c) - q t c * x t c), bind_ok, Thermal.dissipation,
    call_quad (fun t c => 10 / 2 * (x t c - x0 t c) ^ 2 + (a t c - u t c * x t c)), bind_ok]
  · rfl
  · intro t ht c hc
    obtain ⟨k1, k2, k3⟩ := h4 t ht c hc
    obtain ⟨k4, k5⟩ := h6 t ht c hc
    obtain ⟨k6, k7, k8⟩ := h7 t ht c hc
    rw [k1, bind_ok, k2, bind_ok, k3, bind_ok, k4, bind_ok, dissipationPotential_eq k7 k8]
  · intro t ht c hc
    obtain ⟨k1, k2, k3⟩ := h4 t ht c hc
    obtain ⟨k4, k5⟩ := h6 t ht c hc
    obtain ⟨k6, k7, k8⟩ := h7 t ht c hc
    rw [k1, bind_ok, k2, bind_ok, k3, bind_ok, k4, bind_ok, k5, bind_ok, energyPotential_eq k6]

theorem IsThermObjective.oriented {leg : LegGauss} {params : SimParams} {ext : ExtTemp}
    {time : ℝ} {y0 y θ0 θ : NdArray} {v : ℝ} (h : IsThermObjective leg params ext g refined time y0 y θ0 θ v) :
    Oriented g refined y0 ∧ Oriented g refined y := by
  obtain ⟨r, F0, F, K, x0, x, q, a, u, G, b, hr, ⟨D0, D, T0, h1, h2, h3, h4⟩, ⟨T, h5, h6⟩, h7, hb, rfl⟩ := h
  refine ⟨⟨D0, r, h1, hr, ?_⟩, ⟨D, r, h2, hr, ?_⟩⟩
  · intro t ht c hc
    exact ⟨_, (h4 t ht c hc).1, energy_pos (h7 t ht c hc).2.2⟩
  · intro t ht c hc
    exact ⟨_, (h4 t ht c hc).2.1, antider_pos (h7 t ht c hc).2.1⟩

/-- strains and temperatures of orientation preserving deformations -/
theorem heatState_exists (W : (energyGrid g refined).WellFormed) {y0 y θ0 : NdArray} {r : TriRule ℝ}
    (hr : energyRule refined = .ok r) (h0 : Oriented g refined y0) (h : Oriented g refined y)
    (hθ : θ0.data.length = (energyGrid g refined).vertices.length) :
    ∃ F0 F, IsHeatState g refined r y0 y θ0 F0 F (p1Value θ0.data) ∧
      ∀ t ∈ (energyGrid g refined).triangles, ∀ c ∈ r.points, 0 < (F0 t c).det ∧ 0 < (F t c).det := by
  obtain ⟨D0, r0, a1, a2, a3⟩ := h0
  obtain ⟨D, r1, b1, b2, b3⟩ := h
  cases a2.symm.trans hr
  cases b2.symm.trans hr
  choose! F0 hF0 using a3
  choose! F hF using b3
  obtain ⟨T, hT⟩ := P1_ok (g := energyGrid g refined) hθ
  refine ⟨F0, F, ⟨D0, D, T, a1, b1, hT, ?_⟩, fun t ht c hc => ⟨(hF0 t ht c hc).2, (hF t ht c hc).2⟩⟩
  intro t ht c hc
  exact ⟨(hF0 t ht c hc).1, (hF t ht c hc).1, temp_call W hT t ht c⟩

theorem thermCode_oriented (E : Energetic g refined) {fps : ℝ} {y0 y θ0 θ : NdArray} {b v : ℝ}
    (h : thermCode g refined fps y0 y θ0 θ b = .ok v) : Oriented g refined y0 ∧ Oriented g refined y := by
  rw [thermCode, bind_eq_ok] at h
  obtain ⟨D0, h1, h⟩ := h
  rw [bind_eq_ok] at h
  obtain ⟨D, h2, h⟩ := h
  rw [bind_eq_ok] at h
  obtain ⟨T0, h3, h⟩ := h
  rw [bind_eq_ok] at h
  obtain ⟨T, h4, h⟩ := h
  obtain ⟨r, hr, hg⟩ := energyRule_good refined
  rw [hr, bind_ok, integrator_ok E.wf, bind_ok, bind_eq_ok] at h
  obtain ⟨e, -, h⟩ := h
  rw [bind_eq_ok] at h
  obtain ⟨d, hd, -⟩ := h
  have each := call_ok_each hg.len (by simp) hd
  obtain ⟨S0, hS0⟩ := E.strains h1
  obtain ⟨S, hS⟩ := E.strains h2
  have key : ∀ t ∈ (energyGrid g refined).triangles, ∀ c ∈ r.points, 0 < (S0 t c).det ∧ 0 < (S t c).det := by
    intro t ht c hc
    have hn := (hg.inside c hc).1
    obtain ⟨w, hw⟩ := each t ht c hc
    rw [hS0 t ht c hn, bind_ok, hS t ht c hn, bind_ok, temp_call E.wf h3 t ht, bind_ok, temp_call E.wf h4 t ht, bind_ok] at hw
    exact dissipationPotential_pos hw
  exact ⟨⟨D0, r, h1, hr, fun t ht c hc => ⟨_, hS0 t ht c (hg.inside c hc).1, (key t ht c hc).1⟩⟩,
    ⟨D, r, h2, hr, fun t ht c hc => ⟨_, hS t ht c (hg.inside c hc).1, (key t ht c hc).2⟩⟩⟩

theorem thermObjective_exists (E : Energetic g refined) {leg : LegGauss} {params : SimParams} {ext : ExtTemp}
    {time : ℝ} {y0 y θ0 θ : NdArray} (h0 : Oriented g refined y0) (h : Oriented g refined y)
    (hθ0 : θ0.data.length = (energyGrid g refined).vertices.length)
    (hθ : θ.data.length = (energyGrid g refined).vertices.length) {b : ℝ}
    (hb : IsBoundaryHeat leg params ext g time θ.data b) :
    ∃ v, IsThermObjective leg params ext g refined time y0 y θ0 θ v := by
  obtain ⟨r, hr, hg⟩ := energyRule_good refined
  obtain ⟨F0, F, hs, hd⟩ := heatState_exists E.wf hr h0 h hθ0
  obtain ⟨nx, ny, s, L⟩ := E.lib
  have key : ∀ t ∈ (energyGrid g refined).triangles, ∀ c ∈ r.points, ∃ kq : Matrix (Fin 2) (Fin 2) ℝ × ℝ × ℝ × ℝ,
      IsHeatCoeff params.fps (F0 t c) (F t c) (p1Value θ0.data t c) kq.1 kq.2.1 ∧
      Helpers.tempAntiderInternalEnergyNoEntropy (matOf (F t c)) (p1Value θ.data t c) = .ok kq.2.2.1 ∧
      Helpers.internalEnergyNoEntropy (matOf (F0 t c)) (p1Value θ0.data t c) = .ok kq.2.2.2 := by
    intro t ht c hc
    obtain ⟨d0, d1⟩ := hd t ht c hc
    obtain ⟨K, q, hk⟩ := heatCoeff_exists (F := F t c) d0 params.fps (p1Value θ0.data t c)
    obtain ⟨A, e, hA, -⟩ := C54_antiderivative _ d1
    obtain ⟨A', e', -, he, -⟩ := C54_antiderivative _ d0
    exact ⟨(K, q, _, _), hk, hA _, he _⟩
  choose! kq hkq using key
  exact ⟨_, r, F0, F, fun t c => (kq t c).1, p1Value θ0.data, p1Value θ.data, fun t c => (kq t c).2.1,
    fun t c => (kq t c).2.2.1, fun t c => (kq t c).2.2.2, p1Gradient (energyGrid g refined) θ.data, b, hr, hs, tempField L r hθ, hkq, hb, rfl⟩

theorem thermCode_iff (E : Energetic g refined) {leg : LegGauss} {params : SimParams} {ext : ExtTemp}
    {time : ℝ} {y0 y θ0 θ : NdArray}
    (hθ0 : θ0.data.length = (energyGrid g refined).vertices.length)
    (hθ : θ.data.length = (energyGrid g refined).vertices.length) {b : ℝ}
    (hb : IsBoundaryHeat leg params ext g time θ.data b)
    (hu : ∀ b', IsBoundaryHeat leg params ext g time θ.data b' → b' = b) (v : ℝ) :
    thermCode g refined params.fps y0 y θ0 θ b = .ok v ↔
      IsThermObjective leg params ext g refined time y0 y θ0 θ v := by
  constructor
  · intro h
    obtain ⟨o0, o1⟩ := thermCode_oriented E h
    obtain ⟨v', hv'⟩ := thermObjective_exists E o0 o1 hθ0 hθ hb
    obtain ⟨b', hb', hc⟩ := hv'.code E.wf
    cases hu b' hb'
    cases Except.ok.inj (h.symm.trans hc)
    exact hv'
  · intro h
    obtain ⟨b', hb', hc⟩ := h.code E.wf
    cases hu b' hb'
    exact hc

end

end Tve
