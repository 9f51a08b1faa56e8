import Verif.Spec.Energy
import Mathlib.Data.Matrix.Mul

/-!
# Specification vocabulary: the heat balance
-/

namespace Tve

/-- `F0` and `F` are the strains of the deformations `y0` and `y` and `x0` is the temperature `θ0` at the points of a rule -/
def IsHeatState (g : Grid ℝ) (refined : Option (RefinedGrid ℝ)) (r : TriRule ℝ) (y0 y θ0 : NdArray)
    (F0 F : Tri → Bary ℝ → Matrix (Fin 2) (Fin 2) ℝ) (x0 : Tri → Bary ℝ → ℝ) : Prop :=
  ∃ D0 D T0, deformOf g refined y0 = .ok D0 ∧ deformOf g refined y = .ok D ∧
    P1Interpolation (energyGrid g refined) θ0.data = .ok T0 ∧
    ∀ t ∈ (energyGrid g refined).triangles, ∀ b ∈ r.points, D0.strain t b = .ok (matOf (F0 t b)) ∧
      D.strain t b = .ok (matOf (F t b)) ∧ T0.call t b = .ok (x0 t b)

/-- `x` and `G` are the values and the gradients of the piecewise affine temperature with nodal values `θ` at the points of a
rule -/
def IsTempField (g : Grid ℝ) (r : TriRule ℝ) (θ : List ℝ) (x : Tri → Bary ℝ → ℝ) (G : Tri → Bary ℝ → Fin 2 → ℝ) : Prop :=
  ∃ T, P1Interpolation g θ = .ok T ∧
    ∀ t ∈ g.triangles, ∀ b ∈ r.points, T.call t b = .ok (x t b) ∧ T.gradient t b = .ok (vecOf (G t b))

/-- `K` is the conductivity and `q` is the heat production: the rate of dissipation plus the coupling derivative times
the rate of the strain -/
def IsHeatCoeff (fps : ℝ) (F0 F : Matrix (Fin 2) (Fin 2) ℝ) (x0 : ℝ) (K : Matrix (Fin 2) (Fin 2) ℝ) (q : ℝ) : Prop :=
  Helpers.heatConductivityReference (matOf F0) = .ok (matOf K) ∧
  ∃ (ξ : ℝ) (A : Matrix (Fin 2) (Fin 2) ℝ), Helpers.dissipationRate (matOf F0) (matOf F) fps = .ok ξ ∧
    Helpers.strainDerivativeCouplingPotential (matOf F0) x0 = .ok (matOf A) ∧
    q = ξ + ∑ i, ∑ j, A i j * (fps * (F i j - F0 i j))

/-- the heat transfer coefficient -/
noncomputable def transferCoeff : ℝ := 1 / 2

/-- `b` is the boundary term: without regularization the Gauss quadrature over all boundary edges of half the transfer
coefficient times the squared difference to the external temperature at a time, with regularization zero -/
def IsBoundaryHeat (leg : LegGauss) (params : SimParams) (ext : ExtTemp) (g : Grid ℝ) (time : ℝ) (θ : List ℝ) (b : ℝ) :
    Prop :=
  (params.regularization = none → ∃ r e, GaussRule.new leg 1 = .ok r ∧ ext time = .ok e ∧
    b = g.edgeQuad g.boundary.edges r fun ed s =>
      transferCoeff / 2 * (s * θ.getD ed.1 0 + (1 - s) * θ.getD ed.2 0 - e) ^ 2) ∧
  (params.regularization ≠ none → b = 0)

/-- `v` is the objective of the thermal step: diffusion minus heat production times temperature, plus the boundary term, plus `fps`
times the thermal dissipation (quadratic entropy term plus the antiderivative of the internal energy at the new strain
minus previous internal energy times temperature) -/
def IsThermObjective (leg : LegGauss) (params : SimParams) (ext : ExtTemp) (g : Grid ℝ)
    (refined : Option (RefinedGrid ℝ)) (time : ℝ) (y0 y θ0 θ : NdArray) (v : ℝ) : Prop :=
  ∃ (r : TriRule ℝ) (F0 F K : Tri → Bary ℝ → Matrix (Fin 2) (Fin 2) ℝ) (x0 x q a u : Tri → Bary ℝ → ℝ)
    (G : Tri → Bary ℝ → Fin 2 → ℝ) (b : ℝ), energyRule refined = .ok r ∧ IsHeatState g refined r y0 y θ0 F0 F x0 ∧
    IsTempField (energyGrid g refined) r θ.data x G ∧
    (∀ t ∈ (energyGrid g refined).triangles, ∀ c ∈ r.points,
      IsHeatCoeff params.fps (F0 t c) (F t c) (x0 t c) (K t c) (q t c) ∧
      Helpers.tempAntiderInternalEnergyNoEntropy (matOf (F t c)) (x t c) = .ok (a t c) ∧
      Helpers.internalEnergyNoEntropy (matOf (F0 t c)) (x0 t c) = .ok (u t c)) ∧
    IsBoundaryHeat leg params ext g time θ.data b ∧
    v = (energyGrid g refined).quad r (fun t c => G t c ⬝ᵥ (K t c).mulVec (G t c) - q t c * x t c) + b +
      params.fps * (energyGrid g refined).quad r (fun t c => 10 / 2 * (x t c - x0 t c) ^ 2 + (a t c - u t c * x t c))

/-- `b` is the boundary term of the weak heat balance: transfer coefficient times difference to the external temperature times
test function -/
def IsBoundaryFlux (leg : LegGauss) (params : SimParams) (ext : ExtTemp) (g : Grid ℝ) (time : ℝ) (θ η : List ℝ) (b : ℝ) :
    Prop :=
  (params.regularization = none → ∃ r e, GaussRule.new leg 1 = .ok r ∧ ext time = .ok e ∧
    b = g.edgeQuad g.boundary.edges r fun ed s =>
      transferCoeff * (s * θ.getD ed.1 0 + (1 - s) * θ.getD ed.2 0 - e) * (s * η.getD ed.1 0 + (1 - s) * η.getD ed.2 0)) ∧
  (params.regularization ≠ none → b = 0)

/-- `R` is the weak heat balance at the temperature `θ` with test function `η` and conductivity `κ` times
`heat_conductivity_reference`: change of the internal energy per time, minus heat production, plus conduction, plus exchange
with the environment -/
def IsHeatBalance (κ : ℝ) (leg : LegGauss) (params : SimParams) (ext : ExtTemp) (g : Grid ℝ)
    (refined : Option (RefinedGrid ℝ)) (time : ℝ) (y0 y θ0 θ η : NdArray) (R : ℝ) : Prop :=
  ∃ (r : TriRule ℝ) (F0 F K : Tri → Bary ℝ → Matrix (Fin 2) (Fin 2) ℝ) (x0 x z q u u0 : Tri → Bary ℝ → ℝ)
    (G H : Tri → Bary ℝ → Fin 2 → ℝ) (b : ℝ), energyRule refined = .ok r ∧ IsHeatState g refined r y0 y θ0 F0 F x0 ∧
    IsTempField (energyGrid g refined) r θ.data x G ∧ IsTempField (energyGrid g refined) r η.data z H ∧
    (∀ t ∈ (energyGrid g refined).triangles, ∀ c ∈ r.points,
      IsHeatCoeff params.fps (F0 t c) (F t c) (x0 t c) (K t c) (q t c) ∧
      Helpers.internalEnergy (matOf (F t c)) (x t c) = .ok (u t c) ∧
      Helpers.internalEnergy (matOf (F0 t c)) (x0 t c) = .ok (u0 t c)) ∧
    IsBoundaryFlux leg params ext g time θ.data η.data b ∧
    R = (energyGrid g refined).quad r (fun t p => (u t p - u0 t p) / (1 / params.fps) * z t p) -
      (energyGrid g refined).quad r (fun t p => q t p * z t p) +
      (energyGrid g refined).quad r (fun t p => G t p ⬝ᵥ (κ • K t p).mulVec (H t p)) + b

end Tve
