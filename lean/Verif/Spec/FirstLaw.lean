import Verif.Spec.Thermal
import Verif.Spec.Optimal

/-!
# Specification vocabulary: the balance of heat of the whole body
-/

namespace Tve

/-- `U` is the internal energy of the body with deformation `y` and temperature `θ` -/
def IsInternalEnergy (g : Grid ℝ) (refined : Option (RefinedGrid ℝ)) (y θ : NdArray) (U : ℝ) : Prop :=
  ∃ (r : TriRule ℝ) (D : Deformation) (T : Interp) (F : Tri → Bary ℝ → Matrix (Fin 2) (Fin 2) ℝ) (x u : Tri → Bary ℝ → ℝ),
    energyRule refined = .ok r ∧ deformOf g refined y = .ok D ∧ P1Interpolation (energyGrid g refined) θ.data = .ok T ∧
    (∀ t ∈ (energyGrid g refined).triangles, ∀ b ∈ r.points, D.strain t b = .ok (matOf (F t b)) ∧
      T.call t b = .ok (x t b) ∧ Helpers.internalEnergy (matOf (F t b)) (x t b) = .ok (u t b)) ∧
    U = (energyGrid g refined).quad r u

/-- `Q` is the heat produced per time by the motion from `y0` to `y` at the temperature `θ0`: dissipation and latent heat -/
def IsHeatProduction (fps : ℝ) (g : Grid ℝ) (refined : Option (RefinedGrid ℝ)) (y0 y θ0 : NdArray) (Q : ℝ) : Prop :=
  ∃ (r : TriRule ℝ) (F0 F K : Tri → Bary ℝ → Matrix (Fin 2) (Fin 2) ℝ) (x0 q : Tri → Bary ℝ → ℝ),
    energyRule refined = .ok r ∧ IsHeatState g refined r y0 y θ0 F0 F x0 ∧
    (∀ t ∈ (energyGrid g refined).triangles, ∀ b ∈ r.points, IsHeatCoeff fps (F0 t b) (F t b) (x0 t b) (K t b) (q t b)) ∧
    Q = (energyGrid g refined).quad r q

/-- `B` is the heat lost per time through the boundary at the temperature `θ`: without regularization the transfer coefficient
times the difference to the external temperature, integrated over the whole boundary; with regularization nothing -/
def IsHeatLoss (leg : LegGauss) (params : SimParams) (ext : ExtTemp) (g : Grid ℝ) (time : ℝ) (θ : NdArray) (B : ℝ) : Prop :=
  (params.regularization = none → ∃ r e, GaussRule.new leg 1 = .ok r ∧ ext time = .ok e ∧
    B = g.edgeQuad g.boundary.edges r fun ed s =>
      transferCoeff * (s * θ.data.getD ed.1 0 + (1 - s) * θ.data.getD ed.2 0 - e)) ∧
  (params.regularization ≠ none → B = 0)

/-- the direction `η` leads from the temperatures `θ` into the admissible ones: where the temperature has risen by the search
radius it must not rise, where it has fallen by the search radius or to zero it must not fall -/
def AllowedDirection (radius : ℝ) (θ0 θ : List ℝ) (η : ℕ → ℝ) : Prop :=
  ∀ i u v, θ0[i]? = some u → θ[i]? = some v → (0 < η i → v < u + radius) ∧ (η i < 0 → 0 < v ∧ u - radius < v)

end Tve
