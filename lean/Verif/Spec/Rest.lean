import Verif.Spec.Energy

/-!
# Specification vocabulary: bodies at rest
-/

namespace Tve

/-- the deformation `y` (an array returned by `y()`) has the strain 1 at all quadrature points of the elastic energy -/
def Undeformed (g : Grid ℝ) (refined : Option (RefinedGrid ℝ)) (y : NdArray) : Prop :=
  ∃ D r, deformOf g refined y = .ok D ∧ energyRule refined = .ok r ∧
    ∀ t ∈ (energyGrid g refined).triangles, ∀ b ∈ r.points, D.strain t b = .ok (matOf (1 : Matrix (Fin 2) (Fin 2) ℝ))

/-- the weighted hyper elastic energy of the deformation `y` vanishes (there is none without regularization) -/
def NoHyperEnergy (params : SimParams) (g : Grid ℝ) (refined : Option (RefinedGrid ℝ)) (y : NdArray) : Prop :=
  ∀ κ, params.regularization = some κ → ∃ r h, refined = some r ∧ IsHyperEnergy g r y h ∧ κ * h = 0

/-- two deformations have the same strains at all quadrature points of the elastic energy -/
def SameStrain (g : Grid ℝ) (refined : Option (RefinedGrid ℝ)) (y0 y : NdArray) : Prop :=
  ∃ D0 D r, deformOf g refined y0 = .ok D0 ∧ deformOf g refined y = .ok D ∧ energyRule refined = .ok r ∧
    ∀ t ∈ (energyGrid g refined).triangles, ∀ b ∈ r.points, D0.strain t b = D.strain t b

/-- the temperature from which on the undeformed state has the smallest total elastic potential (C96) -/
noncomputable def transitionTemperature : ℝ := Real.log (3 / 2) / 5

end Tve
