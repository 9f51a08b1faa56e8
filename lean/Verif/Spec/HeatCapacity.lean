import Verif.Spec.Thermal
import Mathlib.Analysis.SpecialFunctions.Exp

/-!
# Specification vocabulary: strains with positive heat capacity
-/

namespace Tve

/-- At all quadrature points of the thermal objective the martensite potential of the strain exceeds the austenite potential by
at most `2 e`. -/
def ModerateStrain (g : Grid ℝ) (refined : Option (RefinedGrid ℝ)) (y : NdArray) : Prop :=
  ∃ D r, deformOf g refined y = .ok D ∧ energyRule refined = .ok r ∧
    ∀ t ∈ (energyGrid g refined).triangles, ∀ b ∈ r.points, ∃ (F : Matrix (Fin 2) (Fin 2) ℝ) (a m : ℝ),
      D.strain t b = .ok (matOf F) ∧ Helpers.austenitePotential (matOf F) = .ok a ∧
      Helpers.martensitePotential (matOf F) = .ok m ∧ m ≤ a + 2 * Real.exp 1

end Tve
