import Verif.Spec.Rest
import Verif.Spec.Descent
import Verif.Spec.Optimal

/-! Specification for C112: bodies at rest, and what keeps them there or sets them in motion. -/

namespace Tve

/-- the deformation has the strain 1 at the quadrature points and no hyper elastic energy -/
def AtRest (params : SimParams) (g : Grid ℝ) (refined : Option (RefinedGrid ℝ)) (y : NdArray) : Prop :=
  Undeformed g refined y ∧ NoHyperEnergy params g refined y

/-- the boundary traction vanishes at the given time at the vertices of the Neumann part of the boundary (it acts only without
regularization) -/
def NoTraction (params : SimParams) (traction : Traction) (g : Grid ℝ) (time : ℝ) : Prop :=
  params.regularization = none → ∀ v ∈ g.neumann.vertices, traction time (g.xy v).1 (g.xy v).2 = .ok [0, 0]

/-- the solver answers the mechanical problems of the simulation optimally or fails -/
def Sim.MechOptimal (s : Sim) (solver : Solver) (leg : LegGauss) : Prop :=
  ∀ p ∈ s.calls, p.IsMech → ∀ cs, (solver cs p).err = none → p.IsOptimal leg (solver cs p)

/-- the motion from `y0` to `y` at the temperature `θ` (through finitely many intermediate deformations) has gained more elastic energy
than it dissipated; with regularization this includes the weighted hyper elastic energy -/
def HasGained (params : SimParams) (g : Grid ℝ) (refined : Option (RefinedGrid ℝ)) (y0 y θ : NdArray) : Prop :=
  ∃ E0 E1 d, IsElasticEnergy g refined y0 θ E0 ∧ IsElasticEnergy g refined y θ E1 ∧ IsMotion g refined y0 y d ∧ 0 ≤ d ∧
    E1 + params.fps * d < E0 ∧
    ∀ κ, params.regularization = some κ → ∃ r h, refined = some r ∧ IsHyperEnergy g r y h ∧ 0 ≤ h ∧ E1 + κ * h + params.fps * d < E0

end Tve
