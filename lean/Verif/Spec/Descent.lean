import Verif.Spec.Energy
import Verif.Spec.Simulation

/-! Specification for C106: energies along repeated attempts. -/

namespace Tve

/-- `v` is the energy of the deformation `y` at the temperature `θ`: without regularization the elastic energy minus the work of the
boundary traction at the given time, with regularization the elastic energy plus the weighted hyper elastic energy -/
def IsMechEnergy (leg : LegGauss) (params : SimParams) (traction : Traction) (g : Grid ℝ)
    (refined : Option (RefinedGrid ℝ)) (time : ℝ) (y θ : NdArray) (v : ℝ) : Prop :=
  ∃ E, IsElasticEnergy g refined y θ E ∧
    (params.regularization = none → ∃ w, IsBoundaryWork leg g traction time y w ∧ v = E - w) ∧
    ∀ κ, params.regularization = some κ → ∃ r h, refined = some r ∧ IsHyperEnergy g r y h ∧ v = E + κ * h

/-- `d` is the dissipation of a motion from `y0` to `y` through finitely many intermediate deformations -/
inductive IsMotion (g : Grid ℝ) (refined : Option (RefinedGrid ℝ)) (y0 : NdArray) : NdArray → ℝ → Prop
  | rest : IsMotion g refined y0 y0 0
  | move {y1 y2 : NdArray} {d d' : ℝ} (h : IsMotion g refined y0 y1 d) (h' : IsDissipation g refined y1 y2 d') :
      IsMotion g refined y0 y2 (d + d')

/-- A failing call for a thermal problem loads nothing (pyomo raises before it loads values). -/
def Solver.KeepsTemperature (solver : Solver) : Prop := ∀ cs p, p.IsTherm → (solver cs p).err ≠ none →
  p.answer (solver cs p) = p.unknowns.map VarData.value

end Tve
