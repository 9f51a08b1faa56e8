import Verif.Spec.Simulation
import Verif.Spec.Geometry
import Verif.Spec.Quadrature
import Verif.Spec.Interpolation
import Verif.Spec.Tensors

/-!
# Specification vocabulary: energies
-/

namespace Tve

/-- the value of a quadrature rule on all triangles of a grid: the sum over the triangles of the area times the weighted sum of
the values at the quadrature points -/
noncomputable def Grid.quad (g : Grid ℝ) (r : TriRule ℝ) (f : Tri → Bary ℝ → ℝ) : ℝ :=
  (g.triangles.map fun t => triArea g.xy t * ((r.points.zip r.weights).map fun bw => bw.2 * f t bw.1).sum).sum

/-- the area of a grid -/
noncomputable def Grid.area (g : Grid ℝ) : ℝ := (g.triangles.map (triArea g.xy)).sum

/-- the value of a Gauss rule on a list of edges of a grid -/
noncomputable def Grid.edgeQuad (g : Grid ℝ) (es : List Edge) (r : GaussRule ℝ) (f : Edge → ℝ → ℝ) : ℝ :=
  (es.map fun e => edgeLen g.xy e * r.value (f e)).sum

/-- the deformation described by an array returned by `y()`: piecewise affine on the grid without regularization, the Bell
interpolation seen on the refined grid with regularization -/
noncomputable def deformOf (g : Grid ℝ) (refined : Option (RefinedGrid ℝ)) (y : NdArray) : PyM Deformation :=
  match refined with
  | none => do P1MechModel.deformation g (← y.col 0) (← y.col 1)
  | some r => do RegMechModel.deformation g r (← y.block 0) (← y.block 1)

/-- the grid on which the energies are computed -/
def energyGrid (g : Grid ℝ) (refined : Option (RefinedGrid ℝ)) : Grid ℝ :=
  match refined with
  | none => g
  | some r => r.toGrid

/-- the quadrature rule of the elastic energy and of the thermal objective -/
noncomputable def energyRule (refined : Option (RefinedGrid ℝ)) : PyM (TriRule ℝ) :=
  match refined with
  | none => dunavant2 ℝ
  | some _ => dunavant5 ℝ

/-- the deformation preserves the orientation at all quadrature points of the elastic energy -/
def Oriented (g : Grid ℝ) (refined : Option (RefinedGrid ℝ)) (y : NdArray) : Prop :=
  ∃ D r, deformOf g refined y = .ok D ∧ energyRule refined = .ok r ∧
    ∀ t ∈ (energyGrid g refined).triangles, ∀ b ∈ r.points, ∃ F : Matrix (Fin 2) (Fin 2) ℝ,
      D.strain t b = .ok (matOf F) ∧ 0 < F.det

/-- `E` is the elastic energy of the deformation `y` at temperature `θ` (arrays returned by `y()`, `theta()`): the
quadrature over the grid of the total elastic potential of strain and temperature -/
def IsElasticEnergy (g : Grid ℝ) (refined : Option (RefinedGrid ℝ)) (y θ : NdArray) (E : ℝ) : Prop :=
  ∃ D T r W, deformOf g refined y = .ok D ∧ P1Interpolation (energyGrid g refined) θ.data = .ok T ∧
    energyRule refined = .ok r ∧
    (∀ t ∈ (energyGrid g refined).triangles, ∀ b ∈ r.points, ∃ F x, D.strain t b = .ok F ∧ T.call t b = .ok x ∧
      Helpers.totalElasticPotential F x = .ok (W t b)) ∧
    E = (energyGrid g refined).quad r W

/-- the quadrature rule of the dissipation of the mechanical step -/
noncomputable def dissipationRule (refined : Option (RefinedGrid ℝ)) : PyM (TriRule ℝ) :=
  match refined with
  | none => centroid ℝ
  | some _ => dunavant5 ℝ

/-- `d` is the dissipation of the change of the deformation from `y0` to `y`: the quadrature over the grid of the
dissipation potential of the strains -/
def IsDissipation (g : Grid ℝ) (refined : Option (RefinedGrid ℝ)) (y0 y : NdArray) (d : ℝ) : Prop :=
  ∃ D0 D r W, deformOf g refined y0 = .ok D0 ∧ deformOf g refined y = .ok D ∧ dissipationRule refined = .ok r ∧
    (∀ t ∈ (energyGrid g refined).triangles, ∀ b ∈ r.points, ∃ F0 F, D0.strain t b = .ok F0 ∧ D.strain t b = .ok F ∧
      Helpers.dissipationPotential F0 F = .ok (W t b)) ∧
    d = (energyGrid g refined).quad r W

/-- `h` is the hyper elastic energy of the deformation `y`: the quadrature of the hyper elastic potential of the
hyperstrain -/
def IsHyperEnergy (g : Grid ℝ) (refined : RefinedGrid ℝ) (y : NdArray) (h : ℝ) : Prop :=
  ∃ D r W, deformOf g (some refined) y = .ok D ∧ dunavant5 ℝ = .ok r ∧
    (∀ t ∈ refined.toGrid.triangles, ∀ b ∈ r.points, ∃ H, D.hyperStrain t b = .ok H ∧
      W t b = Helpers.hyperElasticPotential H) ∧
    h = refined.toGrid.quad r W

/-- `w` is the work of the boundary traction at a time for the deformation `y`: the sum over the Neumann edges of the edge
length times the Gauss quadrature of traction times deformation, both interpolated between the two vertices of the edge -/
def IsBoundaryWork (leg : LegGauss) (g : Grid ℝ) (traction : Traction) (time : ℝ) (y : NdArray) (w : ℝ) : Prop :=
  ∃ (r : GaussRule ℝ) (T : Vertex → ℝ × ℝ), GaussRule.new leg 1 = .ok r ∧
    (∀ v ∈ g.neumann.vertices, ∃ l, traction time (g.xy v).1 (g.xy v).2 = .ok l ∧ l[0]? = some (T v).1 ∧
      l[1]? = some (T v).2) ∧
    w = g.edgeQuad g.neumann.edges r fun e s =>
      (s * (T e.1).1 + (1 - s) * (T e.2).1) * (s * (y.deformed e.1).1 + (1 - s) * (y.deformed e.2).1) +
      (s * (T e.1).2 + (1 - s) * (T e.2).2) * (s * (y.deformed e.1).2 + (1 - s) * (y.deformed e.2).2)

/-- `v` is the objective of the mechanical step for the previous deformation `y0`, the previous temperature `θ0` and the
new deformation `y`: elastic energy plus dissipation times `fps`, without regularization minus the work of the
boundary traction, with regularization plus the weighted hyper elastic energy -/
def IsMechObjective (leg : LegGauss) (params : SimParams) (traction : Traction) (g : Grid ℝ)
    (refined : Option (RefinedGrid ℝ)) (time : ℝ) (y0 y θ0 : NdArray) (v : ℝ) : Prop :=
  ∃ E d, IsElasticEnergy g refined y θ0 E ∧ IsDissipation g refined y0 y d ∧
    (params.regularization = none → ∃ w, IsBoundaryWork leg g traction time y w ∧ v = E - w + params.fps * d) ∧
    ∀ κ, params.regularization = some κ → ∃ r h, refined = some r ∧ IsHyperEnergy g r y h ∧
      v = E + κ * h + params.fps * d

end Tve
