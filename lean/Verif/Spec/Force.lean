import Verif.Spec.Optimal
import Verif.Spec.Energy
import Mathlib.Analysis.Calculus.Deriv.Basic

/-!
# Specification vocabulary: the balance of forces
-/

namespace Tve

open Topology

/-- the array `y + τ z` -/
noncomputable def NdArray.along (y z : NdArray) (τ : ℝ) : NdArray :=
  ⟨y.shape, List.zipWith (fun u v => u + τ * v) y.data z.data⟩

/-- the displacement `z` (an array shaped like those returned by `y()`) vanishes on the fixed part of the boundary: at the Dirichlet
vertices; with regularization also its first and second derivative in direction of a Dirichlet edge vanish at both ends of the edge -/
def NdArray.VanishesOnDirichlet (g : Grid ℝ) (z : NdArray) : Prop :=
  (∀ v ∈ g.dirichlet.vertices, z.deformed v = (0, 0)) ∧
  (z.shape.length = 3 → ∀ e ∈ g.dirichlet.edges, ∀ v, v = e.1 ∨ v = e.2 → ∀ i < 2, ∀ dx dy,
    (dx, dy) = g.xy e.2 - g.xy e.1 →
    z.at3 2 6 v i 1 * dx + z.at3 2 6 v i 2 * dy = 0 ∧
    z.at3 2 6 v i 3 * dx ^ 2 + 2 * z.at3 2 6 v i 4 * dx * dy + z.at3 2 6 v i 5 * dy ^ 2 = 0)

/-- `S` is the derivative of the potential `W` at the strain `F`: for all `G` the potential is defined near `F` on the line in
direction `G`, and the derivative along that line is the inner product of `S` and `G` -/
def IsStress (W : Matrix (Fin 2) (Fin 2) ℝ → PyM ℝ) (F S : Matrix (Fin 2) (Fin 2) ℝ) : Prop :=
  ∀ G : Matrix (Fin 2) (Fin 2) ℝ, ∃ w : ℝ → ℝ, (∀ᶠ τ in 𝓝 (0 : ℝ), W (F + τ • G) = .ok (w τ)) ∧
    HasDerivAt w (∑ i, ∑ j, S i j * G i j) 0

/-- `P` is the derivative of the potential `W` at the hyperstrain `H` -/
def IsHyperStress (W : (Fin 2 → Fin 2 → Fin 2 → ℝ) → ℝ) (H P : Fin 2 → Fin 2 → Fin 2 → ℝ) : Prop :=
  ∀ K : Fin 2 → Fin 2 → Fin 2 → ℝ,
    HasDerivAt (fun τ : ℝ => W fun i j l => H i j l + τ * K i j l) (∑ i, ∑ j, ∑ l, P i j l * K i j l) 0

/-- `F` is the strain of the deformation (or the gradient of the displacement) `y` at the points of a rule -/
def IsStrainField (g : Grid ℝ) (refined : Option (RefinedGrid ℝ)) (r : TriRule ℝ) (y : NdArray)
    (F : Tri → Bary ℝ → Matrix (Fin 2) (Fin 2) ℝ) : Prop :=
  ∃ D, deformOf g refined y = .ok D ∧
    ∀ t ∈ (energyGrid g refined).triangles, ∀ b ∈ r.points, D.strain t b = .ok (matOf (F t b))

/-- `f` is the virtual work of the elastic stress at the deformation `y` and temperature `θ` for the virtual displacement `z` -/
def IsElasticForce (g : Grid ℝ) (refined : Option (RefinedGrid ℝ)) (y θ z : NdArray) (f : ℝ) : Prop :=
  ∃ (r : TriRule ℝ) (F G S : Tri → Bary ℝ → Matrix (Fin 2) (Fin 2) ℝ) (T : Interp) (x : Tri → Bary ℝ → ℝ),
    energyRule refined = .ok r ∧ IsStrainField g refined r y F ∧ IsStrainField g refined r z G ∧
    P1Interpolation (energyGrid g refined) θ.data = .ok T ∧
    (∀ t ∈ (energyGrid g refined).triangles, ∀ b ∈ r.points, T.call t b = .ok (x t b) ∧
      IsStress (fun A => Helpers.totalElasticPotential (matOf A) (x t b)) (F t b) (S t b)) ∧
    f = (energyGrid g refined).quad r fun t b => ∑ i, ∑ j, S t b i j * G t b i j

/-- `f` is the virtual work of the viscous stress for a change of the deformation from `y0` to `y` -/
def IsViscousForce (g : Grid ℝ) (refined : Option (RefinedGrid ℝ)) (y0 y z : NdArray) (f : ℝ) : Prop :=
  ∃ (r : TriRule ℝ) (F0 F G V : Tri → Bary ℝ → Matrix (Fin 2) (Fin 2) ℝ), dissipationRule refined = .ok r ∧
    IsStrainField g refined r y0 F0 ∧ IsStrainField g refined r y F ∧ IsStrainField g refined r z G ∧
    (∀ t ∈ (energyGrid g refined).triangles, ∀ b ∈ r.points,
      IsStress (fun A => Helpers.dissipationPotential (matOf (F0 t b)) (matOf A)) (F t b) (V t b)) ∧
    f = (energyGrid g refined).quad r fun t b => ∑ i, ∑ j, V t b i j * G t b i j

/-- `f` is the virtual work of the hyperstress at the deformation `y` -/
def IsHyperForce (g : Grid ℝ) (refined : RefinedGrid ℝ) (y z : NdArray) (f : ℝ) : Prop :=
  ∃ (r : TriRule ℝ) (D Dz : Deformation) (H K P : Tri → Bary ℝ → Fin 2 → Fin 2 → Fin 2 → ℝ), dunavant5 ℝ = .ok r ∧
    deformOf g (some refined) y = .ok D ∧ deformOf g (some refined) z = .ok Dz ∧
    (∀ t ∈ refined.toGrid.triangles, ∀ b ∈ r.points, D.hyperStrain t b = .ok (tenOf (H t b)) ∧
      Dz.hyperStrain t b = .ok (tenOf (K t b)) ∧
      IsHyperStress (fun A => Helpers.hyperElasticPotential (tenOf A)) (H t b) (P t b)) ∧
    f = refined.toGrid.quad r fun t b => ∑ i, ∑ j, ∑ l, P t b i j l * K t b i j l

/-- `R` is the residual of the balance of forces for the virtual displacement `z`: the work of the elastic stress plus `fps` times the
work of the viscous stress, without regularization minus the work of the boundary traction, with regularization plus
the weighted work of the hyperstress -/
def IsForceBalance (leg : LegGauss) (params : SimParams) (traction : Traction) (g : Grid ℝ)
    (refined : Option (RefinedGrid ℝ)) (time : ℝ) (y0 y θ0 z : NdArray) (R : ℝ) : Prop :=
  ∃ e d, IsElasticForce g refined y θ0 z e ∧ IsViscousForce g refined y0 y z d ∧
    (params.regularization = none → ∃ w, IsBoundaryWork leg g traction time z w ∧ R = e - w + params.fps * d) ∧
    ∀ κ, params.regularization = some κ → ∃ r h, refined = some r ∧ IsHyperForce g r y z h ∧
      R = e + κ * h + params.fps * d

/-- `w` is the total force of the boundary traction at a time: the sum over the Neumann edges of the edge length times the Gauss
quadrature of the traction, interpolated between the two vertices of the edge -/
def IsTotalTraction (leg : LegGauss) (g : Grid ℝ) (traction : Traction) (time : ℝ) (w : ℝ × ℝ) : Prop :=
  ∃ (r : GaussRule ℝ) (T : Vertex → ℝ × ℝ), GaussRule.new leg 1 = .ok r ∧
    (∀ v ∈ g.neumann.vertices, ∃ l, traction time (g.xy v).1 (g.xy v).2 = .ok l ∧ l[0]? = some (T v).1 ∧
      l[1]? = some (T v).2) ∧
    w.1 = g.edgeQuad g.neumann.edges r (fun e s => s * (T e.1).1 + (1 - s) * (T e.2).1) ∧
    w.2 = g.edgeQuad g.neumann.edges r (fun e s => s * (T e.1).2 + (1 - s) * (T e.2).2)

end Tve
