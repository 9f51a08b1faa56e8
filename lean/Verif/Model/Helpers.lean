import Verif.Model.Sym
import Verif.Model.PyReal
import Mathlib.MeasureTheory.Integral.IntervalIntegral.Basic

/-!
# Model of `src/tvemoves_rufbad/helpers.py`

Arguments are real numbers (in the code they are also pyomo expressions, which evaluate to these values). The plotting
helpers `fig_axis` and `setup_axis` (helpers.py:178-189) belong to `Model/Plot.lean`.
-/

namespace Tve
namespace Helpers
open Tve.Sym

/-- helpers.py:8 -/
def entropyConstant : ℝ := 10
/-- helpers.py:9 -/
def heatConductivity : PyM (Mat ℝ) := Mat.new [[1, 0], [0, 1]]
/-- helpers.py:10 -/
noncomputable def heatTransferCoefficient : ℝ := 1 / 2
/-- helpers.py:11 -/
def hyperElasticPower : ℕ := 3
/-- `MARTENSITE_POS_SHEAR` (helpers.py:12) -/
def posShear : ℚ := 1 / 2

/-- `_theta` (helpers.py:20) -/
def theta : Sym := var "theta"

/-- `_austenite_percentage_symbolic` (helpers.py:23) -/
def austSym : Sym := 1 - Sym.exp (-5 * theta)

/-- `austenite_percentage` (helpers.py:24-26) -/
noncomputable def austenitePercentage (t : ℝ) : PyM ℝ := austSym.lambdify ["theta"] [t]

/-- `_internal_energy_weight_symbolic` (helpers.py:28-30) -/
def weightSym : Sym := austSym - theta * austSym.diff "theta"

/-- `internal_energy_weight` (helpers.py:31-33) -/
noncomputable def internalEnergyWeight (t : ℝ) : PyM ℝ := weightSym.lambdify ["theta"] [t]

/-- `antider_internal_energy_weight` (helpers.py:35-41). `sp.integrate(e, (theta, 0, theta_lim))` is modelled by its
meaning: it returns an expression whose value is the definite integral (trusted base). -/
noncomputable def antiderInternalEnergyWeight (t : ℝ) : PyM ℝ :=
  .ok (∫ x in (0 : ℝ)..t, match internalEnergyWeight x with | .ok v => v | .error _ => 0)

/-- helpers.py:43 -/
def F11 : Sym := var "F_11"
/-- helpers.py:43 -/
def F12 : Sym := var "F_12"
/-- helpers.py:43 -/
def F21 : Sym := var "F_21"
/-- helpers.py:43 -/
def F22 : Sym := var "F_22"

/-- `_I1 = (_F.T @ _F).trace()` (helpers.py:47) -/
def I1 : Sym := (F11 * F11 + F21 * F21) + (F12 * F12 + F22 * F22)
/-- `_J = _F.det()` (helpers.py:48) -/
def J : Sym := F11 * F22 - F12 * F21

/-- the parameters of the lambdified potentials (helpers.py:53, 60, 73, 80) -/
def paramsF : List Symb := ["F_11", "F_12", "F_21", "F_22"]

/-- the symbols `_F[i, j]` (helpers.py:44) -/
def symF : List (List Symb) := [["F_11", "F_12"], ["F_21", "F_22"]]

/-- `_austenite_potential_symbolic` (helpers.py:51) -/
def austPotSym : Sym := I1 - 2 - 2 * Sym.log J + (J - 1) ^ 2

/-- `_double_well` (helpers.py:68) -/
def doubleWell : Sym := var "u" ^ 2

/-- `_martensite_potential_symbolic` (helpers.py:69-71) -/
def martPotSym : Sym :=
  doubleWell.subs1 "u" (I1 / J - 2 - num (posShear ^ 2)) + (J ^ 2 + 1 / (J ^ 2) - 2) ^ 2

/-- `_derivative_austenite_potential_symbolic` (helpers.py:56-58) -/
def dAustSym : List (List Sym) := symF.map fun row => row.map fun x => austPotSym.diff x

/-- `_derivative_martensite_potential_symbolic` (helpers.py:76-78) -/
def dMartSym : List (List Sym) := symF.map fun row => row.map fun x => martPotSym.diff x

/-- `strain[0, 0], strain[0, 1], strain[1, 0], strain[1, 1]` (helpers.py:102, 109, 116, 124) -/
noncomputable def argsF (F : Mat ℝ) : PyM (List ℝ) := do
  return [← F.getItem 0 0, ← F.getItem 0 1, ← F.getItem 1 0, ← F.getItem 1 1]

/-- `austenite_potential` (helpers.py:100-102) -/
noncomputable def austenitePotential (F : Mat ℝ) : PyM ℝ := do
  austPotSym.lambdify paramsF (← argsF F)

/-- `derivative_austenite_potential` (helpers.py:105-111) -/
noncomputable def derivativeAustenitePotential (F : Mat ℝ) : PyM (Mat ℝ) := do
  let l ← lambdifyMat paramsF dAustSym (← argsF F)
  Mat.new l

/-- `martensite_potential` (helpers.py:114-116) -/
noncomputable def martensitePotential (F : Mat ℝ) : PyM ℝ := do
  martPotSym.lambdify paramsF (← argsF F)

/-- `derivative_martensite_potential` (helpers.py:119-126) -/
noncomputable def derivativeMartensitePotential (F : Mat ℝ) : PyM (Mat ℝ) := do
  let l ← lambdifyMat paramsF dMartSym (← argsF F)
  Mat.new l

/-- `symmetrized_strain_delta` (helpers.py:94-97) -/
noncomputable def symmetrizedStrainDelta (prev F : Mat ℝ) : PyM (Mat ℝ) := do
  let d ← F.sub prev
  let a ← (← d.transpose).matmul prev
  let b ← (← prev.transpose).matmul d
  a.add b

/-- `dissipation_potential` (helpers.py:84-86) -/
noncomputable def dissipationPotential (prev F : Mat ℝ) : PyM ℝ := do
  return (← symmetrizedStrainDelta prev F).normsqr / 2

/-- `dissipation_rate` (helpers.py:89-91) -/
noncomputable def dissipationRate (prev F : Mat ℝ) (fps : ℝ) : PyM ℝ := do
  return (← dissipationPotential prev F) * 2 * fps ^ 2

/-- `total_elastic_potential` (helpers.py:129-133) -/
noncomputable def totalElasticPotential (F : Mat ℝ) (t : ℝ) : PyM ℝ := do
  let a := (← austenitePercentage t) * (← austenitePotential F)
  let b := (1 - (← austenitePercentage t)) * (← martensitePotential F)
  return a + b

/-- `hyper_elastic_potential` (helpers.py:136-138) -/
noncomputable def hyperElasticPotential (H : Ten3 ℝ) : ℝ := H.norm ^ hyperElasticPower

/-- `strain_derivative_coupling_potential` (helpers.py:141-145) -/
noncomputable def strainDerivativeCouplingPotential (F : Mat ℝ) (t : ℝ) : PyM (Mat ℝ) := do
  let a ← austenitePercentage t
  let d ← (← derivativeAustenitePotential F).sub (← derivativeMartensitePotential F)
  d.smul a

/-- `internal_energy_no_entropy` (helpers.py:148-152) -/
noncomputable def internalEnergyNoEntropy (F : Mat ℝ) (t : ℝ) : PyM ℝ := do
  let w ← internalEnergyWeight t
  return w * ((← austenitePotential F) - (← martensitePotential F))

/-- `internal_energy` (helpers.py:155-157) -/
noncomputable def internalEnergy (F : Mat ℝ) (t : ℝ) : PyM ℝ := do
  return (← internalEnergyNoEntropy F t) + entropyConstant * t

/-- `temp_antrider_internal_energy_no_entropy` (helpers.py:160-164) -/
noncomputable def tempAntiderInternalEnergyNoEntropy (F : Mat ℝ) (t : ℝ) : PyM ℝ := do
  let w ← antiderInternalEnergyWeight t
  return w * ((← austenitePotential F) - (← martensitePotential F))

open Classical in
/-- `heat_conductivity_reference` (helpers.py:167-170); `*` and `@` associate to the left. -/
noncomputable def heatConductivityReference (F : Mat ℝ) : PyM (Mat ℝ) := do
  let inv ← inverse2x2 F
  let a ← inv.smul (← F.det)
  let b ← a.matmul (← heatConductivity)
  b.matmul (← inv.transpose)

/-! `compose_to_integrand` (helpers.py:173-175) evaluates the inner functions in order at the same arguments and passes
their values to the outer one. Its uses have inner functions of different types, so the models of the objectives
(`Model/Mechanical.lean`, `Model/Thermal.lean`) write this composition out as a `do` block. -/

end Helpers
end Tve
