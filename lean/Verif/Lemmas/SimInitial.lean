import Verif.Lemmas.SimFixed

/-!
# Helper lemmas: the initial data
-/

namespace Tve
open Sim

section
variable {g : Grid ℝ} {n : ℕ}

/-- the data of a new mechanical step -/
theorem mechanicalStep_initial (U : g.Usable n) {params : MechParams} {refined : Option (RefinedGrid ℝ)}
    (F : ∀ r, refined = some r → ∃ k, r.toGrid.Usable k) {tr : Traction} {m : MechStep}
    (h : mechanicalStep g params refined tr = .ok m) :
    (∀ v < n, m.prevY.deformed v = g.xy v) ∧ (∀ x ∈ m.prevTheta.data, x = params.initialTemperature) ∧
    (params.regularization = none → m.prevY = P1Mech.pairs (xsOf g n) (ysOf g n) ∧
      m.prevTheta = NdArray.of1 (List.replicate n params.initialTemperature)) ∧
    (params.regularization ≠ none → m.prevY = RegMech.pairs (c1xs g n) (c1ys g n) ∧
      (∃ r k, refined = some r ∧ r.toGrid.Usable k ∧
        m.prevTheta = NdArray.of1 (List.replicate k params.initialTemperature)) ∧
      ∀ v < n, ∀ j < 6, m.prevY.at3 2 6 v 0 j = [(g.xy v).1, 1, 0, 0, 0, 0].getD j 0 ∧
        m.prevY.at3 2 6 v 1 j = [(g.xy v).2, 0, 1, 0, 0, 0].getD j 0) := by
  have W := (mechanicalStep_facts U F h).1
  refine ⟨?_, ?_, ?_, ?_⟩
  · intro v hv
    obtain ⟨-, f2, f3⟩ := mechanicalStep_fixed U F h hv
    rw [deformed_eq W.prevY.1, List.getD_eq_getElem?_getD, List.getD_eq_getElem?_getD, f2, f3]
    rfl
  all_goals rcases (mechanicalStep_cases U F h).2 with ⟨h1, G1, G2, h2, rfl⟩ | ⟨reg, f, k, h1, h2, hk, rfl⟩
  · intro x hx
    simp only [MechStep.prevTheta, P1Mech.prevTheta, initialP1Mech, NdArray.of1, List.mem_replicate] at hx
    exact hx.2
  · intro x hx
    simp only [MechStep.prevTheta, RegMech.prevTheta, initialRegMech, NdArray.of1, List.mem_replicate] at hx
    exact hx.2
  · exact fun _ => ⟨rfl, rfl⟩
  · exact fun h => by rw [h1] at h; cases h
  · exact fun h => absurd h1 h
  · refine fun _ => ⟨rfl, ⟨f, k, h2, hk, rfl⟩, fun v hv j hj => ?_⟩
    have hx : (c1xs g n).length = n := by simp [c1xs]
    have hy : (c1ys g n).length = n := by simp [c1ys]
    have hd := interleave2_getElem? (a := c1xs g n) (b := c1ys g n) (hx.trans hy.symm) (by simp [c1xs]) (by simp [c1ys]) v hj
    simp only [MechStep.prevY, RegMech.prevY, initialRegMech, NdArray.at3, pairs3_data, List.getD_eq_getElem?_getD]
    rw [show (v * 2 + 0) * 6 + j = 6 * (2 * v) + j by ring, show (v * 2 + 1) * 6 + j = 6 * (2 * v + 1) + j by ring,
      hd.1, hd.2]
    simp [c1xs, c1ys, hv]

end

end Tve
