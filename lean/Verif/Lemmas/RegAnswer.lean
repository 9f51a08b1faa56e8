import Verif.Lemmas.SimInitial

/-!
# Helper lemmas: the deformations recorded by a simulation with regularization
-/

namespace Tve
open Sim

theorem regLoad_at3 {s : RegMech} {n k : ℕ} (W : s.WF n k) (o : Outcome) {v j : ℕ} (hv : v < n) (hj : j < 6) :
    ((MechStep.reg s).load o).y.at3 2 6 v 0 j = o.y1 v j ∧ ((MechStep.reg s).load o).y.at3 2 6 v 1 j = o.y2 v j := by
  have key : ∀ (f : ℕ → ℕ → ℝ) (l : List (List VarData)), l.length = n → (∀ x ∈ l, x.length = 6) →
      (varValues2 (loadVars2 f l)).length = n ∧ (∀ r ∈ varValues2 (loadVars2 f l), r.length = 6) ∧
      ((varValues2 (loadVars2 f l)).getD v []).getD j 0 = f v j := by
    intro f l hl h6
    have e : varValues2 (loadVars2 f l) = l.mapIdx fun i row => row.mapIdx fun j _ => f i j := by
      refine List.ext_getElem (by simp [varValues2, loadVars2]) fun i h1 h2 => ?_
      simp only [varValues2, loadVars2, loadVars, List.getElem_map, List.getElem_mapIdx]
      refine List.ext_getElem (by simp [varValues]) fun j h1 h2 => ?_
      simp [varValues, VarData.assign]
    rw [e]
    refine ⟨by simpa using hl, ?_, ?_⟩
    · intro r hr
      obtain ⟨i, hi, rfl⟩ := List.getElem_of_mem hr
      rw [List.length_mapIdx] at hi
      simp only [List.getElem_mapIdx, List.length_mapIdx]
      exact h6 _ (List.getElem_mem hi)
    · have hv' : v < l.length := hl ▸ hv
      have hj' : j < l[v].length := by rw [h6 _ (List.getElem_mem hv')]; exact hj
      simp only [List.getD_eq_getElem?_getD, List.getElem?_mapIdx, List.getElem?_eq_getElem hv', Option.map_some, Option.getD_some,
        List.getElem?_eq_getElem hj']
  obtain ⟨a1, a2, a3⟩ := key o.y1 _ W.y1.1 W.y1.2
  obtain ⟨b1, b2, b3⟩ := key o.y2 _ W.y2.1 W.y2.2
  have := NdArray.at3_pairs a1 b1 a2 b2 hv hj
  rw [a3, b3] at this
  exact this

section
variable {solver : Solver} {domain : RectDomain ℝ} {params : SimParams} {ext : ExtTemp} {traction : Traction} {s : Sim}

/-- with regularization, the deformation of the next step is the answer of the solver -/
theorem Sim.Healthy.answer_reg (hs : s.Healthy solver domain params ext traction) (hreg : params.regularization ≠ none) {k : ℕ}
    {a b : Step} (ha : s.steps[k]? = some a) (hb : s.steps[k + 1]? = some b) :
    ∃ p, s.calls[2 * k]? = some p ∧ ∀ v < s.grid.points.length, ∀ j < 6,
      b.yData.at3 2 6 v 0 j = (solver (s.calls.take (2 * k)) p).y1 v j ∧
      b.yData.at3 2 6 v 1 j = (solver (s.calls.take (2 * k)) p).y2 v j := by
  obtain ⟨m0, t0, c, H⟩ := hs.history
  obtain ⟨it, hg⟩ := c.grid
  obtain ⟨Sh, ⟨n, U⟩, F⟩ := c.setup.simShape hg c.refined c.mech0
  obtain ⟨-, -, -, -, -, -, f⟩ := mechanicalStep_facts U F c.mech0
  obtain ⟨-, -, r, k', -, -, ys, ts⟩ := f hreg
  obtain ⟨m, t, h1, -, -, -, -, S⟩ := H.each k a b ha hb
  refine ⟨m.problem, h1, fun v hv j hj => ?_⟩
  have W := S.mechWF
  rw [ys, ts] at W
  cases m with
  | p1 s => obtain ⟨n', -, e, -⟩ := W; simp at e
  | reg s' =>
    obtain ⟨n', k'', W, e, -⟩ := W
    rw [S.y]
    simp only [List.cons.injEq, and_true] at e
    refine regLoad_at3 W _ ?_ hj
    rw [← e]
    rwa [U.num] at hv

end

end Tve
