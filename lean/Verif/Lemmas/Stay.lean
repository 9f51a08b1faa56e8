import Verif.Lemmas.StepApi
import Verif.Spec.Simulation

/-!
# A solver for the examples: it stays where it is if this is feasible, and raises otherwise
-/

namespace Tve

/-- the current values of the variables -/
noncomputable def Problem.currentValues : Problem → Outcome
  | .mechP1 m => ⟨fun i _ => (m.y1.getD i ⟨0, 0, 0, false⟩).value, fun i _ => (m.y2.getD i ⟨0, 0, 0, false⟩).value, fun _ => 0, none⟩
  | .mechReg m => ⟨fun i j => ((m.y1.getD i []).getD j ⟨0, 0, 0, false⟩).value,
      fun i j => ((m.y2.getD i []).getD j ⟨0, 0, 0, false⟩).value, fun _ => 0, none⟩
  | .thermP1 m => ⟨fun _ _ => 0, fun _ _ => 0, fun i => (m.theta.getD i ⟨0, 0, 0, false⟩).value, none⟩
  | .thermReg m => ⟨fun _ _ => 0, fun _ _ => 0, fun i => (m.theta.getD i ⟨0, 0, 0, false⟩).value, none⟩

open Classical in
/-- a solver that stays at the starting guess if it is feasible -/
noncomputable def staySolver : Solver := fun _ p =>
  { p.currentValues with err := if p.Feasible then none else some .solverError }

theorem loadVars_current (l : List VarData) : loadVars (fun i => (l.getD i ⟨0, 0, 0, false⟩).value) l = l := by
  apply List.ext_getElem
  · simp [loadVars]
  · intro i h1 h2
    simp [loadVars, VarData.assign, List.getD, h2]

theorem loadVars2_current (l : List (List VarData)) :
    loadVars2 (fun i j => ((l.getD i []).getD j ⟨0, 0, 0, false⟩).value) l = l := by
  apply List.ext_getElem
  · simp [loadVars2]
  · intro i h1 h2
    simp only [loadVars2, List.getElem_mapIdx]
    rw [show l.getD i [] = l[i] by simp [List.getD, h2]]
    exact loadVars_current _

theorem Problem.load_current (p : Problem) (e : Option PyErr) : p.load { p.currentValues with err := e } = p := by
  rcases p with m | m | m | m <;>
    simp only [Problem.load, Problem.currentValues, loadVars_current, loadVars2_current]

theorem mapIdx_current (l : List VarData) :
    (l.mapIdx fun i _ => (l.getD i ⟨0, 0, 0, false⟩).value) = l.map VarData.value := by
  have h := varValues_loadVars (fun i => (l.getD i ⟨0, 0, 0, false⟩).value) l
  rw [loadVars_current] at h
  exact h.symm

theorem mapIdx2_current (l : List (List VarData)) :
    (l.mapIdx fun i row => row.mapIdx fun j _ => ((l.getD i []).getD j ⟨0, 0, 0, false⟩).value) =
      l.map (List.map VarData.value) := by
  have h := varValues2_loadVars2 (fun i j => ((l.getD i []).getD j ⟨0, 0, 0, false⟩).value) l
  rw [loadVars2_current] at h
  exact h.symm

theorem Problem.answer_current (p : Problem) (e : Option PyErr) :
    p.answer { p.currentValues with err := e } = p.unknowns.map VarData.value := by
  rcases p with m | m | m | m
  · simp only [Problem.answer, Problem.currentValues, Problem.unknowns, mapIdx_current, interleave_map]
  · simp only [Problem.answer, Problem.currentValues, Problem.unknowns, mapIdx2_current, List.map_flatten, interleave_map]
  · simp only [Problem.answer, Problem.currentValues, Problem.unknowns, mapIdx_current]
  · simp only [Problem.answer, Problem.currentValues, Problem.unknowns, mapIdx_current]

theorem stay_feasible {cs : List Problem} {p : Problem} (h : (staySolver cs p).err = none) : p.Feasible := by
  by_contra hp
  simp only [staySolver, if_neg hp] at h
  cases h

theorem stay_answer (cs : List Problem) (p : Problem) : p.answer (staySolver cs p) = p.unknowns.map VarData.value :=
  p.answer_current _

theorem stay_load (cs : List Problem) (p : Problem) : p.load (staySolver cs p) = p := p.load_current _

theorem forall₂_map_value {l : List VarData} {R : VarData → ℝ → Prop} (h : ∀ v ∈ l, R v v.value) :
    List.Forall₂ R l (l.map VarData.value) := by
  induction l with
  | nil => exact .nil
  | cons a t ih => exact .cons (h a (by simp)) (ih fun v hv => h v (by simp [hv]))

/-- the solver meets all contracts -/
theorem stay_contracts : staySolver.RespectsFixed ∧ staySolver.RespectsBounds ∧ staySolver.RespectsDomain ∧
    staySolver.RespectsConstraints ∧ staySolver.Succeeds ∧ ∀ leg, staySolver.Decreases leg := by
  refine ⟨fun cs p h => ?_, fun cs p h => ?_, fun cs p ht h => ?_, fun cs p h => ?_, fun cs p h => ?_,
    fun leg cs p h a ha => ⟨a, le_refl _, by rw [stay_load]; exact ha⟩⟩
  · rw [stay_answer]; exact forall₂_map_value fun _ _ _ => rfl
  · rw [stay_answer]; exact forall₂_map_value fun v hv _ => (stay_feasible h).1 v hv
  · rw [stay_answer]
    intro x hx
    obtain ⟨v, hv, rfl⟩ := List.mem_map.1 hx
    exact (stay_feasible h).2.1 ht v hv
  · rw [stay_load]; exact (stay_feasible h).2.2
  · simp only [staySolver, if_pos h]

end Tve
