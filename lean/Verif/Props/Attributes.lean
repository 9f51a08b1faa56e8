import Verif.Lemmas.Attributes
import Verif.Props.Witness

/-!
# C86: what a run reads (simulation.py:232-372)

`params` and `steps` are public attributes of a simulation; a user can change the parameters between two runs, or remove the
steps recorded so far (`Sim.assign` in `Spec/Attributes.lean`). The theorems say what this does to later runs.
-/

namespace Tve

variable {solver : Solver} {domain : RectDomain ℝ} {params : SimParams} {ext : ExtTemp} {traction : Traction} {s : Sim}

/-- **C86**. Replacing the recorded steps, and the parameters by others which agree on whether there is a regularization, changes
no later run: it raises or succeeds as before, records the same new steps, poses the same problems to the solver, and leaves the
same state otherwise. (So parameters act only when the simulation is created.) -/
theorem C86_parameters_and_steps (s : Sim) (p : SimParams) (l : List Step)
    (hp : p.regularization = none ↔ s.params.regularization = none) (n : ℤ) :
    ∃ new, (s.run solver n).2.steps = s.steps ++ new ∧
      (s.assign p l).run solver n = ((s.run solver n).1, (s.run solver n).2.assign p (l ++ new)) := by
  obtain ⟨h1, ⟨new, h2, h3⟩, -⟩ := Sim.insensitive_run (solver := solver) (old := s.steps) (l := l) n s (s.assign p l) hp
    ⟨[], by simp, by simp⟩
  exact ⟨new, h2, Prod.ext h1 h3⟩

/-- **C86** (switching the regularization). If the new parameters have a regularization and the old ones have none, or the other
way round, then every later run raises and records nothing; a run that would have succeeded raises `ValueError`. -/
theorem C86_switch (hs : s.Reachable solver domain params ext traction) (p : SimParams) (l : List Step)
    (hp : ¬(p.regularization = none ↔ params.regularization = none)) (n : ℤ) :
    ∃ e t, (s.assign p l).run solver n = (.error e, t) ∧ t.steps = l ∧ ((s.run solver n).1 = .ok () → e = .valueError) := by
  obtain ⟨m0, t0, c⟩ := hs.context
  obtain ⟨e, t, h1, h2, h3, h4⟩ := Sim.single_switched (solver := solver) (p := p) (l := l) c.wf (by rw [c.paramsEq]; exact hp)
  unfold Sim.run
  split
  · exact ⟨_, _, rfl, rfl, fun _ => rfl⟩
  · split
    · exact ⟨e, t, h1, h2, h3⟩
    · obtain ⟨k, hk⟩ : ∃ k, n.toNat = k + 1 := ⟨n.toNat - 1, by omega⟩
      rw [hk, List.range_succ_eq_map, PyS.forEach_cons]
      refine ⟨e, t, PyS.bind_of_err h1, h2, fun hok => ?_⟩
      rcases hr : Sim.runSingleStep solver s with ⟨e' | u, s'⟩
      · rw [PyS.bind_of_err hr] at hok
        cases hok
      · exact h3 (by rw [hr])

/-- A concrete case: the simulation of `Props/Witness.lean` (six recorded steps). With a search radius of 5, 60 frames per second,
another scale and temperature, and an empty list of steps, a run of two steps records the two steps it would have recorded; with
a regularization it raises `ValueError`. -/
theorem example_attributes {leg : LegGauss} {q : GaussRule ℝ} (W : Witness exampleParams leg q solver s) :
    (∃ a b t, (s.assign ⟨7, 5, 60, 1, none, none⟩ []).run solver 2 = (.ok (), t) ∧ t.steps = [a, b] ∧
      (s.run solver 2).2.steps = s.steps ++ [a, b]) ∧
    ∃ t, (s.assign exampleParamsReg s.steps).run solver 2 = (.error .valueError, t) ∧ t.steps = s.steps := by
  obtain ⟨s', h1, h2⟩ := C66_succeeds W.healthy W.succeeds W.constraints W.dom (fun _ => exampleBoundary) (n := 2) (by norm_num)
  have hp : s.params = exampleParams := by
    obtain ⟨m0, t0, c⟩ := W.healthy.reachable.context
    exact c.paramsEq
  constructor
  · obtain ⟨new, h3, h4⟩ := C86_parameters_and_steps (solver := solver) s ⟨7, 5, 60, 1, none, none⟩ [] (by simp [hp, exampleParams]) 2
    have hl := C60_run W.healthy.reachable h1
    rw [h1] at h3 h4
    simp only at h3 h4
    rw [h3, List.length_append] at hl
    obtain ⟨a, b, rfl⟩ := List.length_eq_two.1 (show new.length = 2 by push_cast at hl; omega)
    exact ⟨a, b, _, h4, by simp [Sim.assign, Sim.steps], by rw [h1]; exact h3⟩
  · obtain ⟨e, t, h3, h4, h5⟩ := C86_switch W.healthy.reachable exampleParamsReg s.steps
      (by simp [exampleParams, exampleParamsReg]) 2
    rw [h5 (by rw [h1])] at h3
    exact ⟨t, h3, h4⟩

end Tve
