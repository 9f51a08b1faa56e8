import Verif.Lemmas.Constraints
import Verif.Lemmas.SimCreate
import Verif.Props.SimState

/-!
# Helper lemmas: simulations with a well-behaved solver succeed
-/

namespace Tve
open Sim

theorem bounds_of_around {us : List VarData} {xs : List ℝ} {r : ℝ} (hr : 0 ≤ r)
    (h : List.Forall₂ (fun (v : VarData) x => v.Around x r) us xs) : ∀ v ∈ us, v.lb ≤ v.value ∧ v.value ≤ v.ub := by
  induction h with
  | nil => simp
  | cons h _ ih =>
    intro v hv
    rcases List.mem_cons.1 hv with rfl | hv
    · obtain ⟨h1, h2, h3⟩ := h
      rw [h1, h2, h3]
      constructor <;> linarith
    · exact ih v hv

theorem values_of_around {us : List VarData} {xs : List ℝ} {r : ℝ}
    (h : List.Forall₂ (fun (v : VarData) x => v.Around x r) us xs) : us.map VarData.value = xs := by
  induction h with
  | nil => rfl
  | cons h _ ih => rw [List.map_cons, ih, h.1]

/-- the step is regularized with this grid and well-shaped data: then the constraints are those of `DirichletId` -/
theorem MechReady.feasible {m : MechStep} {ys ts : List ℕ} (w : m.WF ys ts) {g : Grid ℝ} {n : ℕ} (U : g.Usable n)
    (hg : m.grid = g) (hn : ∀ k, ys = [k, 2, 6] → k = n) {y θ : NdArray} {time : ℝ} (rd : MechReady m y θ time)
    (hr : 0 ≤ m.searchRadius) (hd : (∃ a, m = .reg a) → DirichletId g y) : m.problem.Feasible := by
  refine ⟨bounds_of_around hr rd.around, fun h => ?_, ?_⟩
  · cases m <;> exact h.elim
  · rcases m with a | a
    · trivial
    · obtain ⟨n', k, w', e1, e2⟩ := w
      obtain rfl := hn _ e1
      have := (constraintsHold_iff (m := a.model) (k := k) U hg w'.toWF).2
      apply this
      have hy := rd.y
      show DirichletId g (MechStep.reg a).y
      rw [hy]
      exact hd ⟨a, rfl⟩

theorem ThermReady.feasible {t : ThermStep} {y0 y1 θ : NdArray} {time : ℝ} (rd : ThermReady t y0 y1 θ time)
    (hr : 0 ≤ t.searchRadius) : t.problem.Feasible := by
  refine ⟨bounds_of_around hr rd.around, fun _ v hv => ?_, by cases t <;> trivial⟩
  refine rd.nonneg _ ?_
  rw [← values_of_around rd.around]
  exact List.mem_map_of_mem hv

section
variable {solver : Solver} {it : SetIter} {domain : RectDomain ℝ} {params : SimParams} {ext : ExtTemp}
  {traction : Traction}

theorem Sim.new_succeeds (S : Setup domain params) (hfps : params.fps ≠ 0) (hs : solver.Succeeds)
    (ht : params.regularization = none → ∀ x y, ∃ l, traction 0 x y = .ok l ∧ 2 ≤ l.length)
    (he : params.regularization = none → ∃ e, 0 ≤ e ∧ ext 0 = .ok e) :
    ∃ s, Sim.new solver it domain params ext traction = .ok s := by
  refine Sim.new_ok S hfps ?_ ?_ ht he
  · intro g n refined m U F hm
    obtain ⟨a1, a2, a3, a4, -, a6, a7⟩ := mechanicalStep_facts U F hm
    refine hs _ _ (MechReady.feasible a1 U a4 ?_ a2 (by rw [a3]; exact S.facts.2.1.le) ?_)
    · intro k hk
      by_cases hreg : params.mechanicalStepParams.regularization = none
      · rw [(a6 hreg).2.2.1] at hk; cases hk
      · obtain ⟨-, -, r, k', -, -, h5, -⟩ := a7 hreg
        rw [h5] at hk; cases hk; rfl
    · rintro ⟨a, rfl⟩
      have hreg : params.mechanicalStepParams.regularization ≠ none := by
        intro h; have := (a6 h).1; cases this
      rw [((mechanicalStep_initial U F hm).2.2.2 hreg).1]
      exact dirichletId_initial U
  · intro m t y0 y1 θ rd hr
    exact hs _ _ (rd.feasible (by rw [hr]; exact S.facts.2.1.le))

variable {s : Sim}

theorem Sim.Healthy.single_succeeds (hh : s.Healthy solver domain params ext traction) (hs : solver.Succeeds)
    (hc : solver.RespectsConstraints) (hd : solver.RespectsDomain)
    (hb : params.regularization = none → BoundaryDataOk ext traction) :
    ∃ s', runSingleStep solver s = (.ok (), s') := by
  obtain ⟨m0, t0, c, H⟩ := hh.history
  have hr := hh.reachable
  obtain ⟨it, hg⟩ := c.grid
  obtain ⟨Sh, ⟨n, U⟩, F⟩ := c.setup.simShape hg c.refined c.mech0
  obtain ⟨a1, a2, a3, a4, -, a6, a7⟩ := mechanicalStep_facts U F c.mech0
  obtain ⟨y, hy, ht0⟩ := c.therm0
  obtain ⟨b1, b2, b3, -, -, b6, b7⟩ := thermalStep_cases U F a1.prevY.2 hy a1.prevTheta.2 ht0
  obtain ⟨st, l1, l2, l3⟩ := H.last
  have hmem : st ∈ s.steps := List.mem_of_getLast? l1
  have rpos : 0 ≤ params.searchRadius := c.setup.facts.2.1.le
  refine Sim.runSingle_ok c.wf ?_ ?_ ?_ ?_ ?_
  · rw [← l3]; exact fun x hx => C59_nonneg hr hd hmem hx
  · intro f hf v hv
    rw [MechStep.static_traction c.mech] at hf
    by_cases hreg : params.regularization = none
    · rw [(a6 hreg).1] at hf
      cases hf
      have hgr : s.mech.grid = s.grid := (MechStep.static_grid c.mech).trans a4
      rw [hgr] at hv ⊢
      obtain ⟨a, b, hab⟩ := (hb hreg).1 s.record.currentTime (s.grid.xy v).1 (s.grid.xy v).2
      refine ⟨s.grid.xy v, a, b, WF.at_xy U.wf ?_, hab⟩
      rw [U.vertices]
      exact List.mem_range.2 (lt_of_neumann U (mem_pySet.2 hv))
    · rw [(a7 hreg).1] at hf; cases hf
  · intro f hf
    rw [ThermStep.static_ext c.therm] at hf
    by_cases hreg : params.regularization = none
    · rw [(b6 hreg).1] at hf
      cases hf
      exact (hb hreg).2 _
    · rw [(b7 hreg).1] at hf; cases hf
  · intro m w sm rd
    have sm' := sm.trans c.mech
    refine hs _ _ (MechReady.feasible w U ((MechStep.static_grid sm').trans a4) ?_ rd ?_ ?_)
    · intro k hk
      by_cases hreg : params.mechanicalStepParams.regularization = none
      · rw [(a6 hreg).2.2.1] at hk; cases hk
      · obtain ⟨-, -, r, k', -, -, h5, -⟩ := a7 hreg
        rw [h5] at hk; cases hk; rfl
    · rw [MechStep.static_searchRadius sm', a3]; exact rpos
    · rintro ⟨a, rfl⟩
      have hreg : params.regularization ≠ none := by
        intro h
        have e1 := (a6 h).1
        have := MechStep.static_traction sm'
        rw [e1] at this; cases this
      obtain ⟨_, _, _, h1, -⟩ := hr.dirichletId hc hreg
      exact h1
  · intro m t y0 y1 θ rd sm
    refine hs _ _ (rd.feasible ?_)
    rw [ThermStep.static_searchRadius (sm.trans c.therm), b3]; exact rpos

end

end Tve
