import Verif.Lemmas.SimHistory
import Verif.Spec.Attributes

/-!
# Helper lemmas for C86: the steps of a run neither read the recorded steps nor, except for one test, the parameters
-/

namespace Tve

variable {solver : Solver}

/-- `t` is `s` with other parameters and with the steps `l ++ new` in place of `old ++ new` -/
def Sim.Shifted (p : SimParams) (old l : List Step) (s t : Sim) : Prop := ∃ new, s.steps = old ++ new ∧ t = s.assign p (l ++ new)

/-- the method gives the same result for shifted simulations and keeps them shifted -/
def Sim.Insensitive (p : SimParams) (old l : List Step) (m : PyS Sim Unit) : Prop :=
  ∀ s t, (p.regularization = none ↔ s.params.regularization = none) → s.Shifted p old l t →
    (m t).1 = (m s).1 ∧ (m s).2.Shifted p old l (m t).2 ∧ (m s).2.params = s.params

/-- the method neither reads nor writes the parameters and the record -/
def Sim.Blind (m : PyS Sim Unit) : Prop :=
  (∀ s q k, m (Sim.assign s q k) = ((m s).1, (m s).2.assign q k)) ∧ (∀ s, (m s).2.params = s.params) ∧
    ∀ s, (m s).2.record = s.record

theorem Sim.Blind.bind {m : PyS Sim Unit} {f : Unit → PyS Sim Unit} (hm : Sim.Blind m) (hf : ∀ u, Sim.Blind (f u)) :
    Sim.Blind (m >>= f) := by
  refine ⟨fun s q k => ?_, fun s => ?_, fun s => ?_⟩
  · rw [PyS.bind_apply, PyS.bind_apply, hm.1]
    rcases e : m s with ⟨_ | u, s1⟩
    · rfl
    · exact (hf u).1 s1 q k
  · rw [PyS.bind_apply]
    have := hm.2.1 s
    rcases e : m s with ⟨_ | u, s1⟩
    · rw [e] at this; exact this
    · rw [e] at this; exact ((hf u).2.1 s1).trans this
  · rw [PyS.bind_apply]
    have := hm.2.2 s
    rcases e : m s with ⟨_ | u, s1⟩
    · rw [e] at this; exact this
    · rw [e] at this; exact ((hf u).2.2 s1).trans this

section
variable {p : SimParams} {old l : List Step}

theorem Sim.Insensitive.bind {m : PyS Sim Unit} {f : Unit → PyS Sim Unit} (hm : Sim.Insensitive p old l m)
    (hf : ∀ u, Sim.Insensitive p old l (f u)) : Sim.Insensitive p old l (m >>= f) := by
  intro s t hp h
  obtain ⟨a, b, c⟩ := hm s t hp h
  rw [PyS.bind_apply, PyS.bind_apply]
  rcases e1 : m s with ⟨r1, s1⟩
  rcases e2 : m t with ⟨r2, t1⟩
  rw [e1, e2] at a b
  rw [e1] at c
  simp only at a b c
  subst a
  rcases r2 with e | u
  · exact ⟨rfl, b, c⟩
  · simp only
    obtain ⟨x, y, z⟩ := hf u s1 t1 (by rw [c]; exact hp) b
    exact ⟨x, y, z.trans c⟩

theorem Sim.Blind.insensitive {m : PyS Sim Unit} (h : Sim.Blind m) : Sim.Insensitive p old l m := by
  rintro s t - ⟨new, h1, rfl⟩
  rw [h.1]
  exact ⟨rfl, ⟨new, by rw [Sim.steps, h.2.2]; exact h1, rfl⟩, h.2.1 s⟩

theorem Sim.blind_updateMech : Sim.Blind Sim.updateMechanicalStep := by
  have key : ∀ s : Sim, ∃ r x, Sim.updateMechanicalStep s = (r, { s with mech := x }) ∧
      ∀ q k, Sim.updateMechanicalStep (s.assign q k) = (r, { s.assign q k with mech := x }) := by
    intro s
    rcases h1 : MechStep.updatePrevY s.therm.y s.mech with ⟨e | u, m1⟩
    · exact ⟨.error e, m1, by simp [Sim.updateMechanicalStep, PyS.bind_apply, Sim.onMech, PyS.onAttr_apply, h1],
        fun q k => by simp [Sim.updateMechanicalStep, PyS.bind_apply, Sim.onMech, PyS.onAttr_apply, Sim.assign, h1]⟩
    rcases h2 : MechStep.updatePrevTheta s.therm.theta m1 with ⟨e | u, m2⟩
    · exact ⟨.error e, m2, by simp [Sim.updateMechanicalStep, PyS.bind_apply, Sim.onMech, PyS.onAttr_apply, h1, h2],
        fun q k => by simp [Sim.updateMechanicalStep, PyS.bind_apply, Sim.onMech, PyS.onAttr_apply, Sim.assign, h1, h2]⟩
    rcases h3 : MechStep.updateBoundaryTraction s.record.currentTime m2 with ⟨e | u, m3⟩
    · exact ⟨.error e, m3, by simp [Sim.updateMechanicalStep, PyS.bind_apply, Sim.onMech, PyS.onAttr_apply, h1, h2, h3],
        fun q k => by simp [Sim.updateMechanicalStep, PyS.bind_apply, Sim.onMech, PyS.onAttr_apply, Sim.assign, h1, h2, h3]⟩
    · exact ⟨.ok u, m3, by simp [Sim.updateMechanicalStep, PyS.bind_apply, Sim.onMech, PyS.onAttr_apply, h1, h2, h3],
        fun q k => by simp [Sim.updateMechanicalStep, PyS.bind_apply, Sim.onMech, PyS.onAttr_apply, Sim.assign, h1, h2, h3]⟩
  refine ⟨?_, ?_, ?_⟩
  · intro s q k
    obtain ⟨r, x, h1, h2⟩ := key s
    rw [h1, h2]; rfl
  · intro s
    obtain ⟨r, x, h1, h2⟩ := key s
    rw [h1]
  · intro s
    obtain ⟨r, x, h1, h2⟩ := key s
    rw [h1]

theorem Sim.blind_updateTherm : Sim.Blind Sim.updateThermalStep := by
  have key : ∀ s : Sim, ∃ r x, Sim.updateThermalStep s = (r, { s with therm := x }) ∧
      ∀ q k, Sim.updateThermalStep (s.assign q k) = (r, { s.assign q k with therm := x }) := by
    intro s
    rcases h1 : ThermStep.updatePrevY s.mech.prevY s.therm with ⟨e | u, m1⟩
    · exact ⟨.error e, m1, by simp [Sim.updateThermalStep, PyS.bind_apply, Sim.onTherm, PyS.onAttr_apply, h1],
        fun q k => by simp [Sim.updateThermalStep, PyS.bind_apply, Sim.onTherm, PyS.onAttr_apply, Sim.assign, h1]⟩
    rcases h2 : ThermStep.updatePrevTheta s.mech.prevTheta m1 with ⟨e | u, m2⟩
    · exact ⟨.error e, m2, by simp [Sim.updateThermalStep, PyS.bind_apply, Sim.onTherm, PyS.onAttr_apply, h1, h2],
        fun q k => by simp [Sim.updateThermalStep, PyS.bind_apply, Sim.onTherm, PyS.onAttr_apply, Sim.assign, h1, h2]⟩
    rcases h3 : ThermStep.updateY s.mech.y m2 with ⟨e | u, m3⟩
    · exact ⟨.error e, m3, by simp [Sim.updateThermalStep, PyS.bind_apply, Sim.onTherm, PyS.onAttr_apply, h1, h2, h3],
        fun q k => by simp [Sim.updateThermalStep, PyS.bind_apply, Sim.onTherm, PyS.onAttr_apply, Sim.assign, h1, h2, h3]⟩
    rcases h4 : ThermStep.updateExternalTemperature s.record.currentTime m3 with ⟨e | u, m4⟩
    · exact ⟨.error e, m4, by simp [Sim.updateThermalStep, PyS.bind_apply, Sim.onTherm, PyS.onAttr_apply, h1, h2, h3, h4],
        fun q k => by simp [Sim.updateThermalStep, PyS.bind_apply, Sim.onTherm, PyS.onAttr_apply, Sim.assign, h1, h2, h3, h4]⟩
    · exact ⟨.ok u, m4, by simp [Sim.updateThermalStep, PyS.bind_apply, Sim.onTherm, PyS.onAttr_apply, h1, h2, h3, h4],
        fun q k => by simp [Sim.updateThermalStep, PyS.bind_apply, Sim.onTherm, PyS.onAttr_apply, Sim.assign, h1, h2, h3, h4]⟩
  refine ⟨?_, ?_, ?_⟩
  · intro s q k
    obtain ⟨r, x, h1, h2⟩ := key s
    rw [h1, h2]; rfl
  · intro s
    obtain ⟨r, x, h1, h2⟩ := key s
    rw [h1]
  · intro s
    obtain ⟨r, x, h1, h2⟩ := key s
    rw [h1]

theorem Sim.blind_solveMech : Sim.Blind (Sim.solveMech solver) := ⟨fun _ _ _ => rfl, fun _ => rfl, fun _ => rfl⟩

theorem Sim.blind_solveTherm : Sim.Blind (Sim.solveTherm solver) := ⟨fun _ _ _ => rfl, fun _ => rfl, fun _ => rfl⟩

/-- `_append_step` with the new step given -/
noncomputable def appendMade (made : PyM Step) (yData thetaData : NdArray) : PyS Record Unit := do
  let m ← PyS.lift (NdArray.npMax thetaData.data)
  PyS.modify fun r => { r with maxTemp := Max.max r.maxTemp m }
  let xs ← PyS.lift (yData.slice 0)
  let ys ← PyS.lift (yData.slice 1)
  let xl ← PyS.read fun r => updateLims r.xlims xs
  PyS.modify fun r => { r with xlims := xl }
  let yl ← PyS.read fun r => updateLims r.ylims ys
  PyS.modify fun r => { r with ylims := yl }
  let step ← PyS.lift made
  PyS.modify fun r => { r with steps := r.steps ++ [step] }
  PyS.modify fun r => { r with currentTime := r.currentTime + r.tau }

theorem appendStep_eq_made (domain : RectDomain ℝ) (q : SimParams) (grid : Grid ℝ) (refined : Option (RefinedGrid ℝ))
    (y θ : NdArray) : appendStep domain q grid refined y θ = appendMade (makeStep domain q grid refined y θ) y θ := rfl

theorem appendMade_shift (made : PyM Step) (y θ : NdArray) (r : Record) {new : List Step} (hr : r.steps = old ++ new) :
    ∃ new', (appendMade made y θ r).2.steps = old ++ new' ∧
      appendMade made y θ { r with steps := l ++ new } =
        ((appendMade made y θ r).1, { (appendMade made y θ r).2 with steps := l ++ new' }) := by
  unfold appendMade
  obtain ⟨steps, tau, time, mt, xl, yl⟩ := r
  simp only at hr
  subst hr
  rcases h1 : NdArray.npMax θ.data with e | M
  · exact ⟨new, rfl, rfl⟩
  rcases h2 : y.slice 0 with e | xs
  · exact ⟨new, rfl, rfl⟩
  rcases h3 : y.slice 1 with e | zs
  · exact ⟨new, rfl, rfl⟩
  simp only [PyS.lift_ok_bind, PyS.modify_bind, PyS.bind_apply, PyS.read_apply]
  rcases h4 : updateLims xl xs with e | xl'
  · exact ⟨new, by simp [h4], by simp [h4]⟩
  rcases h5 : updateLims yl zs with e | yl'
  · exact ⟨new, by simp [h4, h5], by simp [h4, h5]⟩
  rcases made with e | step
  · exact ⟨new, by simp [h4, h5], by simp [h4, h5]⟩
  · exact ⟨new ++ [step], by simp [h4, h5], by simp [h4, h5]⟩

theorem makeStep_congr {domain : RectDomain ℝ} {q : SimParams} {grid : Grid ℝ} {refined : Option (RefinedGrid ℝ)}
    (hq : p.regularization = none ↔ q.regularization = none) (y θ : NdArray) :
    makeStep domain p grid refined y θ = makeStep domain q grid refined y θ := by
  unfold makeStep
  cases h1 : p.regularization <;> cases h2 : q.regularization <;> simp_all

theorem Sim.insensitive_append (y θ : Sim → NdArray) (hy : ∀ s q k, y (Sim.assign s q k) = y s)
    (hθ : ∀ s q k, θ (Sim.assign s q k) = θ s) : Sim.Insensitive p old l (fun s => Sim.append (y s) (θ s) s) := by
  rintro s t hp ⟨new, h1, rfl⟩
  obtain ⟨new', e1, e2⟩ := appendMade_shift (l := l) (makeStep s.domain s.params s.grid s.refined (y s) (θ s)) (y s) (θ s)
    s.record h1
  have e3 : appendStep s.domain p s.grid s.refined (y s) (θ s) { s.record with steps := l ++ new } =
      ((appendStep s.domain s.params s.grid s.refined (y s) (θ s) s.record).1,
        { (appendStep s.domain s.params s.grid s.refined (y s) (θ s) s.record).2 with steps := l ++ new' }) := by
    rw [appendStep_eq_made, appendStep_eq_made, makeStep_congr hp]
    exact e2
  rw [← appendStep_eq_made] at e1
  have e4 : Sim.append (y s) (θ s) (s.assign p (l ++ new)) =
      ((Sim.append (y s) (θ s) s).1, (Sim.append (y s) (θ s) s).2.assign p (l ++ new')) := by
    simp only [Sim.append, PyS.onAttr_apply, Sim.assign]
    rw [e3]
  simp only [hy, hθ]
  rw [e4]
  exact ⟨rfl, ⟨new', e1, rfl⟩, rfl⟩

theorem PyS.bind_assoc' {σ α β γ : Type} (m : PyS σ α) (f : α → PyS σ β) (g : β → PyS σ γ) :
    ((m >>= f) >>= g) = (m >>= fun a => f a >>= g) := by
  funext s
  rw [PyS.bind_apply, PyS.bind_apply, PyS.bind_apply]
  rcases m s with ⟨_ | _, s1⟩ <;> rfl

/-- recording the results -/
noncomputable def Sim.recordStep : PyS Sim Unit := fun s => Sim.append s.therm.y s.therm.theta s

/-- a step without recording -/
noncomputable def Sim.computeStep (solver : Solver) : PyS Sim Unit := do
  updateMechanicalStep
  solveMech solver
  updateThermalStep
  solveTherm solver

theorem Sim.blind_compute : Sim.Blind (Sim.computeStep solver) :=
  blind_updateMech.bind fun _ => blind_solveMech.bind fun _ => blind_updateTherm.bind fun _ => blind_solveTherm

theorem Sim.runSingle_eq (s : Sim) : Sim.runSingleStep solver s =
    (Sim.computeStep solver >>= fun _ => Sim.recordStep) s := by
  unfold Sim.runSingleStep Sim.computeStep
  rw [PyS.bind_assoc', PyS.bind_apply, PyS.bind_apply]
  rcases updateMechanicalStep s with ⟨_ | _, s1⟩
  · rfl
  simp only
  rw [PyS.bind_assoc', PyS.bind_apply, PyS.bind_apply]
  rcases solveMech solver s1 with ⟨_ | _, s2⟩
  · rfl
  simp only
  rw [PyS.bind_assoc', PyS.bind_apply, PyS.bind_apply]
  rcases updateThermalStep s2 with ⟨_ | _, s3⟩
  · rfl
  rfl

theorem Sim.insensitive_single : Sim.Insensitive p old l (Sim.runSingleStep solver) := by
  rw [show Sim.runSingleStep solver = _ from funext runSingle_eq]
  exact blind_compute.insensitive.bind fun _ =>
    insensitive_append (fun s => s.therm.y) (fun s => s.therm.theta) (fun _ _ _ => rfl) fun _ _ _ => rfl

/-- after a switch of the regularization a step cannot be recorded -/
theorem appendStep_switched {domain : RectDomain ℝ} {q : SimParams} {grid : Grid ℝ} {refined : Option (RefinedGrid ℝ)}
    {ys ts : List ℕ} (S : SimShape domain q grid refined ys ts) (hq : ¬(p.regularization = none ↔ q.regularization = none))
    {y θ : NdArray} (hy : y.Has ys) (ht : θ.Has ts) (r : Record) :
    ∃ r', appendStep domain p grid refined y θ r = (.error .valueError, r') ∧ r'.steps = r.steps := by
  have hmade : makeStep domain p grid refined y θ = .error .valueError := by
    unfold SimShape at S
    unfold makeStep
    cases h1 : p.regularization with
    | none =>
      cases h2 : q.regularization with
      | none => simp [h1, h2] at hq
      | some _ =>
        rw [h2] at S
        obtain ⟨n, k, r, p, U, rfl, F, hp, rfl, rfl⟩ := S
        simp only [Step.new]
        rw [if_pos (by rw [hy.1]; simp)]
    | some _ =>
      cases h2 : q.regularization with
      | none =>
        rw [h2] at S
        obtain ⟨n, U, rfl, rfl⟩ := S
        cases refined with
        | none => rfl
        | some r =>
          simp only [Step.newRegularized]
          rw [if_pos (by rw [hy.1]; simp)]
      | some _ => simp [h1, h2] at hq
  obtain ⟨xs, hx, hx0⟩ := slice_ok S hy (j := 0) (by norm_num)
  obtain ⟨zs, hz, hz0⟩ := slice_ok S hy (j := 1) (by norm_num)
  obtain ⟨xl, hxl⟩ := updateLims_ok (lims := r.xlims) hx0
  obtain ⟨yl, hyl⟩ := updateLims_ok (lims := r.ylims) hz0
  obtain ⟨M, hM⟩ : ∃ M, NdArray.npMax θ.data = .ok M := by
    unfold SimShape at S
    split at S
    · obtain ⟨n, U, rfl, rfl⟩ := S
      exact npMax_ok (Has.ne_nil ht U.pos)
    · obtain ⟨n, k, r, p, U, rfl, F, hp, rfl, rfl⟩ := S
      exact npMax_ok (Has.ne_nil ht F.pos)
  rw [appendStep_eq_made, hmade]
  unfold appendMade
  rw [hM, PyS.lift_ok_bind, PyS.modify_bind, hx, PyS.lift_ok_bind, hz, PyS.lift_ok_bind, PyS.bind_apply, PyS.read_apply]
  simp only [hxl]
  rw [PyS.modify_bind, PyS.bind_apply, PyS.read_apply]
  simp only [hyl]
  rw [PyS.modify_bind]
  exact ⟨_, rfl, rfl⟩

theorem Sim.single_switched {s : Sim} {ys ts : List ℕ} (h : s.WF ys ts)
    (hp : ¬(p.regularization = none ↔ s.params.regularization = none)) :
    ∃ e t, Sim.runSingleStep solver (s.assign p l) = (.error e, t) ∧ t.steps = l ∧
      ((Sim.runSingleStep solver s).1 = .ok () → e = .valueError) ∧
      ∀ e', (Sim.runSingleStep solver s).1 = .error e' → e = e' := by
  have any := runSingle_any solver h
  rw [runSingle_eq, PyS.bind_apply] at any ⊢
  rw [blind_compute.1, runSingle_eq s, PyS.bind_apply]
  rcases e1 : computeStep solver s with ⟨e | u, s1⟩
  · rw [e1] at any
    exact ⟨e, s1.assign p l, rfl, rfl, fun h => (by cases h), fun e' h => (by cases h; rfl)⟩
  · rw [e1] at any
    simp only at any ⊢
    have par : s1.params = s.params := by have := blind_compute (solver := solver).2.1 s; rw [e1] at this; exact this
    have key : ∃ w : Sim, w.WF ys ts ∧ w.therm = s1.therm ∧ w.domain = s1.domain ∧ w.params = s1.params ∧ w.grid = s1.grid ∧
        w.refined = s1.refined ∧ (recordStep s1).1 = .ok () := by
      have ww : (recordStep s1).2.WF ys ts := by
        rcases any with ⟨m, t, step, r, s', h1, h2, -⟩ | ⟨e, s', h1, h2, -⟩ <;> rw [h1] <;> exact h2
      refine ⟨_, ww, rfl, rfl, rfl, rfl, rfl, ?_⟩
      obtain ⟨step, r', h1, -⟩ := appendStep_ok ww.shape ww.therm.y ww.therm.theta s1.record
      exact congrArg Prod.fst h1
    obtain ⟨w, ww, a1, a2, a3, a4, a5, a6⟩ := key
    have S := ww.shape
    rw [a2, a3, a4, a5] at S
    obtain ⟨r', hr1, hr2⟩ := appendStep_switched (p := p) S (by rw [par]; exact hp) (a1 ▸ ww.therm.y) (a1 ▸ ww.therm.theta)
      (s1.assign p l).record
    refine ⟨.valueError, { s1.assign p l with record := r' }, ?_, hr2, fun _ => rfl, fun e' he => by rw [a6] at he; cases he⟩
    simp only [Sim.recordStep, Sim.append, PyS.onAttr_apply]
    exact congrArg (fun x => (x.1, ({ s1.assign p l with record := x.2 } : Sim))) hr1

theorem Sim.insensitive_run (n : ℤ) : Sim.Insensitive p old l (fun s => s.run solver n) := by
  unfold Sim.run
  split
  · exact Sim.Blind.insensitive ⟨fun _ _ _ => rfl, fun _ => rfl, fun _ => rfl⟩
  · split
    · exact insensitive_single
    · generalize List.range n.toNat = is
      induction is with
      | nil => exact Sim.Blind.insensitive ⟨fun _ _ _ => rfl, fun _ => rfl, fun _ => rfl⟩
      | cons a is ih => exact insensitive_single.bind fun _ => ih

end

end Tve
