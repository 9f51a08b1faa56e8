import Verif.Lemmas.Retry
import Verif.Props.Recorded

/-!
# Retrying after a failure: C71
-/

namespace Tve
open Sim

/-- the last problem posed to the solver was a mechanical one that failed or a thermal one that was solved -/
def Sim.Stopped (solver : Solver) (s : Sim) : Prop :=
  ∃ cs p, s.calls = cs ++ [p] ∧ ((p.IsMech ∧ (solver cs p).err ≠ none) ∨ (p.IsTherm ∧ (solver cs p).err = none))

/-- simulations that were created, or run successfully after an arbitrary history, and in which since then at most mechanical
solves (or the evaluation of the traction) have failed -/
inductive Sim.Resumable (solver : Solver) (domain : RectDomain ℝ) (params : SimParams) (ext : ExtTemp)
    (traction : Traction) : Sim → Prop
  | new {it s} (S : Setup domain params) (h : Sim.new solver it domain params ext traction = .ok s) :
      Sim.Resumable solver domain params ext traction s
  | ok {s s' n} (hs : Sim.Reachable solver domain params ext traction s) (h : s.run solver n = (.ok (), s')) :
      Sim.Resumable solver domain params ext traction s'
  | stopped {s n} (hs : Sim.Resumable solver domain params ext traction s) (h : (s.run solver n).2.Stopped solver) :
      Sim.Resumable solver domain params ext traction (s.run solver n).2

section
variable {solver : Solver} {domain : RectDomain ℝ} {params : SimParams} {ext : ExtTemp} {traction : Traction} {s : Sim}

theorem Sim.Resumable.reachable (h : s.Resumable solver domain params ext traction) :
    s.Reachable solver domain params ext traction := by
  induction h with
  | new S h => exact .new S h
  | @ok s s' n hs h =>
    have := Sim.Reachable.run (n := n) hs
    rw [h] at this
    exact this
  | stopped _ _ ih => exact .run ih

/-- the thermal step holds the data of the last recorded step -/
def Sim.Synced (s : Sim) : Prop :=
  ∃ st, s.steps.getLast? = some st ∧ s.therm.y = st.yData ∧ s.therm.theta = st.thetaData

theorem not_stopped {cs : List Problem} {p : Problem} (h : s.calls = cs ++ [p])
    (h1 : p.IsMech → (solver cs p).err = none) (h2 : p.IsTherm → (solver cs p).err ≠ none) : ¬ s.Stopped solver := by
  rintro ⟨cs', p', e, h3⟩
  rw [h] at e
  have e' := List.append_inj' e rfl
  obtain ⟨rfl, e2⟩ := e'
  cases e2
  rcases h3 with ⟨a, b⟩ | ⟨a, b⟩
  · exact b (h1 a)
  · exact h2 a b

theorem single_synced {m0 : MechStep} {t0 : ThermStep} (c : s.Context domain params ext traction m0 t0) :
    ((runSingleStep solver s).1 = .ok () → (runSingleStep solver s).2.Synced) ∧
    (s.Synced → (runSingleStep solver s).2.Stopped solver → (runSingleStep solver s).2.Synced) := by
  have T := runSingle_trace solver c.wf
  have hrec : ∀ e s', runSingleStep solver s = (.error e, s') → s'.steps = s.steps := by
    intro e s' h
    rcases runSingle_any solver c.wf with ⟨m, t, step, r, s2, h2, w, h3⟩ | ⟨e', s2, h2, w, h3⟩
    · rw [h2] at h; cases h
    · rw [h2] at h
      obtain rfl : s2 = s' := (Prod.mk.inj h).2
      rw [Sim.steps, h3.record]; rfl
  rcases hr : runSingleStep solver s with ⟨res, s'⟩
  rw [hr] at T
  simp only at T ⊢
  cases T with
  | @early e s' upd calls therm =>
    refine ⟨fun h => (by cases h), fun ⟨st, h1, h2, h3⟩ _ => ⟨st, ?_, ?_, ?_⟩⟩
    · rw [hrec e s' hr]; exact h1
    · rw [therm]; exact h2
    · rw [therm]; exact h3
  | @mech e s' m ready calls err therm =>
    refine ⟨fun h => (by cases h), fun ⟨st, h1, h2, h3⟩ _ => ⟨st, ?_, ?_, ?_⟩⟩
    · rw [hrec e s' hr]; exact h1
    · rw [therm]; exact h2
    · rw [therm]; exact h3
  | @between e s' m ready calls err =>
    refine ⟨fun h => (by cases h), fun _ h => absurd h (not_stopped calls (fun _ => err) fun h => ?_)⟩
    cases m <;> cases h
  | @therm e s' m t ready calls err err' y theta =>
    refine ⟨fun h => (by cases h), fun _ h => absurd h (not_stopped (cs := s.calls ++ [m.problem]) (p := t.problem)
      (by rw [calls]; simp) (fun h => ?_) (fun _ => err'))⟩
    cases t <;> cases h
  | @ok s' m t step ready calls err steps y theta err1 =>
    have : s'.Synced := ⟨step, by rw [steps]; simp, y, theta⟩
    exact ⟨fun _ => this, fun _ _ => this⟩

theorem Sim.Resumable.synced (h : s.Resumable solver domain params ext traction) : s.Synced := by
  have run_synced : ∀ {s : Sim} {n : ℤ}, 0 < n → s.Reachable solver domain params ext traction →
      ((s.run solver n).1 = .ok () → (s.run solver n).2.Synced) ∧
      (s.Synced → (s.run solver n).2.Stopped solver → (s.run solver n).2.Synced) := by
    intro s n hn hs
    obtain ⟨m0, t0, c⟩ := hs.context
    -- after zero or more successful steps
    have A := Sim.run_split (solver := solver)
      (fun s1 => s1.Context domain params ext traction m0 t0 ∧ (s1.Synced ∨ s1 = s))
      (fun _ s1 => s1.Stopped solver → s.Synced → s1.Synced)
      (by
        rintro s1 s2 ⟨c1, -⟩ hr
        have h1 := single_synced (solver := solver) c1
        have h2 := c1.single (solver := solver)
        rw [hr] at h1 h2
        exact ⟨h2, .inl (h1.1 rfl)⟩)
      (by
        rintro s1 s2 e ⟨c1, h1⟩ hr h2 h3
        have h4 := single_synced (solver := solver) c1
        rw [hr] at h4
        rcases h1 with h1 | rfl
        · exact h4.2 h1 h2
        · exact h4.2 h3 h2) hn ⟨c, .inr rfl⟩
    -- the last of at least one successful step
    have B := Sim.run_split (solver := solver)
      (fun s1 => s1.Context domain params ext traction m0 t0 ∧ (s1.Synced ∨ s1.steps.length = s.steps.length))
      (fun _ _ => True)
      (by
        rintro s1 s2 ⟨c1, -⟩ hr
        have h1 := single_synced (solver := solver) c1
        have h2 := c1.single (solver := solver)
        rw [hr] at h1 h2
        exact ⟨h2, .inl (h1.1 rfl)⟩)
      (by intros; trivial) hn ⟨c, .inr rfl⟩
    constructor
    · intro hok
      rcases B with ⟨s', hr, -, h1⟩ | ⟨e, s', hr, -⟩
      · have hlen := C60_run hs hr
        rw [hr]
        rcases h1 with h1 | h1
        · exact h1
        · rw [h1] at hlen
          omega
      · rw [hr] at hok; cases hok
    · intro hsy hst
      rcases A with ⟨s', hr, -, h1⟩ | ⟨e, s', hr, h1⟩
      · rw [hr]
        rcases h1 with h1 | rfl
        · exact h1
        · exact hsy
      · rw [hr] at hst ⊢
        exact h1 hst hsy
  induction h with
  | new S h =>
    obtain ⟨m, t, step0, step1, r1, r2, w, c⟩ := Sim.of_new S h
    exact ⟨step1, by rw [Sim.steps, c.eq, c.steps]; rfl, c.stepY1.symm, c.stepTheta1.symm⟩
  | @ok s s' n hs h =>
    by_cases hn : 0 < n
    · have h1 := (run_synced hn hs).1
      rw [h] at h1
      exact h1 rfl
    · rw [C66_invalid (not_lt.1 hn)] at h; cases h
  | @stopped s n hs h ih =>
    by_cases hn : 0 < n
    · exact (run_synced hn hs.reachable).2 ih h
    · rw [C66_invalid (not_lt.1 hn)]; exact ih

/-- the problems posed by a run come after those posed before, and the first one is mechanical, with the data of the thermal
step -/
theorem first_problem {m0 : MechStep} {t0 : ThermStep} (c : s.Context domain params ext traction m0 t0) {n : ℤ} {p : Problem}
    (hp : (s.run solver n).2.calls[s.calls.length]? = some p) :
    p.IsMech ∧ p.prevY = s.therm.y ∧ p.y = s.therm.y ∧ p.prevTheta = s.therm.theta := by
  by_cases hn : 0 < n
  swap
  · rw [C66_invalid (not_lt.1 hn)] at hp
    simp at hp
  let Q : Sim → Prop := fun s1 => s.calls = s1.calls ∧ s1.therm = s.therm ∨ ∃ m l,
    MechReady m s.therm.y s.therm.theta s.record.currentTime ∧ s1.calls = s.calls ++ m.problem :: l
  have step : ∀ s1, (s1 = s ∨ ∃ m l, MechReady m s.therm.y s.therm.theta s.record.currentTime ∧
      s1.calls = s.calls ++ m.problem :: l) → s1.Context domain params ext traction m0 t0 →
      (s.calls = (runSingleStep solver s1).2.calls ∧ (runSingleStep solver s1).1 ≠ .ok ()) ∨
      ∃ m l, MechReady m s.therm.y s.therm.theta s.record.currentTime ∧
        (runSingleStep solver s1).2.calls = s.calls ++ m.problem :: l := by
    intro s1 h1 c1
    have T := runSingle_trace solver c1.wf
    rcases hr : runSingleStep solver s1 with ⟨res, s'⟩
    rw [hr] at T
    simp only at T ⊢
    rcases h1 with rfl | ⟨m, l, hm, hl⟩
    · cases T with
      | early upd calls therm => exact .inl ⟨calls.symm, by simp⟩
      | mech m ready calls => exact .inr ⟨m, [], ready, calls⟩
      | between m ready calls => exact .inr ⟨m, [], ready, calls⟩
      | therm m t ready calls => exact .inr ⟨m, _, ready, calls⟩
      | ok m t step ready calls => exact .inr ⟨m, _, ready, calls⟩
    · right
      cases T with
      | early upd calls therm => exact ⟨m, l, hm, by rw [calls, hl]⟩
      | mech m' ready calls => exact ⟨m, l ++ [m'.problem], hm, by rw [calls, hl]; simp⟩
      | between m' ready calls => exact ⟨m, l ++ [m'.problem], hm, by rw [calls, hl]; simp⟩
      | therm m' t ready calls => exact ⟨m, l ++ [m'.problem, t.problem], hm, by rw [calls, hl]; simp⟩
      | ok m' t step ready calls => exact ⟨m, l ++ [m'.problem, t.problem], hm, by rw [calls, hl]; simp⟩
  have R := Sim.run_split (solver := solver)
    (fun s1 => s1.Context domain params ext traction m0 t0 ∧ (s1 = s ∨ ∃ m l,
      MechReady m s.therm.y s.therm.theta s.record.currentTime ∧ s1.calls = s.calls ++ m.problem :: l))
    (fun _ s1 => s.calls = s1.calls ∨ ∃ m l, MechReady m s.therm.y s.therm.theta s.record.currentTime ∧
        s1.calls = s.calls ++ m.problem :: l)
    (by
      rintro s1 s2 ⟨c1, h1⟩ hr
      have h2 := step s1 h1 c1
      have h3 := c1.single (solver := solver)
      rw [hr] at h2 h3
      rcases h2 with ⟨-, h2⟩ | h2
      · exact absurd rfl h2
      · exact ⟨h3, .inr h2⟩)
    (by
      rintro s1 s2 e ⟨c1, h1⟩ hr
      have h2 := step s1 h1 c1
      rw [hr] at h2
      rcases h2 with ⟨h2, -⟩ | h2
      · exact .inl h2
      · exact .inr h2) hn ⟨c, .inl rfl⟩
  have fin : ∀ s1 : Sim, s1.calls[s.calls.length]? = some p → (s.calls = s1.calls ∨ ∃ m l,
      MechReady m s.therm.y s.therm.theta s.record.currentTime ∧ s1.calls = s.calls ++ m.problem :: l) →
      p.IsMech ∧ p.prevY = s.therm.y ∧ p.y = s.therm.y ∧ p.prevTheta = s.therm.theta := by
    rintro s1 h (e | ⟨m, l, hm, e⟩)
    · rw [← e] at h; simp at h
    · rw [e] at h
      simp only [List.getElem?_append_right (le_refl _), Nat.sub_self, List.getElem?_cons_zero, Option.some.injEq] at h
      subst h
      exact ⟨m.problem_isMech, by rw [MechStep.problem_prevY, hm.prevY], by rw [MechStep.problem_y, hm.y],
        by rw [MechStep.problem_prevTheta, hm.prevTheta]⟩
  rcases R with ⟨s', hr, -, h1⟩ | ⟨e, s', hr, h1⟩
  · rw [hr] at hp
    refine fin s' hp ?_
    rcases h1 with rfl | h1
    · exact .inl rfl
    · exact .inr h1
  · rw [hr] at hp
    exact fin s' hp h1

/-- **C71** (mechanical failures). After a successful run, and as long as since then only mechanical solves (or the evaluation of
the traction) have failed, the next call of `run` continues from the last recorded step: the first problem it poses is
mechanical, with the deformation and temperature of the last recorded step as previous data and as starting point. -/
theorem C71_retry_partial (hs : s.Resumable solver domain params ext traction) {n : ℤ} {p : Problem}
    (hp : (s.run solver n).2.calls[s.calls.length]? = some p) :
    ∃ last, s.steps.getLast? = some last ∧ p.IsMech ∧ p.prevY = last.yData ∧ p.y = last.yData ∧
      p.prevTheta = last.thetaData := by
  obtain ⟨m0, t0, c⟩ := hs.reachable.context
  obtain ⟨last, h1, h2, h3⟩ := hs.synced
  have h := first_problem c hp
  rw [h2, h3] at h
  exact ⟨last, h1, h⟩

/-- **C71** (thermal failures). If a thermal solve fails, the next call of `run` does not continue from the last recorded step: the
first problem it poses has the deformation computed by the mechanical solve of the failed step and the temperatures left by the
failed thermal solve as previous data. -/
theorem C71_thermal_failure (hs : s.Reachable solver domain params ext traction) {e : PyErr} {s' : Sim}
    (h : s.run solver 1 = (.error e, s')) {p q : Problem} (hpq : s'.calls = s.calls ++ [p, q]) {n : ℤ} {r : Problem}
    (hr : (s'.run solver n).2.calls[s'.calls.length]? = some r) :
    r.IsMech ∧ r.prevY.data = p.answer (solver s.calls p) ∧ r.prevTheta.data = q.answer (solver (s.calls ++ [p]) q) := by
  have hs' : s'.Reachable solver domain params ext traction := by
    have := Sim.Reachable.run (n := 1) hs
    rw [h] at this
    exact this
  obtain ⟨m0, t0, c⟩ := hs.context
  obtain ⟨m1, t1, c'⟩ := hs'.context
  obtain ⟨h1, h2, -, h3⟩ := first_problem c' hr
  have h' : runSingleStep solver s = (.error e, s') := by
    rw [Sim.run, if_neg (by norm_num), if_pos rfl] at h; exact h
  have T := runSingle_trace solver c.wf
  rw [h'] at T
  simp only at T
  cases T with
  | early upd calls therm => rw [calls] at hpq; simp at hpq
  | mech m ready calls => rw [calls] at hpq; simp at hpq
  | between m ready calls => rw [calls] at hpq; simp at hpq
  | therm m t ready calls err err' y theta =>
    rw [calls] at hpq
    simp only [List.append_cancel_left_eq, List.cons.injEq, and_true] at hpq
    obtain ⟨rfl, rfl⟩ := hpq
    exact ⟨h1, by rw [h2, y], by rw [h3, theta]⟩

theorem stuck (hs : s.Reachable solver domain params ext traction) (hθ : ∃ x ∈ s.therm.theta.data, x < 0) (ns : List ℤ) (n : ℤ) :
    ∃ s2, (ns.foldl (fun s n => (s.run solver n).2) s).run solver n = (.error .valueError, s2) ∧ s2.steps = s.steps ∧
      s2.calls = s.calls := by
  have key : ∀ (n : ℤ) (s1 : Sim), s1.Reachable solver domain params ext traction → (∃ x ∈ s1.therm.theta.data, x < 0) →
      ∃ s2, s1.run solver n = (.error .valueError, s2) ∧ s2.therm = s1.therm ∧ s2.steps = s1.steps ∧ s2.calls = s1.calls := by
    intro n s1 hs1 h1
    by_cases hn : 0 < n
    · obtain ⟨m1, t1, c1⟩ := hs1.context
      obtain ⟨s2, e2, a1, a2, a3⟩ := runSingle_negative solver c1.wf h1
      rcases Sim.run_split (solver := solver) (fun s => s = s1) (fun e s => e = .valueError ∧ s = s2)
        (by rintro _ s3 rfl hr; rw [e2] at hr; cases hr)
        (by rintro _ s3 e rfl hr; rw [e2] at hr; cases hr; exact ⟨rfl, rfl⟩) hn rfl with ⟨s3, hr, rfl⟩ | ⟨e, s3, hr, rfl, rfl⟩
      · exfalso
        have := C60_run hs1 hr
        omega
      · exact ⟨s3, hr, a1, by rw [Sim.steps, a2]; rfl, a3⟩
    · exact ⟨s1, C66_invalid (not_lt.1 hn) s1, rfl, rfl, rfl⟩
  have all : ∀ (ns : List ℤ) (s1 : Sim), s1.Reachable solver domain params ext traction → (∃ x ∈ s1.therm.theta.data, x < 0) →
      ∃ s2, ns.foldl (fun s n => (s.run solver n).2) s1 = s2 ∧ s2.Reachable solver domain params ext traction ∧
        (∃ x ∈ s2.therm.theta.data, x < 0) ∧ s2.steps = s1.steps ∧ s2.calls = s1.calls := by
    intro ns
    induction ns with
    | nil => intro s1 a b; exact ⟨s1, rfl, a, b, rfl, rfl⟩
    | cons n ns ih =>
      intro s1 a b
      obtain ⟨s2, e1, e2, e3, e4⟩ := key n s1 a b
      have a' := Sim.Reachable.run (n := n) a
      rw [e1] at a'
      obtain ⟨s3, f1, f2, f3, f4, f5⟩ := ih s2 a' (e2 ▸ b)
      exact ⟨s3, by rw [List.foldl_cons, e1]; exact f1, f2, f3, f4.trans e3, f5.trans e4⟩
  obtain ⟨s2, e1, a, b, e3, e4⟩ := all ns s hs hθ
  obtain ⟨s3, f1, -, f3, f4⟩ := key n s2 a b
  exact ⟨s3, by rw [e1]; exact f1, f3.trans e3, f4.trans e4⟩

/-- **C71** (stuck). If a failed thermal solve leaves a negative temperature, the simulation cannot be continued: every further call
of `run`, however often it is tried, raises `ValueError`, poses no problem and records nothing. -/
theorem C71_stuck (hs : s.Reachable solver domain params ext traction) {e : PyErr} {s' : Sim}
    (h : s.run solver 1 = (.error e, s')) {p q : Problem} (hpq : s'.calls = s.calls ++ [p, q])
    (hneg : ∃ x ∈ q.answer (solver (s.calls ++ [p]) q), x < 0) (ns : List ℤ) (n : ℤ) :
    ∃ s2, (ns.foldl (fun s n => (s.run solver n).2) s').run solver n = (.error .valueError, s2) ∧ s2.steps = s.steps ∧
      s2.calls = s'.calls := by
  obtain ⟨m0, t0, c⟩ := hs.context
  have hs' : s'.Reachable solver domain params ext traction := by
    have := Sim.Reachable.run (n := 1) hs
    rw [h] at this
    exact this
  have h' : runSingleStep solver s = (.error e, s') := by
    rw [Sim.run, if_neg (by norm_num), if_pos rfl] at h; exact h
  have hst : s'.steps = s.steps := (C67_failed_step hs h).1
  have T := runSingle_trace solver c.wf
  rw [h'] at T
  have hθ : ∃ x ∈ s'.therm.theta.data, x < 0 := by
    simp only at T
    cases T with
    | early upd calls therm => rw [calls] at hpq; simp at hpq
    | mech m ready calls => rw [calls] at hpq; simp at hpq
    | between m ready calls => rw [calls] at hpq; simp at hpq
    | therm m t ready calls err err' y theta =>
      rw [calls] at hpq
      simp only [List.append_cancel_left_eq, List.cons.injEq, and_true] at hpq
      obtain ⟨rfl, rfl⟩ := hpq
      rw [theta]; exact hneg
  obtain ⟨s2, h1, h2, h3⟩ := stuck hs' hθ ns n
  exact ⟨s2, h1, h2.trans hst, h3⟩

/-- after a step with a nonnegative temperature and defined boundary data, either the mechanical solve failed or both problems
were posed -/
theorem runSingle_posed {m0 : MechStep} {t0 : ThermStep} (c : s.Context domain params ext traction m0 t0)
    (h0 : ∀ x ∈ s.therm.theta.data, 0 ≤ x) (hb : params.regularization = none → BoundaryDataOk ext traction)
    {res : PyM Unit} {s' : Sim} (hr : runSingleStep solver s = (res, s')) :
    (∃ p, p.IsMech ∧ s'.calls = s.calls ++ [p] ∧ (solver s.calls p).err ≠ none ∧ res ≠ .ok () ∧ s'.therm = s.therm) ∨
    ∃ p q, p.IsMech ∧ q.IsTherm ∧ s'.calls = s.calls ++ [p, q] ∧ (solver s.calls p).err = none ∧
      (res = .ok () ↔ (solver (s.calls ++ [p]) q).err = none) := by
  obtain ⟨it, hg⟩ := c.grid
  obtain ⟨Sh, ⟨n, U⟩, F⟩ := c.setup.simShape hg c.refined c.mech0
  obtain ⟨a1, a2, a3, a4, -, a6, a7⟩ := mechanicalStep_facts U F c.mech0
  obtain ⟨y, hy, ht0⟩ := c.therm0
  obtain ⟨b1, b2, b3, -, -, b6, b7⟩ := thermalStep_cases U F a1.prevY.2 hy a1.prevTheta.2 ht0
  have htr : ∀ f, s.mech.traction = some f → ∀ v ∈ s.mech.grid.neumann.vertices, ∃ z a b, s.mech.grid.At v z ∧
      f s.record.currentTime z.1 z.2 = .ok [a, b] := by
    intro f hf v hv
    rw [MechStep.static_traction c.mech] at hf
    by_cases hreg : params.regularization = none
    · rw [(a6 hreg).1] at hf
      cases hf
      have hgr : s.mech.grid = s.grid := (MechStep.static_grid c.mech).trans a4
      rw [hgr] at hv ⊢
      obtain ⟨a, b, hab⟩ := (hb hreg).1 s.record.currentTime (s.grid.xy v).1 (s.grid.xy v).2
      refine ⟨s.grid.xy v, a, b, WF.at_xy U.wf ?_, hab⟩
      rw [U.vertices]
      exact List.mem_range.2 (lt_of_neumann U (mem_pySet.2 hv))
    · rw [(a7 hreg).1] at hf; cases hf
  have he : ∀ f, s.therm.ext = some f → ∃ e, 0 ≤ e ∧ f s.record.currentTime = .ok e := by
    intro f hf
    rw [ThermStep.static_ext c.therm] at hf
    by_cases hreg : params.regularization = none
    · rw [(b6 hreg).1] at hf
      cases hf
      exact (hb hreg).2 _
    · rw [(b7 hreg).1] at hf; cases hf
  have T := runSingle_trace solver c.wf
  rw [hr] at T
  simp only at T
  cases T with
  | early upd calls therm => exact absurd (Sim.updateMech_ok c.wf.mech c.wf.therm h0 htr) upd
  | mech m ready calls err therm => exact .inl ⟨_, m.problem_isMech, calls, err, by simp, therm⟩
  | between m ready calls err upd => exact (upd (by rw [ready.prevTheta]; exact h0) he).elim
  | therm m t ready calls err err' =>
    exact .inr ⟨_, _, m.problem_isMech, t.problem_isTherm, calls, err, by simp [err']⟩
  | ok m t step ready calls err steps y theta err1 =>
    exact .inr ⟨_, _, m.problem_isMech, t.problem_isTherm, calls, err1, by simp [err]⟩

/-- **C71** (negative temperatures). If the last recorded step of a simulation has a negative temperature (solvers may violate bounds
slightly), the simulation cannot be continued: every further call of `run` raises `ValueError`, poses no problem and records
nothing. -/
theorem C71_negative_stuck (hs : s.Resumable solver domain params ext traction) {last : Step}
    (hl : s.steps.getLast? = some last) (hneg : ∃ x ∈ last.thetaData.data, x < 0) (ns : List ℤ) (n : ℤ) :
    ∃ s2, (ns.foldl (fun s n => (s.run solver n).2) s).run solver n = (.error .valueError, s2) ∧ s2.steps = s.steps ∧
      s2.calls = s.calls := by
  obtain ⟨st, h1, -, h3⟩ := hs.synced
  rw [hl] at h1
  cases h1
  exact stuck hs.reachable (h3 ▸ hneg) ns n

/-- the simulation that remains after a step, successful or not, together with the last step -/
theorem Sim.Resumable.of_healthy (hs : s.Healthy solver domain params ext traction) :
    s.Resumable solver domain params ext traction := by
  cases hs with
  | new S h => exact .new S h
  | run hs h => exact .ok hs.reachable h

end

/-! ### a failing thermal solve -/

/-- a solver whose fourth call fails; every call sets the components of the deformation to the number of the call and the temperature
to `c` -/
noncomputable def failSolver (c : ℝ) : Solver := fun cs _ =>
  ⟨fun _ _ => cs.length, fun _ _ => cs.length, fun _ => if cs.length = 3 then c else 0,
    if cs.length = 3 then some .solverError else none⟩

theorem failSolver_err {c : ℝ} {cs : List Problem} {p : Problem} : (failSolver c cs p).err = none ↔ cs.length ≠ 3 := by
  rw [failSolver]
  by_cases h : cs.length = 3 <;> simp [h]

theorem failSolver_mech {c : ℝ} {cs : List Problem} {p : Problem} (hp : p.IsMech) :
    ∀ x ∈ p.answer (failSolver c cs p), x = cs.length := by
  have key : ∀ (l l' : List ℝ) (a : ℝ), (∀ x ∈ l, x = a) → (∀ x ∈ l', x = a) → ∀ x ∈ interleave l l', x = a := by
    intro l
    induction l with
    | nil => intro l' a _ _ x hx; simp [interleave] at hx
    | cons b l ih =>
      intro l' a h1 h2 x hx
      rcases l' with _ | ⟨b', l'⟩
      · simp [interleave] at hx
      · simp only [interleave, List.zipWith_cons_cons, List.flatten_cons, List.mem_append, List.mem_cons,
          List.not_mem_nil, or_false] at hx
        rcases hx with (rfl | rfl) | hx
        · exact h1 _ (by simp)
        · exact h2 _ (by simp)
        · exact ih l' a (fun y hy => h1 y (by simp [hy])) (fun y hy => h2 y (by simp [hy])) x hx
  intro x hx
  cases p with
  | mechP1 m =>
    refine key _ _ _ ?_ ?_ x hx <;> intro y hy <;> obtain ⟨i, hi, rfl⟩ := List.mem_mapIdx.1 hy <;> rfl
  | mechReg m =>
    simp only [Problem.answer, interleave, List.mem_flatten] at hx
    obtain ⟨l, ⟨l', hl', hl⟩, hx⟩ := hx
    obtain ⟨k, hk⟩ := List.mem_iff_getElem?.1 hl'
    rw [List.getElem?_zipWith_eq_some] at hk
    obtain ⟨a, b, ha, hb, rfl⟩ := hk
    rw [List.getElem?_mapIdx] at ha hb
    simp only [List.mem_cons, List.not_mem_nil, or_false] at hl
    rcases hl with rfl | rfl
    · obtain ⟨w, -, rfl⟩ := Option.map_eq_some_iff.1 ha
      obtain ⟨i, hi, rfl⟩ := List.mem_mapIdx.1 hx; rfl
    · obtain ⟨w, -, rfl⟩ := Option.map_eq_some_iff.1 hb
      obtain ⟨i, hi, rfl⟩ := List.mem_mapIdx.1 hx; rfl
  | thermP1 m => cases hp
  | thermReg m => cases hp

theorem failSolver_therm {c : ℝ} {cs : List Problem} {p : Problem} (hp : p.IsTherm) :
    ∀ x ∈ p.answer (failSolver c cs p), x = if cs.length = 3 then c else 0 := by
  intro x hx
  cases p with
  | mechP1 m => cases hp
  | mechReg m => cases hp
  | thermP1 m => obtain ⟨i, hi, rfl⟩ := List.mem_mapIdx.1 hx; rfl
  | thermReg m => obtain ⟨i, hi, rfl⟩ := List.mem_mapIdx.1 hx; rfl

/-- the first failing run of the example -/
theorem failSolver_run (c : ℝ) (it : SetIter) : ∃ (s s' : Sim) (e : PyErr) (p q : Problem) (last : Step),
    Sim.new (failSolver c) it exampleDomain exampleParams (fun t => .ok (t ^ 2)) (fun t x y => .ok [t + x, y]) = .ok s ∧
    s.run (failSolver c) 1 = (.error e, s') ∧ s.calls.length = 2 ∧ p.IsMech ∧ q.IsTherm ∧ s'.calls = s.calls ++ [p, q] ∧
    s'.steps.getLast? = some last ∧ (∀ x ∈ last.yData.data, x = 0) ∧ last.yData.data ≠ [] ∧
    q.answer (failSolver c (s.calls ++ [p]) q) = s'.therm.theta.data ∧
    (∀ x ∈ s'.therm.theta.data, x = c) ∧ s'.therm.theta.data ≠ [] := by
  have S := exampleSetup
  obtain ⟨s, hnew⟩ := Sim.new_ok (it := it) (solver := failSolver c) (ext := fun t => .ok (t ^ 2))
    (traction := fun t x y => .ok [t + x, y]) S (by norm_num [exampleParams]) (fun _ _ _ _ _ _ _ => failSolver_err.2 (by simp))
    (fun _ _ _ _ _ _ _ => failSolver_err.2 (by simp)) (fun _ _ _ => ⟨_, rfl, by simp⟩) (fun _ => ⟨_, le_refl _, by simp⟩)
  obtain ⟨m, t, step0, step1, r1, r2, w, cr⟩ := Sim.of_new S hnew
  have hs : s.Reachable (failSolver c) exampleDomain exampleParams _ _ := .new S hnew
  have cx := cr.context S w
  have hcalls : s.calls = [m.problem, t.problem] := by rw [cr.eq]
  have hlast : s.steps.getLast? = some step1 := by rw [Sim.steps, cr.eq, cr.steps]; rfl
  obtain ⟨Sh, ⟨n, U⟩, F⟩ := S.simShape cr.grid cr.refined cr.mech
  obtain ⟨a1, a2, -, -, -, a6, -⟩ := mechanicalStep_facts U F cr.mech
  have w1 := a1.load (failSolver c [] m.problem)
  obtain ⟨c1, c2, -⟩ := thermalStep_cases U F a1.prevY.2 w1.1.y.2 a1.prevTheta.2 cr.therm
  have w2 := c1.load (failSolver c [m.problem] t.problem)
  have hy : s.therm.y.data = m.problem.answer (failSolver c [] m.problem) := by
    rw [cr.eq]
    show (t.load _).y.data = _
    rw [w2.2.2.1, c2.y]; exact w1.2.2.2.1
  have hth : s.therm.theta.data = t.problem.answer (failSolver c [m.problem] t.problem) := by
    rw [cr.eq]; exact w2.2.2.2.2.1
  have h0 : ∀ x ∈ s.therm.theta.data, 0 ≤ x := by
    rw [hth]
    intro x hx
    rw [failSolver_therm t.problem_isTherm x hx]; simp
  rcases hr : runSingleStep (failSolver c) s with ⟨res, s'⟩
  have h' : s.run (failSolver c) 1 = (res, s') := by
    rw [Sim.run, if_neg (by norm_num), if_pos rfl]; exact hr
  rcases runSingle_posed cx h0 (fun _ => exampleBoundary) hr with ⟨p, -, -, h1, -⟩ | ⟨p, q, hp, hq, h1, -, h2⟩
  · exact absurd (failSolver_err.2 (by simp [hcalls])) h1
  have hne : res ≠ .ok () := by
    intro h
    have := failSolver_err.1 (h2.1 h)
    simp [hcalls] at this
  rcases res with e | ⟨⟩
  swap
  · exact absurd rfl hne
  have hst := (C67_failed_step hs h').1
  have hth' : s'.therm.theta.data = q.answer (failSolver c (s.calls ++ [p]) q) := by
    have T := runSingle_trace (failSolver c) cx.wf
    rw [hr] at T
    simp only at T
    cases T with
    | early upd calls => rw [calls] at h1; simp at h1
    | mech m ready calls => rw [calls] at h1; simp at h1
    | between m ready calls => rw [calls] at h1; simp at h1
    | therm m t ready calls err err' y theta =>
      rw [calls] at h1
      simp only [List.append_cancel_left_eq, List.cons.injEq, and_true] at h1
      obtain ⟨rfl, rfl⟩ := h1
      exact theta
  have wf' := cx.single (solver := failSolver c)
  rw [hr] at wf'
  have hsh := (mechanicalStep_facts U F cr.mech).2.2.2.2.2.1 rfl
  refine ⟨s, s', e, p, q, step1, hnew, h', by simp [hcalls], hp, hq, h1, by rw [hst]; exact hlast, ?_, ?_, hth'.symm, ?_, ?_⟩
  · rw [cr.stepY1, hy]
    intro x hx
    have := failSolver_mech m.problem_isMech x hx
    simpa using this
  · obtain ⟨h2, h3⟩ := w.therm.y
    rw [← cr.stepY1] at h2 h3
    intro h
    have := U.pos
    rw [NdArray.Ok, h, h2, hsh.2.2.1] at h3
    simp at h3
    omega
  · rw [hth']
    intro x hx
    have := failSolver_therm hq x hx
    simpa [hcalls] using this
  · obtain ⟨h2, h3⟩ := wf'.wf.therm.theta
    intro h
    have := U.pos
    rw [NdArray.Ok, h, h2, hsh.2.2.2] at h3
    simp at h3
    omega

/-- **C71** fails: a simulation whose `run(1)` fails in the thermal solve, and whose next `run(1)` succeeds but does not continue from
the last recorded step. -/
theorem C71_retry_false (it : SetIter) : ∃ (s s' s'' : Sim) (e : PyErr),
    Sim.new (failSolver 0) it exampleDomain exampleParams (fun t => .ok (t ^ 2)) (fun t x y => .ok [t + x, y]) = .ok s ∧
    s.run (failSolver 0) 1 = (.error e, s') ∧ s'.run (failSolver 0) 1 = (.ok (), s'') ∧
    ∃ r last, s''.calls[s'.calls.length]? = some r ∧ s'.steps.getLast? = some last ∧ r.IsMech ∧ r.prevY ≠ last.yData := by
  obtain ⟨s, s', e, p, q, last, hnew, h1, hc, hp, hq, hpq, hl, z, ne, -, hθ, -⟩ := failSolver_run 0 it
  have hs := Sim.Reachable.new exampleSetup hnew
  have hs' := Sim.Reachable.run (n := 1) hs
  rw [h1] at hs'
  simp only at hs'
  obtain ⟨m1, t1, c1⟩ := hs'.context
  rcases hr : runSingleStep (failSolver 0) s' with ⟨res, s''⟩
  have h' : s'.run (failSolver 0) 1 = (res, s'') := by
    rw [Sim.run, if_neg (by norm_num), if_pos rfl]; exact hr
  have len : s'.calls.length = 4 := by rw [hpq]; simp [hc]
  rcases runSingle_posed c1 (fun x hx => (hθ x hx).ge) (fun _ => exampleBoundary) hr with
    ⟨r, -, -, h2, -⟩ | ⟨r, r', hr1, hr2, h2, -, h3⟩
  · exact absurd (failSolver_err.2 (by omega)) h2
  obtain rfl : res = .ok () := h3.2 (failSolver_err.2 (by simp [len]))
  have hcall : s''.calls[s'.calls.length]? = some r := by rw [h2]; simp
  obtain ⟨-, h4, -⟩ := C71_thermal_failure hs h1 hpq (n := 1) (r := r) (by rw [h']; exact hcall)
  refine ⟨s, s', s'', e, hnew, h1, h', r, last, hcall, hl, hr1, fun heq => ?_⟩
  rw [heq] at h4
  obtain ⟨x, hx⟩ := List.exists_mem_of_ne_nil _ ne
  have e1 := z x hx
  rw [h4] at hx
  have e2 := failSolver_mech hp x hx
  rw [hc, e1] at e2
  norm_num at e2

/-- a simulation that gets stuck as in `C71_stuck` -/
example (it : SetIter) : ∃ (s s' : Sim) (e : PyErr),
    Sim.new (failSolver (-1)) it exampleDomain exampleParams (fun t => .ok (t ^ 2)) (fun t x y => .ok [t + x, y]) = .ok s ∧
    s.run (failSolver (-1)) 1 = (.error e, s') ∧
    ∀ (ns : List ℤ) (n : ℤ), ∃ s2, (ns.foldl (fun s n => (s.run (failSolver (-1)) n).2) s').run (failSolver (-1)) n =
      (.error .valueError, s2) ∧ s2.steps = s.steps ∧ s2.calls = s'.calls := by
  obtain ⟨s, s', e, p, q, last, hnew, h1, hc, hp, hq, hpq, hl, z, ne, h3, hθ, h4⟩ := failSolver_run (-1) it
  refine ⟨s, s', e, hnew, h1, C71_stuck (.new exampleSetup hnew) h1 hpq ?_⟩
  obtain ⟨x, hx⟩ := List.exists_mem_of_ne_nil _ h4
  rw [h3]
  exact ⟨x, hx, by rw [hθ x hx]; norm_num⟩

/-- a simulation to which `C71_retry_partial` applies: its next run poses a problem -/
example (it : SetIter) : ∃ (s : Sim) (p : Problem),
    s.Resumable staySolver exampleDomain exampleParams (fun t => .ok (t ^ 2)) (fun t x y => .ok [t + x, y]) ∧
    (s.run staySolver 1).2.calls[s.calls.length]? = some p := by
  obtain ⟨s, h1, h2, h3⟩ := example_run it (.inl rfl) (n := 5) (by norm_num)
  obtain ⟨-, -, hd, hc, hs, -⟩ := stay_contracts
  obtain ⟨s', hr, hh⟩ := C66_succeeds h1 hs hc hd (fun _ => exampleBoundary) (n := 1) (by norm_num)
  have e1 := C61_calls h1
  have e2 := C61_calls hh
  have e3 := C60_run h1.reachable hr
  have hlt : s.calls.length < s'.calls.length := by omega
  exact ⟨s, s'.calls[s.calls.length], .of_healthy h1, by rw [hr]; exact List.getElem?_eq_getElem hlt⟩

end Tve
