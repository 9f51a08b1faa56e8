import Verif.Lemmas.SimHistory

/-!
# Properties of simulations: C58, C60, C61, C66, C67
-/

namespace Tve
open Sim

section
variable {solver : Solver} {domain : RectDomain ℝ} {params : SimParams} {ext : ExtTemp} {traction : Traction} {s : Sim}

/-! ### helper lemmas -/

theorem around_bounds {r : ℝ} {us : List VarData} {xs zs : List ℝ} (hr : 0 ≤ r)
    (h1 : List.Forall₂ (fun (v : VarData) x => v.Around x r) us xs)
    (h2 : List.Forall₂ (fun (v : VarData) x => v.lb ≤ v.ub → v.lb ≤ x ∧ x ≤ v.ub) us zs) :
    List.Forall₂ (fun x z => |z - x| ≤ r) xs zs := by
  induction h1 generalizing zs with
  | nil => cases h2; exact .nil
  | cons a _ ih =>
    cases h2 with
    | cons b h2 =>
      refine .cons ?_ (ih h2)
      obtain ⟨-, a1, a2⟩ := a
      obtain ⟨b1, b2⟩ := b (by rw [a1, a2]; linarith)
      rw [abs_le]
      constructor <;> linarith

private theorem forall₂_trans_abs {r t : ℝ} {xs ys zs : List ℝ} (h1 : List.Forall₂ (fun x z => |z - x| ≤ r) xs ys)
    (h2 : List.Forall₂ (fun x z => |z - x| ≤ t) ys zs) : List.Forall₂ (fun x z => |z - x| ≤ r + t) xs zs := by
  induction h1 generalizing zs with
  | nil => cases h2; exact .nil
  | cons a _ ih =>
    cases h2 with
    | cons b h2 =>
      refine .cons ?_ (ih h2)
      rw [abs_le] at *
      constructor <;> linarith

theorem Sim.Context.searchRadius {m0 : MechStep} {t0 : ThermStep} (c : s.Context domain params ext traction m0 t0) :
    m0.searchRadius = params.searchRadius ∧ t0.searchRadius = params.searchRadius := by
  obtain ⟨it, hg⟩ := c.grid
  obtain ⟨Sh, ⟨n, U⟩, F⟩ := c.setup.simShape hg c.refined c.mech0
  obtain ⟨a1, -, h, -⟩ := mechanicalStep_facts U F c.mech0
  obtain ⟨y, hy, ht⟩ := c.therm0
  obtain ⟨-, -, h2, -⟩ := thermalStep_cases U F a1.prevY.2 hy a1.prevTheta.2 ht
  exact ⟨h, h2⟩

/-! ### C58 -/

/-- **C58** (one step). If the solver respects the bounds of the variables, consecutive recorded deformations and
temperatures differ by at most the search radius in every component. -/
theorem C58_step (hs : s.Healthy solver domain params ext traction) (hb : solver.RespectsBounds) {k : ℕ} {a b : Step}
    (ha : s.steps[k]? = some a) (hb' : s.steps[k + 1]? = some b) :
    List.Forall₂ (fun x z => |z - x| ≤ params.searchRadius) a.yData.data b.yData.data ∧
    List.Forall₂ (fun x z => |z - x| ≤ params.searchRadius) a.thetaData.data b.thetaData.data := by
  obtain ⟨m0, t0, c, H⟩ := hs.history
  obtain ⟨r1, r2⟩ := c.searchRadius
  obtain ⟨m, t, -, -, st1, st2, -, S⟩ := H.each k a b ha hb'
  have hr := c.setup.facts.2.1.le
  have hm := S.mech.around
  have ht := S.therm.around
  rw [MechStep.static_searchRadius st1, r1] at hm
  rw [ThermStep.static_searchRadius st2, r2] at ht
  rw [S.y, S.theta, (S.mechWF.load _).2.2.2.1, (S.thermWF.load _).2.2.2.2.1]
  exact ⟨around_bounds hr hm (hb _ _ S.mechOk), around_bounds hr ht (hb _ _ S.thermOk)⟩

/-- **C58** (many steps). `k` steps change every component of deformation and temperature by at most `k` search radii. -/
theorem C58_steps (hs : s.Healthy solver domain params ext traction) (hb : solver.RespectsBounds) {i k : ℕ} {a b : Step}
    (ha : s.steps[i]? = some a) (hb' : s.steps[i + k]? = some b) :
    List.Forall₂ (fun x z => |z - x| ≤ k * params.searchRadius) a.yData.data b.yData.data ∧
    List.Forall₂ (fun x z => |z - x| ≤ k * params.searchRadius) a.thetaData.data b.thetaData.data := by
  induction k generalizing b with
  | zero =>
    rw [add_zero, ha] at hb'
    cases hb'
    have : ∀ l : List ℝ, List.Forall₂ (fun x z => |z - x| ≤ ((0 : ℕ) : ℝ) * params.searchRadius) l l :=
      fun l => List.forall₂_same.2 fun x _ => by simp
    exact ⟨this _, this _⟩
  | succ k ih =>
    have hlt : i + k < s.steps.length := by
      have := (List.getElem?_eq_some_iff.1 hb').1; omega
    obtain ⟨h1, h2⟩ := ih (b := s.steps[i + k]) (List.getElem?_eq_getElem hlt)
    obtain ⟨h3, h4⟩ := C58_step hs hb (List.getElem?_eq_getElem hlt) hb'
    rw [show ((k + 1 : ℕ) : ℝ) * params.searchRadius = k * params.searchRadius + params.searchRadius by push_cast; ring]
    exact ⟨forall₂_trans_abs h1 h3, forall₂_trans_abs h2 h4⟩

/-! ### C60 -/

/-- **C60** (construction). A new simulation has two recorded steps. -/
theorem C60_new {it : SetIter} (S : Setup domain params) (h : Sim.new solver it domain params ext traction = .ok s) :
    s.steps.length = 2 := by
  obtain ⟨m, t, step0, step1, r1, r2, -, c⟩ := Sim.of_new S h
  rw [Sim.steps, c.eq, c.steps]; rfl

private theorem runSingle_length {m0 : MechStep} {t0 : ThermStep} (c : s.Context domain params ext traction m0 t0) {s' : Sim}
    (h : runSingleStep solver s = (.ok (), s')) : s'.steps.length = s.steps.length + 1 := by
  rcases runSingle_any solver c.wf with ⟨m, t, step, r, s1, h1, w, h2⟩ | ⟨e, s1, h1, -⟩
  · rw [h1] at h
    obtain rfl : s1 = s' := (Prod.mk.inj h).2
    rw [Sim.steps, h2.eq, h2.steps, List.length_append]; rfl
  · rw [h1] at h; cases h

/-- **C60** (number of steps). `run(n)` adds exactly `n` steps, whatever happened before. -/
theorem C60_run (hs : s.Reachable solver domain params ext traction) {n : ℤ} {s' : Sim} (h : s.run solver n = (.ok (), s')) :
    (s'.steps.length : ℤ) = s.steps.length + n := by
  obtain ⟨m0, t0, c⟩ := hs.context
  have key : ∀ (l : List ℕ) (s s' : Sim), s.Context domain params ext traction m0 t0 →
      PyS.forEach l (fun _ => runSingleStep solver) s = (.ok (), s') → s'.steps.length = s.steps.length + l.length := by
    intro l
    induction l with
    | nil => intro s s' _ h; cases h; rfl
    | cons a l ih =>
      intro s s' c h
      rw [PyS.forEach_cons, PyS.bind_apply] at h
      rcases h1 : runSingleStep solver s with ⟨_ | _, s1⟩
      · rw [h1] at h; cases h
      · rw [h1] at h
        have c1 := c.single (solver := solver)
        rw [h1] at c1
        rw [ih s1 s' c1 h, runSingle_length c h1, List.length_cons]; omega
  unfold Sim.run at h
  split_ifs at h with h0 h1
  · cases h
  · rw [runSingle_length c h, h1]; push_cast; rfl
  · rw [key _ _ _ c h, List.length_range]; push_cast; omega

/-- **C60** (time stamps). The problems solved for the `k`-th recorded step, `k ≥ 1`, contain the boundary traction and
the external temperature at time `(k - 1) / fps`. -/
theorem C60_time (hs : s.Healthy solver domain params ext traction) (hreg : params.regularization = none) {k : ℕ}
    (hk : 1 ≤ k) (hlt : k < s.steps.length) :
    ∃ p q, s.calls[2 * (k - 1)]? = some p ∧ s.calls[2 * (k - 1) + 1]? = some q ∧ p.IsMech ∧ q.IsTherm ∧
    (∀ v ∈ s.grid.neumann.vertices, ∃ z l a b, s.grid.At v z ∧ traction ((k - 1 : ℝ) / params.fps) z.1 z.2 = .ok l ∧
      l[0]? = some a ∧ l[1]? = some b ∧ p.tractionAt v = some (a, b)) ∧
    ∃ x, ext ((k - 1 : ℝ) / params.fps) = .ok x ∧ q.extTemp = some x := by
  obtain ⟨m0, t0, c, H⟩ := hs.history
  obtain ⟨k, rfl⟩ : ∃ j, k = j + 1 := ⟨k - 1, by omega⟩
  obtain ⟨m, t, h1, h2, st1, st2, -, S⟩ := H.each k _ _ (List.getElem?_eq_getElem (by omega)) (List.getElem?_eq_getElem hlt)
  obtain ⟨it, hg⟩ := c.grid
  obtain ⟨Sh, ⟨n, U⟩, F⟩ := c.setup.simShape hg c.refined c.mech0
  obtain ⟨a1, -, -, b1, -, b2, -⟩ := mechanicalStep_facts U F c.mech0
  obtain ⟨y, hy, ht⟩ := c.therm0
  obtain ⟨-, -, -, -, -, b3, -⟩ := thermalStep_cases U F a1.prevY.2 hy a1.prevTheta.2 ht
  have e : ((k + 1 : ℕ) : ℝ) - 1 = k := by push_cast; ring
  rw [e]
  refine ⟨m.problem, t.problem, by simpa using h1, by simpa using h2, m.problem_isMech, t.problem_isTherm, ?_, ?_⟩
  · intro v hv
    have := S.mech.traction traction (by rw [MechStep.static_traction st1]; exact (b2 hreg).1) v
      (by rw [MechStep.static_grid st1, b1]; exact hv)
    rw [MechStep.static_grid st1, b1] at this
    rw [MechStep.problem_tractionAt]
    exact this
  · obtain ⟨x, -, hx, hx'⟩ := S.therm.ext ext (by rw [ThermStep.static_ext st2]; exact (b3 hreg).1)
    exact ⟨x, hx, by rw [ThermStep.problem_extTemp]; exact hx'⟩

/-! ### C61 -/

/-- **C61**. Every recorded step is computed from its predecessor only: the mechanical problem has the deformation of the
predecessor as previous deformation and as starting guess, its temperature as previous temperature; the thermal problem has the
deformation of the predecessor, the new deformation, and the temperature of the predecessor; the new step records the answers
of the solver to these two problems. All problems live on the grid of the simulation, with its number of steps per unit of
time. -/
theorem C61_staggered (hs : s.Healthy solver domain params ext traction) {k : ℕ} {a b : Step}
    (ha : s.steps[k]? = some a) (hb : s.steps[k + 1]? = some b) :
    ∃ p q, s.calls[2 * k]? = some p ∧ s.calls[2 * k + 1]? = some q ∧
    p.IsMech ∧ p.prevY = a.yData ∧ p.y = a.yData ∧ p.prevTheta = a.thetaData ∧
    q.IsTherm ∧ q.prevY = a.yData ∧ q.y = b.yData ∧ q.prevTheta = a.thetaData ∧
    b.yData.data = p.answer (solver (s.calls.take (2 * k)) p) ∧
    b.thetaData.data = q.answer (solver (s.calls.take (2 * k + 1)) q) ∧
    p.grid = s.grid ∧ q.grid = s.grid ∧ p.fps = params.fps ∧ q.fps = params.fps := by
  obtain ⟨m0, t0, c, H⟩ := hs.history
  obtain ⟨m, t, h1, h2, st1, st2, -, S⟩ := H.each k a b ha hb
  obtain ⟨it, hg⟩ := c.grid
  obtain ⟨Sh, ⟨n, U⟩, F⟩ := c.setup.simShape hg c.refined c.mech0
  obtain ⟨a1, -, -, b1, b2, -⟩ := mechanicalStep_facts U F c.mech0
  obtain ⟨y, hy, ht⟩ := c.therm0
  obtain ⟨-, -, -, b3, b4, -⟩ := thermalStep_cases U F a1.prevY.2 hy a1.prevTheta.2 ht
  have htk : s.calls.take (2 * k + 1) = s.calls.take (2 * k) ++ [m.problem] := by
    rw [List.take_add_one, h1]; rfl
  refine ⟨m.problem, t.problem, h1, h2, m.problem_isMech, ?_, ?_, ?_, t.problem_isTherm, ?_, ?_, ?_, ?_, ?_, ?_, ?_, ?_, ?_⟩
  · rw [MechStep.problem_prevY]; exact S.mech.prevY
  · rw [MechStep.problem_y]; exact S.mech.y
  · rw [MechStep.problem_prevTheta]; exact S.mech.prevTheta
  · rw [ThermStep.problem_prevY]; exact S.therm.prevY
  · rw [ThermStep.problem_y]; exact S.therm.y
  · rw [ThermStep.problem_prevTheta]; exact S.therm.prevTheta
  · rw [S.y]; exact (S.mechWF.load _).2.2.2.1
  · rw [htk, S.theta]; exact (S.thermWF.load _).2.2.2.2.1
  · rw [MechStep.problem_grid, MechStep.static_grid st1, b1]
  · rw [ThermStep.static_grid st2, b3]
  · rw [MechStep.static_fps st1, b2]; rfl
  · rw [ThermStep.static_fps st2, b4]; rfl

/-- **C61** (nothing else is solved): two problems per recorded step after the first. -/
theorem C61_calls (hs : s.Healthy solver domain params ext traction) : s.calls.length = 2 * (s.steps.length - 1) := by
  obtain ⟨m0, t0, c, H⟩ := hs.history
  have := H.calls
  omega

/-! ### C66 and C67 -/

/-- **C66** (validation). A nonpositive number of steps raises `ValueError` and changes nothing. -/
theorem C66_invalid {n : ℤ} (h : n ≤ 0) (s : Sim) : s.run solver n = (.error .valueError, s) := by
  rw [Sim.run, if_pos h]; rfl

private theorem run_forEach {n : ℤ} (h : 0 < n) :
    Sim.run solver n = PyS.forEach (List.replicate n.toNat ()) fun _ => runSingleStep solver := by
  have key : ∀ l : List ℕ, PyS.forEach l (fun _ => runSingleStep solver) =
      PyS.forEach (List.replicate l.length ()) fun _ => runSingleStep solver := by
    intro l
    induction l with
    | nil => rfl
    | cons a l ih => rw [List.length_cons, List.replicate_succ]; simp only [PyS.forEach]; rw [ih]
  funext s
  rw [Sim.run, if_neg (by omega)]
  split_ifs with h1
  · subst h1
    simp only [Int.toNat_one, List.replicate_one, PyS.forEach, PyS.bind, PyS.pure]
    rcases runSingleStep solver s with ⟨_ | ⟨⟨⟩⟩, s1⟩ <;> rfl
  · rw [key, List.length_range]

/-- **C66** (composition). `run(a)` followed by `run(b)` is the same as `run(a + b)`, also if some step raises. -/
theorem C66_compose {a b : ℤ} (ha : 0 < a) (hb : 0 < b) (s : Sim) :
    s.run solver (a + b) =
      match s.run solver a with
      | (.ok _, s') => s'.run solver b
      | (.error e, s') => (.error e, s') := by
  rw [run_forEach ha, run_forEach hb, run_forEach (by omega), Int.toNat_add ha.le hb.le, ← List.replicate_append_replicate]
  generalize List.replicate a.toNat () = l
  induction l generalizing s with
  | nil => rfl
  | cons x l ih =>
    rw [List.cons_append]
    simp only [PyS.forEach, PyS.bind]
    rcases runSingleStep solver s with ⟨_ | ⟨⟨⟩⟩, s1⟩
    · rfl
    · exact ih s1

/-- **C66** and **C67** (recorded steps are permanent). A call of `run`, successful or not, keeps all recorded steps: they
are an initial part of the steps afterwards. -/
theorem C66_prefix (hs : s.Reachable solver domain params ext traction) (n : ℤ) : s.steps <+: (s.run solver n).2.steps := by
  obtain ⟨m0, t0, c⟩ := hs.context
  refine (Sim.run_inv (fun s' => s'.Context domain params ext traction m0 t0 ∧ s.steps <+: s'.steps) ?_
    ⟨c, List.prefix_refl _⟩).2
  rintro s1 ⟨c1, h1⟩
  refine ⟨c1.single, ?_⟩
  rcases runSingle_any solver c1.wf with ⟨m, t, step, r, s2, h2, w, h3⟩ | ⟨e, s2, h2, w, h3⟩
  · have e : s2.steps = s1.steps ++ [step] := by rw [Sim.steps, h3.eq, h3.steps]; rfl
    simp only [h2, e]
    exact h1.trans (List.prefix_append _ _)
  · have e : s2.steps = s1.steps := by rw [Sim.steps, h3.record]; rfl
    simp only [h2, e]
    exact h1

/-- **C67** (one step). If a step raises, whatever the cause, then the recorded steps, the time, the largest temperature
and the axis limits are exactly those before the step: nothing is recorded partially. -/
theorem C67_failed_step (hs : s.Reachable solver domain params ext traction) {e : PyErr} {s' : Sim}
    (h : s.run solver 1 = (.error e, s')) : s'.steps = s.steps ∧ s'.record = s.record := by
  obtain ⟨m0, t0, c⟩ := hs.context
  have h' : runSingleStep solver s = (.error e, s') := by
    rw [Sim.run, if_neg (by norm_num), if_pos rfl] at h; exact h
  rcases runSingle_any solver c.wf with ⟨m, t, step, r, s2, h2, w, h3⟩ | ⟨e', s2, h2, w, h3⟩
  · rw [h2] at h'; cases h'
  · rw [h2] at h'
    obtain rfl : s2 = s' := (Prod.mk.inj h').2
    exact ⟨by rw [Sim.steps, h3.record]; rfl, h3.record⟩

/-- **C67** (several steps). If `run(n)` raises, then it has completed some number `j < n` of steps: the record is exactly that
after a successful `run(j)`. -/
theorem C67_failed_run (hs : s.Reachable solver domain params ext traction) {n : ℤ} (hn : 0 < n) {e : PyErr} {s' : Sim}
    (h : s.run solver n = (.error e, s')) :
    (s'.record = s.record) ∨ ∃ j s1, 0 < j ∧ j < n ∧ s.run solver j = (.ok (), s1) ∧ s'.record = s1.record := by
  obtain ⟨m0, t0, c⟩ := hs.context
  have key : ∀ (k : ℕ) (s s' : Sim), s.Context domain params ext traction m0 t0 →
      PyS.forEach (List.replicate k ()) (fun _ => runSingleStep solver) s = (.error e, s') →
      ∃ j s1, j < k ∧ PyS.forEach (List.replicate j ()) (fun _ => runSingleStep solver) s = (.ok (), s1) ∧
        s'.record = s1.record := by
    intro k
    induction k with
    | zero => intro s s' _ h; cases h
    | succ k ih =>
      intro s s' c h
      rw [List.replicate_succ, PyS.forEach_cons, PyS.bind_apply] at h
      rcases runSingle_any solver c.wf with ⟨m, t, step, r, s2, h2, w, h3⟩ | ⟨e', s2, h2, w, h3⟩
      · rw [h2] at h
        have c1 := c.single (solver := solver)
        rw [h2] at c1
        obtain ⟨j, s1, hj, hr, hrec⟩ := ih s2 s' c1 h
        refine ⟨j + 1, s1, by omega, ?_, hrec⟩
        rw [List.replicate_succ, PyS.forEach_cons, PyS.bind_apply, h2]
        exact hr
      · rw [h2] at h
        obtain rfl : s2 = s' := (Prod.mk.inj h).2
        exact ⟨0, s, by omega, rfl, h3.record⟩
  rw [run_forEach hn] at h
  obtain ⟨j, s1, hj, hr, hrec⟩ := key _ _ _ c h
  rcases Nat.eq_zero_or_pos j with rfl | hj0
  · left
    cases hr
    exact hrec
  · right
    refine ⟨j, s1, by omega, by omega, ?_, hrec⟩
    rw [run_forEach (by omega), Int.toNat_natCast]
    exact hr

end

end Tve
