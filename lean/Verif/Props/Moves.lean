import Verif.Spec.Moves
import Verif.Props.Posed
import Verif.Props.Descent
import Verif.Props.Simulation
import Verif.Lemmas.Endures
import Verif.Props.Threshold

/-!
# C116: moves and changes of temperature are bounded, also after failures
-/

namespace Tve

theorem NdArray.Within.mono {r t : ℝ} {a b : NdArray} (h : a.Within r b) (hr : r ≤ t) : a.Within t b :=
  h.imp fun _ _ h => h.trans hr

theorem NdArray.Within.trans {r t : ℝ} {a b c : NdArray} (h1 : a.Within r b) (h2 : b.Within t c) : a.Within (r + t) c := by
  obtain ⟨_, xs⟩ := a
  obtain ⟨_, ys⟩ := b
  obtain ⟨_, zs⟩ := c
  simp only [NdArray.Within] at *
  induction h1 generalizing zs with
  | nil => cases h2; exact .nil
  | cons a _ ih =>
    cases h2 with
    | cons b h2 =>
      refine .cons ?_ (ih _ h2)
      rw [abs_le] at *
      constructor <;> linarith

theorem NdArray.Within.self (a : NdArray) {r : ℝ} (hr : 0 ≤ r) : a.Within r a :=
  List.forall₂_same.2 fun x _ => by simpa using hr

section
variable {solver : Solver} {domain : RectDomain ℝ} {params : SimParams} {ext : ExtTemp} {traction : Traction} {s : Sim}

open Classical in
theorem Sim.mechanicalBetween_append {s s' : Sim} {l : List Problem} (h : s'.calls = s.calls ++ l) {i : ℕ} (hi : i ≤ s.calls.length) :
    s'.mechanicalBetween i s'.calls.length = s.mechanicalBetween i s.calls.length + l.countP (fun p => decide p.IsMech) := by
  rw [mechanicalBetween, mechanicalBetween, List.take_length, List.take_length, h, List.drop_append_of_le_length hi, List.countP_append]

theorem Sim.mechanicalBetween_prefix {s s' : Sim} {l : List Problem} (h : s'.calls = s.calls ++ l) {i j : ℕ} (hj : j ≤ s.calls.length) :
    s'.mechanicalBetween i j = s.mechanicalBetween i j := by
  rw [mechanicalBetween, mechanicalBetween, h, List.take_append_of_le_length hj]

open Classical in
/-- the deformation in the thermal step moves by at most the search radius for each mechanical problem posed in a single step -/
theorem Sim.single_moves {m0 : MechStep} {t0 : ThermStep} (c : s.Context domain params ext traction m0 t0)
    (hb : solver.RespectsBounds) : ∃ l, (Sim.runSingleStep solver s).2.calls = s.calls ++ l ∧
    s.therm.y.Within (l.countP (fun p => decide p.IsMech) * params.searchRadius) (Sim.runSingleStep solver s).2.therm.y ∧
    ((Sim.runSingleStep solver s).2.steps = s.steps ∨ ∃ step m t, (Sim.runSingleStep solver s).2.steps = s.steps ++ [step] ∧
      step.yData = (Sim.runSingleStep solver s).2.therm.y ∧
      Sim.MadeFrom solver m0 t0 (Sim.runSingleStep solver s).2.calls step s.record.currentTime s.calls.length m t s.therm.y s.therm.theta ∧
      l = [m.problem, t.problem]) := by
  have hr := c.setup.facts.2.1.le
  obtain ⟨r1, -⟩ := c.searchRadius
  have key : ∀ m : MechStep, m.WF m0.yShape m0.thetaShape → m.static = m0.static →
      MechReady m s.therm.y s.therm.theta s.record.currentTime → (solver s.calls m.problem).err = none →
      s.therm.y.Within params.searchRadius (m.load (solver s.calls m.problem)).y := by
    intro m w st rd ok
    have hm := rd.around
    rw [MechStep.static_searchRadius st, r1] at hm
    rw [NdArray.Within, (w.load _).2.2.2.1]
    exact around_bounds hr hm (hb _ _ ok)
  obtain ⟨l, hl, -⟩ := Sim.runSingle_posed solver (P := fun _ => True) c.wf c.mech c.therm c.fixed trivial
    (fun _ _ _ _ _ _ _ _ _ _ _ => trivial)
  rcases Sim.runSingle_any solver c.wf with ⟨m, t, step, r, s', e1, w, h⟩ | ⟨e, s', e1, w, h⟩
  · simp only [e1] at hl ⊢
    have hrec : s'.record = r := by rw [h.eq]
    have M := h.madeFrom c
    have hcalls : s'.calls = s.calls ++ [m.problem, t.problem] := by rw [h.eq]
    have hy : s'.therm.y = (m.load (solver s.calls m.problem)).y := by
      rw [h.eq]
      show (t.load _).y = _
      rw [(h.thermWF.load _).2.2.1, h.thermReady.y]
    refine ⟨_, hcalls, ?_, .inr ⟨step, m, t, ?_, h.stepY, M, rfl⟩⟩
    · rw [hy]
      refine (key m M.mechWF (M.mechStatic) M.mech h.mechOk).mono ?_
      have : 1 ≤ [m.problem, t.problem].countP (fun p => decide p.IsMech) :=
        List.one_le_countP_iff.2 ⟨m.problem, by simp, by simpa using m.problem_isMech⟩
      have : (1 : ℝ) ≤ ([m.problem, t.problem].countP (fun p => decide p.IsMech) : ℕ) := by exact_mod_cast this
      nlinarith
    · rw [Sim.steps, hrec, h.steps]; rfl
  · have hp := Sim.runSingle_answered c.wf e1
    simp only [e1] at hl ⊢
    have hst : s'.steps = s.steps := by rw [Sim.steps, h.record]; rfl
    rcases hp with hp | ⟨m, a1, a2, a3, a4, a5, ⟨l', a6⟩, a7⟩
    · exact ⟨l, hl, by rw [hp]; exact .self _ (by positivity), .inl hst⟩
    · refine ⟨_, a6, ?_, .inl hst⟩
      rw [a7]
      refine (key m a1 (a2.trans c.mech) a4 a5).mono ?_
      have : 1 ≤ (m.problem :: l').countP (fun p => decide p.IsMech) :=
        List.one_le_countP_iff.2 ⟨m.problem, by simp, by simpa using m.problem_isMech⟩
      have : (1 : ℝ) ≤ ((m.problem :: l').countP (fun p => decide p.IsMech) : ℕ) := by exact_mod_cast this
      nlinarith

/-- the invariant behind C116 -/
def Sim.MovesInv (solver : Solver) (params : SimParams) (s : Sim) : Prop :=
  ∃ pos, s.RecordedAt solver pos ∧
    (∀ (k : ℕ) a, s.steps[k]? = some a →
      a.yData.Within (s.mechanicalBetween (pos k) s.calls.length * params.searchRadius) s.therm.y) ∧
    ∀ (k l : ℕ) (a b : Step), k ≤ l → s.steps[k]? = some a → s.steps[l]? = some b →
      a.yData.Within (s.mechanicalBetween (pos k) (pos l) * params.searchRadius) b.yData

theorem Sim.RecordedAt.grow {s' : Sim} {pos : ℕ → ℕ} (h : s.RecordedAt solver pos) {l : List Problem}
    (hc : s'.calls = s.calls ++ l) (hst : s'.steps = s.steps) : s'.RecordedAt solver pos := by
  refine ⟨h.initial, fun k hk => ?_, fun k b hb => ?_⟩
  · have := h.le k (by rwa [hst] at hk)
    rw [hc, List.length_append]; omega
  · rw [hst] at hb
    obtain ⟨i, p, q, h1, h1', h2, h3, h4, h5, h6, h7⟩ := h.later k b hb
    have hi : i + 1 < s.calls.length := (List.getElem?_eq_some_iff.1 h3).1
    refine ⟨i, p, q, h1, h1', ?_, ?_, h4, h5, ?_, ?_⟩
    · rw [hc, List.getElem?_append_left (by omega)]; exact h2
    · rw [hc, List.getElem?_append_left (by omega)]; exact h3
    · rw [hc, List.take_append_of_le_length (by omega)]; exact h6
    · rw [hc, List.take_append_of_le_length (by omega)]; exact h7

theorem Sim.MovesInv.single (hs : s.Reachable solver domain params ext traction) (hb : solver.RespectsBounds)
    (h : s.MovesInv solver params) : (Sim.runSingleStep solver s).2.MovesInv solver params := by
  classical
  obtain ⟨m0, t0, c, -⟩ := hs.attempts
  have hr := c.setup.facts.2.1.le
  obtain ⟨l, hc, hm, hcase⟩ := Sim.single_moves c hb
  generalize (Sim.runSingleStep solver s).2 = s' at *
  obtain ⟨pos, h1, h2, h3⟩ := h
  have far : ∀ (k : ℕ) a, s.steps[k]? = some a →
      a.yData.Within (s'.mechanicalBetween (pos k) s'.calls.length * params.searchRadius) s'.therm.y := by
    intro k a ha
    have hk := (List.getElem?_eq_some_iff.1 ha).1
    refine ((h2 k a ha).trans hm).mono ?_
    rw [Sim.mechanicalBetween_append hc (h1.le k hk)]
    push_cast
    linarith
  have old : ∀ (k l : ℕ) (a b : Step), k ≤ l → s.steps[k]? = some a → s.steps[l]? = some b →
      a.yData.Within (s'.mechanicalBetween (pos k) (pos l) * params.searchRadius) b.yData := by
    intro k l a b hkl ha hb
    rw [Sim.mechanicalBetween_prefix hc (h1.le l (List.getElem?_eq_some_iff.1 hb).1)]
    exact h3 k l a b hkl ha hb
  rcases hcase with hst | ⟨step, m, t, hst, hy, M, rfl⟩
  · exact ⟨pos, h1.grow hc hst, by rw [hst]; exact far, by rw [hst]; exact old⟩
  · have hlen : s'.steps.length = s.steps.length + 1 := by rw [hst]; simp
    have hpos : 0 < s.steps.length := by
      obtain ⟨last, l1, -⟩ := c.first
      exact (List.getElem?_eq_some_iff.1 l1).1
    have hcl : s'.calls.length = s.calls.length + 2 := by rw [hc]; simp
    have hsp : ∀ k < s.steps.length, s'.steps[k]? = s.steps[k]? := fun k hk => by rw [hst, List.getElem?_append_left hk]
    have hnew : s'.steps[s.steps.length]? = some step := by rw [hst]; simp
    have hval : ∀ k < s.steps.length, Function.update pos s.steps.length s'.calls.length k = pos k := fun k hk =>
      Function.update_of_ne (by omega) _ _
    have hval' : Function.update pos s.steps.length s'.calls.length s.steps.length = s'.calls.length := Function.update_self ..
    refine ⟨Function.update pos s.steps.length s'.calls.length, ⟨?_, fun k hk => ?_, fun k b hb => ?_⟩, fun k a ha => ?_,
      fun k l a b hkl ha hb => ?_⟩
    · rw [hval _ hpos]; exact h1.initial
    · rcases Nat.lt_or_ge k s.steps.length with h | h
      · rw [hval k h]; have := h1.le k h; omega
      · rw [show k = s.steps.length by omega, hval']
    · rcases Nat.lt_or_ge (k + 1) s.steps.length with h | h
      · rw [hsp _ h] at hb
        obtain ⟨i, p, q, g1, g1', g2, g3, g4, g5, g6, g7⟩ := h1.later k b hb
        have hi : i + 1 < s.calls.length := (List.getElem?_eq_some_iff.1 g3).1
        refine ⟨i, p, q, by rw [hval _ h]; exact g1, by rw [hval _ (by omega)]; exact g1', ?_, ?_, g4, g5, ?_, ?_⟩
        · rw [hc, List.getElem?_append_left (by omega)]; exact g2
        · rw [hc, List.getElem?_append_left (by omega)]; exact g3
        · rw [hc, List.take_append_of_le_length (by omega)]; exact g6
        · rw [hc, List.take_append_of_le_length (by omega)]; exact g7
      · have hlt := (List.getElem?_eq_some_iff.1 hb).1
        have hk : k + 1 = s.steps.length := by omega
        rw [hk, hnew] at hb
        cases hb
        refine ⟨s.calls.length, m.problem, t.problem, by rw [hk, hval']; exact hcl, ?_, M.mechCall, M.thermCall,
          m.problem_isMech, t.problem_isTherm, ?_, ?_⟩
        · rw [hval _ (by omega)]; exact h1.le k (by omega)
        · rw [M.y]; exact (M.mechWF.load _).2.2.2.1
        · rw [M.theta]; exact (M.thermWF.load _).2.2.2.2.1
    · have hk := (List.getElem?_eq_some_iff.1 ha).1
      rcases Nat.lt_or_ge k s.steps.length with h | h
      · rw [hsp _ h] at ha
        rw [hval _ h]
        exact far k a ha
      · rw [show k = s.steps.length by omega, hnew] at ha
        cases ha
        rw [hy]
        exact .self _ (by positivity)
    · have hl := (List.getElem?_eq_some_iff.1 hb).1
      rcases Nat.lt_or_ge l s.steps.length with h | h
      · rw [hsp _ (by omega)] at ha hb
        rw [hval _ h, hval _ (by omega)]
        exact old k l a b hkl ha hb
      · rw [show l = s.steps.length by omega, hnew] at hb
        cases hb
        rw [show l = s.steps.length by omega, hval']
        rcases Nat.lt_or_ge k s.steps.length with h' | h'
        · rw [hsp _ h'] at ha
          rw [hval _ h', hy]
          exact far k a ha
        · rw [show k = s.steps.length by omega, hnew] at ha
          cases ha
          exact .self _ (by positivity)

theorem Sim.History.between {m0 : MechStep} {t0 : ThermStep} (H : s.History solver params m0 t0) {k l : ℕ} (hkl : k ≤ l)
    (hl : l < s.steps.length) : l - k ≤ s.mechanicalBetween (2 * k) (2 * l) := by
  classical
  induction l, hkl using Nat.le_induction with
  | base => simp
  | succ l hkl ih =>
    have ih := ih (by omega)
    obtain ⟨m, t, e1, e2, -⟩ := H.each l _ _ (List.getElem?_eq_getElem (by omega)) (List.getElem?_eq_getElem hl)
    have htk : s.calls.take (2 * (l + 1)) = s.calls.take (2 * l) ++ [m.problem, t.problem] := by
      rw [show 2 * (l + 1) = 2 * l + 1 + 1 by ring, List.take_add_one, List.take_add_one, e1, e2]
      simp
    have hlen : 2 * l ≤ s.calls.length := by have := (List.getElem?_eq_some_iff.1 e1).1; omega
    have : 1 ≤ [m.problem, t.problem].countP (fun p => decide p.IsMech) :=
      List.one_le_countP_iff.2 ⟨m.problem, by simp, by simpa using m.problem_isMech⟩
    rw [Sim.mechanicalBetween, htk, List.drop_append_of_le_length (by rw [List.length_take]; omega), List.countP_append]
    rw [Sim.mechanicalBetween] at ih
    omega

theorem Sim.MovesInv.healthy (hs : s.Healthy solver domain params ext traction) (hb : solver.RespectsBounds) :
    s.MovesInv solver params := by
  obtain ⟨m0, t0, c, H⟩ := hs.history
  have hr := c.setup.facts.2.1.le
  have hc := H.calls
  have pair : ∀ (k l : ℕ) (a b : Step), k ≤ l → s.steps[k]? = some a → s.steps[l]? = some b →
      a.yData.Within (s.mechanicalBetween (2 * k) (2 * l) * params.searchRadius) b.yData := by
    intro k l a b hkl ha hb'
    have h1 := (C58_steps hs hb (i := k) (k := l - k) ha (by rw [Nat.add_sub_cancel' hkl]; exact hb')).1
    refine NdArray.Within.mono h1 (mul_le_mul_of_nonneg_right ?_ hr)
    exact_mod_cast H.between hkl (List.getElem?_eq_some_iff.1 hb').1
  refine ⟨fun k => 2 * k, ⟨rfl, fun k hk => by omega, fun k b hbk => ?_⟩, fun k a ha => ?_, pair⟩
  · have hk := (List.getElem?_eq_some_iff.1 hbk).1
    obtain ⟨m, t, e1, e2, e3, e4, e5, S⟩ := H.each k _ b (List.getElem?_eq_getElem (by omega)) hbk
    have htk : s.calls.take (2 * k + 1) = s.calls.take (2 * k) ++ [m.problem] := by rw [List.take_add_one, e1]; rfl
    refine ⟨2 * k, m.problem, t.problem, by ring, le_rfl, e1, e2, m.problem_isMech, t.problem_isTherm, ?_, ?_⟩
    · rw [S.y]; exact (S.mechWF.load _).2.2.2.1
    · rw [S.theta, htk]; exact (S.thermWF.load _).2.2.2.2.1
  · have hk := (List.getElem?_eq_some_iff.1 ha).1
    obtain ⟨st, l1, l2, -⟩ := H.last
    rw [List.getLast?_eq_getElem?] at l1
    have := pair k (s.steps.length - 1) a st (by omega) ha l1
    rw [l2, show 2 * (s.steps.length - 1) = s.calls.length by omega] at this
    exact this

/-- **C116** (moves). Let the solver keep the bounds of the variables. In every simulation, also if calls of `run` have failed, the
components of the deformation change between two recorded steps by at most the search radius times the number of mechanical problems posed
in between. -/
theorem C116_moves (hs : s.Reachable solver domain params ext traction) (hb : solver.RespectsBounds) :
    ∃ pos, s.RecordedAt solver pos ∧ ∀ (k l : ℕ) (a b : Step), k ≤ l → s.steps[k]? = some a → s.steps[l]? = some b →
      a.yData.Within (s.mechanicalBetween (pos k) (pos l) * params.searchRadius) b.yData := by
  have : s.MovesInv solver params := by
    exact hs.singles (fun s hh _ => .healthy hh hb) fun s hs h => h.single hs hb
  obtain ⟨pos, h1, -, h2⟩ := this
  exact ⟨pos, h1, h2⟩

/-- **C116** (total). No component of a recorded deformation differs from the initial one by more than the search radius times the number
of mechanical problems posed in the whole history. -/
theorem C116_total (hs : s.Reachable solver domain params ext traction) (hb : solver.RespectsBounds) {a b : Step}
    (ha : s.steps[0]? = some a) (hbs : b ∈ s.steps) :
    a.yData.Within (s.mechanicalBetween 0 s.calls.length * params.searchRadius) b.yData := by
  classical
  obtain ⟨pos, h1, h2⟩ := C116_moves hs hb
  obtain ⟨k, hk, rfl⟩ := List.mem_iff_getElem.1 hbs
  obtain ⟨m0, t0, c⟩ := hs.context
  have hr := c.setup.facts.2.1.le
  have := h2 0 k a _ (Nat.zero_le _) ha (List.getElem?_eq_getElem hk)
  refine this.mono (mul_le_mul_of_nonneg_right ?_ hr)
  rw [h1.initial, Sim.mechanicalBetween, Sim.mechanicalBetween, List.drop_zero, List.drop_zero, List.take_length]
  exact_mod_cast (List.take_sublist _ _).countP_le

/-- **C116** (temperatures). Let the solver keep the bounds of the variables and load nothing when a thermal solve fails. In every
simulation, also if calls of `run` have failed, the temperatures change between steps number `i` and `i + k` by at most `k` times the
search radius. -/
theorem C116_temperatures (hs : s.Reachable solver domain params ext traction) (hk : solver.KeepsTemperature)
    (hb : solver.RespectsBounds) {i k : ℕ} {a b : Step} (ha : s.steps[i]? = some a) (hb' : s.steps[i + k]? = some b) :
    a.thetaData.Within (k * params.searchRadius) b.thetaData := by
  obtain ⟨m0, t0, c, -, -, H⟩ := hs.attempts
  obtain ⟨-, r2⟩ := c.searchRadius
  have hr := c.setup.facts.2.1.le
  induction k generalizing b with
  | zero =>
    rw [add_zero, ha] at hb'
    cases hb'
    exact .self _ (by simp)
  | succ k ih =>
    have hlt : i + k < s.steps.length := by have := (List.getElem?_eq_some_iff.1 hb').1; omega
    have h1 := ih (b := s.steps[i + k]) (List.getElem?_eq_getElem hlt)
    obtain ⟨j, m, t, y, θ, M, e1, -⟩ := H (i + k) _ b (List.getElem?_eq_getElem hlt) hb'
    have ht := M.therm.around
    rw [ThermStep.static_searchRadius M.thermStatic, r2, e1 hk] at ht
    have h2 : (s.steps[i + k]).thetaData.Within params.searchRadius b.thetaData := by
      rw [NdArray.Within, M.theta, (M.thermWF.load _).2.2.2.2.1]
      exact around_bounds hr ht (hb _ _ M.thermOk)
    refine (h1.trans h2).mono ?_
    push_cast
    linarith

end

/-- In the example of C71 all components of the deformation move by twice the search radius between two recorded steps, and (at least) two
mechanical problems have been posed in between. -/
example (it : SetIter) : ∃ (solver : Solver) (s : Sim) (a b : Step) (pos : ℕ → ℕ),
    s.Reachable solver exampleDomain exampleParams (fun t => .ok (t ^ 2)) (fun t x y => .ok [t + x, y]) ∧ solver.RespectsBounds ∧
    s.RecordedAt solver pos ∧ s.steps[1]? = some a ∧ s.steps[2]? = some b ∧ 2 ≤ s.mechanicalBetween (pos 1) (pos 2) ∧
    a.yData.Within (s.mechanicalBetween (pos 1) (pos 2) * exampleParams.searchRadius) b.yData := by
  obtain ⟨solver, s, s', s'', e, a, b, h1, -, h3, h4, h5, h6, h7, h8, h9⟩ := C71_search_radius it
  have hs : s''.Reachable solver exampleDomain exampleParams (fun t => .ok (t ^ 2)) (fun t x y => .ok [t + x, y]) := by
    have h := ((Sim.Reachable.new (ext := fun t => .ok (t ^ 2)) (traction := fun t x y => .ok [t + x, y]) exampleSetup h3).run
      (n := 1)).run (n := 1)
    rwa [h4, h5] at h
  obtain ⟨pos, p1, p2⟩ := C116_moves hs h1
  have hw := p2 1 2 a b (by norm_num) h6 h7
  refine ⟨solver, s'', a, b, pos, hs, h1, p1, h6, h7, ?_, hw⟩
  have hr : 0 < exampleParams.searchRadius := by norm_num [exampleParams]
  rw [NdArray.Within] at hw
  generalize a.yData.data = xs at *
  generalize b.yData.data = zs at *
  cases hw with
  | nil => exact absurd rfl h8
  | cons u _ =>
    cases h9 with
    | cons v _ =>
      rw [v, add_sub_cancel_left, abs_of_pos (by linarith)] at u
      exact_mod_cast le_of_mul_le_mul_right u hr

/-- a simulation with a failing thermal solve that meets the hypotheses of C116_temperatures -/
example (it : SetIter) : ∃ (solver : Solver) (s : Sim) (a b : Step), solver.KeepsTemperature ∧ solver.RespectsBounds ∧
    s.Reachable solver exampleDomain exampleParams (fun t => .ok (t ^ 2)) (fun t x y => .ok [t + x, y]) ∧
    s.steps[0]? = some a ∧ s.steps[0 + 1]? = some b ∧ a.thetaData.Within ((1 : ℕ) * exampleParams.searchRadius) b.thetaData := by
  set leg : LegGauss := fun _ => .ok ([0], [2])
  have P := optSolver_spec leg
  set F := (optSolver leg).failingAt 3 with hF
  have hbd : F.RespectsBounds := fun cs p h => by
    obtain ⟨-, e⟩ := failingAt_ok h
    rw [hF, e] at h ⊢
    exact ((P cs p).2.1 ((P cs p).1.1 h)).1.imp fun v x hv h => ⟨hv.1 , hv.2.1⟩
  have hkeep : F.KeepsTemperature := by
    intro cs p hp he
    by_cases hl : cs.length = 3
    · rw [hF, failingAt_eq hl]; exact p.answer_current _
    · rw [hF, failingAt_ne hl] at he ⊢
      have hn : ¬ (p.Feasible ∧ ∃ o, p.IsOptimal leg o) := fun h => he ((P cs p).1.2 h.1)
      rw [optSolver, dif_neg hn]
      exact stay_answer cs p
  obtain ⟨s, hnew'⟩ := C55_usable_partial exampleSetup (by norm_num [exampleParams]) (fun cs p h => (P cs p).1.2 h) it
    fun _ => exampleBoundary
  have hnew : Sim.new F it exampleDomain exampleParams (fun t => .ok (t ^ 2)) (fun t x y => .ok [t + x, y]) = .ok s := by
    rw [← hnew']
    simp [Sim.new, hF, Solver.failingAt]
  have hs := ((Sim.Reachable.new exampleSetup hnew).run (n := 1)).run (n := 2)
  have h2 := two_steps hs hkeep
  have ha := List.getElem?_eq_getElem (show 0 < ((s.run F 1).2.run F 2).2.steps.length by omega)
  have hb := List.getElem?_eq_getElem (show 0 + 1 < ((s.run F 1).2.run F 2).2.steps.length by omega)
  exact ⟨F, _, _, _, hkeep, hbd, hs, ha, hb, C116_temperatures hs hkeep hbd ha hb⟩

end Tve
