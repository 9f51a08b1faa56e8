import Verif.Spec.FirstLaw
import Verif.Props.Rest

/-!
# C98: the balance of heat of optimal steps
-/

namespace Tve
open Helpers

section
variable {solver : Solver} {domain : RectDomain ℝ} {params : SimParams} {ext : ExtTemp} {traction : Traction} {s : Sim}
  {leg : LegGauss} {q : GaussRule ℝ}

/-- positive bounds for finitely many conditions have a positive common bound -/
theorem exists_common {n : ℕ} {P : ℕ → ℝ → Prop} (h : ∀ i < n, ∃ δ > 0, ∀ τ, 0 ≤ τ → τ ≤ δ → P i τ) :
    ∃ δ > 0, ∀ i < n, ∀ τ, 0 ≤ τ → τ ≤ δ → P i τ := by
  induction n with
  | zero => exact ⟨1, one_pos, fun i hi => absurd hi (Nat.not_lt_zero i)⟩
  | succ n ih =>
    obtain ⟨δ, h0, h1⟩ := ih fun i hi => h i (by omega)
    obtain ⟨δ', h0', h1'⟩ := h n (by omega)
    refine ⟨min δ δ', lt_min h0 h0', fun i hi τ t0 t1 => ?_⟩
    rcases Nat.lt_succ_iff_lt_or_eq.1 hi with hi | rfl
    · exact h1 i hi τ t0 (t1.trans (min_le_left _ _))
    · exact h1' τ t0 (t1.trans (min_le_right _ _))

/-- small steps in an allowed direction stay between the bounds -/
theorem small_step {r u v e : ℝ} (h1 : u - r ≤ v) (h2 : v ≤ u + r) (h0 : 0 ≤ v) (hp : 0 < e → v < u + r)
    (hn : e < 0 → 0 < v ∧ u - r < v) :
    ∃ δ > 0, ∀ τ : ℝ, 0 ≤ τ → τ ≤ δ → u - r ≤ v + τ * e ∧ v + τ * e ≤ u + r ∧ 0 ≤ v + τ * e := by
  rcases lt_trichotomy e 0 with he | rfl | he
  · obtain ⟨k1, k2⟩ := hn he
    refine ⟨min v (v - (u - r)) / (-e), div_pos (lt_min k1 (by linarith)) (by linarith), fun τ t0 t1 => ?_⟩
    rw [le_div_iff₀ (by linarith)] at t1
    have a1 := t1.trans (min_le_left _ _)
    have a2 := t1.trans (min_le_right _ _)
    have a3 : 0 ≤ τ * -e := mul_nonneg t0 (by linarith)
    exact ⟨by linarith, by linarith, by linarith⟩
  · exact ⟨1, one_pos, fun τ _ _ => by simpa using ⟨by linarith, h2, h0⟩⟩
  · have k := hp he
    refine ⟨(u + r - v) / e, div_pos (by linarith) he, fun τ t0 t1 => ?_⟩
    rw [le_div_iff₀ he] at t1
    have a3 : 0 ≤ τ * e := mul_nonneg t0 he.le
    exact ⟨by linarith, by linarith, by linarith⟩

/-- the bounds of the unknowns of a thermal problem -/
theorem therm_unknowns (hs : s.Healthy solver domain params ext traction) {k : ℕ} {a b : Step} (ha : s.steps[k]? = some a)
    (hb : s.steps[k + 1]? = some b) {p : Problem} (hp : s.calls[2 * k + 1]? = some p) :
    p.IsTherm ∧ b.thetaData.data = p.answer (solver (s.calls.take (2 * k + 1)) p) ∧
    List.Forall₂ (fun v x => v.lb = x - params.searchRadius ∧ v.ub = x + params.searchRadius ∧ v.fixed = false) p.unknowns
      a.thetaData.data := by
  obtain ⟨m0, t0, cx, Hi⟩ := hs.history
  obtain ⟨m, t, h1, h2, st1, st2, -, S⟩ := Hi.each k a b ha hb
  cases hp.symm.trans h2
  have htake : s.calls.take (2 * k + 1) = s.calls.take (2 * k) ++ [m.problem] := by
    rw [List.take_add_one, h1]; rfl
  have hr := S.therm.around
  rw [ThermStep.static_searchRadius st2, cx.searchRadius.2] at hr
  have hfree : ∀ v ∈ t.unknowns, v.fixed = false := by
    have w := S.thermWF
    cases t with
    | p1 t => obtain ⟨n, w, -⟩ := w; exact w.free
    | reg t => obtain ⟨n, k, w, -⟩ := w; exact w.free
  refine ⟨ThermStep.problem_isTherm t, ?_, ?_⟩
  · rw [htake, S.theta, (S.thermWF.load _).2.2.2.2.1]
  · have hu : t.problem.unknowns = t.unknowns := by cases t <;> rfl
    rw [hu]
    rw [List.forall₂_iff_get] at hr ⊢
    refine ⟨hr.1, fun i hi hi' => ?_⟩
    obtain ⟨-, k2, k3⟩ := hr.2 i hi hi'
    exact ⟨k2, k3, hfree _ (List.getElem_mem _)⟩

/-- an optimal answer to a thermal problem: the nodal values, the heat balance as a derivative, and its sign in all allowed
directions -/
theorem optimal_direction (hs : s.Healthy solver domain params ext traction) (hq : GaussRule.new leg 1 = .ok q) {k : ℕ}
    {a b : Step} (ha : s.steps[k]? = some a) (hb : s.steps[k + 1]? = some b)
    (oa : Oriented s.grid s.refined a.yData) (ob : Oriented s.grid s.refined b.yData) {p : Problem}
    (hp : s.calls[2 * k + 1]? = some p) (hopt : p.IsOptimal leg (solver (s.calls.take (2 * k + 1)) p)) :
    ∃ (V : (ℕ → ℝ) → ℝ) (θ : ℕ → ℝ),
      (∀ η : ℕ → ℝ, ∃ R, HasDerivAt (fun τ => V fun i => θ i + τ * η i) R 0 ∧
        IsHeatBalance 2 leg params ext s.grid s.refined (k / params.fps) a.yData b.yData a.thetaData b.thetaData
          (NdArray.of1 ((energyGrid s.grid s.refined).vertices.map η)) R) ∧
      ∀ η R, AllowedDirection params.searchRadius a.thetaData.data b.thetaData.data η →
        HasDerivAt (fun τ => V fun i => θ i + τ * η i) R 0 → 0 ≤ R := by
  obtain ⟨n, hn, hu, hth, V, hV, hder⟩ := therm_value hs hq ha hb oa ob hp
  obtain ⟨-, hb0, hbd⟩ := therm_unknowns hs ha hb hp
  obtain ⟨m0, t0, c, H⟩ := hs.history
  obtain ⟨nx, ny, sc, L⟩ := c.energetic.lib
  have hv := (C22_structure L).2.2.2.1
  set sol := solver (s.calls.take (2 * k + 1)) p with hsol
  rw [therm_answer hth, hu] at hb0
  refine ⟨V, sol.theta, fun η => ?_, fun η R hη r1 => ?_⟩
  · obtain ⟨R, r1, r2⟩ := hder sol.theta η
    refine ⟨R, r1, ?_⟩
    have hl : (energyGrid s.grid s.refined).vertices.map η = nodalList n η := by
      rw [← hn, hv, List.length_range]; rfl
    have : b.thetaData.data = (NdArray.of1 (nodalList n sol.theta)).data := hb0
    rw [hl]
    rw [IsHeatBalance] at r2 ⊢
    rw [this]
    exact r2
  · obtain ⟨hadm, v, hv1, hv2⟩ := hopt
    have hadm' := (therm_admits hth sol).1 hadm
    rw [List.forall₂_iff_get] at hbd
    have key : ∃ δ > 0, ∀ i < n, ∀ τ, 0 ≤ τ → τ ≤ δ → ∀ hi : i < p.unknowns.length, p.unknowns[i].lb ≤ sol.theta i + τ * η i ∧
        sol.theta i + τ * η i ≤ p.unknowns[i].ub ∧ 0 ≤ sol.theta i + τ * η i := by
      refine exists_common fun i hi => ?_
      have hi' : i < p.unknowns.length := hu ▸ hi
      obtain ⟨a1, a2, -, a4⟩ := hadm' i hi'
      obtain ⟨b1, b2, -⟩ := hbd.2 i hi' (hbd.1 ▸ hi')
      simp only [List.get_eq_getElem] at b1 b2
      obtain ⟨c1, c2⟩ := hη i (a.thetaData.data[i]'(hbd.1 ▸ hi')) (sol.theta i) (List.getElem?_eq_getElem _) (by
        rw [hb0, nodalList, List.getElem?_map, List.getElem?_range hi]; rfl)
      rw [b1] at a1
      rw [b2] at a2
      obtain ⟨δ, d0, d1⟩ := small_step a1 a2 a4 c1 c2
      exact ⟨δ, d0, fun τ t0 t1 _ => by rw [b1, b2]; exact d1 τ t0 t1⟩
    obtain ⟨δ, d0, d1⟩ := key
    refine deriv_nonneg_of_min r1 d0 fun τ t0 t1 => ?_
    have e0 : (fun i => sol.theta i + 0 * η i) = sol.theta := by funext i; simp
    rw [e0]
    cases (hV sol).symm.trans hv1
    refine hv2 ⟨sol.y1, sol.y2, fun i => sol.theta i + τ * η i, none⟩ _ ?_ (hV _)
    rw [therm_admits hth]
    intro i hi
    obtain ⟨k1, k2, k3⟩ := d1 i (hu ▸ hi) τ t0 t1 hi
    refine ⟨k1, k2, fun hf => ?_, k3⟩
    have := (hbd.2 i hi (hbd.1 ▸ hi)).2.2
    rw [List.get_eq_getElem, hf] at this
    cases this

/-- **C98** (variational inequality). If the answer to a thermal problem is optimal, then no admissible change of the recorded
temperature has a negative heat balance: the temperature solves the obstacle problem whose obstacles are zero and the search
radius. -/
theorem C98_variational (hs : s.Healthy solver domain params ext traction) (hq : GaussRule.new leg 1 = .ok q) {k : ℕ}
    {a b : Step} (ha : s.steps[k]? = some a) (hb : s.steps[k + 1]? = some b)
    (oa : Oriented s.grid s.refined a.yData) (ob : Oriented s.grid s.refined b.yData) {p : Problem}
    (hp : s.calls[2 * k + 1]? = some p) (hopt : p.IsOptimal leg (solver (s.calls.take (2 * k + 1)) p)) {η : ℕ → ℝ}
    (hη : AllowedDirection params.searchRadius a.thetaData.data b.thetaData.data η) :
    ∃ R, 0 ≤ R ∧ IsHeatBalance 2 leg params ext s.grid s.refined (k / params.fps) a.yData b.yData a.thetaData b.thetaData
      (NdArray.of1 ((energyGrid s.grid s.refined).vertices.map η)) R := by
  obtain ⟨V, θ, h1, h2⟩ := optimal_direction hs hq ha hb oa ob hp hopt
  obtain ⟨R, r1, r2⟩ := h1 η
  exact ⟨R, h2 η R hη r1, r2⟩

/-- **C98** (weak heat balance). The heat balance holds for all test functions that vanish where the temperature has reached
zero or changed by the search radius. -/
theorem C98_weak (hs : s.Healthy solver domain params ext traction) (hq : GaussRule.new leg 1 = .ok q) {k : ℕ}
    {a b : Step} (ha : s.steps[k]? = some a) (hb : s.steps[k + 1]? = some b)
    (oa : Oriented s.grid s.refined a.yData) (ob : Oriented s.grid s.refined b.yData) {p : Problem}
    (hp : s.calls[2 * k + 1]? = some p) (hopt : p.IsOptimal leg (solver (s.calls.take (2 * k + 1)) p)) {η : ℕ → ℝ}
    (hη : ∀ i u v, a.thetaData.data[i]? = some u → b.thetaData.data[i]? = some v → η i ≠ 0 →
      0 < v ∧ |v - u| < params.searchRadius) :
    IsHeatBalance 2 leg params ext s.grid s.refined (k / params.fps) a.yData b.yData a.thetaData b.thetaData
      (NdArray.of1 ((energyGrid s.grid s.refined).vertices.map η)) 0 := by
  obtain ⟨V, θ, h1, h2⟩ := optimal_direction hs hq ha hb oa ob hp hopt
  obtain ⟨R, r1, r2⟩ := h1 η
  have k1 := h2 η R (fun i u v hu hv => by
    refine ⟨fun h => ?_, fun h => ?_⟩
    · have := abs_lt.1 (hη i u v hu hv h.ne').2
      linarith
    · have := hη i u v hu hv h.ne
      exact ⟨this.1, by linarith [(abs_lt.1 this.2).1]⟩) r1
  have k2 := h2 (fun i => -η i) (-R) (fun i u v hu hv => by
    refine ⟨fun h => ?_, fun h => ?_⟩
    · have := abs_lt.1 (hη i u v hu hv (fun h0 => by simp [h0] at h)).2
      linarith
    · have := hη i u v hu hv (fun h0 => by simp [h0] at h)
      exact ⟨this.1, by linarith [(abs_lt.1 this.2).1]⟩) (by
    have r3 := HasDerivAt.comp (h := fun x : ℝ => -x) 0 (by simpa using r1) (hasDerivAt_neg 0)
    rw [mul_neg_one] at r3
    refine r3.congr_of_eventuallyEq (Filter.Eventually.of_forall fun x => ?_)
    simp)
  have : R = 0 := by linarith
  rwa [this] at r2

theorem quad_mul (G : Grid ℝ) (r : TriRule ℝ) (c : ℝ) (f : Tri → Bary ℝ → ℝ) :
    G.quad r (fun t b => c * f t b) = c * G.quad r f := by
  unfold Grid.quad
  rw [← List.sum_map_mul_left]
  congr 1
  refine List.map_congr_left fun t _ => ?_
  rw [mul_left_comm, ← List.sum_map_mul_left _ _ c]
  congr 2
  refine List.map_congr_left fun b _ => ?_
  ring

/-- the heat balance with the constant test function one is the balance of the whole body -/
theorem IsHeatBalance.total (E : Energetic s.grid s.refined)
    (hnone : params.regularization = none → s.refined = none) {κ R time : ℝ}
    {y0 y θ0 θ : NdArray} (h : IsHeatBalance κ leg params ext s.grid s.refined time y0 y θ0 θ
      (NdArray.of1 ((energyGrid s.grid s.refined).vertices.map fun _ => 1)) R) :
    ∃ U0 U Q B, IsInternalEnergy s.grid s.refined y0 θ0 U0 ∧ IsInternalEnergy s.grid s.refined y θ U ∧
      IsHeatProduction params.fps s.grid s.refined y0 y θ0 Q ∧ IsHeatLoss leg params ext s.grid time θ B ∧
      params.fps * (U - U0) = Q - B + R := by
  obtain ⟨r, F0, F, K, x0, x, z, qq, u, u0, G, H, b, a1, a2, a3, a4, a5, a6, rfl⟩ := h
  obtain ⟨r', k1, Rg⟩ := energyRule_good s.refined
  cases a1.symm.trans k1
  obtain ⟨Z, z1, z2⟩ := a4
  obtain ⟨D0, D, T0, c1, c2, c3, c4⟩ := id a2
  obtain ⟨T, t1, t2⟩ := a3
  have hz : ∀ t ∈ (energyGrid s.grid s.refined).triangles, ∀ c ∈ r.points, z t c = 1 ∧ H t c = ![0, 0] := by
    intro t ht c hc
    obtain ⟨e1, e2⟩ := z2 t ht c hc
    obtain ⟨f1, f2⟩ := E.const_field (c := 1) z1 (by
      intro x hx
      obtain ⟨v, -, rfl⟩ := List.mem_map.1 hx
      rfl) ht (Rg.inside c hc).1
    exact ⟨Except.ok.inj (e1.symm.trans f1), vecOf_inj (Except.ok.inj (e2.symm.trans f2))⟩
  refine ⟨_, _, _, b, ⟨r, D0, T0, F0, x0, u0, a1, c1, c3, fun t ht c hc => ?_, rfl⟩,
    ⟨r, D, T, F, x, u, a1, c2, t1, fun t ht c hc => ?_, rfl⟩,
    ⟨r, F0, F, K, x0, qq, a1, a2, fun t ht c hc => (a5 t ht c hc).1, rfl⟩, ⟨fun hn => ?_, a6.2⟩, ?_⟩
  · exact ⟨(c4 t ht c hc).1, (c4 t ht c hc).2.2, (a5 t ht c hc).2.2⟩
  · exact ⟨(c4 t ht c hc).2.1, (t2 t ht c hc).1, (a5 t ht c hc).2.1⟩
  · obtain ⟨q, e, f1, f2, f3⟩ := a6.1 hn
    refine ⟨q, e, f1, f2, ?_⟩
    have W := E.wf
    rw [hnone hn] at W f3
    have key : ∀ v ∈ s.grid.vertices, ((energyGrid s.grid none).vertices.map fun _ => (1 : ℝ)).getD v 0 = 1 := by
      intro v hv
      have hv' : v ∈ (energyGrid s.grid none).vertices := hv
      rw [W.vertices, List.mem_range] at hv'
      have : v < (energyGrid s.grid none).vertices.length := by rw [W.vertices, List.length_range]; exact hv'
      simp [List.getD_eq_getElem?_getD, this]
    rw [f3, Grid.edgeQuad, Grid.edgeQuad]
    congr 1
    refine List.map_congr_left fun ed hed => ?_
    obtain ⟨v1, v2⟩ := W.edges ed (W.boundary.2 ed hed)
    congr 2
    funext σ
    rw [show (NdArray.of1 ((energyGrid s.grid none).vertices.map fun _ => (1 : ℝ))).data =
      (energyGrid s.grid none).vertices.map fun _ => (1 : ℝ) from rfl, key _ v1, key _ v2]
    ring
  · rw [quad_congr (F := fun t p => (u t p - u0 t p) / (1 / params.fps) * z t p)
        (F' := fun t p => params.fps * (u t p - u0 t p)) (fun t ht c hc => by
          rw [(hz t ht c hc).1, one_div, div_inv_eq_mul]; ring),
      quad_congr (F := fun t p => qq t p * z t p) (F' := qq) (fun t ht c hc => by rw [(hz t ht c hc).1, mul_one]),
      quad_zero (F := fun t p => G t p ⬝ᵥ (κ • K t p).mulVec (H t p)) Rg (fun t ht c hc => by
        rw [(hz t ht c hc).2]
        have : (![0, 0] : Fin 2 → ℝ) = 0 := by ext i; fin_cases i <;> rfl
        rw [this, Matrix.mulVec_zero, dotProduct_zero]), quad_mul, quad_sub]
    ring

/-- an internal energy is determined by deformation and temperature -/
theorem IsInternalEnergy.unique {g : Grid ℝ} {refined : Option (RefinedGrid ℝ)} {y θ : NdArray} {U U' : ℝ}
    (h : IsInternalEnergy g refined y θ U) (h' : IsInternalEnergy g refined y θ U') : U = U' := by
  obtain ⟨r, D, T, F, x, u, a1, a2, a3, a4, rfl⟩ := h
  obtain ⟨r', D', T', F', x', u', b1, b2, b3, b4, rfl⟩ := h'
  cases a1.symm.trans b1
  cases a2.symm.trans b2
  cases a3.symm.trans b3
  refine quad_congr fun t ht c hc => ?_
  obtain ⟨p1, p2, p3⟩ := a4 t ht c hc
  obtain ⟨q1, q2, q3⟩ := b4 t ht c hc
  have e1 := Except.ok.inj (p1.symm.trans q1)
  have e2 := Except.ok.inj (p2.symm.trans q2)
  rw [e1, e2] at p3
  exact Except.ok.inj (p3.symm.trans q3)

/-- the grids of a simulation -/
theorem Sim.Healthy.grids (hs : s.Healthy solver domain params ext traction) :
    Energetic s.grid s.refined ∧ (params.regularization = none → s.refined = none) := by
  obtain ⟨m0, t0, c, -⟩ := hs.history
  obtain ⟨it, hg⟩ := c.grid
  exact ⟨c.energetic, (c.setup.grids hg c.refined).2.1⟩

/-- **C98** (first law). If the answer to a thermal problem is optimal and no temperature has reached zero or changed by the
search radius, then the internal energy of the body grows, per time, by the heat produced by the motion minus the heat lost
through the boundary. Conduction only redistributes heat. -/
theorem C98_first_law (hs : s.Healthy solver domain params ext traction) (hq : GaussRule.new leg 1 = .ok q) {k : ℕ}
    {a b : Step} (ha : s.steps[k]? = some a) (hb : s.steps[k + 1]? = some b)
    (oa : Oriented s.grid s.refined a.yData) (ob : Oriented s.grid s.refined b.yData) {p : Problem}
    (hp : s.calls[2 * k + 1]? = some p) (hopt : p.IsOptimal leg (solver (s.calls.take (2 * k + 1)) p))
    (hin : List.Forall₂ (fun u v => 0 < v ∧ |v - u| < params.searchRadius) a.thetaData.data b.thetaData.data) :
    ∃ U0 U Q B, IsInternalEnergy s.grid s.refined a.yData a.thetaData U0 ∧
      IsInternalEnergy s.grid s.refined b.yData b.thetaData U ∧
      IsHeatProduction params.fps s.grid s.refined a.yData b.yData a.thetaData Q ∧
      IsHeatLoss leg params ext s.grid (k / params.fps) b.thetaData B ∧ params.fps * (U - U0) = Q - B := by
  rw [List.forall₂_iff_get] at hin
  have h := C98_weak hs hq ha hb oa ob hp hopt (η := fun _ => 1) (fun i u v hu hv _ => by
    obtain ⟨h1, rfl⟩ := List.getElem?_eq_some_iff.1 hu
    obtain ⟨h2, rfl⟩ := List.getElem?_eq_some_iff.1 hv
    exact hin.2 i h1 h2)
  obtain ⟨U0, U, Q, B, h1, h2, h3, h4, h5⟩ := h.total hs.grids.1 hs.grids.2
  exact ⟨U0, U, Q, B, h1, h2, h3, h4, by rw [h5, add_zero]⟩

/-- **C98** (no heat disappears). If the answer to a thermal problem is optimal and no temperature has risen by the search
radius, then the internal energy grows at least by the balance of production and loss: keeping the temperatures nonnegative can
only add heat. -/
theorem C98_at_least (hs : s.Healthy solver domain params ext traction) (hq : GaussRule.new leg 1 = .ok q) {k : ℕ}
    {a b : Step} (ha : s.steps[k]? = some a) (hb : s.steps[k + 1]? = some b)
    (oa : Oriented s.grid s.refined a.yData) (ob : Oriented s.grid s.refined b.yData) {p : Problem}
    (hp : s.calls[2 * k + 1]? = some p) (hopt : p.IsOptimal leg (solver (s.calls.take (2 * k + 1)) p))
    (hin : List.Forall₂ (fun u v => v < u + params.searchRadius) a.thetaData.data b.thetaData.data) :
    ∃ U0 U Q B, IsInternalEnergy s.grid s.refined a.yData a.thetaData U0 ∧
      IsInternalEnergy s.grid s.refined b.yData b.thetaData U ∧
      IsHeatProduction params.fps s.grid s.refined a.yData b.yData a.thetaData Q ∧
      IsHeatLoss leg params ext s.grid (k / params.fps) b.thetaData B ∧ Q - B ≤ params.fps * (U - U0) := by
  rw [List.forall₂_iff_get] at hin
  obtain ⟨R, r0, h⟩ := C98_variational hs hq ha hb oa ob hp hopt (η := fun _ => 1) (fun i u v hu hv => by
    obtain ⟨h1, rfl⟩ := List.getElem?_eq_some_iff.1 hu
    obtain ⟨h2, rfl⟩ := List.getElem?_eq_some_iff.1 hv
    exact ⟨fun _ => hin.2 i h1 h2, fun h => absurd h (by norm_num)⟩)
  obtain ⟨U0, U, Q, B, h1, h2, h3, h4, h5⟩ := h.total hs.grids.1 hs.grids.2
  exact ⟨U0, U, Q, B, h1, h2, h3, h4, by rw [h5]; linarith⟩

/-- **C98** (whole runs). If all thermal problems have been answered optimally and no temperature has reached zero or changed by
the search radius in one step, then the change of the internal energy since the start of the simulation is the sum of the heat
produced minus the sum of the heat lost in the steps. -/
theorem C98_run (hs : s.Healthy solver domain params ext traction) (hq : GaussRule.new leg 1 = .ok q)
    (ho : ∀ st ∈ s.steps, Oriented s.grid s.refined st.yData)
    (hopt : ∀ k p, s.calls[2 * k + 1]? = some p → p.IsOptimal leg (solver (s.calls.take (2 * k + 1)) p))
    (hin : ∀ k a b, s.steps[k]? = some a → s.steps[k + 1]? = some b →
      List.Forall₂ (fun u v => 0 < v ∧ |v - u| < params.searchRadius) a.thetaData.data b.thetaData.data) :
    ∃ U Q B : ℕ → ℝ, (∀ k st, s.steps[k]? = some st → IsInternalEnergy s.grid s.refined st.yData st.thetaData (U k)) ∧
      (∀ k a b, s.steps[k]? = some a → s.steps[k + 1]? = some b →
        IsHeatProduction params.fps s.grid s.refined a.yData b.yData a.thetaData (Q k) ∧
        IsHeatLoss leg params ext s.grid (k / params.fps) b.thetaData (B k)) ∧
      ∀ n < s.steps.length, U n - U 0 = ∑ k ∈ Finset.range n, 1 / params.fps * (Q k - B k) := by
  obtain ⟨m0, t0, cx, Hi⟩ := hs.history
  have hf := hs.fps_pos
  have each : ∀ (k : ℕ) (a b : Step), s.steps[k]? = some a → s.steps[k + 1]? = some b → ∃ U0 U Q B,
      IsInternalEnergy s.grid s.refined a.yData a.thetaData U0 ∧
      IsInternalEnergy s.grid s.refined b.yData b.thetaData U ∧
      IsHeatProduction params.fps s.grid s.refined a.yData b.yData a.thetaData Q ∧
      IsHeatLoss leg params ext s.grid (k / params.fps) b.thetaData B ∧ params.fps * (U - U0) = Q - B := by
    intro k a b ha hb
    obtain ⟨m, t, -, h2, -⟩ := Hi.each k a b ha hb
    exact C98_first_law hs hq ha hb (ho a (List.mem_of_getElem? ha)) (ho b (List.mem_of_getElem? hb)) h2 (hopt k _ h2)
      (hin k a b ha hb)
  have hU : ∀ k : ℕ, ∃ U, ∀ st, s.steps[k]? = some st → IsInternalEnergy s.grid s.refined st.yData st.thetaData U := by
    intro k
    rcases hk : s.steps[k]? with _ | st
    · exact ⟨0, fun st h => by cases h⟩
    · have hlt := (List.getElem?_eq_some_iff.1 hk).1
      have htwo := Hi.two
      by_cases h1 : k + 1 < s.steps.length
      · obtain ⟨U0, U, Q, B, a1, -⟩ := each k st _ hk (List.getElem?_eq_getElem h1)
        exact ⟨U0, fun st' h => by cases h; exact a1⟩
      · obtain ⟨j, rfl⟩ : ∃ j, k = j + 1 := ⟨k - 1, by omega⟩
        obtain ⟨U0, U, Q, B, -, a1, -⟩ := each j _ st (List.getElem?_eq_getElem (by omega)) hk
        exact ⟨U, fun st' h => by cases h; exact a1⟩
  choose U hU using hU
  have hQ : ∀ k : ℕ, ∃ Q B, ∀ a b, s.steps[k]? = some a → s.steps[k + 1]? = some b →
      IsHeatProduction params.fps s.grid s.refined a.yData b.yData a.thetaData Q ∧
      IsHeatLoss leg params ext s.grid (k / params.fps) b.thetaData B ∧ params.fps * (U (k + 1) - U k) = Q - B := by
    intro k
    by_cases h1 : k + 1 < s.steps.length
    · have e1 : s.steps[k]? = some s.steps[k] := List.getElem?_eq_getElem (by omega)
      have e2 : s.steps[k + 1]? = some s.steps[k + 1] := List.getElem?_eq_getElem h1
      obtain ⟨U0, U', Q, B, a1, a2, a3, a4, a5⟩ := each k _ _ e1 e2
      refine ⟨Q, B, fun a b ha hb => ?_⟩
      cases e1.symm.trans ha
      cases e2.symm.trans hb
      rw [a1.unique (hU k _ e1), a2.unique (hU (k + 1) _ e2)] at a5
      exact ⟨a3, a4, a5⟩
    · refine ⟨0, 0, fun a b ha hb => ?_⟩
      exact absurd (List.getElem?_eq_some_iff.1 hb).1 h1
  choose Q B hQB using hQ
  refine ⟨U, Q, B, hU, fun k a b ha hb => ⟨(hQB k a b ha hb).1, (hQB k a b ha hb).2.1⟩, fun n hn => ?_⟩
  induction n with
  | zero => simp
  | succ n ih =>
    rw [Finset.sum_range_succ, ← ih (by omega)]
    have := (hQB n _ _ (List.getElem?_eq_getElem (by omega)) (List.getElem?_eq_getElem hn)).2.2
    rw [← this, one_div, ← mul_assoc, inv_mul_cancel₀ hf.ne', one_mul]
    ring

/-- no motion produces no heat -/
theorem IsHeatProduction.rest {fps : ℝ} {y0 y θ0 : NdArray} {Q : ℝ} (hf : 0 < fps) (hsame : SameStrain s.grid s.refined y0 y)
    (h : IsHeatProduction fps s.grid s.refined y0 y θ0 Q) : Q = 0 := by
  obtain ⟨r, F0, F, K, x0, qq, a1, a2, a3, rfl⟩ := h
  obtain ⟨D0, D, r', d1, d2, d3, d4⟩ := hsame
  cases a1.symm.trans d3
  obtain ⟨r', k1, Rg⟩ := energyRule_good s.refined
  cases a1.symm.trans k1
  obtain ⟨D0', D', T0, c1, c2, c3, c4⟩ := a2
  cases d1.symm.trans c1
  cases d2.symm.trans c2
  refine quad_zero Rg fun t ht b hb => ?_
  obtain ⟨p1, p2, p3⟩ := c4 t ht b hb
  have e1 : F0 t b = F t b := matOf_inj (Except.ok.inj (p1.symm.trans ((d4 t ht b hb).trans p2)))
  obtain ⟨-, ξ, A, f1, -, f3⟩ := a3 t ht b hb
  rw [e1] at f1
  obtain ⟨d, g1, -, g2, -⟩ := C51_quadratic (F t b) (F t b)
  rw [g2 rfl] at g1
  rw [C51_rate _ _ _ _ hf.ne' g1] at f1
  rw [f3, ← Except.ok.inj f1, e1]
  simp

/-- **C98** (isolated bodies). With regularization the body exchanges no heat with its environment: a body that does not move
keeps its internal energy. -/
theorem C98_isolated (hs : s.Healthy solver domain params ext traction) (hq : GaussRule.new leg 1 = .ok q) {k : ℕ}
    {a b : Step} (ha : s.steps[k]? = some a) (hb : s.steps[k + 1]? = some b)
    (oa : Oriented s.grid s.refined a.yData) (ob : Oriented s.grid s.refined b.yData) {p : Problem}
    (hp : s.calls[2 * k + 1]? = some p) (hopt : p.IsOptimal leg (solver (s.calls.take (2 * k + 1)) p))
    (hin : List.Forall₂ (fun u v => 0 < v ∧ |v - u| < params.searchRadius) a.thetaData.data b.thetaData.data)
    (hreg : params.regularization ≠ none) (hsame : SameStrain s.grid s.refined a.yData b.yData) :
    ∃ U, IsInternalEnergy s.grid s.refined a.yData a.thetaData U ∧
      IsInternalEnergy s.grid s.refined b.yData b.thetaData U := by
  obtain ⟨U0, U, Q, B, h1, h2, h3, h4, h5⟩ := C98_first_law hs hq ha hb oa ob hp hopt hin
  rw [h3.rest hs.fps_pos hsame, h4.2 hreg, sub_zero] at h5
  have : U = U0 := by
    have := hs.fps_pos
    rcases mul_eq_zero.1 h5 with h | h
    · exact absurd h this.ne'
    · linarith
  exact ⟨U0, h1, this ▸ h2⟩

end
end Tve
