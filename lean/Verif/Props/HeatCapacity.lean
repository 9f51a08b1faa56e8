import Verif.Lemmas.HeatCapacity
import Verif.Props.Thermal
import Verif.Props.Optimal
import Mathlib.Analysis.Complex.ExponentialBounds

/-!
# C84: heat capacity, and the temperature of a step is unique
-/

namespace Tve
open Helpers

/-- The internal energy of a strain is differentiable in the temperature; its derivative, the heat capacity, is
`10 + 25 t e^(-5 t) (W_A - W_M)`. It increases strictly with the temperature `t ≥ 0` exactly if the martensite potential of the
strain exceeds the austenite potential by at most `2 e`. -/
theorem C84_heat_capacity (F : Matrix (Fin 2) (Fin 2) ℝ) {a m : ℝ} (ha : austenitePotential (matOf F) = .ok a)
    (hm : martensitePotential (matOf F) = .ok m) :
    ∃ U : ℝ → ℝ, (∀ t, internalEnergy (matOf F) t = .ok (U t)) ∧
      (∀ t, HasDerivAt U (10 + 25 * t * Real.exp (-5 * t) * (a - m)) t) ∧
      (StrictMonoOn U (Set.Ici 0) ↔ m ≤ a + 2 * Real.exp 1) := by
  have hd : 0 < F.det := by
    by_contra hn
    rw [austPot_err (not_lt.1 hn)] at ha; cases ha
  rw [austPot_eq hd] at ha
  rw [martPot_eq hd.ne'] at hm
  cases ha
  cases hm
  refine ⟨heatOf (wA F - wM F), fun t => internalEnergy_eq hd t, fun t => heatOf_deriv _ t, ?_⟩
  constructor
  · intro h
    by_contra hc
    obtain ⟨x, y, hx, hxy, hlt⟩ := heatOf_not_mono (d := wA F - wM F) (by linarith)
    exact absurd (h hx (hx.trans hxy.le) hxy) (not_lt.2 hlt.le)
  · intro h
    exact heatOf_strictMono (by linarith)

/-- Not all strains are moderate: for `diag(3, 1/3)` (with determinant 1) the internal energy decreases somewhere. -/
theorem C84_not_all_strains : ∃ (F : Matrix (Fin 2) (Fin 2) ℝ) (t t' u u' : ℝ), F.det = 1 ∧ 0 ≤ t ∧ t < t' ∧
    internalEnergy (matOf F) t = .ok u ∧ internalEnergy (matOf F) t' = .ok u' ∧ u' < u := by
  have hd : (!![3, 0; 0, 1 / 3] : Matrix (Fin 2) (Fin 2) ℝ).det = 1 := by rw [Matrix.det_fin_two_of]; norm_num
  have hpos : 0 < (!![3, 0; 0, 1 / 3] : Matrix (Fin 2) (Fin 2) ℝ).det := by rw [hd]; norm_num
  have he : Real.exp 1 < 3 := lt_trans Real.exp_one_lt_d9 (by norm_num)
  obtain ⟨x, y, hx, hxy, hlt⟩ := heatOf_not_mono (d := wA !![3, 0; 0, 1 / 3] - wM !![3, 0; 0, 1 / 3]) (by
    rw [wA, wM, hd]
    norm_num [fsq]
    linarith)
  exact ⟨_, x, y, _, _, hd, hx, hxy, internalEnergy_eq hpos x, internalEnergy_eq hpos y, hlt⟩

variable {solver : Solver} {domain : RectDomain ℝ} {params : SimParams} {ext : ExtTemp} {traction : Traction} {s : Sim}
  {leg : LegGauss} {q : GaussRule ℝ}

theorem Sim.Healthy.fps_pos (hs : s.Healthy solver domain params ext traction) : 0 < params.fps := by
  obtain ⟨m0, t0, c, -⟩ := hs.history
  obtain ⟨a, b, f, d, e, g, h⟩ := c.setup.valid
  have h0 : 0 ≤ params.fps := by
    unfold SimParams.new at h
    split_ifs at h with h1 h2 h3 h4 h5 h6 h7 h8 <;> cases h <;> exact not_lt.1 h3
  exact lt_of_le_of_ne h0 (Ne.symm c.fps)

/-- the objective of a thermal problem as a function of the temperatures, with its derivatives -/
theorem therm_value (hs : s.Healthy solver domain params ext traction) (hq : GaussRule.new leg 1 = .ok q) {k : ℕ}
    {a b : Step} (ha : s.steps[k]? = some a) (hb : s.steps[k + 1]? = some b)
    (oa : Oriented s.grid s.refined a.yData) (ob : Oriented s.grid s.refined b.yData) {p : Problem}
    (hp : s.calls[2 * k + 1]? = some p) :
    ∃ n, (energyGrid s.grid s.refined).vertices.length = n ∧ p.unknowns.length = n ∧ p.IsTherm ∧ ∃ V : (ℕ → ℝ) → ℝ,
      (∀ o, (p.load o).objective leg = .ok (V o.theta)) ∧ ∀ θ η : ℕ → ℝ, ∃ R, HasDerivAt (fun τ => V fun i => θ i + τ * η i) R 0 ∧
        IsHeatBalance 2 leg params ext s.grid s.refined (k / params.fps) a.yData b.yData a.thetaData
          (NdArray.of1 (nodalList n θ)) (NdArray.of1 (nodalList n η)) R := by
  obtain ⟨p', h1, h2, h3⟩ := C69_derivative_partial hs hq ha hb oa ob
  cases h1.symm.trans hp
  obtain ⟨m0, t0, c, H⟩ := hs.history
  obtain ⟨nx, ny, sc, L⟩ := c.energetic.lib
  have hv := (C22_structure L).2.2.2.1
  have hth : p.IsTherm := by
    obtain ⟨m, t, k1, k2, -⟩ := H.each k _ _ ha hb
    cases hp.symm.trans k2
    cases t <;> trivial
  refine ⟨_, rfl, h2, hth, ?_⟩
  have hl : ∀ θ : ℕ → ℝ, (energyGrid s.grid s.refined).vertices.map θ =
      nodalList (energyGrid s.grid s.refined).vertices.length θ := fun θ => by
    rw [hv, List.length_range]; rfl
  have hV : ∀ θ : ℕ → ℝ, ∃ v, ∀ o : Outcome, o.theta = θ → (p.load o).objective leg = .ok v := by
    intro θ
    obtain ⟨J, R, j1, -⟩ := h3 θ (fun _ => 0)
    exact ⟨J 0, fun o ho => j1 0 o (by rw [ho]; funext i; simp)⟩
  choose V hV using hV
  refine ⟨V, fun o => hV _ o rfl, fun θ η => ?_⟩
  obtain ⟨J, R, j1, j2, j3⟩ := h3 θ η
  rw [hl, hl] at j3
  refine ⟨R, ?_, j3⟩
  have : (fun τ => V fun i => θ i + τ * η i) = J := by
    funext τ
    exact Except.ok.inj ((hV _ ⟨fun _ _ => 0, fun _ _ => 0, fun i => θ i + τ * η i, none⟩ rfl).symm.trans (j1 τ _ rfl))
  rw [this]
  exact j2

/-- the admissible solutions of a thermal problem -/
theorem therm_admits {p : Problem} (hp : p.IsTherm) (o : Outcome) :
    p.Admits o ↔ ∀ i (hi : i < p.unknowns.length), p.unknowns[i].lb ≤ o.theta i ∧ o.theta i ≤ p.unknowns[i].ub ∧
      (p.unknowns[i].fixed = true → o.theta i = p.unknowns[i].value) ∧ 0 ≤ o.theta i := by
  have key : ∀ l : List VarData, (List.Forall₂ (fun (v : VarData) x => v.lb ≤ x ∧ x ≤ v.ub ∧ (v.fixed = true → x = v.value)) l
      (l.mapIdx fun i _ => o.theta i) ∧ ∀ x ∈ l.mapIdx fun i _ => o.theta i, 0 ≤ x) ↔
      ∀ i (hi : i < l.length), l[i].lb ≤ o.theta i ∧ o.theta i ≤ l[i].ub ∧ (l[i].fixed = true → o.theta i = l[i].value) ∧
        0 ≤ o.theta i := by
    intro l
    rw [List.forall₂_iff_get]
    constructor
    · rintro ⟨⟨-, h1⟩, h2⟩ i hi
      have := h1 i hi (by simpa using hi)
      simp only [List.get_eq_getElem, List.getElem_mapIdx] at this
      exact ⟨this.1, this.2.1, this.2.2, h2 _ (List.mem_mapIdx.2 ⟨i, hi, rfl⟩)⟩
    · intro h
      refine ⟨⟨by simp, fun i hi hi' => ?_⟩, fun x hx => ?_⟩
      · simp only [List.get_eq_getElem, List.getElem_mapIdx]
        obtain ⟨a1, a2, a3, -⟩ := h i hi
        exact ⟨a1, a2, a3⟩
      · obtain ⟨i, hi, rfl⟩ := List.mem_mapIdx.1 hx
        exact (h i hi).2.2.2
  cases p with
  | mechP1 m => exact absurd hp (by simp [Problem.IsTherm])
  | mechReg m => exact absurd hp (by simp [Problem.IsTherm])
  | thermP1 m =>
    rw [← key]
    exact ⟨fun h => ⟨h.1, h.2.1 hp⟩, fun h => ⟨h.1, fun _ => h.2, trivial⟩⟩
  | thermReg m =>
    rw [← key]
    exact ⟨fun h => ⟨h.1, h.2.1 hp⟩, fun h => ⟨h.1, fun _ => h.2, trivial⟩⟩

/-- Points between admissible solutions are admissible. -/
theorem therm_admits_between {p : Problem} (hp : p.IsTherm) {o o' o'' : Outcome} (h : p.Admits o) (h' : p.Admits o') {τ : ℝ}
    (h0 : 0 ≤ τ) (h1 : τ ≤ 1) (ho : ∀ i, o''.theta i = o.theta i + τ * (o'.theta i - o.theta i)) : p.Admits o'' := by
  rw [therm_admits hp] at *
  intro i hi
  obtain ⟨a1, a2, a3, a4⟩ := h i hi
  obtain ⟨b1, b2, b3, b4⟩ := h' i hi
  have e : o''.theta i = (1 - τ) * o.theta i + τ * o'.theta i := by rw [ho]; ring
  have k : 0 ≤ 1 - τ := by linarith
  rw [e]
  refine ⟨?_, ?_, fun hf => ?_, by positivity⟩
  · nlinarith [mul_le_mul_of_nonneg_left a1 k, mul_le_mul_of_nonneg_left b1 h0]
  · nlinarith [mul_le_mul_of_nonneg_left a2 k, mul_le_mul_of_nonneg_left b2 h0]
  · rw [a3 hf, b3 hf]; ring

theorem ModerateStrain.oriented {g : Grid ℝ} {refined : Option (RefinedGrid ℝ)} {y : NdArray} (h : ModerateStrain g refined y) :
    Oriented g refined y := by
  obtain ⟨D, r, h1, h2, h3⟩ := h
  refine ⟨D, r, h1, h2, fun t ht b hb => ?_⟩
  obtain ⟨F, a, m, k1, k2, -⟩ := h3 t ht b hb
  refine ⟨F, k1, ?_⟩
  by_contra hn
  rw [austPot_err (not_lt.1 hn)] at k2
  cases k2

theorem deriv_nonneg_of_min {f : ℝ → ℝ} {f' δ : ℝ} (hf : HasDerivAt f f' 0) (hδ : 0 < δ) (h : ∀ τ, 0 ≤ τ → τ ≤ δ → f 0 ≤ f τ) :
    0 ≤ f' := by
  by_contra hc
  push Not at hc
  have h1 : ∀ᶠ x in nhdsWithin (0 : ℝ) (Set.Ioi 0), slope f 0 x < 0 :=
    (hasDerivWithinAt_iff_tendsto_slope' (by simp)).1 (hf.hasDerivWithinAt (s := Set.Ioi 0)) |>.eventually (gt_mem_nhds hc)
  have h2 : ∀ᶠ x in nhdsWithin (0 : ℝ) (Set.Ioi 0), x ∈ Set.Ioc 0 δ := Ioc_mem_nhdsGT hδ
  obtain ⟨x, hx, hx'⟩ := (h1.and h2).exists
  have := h x hx'.1.le hx'.2
  rw [slope_def_field] at hx
  have := div_nonneg (sub_nonneg.2 this) (sub_nonneg.2 hx'.1.le)
  linarith

/-- At most one nonnegative temperature satisfies the heat balance of a step whose strains are moderate (the Gauss weights of
the boundary integrals are not negative). -/
theorem C84_balance_unique (hs : s.Healthy solver domain params ext traction) (hq : GaussRule.new leg 1 = .ok q)
    (hw : ∀ w ∈ q.weights, 0 ≤ w) {time : ℝ} {y0 y θ0 θ θ' : NdArray} (hm : ModerateStrain s.grid s.refined y)
    (hl : θ.data.length = (energyGrid s.grid s.refined).vertices.length) (h0 : ∀ x ∈ θ.data, 0 ≤ x)
    (hl' : θ'.data.length = (energyGrid s.grid s.refined).vertices.length) (h0' : ∀ x ∈ θ'.data, 0 ≤ x)
    (h : ∀ η : NdArray, η.data.length = (energyGrid s.grid s.refined).vertices.length →
      IsHeatBalance 2 leg params ext s.grid s.refined time y0 y θ0 θ η 0)
    (h' : ∀ η : NdArray, η.data.length = (energyGrid s.grid s.refined).vertices.length →
      IsHeatBalance 2 leg params ext s.grid s.refined time y0 y θ0 θ' η 0) : θ.data = θ'.data := by
  obtain ⟨m0, t0, c, -⟩ := hs.history
  set n := (energyGrid s.grid s.refined).vertices.length with hn
  have e : ∀ θ : NdArray, θ.data.length = n → θ.data = nodalList n fun i => θ.data.getD i 0 := by
    intro θ hl
    refine List.ext_getElem (by simp [nodalList, hl]) fun i h1 h2 => ?_
    simp [nodalList, List.getD_eq_getElem?_getD, h1]
  set f := fun i => θ.data.getD i 0 with hf
  set f' := fun i => θ'.data.getD i 0 with hf'
  have nn : ∀ θ : NdArray, θ.data.length = n → (∀ x ∈ θ.data, 0 ≤ x) → ∀ i < n, 0 ≤ θ.data.getD i 0 := by
    intro θ hl h0 i hi
    have hi' : i < θ.data.length := hl ▸ hi
    simp only [List.getD_eq_getElem?_getD, hi', List.getElem?_eq_getElem, Option.getD_some]
    exact h0 _ (List.getElem_mem _)
  have k := h (NdArray.of1 (nodalList n fun i => f' i - f i)) (by simp [nodalList, NdArray.of1])
  have k' := h' (NdArray.of1 (nodalList n fun i => f' i - f i)) (by simp [nodalList, NdArray.of1])
  have e1 : θ.data = nodalList n f := e θ hl
  have e2 : θ'.data = nodalList n fun i => f i + 1 * (f' i - f i) := by
    rw [e θ' hl', nodalList, nodalList]
    exact List.map_congr_left fun i _ => by show f' i = _; ring
  have key := IsHeatBalance.strictMono c.energetic (κ := 2) (by norm_num) hs.fps_pos hq hw hm rfl (θ := f)
    (η := fun i => f' i - f i) one_pos (nn θ hl h0) (fun i hi => by
      have := nn θ' hl' h0' i hi
      show 0 ≤ f i + 1 * (f' i - f i)
      have : 0 ≤ f' i := this
      linarith) (ext := ext) (time := time) (y0 := y0) (θ0 := θ0) (R := 0) (R' := 0)
    (by unfold IsHeatBalance at k ⊢; rw [e1] at k; exact k) (by unfold IsHeatBalance at k' ⊢; rw [e2] at k'; exact k') le_rfl
  rw [e1, e2, nodalList, nodalList]
  refine List.map_congr_left fun i hi => ?_
  rw [key i (List.mem_range.1 hi)]
  ring

/-- the answer to a thermal problem is the list of its temperatures -/
theorem therm_answer {p : Problem} (hp : p.IsTherm) (o : Outcome) : p.answer o = nodalList p.unknowns.length o.theta := by
  cases p with
  | mechP1 m => exact absurd hp (by simp [Problem.IsTherm])
  | mechReg m => exact absurd hp (by simp [Problem.IsTherm])
  | thermP1 m =>
    refine List.ext_getElem (by simp [Problem.answer, Problem.unknowns, nodalList]) fun i _ _ => ?_
    simp [Problem.answer, nodalList]
  | thermReg m =>
    refine List.ext_getElem (by simp [Problem.answer, Problem.unknowns, nodalList]) fun i _ _ => ?_
    simp [Problem.answer, nodalList]

/-- The temperature of a step is unique: if the strains of the step are moderate, then all optimal solutions of its thermal
problem have the same temperatures (the Gauss weights of the boundary integrals are not negative). -/
theorem C84_unique (hs : s.Healthy solver domain params ext traction) (hq : GaussRule.new leg 1 = .ok q)
    (hw : ∀ w ∈ q.weights, 0 ≤ w) {k : ℕ} {a b : Step} (ha : s.steps[k]? = some a) (hb : s.steps[k + 1]? = some b)
    (oa : Oriented s.grid s.refined a.yData) (hm : ModerateStrain s.grid s.refined b.yData) {p : Problem}
    (hp : s.calls[2 * k + 1]? = some p) {o o' : Outcome} (ho : p.IsOptimal leg o) (ho' : p.IsOptimal leg o') :
    p.answer o = p.answer o' := by
  obtain ⟨n, hn, hu, hth, V, hV, hd⟩ := therm_value hs hq ha hb oa hm.oriented hp
  obtain ⟨m0, t0, c, -⟩ := hs.history
  set η : ℕ → ℝ := fun i => o'.theta i - o.theta i with hη
  have min : ∀ {o : Outcome}, p.IsOptimal leg o → ∀ o', p.Admits o' → V o.theta ≤ V o'.theta := by
    rintro o ⟨-, v, h1, h2⟩ o' h3
    cases (hV o).symm.trans h1
    exact h2 o' _ h3 (hV o')
  have hmid : ∀ τ : ℝ, 0 ≤ τ → τ ≤ 1 → p.Admits ⟨fun _ _ => 0, fun _ _ => 0, fun i => o.theta i + τ * η i, none⟩ :=
    fun τ h0 h1 => therm_admits_between hth ho.1 ho'.1 h0 h1 fun i => rfl
  obtain ⟨R, r1, r2⟩ := hd o.theta η
  obtain ⟨R', r1', r2'⟩ := hd (fun i => o.theta i + 1 * η i) η
  have e1 : (fun i => o.theta i + 1 * η i) = o'.theta := by funext i; simp only [hη]; ring
  have hR : 0 ≤ R := deriv_nonneg_of_min r1 one_pos fun τ h0 h1 => by
    have := min ho _ (hmid τ h0 h1)
    simpa using this
  have hR' : 0 ≤ -R' := by
    have r3 : HasDerivAt (fun τ => V fun i => (o.theta i + 1 * η i) + -τ * η i) (-R') 0 := by
      have := HasDerivAt.comp (h := fun τ : ℝ => -τ) (0 : ℝ) (by simpa using r1') (hasDerivAt_neg (0 : ℝ))
      simpa [Function.comp_def] using this
    refine deriv_nonneg_of_min r3 one_pos fun τ h0 h1 => ?_
    have := min ho' _ (hmid (1 - τ) (by linarith) (by linarith))
    have e2 : (fun i => o.theta i + 1 * η i + -τ * η i) = fun i => o.theta i + (1 - τ) * η i := by funext i; ring
    rw [e2]
    simp only [neg_zero, zero_mul, add_zero]
    rw [e1]
    exact this
  have hp0 := (therm_admits hth o).1 ho.1
  have hp1 := (therm_admits hth o').1 ho'.1
  have key := IsHeatBalance.strictMono c.energetic (κ := 2) (by norm_num) hs.fps_pos hq hw hm hn one_pos
    (fun i hi => (hp0 i (hu ▸ hi)).2.2.2)
    (fun i hi => by
      have := (hp1 i (hu ▸ hi)).2.2.2
      rw [← e1] at this; exact this) r2 r2' (by linarith)
  rw [therm_answer hth, therm_answer hth, hu, nodalList, nodalList]
  refine List.map_congr_left fun i hi => ?_
  have := key i (List.mem_range.1 hi)
  simp only [hη] at this
  linarith

/-- Admissible temperatures that satisfy the heat balance (with twice the conductivity, see C69) are optimal, if the strains of
the step are moderate. -/
theorem C84_balance_optimal (hs : s.Healthy solver domain params ext traction) (hq : GaussRule.new leg 1 = .ok q)
    (hw : ∀ w ∈ q.weights, 0 ≤ w) {k : ℕ} {a b : Step} (ha : s.steps[k]? = some a) (hb : s.steps[k + 1]? = some b)
    (oa : Oriented s.grid s.refined a.yData) (hm : ModerateStrain s.grid s.refined b.yData) {p : Problem}
    (hp : s.calls[2 * k + 1]? = some p) {o : Outcome} (ho : p.Admits o)
    (hbal : ∀ η : NdArray, η.data.length = p.unknowns.length → IsHeatBalance 2 leg params ext s.grid s.refined (k / params.fps)
      a.yData b.yData a.thetaData (NdArray.of1 (p.answer o)) η 0) : p.IsOptimal leg o := by
  obtain ⟨n, hn, hu, hth, V, hV, hd⟩ := therm_value hs hq ha hb oa hm.oriented hp
  obtain ⟨m0, t0, c, -⟩ := hs.history
  refine ⟨ho, _, hV o, fun o' v' had hv' => ?_⟩
  cases (hV o').symm.trans hv'
  set η : ℕ → ℝ := fun i => o'.theta i - o.theta i with hη
  have hb0 := hbal (NdArray.of1 (nodalList n η)) (by simp [nodalList, NdArray.of1, hu])
  rw [therm_answer hth, hu] at hb0
  have hder : ∀ τ : ℝ, ∃ R, HasDerivAt (fun τ => V fun i => o.theta i + τ * η i) R τ ∧ (0 ≤ τ → τ ≤ 1 → 0 ≤ R) := by
    intro τ
    obtain ⟨R, r1, r2⟩ := hd (fun i => o.theta i + τ * η i) η
    refine ⟨R, ?_, fun h0 h1 => ?_⟩
    · have r3 := HasDerivAt.comp (h := fun x : ℝ => x - τ) τ (by simpa using r1) ((hasDerivAt_id τ).sub_const τ)
      rw [mul_one] at r3
      refine r3.congr_of_eventuallyEq (Filter.Eventually.of_forall fun x => ?_)
      simp only [Function.comp]
      congr 1
      funext i
      ring
    · by_contra hneg
      push Not at hneg
      have same : (∀ i < n, o.theta i + τ * η i = o.theta i) → False := by
        intro h
        have e : nodalList n (fun i => o.theta i + τ * η i) = nodalList n o.theta := by
          rw [nodalList, nodalList]
          exact List.map_congr_left fun i hi => h i (List.mem_range.1 hi)
        rw [e] at r2
        obtain ⟨_, _, _, _, _, _, _, _, _, _, h9⟩ := hb0.gap r2
        rw [sub_self, zero_mul] at h9
        linarith
      rcases h0.eq_or_lt with rfl | hτ
      · exact same fun i _ => by ring
      · have hp0 := (therm_admits hth o).1 ho
        have hmid := (therm_admits hth ⟨fun _ _ => 0, fun _ _ => 0, fun i => o.theta i + τ * η i, none⟩).1
          (therm_admits_between hth ho had h0 h1 fun i => rfl)
        have key := IsHeatBalance.strictMono c.energetic (κ := 2) (by norm_num) hs.fps_pos hq hw hm hn hτ
          (fun i hi => (hp0 i (hu ▸ hi)).2.2.2) (fun i hi => (hmid i (hu ▸ hi)).2.2.2) hb0 r2 hneg.le
        exact same fun i hi => by rw [key i hi]; ring
  choose R r1 r2 using hder
  have hmono : MonotoneOn (fun τ => V fun i => o.theta i + τ * η i) (Set.Icc 0 1) := by
    refine monotoneOn_of_deriv_nonneg (convex_Icc 0 1) (fun τ _ => (r1 τ).continuousAt.continuousWithinAt)
      (fun τ _ => (r1 τ).differentiableAt.differentiableWithinAt) fun τ hτ => ?_
    rw [interior_Icc] at hτ
    rw [(r1 τ).deriv]
    exact r2 τ hτ.1.le hτ.2.le
  have := hmono (Set.left_mem_Icc.2 zero_le_one) (Set.right_mem_Icc.2 zero_le_one) zero_le_one
  simp only [zero_mul, add_zero, one_mul] at this
  have e : (fun i => o.theta i + η i) = o'.theta := by funext i; simp only [hη]; ring
  rw [e] at this
  exact this

/-- With a solver that returns its starting point the recorded deformations are all the first one. -/
theorem stay_yData (hs : s.Healthy staySolver domain params ext traction) {a b : Step} {k : ℕ} (ha : s.steps[k]? = some a)
    (hb : s.steps[k + 1]? = some b) : b.yData = a.yData := by
  obtain ⟨m0, t0, c, H⟩ := hs.history
  obtain ⟨m, t, h1, h2, st1, st2, -, S⟩ := H.each k a b ha hb
  rw [S.y, ← S.mech.y]
  have e := stay_load (s.calls.take (2 * k)) m.problem
  rcases m with m | m
  · simp only [MechStep.load, MechStep.problem, Problem.load] at *
    injection e with e
    rw [e]
  · simp only [MechStep.load, MechStep.problem, Problem.load] at *
    injection e with e
    rw [e]

/-- the hypotheses of C84 hold in an example: the deformation stays the identity, and the temperature of every step is unique -/
theorem example_heat (it : SetIter) {params : SimParams} (hp : params = exampleParams ∨ params = exampleParamsReg) :
    ∃ (leg : LegGauss) (q : GaussRule ℝ) (s : Sim), GaussRule.new leg 1 = .ok q ∧ (∀ w ∈ q.weights, 0 ≤ w) ∧
      s.Healthy staySolver exampleDomain params (fun t => .ok (t ^ 2)) (fun t x y => .ok [t + x, y]) ∧ s.steps.length = 6 ∧
      (∀ st ∈ s.steps, ModerateStrain s.grid s.refined st.yData) ∧
      ∀ k < 5, ∃ p o, s.calls[2 * k + 1]? = some p ∧ p.IsOptimal leg o ∧ ∀ o', p.IsOptimal leg o' → p.answer o' = p.answer o := by
  have S : Setup exampleDomain params := by
    rcases hp with rfl | rfl
    · exact exampleSetup
    · exact exampleSetupReg
  have hf : 0 < params.fps := by rcases hp with rfl | rfl <;> norm_num [exampleParams, exampleParamsReg]
  have hq := gauss_new_ok (lg := fun _ => .ok ([0], [2])) (n := 1) (P := [0]) (W := [2]) rfl
  have hw : ∀ w ∈ [(2 : ℝ)].map (fun w => w / 2), 0 ≤ w := by simp
  obtain ⟨-, -, h3, h4, h5, h6⟩ := stay_contracts
  obtain ⟨s, hs⟩ := C55_usable_partial S hf h5 it fun _ => exampleBoundary
  have hh := Sim.Healthy.new S hs
  obtain ⟨s', h8, h9⟩ := C66_succeeds hh h5 h4 h3 (fun _ => exampleBoundary) (n := 4) (by norm_num)
  have hl : s'.steps.length = 6 := by
    have := C60_run hh.reachable h8
    rw [C60_new S hs] at this
    push_cast at this
    omega
  have hc := C61_calls h9
  have hmod : ∀ (k : ℕ) (st : Step), s'.steps[k]? = some st → ModerateStrain s'.grid s'.refined st.yData := by
    obtain ⟨st0, k1, -, -, D, k2, k3⟩ := C68_initial h9.reachable
    obtain ⟨r, hr, Rg⟩ := energyRule_good s'.refined
    intro k
    induction k with
    | zero =>
      intro st hst
      cases k1.symm.trans hst
      refine ⟨D, r, k2, hr, fun t ht b hb => ⟨1, _, _, (k3 t ht b (Rg.inside b hb).1).2.1, austPot_eq (by simp),
        martPot_eq (by simp), ?_⟩⟩
      have e : wM 1 ≤ 1 ∧ wA 1 = 0 := by constructor <;> norm_num [wA, wM, fsq, Matrix.one_apply]
      have := Real.add_one_le_exp 1
      linarith
    | succ k ih =>
      intro st hst
      have : k < s'.steps.length := by have := (List.getElem?_eq_some_iff.1 hst).1; omega
      have hk := List.getElem?_eq_getElem this
      rw [stay_yData h9 hk hst]
      exact ih _ hk
  refine ⟨_, _, s', hq, hw, h9, hl, fun st hst => ?_, fun k hk => ?_⟩
  · obtain ⟨k, hk, rfl⟩ := List.mem_iff_getElem.1 hst
    exact hmod k _ (List.getElem?_eq_getElem hk)
  · have hk1 : k < s'.steps.length := by omega
    have hk2 : k + 1 < s'.steps.length := by omega
    have hk3 : 2 * k + 1 < s'.calls.length := by omega
    have e1 := List.getElem?_eq_getElem hk1
    have e2 := List.getElem?_eq_getElem hk2
    obtain ⟨-, o, ho⟩ := C78_exists h9.reachable hq h4 (h6 _) (List.getElem_mem hk3)
    exact ⟨_, o, List.getElem?_eq_getElem hk3, ho, fun o' ho' =>
      C84_unique h9 hq hw e1 e2 (hmod k _ e1).oriented (hmod _ _ e2) (List.getElem?_eq_getElem hk3) ho' ho⟩

end Tve
