import Verif.Spec.HeatCapacity
import Verif.Lemmas.HeatBalance
import Verif.Props.InterpEval
import Verif.Lemmas.Optimal
import Mathlib.Analysis.Calculus.Deriv.MeanValue
import Mathlib.Order.Monotone.Union

/-!
# The internal energy as a function of the temperature, and the monotonicity of the heat balance
-/

namespace Tve
open Helpers

theorem internalEnergy_eq {F : Matrix (Fin 2) (Fin 2) ℝ} (h : 0 < F.det) (x : ℝ) :
    internalEnergy (matOf F) x =
      .ok ((1 - Real.exp (-5 * x) - x * (5 * Real.exp (-5 * x))) * (wA F - wM F) + 10 * x) := by
  rw [internalEnergy, internalEnergyNoEntropy, weight_eq, bind_ok, austPot_eq h, bind_ok, martPot_eq h.ne']
  rfl

/-- the internal energy as a function of temperature, for a difference `d` of the potentials -/
noncomputable def heatOf (d x : ℝ) : ℝ := (1 - Real.exp (-5 * x) - x * (5 * Real.exp (-5 * x))) * d + 10 * x

theorem heatOf_deriv (d x : ℝ) : HasDerivAt (heatOf d) (10 + 25 * x * Real.exp (-5 * x) * d) x := by
  have h1 : HasDerivAt (fun x : ℝ => Real.exp (-5 * x)) (Real.exp (-5 * x) * (-5 * 1)) x :=
    ((hasDerivAt_id x).const_mul (-5)).exp
  have h2 := ((((hasDerivAt_const x (1 : ℝ)).sub h1).sub ((hasDerivAt_id x).mul (h1.const_mul 5))).mul_const d).add
    ((hasDerivAt_id x).const_mul 10)
  refine h2.congr_deriv ?_
  simp only [id]
  ring

theorem weight_le {x : ℝ} : 5 * x * Real.exp (-5 * x) ≤ Real.exp (-1) := by
  have h := Real.add_one_le_exp (5 * x - 1)
  have : Real.exp (-1) = Real.exp (5 * x - 1) * Real.exp (-5 * x) := by rw [← Real.exp_add]; congr 1; ring
  rw [this]
  exact mul_le_mul_of_nonneg_right (by linarith) (Real.exp_pos _).le

theorem weight_lt {x : ℝ} (hx : x ≠ 1 / 5) : 5 * x * Real.exp (-5 * x) < Real.exp (-1) := by
  have h := Real.add_one_lt_exp (x := 5 * x - 1) (by intro h; apply hx; linarith)
  have : Real.exp (-1) = Real.exp (5 * x - 1) * Real.exp (-5 * x) := by rw [← Real.exp_add]; congr 1; ring
  rw [this]
  exact mul_lt_mul_of_pos_right (by linarith) (Real.exp_pos _)

theorem heatOf_deriv_pos {d x : ℝ} (hd : -(2 * Real.exp 1) ≤ d) (hx : 0 < x) (hne : x ≠ 1 / 5) :
    0 < 10 + 25 * x * Real.exp (-5 * x) * d := by
  have h1 := weight_lt hne
  have h2 : 0 < 5 * x * Real.exp (-5 * x) := by positivity
  have h3 : Real.exp (-1) * Real.exp 1 = 1 := by rw [← Real.exp_add]; simp
  have h4 : 5 * x * Real.exp (-5 * x) * Real.exp 1 < 1 := by
    have := mul_lt_mul_of_pos_right h1 (Real.exp_pos 1)
    rwa [h3] at this
  have h5 : -(2 * (5 * x * Real.exp (-5 * x) * Real.exp 1)) ≤ 5 * x * Real.exp (-5 * x) * d := by
    have := mul_le_mul_of_nonneg_left hd h2.le
    linarith
  linarith

theorem heatOf_strictMono {d : ℝ} (hd : -(2 * Real.exp 1) ≤ d) : StrictMonoOn (heatOf d) (Set.Ici 0) := by
  have hcont : Continuous (heatOf d) := continuous_iff_continuousAt.2 fun x => (heatOf_deriv d x).continuousAt
  have e : Set.Ici (0 : ℝ) = Set.Icc 0 (1 / 5) ∪ Set.Ici (1 / 5) := by
    ext x; simp only [Set.mem_Ici, Set.mem_union, Set.mem_Icc]
    constructor
    · intro h; rcases le_total x (1 / 5) with h' | h'
      · exact .inl ⟨h, h'⟩
      · exact .inr h'
    · rintro (h | h)
      · exact h.1
      · linarith
  rw [e]
  refine StrictMonoOn.union (c := 1 / 5) ?_ ?_ ⟨by norm_num, fun x hx => hx.2⟩ ⟨by simp, fun x hx => hx⟩
  · refine strictMonoOn_of_deriv_pos (convex_Icc _ _) hcont.continuousOn fun x hx => ?_
    rw [interior_Icc] at hx
    rw [(heatOf_deriv d x).deriv]
    exact heatOf_deriv_pos hd hx.1 hx.2.ne
  · refine strictMonoOn_of_deriv_pos (convex_Ici _) hcont.continuousOn fun x hx => ?_
    rw [interior_Ici] at hx
    rw [(heatOf_deriv d x).deriv]
    exact heatOf_deriv_pos hd (by have : (1 : ℝ) / 5 < x := hx; linarith) (ne_of_gt hx)

/-- Beyond `2 e` the internal energy decreases somewhere. -/
theorem heatOf_not_mono {d : ℝ} (hd : d < -(2 * Real.exp 1)) :
    ∃ x y, 0 ≤ x ∧ x < y ∧ heatOf d y < heatOf d x := by
  have h3 : Real.exp (-1) * Real.exp 1 = 1 := by rw [← Real.exp_add]; simp
  have hneg : 10 + 25 * (1 / 5) * Real.exp (-5 * (1 / 5)) * d < 0 := by
    have : Real.exp (-5 * (1 / 5)) = Real.exp (-1) := by norm_num
    rw [this]
    have := mul_lt_mul_of_pos_left hd (Real.exp_pos (-1))
    nlinarith
  have h := heatOf_deriv d (1 / 5)
  by_contra hc
  push Not at hc
  have hm : MonotoneOn (heatOf d) (Set.Ici 0) := by
    intro x hx y hy hxy
    rcases hxy.eq_or_lt with rfl | hlt
    · exact le_rfl
    · exact hc x y hx hlt
  have hd0 : 0 ≤ derivWithin (heatOf d) (Set.Ici 0) (1 / 5) := hm.derivWithin_nonneg
  rw [h.hasDerivWithinAt.derivWithin (uniqueDiffOn_Ici 0 _ (by norm_num))] at hd0
  linarith

/-! ### vertices of triangles, and rules that see all of a triangle -/

theorem vertex_in_triangle {g : Grid ℝ} {nx ny : ℕ} {s : ℝ} (G : LibraryGrid g nx ny s) {v : Vertex}
    (hv : v < g.vertices.length) : ∃ t ∈ g.triangles, ∃ k, t.get k = v := by
  obtain ⟨P, dg, E, T, BV, BE, L⟩ := G.lattice
  rw [L.vertices, List.length_range] at hv
  have hvP : lab P P[v] = v := by
    rw [lab]; exact L.nodupP.idxOf_getElem v hv
  obtain ⟨h1, h2⟩ := (L.memP P[v]).1 (List.getElem_mem hv)
  have hx := L.hx
  have hy := L.hy
  obtain ⟨i, j, e⟩ : ∃ i j, P[v] = (i, j) := ⟨_, _, rfl⟩
  rw [e] at h1 h2 hvP
  simp only at h1 h2
  rw [L.triangles]
  rcases h1.eq_or_lt with hi | hi <;> rcases h2.eq_or_lt with hj | hj
  · obtain ⟨i, rfl⟩ : ∃ i', i = i' + 1 := ⟨i - 1, by omega⟩
    obtain ⟨j, rfl⟩ : ∃ j', j = j' + 1 := ⟨j - 1, by omega⟩
    exact ⟨_, List.mem_map_of_mem ((L.memT ((i, j), (i + 1, j), (i + 1, j + 1))).2 ⟨i, j, by omega, by omega, .inl rfl⟩), 2, hvP⟩
  · obtain ⟨i, rfl⟩ : ∃ i', i = i' + 1 := ⟨i - 1, by omega⟩
    exact ⟨_, List.mem_map_of_mem ((L.memT ((i, j), (i + 1, j), (i + 1, j + 1))).2 ⟨i, j, by omega, by omega, .inl rfl⟩), 1, hvP⟩
  · obtain ⟨j, rfl⟩ : ∃ j', j = j' + 1 := ⟨j - 1, by omega⟩
    exact ⟨_, List.mem_map_of_mem ((L.memT ((i + 1, j + 1), (i, j + 1), (i, j))).2 ⟨i, j, by omega, by omega, .inr rfl⟩), 1, hvP⟩
  · exact ⟨_, List.mem_map_of_mem ((L.memT ((i, j), (i + 1, j), (i + 1, j + 1))).2 ⟨i, j, by omega, by omega, .inl rfl⟩), 0, hvP⟩

theorem rule_points {w : List ℝ} {p : List (ℝ × ℝ)} {r : TriRule ℝ} (h : TriRule.new w p = .ok r) :
    r.points = p.map fun q => Bary.new q.1 q.2 := by
  unfold TriRule.new at h
  split at h
  · cases h
  · split at h
    · cases h
    · cases h; rfl

/-- A function that is affine on a triangle and vanishes at the points of the rule vanishes. -/
theorem energyRule_unisolvent {refined : Option (RefinedGrid ℝ)} {r : TriRule ℝ} (hr : energyRule refined = .ok r)
    {a b c : ℝ} (h : ∀ p ∈ r.points, p.l1 * a + p.l2 * b + p.l3 * c = 0) : a = 0 ∧ b = 0 ∧ c = 0 := by
  cases refined with
  | none =>
    rw [energyRule, dunavant2] at hr
    rw [rule_points hr] at h
    have h1 := h (Bary.new (2 / 3) (1 / 6)) (by simp)
    have h2 := h (Bary.new (1 / 6) (2 / 3)) (by simp)
    have h3 := h (Bary.new (1 / 6) (1 / 6)) (by simp)
    simp only [Bary.new] at h1 h2 h3
    norm_num at h1 h2 h3
    exact ⟨by linarith, by linarith, by linarith⟩
  | some f =>
    rw [energyRule, dunavant5] at hr
    rw [rule_points hr] at h
    have h1 := h (Bary.new (797426985353087 / 10 ^ 15) (101286507323456 / 10 ^ 15)) (by simp)
    have h2 := h (Bary.new (101286507323456 / 10 ^ 15) (797426985353087 / 10 ^ 15)) (by simp)
    have h3 := h (Bary.new (101286507323456 / 10 ^ 15) (101286507323456 / 10 ^ 15)) (by simp)
    simp only [Bary.new] at h1 h2 h3
    norm_num at h1 h2 h3
    exact ⟨by linarith, by linarith, by linarith⟩

theorem quad_add (G : Grid ℝ) (r : TriRule ℝ) (f f' : Tri → Bary ℝ → ℝ) :
    G.quad r (fun t c => f t c + f' t c) = G.quad r f + G.quad r f' := by
  unfold Grid.quad
  rw [← List.sum_map_add]
  congr 1
  refine List.map_congr_left fun t _ => ?_
  rw [← mul_add, ← List.sum_map_add]
  congr 2
  refine List.map_congr_left fun p _ => ?_
  ring

theorem edgeQuad_add (G : Grid ℝ) (es : List Edge) (r : GaussRule ℝ) (f f' : Edge → ℝ → ℝ) :
    G.edgeQuad es r (fun t c => f t c + f' t c) = G.edgeQuad es r f + G.edgeQuad es r f' := by
  unfold Grid.edgeQuad GaussRule.value
  rw [← List.sum_map_add]
  congr 1
  refine List.map_congr_left fun t _ => ?_
  rw [← mul_add, ← List.sum_map_add]
  congr 2
  refine List.map_congr_left fun p _ => ?_
  ring

theorem edgeQuad_nonneg (G : Grid ℝ) (es : List Edge) {r : GaussRule ℝ} (hw : ∀ w ∈ r.weights, 0 ≤ w) {f : Edge → ℝ → ℝ}
    (hf : ∀ e s, 0 ≤ f e s) : 0 ≤ G.edgeQuad es r f := by
  unfold Grid.edgeQuad GaussRule.value
  refine List.sum_nonneg fun z hz => ?_
  obtain ⟨e, -, rfl⟩ := List.mem_map.1 hz
  refine mul_nonneg (Real.sqrt_nonneg _) (List.sum_nonneg fun z hz => ?_)
  obtain ⟨pw, hpw, rfl⟩ := List.mem_map.1 hz
  exact mul_nonneg (hw _ (List.of_mem_zip (a := pw.1) (b := pw.2) hpw).2) (hf _ _)

section
variable {g : Grid ℝ} {refined : Option (RefinedGrid ℝ)}

theorem p1Value_nonneg {n : ℕ} {θ : ℕ → ℝ} (h : ∀ i < n, 0 ≤ θ i) (t : Tri) {c : Bary ℝ} (hc : c.Inside) :
    0 ≤ p1Value (nodalList n θ) t c := by
  have hv : ∀ v, 0 ≤ (nodalList n θ).getD v 0 := by
    intro v
    by_cases hv : v < n
    · rw [nodalList_getD hv]; exact h v hv
    · simp [nodalList, hv, List.getD_eq_getElem?_getD]
  obtain ⟨-, h1, h2, h3⟩ := hc
  exact add_nonneg (add_nonneg (mul_nonneg h1 (hv _)) (mul_nonneg h2 (hv _))) (mul_nonneg h3 (hv _))

/-- The heat balance is strictly monotone in the temperature. -/
theorem IsHeatBalance.strictMono (E : Energetic g refined) {κ : ℝ} (hκ : 0 ≤ κ) {leg : LegGauss} {params : SimParams}
    (hfps : 0 < params.fps) {ext : ExtTemp} {time : ℝ} {q : GaussRule ℝ} (hq : GaussRule.new leg 1 = .ok q)
    (hw : ∀ w ∈ q.weights, 0 ≤ w) {y0 y θ0 : NdArray} (hy : ModerateStrain g refined y) {n : ℕ}
    (hn : (energyGrid g refined).vertices.length = n) {θ η : ℕ → ℝ} {τ : ℝ} (hτ : 0 < τ) (h0 : ∀ i < n, 0 ≤ θ i)
    (h1 : ∀ i < n, 0 ≤ θ i + τ * η i) {R R' : ℝ} (hR : IsHeatBalance κ leg params ext g refined time y0 y θ0 (NdArray.of1 (nodalList n θ)) (NdArray.of1 (nodalList n η)) R)
    (hR' : IsHeatBalance κ leg params ext g refined time y0 y θ0 (NdArray.of1 (nodalList n fun i => θ i + τ * η i))
      (NdArray.of1 (nodalList n η)) R') (hle : R' ≤ R) : ∀ i < n, η i = 0 := by
  obtain ⟨nx, ny, s, L⟩ := E.lib
  obtain ⟨r, F0, F, K, x0, x, z, qq, u, u0, G, H, b, a1, a2, a3, a4, a5, a6, rfl⟩ := hR
  obtain ⟨r', F0', F', K', x0', x', z', qq', u', u0', G', H', b', b1, b2, b3, b4, b5, b6, rfl⟩ := hR'
  cases a1.symm.trans b1
  obtain ⟨r', hr', Rg⟩ := energyRule_good refined
  cases a1.symm.trans hr'
  have hlen : ∀ θ : ℕ → ℝ, (nodalList n θ).length = (energyGrid g refined).vertices.length := fun θ => by
    rw [hn]; simp [nodalList]
  have field : ∀ {θ : ℕ → ℝ} {x G}, IsTempField (energyGrid g refined) r (nodalList n θ) x G →
      ∀ t ∈ (energyGrid g refined).triangles, ∀ c ∈ r.points, x t c = p1Value (nodalList n θ) t c ∧
        G t c = p1Gradient (energyGrid g refined) (nodalList n θ) t c := by
    rintro θ x G ⟨T, t1, t2⟩ t ht c hc
    obtain ⟨T', k1, k2⟩ := tempField L r (hlen θ)
    cases t1.symm.trans k1
    exact ⟨Except.ok.inj ((t2 t ht c hc).1.symm.trans (k2 t ht c hc).1),
      vecOf_inj (Except.ok.inj ((t2 t ht c hc).2.symm.trans (k2 t ht c hc).2))⟩
  obtain ⟨D0, D, T0, c1, c2, c3, c4⟩ := a2
  obtain ⟨D0', D', T0', d1, d2, d3, d4⟩ := b2
  cases c1.symm.trans d1
  cases c2.symm.trans d2
  cases c3.symm.trans d3
  obtain ⟨D', r', e1, e2, e3⟩ := hy
  cases c2.symm.trans e1
  cases a1.symm.trans e2
  have key : ∀ t ∈ (energyGrid g refined).triangles, ∀ c ∈ r.points, K t c = K' t c ∧ qq t c = qq' t c ∧ u0 t c = u0' t c ∧
      z t c = z' t c ∧ H t c = H' t c ∧ G' t c = G t c + τ • H t c ∧ z t c = p1Value (nodalList n η) t c ∧ (K t c).PosDef ∧
      0 ≤ (u' t c - u t c) * z t c ∧ (z t c ≠ 0 → 0 < (u' t c - u t c) * z t c) := by
    intro t ht c hc
    obtain ⟨p1, p2, p3⟩ := c4 t ht c hc
    obtain ⟨p1', p2', p3'⟩ := d4 t ht c hc
    obtain ⟨q1, q2, q3⟩ := a5 t ht c hc
    obtain ⟨q1', q2', q3'⟩ := b5 t ht c hc
    have k1 := matOf_inj (Except.ok.inj (p1.symm.trans p1'))
    have k2 := matOf_inj (Except.ok.inj (p2.symm.trans p2'))
    have k3 := Except.ok.inj (p3.symm.trans p3')
    rw [← k1, ← k2, ← k3] at q1'
    rw [← k2] at q2'
    rw [← k1, ← k3] at q3'
    obtain ⟨F2, A, M, m1, m2, m3, m4⟩ := e3 t ht c hc
    have k4 := matOf_inj (Except.ok.inj (p2.symm.trans m1))
    subst k4
    have hdet : 0 < (F t c).det := by
      have h := q2
      rw [Helpers.internalEnergy] at h
      obtain ⟨e, he⟩ := bind_ok_left h
      exact energy_pos he
    have hdet0 : 0 < (F0 t c).det := by
      have h := q3
      rw [Helpers.internalEnergy] at h
      obtain ⟨e, he⟩ := bind_ok_left h
      exact energy_pos he
    rw [austPot_eq hdet] at m2
    rw [martPot_eq hdet.ne'] at m3
    cases m2
    cases m3
    rw [internalEnergy_eq hdet] at q2 q2'
    have hu : u t c = heatOf (wA (F t c) - wM (F t c)) (x t c) := (Except.ok.inj q2).symm
    have hu' : u' t c = heatOf (wA (F t c) - wM (F t c)) (x' t c) := (Except.ok.inj q2').symm
    have fx := field a3 t ht c hc
    have fx' := field b3 t ht c hc
    have fz := field a4 t ht c hc
    have fz' := field b4 t ht c hc
    have hxx : x' t c = x t c + τ * z t c := by
      rw [fx'.1, fx.1, fz.1, p1Value_add]
    have hGG : G' t c = G t c + τ • H t c := by
      rw [fx'.2, fx.2, fz.2, p1Gradient_add]
    have hx0 : 0 ≤ x t c := by rw [fx.1]; exact p1Value_nonneg h0 t (Rg.inside c hc)
    have hx1 : 0 ≤ x' t c := by rw [fx'.1]; exact p1Value_nonneg h1 t (Rg.inside c hc)
    have mono := heatOf_strictMono (d := wA (F t c) - wM (F t c)) (by linarith)
    have hpos : z t c ≠ 0 → 0 < (u' t c - u t c) * z t c := by
      intro hz
      rw [hu, hu']
      rcases lt_or_gt_of_ne hz with hz | hz
      · have := mono (a := x' t c) (b := x t c) hx1 hx0 (by have := mul_neg_of_pos_of_neg hτ hz; linarith)
        exact mul_pos_of_neg_of_neg (by linarith) hz
      · have := mono (a := x t c) (b := x' t c) hx0 hx1 (by have := mul_pos hτ hz; linarith)
        exact mul_pos (by linarith) hz
    refine ⟨(q1.unique q1').1, (q1.unique q1').2, Except.ok.inj (q3.symm.trans q3'), fz.1.trans fz'.1.symm,
      fz.2.trans fz'.2.symm, hGG, fz.1, (isHeatCoeff_symm q1 hdet0).2, ?_, hpos⟩
    by_cases hz : z t c = 0
    · rw [hz, mul_zero]
    · exact (hpos hz).le
  have hb : 0 ≤ b' - b := by
    by_cases hr : params.regularization = none
    · obtain ⟨g1, ex, k1, k2, rfl⟩ := a6.1 hr
      obtain ⟨g2, ex', k1', k2', rfl⟩ := b6.1 hr
      cases k1.symm.trans k1'
      cases k2.symm.trans k2'
      cases k1.symm.trans hq
      have := edgeQuad_add g g.boundary.edges q (fun ed s => transferCoeff * (s * (nodalList n θ).getD ed.1 0 +
        (1 - s) * (nodalList n θ).getD ed.2 0 - ex) * (s * (nodalList n η).getD ed.1 0 + (1 - s) * (nodalList n η).getD ed.2 0))
        (fun ed s => transferCoeff * τ * (s * (nodalList n η).getD ed.1 0 + (1 - s) * (nodalList n η).getD ed.2 0) ^ 2)
      have hnn := edgeQuad_nonneg g g.boundary.edges hw
        (f := fun ed s => transferCoeff * τ * (s * (nodalList n η).getD ed.1 0 + (1 - s) * (nodalList n η).getD ed.2 0) ^ 2)
        (fun e s => mul_nonneg (mul_nonneg (by norm_num [transferCoeff]) hτ.le) (sq_nonneg _))
      have heq : (fun ed s => transferCoeff * (s * (nodalList n fun i => θ i + τ * η i).getD ed.1 0 +
          (1 - s) * (nodalList n fun i => θ i + τ * η i).getD ed.2 0 - ex) *
            (s * (nodalList n η).getD ed.1 0 + (1 - s) * (nodalList n η).getD ed.2 0)) = fun (ed : Edge) s =>
        transferCoeff * (s * (nodalList n θ).getD ed.1 0 + (1 - s) * (nodalList n θ).getD ed.2 0 - ex) *
          (s * (nodalList n η).getD ed.1 0 + (1 - s) * (nodalList n η).getD ed.2 0) +
        transferCoeff * τ * (s * (nodalList n η).getD ed.1 0 + (1 - s) * (nodalList n η).getD ed.2 0) ^ 2 := by
        funext ed s
        simp only [nodalList_add]
        ring
      show 0 ≤ g.edgeQuad g.boundary.edges q (fun ed s => transferCoeff * (s * (nodalList n fun i => θ i + τ * η i).getD ed.1 0 +
          (1 - s) * (nodalList n fun i => θ i + τ * η i).getD ed.2 0 - ex) *
            (s * (nodalList n η).getD ed.1 0 + (1 - s) * (nodalList n η).getD ed.2 0)) - g.edgeQuad g.boundary.edges q
        (fun ed s => transferCoeff * (s * (nodalList n θ).getD ed.1 0 +
        (1 - s) * (nodalList n θ).getD ed.2 0 - ex) * (s * (nodalList n η).getD ed.1 0 + (1 - s) * (nodalList n η).getD ed.2 0))
      rw [heq, this]
      linarith
    · rw [a6.2 hr, b6.2 hr]; norm_num
  have s1 : (energyGrid g refined).quad r (fun t p => (u' t p - u0' t p) / (1 / params.fps) * z' t p) =
      (energyGrid g refined).quad r (fun t p => (u t p - u0 t p) / (1 / params.fps) * z t p) +
      (energyGrid g refined).quad r (fun t p => params.fps * ((u' t p - u t p) * z t p)) := by
    rw [← quad_add]
    refine quad_congr fun t ht c hc => ?_
    obtain ⟨-, -, p3, p4, -⟩ := key t ht c hc
    rw [← p3, ← p4]
    simp only [one_div, div_inv_eq_mul]
    ring
  have s2 : (energyGrid g refined).quad r (fun t p => qq' t p * z' t p) =
      (energyGrid g refined).quad r (fun t p => qq t p * z t p) :=
    quad_congr fun t ht c hc => by
      obtain ⟨-, p2, -, p5, -⟩ := key t ht c hc
      rw [p2, p5]
  have s3 : (energyGrid g refined).quad r (fun t p => G' t p ⬝ᵥ (κ • K' t p).mulVec (H' t p)) =
      (energyGrid g refined).quad r (fun t p => G t p ⬝ᵥ (κ • K t p).mulVec (H t p)) +
      (energyGrid g refined).quad r (fun t p => τ * (H t p ⬝ᵥ (κ • K t p).mulVec (H t p))) := by
    rw [← quad_add]
    refine quad_congr fun t ht c hc => ?_
    obtain ⟨p1, -, -, -, p5, p6, -⟩ := key t ht c hc
    rw [← p1, ← p5, p6, add_dotProduct, smul_dotProduct, smul_eq_mul]
  have n3 : 0 ≤ (energyGrid g refined).quad r (fun t p => τ * (H t p ⬝ᵥ (κ • K t p).mulVec (H t p))) := by
    refine quad_nonneg Rg fun t ht c hc => ?_
    rw [Matrix.smul_mulVec, dotProduct_smul, smul_eq_mul]
    have := ((key t ht c hc).2.2.2.2.2.2.2.1).posSemidef.dotProduct_mulVec_nonneg (H t c)
    exact mul_nonneg hτ.le (mul_nonneg hκ (by simpa using this))
  have hle' : (energyGrid g refined).quad r (fun t p => params.fps * ((u' t p - u t p) * z t p)) ≤ 0 := by
    rw [s1, s2, s3] at hle
    linarith
  have hz : ∀ t ∈ (energyGrid g refined).triangles, ∀ c ∈ r.points, z t c = 0 := by
    intro t ht c hc
    by_contra hne
    obtain ⟨k, hk, hq⟩ := quad_term Rg E.area_pos ht hc
    have h1 := hq (fun t p => params.fps * ((u' t p - u t p) * z t p)) fun t ht c hc =>
      mul_nonneg hfps.le (key t ht c hc).2.2.2.2.2.2.2.2.1
    have h2 := mul_pos hk (mul_pos hfps ((key t ht c hc).2.2.2.2.2.2.2.2.2 hne))
    linarith
  intro i hi
  obtain ⟨t, ht, k, rfl⟩ := vertex_in_triangle L (v := i) (hn ▸ hi)
  have := energyRule_unisolvent a1 (a := (nodalList n η).getD t.1 0) (b := (nodalList n η).getD t.2.1 0)
    (c := (nodalList n η).getD t.2.2 0) fun p hp => by
      have := (key t ht p hp).2.2.2.2.2.2.1
      rw [hz t ht p hp] at this
      exact this.symm
  have hk : (nodalList n η).getD (t.get k) 0 = 0 := by
    fin_cases k
    · exact this.1
    · exact this.2.1
    · exact this.2.2
  rwa [nodalList_getD hi] at hk

end

end Tve
