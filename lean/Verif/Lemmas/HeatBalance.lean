import Verif.Lemmas.EnergyThermEnv
import Mathlib.Analysis.Calculus.Deriv.Add
import Mathlib.Analysis.Calculus.Deriv.Mul
import Mathlib.Analysis.Calculus.Deriv.Pow

/-!
# The derivative of the thermal objective
-/

namespace Tve

open Bell

/-! ### derivatives of quadratures -/

theorem hasDerivAt_list_sum {α : Type} (l : List α) {f : ℝ → α → ℝ} {f' : α → ℝ} {x : ℝ}
    (h : ∀ a ∈ l, HasDerivAt (fun τ => f τ a) (f' a) x) : HasDerivAt (fun τ => (l.map (f τ)).sum) (l.map f').sum x := by
  induction l with
  | nil => simpa using hasDerivAt_const x (0 : ℝ)
  | cons a l ih =>
    simp only [List.map_cons, List.sum_cons]
    exact (h a (by simp)).add (ih fun b hb => h b (by simp [hb]))

theorem hasDerivAt_quad (g : Grid ℝ) (r : TriRule ℝ) {f : ℝ → Tri → Bary ℝ → ℝ} {f' : Tri → Bary ℝ → ℝ} {x : ℝ}
    (h : ∀ t ∈ g.triangles, ∀ c ∈ r.points, HasDerivAt (fun τ => f τ t c) (f' t c) x) :
    HasDerivAt (fun τ => g.quad r (f τ)) (g.quad r f') x := by
  unfold Grid.quad
  refine hasDerivAt_list_sum _ fun t ht => (hasDerivAt_list_sum _ fun bw hbw => ?_).const_mul _
  exact (h t ht bw.1 (List.of_mem_zip hbw).1).const_mul _

theorem hasDerivAt_edgeQuad (g : Grid ℝ) (es : List Edge) (r : GaussRule ℝ) {f : ℝ → Edge → ℝ → ℝ} {f' : Edge → ℝ → ℝ} {x : ℝ}
    (h : ∀ e ∈ es, ∀ s, HasDerivAt (fun τ => f τ e s) (f' e s) x) :
    HasDerivAt (fun τ => g.edgeQuad es r (f τ)) (g.edgeQuad es r f') x := by
  unfold Grid.edgeQuad GaussRule.value
  refine hasDerivAt_list_sum _ fun e he => (hasDerivAt_list_sum _ fun pw _ => ?_).const_mul _
  exact (h e he pw.1).const_mul _

/-! ### linearity of the temperature in its nodal values -/

/-- the list of nodal values of a function of the vertices -/
noncomputable def nodalList (n : ℕ) (θ : ℕ → ℝ) : List ℝ := (List.range n).map θ

theorem nodalList_getD {n : ℕ} {θ : ℕ → ℝ} {v : ℕ} (hv : v < n) : (nodalList n θ).getD v 0 = θ v := by
  simp [nodalList, hv, List.getD_eq_getElem?_getD]

theorem nodalList_add (n : ℕ) (θ η : ℕ → ℝ) (τ : ℝ) (v : ℕ) :
    (nodalList n fun i => θ i + τ * η i).getD v 0 = (nodalList n θ).getD v 0 + τ * (nodalList n η).getD v 0 := by
  by_cases hv : v < n
  · simp only [nodalList_getD hv]
  · simp [nodalList, hv, List.getD_eq_getElem?_getD]

theorem p1Value_add (n : ℕ) (θ η : ℕ → ℝ) (τ : ℝ) (t : Tri) (c : Bary ℝ) :
    p1Value (nodalList n fun i => θ i + τ * η i) t c = p1Value (nodalList n θ) t c + τ * p1Value (nodalList n η) t c := by
  simp only [p1Value, nodalList_add]
  ring

theorem p1Gradient_add (g : Grid ℝ) (n : ℕ) (θ η : ℕ → ℝ) (τ : ℝ) (t : Tri) (c : Bary ℝ) :
    p1Gradient g (nodalList n fun i => θ i + τ * η i) t c =
      p1Gradient g (nodalList n θ) t c + τ • p1Gradient g (nodalList n η) t c := by
  funext i
  simp only [p1Gradient, nodalList_add, Fin.sum_univ_three, Pi.add_apply, Pi.smul_apply, smul_eq_mul]
  fin_cases i
  · simp only [Fin.zero_eta, Matrix.cons_val_zero]; ring
  · simp only [Fin.mk_one, Matrix.cons_val_one, Matrix.cons_val_fin_one]; ring

/-- the quadratic form of a symmetric matrix along a line -/
theorem quadratic_form (K : Matrix (Fin 2) (Fin 2) ℝ) (hK : K.IsSymm) (G H : Fin 2 → ℝ) (τ : ℝ) :
    (G + τ • H) ⬝ᵥ K.mulVec (G + τ • H) = G ⬝ᵥ K.mulVec G + τ * (2 * (G ⬝ᵥ K.mulVec H)) + τ ^ 2 * (H ⬝ᵥ K.mulVec H) := by
  have h := hK.apply 0 1
  simp only [dotProduct, Matrix.mulVec, Fin.sum_univ_two, Pi.add_apply, Pi.smul_apply, smul_eq_mul]
  rw [h]
  ring

theorem isHeatCoeff_symm {fps x0 q : ℝ} {F0 F K : Matrix (Fin 2) (Fin 2) ℝ} (h : IsHeatCoeff fps F0 F x0 K q)
    (hF : 0 < F0.det) : K.IsSymm ∧ K.PosDef := by
  obtain ⟨K', h1, -, h2, h3⟩ := C52_positive_definite F0 hF
  have : K = K' := matOf_inj (Except.ok.inj (h.1.symm.trans h1))
  rw [this]
  exact ⟨h2, h3⟩

section
variable {g : Grid ℝ} {refined : Option (RefinedGrid ℝ)}

theorem boundaryHeat_deriv {leg : LegGauss} {params : SimParams} {ext : ExtTemp} {time : ℝ} {n : ℕ} {q : GaussRule ℝ}
    (hq : GaussRule.new leg 1 = .ok q) (hext : params.regularization = none → ∃ e, ext time = .ok e) (θ η : ℕ → ℝ) :
    ∃ (b : ℝ → ℝ) (b' : ℝ), (∀ τ, IsBoundaryHeat leg params ext g time (nodalList n fun i => θ i + τ * η i) (b τ)) ∧
      IsBoundaryFlux leg params ext g time (nodalList n θ) (nodalList n η) b' ∧ HasDerivAt b b' 0 := by
  by_cases hr : params.regularization = none
  · obtain ⟨e, he⟩ := hext hr
    refine ⟨fun τ => g.edgeQuad g.boundary.edges q fun ed s =>
        transferCoeff / 2 * (s * (nodalList n fun i => θ i + τ * η i).getD ed.1 0 +
          (1 - s) * (nodalList n fun i => θ i + τ * η i).getD ed.2 0 - e) ^ 2,
      g.edgeQuad g.boundary.edges q fun ed s => transferCoeff * (s * (nodalList n θ).getD ed.1 0 +
        (1 - s) * (nodalList n θ).getD ed.2 0 - e) * (s * (nodalList n η).getD ed.1 0 + (1 - s) * (nodalList n η).getD ed.2 0),
      fun τ => ⟨fun _ => ⟨q, e, hq, he, rfl⟩, fun h => absurd hr h⟩, ⟨fun _ => ⟨q, e, hq, he, rfl⟩, fun h => absurd hr h⟩, ?_⟩
    refine hasDerivAt_edgeQuad _ _ _ fun ed _ s => ?_
    simp only [nodalList_add]
    generalize (nodalList n θ).getD ed.1 0 = a
    generalize (nodalList n θ).getD ed.2 0 = b
    generalize (nodalList n η).getD ed.1 0 = c
    generalize (nodalList n η).getD ed.2 0 = d
    have h0 : HasDerivAt (fun τ : ℝ => s * (a + τ * c) + (1 - s) * (b + τ * d) - e) (s * c + (1 - s) * d) 0 := by
      have h1 := (((hasDerivAt_id (0 : ℝ)).mul_const c).const_add a).const_mul s
      have h2 := (((hasDerivAt_id (0 : ℝ)).mul_const d).const_add b).const_mul (1 - s)
      simpa using (h1.add h2).sub_const e
    have := (h0.pow 2).const_mul (transferCoeff / 2)
    refine this.congr_deriv ?_
    simp
    ring
  · exact ⟨fun _ => 0, 0, fun τ => ⟨fun h => absurd h hr, fun _ => rfl⟩, ⟨fun h => absurd h hr, fun _ => rfl⟩,
      hasDerivAt_const _ _⟩

/-- The objective along a line, its derivative and the heat balance. -/
theorem thermObjective_deriv (E : Energetic g refined) {leg : LegGauss} {params : SimParams} {ext : ExtTemp}
    {time : ℝ} {y0 y θ0 : NdArray} (h0 : Oriented g refined y0) (h : Oriented g refined y) {n : ℕ}
    (hn : (energyGrid g refined).vertices.length = n)
    (hθ0 : θ0.data.length = n) {q : GaussRule ℝ}
    (hq : GaussRule.new leg 1 = .ok q) (hext : params.regularization = none → ∃ e, ext time = .ok e) (θ η : ℕ → ℝ) :
    ∃ (J : ℝ → ℝ) (R : ℝ), (∀ τ, IsThermObjective leg params ext g refined time y0 y θ0
        (NdArray.of1 (nodalList n fun i => θ i + τ * η i)) (J τ)) ∧ HasDerivAt J R 0 ∧
      IsHeatBalance 2 leg params ext g refined time y0 y θ0 (NdArray.of1 (nodalList n θ)) (NdArray.of1 (nodalList n η)) R := by
  obtain ⟨r, hr, hg⟩ := energyRule_good refined
  obtain ⟨F0, F, hs, hd⟩ := heatState_exists E.wf hr h0 h (hθ0.trans hn.symm)
  obtain ⟨nx, ny, s, L⟩ := E.lib
  have hlen : ∀ θ : ℕ → ℝ, (nodalList n θ).length = (energyGrid g refined).vertices.length := fun θ => by
    rw [hn]; simp [nodalList]
  have key : ∀ t ∈ (energyGrid g refined).triangles, ∀ c ∈ r.points,
      ∃ kq : Matrix (Fin 2) (Fin 2) ℝ × ℝ × (ℝ → ℝ) × (ℝ → ℝ) × ℝ,
      IsHeatCoeff params.fps (F0 t c) (F t c) (p1Value θ0.data t c) kq.1 kq.2.1 ∧
      (∀ x, Helpers.tempAntiderInternalEnergyNoEntropy (matOf (F t c)) x = .ok (kq.2.2.1 x)) ∧
      (∀ x, Helpers.internalEnergyNoEntropy (matOf (F t c)) x = .ok (kq.2.2.2.1 x)) ∧
      (∀ x, HasDerivAt kq.2.2.1 (kq.2.2.2.1 x) x) ∧
      Helpers.internalEnergyNoEntropy (matOf (F0 t c)) (p1Value θ0.data t c) = .ok kq.2.2.2.2 := by
    intro t ht c hc
    obtain ⟨d0, d1⟩ := hd t ht c hc
    obtain ⟨K, q, hk⟩ := heatCoeff_exists (F := F t c) d0 params.fps (p1Value θ0.data t c)
    obtain ⟨A, e, hA, he, -, hAe⟩ := C54_antiderivative _ d1
    obtain ⟨A', e', -, he', -⟩ := C54_antiderivative _ d0
    exact ⟨(K, q, A, e, _), hk, hA, he, hAe, he' _⟩
  choose! kq hkq using key
  obtain ⟨b, b', hb, hb', hbd⟩ := boundaryHeat_deriv (g := g) (n := n) hq hext θ η
  set x := p1Value (nodalList n θ) with hx
  set z := p1Value (nodalList n η) with hz
  set G := p1Gradient (energyGrid g refined) (nodalList n θ) with hG
  set H := p1Gradient (energyGrid g refined) (nodalList n η) with hH
  set x0 := p1Value θ0.data with hx0
  have field : ∀ τ : ℝ, IsTempField (energyGrid g refined) r (nodalList n fun i => θ i + τ * η i)
      (fun t c => x t c + τ * z t c) (fun t c => G t c + τ • H t c) := by
    intro τ
    have := tempField L r (hlen fun i => θ i + τ * η i)
    obtain ⟨T, h1, h2⟩ := this
    refine ⟨T, h1, fun t ht c hc => ?_⟩
    have := h2 t ht c hc
    rw [p1Value_add, p1Gradient_add] at this
    exact this
  refine ⟨fun τ => (energyGrid g refined).quad r (fun t c => (G t c + τ • H t c) ⬝ᵥ (kq t c).1.mulVec (G t c + τ • H t c)
      - (kq t c).2.1 * (x t c + τ * z t c)) + b τ + params.fps * (energyGrid g refined).quad r (fun t c =>
        10 / 2 * (x t c + τ * z t c - x0 t c) ^ 2 + ((kq t c).2.2.1 (x t c + τ * z t c)
          - (kq t c).2.2.2.2 * (x t c + τ * z t c))),
    (energyGrid g refined).quad r (fun t p => (((kq t p).2.2.2.1 (x t p) + 10 * x t p) -
        ((kq t p).2.2.2.2 + 10 * x0 t p)) / (1 / params.fps) * z t p) -
      (energyGrid g refined).quad r (fun t p => (kq t p).2.1 * z t p) +
      (energyGrid g refined).quad r (fun t p => G t p ⬝ᵥ ((2 : ℝ) • (kq t p).1).mulVec (H t p)) + b', ?_, ?_, ?_⟩
  · intro τ
    exact ⟨r, F0, F, fun t c => (kq t c).1, x0, fun t c => x t c + τ * z t c, fun t c => (kq t c).2.1,
      fun t c => (kq t c).2.2.1 (x t c + τ * z t c), fun t c => (kq t c).2.2.2.2, fun t c => G t c + τ • H t c, b τ, hr, hs,
      field τ, fun t ht c hc => ⟨(hkq t ht c hc).1, (hkq t ht c hc).2.1 _, (hkq t ht c hc).2.2.2.2⟩, hb τ, rfl⟩
  · have d1 := hasDerivAt_quad (energyGrid g refined) r (x := 0)
      (f := fun τ t c => (G t c + τ • H t c) ⬝ᵥ (kq t c).1.mulVec (G t c + τ • H t c) - (kq t c).2.1 * (x t c + τ * z t c))
      (f' := fun t c => G t c ⬝ᵥ ((2 : ℝ) • (kq t c).1).mulVec (H t c) - (kq t c).2.1 * z t c) (by
        intro t ht c hc
        have hsym := (isHeatCoeff_symm (hkq t ht c hc).1 (hd t ht c hc).1).1
        simp only [quadratic_form _ hsym]
        rw [Matrix.smul_mulVec, dotProduct_smul, smul_eq_mul]
        generalize G t c ⬝ᵥ (kq t c).1.mulVec (G t c) = A
        generalize G t c ⬝ᵥ (kq t c).1.mulVec (H t c) = B
        generalize H t c ⬝ᵥ (kq t c).1.mulVec (H t c) = C
        have e1 : HasDerivAt (fun τ : ℝ => A + τ * (2 * B) + τ ^ 2 * C - (kq t c).2.1 * (x t c + τ * z t c))
            (0 + 1 * (2 * B) + (2 * 0 ^ 1 * 1) * C - (kq t c).2.1 * (0 + 1 * z t c)) 0 := by
          refine HasDerivAt.sub (HasDerivAt.add (HasDerivAt.add (hasDerivAt_const _ _) ?_) ?_)
            (HasDerivAt.const_mul _ (HasDerivAt.add (hasDerivAt_const _ _) ?_))
          · exact (hasDerivAt_id (0 : ℝ)).mul_const _
          · have := ((hasDerivAt_id (0 : ℝ)).pow 2).mul_const C
            simpa using this
          · exact (hasDerivAt_id (0 : ℝ)).mul_const _
        refine e1.congr_deriv ?_
        simp)
    have d2 := hasDerivAt_quad (energyGrid g refined) r (x := 0)
      (f := fun τ t c => 10 / 2 * (x t c + τ * z t c - x0 t c) ^ 2 + ((kq t c).2.2.1 (x t c + τ * z t c)
          - (kq t c).2.2.2.2 * (x t c + τ * z t c)))
      (f' := fun t c => 10 * (x t c - x0 t c) * z t c + ((kq t c).2.2.2.1 (x t c) * z t c - (kq t c).2.2.2.2 * z t c)) (by
        intro t ht c hc
        obtain ⟨-, -, -, hA, -⟩ := hkq t ht c hc
        have l0 : HasDerivAt (fun τ : ℝ => x t c + τ * z t c) (z t c) 0 := by
          simpa using ((hasDerivAt_id (0 : ℝ)).mul_const (z t c)).const_add (x t c)
        have l1 : HasDerivAt (fun τ : ℝ => (kq t c).2.2.1 (x t c + τ * z t c)) ((kq t c).2.2.2.1 (x t c) * z t c) 0 := by
          have := HasDerivAt.comp (h := fun τ : ℝ => x t c + τ * z t c) (0 : ℝ) (hA (x t c + 0 * z t c)) l0
          rw [zero_mul, add_zero] at this
          exact this
        have l2 := ((l0.sub_const (x0 t c)).pow 2).const_mul (10 / 2 : ℝ)
        have l3 := l2.add (l1.sub (l0.const_mul (kq t c).2.2.2.2))
        refine l3.congr_deriv ?_
        simp
        ring)
    refine ((d1.add hbd).add (d2.const_mul params.fps)).congr_deriv ?_
    have lin : ∀ (f f' : Tri → Bary ℝ → ℝ) (a b : ℝ), (energyGrid g refined).quad r (fun t c => a * f t c + b * f' t c) =
        a * (energyGrid g refined).quad r f + b * (energyGrid g refined).quad r f' := by
      intro f f' a b
      unfold Grid.quad
      rw [← List.sum_map_mul_left, ← List.sum_map_mul_left, ← List.sum_map_add]
      congr 1
      refine List.map_congr_left fun t _ => ?_
      rw [mul_left_comm a, mul_left_comm b, ← mul_add]
      congr 1
      rw [← List.sum_map_mul_left, ← List.sum_map_mul_left, ← List.sum_map_add]
      congr 1
      refine List.map_congr_left fun p _ => ?_
      ring
    have q1 := lin (fun t c => G t c ⬝ᵥ ((2 : ℝ) • (kq t c).1).mulVec (H t c)) (fun t c => (kq t c).2.1 * z t c) 1 (-1)
    have q2 := lin (fun t c => 10 * (x t c - x0 t c) * z t c + ((kq t c).2.2.2.1 (x t c) * z t c - (kq t c).2.2.2.2 * z t c))
      (fun t c => 0) params.fps 0
    have q3 : (fun t c => 1 * (G t c ⬝ᵥ ((2 : ℝ) • (kq t c).1).mulVec (H t c)) + -1 * ((kq t c).2.1 * z t c)) =
      fun t c => G t c ⬝ᵥ ((2 : ℝ) • (kq t c).1).mulVec (H t c) - (kq t c).2.1 * z t c := by
      funext t c; ring
    have q4 : (fun t c => params.fps * (10 * (x t c - x0 t c) * z t c +
        ((kq t c).2.2.2.1 (x t c) * z t c - (kq t c).2.2.2.2 * z t c)) + 0 * 0) =
      fun t p => (((kq t p).2.2.2.1 (x t p) + 10 * x t p) - ((kq t p).2.2.2.2 + 10 * x0 t p)) / (1 / params.fps) * z t p := by
      funext t c; rw [div_div_eq_mul_div, div_one]; ring
    rw [q3] at q1
    rw [q4] at q2
    rw [q1, q2]
    ring
  · refine ⟨r, F0, F, fun t c => (kq t c).1, x0, x, z, fun t c => (kq t c).2.1, fun t p => (kq t p).2.2.2.1 (x t p) + 10 * x t p,
      fun t p => (kq t p).2.2.2.2 + 10 * x0 t p, G, H, b', hr, hs, tempField L r (hlen θ), tempField L r (hlen η), ?_, hb', rfl⟩
    intro t ht c hc
    obtain ⟨k1, k2, k3, k4, k5⟩ := hkq t ht c hc
    refine ⟨k1, ?_, ?_⟩
    · rw [Helpers.internalEnergy, k3]; rfl
    · rw [Helpers.internalEnergy, k5]; rfl

end

/-! ### the heat balance depends on the conductivity -/

theorem quad_pos {G : Grid ℝ} {r : TriRule ℝ} (R : r.Good) {F : Tri → Bary ℝ → ℝ} (hne : G.triangles ≠ [])
    (ha : ∀ t ∈ G.triangles, 0 < triArea G.xy t) (h : ∀ t ∈ G.triangles, ∀ c ∈ r.points, 0 < F t c) : 0 < G.quad r F := by
  rw [Grid.quad]
  refine List.sum_pos _ ?_ (by simpa using hne)
  intro z hz
  obtain ⟨t, ht, rfl⟩ := List.mem_map.1 hz
  refine mul_pos (ha t ht) (List.sum_pos _ ?_ ?_)
  · intro w hw
    obtain ⟨bw, hbw, rfl⟩ := List.mem_map.1 hw
    have := List.of_mem_zip (a := bw.1) (b := bw.2) hbw
    exact mul_pos (R.pos _ this.2) (h t ht _ this.1)
  · have := R.ne
    have hl := R.len
    intro h0
    have := congrArg List.length h0
    simp only [List.length_map, List.length_zip, List.length_nil, ← hl, min_self] at this
    exact R.ne (List.length_eq_zero_iff.1 this)

theorem vecOf_inj {n : ℕ} {f g : Fin n → ℝ} (h : vecOf f = vecOf g) : f = g := by
  simpa [vecOf] using h

theorem IsBoundaryFlux.unique {leg : LegGauss} {params : SimParams} {ext : ExtTemp} {g : Grid ℝ} {time : ℝ} {θ η : List ℝ}
    {b b' : ℝ} (h : IsBoundaryFlux leg params ext g time θ η b) (h' : IsBoundaryFlux leg params ext g time θ η b') : b = b' := by
  by_cases hr : params.regularization = none
  · obtain ⟨r, e, h1, h2, rfl⟩ := h.1 hr
    obtain ⟨r', e', h1', h2', rfl⟩ := h'.1 hr
    cases h1.symm.trans h1'
    cases h2.symm.trans h2'
    rfl
  · rw [h.2 hr, h'.2 hr]

section
variable {g : Grid ℝ} {refined : Option (RefinedGrid ℝ)}

theorem IsHeatCoeff.unique {fps x0 : ℝ} {F0 F K K' : Matrix (Fin 2) (Fin 2) ℝ} {q q' : ℝ} (h : IsHeatCoeff fps F0 F x0 K q)
    (h' : IsHeatCoeff fps F0 F x0 K' q') : K = K' ∧ q = q' := by
  obtain ⟨h1, ξ, A, h2, h3, rfl⟩ := h
  obtain ⟨h1', ξ', A', h2', h3', rfl⟩ := h'
  cases matOf_inj (Except.ok.inj (h1.symm.trans h1'))
  cases h2.symm.trans h2'
  cases matOf_inj (Except.ok.inj (h3.symm.trans h3'))
  exact ⟨rfl, rfl⟩

theorem IsHeatBalance.gap {κ κ' : ℝ} {leg : LegGauss} {params : SimParams} {ext : ExtTemp} {time : ℝ}
    {y0 y θ0 θ η : NdArray} {R R' : ℝ} (h : IsHeatBalance κ leg params ext g refined time y0 y θ0 θ η R)
    (h' : IsHeatBalance κ' leg params ext g refined time y0 y θ0 θ η R') :
    ∃ (r : TriRule ℝ) (K : Tri → Bary ℝ → Matrix (Fin 2) (Fin 2) ℝ) (x z : Tri → Bary ℝ → ℝ) (G H : Tri → Bary ℝ → Fin 2 → ℝ),
      energyRule refined = .ok r ∧
      (∀ t ∈ (energyGrid g refined).triangles, ∀ c ∈ r.points, (K t c).PosDef) ∧
      IsTempField (energyGrid g refined) r θ.data x G ∧ IsTempField (energyGrid g refined) r η.data z H ∧
      R' - R = (κ' - κ) * (energyGrid g refined).quad r (fun t c => G t c ⬝ᵥ (K t c).mulVec (H t c)) := by
  obtain ⟨r, F0, F, K, x0, x, z, q, u, u0, G, H, b, a1, a2, a3, a4, a5, a6, rfl⟩ := h
  obtain ⟨r', F0', F', K', x0', x', z', q', u', u0', G', H', b', b1, b2, b3, b4, b5, b6, rfl⟩ := h'
  cases a1.symm.trans b1
  cases a6.unique b6
  refine ⟨r, K, x, z, G, H, a1, fun t ht c hc => ?_, a3, a4, ?_⟩
  · have := a5 t ht c hc
    have h := this.2.2
    rw [Helpers.internalEnergy] at h
    obtain ⟨e, he⟩ := bind_ok_left h
    exact (isHeatCoeff_symm this.1 (energy_pos he)).2
  obtain ⟨D0, D, T0, c1, c2, c3, c4⟩ := a2
  obtain ⟨D0', D', T0', d1, d2, d3, d4⟩ := b2
  cases c1.symm.trans d1
  cases c2.symm.trans d2
  cases c3.symm.trans d3
  obtain ⟨T, e1, e2⟩ := a3
  obtain ⟨T', f1, f2⟩ := b3
  cases e1.symm.trans f1
  obtain ⟨S, e3, e4⟩ := a4
  obtain ⟨S', f3, f4⟩ := b4
  cases e3.symm.trans f3
  have eq : ∀ t ∈ (energyGrid g refined).triangles, ∀ c ∈ r.points, K t c = K' t c ∧ q t c = q' t c ∧ u t c = u' t c ∧
      u0 t c = u0' t c ∧ z t c = z' t c ∧ G t c = G' t c ∧ H t c = H' t c := by
    intro t ht c hc
    obtain ⟨p1, p2, p3⟩ := c4 t ht c hc
    obtain ⟨p1', p2', p3'⟩ := d4 t ht c hc
    obtain ⟨q1, q2, q3⟩ := a5 t ht c hc
    obtain ⟨q1', q2', q3'⟩ := b5 t ht c hc
    have k1 := matOf_inj (Except.ok.inj (p1.symm.trans p1'))
    have k2 := matOf_inj (Except.ok.inj (p2.symm.trans p2'))
    have k3 := Except.ok.inj (p3.symm.trans p3')
    have k4 := Except.ok.inj ((e2 t ht c hc).1.symm.trans (f2 t ht c hc).1)
    rw [← k1, ← k2, ← k3] at q1'
    rw [← k2, ← k4] at q2'
    rw [← k1, ← k3] at q3'
    exact ⟨(q1.unique q1').1, (q1.unique q1').2, Except.ok.inj (q2.symm.trans q2'), Except.ok.inj (q3.symm.trans q3'),
      Except.ok.inj ((e4 t ht c hc).1.symm.trans (f4 t ht c hc).1),
      vecOf_inj (Except.ok.inj ((e2 t ht c hc).2.symm.trans (f2 t ht c hc).2)),
      vecOf_inj (Except.ok.inj ((e4 t ht c hc).2.symm.trans (f4 t ht c hc).2))⟩
  have s1 : (energyGrid g refined).quad r (fun t p => (u' t p - u0' t p) / (1 / params.fps) * z' t p) =
      (energyGrid g refined).quad r (fun t p => (u t p - u0 t p) / (1 / params.fps) * z t p) :=
    quad_congr fun t ht c hc => by
      obtain ⟨-, -, p3, p4, p5, -⟩ := eq t ht c hc
      rw [p3, p4, p5]
  have s2 : (energyGrid g refined).quad r (fun t p => q' t p * z' t p) =
      (energyGrid g refined).quad r (fun t p => q t p * z t p) :=
    quad_congr fun t ht c hc => by
      obtain ⟨-, p2, -, -, p5, -⟩ := eq t ht c hc
      rw [p2, p5]
  have s3 : ∀ κ : ℝ, (energyGrid g refined).quad r (fun t p => G t p ⬝ᵥ (κ • K t p).mulVec (H t p)) =
      κ * (energyGrid g refined).quad r (fun t p => G t p ⬝ᵥ (K t p).mulVec (H t p)) := by
    intro κ
    unfold Grid.quad
    rw [← List.sum_map_mul_left]
    congr 1
    refine List.map_congr_left fun t _ => ?_
    rw [mul_left_comm κ, ← List.sum_map_mul_left (r := κ)]
    congr 2
    refine List.map_congr_left fun p _ => ?_
    simp only
    rw [Matrix.smul_mulVec, dotProduct_smul, smul_eq_mul]
    ring
  have s4 : (energyGrid g refined).quad r (fun t p => G' t p ⬝ᵥ (κ' • K' t p).mulVec (H' t p)) =
      (energyGrid g refined).quad r (fun t p => G t p ⬝ᵥ (κ' • K t p).mulVec (H t p)) :=
    quad_congr fun t ht c hc => by
      obtain ⟨p1, -, -, -, -, p6, p7⟩ := eq t ht c hc
      rw [p1, p6, p7]
  rw [s1, s2, s4, s3, s3]
  ring

/-- a temperature for which conduction matters -/
theorem conduction_pos (E : Energetic g refined) {r : TriRule ℝ} (hr : energyRule refined = .ok r)
    {K : Tri → Bary ℝ → Matrix (Fin 2) (Fin 2) ℝ} {x z : Tri → Bary ℝ → ℝ} {G H : Tri → Bary ℝ → Fin 2 → ℝ}
    (hK : ∀ t ∈ (energyGrid g refined).triangles, ∀ c ∈ r.points, (K t c).PosDef) {n : ℕ}
    (hn : (energyGrid g refined).vertices.length = n)
    (h1 : IsTempField (energyGrid g refined) r (nodalList n fun v => ((energyGrid g refined).xy v).1) x G)
    (h2 : IsTempField (energyGrid g refined) r (nodalList n fun v => ((energyGrid g refined).xy v).1) z H) :
    0 < (energyGrid g refined).quad r (fun t c => G t c ⬝ᵥ (K t c).mulVec (H t c)) := by
  obtain ⟨nx, ny, s, L⟩ := E.lib
  obtain ⟨p1, p2, p3, p4, p5, -, p6, -⟩ := C22_structure L
  obtain ⟨r', hr', R⟩ := energyRule_good refined
  cases hr.symm.trans hr'
  have grad : ∀ {x G}, IsTempField (energyGrid g refined) r (nodalList n fun v => ((energyGrid g refined).xy v).1) x G →
      ∀ t ∈ (energyGrid g refined).triangles, ∀ c ∈ r.points, G t c = ![1, 0] := by
    rintro x G ⟨T, t1, t2⟩ t ht c hc
    have := (C34_reproduces_affine L.wellFormed t1 ht (L.nondegenerate ht) 0 1 0 (fun v q hq => by
      have hv : v < n := by
        have := at_lt hq
        rw [← hn, p4, List.length_range, ← p5]
        exact this
      rw [← xy_of_at hq]
      simp [nodalList, hv]) c (R.inside c hc).1).2
    exact vecOf_inj (Except.ok.inj ((t2 t ht c hc).2.symm.trans this))
  refine quad_pos R ?_ ?_ ?_
  · intro h0
    rw [h0] at p6
    have : 0 < nx * ny := Nat.mul_pos p2 p3
    simp at p6
    omega
  · intro t ht
    rw [library_area L ht]
    positivity
  · intro t ht c hc
    rw [grad h1 t ht c hc, grad h2 t ht c hc]
    have := (hK t ht c hc).dotProduct_mulVec_pos (x := ![1, 0]) (by
      intro h; have := congrFun h 0; simp at this)
    simpa using this

end

end Tve
