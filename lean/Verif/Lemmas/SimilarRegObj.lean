import Verif.Lemmas.SimilarReg
import Verif.Lemmas.SimilarGrid
import Verif.Props.FirstLaw

/-! Objectives of regularized simulations for the image of a deformation under a similarity. -/

namespace Tve
open Helpers RectGrid

noncomputable section

theorem dunavant5_inner : ∃ r, dunavant5 ℝ = .ok r ∧ r.Good ∧ ∀ b ∈ r.points, b.Inner := by
  obtain ⟨r, h1, h2, -, h3⟩ := rule_good (weights := [(225 / 1000 : ℝ),
     132394152788506 / 10 ^ 15, 132394152788506 / 10 ^ 15, 132394152788506 / 10 ^ 15,
     125939180544827 / 10 ^ 15, 125939180544827 / 10 ^ 15, 125939180544827 / 10 ^ 15])
    (points := [(1 / 3, 1 / 3),
     (59715871789770 / 10 ^ 15, 470142064105115 / 10 ^ 15),
     (470142064105115 / 10 ^ 15, 59715871789770 / 10 ^ 15),
     (470142064105115 / 10 ^ 15, 470142064105115 / 10 ^ 15),
     (797426985353087 / 10 ^ 15, 101286507323456 / 10 ^ 15),
     (101286507323456 / 10 ^ 15, 797426985353087 / 10 ^ 15),
     (101286507323456 / 10 ^ 15, 101286507323456 / 10 ^ 15)])
    (by intro p hp; simp only [List.mem_cons, List.not_mem_nil, or_false] at hp
        rcases hp with rfl | rfl | rfl | rfl | rfl | rfl | rfl <;> norm_num) (by norm_num [abs_le]) rfl
    (by intro w hw; simp only [List.mem_cons, List.not_mem_nil, or_false] at hw
        rcases hw with rfl | rfl | rfl | rfl | rfl | rfl | rfl <;> norm_num) (by simp)
  refine ⟨r, h1, h2, fun b hb => ?_⟩
  have hn := (h2.inside b hb).1
  have hm : (b.l1, b.l2) ∈ r.points.map (fun b => (b.l1, b.l2)) := List.mem_map_of_mem hb
  rw [h3] at hm
  have : 0 < b.l1 ∧ 0 < b.l2 ∧ b.l1 + b.l2 < 1 := by
    generalize b.l1 = x at hm
    generalize b.l2 = z at hm
    simp only [List.mem_cons, List.not_mem_nil, or_false, Prod.mk.injEq] at hm
    rcases hm with ⟨rfl, rfl⟩ | ⟨rfl, rfl⟩ | ⟨rfl, rfl⟩ | ⟨rfl, rfl⟩ | ⟨rfl, rfl⟩ | ⟨rfl, rfl⟩ | ⟨rfl, rfl⟩ <;> norm_num
  refine ⟨hn, this.1, this.2.1, ?_⟩
  rw [Bary.Normalized] at hn
  linarith [this.2.2]

/-- a rule used by regularized simulations: its points lie inside the triangle -/
theorem rule_inner {refined : RefinedGrid ℝ} : ∃ r, energyRule (some refined) = .ok r ∧ dissipationRule (some refined) = .ok r ∧
    dunavant5 ℝ = .ok r ∧ r.Good ∧ ∀ b ∈ r.points, b.Inner := by
  obtain ⟨r, h1, h2, h3⟩ := dunavant5_inner
  exact ⟨r, h1, h1, h1, h2, h3⟩

theorem LatImage.meshImage {g g' : Grid ℝ} {nx ny nx' ny' : ℕ} {h h' : ℝ} {T : Similarity} {ρ : LP → LP}
    {φ : FixOption → FixOption} (L : LatImage nx ny nx' ny' T h h' ρ φ) (G : LibraryGrid g nx ny h)
    (G' : LibraryGrid g' nx' ny' h') : ∃ σ, Grid.MeshImage T σ g g' := by
  obtain ⟨P, dg, E, Tr, BV, BE, M⟩ := G.lattice
  obtain ⟨P', dg', E', Tr', BV', BE', M'⟩ := G'.lattice
  set σ : Vertex → Vertex := fun v => lab P' (ρ (co P v)) with hσ
  have σlab : ∀ {a}, InBox nx ny a → σ (lab P a) = lab P' (ρ a) := by
    intro a ha
    simp only [hσ]
    rw [co_lab ((M.memP a).2 ha)]
  have vert : ∀ {v}, v ∈ g.vertices → ∃ a, InBox nx ny a ∧ v = lab P a := by
    intro v hv
    rw [M.vertices, List.mem_range] at hv
    exact ⟨co P v, (M.memP _).1 (co_mem hv), (lab_co M.nodupP hv).symm⟩
  have memT : ∀ {a b c}, InBox nx ny a → InBox nx ny b → InBox nx ny c →
      ((lab P a, lab P b, lab P c) ∈ g.triangles ↔ LatTri nx ny (a, b, c)) := by
    intro a b c ha hb hc
    rw [M.triangles, List.mem_map]
    constructor
    · rintro ⟨⟨x, y, z⟩, ht, e⟩
      simp only [labT, Prod.mk.injEq] at e
      rw [← lab_inj ((M.memP a).2 ha) e.1.symm, ← lab_inj ((M.memP b).2 hb) e.2.1.symm, ← lab_inj ((M.memP c).2 hc) e.2.2.symm] at ht
      exact (M.memT _).1 ht
    · intro ht
      exact ⟨_, (M.memT _).2 ht, rfl⟩
  have memT' : ∀ {a b c}, InBox nx' ny' a → InBox nx' ny' b → InBox nx' ny' c →
      ((lab P' a, lab P' b, lab P' c) ∈ g'.triangles ↔ LatTri nx' ny' (a, b, c)) := by
    intro a b c ha hb hc
    rw [M'.triangles, List.mem_map]
    constructor
    · rintro ⟨⟨x, y, z⟩, ht, e⟩
      simp only [labT, Prod.mk.injEq] at e
      rw [← lab_inj ((M'.memP a).2 ha) e.1.symm, ← lab_inj ((M'.memP b).2 hb) e.2.1.symm,
        ← lab_inj ((M'.memP c).2 hc) e.2.2.symm] at ht
      exact (M'.memT _).1 ht
    · intro ht
      exact ⟨_, (M'.memT _).2 ht, rfl⟩
  refine ⟨σ, ?_, ?_, ?_⟩
  · rw [M.points, M'.points, List.length_map, List.length_map, M.lengthP, M'.lengthP, L.count]
  · intro v q hv
    obtain ⟨a, ha, rfl, rfl⟩ := M.at_iff.1 hv
    have hb := (M.memP a).1 ha
    rw [σlab hb, ← L.pos a hb]
    exact M'.at_lab ((M'.memP _).2 (L.box a hb))
  · intro u hu v hv w hw
    obtain ⟨a, ha, rfl⟩ := vert hu
    obtain ⟨b, hb, rfl⟩ := vert hv
    obtain ⟨c, hc, rfl⟩ := vert hw
    rw [memT ha hb hc, L.tri a b c ha hb hc, Similarity.tri]
    cases T.swap
    · simp only [Bool.false_eq_true, if_false]
      rw [σlab ha, σlab hb, σlab hc, memT' (L.box a ha) (L.box b hb) (L.box c hc)]
    · simp only [if_true]
      rw [σlab ha, σlab hb, σlab hc, memT' (L.box c hc) (L.box b hb) (L.box a ha)]

/-- a coarse and a refined grid and their images -/
structure RegImage (T : Similarity) (σ σr : Vertex → Vertex) (g g' : Grid ℝ) (r r' : RefinedGrid ℝ) : Prop where
  swap : T.swap = false
  coarse : SimilarMesh T σ g g'
  fine : SimilarMesh T σr r.toGrid r'.toGrid
  lib : ∃ (nx ny n : ℕ) (s : ℝ) (d : RectDomain ℝ), LibraryGrid g nx ny s ∧ 1 ≤ n ∧ 1 / 10 ^ 15 ≤ s / n ∧ d.refine g n = .ok r
  lib' : ∃ (nx ny n : ℕ) (s : ℝ) (d : RectDomain ℝ), LibraryGrid g' nx ny s ∧ 1 ≤ n ∧ 1 / 10 ^ 15 ≤ s / n ∧ d.refine g' n = .ok r'

namespace RegImage
variable {T : Similarity} {σ σr : Vertex → Vertex} {g g' : Grid ℝ} {r r' : RefinedGrid ℝ}
  {y0 y0' y y' θ0 θ0' θ θ' : NdArray}

theorem conj_eq (h : T.swap = false) (F : Matrix (Fin 2) (Fin 2) ℝ) : T.conj F = F := by
  simp [Similarity.conj, h]

theorem bary_eq (h : T.swap = false) (b : Bary ℝ) : T.bary b = b := by simp [Similarity.bary, h]

variable (R : RegImage T σ σr g g' r r')
include R

theorem strains (hy : NdArray.ImageDeformationC1 T σ g.points.length y y') {q : TriRule ℝ} (hq : ∀ b ∈ q.points, b.Inner) :
    StrainImage T σr g g' (some r) (some r') q y y' := by
  obtain ⟨nx, ny, n, s, d, G, hn, hs, hr⟩ := R.lib
  obtain ⟨nx', ny', n', s', d', G', hn', hs', hr'⟩ := R.lib'
  obtain ⟨D, D', F, H, h1, h2, h3⟩ := reg_image R.coarse R.fine R.swap G hn hs hr G' hn' hs' hr' hy
  refine ⟨D, D', F, h1, h2, fun t ht b hb => ?_⟩
  rw [conj_eq R.swap, bary_eq R.swap]
  obtain ⟨k1, k2, -⟩ := h3 t ht b (hq b hb)
  exact ⟨k1, k2⟩

theorem noSymm {q : TriRule ℝ} : T.swap = true → q.Symm := fun h => by rw [R.swap] at h; cases h

theorem elastic (hy : NdArray.ImageDeformationC1 T σ g.points.length y y')
    (hθ : NdArray.ImageTemperature σr r.toGrid.points.length θ θ') (E : ℝ) :
    IsElasticEnergy g (some r) y θ E ↔ IsElasticEnergy g' (some r') y' θ' (T.κ ^ 2 * E) := by
  obtain ⟨q, h1, h2, h3, -, h4⟩ := rule_inner (refined := r)
  exact SimilarMesh.elastic_gen (ρ := some r) (ρ' := some r') R.fine h1 h1 R.noSymm (R.strains hy h4) hθ E

theorem dissipation (hy0 : NdArray.ImageDeformationC1 T σ g.points.length y0 y0')
    (hy : NdArray.ImageDeformationC1 T σ g.points.length y y') (d : ℝ) :
    IsDissipation g (some r) y0 y d ↔ IsDissipation g' (some r') y0' y' (T.κ ^ 2 * d) := by
  obtain ⟨q, h1, h2, h3, -, h4⟩ := rule_inner (refined := r)
  exact SimilarMesh.dissipation_gen (ρ := some r) (ρ' := some r') R.fine h2 h2 R.noSymm (R.strains hy0 h4) (R.strains hy h4) d

theorem oriented (hy : NdArray.ImageDeformationC1 T σ g.points.length y y') : Oriented g (some r) y ↔ Oriented g' (some r') y' := by
  obtain ⟨q, h1, h2, h3, -, h4⟩ := rule_inner (refined := r)
  exact SimilarMesh.oriented_gen (ρ := some r) (ρ' := some r') R.fine h1 h1 R.noSymm (R.strains hy h4)

theorem hyper (hy : NdArray.ImageDeformationC1 T σ g.points.length y y') (h : ℝ) :
    IsHyperEnergy g r y h ↔ IsHyperEnergy g' r' y' (h / |T.κ|) := by
  obtain ⟨q, -, -, hq, -, hin⟩ := rule_inner (refined := r)
  obtain ⟨nx, ny, n, s, d, G, hn, hs, hr⟩ := R.lib
  obtain ⟨nx', ny', n', s', d', G', hn', hs', hr'⟩ := R.lib'
  obtain ⟨D, D', F, H, h1, h2, h3⟩ := reg_image R.coarse R.fine R.swap G hn hs hr G' hn' hs' hr' hy
  have k0 : 0 < |T.κ| := abs_pos.2 R.fine.ne
  have ks : T.κ ^ 2 = |T.κ| ^ 2 := (sq_abs _).symm
  have e3 : ∀ t b, hyperElasticPotential (tenOf fun i j k => T.κ⁻¹ * H t b i j k) =
      |T.κ|⁻¹ ^ 3 * hyperElasticPotential (tenOf (H t b)) := by
    intro t b
    rw [(C70_value (H t b)).2.2.2 T.κ⁻¹, abs_inv]
  have kc : T.κ ^ 2 * |T.κ|⁻¹ ^ 3 = |T.κ|⁻¹ := by
    rw [ks]; field_simp
  constructor
  · rintro ⟨D1, r1, W, k1, k2, k3, k4⟩
    cases h1.symm.trans k1
    cases hq.symm.trans k2
    obtain ⟨W', hW'⟩ := R.fine.transfer R.noSymm (fun x => |T.κ|⁻¹ ^ 3 * x) W
    refine ⟨D', q, W', h2, hq, (R.fine.forall_image R.noSymm).2 fun t ht b hb => ?_, ?_⟩
    · obtain ⟨H1, m1, m2⟩ := k3 t ht b hb
      obtain ⟨-, -, a1, a2⟩ := h3 t ht b (hin b hb)
      cases a1.symm.trans m1
      rw [hW' t ht b hb, bary_eq R.swap, m2]
      exact ⟨_, a2, (e3 t b).symm⟩
    · rw [k4, R.fine.quad_image R.noSymm (f := fun t b => |T.κ|⁻¹ ^ 3 * W t b) hW', quad_mul, ← mul_assoc, kc, div_eq_inv_mul]
  · rintro ⟨D1, r1, W', k1, k2, k3, k4⟩
    cases h2.symm.trans k1
    cases hq.symm.trans k2
    refine ⟨D, q, fun t b => |T.κ| ^ 3 * W' (T.tri σr t) (T.bary b), h1, hq, fun t ht b hb => ?_, ?_⟩
    · obtain ⟨H1, m1, m2⟩ := (R.fine.forall_image R.noSymm).1 k3 t ht b hb
      obtain ⟨-, -, a1, a2⟩ := h3 t ht b (hin b hb)
      rw [bary_eq R.swap] at m1
      cases a2.symm.trans m1
      refine ⟨_, a1, ?_⟩
      simp only
      rw [m2, e3, ← mul_assoc, ← mul_pow, mul_inv_cancel₀ k0.ne', one_pow, one_mul]
    · have := R.fine.quad_image (r := q) R.noSymm (f := fun t b => W' (T.tri σr t) (T.bary b)) (f' := W') fun _ _ _ _ => rfl
      rw [quad_mul]
      rw [this, ks] at k4
      have k0' := k0.ne'
      field_simp at k4 ⊢
      linarith

theorem mech {leg : LegGauss} {traction traction' : Traction} {params params' : SimParams} (hf : params'.fps = params.fps) {c : ℝ}
    (hr : params.regularization = some c) (hr' : params'.regularization = some (|T.κ| ^ 3 * c)) {time time' : ℝ}
    (hy0 : NdArray.ImageDeformationC1 T σ g.points.length y0 y0') (hy : NdArray.ImageDeformationC1 T σ g.points.length y y')
    (hθ : NdArray.ImageTemperature σr r.toGrid.points.length θ θ') (v : ℝ) :
    IsMechObjective leg params traction g (some r) time y0 y θ v ↔
      IsMechObjective leg params' traction' g' (some r') time' y0' y' θ' (T.κ ^ 2 * v) := by
  have k0 : 0 < |T.κ| := abs_pos.2 R.fine.ne
  have ks : T.κ ^ 2 = |T.κ| ^ 2 := (sq_abs _).symm
  have k2 : T.κ ^ 2 ≠ 0 := pow_ne_zero _ R.fine.ne
  constructor
  · rintro ⟨E, d, h1, h2, -, h3⟩
    obtain ⟨_, h, ⟨⟩, h4, rfl⟩ := h3 c hr
    refine ⟨_, _, (R.elastic hy hθ E).1 h1, (R.dissipation hy0 hy d).1 h2, fun h => (by rw [hr'] at h; cases h), fun c' hc' => ?_⟩
    cases hr'.symm.trans hc'
    refine ⟨r', _, rfl, (R.hyper hy h).1 h4, ?_⟩
    rw [hf, ks]
    field_simp
  · rintro ⟨E', d', h1, h2, -, h3⟩
    obtain ⟨_, h', ⟨⟩, h4, h5⟩ := h3 _ hr'
    have e1 : T.κ ^ 2 * (E' / T.κ ^ 2) = E' := mul_div_cancel₀ _ k2
    have e2 : T.κ ^ 2 * (d' / T.κ ^ 2) = d' := mul_div_cancel₀ _ k2
    have e3 : h' * |T.κ| / |T.κ| = h' := mul_div_cancel_right₀ _ k0.ne'
    refine ⟨_, _, (R.elastic hy hθ (E' / T.κ ^ 2)).2 (by rwa [e1]), (R.dissipation hy0 hy (d' / T.κ ^ 2)).2 (by rwa [e2]),
      fun h => (by rw [hr] at h; cases h), fun c' hc' => ?_⟩
    cases hr.symm.trans hc'
    refine ⟨r, h' * |T.κ|, rfl, (R.hyper hy _).2 (by rwa [e3]), ?_⟩
    refine mul_left_cancel₀ k2 ?_
    rw [h5, hf, mul_add, mul_add, e1, mul_left_comm _ params.fps, e2, ks]
    ring

/-- the objective of the thermal step for half turns -/
theorem therm (hκ : T.κ ^ 2 = 1) {leg : LegGauss} {params params' : SimParams} (hf : params'.fps = params.fps)
    (hr : params.regularization ≠ none) (hr' : params'.regularization ≠ none) {ext ext' : ExtTemp} {time time' : ℝ}
    (hy0 : NdArray.ImageDeformationC1 T σ g.points.length y0 y0') (hy : NdArray.ImageDeformationC1 T σ g.points.length y y')
    (hθ0 : NdArray.ImageTemperature σr r.toGrid.points.length θ0 θ0')
    (hθ : NdArray.ImageTemperature σr r.toGrid.points.length θ θ') (v : ℝ) :
    IsThermObjective leg params ext g (some r) time y0 y θ0 θ v ↔
      IsThermObjective leg params' ext' g' (some r') time' y0' y' θ0' θ' v := by
  obtain ⟨q, h1, h2, h3, -, h4⟩ := rule_inner (refined := r)
  refine SimilarMesh.therm_gen (ρ := some r) (ρ' := some r') R.fine hκ h1 h1 R.noSymm hf (R.strains hy0 h4) (R.strains hy h4) hθ0 hθ
    (fun b => ?_) v
  constructor
  · rintro ⟨-, k⟩; exact ⟨fun h => absurd h hr', fun _ => k hr⟩
  · rintro ⟨-, k⟩; exact ⟨fun h => absurd h hr, fun _ => k hr'⟩

end RegImage

end

end Tve
