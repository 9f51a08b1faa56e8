import Verif.Lemmas.SimilarField
import Verif.Lemmas.EnergyMech
import Verif.Props.Rigid

/-! Objectives of the image of a deformation under a similarity. -/

namespace Tve
open Helpers

noncomputable section
variable {T : Similarity} {σ : Vertex → Vertex} {g g' : Grid ℝ} {y0 y0' y y' θ0 θ0' θ θ' : NdArray}

/-- the strains of a deformation and of its image at the points of a rule -/
def StrainImage (T : Similarity) (σ : Vertex → Vertex) (g g' : Grid ℝ) (ρ ρ' : Option (RefinedGrid ℝ)) (r : TriRule ℝ)
    (y y' : NdArray) : Prop :=
  ∃ (D D' : Deformation) (F : Tri → Bary ℝ → Matrix (Fin 2) (Fin 2) ℝ), deformOf g ρ y = .ok D ∧ deformOf g' ρ' y' = .ok D' ∧
    ∀ t ∈ (energyGrid g ρ).triangles, ∀ b ∈ r.points, D.strain t b = .ok (matOf (F t b)) ∧
      D'.strain (T.tri σ t) (T.bary b) = .ok (matOf (T.conj (F t b)))

section
variable {ρ ρ' : Option (RefinedGrid ℝ)} {r : TriRule ℝ}

namespace SimilarMesh
variable (S : SimilarMesh T σ (energyGrid g ρ) (energyGrid g' ρ'))
include S

theorem elastic_gen (hr : energyRule ρ = .ok r) (hr' : energyRule ρ' = .ok r) (hs : T.swap = true → r.Symm)
    (hy : StrainImage T σ g g' ρ ρ' r y y')
    (hθ : NdArray.ImageTemperature σ (energyGrid g ρ).points.length θ θ') (E : ℝ) :
    IsElasticEnergy g ρ y θ E ↔ IsElasticEnergy g' ρ' y' θ' (T.κ ^ 2 * E) := by
  obtain ⟨D, D', F, hD, hD', hF⟩ := hy
  obtain ⟨I, I', x, G, hI, hI', hx, hx'⟩ := S.temp_image hθ
  have k0 : T.κ ^ 2 ≠ 0 := pow_ne_zero _ S.ne
  constructor
  · rintro ⟨D1, I1, r1, W, k1, k2, k3, k4, k5⟩
    cases hD.symm.trans k1
    cases hI.symm.trans k2
    cases hr.symm.trans k3
    obtain ⟨W', hW'⟩ := S.transfer hs id W
    refine ⟨D', I', r, W', hD', hI', hr', ?_, ?_⟩
    · refine (S.forall_image hs).2 fun t ht b hb => ?_
      obtain ⟨F1, x1, m1, m2, m3⟩ := k4 t ht b hb
      cases (hF t ht b hb).1.symm.trans m1
      cases Except.ok.inj ((hx t ht b).1.symm.trans m2)
      refine ⟨_, _, (hF t ht b hb).2, (hx' t ht b).1, ?_⟩
      rw [totalElastic_conj, m3, hW' t ht b hb]
      rfl
    · rw [k5]
      exact (S.quad_image hs hW').symm
  · rintro ⟨D1, I1, r1, W', k1, k2, k3, k4, k5⟩
    cases hD'.symm.trans k1
    cases hI'.symm.trans k2
    cases hr'.symm.trans k3
    refine ⟨D, I, r, fun t b => W' (T.tri σ t) (T.bary b), hD, hI, hr, ?_, ?_⟩
    · intro t ht b hb
      obtain ⟨F1, x1, m1, m2, m3⟩ := (S.forall_image hs).1 k4 t ht b hb
      cases (hF t ht b hb).2.symm.trans m1
      cases Except.ok.inj ((hx' t ht b).1.symm.trans m2)
      refine ⟨_, _, (hF t ht b hb).1, (hx t ht b).1, ?_⟩
      rw [← m3, totalElastic_conj]
    · refine mul_left_cancel₀ k0 (k5.trans ?_)
      exact S.quad_image hs (f := fun t b => W' (T.tri σ t) (T.bary b)) fun _ _ _ _ => rfl

theorem dissipation_gen (hr : dissipationRule ρ = .ok r) (hr' : dissipationRule ρ' = .ok r) (hs : T.swap = true → r.Symm)
    (hy0 : StrainImage T σ g g' ρ ρ' r y0 y0') (hy : StrainImage T σ g g' ρ ρ' r y y') (d : ℝ) :
    IsDissipation g ρ y0 y d ↔ IsDissipation g' ρ' y0' y' (T.κ ^ 2 * d) := by
  obtain ⟨D0, D0', F0, hD0, hD0', hF0⟩ := hy0
  obtain ⟨D, D', F, hD, hD', hF⟩ := hy
  have k0 : T.κ ^ 2 ≠ 0 := pow_ne_zero _ S.ne
  constructor
  · rintro ⟨D1, D2, r1, W, k1, k2, k3, k4, k5⟩
    cases hD0.symm.trans k1
    cases hD.symm.trans k2
    cases hr.symm.trans k3
    obtain ⟨W', hW'⟩ := S.transfer hs id W
    refine ⟨D0', D', r, W', hD0', hD', hr', ?_, ?_⟩
    · refine (S.forall_image hs).2 fun t ht b hb => ?_
      obtain ⟨F1, F2, m1, m2, m3⟩ := k4 t ht b hb
      cases (hF0 t ht b hb).1.symm.trans m1
      cases (hF t ht b hb).1.symm.trans m2
      refine ⟨_, _, (hF0 t ht b hb).2, (hF t ht b hb).2, ?_⟩
      rw [dissipation_conj, m3, hW' t ht b hb]
      rfl
    · rw [k5]
      exact (S.quad_image hs hW').symm
  · rintro ⟨D1, D2, r1, W', k1, k2, k3, k4, k5⟩
    cases hD0'.symm.trans k1
    cases hD'.symm.trans k2
    cases hr'.symm.trans k3
    refine ⟨D0, D, r, fun t b => W' (T.tri σ t) (T.bary b), hD0, hD, hr, ?_, ?_⟩
    · intro t ht b hb
      obtain ⟨F1, F2, m1, m2, m3⟩ := (S.forall_image hs).1 k4 t ht b hb
      cases (hF0 t ht b hb).2.symm.trans m1
      cases (hF t ht b hb).2.symm.trans m2
      refine ⟨_, _, (hF0 t ht b hb).1, (hF t ht b hb).1, ?_⟩
      rw [← m3, dissipation_conj]
    · refine mul_left_cancel₀ k0 (k5.trans ?_)
      exact S.quad_image hs (f := fun t b => W' (T.tri σ t) (T.bary b)) fun _ _ _ _ => rfl

theorem oriented_gen (hr : energyRule ρ = .ok r) (hr' : energyRule ρ' = .ok r) (hs : T.swap = true → r.Symm)
    (hy : StrainImage T σ g g' ρ ρ' r y y') : Oriented g ρ y ↔ Oriented g' ρ' y' := by
  obtain ⟨D, D', F, hD, hD', hF⟩ := hy
  constructor
  · rintro ⟨D1, r1, k1, k2, k3⟩
    cases hD.symm.trans k1
    cases hr.symm.trans k2
    refine ⟨D', r, hD', hr', (S.forall_image hs).2 fun t ht b hb => ?_⟩
    obtain ⟨F1, m1, m2⟩ := k3 t ht b hb
    rw [matOf_injective (Except.ok.inj (m1.symm.trans (hF t ht b hb).1))] at m2
    exact ⟨_, (hF t ht b hb).2, by rwa [conj_det]⟩
  · rintro ⟨D1, r1, k1, k2, k3⟩
    cases hD'.symm.trans k1
    cases hr'.symm.trans k2
    refine ⟨D, r, hD, hr, fun t ht b hb => ?_⟩
    obtain ⟨F1, m1, m2⟩ := (S.forall_image hs).1 k3 t ht b hb
    rw [matOf_injective (Except.ok.inj (m1.symm.trans (hF t ht b hb).2)), conj_det] at m2
    exact ⟨_, (hF t ht b hb).1, m2⟩

end SimilarMesh

end

namespace Similar
variable (S : Similar T σ g g')
include S

theorem p1_image (hy : NdArray.ImageDeformation T σ g.points.length y y') {r : TriRule ℝ} (hr : r.Good) :
    StrainImage T σ g g' none none r y y' := by
  obtain ⟨D, D', F, hD, hD', hF, hF'⟩ := S.strain_image hy
  exact ⟨D, D', F, hD, hD', fun t ht b hb => ⟨hF t ht b (hr.inside b hb).1, hF' t ht b (hr.inside b hb).1⟩⟩

theorem elastic_image (hy : NdArray.ImageDeformation T σ g.points.length y y')
    (hθ : NdArray.ImageTemperature σ g.points.length θ θ') (E : ℝ) :
    IsElasticEnergy g none y θ E ↔ IsElasticEnergy g' none y' θ' (T.κ ^ 2 * E) := by
  obtain ⟨r, hr, hg, -⟩ := dunavant2_good
  exact SimilarMesh.elastic_gen (ρ := none) (ρ' := none) S.toSimilarMesh hr hr (fun _ => dunavant2_symm hr) (S.p1_image hy hg) hθ E

theorem dissipation_image (hy0 : NdArray.ImageDeformation T σ g.points.length y0 y0')
    (hy : NdArray.ImageDeformation T σ g.points.length y y') (d : ℝ) :
    IsDissipation g none y0 y d ↔ IsDissipation g' none y0' y' (T.κ ^ 2 * d) := by
  obtain ⟨r, hr, hg, -⟩ := centroid_good
  exact SimilarMesh.dissipation_gen (ρ := none) (ρ' := none) S.toSimilarMesh hr hr (fun _ => centroid_symm hr) (S.p1_image hy0 hg)
    (S.p1_image hy hg) d

theorem oriented_image (hy : NdArray.ImageDeformation T σ g.points.length y y') : Oriented g none y ↔ Oriented g' none y' := by
  obtain ⟨r, hr, hg, -⟩ := dunavant2_good
  exact SimilarMesh.oriented_gen (ρ := none) (ρ' := none) S.toSimilarMesh hr hr (fun _ => dunavant2_symm hr) (S.p1_image hy hg)

end Similar

theorem sign_abs (x : ℝ) : |x| * (SignType.sign x : ℝ) = x := by
  rcases lt_trichotomy x 0 with h | h | h
  · rw [abs_of_neg h, sign_neg h]; simp
  · simp [h]
  · rw [abs_of_pos h, sign_pos h]; simp

/-- the point whose image is a given point -/
def Similarity.inv (T : Similarity) (q : ℝ × ℝ) : ℝ × ℝ := T.dir ((q.1 - T.c.1) / T.κ, (q.2 - T.c.2) / T.κ)

theorem Similarity.map_inv (h : T.κ ≠ 0) (q : ℝ × ℝ) : T.map (T.inv q) = q := by
  unfold Similarity.map Similarity.inv Similarity.dir
  cases T.swap
  · simp only [Bool.false_eq_true, if_false]
    rw [mul_div_cancel₀ _ h, mul_div_cancel₀ _ h]; simp
  · simp only [if_true]
    rw [mul_div_cancel₀ _ h, mul_div_cancel₀ _ h]; simp

theorem Similarity.inv_map (h : T.κ ≠ 0) (q : ℝ × ℝ) : T.inv (T.map q) = q :=
  Similarity.map_inj h (Similarity.map_inv h _)

namespace Similar
variable (S : Similar T σ g g')
include S

theorem edges_mem {es : List Edge} (h : ∀ e ∈ es, e ∈ g.edges) : ∀ e ∈ es, e.1 ∈ g.vertices ∧ e.2 ∈ g.vertices :=
  fun e he => S.wf.edges e (h e he)

theorem edges_mem' {es : List Edge} (h : ∀ e ∈ es, e ∈ g'.edges) : ∀ e ∈ es, e.1 ∈ g'.vertices ∧ e.2 ∈ g'.vertices :=
  fun e he => S.wf'.edges e (h e he)

theorem simple : g.Simple := by obtain ⟨nx, ny, s, G⟩ := S.lib; exact G.simple
theorem simple' : g'.Simple := by obtain ⟨nx, ny, s, G⟩ := S.lib'; exact G.simple

theorem work_image (hN : ∀ v, IsEndpoint v g.neumann.edges → v ∈ g.neumann.vertices)
    (hN' : ∀ v, IsEndpoint v g'.neumann.edges → v ∈ g'.neumann.vertices) {leg : LegGauss} (hl : LegMidpoint leg)
    {traction traction' : Traction} (ht : Traction.Image T traction traction') (time : ℝ) :
    ∃ C, (T.c = 0 → C = 0) ∧ ∀ y y', NdArray.ImageDeformation T σ g.points.length y y' → ∀ w,
      IsBoundaryWork leg g traction time y w ↔ IsBoundaryWork leg g' traction' time y' (T.κ ^ 2 * w + C) := by
  choose f hf hf' using ht time
  have k0 : T.κ ^ 2 ≠ 0 := pow_ne_zero _ S.ne
  have hr := midpoint_rule hl
  set P : Vertex → ℝ × ℝ := fun v => f (g.xy v) with hP
  set P' : Vertex → ℝ × ℝ := fun v =>
    (SignType.sign T.κ * (T.dir (f (T.inv (g'.xy v)))).1, SignType.sign T.κ * (T.dir (f (T.inv (g'.xy v)))).2) with hP'
  have hPP : ∀ v ∈ g.vertices, P' (σ v) = (SignType.sign T.κ * (T.dir (P v)).1, SignType.sign T.κ * (T.dir (P v)).2) := by
    intro v hv
    simp only [hP', hP]
    rw [S.xy v hv, Similarity.inv_map S.ne]
  refine ⟨g.edgeQuad g.neumann.edges ⟨[1 / 2], [1]⟩ fun e s =>
    T.κ * ((s * (T.dir (P e.1)).1 + (1 - s) * (T.dir (P e.2)).1) * T.c.1 +
      (s * (T.dir (P e.1)).2 + (1 - s) * (T.dir (P e.2)).2) * T.c.2), ?_, ?_⟩
  · intro hc
    simp [Grid.edgeQuad, GaussRule.value, hc]
  intro y y' hy w
  have b1 : IsBoundaryWork leg g traction time y _ := ⟨_, P, hr, fun v _ => ⟨_, hf (g.xy v), rfl, rfl⟩, rfl⟩
  have b2 : IsBoundaryWork leg g' traction' time y' _ := ⟨_, P', hr, fun v _ => by
    have := hf' (T.inv (g'.xy v))
    rw [Similarity.map_inv S.ne] at this
    exact ⟨_, this, rfl, rfl⟩, rfl⟩
  obtain ⟨hy1, hy2, hyσ⟩ := hy
  have key := S.edgeQuad_image (S.edges_mem S.wf.neumann.2) (S.edges_mem' S.wf'.neumann.2) S.simple.neumann S.simple'.neumann
    S.im.neumann
    (f' := fun e s =>
      (s * (P' e.1).1 + (1 - s) * (P' e.2).1) * (s * (y'.deformed e.1).1 + (1 - s) * (y'.deformed e.2).1) +
      (s * (P' e.1).2 + (1 - s) * (P' e.2).2) * (s * (y'.deformed e.1).2 + (1 - s) * (y'.deformed e.2).2))
    (f := fun e s => T.κ ^ 2 *
      ((s * (P e.1).1 + (1 - s) * (P e.2).1) * (s * (y.deformed e.1).1 + (1 - s) * (y.deformed e.2).1) +
      (s * (P e.1).2 + (1 - s) * (P e.2).2) * (s * (y.deformed e.1).2 + (1 - s) * (y.deformed e.2).2)) +
      T.κ * ((s * (T.dir (P e.1)).1 + (1 - s) * (T.dir (P e.2)).1) * T.c.1 +
      (s * (T.dir (P e.1)).2 + (1 - s) * (T.dir (P e.2)).2) * T.c.2))
    (fun a b => by ring) (fun e he => by
      obtain ⟨h1, h2⟩ := S.wf.edges e (S.wf.neumann.2 e he)
      simp only
      rw [hPP _ h1, hPP _ h2, hyσ _ (S.mem h1).1, hyσ _ (S.mem h2).1]
      have hsg := sign_abs T.κ
      simp only [Similarity.map]
      generalize P e.1 = p1
      generalize P e.2 = p2
      generalize y.deformed e.1 = z1
      generalize y.deformed e.2 = z2
      unfold Similarity.dir
      cases T.swap
      · simp only [Bool.false_eq_true, if_false]
        linear_combination ((1 / 2 * p1.1 + 1 / 2 * p2.1) * (T.κ * (1 / 2 * z1.1 + 1 / 2 * z2.1) + T.c.1) +
          (1 / 2 * p1.2 + 1 / 2 * p2.2) * (T.κ * (1 / 2 * z1.2 + 1 / 2 * z2.2) + T.c.2)) * hsg
      · simp only [if_true]
        linear_combination ((1 / 2 * p1.1 + 1 / 2 * p2.1) * (T.κ * (1 / 2 * z1.1 + 1 / 2 * z2.1) + T.c.2) +
          (1 / 2 * p1.2 + 1 / 2 * p2.2) * (T.κ * (1 / 2 * z1.2 + 1 / 2 * z2.2) + T.c.1)) * hsg)
  have lin : ∀ (a b : Edge → ℝ → ℝ), (g.edgeQuad g.neumann.edges ⟨[1 / 2], [1]⟩ fun e s => T.κ ^ 2 * a e s + b e s) =
      T.κ ^ 2 * g.edgeQuad g.neumann.edges ⟨[1 / 2], [1]⟩ a + g.edgeQuad g.neumann.edges ⟨[1 / 2], [1]⟩ b := by
    intro a b
    unfold Grid.edgeQuad
    simp only [midpoint_value]
    rw [← List.sum_map_mul_left, ← List.sum_map_add]
    congr 1
    exact List.map_congr_left fun e _ => by ring
  rw [lin] at key
  rw [key] at b2
  constructor
  · intro h
    rw [h.unique hN b1]
    exact b2
  · intro h
    have := h.unique hN' b2
    rw [mul_left_cancel₀ k0 (add_right_cancel this)]
    exact b1

/-- the objective of the mechanical step -/
theorem mech_image (hN : ∀ v, IsEndpoint v g.neumann.edges → v ∈ g.neumann.vertices)
    (hN' : ∀ v, IsEndpoint v g'.neumann.edges → v ∈ g'.neumann.vertices) {leg : LegGauss} (hl : LegMidpoint leg)
    {traction traction' : Traction} (ht : Traction.Image T traction traction') {params params' : SimParams}
    (hf : params'.fps = params.fps) (hr : params.regularization = none) (hr' : params'.regularization = none) (time : ℝ) :
    ∃ C, (T.c = 0 → C = 0) ∧ ∀ y0 y0' y y' θ θ', NdArray.ImageDeformation T σ g.points.length y0 y0' →
      NdArray.ImageDeformation T σ g.points.length y y' → NdArray.ImageTemperature σ g.points.length θ θ' → ∀ v,
      IsMechObjective leg params traction g none time y0 y θ v ↔
        IsMechObjective leg params' traction' g' none time y0' y' θ' (T.κ ^ 2 * v - C) := by
  obtain ⟨C, hC, H⟩ := S.work_image hN hN' hl ht time
  have k0 : T.κ ^ 2 ≠ 0 := pow_ne_zero _ S.ne
  refine ⟨C, hC, fun y0 y0' y y' θ θ' hy0 hy hθ v => ?_⟩
  constructor
  · rintro ⟨E, d, h1, h2, h3, -⟩
    obtain ⟨w, h4, rfl⟩ := h3 hr
    refine ⟨_, _, (S.elastic_image hy hθ E).1 h1, (S.dissipation_image hy0 hy d).1 h2, fun _ =>
      ⟨_, (H y y' hy w).1 h4, ?_⟩, fun κ hκ => ?_⟩
    · rw [hf]; ring
    · rw [hr'] at hκ; cases hκ
  · rintro ⟨E', d', h1, h2, h3, -⟩
    obtain ⟨w', h4, h5⟩ := h3 hr'
    have e1 : T.κ ^ 2 * (E' / T.κ ^ 2) = E' := mul_div_cancel₀ _ k0
    have e2 : T.κ ^ 2 * (d' / T.κ ^ 2) = d' := mul_div_cancel₀ _ k0
    have e3 : T.κ ^ 2 * ((w' - C) / T.κ ^ 2) + C = w' := by rw [mul_div_cancel₀ _ k0]; ring
    refine ⟨_, _, (S.elastic_image hy hθ (E' / T.κ ^ 2)).2 (by rwa [e1]), (S.dissipation_image hy0 hy (d' / T.κ ^ 2)).2 (by rwa [e2]),
      fun _ => ⟨_, (H y y' hy ((w' - C) / T.κ ^ 2)).2 (by rwa [e3]), ?_⟩, fun κ hκ => ?_⟩
    · rw [hf] at h5
      refine mul_left_cancel₀ k0 ?_
      rw [mul_add, mul_sub, e1, mul_div_cancel₀ _ k0, mul_left_comm, e2]
      linarith
    · rw [hr] at hκ; cases hκ

end Similar

theorem cograd_cograd (hκ : T.κ ^ 2 = 1) (G : Fin 2 → ℝ) : T.cograd (T.cograd G) = G := by
  have h : T.κ⁻¹ * T.κ⁻¹ = 1 := by rw [← mul_inv, ← sq, hκ, inv_one]
  have e : ∀ a, T.κ⁻¹ * (T.κ⁻¹ * a) = a := fun a => by rw [← mul_assoc, h, one_mul]
  unfold Similarity.cograd
  cases T.swap
  · ext i; fin_cases i <;> simp [e]
  · ext i; fin_cases i <;> simp [e]

theorem cograd_quad (hκ : T.κ ^ 2 = 1) (G : Fin 2 → ℝ) (K : Matrix (Fin 2) (Fin 2) ℝ) :
    T.cograd G ⬝ᵥ (T.conj K).mulVec (T.cograd G) = G ⬝ᵥ K.mulVec G := by
  have h : T.κ⁻¹ * T.κ⁻¹ = 1 := by rw [← mul_inv, ← sq, hκ, inv_one]
  unfold Similarity.cograd Similarity.conj
  cases T.swap
  · simp only [Bool.false_eq_true, if_false, dotProduct, Matrix.mulVec, Fin.sum_univ_two, Matrix.cons_val_zero, Matrix.cons_val_one]
    linear_combination (G 0 * K 0 0 * G 0 + G 0 * K 0 1 * G 1 + G 1 * K 1 0 * G 0 + G 1 * K 1 1 * G 1) * h
  · simp only [if_true, dotProduct, Matrix.mulVec, Fin.sum_univ_two, Matrix.cons_val_zero, Matrix.cons_val_one, Matrix.of_apply]
    linear_combination (G 0 * K 0 0 * G 0 + G 0 * K 0 1 * G 1 + G 1 * K 1 0 * G 0 + G 1 * K 1 1 * G 1) * h

theorem Similar.boundaryHeat_image (S : Similar T σ g g') (hκ : T.κ ^ 2 = 1) {leg : LegGauss} (hl : LegMidpoint leg)
    {params params' : SimParams} (hr : params.regularization = none) (hr' : params'.regularization = none) {ext : ExtTemp} {time : ℝ}
    (hθ : NdArray.ImageTemperature σ g.points.length θ θ') (b : ℝ) :
    IsBoundaryHeat leg params ext g time θ.data b ↔ IsBoundaryHeat leg params' ext g' time θ'.data b := by
  have h1 : |T.κ| = 1 := by rw [← Real.sqrt_sq_eq_abs, hκ, Real.sqrt_one]
  have key : ∀ e : ℝ, (g'.edgeQuad g'.boundary.edges ⟨[1 / 2], [1]⟩ fun ed s =>
      transferCoeff / 2 * (s * θ'.data.getD ed.1 0 + (1 - s) * θ'.data.getD ed.2 0 - e) ^ 2) =
      g.edgeQuad g.boundary.edges ⟨[1 / 2], [1]⟩ fun ed s =>
      transferCoeff / 2 * (s * θ.data.getD ed.1 0 + (1 - s) * θ.data.getD ed.2 0 - e) ^ 2 := by
    intro e
    refine S.edgeQuad_image (S.edges_mem S.wf.boundary.2) (S.edges_mem' S.wf'.boundary.2) S.simple.boundary S.simple'.boundary
      S.im.boundary (fun a b => by ring) fun ed hed => ?_
    obtain ⟨k1, k2⟩ := S.wf.edges ed (S.wf.boundary.2 ed hed)
    simp only
    rw [hθ.2.2 _ (S.mem k1).1, hθ.2.2 _ (S.mem k2).1, h1, one_mul]
  constructor
  · rintro ⟨k1, -⟩
    obtain ⟨r, e, m1, m2, m3⟩ := k1 hr
    cases (midpoint_rule hl).symm.trans m1
    exact ⟨fun _ => ⟨_, e, midpoint_rule hl, m2, by rw [m3, key]⟩, fun h => absurd hr' h⟩
  · rintro ⟨k1, -⟩
    obtain ⟨r, e, m1, m2, m3⟩ := k1 hr'
    cases (midpoint_rule hl).symm.trans m1
    exact ⟨fun _ => ⟨_, e, midpoint_rule hl, m2, by rw [m3, key]⟩, fun h => absurd hr h⟩

/-- the objective of the thermal step for half turns and exchanges of the axes -/
theorem SimilarMesh.therm_gen {ρ ρ' : Option (RefinedGrid ℝ)} {r : TriRule ℝ}
    (S : SimilarMesh T σ (energyGrid g ρ) (energyGrid g' ρ')) (hκ : T.κ ^ 2 = 1) (hrr : energyRule ρ = .ok r)
    (hrr' : energyRule ρ' = .ok r) (hs : T.swap = true → r.Symm) {leg : LegGauss} {params params' : SimParams}
    (hf : params'.fps = params.fps) {ext ext' : ExtTemp} {time time' : ℝ}
    (hy0 : StrainImage T σ g g' ρ ρ' r y0 y0') (hy : StrainImage T σ g g' ρ ρ' r y y')
    (hθ0 : NdArray.ImageTemperature σ (energyGrid g ρ).points.length θ0 θ0')
    (hθ : NdArray.ImageTemperature σ (energyGrid g ρ).points.length θ θ')
    (hb : ∀ b, IsBoundaryHeat leg params ext g time θ.data b ↔ IsBoundaryHeat leg params' ext' g' time' θ'.data b) (v : ℝ) :
    IsThermObjective leg params ext g ρ time y0 y θ0 θ v ↔ IsThermObjective leg params' ext' g' ρ' time' y0' y' θ0' θ' v := by
  obtain ⟨D0, D0', S0, hD0, hD0', hS0⟩ := hy0
  obtain ⟨D, D', S1, hD, hD', hS1⟩ := hy
  obtain ⟨I0, I0', z0, G0, hI0, hI0', hz0, hz0'⟩ := S.temp_image hθ0
  obtain ⟨I, I', z, GG, hI, hI', hz, hz'⟩ := S.temp_image hθ
  constructor
  · rintro ⟨r1, F0, F, K, x0, x, q, a, u, G, b, k1, ⟨A, B, T0, m1, m2, m3, m4⟩, ⟨I1, i1, i2⟩, k4, k5, k6⟩
    cases hrr.symm.trans k1
    cases hD0.symm.trans m1
    cases hD.symm.trans m2
    cases hI0.symm.trans m3
    cases hI.symm.trans i1
    obtain ⟨F0', hF0'⟩ := S.transfer hs T.conj F0
    obtain ⟨F', hF'⟩ := S.transfer hs T.conj F
    obtain ⟨K', hK'⟩ := S.transfer hs T.conj K
    obtain ⟨x0', hx0'⟩ := S.transfer hs id x0
    obtain ⟨x', hx'⟩ := S.transfer hs id x
    obtain ⟨q', hq'⟩ := S.transfer hs id q
    obtain ⟨a', ha'⟩ := S.transfer hs id a
    obtain ⟨u', hu'⟩ := S.transfer hs id u
    obtain ⟨G', hG'⟩ := S.transfer hs T.cograd G
    simp only [id] at hx0' hx' hq' ha' hu'
    refine ⟨r, F0', F', K', x0', x', q', a', u', G', b, hrr', ⟨D0', D', I0', hD0', hD', hI0',
      (S.forall_image hs).2 fun t ht p hp => ?_⟩, ⟨I', hI', (S.forall_image hs).2 fun t ht p hp => ?_⟩,
      (S.forall_image hs).2 fun t ht p hp => ?_, (hb b).1 k5, ?_⟩
    · obtain ⟨n1, n2, n3⟩ := m4 t ht p hp
      have e1 := matOf_injective (Except.ok.inj (n1.symm.trans (hS0 t ht p hp).1))
      have e2 := matOf_injective (Except.ok.inj (n2.symm.trans (hS1 t ht p hp).1))
      have e3 := Except.ok.inj (n3.symm.trans (hz0 t ht p).1)
      rw [hF0' t ht p hp, hF' t ht p hp, hx0' t ht p hp, e1, e2, e3]
      exact ⟨(hS0 t ht p hp).2, (hS1 t ht p hp).2, (hz0' t ht p).1⟩
    · obtain ⟨n1, n2⟩ := i2 t ht p hp
      have e1 := Except.ok.inj (n1.symm.trans (hz t ht p).1)
      have e2 := vecOf_injective (Except.ok.inj (n2.symm.trans (hz t ht p).2))
      rw [hx' t ht p hp, hG' t ht p hp, e1, e2]
      exact hz' t ht p
    · obtain ⟨l1, l2, l3⟩ := k4 t ht p hp
      have pos := internalEnergy_det l3
      rw [hF0' t ht p hp, hF' t ht p hp, hx0' t ht p hp, hx' t ht p hp, hK' t ht p hp, hq' t ht p hp, ha' t ht p hp,
        hu' t ht p hp, hf]
      exact ⟨(heatCoeff_conj pos).2 l1, by rw [antider_conj, l2], by rw [internal_conj, l3]⟩
    · rw [k6, hf]
      have q1 := S.quad_image hs (f := fun t c => G t c ⬝ᵥ (K t c).mulVec (G t c) - q t c * x t c)
        (f' := fun t c => G' t c ⬝ᵥ (K' t c).mulVec (G' t c) - q' t c * x' t c) fun t ht p hp => by
          rw [hG' t ht p hp, hK' t ht p hp, hq' t ht p hp, hx' t ht p hp, cograd_quad hκ]
      have q2 := S.quad_image hs (f := fun t c => 10 / 2 * (x t c - x0 t c) ^ 2 + (a t c - u t c * x t c))
        (f' := fun t c => 10 / 2 * (x' t c - x0' t c) ^ 2 + (a' t c - u' t c * x' t c)) fun t ht p hp => by
          rw [hx' t ht p hp, hx0' t ht p hp, ha' t ht p hp, hu' t ht p hp]
      rw [hκ, one_mul] at q1 q2
      show (energyGrid g ρ).quad r _ + b + params.fps * (energyGrid g ρ).quad r _ = (energyGrid g' ρ').quad r _ + b + params.fps * (energyGrid g' ρ').quad r _
      rw [q1, q2]
  · rintro ⟨r1, F0, F, K, x0, x, q, a, u, G, b, k1, ⟨A, B, T0, m1, m2, m3, m4⟩, ⟨I1, i1, i2⟩, k4, k5, k6⟩
    cases hrr'.symm.trans k1
    cases hD0'.symm.trans m1
    cases hD'.symm.trans m2
    cases hI0'.symm.trans m3
    cases hI'.symm.trans i1
    refine ⟨r, fun t p => T.conj (F0 (T.tri σ t) (T.bary p)), fun t p => T.conj (F (T.tri σ t) (T.bary p)),
      fun t p => T.conj (K (T.tri σ t) (T.bary p)), fun t p => x0 (T.tri σ t) (T.bary p), fun t p => x (T.tri σ t) (T.bary p),
      fun t p => q (T.tri σ t) (T.bary p), fun t p => a (T.tri σ t) (T.bary p), fun t p => u (T.tri σ t) (T.bary p),
      fun t p => T.cograd (G (T.tri σ t) (T.bary p)), b, hrr, ⟨D0, D, I0, hD0, hD, hI0, fun t ht p hp => ?_⟩,
      ⟨I, hI, fun t ht p hp => ?_⟩, fun t ht p hp => ?_, (hb b).2 k5, ?_⟩
    · obtain ⟨n1, n2, n3⟩ := m4 _ (S.tri_mem ht) _ (TriRule.bary_mem hs hp)
      have e1 := matOf_injective (Except.ok.inj (n1.symm.trans (hS0 t ht p hp).2))
      have e2 := matOf_injective (Except.ok.inj (n2.symm.trans (hS1 t ht p hp).2))
      have e3 := Except.ok.inj (n3.symm.trans (hz0' t ht p).1)
      simp only
      rw [e1, e2, e3, conj_conj, conj_conj]
      exact ⟨(hS0 t ht p hp).1, (hS1 t ht p hp).1, (hz0 t ht p).1⟩
    · obtain ⟨n1, n2⟩ := i2 _ (S.tri_mem ht) _ (TriRule.bary_mem hs hp)
      have e1 := Except.ok.inj (n1.symm.trans (hz' t ht p).1)
      have e2 := vecOf_injective (Except.ok.inj (n2.symm.trans (hz' t ht p).2))
      simp only
      rw [e1, e2, cograd_cograd hκ]
      exact hz t ht p
    · obtain ⟨l1, l2, l3⟩ := k4 _ (S.tri_mem ht) _ (TriRule.bary_mem hs hp)
      have pos := internalEnergy_det l3
      have e0 := conj_conj (T := T) (F0 (T.tri σ t) (T.bary p))
      have e := conj_conj (T := T) (F (T.tri σ t) (T.bary p))
      have eK := conj_conj (T := T) (K (T.tri σ t) (T.bary p))
      rw [← hf]
      refine ⟨(heatCoeff_conj (T := T) (by rwa [conj_det])).1 ?_, ?_, ?_⟩
      · rw [e0, e, eK]; exact l1
      · rw [antider_conj]; exact l2
      · rw [internal_conj]; exact l3
    · have q1 := S.quad_image hs (f := fun t c => T.cograd (G (T.tri σ t) (T.bary c)) ⬝ᵥ
          (T.conj (K (T.tri σ t) (T.bary c))).mulVec (T.cograd (G (T.tri σ t) (T.bary c))) -
          q (T.tri σ t) (T.bary c) * x (T.tri σ t) (T.bary c))
        (f' := fun t c => G t c ⬝ᵥ (K t c).mulVec (G t c) - q t c * x t c) fun t ht p hp => by
          rw [cograd_quad hκ]
      have q2 := S.quad_image hs (f := fun t c => 10 / 2 * (x (T.tri σ t) (T.bary c) - x0 (T.tri σ t) (T.bary c)) ^ 2 +
          (a (T.tri σ t) (T.bary c) - u (T.tri σ t) (T.bary c) * x (T.tri σ t) (T.bary c)))
        (f' := fun t c => 10 / 2 * (x t c - x0 t c) ^ 2 + (a t c - u t c * x t c)) fun t ht p hp => rfl
      rw [hκ, one_mul] at q1 q2
      rw [k6, ← hf]
      show (energyGrid g' ρ').quad r _ + b + params'.fps * (energyGrid g' ρ').quad r _ = (energyGrid g ρ).quad r _ + b + params'.fps * (energyGrid g ρ).quad r _
      rw [q1, q2]

theorem Similar.therm_image (S : Similar T σ g g') (hκ : T.κ ^ 2 = 1) {leg : LegGauss} (hl : LegMidpoint leg)
    {params params' : SimParams} (hf : params'.fps = params.fps) (hr : params.regularization = none)
    (hr' : params'.regularization = none) {ext : ExtTemp} {time : ℝ}
    (hy0 : NdArray.ImageDeformation T σ g.points.length y0 y0') (hy : NdArray.ImageDeformation T σ g.points.length y y')
    (hθ0 : NdArray.ImageTemperature σ g.points.length θ0 θ0') (hθ : NdArray.ImageTemperature σ g.points.length θ θ') (v : ℝ) :
    IsThermObjective leg params ext g none time y0 y θ0 θ v ↔ IsThermObjective leg params' ext g' none time y0' y' θ0' θ' v := by
  obtain ⟨r, hrr, hg, -⟩ := dunavant2_good
  exact SimilarMesh.therm_gen (ρ := none) (ρ' := none) S.toSimilarMesh hκ hrr hrr (fun _ => dunavant2_symm hrr) hf (S.p1_image hy0 hg)
    (S.p1_image hy hg) hθ0 hθ (S.boundaryHeat_image hκ hl hr hr' hθ) v

end

end Tve
