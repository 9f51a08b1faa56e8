import Verif.Lemmas.SimilarEnergy
import Verif.Lemmas.SimFixed
import Verif.Props.GridEq
import Verif.Props.Quadrature

/-! Fields and boundary integrals on the image of a grid. -/

namespace Tve
open Helpers Bell

noncomputable section
variable {T : Similarity} {σ : Vertex → Vertex} {g g' : Grid ℝ}

theorem deformed_2 {y : NdArray} {n : ℕ} (h : y.Has [n, 2]) (v : ℕ) : y.deformed v = (y.at2 2 v 0, y.at2 2 v 1) := by
  rw [NdArray.deformed, h.1]

theorem getD_range {n v : ℕ} (f : ℕ → ℝ) (hv : v < n) : ((List.range n).map f).getD v 0 = f v := by
  simp [List.getD_eq_getElem?_getD, hv]

/-- the piecewise affine deformation of an array -/
theorem p1_deform {nx ny : ℕ} {s : ℝ} (G : LibraryGrid g nx ny s) {y : NdArray} (hy : y.Has [g.points.length, 2]) :
    ∃ D, deformOf g none y = .ok D ∧
      D.Strains g (p1Strain g ((List.range g.points.length).map fun i => (y.deformed i).1)
        ((List.range g.points.length).map fun i => (y.deformed i).2)) := by
  have W := G.wellFormed
  have hl := length_vertices W
  have e : deformOf g none y = P1MechModel.deformation g ((List.range g.points.length).map fun i => (y.deformed i).1)
      ((List.range g.points.length).map fun i => (y.deformed i).2) := by
    show (do P1MechModel.deformation g (← y.col 0) (← y.col 1)) = _
    rw [NdArray.col_eq hy (by norm_num : 0 < 2), bind_ok, NdArray.col_eq hy (by norm_num : 1 < 2), bind_ok]
    simp only [deformed_2 hy]
  have h : ∃ D, deformOf g none y = .ok D := by
    rw [e, P1MechModel.deformation, P1Interpolation, if_neg (by simp [hl]), bind_ok, P1Interpolation,
      if_neg (by simp [hl]), bind_ok]
    exact ⟨_, rfl⟩
  obtain ⟨D, hD⟩ := h
  exact ⟨D, hD, p1_strains G (e ▸ hD)⟩

theorem SimilarMesh.len (S : SimilarMesh T σ g g') : g'.points.length = g.points.length := S.mesh.count

theorem SimilarMesh.mem (S : SimilarMesh T σ g g') {v : Vertex} (hv : v ∈ g.vertices) : v < g.points.length ∧ σ v < g.points.length := by
  refine ⟨(mem_vertices S.wf).1 hv, ?_⟩
  rw [← S.len]
  exact (mem_vertices S.wf').1 (S.maps v hv)

/-- the strains of a deformation and of its image -/
theorem SimilarMesh.strain_image (S : SimilarMesh T σ g g') {y y' : NdArray} (h : NdArray.ImageDeformation T σ g.points.length y y') :
    ∃ (D D' : Deformation) (F : Tri → Bary ℝ → Matrix (Fin 2) (Fin 2) ℝ), deformOf g none y = .ok D ∧ deformOf g' none y' = .ok D' ∧ D.Strains g F ∧
      ∀ t ∈ g.triangles, ∀ b : Bary ℝ, b.Normalized → D'.strain (T.tri σ t) (T.bary b) = .ok (matOf (T.conj (F t b))) := by
  obtain ⟨nx, ny, s, G⟩ := S.lib
  obtain ⟨nx', ny', s', G'⟩ := S.lib'
  obtain ⟨hy, hy', hσ⟩ := h
  obtain ⟨D, hD, hF⟩ := p1_deform G hy
  obtain ⟨D', hD', hF'⟩ := p1_deform G' (by rw [S.len]; exact hy')
  refine ⟨D, D', _, hD, hD', hF, fun t ht b hb => ?_⟩
  rw [hF' _ (S.tri_mem ht) _ (Similarity.bary_norm hb), S.len]
  congr 2
  unfold p1Strain
  have kk : ∀ z : ℝ, T.κ / T.κ * z = z := fun z => by rw [div_self S.ne, one_mul]
  unfold Similarity.conj
  cases hs : T.swap
  · have g1 := S.grad_image ht (X := fun v => ((List.range g.points.length).map fun i => (y.deformed i).1).getD v 0)
      (X' := fun v => ((List.range g.points.length).map fun i => (y'.deformed i).1).getD v 0) (α := T.κ) (β := T.c.1) (by
        intro v hv
        obtain ⟨h1, h2⟩ := S.mem hv
        simp only [getD_range _ h1, getD_range _ h2]
        rw [hσ v h1]
        simp [Similarity.map, Similarity.dir, hs])
    have g2 := S.grad_image ht (X := fun v => ((List.range g.points.length).map fun i => (y.deformed i).2).getD v 0)
      (X' := fun v => ((List.range g.points.length).map fun i => (y'.deformed i).2).getD v 0) (α := T.κ) (β := T.c.2) (by
        intro v hv
        obtain ⟨h1, h2⟩ := S.mem hv
        simp only [getD_range _ h1, getD_range _ h2]
        rw [hσ v h1]
        simp [Similarity.map, Similarity.dir, hs])
    simp only [Similarity.dir, hs, kk, Bool.false_eq_true, if_false, Prod.mk.injEq] at g1 g2
    rw [g1.1, g1.2, g2.1, g2.2]
    simp
  · have g1 := S.grad_image ht (X := fun v => ((List.range g.points.length).map fun i => (y.deformed i).2).getD v 0)
      (X' := fun v => ((List.range g.points.length).map fun i => (y'.deformed i).1).getD v 0) (α := T.κ) (β := T.c.1) (by
        intro v hv
        obtain ⟨h1, h2⟩ := S.mem hv
        simp only [getD_range _ h1, getD_range _ h2]
        rw [hσ v h1]
        simp [Similarity.map, Similarity.dir, hs])
    have g2 := S.grad_image ht (X := fun v => ((List.range g.points.length).map fun i => (y.deformed i).1).getD v 0)
      (X' := fun v => ((List.range g.points.length).map fun i => (y'.deformed i).2).getD v 0) (α := T.κ) (β := T.c.2) (by
        intro v hv
        obtain ⟨h1, h2⟩ := S.mem hv
        simp only [getD_range _ h1, getD_range _ h2]
        rw [hσ v h1]
        simp [Similarity.map, Similarity.dir, hs])
    simp only [Similarity.dir, hs, kk, if_true, Prod.mk.injEq] at g1 g2
    rw [g1.1, g1.2, g2.1, g2.2]
    simp

/-- the gradient of a scalar after a similarity -/
def Similarity.cograd (T : Similarity) (G : Fin 2 → ℝ) : Fin 2 → ℝ :=
  if T.swap then ![T.κ⁻¹ * G 1, T.κ⁻¹ * G 0] else ![T.κ⁻¹ * G 0, T.κ⁻¹ * G 1]

/-- the values and the gradients of a temperature and of its image -/
theorem SimilarMesh.temp_image (S : SimilarMesh T σ g g') {θ θ' : NdArray} (h : NdArray.ImageTemperature σ g.points.length θ θ') :
    ∃ (I I' : Interp) (x : Tri → Bary ℝ → ℝ) (G : Tri → Bary ℝ → Fin 2 → ℝ), P1Interpolation g θ.data = .ok I ∧ P1Interpolation g' θ'.data = .ok I' ∧
      (∀ t ∈ g.triangles, ∀ b : Bary ℝ, I.call t b = .ok (x t b) ∧ I.gradient t b = .ok (vecOf (G t b))) ∧
      ∀ t ∈ g.triangles, ∀ b : Bary ℝ, I'.call (T.tri σ t) (T.bary b) = .ok (x t b) ∧
        I'.gradient (T.tri σ t) (T.bary b) = .ok (vecOf (T.cograd (G t b))) := by
  obtain ⟨hy, hy', hσ⟩ := h
  have l1 : θ.data.length = g.vertices.length := by
    rw [length_vertices S.wf]; have := hy.2; rw [NdArray.Ok, hy.1] at this; simpa using this
  have l2 : θ'.data.length = g'.vertices.length := by
    rw [length_vertices S.wf', S.len]; have := hy'.2; rw [NdArray.Ok, hy'.1] at this; simpa using this
  refine ⟨_, _, fun t c => c.l1 * θ.data.getD t.1 0 + c.l2 * θ.data.getD t.2.1 0 + c.l3 * θ.data.getD t.2.2 0,
    fun t _ => ![∑ j, bb (g.corners t) j * θ.data.getD (t.get j) 0 / twoD (g.corners t),
      ∑ j, cc (g.corners t) j * θ.data.getD (t.get j) 0 / twoD (g.corners t)],
    by rw [P1Interpolation, if_neg (not_not.2 l1)], by rw [P1Interpolation, if_neg (not_not.2 l2)],
    fun t ht b => ⟨P1_call_eq S.wf l1 ht b, P1_gradient_eq S.wf l1 ht (S.nd t ht) b⟩, fun t ht b => ⟨?_, ?_⟩⟩
  · obtain ⟨h1, h2, h3⟩ := S.wf.triangles t ht
    refine (P1_call_eq S.wf' l2 (S.tri_mem ht) _).trans ?_
    congr 1
    unfold Similarity.tri Similarity.bary
    have e1 := hσ _ (S.mem h1).1
    have e2 := hσ _ (S.mem h2).1
    have e3 := hσ _ (S.mem h3).1
    cases T.swap
    · simp only [Bool.false_eq_true, if_false]; rw [e1, e2, e3]
    · simp only [if_true]; rw [e1, e2, e3]; ring
  · refine (P1_gradient_eq S.wf' l2 (S.tri_mem ht) (S.nd' _ (S.tri_mem ht)) (T.bary b)).trans ?_
    have g1 := S.grad_image ht (X := fun v => θ.data.getD v 0) (X' := fun v => θ'.data.getD v 0) (α := 1) (β := 0)
      (fun v hv => by simpa using hσ v (S.mem hv).1)
    simp only [Prod.mk.injEq] at g1
    rw [g1.1, g1.2]
    congr 2
    unfold Similarity.cograd Similarity.dir
    cases T.swap <;> simp

/-! ### edges -/

theorem edgeLen_image (S : SimilarMesh T σ g g') {e : Edge} (h1 : e.1 ∈ g.vertices) (h2 : e.2 ∈ g.vertices) :
    edgeLen g'.xy (σ e.1, σ e.2) = |T.κ| * edgeLen g.xy e := by
  rw [edgeLen, edgeLen]
  simp only
  rw [S.xy _ h1, S.xy _ h2, ← Real.sqrt_sq_eq_abs, ← Real.sqrt_mul (sq_nonneg _)]
  congr 1
  unfold Similarity.map Similarity.dir
  cases T.swap
  · simp only [Bool.false_eq_true, if_false]; ring
  · simp only [if_true]; ring

theorem edgeLen_swap (P : ℕ → ℝ × ℝ) (a b : Vertex) : edgeLen P (a, b) = edgeLen P (b, a) := by
  rw [edgeLen, edgeLen]
  congr 1
  ring

/-- a sum over edges that does not depend on their directions -/
theorem sum_undirected {φ : Edge → ℝ} (hφ : ∀ a b, φ (a, b) = φ (b, a)) (es : List Edge) :
    (es.map φ).sum = ((es.map Edge.undirected).map (Sym2.lift ⟨fun a b => φ (a, b), hφ⟩)).sum := by
  rw [List.map_map]
  rfl

/-- sums over corresponding lists of edges -/
theorem SimilarMesh.edge_sum (S : SimilarMesh T σ g g') {es es' : List Edge} (hes : ∀ e ∈ es, e.1 ∈ g.vertices ∧ e.2 ∈ g.vertices)
    (hes' : ∀ e ∈ es', e.1 ∈ g'.vertices ∧ e.2 ∈ g'.vertices) (hn : (es.map Edge.undirected).Nodup)
    (hn' : (es'.map Edge.undirected).Nodup)
    (hiff : ∀ v ∈ g.vertices, ∀ w ∈ g.vertices, s(v, w) ∈ es.map Edge.undirected ↔ s(σ v, σ w) ∈ es'.map Edge.undirected)
    {φ φ' : Edge → ℝ} (hφ' : ∀ a b, φ' (a, b) = φ' (b, a)) (h : ∀ e ∈ es, φ' (σ e.1, σ e.2) = φ e) :
    (es'.map φ').sum = (es.map φ).sum := by
  have e1 : (es.map φ).sum = ((es.map fun e => ((σ e.1, σ e.2) : Edge)).map φ').sum := by
    rw [List.map_map]
    congr 1
    exact List.map_congr_left fun e he => (h e he).symm
  rw [e1, sum_undirected hφ', sum_undirected hφ']
  refine (List.Perm.map _ ?_).sum_eq
  symm
  refine (List.perm_ext_iff_of_nodup ?_ hn').2 ?_
  · rw [List.map_map]
    refine List.Nodup.map_on ?_ (List.Nodup.of_map _ hn)
    intro a ha b hb hab
    have hab' : s(σ a.1, σ a.2) = s(σ b.1, σ b.2) := hab
    refine List.inj_on_of_nodup_map hn ha hb ?_
    obtain ⟨a1, a2⟩ := hes a ha
    obtain ⟨b1, b2⟩ := hes b hb
    rw [Edge.undirected, Edge.undirected]
    rcases Sym2.eq_iff.1 hab' with ⟨p, q⟩ | ⟨p, q⟩
    · rw [S.inj _ a1 _ b1 p, S.inj _ a2 _ b2 q]
    · rw [S.inj _ a1 _ b2 p, S.inj _ a2 _ b1 q, Sym2.eq_swap]
  · intro z
    constructor
    · intro hz
      obtain ⟨e0, he0, rfl⟩ := List.mem_map.1 hz
      obtain ⟨e, he, rfl⟩ := List.mem_map.1 he0
      exact (hiff _ (hes e he).1 _ (hes e he).2).1 (List.mem_map.2 ⟨e, he, rfl⟩)
    · intro hz
      obtain ⟨e', he', rfl⟩ := List.mem_map.1 hz
      obtain ⟨h1, h2⟩ := hes' e' he'
      obtain ⟨v, hv, ev⟩ := S.surj _ h1
      obtain ⟨w, hw, ew⟩ := S.surj _ h2
      have hz' : s(σ v, σ w) ∈ es'.map Edge.undirected := by rw [ev, ew]; exact hz
      obtain ⟨e, he, hee⟩ := List.mem_map.1 ((hiff v hv w hw).2 hz')
      rw [List.map_map]
      refine List.mem_map.2 ⟨e, he, ?_⟩
      have hee' : s(e.1, e.2) = s(v, w) := hee
      show s(σ e.1, σ e.2) = s(e'.1, e'.2)
      rw [← ev, ← ew]
      rcases Sym2.eq_iff.1 hee' with ⟨p, q⟩ | ⟨p, q⟩
      · rw [p, q]
      · rw [p, q, Sym2.eq_swap]

theorem midpoint_rule {leg : LegGauss} (h : LegMidpoint leg) : GaussRule.new leg 1 = .ok ⟨[1 / 2], [1]⟩ := by
  rw [gauss_new_ok h]
  simp

theorem midpoint_value (f : ℝ → ℝ) : GaussRule.value ⟨[1 / 2], [1]⟩ f = f (1 / 2) := by
  simp [GaussRule.value]

/-- the midpoint rule over corresponding lists of edges -/
theorem SimilarMesh.edgeQuad_image (S : SimilarMesh T σ g g') {es es' : List Edge}
    (hes : ∀ e ∈ es, e.1 ∈ g.vertices ∧ e.2 ∈ g.vertices)
    (hes' : ∀ e ∈ es', e.1 ∈ g'.vertices ∧ e.2 ∈ g'.vertices) (hn : (es.map Edge.undirected).Nodup)
    (hn' : (es'.map Edge.undirected).Nodup)
    (hiff : ∀ v ∈ g.vertices, ∀ w ∈ g.vertices, s(v, w) ∈ es.map Edge.undirected ↔ s(σ v, σ w) ∈ es'.map Edge.undirected)
    {f f' : Edge → ℝ → ℝ} (hf' : ∀ a b, f' (a, b) (1 / 2) = f' (b, a) (1 / 2))
    (h : ∀ e ∈ es, |T.κ| * f' (σ e.1, σ e.2) (1 / 2) = f e (1 / 2)) :
    g'.edgeQuad es' ⟨[1 / 2], [1]⟩ f' = g.edgeQuad es ⟨[1 / 2], [1]⟩ f := by
  unfold Grid.edgeQuad
  simp only [midpoint_value]
  refine S.edge_sum hes hes' hn hn' hiff (fun a b => by rw [edgeLen_swap, hf']) fun e he => ?_
  rw [edgeLen_image S (hes e he).1 (hes e he).2, ← h e he]
  ring

end

end Tve
