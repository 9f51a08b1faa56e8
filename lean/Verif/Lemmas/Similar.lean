import Verif.Lemmas.SimilarGrid
import Verif.Lemmas.EnergyTherm
import Verif.Lemmas.Converge

/-!
# Energies of the image of a deformation under a similarity
-/

namespace Tve
open Bell

/-! ### the map of the vertices -/

section
variable {T : Similarity} {σ : Vertex → Vertex} {g g' : Grid ℝ} {nx ny nx' ny' : ℕ} {s s' : ℝ}

theorem Similarity.map_inj (hκ : T.κ ≠ 0) {p q : ℝ × ℝ} (h : T.map p = T.map q) : p = q := by
  obtain ⟨p1, p2⟩ := p
  obtain ⟨q1, q2⟩ := q
  simp only [Similarity.map, Prod.mk.injEq, add_left_inj, mul_right_inj' hκ] at h
  obtain ⟨h1, h2⟩ := h
  rw [Similarity.dir, Similarity.dir] at h1 h2
  split at h1 <;> simp_all

theorem mem_vertices {g : Grid ℝ} (W : g.WellFormed) {v : Vertex} : v ∈ g.vertices ↔ v < g.points.length := by
  have e : g.vertices = List.range g.points.length := W.vertices
  rw [e, List.mem_range]

theorem length_vertices {g : Grid ℝ} (W : g.WellFormed) : g.vertices.length = g.points.length := by
  have e : g.vertices = List.range g.points.length := W.vertices
  rw [e, List.length_range]

theorem LibraryGrid.at_inj (G : LibraryGrid g nx ny s) {v w : Vertex} {q : ℝ × ℝ} (hv : g.At v q) (hw : g.At w q) : v = w := by
  obtain ⟨P, dg, E, T, BV, BE, L⟩ := G.lattice
  obtain ⟨a, ha, rfl, e⟩ := L.at_iff.1 hv
  obtain ⟨b, hb, rfl, e'⟩ := L.at_iff.1 hw
  rw [Lattice.pos_inj L.h_pos (e.symm.trans e')]

/-- everything needed about a triangulation and its image -/
structure SimilarMesh (T : Similarity) (σ : Vertex → Vertex) (g g' : Grid ℝ) : Prop where
  mesh : Grid.MeshImage T σ g g'
  ne : T.κ ≠ 0
  wf : g.WellFormed
  wf' : g'.WellFormed
  maps : ∀ v ∈ g.vertices, σ v ∈ g'.vertices
  inj : ∀ v ∈ g.vertices, ∀ w ∈ g.vertices, σ v = σ w → v = w
  surj : ∀ v' ∈ g'.vertices, ∃ v ∈ g.vertices, σ v = v'
  xy : ∀ v ∈ g.vertices, g'.xy (σ v) = T.map (g.xy v)
  nd : ∀ t ∈ g.triangles, Nondegenerate (g.corners t)
  nd' : ∀ t ∈ g'.triangles, Nondegenerate (g'.corners t)
  nodup : g.triangles.Nodup
  nodup' : g'.triangles.Nodup
  lib : ∃ nx ny s, LibraryGrid g nx ny s
  lib' : ∃ nx ny s, LibraryGrid g' nx ny s

/-- everything needed about a grid and its image -/
structure Similar (T : Similarity) (σ : Vertex → Vertex) (g g' : Grid ℝ) : Prop extends SimilarMesh T σ g g' where
  im : Grid.Image T σ g g'

theorem LibraryGrid.nodup_triangles (G : LibraryGrid g nx ny s) : g.triangles.Nodup := by
  obtain ⟨P, dg, E, T, BV, BE, L⟩ := G.lattice
  exact List.Nodup.of_map _ L.nodup_vertexSet

theorem LibraryGrid.nondeg (G : LibraryGrid g nx ny s) {t : Tri} (ht : t ∈ g.triangles) : Nondegenerate (g.corners t) := by
  obtain ⟨-, -, -, -, -, -, -, f⟩ := tri_frame G ht
  have s0 := (C22_structure G).1
  show cross (g.xy t.1) (g.xy t.2.1) (g.xy t.2.2) ≠ 0
  rw [f]
  positivity

theorem Grid.MeshImage.similar (I : Grid.MeshImage T σ g g') (hκ : T.κ ≠ 0) (G : LibraryGrid g nx ny s)
    (G' : LibraryGrid g' nx' ny' s') : SimilarMesh T σ g g' := by
  have W := G.wellFormed
  have W' := G'.wellFormed
  have hat : ∀ v ∈ g.vertices, g'.At (σ v) (T.map (g.xy v)) := fun v hv => I.point _ _ (at_xy W ((mem_vertices W).1 hv))
  have maps : ∀ v ∈ g.vertices, σ v ∈ g'.vertices := fun v hv => (mem_vertices W').2 (at_lt (hat v hv))
  have inj : ∀ v ∈ g.vertices, ∀ w ∈ g.vertices, σ v = σ w → v = w := by
    intro v hv w hw e
    have h1 := hat v hv
    rw [e] at h1
    have := Similarity.map_inj hκ (at_unique h1 (hat w hw))
    exact G.at_inj (at_xy W ((mem_vertices W).1 hv)) (this ▸ at_xy W ((mem_vertices W).1 hw))
  refine ⟨I, hκ, W, W', maps, inj, ?_, fun v hv => xy_of_at (hat v hv), fun t ht => G.nondeg ht, fun t ht => G'.nondeg ht,
    G.nodup_triangles, G'.nodup_triangles, ⟨_, _, _, G⟩, ⟨_, _, _, G'⟩⟩
  have hn : g.vertices.Nodup := by rw [W.vertices]; exact List.nodup_range
  have hn' : g'.vertices.Nodup := by rw [W'.vertices]; exact List.nodup_range
  have hm : (g.vertices.map σ).Nodup := hn.map_on fun v hv w hw => inj v hv w hw
  have hp : (g.vertices.map σ).Perm g'.vertices := by
    refine List.Subperm.perm_of_length_le (hm.subperm ?_) ?_
    · intro v' hv'
      obtain ⟨v, hv, rfl⟩ := List.mem_map.1 hv'
      exact maps v hv
    · rw [List.length_map, length_vertices W, length_vertices W', I.count]
  intro v' hv'
  obtain ⟨v, hv, e⟩ := List.mem_map.1 (hp.mem_iff.2 hv')
  exact ⟨v, hv, e⟩

theorem Grid.Image.similar (I : Grid.Image T σ g g') (hκ : T.κ ≠ 0) (G : LibraryGrid g nx ny s)
    (G' : LibraryGrid g' nx' ny' s') : Similar T σ g g' := ⟨I.toMeshImage.similar hκ G G', I⟩

namespace SimilarMesh
variable (S : SimilarMesh T σ g g')
include S

theorem tri_mem {t : Tri} (ht : t ∈ g.triangles) : T.tri σ t ∈ g'.triangles := by
  obtain ⟨h1, h2, h3⟩ := S.wf.triangles t ht
  exact (S.mesh.triangles t.1 h1 t.2.1 h2 t.2.2 h3).1 ht

theorem tri_inj {t u : Tri} (ht : t ∈ g.triangles) (hu : u ∈ g.triangles) (e : T.tri σ t = T.tri σ u) : t = u := by
  obtain ⟨h1, h2, h3⟩ := S.wf.triangles t ht
  obtain ⟨k1, k2, k3⟩ := S.wf.triangles u hu
  obtain ⟨t1, t2, t3⟩ := t
  obtain ⟨u1, u2, u3⟩ := u
  rw [Similarity.tri, Similarity.tri] at e
  cases hs : T.swap <;> simp only [hs, Bool.false_eq_true, if_true, if_false, Prod.mk.injEq] at e
  · exact Prod.ext (S.inj _ h1 _ k1 e.1) (Prod.ext (S.inj _ h2 _ k2 e.2.1) (S.inj _ h3 _ k3 e.2.2))
  · exact Prod.ext (S.inj _ h1 _ k1 e.2.2) (Prod.ext (S.inj _ h2 _ k2 e.2.1) (S.inj _ h3 _ k3 e.1))

theorem tri_surj {t' : Tri} (ht : t' ∈ g'.triangles) : ∃ t ∈ g.triangles, T.tri σ t = t' := by
  obtain ⟨h1, h2, h3⟩ := S.wf'.triangles t' ht
  obtain ⟨a, ha, e1⟩ := S.surj _ h1
  obtain ⟨b, hb, e2⟩ := S.surj _ h2
  obtain ⟨c, hc, e3⟩ := S.surj _ h3
  cases hs : T.swap
  · refine ⟨(a, b, c), (S.mesh.triangles a ha b hb c hc).2 ?_, ?_⟩ <;> simp [Similarity.tri, hs, e1, e2, e3, ht]
  · refine ⟨(c, b, a), (S.mesh.triangles c hc b hb a ha).2 ?_, ?_⟩ <;> simp [Similarity.tri, hs, e1, e2, e3, ht]

theorem tri_perm : (g.triangles.map (T.tri σ)).Perm g'.triangles := by
  refine (List.perm_ext_iff_of_nodup (S.nodup.map_on fun t ht u hu => S.tri_inj ht hu) S.nodup').2 fun t' => ?_
  rw [List.mem_map]
  exact ⟨fun ⟨t, ht, e⟩ => e ▸ S.tri_mem ht, fun h => S.tri_surj h⟩

theorem twoD_image {t : Tri} (ht : t ∈ g.triangles) : twoD (g'.corners (T.tri σ t)) = T.κ ^ 2 * twoD (g.corners t) := by
  obtain ⟨h1, h2, h3⟩ := S.wf.triangles t ht
  have e1 := S.xy _ h1
  have e2 := S.xy _ h2
  have e3 := S.xy _ h3
  show cross (g'.xy (T.tri σ t).1) (g'.xy (T.tri σ t).2.1) (g'.xy (T.tri σ t).2.2) = T.κ ^ 2 * cross (g.xy t.1) (g.xy t.2.1) (g.xy t.2.2)
  rw [Similarity.tri]
  cases hs : T.swap
  · simp only [Bool.false_eq_true, if_false]
    rw [e1, e2, e3]
    simp only [cross, Similarity.map, Similarity.dir, hs, Bool.false_eq_true, if_false]
    ring
  · simp only [if_true]
    rw [e1, e2, e3]
    simp only [cross, Similarity.map, Similarity.dir, hs, if_true]
    ring

theorem area_image {t : Tri} (ht : t ∈ g.triangles) : triArea g'.xy (T.tri σ t) = T.κ ^ 2 * triArea g.xy t := by
  have h := S.twoD_image ht
  have h' : cross (g'.xy (T.tri σ t).1) (g'.xy (T.tri σ t).2.1) (g'.xy (T.tri σ t).2.2) =
    T.κ ^ 2 * cross (g.xy t.1) (g.xy t.2.1) (g.xy t.2.2) := h
  rw [triArea, triArea, h', abs_mul, abs_of_nonneg (sq_nonneg T.κ)]
  ring

end SimilarMesh

/-! ### quadrature -/

/-- the barycentric coordinates of the image of a point -/
def Similarity.bary (T : Similarity) (b : Bary ℝ) : Bary ℝ := if T.swap then ⟨b.l3, b.l2, b.l1⟩ else b

theorem Similarity.bary_bary (b : Bary ℝ) : T.bary (T.bary b) = b := by
  rw [Similarity.bary, Similarity.bary]
  cases T.swap <;> simp

theorem Similarity.bary_norm {b : Bary ℝ} (h : b.Normalized) : (T.bary b).Normalized := by
  rw [Similarity.bary]
  cases T.swap
  · simpa using h
  · simp only [Bary.Normalized, if_true] at *
    linarith

/-- the rule is invariant under a reversal of the orientation of the triangle -/
structure TriRule.Symm (r : TriRule ℝ) : Prop where
  perm : ((r.points.zip r.weights).map fun bw => ((⟨bw.1.l3, bw.1.l2, bw.1.l1⟩ : Bary ℝ), bw.2)).Perm (r.points.zip r.weights)
  points : ∀ b ∈ r.points, (⟨b.l3, b.l2, b.l1⟩ : Bary ℝ) ∈ r.points

theorem rule_points' {r : TriRule ℝ} (R : r.Good) {points : List (ℝ × ℝ)} (h : r.points.map (fun b => (b.l1, b.l2)) = points) :
    r.points = points.map fun p => ⟨p.1, p.2, 1 - p.1 - p.2⟩ := by
  rw [← h, List.map_map]
  conv_lhs => rw [← List.map_id r.points]
  refine List.map_congr_left fun b hb => ?_
  have := (R.inside b hb).1
  rw [Bary.Normalized] at this
  obtain ⟨x, y, z⟩ := b
  simp only [id, Function.comp, Bary.mk.injEq, true_and] at *
  linarith

theorem centroid_symm {r : TriRule ℝ} (h : centroid ℝ = .ok r) : r.Symm := by
  obtain ⟨r', h1, R, h3, h4⟩ := rule_good (weights := [(1 : ℝ)]) (points := [(1 / 3, 1 / 3)])
    (by simp; norm_num) (by norm_num) rfl (by simp) (by simp)
  rw [centroid, h1] at h
  cases h
  have h5 := rule_points' R h4
  constructor
  · rw [h3, h5]
    norm_num
  · rw [h5]
    norm_num

theorem dunavant2_symm {r : TriRule ℝ} (h : dunavant2 ℝ = .ok r) : r.Symm := by
  obtain ⟨r', h1, R, h3, h4⟩ := rule_good (weights := [(1 / 3 : ℝ), 1 / 3, 1 / 3])
    (points := [(2 / 3, 1 / 6), (1 / 6, 2 / 3), (1 / 6, 1 / 6)])
    (by simp; norm_num) (by norm_num) rfl (by simp) (by simp)
  rw [dunavant2, h1] at h
  cases h
  have h5 := rule_points' R h4
  constructor
  · rw [h3, h5]
    norm_num
    generalize ((⟨2 / 3, 1 / 6, 1 / 6⟩ : Bary ℝ), (1 / 3 : ℝ)) = a
    generalize ((⟨1 / 6, 1 / 6, 2 / 3⟩ : Bary ℝ), (1 / 3 : ℝ)) = b
    generalize ((⟨1 / 6, 2 / 3, 1 / 6⟩ : Bary ℝ), (1 / 3 : ℝ)) = c
    calc [b, c, a].Perm (c :: [b, a]) := .swap _ _ _
      _ |>.Perm (c :: [a, b]) := .cons _ (.swap _ _ _)
      _ |>.Perm [a, c, b] := .swap _ _ _
  · rw [h5]
    norm_num

theorem TriRule.bary {r : TriRule ℝ} (hr : T.swap = true → r.Symm) :
    ((r.points.zip r.weights).map fun bw => (T.bary bw.1, bw.2)).Perm (r.points.zip r.weights) := by
  cases hs : T.swap
  · simp [Similarity.bary, hs]
  · simpa [Similarity.bary, hs] using (hr hs).perm

theorem TriRule.bary_mem {r : TriRule ℝ} (hr : T.swap = true → r.Symm) {b : Bary ℝ} (hb : b ∈ r.points) : T.bary b ∈ r.points := by
  cases hs : T.swap
  · simpa [Similarity.bary, hs] using hb
  · simpa [Similarity.bary, hs] using (hr hs).points b hb

namespace SimilarMesh
variable (S : SimilarMesh T σ g g')
include S

theorem quad_image {r : TriRule ℝ} (hr : T.swap = true → r.Symm) {f f' : Tri → Bary ℝ → ℝ}
    (h : ∀ t ∈ g.triangles, ∀ b ∈ r.points, f' (T.tri σ t) (T.bary b) = f t b) : g'.quad r f' = T.κ ^ 2 * g.quad r f := by
  rw [Grid.quad, Grid.quad, ← (S.tri_perm.map _).sum_eq, List.map_map, ← List.sum_map_mul_left]
  congr 1
  refine List.map_congr_left fun t ht => ?_
  rw [Function.comp, S.area_image ht, mul_assoc]
  congr 2
  rw [← ((TriRule.bary hr).map _).sum_eq, List.map_map]
  congr 1
  refine List.map_congr_left fun bw hbw => ?_
  rw [Function.comp]
  simp only
  rw [h t ht _ (List.of_mem_zip (a := bw.1) (b := bw.2) hbw).1]

/-- functions on the triangles and quadrature points of a grid correspond to functions on the image -/
theorem transfer {α : Type} [Inhabited α] {r : TriRule ℝ} (_ : T.swap = true → r.Symm) (φ : α → α) (W : Tri → Bary ℝ → α) :
    ∃ W' : Tri → Bary ℝ → α, ∀ t ∈ g.triangles, ∀ b ∈ r.points, W' (T.tri σ t) (T.bary b) = φ (W t b) := by
  classical
  refine ⟨fun t' b' => if h : ∃ t ∈ g.triangles, T.tri σ t = t' then φ (W h.choose (T.bary b')) else default, fun t ht b hb => ?_⟩
  have h : ∃ u ∈ g.triangles, T.tri σ u = T.tri σ t := ⟨t, ht, rfl⟩
  simp only [dif_pos h]
  rw [S.tri_inj h.choose_spec.1 ht h.choose_spec.2, Similarity.bary_bary]

/-- all triangles and quadrature points of the image -/
theorem forall_image {r : TriRule ℝ} (hr : T.swap = true → r.Symm) {P : Tri → Bary ℝ → Prop} :
    (∀ t ∈ g'.triangles, ∀ b ∈ r.points, P t b) ↔ ∀ t ∈ g.triangles, ∀ b ∈ r.points, P (T.tri σ t) (T.bary b) := by
  constructor
  · intro h t ht b hb
    exact h _ (S.tri_mem ht) _ (TriRule.bary_mem hr hb)
  · intro h t' ht' b hb
    obtain ⟨t, ht, rfl⟩ := S.tri_surj ht'
    have := h t ht _ (TriRule.bary_mem hr hb)
    rwa [Similarity.bary_bary] at this

/-! ### gradients -/

theorem grad_image {t : Tri} (ht : t ∈ g.triangles) {X X' : Vertex → ℝ} {α β : ℝ} (hX : ∀ v ∈ g.vertices, X' (σ v) = α * X v + β) :
    (∑ j, bb (g'.corners (T.tri σ t)) j * X' ((T.tri σ t).get j) / twoD (g'.corners (T.tri σ t)),
      ∑ j, cc (g'.corners (T.tri σ t)) j * X' ((T.tri σ t).get j) / twoD (g'.corners (T.tri σ t))) =
    (α / T.κ * (T.dir (∑ j, bb (g.corners t) j * X (t.get j) / twoD (g.corners t),
      ∑ j, cc (g.corners t) j * X (t.get j) / twoD (g.corners t))).1,
     α / T.κ * (T.dir (∑ j, bb (g.corners t) j * X (t.get j) / twoD (g.corners t),
      ∑ j, cc (g.corners t) j * X (t.get j) / twoD (g.corners t))).2) := by
  obtain ⟨h1, h2, h3⟩ := S.wf.triangles t ht
  have e1 := S.xy _ h1
  have e2 := S.xy _ h2
  have e3 := S.xy _ h3
  have x1 := hX _ h1
  have x2 := hX _ h2
  have x3 := hX _ h3
  have d0 : twoD (g.corners t) ≠ 0 := S.nd t ht
  have k0 := S.ne
  rw [S.twoD_image ht]
  generalize twoD (g.corners t) = d at d0
  obtain ⟨t1, t2, t3⟩ := t
  simp only at *
  simp only [Fin.sum_univ_three]
  simp only [bb, cc, Grid.corners, Similarity.tri, Similarity.dir]
  cases hs : T.swap
  · simp only [Bool.false_eq_true, if_false, Tri.get, Matrix.cons_val_zero, Matrix.cons_val_one, Matrix.cons_val, zero_add,
      show (1 : Fin 3) + 1 = 2 from rfl, show (1 : Fin 3) + 2 = 0 from rfl, show (2 : Fin 3) + 1 = 0 from rfl,
      show (2 : Fin 3) + 2 = 1 from rfl, e1, e2, e3, x1, x2, x3, Similarity.map, Similarity.dir, hs, Prod.mk.injEq]
    constructor <;> field_simp <;> ring
  · simp only [if_true, Tri.get, Matrix.cons_val_zero, Matrix.cons_val_one, Matrix.cons_val, zero_add,
      show (1 : Fin 3) + 1 = 2 from rfl, show (1 : Fin 3) + 2 = 0 from rfl, show (2 : Fin 3) + 1 = 0 from rfl,
      show (2 : Fin 3) + 2 = 1 from rfl, e1, e2, e3, x1, x2, x3, Similarity.map, Similarity.dir, hs, Prod.mk.injEq]
    constructor <;> field_simp <;> ring

end SimilarMesh

/-- the matrix of a linear map after an exchange of the axes -/
def Similarity.conj (T : Similarity) (F : Matrix (Fin 2) (Fin 2) ℝ) : Matrix (Fin 2) (Fin 2) ℝ :=
  if T.swap then !![F 1 1, F 1 0; F 0 1, F 0 0] else F

end

end Tve
