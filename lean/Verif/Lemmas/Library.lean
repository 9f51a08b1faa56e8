import Verif.Lemmas.RefineFull
import Verif.Spec.Refine

/-! Grids of the library are lattice grids. -/

namespace Tve
open RectGrid

/-- some lattice description -/
def IsLGrid (g : Grid ℝ) (nx ny : ℕ) (s : ℝ) : Prop :=
  ∃ P dg E T BV BE DV DE NV NE, LGrid g nx ny s P dg E T BV BE DV DE NV NE

theorem one_le_cells' {w s : ℝ} (hs : 0 < s) (h : s ≤ w) : 1 ≤ cells w s :=
  Nat.le_floor (by rw [le_div_iff₀ hs]; simpa using h)

theorem LibraryGrid.lgrid {g : Grid ℝ} {nx ny : ℕ} {s : ℝ} (G : LibraryGrid g nx ny s) : IsLGrid g nx ny s := by
  induction G with
  | @grid it d s g hs hw hh hg =>
    obtain ⟨ts, R⟩ := rectSpec_unique (hs.le.trans hw) (hs.le.trans hh) hs hg
    obtain ⟨P, E, T, BV, BE, DV, DE, NV, NE, h⟩ := rect_LGrid R (one_le_cells' hs hw) (one_le_cells' hs hh) hs
    exact ⟨P, true, E, T, BV, BE, DV, DE, NV, NE, h⟩
  | @refine d g nx ny s n r hg hn hs hr ih =>
    obtain ⟨P, dg, E, T, BV, BE, DV, DE, NV, NE, h⟩ := ih
    obtain ⟨r', hr', R⟩ := refine_ok hn d h.lat hs h.pd h.pn
    rw [hr] at hr'
    cases hr'
    exact ⟨_, _, _, _, _, _, _, _, _, _, h.refined hn R⟩

section
variable {g : Grid ℝ} {nx ny : ℕ} {h : ℝ} {P : List LP} {dg : Bool} {E : List (LP × LP)}
  {T : List (LP × LP × LP)} {BV : List LP} {BE : List (LP × LP)} {DV : List LP} {DE : List (LP × LP)}
  {NV : List LP} {NE : List (LP × LP)}

theorem xy_of_at {g : Grid ℝ} {v : Vertex} {q : ℝ × ℝ} (h : g.At v q) : g.xy v = q := by
  unfold Grid.xy; rw [h]; rfl

theorem at_unique {g : Grid ℝ} {v : Vertex} {q q' : ℝ × ℝ} (h : g.At v q) (h' : g.At v q') : q = q' := by
  rw [← xy_of_at h, xy_of_at h']

namespace Lattice

theorem meanLength_eq (L : Lattice g nx ny h P dg E T BV BE) :
    g.meanLength = (E.map (lenL h)).sum / (E.length : ℝ) := by
  unfold Grid.meanLength
  rw [L.edges, List.length_map, List.map_map]
  congr 2
  apply List.map_congr_left
  intro e he
  have hm := L.memE_P he
  simp only [Function.comp, edgeLen, labE, lenL]
  rw [xy_of_at (L.at_lab hm.1), xy_of_at (L.at_lab hm.2)]
  rfl

theorem edges_ne (L : Lattice g nx ny h P dg E T BV BE) : g.edges ≠ [] := by
  rw [L.edges]; intro h0
  exact L.E_ne (List.map_eq_nil_iff.1 h0)

theorem meanExact (L : Lattice g nx ny h P dg E T BV BE) : g.MeanExact := by
  rw [Grid.MeanExact, if_neg L.edges_ne, L.meanLength_eq, L.mean]

theorem meanLength_bounds (L : Lattice g nx ny h P dg E T BV BE) : h ≤ g.meanLength ∧ g.meanLength ≤ 2 * h := by
  rw [L.meanLength_eq]
  exact mean_bounds L.h_pos (fun e he => (L.memE e).1 he) L.E_ne

theorem pointTol_eq (L : Lattice g nx ny h P dg E T BV BE) : g.pointTol = g.meanLength / 10 ^ 7 := by
  rw [Grid.pointTol, if_neg L.edges_ne]

theorem wellFormed_aux (L : Lattice g nx ny h P dg E T BV BE) :
    g.vertices = List.range g.points.length ∧ ∀ v < g.points.length, ∃ q, g.At v q := by
  constructor
  · rw [L.vertices, L.points, List.length_map]
  · intro v hv
    rw [L.points, List.length_map] at hv
    refine ⟨pos h (co P v), ?_⟩
    have := L.at_lab (co_mem hv)
    rwa [lab_co L.nodupP hv] at this

theorem lab_vertices (L : Lattice g nx ny h P dg E T BV BE) {a : LP} (ha : a ∈ P) : lab P a ∈ g.vertices := by
  rw [L.vertices]; exact List.mem_range.2 (lab_lt ha)

theorem dist_ge (L : Lattice g nx ny h P dg E T BV BE) {v v' : Vertex} {q q' : ℝ × ℝ} (h1 : g.At v q) (h2 : g.At v' q')
    (hne : v ≠ v') : h ≤ dist2 q q' := by
  obtain ⟨a, ha, rfl, rfl⟩ := L.at_iff.1 h1
  obtain ⟨b, hb, rfl, rfl⟩ := L.at_iff.1 h2
  exact dist2_pos_ge L.h_pos fun h => hne (by rw [h])

end Lattice

theorem LGrid.wellFormed (G : LGrid g nx ny h P dg E T BV BE DV DE NV NE) : g.WellFormed := by
  have L := G.lat
  have hE : ∀ e, e ∈ BE → labE P e ∈ g.edges := fun e he => by
    rw [L.edges]; exact List.mem_map_of_mem (L.memBE_E he)
  refine ⟨L.wellFormed_aux.1, L.wellFormed_aux.2, ?_, ?_, ⟨?_, ?_⟩, ⟨?_, ?_⟩, ?_, ?_⟩
  · intro e he
    rw [L.edges] at he
    obtain ⟨e', he', rfl⟩ := List.mem_map.1 he
    exact ⟨L.lab_vertices (L.memE_P he').1, L.lab_vertices (L.memE_P he').2⟩
  · intro t ht
    rw [L.triangles] at ht
    obtain ⟨t', ht', rfl⟩ := List.mem_map.1 ht
    have := L.memT_P ht'
    exact ⟨L.lab_vertices this.1, L.lab_vertices this.2.1, L.lab_vertices this.2.2⟩
  · intro v hv
    rw [L.bvertices] at hv
    obtain ⟨a, ha, rfl⟩ := List.mem_map.1 hv
    exact L.lab_vertices (L.memBV_P ha)
  · intro e he
    rw [L.bedges] at he
    obtain ⟨e', he', rfl⟩ := List.mem_map.1 he
    exact hE e' he'
  · intro v hv
    rw [G.pd.vertices] at hv
    obtain ⟨a, ha, rfl⟩ := List.mem_map.1 hv
    exact L.lab_vertices (G.pd.memV a ha)
  · intro e he
    rw [G.pd.edges] at he
    obtain ⟨e', he', rfl⟩ := List.mem_map.1 he
    exact hE e' (G.DEsub e' he')
  · intro v hv
    rw [G.pn.vertices] at hv
    obtain ⟨a, ha, rfl⟩ := List.mem_map.1 hv
    exact L.lab_vertices (G.pn.memV a ha)
  · intro e he
    rw [G.pn.edges] at he
    obtain ⟨e', he', rfl⟩ := List.mem_map.1 he
    exact hE e' (G.NEsub e' he')

theorem LibraryGrid.wellFormed {s : ℝ} (G : LibraryGrid g nx ny s) : g.WellFormed := by
  obtain ⟨P, dg, E, T, BV, BE, DV, DE, NV, NE, h⟩ := G.lgrid
  exact h.wellFormed

theorem LibraryGrid.lattice {s : ℝ} (G : LibraryGrid g nx ny s) :
    ∃ P dg E T BV BE, Lattice g nx ny s P dg E T BV BE := by
  obtain ⟨P, dg, E, T, BV, BE, DV, DE, NV, NE, h⟩ := G.lgrid
  exact ⟨P, dg, E, T, BV, BE, h.lat⟩

end

/-! ### points as planar pairs -/

theorem points_xy {g : Grid ℝ} (W : g.WellFormed) : g.points = ((List.range g.points.length).map g.xy).map vec2 := by
  apply List.ext_getElem
  · simp
  · intro v h1 h2
    obtain ⟨q, hq⟩ := W.planar v h1
    simp only [List.getElem_map, List.getElem_range]
    rw [xy_of_at hq]
    have := hq
    rw [Grid.At, List.getElem?_eq_getElem h1] at this
    exact Option.some.inj this

theorem at_xy {g : Grid ℝ} (W : g.WellFormed) {v : Vertex} (hv : v < g.points.length) : g.At v (g.xy v) := by
  obtain ⟨q, hq⟩ := W.planar v hv
  rw [xy_of_at hq]; exact hq

theorem at_lt {g : Grid ℝ} {v : Vertex} {q : ℝ × ℝ} (h : g.At v q) : v < g.points.length :=
  (List.getElem?_eq_some_iff.1 h).1

theorem tolerance_eq_pointTol {g : Grid ℝ} (hm : g.MeanExact) : g.tolerance = g.pointTol := by
  unfold Grid.tolerance Grid.pointTol
  rw [hm]
  split <;> rename_i h0
  · split at h0
    · cases h0
    · rename_i hne
      rw [if_neg hne]; cases h0; rfl
  · split at h0
    · rename_i he; rw [if_pos he]
    · cases h0

/-- `point_to_vertex` on a well-formed grid -/
theorem pointToVertex_eq {g : Grid ℝ} (W : g.WellFormed) (hm : g.MeanExact) (z : ℝ × ℝ) :
    g.pointToVertex (vec2 z) =
      .ok ((List.range g.points.length).findIdx? fun v => decide (dist2 z (g.xy v) < g.pointTol)) := by
  rw [Grid.pointToVertex]
  conv_lhs => rw [points_xy W]
  rw [findPoint_vec2, List.findIdx?_map, tolerance_eq_pointTol hm]
  congr 1
  simp [Function.comp_def]

theorem findIdx?_range {N : ℕ} {p : ℕ → Bool} {v : ℕ} (h : (List.range N).findIdx? p = some v) :
    v < N ∧ p v = true ∧ ∀ w < v, p w = false := by
  rw [List.findIdx?_eq_some_iff_getElem] at h
  obtain ⟨h1, h2, h3⟩ := h
  simp only [List.length_range] at h1
  refine ⟨h1, by simpa using h2, fun w hw => ?_⟩
  have := h3 w hw
  simpa using this

theorem findIdx?_range_none {N : ℕ} {p : ℕ → Bool} (h : (List.range N).findIdx? p = none) : ∀ v < N, p v = false := by
  rw [List.findIdx?_eq_none_iff] at h
  intro v hv
  exact h v (List.mem_range.2 hv)

end Tve
