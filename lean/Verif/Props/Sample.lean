import Verif.Lemmas.GridFix
import Verif.Spec.Refine

/-!
# A sample grid

The examples beside the theorems about grids, interpolations and integrals use this grid: the rectangle `5/4 × 1`, fixed
at its lower and left sides, with scale `1/2`. The scale does not divide the width; the grid has `2 × 2` cells.
-/

namespace Tve

/-- the sample rectangle -/
noncomputable def sampleDomain : RectDomain ℝ := ⟨5 / 4, 1, .many [.lower, .left]⟩

theorem sample_cells : cells sampleDomain.width (1 / 2) = 2 ∧ cells sampleDomain.height (1 / 2) = 2 := by
  constructor <;> rw [cells, Nat.floor_eq_iff (by norm_num [sampleDomain])] <;> norm_num [sampleDomain]

private theorem sample_exists (it : SetIter) :
    ∃ g ts, sampleDomain.grid it (1 / 2) = .ok g ∧ RectSpec g it 2 2 (1 / 2) (.many [.lower, .left]) ts := by
  have h := rect_grid_spec it sampleDomain (s := 1 / 2) (by norm_num [sampleDomain]) (by norm_num [sampleDomain])
    (by norm_num)
  rwa [sample_cells.1, sample_cells.2] at h

/-- the sample grid -/
noncomputable def sampleGrid (it : SetIter) : Grid ℝ := (sample_exists it).choose

theorem sampleGrid_eq (it : SetIter) : sampleDomain.grid it (1 / 2) = .ok (sampleGrid it) :=
  (sample_exists it).choose_spec.choose_spec.1

theorem sampleGrid_library (it : SetIter) : LibraryGrid (sampleGrid it) 2 2 (1 / 2) := by
  have h := LibraryGrid.grid (by norm_num) (by norm_num [sampleDomain]) (by norm_num [sampleDomain]) (sampleGrid_eq it)
  rwa [sample_cells.1, sample_cells.2] at h

/-- the vertices, edges and triangles of the sample grid -/
theorem sampleGrid_lists (it : SetIter) :
    (sampleGrid it).vertices = [0, 1, 2, 3, 4, 5, 6, 7, 8] ∧
    (sampleGrid it).edges = [(0, 1), (1, 2), (3, 4), (4, 5), (6, 7), (7, 8), (0, 3), (3, 6), (1, 4), (4, 7), (2, 5), (5, 8),
      (0, 4), (3, 7), (1, 5), (4, 8)] ∧
    (sampleGrid it).triangles =
      [(0, 1, 4), (3, 4, 7), (1, 2, 5), (4, 5, 8), (4, 3, 0), (7, 6, 3), (5, 4, 1), (8, 7, 4)] := by
  obtain ⟨ts, R⟩ := (sample_exists it).choose_spec
  have R := R.2
  refine ⟨R.vertices.trans (by decide), R.edges.trans (by decide), R.triangles.trans (by decide)⟩

/-- its points -/
theorem sampleGrid_at (it : SetIter) {i j : ℕ} (hi : i ≤ 2) (hj : j ≤ 2) :
    (sampleGrid it).At (3 * j + i) (i / 2, j / 2) := by
  obtain ⟨ts, R⟩ := (sample_exists it).choose_spec
  have h := R.2.at_lab (a := (i, j)) ⟨hi, hj⟩
  rw [lab_rowMajor hi hj] at h
  have h1 : RectGrid.pv (2 + 1) i j = 3 * j + i := by simp [RectGrid.pv, mul_comm]
  rw [h1] at h
  have h2 : pos (1 / 2) (i, j) = ((i : ℝ) / 2, (j : ℝ) / 2) := by simp [pos, div_eq_mul_inv]
  rw [h2] at h
  exact h

theorem sampleGrid_length (it : SetIter) : (sampleGrid it).points.length = 9 := by
  obtain ⟨ts, R⟩ := (sample_exists it).choose_spec
  have h := congrArg List.length R.2.points
  rw [List.length_map] at h
  exact h.trans (by decide)

theorem sampleGrid_boundary (it : SetIter) : (sampleGrid it).boundary.edges.length = 8 := by
  obtain ⟨ts, R⟩ := (sample_exists it).choose_spec
  have h := congrArg (fun b : Boundary => b.edges.length) R.2.boundary
  exact h.trans (by simp only; decide)

/-- the nine points, written out -/
theorem sampleGrid_points (it : SetIter) :
    (sampleGrid it).At 0 (0, 0) ∧ (sampleGrid it).At 1 (1 / 2, 0) ∧ (sampleGrid it).At 2 (1, 0) ∧
    (sampleGrid it).At 3 (0, 1 / 2) ∧ (sampleGrid it).At 4 (1 / 2, 1 / 2) ∧ (sampleGrid it).At 5 (1, 1 / 2) ∧
    (sampleGrid it).At 6 (0, 1) ∧ (sampleGrid it).At 7 (1 / 2, 1) ∧ (sampleGrid it).At 8 (1, 1) := by
  have h (i j : ℕ) (hi : i ≤ 2) (hj : j ≤ 2) := sampleGrid_at it hi hj
  refine ⟨?_, ?_, ?_, ?_, ?_, ?_, ?_, ?_, ?_⟩
  · simpa using h 0 0 (by norm_num) (by norm_num)
  · simpa using h 1 0 (by norm_num) (by norm_num)
  · simpa using h 2 0 (by norm_num) (by norm_num)
  · simpa using h 0 1 (by norm_num) (by norm_num)
  · simpa using h 1 1 (by norm_num) (by norm_num)
  · simpa using h 2 1 (by norm_num) (by norm_num)
  · simpa using h 0 2 (by norm_num) (by norm_num)
  · simpa using h 1 2 (by norm_num) (by norm_num)
  · simpa using h 2 2 (by norm_num) (by norm_num)

/-- a vertex has one point -/
theorem At.unique {g : Grid ℝ} {v : Vertex} {p q : ℝ × ℝ} (hp : g.At v p) (hq : g.At v q) : p = q :=
  Lattice.vec2_inj (Option.some.inj (hp.symm.trans hq))

end Tve
