import Verif.Spec.Grid
import Verif.Lemmas.Integrators

/-! Combinatorics of lattice grids. -/

namespace Tve

/-! ### Python sets -/

section
variable {α : Type} [DecidableEq α]

theorem mem_pySetUpdate {s l : List α} {a : α} : a ∈ pySetUpdate s l ↔ a ∈ s ∨ a ∈ l := by
  unfold pySetUpdate
  induction l generalizing s with
  | nil => simp
  | cons b t ih =>
    rw [List.foldl_cons, ih]
    split
    · rename_i h
      constructor
      · rintro (h' | h')
        · exact .inl h'
        · exact .inr (List.mem_cons_of_mem _ h')
      · rintro (h' | h')
        · exact .inl h'
        · rcases List.mem_cons.1 h' with rfl | h'
          · exact .inl h
          · exact .inr h'
    · simp [or_assoc]

theorem nodup_pySetUpdate {s l : List α} (h : s.Nodup) : (pySetUpdate s l).Nodup := by
  unfold pySetUpdate
  induction l generalizing s with
  | nil => exact h
  | cons b t ih =>
    rw [List.foldl_cons]
    apply ih
    split
    · exact h
    · rename_i hb
      exact List.nodup_append.2 ⟨h, by simp, by rintro a ha b' hb' rfl; simp at hb'; subst hb'; exact hb ha⟩

theorem mem_pySet {l : List α} {a : α} : a ∈ pySet l ↔ a ∈ l := by
  have := @mem_pySetUpdate α _ [] l a
  simpa [pySetUpdate, pySet] using this

theorem nodup_pySet (l : List α) : (pySet l).Nodup := nodup_pySetUpdate (s := []) (by simp)

theorem mem_pySetDiff {s l : List α} {a : α} : a ∈ pySetDiff s l ↔ a ∈ s ∧ a ∉ l := by
  simp [pySetDiff]

theorem nodup_pySetDiff {s l : List α} (h : s.Nodup) : (pySetDiff s l).Nodup := h.filter _

end

/-! ### lattice description of a grid -/

/-- a lattice point -/
abbrev LP := ℕ × ℕ

/-- the vertex id of a lattice point -/
def lab (P : List LP) (a : LP) : Vertex := P.idxOf a
/-- the edge between lattice points -/
def labE (P : List LP) (e : LP × LP) : Edge := (lab P e.1, lab P e.2)
/-- the triangle of lattice points -/
def labT (P : List LP) (t : LP × LP × LP) : Tri := (lab P t.1, lab P t.2.1, lab P t.2.2)

/-- position of a lattice point for mesh size `h` -/
noncomputable def pos (h : ℝ) (a : LP) : ℝ × ℝ := (a.1 * h, a.2 * h)

/-- length of a lattice edge for mesh size `h` -/
noncomputable def lenL (h : ℝ) (e : LP × LP) : ℝ :=
  Real.sqrt (((e.1.1 : ℝ) * h - e.2.1 * h) ^ 2 + ((e.1.2 : ℝ) * h - e.2.2 * h) ^ 2)

/-- the lattice triangles of the `nx × ny` box: lower and upper halves of the unit squares -/
def LatTri (nx ny : ℕ) (t : LP × LP × LP) : Prop :=
  ∃ i j, i < nx ∧ j < ny ∧
    (t = ((i, j), (i + 1, j), (i + 1, j + 1)) ∨ t = ((i + 1, j + 1), (i, j + 1), (i, j)))

/-- the lattice edges, horizontal and vertical ones pointing right and up, diagonals pointing up (`dg`) or down -/
def LatEdge (nx ny : ℕ) (dg : Bool) (e : LP × LP) : Prop :=
  ∃ i j, (i < nx ∧ j ≤ ny ∧ e = ((i, j), (i + 1, j))) ∨ (i ≤ nx ∧ j < ny ∧ e = ((i, j), (i, j + 1))) ∨
    (i < nx ∧ j < ny ∧ e = if dg then ((i, j), (i + 1, j + 1)) else ((i + 1, j + 1), (i, j)))

/-- a lattice point on a side of the box -/
def OnSideL (nx ny : ℕ) : FixOption → LP → Prop
  | .lower, a => a.2 = 0
  | .right, a => a.1 = nx
  | .upper, a => a.2 = ny
  | .left, a => a.1 = 0
  | .unknown _, _ => False

/-- the lattice edges on a side -/
def SideEdge (nx ny : ℕ) : FixOption → LP × LP → Prop
  | .lower, e => ∃ i < nx, e = ((i, 0), (i + 1, 0))
  | .right, e => ∃ j < ny, e = ((nx, j), (nx, j + 1))
  | .upper, e => ∃ i < nx, e = ((i, ny), (i + 1, ny))
  | .left, e => ∃ j < ny, e = ((0, j), (0, j + 1))
  | .unknown _, _ => False

/-- the lattice points of the box -/
def InBox (nx ny : ℕ) (a : LP) : Prop := a.1 ≤ nx ∧ a.2 ≤ ny

/-- A grid whose points are the lattice points of a box, and whose triangles, edges and boundary are the expected
ones. -/
structure Lattice (g : Grid ℝ) (nx ny : ℕ) (h : ℝ) (P : List LP) (dg : Bool)
    (E : List (LP × LP)) (T : List (LP × LP × LP)) (BV : List LP) (BE : List (LP × LP)) : Prop where
  h_pos : 0 < h
  hx : 1 ≤ nx
  hy : 1 ≤ ny
  nodupP : P.Nodup
  memP : ∀ a, a ∈ P ↔ InBox nx ny a
  vertices : g.vertices = List.range P.length
  points : g.points = P.map fun a => vec2 (pos h a)
  edges : g.edges = E.map (labE P)
  nodupE : E.Nodup
  memE : ∀ e, e ∈ E ↔ LatEdge nx ny dg e
  triangles : g.triangles = T.map (labT P)
  nodupT : T.Nodup
  memT : ∀ t, t ∈ T ↔ LatTri nx ny t
  bvertices : g.boundary.vertices = BV.map (lab P)
  nodupBV : BV.Nodup
  memBV : ∀ a, a ∈ BV ↔ InBox nx ny a ∧ (a.1 = 0 ∨ a.1 = nx ∨ a.2 = 0 ∨ a.2 = ny)
  bedges : g.boundary.edges = BE.map (labE P)
  nodupBE : BE.Nodup
  memBE : ∀ e, e ∈ BE ↔ ∃ f, SideEdge nx ny f e
  mean : g.meanEdgeLength = some ((E.map (lenL h)).sum / (E.length : ℝ))

/-- row-major list of the lattice points of a box with `nh` points per row -/
def rowMajor (nh nv : ℕ) : List LP := (List.range (nh * nv)).map fun v => (v % nh, v / nh)

theorem length_rowMajor (nh nv : ℕ) : (rowMajor nh nv).length = nh * nv := by simp [rowMajor]

theorem nodup_rowMajor (nh nv : ℕ) : (rowMajor nh nv).Nodup := by
  apply List.Nodup.map_on _ List.nodup_range
  intro a _ b _ hab
  simp only [Prod.mk.injEq] at hab
  rw [← Nat.div_add_mod a nh, ← Nat.div_add_mod b nh, hab.1, hab.2]

theorem mem_rowMajor {nx ny : ℕ} (a : LP) : a ∈ rowMajor (nx + 1) (ny + 1) ↔ InBox nx ny a := by
  simp only [rowMajor, List.mem_map, List.mem_range, InBox]
  constructor
  · rintro ⟨v, hv, rfl⟩
    refine ⟨?_, ?_⟩
    · have : v % (nx + 1) < nx + 1 := Nat.mod_lt v (Nat.succ_pos nx)
      simp only; omega
    · have := Nat.div_lt_of_lt_mul hv; simp only; omega
  · rintro ⟨h1, h2⟩
    refine ⟨a.2 * (nx + 1) + a.1, ?_, ?_⟩
    · calc a.2 * (nx + 1) + a.1 < a.2 * (nx + 1) + (nx + 1) := by omega
        _ = (nx + 1) * (a.2 + 1) := by ring
        _ ≤ (nx + 1) * (ny + 1) := Nat.mul_le_mul_left _ (by omega)
    · ext
      · simp [Nat.mod_eq_of_lt (show a.1 < nx + 1 by omega)]
      · simp only
        rw [mul_comm, Nat.mul_add_div (Nat.succ_pos nx), Nat.div_eq_of_lt (by omega), add_zero]

theorem lab_rowMajor {nx ny : ℕ} {i j : ℕ} (hi : i ≤ nx) (hj : j ≤ ny) :
    lab (rowMajor (nx + 1) (ny + 1)) (i, j) = RectGrid.pv (nx + 1) i j := by
  have hlt : j * (nx + 1) + i < (rowMajor (nx + 1) (ny + 1)).length := by
    rw [length_rowMajor]
    calc j * (nx + 1) + i < j * (nx + 1) + (nx + 1) := by omega
        _ = (nx + 1) * (j + 1) := by ring
        _ ≤ (nx + 1) * (ny + 1) := Nat.mul_le_mul_left _ (by omega)
  have hget : (rowMajor (nx + 1) (ny + 1))[j * (nx + 1) + i] = (i, j) := by
    simp only [rowMajor, List.getElem_map, List.getElem_range]
    ext
    · simp [Nat.mod_eq_of_lt (show i < nx + 1 by omega)]
    · simp only
      rw [mul_comm, Nat.mul_add_div (Nat.succ_pos nx), Nat.div_eq_of_lt (by omega), add_zero]
  unfold lab RectGrid.pv
  have := (nodup_rowMajor (nx + 1) (ny + 1)).idxOf_getElem _ hlt
  rw [hget] at this
  exact this

/-! ### the lists of `RectangleDomain.grid` in lattice coordinates -/

def hE0 (nx ny : ℕ) : List (LP × LP) :=
  (List.range (ny + 1)).flatMap fun j => (List.range nx).map fun i => ((i, j), (i + 1, j))
def vE0 (nx ny : ℕ) : List (LP × LP) :=
  (List.range (nx + 1)).flatMap fun i => (List.range ny).map fun j => ((i, j), (i, j + 1))
def dE0 (nx ny : ℕ) : List (LP × LP) :=
  (List.range nx).flatMap fun i => (List.range ny).map fun j => ((i, j), (i + 1, j + 1))
def E0 (nx ny : ℕ) : List (LP × LP) := hE0 nx ny ++ vE0 nx ny ++ dE0 nx ny
def lT0 (nx ny : ℕ) : List (LP × LP × LP) :=
  (List.range nx).flatMap fun i => (List.range ny).map fun j => ((i, j), (i + 1, j), (i + 1, j + 1))
def uT0 (nx ny : ℕ) : List (LP × LP × LP) :=
  (List.range nx).flatMap fun i => (List.range ny).map fun j => ((i + 1, j + 1), (i, j + 1), (i, j))
def T0 (nx ny : ℕ) : List (LP × LP × LP) := lT0 nx ny ++ uT0 nx ny

/-- lists given by two nested ranges have no duplicates when the entries determine the indices -/
theorem nodup_range2 {α : Type} {a b : ℕ} {f : ℕ → ℕ → α}
    (hf : ∀ i j i' j', f i j = f i' j' → i = i' ∧ j = j') :
    ((List.range a).flatMap fun i => (List.range b).map fun j => f i j).Nodup := by
  rw [List.nodup_flatMap]
  refine ⟨fun i _ => List.Nodup.map_on (fun j _ j' _ h => (hf _ _ _ _ h).2) List.nodup_range, ?_⟩
  refine List.Pairwise.imp_of_mem ?_ (List.nodup_range (n := a))
  intro i i' _ _ hne x hx hx'
  simp only [List.mem_map] at hx hx'
  obtain ⟨j, _, rfl⟩ := hx
  obtain ⟨j', _, h⟩ := hx'
  exact hne (hf _ _ _ _ h.symm).1

theorem mem_range2 {α : Type} {a b : ℕ} {f : ℕ → ℕ → α} {x : α} :
    x ∈ ((List.range a).flatMap fun i => (List.range b).map fun j => f i j) ↔ ∃ i j, i < a ∧ j < b ∧ x = f i j := by
  simp only [List.mem_flatMap, List.mem_map, List.mem_range]
  constructor
  · rintro ⟨i, hi, j, hj, rfl⟩; exact ⟨i, j, hi, hj, rfl⟩
  · rintro ⟨i, j, hi, hj, rfl⟩; exact ⟨i, hi, j, hj, rfl⟩

theorem length_range2 {α : Type} {a b : ℕ} {f : ℕ → ℕ → α} :
    ((List.range a).flatMap fun i => (List.range b).map fun j => f i j).length = a * b := by
  simp [List.length_flatMap]

theorem map_range2 {α β : Type} {a b : ℕ} {f : ℕ → ℕ → α} {g : α → β} {f' : ℕ → ℕ → β}
    (h : ∀ i < a, ∀ j < b, g (f i j) = f' i j) :
    ((List.range a).flatMap fun i => (List.range b).map fun j => f' i j) =
      ((List.range a).flatMap fun i => (List.range b).map fun j => f i j).map g := by
  rw [List.map_flatMap]
  apply List.flatMap_congr
  intro i hi
  rw [List.map_map]
  apply List.map_congr_left
  intro j hj
  exact (h i (List.mem_range.1 hi) j (List.mem_range.1 hj)).symm

theorem edges_rect (nx ny : ℕ) :
    RectGrid.edges (nx + 1) (ny + 1) = (E0 nx ny).map (labE (rowMajor (nx + 1) (ny + 1))) := by
  unfold RectGrid.edges E0
  rw [List.map_append, List.map_append]
  congr 1
  · congr 1
    · refine map_range2 (f := fun j i => ((i, j), (i + 1, j))) ?_
      intro j hj i hi
      simp only [labE, Nat.add_sub_cancel] at *
      rw [lab_rowMajor (by omega) (by omega), lab_rowMajor (by omega) (by omega)]
    · refine map_range2 (f := fun i j => ((i, j), (i, j + 1))) ?_
      intro j hj i hi
      simp only [labE, Nat.add_sub_cancel] at *
      rw [lab_rowMajor (by omega) (by omega), lab_rowMajor (by omega) (by omega)]
  · refine map_range2 (f := fun i j => ((i, j), (i + 1, j + 1))) ?_
    intro j hj i hi
    simp only [labE, Nat.add_sub_cancel] at *
    rw [lab_rowMajor (by omega) (by omega), lab_rowMajor (by omega) (by omega)]

theorem triangles_rect (nx ny : ℕ) :
    RectGrid.triangles (nx + 1) (ny + 1) = (T0 nx ny).map (labT (rowMajor (nx + 1) (ny + 1))) := by
  unfold RectGrid.triangles T0
  rw [List.map_append]
  congr 1
  · refine map_range2 (f := fun i j => ((i, j), (i + 1, j), (i + 1, j + 1))) ?_
    intro j hj i hi
    simp only [labT, Nat.add_sub_cancel] at *
    rw [lab_rowMajor (by omega) (by omega), lab_rowMajor (by omega) (by omega),
      lab_rowMajor (by omega) (by omega)]
  · refine map_range2 (f := fun i j => ((i + 1, j + 1), (i, j + 1), (i, j))) ?_
    intro j hj i hi
    simp only [labT, Nat.add_sub_cancel] at *
    rw [lab_rowMajor (by omega) (by omega), lab_rowMajor (by omega) (by omega),
      lab_rowMajor (by omega) (by omega)]

theorem mem_hE0 {nx ny : ℕ} {e : LP × LP} : e ∈ hE0 nx ny ↔ ∃ i j, i < nx ∧ j ≤ ny ∧ e = ((i, j), (i + 1, j)) := by
  rw [hE0, mem_range2]
  constructor
  · rintro ⟨j, i, hj, hi, rfl⟩; exact ⟨i, j, hi, by omega, rfl⟩
  · rintro ⟨i, j, hi, hj, rfl⟩; exact ⟨j, i, by omega, hi, rfl⟩

theorem mem_vE0 {nx ny : ℕ} {e : LP × LP} : e ∈ vE0 nx ny ↔ ∃ i j, i ≤ nx ∧ j < ny ∧ e = ((i, j), (i, j + 1)) := by
  rw [vE0, mem_range2]
  constructor
  · rintro ⟨i, j, hi, hj, rfl⟩; exact ⟨i, j, by omega, hj, rfl⟩
  · rintro ⟨i, j, hi, hj, rfl⟩; exact ⟨i, j, by omega, hj, rfl⟩

theorem mem_dE0 {nx ny : ℕ} {e : LP × LP} :
    e ∈ dE0 nx ny ↔ ∃ i j, i < nx ∧ j < ny ∧ e = ((i, j), (i + 1, j + 1)) := mem_range2

theorem mem_E0 {nx ny : ℕ} {e : LP × LP} : e ∈ E0 nx ny ↔ LatEdge nx ny true e := by
  simp only [E0, List.mem_append, mem_hE0, mem_vE0, mem_dE0, LatEdge, if_true]
  constructor
  · rintro ((⟨i, j, h⟩ | ⟨i, j, h⟩) | ⟨i, j, h⟩)
    exacts [⟨i, j, .inl h⟩, ⟨i, j, .inr (.inl h)⟩, ⟨i, j, .inr (.inr h)⟩]
  · rintro ⟨i, j, h | h | h⟩
    exacts [.inl (.inl ⟨i, j, h⟩), .inl (.inr ⟨i, j, h⟩), .inr ⟨i, j, h⟩]

theorem nodup_E0 (nx ny : ℕ) : (E0 nx ny).Nodup := by
  unfold E0
  rw [List.nodup_append', List.nodup_append']
  refine ⟨⟨nodup_range2 (f := fun j i => ((i, j), (i + 1, j))) ?_,
    nodup_range2 (f := fun i j => ((i, j), (i, j + 1))) ?_, ?_⟩,
    nodup_range2 (f := fun i j => ((i, j), (i + 1, j + 1))) ?_, ?_⟩
  · intro i j i' j' h; simp only [Prod.mk.injEq] at h; omega
  · intro i j i' j' h; simp only [Prod.mk.injEq] at h; omega
  · intro e h h'
    obtain ⟨i, j, _, _, rfl⟩ := mem_hE0.1 h
    obtain ⟨i', j', _, _, h⟩ := mem_vE0.1 h'
    simp only [Prod.mk.injEq] at h; omega
  · intro i j i' j' h; simp only [Prod.mk.injEq] at h; omega
  · intro e h h'
    obtain ⟨i, j, _, _, rfl⟩ := mem_dE0.1 h'
    rcases List.mem_append.1 h with h | h
    · obtain ⟨i', j', _, _, h⟩ := mem_hE0.1 h
      simp only [Prod.mk.injEq] at h; omega
    · obtain ⟨i', j', _, _, h⟩ := mem_vE0.1 h
      simp only [Prod.mk.injEq] at h; omega

theorem length_E0 (nx ny : ℕ) : (E0 nx ny).length = (ny + 1) * nx + (nx + 1) * ny + nx * ny := by
  simp only [E0, List.length_append, hE0, vE0, dE0, length_range2]

theorem mem_T0 {nx ny : ℕ} {t : LP × LP × LP} : t ∈ T0 nx ny ↔ LatTri nx ny t := by
  simp only [T0, List.mem_append, lT0, uT0, mem_range2, LatTri]
  constructor
  · rintro (⟨i, j, hi, hj, h⟩ | ⟨i, j, hi, hj, h⟩)
    exacts [⟨i, j, hi, hj, .inl h⟩, ⟨i, j, hi, hj, .inr h⟩]
  · rintro ⟨i, j, hi, hj, h | h⟩
    exacts [.inl ⟨i, j, hi, hj, h⟩, .inr ⟨i, j, hi, hj, h⟩]

theorem nodup_T0 (nx ny : ℕ) : (T0 nx ny).Nodup := by
  unfold T0
  rw [List.nodup_append']
  refine ⟨nodup_range2 (f := fun i j => ((i, j), (i + 1, j), (i + 1, j + 1))) ?_,
    nodup_range2 (f := fun i j => ((i + 1, j + 1), (i, j + 1), (i, j))) ?_, ?_⟩
  · intro i j i' j' h; simp only [Prod.mk.injEq] at h; omega
  · intro i j i' j' h; simp only [Prod.mk.injEq] at h; omega
  · intro e h h'
    simp only [lT0, uT0, mem_range2] at h h'
    obtain ⟨i, j, _, _, rfl⟩ := h
    obtain ⟨i', j', _, _, h⟩ := h'
    simp only [Prod.mk.injEq] at h; omega

theorem length_T0 (nx ny : ℕ) : (T0 nx ny).length = 2 * (nx * ny) := by
  simp only [T0, List.length_append, lT0, uT0, length_range2]; ring

/-! ### sides -/

/-- the vertices of a side in lattice coordinates -/
def sV (nx ny : ℕ) : FixOption → List LP
  | .lower => (List.range (nx + 1)).map fun i => (i, 0)
  | .right => (List.range (ny + 1)).map fun j => (nx, j)
  | .upper => (List.range (nx + 1)).map fun i => (i, ny)
  | .left => (List.range (ny + 1)).map fun j => (0, j)
  | .unknown _ => []

/-- the edges of a side in lattice coordinates -/
def sE (nx ny : ℕ) : FixOption → List (LP × LP)
  | .lower => (List.range nx).map fun i => ((i, 0), (i + 1, 0))
  | .right => (List.range ny).map fun j => ((nx, j), (nx, j + 1))
  | .upper => (List.range nx).map fun i => ((i, ny), (i + 1, ny))
  | .left => (List.range ny).map fun j => ((0, j), (0, j + 1))
  | .unknown _ => []

theorem sideVertices_rect (nx ny : ℕ) (f : FixOption) :
    RectGrid.sideVertices (nx + 1) (ny + 1) f = (sV nx ny f).map (lab (rowMajor (nx + 1) (ny + 1))) := by
  cases f <;> simp only [RectGrid.sideVertices, sV, List.map_map, List.map_nil, Nat.add_sub_cancel] <;>
  · apply List.map_congr_left
    intro i hi
    have := List.mem_range.1 hi
    simp only [Function.comp]
    rw [lab_rowMajor (by omega) (by omega)]

theorem sideEdges_rect (nx ny : ℕ) (f : FixOption) :
    RectGrid.sideEdges (nx + 1) (ny + 1) f = (sE nx ny f).map (labE (rowMajor (nx + 1) (ny + 1))) := by
  cases f <;> simp only [RectGrid.sideEdges, sE, List.map_map, List.map_nil, Nat.add_sub_cancel] <;>
  · apply List.map_congr_left
    intro i hi
    have := List.mem_range.1 hi
    simp only [Function.comp, labE]
    rw [lab_rowMajor (by omega) (by omega), lab_rowMajor (by omega) (by omega)]

theorem mem_sV {nx ny : ℕ} {f : FixOption} {a : LP} : a ∈ sV nx ny f ↔ InBox nx ny a ∧ OnSideL nx ny f a := by
  obtain ⟨x, y⟩ := a
  cases f <;> simp only [sV, List.mem_map, List.mem_range, InBox, OnSideL, Prod.mk.injEq, List.not_mem_nil, and_false]
  all_goals constructor
  all_goals first
    | (rintro ⟨i, hi, h⟩; omega)
    | (rintro ⟨⟨h1, h2⟩, h3⟩; exact ⟨x, by omega, by omega⟩)
    | (rintro ⟨⟨h1, h2⟩, h3⟩; exact ⟨y, by omega, by omega⟩)

theorem mem_sE {nx ny : ℕ} {f : FixOption} {e : LP × LP} : e ∈ sE nx ny f ↔ SideEdge nx ny f e := by
  cases f <;> simp only [sE, List.mem_map, List.mem_range, SideEdge, List.not_mem_nil, eq_comm]

theorem nodup_sV (nx ny : ℕ) (f : FixOption) : (sV nx ny f).Nodup := by
  cases f <;> simp only [sV, List.nodup_nil] <;>
  · apply List.Nodup.map_on _ List.nodup_range
    intro a _ b _ h; simp only [Prod.mk.injEq] at h; omega

theorem nodup_sE (nx ny : ℕ) (f : FixOption) : (sE nx ny f).Nodup := by
  cases f <;> simp only [sE, List.nodup_nil] <;>
  · apply List.Nodup.map_on _ List.nodup_range
    intro a _ b _ h; simp only [Prod.mk.injEq] at h; omega

end Tve
