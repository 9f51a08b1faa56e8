import Verif.Model.Storage

/-!
# Specification: which objects a grid consists of, and what it means that an operation leaves objects alone
-/

namespace Tve

variable {K : Type}

/-- the identity of an object: a list, by the type of its entries, or a grid object -/
inductive Cell
  | nums (a : Addr)
  | vecs (a : Addr)
  | ints (a : Addr)
  | pairs (a : Addr)
  | tris (a : Addr)
  | grids (a : Addr)

namespace Heap

/-- the object exists in the heap -/
def Has (h : Heap K) : Cell → Prop
  | .nums a => a < h.nums.length
  | .vecs a => a < h.vecs.length
  | .ints a => a < h.ints.length
  | .pairs a => a < h.pairs.length
  | .tris a => a < h.tris.length
  | .grids a => a < h.grids.length

/-- the object has the same contents in both heaps -/
def Same (h h' : Heap K) : Cell → Prop
  | .nums a => h.nums[a]? = h'.nums[a]?
  | .vecs a => h.vecs[a]? = h'.vecs[a]?
  | .ints a => h.ints[a]? = h'.ints[a]?
  | .pairs a => h.pairs[a]? = h'.pairs[a]?
  | .tris a => h.tris[a]? = h'.tris[a]?
  | .grids a => h.grids[a]? = h'.grids[a]?

/-- all objects that exist in `h` are unchanged in `h'` -/
def Untouched (h h' : Heap K) : Prop := ∀ x, h.Has x → h.Same h' x

/-- the lists of vertices of a grid -/
def intLists (o : GridObj K) : List Addr := [o.vertices, o.boundary.vertices, o.dirichlet.vertices, o.neumann.vertices]

/-- the lists of edges of a grid -/
def pairLists (o : GridObj K) : List Addr := [o.edges, o.boundary.edges, o.dirichlet.edges, o.neumann.edges]

/-- the grid object `a` and the objects it consists of: its lists and its points -/
def Cells (h : Heap K) (a : Addr) : Set Cell :=
  {x | x = .grids a ∨ ∃ o, h.grids[a]? = some o ∧
    ((∃ b ∈ intLists o, x = .ints b) ∨ (∃ b ∈ pairLists o, x = .pairs b) ∨ x = .tris o.triangles ∨ x = .vecs o.points ∨
      ∃ l, h.vecs[o.points]? = some l ∧ ∃ p ∈ l, x = .nums p)}

/-- a grid object all of whose parts exist, as every grid object of a Python program -/
def IsGrid (h : Heap K) (a : Addr) : Prop := ∀ x ∈ h.Cells a, h.Has x

/-- no two of the lists a grid consists of are the same object -/
def Unshared (h : Heap K) (a : Addr) : Prop :=
  ∀ o, h.grids[a]? = some o → (intLists o).Nodup ∧ (pairLists o).Nodup

/-- what a user of the `RefinedGrid` object sees -/
def refinedValue (h : Heap K) (o : RefinedObj K) : Option (RefinedGrid K) := do
  let g ← h.value o.grid
  let c ← h.value o.coarse
  return ⟨g, c, o.maps.coarseTriangle, o.maps.coarseBary, o.maps.coarseEdge, o.maps.coarseEdgeCoords⟩

end Heap

end Tve
