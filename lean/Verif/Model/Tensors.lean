import Verif.Model.Py

/-!
# Model of `src/tvemoves_rufbad/tensors.py`

Floats are elements of a field `K`. `__repr__`, `__str__`, `numpy`, `__iter__`, `__eq__` are in `Model/TensorText.lean`. Aliasing of the
`data` lists is in `Model/TensorStorage.lean`.
-/

namespace Tve

/-- `class Vector` (tensors.py:11-17). `size` is `len(data)`. -/
@[ext] structure Vec (K : Type) where
  data : List K
  deriving DecidableEq, Repr

/-- `class Matrix` (tensors.py:187-195): `data` is the list of rows. -/
@[ext] structure Mat (K : Type) where
  data : List (List K)
  deriving DecidableEq, Repr

/-- `class Tensor3D` (tensors.py:348-359). -/
@[ext] structure Ten3 (K : Type) where
  data : List (List (List K))
  deriving DecidableEq, Repr

/-- `Matrix.__init__` (tensors.py:190-195): `data[0]` raises `IndexError` on an empty list, rows of a length
different from the first raise `ValueError`. -/
def Mat.new {K : Type} (data : List (List K)) : PyM (Mat K) :=
  match data with
  | [] => .error .indexError
  | r :: rest => if rest.all (fun row => row.length == r.length) then .ok ⟨data⟩ else .error .valueError

/-- `Matrix.shape[0]` (tensors.py:191). -/
def Mat.rows {K : Type} (A : Mat K) : ℕ := A.data.length

/-- `Matrix.shape[1]` (tensors.py:191). `Mat.new` guarantees that there is a first row. -/
def Mat.cols {K : Type} (A : Mat K) : ℕ := (A.data.headD []).length

/-- `Matrix.shape` (tensors.py:191). -/
def Mat.shape {K : Type} (A : Mat K) : ℕ × ℕ := (A.rows, A.cols)

/-- `Tensor3D.__init__` (tensors.py:351-359): `data[0]` and `data[0][0]` raise `IndexError`, ragged data
`ValueError`. -/
def Ten3.new {K : Type} (data : List (List (List K))) : PyM (Ten3 K) :=
  match data with
  | [] => .error .indexError
  | [] :: _ => .error .indexError
  | ((r :: rs) :: _) =>
    if data.all (fun sub => sub.length == (r :: rs).length && sub.all (fun row => row.length == r.length))
    then .ok ⟨data⟩ else .error .valueError

/-- `Tensor3D.shape` (tensors.py:352). -/
def Ten3.shape {K : Type} (T : Ten3 K) : ℕ × ℕ × ℕ :=
  (T.data.length, (T.data.headD []).length, ((T.data.headD []).headD []).length)

namespace Vec
variable {K : Type}

/-- `Vector.size` (tensors.py:15) -/
def size (v : Vec K) : ℕ := v.data.length

/-- `Vector.__getitem__` for an int (tensors.py:25-29) -/
def getItem (v : Vec K) (i : ℤ) : PyM K :=
  if i < 0 ∨ i ≥ v.size then .error .indexError else pyIdx v.data i

/-- `Vector.__getitem__` for a slice `[a:b]` with `0 ≤ a ≤ b` (tensors.py:30-31); other slices are not modelled. -/
def slice (v : Vec K) (a b : ℕ) : Vec K := ⟨(v.data.take b).drop a⟩

/-- `Vector.map` (tensors.py:75-77), `f` total -/
def map (v : Vec K) (f : K → K) : Vec K := ⟨v.data.map f⟩

/-- `Vector.stack` (tensors.py:79-86) -/
def stack (v w : Vec K) : PyM (Mat K) :=
  if v.size ≠ w.size then .error .valueError else Mat.new [v.data, w.data]

/-- `Vector.extend` (tensors.py:106-108) -/
def extend (v w : Vec K) : Vec K := ⟨v.data ++ w.data⟩

/-- `Vector.transpose` (tensors.py:113-115) -/
def transpose (v : Vec K) : PyM (Mat K) := Mat.new [v.data]

/-- `Vector.reshape` (tensors.py:91-100) -/
def reshape (v : Vec K) (numRows numCols : ℕ) : PyM (Mat K) :=
  if v.size ≠ numRows * numCols then .error .valueError
  else do
    let rows ← pyMap (List.range numRows) fun i =>
      pyMap (List.range numCols) fun j => pyGet v.data (i * numCols + j)
    Mat.new rows

variable [Field K]

/-- `Vector.__neg__` (tensors.py:33-34) -/
def neg (v : Vec K) : Vec K := ⟨v.data.map (fun x => -x)⟩

/-- `Vector.__add__` (tensors.py:36-39) -/
def add (v w : Vec K) : PyM (Vec K) :=
  if v.size ≠ w.size then .error .valueError else .ok ⟨List.zipWith (fun x y => x + y) v.data w.data⟩

/-- `Vector.__sub__` (tensors.py:41-44) -/
def sub (v w : Vec K) : PyM (Vec K) :=
  if v.size ≠ w.size then .error .valueError else .ok ⟨List.zipWith (fun x y => x - y) v.data w.data⟩

/-- `Vector.__mul__` and `__rmul__` (tensors.py:46-50) -/
def smul (v : Vec K) (s : K) : Vec K := ⟨v.data.map (fun x => x * s)⟩

/-- `Vector.__truediv__` (tensors.py:52-53) -/
def truediv [DecidableEq K] (v : Vec K) (d : K) : PyM (Vec K) := do
  let l ← pyMap v.data (fun x => pyDiv x d)
  return ⟨l⟩

/-- `Vector.normsqr` (tensors.py:63-65) -/
def normsqr (v : Vec K) : K := (v.data.map (fun x => x * x)).sum

/-- `Vector.norm` (tensors.py:67-69) -/
def norm [PySqrt K] (v : Vec K) : K := PySqrt.sqrt v.normsqr

/-- `Vector.dot` (tensors.py:71-73): `zip` truncates to the shorter vector, there is no size check. -/
def dot (v w : Vec K) : K := (List.zipWith (fun x y => x * y) v.data w.data).sum

end Vec

/-- `class BarycentricCoordinates` (tensors.py:118-128): the stored list `_data` of three weights. -/
@[ext] structure Bary (K : Type) where
  l1 : K
  l2 : K
  l3 : K
  deriving DecidableEq, Repr

namespace Bary
variable {K : Type}

/-- `BarycentricCoordinates.__init__` (tensors.py:127-128) -/
def new [Field K] (l1 l2 : K) : Bary K := ⟨l1, l2, 1 - l1 - l2⟩

/-- one component of `assert_bounds` (tensors.py:150-153) -/
def clamp [LinearOrder K] (lower upper x : K) : K :=
  if x < lower then lower else if x > upper then upper else x

/-- `BarycentricCoordinates.assert_bounds` (tensors.py:145-153), as a state update of the object -/
def assertBounds [LinearOrder K] (c : Bary K) (lower upper : K) : Bary K :=
  ⟨clamp lower upper c.l1, clamp lower upper c.l2, clamp lower upper c.l3⟩

/-- `BarycentricCoordinates.__getitem__` (tensors.py:161-167) -/
def getItem (c : Bary K) (i : ℤ) : PyM K :=
  if i < 0 ∨ i ≥ 3 then .error .indexError else pyIdx [c.l1, c.l2, c.l3] i

end Bary

/-- `for b in p[i + 1:]: if b < a: num_misplaced += 1` summed over all `i` (tensors.py:176-182):
number of pairs in the list that are out of order. -/
def numMisplaced : List ℕ → ℕ
  | [] => 0
  | a :: t => (t.filter (fun b => b < a)).length + numMisplaced t

/-- `sign` (tensors.py:176-184) -/
def signPy (p : List ℕ) : ℤ := if numMisplaced p % 2 == 0 then 1 else -1

/-- All ways to pick one element of a list, with the remaining list, in order of position. (`permutations`, tensors.py:4, 272-283) -/
def picks {α : Type} : List α → List (α × List α)
  | [] => []
  | x :: xs => (x, xs) :: (picks xs).map (fun q => (q.1, x :: q.2))

/-- `itertools.permutations` of a list of length `n` (lexicographic in positions), as called at tensors.py:277. -/
def permsN {α : Type} : ℕ → List α → List (List α)
  | 0, _ => [[]]
  | n + 1, l => (picks l).flatMap (fun q => (permsN n q.2).map (fun p => q.1 :: p))

namespace Mat
variable {K : Type}

/-- `Matrix.__getitem__` (tensors.py:215-223) -/
def getItem (A : Mat K) (i j : ℤ) : PyM K :=
  if i < 0 ∨ i ≥ A.rows then .error .indexError
  else if j < 0 ∨ j ≥ A.cols then .error .indexError
  else do
    let row ← pyIdx A.data i
    pyIdx row j

/-- `self.data[i][j]` with natural indices, as used inside the methods. (tensors.py:256, 265, 270, 280) -/
def at' (A : Mat K) (i j : ℕ) : PyM K := do
  let row ← pyGet A.data i
  pyGet row j

/-- `Matrix.transpose` (tensors.py:262-266) -/
def transpose (A : Mat K) : PyM (Mat K) := do
  let rows ← pyMap (List.range A.cols) fun j => pyMap (List.range A.rows) fun i => A.at' i j
  Mat.new rows

/-- `Matrix.flatten` (tensors.py:316-318) -/
def flatten (A : Mat K) : Vec K := ⟨A.data.flatten⟩

/-- `Matrix.map` (tensors.py:330-332), `f` total -/
def map (A : Mat K) (f : K → K) : PyM (Mat K) := Mat.new (A.data.map (fun row => row.map f))

/-- `Matrix.stack` (tensors.py:334-341): only the number of rows is compared here, `Tensor3D.__init__` checks
the rest. -/
def stack (A B : Mat K) : PyM (Ten3 K) :=
  if A.rows ≠ B.rows then .error .valueError else Ten3.new [A.data, B.data]

variable [Field K]

/-- `Matrix.__neg__` (tensors.py:225-226) -/
def neg (A : Mat K) : PyM (Mat K) := Mat.new (A.data.map (fun row => row.map (fun x => -x)))

/-- `Matrix.__add__` (tensors.py:233-238) -/
def add (A B : Mat K) : PyM (Mat K) :=
  if A.shape ≠ B.shape then .error .valueError
  else Mat.new (List.zipWith (fun r s => List.zipWith (fun x y => x + y) r s) A.data B.data)

/-- `Matrix.__sub__` (tensors.py:240-247) -/
def sub (A B : Mat K) : PyM (Mat K) :=
  if A.shape ≠ B.shape then .error .valueError
  else Mat.new (List.zipWith (fun r s => List.zipWith (fun x y => x - y) r s) A.data B.data)

/-- `Matrix.__matmul__` (tensors.py:249-260) -/
def matmul (A B : Mat K) : PyM (Mat K) :=
  if A.cols ≠ B.rows then .error .valueError
  else do
    let rows ← pyMap (List.range A.rows) fun i =>
      pyMap (List.range B.cols) fun j => do
        let terms ← pyMap (List.range A.cols) fun k => do
          let a ← A.at' i k
          let b ← B.at' k j
          return a * b
        return terms.sum
    Mat.new rows

/-- `Matrix.trace` (tensors.py:268-270) -/
def trace (A : Mat K) : PyM K := do
  let d ← pyMap (List.range (min A.rows A.cols)) fun i => A.at' i i
  return d.sum

/-- `Matrix.det` (tensors.py:272-283) -/
def det (A : Mat K) : PyM K :=
  if A.rows ≠ A.cols then .error .valueError
  else do
    let terms ← pyMap (permsN A.rows (List.range A.rows)) fun p => do
      let factors ← pyMap (List.range A.rows) fun i => do
        let j ← pyGet p i
        A.at' i j
      return (signPy p : K) * factors.prod
    return terms.sum

/-- `Matrix.normsqr` (tensors.py:285-287) -/
def normsqr (A : Mat K) : K := (A.data.flatten.map (fun x => x ^ 2)).sum

/-- `Matrix.norm` (tensors.py:289-291) -/
def norm [PySqrt K] (A : Mat K) : K := PySqrt.sqrt A.normsqr

/-- `Matrix.scalar_product` (tensors.py:293-301) -/
def scalarProduct (A B : Mat K) : PyM K :=
  if A.shape ≠ B.shape then .error .valueError
  else .ok ((List.zipWith (fun r s => List.zipWith (fun x y => x * y) r s) A.data B.data).flatten.sum)

/-- `Matrix.__mul__` and `__rmul__` (tensors.py:303-308) -/
def smul (A : Mat K) (s : K) : PyM (Mat K) := Mat.new (A.data.map (fun row => row.map (fun x => x * s)))

/-- `Matrix.__truediv__` (tensors.py:310-311) -/
def truediv [DecidableEq K] (A : Mat K) (d : K) : PyM (Mat K) := do
  let rows ← pyMap A.data fun row => pyMap row fun x => pyDiv x d
  Mat.new rows

/-- `Matrix.dot` (tensors.py:320-328) -/
def dot (A : Mat K) (v : Vec K) : PyM (Vec K) :=
  if v.size ≠ A.cols then .error .valueError
  else do
    let l ← pyMap (List.range A.rows) fun i => do
      let terms ← pyMap (List.range A.cols) fun j => do
        let a ← A.at' i j
        let x ← v.getItem j
        return a * x
      return terms.sum
    return ⟨l⟩

end Mat

namespace Ten3
variable {K : Type}

/-- `Tensor3D.__getitem__` (tensors.py:385-393). The code repeats the test of `i` three times; the indices `j`
and `k` reach Python's list indexing unchecked. -/
def getItem (T : Ten3 K) (i j k : ℤ) : PyM K :=
  if i < 0 ∨ i ≥ T.shape.1 then .error .indexError
  else if i < 0 ∨ i ≥ T.shape.1 then .error .indexError
  else if i < 0 ∨ i ≥ T.shape.1 then .error .indexError
  else do
    let sub ← pyIdx T.data i
    let row ← pyIdx sub j
    pyIdx row k

/-- `Tensor3D.map` (tensors.py:435-437), `f` total -/
def map (T : Ten3 K) (f : K → K) : PyM (Ten3 K) :=
  Ten3.new (T.data.map (fun sub => sub.map (fun row => row.map f)))

variable [Field K]

/-- `Tensor3D.__neg__` (tensors.py:395-396) -/
def neg (T : Ten3 K) : PyM (Ten3 K) :=
  Ten3.new (T.data.map (fun sub => sub.map (fun row => row.map (fun x => -x))))

/-- `Tensor3D.__add__` (tensors.py:403-412) -/
def add (T S : Ten3 K) : PyM (Ten3 K) :=
  if T.shape ≠ S.shape then .error .valueError
  else Ten3.new (List.zipWith (fun m n =>
    List.zipWith (fun r s => List.zipWith (fun x y => x + y) r s) m n) T.data S.data)

/-- `Tensor3D.__sub__` (tensors.py:414-425) -/
def sub (T S : Ten3 K) : PyM (Ten3 K) :=
  if T.shape ≠ S.shape then .error .valueError
  else Ten3.new (List.zipWith (fun m n =>
    List.zipWith (fun r s => List.zipWith (fun x y => x - y) r s) m n) T.data S.data)

/-- `Tensor3D.normsqr` (tensors.py:427-429) -/
def normsqr (T : Ten3 K) : K := (T.data.flatten.flatten.map (fun x => x ^ 2)).sum

/-- `Tensor3D.norm` (tensors.py:431-433) -/
def norm [PySqrt K] (T : Ten3 K) : K := PySqrt.sqrt T.normsqr

end Ten3

/-- `inverse_2x2` (tensors.py:444-449) -/
def inverse2x2 {K : Type} [Field K] [DecidableEq K] (A : Mat K) : PyM (Mat K) :=
  if A.shape ≠ (2, 2) then .error .valueError
  else do
    let a11 ← A.getItem 1 1
    let a01 ← A.getItem 0 1
    let a10 ← A.getItem 1 0
    let a00 ← A.getItem 0 0
    let m ← Mat.new [[a11, -a01], [-a10, a00]]
    let d ← A.det
    m.truediv d

end Tve
