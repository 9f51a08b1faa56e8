import Verif.Model.Slices
import Verif.Model.PyState

/-!
# Object identity: tensors as objects that refer to lists

`Model/Tensors.lean` models a tensor as a value. Here the lists a tensor refers to are objects in a heap, which may be shared
and changed in place, as in Python: a second model of every operation of `tensors.py` that creates a tensor. The attributes
`size` and `shape` are numbers stored at creation, as in the code.
-/

namespace Tve
namespace TS

variable {K : Type}

/-- the identity of a list (lists created in tensors.py:14-115, 190-345, 351-441) -/
abbrev Addr := ℕ

/-- all list objects, by the type of their entries (lists created in tensors.py:14-115, 190-345, 351-441) -/
structure Heap (K : Type) where
  /-- the lists of numbers -/
  nums : List (List K)
  /-- the lists of lists of numbers -/
  rows : List (List Addr)
  /-- the lists of lists of lists of numbers -/
  mats : List (List Addr)

/-- a `Vector` object (tensors.py:14-17); `shape` is `(size,)` -/
structure VecObj where
  size : ℕ
  data : Addr

/-- a `Matrix` object (tensors.py:190-195) -/
structure MatObj where
  shape : ℕ × ℕ
  data : Addr

/-- a `Tensor3D` object (tensors.py:351-359) -/
structure TenObj where
  shape : ℕ × ℕ × ℕ
  data : Addr

namespace Heap

/-- the contents of a list of numbers (tensors.py:14-17) -/
def num (h : Heap K) (a : Addr) : List K := h.nums.getD a []

/-- the contents of a list of lists of numbers (tensors.py:190-195) -/
def row (h : Heap K) (a : Addr) : List (List K) := (h.rows.getD a []).map h.num

/-- the contents of a list of lists of lists of numbers (tensors.py:351-359) -/
def mat (h : Heap K) (a : Addr) : List (List (List K)) := (h.mats.getD a []).map h.row

end Heap

/-! ### creating lists -/

/-- a new list of numbers (lists created in tensors.py:14-115, 190-345, 351-441) -/
def newNums (l : List K) : PyS (Heap K) Addr := fun h => (.ok h.nums.length, { h with nums := h.nums ++ [l] })

/-- a new list of existing lists of numbers (lists created in tensors.py:14-115, 190-345, 351-441) -/
def newRows (l : List Addr) : PyS (Heap K) Addr := fun h => (.ok h.rows.length, { h with rows := h.rows ++ [l] })

/-- a new list of existing lists of lists of numbers (lists created in tensors.py:14-115, 190-345, 351-441) -/
def newMats (l : List Addr) : PyS (Heap K) Addr := fun h => (.ok h.mats.length, { h with mats := h.mats ++ [l] })

/-- evaluate an expression that creates an object for each entry of a list, in order (lists created in tensors.py:14-115, 190-345, 351-441) -/
def createAll {α : Type} (f : α → PyS (Heap K) Addr) : List α → PyS (Heap K) (List Addr)
  | [] => PyS.pure []
  | x :: l => do
    let a ← f x
    let as ← createAll f l
    return a :: as

/-- a comprehension `[[... for ...] for ...]`: a new list of new lists (lists created in tensors.py:14-115, 190-345, 351-441) -/
def newRowsOf (l : List (List K)) : PyS (Heap K) Addr := do
  let as ← createAll newNums l
  newRows as

/-- a comprehension `[[[... for ...] for ...] for ...]` (lists created in tensors.py:14-115, 190-345, 351-441) -/
def newMatsOf (l : List (List (List K))) : PyS (Heap K) Addr := do
  let as ← createAll newRowsOf l
  newMats as

/-! ### constructors: they store the reference they are given -/

/-- `Vector.__init__` (tensors.py:14-17) -/
def VecObj.new (data : Addr) : PyS (Heap K) VecObj := PyS.read fun h => .ok ⟨(h.num data).length, data⟩

/-- `Matrix.__init__` (tensors.py:190-195) -/
def MatObj.new (data : Addr) : PyS (Heap K) MatObj := PyS.read fun h => do
  let first ← pyGet (h.row data) 0
  if ((h.row data).drop 1).all fun r => r.length == first.length then .ok ⟨((h.row data).length, first.length), data⟩
  else .error .valueError

/-- `Tensor3D.__init__` (tensors.py:351-359) -/
def TenObj.new (data : Addr) : PyS (Heap K) TenObj := PyS.read fun h => do
  let first ← pyGet (h.mat data) 0
  let firstRow ← pyGet first 0
  if (h.mat data).all fun s => s.length == first.length && s.all fun r => r.length == firstRow.length then
    .ok ⟨((h.mat data).length, first.length, firstRow.length), data⟩
  else .error .valueError

/-- `Vector([...])` (tensors.py:14-17) -/
def newVec (l : List K) : PyS (Heap K) VecObj := do
  let a ← newNums l
  VecObj.new a

/-- `Matrix([[...], ...])` (tensors.py:190-195) -/
def newMat (l : List (List K)) : PyS (Heap K) MatObj := do
  let a ← newRowsOf l
  MatObj.new a

/-- `Tensor3D([[[...], ...], ...])` (tensors.py:351-359) -/
def newTen (l : List (List (List K))) : PyS (Heap K) TenObj := do
  let a ← newMatsOf l
  TenObj.new a

/-! ### vectors -/

namespace VecObj

/-- the entries (tensors.py:14-17) -/
def read (v : VecObj) : PyS (Heap K) (List K) := PyS.get fun h => h.num v.data

/-- `self[i]`: `Vector.__getitem__` (tensors.py:25-29) for a natural number, on the entries `l` -/
def item (v : VecObj) (l : List K) (i : ℕ) : PyM K := if i ≥ v.size then .error .indexError else pyGet l i

/-- `Vector.__getitem__` for a slice (tensors.py:30-31) -/
def getSlice (v : VecObj) (s : PySlice) : PyS (Heap K) VecObj := do
  let l ← v.read
  let l ← PyS.lift (pySlice l s)
  newVec l

/-- `Vector.map` (tensors.py:75-77), `f` total -/
def map (v : VecObj) (f : K → K) : PyS (Heap K) VecObj := do
  let l ← v.read
  newVec (l.map f)

/-- `Vector.stack` (tensors.py:79-86): the new list consists of the two existing lists -/
def stack (v w : VecObj) : PyS (Heap K) MatObj :=
  if v.size ≠ w.size then PyS.raise .valueError
  else do
    let a ← newRows [v.data, w.data]
    MatObj.new a

/-- `Vector.reshape` (tensors.py:91-100) -/
def reshape (v : VecObj) (numRows numCols : ℕ) : PyS (Heap K) MatObj :=
  if v.size ≠ numRows * numCols then PyS.raise .valueError
  else do
    let l ← v.read
    let rows ← PyS.lift (pyMap (List.range numRows) fun i => pyMap (List.range numCols) fun j => pyGet l (i * numCols + j))
    newMat rows

/-- `Vector.extend` (tensors.py:106-108): `+` creates a new list -/
def extend (v w : VecObj) : PyS (Heap K) VecObj := do
  let l ← v.read
  let k ← w.read
  newVec (l ++ k)

/-- `Vector.transpose` (tensors.py:113-115): the new list consists of the existing list -/
def transpose (v : VecObj) : PyS (Heap K) MatObj := do
  let a ← newRows [v.data]
  MatObj.new a

variable [Field K]

/-- `Vector.__neg__` (tensors.py:33-34) -/
def neg (v : VecObj) : PyS (Heap K) VecObj := do
  let l ← v.read
  newVec (l.map fun x => -x)

/-- `Vector.__add__` (tensors.py:36-39) -/
def add (v w : VecObj) : PyS (Heap K) VecObj :=
  if v.size ≠ w.size then PyS.raise .valueError
  else do
    let l ← v.read
    let k ← w.read
    newVec (List.zipWith (fun x y => x + y) l k)

/-- `Vector.__sub__` (tensors.py:41-44) -/
def sub (v w : VecObj) : PyS (Heap K) VecObj :=
  if v.size ≠ w.size then PyS.raise .valueError
  else do
    let l ← v.read
    let k ← w.read
    newVec (List.zipWith (fun x y => x - y) l k)

/-- `Vector.__mul__`, `__rmul__` (tensors.py:46-50) -/
def smul (v : VecObj) (s : K) : PyS (Heap K) VecObj := do
  let l ← v.read
  newVec (l.map fun x => x * s)

/-- `Vector.__truediv__` (tensors.py:52-53) -/
def truediv [DecidableEq K] (v : VecObj) (d : K) : PyS (Heap K) VecObj := do
  let l ← v.read
  let l ← PyS.lift (pyMap l fun x => pyDiv x d)
  newVec l

end VecObj

/-! ### matrices -/

/-- `data[i][j]` (tensors.py:223) -/
def entry (l : List (List K)) (i j : ℕ) : PyM K := do
  let r ← pyGet l i
  pyGet r j

namespace MatObj

/-- the rows (tensors.py:190-195) -/
def read (A : MatObj) : PyS (Heap K) (List (List K)) := PyS.get fun h => h.row A.data

/-- `Matrix.transpose` (tensors.py:262-266) -/
def transpose (A : MatObj) : PyS (Heap K) MatObj := do
  let l ← A.read
  let rows ← PyS.lift (pyMap (List.range A.shape.2) fun j => pyMap (List.range A.shape.1) fun i => entry l i j)
  newMat rows

/-- `Matrix.flatten` (tensors.py:316-318) -/
def flatten (A : MatObj) : PyS (Heap K) VecObj := do
  let l ← A.read
  newVec l.flatten

/-- `Matrix.map` (tensors.py:330-332), `f` total -/
def map (A : MatObj) (f : K → K) : PyS (Heap K) MatObj := do
  let l ← A.read
  newMat (l.map fun r => r.map f)

/-- `Matrix.stack` (tensors.py:334-341): the new list consists of the two existing lists of rows -/
def stack (A B : MatObj) : PyS (Heap K) TenObj :=
  if A.shape.1 ≠ B.shape.1 then PyS.raise .valueError
  else do
    let a ← newMats [A.data, B.data]
    TenObj.new a

variable [Field K]

/-- `Matrix.__neg__` (tensors.py:225-226) -/
def neg (A : MatObj) : PyS (Heap K) MatObj := do
  let l ← A.read
  newMat (l.map fun r => r.map fun x => -x)

/-- `Matrix.__add__` (tensors.py:233-238) -/
def add (A B : MatObj) : PyS (Heap K) MatObj :=
  if A.shape ≠ B.shape then PyS.raise .valueError
  else do
    let l ← A.read
    let k ← B.read
    newMat (List.zipWith (fun r s => List.zipWith (fun x y => x + y) r s) l k)

/-- `Matrix.__sub__` (tensors.py:240-247) -/
def sub (A B : MatObj) : PyS (Heap K) MatObj :=
  if A.shape ≠ B.shape then PyS.raise .valueError
  else do
    let l ← A.read
    let k ← B.read
    newMat (List.zipWith (fun r s => List.zipWith (fun x y => x - y) r s) l k)

/-- `Matrix.__matmul__` (tensors.py:249-260) -/
def matmul (A B : MatObj) : PyS (Heap K) MatObj :=
  if A.shape.2 ≠ B.shape.1 then PyS.raise .valueError
  else do
    let l ← A.read
    let k ← B.read
    let rows ← PyS.lift (pyMap (List.range A.shape.1) fun i => pyMap (List.range B.shape.2) fun j => do
      let terms ← pyMap (List.range A.shape.2) fun m => do
        let a ← entry l i m
        let b ← entry k m j
        return a * b
      return terms.sum)
    newMat rows

/-- `Matrix.__mul__`, `__rmul__` (tensors.py:303-308) -/
def smul (A : MatObj) (s : K) : PyS (Heap K) MatObj := do
  let l ← A.read
  newMat (l.map fun r => r.map fun x => x * s)

/-- `Matrix.__truediv__` (tensors.py:310-311) -/
def truediv [DecidableEq K] (A : MatObj) (d : K) : PyS (Heap K) MatObj := do
  let l ← A.read
  let rows ← PyS.lift (pyMap l fun r => pyMap r fun x => pyDiv x d)
  newMat rows

/-- `Matrix.dot` (tensors.py:320-328) -/
def dot (A : MatObj) (v : VecObj) : PyS (Heap K) VecObj :=
  if v.size ≠ A.shape.2 then PyS.raise .valueError
  else do
    let l ← A.read
    let k ← v.read
    let r ← PyS.lift (pyMap (List.range A.shape.1) fun i => do
      let terms ← pyMap (List.range A.shape.2) fun j => do
        let a ← entry l i j
        let x ← v.item k j
        return a * x
      return terms.sum)
    newVec r

/-- `self[i, j]`: `Matrix.__getitem__` (tensors.py:215-223) for natural numbers, on the rows `l` -/
def item (A : MatObj) (l : List (List K)) (i j : ℕ) : PyM K :=
  if i ≥ A.shape.1 then .error .indexError else if j ≥ A.shape.2 then .error .indexError else entry l i j

/-- `inverse_2x2` (tensors.py:444-449); `det` reads the rows and creates no list, it is taken from the value model -/
def inverse [DecidableEq K] (A : MatObj) : PyS (Heap K) MatObj :=
  if A.shape ≠ (2, 2) then PyS.raise .valueError
  else do
    let l ← A.read
    let a11 ← PyS.lift (A.item l 1 1)
    let a01 ← PyS.lift (A.item l 0 1)
    let a10 ← PyS.lift (A.item l 1 0)
    let a00 ← PyS.lift (A.item l 0 0)
    let m ← newMat [[a11, -a01], [-a10, a00]]
    let d ← PyS.lift (⟨l⟩ : Mat K).det
    m.truediv d

end MatObj

/-! ### tensors with three indices -/

namespace TenObj

/-- the list of lists of rows (tensors.py:351-359) -/
def read (T : TenObj) : PyS (Heap K) (List (List (List K))) := PyS.get fun h => h.mat T.data

/-- `Tensor3D.map` (tensors.py:435-437), `f` total -/
def map (T : TenObj) (f : K → K) : PyS (Heap K) TenObj := do
  let l ← T.read
  newTen (l.map fun s => s.map fun r => r.map f)

variable [Field K]

/-- `Tensor3D.__neg__` (tensors.py:395-396) -/
def neg (T : TenObj) : PyS (Heap K) TenObj := do
  let l ← T.read
  newTen (l.map fun s => s.map fun r => r.map fun x => -x)

/-- `Tensor3D.__add__` (tensors.py:403-412) -/
def add (T S : TenObj) : PyS (Heap K) TenObj :=
  if T.shape ≠ S.shape then PyS.raise .valueError
  else do
    let l ← T.read
    let k ← S.read
    newTen (List.zipWith (fun m n => List.zipWith (fun r s => List.zipWith (fun x y => x + y) r s) m n) l k)

/-- `Tensor3D.__sub__` (tensors.py:414-425) -/
def sub (T S : TenObj) : PyS (Heap K) TenObj :=
  if T.shape ≠ S.shape then PyS.raise .valueError
  else do
    let l ← T.read
    let k ← S.read
    newTen (List.zipWith (fun m n => List.zipWith (fun r s => List.zipWith (fun x y => x - y) r s) m n) l k)

end TenObj

/-! ### all operations -/

/-- a tensor object (tensors.py:11, 187, 348) -/
inductive Obj
  | vec (v : VecObj)
  | mat (A : MatObj)
  | ten (T : TenObj)

/-- the operations of `tensors.py` that create a tensor -/
inductive Op (K : Type)
  | vecNew (data : Addr)
  | matNew (data : Addr)
  | tenNew (data : Addr)
  | vecSlice (v : VecObj) (s : PySlice)
  | vecMap (v : VecObj) (f : K → K)
  | vecStack (v w : VecObj)
  | vecReshape (v : VecObj) (r c : ℕ)
  | vecExtend (v w : VecObj)
  | vecTranspose (v : VecObj)
  | vecNeg (v : VecObj)
  | vecAdd (v w : VecObj)
  | vecSub (v w : VecObj)
  | vecMul (v : VecObj) (s : K)
  | vecDiv (v : VecObj) (d : K)
  | matTranspose (A : MatObj)
  | matFlatten (A : MatObj)
  | matMap (A : MatObj) (f : K → K)
  | matStack (A B : MatObj)
  | matNeg (A : MatObj)
  | matAdd (A B : MatObj)
  | matSub (A B : MatObj)
  | matMul (A : MatObj) (s : K)
  | matDiv (A : MatObj) (d : K)
  | matMatmul (A B : MatObj)
  | matDot (A : MatObj) (v : VecObj)
  | matInverse (A : MatObj)
  | tenMap (T : TenObj) (f : K → K)
  | tenNeg (T : TenObj)
  | tenAdd (T S : TenObj)
  | tenSub (T S : TenObj)

/-- the result as an object of any kind (lists created in tensors.py:14-115, 190-345, 351-441) -/
def toVec (x : PyS (Heap K) VecObj) : PyS (Heap K) Obj := fun h => ((x h).1.map Obj.vec, (x h).2)
/-- the result as an object of any kind (lists created in tensors.py:14-115, 190-345, 351-441) -/
def toMat (x : PyS (Heap K) MatObj) : PyS (Heap K) Obj := fun h => ((x h).1.map Obj.mat, (x h).2)
/-- the result as an object of any kind (lists created in tensors.py:14-115, 190-345, 351-441) -/
def toTen (x : PyS (Heap K) TenObj) : PyS (Heap K) Obj := fun h => ((x h).1.map Obj.ten, (x h).2)

/-- call an operation (tensors.py:33-115, 225-345, 395-441) -/
def Op.run [Field K] [DecidableEq K] : Op K → PyS (Heap K) Obj
  | .vecNew a => toVec (VecObj.new a)
  | .matNew a => toMat (MatObj.new a)
  | .tenNew a => toTen (TenObj.new a)
  | .vecSlice v s => toVec (v.getSlice s)
  | .vecMap v f => toVec (v.map f)
  | .vecStack v w => toMat (v.stack w)
  | .vecReshape v r c => toMat (v.reshape r c)
  | .vecExtend v w => toVec (v.extend w)
  | .vecTranspose v => toMat v.transpose
  | .vecNeg v => toVec v.neg
  | .vecAdd v w => toVec (v.add w)
  | .vecSub v w => toVec (v.sub w)
  | .vecMul v s => toVec (v.smul s)
  | .vecDiv v d => toVec (v.truediv d)
  | .matTranspose A => toMat A.transpose
  | .matFlatten A => toVec A.flatten
  | .matMap A f => toMat (A.map f)
  | .matStack A B => toTen (A.stack B)
  | .matNeg A => toMat A.neg
  | .matAdd A B => toMat (A.add B)
  | .matSub A B => toMat (A.sub B)
  | .matMul A s => toMat (A.smul s)
  | .matDiv A d => toMat (A.truediv d)
  | .matMatmul A B => toMat (A.matmul B)
  | .matDot A v => toVec (A.dot v)
  | .matInverse A => toMat A.inverse
  | .tenMap T f => toTen (T.map f)
  | .tenNeg T => toTen T.neg
  | .tenAdd T S => toTen (T.add S)
  | .tenSub T S => toTen (T.sub S)

/-! ### what a program can do with a list: change it in place, for instance by `l[i] = x` or `l.append(x)` -/

/-- a list of numbers has the entries `l` from now on (lists created in tensors.py:14-115, 190-345, 351-441) -/
def writeNums (a : Addr) (l : List K) (h : Heap K) : Heap K := { h with nums := h.nums.set a l }

/-- a list of lists of numbers consists of the lists `l` from now on (lists created in tensors.py:14-115, 190-345, 351-441) -/
def writeRows (a : Addr) (l : List Addr) (h : Heap K) : Heap K := { h with rows := h.rows.set a l }

/-- a list of lists of lists of numbers consists of the lists `l` from now on (lists created in tensors.py:14-115, 190-345, 351-441) -/
def writeMats (a : Addr) (l : List Addr) (h : Heap K) : Heap K := { h with mats := h.mats.set a l }

end TS
end Tve
