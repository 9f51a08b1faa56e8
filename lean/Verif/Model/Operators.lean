import Verif.Model.Tensors

/-!
# Operators applied to arbitrary operands

`Model/Tensors.lean` models the operators of `tensors.py` for operands of the intended classes. Python does not check classes:
here the operands are arbitrary numbers, vectors, matrices and tensors, whose entries are again arbitrary. `Obj` is such a value.
`a + b`, `a - b`, `a * b`, `a / b`, `a @ b` are modelled with Python's dispatch: the method of the left operand (`__add__`, …);
if the class has none, or it returns `NotImplemented`, the reflected method of the right operand (`__rmul__`, `__rtruediv__`);
otherwise `TypeError`. Attributes an operand does not have raise `AttributeError`. Numbers are Python floats (they have neither
`size` nor `shape` nor `data`), modelled as elements of a field.
-/

namespace Tve

/-- a Python value: a float, a `Vector`, a `Matrix` or a `Tensor3D`, with arbitrary entries (tensors.py:11-17, 187-195, 348-359) -/
inductive Obj (K : Type)
  | num (x : K)
  | vec (data : List (Obj K))
  | mat (data : List (List (Obj K)))
  | ten (data : List (List (List (Obj K))))

namespace Obj
variable {K : Type}

/-- `Vector(data)` (tensors.py:14-17) -/
def newVec (data : List (Obj K)) : PyM (Obj K) := .ok (.vec data)

/-- `Matrix(data)` (tensors.py:190-195) -/
def newMat (data : List (List (Obj K))) : PyM (Obj K) :=
  match Mat.new data with
  | .ok A => .ok (.mat A.data)
  | .error e => .error e

/-- `Tensor3D(data)` (tensors.py:351-359) -/
def newTen (data : List (List (List (Obj K)))) : PyM (Obj K) :=
  match Ten3.new data with
  | .ok A => .ok (.ten A.data)
  | .error e => .error e

/-- `x.shape` (tensors.py:16, 191, 352); a float has no such attribute -/
def shape : Obj K → PyM (List ℕ)
  | num _ => .error .attributeError
  | vec l => .ok [l.length]
  | mat l => .ok [l.length, (l.headD []).length]
  | ten l => .ok [l.length, (l.headD []).length, ((l.headD []).headD []).length]

/-- `x.size` (tensors.py:15); only vectors have this attribute -/
def size : Obj K → PyM ℕ
  | vec l => .ok l.length
  | _ => .error .attributeError

variable [Field K]

/-- `a * b`: `Vector.__mul__`, `__rmul__` (tensors.py:46-50), `Matrix.__mul__`, `__rmul__` (tensors.py:303-308). The entries are
multiplied with the other operand, whatever it is. `Tensor3D` has neither method. -/
def mul : Obj K → Obj K → PyM (Obj K)
  | vec l, b => do
    let l ← pyMap l.attach fun x => mul x.1 b
    newVec l
  | mat l, b => do
    let l ← pyMap l.attach fun row => pyMap row.1.attach fun x => mul x.1 b
    newMat l
  | num x, num y => .ok (num (x * y))
  | num x, vec l => do
    let l ← pyMap l.attach fun y => mul y.1 (num x)
    newVec l
  | num x, mat l => do
    let l ← pyMap l.attach fun row => pyMap row.1.attach fun y => mul y.1 (num x)
    newMat l
  | num _, ten _ => .error .typeError
  | ten _, num _ => .error .typeError
  | ten t, vec l => do
    let l ← pyMap l.attach fun y => mul y.1 (ten t)
    newVec l
  | ten t, mat l => do
    let l ← pyMap l.attach fun row => pyMap row.1.attach fun y => mul y.1 (ten t)
    newMat l
  | ten _, ten _ => .error .typeError
termination_by a b => sizeOf a + sizeOf b
decreasing_by
  all_goals
    simp_wf
    first
    | (have h := List.sizeOf_lt_of_mem x.2; omega)
    | (have h := List.sizeOf_lt_of_mem y.2; omega)
    | (have h := List.sizeOf_lt_of_mem x.2; have h' := List.sizeOf_lt_of_mem row.2; omega)
    | (have h := List.sizeOf_lt_of_mem y.2; have h' := List.sizeOf_lt_of_mem row.2; omega)

/-- `a / b`: `Vector.__truediv__` (tensors.py:52-53), `Matrix.__truediv__` (tensors.py:310-311). The `__rtruediv__` methods
(tensors.py:55-56, 313-314) return `NotImplemented`, so dividing a number by a tensor raises `TypeError`; `Tensor3D` has neither
method. -/
def div [DecidableEq K] : Obj K → Obj K → PyM (Obj K)
  | vec l, b => do
    let l ← pyMap l.attach fun x => div x.1 b
    newVec l
  | mat l, b => do
    let l ← pyMap l.attach fun row => pyMap row.1.attach fun x => div x.1 b
    newMat l
  | num x, num y => do
    let z ← pyDiv x y
    return num z
  | _, _ => .error .typeError
termination_by a => sizeOf a
decreasing_by
  all_goals
    simp_wf
    first
    | (have h := List.sizeOf_lt_of_mem x.2; omega)
    | (have h := List.sizeOf_lt_of_mem x.2; have h' := List.sizeOf_lt_of_mem row.2; omega)

/-- `a + b` and `a - b`, with `op` the operation on numbers: `Vector.__add__`, `__sub__` (tensors.py:36-44), `Matrix.__add__`,
`__sub__` (tensors.py:233-247), `Tensor3D.__add__`, `__sub__` (tensors.py:403-426). There are no reflected methods. -/
def addSub (op : K → K → K) : Obj K → Obj K → PyM (Obj K)
  | num x, num y => .ok (num (op x y))
  | num _, _ => .error .typeError
  | vec l, b => do
    let n ← size b
    if l.length ≠ n then .error .valueError
    else match b with
      | vec l' => do
        let r ← pyMap (l.attach.zip l'.attach) fun p => addSub op p.1.1 p.2.1
        newVec r
      | _ => .error .attributeError
  | mat l, b => do
    let s ← shape b
    if [l.length, (l.headD []).length] ≠ s then .error .valueError
    else match b with
      | mat l' => do
        let r ← pyMap (l.attach.zip l'.attach) fun p => pyMap (p.1.1.attach.zip p.2.1.attach) fun q => addSub op q.1.1 q.2.1
        newMat r
      | _ => .error .valueError
  | ten l, b => do
    let s ← shape b
    if [l.length, (l.headD []).length, ((l.headD []).headD []).length] ≠ s then .error .valueError
    else match b with
      | ten l' => do
        let r ← pyMap (l.attach.zip l'.attach) fun p => pyMap (p.1.1.attach.zip p.2.1.attach) fun q =>
          pyMap (q.1.1.attach.zip q.2.1.attach) fun r => addSub op r.1.1 r.2.1
        newTen r
      | _ => .error .valueError
termination_by a => sizeOf a
decreasing_by
  all_goals
    simp_wf
    first
    | (have h := List.sizeOf_lt_of_mem p.1.2; omega)
    | (have h := List.sizeOf_lt_of_mem p.1.2; have h' := List.sizeOf_lt_of_mem q.1.2; omega)
    | (have h := List.sizeOf_lt_of_mem p.1.2; have h' := List.sizeOf_lt_of_mem q.1.2; have h'' := List.sizeOf_lt_of_mem r.1.2; omega)

/-- `a + b` (tensors.py:36, 233, 403) -/
def add (a b : Obj K) : PyM (Obj K) := addSub (· + ·) a b

/-- `a - b` (tensors.py:41, 240, 414) -/
def sub (a b : Obj K) : PyM (Obj K) := addSub (· - ·) a b

/-- `-a`: `Vector.__neg__` (tensors.py:33-34), `Matrix.__neg__` (tensors.py:225-226), `Tensor3D.__neg__` (tensors.py:395-396) -/
def neg : Obj K → PyM (Obj K)
  | num x => .ok (num (-x))
  | vec l => do
    let l ← pyMap l.attach fun x => neg x.1
    newVec l
  | mat l => do
    let l ← pyMap l.attach fun row => pyMap row.1.attach fun x => neg x.1
    newMat l
  | ten l => do
    let l ← pyMap l.attach fun m => pyMap m.1.attach fun row => pyMap row.1.attach fun x => neg x.1
    newTen l
termination_by a => sizeOf a
decreasing_by
  all_goals
    simp_wf
    first
    | (have h := List.sizeOf_lt_of_mem x.2; omega)
    | (have h := List.sizeOf_lt_of_mem x.2; have h' := List.sizeOf_lt_of_mem row.2; omega)
    | (have h := List.sizeOf_lt_of_mem x.2; have h' := List.sizeOf_lt_of_mem row.2; have h'' := List.sizeOf_lt_of_mem m.2; omega)

/-- `sum(t for …)`: Python evaluates one term after the other and adds it to the number `0` (tensors.py:65, 73, 256, 270, 287, 299, 327, 429) -/
def sumGen (l : List (PyM (Obj K))) : PyM (Obj K) := l.foldlM (fun a t => t >>= fun b => add a b) (num 0)

/-- `other.data[k][j]` in `Matrix.__matmul__` (tensors.py:256) for a matrix -/
def entry (l : List (List (Obj K))) (i j : ℕ) : PyM (Obj K) := do
  let row ← pyGet l i
  pyGet row j

/-- `a @ b`: `Matrix.__matmul__` (tensors.py:249-260). No other class has this method, and none has the reflected one. For a vector
`other.shape[1]` raises `IndexError`. For a tensor `other.data[k][j]` is a list, and there is at least one term: either its product with the list or adding
the product to `0` raises `TypeError`. -/
def matmul : Obj K → Obj K → PyM (Obj K)
  | mat l, b => do
    let s ← shape b
    let n ← pyGet s 0
    if (l.headD []).length ≠ n then .error .valueError
    else do
      let m ← pyGet s 1
      match b with
      | mat l' => do
        let rows ← pyMap (List.range l.length) fun i => pyMap (List.range m) fun j =>
          sumGen ((List.range (l.headD []).length).map fun k => do
            let x ← entry l i k
            let y ← entry l' k j
            mul x y)
        newMat rows
      | _ => .error .typeError
  | _, _ => .error .typeError

/-- `a.normsqr()` of a vector (tensors.py:63-65) -/
def vecNormsqr (l : List (Obj K)) : PyM (Obj K) := sumGen (l.map fun x => mul x x)

/-- `a.dot(b)` of two vectors (tensors.py:71-73) -/
def vecDot (l l' : List (Obj K)) : PyM (Obj K) := sumGen ((l.zip l').map fun p => mul p.1 p.2)

end Obj

end Tve
