import Verif.Model.FloatQuadrature
import Verif.Model.FloatRefine

/-!
# Double precision version of `src/tvemoves_rufbad/tensors.py`

As in `Model/Float64.lean`: numbers are the rational numbers denoted by doubles, every operation rounds. The negation is exact
and is that of `Model/Tensors.lean`. `sum` is a parameter `S` (see `Model/FloatQuadrature.lean`); `x**2` is computed by the C
function `pow`, whose rounding is not specified, so it is a parameter `sq`.
-/

namespace Tve.F64

/-- the operator `/` on floats: `ZeroDivisionError` or the rounded quotient (tensors.py:53, 311) -/
def pyDiv (x d : ℚ) : PyM ℚ := if d = 0 then .error .zeroDivision else .ok (fl (x / d))

namespace V

/-- `Vector.__add__` (tensors.py:36-39) -/
def add (v w : Vec ℚ) : PyM (Vec ℚ) :=
  if v.size ≠ w.size then .error .valueError else .ok ⟨List.zipWith (fun x y => fl (x + y)) v.data w.data⟩

/-- `Vector.__sub__` (tensors.py:41-44) -/
def sub (v w : Vec ℚ) : PyM (Vec ℚ) :=
  if v.size ≠ w.size then .error .valueError else .ok ⟨List.zipWith (fun x y => fl (x - y)) v.data w.data⟩

/-- `Vector.__mul__` and `__rmul__` (tensors.py:46-50) -/
def smul (v : Vec ℚ) (s : ℚ) : Vec ℚ := ⟨v.data.map fun x => fl (x * s)⟩

/-- `Vector.__truediv__` (tensors.py:52-53) -/
def truediv (v : Vec ℚ) (d : ℚ) : PyM (Vec ℚ) := do
  let l ← pyMap v.data (fun x => pyDiv x d)
  return ⟨l⟩

/-- `Vector.normsqr` (tensors.py:63-65) -/
def normsqr (S : Summation) (v : Vec ℚ) : ℚ := S (v.data.map fun x => fl (x * x))

/-- `Vector.norm` (tensors.py:67-69) -/
def norm (S : Summation) (v : Vec ℚ) : ℚ := F64.sqrt (normsqr S v)

/-- `Vector.dot` (tensors.py:71-73) -/
def dot (S : Summation) (v w : Vec ℚ) : ℚ := S (List.zipWith (fun x y => fl (x * y)) v.data w.data)

end V

namespace M

/-- `Matrix.__add__` (tensors.py:233-238) -/
def add (A B : Mat ℚ) : PyM (Mat ℚ) :=
  if A.shape ≠ B.shape then .error .valueError
  else Mat.new (List.zipWith (fun r s => List.zipWith (fun x y => fl (x + y)) r s) A.data B.data)

/-- `Matrix.__sub__` (tensors.py:240-247) -/
def sub (A B : Mat ℚ) : PyM (Mat ℚ) :=
  if A.shape ≠ B.shape then .error .valueError
  else Mat.new (List.zipWith (fun r s => List.zipWith (fun x y => fl (x - y)) r s) A.data B.data)

/-- `Matrix.__mul__` and `__rmul__` (tensors.py:303-308) -/
def smul (A : Mat ℚ) (s : ℚ) : PyM (Mat ℚ) := Mat.new (A.data.map fun row => row.map fun x => fl (x * s))

/-- `Matrix.__truediv__` (tensors.py:310-311) -/
def truediv (A : Mat ℚ) (d : ℚ) : PyM (Mat ℚ) := do
  let rows ← pyMap A.data fun row => pyMap row fun x => pyDiv x d
  Mat.new rows

/-- `Matrix.__matmul__` (tensors.py:249-260) -/
def matmul (S : Summation) (A B : Mat ℚ) : PyM (Mat ℚ) :=
  if A.cols ≠ B.rows then .error .valueError
  else do
    let rows ← pyMap (List.range A.rows) fun i =>
      pyMap (List.range B.cols) fun j => do
        let terms ← pyMap (List.range A.cols) fun k => do
          let a ← A.at' i k
          let b ← B.at' k j
          return fl (a * b)
        return S terms
    Mat.new rows

/-- `Matrix.dot` (tensors.py:320-328) -/
def dot (S : Summation) (A : Mat ℚ) (v : Vec ℚ) : PyM (Vec ℚ) :=
  if v.size ≠ A.cols then .error .valueError
  else do
    let l ← pyMap (List.range A.rows) fun i => do
      let terms ← pyMap (List.range A.cols) fun j => do
        let a ← A.at' i j
        let x ← v.getItem j
        return fl (a * x)
      return S terms
    return ⟨l⟩

/-- `Matrix.trace` (tensors.py:268-270) -/
def trace (S : Summation) (A : Mat ℚ) : PyM ℚ := do
  let d ← pyMap (List.range (min A.rows A.cols)) fun i => A.at' i i
  return S d

/-- `Matrix.det` (tensors.py:272-283): the products are computed from left to right starting with 1, multiplying them by
their sign is exact, and they are added from left to right starting with 0 (`+=`, not `sum`) -/
def det (A : Mat ℚ) : PyM ℚ :=
  if A.rows ≠ A.cols then .error .valueError
  else do
    let terms ← pyMap (permsN A.rows (List.range A.rows)) fun p => do
      let factors ← pyMap (List.range A.rows) fun i => do
        let j ← pyGet p i
        A.at' i j
      return (signPy p : ℚ) * factors.foldl (fun a x => fl (a * x)) 1
    return terms.foldl (fun a x => fl (a + x)) 0

/-- `Matrix.normsqr` (tensors.py:285-287) -/
def normsqr (S : Summation) (sq : ℚ → ℚ) (A : Mat ℚ) : ℚ := S (A.data.flatten.map sq)

/-- `Matrix.norm` (tensors.py:289-291) -/
def norm (S : Summation) (sq : ℚ → ℚ) (A : Mat ℚ) : ℚ := F64.sqrt (normsqr S sq A)

/-- `Matrix.scalar_product` (tensors.py:293-301) -/
def scalarProduct (S : Summation) (A B : Mat ℚ) : PyM ℚ :=
  if A.shape ≠ B.shape then .error .valueError
  else .ok (S (List.zipWith (fun r s => List.zipWith (fun x y => fl (x * y)) r s) A.data B.data).flatten)

end M

namespace T

/-- `Tensor3D.__add__` (tensors.py:403-412) -/
def add (A B : Ten3 ℚ) : PyM (Ten3 ℚ) :=
  if A.shape ≠ B.shape then .error .valueError
  else Ten3.new (List.zipWith (fun m n =>
    List.zipWith (fun r s => List.zipWith (fun x y => fl (x + y)) r s) m n) A.data B.data)

/-- `Tensor3D.__sub__` (tensors.py:414-425) -/
def sub (A B : Ten3 ℚ) : PyM (Ten3 ℚ) :=
  if A.shape ≠ B.shape then .error .valueError
  else Ten3.new (List.zipWith (fun m n =>
    List.zipWith (fun r s => List.zipWith (fun x y => fl (x - y)) r s) m n) A.data B.data)

/-- `Tensor3D.normsqr` (tensors.py:427-429) -/
def normsqr (S : Summation) (sq : ℚ → ℚ) (A : Ten3 ℚ) : ℚ := S (A.data.flatten.flatten.map sq)

end T

/-- `inverse_2x2` (tensors.py:444-449) -/
def inverse2x2 (A : Mat ℚ) : PyM (Mat ℚ) :=
  if A.shape ≠ (2, 2) then .error .valueError
  else do
    let a11 ← A.getItem 1 1
    let a01 ← A.getItem 0 1
    let a10 ← A.getItem 1 0
    let a00 ← A.getItem 0 0
    let m ← Mat.new [[a11, -a01], [-a10, a00]]
    let d ← M.det A
    M.truediv m d

end Tve.F64
