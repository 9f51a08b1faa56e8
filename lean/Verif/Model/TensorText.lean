import Verif.Model.Tensors
import Verif.Model.PyState

/-!
# Model of the Python protocol methods of tensors (tensors.py): comparison, iteration, export to numpy, printing
-/

namespace Tve

/-- A tensor object of the library, of any of the three classes `Vector`, `Matrix`, `Tensor3D`. (tensors.py:11, 187, 348) -/
inductive TensorObj (K : Type)
  | vec (v : Vec K)
  | mat (A : Mat K)
  | ten (T : Ten3 K)

namespace TensorObj
variable {K : Type}

/-- `a == b`: `Vector.__eq__`, `Matrix.__eq__`, `Tensor3D.__eq__` (tensors.py:58-61, 228-231, 398-401). Objects of the same
class compare their (nested) lists; for other classes both `__eq__` return `NotImplemented` and Python compares
identities, which differ. Entries are compared by equality of numbers; `nan` and pyomo expressions as entries are not
modelled. -/
def eqPy [DecidableEq K] : TensorObj K → TensorObj K → Bool
  | vec v, vec w => v.data == w.data
  | mat A, mat B => A.data == B.data
  | ten T, ten S => T.data == S.data
  | _, _ => false

end TensorObj

/-- `Vector.__iter__` (tensors.py:88-89): the entries in the order in which the iterator yields them -/
def Vec.iter {K : Type} (v : Vec K) : List K := v.data

/-- `Vector.__len__` (tensors.py:110-111) -/
def Vec.len {K : Type} (v : Vec K) : ℕ := v.size

/-- `BarycentricCoordinates.__iter__` (tensors.py:169-170) -/
def Bary.iter {K : Type} (b : Bary K) : List K := [b.l1, b.l2, b.l3]

/-- `BarycentricCoordinates.__len__` (tensors.py:172-173): the class constant `size` (tensors.py:125) -/
def Bary.len {K : Type} (_ : Bary K) : ℕ := 3

/-- `Vector.numpy` (tensors.py:102-104) -/
def Vec.numpy (v : Vec ℝ) : NdArray := NdArray.of1 v.data

/-- `Matrix.numpy` (tensors.py:343-345) -/
def Mat.numpy (A : Mat ℝ) : NdArray := NdArray.of2 A.data

/-- `Tensor3D.numpy` (tensors.py:439-441) -/
def Ten3.numpy (T : Ten3 ℝ) : NdArray := NdArray.of3 T.data

/-! ### printing: `r` is `repr` or `str` of the entries -/

/-- `Vector.__repr__` (tensors.py:19-20) -/
def Vec.reprPy {K : Type} (r : K → String) (v : Vec K) : String :=
  "Vector([" ++ ", ".intercalate (v.data.map r) ++ "])"

/-- `Vector.__str__` (tensors.py:22-23) -/
def Vec.strPy {K : Type} (r : K → String) (v : Vec K) : String := "[" ++ " ".intercalate (v.data.map r) ++ "]"

/-- `BarycentricCoordinates.__repr__` (tensors.py:155-156) -/
def Bary.reprPy {K : Type} (r : K → String) (b : Bary K) : String :=
  "BarycentricCoordinates(" ++ ", ".intercalate (b.iter.map r) ++ ")"

/-- `BarycentricCoordinates.__str__` (tensors.py:158-159) -/
def Bary.strPy {K : Type} (r : K → String) (b : Bary K) : String := "(" ++ ", ".intercalate (b.iter.map r) ++ ")"

/-- the row texts `"[" + sep.join([r(self.data[i][j]) for j in range(self.shape[1])]) + "]"` of a matrix
(tensors.py:198-201, 207-210) -/
def Mat.lines {K : Type} (r : K → String) (sep : String) (A : Mat K) : PyM (List String) :=
  pyMap (List.range A.rows) fun i => do
    let xs ← pyMap (List.range A.cols) fun j => do
      let x ← A.at' i j
      return r x
    return "[" ++ sep.intercalate xs ++ "]"

/-- `Matrix.__repr__` (tensors.py:197-204); `len(typeinfo) * " "` is eight spaces -/
def Mat.reprPy {K : Type} (r : K → String) (A : Mat K) : PyM String := do
  let lines ← A.lines r ", "
  return "Matrix([" ++ (",\n" ++ "        ").intercalate lines ++ "])"

/-- `Matrix.__str__` (tensors.py:206-213) -/
def Mat.strPy {K : Type} (r : K → String) (A : Mat K) : PyM String := do
  let lines ← A.lines r " "
  return "[" ++ ("\n" ++ " ").intercalate lines ++ "]"

/-- the texts of the matrices of a 3-d tensor (tensors.py:363-369, 375-381); `pad` is `len(typeinfo) * " "` resp.
`len(start) * " "` -/
def Ten3.blocks {K : Type} (r : K → String) (pad : String) (T : Ten3 K) : PyM (List String) :=
  pyMap (List.range T.shape.1) fun i => do
    let rows ← pyMap (List.range T.shape.2.1) fun j => do
      let xs ← pyMap (List.range T.shape.2.2) fun k => do
        let sub ← pyGet T.data i
        let row ← pyGet sub j
        let x ← pyGet row k
        return r x
      return "[" ++ ", ".intercalate xs ++ "]"
    return "[" ++ (",\n " ++ pad).intercalate rows ++ "]"

/-- `Tensor3D.__repr__` (tensors.py:361-371); `len(typeinfo) * " "` is ten spaces -/
def Ten3.reprPy {K : Type} (r : K → String) (T : Ten3 K) : PyM String := do
  let matrices ← T.blocks r "          "
  return "Tensor3D([" ++ (",\n" ++ "          ").intercalate matrices ++ "])"

/-- `Tensor3D.__str__` (tensors.py:373-383) -/
def Ten3.strPy {K : Type} (r : K → String) (T : Ten3 K) : PyM String := do
  let matrices ← T.blocks r " "
  return "[" ++ (",\n" ++ " ").intercalate matrices ++ "]"

/-- `repr(a)` for any tensor (tensors.py:19, 197, 361) -/
def TensorObj.reprPy {K : Type} (r : K → String) : TensorObj K → PyM String
  | vec v => .ok (v.reprPy r)
  | mat A => A.reprPy r
  | ten T => T.reprPy r

/-- `str(a)` for any tensor (tensors.py:22, 206, 373) -/
def TensorObj.strPy {K : Type} (r : K → String) : TensorObj K → PyM String
  | vec v => .ok (v.strPy r)
  | mat A => A.strPy r
  | ten T => T.strPy r

end Tve
