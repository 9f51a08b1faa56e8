import Verif.Model.Operators

/-!
# Specification vocabulary: tensors of numbers among arbitrary Python values
-/

namespace Tve
namespace Obj
variable {K : Type}

/-- the vector with the given numbers -/
def ofVec {n : ℕ} (f : Fin n → K) : Obj K := .vec (List.ofFn fun i => .num (f i))

/-- the matrix with the given numbers -/
def ofMat {r c : ℕ} (M : Fin r → Fin c → K) : Obj K := .mat (List.ofFn fun i => List.ofFn fun j => .num (M i j))

/-- the 3-d tensor with the given numbers -/
def ofTen {a b c : ℕ} (T : Fin a → Fin b → Fin c → K) : Obj K :=
  .ten (List.ofFn fun i => List.ofFn fun j => List.ofFn fun k => .num (T i j k))

/-- numbers and tensors of numbers, with their shape. Matrices have at least one row and tensors at least one row of rows, since
their constructors require this. -/
inductive Plain : Obj K → List ℕ → Prop
  | num (x : K) : Plain (.num x) []
  | vec {n : ℕ} (f : Fin n → K) : Plain (ofVec f) [n]
  | mat {r c : ℕ} (M : Fin (r + 1) → Fin c → K) : Plain (ofMat M) [r + 1, c]
  | ten {a b c : ℕ} (T : Fin (a + 1) → Fin (b + 1) → Fin c → K) : Plain (ofTen T) [a + 1, b + 1, c]

end Obj
end Tve
