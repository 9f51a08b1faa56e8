import Verif.Model.Tensors
import Mathlib.LinearAlgebra.Matrix.Determinant.Basic
import Verif.Model.PyReal

/-!
# Specification vocabulary for tensors

`vecOf f`, `matOf M`, `tenOf T` are the Python objects whose entries are given by the functions/Mathlib matrix.
-/

namespace Tve

/-- The Python vector with entries `f 0, …, f (n-1)`. -/
def vecOf {K : Type} {n : ℕ} (f : Fin n → K) : Vec K := ⟨List.ofFn f⟩

/-- The Python matrix with entries `M i j`. -/
def matOf {K : Type} {r c : ℕ} (M : Matrix (Fin r) (Fin c) K) : Mat K :=
  ⟨List.ofFn fun i => List.ofFn fun j => M i j⟩

/-- The Python 3-d tensor with entries `T i j k`. -/
def tenOf {K : Type} {a b c : ℕ} (T : Fin a → Fin b → Fin c → K) : Ten3 K :=
  ⟨List.ofFn fun i => List.ofFn fun j => List.ofFn fun k => T i j k⟩

end Tve
