import Verif.Spec.Thermal
import Mathlib.LinearAlgebra.Matrix.Determinant.Basic

/-!
# Specification vocabulary: rigid motions of a deformation
-/

namespace Tve

/-- the deformation `y'` (an array returned by `y()`) is the deformation `y` followed by the rotation `R` and the translation `c`.
Without regularization the array has the entries `[v, i]`, the positions of the vertices; with regularization it has the
entries `[v, i, k]` where `k = 0` is the position and `k > 0` are derivatives, on which the translation has no effect. -/
def NdArray.RigidMotion (R : Matrix (Fin 2) (Fin 2) ℝ) (c : Fin 2 → ℝ) (y y' : NdArray) : Prop :=
  y'.Has y.shape ∧ match y.shape with
    | [n, _] => ∀ v < n, ∀ i : Fin 2, y'.at2 2 v i = ∑ j : Fin 2, R i j * y.at2 2 v j + c i
    | [n, _, _] => ∀ v < n, ∀ (i : Fin 2) (k : Fin 6),
        y'.at3 2 6 v i k = ∑ j : Fin 2, R i j * y.at3 2 6 v j k + if k = 0 then c i else 0
    | _ => False

end Tve
