import Verif.Model.Sym

/-!
# Model of `src/tvemoves_rufbad/bell_finite_element.py`
-/

namespace Tve
namespace Bell
open Tve.Sym

/-- bell_finite_element.py:10 -/
def L1 : Sym := var "L1"
/-- bell_finite_element.py:10 -/
def L2 : Sym := var "L2"
/-- bell_finite_element.py:10 -/
def L3 : Sym := var "L3"
/-- bell_finite_element.py:12 -/
def b1 : Sym := var "b1"
/-- bell_finite_element.py:12 -/
def b2 : Sym := var "b2"
/-- bell_finite_element.py:12 -/
def b3 : Sym := var "b3"
/-- bell_finite_element.py:14 -/
def c1 : Sym := var "c1"
/-- bell_finite_element.py:14 -/
def c2 : Sym := var "c2"
/-- bell_finite_element.py:14 -/
def c3 : Sym := var "c3"

/-- `_L` (bell_finite_element.py:11) -/
def symL : List Symb := ["L1", "L2", "L3"]
/-- `_b` (bell_finite_element.py:13) -/
def symB : List Symb := ["b1", "b2", "b3"]
/-- `_c` (bell_finite_element.py:15) -/
def symC : List Symb := ["c1", "c2", "c3"]

/-- one entry of `_r` (bell_finite_element.py:17), given the symbols with indices `i` and `j` -/
def rEntry (bi ci bj cj : Sym) : Sym := -(bi * bj + ci * cj) / (bi ^ 2 + ci ^ 2)

/-- `_r21 = _r[1, 0]` (bell_finite_element.py:20) -/
def r21 : Sym := rEntry b2 c2 b1 c1
/-- `_r31 = _r[2, 0]` (bell_finite_element.py:21) -/
def r31 : Sym := rEntry b3 c3 b1 c1

/-- `_N1` (bell_finite_element.py:23-32) -/
def N1 : Sym :=
  L1 ^ 5
    + 5 * L1 ^ 4 * L2
    + 5 * L1 ^ 4 * L3
    + 10 * L1 ^ 3 * L2 ^ 2
    + 10 * L1 ^ 3 * L3 ^ 2
    + 20 * L1 ^ 3 * L2 * L3
    + 30 * r21 * L1 ^ 2 * L2 * L3 ^ 2
    + 30 * r31 * L1 ^ 2 * L3 * L2 ^ 2

/-- `_N2` (bell_finite_element.py:33-41) -/
def N2 : Sym :=
  c3 * L1 ^ 4 * L2
    - c2 * L1 ^ 4 * L3
    + 4 * c3 * L1 ^ 3 * L2 ^ 2
    - 4 * c2 * L1 ^ 3 * L3 ^ 2
    + 4 * (c3 - c2) * L1 ^ 3 * L2 * L3
    - (3 * c1 + 15 * r21 * c2) * L1 ^ 2 * L2 * L3 ^ 2
    + (3 * c1 + 15 * r31 * c3) * L1 ^ 2 * L3 * L2 ^ 2

/-- `_N3` (bell_finite_element.py:42-50) -/
def N3 : Sym :=
  -b3 * L1 ^ 4 * L2
    + b2 * L1 ^ 4 * L3
    - 4 * b3 * L1 ^ 3 * L2 ^ 2
    + 4 * b2 * L1 ^ 3 * L3 ^ 2
    + 4 * (b2 - b3) * L1 ^ 3 * L2 * L3
    + (3 * b1 + 15 * r21 * b2) * L1 ^ 2 * L2 * L3 ^ 2
    - (3 * b1 + 15 * r31 * b3) * L1 ^ 2 * L3 * L2 ^ 2

/-- the Python constant `5 / 2` (bell_finite_element.py:55-70) -/
def fiveHalves : Sym := num (5 / 2)

/-- `_N4` (bell_finite_element.py:51-57) -/
def N4 : Sym :=
  c3 ^ 2 / 2 * L1 ^ 3 * L2 ^ 2
    + c2 ^ 2 / 2 * L1 ^ 3 * L3 ^ 2
    - c2 * c3 * L1 ^ 3 * L2 * L3
    + (c1 * c2 + fiveHalves * r21 * c2 ^ 2) * L2 * L3 ^ 2 * L1 ^ 2
    + (c1 * c3 + fiveHalves * r31 * c3 ^ 2) * L3 * L2 ^ 2 * L1 ^ 2

/-- `_N5` (bell_finite_element.py:58-64) -/
def N5 : Sym :=
  -b3 * c3 * L1 ^ 3 * L2 ^ 2
    - b2 * c2 * L1 ^ 3 * L3 ^ 2
    + (b2 * c3 + b3 * c2) * L1 ^ 3 * L2 * L3
    - (b1 * c2 + b2 * c1 + 5 * r21 * b2 * c2) * L2 * L3 ^ 2 * L1 ^ 2
    - (b1 * c3 + b3 * c1 + 5 * r31 * b3 * c3) * L3 * L2 ^ 2 * L1 ^ 2

/-- `_N6` (bell_finite_element.py:65-71) -/
def N6 : Sym :=
  b3 ^ 2 / 2 * L1 ^ 3 * L2 ^ 2
    + b2 ^ 2 / 2 * L1 ^ 3 * L3 ^ 2
    - b2 * b3 * L1 ^ 3 * L2 * L3
    + (b1 * b2 + fiveHalves * r21 * b2 ^ 2) * L2 * L3 ^ 2 * L1 ^ 2
    + (b1 * b3 + fiveHalves * r31 * b3 ^ 2) * L3 * L2 ^ 2 * L1 ^ 2

/-- `_N_first_third` (bell_finite_element.py:73) -/
def NFirst : List Sym := [N1, N2, N3, N4, N5, N6]

/-- `_single_cyclic_permutation` (bell_finite_element.py:76-86). `variable[-1]`, `variable[i]` with `1 ≤ i < len`
never fail. -/
def singleCyclicPermutation (e : Sym) (vs : List Symb) : Sym :=
  if vs.length ≤ 1 then e
  else
    let last := vs.getLastD ""
    let mids := ((List.range (vs.length - 1)).reverse.map fun k =>
      (vs.getD k "", var (vs.getD (k + 1) "")))
    e.subs ([(last, var "s")] ++ mids ++ [("s", var (vs.headD ""))])

/-- `_cyclic_permutation` (bell_finite_element.py:89-92) -/
def cyclicPermutation (e : Sym) (vars : List (List Symb)) : Sym :=
  vars.foldl singleCyclicPermutation e

/-- `_N_second_third` (bell_finite_element.py:95) -/
def NSecond : List Sym := NFirst.map fun e => cyclicPermutation e [symL, symB, symC]
/-- `_N_third_third` (bell_finite_element.py:96) -/
def NThird : List Sym := NSecond.map fun e => cyclicPermutation e [symL, symB, symC]
/-- `_N` (bell_finite_element.py:97) -/
def N : List Sym := NFirst ++ NSecond ++ NThird

/-- `_L + _b + _c`, the parameters of the lambdified functions (bell_finite_element.py:99, 138, 164) -/
def params9 : List Symb := symL ++ symB ++ symC

/-- `TriangleVertices` (domain.py:21) -/
abbrev TriVerts := Vec ℝ × Vec ℝ × Vec ℝ

/-- `_get_a` (bell_finite_element.py:102-108) -/
noncomputable def getA (tv : TriVerts) : PyM (ℝ × ℝ × ℝ) := do
  let p1 := tv.1
  let p2 := tv.2.1
  let p3 := tv.2.2
  let a1 := (← p2.getItem 0) * (← p3.getItem 1) - (← p3.getItem 0) * (← p2.getItem 1)
  let a2 := (← p3.getItem 0) * (← p1.getItem 1) - (← p1.getItem 0) * (← p3.getItem 1)
  let a3 := (← p1.getItem 0) * (← p2.getItem 1) - (← p2.getItem 0) * (← p1.getItem 1)
  return (a1, a2, a3)

/-- `_get_b` (bell_finite_element.py:111-113) -/
noncomputable def getB (tv : TriVerts) : PyM (ℝ × ℝ × ℝ) := do
  let p1 := tv.1
  let p2 := tv.2.1
  let p3 := tv.2.2
  return ((← p2.getItem 1) - (← p3.getItem 1), (← p3.getItem 1) - (← p1.getItem 1),
    (← p1.getItem 1) - (← p2.getItem 1))

/-- `_get_c` (bell_finite_element.py:116-118) -/
noncomputable def getC (tv : TriVerts) : PyM (ℝ × ℝ × ℝ) := do
  let p1 := tv.1
  let p2 := tv.2.1
  let p3 := tv.2.2
  return ((← p3.getItem 0) - (← p2.getItem 0), (← p1.getItem 0) - (← p3.getItem 0),
    (← p2.getItem 0) - (← p1.getItem 0))

/-- the argument list `*barycentric_coordinates, *_get_b(..), *_get_c(..)` (bell_finite_element.py:130-132) -/
noncomputable def args9 (tv : TriVerts) (bc : Bary ℝ) : PyM (List ℝ) := do
  let b ← getB tv
  let c ← getC tv
  return [bc.l1, bc.l2, bc.l3, b.1, b.2.1, b.2.2, c.1, c.2.1, c.2.2]

/-- `_shape_function` (bell_finite_element.py:121-134) with `_N_lambdified` (line 99) -/
noncomputable def shapeFunction (tv : TriVerts) (bc : Bary ℝ) : PyM (Vec ℝ) := do
  let args ← args9 tv bc
  let l ← lambdifyList params9 N args
  return ⟨l⟩

/-- `_N_gradient` (bell_finite_element.py:137) -/
def NGradient : List (List Sym) := N.map fun e => symL.map fun x => e.diff x

/-- `_shape_function_gradient` (bell_finite_element.py:141-155) -/
noncomputable def shapeFunctionGradient (tv : TriVerts) (bc : Bary ℝ) : PyM (Mat ℝ) := do
  let args ← args9 tv bc
  let l ← lambdifyMat params9 NGradient args
  Mat.new l

/-- one row of `_N_hessian_vectorized` (bell_finite_element.py:158-163): `H[0,0], H[1,1], H[2,2], H[0,1], H[0,2],
H[1,2]` with `H[j,k] = sp.diff(e, L[j], L[k])`. -/
def hessRow (e : Sym) : List Sym :=
  [(e.diff "L1").diff "L1", (e.diff "L2").diff "L2", (e.diff "L3").diff "L3",
   (e.diff "L1").diff "L2", (e.diff "L1").diff "L3", (e.diff "L2").diff "L3"]

/-- `_N_hessian_vectorized` (bell_finite_element.py:161-163) -/
def NHessian : List (List Sym) := N.map hessRow

/-- `_shape_function_hessian_vectorized` (bell_finite_element.py:167-184) -/
noncomputable def shapeFunctionHessian (tv : TriVerts) (bc : Bary ℝ) : PyM (Mat ℝ) := do
  let args ← args9 tv bc
  let l ← lambdifyMat params9 NHessian args
  Mat.new l

/-- `_N_on_edge` (bell_finite_element.py:187-188) -/
def NOnEdge : List Sym :=
  (N.take 12).map fun e => (e.subs [("L1", var "t"), ("L2", 1 - var "t"), ("L3", 0)]).zsimp

/-- `_shape_function_on_edge` (bell_finite_element.py:192-201) -/
noncomputable def shapeFunctionOnEdge (ev : Vec ℝ × Vec ℝ) (t : ℝ) : PyM (Vec ℝ) := do
  let b3 := (← ev.1.getItem 1) - (← ev.2.getItem 1)
  let c3 := (← ev.2.getItem 0) - (← ev.1.getItem 0)
  let l ← lambdifyList ["t", "b3", "c3"] NOnEdge [t, b3, c3]
  return ⟨l⟩

open Classical in
/-- `transform_gradient` (bell_finite_element.py:204-218) -/
noncomputable def transformGradient (tv : TriVerts) (g : Vec ℝ) : PyM (Vec ℝ) := do
  let a ← getA tv
  let delta := (a.1 + a.2.1 + a.2.2) / 2
  let b ← getB tv
  let c ← getC tv
  let m ← Mat.new [[b.1, b.2.1, b.2.2], [c.1, c.2.1, c.2.2]]
  let trafo ← m.truediv (2 * delta)
  trafo.dot g

open Classical in
/-- `transform_hessian` (bell_finite_element.py:221-268) -/
noncomputable def transformHessian (tv : TriVerts) (h : Vec ℝ) : PyM (Mat ℝ) := do
  let a ← getA tv
  let delta := (a.1 + a.2.1 + a.2.2) / 2
  let b ← getB tv
  let c ← getC tv
  let b0 := b.1
  let b1 := b.2.1
  let b2 := b.2.2
  let c0 := c.1
  let c1 := c.2.1
  let c2 := c.2.2
  let m ← Mat.new
    [[b0 ^ 2, b1 ^ 2, b2 ^ 2, 2 * b0 * b1, 2 * b0 * b2, 2 * b1 * b2],
     [c0 ^ 2, c1 ^ 2, c2 ^ 2, 2 * c0 * c1, 2 * c0 * c2, 2 * c1 * c2],
     [b0 * c0, b1 * c1, b2 * c2, b0 * c1 + b1 * c0, b0 * c2 + b2 * c0, b1 * c2 + b2 * c1]]
  let trafo ← m.truediv (4 * delta ^ 2)
  let hv ← trafo.dot h
  let h0 ← hv.getItem 0
  let h1 ← hv.getItem 1
  let h2 ← hv.getItem 2
  Mat.new [[h0, h2], [h2, h1]]

/-- `bell_interpolation` (bell_finite_element.py:271-282) -/
noncomputable def interpolation (tv : TriVerts) (bc : Bary ℝ) (params : Vec ℝ) : PyM ℝ :=
  if params.size ≠ 18 then .error .valueError
  else do
    let s ← shapeFunction tv bc
    return s.dot params

/-- `bell_interpolation_gradient` (bell_finite_element.py:285-302) -/
noncomputable def interpolationGradient (tv : TriVerts) (bc : Bary ℝ) (params : Vec ℝ) : PyM (Vec ℝ) :=
  if params.size ≠ 18 then .error .valueError
  else do
    let s ← shapeFunctionGradient tv bc
    let st ← s.transpose
    let g ← st.dot params
    transformGradient tv g

/-- `bell_interpolation_hessian` (bell_finite_element.py:305-324) -/
noncomputable def interpolationHessian (tv : TriVerts) (bc : Bary ℝ) (params : Vec ℝ) : PyM (Mat ℝ) :=
  if params.size ≠ 18 then .error .valueError
  else do
    let s ← shapeFunctionHessian tv bc
    let st ← s.transpose
    let h ← st.dot params
    transformHessian tv h

/-- `bell_interpolation_on_edge` (bell_finite_element.py:327-329) -/
noncomputable def interpolationOnEdge (ev : Vec ℝ × Vec ℝ) (t : ℝ) (params : Vec ℝ) : PyM ℝ := do
  let s ← shapeFunctionOnEdge ev t
  return s.dot params

end Bell
end Tve
