import Verif.Lemmas.BellFun

/-! Closed forms of the shape functions, rotations, and the restriction to an edge. -/

set_option linter.unusedSimpArgs false
set_option linter.unnecessarySeqFocus false

namespace Tve
namespace Bell
open Tve.Sym

/-- the common monomials of the six shape functions of a vertex -/
noncomputable def nform (a : Fin 8 → ℝ) (L : Fin 3 → ℝ) : ℝ :=
  a 0 * L 0 ^ 5 + a 1 * L 0 ^ 4 * L 1 + a 2 * L 0 ^ 4 * L 2 + a 3 * L 0 ^ 3 * L 1 ^ 2 + a 4 * L 0 ^ 3 * L 2 ^ 2 +
    a 5 * L 0 ^ 3 * L 1 * L 2 + a 6 * L 0 ^ 2 * L 1 * L 2 ^ 2 + a 7 * L 0 ^ 2 * L 1 ^ 2 * L 2

/-- derivatives of `nform` -/
noncomputable def dform (a : Fin 8 → ℝ) (L : Fin 3 → ℝ) (j : Fin 3) : ℝ :=
  ![5 * a 0 * L 0 ^ 4 + 4 * a 1 * L 0 ^ 3 * L 1 + 4 * a 2 * L 0 ^ 3 * L 2 + 3 * a 3 * L 0 ^ 2 * L 1 ^ 2 +
      3 * a 4 * L 0 ^ 2 * L 2 ^ 2 + 3 * a 5 * L 0 ^ 2 * L 1 * L 2 + 2 * a 6 * L 0 * L 1 * L 2 ^ 2 +
      2 * a 7 * L 0 * L 1 ^ 2 * L 2,
    a 1 * L 0 ^ 4 + 2 * a 3 * L 0 ^ 3 * L 1 + a 5 * L 0 ^ 3 * L 2 + a 6 * L 0 ^ 2 * L 2 ^ 2 +
      2 * a 7 * L 0 ^ 2 * L 1 * L 2,
    a 2 * L 0 ^ 4 + 2 * a 4 * L 0 ^ 3 * L 2 + a 5 * L 0 ^ 3 * L 1 + 2 * a 6 * L 0 ^ 2 * L 1 * L 2 +
      a 7 * L 0 ^ 2 * L 1 ^ 2] j

/-- `r21` -/
noncomputable def R21 (b c : Fin 3 → ℝ) : ℝ := -(b 1 * b 0 + c 1 * c 0) / (b 1 ^ 2 + c 1 ^ 2)
/-- `r31` -/
noncomputable def R31 (b c : Fin 3 → ℝ) : ℝ := -(b 2 * b 0 + c 2 * c 0) / (b 2 ^ 2 + c 2 ^ 2)

/-- coefficients of the six shape functions -/
noncomputable def coef (b c : Fin 3 → ℝ) (k : Fin 6) : Fin 8 → ℝ :=
  ![![1, 5, 5, 10, 10, 20, 30 * R21 b c, 30 * R31 b c],
    ![0, c 2, -c 1, 4 * c 2, -(4 * c 1), 4 * (c 2 - c 1), -(3 * c 0 + 15 * R21 b c * c 1),
      3 * c 0 + 15 * R31 b c * c 2],
    ![0, -b 2, b 1, -(4 * b 2), 4 * b 1, 4 * (b 1 - b 2), 3 * b 0 + 15 * R21 b c * b 1,
      -(3 * b 0 + 15 * R31 b c * b 2)],
    ![0, 0, 0, c 2 ^ 2 / 2, c 1 ^ 2 / 2, -(c 1 * c 2), c 0 * c 1 + 5 / 2 * R21 b c * c 1 ^ 2,
      c 0 * c 2 + 5 / 2 * R31 b c * c 2 ^ 2],
    ![0, 0, 0, -(b 2 * c 2), -(b 1 * c 1), b 1 * c 2 + b 2 * c 1,
      -(b 0 * c 1 + b 1 * c 0 + 5 * R21 b c * b 1 * c 1), -(b 0 * c 2 + b 2 * c 0 + 5 * R31 b c * b 2 * c 2)],
    ![0, 0, 0, b 2 ^ 2 / 2, b 1 ^ 2 / 2, -(b 1 * b 2), b 0 * b 1 + 5 / 2 * R21 b c * b 1 ^ 2,
      b 0 * b 2 + 5 / 2 * R31 b c * b 2 ^ 2]] k

theorem eval_NF (L b c : Fin 3 → ℝ) (k : Fin 6) : (NF k).eval (env L b c) = nform (coef b c k) L := by
  fin_cases k <;>
  simp [NF, N1, N2, N3, N4, N5, N6, r21, r31, rEntry, L1, L2, L3, b1, b2, b3, c1, c2, c3, fiveHalves, nform, coef,
    R21, R31, c_ofNat] <;> ring

theorem eval_diff_NF (L b c : Fin 3 → ℝ) (k : Fin 6) (j : Fin 3) :
    ((NF k).diff (LL j)).eval (env L b c) = dform (coef b c k) L j := by
  fin_cases k <;> fin_cases j <;>
  simp [NF, N1, N2, N3, N4, N5, N6, r21, r31, rEntry, L1, L2, L3, b1, b2, b3, c1, c2, c3, fiveHalves, dform, coef,
    R21, R31, diff, c_add, c_sub, c_neg, c_mul, c_div, c_pow, c_ofNat, eval, LL] <;> ring

/-- shift of the vertices -/
def sh {α : Type} (i : Fin 3) (f : Fin 3 → α) : Fin 3 → α := fun j => f (j + i)

theorem rot_eq_sh {α : Type} (i : Fin 3) (f : Fin 3 → α) : rot^[i] f = sh i f := by
  funext j; exact rot_iter f i j

theorem sh_sh {α : Type} (i j : Fin 3) (f : Fin 3 → α) : sh i (sh j f) = sh (i + j) f := by
  funext k; simp only [sh, add_assoc]

theorem bb_sh (i : Fin 3) (P : Fin 3 → ℝ × ℝ) : bb (sh i P) = sh i (bb P) := by
  funext j; simp only [bb, sh]; congr 3 <;> abel

theorem cc_sh (i : Fin 3) (P : Fin 3 → ℝ × ℝ) : cc (sh i P) = sh i (cc P) := by
  funext j; simp only [cc, sh]; congr 3 <;> abel

theorem twoD_sh (i : Fin 3) (P : Fin 3 → ℝ × ℝ) : twoD (sh i P) = twoD P := by
  fin_cases i <;> simp [twoD, sh, cross] <;> ring

variable {P : Fin 3 → ℝ × ℝ} {L : Fin 3 → ℝ} {p : Fin 3 → Fin 6 → ℝ}

theorem bval_form : bval P p L =
    ∑ i, ∑ k, nform (coef (sh i (bb P)) (sh i (cc P)) k) (sh i L) * p i k := by
  simp only [bval, eval_NN, eval_NF, rot_eq_sh]

theorem bder_form (j : Fin 3) : bder P p L j =
    ∑ i, ∑ k, dform (coef (sh i (bb P)) (sh i (cc P)) k) (sh i L) (j - i) * p i k := by
  simp only [bder]
  refine Finset.sum_congr rfl fun i _ => Finset.sum_congr rfl fun k _ => ?_
  have := eval_diff_NN L (bb P) (cc P) i (j - i) k
  rw [sub_add_cancel] at this
  rw [this, eval_diff_NF, rot_eq_sh, rot_eq_sh, rot_eq_sh]

theorem bval_sh (m : Fin 3) : bval (sh m P) (sh m p) (sh m L) = bval P p L := by
  rw [bval_form, bval_form, sum_shift m fun i =>
    ∑ k, nform (coef (sh i (bb P)) (sh i (cc P)) k) (sh i L) * p i k]
  simp only [bb_sh, cc_sh, sh_sh]
  rfl

theorem bder_sh (m j : Fin 3) : bder (sh m P) (sh m p) (sh m L) j = bder P p L (j + m) := by
  rw [bder_form, bder_form, sum_shift m fun i =>
    ∑ k, dform (coef (sh i (bb P)) (sh i (cc P)) k) (sh i L) (j + m - i) * p i k]
  simp only [bb_sh, cc_sh, sh_sh]
  refine Finset.sum_congr rfl fun i _ => Finset.sum_congr rfl fun k _ => ?_
  have : j + m - (i + m) = j - i := by abel
  rw [this]; rfl

/-- gradient components -/
noncomputable def gx (P : Fin 3 → ℝ × ℝ) (p : Fin 3 → Fin 6 → ℝ) (L : Fin 3 → ℝ) : ℝ :=
  ∑ j, bb P j * bder P p L j / twoD P
/-- gradient components -/
noncomputable def gy (P : Fin 3 → ℝ × ℝ) (p : Fin 3 → Fin 6 → ℝ) (L : Fin 3 → ℝ) : ℝ :=
  ∑ j, cc P j * bder P p L j / twoD P

theorem gx_sh (m : Fin 3) : gx (sh m P) (sh m p) (sh m L) = gx P p L := by
  simp only [gx, bder_sh, bb_sh, twoD_sh]
  exact (sum_shift m fun j => bb P j * bder P p L j / twoD P).symm

theorem gy_sh (m : Fin 3) : gy (sh m P) (sh m p) (sh m L) = gy P p L := by
  simp only [gy, bder_sh, cc_sh, twoD_sh]
  exact (sum_shift m fun j => cc P j * bder P p L j / twoD P).symm

/-- weight `t` at vertex `i` and `1 - t` at vertex `j` -/
def edgeW (i j : Fin 3) (t : ℝ) : Fin 3 → ℝ := fun k => if k = i then t else if k = j then 1 - t else 0

/-- the value on an edge -/
noncomputable def eVal (P Q : ℝ × ℝ) (p q : Fin 6 → ℝ) (t : ℝ) : ℝ :=
  let b := P.2 - Q.2
  let c := Q.1 - P.1
  let s := 1 - t
  (t ^ 5 + 5 * t ^ 4 * s + 10 * t ^ 3 * s ^ 2) * p 0 + (t ^ 4 * s + 4 * t ^ 3 * s ^ 2) * (c * p 1 - b * p 2) +
    t ^ 3 * s ^ 2 * (c ^ 2 / 2 * p 3 - b * c * p 4 + b ^ 2 / 2 * p 5) +
  (s ^ 5 + 5 * s ^ 4 * t + 10 * s ^ 3 * t ^ 2) * q 0 - (s ^ 4 * t + 4 * s ^ 3 * t ^ 2) * (c * q 1 - b * q 2) +
    s ^ 3 * t ^ 2 * (c ^ 2 / 2 * q 3 - b * c * q 4 + b ^ 2 / 2 * q 5)

theorem eVal_symm (P Q : ℝ × ℝ) (p q : Fin 6 → ℝ) (t : ℝ) : eVal P Q p q t = eVal Q P q p (1 - t) := by
  simp only [eVal]; ring

theorem bval_edge01 (t : ℝ) : bval P p (edgeW 0 1 t) = eVal (P 0) (P 1) (p 0) (p 1) t := by
  rw [bval_form]
  simp [Fin.sum_univ_succ, nform, sh, edgeW, coef, bb, cc, eVal]
  ring

/-- tangential derivative on an edge -/
noncomputable def eTan (P Q : ℝ × ℝ) (p q : Fin 6 → ℝ) (t : ℝ) : ℝ :=
  let b := P.2 - Q.2
  let c := Q.1 - P.1
  let s := 1 - t
  30 * t ^ 2 * s ^ 2 * p 0 +
    (4 * t ^ 3 * s + 12 * t ^ 2 * s ^ 2 - t ^ 4 - 8 * t ^ 3 * s) * (c * p 1 - b * p 2) +
    (3 * t ^ 2 * s ^ 2 - 2 * t ^ 3 * s) * (c ^ 2 / 2 * p 3 - b * c * p 4 + b ^ 2 / 2 * p 5) -
  (30 * s ^ 2 * t ^ 2 * q 0 -
    (4 * s ^ 3 * t + 12 * s ^ 2 * t ^ 2 - s ^ 4 - 8 * s ^ 3 * t) * (c * q 1 - b * q 2) +
    (3 * s ^ 2 * t ^ 2 - 2 * s ^ 3 * t) * (c ^ 2 / 2 * q 3 - b * c * q 4 + b ^ 2 / 2 * q 5))

/-- normal derivative on an edge -/
noncomputable def eNor (P Q : ℝ × ℝ) (p q : Fin 6 → ℝ) (t : ℝ) : ℝ :=
  let b := P.2 - Q.2
  let c := Q.1 - P.1
  let s := 1 - t
  t ^ 2 * (3 - 2 * t) * (b * p 1 + c * p 2) -
    t ^ 2 * s * (-(b * c) * p 3 + (b ^ 2 - c ^ 2) * p 4 + b * c * p 5) +
  s ^ 2 * (3 - 2 * s) * (b * q 1 + c * q 2) +
    s ^ 2 * t * (-(b * c) * q 3 + (b ^ 2 - c ^ 2) * q 4 + b * c * q 5)

theorem tan_edge01 (t : ℝ) : bder P p (edgeW 0 1 t) 0 - bder P p (edgeW 0 1 t) 1 =
    eTan (P 0) (P 1) (p 0) (p 1) t := by
  rw [bder_form, bder_form]
  simp [Fin.sum_univ_succ, dform, sh, edgeW, coef, bb, cc, eTan]
  ring

end Bell
end Tve
