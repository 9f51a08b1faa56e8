import Verif.Lemmas.BellEdge
import Verif.Spec.BellPoly
import Mathlib.Algebra.Algebra.Operations
import Mathlib.Algebra.MvPolynomial.Funext

/-! Reproduction of quartic polynomials by the Bell interpolation. -/

set_option linter.unusedSimpArgs false
set_option linter.unnecessarySeqFocus false
namespace Tve
open MvPolynomial
open scoped Pointwise

namespace Bell
variable {P : Fin 3 → ℝ × ℝ} {L : Fin 3 → ℝ} {p : Fin 3 → Fin 6 → ℝ}

/-- product of 2-jets -/
noncomputable def jmul (u v : Fin 6 → ℝ) : Fin 6 → ℝ :=
  ![u 0 * v 0, u 0 * v 1 + u 1 * v 0, u 0 * v 2 + u 2 * v 0,
    u 0 * v 3 + 2 * u 1 * v 1 + u 3 * v 0, u 0 * v 4 + u 1 * v 2 + u 2 * v 1 + u 4 * v 0,
    u 0 * v 5 + 2 * u 2 * v 2 + u 5 * v 0]

theorem nodal_mul (q r : MvPolynomial (Fin 2) ℝ) (z : ℝ × ℝ) : nodal (q * r) z = jmul (nodal q z) (nodal r z) := by
  funext k
  fin_cases k <;> simp [nodal, jmul, polyAt, Derivation.leibniz] <;> ring

theorem nodal_add (q r : MvPolynomial (Fin 2) ℝ) (z : ℝ × ℝ) : nodal (q + r) z = nodal q z + nodal r z := by
  funext k
  fin_cases k <;> simp [nodal, polyAt]

theorem nodal_smul (a : ℝ) (r : MvPolynomial (Fin 2) ℝ) (z : ℝ × ℝ) : nodal (a • r) z = a • nodal r z := by
  funext k
  fin_cases k <;> simp [nodal, polyAt, smul_eval]

/-- barycentric coordinates as polynomials -/
noncomputable def Lam (P : Fin 3 → ℝ × ℝ) (j : Fin 3) : MvPolynomial (Fin 2) ℝ :=
  C (((P (j + 1)).1 * (P (j + 2)).2 - (P (j + 2)).1 * (P (j + 1)).2) / twoD P) + C (bb P j / twoD P) * X 0 +
    C (cc P j / twoD P) * X 1

theorem polyAt_Lam (j : Fin 3) (z : ℝ × ℝ) : polyAt (Lam P j) z = lam P z j := by
  simp [polyAt, Lam, lam]; ring

theorem lam_vertex (h : Nondegenerate P) (m : Fin 3) : lam P (P m) = unitW m := by
  have : pointOf P (unitW m) = P m := by
    fin_cases m <;> simp [pointOf, baryPoint, unitW]
  have h2 := lam_pointOf (L := unitW m) h (by fin_cases m <;> simp [unitW])
  rwa [this] at h2

theorem nodal_Lam (h : Nondegenerate P) (j m : Fin 3) :
    nodal (Lam P j) (P m) = ![unitW m j, bb P j / twoD P, cc P j / twoD P, 0, 0, 0] := by
  have h0 : polyAt (Lam P j) (P m) = unitW m j := by rw [polyAt_Lam, lam_vertex h]
  funext k
  fin_cases k
  · exact h0
  all_goals simp [nodal, polyAt, Lam, pderiv_C, Derivation.leibniz]

theorem nodal_prod (h : Nondegenerate P) (i j k l m : Fin 3) : nodal (Lam P i * Lam P j * Lam P k * Lam P l) (P m) =
    jmul (jmul (jmul ![unitW m i, bb P i / twoD P, cc P i / twoD P, 0, 0, 0]
      ![unitW m j, bb P j / twoD P, cc P j / twoD P, 0, 0, 0])
      ![unitW m k, bb P k / twoD P, cc P k / twoD P, 0, 0, 0])
      ![unitW m l, bb P l / twoD P, cc P l / twoD P, 0, 0, 0] := by
  simp only [nodal_mul, nodal_Lam h]


/-- the polynomial is reproduced -/
def Repr (P : Fin 3 → ℝ × ℝ) (q : MvPolynomial (Fin 2) ℝ) : Prop :=
  ∀ L : Fin 3 → ℝ, L 0 + L 1 + L 2 = 1 → bval P (fun m => nodal q (P m)) L = polyAt q (pointOf P L)

/-- representatives of the products of four barycentric coordinates up to rotation -/
def reps : List (Fin 3 × Fin 3 × Fin 3 × Fin 3) := [(0, 0, 0, 0), (0, 0, 0, 1), (0, 0, 0, 2), (0, 0, 1, 1), (0, 0, 1, 2)]

set_option maxHeartbeats 2000000 in
theorem repr_base (h : Nondegenerate P) (r : Fin 3 × Fin 3 × Fin 3 × Fin 3) (hr : r ∈ reps) :
    Repr P (Lam P r.1 * Lam P r.2.1 * Lam P r.2.2.1 * Lam P r.2.2.2) := by
  intro L hL
  have hp : polyAt (Lam P r.1 * Lam P r.2.1 * Lam P r.2.2.1 * Lam P r.2.2.2) (pointOf P L) =
      L r.1 * L r.2.1 * L r.2.2.1 * L r.2.2.2 := by
    have : ∀ j, polyAt (Lam P j) (pointOf P L) = L j := fun j => by rw [polyAt_Lam, lam_pointOf h hL]
    simp only [polyAt, map_mul] at this ⊢
    simp only [this]
  rw [hp, bval_form]
  simp only [nodal_prod h]
  have hD0 := nondeg_norm h 0
  have hD1 := nondeg_norm h 1
  have hD2 := nondeg_norm h 2
  have hd : twoD P ≠ 0 := h
  have hd2 := twoD_eq (P := P)
  have eb : bb P 2 = - bb P 0 - bb P 1 := by simp [bb]
  have ec : cc P 2 = - cc P 0 - cc P 1 := by simp [cc]
  have eL : L 2 = 1 - L 0 - L 1 := by linarith
  generalize twoD P = D at *
  generalize hb0 : bb P = b at *
  generalize hc0 : cc P = c at *
  clear hb0 hc0 hp
  simp only [reps, List.mem_cons, List.not_mem_nil, or_false] at hr
  rcases hr with rfl | rfl | rfl | rfl | rfl
  all_goals
    simp [Fin.sum_univ_succ, nform, coef, jmul, unitW, sh, R21, R31]
    try field_simp
    try rw [hd2]
    try rw [eL]
    try rw [eb, ec]
    ring

theorem Lam_sh (m j : Fin 3) : Lam (sh m P) j = Lam P (j + m) := by
  simp only [Lam, bb_sh, cc_sh, twoD_sh]
  simp only [sh, add_assoc, add_comm]

theorem pointOf_sh (m : Fin 3) : pointOf (sh m P) (sh m L) = pointOf P L := by
  fin_cases m <;> simp [pointOf, baryPoint, sh] <;> abel

theorem Repr_sh {q : MvPolynomial (Fin 2) ℝ} (m : Fin 3) (h : Repr (sh m P) q) : Repr P q := by
  intro L hL
  have := h (sh m L) (by rw [← hL]; fin_cases m <;> simp [sh] <;> ring)
  rw [pointOf_sh] at this
  rw [← this, ← bval_sh m]
  rfl

theorem orbit : ∀ i j k l : Fin 3, ∃ r ∈ reps, ∃ m : Fin 3,
    ({i, j, k, l} : Multiset (Fin 3)) = {r.1 + m, r.2.1 + m, r.2.2.1 + m, r.2.2.2 + m} := by decide

theorem repr_prod (h : Nondegenerate P) (i j k l : Fin 3) : Repr P (Lam P i * Lam P j * Lam P k * Lam P l) := by
  obtain ⟨r, hr, m, hm⟩ := orbit i j k l
  have := congrArg (fun s => (s.map (Lam P)).prod) hm
  simp only [Multiset.insert_eq_cons, Multiset.map_cons, Multiset.prod_cons, Multiset.map_singleton,
    Multiset.prod_singleton, ← mul_assoc] at this
  rw [this]
  apply Repr_sh m
  have := repr_base (nondeg_sh h m) r hr
  simpa only [Lam_sh] using this

theorem Repr_add {q r : MvPolynomial (Fin 2) ℝ} (hq : Repr P q) (hr : Repr P r) : Repr P (q + r) := by
  intro L hL
  have e : polyAt (q + r) (pointOf P L) = polyAt q (pointOf P L) + polyAt r (pointOf P L) := by simp [polyAt]
  rw [e, ← hq L hL, ← hr L hL]
  simp only [bval, nodal_add, Pi.add_apply, mul_add, Finset.sum_add_distrib]

theorem Repr_smul {q : MvPolynomial (Fin 2) ℝ} (a : ℝ) (hq : Repr P q) : Repr P (a • q) := by
  intro L hL
  have e : polyAt (a • q) (pointOf P L) = a * polyAt q (pointOf P L) := by simp [polyAt, smul_eval]
  rw [e, ← hq L hL]
  simp only [bval, nodal_smul, Pi.smul_apply, smul_eq_mul, Finset.mul_sum]
  refine Finset.sum_congr rfl fun i _ => Finset.sum_congr rfl fun k _ => by ring

theorem Repr_zero : Repr P 0 := by
  have := Repr_smul (P := P) (q := 0) 0
  intro L hL
  simp [bval, nodal, polyAt]
  refine Finset.sum_eq_zero fun i _ => Finset.sum_eq_zero fun k _ => ?_
  fin_cases k <;> simp

/-- the reproduced polynomials -/
noncomputable def reprSub (P : Fin 3 → ℝ × ℝ) : Submodule ℝ (MvPolynomial (Fin 2) ℝ) where
  carrier := {q | Repr P q}
  add_mem' := Repr_add
  zero_mem' := Repr_zero
  smul_mem' a _ := Repr_smul a

theorem span4 (h : Nondegenerate P) : Submodule.span ℝ (Set.range (Lam P)) ^ 4 ≤ reprSub P := by
  rw [Submodule.span_pow, Submodule.span_le]
  intro q hq
  have h4 : (Set.range (Lam P)) ^ 4 = Set.range (Lam P) * Set.range (Lam P) * Set.range (Lam P) * Set.range (Lam P) := by
    rw [pow_succ, pow_succ, pow_two]
  rw [h4] at hq
  obtain ⟨_, ⟨_, ⟨_, ⟨i, rfl⟩, _, ⟨j, rfl⟩, rfl⟩, _, ⟨k, rfl⟩, rfl⟩, _, ⟨l, rfl⟩, rfl⟩ := hq
  exact repr_prod h i j k l

theorem Lam_sum (h : Nondegenerate P) : (1 : MvPolynomial (Fin 2) ℝ) = ∑ j, Lam P j := by
  apply MvPolynomial.funext
  intro x
  have := lam_sum h (x 0, x 1)
  have hx : ![x 0, x 1] = x := by funext i; fin_cases i <;> rfl
  have hl : ∀ j, MvPolynomial.eval x (Lam P j) = lam P (x 0, x 1) j := by
    intro j; rw [← polyAt_Lam, polyAt]; simp only [hx]
  simp only [Fin.sum_univ_three, map_one, map_add, hl]
  exact this.symm

theorem X_eq (h : Nondegenerate P) (i : Fin 2) : (X i : MvPolynomial (Fin 2) ℝ) =
    ∑ j, (![(P j).1, (P j).2] i) • Lam P j := by
  apply MvPolynomial.funext
  intro x
  have := pointOf_lam h (x 0, x 1)
  have hx : ![x 0, x 1] = x := by funext i; fin_cases i <;> rfl
  have hl : ∀ j, MvPolynomial.eval x (Lam P j) = lam P (x 0, x 1) j := by
    intro j; rw [← polyAt_Lam, polyAt]; simp only [hx]
  have h1 := congrArg Prod.fst this
  have h2 := congrArg Prod.snd this
  simp [pointOf, baryPoint] at h1 h2
  simp only [Fin.sum_univ_three, eval_X, map_add, smul_eval, hl]
  fin_cases i
  · simp; linarith
  · simp; linarith

theorem one_mem (h : Nondegenerate P) : (1 : MvPolynomial (Fin 2) ℝ) ∈ Submodule.span ℝ (Set.range (Lam P)) := by
  rw [Lam_sum h]
  exact Submodule.sum_mem _ fun j _ => Submodule.subset_span ⟨j, rfl⟩

theorem X_mem (h : Nondegenerate P) (i : Fin 2) :
    (X i : MvPolynomial (Fin 2) ℝ) ∈ Submodule.span ℝ (Set.range (Lam P)) := by
  rw [X_eq h]
  exact Submodule.sum_mem _ fun j _ => Submodule.smul_mem _ _ (Submodule.subset_span ⟨j, rfl⟩)

theorem repr_all (h : Nondegenerate P) (q : MvPolynomial (Fin 2) ℝ) (hq : q.totalDegree ≤ 4) : Repr P q := by
  show q ∈ reprSub P
  rw [q.as_sum]
  refine Submodule.sum_mem _ fun s hs => span4 h ?_
  have hdeg : s 0 + s 1 ≤ 4 := by
    have := (le_totalDegree hs).trans hq
    rw [Finsupp.sum_fintype _ _ (fun _ => rfl)] at this
    simpa using this
  have : monomial s (coeff s q) = (coeff s q) • ((X 0 : MvPolynomial (Fin 2) ℝ) ^ s 0 * X 1 ^ s 1 * 1 ^ (4 - (s 0 + s 1))) := by
    rw [monomial_eq, Finsupp.prod_fintype _ _ (fun _ => pow_zero _)]
    simp [smul_eq_C_mul]
  rw [this]
  refine Submodule.smul_mem _ _ ?_
  have e : 4 = s 0 + s 1 + (4 - (s 0 + s 1)) := by omega
  have key : (X 0 : MvPolynomial (Fin 2) ℝ) ^ s 0 * X 1 ^ s 1 * 1 ^ (4 - (s 0 + s 1)) ∈
      Submodule.span ℝ (Set.range (Lam P)) ^ (s 0 + s 1 + (4 - (s 0 + s 1))) := by
    rw [pow_add, pow_add]
    exact Submodule.mul_mem_mul (Submodule.mul_mem_mul (Submodule.pow_mem_pow _ (X_mem h 0) _)
      (Submodule.pow_mem_pow _ (X_mem h 1) _)) (Submodule.pow_mem_pow _ (one_mem h) _)
  rwa [← e] at key

theorem polyAt_deriv (q : MvPolynomial (Fin 2) ℝ) (z : ℝ × ℝ) :
    HasFDerivAt (polyAt q) (lin (polyAt (pderiv 0 q) z) (polyAt (pderiv 1 q) z)) z := by
  induction q using MvPolynomial.induction_on with
  | C a =>
    have : polyAt (C a) = fun _ => a := by funext y; simp [polyAt]
    rw [this]
    refine (hasFDerivAt_const a z).congr_fderiv ?_
    ext <;> simp [lin, polyAt, pderiv_C]
  | add q r hq hr =>
    have : polyAt (q + r) = fun y => polyAt q y + polyAt r y := by funext y; simp [polyAt]
    rw [this]
    refine (hq.add hr).congr_fderiv ?_
    ext <;> simp [lin, polyAt]
  | mul_X q i hq =>
    have hX : HasFDerivAt (polyAt (X i)) (lin (polyAt (pderiv 0 (X i)) z) (polyAt (pderiv 1 (X i)) z)) z := by
      fin_cases i
      · have : polyAt (X (0 : Fin 2)) = fun y => y.1 := by funext y; simp [polyAt]
        show HasFDerivAt (polyAt (X (0 : Fin 2))) _ z
        rw [this]
        refine hasFDerivAt_fst.congr_fderiv ?_
        ext <;> simp [lin, polyAt, pderiv_X]
      · have : polyAt (X (1 : Fin 2)) = fun y => y.2 := by funext y; simp [polyAt]
        show HasFDerivAt (polyAt (X (1 : Fin 2))) _ z
        rw [this]
        refine hasFDerivAt_snd.congr_fderiv ?_
        ext <;> simp [lin, polyAt, pderiv_X]
    have : polyAt (q * X i) = fun y => polyAt q y * polyAt (X i) y := by funext y; simp [polyAt]
    rw [this]
    refine (hq.mul hX).congr_fderiv ?_
    have h2 : ∀ j, polyAt (pderiv j (q * X i)) z = polyAt q z * polyAt (pderiv j (X i)) z +
        polyAt (X i) z * polyAt (pderiv j q) z := by
      intro j; rw [Derivation.leibniz]; simp only [polyAt, smul_eq_mul, map_add, map_mul]
    rw [h2, h2]
    apply ContinuousLinearMap.ext
    intro y
    simp [lin]
    ring

theorem lin_inj {a b c d : ℝ} (h : lin a b = lin c d) : a = c ∧ b = d := by
  have h1 := congrArg (fun f => f (1, 0)) h
  have h2 := congrArg (fun f => f (0, 1)) h
  simp [lin] at h1 h2
  exact ⟨h1, h2⟩

end Bell
end Tve
