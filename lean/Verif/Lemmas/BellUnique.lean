import Verif.Lemmas.BellPoly
import Verif.Spec.BellUnique

/-! The Bell polynomial exists and is unique; behaviour under affine maps. -/

set_option linter.unusedSimpArgs false
set_option linter.unnecessarySeqFocus false
namespace Tve
open MvPolynomial

namespace Bell
variable {P : Fin 3 → ℝ × ℝ} {L : Fin 3 → ℝ} {p : Fin 3 → Fin 6 → ℝ}

/-! ### polynomials after an affine substitution -/

/-- the polynomials substituted for the variables -/
noncomputable def affX (A : Matrix (Fin 2) (Fin 2) ℝ) (c : ℝ × ℝ) (i : Fin 2) : MvPolynomial (Fin 2) ℝ :=
  C (A i 0) * X 0 + C (A i 1) * X 1 + C (![c.1, c.2] i)

/-- `q ∘ affine A c` -/
noncomputable def pull (A : Matrix (Fin 2) (Fin 2) ℝ) (c : ℝ × ℝ) (q : MvPolynomial (Fin 2) ℝ) : MvPolynomial (Fin 2) ℝ :=
  aeval (affX A c) q

theorem polyAt_pull (A : Matrix (Fin 2) (Fin 2) ℝ) (c : ℝ × ℝ) (q : MvPolynomial (Fin 2) ℝ) (z : ℝ × ℝ) :
    polyAt (pull A c q) z = polyAt q (affine A c z) := by
  induction q using MvPolynomial.induction_on with
  | C a => simp [polyAt, pull]
  | add q r hq hr =>
    simp only [polyAt, pull, map_add] at hq hr ⊢
    rw [hq, hr]
  | mul_X q i hq =>
    simp only [polyAt, pull, map_mul, aeval_X, eval_X] at hq ⊢
    rw [hq]
    congr 1
    fin_cases i <;> simp [affX, affine]

theorem pderiv_pull (A : Matrix (Fin 2) (Fin 2) ℝ) (c : ℝ × ℝ) (q : MvPolynomial (Fin 2) ℝ) (k : Fin 2) :
    pderiv k (pull A c q) = C (A 0 k) * pull A c (pderiv 0 q) + C (A 1 k) * pull A c (pderiv 1 q) := by
  induction q using MvPolynomial.induction_on with
  | C a => simp [pull]
  | add q r hq hr =>
    simp only [pull, map_add] at hq hr ⊢
    rw [hq, hr]; ring
  | mul_X q i hq =>
    have hX : pderiv k (affX A c i) = C (A i k) := by
      fin_cases k <;> simp [affX, Derivation.leibniz, pderiv_X]
    simp only [pull, map_mul, aeval_X, Derivation.leibniz, smul_eq_mul] at hq ⊢
    rw [hq, hX]
    fin_cases i <;> simp [pderiv_X] <;> ring

theorem affX_degree (A : Matrix (Fin 2) (Fin 2) ℝ) (c : ℝ × ℝ) (i : Fin 2) : (affX A c i).totalDegree ≤ 1 := by
  refine (totalDegree_add _ _).trans (max_le ((totalDegree_add _ _).trans (max_le ?_ ?_)) ?_)
  · exact (totalDegree_mul _ _).trans (by simp)
  · exact (totalDegree_mul _ _).trans (by simp)
  · simp

theorem pull_degree (A : Matrix (Fin 2) (Fin 2) ℝ) (c : ℝ × ℝ) (q : MvPolynomial (Fin 2) ℝ) {n : ℕ} (hq : q.totalDegree ≤ n) :
    (pull A c q).totalDegree ≤ n := by
  have e : pull A c q = ∑ s ∈ q.support, C (coeff s q) * (affX A c 0 ^ s 0 * affX A c 1 ^ s 1) := by
    conv_lhs => rw [q.as_sum]
    simp only [pull, map_sum]
    refine Finset.sum_congr rfl fun s _ => ?_
    rw [monomial_eq, Finsupp.prod_fintype _ _ (fun _ => pow_zero _)]
    simp
  rw [e]
  refine totalDegree_finsetSum_le fun s hs => ?_
  have hdeg : s 0 + s 1 ≤ n := by
    have := (le_totalDegree hs).trans hq
    rw [Finsupp.sum_fintype _ _ (fun _ => rfl)] at this
    simpa using this
  refine (totalDegree_mul _ _).trans ?_
  rw [totalDegree_C, zero_add]
  refine (totalDegree_mul _ _).trans ?_
  refine (add_le_add ((totalDegree_pow _ _).trans (Nat.mul_le_mul_left _ (affX_degree A c 0)))
    ((totalDegree_pow _ _).trans (Nat.mul_le_mul_left _ (affX_degree A c 1)))).trans ?_
  omega

/-! ### coefficients -/

/-- the polynomial with coefficients `a` -/
noncomputable def ofCoef (a : Fin 6 → Fin 6 → ℝ) : MvPolynomial (Fin 2) ℝ :=
  ∑ i : Fin 6, ∑ j : Fin 6, C (a i j) * (X 0 ^ (i : ℕ) * X 1 ^ (j : ℕ))

theorem exists_coef (q : MvPolynomial (Fin 2) ℝ) (hq : q.totalDegree ≤ 5) :
    ∃ a : Fin 6 → Fin 6 → ℝ, (∀ i j : Fin 6, 5 < (i : ℕ) + j → a i j = 0) ∧ q = ofCoef a := by
  suffices h : ∀ S : Finset (Fin 2 →₀ ℕ), (∀ s ∈ S, s 0 + s 1 ≤ 5) → ∃ a : Fin 6 → Fin 6 → ℝ,
      (∀ i j : Fin 6, 5 < (i : ℕ) + j → a i j = 0) ∧ ∑ s ∈ S, monomial s (coeff s q) = ofCoef a by
    have := h q.support (fun s hs => by
      have := (le_totalDegree hs).trans hq
      rw [Finsupp.sum_fintype _ _ (fun _ => rfl)] at this
      simpa using this)
    rwa [← q.as_sum] at this
  intro S
  classical
  induction S using Finset.induction_on with
  | empty => intro _; exact ⟨fun _ _ => 0, fun _ _ _ => rfl, by simp [ofCoef]⟩
  | insert s S hs ih =>
    intro hS
    obtain ⟨a, h0, ha⟩ := ih fun t ht => hS t (Finset.mem_insert_of_mem ht)
    have hd := hS s (Finset.mem_insert_self _ _)
    have h1 : s 0 < 6 := by omega
    have h2 : s 1 < 6 := by omega
    refine ⟨fun i j => a i j + if i = ⟨s 0, h1⟩ ∧ j = ⟨s 1, h2⟩ then coeff s q else 0, ?_, ?_⟩
    · intro i j hij
      simp only [h0 i j hij, zero_add]
      rw [if_neg]
      rintro ⟨rfl, rfl⟩
      simp at hij; omega
    · rw [Finset.sum_insert hs, ha]
      simp only [ofCoef, map_add, add_mul, Finset.sum_add_distrib]
      rw [add_comm]
      congr 1
      rw [Finset.sum_eq_single ⟨s 0, h1⟩, Finset.sum_eq_single ⟨s 1, h2⟩]
      · simp only [and_self, if_true]
        rw [monomial_eq, Finsupp.prod_fintype _ _ (fun _ => pow_zero _)]
        simp
      · intro j _ hj; rw [if_neg (by simp [hj])]; simp
      · simp
      · intro i _ hi; exact Finset.sum_eq_zero fun j _ => by rw [if_neg (by simp [hi])]; simp
      · simp

theorem polyAt_ofCoef (a : Fin 6 → Fin 6 → ℝ) (z : ℝ × ℝ) :
    polyAt (ofCoef a) z = ∑ i : Fin 6, ∑ j : Fin 6, a i j * (z.1 ^ (i : ℕ) * z.2 ^ (j : ℕ)) := by
  simp [polyAt, ofCoef]

/-- derivative in the first variable -/
def dx (a : Fin 6 → Fin 6 → ℝ) : Fin 6 → Fin 6 → ℝ := fun i j =>
  if h : (i : ℕ) + 1 < 6 then ((i : ℕ) + 1) * a ⟨i + 1, h⟩ j else 0
/-- derivative in the second variable -/
def dy (a : Fin 6 → Fin 6 → ℝ) : Fin 6 → Fin 6 → ℝ := fun i j =>
  if h : (j : ℕ) + 1 < 6 then ((j : ℕ) + 1) * a i ⟨j + 1, h⟩ else 0

theorem pderiv0_ofCoef (a : Fin 6 → Fin 6 → ℝ) : pderiv 0 (ofCoef a) = ofCoef (dx a) := by
  simp only [ofCoef, map_sum, Derivation.leibniz, Derivation.leibniz_pow, pderiv_X, pderiv_C]
  rw [Finset.sum_comm, Finset.sum_comm (γ := Fin 6) (f := fun i j => C (dx a i j) * (X 0 ^ (i : ℕ) * X 1 ^ (j : ℕ)))]
  refine Finset.sum_congr rfl fun j _ => ?_
  simp [Fin.sum_univ_succ, dx]
  ring

theorem pderiv1_ofCoef (a : Fin 6 → Fin 6 → ℝ) : pderiv 1 (ofCoef a) = ofCoef (dy a) := by
  simp only [ofCoef, map_sum, Derivation.leibniz, Derivation.leibniz_pow, pderiv_X, pderiv_C]
  refine Finset.sum_congr rfl fun j _ => ?_
  simp [Fin.sum_univ_succ, dy]
  ring


/-! ### uniqueness on the reference triangle -/

/-- a cubic function -/
def Cubic (f : ℝ → ℝ) : Prop := ∃ c0 c1 c2 c3 : ℝ, ∀ t, f t = c0 + c1 * t + c2 * t ^ 2 + c3 * t ^ 3

theorem Cubic.of_poly {r : Polynomial ℝ} (hr : r.natDegree ≤ 3) {f : ℝ → ℝ} (hf : ∀ t, f t = r.eval t) : Cubic f := by
  refine ⟨r.coeff 0, r.coeff 1, r.coeff 2, r.coeff 3, fun t => ?_⟩
  rw [hf, Polynomial.eval_eq_sum_range' (n := 4) (by omega)]
  simp [Finset.sum_range_succ]

/-- the fourth difference of a cubic function vanishes -/
theorem Cubic.diff4 {f : ℝ → ℝ} (h : Cubic f) : f 0 - 4 * f 1 + 6 * f 2 - 4 * f 3 + f 4 = 0 := by
  obtain ⟨c0, c1, c2, c3, h⟩ := h
  rw [h, h, h, h, h]; ring

theorem at_x (a : Fin 6 → Fin 6 → ℝ) (s : ℝ) : polyAt (ofCoef a) (s, 0) =
    a 0 0 + a 1 0 * s + a 2 0 * s ^ 2 + a 3 0 * s ^ 3 + a 4 0 * s ^ 4 + a 5 0 * s ^ 5 := by
  rw [polyAt_ofCoef]
  simp only [Fin.sum_univ_six]
  simp

theorem at_y (a : Fin 6 → Fin 6 → ℝ) (t : ℝ) : polyAt (ofCoef a) (0, t) =
    a 0 0 + a 0 1 * t + a 0 2 * t ^ 2 + a 0 3 * t ^ 3 + a 0 4 * t ^ 4 + a 0 5 * t ^ 5 := by
  rw [polyAt_ofCoef]
  simp only [Fin.sum_univ_six]
  simp

theorem at_all (a : Fin 6 → Fin 6 → ℝ) (z : ℝ × ℝ) : polyAt (ofCoef a) z =
    (a 0 0 * (z.1 ^ 0 * z.2 ^ 0) + a 0 1 * (z.1 ^ 0 * z.2 ^ 1) + a 0 2 * (z.1 ^ 0 * z.2 ^ 2) + a 0 3 * (z.1 ^ 0 * z.2 ^ 3) + a 0 4 * (z.1 ^ 0 * z.2 ^ 4) + a 0 5 * (z.1 ^ 0 * z.2 ^ 5)) +
    (a 1 0 * (z.1 ^ 1 * z.2 ^ 0) + a 1 1 * (z.1 ^ 1 * z.2 ^ 1) + a 1 2 * (z.1 ^ 1 * z.2 ^ 2) + a 1 3 * (z.1 ^ 1 * z.2 ^ 3) + a 1 4 * (z.1 ^ 1 * z.2 ^ 4) + a 1 5 * (z.1 ^ 1 * z.2 ^ 5)) +
    (a 2 0 * (z.1 ^ 2 * z.2 ^ 0) + a 2 1 * (z.1 ^ 2 * z.2 ^ 1) + a 2 2 * (z.1 ^ 2 * z.2 ^ 2) + a 2 3 * (z.1 ^ 2 * z.2 ^ 3) + a 2 4 * (z.1 ^ 2 * z.2 ^ 4) + a 2 5 * (z.1 ^ 2 * z.2 ^ 5)) +
    (a 3 0 * (z.1 ^ 3 * z.2 ^ 0) + a 3 1 * (z.1 ^ 3 * z.2 ^ 1) + a 3 2 * (z.1 ^ 3 * z.2 ^ 2) + a 3 3 * (z.1 ^ 3 * z.2 ^ 3) + a 3 4 * (z.1 ^ 3 * z.2 ^ 4) + a 3 5 * (z.1 ^ 3 * z.2 ^ 5)) +
    (a 4 0 * (z.1 ^ 4 * z.2 ^ 0) + a 4 1 * (z.1 ^ 4 * z.2 ^ 1) + a 4 2 * (z.1 ^ 4 * z.2 ^ 2) + a 4 3 * (z.1 ^ 4 * z.2 ^ 3) + a 4 4 * (z.1 ^ 4 * z.2 ^ 4) + a 4 5 * (z.1 ^ 4 * z.2 ^ 5)) +
    (a 5 0 * (z.1 ^ 5 * z.2 ^ 0) + a 5 1 * (z.1 ^ 5 * z.2 ^ 1) + a 5 2 * (z.1 ^ 5 * z.2 ^ 2) + a 5 3 * (z.1 ^ 5 * z.2 ^ 3) + a 5 4 * (z.1 ^ 5 * z.2 ^ 4) + a 5 5 * (z.1 ^ 5 * z.2 ^ 5)) := by
  rw [polyAt_ofCoef]
  simp only [Fin.sum_univ_six]
  rfl

theorem dx_eq (a : Fin 6 → Fin 6 → ℝ) (j : Fin 6) : dx a 0 j = a 1 j ∧ dx a 1 j = 2 * a 2 j ∧ dx a 2 j = 3 * a 3 j ∧
    dx a 3 j = 4 * a 4 j ∧ dx a 4 j = 5 * a 5 j ∧ dx a 5 j = 0 := by
  simp [dx]
  norm_num

theorem dy_eq (a : Fin 6 → Fin 6 → ℝ) (i : Fin 6) : dy a i 0 = a i 1 ∧ dy a i 1 = 2 * a i 2 ∧ dy a i 2 = 3 * a i 3 ∧
    dy a i 3 = 4 * a i 4 ∧ dy a i 4 = 5 * a i 5 ∧ dy a i 5 = 0 := by
  simp [dy]
  norm_num

set_option maxHeartbeats 1000000 in
theorem reference_zero {q : MvPolynomial (Fin 2) ℝ} (hq : q.totalDegree ≤ 5) (h0 : nodal q (0, 0) = 0)
    (h1 : nodal q (1, 0) = 0) (h2 : nodal q (0, 1) = 0) {α α' α'' : ℝ}
    (e0 : Cubic fun s => polyAt (pderiv 1 q) (s, 0) - α * polyAt (pderiv 0 q) (s, 0))
    (e1 : Cubic fun t => polyAt (pderiv 0 q) (0, t) - α' * polyAt (pderiv 1 q) (0, t))
    (e2 : Cubic fun t => polyAt (pderiv 0 q) (1 - t, t) - α'' * (polyAt (pderiv 1 q) (1 - t, t) - polyAt (pderiv 0 q) (1 - t, t))) :
    q = 0 := by
  obtain ⟨a, hz, rfl⟩ := exists_coef q hq
  have z51 := hz 5 1 (by decide)
  have z52 := hz 5 2 (by decide)
  have z42 := hz 4 2 (by decide)
  have z33 := hz 3 3 (by decide)
  have z24 := hz 2 4 (by decide)
  have z25 := hz 2 5 (by decide)
  have z15 := hz 1 5 (by decide)
  have d0 := e0.diff4
  have d1 := e1.diff4
  have g : ∀ {u v w x y z : ℝ}, ![u, v, w, x, y, z] = (0 : Fin 6 → ℝ) → u = 0 ∧ v = 0 ∧ w = 0 ∧ x = 0 ∧ y = 0 ∧ z = 0 := by
    intro u v w x y z h
    exact ⟨congrFun h 0, congrFun h 1, congrFun h 2, congrFun h 3, congrFun h 4, congrFun h 5⟩
  simp only [nodal, pderiv0_ofCoef, pderiv1_ofCoef, at_x, at_y, dx_eq, dy_eq] at h0 h1 h2 d0 d1
  obtain ⟨n00, n01, n02, n03, n04, n05⟩ := g h0
  obtain ⟨n10, n11, n12, n13, n14, n15⟩ := g h1
  obtain ⟨n20, n21, n22, n23, n24, n25⟩ := g h2
  norm_num at n00 n01 n02 n03 n04 n05
  simp only [n00, n01, n02, n03, n04, n05, z51, z52, z42, z33, z24, z25, z15] at n10 n11 n12 n13 n14 n15 n20 n21 n22 n23 n24 n25 d0 d1
  have a30 : a 3 0 = 0 := by linarith
  have a40 : a 4 0 = 0 := by linarith
  have a50 : a 5 0 = 0 := by linarith
  have a03 : a 0 3 = 0 := by linarith
  have a04 : a 0 4 = 0 := by linarith
  have a05 : a 0 5 = 0 := by linarith
  simp only [a30, a40, a50, a03, a04, a05] at n12 n14 n15 n21 n23 n24 d0 d1
  have a41 : a 4 1 = 0 := by linarith
  have a14 : a 1 4 = 0 := by linarith
  have a21 : a 2 1 = 0 := by linarith
  have a31 : a 3 1 = 0 := by linarith
  have a12 : a 1 2 = 0 := by linarith
  have a13 : a 1 3 = 0 := by linarith
  have a32 : a 3 2 = - a 2 2 := by linarith
  have a23 : a 2 3 = - a 2 2 := by linarith
  have e53 := hz 5 3 (by decide)
  have e54 := hz 5 4 (by decide)
  have e55 := hz 5 5 (by decide)
  have e43 := hz 4 3 (by decide)
  have e44 := hz 4 4 (by decide)
  have e45 := hz 4 5 (by decide)
  have e34 := hz 3 4 (by decide)
  have e35 := hz 3 5 (by decide)
  have hq0 : ∀ z, polyAt (ofCoef a) z = a 2 2 * (z.1 ^ 2 * z.2 ^ 2 * (1 - z.1 - z.2)) := by
    intro z
    rw [at_all]
    simp only [n00, n01, n02, n03, n04, n05, a30, a40, a50, a03, a04, a05, a41, a14, a21, a31, a12, a13, a32, a23, z51, z52, z42, z33, z24, z25, z15, e53, e54, e55, e43, e44, e45, e34, e35, zero_mul, mul_zero, add_zero, zero_add]
    ring
  have hqx : ∀ z, polyAt (pderiv 0 (ofCoef a)) z = a 2 2 * (z.2 ^ 2 * (2 * z.1 * (1 - z.1 - z.2) - z.1 ^ 2)) := by
    intro z
    rw [pderiv0_ofCoef, at_all]
    simp only [dx_eq]
    simp only [n00, n01, n02, n03, n04, n05, a30, a40, a50, a03, a04, a05, a41, a14, a21, a31, a12, a13, a32, a23, z51, z52, z42, z33, z24, z25, z15, e53, e54, e55, e43, e44, e45, e34, e35, zero_mul, mul_zero, add_zero, zero_add]
    ring
  have hqy : ∀ z, polyAt (pderiv 1 (ofCoef a)) z = a 2 2 * (z.1 ^ 2 * (2 * z.2 * (1 - z.1 - z.2) - z.2 ^ 2)) := by
    intro z
    rw [pderiv1_ofCoef, at_all]
    simp only [dy_eq]
    simp only [n00, n01, n02, n03, n04, n05, a30, a40, a50, a03, a04, a05, a41, a14, a21, a31, a12, a13, a32, a23, z51, z52, z42, z33, z24, z25, z15, e53, e54, e55, e43, e44, e45, e34, e35, zero_mul, mul_zero, add_zero, zero_add]
    ring
  have d2 := e2.diff4
  simp only [hqx, hqy] at d2
  have a22 : a 2 2 = 0 := by norm_num at d2; linarith
  apply MvPolynomial.funext
  intro x
  have hx : ![x 0, x 1] = x := by funext i; fin_cases i <;> rfl
  have := hq0 (x 0, x 1)
  rw [a22, zero_mul, polyAt] at this
  simp only [hx] at this
  rw [this, map_zero]


/-! ### uniqueness on every triangle -/

theorem Cubic.mul {f : ℝ → ℝ} (h : Cubic f) (β : ℝ) : Cubic fun t => β * f t := by
  obtain ⟨c0, c1, c2, c3, h⟩ := h
  exact ⟨β * c0, β * c1, β * c2, β * c3, fun t => by simp only [h]; ring⟩

theorem Cubic.congr {f g : ℝ → ℝ} (h : Cubic f) (hg : ∀ t, g t = f t) : Cubic g := by
  obtain ⟨c0, c1, c2, c3, h⟩ := h
  exact ⟨c0, c1, c2, c3, fun t => by rw [hg, h]⟩

/-- decomposition of a direction into a tangential and a normal part -/
theorem frame {x y : ℝ} (h : x ^ 2 + y ^ 2 ≠ 0) (w1 w2 g1 g2 : ℝ) :
    w1 * g1 + w2 * g2 - (w1 * x + w2 * y) / (x ^ 2 + y ^ 2) * (x * g1 + y * g2) =
      (w2 * x - w1 * y) / (x ^ 2 + y ^ 2) * (-y * g1 + x * g2) := by
  field_simp
  ring

theorem polyAt_sub (q r : MvPolynomial (Fin 2) ℝ) (z : ℝ × ℝ) : polyAt (q - r) z = polyAt q z - polyAt r z := by
  simp [polyAt]

theorem pderiv10 (q : MvPolynomial (Fin 2) ℝ) : pderiv 1 (pderiv 0 q) = pderiv 0 (pderiv 1 q) := by
  induction q using MvPolynomial.induction_on with
  | C a => simp
  | add q r hq hr => simp only [map_add, hq, hr]
  | mul_X q i hq =>
    simp only [Derivation.leibniz, smul_eq_mul, map_add, hq]
    fin_cases i <;> simp [pderiv_X] <;> ring

theorem IsBell.sub {p' : Fin 3 → Fin 6 → ℝ} {q q' : MvPolynomial (Fin 2) ℝ} (h : IsBell P p q) (h' : IsBell P p' q') :
    IsBell P (p - p') (q - q') := by
  refine ⟨(totalDegree_sub _ _).trans (max_le h.degree h'.degree), fun m => ?_, fun i j => ?_⟩
  · have e : q - q' = q + (-1 : ℝ) • q' := by simp [sub_eq_add_neg]
    rw [e, nodal_add, nodal_smul, h.vertices, h'.vertices]
    simp [sub_eq_add_neg]
  · obtain ⟨r, hr, hr'⟩ := h.edges i j
    obtain ⟨s, hs, hs'⟩ := h'.edges i j
    refine ⟨r - s, (Polynomial.natDegree_sub_le _ _).trans (max_le hr hs), fun t => ?_⟩
    rw [Polynomial.eval_sub, ← hr', ← hs']
    simp only [normalDerivative, map_sub, polyAt_sub]
    ring

theorem IsBell.zero (h : Nondegenerate P) {q : MvPolynomial (Fin 2) ℝ} (hq : IsBell P 0 q) : q = 0 := by
  let A : Matrix (Fin 2) (Fin 2) ℝ := !![(P 1).1 - (P 0).1, (P 2).1 - (P 0).1; (P 1).2 - (P 0).2, (P 2).2 - (P 0).2]
  have hA0 : ∀ s, affine A (P 0) (s, 0) = P 0 + s • (P 1 - P 0) := by
    intro s; ext <;> simp [affine, A] <;> ring
  have hA1 : ∀ t, affine A (P 0) (0, t) = P 0 + t • (P 2 - P 0) := by
    intro s; ext <;> simp [affine, A] <;> ring
  have hA2 : ∀ t, affine A (P 0) (1 - t, t) = P 1 + t • (P 2 - P 1) := by
    intro s; ext <;> simp [affine, A] <;> ring
  have hd : ∀ k z, polyAt (pderiv k (pull A (P 0) q)) z =
      A 0 k * polyAt (pderiv 0 q) (affine A (P 0) z) + A 1 k * polyAt (pderiv 1 q) (affine A (P 0) z) := by
    intro k z
    rw [← polyAt_pull, ← polyAt_pull, pderiv_pull]
    simp [polyAt]
  have hn : ∀ m z, affine A (P 0) z = P m → nodal (pull A (P 0) q) z = 0 := by
    intro m z hz
    have hv := hq.vertices m
    have h0 : polyAt q (P m) = 0 := congrFun hv 0
    have h1 : polyAt (pderiv 0 q) (P m) = 0 := congrFun hv 1
    have h2 : polyAt (pderiv 1 q) (P m) = 0 := congrFun hv 2
    have h3 : polyAt (pderiv 0 (pderiv 0 q)) (P m) = 0 := congrFun hv 3
    have h4 : polyAt (pderiv 0 (pderiv 1 q)) (P m) = 0 := congrFun hv 4
    have h5 : polyAt (pderiv 1 (pderiv 1 q)) (P m) = 0 := congrFun hv 5
    have h4' : polyAt (pderiv 1 (pderiv 0 q)) (P m) = 0 := by rw [pderiv10]; exact h4
    have hdd : ∀ k l, polyAt (pderiv k (pderiv l (pull A (P 0) q))) z = 0 := by
      intro k l
      rw [pderiv_pull]
      have : ∀ a b : ℝ, ∀ u v : MvPolynomial (Fin 2) ℝ, polyAt (pderiv k (C a * pull A (P 0) u + C b * pull A (P 0) v)) z =
          a * polyAt (pderiv k (pull A (P 0) u)) z + b * polyAt (pderiv k (pull A (P 0) v)) z := by
        intro a b u v; simp [polyAt, Derivation.leibniz]
      rw [this, pderiv_pull, pderiv_pull]
      have : ∀ a b : ℝ, ∀ u v : MvPolynomial (Fin 2) ℝ, polyAt (C a * pull A (P 0) u + C b * pull A (P 0) v) z =
          a * polyAt u (P m) + b * polyAt v (P m) := by
        intro a b u v; rw [← hz, ← polyAt_pull, ← polyAt_pull]; simp [polyAt]
      rw [this, this, h3, h4, h4', h5]; ring
    funext k
    fin_cases k
    · simpa [nodal, polyAt_pull, hz] using h0
    · simp [nodal, hd, hz, h1, h2]
    · simp [nodal, hd, hz, h1, h2]
    · exact hdd 0 0
    · exact hdd 0 1
    · exact hdd 1 1
  have hnorm : ∀ x y : ℝ × ℝ, x ≠ y → (y.1 - x.1) ^ 2 + (y.2 - x.2) ^ 2 ≠ 0 := by
    intro x y hxy h0
    apply hxy
    ext <;> nlinarith [sq_nonneg (y.1 - x.1), sq_nonneg (y.2 - x.2)]
  have hne : ∀ i j, i ≠ j → P i ≠ P j := by
    intro i j hij h'
    apply h
    fin_cases i <;> fin_cases j <;> simp at hij <;> simp at h' <;> simp [cross, h'] <;> ring
  have hcub : ∀ i j, Cubic (normalDerivative q (P i) (P j)) := by
    intro i j
    obtain ⟨r, hr, hr'⟩ := hq.edges i j
    exact .of_poly hr hr'
  have key : ∀ i j, i ≠ j → ∀ w1 w2 : ℝ, Cubic fun t =>
      w1 * polyAt (pderiv 0 q) (P i + t • (P j - P i)) + w2 * polyAt (pderiv 1 q) (P i + t • (P j - P i)) -
      (w1 * ((P j).1 - (P i).1) + w2 * ((P j).2 - (P i).2)) / (((P j).1 - (P i).1) ^ 2 + ((P j).2 - (P i).2) ^ 2) *
      (((P j).1 - (P i).1) * polyAt (pderiv 0 q) (P i + t • (P j - P i)) +
        ((P j).2 - (P i).2) * polyAt (pderiv 1 q) (P i + t • (P j - P i))) := by
    intro i j hij w1 w2
    refine ((hcub i j).mul ((w2 * ((P j).1 - (P i).1) - w1 * ((P j).2 - (P i).2)) /
      (((P j).1 - (P i).1) ^ 2 + ((P j).2 - (P i).2) ^ 2))).congr fun t => ?_
    rw [frame (hnorm _ _ (hne i j hij)), normalDerivative, neg_sub]
  have hzero : pull A (P 0) q = 0 := by
    refine reference_zero (pull_degree _ _ _ hq.degree) (hn 0 _ ?_) (hn 1 _ ?_) (hn 2 _ ?_)
      ((key 0 1 (by decide) ((P 2).1 - (P 0).1) ((P 2).2 - (P 0).2)).congr fun s => ?_)
      ((key 0 2 (by decide) ((P 1).1 - (P 0).1) ((P 1).2 - (P 0).2)).congr fun s => ?_)
      (α := ((((P 2).1 - (P 0).1) * ((P 1).1 - (P 0).1) + ((P 2).2 - (P 0).2) * ((P 1).2 - (P 0).2)) /
        (((P 1).1 - (P 0).1) ^ 2 + ((P 1).2 - (P 0).2) ^ 2)))
      (α' := ((((P 1).1 - (P 0).1) * ((P 2).1 - (P 0).1) + ((P 1).2 - (P 0).2) * ((P 2).2 - (P 0).2)) /
        (((P 2).1 - (P 0).1) ^ 2 + ((P 2).2 - (P 0).2) ^ 2)))
      (α'' := ((((P 1).1 - (P 0).1) * ((P 2).1 - (P 1).1) + ((P 1).2 - (P 0).2) * ((P 2).2 - (P 1).2)) /
        (((P 2).1 - (P 1).1) ^ 2 + ((P 2).2 - (P 1).2) ^ 2)))
      ((key 1 2 (by decide) ((P 1).1 - (P 0).1) ((P 1).2 - (P 0).2)).congr fun s => ?_)
    · rw [hA0]; simp
    · rw [hA0]; simp
    · rw [hA1]; simp
    · rw [hd, hd, hA0]; rfl
    · rw [hd, hd, hA1]; rfl
    · rw [hd, hd, hA2]
      simp only [A, Matrix.of_apply, Matrix.cons_val_zero, Matrix.cons_val_one, Matrix.cons_val]
      ring
  apply MvPolynomial.funext
  intro x
  have hx : ![x 0, x 1] = x := by funext i; fin_cases i <;> rfl
  have hz : affine A (P 0) (lam P (x 0, x 1) 1, lam P (x 0, x 1) 2) = (x 0, x 1) := by
    have h1 := pointOf_lam h (x 0, x 1)
    have h2 := lam_sum h (x 0, x 1)
    rw [← h1]
    rw [h1]
    have h3 := congrArg Prod.fst h1
    have h4 := congrArg Prod.snd h1
    simp only [pointOf, baryPoint] at h3 h4
    ext
    · simp only [affine, A]; simp at h3 ⊢; linear_combination h3 - (P 0).1 * h2
    · simp only [affine, A]; simp at h4 ⊢; linear_combination h4 - (P 0).2 * h2
  have := polyAt_pull A (P 0) q (lam P (x 0, x 1) 1, lam P (x 0, x 1) 2)
  rw [hzero, hz, polyAt, polyAt] at this
  simp only [hx] at this
  rw [← this, map_zero, map_zero]

theorem IsBell.unique (h : Nondegenerate P) {q q' : MvPolynomial (Fin 2) ℝ} (hq : IsBell P p q) (hq' : IsBell P p q') :
    q = q' := by
  have := IsBell.sub hq hq'
  rw [sub_self] at this
  exact sub_eq_zero.mp (IsBell.zero h this)

end Bell
end Tve
