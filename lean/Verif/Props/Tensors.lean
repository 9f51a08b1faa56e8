import Verif.Lemmas.Tensors
import Mathlib.LinearAlgebra.Matrix.NonsingularInverse
import Mathlib.Tactic.NormNum
import Mathlib.Tactic.LinearCombination
import Mathlib.Tactic.FinCases

/-!
# Properties C01 – C08: vectors, matrices, 3-d tensors, barycentric coordinates

All theorems hold for every field `K` (C08: linearly ordered; norms: ℝ) and every size.
`vecOf f`, `matOf M`, `tenOf T` are the Python objects with the given entries (`Spec/Tensors.lean`);
`C01_every_vector`, `C07_matrix_accepted`, `C07_tensor_accepted` show that every object the constructors
accept has that form.
-/

namespace Tve

/-! ## C01 vector arithmetic -/

theorem C01_every_vector {K : Type} (v : Vec K) : ∃ (n : ℕ) (f : Fin n → K), v = vecOf f := Vec.exists_eq v

theorem C01_size {K : Type} {n : ℕ} (f : Fin n → K) : (vecOf f).size = n := vecOf_size f

theorem C01_add {K : Type} [Field K] {n : ℕ} (f g : Fin n → K) :
    (vecOf f).add (vecOf g) = .ok (vecOf fun i => f i + g i) := by
  rw [Vec.add, if_neg (by simp)]; simp [vecOf, zipWith_ofFn]

theorem C01_sub {K : Type} [Field K] {n : ℕ} (f g : Fin n → K) :
    (vecOf f).sub (vecOf g) = .ok (vecOf fun i => f i - g i) := by
  rw [Vec.sub, if_neg (by simp)]; simp [vecOf, zipWith_ofFn]

theorem C01_add_size_mismatch {K : Type} [Field K] {m n : ℕ} (f : Fin m → K) (g : Fin n → K) (h : m ≠ n) :
    (vecOf f).add (vecOf g) = .error .valueError ∧ (vecOf f).sub (vecOf g) = .error .valueError := by
  constructor
  · rw [Vec.add, if_pos (by simpa using h)]
  · rw [Vec.sub, if_pos (by simpa using h)]

example : (vecOf ![(1 : ℚ), 2, 3]).sub (vecOf ![4, 5]) = .error .valueError :=
  (C01_add_size_mismatch _ _ (by decide)).2

theorem C01_neg {K : Type} [Field K] {n : ℕ} (f : Fin n → K) : (vecOf f).neg = vecOf fun i => - f i := by
  simp [Vec.neg, vecOf, List.map_ofFn]; rfl

theorem C01_smul {K : Type} [Field K] {n : ℕ} (f : Fin n → K) (s : K) :
    (vecOf f).smul s = vecOf fun i => s * f i := by
  simp only [Vec.smul, vecOf, List.map_ofFn, Function.comp_def, mul_comm]

theorem C01_truediv {K : Type} [Field K] [DecidableEq K] {n : ℕ} (f : Fin n → K) (d : K) (hd : d ≠ 0) :
    (vecOf f).truediv d = .ok (vecOf fun i => f i / d) := by
  rw [Vec.truediv, vecOf, pyMap_ofFn (g := fun i => f i / d) _ (fun i => pyDiv_ok hd)]; rfl

theorem C01_truediv_zero {K : Type} [Field K] [DecidableEq K] {n : ℕ} (f : Fin (n + 1) → K) :
    (vecOf f).truediv 0 = .error .zeroDivision := by
  rw [Vec.truediv, vecOf, List.ofFn_succ, pyMap_cons]
  simp [pyDiv]

example : (vecOf ![(1 : ℚ), 2, 3]).truediv 2 = .ok (vecOf ![1 / 2, 1, 3 / 2]) ∧
    (vecOf ![(1 : ℚ), 2, 3]).truediv 0 = .error .zeroDivision :=
  ⟨by rw [C01_truediv _ _ (by norm_num)]; decide +kernel, C01_truediv_zero _⟩

/-- `dot` has no size check: it is the sum over the common prefix. -/
theorem C01_dot {K : Type} [Field K] {m n : ℕ} (f : Fin m → K) (g : Fin n → K) :
    (vecOf f).dot (vecOf g) =
      ∑ i : Fin (min m n), f (i.castLE (min_le_left m n)) * g (i.castLE (min_le_right m n)) := by
  rw [Vec.dot, ← List.sum_ofFn]
  congr 1
  apply List.ext_getElem
  · simp [vecOf]
  · intro i h1 h2
    simp [vecOf]

/-- vectors of different sizes: the longer one is cut off silently (`zip`) -/
example : (vecOf ![(1 : ℚ), 2, 3]).dot (vecOf ![4, 5, 6]) = 32 ∧ (vecOf ![(1 : ℚ), 2, 3]).dot (vecOf ![4, 5]) = 14 := by
  rw [C01_dot, C01_dot]; decide +kernel

theorem C01_normsqr {K : Type} [Field K] {n : ℕ} (f : Fin n → K) :
    (vecOf f).normsqr = ∑ i, f i ^ 2 ∧ (vecOf f).normsqr = (vecOf f).dot (vecOf f) := by
  constructor
  · simp [Vec.normsqr, vecOf, List.map_ofFn, List.sum_ofFn, sq]
  · simp only [Vec.normsqr, Vec.dot, vecOf, zipWith_ofFn, List.map_ofFn]; rfl

theorem C01_norm {n : ℕ} (f : Fin n → ℝ) :
    (vecOf f).norm ^ 2 = (vecOf f).normsqr ∧ 0 ≤ (vecOf f).norm := by
  rw [Vec.norm]
  refine ⟨Real.sq_sqrt ?_, Real.sqrt_nonneg _⟩
  rw [(C01_normsqr f).1]
  exact Finset.sum_nonneg (fun i _ => sq_nonneg _)

example : (vecOf ![(3 : ℝ), 4]).norm = 5 := by
  obtain ⟨h1, h2⟩ := C01_norm ![3, 4]
  rw [(C01_normsqr _).1, Fin.sum_univ_two] at h1
  norm_num at h1
  nlinarith

/-- concrete instance: `(1,2,3) + (4,5,6)` -/
example : (vecOf ![(1 : ℚ), 2, 3]).add (vecOf ![4, 5, 6]) = .ok (vecOf ![5, 7, 9]) := by
  rw [C01_add]
  congr 2
  funext i; fin_cases i <;> simp <;> norm_num

/-! ## C02 indexing -/

/-- `v[i]` returns entry `i` for `0 ≤ i < size` and raises `IndexError` for every other integer. -/
theorem C02_vector {K : Type} {n : ℕ} (f : Fin n → K) (i : ℤ) :
    (vecOf f).getItem i =
      if h : 0 ≤ i ∧ i < n then .ok (f ⟨i.toNat, by omega⟩) else .error .indexError := by
  by_cases h : 0 ≤ i ∧ i < n
  · rw [dif_pos h]
    have := getItem_vecOf f ⟨i.toNat, by omega⟩
    rw [← this]
    congr 1
    simp [h.1]
  · rw [dif_neg h, Vec.getItem, if_pos]
    simp only [vecOf_size]; omega

theorem C02_matrix {K : Type} {r c : ℕ} (M : Matrix (Fin (r + 1)) (Fin c) K) (i j : ℤ) :
    (matOf M).getItem i j =
      if h : (0 ≤ i ∧ i < (r + 1 : ℕ)) ∧ (0 ≤ j ∧ j < c)
      then .ok (M ⟨i.toNat, by omega⟩ ⟨j.toNat, by omega⟩) else .error .indexError := by
  rw [Mat.getItem]
  by_cases hi : 0 ≤ i ∧ i < (r + 1 : ℕ)
  · rw [if_neg (by simp only [matOf_rows]; omega)]
    by_cases hj : 0 ≤ j ∧ j < c
    · rw [if_neg (by simp only [matOf_cols]; omega), dif_pos ⟨hi, hj⟩]
      obtain ⟨i, rfl⟩ := Int.eq_ofNat_of_zero_le hi.1
      obtain ⟨j, rfl⟩ := Int.eq_ofNat_of_zero_le hj.1
      have := matOf_at M ⟨i, by omega⟩ ⟨j, by omega⟩
      rw [Mat.at'] at this
      simp only [pyIdx_natCast]
      exact this
    · rw [if_pos (by simp only [matOf_cols]; omega), dif_neg (fun h => hj h.2)]
  · rw [if_pos (by simp only [matOf_rows]; omega), dif_neg (fun h => hi h.1)]

/-- The full claim for `Tensor3D`: in-range indices give the entry, all others raise `IndexError`. -/
def C02_tensor_claim : Prop :=
  ∀ (K : Type) (a b c : ℕ) (T : Fin (a + 1) → Fin (b + 1) → Fin c → K) (i j k : ℤ),
    (tenOf T).getItem i j k =
      if h : (0 ≤ i ∧ i < (a + 1 : ℕ)) ∧ (0 ≤ j ∧ j < (b + 1 : ℕ)) ∧ (0 ≤ k ∧ k < c)
      then .ok (T ⟨i.toNat, by omega⟩ ⟨j.toNat, by omega⟩ ⟨k.toNat, by omega⟩) else .error .indexError

/-- The claim is false of the code: `T[0, -1, 0]` is accepted (the guards of axes 1 and 2 test `i`). -/
theorem C02_tensor_claim_false : ¬ C02_tensor_claim := by
  intro h
  have := h ℕ 0 0 1 (fun _ _ _ => 7) 0 (-1) 0
  simp [tenOf, Ten3.getItem, Ten3.shape, pyIdx, pyGet] at this

/-- What does hold: in-range access is right, the first index is checked, and the other two are rejected when too
large; missing: rejection of negative second and third indices. -/
theorem C02_tensor_partial {K : Type} {a b c : ℕ} (T : Fin (a + 1) → Fin (b + 1) → Fin c → K) (i j k : ℤ)
    (hj0 : 0 ≤ j) (hk0 : 0 ≤ k) :
    (tenOf T).getItem i j k =
      if h : (0 ≤ i ∧ i < (a + 1 : ℕ)) ∧ (0 ≤ j ∧ j < (b + 1 : ℕ)) ∧ (0 ≤ k ∧ k < c)
      then .ok (T ⟨i.toNat, by omega⟩ ⟨j.toNat, by omega⟩ ⟨k.toNat, by omega⟩) else .error .indexError := by
  have hs : (tenOf T).shape.1 = a + 1 := by simp [tenOf, Ten3.shape]
  rw [Ten3.getItem, hs]
  obtain ⟨j, rfl⟩ := Int.eq_ofNat_of_zero_le hj0
  obtain ⟨k, rfl⟩ := Int.eq_ofNat_of_zero_le hk0
  by_cases hi : 0 ≤ i ∧ i < (a + 1 : ℕ)
  · rw [if_neg (by omega), if_neg (by omega), if_neg (by omega)]
    obtain ⟨i, rfl⟩ := Int.eq_ofNat_of_zero_le hi.1
    have hi' : i < a + 1 := by omega
    simp only [pyIdx_natCast, tenOf]
    rw [pyGet_ok (by simpa using hi'), bind_ok, List.getElem_ofFn]
    by_cases hj : j < b + 1
    · rw [pyGet_ok (by simpa using hj), bind_ok, List.getElem_ofFn]
      by_cases hk : k < c
      · rw [pyGet_ok (by simpa using hk), List.getElem_ofFn, dif_pos (by omega)]; rfl
      · rw [pyGet_err (by simpa using hk), dif_neg (by omega)]
    · rw [pyGet_err (by simpa using hj), bind_err, dif_neg (by omega)]
  · rw [if_pos (by omega), dif_neg (fun h => hi h.1)]

example : (tenOf ![![![(1 : ℚ), 2], ![3, 4]], ![![5, 6], ![7, 8]]]).getItem 1 0 1 = .ok 6 ∧
    (tenOf ![![![(1 : ℚ), 2], ![3, 4]], ![![5, 6], ![7, 8]]]).getItem 1 2 1 = .error .indexError :=
  ⟨by rw [C02_tensor_partial _ _ _ _ (by decide) (by decide)]; decide +kernel,
   by rw [C02_tensor_partial _ _ _ _ (by decide) (by decide)]; decide +kernel⟩

/-- Barycentric coordinates are indexed the same way. -/
theorem C02_bary {K : Type} (b : Bary K) (i : ℤ) :
    b.getItem i = if i = 0 then .ok b.l1 else if i = 1 then .ok b.l2 else if i = 2 then .ok b.l3
      else .error .indexError := by
  rw [Bary.getItem]
  by_cases h : i < 0 ∨ i ≥ 3
  · rw [if_pos h, if_neg (by omega), if_neg (by omega), if_neg (by omega)]
  · rw [if_neg h]
    have : i = 0 ∨ i = 1 ∨ i = 2 := by omega
    rcases this with rfl | rfl | rfl <;> simp [pyIdx, pyGet]

example : (Bary.new (1 / 4) (1 / 4) : Bary ℚ).getItem 2 = .ok (1 / 2) ∧
    (Bary.new (1 / 4) (1 / 4) : Bary ℚ).getItem 3 = .error .indexError := by
  rw [C02_bary, C02_bary]; decide +kernel

example : (matOf !![(1 : ℚ), 2; 3, 4]).getItem 1 0 = .ok 3 ∧
    (matOf !![(1 : ℚ), 2; 3, 4]).getItem 1 (-1) = .error .indexError := by
  constructor
  · rw [C02_matrix]; simp
  · rw [C02_matrix]; simp

/-! ## C03 matrix product -/

theorem C03_matmul {K : Type} [Field K] {r c d : ℕ} (M : Matrix (Fin (r + 1)) (Fin (c + 1)) K)
    (N : Matrix (Fin (c + 1)) (Fin d) K) :
    (matOf M).matmul (matOf N) = .ok (matOf (Matrix.of fun i j => ∑ k, M i k * N k j)) := by
  rw [matmul_matOf]; rfl

theorem C03_matmul_mismatch {K : Type} [Field K] {r c c' d : ℕ} (M : Matrix (Fin (r + 1)) (Fin c) K)
    (N : Matrix (Fin (c' + 1)) (Fin d) K) (h : c ≠ c' + 1) :
    (matOf M).matmul (matOf N) = .error .valueError := by
  rw [Mat.matmul, if_pos (by simpa using h)]

example : (matOf !![(1 : ℚ), 2; 3, 4]).matmul (matOf !![1, 2; 3, 4; 5, 6]) = .error .valueError :=
  C03_matmul_mismatch _ _ (by decide)

/-- associativity, as Python expressions: `(A @ B) @ C == A @ (B @ C)` -/
theorem C03_assoc {K : Type} [Field K] {r c d e : ℕ} (A : Matrix (Fin (r + 1)) (Fin (c + 1)) K)
    (B : Matrix (Fin (c + 1)) (Fin (d + 1)) K) (C : Matrix (Fin (d + 1)) (Fin e) K) :
    ∃ P, ((matOf A).matmul (matOf B) >>= fun X => X.matmul (matOf C)) = .ok P ∧
      ((matOf B).matmul (matOf C) >>= fun X => (matOf A).matmul X) = .ok P :=
  ⟨matOf (A * B * C), by rw [matmul_matOf, bind_ok, matmul_matOf],
    by rw [matmul_matOf, bind_ok, matmul_matOf, Matrix.mul_assoc]⟩

/-- `(A @ B).transpose() == B.transpose() @ A.transpose()` -/
theorem C03_transpose {K : Type} [Field K] {r c d : ℕ} (A : Matrix (Fin (r + 1)) (Fin (c + 1)) K)
    (B : Matrix (Fin (c + 1)) (Fin (d + 1)) K) :
    ∃ P, ((matOf A).matmul (matOf B) >>= fun X => X.transpose) = .ok P ∧
      ((matOf B).transpose >>= fun Bt => (matOf A).transpose >>= fun At => Bt.matmul At) = .ok P :=
  ⟨matOf (A * B).transpose, by rw [matmul_matOf, bind_ok, transpose_matOf],
    by rw [transpose_matOf, bind_ok, transpose_matOf, bind_ok, matmul_matOf, Matrix.transpose_mul]⟩

theorem C03_matvec {K : Type} [Field K] {r c : ℕ} (M : Matrix (Fin (r + 1)) (Fin c) K) (f : Fin c → K) :
    (matOf M).dot (vecOf f) = .ok (vecOf fun i => ∑ j, M i j * f j) := by
  rw [dot_matOf]; rfl

theorem C03_matvec_mismatch {K : Type} [Field K] {r c n : ℕ} (M : Matrix (Fin (r + 1)) (Fin c) K)
    (f : Fin n → K) (h : n ≠ c) : (matOf M).dot (vecOf f) = .error .valueError := by
  rw [Mat.dot, if_pos (by simpa using h)]

example : (matOf !![(1 : ℚ), 2; 3, 4; 5, 6]).dot (vecOf ![1, -1]) = .ok (vecOf ![-1, -1, -1]) ∧
    (matOf !![(1 : ℚ), 2; 3, 4; 5, 6]).dot (vecOf ![1, -1, 0]) = .error .valueError :=
  ⟨by rw [C03_matvec]; decide +kernel, C03_matvec_mismatch _ _ (by decide)⟩

example : (matOf !![(1 : ℚ), 2; 3, 4]).matmul (matOf !![0, 1; 1, 0]) = .ok (matOf !![2, 1; 4, 3]) := by
  rw [matmul_matOf]; congr 2; funext i j; fin_cases i <;> fin_cases j <;> simp [Matrix.mul_apply, Fin.sum_univ_two]

/-! ## C04 determinant -/

/-- `A.det()` is the Leibniz determinant (`Matrix.det` of Mathlib), at every size. -/
theorem C04_det {K : Type} [Field K] {n : ℕ} (M : Matrix (Fin (n + 1)) (Fin (n + 1)) K) :
    (matOf M).det = .ok (∑ σ : Equiv.Perm (Fin (n + 1)), (Equiv.Perm.sign σ : ℤ) * ∏ i, M (σ i) i) := by
  rw [det_matOf, Matrix.det_apply']

theorem C04_det_mul {K : Type} [Field K] {n : ℕ} (M N : Matrix (Fin (n + 1)) (Fin (n + 1)) K) :
    ∃ dM dN dMN, (matOf M).det = .ok dM ∧ (matOf N).det = .ok dN ∧
      ((matOf M).matmul (matOf N) >>= fun P => P.det) = .ok dMN ∧ dMN = dM * dN :=
  ⟨M.det, N.det, (M * N).det, det_matOf M, det_matOf N, by rw [matmul_matOf, bind_ok, det_matOf],
    Matrix.det_mul M N⟩

theorem C04_det_nonsquare {K : Type} [Field K] {r c : ℕ} (M : Matrix (Fin (r + 1)) (Fin c) K) (h : c ≠ r + 1) :
    (matOf M).det = .error .valueError := by
  rw [Mat.det, if_pos (by simpa using h.symm)]

example : (matOf !![(1 : ℚ), 2, 3; 4, 5, 6]).det = .error .valueError := C04_det_nonsquare _ (by decide)

example : (matOf !![(1 : ℚ), 2; 3, 4]).det = .ok (-2) := by
  rw [det_matOf, Matrix.det_fin_two_of]; norm_num

/-! ## C05 inverse -/

theorem inverse2x2_matOf {K : Type} [Field K] [DecidableEq K] (M : Matrix (Fin 2) (Fin 2) K) (h : M.det ≠ 0) :
    inverse2x2 (matOf M) = .ok (matOf !![M 1 1 / M.det, -M 0 1 / M.det; -M 1 0 / M.det, M 0 0 / M.det]) := by
  have hg : ∀ i j : Fin 2, (matOf M).getItem ((i : ℕ) : ℤ) ((j : ℕ) : ℤ) = .ok (M i j) := by
    intro i j; rw [C02_matrix]; simp; omega
  have e0 : (0 : ℤ) = (((0 : Fin 2) : ℕ) : ℤ) := rfl
  have e1 : (1 : ℤ) = (((1 : Fin 2) : ℕ) : ℤ) := rfl
  rw [inverse2x2, if_neg (by simp)]
  rw [e0, e1, hg, hg, hg, hg, det_matOf]
  have : Mat.new [[M 1 1, -M 0 1], [-M 1 0, M 0 0]] = .ok (matOf !![M 1 1, -M 0 1; -M 1 0, M 0 0]) := by
    simp [Mat.new, matOf]
  simp only [bind_ok, this]
  rw [truediv_matOf _ h]
  congr 2
  funext i j
  fin_cases i <;> fin_cases j <;> rfl

/-- For a 2×2 matrix with nonzero determinant, `inverse_2x2` succeeds and its result is a two-sided inverse
(products taken with the code's own `@`). -/
theorem C05_inverse {K : Type} [Field K] [DecidableEq K] (M : Matrix (Fin 2) (Fin 2) K)
    (h : (matOf M).det ≠ .ok 0) :
    ∃ B, inverse2x2 (matOf M) = .ok B ∧ (matOf M).matmul B = .ok (matOf !![1, 0; 0, 1]) ∧
      B.matmul (matOf M) = .ok (matOf !![1, 0; 0, 1]) := by
  have h' : M.det ≠ 0 := fun e => h (by rw [det_matOf, e])
  refine ⟨_, inverse2x2_matOf M h', ?_, ?_⟩
  all_goals
    refine (matmul_matOf (r := 1) (c := 1) (d := 2) _ _).trans ?_
    congr 2
    have hd := Matrix.det_fin_two M
    generalize M.det = D at *
    generalize hh : D⁻¹ = E
    have hE : E * (M 0 0 * M 1 1 - M 0 1 * M 1 0) = 1 := by rw [← hd, ← hh]; field_simp
    funext i j
    fin_cases i <;> fin_cases j <;>
      simp only [Matrix.mul_apply, Fin.sum_univ_two, div_eq_mul_inv, hh, Matrix.of_apply, Matrix.cons_val',
        Matrix.cons_val_zero, Matrix.cons_val_one, Matrix.cons_val_fin_one, Fin.zero_eta, Fin.mk_one] <;>
      first | linear_combination hE | ring

theorem C05_singular {K : Type} [Field K] [DecidableEq K] (M : Matrix (Fin 2) (Fin 2) K)
    (h : (matOf M).det = .ok 0) : inverse2x2 (matOf M) = .error .zeroDivision := by
  have hg : ∀ i j : Fin 2, (matOf M).getItem ((i : ℕ) : ℤ) ((j : ℕ) : ℤ) = .ok (M i j) := by
    intro i j; rw [C02_matrix]; simp; omega
  have e0 : (0 : ℤ) = (((0 : Fin 2) : ℕ) : ℤ) := rfl
  have e1 : (1 : ℤ) = (((1 : Fin 2) : ℕ) : ℤ) := rfl
  rw [inverse2x2, if_neg (by simp)]
  rw [e0, e1, hg, hg, hg, hg, h]
  simp [Mat.new, Mat.truediv, pyMap_cons, pyDiv]

theorem C05_shape {K : Type} [Field K] [DecidableEq K] {r c : ℕ} (M : Matrix (Fin (r + 1)) (Fin c) K)
    (h : (r + 1, c) ≠ (2, 2)) : inverse2x2 (matOf M) = .error .valueError := by
  rw [inverse2x2, if_pos (by rw [matOf_shape]; exact h)]

example : inverse2x2 (matOf !![(1 : ℚ), 2; 3, 4]) = .ok (matOf !![-2, 1; 3 / 2, -1 / 2]) ∧
    inverse2x2 (matOf !![(1 : ℚ), 2; 2, 4]) = .error .zeroDivision ∧
    inverse2x2 (matOf !![(1 : ℚ), 2, 3; 4, 5, 6; 7, 8, 9]) = .error .valueError :=
  ⟨by decide +kernel, C05_singular _ (by rw [det_matOf, Matrix.det_fin_two_of]; norm_num), C05_shape _ (by decide)⟩

example : (matOf !![(1 : ℚ), 2; 3, 4]).det ≠ .ok 0 := by
  rw [det_matOf, Matrix.det_fin_two_of]; norm_num

/-! ## C06 reshape and flatten -/

theorem reshape_vecOf {K : Type} {m n : ℕ} (f : Fin ((m + 1) * n) → K) :
    (vecOf f).reshape (m + 1) n = .ok (matOf fun (i : Fin (m + 1)) (j : Fin n) => f (finProdFinEquiv (i, j))) := by
  rw [Vec.reshape, if_neg (by simp)]
  rw [pyMap_range_ofFn (fun i : Fin (m + 1) => List.ofFn fun j : Fin n => f (finProdFinEquiv (i, j)))]
  · rw [bind_ok]; exact Mat.new_ofFn _
  · intro i
    apply pyMap_range_ofFn
    intro j
    have h := (finProdFinEquiv (i, j)).2
    have e : (finProdFinEquiv (i, j) : ℕ) = i * n + j := by simp [finProdFinEquiv]; ring
    rw [← e, pyGet_ok (by simpa [vecOf] using h)]
    simp only [vecOf, List.getElem_ofFn]

/-- Entry `(i, j)` of `v.reshape(m, n)` is `v[i * n + j]`. -/
theorem C06_reshape {K : Type} {m n : ℕ} (f : Fin ((m + 1) * n) → K) :
    (vecOf f).reshape (m + 1) n = .ok (matOf fun (i : Fin (m + 1)) (j : Fin n) =>
      f ⟨i * n + j, by
        have h1 := i.2; have h2 := j.2
        calc (i : ℕ) * n + j < i * n + n := by omega
          _ = (i + 1) * n := by ring
          _ ≤ (m + 1) * n := Nat.mul_le_mul_right _ (by omega)⟩) := by
  rw [reshape_vecOf]
  congr 2
  funext i j
  congr 1
  apply Fin.ext
  simp [finProdFinEquiv]; ring

theorem C06_reshape_mismatch {K : Type} (v : Vec K) (m n : ℕ) (h : v.size ≠ m * n) :
    v.reshape m n = .error .valueError := by
  rw [Vec.reshape, if_pos h]

example : (⟨[1, 2, 3, 4, 5]⟩ : Vec ℚ).reshape 2 3 = .error .valueError := C06_reshape_mismatch _ _ _ (by decide)

theorem flatten_ofFn {K : Type} {m n : ℕ} (M : Fin m → Fin n → K) :
    (List.ofFn fun i => List.ofFn fun j => M i j).flatten =
      List.ofFn fun k : Fin (m * n) => M (finProdFinEquiv.symm k).1 (finProdFinEquiv.symm k).2 := by
  rw [List.ofFn_mul]
  congr 1
  congr 1
  funext i
  congr 1
  funext j
  have : (⟨(i : ℕ) * n + j, by
      have h1 := i.2; have h2 := j.2
      calc (i : ℕ) * n + j < i * n + n := by omega
        _ = (i + 1) * n := by ring
        _ ≤ m * n := Nat.mul_le_mul_right _ (by omega)⟩ : Fin (m * n)) = finProdFinEquiv (i, j) := by
    apply Fin.ext; simp [finProdFinEquiv]; ring
  rw [this, Equiv.symm_apply_apply]

/-- `v.reshape(m, n).flatten() == v` -/
theorem C06_flatten_reshape {K : Type} (v : Vec K) (m n : ℕ) (A : Mat K) (h : v.reshape m n = .ok A) :
    A.flatten = v ∧ A.shape = (m, n) := by
  by_cases hs : v.size = m * n
  · cases m with
    | zero => rw [Vec.reshape, if_neg (by simpa using hs)] at h; simp [Mat.new] at h
    | succ m =>
      obtain ⟨k, f, rfl⟩ := Vec.exists_eq v
      rw [vecOf_size] at hs
      subst hs
      rw [reshape_vecOf] at h
      simp only [Except.ok.injEq] at h
      subst h
      refine ⟨?_, matOf_shape _⟩
      simp only [Mat.flatten, matOf, vecOf, Vec.mk.injEq]
      rw [flatten_ofFn]
      simp only [Prod.mk.eta, Equiv.apply_symm_apply]
  · rw [C06_reshape_mismatch v m n hs] at h; simp at h

/-- `A.flatten().reshape(*A.shape) == A` for every matrix -/
theorem C06_reshape_flatten {K : Type} {r c : ℕ} (M : Matrix (Fin (r + 1)) (Fin c) K) :
    (matOf M).flatten.reshape (matOf M).shape.1 (matOf M).shape.2 = .ok (matOf M) := by
  have : (matOf M).flatten = vecOf fun k : Fin ((r + 1) * c) =>
      M (finProdFinEquiv.symm k).1 (finProdFinEquiv.symm k).2 := by
    simp only [Mat.flatten, matOf, vecOf, Vec.mk.injEq]
    exact flatten_ofFn _
  rw [this, matOf_shape, reshape_vecOf]
  simp

example : (⟨[[1, 2, 3], [4, 5, 6]]⟩ : Mat ℚ).flatten = ⟨[1, 2, 3, 4, 5, 6]⟩ :=
  (C06_flatten_reshape ⟨[1, 2, 3, 4, 5, 6]⟩ 2 3 _ (by decide +kernel)).1

example : (⟨[1, 2, 3, 4, 5, 6]⟩ : Vec ℚ).reshape 2 3 = .ok ⟨[[1, 2, 3], [4, 5, 6]]⟩ := by decide +kernel

/-! ## C07 rectangular objects -/

/-- `Matrix(data)` succeeds exactly on nonempty data with rows of equal length, and is then `matOf` of a matrix. -/
theorem C07_matrix_accepted {K : Type} (d : List (List K)) :
    (∃ A, Mat.new d = .ok A) ↔ d ≠ [] ∧ ∀ r ∈ d, ∀ s ∈ d, r.length = s.length := by
  constructor
  · rintro ⟨A, h⟩
    obtain ⟨r, c, M, rfl⟩ := Mat.exists_of_new h
    have hd : d = (matOf M).data := by
      cases d with
      | nil => simp [Mat.new] at h
      | cons r0 rest =>
        simp only [Mat.new] at h
        split at h
        · simp only [Except.ok.injEq] at h; rw [← h]
        · simp at h
    subst hd
    constructor
    · simp [matOf]
    · have : ∀ x ∈ (matOf M).data, x.length = c := by
        intro x hx; rw [matOf, List.mem_ofFn] at hx; obtain ⟨i, rfl⟩ := hx; simp
      intro r hr s hs; rw [this r hr, this s hs]
  · rintro ⟨h0, h⟩
    cases d with
    | nil => exact absurd rfl h0
    | cons r rest => exact ⟨_, Mat.new_of_rows (c := r.length) h0 (fun s hs => h s hs r (by simp))⟩

theorem C07_matrix_is_matOf {K : Type} {d : List (List K)} {A : Mat K} (h : Mat.new d = .ok A) :
    ∃ (r c : ℕ) (M : Matrix (Fin (r + 1)) (Fin c) K), A = matOf M ∧ A.data = d := by
  obtain ⟨r, c, M, hM⟩ := Mat.exists_of_new h
  refine ⟨r, c, M, hM, ?_⟩
  cases d with
  | nil => simp [Mat.new] at h
  | cons r0 rest =>
    simp only [Mat.new] at h
    split at h
    · simp only [Except.ok.injEq] at h; rw [← h]
    · simp at h

/-- a nonempty ragged list raises `ValueError`, the empty list `IndexError` -/
theorem C07_matrix_errors {K : Type} (d : List (List K)) :
    (d = [] → Mat.new d = .error .indexError) ∧
    (d ≠ [] → ¬ (∀ r ∈ d, ∀ s ∈ d, r.length = s.length) → Mat.new d = .error .valueError) := by
  constructor
  · rintro rfl; rfl
  · intro h0 h
    cases d with
    | nil => exact absurd rfl h0
    | cons r rest =>
      rw [Mat.new]
      split
      · rename_i hall
        exact absurd ((C07_matrix_accepted (r :: rest)).1 ⟨⟨r :: rest⟩, by simp only [Mat.new, hall, if_true]⟩).2 h
      · rfl

theorem Ten3.new_ok {K : Type} {d : List (List (List K))} {b c : ℕ} (h0 : d ≠ []) (hb : b ≠ 0)
    (h1 : ∀ s ∈ d, s.length = b) (h2 : ∀ s ∈ d, ∀ r ∈ s, r.length = c) : Ten3.new d = .ok ⟨d⟩ := by
  match d, h0 with
  | [] :: t, _ => exact absurd (h1 [] (by simp)) (by simpa using hb.symm)
  | ((r :: rs) :: t), _ =>
    rw [Ten3.new, if_pos]
    rw [List.all_eq_true]
    intro s hs
    have e1 := h1 s hs
    have e2 := h1 (r :: rs) (by simp)
    have e3 := h2 (r :: rs) (by simp) r (by simp)
    simp only [Bool.and_eq_true, beq_iff_eq, List.all_eq_true]
    exact ⟨by rw [e1, e2], fun x hx => by rw [h2 s hs x hx, e3]⟩

/-- `Tensor3D(data)` succeeds exactly when data and its first block are nonempty, all blocks have as many rows as
the first and all rows have equal length; the result stores the data. -/
theorem C07_tensor_accepted {K : Type} (d : List (List (List K))) (T : Ten3 K) :
    Ten3.new d = .ok T ↔ T.data = d ∧ d ≠ [] ∧ ∃ b c, b ≠ 0 ∧ (∀ s ∈ d, s.length = b) ∧
      ∀ s ∈ d, ∀ r ∈ s, r.length = c := by
  constructor
  · intro h
    match d, h with
    | ((r :: rs) :: t), h =>
      rw [Ten3.new] at h
      split at h
      · rename_i hall
        simp only [Except.ok.injEq] at h
        subst h
        rw [List.all_eq_true] at hall
        refine ⟨rfl, by simp, rs.length + 1, r.length, by simp, ?_, ?_⟩
        · intro s hs; have := hall s hs; simp only [Bool.and_eq_true, beq_iff_eq] at this; simpa using this.1
        · intro s hs x hx
          have := hall s hs
          simp only [Bool.and_eq_true, beq_iff_eq, List.all_eq_true] at this
          exact this.2 x hx
      · simp at h
  · rintro ⟨rfl, h0, b, c, hb, h1, h2⟩
    rw [Ten3.new_ok h0 hb h1 h2]

/-- every accepted 3-d tensor is `tenOf` of its entries -/
theorem C07_tensor_is_tenOf {K : Type} {d : List (List (List K))} {T : Ten3 K} (h : Ten3.new d = .ok T) :
    ∃ (a b c : ℕ) (f : Fin (a + 1) → Fin (b + 1) → Fin c → K), T = tenOf f := by
  obtain ⟨hd, h0, b, c, hb, h1, h2⟩ := (C07_tensor_accepted d T).1 h
  subst hd
  obtain ⟨d⟩ := T
  simp only at *
  obtain ⟨b, rfl⟩ := Nat.exists_eq_succ_of_ne_zero hb
  have hl : d.length = (d.length - 1) + 1 := by
    have := List.length_pos_of_ne_nil h0; omega
  have k1 : ∀ i : Fin (d.length - 1 + 1), (i : ℕ) < d.length := fun i => by have := i.2; omega
  have k2 : ∀ (i : Fin (d.length - 1 + 1)) (j : Fin (b + 1)), (j : ℕ) < (d[(i : ℕ)]'(k1 i)).length :=
    fun i j => by rw [h1 _ (List.getElem_mem (k1 i))]; exact j.2
  have k3 : ∀ (i : Fin (d.length - 1 + 1)) (j : Fin (b + 1)) (k : Fin c),
      (k : ℕ) < ((d[(i : ℕ)]'(k1 i))[(j : ℕ)]'(k2 i j)).length :=
    fun i j k => by rw [h2 _ (List.getElem_mem (k1 i)) _ (List.getElem_mem (k2 i j))]; exact k.2
  refine ⟨d.length - 1, b, c, fun i j k => ((d[(i : ℕ)]'(k1 i))[(j : ℕ)]'(k2 i j))[(k : ℕ)]'(k3 i j k), ?_⟩
  rw [tenOf, Ten3.mk.injEq]
  apply List.ext_getElem
  · rw [List.length_ofFn]; exact hl
  · intro i g1 g2
    rw [List.getElem_ofFn]
    apply List.ext_getElem
    · rw [List.length_ofFn, h1 _ (List.getElem_mem _)]
    · intro j g3 g4
      rw [List.getElem_ofFn]
      apply List.ext_getElem
      · rw [List.length_ofFn, h2 _ (List.getElem_mem _) _ (List.getElem_mem _)]
      · intro k g5 g6; rw [List.getElem_ofFn]

example : Ten3.new [[[(1 : ℚ), 2], [3, 4]], [[5, 6], [7, 8]]] = .ok ⟨[[[1, 2], [3, 4]], [[5, 6], [7, 8]]]⟩ :=
  (C07_tensor_accepted _ _).2 ⟨rfl, by decide, 2, 2, by decide, by decide, by decide⟩

theorem Ten3.new_ofFn {K : Type} {a b c : ℕ} (f : Fin (a + 1) → Fin (b + 1) → Fin c → K) :
    Ten3.new (List.ofFn fun i => List.ofFn fun j => List.ofFn fun k => f i j k) = .ok (tenOf f) := by
  apply Ten3.new_ok (b := b + 1) (c := c) (by simp) (by simp)
  · intro s hs; rw [List.mem_ofFn] at hs; obtain ⟨i, rfl⟩ := hs; simp
  · intro s hs r hr
    rw [List.mem_ofFn] at hs; obtain ⟨i, rfl⟩ := hs
    rw [List.mem_ofFn] at hr; obtain ⟨j, rfl⟩ := hr; simp

/-- `Vector.stack` -/
theorem C07_vector_stack {K : Type} {m n : ℕ} (f : Fin m → K) (g : Fin n → K) :
    (∀ h : m = n, (vecOf f).stack (vecOf g) =
      .ok (matOf (Matrix.of ![f, fun i => g (i.cast h)]))) ∧
    (m ≠ n → (vecOf f).stack (vecOf g) = .error .valueError) := by
  constructor
  · intro h
    subst h
    rw [Vec.stack, if_neg (by simp)]
    simp [Mat.new, matOf, vecOf]
  · intro h; rw [Vec.stack, if_pos (by simpa using h)]

example : (vecOf ![(1 : ℚ), 2]).stack (vecOf ![3, 4]) = .ok (matOf !![1, 2; 3, 4]) ∧
    (vecOf ![(1 : ℚ), 2]).stack (vecOf ![3, 4, 5]) = .error .valueError :=
  ⟨(C07_vector_stack _ _).1 rfl, (C07_vector_stack _ _).2 (by decide)⟩

/-- `Matrix.stack` succeeds exactly on matrices of equal shape. -/
theorem C07_matrix_stack {K : Type} {r c r' c' : ℕ} (M : Matrix (Fin (r + 1)) (Fin c) K)
    (N : Matrix (Fin (r' + 1)) (Fin c') K) :
    ((matOf M).shape = (matOf N).shape →
      (matOf M).stack (matOf N) = .ok ⟨[(matOf M).data, (matOf N).data]⟩) ∧
    ((matOf M).shape ≠ (matOf N).shape → (matOf M).stack (matOf N) = .error .valueError) := by
  rw [matOf_shape, matOf_shape]
  constructor
  · intro h
    simp only [Prod.mk.injEq, add_left_inj] at h
    obtain ⟨rfl, rfl⟩ := h
    rw [Mat.stack, if_neg (by simp)]
    apply Ten3.new_ok (b := r + 1) (c := c) (by simp) (by simp)
    · simp [matOf]
    · intro s hs x hx
      simp only [List.mem_cons, List.not_mem_nil, or_false] at hs
      rcases hs with rfl | rfl <;>
      · rw [matOf, List.mem_ofFn] at hx; obtain ⟨i, rfl⟩ := hx; simp
  · intro h
    rw [Mat.stack]
    split
    · rfl
    · rename_i hr
      simp only [matOf_rows, ne_eq, not_not] at hr
      have hc : c ≠ c' := fun e => h (by rw [hr, e])
      obtain rfl : r = r' := by omega
      simp only [matOf, List.ofFn_succ, Ten3.new]
      rw [if_neg]
      simp only [List.all_cons, List.length_cons, List.length_ofFn, Bool.and_eq_true, beq_iff_eq]
      intro hh
      exact hc hh.2.1.2.1.symm

example : (matOf !![(1 : ℚ), 2; 3, 4]).stack (matOf !![5, 6; 7, 8]) = .ok ⟨[[[1, 2], [3, 4]], [[5, 6], [7, 8]]]⟩ ∧
    (matOf !![(1 : ℚ), 2; 3, 4]).stack (matOf !![5, 6]) = .error .valueError :=
  ⟨(C07_matrix_stack _ _).1 (by decide +kernel), (C07_matrix_stack _ _).2 (by decide +kernel)⟩

theorem C07_matrix_add {K : Type} [Field K] {r c : ℕ} (M N : Matrix (Fin (r + 1)) (Fin c) K) :
    (matOf M).add (matOf N) = .ok (matOf (M + N)) ∧ (matOf M).sub (matOf N) = .ok (matOf (M - N)) := by
  constructor
  · rw [Mat.add, if_neg (by simp)]
    have : List.zipWith (fun r s => List.zipWith (fun x y => x + y) r s) (matOf M).data (matOf N).data =
      List.ofFn fun i => List.ofFn fun j => (M + N) i j := by
      simp only [matOf, zipWith_ofFn]; rfl
    rw [this]; exact Mat.new_ofFn _
  · rw [Mat.sub, if_neg (by simp)]
    have : List.zipWith (fun r s => List.zipWith (fun x y => x - y) r s) (matOf M).data (matOf N).data =
      List.ofFn fun i => List.ofFn fun j => (M - N) i j := by
      simp only [matOf, zipWith_ofFn]; rfl
    rw [this]; exact Mat.new_ofFn _

theorem C07_matrix_add_mismatch {K : Type} [Field K] {r c r' c' : ℕ} (M : Matrix (Fin (r + 1)) (Fin c) K)
    (N : Matrix (Fin (r' + 1)) (Fin c') K) (h : (r, c) ≠ (r', c')) :
    (matOf M).add (matOf N) = .error .valueError ∧ (matOf M).sub (matOf N) = .error .valueError ∧
      (matOf M).scalarProduct (matOf N) = .error .valueError := by
  have h' : (matOf M).shape ≠ (matOf N).shape := by
    rw [matOf_shape, matOf_shape]; simpa using h
  exact ⟨by rw [Mat.add, if_pos h'], by rw [Mat.sub, if_pos h'], by rw [Mat.scalarProduct, if_pos h']⟩

example : (matOf !![(1 : ℚ), 2; 3, 4]).add (matOf !![5, 6, 7; 8, 9, 10]) = .error .valueError :=
  (C07_matrix_add_mismatch _ _ (by decide)).1

theorem map_matOf {K : Type} {r c : ℕ} (M : Matrix (Fin (r + 1)) (Fin c) K) (g : K → K) :
    Mat.new ((matOf M).data.map (fun row => row.map g)) = .ok (matOf (M.map g)) := by
  have : (matOf M).data.map (fun row => row.map g) = List.ofFn fun i => List.ofFn fun j => (M.map g) i j := by
    simp only [matOf, List.map_ofFn, Function.comp_def]; rfl
  rw [this]; exact Mat.new_ofFn _

/-- negation, scaling, division, map, transpose of matrices act entrywise and keep the shape -/
theorem C07_matrix_unary {K : Type} [Field K] [DecidableEq K] {r c : ℕ} (M : Matrix (Fin (r + 1)) (Fin (c + 1)) K)
    (s : K) (g : K → K) :
    (matOf M).neg = .ok (matOf (-M)) ∧ (matOf M).smul s = .ok (matOf (s • M)) ∧
    (matOf M).map g = .ok (matOf (M.map g)) ∧ (matOf M).transpose = .ok (matOf M.transpose) ∧
    (s ≠ 0 → (matOf M).truediv s = .ok (matOf (s⁻¹ • M))) ∧
    ((matOf M).truediv 0 = .error .zeroDivision) := by
  refine ⟨map_matOf M _, ?_, map_matOf M _, transpose_matOf M, ?_, ?_⟩
  · rw [Mat.smul, map_matOf]; congr 2; funext i j; simp [Matrix.map, mul_comm]
  · intro hs; rw [truediv_matOf M hs]; congr 2; funext i j; simp; field_simp
  · simp [Mat.truediv, matOf, List.ofFn_succ, pyMap_cons, pyDiv]

example : (matOf !![(1 : ℚ), 2; 3, 4]).truediv 2 = .ok (matOf !![1 / 2, 1; 3 / 2, 2]) ∧
    (matOf !![(1 : ℚ), 2; 3, 4]).transpose = .ok (matOf !![1, 3; 2, 4]) :=
  ⟨by rw [(C07_matrix_unary !![(1 : ℚ), 2; 3, 4] 2 id).2.2.2.2.1 (by norm_num)]; decide +kernel,
   by rw [(C07_matrix_unary !![(1 : ℚ), 2; 3, 4] 2 id).2.2.2.1]; decide +kernel⟩

/-- trace, Frobenius norm and scalar product -/
theorem C07_matrix_scalars {K : Type} [Field K] {r c : ℕ} (M N : Matrix (Fin (r + 1)) (Fin c) K) :
    (matOf M).normsqr = ∑ i, ∑ j, M i j ^ 2 ∧
    (matOf M).scalarProduct (matOf N) = .ok (∑ i, ∑ j, M i j * N i j) := by
  have key : ∀ F : Fin (r + 1) → Fin c → K,
      (List.ofFn fun i => List.ofFn fun j => F i j).flatten.sum = ∑ i, ∑ j, F i j := by
    intro F
    rw [List.sum_flatten, List.map_ofFn, List.sum_ofFn]
    simp [Function.comp, List.sum_ofFn]
  constructor
  · rw [Mat.normsqr, ← key, List.map_flatten]
    simp only [matOf, List.map_ofFn, Function.comp_def]
  · rw [Mat.scalarProduct, if_neg (by simp), ← key]
    simp only [matOf, zipWith_ofFn]

theorem C07_trace {K : Type} [Field K] {n : ℕ} (M : Matrix (Fin (n + 1)) (Fin (n + 1)) K) :
    (matOf M).trace = .ok M.trace := by
  rw [Mat.trace, matOf_rows, matOf_cols, min_self, pyMap_range_ofFn (fun i => M i i) (fun i => matOf_at M i i)]
  simp only [Matrix.trace, Matrix.diag, List.sum_ofFn, bind_ok, pure_eq_ok]

/-- arithmetic of 3-d tensors is entrywise, checked for equal shapes -/
theorem C07_tensor_ops {K : Type} [Field K] {a b c : ℕ} (f g : Fin (a + 1) → Fin (b + 1) → Fin c → K) :
    (tenOf f).add (tenOf g) = .ok (tenOf fun i j k => f i j k + g i j k) ∧
    (tenOf f).sub (tenOf g) = .ok (tenOf fun i j k => f i j k - g i j k) ∧
    (tenOf f).neg = .ok (tenOf fun i j k => - f i j k) ∧
    (tenOf f).normsqr = ∑ i, ∑ j, ∑ k, f i j k ^ 2 := by
  have hs : (tenOf f).shape = (tenOf g).shape := by simp [tenOf, Ten3.shape, List.ofFn_succ]
  refine ⟨?_, ?_, ?_, ?_⟩
  · rw [Ten3.add, if_neg (by simpa using hs)]
    simp only [tenOf, zipWith_ofFn]; exact Ten3.new_ofFn _
  · rw [Ten3.sub, if_neg (by simpa using hs)]
    simp only [tenOf, zipWith_ofFn]; exact Ten3.new_ofFn _
  · rw [Ten3.neg]
    simp only [tenOf, List.map_ofFn, Function.comp_def]; exact Ten3.new_ofFn _
  · rw [Ten3.normsqr, List.map_flatten, List.sum_flatten, List.map_flatten, List.map_flatten, List.sum_flatten]
    simp only [tenOf, List.map_ofFn, Function.comp_def, List.sum_ofFn]

theorem C07_tensor_ops_mismatch {K : Type} [Field K] (T S : Ten3 K) (h : T.shape ≠ S.shape) :
    T.add S = .error .valueError ∧ T.sub S = .error .valueError :=
  ⟨by rw [Ten3.add, if_pos h], by rw [Ten3.sub, if_pos h]⟩

example : (tenOf ![![![(1 : ℚ), 2]], ![![3, 4]]]).add (tenOf ![![![(1 : ℚ), 2], ![3, 4]]]) = .error .valueError :=
  (C07_tensor_ops_mismatch _ _ (by decide +kernel)).1

example : (∃ A, Mat.new [[(1 : ℚ), 2], [3, 4]] = .ok A) ∧
    Mat.new [[(1 : ℚ), 2], [3]] = .error .valueError := by
  constructor
  · exact ⟨_, rfl⟩
  · decide +kernel

/-! ## C08 barycentric coordinates -/

theorem C08_sum {K : Type} [Field K] (a b : K) :
    (Bary.new a b).l1 + (Bary.new a b).l2 + (Bary.new a b).l3 = 1 := by
  simp only [Bary.new]; ring

theorem clamp_mem {K : Type} [LinearOrder K] {lo up x : K} (h : lo ≤ up) :
    lo ≤ Bary.clamp lo up x ∧ Bary.clamp lo up x ≤ up := by
  rw [Bary.clamp]
  split
  · exact ⟨le_rfl, h⟩
  · split
    · exact ⟨h, le_rfl⟩
    · exact ⟨by order, by order⟩

theorem C08_bounds {K : Type} [LinearOrder K] (b : Bary K) (lo up : K) (h : lo ≤ up) :
    (lo ≤ (b.assertBounds lo up).l1 ∧ (b.assertBounds lo up).l1 ≤ up) ∧
    (lo ≤ (b.assertBounds lo up).l2 ∧ (b.assertBounds lo up).l2 ≤ up) ∧
    (lo ≤ (b.assertBounds lo up).l3 ∧ (b.assertBounds lo up).l3 ≤ up) :=
  ⟨clamp_mem h, clamp_mem h, clamp_mem h⟩

theorem C08_unchanged {K : Type} [LinearOrder K] (b : Bary K) (lo up : K)
    (h1 : lo ≤ b.l1 ∧ b.l1 ≤ up) (h2 : lo ≤ b.l2 ∧ b.l2 ≤ up) (h3 : lo ≤ b.l3 ∧ b.l3 ≤ up) :
    b.assertBounds lo up = b := by
  have key : ∀ x, lo ≤ x ∧ x ≤ up → Bary.clamp lo up x = x := by
    intro x hx; rw [Bary.clamp, if_neg (not_lt.2 hx.1), if_neg (not_lt.2 hx.2)]
  simp only [Bary.assertBounds, key _ h1, key _ h2, key _ h3]

/-- Repeating `assert_bounds` with the same bounds changes nothing any more (histories of calls). -/
theorem C08_idempotent {K : Type} [LinearOrder K] (b : Bary K) (lo up : K) (h : lo ≤ up) :
    (b.assertBounds lo up).assertBounds lo up = b.assertBounds lo up :=
  C08_unchanged _ _ _ (clamp_mem h) (clamp_mem h) (clamp_mem h)

/-- all three weights of `(-1/4, 3/2)` lie outside `[0, 1]`; those of `(1/4, 1/4)` are left as they are -/
example : (Bary.new (-1 / 4) (3 / 2) : Bary ℚ).assertBounds 0 1 = ⟨0, 1, 0⟩ ∧
    (Bary.new (1 / 4) (1 / 4) : Bary ℚ).assertBounds 0 1 = ⟨1 / 4, 1 / 4, 1 / 2⟩ :=
  ⟨by decide +kernel, by
    rw [C08_unchanged _ _ _ (by norm_num [Bary.new]) (by norm_num [Bary.new]) (by norm_num [Bary.new])]; decide +kernel⟩

/-- The full claim: `assert_bounds()` keeps the sum equal to one. -/
def C08_sum_kept_claim : Prop :=
  ∀ a b : ℚ, ((Bary.new a b).assertBounds 0 1).l1 + ((Bary.new a b).assertBounds 0 1).l2 +
    ((Bary.new a b).assertBounds 0 1).l3 = 1

/-- It is false of the code: `BarycentricCoordinates(-0.5, 0.5)` becomes `(0, 0.5, 1)`. -/
theorem C08_sum_kept_claim_false : ¬ C08_sum_kept_claim := by
  intro h
  have := h (-1/2) (1/2)
  revert this
  decide +kernel

/-- What holds: the defect of the sum after clamping to `[0,1]` is at most the total amount by which components
were out of range; so the sum is kept for points of the closed triangle. Missing: equality in general. -/
theorem C08_sum_kept_partial {K : Type} [Field K] [LinearOrder K] [IsStrictOrderedRing K] (a b : K)
    (ε : K) (hε : 0 ≤ ε) (h1 : -ε ≤ (Bary.new a b).l1 ∧ (Bary.new a b).l1 ≤ 1 + ε)
    (h2 : -ε ≤ (Bary.new a b).l2 ∧ (Bary.new a b).l2 ≤ 1 + ε)
    (h3 : -ε ≤ (Bary.new a b).l3 ∧ (Bary.new a b).l3 ≤ 1 + ε) :
    |((Bary.new a b).assertBounds 0 1).l1 + ((Bary.new a b).assertBounds 0 1).l2 +
      ((Bary.new a b).assertBounds 0 1).l3 - 1| ≤ 3 * ε := by
  have key : ∀ x : K, -ε ≤ x ∧ x ≤ 1 + ε → -ε ≤ Bary.clamp 0 1 x - x ∧ Bary.clamp 0 1 x - x ≤ ε := by
    intro x hx
    rw [Bary.clamp]
    split
    · constructor <;> linarith [hx.1, hx.2]
    · split <;> constructor <;> linarith [hx.1, hx.2]
  have k1 := key _ h1
  have k2 := key _ h2
  have k3 := key _ h3
  have hs := C08_sum a b
  simp only [Bary.assertBounds]
  rw [abs_le]
  constructor <;> linarith

example : (-(0:ℚ) ≤ (Bary.new (1/4) (1/4) : Bary ℚ).l3 ∧ (Bary.new (1/4) (1/4) : Bary ℚ).l3 ≤ 1 + 0) := by
  norm_num [Bary.new]

/-! ### slices, maps, norms -/

/-- **C02** (slices). `v[a:b]` has the entries `a, …, b - 1` of `v`, as far as they exist. -/
theorem C02_slice {K : Type} {n : ℕ} (f : Fin n → K) (a b : ℕ) :
    ((vecOf f).slice a b).size = min b n - a ∧
    ∀ i (h : a + i < min b n), ((vecOf f).slice a b).getItem i = .ok (f ⟨a + i, by omega⟩) := by
  have hl : ((vecOf f).slice a b).data.length = min b n - a := by simp [Vec.slice, vecOf]
  refine ⟨hl, fun i h => ?_⟩
  have h1 : i < ((vecOf f).slice a b).data.length := by omega
  rw [Vec.getItem, if_neg (by simp only [Vec.size]; omega)]
  simp only [pyIdx, Int.natCast_nonneg, if_true, Int.toNat_natCast, pyGet]
  have : ((vecOf f).slice a b).data[i]? = some (f ⟨a + i, by omega⟩) := by
    rw [List.getElem?_eq_getElem h1]
    simp [Vec.slice, vecOf]
  simp [this]

/-- **C01** (map). `map` applies the function to every entry. -/
theorem C01_map {K : Type} {n : ℕ} (f : Fin n → K) (φ : K → K) : (vecOf f).map φ = vecOf fun i => φ (f i) := by
  simp [Vec.map, vecOf, List.map_ofFn, Function.comp_def]

/-- **C06** (transposing a vector). The transpose of a vector is the matrix with this row. -/
theorem C06_vector_transpose {K : Type} {n : ℕ} (f : Fin n → K) :
    (vecOf f).transpose = .ok (matOf (Matrix.of fun (_ : Fin 1) j => f j)) := by
  simp [Vec.transpose, Mat.new, vecOf, matOf, List.ofFn_succ]

/-- **C06** (extending a vector). The entries of the first vector followed by the entries of the second. -/
theorem C06_extend {K : Type} {m n : ℕ} (f : Fin m → K) (g : Fin n → K) :
    (vecOf f).extend (vecOf g) = vecOf (Fin.append f g) := by
  simp [Vec.extend, vecOf, List.ofFn_fin_append]

/-- **C07** (maps of matrices and tensors). `map` applies the function to every entry. -/
theorem C07_matrix_map {K : Type} {r c : ℕ} (M : Matrix (Fin (r + 1)) (Fin c) K) (φ : K → K) :
    (matOf M).map φ = .ok (matOf (Matrix.of fun i j => φ (M i j))) := by
  have : (matOf M).data.map (fun row => row.map φ) = List.ofFn fun i => List.ofFn fun j => φ (M i j) := by
    simp [matOf, List.map_ofFn, Function.comp_def]
  rw [Mat.map, this]; exact Mat.new_ofFn _

theorem C07_tensor_map {K : Type} {a b c : ℕ} (T : Fin (a + 1) → Fin (b + 1) → Fin c → K) (φ : K → K) :
    (tenOf T).map φ = .ok (tenOf fun i j k => φ (T i j k)) := by
  have : (tenOf T).data.map (fun sub => sub.map (fun row => row.map φ)) = (tenOf fun i j k => φ (T i j k)).data := by
    simp [tenOf, List.map_ofFn, Function.comp_def]
  rw [Ten3.map, this, C07_tensor_accepted]
  refine ⟨rfl, by simp [tenOf], b + 1, c, by omega, ?_, ?_⟩
  · intro s hs
    simp only [tenOf, List.mem_ofFn] at hs
    obtain ⟨i, rfl⟩ := hs
    simp
  · intro s hs r hr
    simp only [tenOf, List.mem_ofFn] at hs
    obtain ⟨i, rfl⟩ := hs
    simp only [List.mem_ofFn] at hr
    obtain ⟨j, rfl⟩ := hr
    simp

/-- **C07** (norms). The norm of a matrix is the root of the sum of the squares of its entries, likewise for a tensor. -/
theorem C07_matrix_norm {r c : ℕ} (M : Matrix (Fin (r + 1)) (Fin c) ℝ) :
    0 ≤ (matOf M).norm ∧ (matOf M).norm ^ 2 = ∑ i, ∑ j, M i j ^ 2 := by
  have h : (matOf M).normsqr = ∑ i, ∑ j, M i j ^ 2 := (C07_matrix_scalars M M).1
  rw [Mat.norm]
  refine ⟨Real.sqrt_nonneg _, (Real.sq_sqrt ?_).trans h⟩
  rw [h]
  exact Finset.sum_nonneg fun i _ => Finset.sum_nonneg fun j _ => sq_nonneg _

/-- `(1, 2, 3, 4, 5)[1:3] = (2, 3)` -/
example : (vecOf ![(1 : ℚ), 2, 3, 4, 5]).slice 1 3 = vecOf ![2, 3] := by decide +kernel

end Tve
