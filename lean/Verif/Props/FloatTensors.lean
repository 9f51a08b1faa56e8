import Verif.Spec.FloatTensors
import Verif.Lemmas.FloatRounding
import Verif.Lemmas.Tensors
import Verif.Props.FloatQuadrature
import Verif.Props.Tensors

/-!
# C109: tensor arithmetic in double precision
-/

namespace Tve
open F64

/-- **C109** (rounding). Rounding a number gives a nearest double, is monotone and odd, and does not change doubles; in
particular the sign of the exact result of an operation is never lost. -/
theorem C109_rounding (x y : ℚ) : Rounded x (fl x) ∧ (x ≤ y → fl x ≤ fl y) ∧ fl (-x) = -fl x ∧ (IsDouble x → fl x = x) ∧
    |fl x - x| ≤ |x| / 2 ^ 53 ∧ (0 < fl x ↔ 0 < x) ∧ (fl x = 0 ↔ x = 0) :=
  ⟨⟨isDouble_fl x, fun _ hd => fl_nearest x hd⟩, fl_mono, fl_neg x, fl_double, fl_error x, fl_pos, fl_eq_zero⟩

theorem rounded_fl (x : ℚ) : Rounded x (fl x) := (C109_rounding x x).1

/-! ### entrywise operations -/

/-- **C109** (vectors). Sums, differences, multiples and quotients of vectors are correctly rounded in every entry, and raise
exactly for different sizes and for division by zero. -/
theorem C109_vectors {n : ℕ} (f g : Fin n → ℚ) (s : ℚ) :
    (∃ h, V.add (vecOf f) (vecOf g) = .ok (vecOf h) ∧ ∀ i, Rounded (f i + g i) (h i)) ∧
    (∃ h, V.sub (vecOf f) (vecOf g) = .ok (vecOf h) ∧ ∀ i, Rounded (f i - g i) (h i)) ∧
    (∃ h, V.smul (vecOf f) s = vecOf h ∧ ∀ i, Rounded (f i * s) (h i)) ∧
    (s ≠ 0 → ∃ h, V.truediv (vecOf f) s = .ok (vecOf h) ∧ ∀ i, Rounded (f i / s) (h i)) := by
  refine ⟨⟨fun i => fl (f i + g i), ?_, fun i => rounded_fl _⟩, ⟨fun i => fl (f i - g i), ?_, fun i => rounded_fl _⟩,
    ⟨fun i => fl (f i * s), ?_, fun i => rounded_fl _⟩, fun hs => ⟨fun i => fl (f i / s), ?_, fun i => rounded_fl _⟩⟩
  · rw [V.add, if_neg (by simp)]
    simp only [vecOf, zipWith_ofFn]
  · rw [V.sub, if_neg (by simp)]
    simp only [vecOf, zipWith_ofFn]
  · simp only [V.smul, vecOf, List.map_ofFn, Function.comp_def]
  · have : pyMap (vecOf f).data (fun x => F64.pyDiv x s) = .ok (List.ofFn fun i => fl (f i / s)) :=
      pyMap_ofFn _ _ fun i => by rw [F64.pyDiv, if_neg hs]
    rw [V.truediv, this]
    rfl

/-- **C109** (vectors, errors) -/
theorem C109_vectors_raise {m n : ℕ} (f : Fin m → ℚ) (g : Fin n → ℚ) :
    (m ≠ n → V.add (vecOf f) (vecOf g) = .error .valueError ∧ V.sub (vecOf f) (vecOf g) = .error .valueError) ∧
    (m ≠ 0 → V.truediv (vecOf f) 0 = .error .zeroDivision) := by
  refine ⟨fun h => ⟨by rw [V.add, if_pos (by simpa using h)], by rw [V.sub, if_pos (by simpa using h)]⟩, fun h => ?_⟩
  obtain ⟨m, rfl⟩ := Nat.exists_eq_succ_of_ne_zero h
  rw [V.truediv, vecOf, List.ofFn_succ, pyMap_cons, F64.pyDiv, if_pos rfl]
  rfl

/-- **C109** (matrices). Sums, differences, multiples and quotients of matrices are correctly rounded in every entry. -/
theorem C109_matrices {r c : ℕ} (A B : Matrix (Fin (r + 1)) (Fin c) ℚ) (s : ℚ) :
    (∃ C, M.add (matOf A) (matOf B) = .ok (matOf C) ∧ ∀ i j, Rounded (A i j + B i j) (C i j)) ∧
    (∃ C, M.sub (matOf A) (matOf B) = .ok (matOf C) ∧ ∀ i j, Rounded (A i j - B i j) (C i j)) ∧
    (∃ C, M.smul (matOf A) s = .ok (matOf C) ∧ ∀ i j, Rounded (A i j * s) (C i j)) ∧
    (s ≠ 0 → ∃ C, M.truediv (matOf A) s = .ok (matOf C) ∧ ∀ i j, Rounded (A i j / s) (C i j)) := by
  refine ⟨⟨Matrix.of fun i j => fl (A i j + B i j), ?_, fun i j => rounded_fl _⟩,
    ⟨Matrix.of fun i j => fl (A i j - B i j), ?_, fun i j => rounded_fl _⟩,
    ⟨Matrix.of fun i j => fl (A i j * s), ?_, fun i j => rounded_fl _⟩,
    fun hs => ⟨Matrix.of fun i j => fl (A i j / s), ?_, fun i j => rounded_fl _⟩⟩
  · rw [M.add, if_neg (by simp)]
    have := Mat.new_ofFn (Matrix.of fun i j => fl (A i j + B i j))
    simpa only [matOf, zipWith_ofFn, Matrix.of_apply] using this
  · rw [M.sub, if_neg (by simp)]
    have := Mat.new_ofFn (Matrix.of fun i j => fl (A i j - B i j))
    simpa only [matOf, zipWith_ofFn, Matrix.of_apply] using this
  · rw [M.smul]
    have := Mat.new_ofFn (Matrix.of fun i j => fl (A i j * s))
    simpa only [matOf, List.map_ofFn, Function.comp_def, Matrix.of_apply] using this
  · have : pyMap (matOf A).data (fun row => pyMap row fun x => F64.pyDiv x s) =
        .ok (List.ofFn fun i => List.ofFn fun j => fl (A i j / s)) :=
      pyMap_ofFn _ _ fun i => pyMap_ofFn _ _ fun j => by rw [F64.pyDiv, if_neg hs]
    rw [M.truediv, this]
    exact Mat.new_ofFn (Matrix.of fun i j => fl (A i j / s))

/-- **C109** (matrices, errors) -/
theorem C109_matrices_raise {r c r' c' : ℕ} (A : Matrix (Fin (r + 1)) (Fin c) ℚ) (B : Matrix (Fin (r' + 1)) (Fin c') ℚ)
    (h : (r + 1, c) ≠ (r' + 1, c')) (S : Summation) :
    M.add (matOf A) (matOf B) = .error .valueError ∧ M.sub (matOf A) (matOf B) = .error .valueError ∧
      M.scalarProduct S (matOf A) (matOf B) = .error .valueError :=
  ⟨by rw [M.add, if_pos (by rw [matOf_shape, matOf_shape]; exact h)],
    by rw [M.sub, if_pos (by rw [matOf_shape, matOf_shape]; exact h)],
    by rw [M.scalarProduct, if_pos (by rw [matOf_shape, matOf_shape]; exact h)]⟩

/-! ### sums of products -/

theorem sum_terms {S : Summation} (hS : Accurate S) {n : ℕ} (hn : n ≤ 2 ^ 52) {t t' : Fin n → ℚ} {δ : ℚ} (hδ : 0 ≤ δ)
    (h : ∀ i, |t' i - t i| ≤ δ * |t i|) :
    |S (List.ofFn t') - ∑ i, t i| ≤ (n / 2 ^ 52 + 2 * δ) * ∑ i, |t i| := by
  have h1 := hS (List.ofFn t') (by simpa using hn)
  rw [List.length_ofFn, List.map_ofFn, List.sum_ofFn, List.sum_ofFn] at h1
  simp only [Function.comp_def] at h1
  have h2 : |∑ i, t' i - ∑ i, t i| ≤ δ * ∑ i, |t i| := by
    rw [← Finset.sum_sub_distrib, Finset.mul_sum]
    exact (Finset.abs_sum_le_sum_abs _ _).trans (Finset.sum_le_sum fun i _ => h i)
  have h3 : ∑ i, |t' i| ≤ (1 + δ) * ∑ i, |t i| := by
    rw [Finset.mul_sum]
    refine Finset.sum_le_sum fun i _ => ?_
    have : |t' i| ≤ |t' i - t i| + |t i| := by
      have := abs_add_le (t' i - t i) (t i)
      rwa [sub_add_cancel] at this
    have := h i
    linarith
  have hn' : (n : ℚ) / 2 ^ 52 ≤ 1 := by
    rw [div_le_one (by positivity)]; exact_mod_cast hn
  have hn0 : (0 : ℚ) ≤ (n : ℚ) / 2 ^ 52 := by positivity
  set T := ∑ i, |t i| with hT
  have hT0 : 0 ≤ T := Finset.sum_nonneg fun i _ => abs_nonneg _
  have h4 : (n : ℚ) / 2 ^ 52 * ∑ i, |t' i| ≤ (n / 2 ^ 52 + δ) * T := by
    calc (n : ℚ) / 2 ^ 52 * ∑ i, |t' i| ≤ n / 2 ^ 52 * ((1 + δ) * T) := mul_le_mul_of_nonneg_left h3 hn0
      _ = n / 2 ^ 52 * T + n / 2 ^ 52 * (δ * T) := by ring
      _ ≤ n / 2 ^ 52 * T + 1 * (δ * T) := by gcongr
      _ = _ := by ring
  have h5 : S (List.ofFn t') - ∑ i, t i = (S (List.ofFn t') - ∑ i, t' i) + (∑ i, t' i - ∑ i, t i) := by ring
  rw [h5]
  refine (abs_add_le _ _).trans ?_
  linarith

theorem sum_products {S : Summation} (hS : Accurate S) {n : ℕ} (hn : n ≤ 2 ^ 52) (a b : Fin n → ℚ) :
    |S (List.ofFn fun i => fl (a i * b i)) - ∑ i, a i * b i| ≤ (n + 1) / 2 ^ 52 * ∑ i, |a i| * |b i| := by
  have := sum_terms hS hn (t := fun i => a i * b i) (t' := fun i => fl (a i * b i)) (δ := 1 / 2 ^ 53) (by positivity)
    (fun i => (fl_error _).trans (le_of_eq (by ring)))
  refine this.trans (le_of_eq ?_)
  simp only [abs_mul]
  ring

/-- **C109** (scalar products). The scalar product of two vectors is computed up to `(n + 1) 2⁻⁵²` times the scalar product of the
absolute values; it does not depend on the order of the two vectors. -/
theorem C109_dot {S : Summation} (hS : Accurate S) {n : ℕ} (hn : n ≤ 2 ^ 52) (f g : Fin n → ℚ) :
    |V.dot S (vecOf f) (vecOf g) - ∑ i, f i * g i| ≤ (n + 1) / 2 ^ 52 * ∑ i, |f i| * |g i| ∧
      V.dot S (vecOf f) (vecOf g) = V.dot S (vecOf g) (vecOf f) := by
  constructor
  · have := sum_products hS hn f g
    simpa only [V.dot, vecOf, zipWith_ofFn] using this
  · simp only [V.dot, vecOf, zipWith_ofFn, mul_comm]

/-- **C109** (norms of vectors). The squared norm has a relative error of at most `(n + 1) 2⁻⁵²`. -/
theorem C109_normsqr {S : Summation} (hS : Accurate S) {n : ℕ} (hn : n ≤ 2 ^ 52) (f : Fin n → ℚ) :
    |V.normsqr S (vecOf f) - ∑ i, f i ^ 2| ≤ (n + 1) / 2 ^ 52 * ∑ i, f i ^ 2 := by
  have := sum_products hS hn f f
  have e : ∀ i, |f i| * |f i| = f i ^ 2 := fun i => by rw [← abs_mul, ← sq, abs_of_nonneg (sq_nonneg _)]
  simp only [e] at this
  simpa only [V.normsqr, vecOf, List.map_ofFn, Function.comp_def, ← sq] using this

/-- **C109** (products of matrices). Every entry of the product of two matrices is computed up to `(c + 1) 2⁻⁵²` times the entry of
the product of the matrices of absolute values. -/
theorem C109_matmul {S : Summation} (hS : Accurate S) {r c d : ℕ} (hc : c + 1 ≤ 2 ^ 52)
    (A : Matrix (Fin (r + 1)) (Fin (c + 1)) ℚ) (B : Matrix (Fin (c + 1)) (Fin d) ℚ) :
    ∃ C, M.matmul S (matOf A) (matOf B) = .ok (matOf C) ∧
      ∀ i j, |C i j - (A * B) i j| ≤ (c + 2) / 2 ^ 52 * ∑ k, |A i k| * |B k j| := by
  refine ⟨Matrix.of fun i j => S (List.ofFn fun k => fl (A i k * B k j)), ?_, fun i j => ?_⟩
  · rw [M.matmul, if_neg (by simp), matOf_rows, matOf_cols, matOf_cols]
    rw [pyMap_range_ofFn (fun i => List.ofFn fun j => S (List.ofFn fun k => fl (A i k * B k j)))]
    · rw [bind_ok]; exact Mat.new_ofFn (Matrix.of fun i j => S (List.ofFn fun k => fl (A i k * B k j)))
    · intro i
      apply pyMap_range_ofFn
      intro j
      rw [pyMap_range_ofFn (fun k => fl (A i k * B k j))]
      · rfl
      · intro k
        rw [matOf_at, matOf_at]; rfl
  · rw [Matrix.of_apply, Matrix.mul_apply]
    refine (sum_products hS hc _ _).trans (le_of_eq ?_)
    push_cast
    ring

/-- **C109** (products of matrices, errors) -/
theorem C109_matmul_raise (S : Summation) {r c c' d : ℕ} (A : Matrix (Fin (r + 1)) (Fin c) ℚ)
    (B : Matrix (Fin (c' + 1)) (Fin d) ℚ) (f : Fin d → ℚ) :
    (c ≠ c' + 1 → M.matmul S (matOf A) (matOf B) = .error .valueError) ∧
    (d ≠ c → M.dot S (matOf A) (vecOf f) = .error .valueError) :=
  ⟨fun h => by rw [M.matmul, if_pos (by simpa using h)], fun h => by rw [M.dot, if_pos (by simpa using h)]⟩

/-- **C109** (matrices times vectors) -/
theorem C109_matvec {S : Summation} (hS : Accurate S) {r c : ℕ} (hc : c ≤ 2 ^ 52)
    (A : Matrix (Fin (r + 1)) (Fin c) ℚ) (f : Fin c → ℚ) :
    ∃ g, M.dot S (matOf A) (vecOf f) = .ok (vecOf g) ∧
      ∀ i, |g i - (A.mulVec f) i| ≤ (c + 1) / 2 ^ 52 * ∑ k, |A i k| * |f k| := by
  refine ⟨fun i => S (List.ofFn fun k => fl (A i k * f k)), ?_, fun i => ?_⟩
  · rw [M.dot, if_neg (by simp), matOf_rows, matOf_cols]
    rw [pyMap_range_ofFn (fun i => S (List.ofFn fun k => fl (A i k * f k)))]
    · rfl
    · intro i
      rw [pyMap_range_ofFn (fun k => fl (A i k * f k))]
      · rfl
      · intro k; rw [matOf_at, bind_ok, getItem_vecOf]; rfl
  · exact sum_products hS hc _ _

/-- **C109** (trace) -/
theorem C109_trace {S : Summation} (hS : Accurate S) {n : ℕ} (hn : n + 1 ≤ 2 ^ 52)
    (A : Matrix (Fin (n + 1)) (Fin (n + 1)) ℚ) :
    ∃ t, M.trace S (matOf A) = .ok t ∧ |t - A.trace| ≤ (n + 1) / 2 ^ 52 * ∑ i, |A i i| := by
  refine ⟨S (List.ofFn fun i => A i i), ?_, ?_⟩
  · rw [M.trace, matOf_rows, matOf_cols, min_self, pyMap_range_ofFn (fun i => A i i) (fun i => matOf_at _ _ _)]
    rfl
  · have := sum_terms hS hn (t := fun i => A i i) (t' := fun i => A i i) (δ := 0) (le_refl _) (fun i => by simp)
    refine this.trans (le_of_eq ?_)
    push_cast
    ring

/-! ### sums over all entries -/

theorem sum_terms_map {α : Type} {S : Summation} (hS : Accurate S) {l : List α} (hl : l.length ≤ 2 ^ 52) {g t : α → ℚ} {δ : ℚ}
    (hδ : 0 ≤ δ) (h : ∀ x ∈ l, |g x - t x| ≤ δ * |t x|) :
    |S (l.map g) - (l.map t).sum| ≤ (l.length / 2 ^ 52 + 2 * δ) * (l.map fun x => |t x|).sum := by
  have := sum_terms hS hl (t := fun i : Fin l.length => t l[i]) (t' := fun i : Fin l.length => g l[i]) hδ (fun i => h _ (List.getElem_mem _))
  have e : ∀ f : α → ℚ, l.map f = List.ofFn fun i : Fin l.length => f l[i] := by
    intro f
    apply List.ext_getElem <;> simp
  rw [e g, e t, e fun x => |t x|, List.sum_ofFn, List.sum_ofFn]
  exact this

private theorem abs_sq' (x : ℚ) : |x ^ 2| = x ^ 2 := abs_of_nonneg (sq_nonneg x)

private theorem sum_flatten2 {r c : ℕ} (F : Fin r → Fin c → ℚ) (φ : ℚ → ℚ) :
    ((List.ofFn fun i => List.ofFn fun j => F i j).flatten.map φ).sum = ∑ i, ∑ j, φ (F i j) := by
  rw [List.map_flatten, List.sum_flatten]
  simp only [List.map_ofFn, Function.comp_def, List.sum_ofFn]

private theorem length_flatten2 {r c : ℕ} (F : Fin r → Fin c → ℚ) :
    (List.ofFn fun i => List.ofFn fun j => F i j).flatten.length = r * c := by
  simp [List.length_flatten, List.map_ofFn, Function.comp_def, List.sum_ofFn]

/-- **C109** (Frobenius scalar product) -/
theorem C109_scalar_product {S : Summation} (hS : Accurate S) {r c : ℕ} (h : (r + 1) * c ≤ 2 ^ 52)
    (A B : Matrix (Fin (r + 1)) (Fin c) ℚ) :
    ∃ x, M.scalarProduct S (matOf A) (matOf B) = .ok x ∧
      |x - ∑ i, ∑ j, A i j * B i j| ≤ ((r + 1) * c + 1) / 2 ^ 52 * ∑ i, ∑ j, |A i j| * |B i j| := by
  refine ⟨S ((List.ofFn fun i => List.ofFn fun j => A i j * B i j).flatten.map fl), ?_, ?_⟩
  · rw [M.scalarProduct, if_neg (by simp)]
    simp only [matOf, zipWith_ofFn, List.map_flatten, List.map_ofFn, Function.comp_def]
  · have := sum_terms_map hS (l := (List.ofFn fun i => List.ofFn fun j => A i j * B i j).flatten)
      (by rw [length_flatten2]; exact h) (g := fl) (t := fun x => x) (δ := 1 / 2 ^ 53) (by positivity)
      (fun x _ => (fl_error x).trans (le_of_eq (by ring)))
    rw [sum_flatten2, sum_flatten2, length_flatten2] at this
    refine this.trans (le_of_eq ?_)
    simp only [abs_mul]
    push_cast
    ring

/-- **C109** (Frobenius norm). For all ways to compute squares with a relative error of `2⁻⁵²`. -/
theorem C109_matrix_normsqr {S : Summation} (hS : Accurate S) {sq : ℚ → ℚ} (hq : Squares sq) {r c : ℕ}
    (h : (r + 1) * c ≤ 2 ^ 52) (A : Matrix (Fin (r + 1)) (Fin c) ℚ) :
    |M.normsqr S sq (matOf A) - ∑ i, ∑ j, A i j ^ 2| ≤ ((r + 1) * c + 2) / 2 ^ 52 * ∑ i, ∑ j, A i j ^ 2 := by
  have := sum_terms_map hS (l := (List.ofFn fun i => List.ofFn fun j => A i j).flatten)
    (by rw [length_flatten2 (fun i j => A i j)]; exact h) (g := sq) (t := fun x => x ^ 2) (δ := 1 / 2 ^ 52) (by positivity)
    (fun x _ => (hq x).trans (le_of_eq (by rw [abs_of_nonneg (sq_nonneg x)]; ring)))
  rw [sum_flatten2 (fun i j => A i j), sum_flatten2 (fun i j => A i j), length_flatten2 (fun i j => A i j)] at this
  refine this.trans (le_of_eq ?_)
  simp only [abs_sq']
  push_cast
  ring

/-- **C109** (3-d tensors). Sums and differences are correctly rounded in every entry, the squared norm is accurate, different shapes
raise. -/
theorem C109_tensors {S : Summation} (hS : Accurate S) {sq : ℚ → ℚ} (hq : Squares sq) {a b c : ℕ}
    (f g : Fin (a + 1) → Fin (b + 1) → Fin c → ℚ) :
    (∃ h, T.add (tenOf f) (tenOf g) = .ok (tenOf h) ∧ ∀ i j k, Rounded (f i j k + g i j k) (h i j k)) ∧
    (∃ h, T.sub (tenOf f) (tenOf g) = .ok (tenOf h) ∧ ∀ i j k, Rounded (f i j k - g i j k) (h i j k)) ∧
    ((a + 1) * ((b + 1) * c) ≤ 2 ^ 52 → |T.normsqr S sq (tenOf f) - ∑ i, ∑ j, ∑ k, f i j k ^ 2| ≤
      ((a + 1) * ((b + 1) * c) + 2) / 2 ^ 52 * ∑ i, ∑ j, ∑ k, f i j k ^ 2) := by
  have hs : (tenOf f).shape = (tenOf g).shape := by simp [tenOf, Ten3.shape, List.ofFn_succ]
  refine ⟨⟨fun i j k => fl (f i j k + g i j k), ?_, fun i j k => rounded_fl _⟩,
    ⟨fun i j k => fl (f i j k - g i j k), ?_, fun i j k => rounded_fl _⟩, fun h => ?_⟩
  · rw [T.add, if_neg (by simpa using hs)]
    simp only [tenOf, zipWith_ofFn]; exact Ten3.new_ofFn _
  · rw [T.sub, if_neg (by simpa using hs)]
    simp only [tenOf, zipWith_ofFn]; exact Ten3.new_ofFn _
  · have hl : (tenOf f).data.flatten.flatten.length = (a + 1) * ((b + 1) * c) := by
      simp [tenOf, List.length_flatten, List.map_flatten, List.sum_flatten, List.map_ofFn, Function.comp_def]
      ring
    have hsum : ∀ φ : ℚ → ℚ, ((tenOf f).data.flatten.flatten.map φ).sum = ∑ i, ∑ j, ∑ k, φ (f i j k) := by
      intro φ
      rw [List.map_flatten, List.sum_flatten, List.map_flatten, List.map_flatten, List.sum_flatten]
      simp only [tenOf, List.map_ofFn, Function.comp_def, List.sum_ofFn]
    have := sum_terms_map hS (l := (tenOf f).data.flatten.flatten)
      (by rw [hl]; exact h) (g := sq) (t := fun x => x ^ 2) (δ := 1 / 2 ^ 52) (by positivity)
      (fun x _ => (hq x).trans (le_of_eq (by rw [abs_of_nonneg (sq_nonneg x)]; ring)))
    rw [hsum, hsum, hl] at this
    refine this.trans (le_of_eq ?_)
    simp only [abs_sq']
    push_cast
    ring

theorem C109_tensors_raise (A B : Ten3 ℚ) (h : A.shape ≠ B.shape) :
    T.add A B = .error .valueError ∧ T.sub A B = .error .valueError :=
  ⟨by rw [T.add, if_pos h], by rw [T.sub, if_pos h]⟩

/-! ### determinants -/

theorem prod_foldl (l : List ℚ) {a x k : ℚ} (h : |a - x| ≤ 2 * k / 2 ^ 53 * |x|) (hk : 0 ≤ k) (hl : k + l.length ≤ 2 ^ 52) :
    |l.foldl (fun a y => fl (a * y)) a - x * l.prod| ≤ 2 * (k + l.length) / 2 ^ 53 * |x * l.prod| := by
  induction l generalizing a x k with
  | nil => simpa using h
  | cons y l ih =>
    rw [List.foldl_cons, List.prod_cons, List.length_cons, ← mul_assoc]
    rw [List.length_cons] at hl
    push_cast at hl ⊢
    have hl0 : (0 : ℚ) ≤ l.length := by positivity
    have := ih (a := fl (a * y)) (x := x * y) (k := k + 1) ?_ (by linarith) (by linarith)
    · refine this.trans (le_of_eq ?_)
      ring
    · have hk1 : 2 * k / 2 ^ 53 ≤ 1 := by rw [div_le_one (by positivity)]; linarith
      have e1 := fl_error (a * y)
      have e2 : |a| ≤ 2 * |x| := by
        have h1 : |a| ≤ |a - x| + |x| := by
          have := abs_add_le (a - x) x
          rwa [sub_add_cancel] at this
        have h2 : 2 * k / 2 ^ 53 * |x| ≤ 1 * |x| := mul_le_mul_of_nonneg_right hk1 (abs_nonneg x)
        linarith
      have e3 : fl (a * y) - x * y = (fl (a * y) - a * y) + (a - x) * y := by ring
      rw [e3]
      refine (abs_add_le _ _).trans ?_
      rw [abs_mul (a - x), abs_mul x]
      rw [abs_mul] at e1
      have e4 : |a| * |y| / 2 ^ 53 ≤ 2 * |x| * |y| / 2 ^ 53 := by gcongr
      have e5 : |a - x| * |y| ≤ 2 * k / 2 ^ 53 * |x| * |y| := by gcongr
      calc _ ≤ 2 * |x| * |y| / 2 ^ 53 + 2 * k / 2 ^ 53 * |x| * |y| := add_le_add (e1.trans e4) e5
        _ = _ := by ring

theorem length_permsN {α : Type} (n : ℕ) (l : List α) (h : l.length = n) : (permsN n l).length = n.factorial := by
  induction n generalizing l with
  | zero => rfl
  | succ n ih =>
    have h1 : ∀ q ∈ picks l, q.2.length = n := by
      intro q hq
      have : ∀ (l : List α) (q : α × List α), q ∈ picks l → q.2.length + 1 = l.length := by
        intro l
        induction l with
        | nil => intro q hq; simp [picks] at hq
        | cons a l ih =>
          intro q hq
          rw [picks, List.mem_cons, List.mem_map] at hq
          rcases hq with rfl | ⟨q', hq', rfl⟩
          · rfl
          · simp [ih q' hq']
      have := this l q hq
      omega
    have h2 : (picks l).length = l.length := by
      clear h h1
      induction l with
      | nil => rfl
      | cons a l ih => simp [picks, ih]
    rw [permsN, List.length_flatMap]
    have h3 : (picks l).map (fun q => ((permsN n q.2).map (fun p => q.1 :: p)).length) =
        (picks l).map (fun _ => n.factorial) :=
      List.map_congr_left fun q hq => by rw [List.length_map, ih _ (h1 q hq)]
    rw [h3, List.map_const', List.sum_replicate, h2, h, Nat.factorial_succ, smul_eq_mul]

theorem prodIdx_nonneg {R : ℕ → ℕ → ℚ} (hR : ∀ i j, 0 ≤ R i j) (p : List ℕ) : 0 ≤ prodIdx R p := by
  induction p generalizing R with
  | nil => exact zero_le_one
  | cons a t ih => exact mul_nonneg (hR _ _) (ih fun i j => hR _ _)

theorem picks_sublist {α : Type} : ∀ {l : List α} {q : α × List α}, q ∈ picks l → q.2.Sublist l
  | [], q, hq => by simp [picks] at hq
  | a :: l, q, hq => by
    rw [picks, List.mem_cons, List.mem_map] at hq
    rcases hq with rfl | ⟨q', hq', rfl⟩
    · exact List.sublist_cons_self _ _
    · exact (picks_sublist hq').cons₂ a

theorem sum_picks_fst {α : Type} (f : α → ℚ) (l : List α) : ((picks l).map fun q => f q.1).sum = (l.map f).sum := by
  induction l with
  | nil => rfl
  | cons a l ih =>
    rw [picks, List.map_cons, List.sum_cons, List.map_map, List.map_cons, List.sum_cons, ← ih]
    rfl

/-- the sum of the products over all permutations is at most the product of the row sums -/
theorem sum_prodIdx_le {R : ℕ → ℕ → ℚ} (hR : ∀ i j, 0 ≤ R i j) (n : ℕ) (l : List ℕ) :
    ((permsN n l).map (prodIdx R)).sum ≤ ∏ i ∈ Finset.range n, (l.map (R i)).sum := by
  induction n generalizing R l with
  | zero => simp [permsN, prodIdx]
  | succ n ih =>
    rw [permsN, List.map_flatMap, List.flatMap, List.sum_flatten, List.map_map, Finset.prod_range_succ']
    have h1 : ∀ q ∈ picks l, (List.sum ∘ fun q : ℕ × List ℕ => ((permsN n q.2).map (fun p => q.1 :: p)).map (prodIdx R)) q ≤
        R 0 q.1 * ∏ i ∈ Finset.range n, (l.map (R (i + 1))).sum := by
      intro q hq
      have h2 : ((permsN n q.2).map (fun p => q.1 :: p)).map (prodIdx R) =
          (permsN n q.2).map fun p => R 0 q.1 * prodIdx (fun i => R (i + 1)) p := by
        rw [List.map_map]
        exact List.map_congr_left fun p _ => rfl
      rw [Function.comp_apply, h2, List.sum_map_mul_left]
      refine mul_le_mul_of_nonneg_left ((ih (fun i j => hR _ _) _).trans ?_) (hR _ _)
      refine Finset.prod_le_prod (fun i _ => List.sum_nonneg ?_) fun i _ => ?_
      · intro x hx
        obtain ⟨j, -, rfl⟩ := List.mem_map.1 hx
        exact hR _ _
      · exact List.Sublist.sum_le_sum ((picks_sublist hq).map _) fun x hx => by
          obtain ⟨j, -, rfl⟩ := List.mem_map.1 hx
          exact hR _ _
    refine (List.sum_le_sum h1).trans (le_of_eq ?_)
    rw [List.sum_map_mul_right, sum_picks_fst, mul_comm]

/-- the factors of the term of a permutation -/
private def facts (R : ℕ → ℕ → ℚ) (p : List ℕ) : List ℚ := List.ofFn fun i : Fin p.length => R i p[i]

private def extend {n : ℕ} (A : Matrix (Fin (n + 1)) (Fin (n + 1)) ℚ) : ℕ → ℕ → ℚ :=
  fun i j => if h : i < n + 1 ∧ j < n + 1 then A ⟨i, h.1⟩ ⟨j, h.2⟩ else 0

private theorem extend_fin {n : ℕ} (A : Matrix (Fin (n + 1)) (Fin (n + 1)) ℚ) (i j : Fin (n + 1)) :
    extend A i j = A i j := by
  simp only [extend, dif_pos (show (i : ℕ) < n + 1 ∧ (j : ℕ) < n + 1 from ⟨i.2, j.2⟩)]

private theorem det_eq {n : ℕ} (A : Matrix (Fin (n + 1)) (Fin (n + 1)) ℚ) :
    M.det (matOf A) = .ok (sum311 ((permsN (n + 1) (List.range (n + 1))).map fun p =>
      (signPy p : ℚ) * (facts (extend A) p).foldl (fun a x => fl (a * x)) 1)) := by
  have hrange : List.range (n + 1) = List.ofFn (fun i : Fin (n + 1) => (i : ℕ)) := by
    rw [List.ofFn_eq_map]; simp
  rw [M.det, if_neg (by simp), matOf_rows,
    pyMap_eq_ok (fun p => (signPy p : ℚ) * (facts (extend A) p).foldl (fun a x => fl (a * x)) 1)]
  · rfl
  · intro p hp
    rw [hrange] at hp
    have hperm := mem_permsN hp
    have hlen : p.length = n + 1 := by simpa using hperm.length_eq
    have hlt : ∀ x ∈ p, x < n + 1 := by
      intro x hx
      have := hperm.mem_iff.1 hx
      rw [List.mem_ofFn] at this
      obtain ⟨i, rfl⟩ := this
      exact i.2
    have h1 : pyMap (List.range p.length) (fun i => (pyGet p i) >>= fun j => (matOf A).at' i j) =
        .ok (facts (extend A) p) := by
      refine pyMap_range_ofFn _ fun i => ?_
      rw [pyGet_ok i.2, bind_ok]
      have h2 := hlt _ (List.getElem_mem i.2)
      have h3 := matOf_at A ⟨i, by rw [← hlen]; exact i.2⟩ ⟨p[(i : ℕ)], h2⟩
      rw [← extend_fin A] at h3
      exact h3
    rw [hlen] at h1
    rw [h1]
    rfl

/-- **C109** (determinants). The determinant of a matrix with at most 17 rows is computed with an error that is small compared to
the product of the sums of the absolute values of the rows. -/
theorem C109_det {n : ℕ} (hn : (n + 1).factorial ≤ 2 ^ 52) (A : Matrix (Fin (n + 1)) (Fin (n + 1)) ℚ) :
    ∃ d, M.det (matOf A) = .ok d ∧
      |d - A.det| ≤ ((n + 1).factorial + 2 * (n + 1)) / 2 ^ 52 * ∏ i, ∑ j, |A i j| := by
  refine ⟨_, det_eq A, ?_⟩
  have hrange : List.range (n + 1) = List.ofFn (fun i : Fin (n + 1) => (i : ℕ)) := by
    rw [List.ofFn_eq_map]; simp
  set L := permsN (n + 1) (List.range (n + 1)) with hL
  have hlen : L.length = (n + 1).factorial := length_permsN _ _ (by simp)
  have hpl : ∀ p ∈ L, p.length = n + 1 := by
    intro p hp
    rw [hL, hrange] at hp
    simpa using (mem_permsN hp).length_eq
  have hn' : ((n + 1 : ℕ) : ℚ) ≤ 2 ^ 52 := by
    have := (Nat.self_le_factorial (n + 1)).trans hn
    exact_mod_cast this
  have hsgn : ∀ p : List ℕ, |(signPy p : ℚ)| = 1 := by
    intro p
    rw [signPy]
    split_ifs <;> norm_num
  have := sum_terms_map C108_sum (l := L) (by rw [hlen]; exact hn)
    (g := fun p => (signPy p : ℚ) * (facts (extend A) p).foldl (fun a x => fl (a * x)) 1)
    (t := fun p => (signPy p : ℚ) * prodIdx (extend A) p) (δ := (n + 1 : ℕ) / 2 ^ 52) (by positivity) ?_
  · have hd : (L.map fun p => (signPy p : ℚ) * prodIdx (extend A) p).sum = A.det := by
      rw [hL, hrange, sum_permsN (extend A) _ (fun a b h => h)]
      congr 1
      funext i j
      exact extend_fin A i j
    have ha : (L.map fun p => |(signPy p : ℚ) * prodIdx (extend A) p|).sum ≤ ∏ i, ∑ j, |A i j| := by
      have e : (L.map fun p => |(signPy p : ℚ) * prodIdx (extend A) p|) = L.map (prodIdx fun i j => |extend A i j|) := by
        refine List.map_congr_left fun p _ => ?_
        rw [abs_mul, hsgn, one_mul, prodIdx_eq, prodIdx_eq, List.prod_ofFn, List.prod_ofFn, Finset.abs_prod]
      rw [e, hL]
      refine (sum_prodIdx_le (fun i j => abs_nonneg _) _ _).trans (le_of_eq ?_)
      rw [Finset.prod_range]
      refine Finset.prod_congr rfl fun i _ => ?_
      rw [hrange, List.map_ofFn, List.sum_ofFn]
      exact Finset.sum_congr rfl fun j _ => by rw [Function.comp_apply, extend_fin]
    rw [hd, hlen] at this
    refine this.trans ?_
    refine (mul_le_mul_of_nonneg_left ha (by positivity)).trans (le_of_eq ?_)
    push_cast
    ring
  · intro p hp
    have h1 := prod_foldl (facts (extend A) p) (a := 1) (x := 1) (k := 0) (by simp) (le_refl _) (by
      rw [facts, List.length_ofFn, hpl p hp, zero_add]; exact hn')
    rw [← mul_sub, abs_mul, abs_mul, hsgn, one_mul, one_mul, prodIdx_eq]
    rw [one_mul, zero_add] at h1
    have h2 : ((facts (extend A) p).length : ℚ) = (n + 1 : ℕ) := by rw [facts, List.length_ofFn, hpl p hp]
    rw [h2] at h1
    refine h1.trans (le_of_eq ?_)
    rw [facts]
    ring

theorem C109_det_nonsquare {r c : ℕ} (A : Matrix (Fin (r + 1)) (Fin c) ℚ) (h : c ≠ r + 1) :
    M.det (matOf A) = .error .valueError := by
  rw [M.det, if_pos (by simpa using h.symm)]

/-- the determinant of a 2 × 2 matrix of doubles -/
theorem det2_eq (a b c d : ℚ) (ha : IsDouble a) (hb : IsDouble b) :
    M.det (matOf !![a, b; c, d]) = .ok (fl (fl (a * d) - fl (b * c))) := by
  have e : M.det (matOf !![a, b; c, d]) = .ok (fl (fl (0 + 1 * fl (fl (1 * a) * d)) + -1 * fl (fl (1 * b) * c))) := by
    rw [det_eq]
    have h : permsN 2 (List.range 2) = [[0, 1], [1, 0]] := by decide
    have s1 : signPy [0, 1] = 1 := by decide
    have s2 : signPy [1, 0] = -1 := by decide
    simp [h, sum311, facts, s1, s2, List.ofFn_succ, extend]
  rw [e, one_mul, one_mul, one_mul, fl_double ha, fl_double hb, zero_add, fl_double (isDouble_fl _), neg_one_mul, ← sub_eq_add_neg]

/-- **C109** (determinants of 2 × 2 matrices of doubles). The error is at most `2⁻⁵²` times `|ad| + |bc|`, up to terms of second
order, and the sign is never wrong: a positive determinant is never computed as negative and vice versa, and zero as zero. -/
theorem C109_det2 (a b c d : ℚ) (ha : IsDouble a) (hb : IsDouble b) :
    ∃ x, M.det (matOf !![a, b; c, d]) = .ok x ∧ |x - (a * d - b * c)| ≤ (2 + 1 / 2 ^ 53) / 2 ^ 53 * (|a * d| + |b * c|) ∧
      (0 < x → 0 < a * d - b * c) ∧ (x < 0 → a * d - b * c < 0) ∧ (a * d - b * c = 0 → x = 0) := by
  refine ⟨_, det2_eq a b c d ha hb, ?_, ?_, ?_, ?_⟩
  · have e1 := fl_error (a * d)
    have e2 := fl_error (b * c)
    have e3 := fl_error (fl (a * d) - fl (b * c))
    have h1 : |fl (a * d) - fl (b * c) - (a * d - b * c)| ≤ (|a * d| + |b * c|) / 2 ^ 53 := by
      have : fl (a * d) - fl (b * c) - (a * d - b * c) = (fl (a * d) - a * d) - (fl (b * c) - b * c) := by ring
      rw [this]
      refine (abs_sub _ _).trans ?_
      linarith
    have h2 : |fl (a * d) - fl (b * c)| ≤ (1 + 1 / 2 ^ 53) * (|a * d| + |b * c|) := by
      have h3 := abs_add_le (fl (a * d) - fl (b * c) - (a * d - b * c)) (a * d - b * c)
      rw [sub_add_cancel] at h3
      have h4 := abs_sub (a * d) (b * c)
      linarith
    have h5 := abs_add_le (fl (fl (a * d) - fl (b * c)) - (fl (a * d) - fl (b * c))) (fl (a * d) - fl (b * c) - (a * d - b * c))
    rw [sub_add_sub_cancel] at h5
    have h6 : |fl (a * d) - fl (b * c)| / 2 ^ 53 ≤ (1 + 1 / 2 ^ 53) * (|a * d| + |b * c|) / 2 ^ 53 := by gcongr
    refine h5.trans ((add_le_add (e3.trans h6) h1).trans (le_of_eq ?_))
    ring
  · intro h
    rw [fl_pos] at h
    by_contra hc
    have := fl_mono (x := a * d) (y := b * c) (by linarith)
    linarith
  · intro h
    have h' : 0 < fl (-(fl (a * d) - fl (b * c))) := by rw [fl_neg]; linarith
    rw [fl_pos] at h'
    by_contra hc
    have := fl_mono (x := b * c) (y := a * d) (by linarith)
    linarith
  · intro h
    rw [sub_eq_zero.1 h, sub_self, fl_zero]

/-! ### inverses -/

theorem inverse2_eq (a b c d : ℚ) (ha : IsDouble a) (hb : IsDouble b) :
    F64.inverse2x2 (matOf !![a, b; c, d]) =
      (if fl (fl (a * d) - fl (b * c)) = 0 then .error .zeroDivision else
        .ok (matOf !![fl (d / fl (fl (a * d) - fl (b * c))), fl (-b / fl (fl (a * d) - fl (b * c)));
          fl (-c / fl (fl (a * d) - fl (b * c))), fl (a / fl (fl (a * d) - fl (b * c)))])) := by
  rw [F64.inverse2x2, if_neg (by simp), det2_eq a b c d ha hb]
  have h11 : (matOf !![a, b; c, d]).getItem 1 1 = .ok d := rfl
  have h01 : (matOf !![a, b; c, d]).getItem 0 1 = .ok b := rfl
  have h10 : (matOf !![a, b; c, d]).getItem 1 0 = .ok c := rfl
  have h00 : (matOf !![a, b; c, d]).getItem 0 0 = .ok a := rfl
  have hm : Mat.new [[d, -b], [-c, a]] = .ok ⟨[[d, -b], [-c, a]]⟩ := rfl
  rw [h11, h01, h10, h00]
  simp only [bind_ok, hm]
  generalize fl (fl (a * d) - fl (b * c)) = x
  by_cases hx : x = 0
  · rw [if_pos hx, M.truediv]
    simp only [pyMap_cons, F64.pyDiv, if_pos hx]
    rfl
  · rw [if_neg hx, M.truediv]
    simp only [pyMap_cons, F64.pyDiv, if_neg hx]
    rfl

/-- **C109** (singular by rounding). C05 does not survive rounding: there is an invertible matrix of doubles whose inverse is not computed, because
its determinant is rounded to zero. -/
theorem C109_rounded_singular : ∃ a b c d : ℚ, IsDouble a ∧ IsDouble b ∧ IsDouble c ∧ IsDouble d ∧ a * d - b * c ≠ 0 ∧
    F64.inverse2x2 (matOf !![a, b; c, d]) = .error .zeroDivision := by
  refine ⟨1 + 1 / 2 ^ 30, 1, 1, 1 - 1 / 2 ^ 30, ⟨2 ^ 30 + 1, -30, by norm_num, by norm_num⟩, ⟨1, 0, by norm_num, by norm_num⟩,
    ⟨1, 0, by norm_num, by norm_num⟩, ⟨2 ^ 30 - 1, -30, by norm_num, by norm_num⟩, by norm_num, ?_⟩
  rw [inverse2_eq _ _ _ _ ⟨2 ^ 30 + 1, -30, by norm_num, by norm_num⟩ ⟨1, 0, by norm_num, by norm_num⟩]
  rw [if_pos]
  decide +kernel

/-- **C109** (inverses). If the determinant of a 2 × 2 matrix of doubles is not too small compared to its two products, that is
`|ad| + |bc| ≤ κ |ad - bc|` with `κ ≤ 2⁵⁰`, then the inverse is computed with a relative error of at most `4 (κ + 1) 2⁻⁵³` in every
entry. -/
theorem C109_inverse {a b c d κ : ℚ} (ha : IsDouble a) (hb : IsDouble b) (h0 : a * d - b * c ≠ 0) (hκ : κ ≤ 2 ^ 50)
    (h : |a * d| + |b * c| ≤ κ * |a * d - b * c|) :
    ∃ B : Matrix (Fin 2) (Fin 2) ℚ, F64.inverse2x2 (matOf !![a, b; c, d]) = .ok (matOf B) ∧
      ∀ i j, |B i j - (!![a, b; c, d]⁻¹ : Matrix (Fin 2) (Fin 2) ℚ) i j| ≤
        4 * (κ + 1) / 2 ^ 53 * |(!![a, b; c, d]⁻¹ : Matrix (Fin 2) (Fin 2) ℚ) i j| := by
  obtain ⟨x, hx, he, -⟩ := C109_det2 a b c d ha hb
  rw [det2_eq a b c d ha hb] at hx
  have hx := Except.ok.inj hx
  rw [inverse2_eq a b c d ha hb, hx]
  set D := a * d - b * c with hD
  have hD0 : 0 < |D| := abs_pos.2 h0
  have hκ1 : 1 ≤ κ := by
    by_contra hc
    have := abs_sub (a * d) (b * c)
    nlinarith
  set ε : ℚ := (2 + 1 / 2 ^ 53) / 2 ^ 53 * κ with hε
  have he' : |x - D| ≤ ε * |D| := by
    refine he.trans ?_
    rw [hε, mul_assoc]
    exact mul_le_mul_of_nonneg_left h (by positivity)
  have hε1 : ε ≤ 1 / 3 := by
    rw [hε]
    calc (2 + 1 / 2 ^ 53) / 2 ^ 53 * κ ≤ (2 + 1 / 2 ^ 53) / 2 ^ 53 * 2 ^ 50 := by gcongr
      _ ≤ 1 / 3 := by norm_num
  have hx1 : (1 - ε) * |D| ≤ |x| := by
    have := abs_sub_abs_le_abs_sub D x
    rw [abs_sub_comm D x] at this
    linarith
  have hx2 : 0 < |x| := lt_of_lt_of_le (by nlinarith) hx1
  have hx0 : x ≠ 0 := abs_pos.1 hx2
  rw [if_neg hx0]
  refine ⟨_, rfl, ?_⟩
  have key : ∀ y : ℚ, |fl (y / x) - y / D| ≤ 4 * (κ + 1) / 2 ^ 53 * |y / D| := by
    intro y
    have e1 := fl_error (y / x)
    have e2 : |y / x - y / D| ≤ ε / (1 - ε) * |y / D| := by
      have : y / x - y / D = y / D * ((D - x) / x) := by field_simp
      rw [this, abs_mul, mul_comm]
      refine mul_le_mul_of_nonneg_right ?_ (abs_nonneg _)
      rw [abs_div, div_le_div_iff₀ hx2 (by linarith), abs_sub_comm]
      calc |x - D| * (1 - ε) ≤ ε * |D| * (1 - ε) := mul_le_mul_of_nonneg_right he' (by linarith)
        _ = ε * ((1 - ε) * |D|) := by ring
        _ ≤ ε * |x| := mul_le_mul_of_nonneg_left hx1 (by positivity)
    have e3 : |y / x| ≤ (1 + ε / (1 - ε)) * |y / D| := by
      have := abs_add_le (y / x - y / D) (y / D)
      rw [sub_add_cancel] at this
      linarith
    have e4 : ε / (1 - ε) ≤ 3 / 2 * ε := by
      rw [div_le_iff₀ (by linarith)]
      have : 0 ≤ ε := by positivity
      nlinarith
    have hε0 : 0 ≤ ε := by positivity
    have e5 : fl (y / x) - y / D = (fl (y / x) - y / x) + (y / x - y / D) := by ring
    rw [e5]
    refine (abs_add_le _ _).trans ?_
    have e6 : |y / x| / 2 ^ 53 ≤ (1 + 3 / 2 * ε) / 2 ^ 53 * |y / D| := by
      rw [div_mul_eq_mul_div]
      refine div_le_div_of_nonneg_right (e3.trans ?_) (by positivity)
      exact mul_le_mul_of_nonneg_right (by linarith) (abs_nonneg _)
    have e7 : |y / x - y / D| ≤ 3 / 2 * ε * |y / D| := e2.trans (mul_le_mul_of_nonneg_right e4 (abs_nonneg _))
    have e8 : (1 + 3 / 2 * ε) / 2 ^ 53 + 3 / 2 * ε ≤ 4 * (κ + 1) / 2 ^ 53 := by
      have h1 : ε ≤ 21 / 10 * κ / 2 ^ 53 := by
        rw [hε, div_mul_eq_mul_div]
        exact div_le_div_of_nonneg_right (mul_le_mul_of_nonneg_right (by norm_num) (by linarith)) (by positivity)
      have h2 : (1 + 3 / 2 * ε) / 2 ^ 53 ≤ (3 / 2) / 2 ^ 53 := div_le_div_of_nonneg_right (by linarith) (by positivity)
      linarith
    calc |fl (y / x) - y / x| + |y / x - y / D| ≤ ((1 + 3 / 2 * ε) / 2 ^ 53 + 3 / 2 * ε) * |y / D| := by
          rw [add_mul]; exact add_le_add (e1.trans e6) e7
      _ ≤ _ := mul_le_mul_of_nonneg_right e8 (abs_nonneg _)
  have hdet : (!![a, b; c, d] : Matrix (Fin 2) (Fin 2) ℚ).det = D := by rw [Matrix.det_fin_two_of]
  have hinv : (!![a, b; c, d]⁻¹ : Matrix (Fin 2) (Fin 2) ℚ) = !![d / D, -b / D; -c / D, a / D] := by
    rw [Matrix.inv_def, hdet, Matrix.adjugate_fin_two_of]
    ext i j
    fin_cases i <;> fin_cases j <;> simp [Ring.inverse_eq_inv', div_eq_inv_mul]
  rw [hinv]
  intro i j
  fin_cases i <;> fin_cases j <;> exact key _

/-! ### norms -/

theorem sqrt_near {q s a η : ℚ} (ha : 0 ≤ a) (h0 : 0 ≤ η) (h1 : η ≤ 1) (h2 : |q - s| ≤ η * s) :
    (a ^ 2 ≤ s → a * (1 - (η + 1 / 2 ^ 52)) ≤ F64.sqrt q) ∧ (s ≤ a ^ 2 → F64.sqrt q ≤ a * (1 + (η + 2 / 2 ^ 52))) := by
  constructor
  · intro h3
    have := (abs_le.1 h2).1
    have h4 : (a * (1 - η)) ^ 2 ≤ q := by
      have : (a * (1 - η)) ^ 2 ≤ a ^ 2 * (1 - η) := by
        rw [mul_pow]
        exact mul_le_mul_of_nonneg_left (by nlinarith) (sq_nonneg a)
      nlinarith
    refine le_trans ?_ (sqrt_ge (mul_nonneg ha (by linarith)) h4)
    have : a * (1 - η) * (1 - 1 / 2 ^ 53) - a * (1 - (η + 1 / 2 ^ 52)) = a * (1 / 2 ^ 53) * (1 + η) := by ring
    have h6 : 0 ≤ a * (1 / 2 ^ 53) * (1 + η) := by positivity
    linarith
  · intro h3
    have := (abs_le.1 h2).2
    have h4 : q ≤ (a * (1 + η)) ^ 2 := by
      have : a ^ 2 * (1 + η) ≤ (a * (1 + η)) ^ 2 := by
        rw [mul_pow]
        exact mul_le_mul_of_nonneg_left (by nlinarith) (sq_nonneg a)
      nlinarith
    have h5 := sqrt_le (mul_nonneg ha (by linarith)) h4
    refine h5.trans ?_
    have : a * (1 + (η + 2 / 2 ^ 52)) - a * (1 + η) * (1 + 1 / 2 ^ 52) = a * (1 / 2 ^ 52) * (1 - η) := by ring
    have h6 : 0 ≤ a * (1 / 2 ^ 52) * (1 - η) := mul_nonneg (by positivity) (by linarith)
    linarith

/-- **C109** (norms). The norms of vectors and matrices have a small relative error: every lower bound `a` and every upper bound
`b` of the exact norm is one of the computed norm up to the factors `1 ∓ (n + 3) 2⁻⁵²`. -/
theorem C109_norm {S : Summation} (hS : Accurate S) {n : ℕ} (hn : n + 1 ≤ 2 ^ 52) (f : Fin n → ℚ) :
    (∀ a, 0 ≤ a → a ^ 2 ≤ ∑ i, f i ^ 2 → a * (1 - (n + 2) / 2 ^ 52) ≤ V.norm S (vecOf f)) ∧
    (∀ b, 0 ≤ b → ∑ i, f i ^ 2 ≤ b ^ 2 → V.norm S (vecOf f) ≤ b * (1 + (n + 3) / 2 ^ 52)) := by
  have h := C109_normsqr hS (by omega) f
  have h1 : ((n : ℚ) + 1) / 2 ^ 52 ≤ 1 := by
    rw [div_le_one (by positivity)]; exact_mod_cast hn
  refine ⟨fun a ha h2 => ?_, fun b hb h2 => ?_⟩
  · refine le_trans (le_of_eq ?_) ((sqrt_near ha (by positivity) h1 h).1 h2)
    ring
  · refine ((sqrt_near hb (by positivity) h1 h).2 h2).trans (le_of_eq ?_)
    ring

theorem C109_matrix_norm {S : Summation} (hS : Accurate S) {sq : ℚ → ℚ} (hq : Squares sq) {r c : ℕ}
    (hn : (r + 1) * c + 2 ≤ 2 ^ 52) (A : Matrix (Fin (r + 1)) (Fin c) ℚ) :
    (∀ a, 0 ≤ a → a ^ 2 ≤ ∑ i, ∑ j, A i j ^ 2 → a * (1 - ((r + 1) * c + 3) / 2 ^ 52) ≤ M.norm S sq (matOf A)) ∧
    (∀ b, 0 ≤ b → ∑ i, ∑ j, A i j ^ 2 ≤ b ^ 2 → M.norm S sq (matOf A) ≤ b * (1 + ((r + 1) * c + 4) / 2 ^ 52)) := by
  have h := C109_matrix_normsqr hS hq (by omega) A
  have h1 : (((r : ℚ) + 1) * c + 2) / 2 ^ 52 ≤ 1 := by
    rw [div_le_one (by positivity)]; exact_mod_cast hn
  refine ⟨fun a ha h2 => ?_, fun b hb h2 => ?_⟩
  · refine le_trans (le_of_eq ?_) ((sqrt_near ha (by positivity) h1 h).1 h2)
    ring
  · refine ((sqrt_near hb (by positivity) h1 h).2 h2).trans (le_of_eq ?_)
    ring

/-! ### laws of arithmetic -/

/-- **C109** (laws). Addition of vectors stays commutative, subtraction antisymmetric, and subtracting a vector from itself gives
zero; multiplying by one and dividing by one change nothing; multiplication by a power of two can be undone. -/
theorem C109_laws {n : ℕ} (f g : Fin n → ℚ) (hf : ∀ i, IsDouble (f i)) (k : ℤ) :
    V.add (vecOf f) (vecOf g) = V.add (vecOf g) (vecOf f) ∧
    V.sub (vecOf g) (vecOf f) = (V.sub (vecOf f) (vecOf g)).map Vec.neg ∧
    V.sub (vecOf f) (vecOf f) = .ok (vecOf fun _ : Fin n => 0) ∧ V.smul (vecOf f) 1 = vecOf f ∧ V.truediv (vecOf f) 1 = .ok (vecOf f) ∧
    V.truediv (V.smul (vecOf f) (2 ^ k)) (2 ^ k) = .ok (vecOf f) := by
  have hdiv : ∀ (h : Fin n → ℚ) (s : ℚ), s ≠ 0 → V.truediv (vecOf h) s = .ok (vecOf fun i => fl (h i / s)) := by
    intro h s hs
    have : pyMap (vecOf h).data (fun x => F64.pyDiv x s) = .ok (List.ofFn fun i => fl (h i / s)) :=
      pyMap_ofFn _ _ fun i => by rw [F64.pyDiv, if_neg hs]
    rw [V.truediv, this]
    rfl
  have hmul : ∀ (h : Fin n → ℚ) (s : ℚ), V.smul (vecOf h) s = vecOf fun i => fl (h i * s) := by
    intro h s
    simp only [V.smul, vecOf, List.map_ofFn, Function.comp_def]
  have hsub : ∀ h h' : Fin n → ℚ, V.sub (vecOf h) (vecOf h') = .ok (vecOf fun i => fl (h i - h' i)) := by
    intro h h'
    rw [V.sub, if_neg (by simp)]
    simp only [vecOf, zipWith_ofFn]
  refine ⟨?_, ?_, ?_, ?_, ?_, ?_⟩
  · rw [V.add, V.add, if_neg (by simp), if_neg (by simp)]
    simp only [vecOf, zipWith_ofFn, add_comm]
  · rw [hsub, hsub]
    simp only [Except.map, Vec.neg, vecOf, List.map_ofFn, Function.comp_def]
    congr 3
    funext i
    rw [← fl_neg, neg_sub]
  · rw [hsub]
    simp only [sub_self, fl_zero]
  · rw [hmul]
    simp only [mul_one, fl_double (hf _)]
  · rw [hdiv _ _ one_ne_zero]
    simp only [div_one, fl_double (hf _)]
  · have h2 : ((2 : ℚ) ^ k) ≠ 0 := by positivity
    have hd : ∀ i, IsDouble (f i * 2 ^ k) := by
      intro i
      obtain ⟨m, e, hm, he⟩ := hf i
      exact ⟨m, e + k, hm, by rw [he, zpow_add₀ (by norm_num), mul_assoc]⟩
    rw [hmul, hdiv _ _ h2]
    simp only [fl_double (hd _), mul_div_cancel_right₀ _ h2, fl_double (hf _)]

/-- Addition of vectors of doubles is not associative. -/
theorem C109_not_associative : ∃ a b c : Fin 1 → ℚ, (∀ i, IsDouble (a i) ∧ IsDouble (b i) ∧ IsDouble (c i)) ∧
    (V.add (vecOf a) (vecOf b) >>= fun x => V.add x (vecOf c)) ≠
      (V.add (vecOf b) (vecOf c) >>= fun x => V.add (vecOf a) x) := by
  refine ⟨![1], ![1 / 2 ^ 53], ![1 / 2 ^ 53], fun i => ?_, ?_⟩
  · have h : IsDouble (1 / 2 ^ 53) := ⟨1, -53, by norm_num, by norm_num⟩
    fin_cases i
    exact ⟨⟨1, 0, by norm_num, by norm_num⟩, h, h⟩
  · decide +kernel

/-! ### examples -/

/-- the summation from left to right, squares rounded correctly: the contracts can be met -/
example : Accurate sum311 ∧ Squares fun x => fl (x ^ 2) := by
  refine ⟨C108_sum, fun x => (fl_error _).trans ?_⟩
  rw [abs_of_nonneg (sq_nonneg x)]
  exact div_le_div_of_nonneg_left (sq_nonneg x) (by norm_num) (by norm_num)

/-- `0.1 + 0.2` in doubles -/
example : ∃ x, V.add ⟨[fl (1 / 10)]⟩ ⟨[fl (2 / 10)]⟩ = .ok ⟨[x]⟩ ∧ x ≠ fl (3 / 10) := by
  refine ⟨fl (fl (1 / 10) + fl (2 / 10)), rfl, ?_⟩
  decide +kernel

/-- the determinant of a matrix of decimal fractions is not exact -/
example : ∃ x, M.det (matOf !![fl (1 / 10), fl (3 / 10); fl (3 / 10), fl (9 / 10)]) = .ok x ∧ x ≠ 0 ∧ |x| ≤ 1 / 10 ^ 16 := by
  refine ⟨_, det2_eq _ _ _ _ (isDouble_fl _) (isDouble_fl _), ?_, ?_⟩ <;> decide +kernel

/-- all hypotheses of `C109_inverse` for the strain of a simple shear -/
example : ∃ B : Matrix (Fin 2) (Fin 2) ℚ, F64.inverse2x2 (matOf !![1, 1 / 2; 0, 1]) = .ok (matOf B) ∧
    ∀ i j, |B i j - (!![1, 1 / 2; 0, 1]⁻¹ : Matrix (Fin 2) (Fin 2) ℚ) i j| ≤
      4 * (1 + 1) / 2 ^ 53 * |(!![1, 1 / 2; 0, 1]⁻¹ : Matrix (Fin 2) (Fin 2) ℚ) i j| :=
  C109_inverse ⟨1, 0, by norm_num, by norm_num⟩ ⟨1, -1, by norm_num, by norm_num⟩ (by norm_num) (by norm_num) (by norm_num)

example : (17 : ℕ).factorial ≤ 2 ^ 52 := by decide

end Tve
