import Verif.Lemmas.RegConsistency
import Mathlib.Analysis.InnerProductSpace.PiL2

/-!
# Lipschitz bounds for the dissipation and the hyper elastic potential
-/

namespace Tve

open Helpers

/-- value of the dissipation potential -/
noncomputable def dissVal (F₀ F : Matrix (Fin 2) (Fin 2) ℝ) : ℝ :=
  (∑ i, ∑ j, ((F - F₀).transpose * F₀ + F₀.transpose * (F - F₀)) i j ^ 2) / 2

noncomputable def dissE (F₀ F : Matrix (Fin 2) (Fin 2) ℝ) (i j : Fin 2) : ℝ :=
  ((F - F₀).transpose * F₀ + F₀.transpose * (F - F₀)) i j

theorem dissE_eq (F₀ F : Matrix (Fin 2) (Fin 2) ℝ) (i j : Fin 2) : dissE F₀ F i j =
    (F 0 i * F₀ 0 j + F 1 i * F₀ 1 j) + (F₀ 0 i * F 0 j + F₀ 1 i * F 1 j) - 2 * (F₀ 0 i * F₀ 0 j + F₀ 1 i * F₀ 1 j) := by
  simp only [dissE, Matrix.add_apply, Matrix.mul_apply, Matrix.transpose_apply, Matrix.sub_apply, Fin.sum_univ_two]
  ring

theorem prod_bound {a b M : ℝ} (ha : |a| ≤ M) (hb : |b| ≤ M) : |a * b| ≤ M ^ 2 := by
  rw [abs_mul, sq]
  exact mul_le_mul ha hb (abs_nonneg _) ((abs_nonneg _).trans ha)

theorem prod_close {a b a' b' M e : ℝ} (ha : |a| ≤ M) (hb : |b'| ≤ M) (h1 : |a - a'| ≤ e) (h2 : |b - b'| ≤ e) :
    |a * b - a' * b'| ≤ 2 * M * e := by
  rw [show a * b - a' * b' = a * (b - b') + (a - a') * b' by ring]
  have hM := (abs_nonneg _).trans ha
  refine (abs_add_le _ _).trans ?_
  rw [abs_mul, abs_mul]
  have i1 := mul_le_mul ha h2 (abs_nonneg _) hM
  have i2 := mul_le_mul h1 hb (abs_nonneg _) ((abs_nonneg _).trans h1)
  linarith

theorem dissE_bound {F₀ F : Matrix (Fin 2) (Fin 2) ℝ} {M : ℝ} (h0 : ∀ i j, |F₀ i j| ≤ M) (h : ∀ i j, |F i j| ≤ M) (i j : Fin 2) :
    |dissE F₀ F i j| ≤ 8 * M ^ 2 := by
  rw [dissE_eq]
  have a1 := abs_le.1 (prod_bound (h 0 i) (h0 0 j))
  have a2 := abs_le.1 (prod_bound (h 1 i) (h0 1 j))
  have a3 := abs_le.1 (prod_bound (h0 0 i) (h 0 j))
  have a4 := abs_le.1 (prod_bound (h0 1 i) (h 1 j))
  have a5 := abs_le.1 (prod_bound (h0 0 i) (h0 0 j))
  have a6 := abs_le.1 (prod_bound (h0 1 i) (h0 1 j))
  rw [abs_le]
  constructor <;> linarith [a1.1, a1.2, a2.1, a2.2, a3.1, a3.2, a4.1, a4.2, a5.1, a5.2, a6.1, a6.2]

theorem dissE_close {F₀ F F₀' F' : Matrix (Fin 2) (Fin 2) ℝ} {M e : ℝ} (h0 : ∀ i j, |F₀ i j| ≤ M) (h : ∀ i j, |F i j| ≤ M)
    (h0' : ∀ i j, |F₀' i j| ≤ M) (h' : ∀ i j, |F' i j| ≤ M) (c0 : ∀ i j, |F₀ i j - F₀' i j| ≤ e)
    (c : ∀ i j, |F i j - F' i j| ≤ e) (i j : Fin 2) : |dissE F₀ F i j - dissE F₀' F' i j| ≤ 16 * M * e := by
  rw [dissE_eq, dissE_eq]
  have a1 := abs_le.1 (prod_close (h 0 i) (h0' 0 j) (c 0 i) (c0 0 j))
  have a2 := abs_le.1 (prod_close (h 1 i) (h0' 1 j) (c 1 i) (c0 1 j))
  have a3 := abs_le.1 (prod_close (h0 0 i) (h' 0 j) (c0 0 i) (c 0 j))
  have a4 := abs_le.1 (prod_close (h0 1 i) (h' 1 j) (c0 1 i) (c 1 j))
  have a5 := abs_le.1 (prod_close (h0 0 i) (h0' 0 j) (c0 0 i) (c0 0 j))
  have a6 := abs_le.1 (prod_close (h0 1 i) (h0' 1 j) (c0 1 i) (c0 1 j))
  rw [abs_le]
  constructor <;> linarith [a1.1, a1.2, a2.1, a2.2, a3.1, a3.2, a4.1, a4.2, a5.1, a5.2, a6.1, a6.2]

theorem dissVal_eq (F₀ F : Matrix (Fin 2) (Fin 2) ℝ) : dissVal F₀ F =
    (dissE F₀ F 0 0 ^ 2 + dissE F₀ F 0 1 ^ 2 + (dissE F₀ F 1 0 ^ 2 + dissE F₀ F 1 1 ^ 2)) / 2 := by
  simp only [dissVal, dissE, Fin.sum_univ_two]

theorem dissVal_bound {F₀ F : Matrix (Fin 2) (Fin 2) ℝ} {M : ℝ} (h0 : ∀ i j, |F₀ i j| ≤ M) (h : ∀ i j, |F i j| ≤ M) :
    |dissVal F₀ F| ≤ 128 * M ^ 4 := by
  have sq' : ∀ i j, 0 ≤ dissE F₀ F i j ^ 2 ∧ dissE F₀ F i j ^ 2 ≤ 64 * M ^ 4 := fun i j => by
    refine ⟨sq_nonneg _, ?_⟩
    have := pow_le_pow_left₀ (abs_nonneg _) (dissE_bound h0 h i j) 2
    rw [sq_abs] at this
    calc _ ≤ _ := this
      _ = 64 * M ^ 4 := by ring
  rw [dissVal_eq, abs_le]
  constructor <;> linarith [sq' 0 0, sq' 0 1, sq' 1 0, sq' 1 1, (sq' 0 0).1, (sq' 0 1).1, (sq' 1 0).1, (sq' 1 1).1,
    (sq' 0 0).2, (sq' 0 1).2, (sq' 1 0).2, (sq' 1 1).2]

theorem dissVal_close {F₀ F F₀' F' : Matrix (Fin 2) (Fin 2) ℝ} {M e : ℝ} (h0 : ∀ i j, |F₀ i j| ≤ M) (h : ∀ i j, |F i j| ≤ M)
    (h0' : ∀ i j, |F₀' i j| ≤ M) (h' : ∀ i j, |F' i j| ≤ M) (c0 : ∀ i j, |F₀ i j - F₀' i j| ≤ e)
    (c : ∀ i j, |F i j - F' i j| ≤ e) : |dissVal F₀ F - dissVal F₀' F'| ≤ 512 * M ^ 3 * e := by
  have k : ∀ i j, |dissE F₀ F i j ^ 2 - dissE F₀' F' i j ^ 2| ≤ 256 * M ^ 3 * e := fun i j => by
    rw [sq_sub_sq, abs_mul]
    have e1 : |dissE F₀ F i j + dissE F₀' F' i j| ≤ 16 * M ^ 2 :=
      (abs_add_le _ _).trans (by linarith [dissE_bound h0 h i j, dissE_bound h0' h' i j])
    have := mul_le_mul e1 (dissE_close h0 h h0' h' c0 c i j) (abs_nonneg _) (by positivity)
    calc _ ≤ _ := this
      _ = _ := by ring
  rw [dissVal_eq, dissVal_eq]
  have k1 := abs_le.1 (k 0 0)
  have k2 := abs_le.1 (k 0 1)
  have k3 := abs_le.1 (k 1 0)
  have k4 := abs_le.1 (k 1 1)
  rw [abs_le]
  constructor <;> linarith [k1.1, k1.2, k2.1, k2.2, k3.1, k3.2, k4.1, k4.2]

/-- the second derivatives as a vector with eight entries -/
noncomputable def hyperVec (H : Fin 2 → Fin 2 → Fin 2 → ℝ) : EuclideanSpace ℝ (Fin 2 × Fin 2 × Fin 2) :=
  WithLp.toLp 2 fun p => H p.1 p.2.1 p.2.2

theorem hyper_norm (H : Fin 2 → Fin 2 → Fin 2 → ℝ) : hyperElasticPotential (tenOf H) = ‖hyperVec H‖ ^ 3 := by
  rw [hyper_eq, EuclideanSpace.norm_eq]
  congr 2
  simp only [Fintype.sum_prod_type, hyperVec, Real.norm_eq_abs, sq_abs]

theorem hyperVec_le {H : Fin 2 → Fin 2 → Fin 2 → ℝ} {M : ℝ} (h : ∀ k i j, |H k i j| ≤ M) : ‖hyperVec H‖ ≤ √8 * M := by
  have hM : 0 ≤ M := (abs_nonneg _).trans (h 0 0 0)
  rw [EuclideanSpace.norm_eq]
  refine Real.sqrt_le_iff.2 ⟨by positivity, ?_⟩
  rw [mul_pow, Real.sq_sqrt (by norm_num)]
  calc _ ≤ ∑ _p : Fin 2 × Fin 2 × Fin 2, M ^ 2 := Finset.sum_le_sum fun p _ => by
        rw [Real.norm_eq_abs]; exact pow_le_pow_left₀ (abs_nonneg _) (h _ _ _) 2
    _ = 8 * M ^ 2 := by simp

theorem hyper_close {H H' : Fin 2 → Fin 2 → Fin 2 → ℝ} {M e : ℝ} (h : ∀ k i j, |H k i j| ≤ M) (h' : ∀ k i j, |H' k i j| ≤ M)
    (c : ∀ k i j, |H k i j - H' k i j| ≤ e) :
    |hyperElasticPotential (tenOf H) - hyperElasticPotential (tenOf H')| ≤ 72 * M ^ 2 * e := by
  have hM : 0 ≤ M := (abs_nonneg _).trans (h 0 0 0)
  have he : 0 ≤ e := (abs_nonneg _).trans (c 0 0 0)
  have a := hyperVec_le h
  have b := hyperVec_le h'
  have s3 : √8 ≤ 3 := Real.sqrt_le_iff.2 ⟨by norm_num, by norm_num⟩
  have s2 : √8 ^ 2 = 8 := Real.sq_sqrt (by norm_num)
  have d : |‖hyperVec H‖ - ‖hyperVec H'‖| ≤ 3 * e := by
    refine (abs_norm_sub_norm_le _ _).trans ?_
    have : hyperVec H - hyperVec H' = hyperVec fun k i j => H k i j - H' k i j := rfl
    rw [this]
    exact (hyperVec_le c).trans (mul_le_mul_of_nonneg_right s3 he)
  rw [hyper_norm, hyper_norm]
  set x := ‖hyperVec H‖
  set y := ‖hyperVec H'‖
  have hx : 0 ≤ x := norm_nonneg _
  have hy : 0 ≤ y := norm_nonneg _
  have q : x ^ 2 + x * y + y ^ 2 ≤ 24 * M ^ 2 := by
    have m : ∀ u v : ℝ, 0 ≤ u → u ≤ √8 * M → 0 ≤ v → v ≤ √8 * M → u * v ≤ 8 * M ^ 2 := fun u v u0 u1 v0 v1 =>
      calc u * v ≤ (√8 * M) * (√8 * M) := mul_le_mul u1 v1 v0 (by positivity)
        _ = √8 ^ 2 * M ^ 2 := by ring
        _ = 8 * M ^ 2 := by rw [s2]
    have := m x x hx a hx a
    have := m x y hx a hy b
    have := m y y hy b hy b
    nlinarith
  rw [show x ^ 3 - y ^ 3 = (x ^ 2 + x * y + y ^ 2) * (x - y) by ring, abs_mul, abs_of_nonneg (by positivity)]
  calc _ ≤ 24 * M ^ 2 * (3 * e) := mul_le_mul q d (abs_nonneg _) (by positivity)
    _ = _ := by ring

theorem hyper_bound {H : Fin 2 → Fin 2 → Fin 2 → ℝ} {M : ℝ} (h : ∀ k i j, |H k i j| ≤ M) :
    |hyperElasticPotential (tenOf H)| ≤ 24 * M ^ 3 := by
  have hM : 0 ≤ M := (abs_nonneg _).trans (h 0 0 0)
  rw [hyper_norm, abs_of_nonneg (by positivity)]
  have s3 : √8 ≤ 3 := Real.sqrt_le_iff.2 ⟨by norm_num, by norm_num⟩
  have s2 : √8 ^ 2 = 8 := Real.sq_sqrt (by norm_num)
  calc ‖hyperVec H‖ ^ 3 ≤ (√8 * M) ^ 3 := pow_le_pow_left₀ (norm_nonneg _) (hyperVec_le h) 3
    _ = √8 ^ 2 * (√8 * M ^ 3) := by ring
    _ = 8 * (√8 * M ^ 3) := by rw [s2]
    _ ≤ 8 * (3 * M ^ 3) := by gcongr
    _ = _ := by ring

end Tve
