import Verif.Lemmas.Helpers
import Verif.Props.Tensors
import Mathlib.LinearAlgebra.Matrix.PosDef
import Mathlib.Analysis.Calculus.FDeriv.Pi
import Mathlib.Algebra.Order.Star.Real

/-!
# Properties of the potentials (C46 – C54)

Strains are real `2 × 2` matrices `F`, the Python object is `matOf F`. A rotation is a matrix `R` with `Rᵀ * R = 1` and
`R.det = 1`.
-/

set_option linter.unusedSimpArgs false

namespace Tve
open Helpers Filter Topology

/-- rotations of the plane -/
def IsRotation (R : Matrix (Fin 2) (Fin 2) ℝ) : Prop := R.transpose * R = 1 ∧ R.det = 1

/-- the rotation by a quarter turn -/
example : IsRotation !![0, -1; 1, 0] := by
  constructor
  · ext i j; fin_cases i <;> fin_cases j <;> simp [Matrix.mul_apply, Fin.sum_univ_succ]
  · simp [Matrix.det_fin_two]

/-! ### C46 -/

/-- C46: the austenite percentage never fails, is 0 at 0, strictly increasing, with values in [0, 1) for nonnegative
temperatures, and tends to 1. -/
theorem C46_percentage : ∃ a : ℝ → ℝ, (∀ t, austenitePercentage t = .ok (a t)) ∧ a 0 = 0 ∧ StrictMono a ∧
    (∀ t, 0 ≤ t → 0 ≤ a t ∧ a t < 1) ∧ Tendsto a atTop (𝓝 1) := by
  refine ⟨fun t => 1 - Real.exp (-5 * t), aust_eq, by simp, ?_, ?_, ?_⟩
  · intro s t h
    have := Real.exp_lt_exp.mpr (show -5 * t < -5 * s by linarith)
    simp only; linarith
  · intro t ht
    have h1 := Real.exp_pos (-5 * t)
    have h2 := Real.exp_le_one_iff.mpr (show -5 * t ≤ 0 by linarith)
    constructor <;> simp only <;> linarith
  · have h0 : Tendsto (fun t : ℝ => -5 * t) atTop atBot := tendsto_id.const_mul_atTop_of_neg (by norm_num)
    have h1 := Real.tendsto_exp_atBot.comp h0
    have := h1.const_sub 1
    simpa using this

/-! ### C47 -/

/-- C47: with `a` the austenite percentage, the internal energy weight is `a(t) - t a'(t)`; it is nonnegative and
increasing for nonnegative temperatures; the antiderivative vanishes at 0 and has the weight as derivative. -/
theorem C47_weight : ∃ a a' w A : ℝ → ℝ, (∀ t, austenitePercentage t = .ok (a t)) ∧
    (∀ t, internalEnergyWeight t = .ok (w t)) ∧ (∀ t, antiderInternalEnergyWeight t = .ok (A t)) ∧
    (∀ t, HasDerivAt a (a' t) t) ∧ (∀ t, w t = a t - t * a' t) ∧
    (∀ t, 0 ≤ t → 0 ≤ w t) ∧ MonotoneOn w (Set.Ici 0) ∧
    A 0 = 0 ∧ ∀ t, HasDerivAt A (w t) t := by
  have hexp : ∀ t : ℝ, HasDerivAt (fun t : ℝ => Real.exp (-5 * t)) (-5 * Real.exp (-5 * t)) t := by
    intro t
    have h0 : HasDerivAt (fun t : ℝ => -5 * t) (-5) t := by simpa using (hasDerivAt_id t).const_mul (-5 : ℝ)
    refine h0.exp.congr_deriv (by ring)
  have hmono : MonotoneOn (fun t => 1 - Real.exp (-5 * t) - t * (5 * Real.exp (-5 * t))) (Set.Ici (0 : ℝ)) := by
    have hd : ∀ t : ℝ, HasDerivAt (fun t => 1 - Real.exp (-5 * t) - t * (5 * Real.exp (-5 * t)))
        (25 * t * Real.exp (-5 * t)) t := by
      intro t
      have := ((hexp t).const_sub 1).sub ((hasDerivAt_id t).mul ((hexp t).const_mul 5))
      refine this.congr_deriv ?_
      simp only [id]; ring
    apply monotoneOn_of_deriv_nonneg (convex_Ici 0)
    · exact fun x _ => (hd x).continuousAt.continuousWithinAt
    · exact fun x _ => (hd x).differentiableAt.differentiableWithinAt
    · intro x hx
      rw [interior_Ici, Set.mem_Ioi] at hx
      rw [(hd x).deriv]
      have := Real.exp_pos (-5 * x)
      positivity
  refine ⟨fun t => 1 - Real.exp (-5 * t), fun t => 5 * Real.exp (-5 * t),
    fun t => 1 - Real.exp (-5 * t) - t * (5 * Real.exp (-5 * t)), anti, aust_eq, weight_eq, antider_eq, ?_,
    fun _ => rfl, ?_, hmono, by simp [anti], anti_deriv⟩
  · intro t
    exact ((hexp t).const_sub 1).congr_deriv (by ring)
  · intro t ht
    have := hmono (Set.mem_Ici.mpr le_rfl) (Set.mem_Ici.mpr ht) ht
    simpa using this

/-- C47: the antiderivative in closed form. -/
theorem C47_closed_form (t : ℝ) : antiderInternalEnergyWeight t =
    .ok (t - 2 / 5 * (1 - Real.exp (-5 * t)) + t * Real.exp (-5 * t)) := antider_eq t

/-! ### C48 -/

theorem isRotation_iff (F : Matrix (Fin 2) (Fin 2) ℝ) :
    IsRotation F ↔ F.det = 1 ∧ F 0 0 = F 1 1 ∧ F 0 1 = -F 1 0 := by
  rw [Matrix.det_fin_two]
  constructor
  · rintro ⟨h, hd⟩
    rw [Matrix.det_fin_two] at hd
    have e00 := congrFun (congrFun h 0) 0
    have e01 := congrFun (congrFun h 0) 1
    have e11 := congrFun (congrFun h 1) 1
    simp [Matrix.mul_apply, Fin.sum_univ_succ] at e00 e01 e11
    have hs : (F 0 0 - F 1 1) ^ 2 + (F 0 1 + F 1 0) ^ 2 = 0 := by nlinarith
    have h1 : F 0 0 - F 1 1 = 0 := by nlinarith [sq_nonneg (F 0 0 - F 1 1), sq_nonneg (F 0 1 + F 1 0)]
    have h2 : F 0 1 + F 1 0 = 0 := by nlinarith [sq_nonneg (F 0 0 - F 1 1), sq_nonneg (F 0 1 + F 1 0)]
    exact ⟨hd, by linarith, by linarith⟩
  · rintro ⟨hd, h1, h2⟩
    refine ⟨?_, by rw [Matrix.det_fin_two]; exact hd⟩
    rw [h1, h2] at hd
    ext i j
    fin_cases i <;> fin_cases j <;> simp [Matrix.mul_apply, Fin.sum_univ_succ, h1, h2] <;> nlinarith

theorem fsq_ge (F : Matrix (Fin 2) (Fin 2) ℝ) : fsq F - 2 * F.det = (F 0 0 - F 1 1) ^ 2 + (F 0 1 + F 1 0) ^ 2 := by
  rw [Matrix.det_fin_two, fsq]; ring

theorem wA_ge {F : Matrix (Fin 2) (Fin 2) ℝ} (h : 0 < F.det) :
    (F.det - 1) ^ 2 + (F 0 0 - F 1 1) ^ 2 + (F 0 1 + F 1 0) ^ 2 ≤ wA F := by
  have := Real.log_le_sub_one_of_pos h
  have := fsq_ge F
  rw [wA]; linarith

/-- C48: for strains with positive determinant the austenite potential is defined, nonnegative, and zero exactly for the
rotations. -/
theorem C48_well (F : Matrix (Fin 2) (Fin 2) ℝ) (h : 0 < F.det) :
    ∃ w, austenitePotential (matOf F) = .ok w ∧ 0 ≤ w ∧ (w = 0 ↔ IsRotation F) := by
  refine ⟨wA F, austPot_eq h, ?_, ?_⟩
  · have := wA_ge h; nlinarith [sq_nonneg (F.det - 1), sq_nonneg (F 0 0 - F 1 1), sq_nonneg (F 0 1 + F 1 0)]
  · rw [isRotation_iff]
    constructor
    · intro h0
      have := wA_ge h
      rw [h0] at this
      have s1 := sq_nonneg (F.det - 1)
      have s2 := sq_nonneg (F 0 0 - F 1 1)
      have s3 := sq_nonneg (F 0 1 + F 1 0)
      have z1 : F.det - 1 = 0 := pow_eq_zero_iff (two_ne_zero) |>.mp (by linarith)
      have z2 : F 0 0 - F 1 1 = 0 := pow_eq_zero_iff (two_ne_zero) |>.mp (by linarith)
      have z3 : F 0 1 + F 1 0 = 0 := pow_eq_zero_iff (two_ne_zero) |>.mp (by linarith)
      exact ⟨by linarith, by linarith, by linarith⟩
    · rintro ⟨hd, h1, h2⟩
      have := fsq_ge F
      rw [h1, h2, hd] at this
      rw [wA, hd]
      simp
      linarith

/-- C48: the potential is undefined (`ValueError`) for all other strains. -/
theorem C48_undefined (F : Matrix (Fin 2) (Fin 2) ℝ) (h : F.det ≤ 0) :
    austenitePotential (matOf F) = .error .valueError := austPot_err h

/-- the identity lies in the austenite well, a stretched state does not, a reflection has no energy -/
example : austenitePotential (matOf !![(1 : ℝ), 0; 0, 1]) = .ok 0 ∧
    austenitePotential (matOf !![(2 : ℝ), 0; 0, 1]) ≠ .ok 0 ∧
    austenitePotential (matOf !![(-1 : ℝ), 0; 0, 1]) = .error .valueError := by
  refine ⟨?_, ?_, C48_undefined _ (by simp [Matrix.det_fin_two])⟩
  · obtain ⟨w, h, -, hw⟩ := C48_well !![1, 0; 0, 1] (by simp [Matrix.det_fin_two])
    rw [h, hw.2 ⟨by ext i j; fin_cases i <;> fin_cases j <;> simp [Matrix.mul_apply, Fin.sum_univ_succ],
      by simp [Matrix.det_fin_two]⟩]
  · obtain ⟨w, h, -, hw⟩ := C48_well !![2, 0; 0, 1] (by simp [Matrix.det_fin_two])
    rw [h]
    intro e
    have hr := hw.1 (Except.ok.inj e)
    have := hr.2
    norm_num [Matrix.det_fin_two] at this

theorem fsq_rot_left {R : Matrix (Fin 2) (Fin 2) ℝ} (hR : IsRotation R) (F : Matrix (Fin 2) (Fin 2) ℝ) :
    fsq (R * F) = fsq F := by
  have hd := hR.2
  obtain ⟨-, h1, h2⟩ := (isRotation_iff R).mp hR
  rw [Matrix.det_fin_two, h1, h2] at hd
  have hd' : R 1 1 ^ 2 = 1 - R 1 0 ^ 2 := by linarith
  simp only [fsq, Matrix.mul_apply, Fin.sum_univ_two, h1, h2]
  ring_nf
  simp only [hd']
  ring

theorem fsq_rot_right {R : Matrix (Fin 2) (Fin 2) ℝ} (hR : IsRotation R) (F : Matrix (Fin 2) (Fin 2) ℝ) :
    fsq (F * R) = fsq F := by
  have hd := hR.2
  obtain ⟨-, h1, h2⟩ := (isRotation_iff R).mp hR
  rw [Matrix.det_fin_two, h1, h2] at hd
  have hd' : R 1 1 ^ 2 = 1 - R 1 0 ^ 2 := by linarith
  simp only [fsq, Matrix.mul_apply, Fin.sum_univ_two, h1, h2]
  ring_nf
  simp only [hd']
  ring

/-- C48: the potential does not change when the strain is composed with a rotation on either side. -/
theorem C48_invariance (F R : Matrix (Fin 2) (Fin 2) ℝ) (hR : IsRotation R) :
    austenitePotential (matOf (R * F)) = austenitePotential (matOf F) ∧
    austenitePotential (matOf (F * R)) = austenitePotential (matOf F) := by
  have h1 : (R * F).det = F.det := by rw [Matrix.det_mul, hR.2, one_mul]
  have h2 : (F * R).det = F.det := by rw [Matrix.det_mul, hR.2, mul_one]
  rcases le_or_gt F.det 0 with h | h
  · rw [austPot_err h, austPot_err (by rw [h1]; exact h), austPot_err (by rw [h2]; exact h)]
    exact ⟨rfl, rfl⟩
  · rw [austPot_eq h, austPot_eq (by rw [h1]; exact h), austPot_eq (by rw [h2]; exact h), wA, wA, wA, h1, h2,
      fsq_rot_left hR, fsq_rot_right hR]
    exact ⟨rfl, rfl⟩

/-! ### C49 -/

/-- C49: for invertible strains the martensite potential is defined and nonnegative; for singular ones it raises. -/
theorem C49_nonneg (F : Matrix (Fin 2) (Fin 2) ℝ) :
    (F.det ≠ 0 → ∃ w, martensitePotential (matOf F) = .ok w ∧ 0 ≤ w) ∧
    (F.det = 0 → martensitePotential (matOf F) = .error .zeroDivision) :=
  ⟨fun h => ⟨wM F, martPot_eq h, by rw [wM]; positivity⟩, martPot_err⟩

theorem wM_zero {F : Matrix (Fin 2) (Fin 2) ℝ} (h : F.det ≠ 0) :
    wM F = 0 ↔ F.det = 1 ∧ fsq F = 9 / 4 := by
  constructor
  · intro h0
    rw [wM] at h0
    have s1 := sq_nonneg (fsq F / F.det - 9 / 4)
    have s2 := sq_nonneg (F.det ^ 2 + 1 / F.det ^ 2 - 2)
    have z1 : fsq F / F.det - 9 / 4 = 0 := pow_eq_zero_iff two_ne_zero |>.mp (by linarith)
    have z2 : F.det ^ 2 + 1 / F.det ^ 2 - 2 = 0 := pow_eq_zero_iff two_ne_zero |>.mp (by linarith)
    have z3 : (F.det ^ 2 - 1) ^ 2 = 0 := by
      have : F.det ^ 2 * (F.det ^ 2 + 1 / F.det ^ 2 - 2) = (F.det ^ 2 - 1) ^ 2 := by field_simp; ring
      rw [← this, z2, mul_zero]
    have z4 : F.det ^ 2 - 1 = 0 := pow_eq_zero_iff two_ne_zero |>.mp z3
    have hf : 0 ≤ fsq F := by rw [fsq]; positivity
    have z5 : (F.det - 1) * (F.det + 1) = 0 := by linarith
    rcases mul_eq_zero.mp z5 with h1 | h1
    · have hd : F.det = 1 := by linarith
      rw [hd] at z1
      exact ⟨hd, by linarith⟩
    · have hd : F.det = -1 := by linarith
      rw [hd] at z1
      exfalso; linarith
  · rintro ⟨hd, hf⟩
    rw [wM, hd, hf]; norm_num

/-- C49: at the two documented variants, rotated arbitrarily, the potential is zero. -/
theorem C49_wells (R : Matrix (Fin 2) (Fin 2) ℝ) (hR : IsRotation R) :
    martensitePotential (matOf (R * !![1, 1 / 2; 0, 1])) = .ok 0 ∧
    martensitePotential (matOf (R * !![1, -(1 / 2); 0, 1])) = .ok 0 := by
  have key : ∀ a : ℝ, a ^ 2 = 1 / 4 → martensitePotential (matOf (R * !![1, a; 0, 1])) = .ok 0 := by
    intro a ha
    have h1 : (R * !![1, a; 0, 1]).det = 1 := by rw [Matrix.det_mul, hR.2]; simp [Matrix.det_fin_two]
    have h0 : (R * !![1, a; 0, 1]).det ≠ 0 := by rw [h1]; exact one_ne_zero
    rw [martPot_eq h0, (wM_zero h0).mpr ⟨h1, by rw [fsq_rot_left hR]; simp [fsq, ha]; norm_num⟩]
  exact ⟨key _ (by norm_num), key _ (by norm_num)⟩

/-- C49: the potential does not change when the strain is composed with a rotation on either side. -/
theorem C49_invariance (F R : Matrix (Fin 2) (Fin 2) ℝ) (hR : IsRotation R) :
    martensitePotential (matOf (R * F)) = martensitePotential (matOf F) ∧
    martensitePotential (matOf (F * R)) = martensitePotential (matOf F) := by
  have h1 : (R * F).det = F.det := by rw [Matrix.det_mul, hR.2, one_mul]
  have h2 : (F * R).det = F.det := by rw [Matrix.det_mul, hR.2, mul_one]
  by_cases h : F.det = 0
  · rw [martPot_err h, martPot_err (h1.trans h), martPot_err (h2.trans h)]
    exact ⟨rfl, rfl⟩
  · rw [martPot_eq h, martPot_eq (by rw [h1]; exact h), martPot_eq (by rw [h2]; exact h), wM, wM, wM, h1, h2,
      fsq_rot_left hR, fsq_rot_right hR]
    exact ⟨rfl, rfl⟩

/-- C49, the claim "and nowhere else" fails: the transposed first variant is not a rotation of either variant, but the
potential is zero there. -/
theorem C49_only_wells_false : ∃ F : Matrix (Fin 2) (Fin 2) ℝ, martensitePotential (matOf F) = .ok 0 ∧
    ∀ R, IsRotation R → F ≠ R * !![1, 1 / 2; 0, 1] ∧ F ≠ R * !![1, -(1 / 2); 0, 1] := by
  refine ⟨!![1, 0; 1 / 2, 1], ?_, ?_⟩
  · have h1 : (!![1, 0; 1 / 2, 1] : Matrix (Fin 2) (Fin 2) ℝ).det = 1 := by simp [Matrix.det_fin_two]
    have h0 : (!![1, 0; 1 / 2, 1] : Matrix (Fin 2) (Fin 2) ℝ).det ≠ 0 := by rw [h1]; exact one_ne_zero
    rw [martPot_eq h0, (wM_zero h0).mpr ⟨h1, by simp [fsq]; norm_num⟩]
  · intro R hR
    have hd := hR.2
    obtain ⟨-, h1, h2⟩ := (isRotation_iff R).mp hR
    rw [Matrix.det_fin_two, h1, h2] at hd
    constructor
    · intro e
      have e00 := congrFun (congrFun e 0) 0
      have e10 := congrFun (congrFun e 1) 0
      simp [Matrix.mul_apply, Fin.sum_univ_two, h1, h2] at e00 e10
      rw [← e00, ← e10] at hd
      norm_num at hd
    · intro e
      have e00 := congrFun (congrFun e 0) 0
      have e10 := congrFun (congrFun e 1) 0
      simp [Matrix.mul_apply, Fin.sum_univ_two, h1, h2] at e00 e10
      rw [← e00, ← e10] at hd
      norm_num at hd

theorem half_angle {x y : ℝ} (h : x ^ 2 + y ^ 2 = 1) : ∃ c s : ℝ, c ^ 2 + s ^ 2 = 1 ∧ c ^ 2 - s ^ 2 = x ∧
    2 * c * s = y := by
  have hx1 : -1 ≤ x := by nlinarith [sq_nonneg y]
  have hx2 : x ≤ 1 := by nlinarith [sq_nonneg y]
  have hc := Real.sq_sqrt (show 0 ≤ (1 + x) / 2 by linarith)
  have hs := Real.sq_sqrt (show 0 ≤ (1 - x) / 2 by linarith)
  have hprod : (2 * Real.sqrt ((1 + x) / 2) * Real.sqrt ((1 - x) / 2)) ^ 2 = y ^ 2 := by
    rw [mul_pow, mul_pow, hc, hs]; linarith
  rcases sq_eq_sq_iff_eq_or_eq_neg.mp hprod with h1 | h1
  · exact ⟨_, _, by rw [hc, hs]; ring, by rw [hc, hs]; ring, h1⟩
  · exact ⟨Real.sqrt ((1 + x) / 2), -Real.sqrt ((1 - x) / 2), by rw [neg_sq, hc, hs]; ring,
      by rw [neg_sq, hc, hs]; ring, by linarith⟩

/-- C49, what holds instead of "nowhere else": the potential is zero exactly at the strains `R * U * S` with `U` the first
variant and rotations `R`, `S` (rotating not only the deformed but also the reference configuration). -/
theorem C49_zero_set_partial (F : Matrix (Fin 2) (Fin 2) ℝ) (h : F.det ≠ 0) :
    martensitePotential (matOf F) = .ok 0 ↔
      ∃ R S, IsRotation R ∧ IsRotation S ∧ F = R * !![1, 1 / 2; 0, 1] * S := by
  rw [martPot_eq h, Except.ok.injEq, wM_zero h]
  constructor
  · rintro ⟨hd, hf⟩
    rw [Matrix.det_fin_two] at hd
    simp only [fsq] at hf
    -- deviatoric part of the Cauchy-Green tensor
    obtain ⟨p, hp⟩ : ∃ p, p = (F 0 0 ^ 2 + F 1 0 ^ 2 - F 0 1 ^ 2 - F 1 1 ^ 2) / 2 := ⟨_, rfl⟩
    obtain ⟨q, hq⟩ : ∃ q, q = F 0 0 * F 0 1 + F 1 0 * F 1 1 := ⟨_, rfl⟩
    have hpq : p ^ 2 + q ^ 2 = 17 / 64 := by
      have : p ^ 2 + q ^ 2 = ((F 0 0 ^ 2 + F 0 1 ^ 2 + F 1 0 ^ 2 + F 1 1 ^ 2) ^ 2 / 4 -
          (F 0 0 * F 1 1 - F 0 1 * F 1 0) ^ 2) := by rw [hp, hq]; ring
      rw [this, hd, hf]; norm_num
    obtain ⟨c, s, h1, h2, h3⟩ := half_angle (x := 64 / 17 * (-(1 / 8) * p + 1 / 2 * q))
      (y := 64 / 17 * (1 / 2 * p + 1 / 8 * q)) (by nlinarith)
    have hp' : p * (c ^ 2 - s ^ 2) - q * (2 * c * s) = -(1 / 8) := by rw [h2, h3]; linear_combination -(8 / 17) * hpq
    have hq' : p * (2 * c * s) + q * (c ^ 2 - s ^ 2) = 1 / 2 := by rw [h2, h3]; linear_combination 32 / 17 * hpq
    have hS : IsRotation !![c, -s; s, c] := by
      rw [isRotation_iff]
      refine ⟨?_, by simp, by simp⟩
      simp [Matrix.det_fin_two]; linarith
    obtain ⟨R, hRdef⟩ : ∃ R, R = F * !![c, s; -s, c] * (!![1, -(1 / 2); 0, 1] : Matrix (Fin 2) (Fin 2) ℝ) := ⟨_, rfl⟩
    have hRdet : R.det = 1 := by
      rw [hRdef, Matrix.det_mul, Matrix.det_mul, Matrix.det_fin_two F, hd]
      simp [Matrix.det_fin_two]; linarith
    have hRfsq : fsq R = 2 := by
      rw [hRdef]
      simp [fsq, Matrix.mul_apply, Fin.sum_univ_two]
      rw [hp] at hp' hq'
      rw [hq] at hp' hq'
      linear_combination (9 / 8) * (c ^ 2 + s ^ 2) * hf + (1 / 4) * hp' - hq' + 81 / 32 * h1
    have hR : IsRotation R := by
      rw [isRotation_iff]
      have := fsq_ge R
      rw [hRdet, hRfsq] at this
      have s2 := sq_nonneg (R 0 0 - R 1 1)
      have s3 := sq_nonneg (R 0 1 + R 1 0)
      have z2 : R 0 0 - R 1 1 = 0 := pow_eq_zero_iff (two_ne_zero) |>.mp (by linarith)
      have z3 : R 0 1 + R 1 0 = 0 := pow_eq_zero_iff (two_ne_zero) |>.mp (by linarith)
      exact ⟨hRdet, by linarith, by linarith⟩
    refine ⟨R, _, hR, hS, ?_⟩
    have hU : (!![1, -(1 / 2); 0, 1] : Matrix (Fin 2) (Fin 2) ℝ) * !![1, 1 / 2; 0, 1] = 1 := by
      ext i j; fin_cases i <;> fin_cases j <;> simp [Matrix.mul_apply, Fin.sum_univ_two]
    have hSS : (!![c, s; -s, c] : Matrix (Fin 2) (Fin 2) ℝ) * !![c, -s; s, c] = 1 := by
      ext i j; fin_cases i <;> fin_cases j <;> simp [Matrix.mul_apply, Fin.sum_univ_two] <;> linarith
    rw [hRdef, Matrix.mul_assoc (F * !![c, s; -s, c]), hU, Matrix.mul_one, Matrix.mul_assoc, hSS, Matrix.mul_one]
  · rintro ⟨R, S, hR, hS, rfl⟩
    refine ⟨?_, ?_⟩
    · rw [Matrix.det_mul, Matrix.det_mul, hR.2, hS.2]; simp [Matrix.det_fin_two]
    · rw [fsq_rot_right hS, fsq_rot_left hR]; simp [fsq]; norm_num

/-- a rotated shear `R · (1, 1/2; 0, 1)` with `R` the rotation by 90° -/
example : martensitePotential (matOf !![(0 : ℝ), -1; 1, 1 / 2]) = .ok 0 ∧
    martensitePotential (matOf !![(1 : ℝ), 0; 0, 0]) = .error .zeroDivision := by
  refine ⟨?_, (C49_nonneg _).2 (by simp [Matrix.det_fin_two])⟩
  have hR : IsRotation !![0, -1; 1, 0] := by
    constructor
    · ext i j; fin_cases i <;> fin_cases j <;> simp [Matrix.mul_apply, Fin.sum_univ_succ]
    · simp [Matrix.det_fin_two]
  have h := (C49_wells _ hR).1
  rwa [show !![(0 : ℝ), -1; 1, 0] * !![1, 1 / 2; 0, 1] = !![0, -1; 1, 1 / 2] by
    ext i j; fin_cases i <;> fin_cases j <;> simp [Matrix.mul_apply, Fin.sum_univ_succ]] at h

/-! ### C50 -/

/-- The linear functional `G ↦ ∑ᵢⱼ Dᵢⱼ Gᵢⱼ`: the total derivative with partial derivatives `Dᵢⱼ`. -/
noncomputable def strainPairing (D : Fin 2 → Fin 2 → ℝ) : (Fin 2 → Fin 2 → ℝ) →L[ℝ] ℝ :=
  ∑ i, ∑ j, D i j • (ContinuousLinearMap.proj (R := ℝ) (φ := fun _ : Fin 2 => ℝ) j).comp
    (ContinuousLinearMap.proj (R := ℝ) (φ := fun _ : Fin 2 => Fin 2 → ℝ) i)

theorem eval_strain_deriv {e : Sym} (F : Fin 2 → Fin 2 → ℝ) (h : e.Safe (envF (Matrix.of F))) :
    HasFDerivAt (fun G : Fin 2 → Fin 2 → ℝ => e.eval (envF (Matrix.of G)))
      (strainPairing fun i j => (e.diff (sF i j)).eval (envF (Matrix.of F))) F := by
  have key := Sym.hasFDerivAt_eval (v := fun G : Fin 2 → Fin 2 → ℝ => envF (Matrix.of G)) (z := F)
    {"F_11", "F_12", "F_21", "F_22"}
    (fun s => (ContinuousLinearMap.proj (R := ℝ) (φ := fun _ : Fin 2 => ℝ)
        (if s = "F_11" ∨ s = "F_21" then (0 : Fin 2) else 1)).comp
      (ContinuousLinearMap.proj (R := ℝ) (φ := fun _ : Fin 2 => Fin 2 → ℝ)
        (if s = "F_11" ∨ s = "F_12" then (0 : Fin 2) else 1)))
    (by
      intro s hs
      simp only [Finset.mem_insert, Finset.mem_singleton] at hs
      have hlin : ∀ i j : Fin 2, HasFDerivAt (fun G : Fin 2 → Fin 2 → ℝ => G i j)
          ((ContinuousLinearMap.proj (R := ℝ) (φ := fun _ : Fin 2 => ℝ) j).comp
            (ContinuousLinearMap.proj (R := ℝ) (φ := fun _ : Fin 2 => Fin 2 → ℝ) i)) F := fun i j =>
        ((ContinuousLinearMap.proj (R := ℝ) (φ := fun _ : Fin 2 => ℝ) j).comp
          (ContinuousLinearMap.proj (R := ℝ) (φ := fun _ : Fin 2 => Fin 2 → ℝ) i)).hasFDerivAt
      rcases hs with rfl | rfl | rfl | rfl
      · simpa [envF] using hlin 0 0
      · simpa [envF] using hlin 0 1
      · simpa [envF] using hlin 1 0
      · simpa [envF] using hlin 1 1)
    (by
      intro s hs y
      simp only [Finset.mem_insert, Finset.mem_singleton, not_or] at hs
      simp [envF, hs])
    h
  refine key.congr_fderiv ?_
  rw [Finset.sum_insert (by simp), Finset.sum_insert (by simp), Finset.sum_insert (by simp), Finset.sum_singleton,
    strainPairing]
  simp only [Fin.sum_univ_two]
  simp [sF]
  abel

/-- C50: `derivative_austenite_potential` is the derivative of `austenite_potential` at every strain with positive
determinant. -/
theorem C50_austenite : ∃ (W : (Fin 2 → Fin 2 → ℝ) → ℝ) (D : (Fin 2 → Fin 2 → ℝ) → Fin 2 → Fin 2 → ℝ),
    ∀ F : Fin 2 → Fin 2 → ℝ, 0 < (Matrix.of F).det →
      austenitePotential (matOf (Matrix.of F)) = .ok (W F) ∧
      derivativeAustenitePotential (matOf (Matrix.of F)) = .ok (matOf (Matrix.of (D F))) ∧
      HasFDerivAt W (strainPairing (D F)) F := by
  refine ⟨fun G => austPotSym.eval (envF (Matrix.of G)), fun F i j => (austPotSym.diff (sF i j)).eval (envF (Matrix.of F)),
    fun F h => ⟨?_, dAust_eq h, eval_strain_deriv F (safe_aust h)⟩⟩
  rw [austPot_eq h]; exact congrArg _ (eval_aust _).symm

/-- C50: `derivative_martensite_potential` is the derivative of `martensite_potential` at every invertible strain. -/
theorem C50_martensite : ∃ (W : (Fin 2 → Fin 2 → ℝ) → ℝ) (D : (Fin 2 → Fin 2 → ℝ) → Fin 2 → Fin 2 → ℝ),
    ∀ F : Fin 2 → Fin 2 → ℝ, (Matrix.of F).det ≠ 0 →
      martensitePotential (matOf (Matrix.of F)) = .ok (W F) ∧
      derivativeMartensitePotential (matOf (Matrix.of F)) = .ok (matOf (Matrix.of (D F))) ∧
      HasFDerivAt W (strainPairing (D F)) F := by
  refine ⟨fun G => martPotSym.eval (envF (Matrix.of G)), fun F i j => (martPotSym.diff (sF i j)).eval (envF (Matrix.of F)),
    fun F h => ⟨?_, dMart_eq h, eval_strain_deriv F (safe_mart h)⟩⟩
  rw [martPot_eq h]; exact congrArg _ (eval_mart _).symm

theorem sub_matOf2 (A B : Matrix (Fin 2) (Fin 2) ℝ) : (matOf A).sub (matOf B) = .ok (matOf (A - B)) := by
  simp [Mat.sub, Mat.shape, Mat.rows, Mat.cols, matOf, List.ofFn_succ, Mat.new]

theorem smul_matOf2 (A : Matrix (Fin 2) (Fin 2) ℝ) (s : ℝ) :
    (matOf A).smul s = .ok (matOf (Matrix.of fun i j => A i j * s)) := by
  simp [Mat.smul, matOf, List.ofFn_succ, Mat.new]

/-- C50: `strain_derivative_coupling_potential` is the strain derivative of the coupling potential
`a(t) * (W_austenite - W_martensite)`. -/
theorem C50_coupling (t : ℝ) : ∃ (a : ℝ) (Wa Wm : (Fin 2 → Fin 2 → ℝ) → ℝ)
    (D : (Fin 2 → Fin 2 → ℝ) → Fin 2 → Fin 2 → ℝ), austenitePercentage t = .ok a ∧
    ∀ F : Fin 2 → Fin 2 → ℝ, 0 < (Matrix.of F).det →
      austenitePotential (matOf (Matrix.of F)) = .ok (Wa F) ∧
      martensitePotential (matOf (Matrix.of F)) = .ok (Wm F) ∧
      strainDerivativeCouplingPotential (matOf (Matrix.of F)) t = .ok (matOf (Matrix.of (D F))) ∧
      HasFDerivAt (fun G => a * (Wa G - Wm G)) (strainPairing (D F)) F := by
  obtain ⟨Wa, Da, ha⟩ := C50_austenite
  obtain ⟨Wm, Dm, hm⟩ := C50_martensite
  refine ⟨1 - Real.exp (-5 * t), Wa, Wm, fun F i j => (Da F i j - Dm F i j) * (1 - Real.exp (-5 * t)), aust_eq t, ?_⟩
  intro F h
  obtain ⟨a1, a2, a3⟩ := ha F h
  obtain ⟨m1, m2, m3⟩ := hm F h.ne'
  refine ⟨a1, m1, ?_, ?_⟩
  · rw [strainDerivativeCouplingPotential, aust_eq, bind_ok, a2, bind_ok, m2, bind_ok, sub_matOf2, bind_ok, smul_matOf2]
    rfl
  · refine ((a3.sub m3).const_mul (1 - Real.exp (-5 * t))).congr_fderiv ?_
    apply ContinuousLinearMap.ext
    intro G
    simp [strainPairing, Fin.sum_univ_two]
    ring

theorem dAust_one (i j : Fin 2) : (austPotSym.diff (sF i j)).eval (envF 1) = 0 := by
  fin_cases i <;> fin_cases j <;> simp [austPotSym, sF, Sym.c_add, Sym.c_sub, Sym.c_mul, Sym.c_pow, Sym.c_ofNat, I1, J, F11, F12,
    F21, F22, Sym.diff, Sym.eval, envF] <;> norm_num

theorem dMart_one (i j : Fin 2) : (martPotSym.diff (sF i j)).eval (envF 1) = 0 := by
  fin_cases i <;> fin_cases j <;> simp [martPotSym, doubleWell, Sym.subs1, sF, Sym.c_add, Sym.c_sub, Sym.c_mul, Sym.c_pow,
    Sym.c_div, Sym.c_ofNat, I1, J, F11, F12, F21, F22, Sym.diff, Sym.eval, envF]

/-- C50: the undeformed state is free of stress in both phases, and free of coupling stress at every temperature. -/
theorem C50_stress_free (t : ℝ) :
    derivativeAustenitePotential (matOf (1 : Matrix (Fin 2) (Fin 2) ℝ)) = .ok (matOf (0 : Matrix (Fin 2) (Fin 2) ℝ)) ∧
    derivativeMartensitePotential (matOf (1 : Matrix (Fin 2) (Fin 2) ℝ)) = .ok (matOf (0 : Matrix (Fin 2) (Fin 2) ℝ)) ∧
    strainDerivativeCouplingPotential (matOf (1 : Matrix (Fin 2) (Fin 2) ℝ)) t = .ok (matOf (0 : Matrix (Fin 2) (Fin 2) ℝ)) := by
  have z : (Matrix.of fun _ _ => 0 : Matrix (Fin 2) (Fin 2) ℝ) = 0 := rfl
  have h1 := dAust_eq (F := 1) (by simp)
  have h2 := dMart_eq (F := 1) (by simp)
  simp only [dAust_one, dMart_one, z] at h1 h2
  refine ⟨h1, h2, ?_⟩
  rw [strainDerivativeCouplingPotential, aust_eq, bind_ok, h1, bind_ok, h2, bind_ok, sub_matOf2, bind_ok, smul_matOf2]
  congr 2
  ext i j
  simp

/-- the identity is a strain with positive determinant -/
example : 0 < (Matrix.of fun i j : Fin 2 => if i = j then (1 : ℝ) else 0).det := by simp [Matrix.det_fin_two]

/-! ### C51 -/

theorem sub_matOf {K : Type} [Field K] {r c : ℕ} (A B : Matrix (Fin (r + 1)) (Fin c) K) :
    (matOf A).sub (matOf B) = .ok (matOf (A - B)) := by
  rw [Mat.sub, if_neg (by simp), matOf, matOf, zipWith_ofFn]
  simp only [zipWith_ofFn]
  exact Mat.new_ofFn (A - B)

theorem add_matOf {K : Type} [Field K] {r c : ℕ} (A B : Matrix (Fin (r + 1)) (Fin c) K) :
    (matOf A).add (matOf B) = .ok (matOf (A + B)) := by
  rw [Mat.add, if_neg (by simp), matOf, matOf, zipWith_ofFn]
  simp only [zipWith_ofFn]
  exact Mat.new_ofFn (A + B)

theorem normsqr_matOf {K : Type} [Field K] {r c : ℕ} (A : Matrix (Fin r) (Fin c) K) :
    (matOf A).normsqr = ∑ i, ∑ j, A i j ^ 2 := by
  simp only [Mat.normsqr, matOf, List.map_flatten, List.sum_flatten, List.map_map, List.map_ofFn, List.sum_ofFn]
  refine Finset.sum_congr rfl fun i _ => ?_
  simp [Function.comp, List.sum_ofFn]

/-- C51: with `G = F - F₀` the dissipation potential is half the squared norm of `Gᵀ F₀ + F₀ᵀ G` (a quadratic function of
the increment), for square matrices of any size. -/
theorem C51_value {n : ℕ} (F₀ F : Matrix (Fin (n + 1)) (Fin (n + 1)) ℝ) :
    dissipationPotential (matOf F₀) (matOf F) =
      .ok ((∑ i, ∑ j, ((F - F₀).transpose * F₀ + F₀.transpose * (F - F₀)) i j ^ 2) / 2) := by
  rw [dissipationPotential, symmetrizedStrainDelta, sub_matOf, bind_ok, transpose_matOf, bind_ok, matmul_matOf, bind_ok,
    transpose_matOf, bind_ok, matmul_matOf, bind_ok, add_matOf, bind_ok, normsqr_matOf]
  rfl

/-- C51: it is nonnegative, vanishes for equal strains and is quadratic in the increment. -/
theorem C51_quadratic {n : ℕ} (F₀ F : Matrix (Fin (n + 1)) (Fin (n + 1)) ℝ) :
    ∃ d, dissipationPotential (matOf F₀) (matOf F) = .ok d ∧ 0 ≤ d ∧ (F = F₀ → d = 0) ∧
      ∀ s : ℝ, dissipationPotential (matOf F₀) (matOf (F₀ + s • (F - F₀))) = .ok (s ^ 2 * d) := by
  refine ⟨_, C51_value F₀ F, ?_, ?_, ?_⟩
  · exact div_nonneg (Finset.sum_nonneg fun i _ => Finset.sum_nonneg fun j _ => sq_nonneg _) two_pos.le
  · rintro rfl; simp
  · intro s
    rw [C51_value]
    congr 1
    have : F₀ + s • (F - F₀) - F₀ = s • (F - F₀) := by abel
    rw [this, Matrix.transpose_smul, Matrix.smul_mul, Matrix.mul_smul, ← smul_add]
    rw [← mul_div_assoc, Finset.mul_sum]
    congr 1
    refine Finset.sum_congr rfl fun i _ => ?_
    rw [Finset.mul_sum]
    refine Finset.sum_congr rfl fun j _ => ?_
    rw [Matrix.smul_apply, smul_eq_mul, mul_pow]

/-- C51: a common rotation (any orthogonal matrix) of both strains does not change the dissipation. -/
theorem C51_frame_indifference {n : ℕ} (F₀ F Q : Matrix (Fin (n + 1)) (Fin (n + 1)) ℝ) (hQ : Q.transpose * Q = 1) :
    dissipationPotential (matOf (Q * F₀)) (matOf (Q * F)) = dissipationPotential (matOf F₀) (matOf F) := by
  rw [C51_value, C51_value]
  have h1 : (Q * F - Q * F₀).transpose * (Q * F₀) = (F - F₀).transpose * F₀ := by
    rw [← Matrix.mul_sub, Matrix.transpose_mul, Matrix.mul_assoc, ← Matrix.mul_assoc Q.transpose, hQ, Matrix.one_mul]
  have h2 : (Q * F₀).transpose * (Q * F - Q * F₀) = F₀.transpose * (F - F₀) := by
    rw [← Matrix.mul_sub, Matrix.transpose_mul, Matrix.mul_assoc, ← Matrix.mul_assoc Q.transpose, hQ, Matrix.one_mul]
  rw [h1, h2]

theorem sumsq_zero {n : ℕ} (E : Matrix (Fin n) (Fin n) ℝ) : (∑ i, ∑ j, E i j ^ 2) = 0 ↔ E = 0 := by
  refine (Finset.sum_eq_zero_iff_of_nonneg (f := fun i => ∑ j, E i j ^ 2)
    fun i _ => Finset.sum_nonneg fun j _ => sq_nonneg _).trans ?_
  constructor
  · intro h
    ext i j
    have := (Finset.sum_eq_zero_iff_of_nonneg fun j _ => sq_nonneg (E i j)).mp (h i (Finset.mem_univ i)) j
      (Finset.mem_univ j)
    simpa using this
  · rintro rfl i _; simp

/-- C51: for an invertible previous strain the dissipation vanishes exactly for the increments `W F₀` with `W` skew
(infinitesimal rotations). -/
theorem C51_kernel {n : ℕ} (F₀ F : Matrix (Fin (n + 1)) (Fin (n + 1)) ℝ) (h : IsUnit F₀.det) :
    dissipationPotential (matOf F₀) (matOf F) = .ok 0 ↔
      ∃ W : Matrix (Fin (n + 1)) (Fin (n + 1)) ℝ, W.transpose = -W ∧ F - F₀ = W * F₀ := by
  rw [C51_value, Except.ok.injEq, div_eq_zero_iff, or_iff_left two_ne_zero]
  have hz := sumsq_zero ((F - F₀).transpose * F₀ + F₀.transpose * (F - F₀))
  rw [hz]
  constructor
  · intro h0
    refine ⟨(F - F₀) * F₀⁻¹, ?_, by rw [Matrix.mul_assoc, Matrix.nonsing_inv_mul _ h, Matrix.mul_one]⟩
    have hT : F₀⁻¹.transpose * F₀.transpose = 1 := by
      rw [← Matrix.transpose_mul, Matrix.mul_nonsing_inv _ h, Matrix.transpose_one]
    have e : F₀⁻¹.transpose * ((F - F₀).transpose * F₀ + F₀.transpose * (F - F₀)) * F₀⁻¹ = 0 := by
      rw [h0, Matrix.mul_zero, Matrix.zero_mul]
    rw [Matrix.mul_add, Matrix.add_mul, ← Matrix.mul_assoc F₀⁻¹.transpose F₀.transpose, hT, Matrix.one_mul,
      Matrix.mul_assoc, Matrix.mul_assoc (F - F₀).transpose, Matrix.mul_nonsing_inv _ h, Matrix.mul_one] at e
    rw [Matrix.transpose_mul]
    exact eq_neg_of_add_eq_zero_left e
  · rintro ⟨W, hW, hG⟩
    rw [hG, Matrix.transpose_mul, hW, Matrix.mul_assoc, Matrix.neg_mul, Matrix.mul_neg, neg_add_cancel]

/-- stretching the identity dissipates; the infinitesimal rotation `1 + (0, -1; 1, 0)` does not -/
example : dissipationPotential (matOf (1 : Matrix (Fin 2) (Fin 2) ℝ)) (matOf !![2, 0; 0, 1]) = .ok 2 ∧
    dissipationPotential (matOf (1 : Matrix (Fin 2) (Fin 2) ℝ)) (matOf !![1, -1; 1, 1]) = .ok 0 := by
  constructor
  · rw [C51_value]
    norm_num [Fin.sum_univ_succ, Matrix.one_apply]
  · refine (C51_kernel _ _ (by simp)).2 ⟨!![0, -1; 1, 0], ?_, ?_⟩ <;>
    · ext i j; fin_cases i <;> fin_cases j <;> simp [Matrix.mul_apply, Fin.sum_univ_succ, Matrix.one_apply]

/-- C51: the dissipation rate is twice the dissipation potential divided by the squared time step `1 / fps`. -/
theorem C51_rate (F₀ F : Mat ℝ) (fps d : ℝ) (hf : fps ≠ 0) (h : dissipationPotential F₀ F = .ok d) :
    dissipationRate F₀ F fps = .ok (2 * d / (1 / fps) ^ 2) := by
  rw [dissipationRate, h, bind_ok]
  congr 1
  field_simp

/-! ### C52 -/

theorem heat_eq {F : Matrix (Fin 2) (Fin 2) ℝ} (h : F.det ≠ 0) :
    heatConductivityReference (matOf F) = .ok (matOf (F.det • (F⁻¹ * F⁻¹.transpose))) := by
  have hinv : !![F 1 1 / F.det, -F 0 1 / F.det; -F 1 0 / F.det, F 0 0 / F.det] = F⁻¹ := by
    rw [Matrix.inv_def, Matrix.adjugate_fin_two, Ring.inverse_eq_inv']
    ext i j
    fin_cases i <;> fin_cases j <;> simp <;> ring
  have hK : heatConductivity = .ok (matOf (1 : Matrix (Fin 2) (Fin 2) ℝ)) := by
    simp [heatConductivity, Mat.new, matOf, List.ofFn_succ]
  rw [heatConductivityReference, inverse2x2_matOf F h, bind_ok, hinv, det_matOf, bind_ok, smul_matOf2, bind_ok, hK,
    bind_ok, matmul_matOf, bind_ok, transpose_matOf, bind_ok, matmul_matOf, Matrix.mul_one]
  congr 2
  ext i j
  simp [Matrix.mul_apply, Finset.mul_sum, Fin.sum_univ_two]
  ring

/-- C52: for strains with positive determinant the reference heat conductivity is `det(F) F⁻¹ F⁻ᵀ`, which is symmetric and
positive definite. -/
theorem C52_positive_definite (F : Matrix (Fin 2) (Fin 2) ℝ) (h : 0 < F.det) :
    ∃ K : Matrix (Fin 2) (Fin 2) ℝ, heatConductivityReference (matOf F) = .ok (matOf K) ∧
      K = F.det • (F⁻¹ * F⁻¹.transpose) ∧ K.IsSymm ∧ K.PosDef := by
  refine ⟨_, heat_eq h.ne', rfl, ?_, ?_⟩
  · rw [Matrix.IsSymm, Matrix.transpose_smul, Matrix.transpose_mul, Matrix.transpose_transpose]
  · apply Matrix.PosDef.smul _ h
    have hu : IsUnit F := (Matrix.isUnit_iff_isUnit_det F).mpr (isUnit_iff_ne_zero.mpr h.ne')
    have hu' : IsUnit F⁻¹ := by
      rw [Matrix.isUnit_iff_isUnit_det, Matrix.isUnit_nonsing_inv_det_iff]
      exact isUnit_iff_ne_zero.mpr h.ne'
    have := Matrix.PosDef.mul_conjTranspose_self F⁻¹ (Matrix.vecMul_injective_of_isUnit hu')
    rwa [Matrix.conjTranspose_eq_transpose_of_trivial] at this

/-- C52: hence the diffusion term `g · K g` of the thermal energy is nonnegative, and positive for gradients `g ≠ 0`. -/
theorem C52_diffusion (F : Matrix (Fin 2) (Fin 2) ℝ) (h : 0 < F.det) (g : Fin 2 → ℝ) :
    ∃ K v, heatConductivityReference (matOf F) = .ok K ∧ K.dot (vecOf g) = .ok v ∧
      0 ≤ (vecOf g).dot v ∧ (g ≠ 0 → 0 < (vecOf g).dot v) := by
  obtain ⟨K, hK, -, -, hpd⟩ := C52_positive_definite F h
  refine ⟨_, _, hK, dot_matOf (r := 1) K g, ?_⟩
  have e : (vecOf g).dot (vecOf (K.mulVec g)) = star g ⬝ᵥ K.mulVec g := by
    simp [Vec.dot, vecOf, zipWith_ofFn, List.sum_ofFn, dotProduct]
  rw [e]
  refine ⟨?_, fun hg => hpd.dotProduct_mulVec_pos hg⟩
  by_cases hg : g = 0
  · simp [hg]
  · exact (hpd.dotProduct_mulVec_pos hg).le

/-- C52: rotating the deformed configuration does not change the reference heat conductivity. -/
theorem C52_frame_indifference (F R : Matrix (Fin 2) (Fin 2) ℝ) (h : 0 < F.det) (hR : IsRotation R) :
    heatConductivityReference (matOf (R * F)) = heatConductivityReference (matOf F) := by
  have hd : (R * F).det = F.det := by rw [Matrix.det_mul, hR.2, one_mul]
  rw [heat_eq h.ne', heat_eq (by rw [hd]; exact h.ne'), hd]
  have hRi : R⁻¹ = R.transpose := Matrix.inv_eq_left_inv hR.1
  rw [Matrix.mul_inv_rev, hRi, Matrix.transpose_mul, Matrix.transpose_transpose, Matrix.mul_assoc,
    ← Matrix.mul_assoc R.transpose, hR.1, Matrix.one_mul]

/-- C52: singular strains raise. -/
theorem C52_singular (F : Matrix (Fin 2) (Fin 2) ℝ) (h : F.det = 0) :
    heatConductivityReference (matOf F) = .error .zeroDivision := by
  rw [heatConductivityReference, C05_singular F (by rw [det_matOf, h])]
  rfl

/-- stretching by 2 in the first direction divides the conductivity in this direction by 2 and doubles the other one -/
example : heatConductivityReference (matOf !![(2 : ℝ), 0; 0, 1]) = .ok (matOf !![1 / 2, 0; 0, 2]) ∧
    heatConductivityReference (matOf !![(1 : ℝ), 0; 0, 0]) = .error .zeroDivision := by
  refine ⟨?_, C52_singular _ (by simp [Matrix.det_fin_two])⟩
  obtain ⟨K, h, hK, -⟩ := C52_positive_definite !![2, 0; 0, 1] (by simp [Matrix.det_fin_two])
  rw [h, hK]
  have hi : (!![(2 : ℝ), 0; 0, 1])⁻¹ = !![1 / 2, 0; 0, 1] := by
    refine Matrix.inv_eq_right_inv ?_
    ext i j; fin_cases i <;> fin_cases j <;> simp [Matrix.mul_apply, Fin.sum_univ_succ]
  rw [hi]
  congr 2
  ext i j; fin_cases i <;> fin_cases j <;> norm_num [Matrix.mul_apply, Fin.sum_univ_succ, Matrix.det_fin_two, Matrix.vecMul, dotProduct]

/-! ### C53 -/

/-- C53: the total elastic potential is the convex combination of the two potentials with the austenite percentage as
weight; at temperature 0 it is the martensite potential, it is nonnegative, and it tends to the austenite potential. -/
theorem C53_convex_combination (F : Matrix (Fin 2) (Fin 2) ℝ) (h : 0 < F.det) :
    ∃ (W a : ℝ → ℝ) (wa wm : ℝ), austenitePotential (matOf F) = .ok wa ∧ martensitePotential (matOf F) = .ok wm ∧
      (∀ t, austenitePercentage t = .ok (a t)) ∧ (∀ t, totalElasticPotential (matOf F) t = .ok (W t)) ∧
      (∀ t, W t = a t * wa + (1 - a t) * wm) ∧ (∀ t, 0 ≤ t → 0 ≤ a t ∧ a t ≤ 1) ∧
      W 0 = wm ∧ (∀ t, 0 ≤ t → 0 ≤ W t) ∧ Tendsto W atTop (𝓝 wa) := by
  obtain ⟨a, ha, ha0, -, ha1, halim⟩ := C46_percentage
  obtain ⟨wa, hwa, hwa0, -⟩ := C48_well F h
  obtain ⟨wm, hwm, hwm0⟩ := (C49_nonneg F).1 h.ne'
  refine ⟨fun t => a t * wa + (1 - a t) * wm, a, wa, wm, hwa, hwm, ha, ?_, fun _ => rfl,
    fun t ht => ⟨(ha1 t ht).1, (ha1 t ht).2.le⟩, by simp [ha0], ?_, ?_⟩
  · intro t
    rw [totalElasticPotential, ha, bind_ok, hwa, bind_ok, bind_ok, hwm, bind_ok]
    rfl
  · intro t ht
    have := ha1 t ht
    have h1 : 0 ≤ 1 - a t := by linarith [this.2]
    have := this.1
    positivity
  · have := (halim.mul_const wa).add ((halim.const_sub 1).mul_const wm)
    simpa using this

/-! ### C54 -/

/-- C54: with `W(F,t) = a(t) (W_austenite(F) - W_martensite(F))`, the temperature dependent part of the total elastic
potential, the internal energy is `W - t ∂W/∂t + c t` with the entropy constant `c = 10`. -/
theorem C54_internal_energy (F : Matrix (Fin 2) (Fin 2) ℝ) (h : 0 < F.det) :
    ∃ (W W' : ℝ → ℝ) (wm : ℝ), martensitePotential (matOf F) = .ok wm ∧
      (∀ t, totalElasticPotential (matOf F) t = .ok (wm + W t)) ∧ W 0 = 0 ∧
      (∀ t, HasDerivAt W (W' t) t) ∧
      (∀ t, internalEnergyNoEntropy (matOf F) t = .ok (W t - t * W' t)) ∧
      ∀ t, internalEnergy (matOf F) t = .ok (W t - t * W' t + 10 * t) := by
  obtain ⟨a, a', w, A, ha, hw, hA, hd, hwa, -⟩ := C47_weight
  have ha0 : a 0 = 0 := by
    obtain ⟨b, hb, hb0, -⟩ := C46_percentage
    have := (ha 0).symm.trans (hb 0)
    rw [Except.ok.inj this, hb0]
  have hne : ∀ t, internalEnergyNoEntropy (matOf F) t =
      .ok (a t * (wA F - wM F) - t * (a' t * (wA F - wM F))) := by
    intro t
    rw [internalEnergyNoEntropy, hw, bind_ok, austPot_eq h, bind_ok, martPot_eq h.ne', bind_ok, hwa]
    show Except.ok _ = _
    congr 1; ring
  refine ⟨fun t => a t * (wA F - wM F), fun t => a' t * (wA F - wM F), wM F, martPot_eq h.ne', ?_, by simp [ha0],
    fun t => (hd t).mul_const _, hne, ?_⟩
  · intro t
    rw [totalElasticPotential, ha, bind_ok, austPot_eq h, bind_ok, bind_ok, martPot_eq h.ne', bind_ok]
    show Except.ok _ = _
    congr 1; ring
  · intro t
    rw [internalEnergy, hne, bind_ok]
    rfl

/-- C54: the temperature antiderivative of the internal energy without entropy vanishes at 0 and has the internal energy
without entropy as derivative. -/
theorem C54_antiderivative (F : Matrix (Fin 2) (Fin 2) ℝ) (h : 0 < F.det) :
    ∃ A e : ℝ → ℝ, (∀ t, tempAntiderInternalEnergyNoEntropy (matOf F) t = .ok (A t)) ∧
      (∀ t, internalEnergyNoEntropy (matOf F) t = .ok (e t)) ∧ A 0 = 0 ∧ ∀ t, HasDerivAt A (e t) t := by
  obtain ⟨a, a', w, A, ha, hw, hA, hd, hwa, -, -, hA0, hAd⟩ := C47_weight
  refine ⟨fun t => A t * (wA F - wM F), fun t => w t * (wA F - wM F), ?_, ?_, by simp [hA0],
    fun t => (hAd t).mul_const _⟩
  · intro t
    rw [tempAntiderInternalEnergyNoEntropy, hA, bind_ok, austPot_eq h, bind_ok, martPot_eq h.ne', bind_ok]; rfl
  · intro t
    rw [internalEnergyNoEntropy, hw, bind_ok, austPot_eq h, bind_ok, martPot_eq h.ne', bind_ok]; rfl

/-- without strain the internal energy at temperature `t` is `10 t` minus the energy of the martensite well, weighted -/
example : ∃ wm, martensitePotential (matOf (1 : Matrix (Fin 2) (Fin 2) ℝ)) = .ok wm ∧ 0 < wm ∧
    internalEnergy (matOf (1 : Matrix (Fin 2) (Fin 2) ℝ)) 0 = .ok 0 := by
  obtain ⟨W, W', wm, h1, -, h3, -, -, h6⟩ := C54_internal_energy 1 (by simp)
  obtain ⟨w, hw, hw0⟩ := (C49_nonneg 1).1 (by simp)
  obtain rfl : wm = w := Except.ok.inj (h1.symm.trans hw)
  refine ⟨wm, h1, lt_of_le_of_ne hw0 fun e => ?_, ?_⟩
  · obtain ⟨R, S, hR, hS, hF⟩ := (C49_zero_set_partial 1 (by simp)).1 (by rw [h1, ← e])
    have hRS : R.transpose * S.transpose = !![1, 1 / 2; 0, 1] := by
      calc R.transpose * S.transpose = R.transpose * (1 : Matrix (Fin 2) (Fin 2) ℝ) * S.transpose := by rw [mul_one]
        _ = (R.transpose * R) * !![1, 1 / 2; 0, 1] * (S * S.transpose) := by rw [hF]; simp only [mul_assoc]
        _ = _ := by rw [hR.1, mul_eq_one_comm.1 hS.1]; simp
    have h2 : (R.transpose * S.transpose).transpose * (R.transpose * S.transpose) = 1 := by
      rw [Matrix.transpose_mul, Matrix.transpose_transpose, Matrix.transpose_transpose]
      calc S * R * (R.transpose * S.transpose) = S * (R * R.transpose) * S.transpose := by simp only [mul_assoc]
        _ = _ := by rw [mul_eq_one_comm.1 hR.1, mul_one, mul_eq_one_comm.1 hS.1]
    rw [hRS] at h2
    have := congrFun (congrFun h2 0) 1
    norm_num [Matrix.mul_apply, Fin.sum_univ_succ] at this
  · rw [h6, h3]; norm_num

/-! ### C70 -/

theorem hyper_eq {a b c : ℕ} (T : Fin a → Fin b → Fin c → ℝ) :
    hyperElasticPotential (tenOf T) = Real.sqrt (∑ i, ∑ j, ∑ k, T i j k ^ 2) ^ 3 := by
  have : (tenOf T).normsqr = ∑ i, ∑ j, ∑ k, T i j k ^ 2 := by
    simp only [Ten3.normsqr, tenOf, List.map_flatten, List.sum_flatten, List.map_map, List.map_ofFn, List.sum_ofFn]
    refine Finset.sum_congr rfl fun i _ => ?_
    simp [Function.comp, List.sum_ofFn, List.map_flatten, List.sum_flatten, List.map_ofFn]
  rw [hyperElasticPotential, Ten3.norm, this]
  rfl

/-- C70: the hyperelastic potential is the third power of the norm of the hyperstrain: it is nonnegative, zero exactly for
vanishing hyperstrain, and scales with the third power. -/
theorem C70_value {a b c : ℕ} (T : Fin a → Fin b → Fin c → ℝ) :
    0 ≤ hyperElasticPotential (tenOf T) ∧
    (hyperElasticPotential (tenOf T) = 0 ↔ ∀ i j k, T i j k = 0) ∧
    hyperElasticPotential (tenOf T) ^ 2 = (∑ i, ∑ j, ∑ k, T i j k ^ 2) ^ 3 ∧
    ∀ s : ℝ, hyperElasticPotential (tenOf fun i j k => s * T i j k) = |s| ^ 3 * hyperElasticPotential (tenOf T) := by
  have hnn : 0 ≤ ∑ i, ∑ j, ∑ k, T i j k ^ 2 :=
    Finset.sum_nonneg fun i _ => Finset.sum_nonneg fun j _ => Finset.sum_nonneg fun k _ => sq_nonneg _
  simp only [hyper_eq]
  refine ⟨by positivity, ?_, ?_, ?_⟩
  · rw [pow_eq_zero_iff (by norm_num), Real.sqrt_eq_zero hnn,
      Finset.sum_eq_zero_iff_of_nonneg fun i _ => Finset.sum_nonneg fun j _ => Finset.sum_nonneg fun k _ => sq_nonneg _]
    constructor
    · intro h i j k
      have h1 := (Finset.sum_eq_zero_iff_of_nonneg fun j _ => Finset.sum_nonneg fun k _ => sq_nonneg (T i j k)).mp
        (h i (Finset.mem_univ i)) j (Finset.mem_univ j)
      have h2 := (Finset.sum_eq_zero_iff_of_nonneg fun k _ => sq_nonneg (T i j k)).mp h1 k (Finset.mem_univ k)
      exact pow_eq_zero_iff two_ne_zero |>.mp h2
    · intro h i _; simp [h]
  · rw [← pow_mul, mul_comm 3 2, pow_mul, Real.sq_sqrt hnn]
  · intro s
    have : (∑ i, ∑ j, ∑ k, (s * T i j k) ^ 2) = s ^ 2 * ∑ i, ∑ j, ∑ k, T i j k ^ 2 := by
      simp only [mul_pow, Finset.mul_sum]
    rw [this, Real.sqrt_mul (sq_nonneg s), Real.sqrt_sq_eq_abs, mul_pow]

/-- C70: an orthogonal change of the deformed configuration (acting on the first index) does not change the potential. -/
theorem C70_frame_indifference {a b c : ℕ} (Q : Matrix (Fin a) (Fin a) ℝ) (hQ : Q.transpose * Q = 1)
    (T : Fin a → Fin b → Fin c → ℝ) :
    hyperElasticPotential (tenOf fun i j k => ∑ l, Q i l * T l j k) = hyperElasticPotential (tenOf T) := by
  rw [hyper_eq, hyper_eq]
  congr 2
  have hcol : ∀ j k, ∑ i, (∑ l, Q i l * T l j k) ^ 2 = ∑ i, T i j k ^ 2 := by
    intro j k
    have h1 : ∑ i, (∑ l, Q i l * T l j k) ^ 2 = (Q.mulVec fun l => T l j k) ⬝ᵥ (Q.mulVec fun l => T l j k) := by
      simp only [dotProduct, Matrix.mulVec, sq]
    have h2 : (Q.mulVec fun l => T l j k) ⬝ᵥ (Q.mulVec fun l => T l j k) = (fun l => T l j k) ⬝ᵥ (fun l => T l j k) := by
      rw [Matrix.dotProduct_mulVec, ← Matrix.mulVec_transpose, Matrix.mulVec_mulVec, hQ, Matrix.one_mulVec]
    rw [h1, h2]
    simp only [dotProduct, sq]
  have hswap : ∀ f : Fin a → Fin b → Fin c → ℝ, ∑ i, ∑ j, ∑ k, f i j k = ∑ j, ∑ k, ∑ i, f i j k := by
    intro f
    rw [Finset.sum_comm]
    exact Finset.sum_congr rfl fun j _ => Finset.sum_comm
  rw [hswap, hswap]
  exact Finset.sum_congr rfl fun j _ => Finset.sum_congr rfl fun k _ => hcol j k

/-- one entry `2`, all others `0`: the potential is `2³` -/
example : hyperElasticPotential (tenOf fun (i : Fin 2) (j : Fin 2) (k : Fin 2) =>
    if i = 0 ∧ j = 0 ∧ k = 0 then (2 : ℝ) else 0) = 8 := by
  obtain ⟨h0, -, h2, -⟩ := C70_value fun (i : Fin 2) (j : Fin 2) (k : Fin 2) =>
    if i = 0 ∧ j = 0 ∧ k = 0 then (2 : ℝ) else 0
  simp [Fin.sum_univ_succ] at h2
  nlinarith

end Tve
