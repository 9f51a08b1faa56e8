import Verif.Lemmas.Optimal
import Verif.Props.Energy

/-!
# C96: the transition temperature
-/

namespace Tve
open Helpers

/-- the two potentials in terms of `s = |F|² / det F - 2` and `J = det F` -/
theorem transition_key {F : Matrix (Fin 2) (Fin 2) ℝ} (h : 0 < F.det) :
    0 ≤ wA F + 2 * (wM F - 1 / 16) ∧ (wA F + 2 * (wM F - 1 / 16) ≤ 0 → wA F = 0) := by
  have hlog : Real.log F.det ≤ F.det - 1 := Real.log_le_sub_one_of_pos h
  have hJ := h.ne'
  set J := F.det with hJd
  set s := fsq F / J - 2 with hs
  have e1 : fsq F = J * (s + 2) := by rw [hs]; field_simp; ring
  have hA : wA F = J * s + 2 * (J - 1 - Real.log J) + (J - 1) ^ 2 := by rw [wA, ← hJd, e1]; ring
  have hM : wM F - 1 / 16 = s ^ 2 - s / 2 + (J ^ 2 + 1 / J ^ 2 - 2) ^ 2 := by
    rw [wM, ← hJd, show fsq F / J = s + 2 by rw [hs]; ring]; ring
  have hq : 0 ≤ (J ^ 2 + 1 / J ^ 2 - 2) ^ 2 := sq_nonneg _
  have hsum : wA F + 2 * (wM F - 1 / 16) =
      (s + (J - 1) / 2) ^ 2 + s ^ 2 + 3 / 4 * (J - 1) ^ 2 + 2 * (J - 1 - Real.log J) + 2 * (J ^ 2 + 1 / J ^ 2 - 2) ^ 2 := by
    rw [hA, hM]; ring
  refine ⟨by rw [hsum]; nlinarith [sq_nonneg (s + (J - 1) / 2), sq_nonneg s, sq_nonneg (J - 1)], fun hle => ?_⟩
  rw [hsum] at hle
  have h1 : (J - 1) ^ 2 = 0 := by nlinarith [sq_nonneg (s + (J - 1) / 2), sq_nonneg s, sq_nonneg (J - 1)]
  have h2 : s ^ 2 = 0 := by nlinarith [sq_nonneg (s + (J - 1) / 2), sq_nonneg s, sq_nonneg (J - 1)]
  have h1' : J = 1 := by have := pow_eq_zero_iff (two_ne_zero) |>.1 h1; linarith
  have h2' : s = 0 := pow_eq_zero_iff (two_ne_zero) |>.1 h2
  rw [hA, h1', h2', Real.log_one]; norm_num

theorem exp_transition {t : ℝ} : Real.log (3 / 2) / 5 ≤ t ↔ Real.exp (-5 * t) ≤ 2 / 3 := by
  have e : Real.log (2 / 3) = -Real.log (3 / 2) := by rw [← Real.log_inv]; norm_num
  rw [← Real.le_log_iff_exp_le (by norm_num), e]
  constructor <;> intro h <;> linarith

theorem wA_rotation {F : Matrix (Fin 2) (Fin 2) ℝ} (h : 0 < F.det) : wA F = 0 ↔ IsRotation F := by
  obtain ⟨w, h1, -, h2⟩ := C48_well F h
  cases h1.symm.trans (austPot_eq h)
  exact h2

theorem wM_rotation {F : Matrix (Fin 2) (Fin 2) ℝ} (h : IsRotation F) : wM F = 1 / 16 := by
  have h0 : (0 : ℝ) < (1 : Matrix (Fin 2) (Fin 2) ℝ).det := by simp
  have hF : 0 < F.det := by rw [h.2]; norm_num
  have := (C49_invariance 1 F h).1
  rw [Matrix.mul_one, martPot_eq hF.ne', martPot_eq h0.ne'] at this
  rw [Except.ok.inj this]
  norm_num [wM, fsq, Matrix.one_apply]

/-- **C96** (the transition). At the temperature `log (3 / 2) / 5` one third of the material is austenite. -/
theorem C96_percentage {t : ℝ} : ∃ a, austenitePercentage t = .ok a ∧ (1 / 3 ≤ a ↔ Real.log (3 / 2) / 5 ≤ t) := by
  refine ⟨_, aust_eq t, ?_⟩
  rw [exp_transition]
  constructor <;> intro h <;> linarith

/-- **C96** (above). From this temperature on, the undeformed state has the smallest total elastic potential among all strains
with positive determinant, and only rotations have the same. -/
theorem C96_stable {t : ℝ} (ht : Real.log (3 / 2) / 5 ≤ t) (F : Matrix (Fin 2) (Fin 2) ℝ) (h : 0 < F.det) :
    ∃ w w1, totalElasticPotential (matOf F) t = .ok w ∧
      totalElasticPotential (matOf (1 : Matrix (Fin 2) (Fin 2) ℝ)) t = .ok w1 ∧ w1 ≤ w ∧ (w = w1 ↔ IsRotation F) := by
  have he := exp_transition.1 ht
  have hp := Real.exp_pos (-5 * t)
  refine ⟨_, _, totalElastic_value h t, potential_one (aust_eq t), ?_⟩
  obtain ⟨k1, k2⟩ := transition_key h
  have hA := wA_nonneg h
  set e := Real.exp (-5 * t)
  have key : (1 - e) * wA F + e * wM F - (1 - (1 - e)) / 16 =
      (1 - 3 / 2 * e) * wA F + e / 2 * (wA F + 2 * (wM F - 1 / 16)) := by ring
  have n1 : 0 ≤ (1 - 3 / 2 * e) * wA F := mul_nonneg (by linarith) hA
  have n2 : 0 ≤ e / 2 * (wA F + 2 * (wM F - 1 / 16)) := mul_nonneg (by linarith) k1
  refine ⟨by linarith, fun heq => ?_, fun hR => ?_⟩
  · rw [← wA_rotation h]
    apply k2
    by_contra hn
    push Not at hn
    have : 0 < e / 2 * (wA F + 2 * (wM F - 1 / 16)) := mul_pos (by linarith) hn
    linarith
  · rw [(wA_rotation h).2 hR, wM_rotation hR]; ring

/-- **C96** (below). Below this temperature there are strains of determinant one, arbitrarily close to the undeformed state,
with a smaller total elastic potential: the undeformed state is unstable. -/
theorem C96_unstable {t : ℝ} (ht : t < Real.log (3 / 2) / 5) {ε : ℝ} (hε : 0 < ε) :
    ∃ (F : Matrix (Fin 2) (Fin 2) ℝ) (w w1 : ℝ), F.det = 1 ∧ (∀ i j, |F i j - (1 : Matrix (Fin 2) (Fin 2) ℝ) i j| < ε) ∧
      totalElasticPotential (matOf F) t = .ok w ∧
      totalElasticPotential (matOf (1 : Matrix (Fin 2) (Fin 2) ℝ)) t = .ok w1 ∧ w < w1 := by
  have he : 2 / 3 < Real.exp (-5 * t) := by
    by_contra hn
    push Not at hn
    exact absurd (exp_transition.2 hn) (not_le.2 ht)
  set e := Real.exp (-5 * t) with hed
  -- a small shear
  obtain ⟨γ, hγ, h1, h2⟩ : ∃ γ : ℝ, 0 < γ ∧ γ < ε ∧ e * γ ^ 2 < 3 / 2 * e - 1 := by
    have hc : Filter.Tendsto (fun γ : ℝ => e * γ ^ 2) (nhdsWithin 0 (Set.Ioi 0)) (nhds (e * 0 ^ 2)) :=
      ((continuous_const.mul (continuous_pow 2)).tendsto 0).mono_left nhdsWithin_le_nhds
    have h3 := hc.eventually (gt_mem_nhds (show e * 0 ^ 2 < 3 / 2 * e - 1 by linarith))
    have h4 : ∀ᶠ γ in nhdsWithin (0 : ℝ) (Set.Ioi 0), γ ∈ Set.Ioo 0 ε := Ioo_mem_nhdsGT hε
    obtain ⟨γ, a, b⟩ := (h3.and h4).exists
    exact ⟨γ, b.1, b.2, a⟩
  have hdet : (!![1, γ; 0, 1] : Matrix (Fin 2) (Fin 2) ℝ).det = 1 := by simp [Matrix.det_fin_two]
  have hf : fsq !![1, γ; 0, 1] = 2 + γ ^ 2 := by simp [fsq]; ring
  refine ⟨!![1, γ; 0, 1], _, _, hdet, ?_, totalElastic_value (by rw [hdet]; norm_num) t, potential_one (aust_eq t), ?_⟩
  · intro i j
    fin_cases i <;> fin_cases j <;> simp [abs_of_pos hγ, h1, hε]
  · rw [wA, wM, hdet, hf, Real.log_one, ← hed]
    have := sq_nonneg γ
    have hγ2 : 0 < γ ^ 2 := by positivity
    nlinarith

/-- both temperatures occur -/
example : (0 : ℝ) < Real.log (3 / 2) / 5 ∧ Real.log (3 / 2) / 5 < 1 := by
  have h1 : 0 < Real.log (3 / 2) := Real.log_pos (by norm_num)
  have h2 : Real.log (3 / 2) ≤ 3 / 2 - 1 := Real.log_le_sub_one_of_pos (by norm_num)
  constructor <;> linarith

end Tve
