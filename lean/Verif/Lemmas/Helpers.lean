import Verif.Model.Helpers
import Verif.Lemmas.Sym
import Verif.Lemmas.Tensors
import Mathlib.MeasureTheory.Integral.IntervalIntegral.FundThmCalculus
import Mathlib.Tactic.LinearCombination

/-! Values of the potentials. -/

set_option linter.unusedSimpArgs false

namespace Tve
namespace Helpers
open Tve.Sym

theorem aust_eq (t : ℝ) : austenitePercentage t = .ok (1 - Real.exp (-5 * t)) := by
  simp [austenitePercentage, lambdify, austSym, theta, evalPy, bindArgs, c_add, c_sub, c_neg, c_mul, c_ofNat,
    List.lookup]

theorem weight_eq (t : ℝ) :
    internalEnergyWeight t = .ok (1 - Real.exp (-5 * t) - t * (5 * Real.exp (-5 * t))) := by
  simp [internalEnergyWeight, weightSym, lambdify, austSym, theta, diff, evalPy, bindArgs, c_add, c_sub, c_neg, c_mul, c_ofNat,
    List.lookup]
  left; ring

/-- closed form of the antiderivative -/
noncomputable def anti (t : ℝ) : ℝ := t - 2 / 5 * (1 - Real.exp (-5 * t)) + t * Real.exp (-5 * t)

theorem anti_deriv (t : ℝ) : HasDerivAt anti (1 - Real.exp (-5 * t) - t * (5 * Real.exp (-5 * t))) t := by
  have h0 : HasDerivAt (fun t : ℝ => -5 * t) (-5) t := by simpa using (hasDerivAt_id t).const_mul (-5 : ℝ)
  have h1 := h0.exp
  have h2 := ((hasDerivAt_id t).sub ((h1.const_sub 1).const_mul (2 / 5))).add ((hasDerivAt_id t).mul h1)
  refine HasDerivAt.congr_deriv h2 ?_
  simp only [id]
  ring

theorem antider_eq (t : ℝ) : antiderInternalEnergyWeight t = .ok (anti t) := by
  simp only [antiderInternalEnergyWeight, weight_eq]
  congr 1
  rw [intervalIntegral.integral_eq_sub_of_hasDerivAt (f := anti) (fun x _ => anti_deriv x)]
  · simp [anti]
  · apply Continuous.intervalIntegrable
    fun_prop

/-- sum of the squares of the entries -/
def fsq (F : Matrix (Fin 2) (Fin 2) ℝ) : ℝ := F 0 0 ^ 2 + F 0 1 ^ 2 + F 1 0 ^ 2 + F 1 1 ^ 2

theorem argsF_eq (F : Matrix (Fin 2) (Fin 2) ℝ) : argsF (matOf F) = .ok [F 0 0, F 0 1, F 1 0, F 1 1] := by
  simp [argsF, matOf, Mat.getItem, Mat.rows, Mat.cols, pyIdx, pyGet, List.ofFn_succ]

/-- the environment of the potentials -/
noncomputable def envF (F : Matrix (Fin 2) (Fin 2) ℝ) : Symb → ℝ := fun s =>
  if s = "F_11" then F 0 0 else if s = "F_12" then F 0 1 else if s = "F_21" then F 1 0 else if s = "F_22" then F 1 1
  else 0

theorem bind_envF (F : Matrix (Fin 2) (Fin 2) ℝ) {s : Symb} (hs : s ∈ paramsF) :
    bindArgs paramsF [F 0 0, F 0 1, F 1 0, F 1 1] s = some (envF F s) := by
  simp only [paramsF, List.mem_cons, List.not_mem_nil, or_false] at hs
  rcases hs with rfl | rfl | rfl | rfl <;> simp [bindArgs, paramsF, List.lookup, envF]

theorem eval_J (F : Matrix (Fin 2) (Fin 2) ℝ) : J.eval (envF F) = F 0 0 * F 1 1 - F 0 1 * F 1 0 := by
  simp [J, F11, F12, F21, F22, envF]

theorem eval_I1 (F : Matrix (Fin 2) (Fin 2) ℝ) : I1.eval (envF F) = fsq F := by
  simp [I1, F11, F12, F21, F22, envF, fsq]; ring

theorem safe_J (v : Symb → ℝ) : J.Safe v := by simp [J, F11, F12, F21, F22]
theorem safe_I1 (v : Symb → ℝ) : I1.Safe v := by simp [I1, F11, F12, F21, F22]

theorem free_aust : ∀ s ∈ austPotSym.free, s ∈ paramsF := by
  simp [austPotSym, I1, J, F11, F12, F21, F22, free, c_add, c_sub, c_mul, c_pow, c_ofNat, paramsF]

theorem free_mart : ∀ s ∈ martPotSym.free, s ∈ paramsF := by
  simp [martPotSym, doubleWell, subs1, I1, J, F11, F12, F21, F22, free, c_add, c_sub, c_mul, c_pow, c_div, c_ofNat, paramsF]

theorem safe_aust {F : Matrix (Fin 2) (Fin 2) ℝ} (h : 0 < F.det) : austPotSym.Safe (envF F) := by
  rw [Matrix.det_fin_two] at h
  have hs := safe_J (envF F)
  have hi := safe_I1 (envF F)
  simp [austPotSym, hs, hi]
  exact ⟨trivial, hs, by rw [eval_J]; exact h⟩

theorem safe_mart {F : Matrix (Fin 2) (Fin 2) ℝ} (h : F.det ≠ 0) : martPotSym.Safe (envF F) := by
  rw [Matrix.det_fin_two] at h
  have hs := safe_J (envF F)
  have hi := safe_I1 (envF F)
  have e := eval_J F
  have e2 : ∀ (a : Sym) (n : ℕ) v, (a.pow n).Safe v ↔ a.Safe v := fun _ _ _ => Iff.rfl
  have e3 : ∀ (a : Sym) (n : ℕ) v, (a.pow n).eval v = a.eval v ^ n := fun _ _ _ => rfl
  simp [martPotSym, doubleWell, subs1, hs, hi, c_pow, e, h, e2, e3]
  trivial

/-- value of the austenite potential -/
noncomputable def wA (F : Matrix (Fin 2) (Fin 2) ℝ) : ℝ := fsq F - 2 - 2 * Real.log F.det + (F.det - 1) ^ 2
/-- value of the martensite potential -/
noncomputable def wM (F : Matrix (Fin 2) (Fin 2) ℝ) : ℝ :=
  (fsq F / F.det - 9 / 4) ^ 2 + (F.det ^ 2 + 1 / F.det ^ 2 - 2) ^ 2

theorem eval_aust (F : Matrix (Fin 2) (Fin 2) ℝ) : austPotSym.eval (envF F) = wA F := by
  have h1 := eval_J F
  have h2 := eval_I1 F
  have h3 : (Sym.log J).eval (envF F) = Real.log (J.eval (envF F)) := rfl
  rw [← Matrix.det_fin_two] at h1
  simp only [austPotSym, eval_hadd, eval_hsub, eval_hmul, eval_hpow, c_ofNat, eval_num, Nat.cast_ofNat, Nat.cast_one, Rat.cast_ofNat, Rat.cast_one, eval_one, h1, h2, h3, wA]

theorem eval_mart (F : Matrix (Fin 2) (Fin 2) ℝ) : martPotSym.eval (envF F) = wM F := by
  have h1 := eval_J F
  have h2 := eval_I1 F
  rw [← Matrix.det_fin_two] at h1
  simp only [martPotSym, eval_hadd, eval_subs1, doubleWell, eval_hsub, eval_hmul, eval_hdiv, eval_hpow, c_ofNat, eval_num, Nat.cast_ofNat, Nat.cast_one, Rat.cast_ofNat, Rat.cast_one,
    eval_one, h1, h2, wM, eval_var, Function.update_self, eval_num, posShear]
  push_cast
  ring

theorem austPot_eq {F : Matrix (Fin 2) (Fin 2) ℝ} (h : 0 < F.det) : austenitePotential (matOf F) = .ok (wA F) := by
  rw [austenitePotential, argsF_eq, bind_ok, lambdify, if_neg (by simp [paramsF]),
    evalPy_eq (v := envF F) (fun s hs => bind_envF F (free_aust s hs)) (safe_aust h), eval_aust]

theorem martPot_eq {F : Matrix (Fin 2) (Fin 2) ℝ} (h : F.det ≠ 0) : martensitePotential (matOf F) = .ok (wM F) := by
  rw [martensitePotential, argsF_eq, bind_ok, lambdify, if_neg (by simp [paramsF]),
    evalPy_eq (v := envF F) (fun s hs => bind_envF F (free_mart s hs)) (safe_mart h), eval_mart]

theorem austPot_err {F : Matrix (Fin 2) (Fin 2) ℝ} (h : F.det ≤ 0) :
    austenitePotential (matOf F) = .error .valueError := by
  rw [Matrix.det_fin_two] at h
  rw [austenitePotential, argsF_eq, bind_ok, lambdify, if_neg (by simp [paramsF])]
  simp [austPotSym, I1, J, F11, F12, F21, F22, evalPy, bindArgs, List.lookup, paramsF, c_add, c_sub, c_mul, c_pow,
    c_ofNat]
  rw [if_pos (by linarith)]
  rfl

theorem martPot_err {F : Matrix (Fin 2) (Fin 2) ℝ} (h : F.det = 0) :
    martensitePotential (matOf F) = .error .zeroDivision := by
  rw [Matrix.det_fin_two] at h
  rw [martensitePotential, argsF_eq, bind_ok, lambdify, if_neg (by simp [paramsF])]
  simp [martPotSym, doubleWell, subs1, I1, J, F11, F12, F21, F22, evalPy, bindArgs, List.lookup, paramsF, c_add, c_sub,
    c_mul, c_pow, c_div, c_ofNat, h]

/-! ### Derivatives -/

/-- the symbol `_F[i, j]` -/
def sF (i j : Fin 2) : Symb := ![![("F_11" : Symb), "F_12"], ![("F_21" : Symb), "F_22"]] i j

theorem sF_mem (i j : Fin 2) : sF i j ∈ paramsF := by
  fin_cases i <;> fin_cases j <;> simp [sF, paramsF]

theorem envF_sF (F : Matrix (Fin 2) (Fin 2) ℝ) (i j : Fin 2) : envF F (sF i j) = F i j := by
  fin_cases i <;> fin_cases j <;> simp [sF, envF]

theorem diffMat_eq {e : Sym} {F : Matrix (Fin 2) (Fin 2) ℝ} (hf : ∀ s ∈ e.free, s ∈ paramsF) (hs : e.Safe (envF F)) :
    lambdifyMat paramsF (symF.map fun row => row.map fun x => e.diff x) [F 0 0, F 0 1, F 1 0, F 1 1] =
      .ok (matOf (Matrix.of fun i j => (e.diff (sF i j)).eval (envF F))).data := by
  rw [lambdifyMat_eq (v := envF F) rfl]
  · simp [symF, matOf, List.ofFn_succ, sF]
  · intro r hr x hx s hs
    simp only [List.mem_map] at hr
    obtain ⟨row, -, rfl⟩ := hr
    obtain ⟨y, -, rfl⟩ := List.mem_map.mp hx
    exact bind_envF F (hf s (free_diff _ _ s hs))
  · intro r hr x hx
    simp only [List.mem_map] at hr
    obtain ⟨row, -, rfl⟩ := hr
    obtain ⟨y, -, rfl⟩ := List.mem_map.mp hx
    exact safe_diff _ hs

theorem dAust_eq {F : Matrix (Fin 2) (Fin 2) ℝ} (h : 0 < F.det) : derivativeAustenitePotential (matOf F) =
    .ok (matOf (Matrix.of fun i j => (austPotSym.diff (sF i j)).eval (envF F))) := by
  rw [derivativeAustenitePotential, argsF_eq, bind_ok, dAustSym, diffMat_eq free_aust (safe_aust h), bind_ok]
  exact Mat.new_ofFn _

theorem dMart_eq {F : Matrix (Fin 2) (Fin 2) ℝ} (h : F.det ≠ 0) : derivativeMartensitePotential (matOf F) =
    .ok (matOf (Matrix.of fun i j => (martPotSym.diff (sF i j)).eval (envF F))) := by
  rw [derivativeMartensitePotential, argsF_eq, bind_ok, dMartSym, diffMat_eq free_mart (safe_mart h), bind_ok]
  exact Mat.new_ofFn _

end Helpers
end Tve
