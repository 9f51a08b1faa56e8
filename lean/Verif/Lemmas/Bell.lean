import Verif.Lemmas.Cyclic
import Verif.Lemmas.Tensors
import Verif.Spec.Geometry

/-! Evaluation of the Bell element. -/

set_option linter.unusedSimpArgs false

namespace Tve
namespace Bell
open Tve.Sym

/-- the cyclic renaming of all nine symbols -/
noncomputable def cyc : Equiv.Perm Symb := List.formPerm symC * List.formPerm symB * List.formPerm symL

theorem cyc_L1 : cyc "L1" = "L2" := by
  simp [cyc, symL, symB, symC, List.formPerm, Equiv.swap_apply_def]
theorem cyc_L2 : cyc "L2" = "L3" := by
  simp [cyc, symL, symB, symC, List.formPerm, Equiv.swap_apply_def]
theorem cyc_L3 : cyc "L3" = "L1" := by
  simp [cyc, symL, symB, symC, List.formPerm, Equiv.swap_apply_def]
theorem cyc_b1 : cyc "b1" = "b2" := by
  simp [cyc, symL, symB, symC, List.formPerm, Equiv.swap_apply_def]
theorem cyc_b2 : cyc "b2" = "b3" := by
  simp [cyc, symL, symB, symC, List.formPerm, Equiv.swap_apply_def]
theorem cyc_b3 : cyc "b3" = "b1" := by
  simp [cyc, symL, symB, symC, List.formPerm, Equiv.swap_apply_def]
theorem cyc_c1 : cyc "c1" = "c2" := by
  simp [cyc, symL, symB, symC, List.formPerm, Equiv.swap_apply_def]
theorem cyc_c2 : cyc "c2" = "c3" := by
  simp [cyc, symL, symB, symC, List.formPerm, Equiv.swap_apply_def]
theorem cyc_c3 : cyc "c3" = "c1" := by
  simp [cyc, symL, symB, symC, List.formPerm, Equiv.swap_apply_def]
theorem cyc_s : cyc "s" = "s" := by
  simp [cyc, symL, symB, symC, List.formPerm, Equiv.swap_apply_def]

attribute [irreducible] cyc

theorem notMem_rename {ρ : Equiv.Perm Symb} (hρ : ρ "s" = "s") {e : Sym} (he : "s" ∉ e.free) :
    "s" ∉ (e.rename ρ).free := by
  rw [free_rename, List.mem_map]
  rintro ⟨t, ht, hts⟩
  have : t = "s" := ρ.injective (hts.trans hρ.symm)
  exact he (this ▸ ht)

theorem cyclicPermutation_eq (e : Sym) (he : "s" ∉ e.free) :
    cyclicPermutation e [symL, symB, symC] = e.rename cyc := by
  have h1 : (List.formPerm symL) "s" = "s" := List.formPerm_apply_of_notMem (by simp [symL])
  have h2 : (List.formPerm symB) "s" = "s" := List.formPerm_apply_of_notMem (by simp [symB])
  have h3 := notMem_rename h1 he
  have h4 := notMem_rename h2 h3
  simp only [cyclicPermutation, List.foldl_cons, List.foldl_nil]
  unfold cyc
  rw [singleCyclic_eq symL (by simp [symL]) (by simp [symL]) e he,
    singleCyclic_eq symB (by simp [symB]) (by simp [symB]) _ h3,
    singleCyclic_eq symC (by simp [symC]) (by simp [symC]) _ h4, rename_rename, rename_rename]
  rfl

/-- the shape function number `k` of the first vertex -/
def NF (k : Fin 6) : Sym := ![N1, N2, N3, N4, N5, N6] k

theorem free_NF (k : Fin 6) : ∀ s ∈ (NF k).free, s ∈ params9 := by
  fin_cases k <;>
  simp [NF, N1, N2, N3, N4, N5, N6, r21, r31, rEntry, L1, L2, L3, b1, b2, b3, c1, c2, c3, fiveHalves, free, c_add,
    c_sub, c_neg, c_mul, c_div, c_pow, c_ofNat, params9, symL, symB, symC]

/-- the shape function number `k` of vertex `i` -/
noncomputable def NN (i : Fin 3) (k : Fin 6) : Sym := (NF k).rename ⇑(cyc ^ (i : ℕ))

theorem NN_zero (k : Fin 6) : NN 0 k = NF k := rename_id _

theorem NN_one (k : Fin 6) : NN 1 k = (NF k).rename cyc := by
  unfold NN; congr 1

theorem NN_two (k : Fin 6) : NN 2 k = (NN 1 k).rename cyc := by
  rw [NN_one, rename_rename]
  exact rename_congr fun s _ => by
    show (cyc ^ 2) s = cyc (cyc s)
    rw [pow_two, Equiv.Perm.mul_apply]

theorem NFirst_eq : NFirst = List.ofFn NF := by simp [List.ofFn_succ, NFirst, NF]

theorem s_notMem (k : Fin 6) : "s" ∉ (NF k).free := by
  intro h
  have := free_NF k _ h
  simp [params9, symL, symB, symC] at this

theorem NSecond_eq : NSecond = List.ofFn (NN 1) := by
  rw [NSecond, NFirst_eq, List.map_ofFn]
  apply congrArg List.ofFn
  funext k
  rw [NN_one]
  exact cyclicPermutation_eq _ (s_notMem k)

theorem NThird_eq : NThird = List.ofFn (NN 2) := by
  rw [NThird, NSecond_eq, List.map_ofFn]
  apply congrArg List.ofFn
  funext k
  rw [NN_two, Function.comp, cyclicPermutation_eq]
  rw [NN_one]; exact notMem_rename cyc_s (s_notMem k)

theorem N_eq : N = List.ofFn (NN 0) ++ List.ofFn (NN 1) ++ List.ofFn (NN 2) := by
  rw [N, NFirst_eq, NSecond_eq, NThird_eq, funext NN_zero]

/-- the values of the nine symbols -/
noncomputable def env (L b c : Fin 3 → ℝ) : Symb → ℝ := fun s =>
  ((params9.zip [L 0, L 1, L 2, b 0, b 1, b 2, c 0, c 1, c 2]).lookup s).getD 0

section env
variable (L b c : Fin 3 → ℝ)
@[simp] theorem env_L1 : env L b c "L1" = L 0 := by simp [env, params9, symL, symB, symC, List.lookup]
@[simp] theorem env_L2 : env L b c "L2" = L 1 := by simp [env, params9, symL, symB, symC, List.lookup]
@[simp] theorem env_L3 : env L b c "L3" = L 2 := by simp [env, params9, symL, symB, symC, List.lookup]
@[simp] theorem env_b1 : env L b c "b1" = b 0 := by simp [env, params9, symL, symB, symC, List.lookup]
@[simp] theorem env_b2 : env L b c "b2" = b 1 := by simp [env, params9, symL, symB, symC, List.lookup]
@[simp] theorem env_b3 : env L b c "b3" = b 2 := by simp [env, params9, symL, symB, symC, List.lookup]
@[simp] theorem env_c1 : env L b c "c1" = c 0 := by simp [env, params9, symL, symB, symC, List.lookup]
@[simp] theorem env_c2 : env L b c "c2" = c 1 := by simp [env, params9, symL, symB, symC, List.lookup]
@[simp] theorem env_c3 : env L b c "c3" = c 2 := by simp [env, params9, symL, symB, symC, List.lookup]

theorem bindArgs_env {s : Symb} (hs : s ∈ params9) :
    bindArgs params9 [L 0, L 1, L 2, b 0, b 1, b 2, c 0, c 1, c 2] s = some (env L b c s) := by
  simp only [params9, symL, symB, symC, List.cons_append, List.nil_append, List.mem_cons, List.not_mem_nil,
    or_false] at hs
  rcases hs with rfl | rfl | rfl | rfl | rfl | rfl | rfl | rfl | rfl <;>
    simp [bindArgs, params9, symL, symB, symC, List.lookup]

/-- one rotation of the vertices -/
def rot {α : Type} (f : Fin 3 → α) : Fin 3 → α := fun i => f (i + 1)

theorem env_cyc {s : Symb} (hs : s ∈ params9) : (env L b c ∘ cyc) s = env (rot L) (rot b) (rot c) s := by
  simp only [params9, symL, symB, symC, List.cons_append, List.nil_append, List.mem_cons, List.not_mem_nil,
    or_false] at hs
  rcases hs with rfl | rfl | rfl | rfl | rfl | rfl | rfl | rfl | rfl <;>
    simp [cyc_L1, cyc_L2, cyc_L3, cyc_b1, cyc_b2, cyc_b3, cyc_c1, cyc_c2, cyc_c3, rot]

theorem cyc_mem {s : Symb} (hs : s ∈ params9) : cyc s ∈ params9 := by
  simp only [params9, symL, symB, symC, List.cons_append, List.nil_append, List.mem_cons, List.not_mem_nil,
    or_false] at hs
  rcases hs with rfl | rfl | rfl | rfl | rfl | rfl | rfl | rfl | rfl <;>
    simp [cyc_L1, cyc_L2, cyc_L3, cyc_b1, cyc_b2, cyc_b3, cyc_c1, cyc_c2, cyc_c3, params9, symL, symB, symC]

theorem cyc_pow_mem (i : ℕ) {s : Symb} (hs : s ∈ params9) : (cyc ^ i) s ∈ params9 := by
  induction i generalizing s with
  | zero => exact hs
  | succ i ih => rw [pow_succ, Equiv.Perm.mul_apply]; exact ih (cyc_mem hs)

theorem env_cyc_pow (i : ℕ) {s : Symb} (hs : s ∈ params9) :
    (env L b c ∘ (cyc ^ i)) s = env (rot^[i] L) (rot^[i] b) (rot^[i] c) s := by
  induction i generalizing L b c s with
  | zero => rfl
  | succ i ih =>
    rw [Function.comp, pow_succ', Equiv.Perm.mul_apply]
    show (env L b c ∘ cyc) _ = _
    rw [env_cyc _ _ _ (cyc_pow_mem i hs)]
    rw [Function.iterate_succ_apply, Function.iterate_succ_apply, Function.iterate_succ_apply]
    exact ih (rot L) (rot b) (rot c) hs

end env

theorem free_NN (i : Fin 3) (k : Fin 6) : ∀ s ∈ (NN i k).free, s ∈ params9 := by
  intro s hs
  rw [NN, free_rename, List.mem_map] at hs
  obtain ⟨t, ht, rfl⟩ := hs
  exact cyc_pow_mem i (free_NF k t ht)

theorem eval_NN (L b c : Fin 3 → ℝ) (i : Fin 3) (k : Fin 6) :
    (NN i k).eval (env L b c) = (NF k).eval (env (rot^[i] L) (rot^[i] b) (rot^[i] c)) := by
  rw [NN, eval_rename]
  exact eval_congr fun s hs => env_cyc_pow L b c i (free_NF k s hs)

theorem safe_NF {L b c : Fin 3 → ℝ} (h : ∀ i, b i ^ 2 + c i ^ 2 ≠ 0) (k : Fin 6) : (NF k).Safe (env L b c) := by
  have h1 := h 1
  have h2 := h 2
  fin_cases k <;>
  simp [NF, N1, N2, N3, N4, N5, N6, r21, r31, rEntry, L1, L2, L3, b1, b2, b3, c1, c2, c3, fiveHalves, h1, h2,
    c_ofNat]

theorem rot_iter {α : Type} (f : Fin 3 → α) (i j : Fin 3) : (rot^[i] f) j = f (j + i) := by
  fin_cases i <;> fin_cases j <;> rfl

theorem safe_NN {L b c : Fin 3 → ℝ} (h : ∀ i, b i ^ 2 + c i ^ 2 ≠ 0) (i : Fin 3) (k : Fin 6) :
    (NN i k).Safe (env L b c) := by
  rw [NN, safe_rename, safe_congr (fun s hs => env_cyc_pow L b c i (free_NF k s hs))]
  apply safe_NF
  intro j
  rw [rot_iter, rot_iter]
  exact h _

/-- the barycentric symbol number `j` -/
def LL (j : Fin 3) : Symb := ![("L1" : Symb), "L2", "L3"] j

theorem cyc_LL (i j : Fin 3) : (cyc ^ (i : ℕ)) (LL j) = LL (j + i) := by
  fin_cases i <;> fin_cases j <;> simp [LL, pow_two, Equiv.Perm.mul_apply, cyc_L1, cyc_L2, cyc_L3]

/-- first derivatives of the rotated shape functions -/
theorem eval_diff_NN (L b c : Fin 3 → ℝ) (i j : Fin 3) (k : Fin 6) :
    ((NN i k).diff (LL (j + i))).eval (env L b c) =
      ((NF k).diff (LL j)).eval (env (rot^[i] L) (rot^[i] b) (rot^[i] c)) := by
  have : LL (j + i) = (cyc ^ (i : ℕ)) (LL j) := (cyc_LL _ _).symm
  rw [this, NN, diff_rename (Equiv.injective _), eval_rename]
  exact eval_congr fun s hs => env_cyc_pow L b c i (free_NF k s (free_diff _ _ s hs))

/-- second derivatives of the rotated shape functions -/
theorem eval_diff2_NN (L b c : Fin 3 → ℝ) (i j l : Fin 3) (k : Fin 6) :
    (((NN i k).diff (LL (j + i))).diff (LL (l + i))).eval (env L b c) =
      (((NF k).diff (LL j)).diff (LL l)).eval (env (rot^[i] L) (rot^[i] b) (rot^[i] c)) := by
  have h1 : LL (j + i) = (cyc ^ (i : ℕ)) (LL j) := (cyc_LL _ _).symm
  have h2 : LL (l + i) = (cyc ^ (i : ℕ)) (LL l) := (cyc_LL _ _).symm
  rw [h1, h2, NN, diff_rename (Equiv.injective _), diff_rename (Equiv.injective _), eval_rename]
  exact eval_congr fun s hs => env_cyc_pow L b c i (free_NF k s (free_diff _ _ s (free_diff _ _ s hs)))

end Bell
end Tve
