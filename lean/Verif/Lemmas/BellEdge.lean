import Verif.Lemmas.BellForm

/-! Value and gradient of the Bell interpolation on an edge depend only on the data of the two end points. -/

set_option linter.unusedSimpArgs false
set_option linter.unnecessarySeqFocus false

namespace Tve
namespace Bell
open Tve.Sym
variable {P : Fin 3 → ℝ × ℝ} {L : Fin 3 → ℝ} {p : Fin 3 → Fin 6 → ℝ}

theorem sh0 {α : Type} (f : Fin 3 → α) : sh 0 f = f := by funext j; simp [sh]

theorem nor_edge01 (h : Nondegenerate P) (t : ℝ) :
    ∑ j, (bb P 2 * bb P j + cc P 2 * cc P j) * bder P p (edgeW 0 1 t) j =
      twoD P * eNor (P 0) (P 1) (p 0) (p 1) t := by
  have hD := nondeg_norm h 2
  have hr : R31 (bb P) (cc P) * (bb P 2 ^ 2 + cc P 2 ^ 2) = -(bb P 2 * bb P 0 + cc P 2 * cc P 0) := by
    simp only [R31]; field_simp
  have hr' : R21 (sh 1 (bb P)) (sh 1 (cc P)) * (bb P 2 ^ 2 + cc P 2 ^ 2) = -(bb P 2 * bb P 1 + cc P 2 * cc P 1) := by
    simp only [R21, sh]
    simp
    field_simp
  have e1 : (P 0).2 - (P 1).2 = bb P 2 := by simp [bb]
  have e2 : (P 1).1 - (P 0).1 = cc P 2 := by simp [cc]
  have eb : bb P 1 = - bb P 0 - bb P 2 := by simp [bb]
  have ec : cc P 1 = - cc P 0 - cc P 2 := by simp [cc]
  have hd : twoD P = bb P 2 * cc P 0 - bb P 0 * cc P 2 := by
    simp [twoD, cross, bb, cc]; ring
  simp only [Fin.sum_univ_succ, bder_form, eNor, e1, e2, Fin.succ_zero_eq_one]
  simp only [Fin.isValue, sh0]
  simp [dform, sh, edgeW, coef]
  rw [hd]
  generalize R31 (bb P) (cc P) = r at *
  generalize R21 (sh 1 (bb P)) (sh 1 (cc P)) = r' at *
  rw [eb, ec] at *
  generalize bb P 0 = b0 at *
  generalize bb P 2 = b2 at *
  generalize cc P 0 = c0 at *
  generalize cc P 2 = c2 at *
  linear_combination t ^ 2 * (1 - t) ^ 2 * (30 * p 0 0 + 15 * c2 * p 0 1 - 15 * b2 * p 0 2 + 5 / 2 * c2 ^ 2 * p 0 3 -
      5 * b2 * c2 * p 0 4 + 5 / 2 * b2 ^ 2 * p 0 5) * hr + t ^ 2 * (1 - t) ^ 2 * (30 * p 1 0 - 15 * c2 * p 1 1 +
      15 * b2 * p 1 2 + 5 / 2 * c2 ^ 2 * p 1 3 - 5 * b2 * c2 * p 1 4 + 5 / 2 * b2 ^ 2 * p 1 5) * hr'

/-- first component of the gradient on an edge -/
noncomputable def eGx (P Q : ℝ × ℝ) (p q : Fin 6 → ℝ) (t : ℝ) : ℝ :=
  let b := P.2 - Q.2
  let c := Q.1 - P.1
  (b * eNor P Q p q t - c * eTan P Q p q t) / (b ^ 2 + c ^ 2)
/-- second component of the gradient on an edge -/
noncomputable def eGy (P Q : ℝ × ℝ) (p q : Fin 6 → ℝ) (t : ℝ) : ℝ :=
  let b := P.2 - Q.2
  let c := Q.1 - P.1
  (c * eNor P Q p q t + b * eTan P Q p q t) / (b ^ 2 + c ^ 2)

theorem eTan_symm (P Q : ℝ × ℝ) (p q : Fin 6 → ℝ) (t : ℝ) : eTan P Q p q t = -eTan Q P q p (1 - t) := by
  simp only [eTan]; ring
theorem eNor_symm (P Q : ℝ × ℝ) (p q : Fin 6 → ℝ) (t : ℝ) : eNor P Q p q t = -eNor Q P q p (1 - t) := by
  simp only [eNor]; ring
theorem eGx_symm (P Q : ℝ × ℝ) (p q : Fin 6 → ℝ) (t : ℝ) : eGx P Q p q t = eGx Q P q p (1 - t) := by
  simp only [eGx]; rw [eTan_symm, eNor_symm]; ring
theorem eGy_symm (P Q : ℝ × ℝ) (p q : Fin 6 → ℝ) (t : ℝ) : eGy P Q p q t = eGy Q P q p (1 - t) := by
  simp only [eGy]; rw [eTan_symm, eNor_symm]; ring

theorem g_edge01 (h : Nondegenerate P) (t : ℝ) :
    gx P p (edgeW 0 1 t) = eGx (P 0) (P 1) (p 0) (p 1) t ∧ gy P p (edgeW 0 1 t) = eGy (P 0) (P 1) (p 0) (p 1) t := by
  have hD := nondeg_norm h 2
  have h' : twoD P ≠ 0 := h
  have hn := nor_edge01 (p := p) h t
  have ht := tan_edge01 (P := P) (p := p) t
  have e1 : (P 0).2 - (P 1).2 = bb P 2 := by simp [bb]
  have e2 : (P 1).1 - (P 0).1 = cc P 2 := by simp [cc]
  have eb : bb P 1 = - bb P 0 - bb P 2 := by simp [bb]
  have ec : cc P 1 = - cc P 0 - cc P 2 := by simp [cc]
  have hd : twoD P = bb P 2 * cc P 0 - bb P 0 * cc P 2 := by
    simp [twoD, cross, bb, cc]; ring
  simp only [eGx, eGy, gx, gy, e1, e2]
  rw [← ht, eq_div_iff hD, eq_div_iff hD, ← Finset.sum_div, ← Finset.sum_div, div_mul_eq_mul_div, div_mul_eq_mul_div,
    div_eq_iff h', div_eq_iff h']
  simp only [Fin.sum_univ_three, eb, ec] at hn ⊢
  generalize bder P p (edgeW 0 1 t) 0 = d0 at *
  generalize bder P p (edgeW 0 1 t) 1 = d1 at *
  generalize bder P p (edgeW 0 1 t) 2 = d2 at *
  constructor
  · linear_combination bb P 2 * hn + cc P 2 * (d0 - d1) * hd
  · linear_combination cc P 2 * hn - bb P 2 * (d0 - d1) * hd

theorem edgeW_sh (i j m : Fin 3) (t : ℝ) : sh m (edgeW (i + m) (j + m) t) = edgeW i j t := by
  funext k; simp only [sh, edgeW, add_left_inj]

theorem edgeW_symm {i j : Fin 3} (hij : i ≠ j) (t : ℝ) : edgeW i j t = edgeW j i (1 - t) := by
  funext k; simp only [edgeW]; split_ifs <;> simp_all

theorem nondeg_sh (h : Nondegenerate P) (m : Fin 3) : Nondegenerate (sh m P) := by
  have := twoD_sh m P
  simp only [twoD] at this
  rw [Nondegenerate, this]; exact h

/-- forward edges -/
theorem edge_fwd (h : Nondegenerate P) (i : Fin 3) (t : ℝ) :
    bval P p (edgeW i (i + 1) t) = eVal (P i) (P (i + 1)) (p i) (p (i + 1)) t ∧
    gx P p (edgeW i (i + 1) t) = eGx (P i) (P (i + 1)) (p i) (p (i + 1)) t ∧
    gy P p (edgeW i (i + 1) t) = eGy (P i) (P (i + 1)) (p i) (p (i + 1)) t := by
  have hw : sh i (edgeW i (i + 1) t) = edgeW 0 1 t := by
    have := edgeW_sh 0 1 i t
    rwa [zero_add, add_comm 1 i] at this
  have a1 := bval_sh (P := P) (p := p) (L := edgeW i (i + 1) t) i
  have a2 := gx_sh (P := P) (p := p) (L := edgeW i (i + 1) t) i
  have a3 := gy_sh (P := P) (p := p) (L := edgeW i (i + 1) t) i
  rw [hw] at a1 a2 a3
  rw [← a1, ← a2, ← a3, bval_edge01, (g_edge01 (nondeg_sh h i) t).1, (g_edge01 (nondeg_sh h i) t).2]
  simp only [sh, zero_add, add_comm (1 : Fin 3) i, and_self]

/-- every pair of vertices -/
theorem edge_all (h : Nondegenerate P) {i j : Fin 3} (hij : i ≠ j) (t : ℝ) :
    bval P p (edgeW i j t) = eVal (P i) (P j) (p i) (p j) t ∧
    gx P p (edgeW i j t) = eGx (P i) (P j) (p i) (p j) t ∧
    gy P p (edgeW i j t) = eGy (P i) (P j) (p i) (p j) t := by
  have : j = i + 1 ∨ i = j + 1 := by revert i j; decide
  rcases this with rfl | rfl
  · exact edge_fwd h i t
  · rw [edgeW_symm hij, eVal_symm, eGx_symm, eGy_symm]
    exact edge_fwd h j (1 - t)

/-! ### `bell_interpolation_on_edge` -/

set_option maxRecDepth 100000 in
theorem free_onEdge : ∀ e ∈ NOnEdge, ∀ s ∈ e.free, s = "t" ∨ s = "b3" ∨ s = "c3" := by decide +kernel

/-- environment for the symbols of an edge -/
noncomputable def envE (t b c : ℝ) : Symb → ℝ := fun s =>
  if s = "t" then t else env (fun _ => 0) ![1, 1, b] ![0, 0, c] s

/-- the substitution used on the edge -/
def onE : List (Symb × Sym) := [("L1", var "t"), ("L2", 1 - var "t"), ("L3", 0)]

/-- the environment after the substitution -/
theorem envE_upd (t b c : ℝ) {s : Symb} (hs : s ∈ params9) :
    Function.update (Function.update (Function.update (envE t b c) "L3" 0) "L2" (1 - t)) "L1" t s =
      env ![t, 1 - t, 0] ![1, 1, b] ![0, 0, c] s := by
  simp only [params9, symL, symB, symC, List.cons_append, List.nil_append, List.mem_cons, List.not_mem_nil,
    or_false] at hs
  rcases hs with rfl | rfl | rfl | rfl | rfl | rfl | rfl | rfl | rfl <;>
    simp [Function.update, envE]

theorem eval_onE (t b c : ℝ) (e : Sym) (he : ∀ s ∈ e.free, s ∈ params9) :
    ((e.subs onE).zsimp).eval (envE t b c) = e.eval (env ![t, 1 - t, 0] ![1, 1, b] ![0, 0, c]) := by
  rw [eval_zsimp]
  simp only [subs, onE, List.foldl_cons, List.foldl_nil, eval_subs1]
  have h1 : (0 : Sym).eval (envE t b c) = 0 := by simp [c_ofNat]
  rw [h1]
  have h2 : (1 - var "t" : Sym).eval (Function.update (envE t b c) "L3" 0) = 1 - t := by
    simp [envE, c_sub, c_ofNat, eval, Function.update]
  rw [h2]
  have h3 : (var "t" : Sym).eval (Function.update (Function.update (envE t b c) "L3" 0) "L2" (1 - t)) = t := by
    simp [envE, eval, Function.update]
  rw [h3]
  exact eval_congr fun s hs => envE_upd t b c (he s hs)

theorem safe_onE (t b c : ℝ) (e : Sym) (he : ∀ s ∈ e.free, s ∈ params9)
    (hs : e.Safe (env ![t, 1 - t, 0] ![1, 1, b] ![0, 0, c])) : ((e.subs onE).zsimp).Safe (envE t b c) := by
  apply safe_zsimp
  simp only [subs, onE, List.foldl_cons, List.foldl_nil]
  have h1 : (0 : Sym).eval (envE t b c) = 0 := by simp [c_ofNat]
  have h2 : (1 - var "t" : Sym).eval (Function.update (envE t b c) "L3" 0) = 1 - t := by
    simp [envE, c_sub, c_ofNat, eval, Function.update]
  have h3 : (var "t" : Sym).eval (Function.update (Function.update (envE t b c) "L3" 0) "L2" (1 - t)) = t := by
    simp [envE, eval, Function.update]
  refine safe_subs1 trivial ?_
  rw [h1]
  refine safe_subs1 ⟨trivial, trivial⟩ ?_
  rw [h2]
  refine safe_subs1 trivial ?_
  rw [h3]
  exact (safe_congr fun s hs => envE_upd t b c (he s hs)).mpr hs

theorem take12 : N.take 12 = List.ofFn (NN 0) ++ List.ofFn (NN 1) := by
  rw [N_eq]; simp [List.ofFn_succ]

theorem NOnEdge_eq : NOnEdge = (N.take 12).map fun e => (e.subs onE).zsimp := rfl

theorem mem12 {e : Sym} (he : e ∈ N.take 12) : ∃ i k, e = NN i k := by
  rw [take12, List.mem_append] at he
  rcases he with h | h
  · obtain ⟨k, rfl⟩ := List.mem_ofFn.mp h; exact ⟨0, k, rfl⟩
  · obtain ⟨k, rfl⟩ := List.mem_ofFn.mp h; exact ⟨1, k, rfl⟩

theorem onEdge_eq {A B : ℝ × ℝ} (hAB : A ≠ B) (p q : Fin 6 → ℝ) (t : ℝ) :
    interpolationOnEdge (vec2 A, vec2 B) t ⟨List.ofFn p ++ List.ofFn q⟩ = .ok (eVal A B p q t) := by
  have hn : (A.2 - B.2) ^ 2 + (B.1 - A.1) ^ 2 ≠ 0 := by
    intro h0
    apply hAB
    apply Prod.ext <;> nlinarith [sq_nonneg (A.2 - B.2), sq_nonneg (B.1 - A.1)]
  have hsafe : ∀ i, (![1, 1, A.2 - B.2] : Fin 3 → ℝ) i ^ 2 + (![0, 0, B.1 - A.1] : Fin 3 → ℝ) i ^ 2 ≠ 0 := by
    intro i; fin_cases i
    · simp
    · simp
    · simpa using hn
  have hsh : shapeFunctionOnEdge (vec2 A, vec2 B) t = .ok ⟨NOnEdge.map (eval (envE t (A.2 - B.2) (B.1 - A.1)))⟩ := by
    simp only [shapeFunctionOnEdge, vec2_get0, vec2_get1, bind_ok]
    rw [lambdifyList_eq (v := envE t (A.2 - B.2) (B.1 - A.1)) rfl, bind_ok]
    · rfl
    · intro e he s hs
      rcases free_onEdge e he s hs with rfl | rfl | rfl <;> simp [bindArgs, List.lookup, envE]
    · intro e he
      rw [NOnEdge_eq, List.mem_map] at he
      obtain ⟨e', he', rfl⟩ := he
      obtain ⟨i, k, rfl⟩ := mem12 he'
      exact safe_onE _ _ _ _ (free_NN i k) (safe_NN hsafe i k)
  rw [interpolationOnEdge, hsh, bind_ok, NOnEdge_eq, List.map_map]
  have hmap : (N.take 12).map (eval (envE t (A.2 - B.2) (B.1 - A.1)) ∘ fun e => (e.subs onE).zsimp) =
      (N.take 12).map (eval (env ![t, 1 - t, 0] ![1, 1, A.2 - B.2] ![0, 0, B.1 - A.1])) := by
    apply List.map_congr_left
    intro e he
    obtain ⟨i, k, rfl⟩ := mem12 he
    exact eval_onE _ _ _ _ (free_NN i k)
  rw [hmap, take12, List.map_append, List.map_ofFn, List.map_ofFn]
  simp only [Vec.dot]
  rw [List.zipWith_append (by simp), List.sum_append, zipWith_ofFn, zipWith_ofFn, List.sum_ofFn, List.sum_ofFn]
  simp only [Function.comp, eval_NN, eval_NF, rot_eq_sh, pure_eq_ok]
  congr 1
  simp [Fin.sum_univ_succ, nform, sh, coef, eVal]
  ring

end Bell
end Tve
