import Verif.Lemmas.BellFun

/-!
# Properties of the Bell element (C37, C39, C42)
-/

namespace Tve
open Bell Tve.Sym

/-! ### C37: nodal data -/

/-- C37: at vertex `m` of a nondegenerate triangle the interpolation returns the first parameter of that vertex. -/
theorem C37_value (P : Fin 3 → ℝ × ℝ) (hP : Nondegenerate P) (p : Fin 3 → Fin 6 → ℝ) (m : Fin 3) :
    interpolation (tvOf P) (baryOf (fun i => if i = m then 1 else 0)) (parOf p) = .ok (p m 0) := by
  have := interpolation_eq (L := unitW m) (p := p) hP
  rw [bval_unit] at this
  exact this

/-- C37: at vertex `m` the gradient is given by the second and third parameter of that vertex. -/
theorem C37_gradient (P : Fin 3 → ℝ × ℝ) (hP : Nondegenerate P) (p : Fin 3 → Fin 6 → ℝ) (m : Fin 3) :
    interpolationGradient (tvOf P) (baryOf (fun i => if i = m then 1 else 0)) (parOf p) =
      .ok (vecOf ![p m 1, p m 2]) := by
  have := gradient_eq (L := unitW m) (p := p) hP
  refine this.trans ?_
  obtain ⟨β1, β2, γ1, γ2, hb, hc, hd⟩ := rot_rel (P := P) m
  have hd' : twoD P ≠ 0 := hP
  rw [sum_shift m fun j => bb P j * bder P p (unitW m) j / twoD P,
    sum_shift m fun j => cc P j * bder P p (unitW m) j / twoD P]
  have hbj : ∀ j, bb P (j + m) = ![-(β1 + β2), β1, β2] j := fun j => by rw [← rot_iter (bb P), hb]
  have hcj : ∀ j, cc P (j + m) = ![-(γ1 + γ2), γ1, γ2] j := fun j => by rw [← rot_iter (cc P), hc]
  simp only [bder_unit, hbj, hcj, hb, hc]
  congr 2
  funext r
  fin_cases r
  · simp [Fin.sum_univ_succ, val1]
    field_simp
    rw [hd]
    ring
  · simp [Fin.sum_univ_succ, val1]
    field_simp
    rw [hd]
    ring

/-- C37: at vertex `m` the Hessian is given by the last three parameters (`u_xx`, `u_xy`, `u_yy`) of that vertex. -/
theorem C37_hessian (P : Fin 3 → ℝ × ℝ) (hP : Nondegenerate P) (p : Fin 3 → Fin 6 → ℝ) (m : Fin 3) :
    interpolationHessian (tvOf P) (baryOf (fun i => if i = m then 1 else 0)) (parOf p) =
      .ok (matOf !![p m 3, p m 4; p m 4, p m 5]) := by
  have := hessian_eq (L := unitW m) (p := p) hP
  refine this.trans ?_
  obtain ⟨β1, β2, γ1, γ2, hb, hc, hd⟩ := rot_rel (P := P) m
  have hd' : twoD P ≠ 0 := hP
  have hbj : ∀ j, bb P (j + m) = ![-(β1 + β2), β1, β2] j := fun j => by rw [← rot_iter (bb P), hb]
  have hcj : ∀ j, cc P (j + m) = ![-(γ1 + γ2), γ1, γ2] j := fun j => by rw [← rot_iter (cc P), hc]
  have hs : ∀ u v : Fin 3 → ℝ, ∑ j, ∑ l, u j * v l * bder2 P p (unitW m) j l / twoD P ^ 2 =
      ∑ j, ∑ l, u (j + m) * v (l + m) * (∑ k, val2 (rot^[m] (bb P)) (rot^[m] (cc P)) k j l * p m k) / twoD P ^ 2 := by
    intro u v
    rw [sum_shift m fun j => ∑ l, u j * v l * bder2 P p (unitW m) j l / twoD P ^ 2]
    refine Finset.sum_congr rfl fun j _ => ?_
    rw [sum_shift m fun l => u (j + m) * v l * bder2 P p (unitW m) (j + m) l / twoD P ^ 2]
    refine Finset.sum_congr rfl fun l _ => ?_
    rw [bder2_unit]
  rw [hs (bb P) (bb P), hs (bb P) (cc P), hs (cc P) (bb P), hs (cc P) (cc P)]
  simp only [hbj, hcj, hb, hc]
  congr 2
  funext r s
  fin_cases r <;> fin_cases s <;>
  · simp [Fin.sum_univ_succ, val2]
    field_simp
    rw [hd]
    ring

/-- the hypotheses are met by the reference triangle -/
example : Nondegenerate ![(0, 0), (1, 0), (0, 1)] := by simp [Nondegenerate, cross]

/-! ### C39: gradient and Hessian are derivatives -/

/-- C39: for every nondegenerate triangle and all parameters there is a function `f` of the plane such that
`bell_interpolation` returns `f` at the point with the given barycentric coordinates, `bell_interpolation_gradient`
returns the two partial derivatives of `f` there, and `bell_interpolation_hessian` the partial derivatives of these. -/
theorem C39_derivatives (P : Fin 3 → ℝ × ℝ) (hP : Nondegenerate P) (p : Fin 3 → Fin 6 → ℝ) :
    ∃ f fx fy fxx fxy fyy : ℝ × ℝ → ℝ,
      (∀ z, HasFDerivAt f (lin (fx z) (fy z)) z) ∧
      (∀ z, HasFDerivAt fx (lin (fxx z) (fxy z)) z) ∧
      (∀ z, HasFDerivAt fy (lin (fxy z) (fyy z)) z) ∧
      ∀ L : Fin 3 → ℝ, L 0 + L 1 + L 2 = 1 →
        interpolation (tvOf P) (baryOf L) (parOf p) = .ok (f (pointOf P L)) ∧
        interpolationGradient (tvOf P) (baryOf L) (parOf p) =
          .ok (vecOf ![fx (pointOf P L), fy (pointOf P L)]) ∧
        interpolationHessian (tvOf P) (baryOf L) (parOf p) =
          .ok (matOf !![fxx (pointOf P L), fxy (pointOf P L); fxy (pointOf P L), fyy (pointOf P L)]) := by
  have hyx : ∀ z, ∑ j, ∑ l, cc P j * bb P l * bder2 P p (lam P z) j l / twoD P ^ 2 =
      ∑ j, ∑ l, bb P j * cc P l * bder2 P p (lam P z) j l / twoD P ^ 2 := by
    intro z
    rw [Finset.sum_comm]
    refine Finset.sum_congr rfl fun j _ => Finset.sum_congr rfl fun l _ => ?_
    rw [bder2_symm]; ring
  refine ⟨bfun P p, bfx P p, bfy P p,
    fun z => ∑ j, ∑ l, bb P j * bb P l * bder2 P p (lam P z) j l / twoD P ^ 2,
    fun z => ∑ j, ∑ l, bb P j * cc P l * bder2 P p (lam P z) j l / twoD P ^ 2,
    fun z => ∑ j, ∑ l, cc P j * cc P l * bder2 P p (lam P z) j l / twoD P ^ 2,
    bfun_deriv hP, fun z => comb_deriv hP z (bb P), fun z => ?_, ?_⟩
  · have := comb_deriv (p := p) hP z (cc P)
    rw [hyx] at this
    exact this
  · intro L hL
    have hlam := lam_pointOf hP hL
    refine ⟨?_, ?_, ?_⟩
    · rw [interpolation_eq hP, bfun, hlam]
    · rw [gradient_eq hP, bfx, bfy, hlam]
    · have := hyx (pointOf P L)
      rw [hlam] at this
      rw [hessian_eq hP, this]
      simp only [hlam]

/-! ### C42: cyclic permutation -/

/-- C42: for a list of distinct symbols not containing the auxiliary symbol `s`, the permutation of the code is the
simultaneous cyclic renaming of the list (`List.formPerm`), for every expression not using `s`. -/
theorem C42_renaming (vs : List Symb) (hn : vs.Nodup) (hs : "s" ∉ vs) (e : Sym) (he : "s" ∉ e.free) :
    singleCyclicPermutation e vs = e.rename (List.formPerm vs) :=
  singleCyclic_eq vs hn hs e he

/-- C42: in particular the shape functions of the second vertex are obtained by `L1 → L2 → L3 → L1`, `b1 → b2 → b3 → b1`
and `c1 → c2 → c3 → c1`. -/
theorem C42_all_symbols (e : Sym) (he : "s" ∉ e.free) :
    cyclicPermutation e [symL, symB, symC] = e.rename fun t =>
      if t = "L1" then "L2" else if t = "L2" then "L3" else if t = "L3" then "L1" else
      if t = "b1" then "b2" else if t = "b2" then "b3" else if t = "b3" then "b1" else
      if t = "c1" then "c2" else if t = "c2" then "c3" else if t = "c3" then "c1" else t := by
  rw [cyclicPermutation_eq e he]
  apply rename_congr
  intro t _
  by_cases ht : t ∈ params9
  · simp only [params9, symL, symB, symC, List.cons_append, List.nil_append, List.mem_cons, List.not_mem_nil,
      or_false] at ht
    rcases ht with rfl | rfl | rfl | rfl | rfl | rfl | rfl | rfl | rfl <;>
      simp [cyc_L1, cyc_L2, cyc_L3, cyc_b1, cyc_b2, cyc_b3, cyc_c1, cyc_c2, cyc_c3]
  · have h1 : cyc t = t := by
      simp only [params9, List.mem_append, not_or] at ht
      unfold cyc
      rw [Equiv.Perm.mul_apply, Equiv.Perm.mul_apply, List.formPerm_apply_of_notMem ht.1.1,
        List.formPerm_apply_of_notMem ht.1.2, List.formPerm_apply_of_notMem ht.2]
    simp only [params9, symL, symB, symC, List.cons_append, List.nil_append, List.mem_cons, List.not_mem_nil,
      or_false, not_or] at ht
    simp [h1, ht]

/-- C42: applying the permutation as often as there are symbols in the list gives back the expression. -/
theorem C42_order (vs : List Symb) (hn : vs.Nodup) (hs : "s" ∉ vs) (e : Sym) (he : "s" ∉ e.free) :
    (fun e => singleCyclicPermutation e vs)^[vs.length] e = e := by
  have key : ∀ n, (fun e => singleCyclicPermutation e vs)^[n] e = e.rename ⇑(List.formPerm vs ^ n) := by
    intro n
    induction n with
    | zero => exact (rename_id e).symm
    | succ n ih =>
      rw [Function.iterate_succ_apply', ih]
      have hfix : (List.formPerm vs ^ n) "s" = "s" := by
        have h1 : (List.formPerm vs) "s" = "s" := List.formPerm_apply_of_notMem hs
        exact Equiv.Perm.pow_apply_eq_self_of_apply_eq_self h1 n
      rw [singleCyclic_eq vs hn hs _ (notMem_rename hfix he), rename_rename]
      apply rename_congr
      intro t _
      rw [pow_succ', Equiv.Perm.mul_apply]; rfl
  rw [key, List.formPerm_pow_length_eq_one_of_nodup vs hn]
  exact rename_id e

/-- the hypotheses are met by the shape functions -/
example : symL.Nodup ∧ "s" ∉ symL ∧ "s" ∉ (N1).free := by
  refine ⟨by simp [symL], by simp [symL], ?_⟩
  exact s_notMem 0

end Tve
