import Verif.Lemmas.BellApprox
import Mathlib.RingTheory.Derivation.Lie

/-! Taylor's formula in two variables. -/

namespace Tve
open MvPolynomial

/-- mixed partial derivatives of a polynomial -/
noncomputable def dd (a b : ℕ) (q : MvPolynomial (Fin 2) ℝ) : MvPolynomial (Fin 2) ℝ := (pderiv 0)^[a] ((pderiv 1)^[b] q)

theorem pderiv_comm' (q : MvPolynomial (Fin 2) ℝ) : pderiv 1 (pderiv 0 q) = pderiv 0 (pderiv 1 q) := by
  have : (⁅(pderiv 1 : Derivation ℝ (MvPolynomial (Fin 2) ℝ) (MvPolynomial (Fin 2) ℝ)), (pderiv 0 : Derivation ℝ (MvPolynomial (Fin 2) ℝ) (MvPolynomial (Fin 2) ℝ))⁆) = 0 := by
    apply MvPolynomial.derivation_ext
    intro i
    fin_cases i <;> simp [Derivation.commutator_apply, pderiv_X, Pi.single_apply]
  have h := congrArg (fun D : Derivation ℝ (MvPolynomial (Fin 2) ℝ) (MvPolynomial (Fin 2) ℝ) => D q) this
  simp only [Derivation.commutator_apply, Derivation.coe_zero, Pi.zero_apply] at h
  exact sub_eq_zero.1 h

theorem dd_zero (q : MvPolynomial (Fin 2) ℝ) : dd 0 0 q = q := rfl

theorem pderiv0_dd (a b : ℕ) (q : MvPolynomial (Fin 2) ℝ) : pderiv 0 (dd a b q) = dd (a + 1) b q := by
  rw [dd, dd, Function.iterate_succ_apply']

theorem pderiv1_dd (a b : ℕ) (q : MvPolynomial (Fin 2) ℝ) : pderiv 1 (dd a b q) = dd a (b + 1) q := by
  induction a with
  | zero => simp only [dd, Function.iterate_zero, id]; rw [Function.iterate_succ_apply']
  | succ a ih => rw [← pderiv0_dd, pderiv_comm', ih, pderiv0_dd]

theorem dd_add (a b : ℕ) (q r : MvPolynomial (Fin 2) ℝ) : dd a b (q + r) = dd a b q + dd a b r := by
  rw [dd, dd, dd, iterate_map_add, iterate_map_add]

theorem dd_sum {ι : Type} (a b : ℕ) (S : Finset ι) (f : ι → MvPolynomial (Fin 2) ℝ) :
    dd a b (∑ i ∈ S, f i) = ∑ i ∈ S, dd a b (f i) := by
  classical
  induction S using Finset.induction_on with
  | empty => simp [dd, iterate_map_zero]
  | insert i S hi ih => rw [Finset.sum_insert hi, Finset.sum_insert hi, dd_add, ih]

/-- shifted monomials -/
noncomputable def shifted (z : ℝ × ℝ) (i j : ℕ) : MvPolynomial (Fin 2) ℝ := (X 0 - C z.1) ^ i * (X 1 - C z.2) ^ j

theorem pderiv0_shifted (z : ℝ × ℝ) (i j : ℕ) : pderiv 0 (shifted z i j) = C (i : ℝ) * shifted z (i - 1) j := by
  simp only [shifted, Derivation.leibniz, Derivation.leibniz_pow, map_sub, pderiv_X, pderiv_C, Pi.single_apply, smul_eq_mul,
    nsmul_eq_mul]
  simp
  ring

theorem pderiv1_shifted (z : ℝ × ℝ) (i j : ℕ) : pderiv 1 (shifted z i j) = C (j : ℝ) * shifted z i (j - 1) := by
  simp only [shifted, Derivation.leibniz, Derivation.leibniz_pow, map_sub, pderiv_X, pderiv_C, Pi.single_apply, smul_eq_mul,
    nsmul_eq_mul]
  simp
  ring

theorem dd_shifted (x : ℝ) (z : ℝ × ℝ) (a b i j : ℕ) : dd a b (C x * shifted z i j) =
    C (x * i.descFactorial a * j.descFactorial b) * shifted z (i - a) (j - b) := by
  induction a with
  | zero =>
    induction b with
    | zero => simp [dd]
    | succ b ih =>
      rw [← pderiv1_dd, ih, Derivation.leibniz, pderiv_C, pderiv1_shifted, smul_zero, add_zero, smul_eq_mul, ← mul_assoc, ← C_mul,
        Nat.descFactorial_succ j b, Nat.sub_sub]
      push_cast
      congr 2
      ring
  | succ a ih =>
    rw [← pderiv0_dd, ih, Derivation.leibniz, pderiv_C, pderiv0_shifted, smul_zero, add_zero, smul_eq_mul, ← mul_assoc, ← C_mul,
      Nat.descFactorial_succ i a, Nat.sub_sub]
    push_cast
    congr 2
    ring

theorem polyAt_shifted (z w : ℝ × ℝ) (i j : ℕ) : polyAt (shifted z i j) w = (w.1 - z.1) ^ i * (w.2 - z.2) ^ j := by
  simp [polyAt, shifted]

variable {D : ℕ → ℕ → ℝ × ℝ → ℝ}

/-- the Taylor polynomial of degree `N` of a function with partial derivatives `D i j` -/
noncomputable def taylor (D : ℕ → ℕ → ℝ × ℝ → ℝ) (N : ℕ) (z : ℝ × ℝ) : MvPolynomial (Fin 2) ℝ :=
  ∑ p ∈ (Finset.range (N + 1) ×ˢ Finset.range (N + 1)).filter (fun p => p.1 + p.2 ≤ N),
    C (D p.1 p.2 z / (p.1.factorial * p.2.factorial)) * shifted z p.1 p.2

theorem taylor_degree (N : ℕ) (z : ℝ × ℝ) : (taylor D N z).totalDegree ≤ N := by
  refine totalDegree_finsetSum_le fun p hp => ?_
  have h := (Finset.mem_filter.1 hp).2
  have x : ∀ (i : Fin 2) (r : ℝ), (X i - C r : MvPolynomial (Fin 2) ℝ).totalDegree ≤ 1 := fun i r =>
    (totalDegree_sub _ _).trans (by simp)
  refine (totalDegree_mul _ _).trans ?_
  rw [totalDegree_C, zero_add, shifted]
  refine (totalDegree_mul _ _).trans ?_
  have h1 := (totalDegree_pow (X 0 - C z.1 : MvPolynomial (Fin 2) ℝ) p.1).trans (Nat.mul_le_mul_left _ (x 0 z.1))
  have h2 := (totalDegree_pow (X 1 - C z.2 : MvPolynomial (Fin 2) ℝ) p.2).trans (Nat.mul_le_mul_left _ (x 1 z.2))
  omega

theorem polyAt_dd_taylor {N a b : ℕ} (z w : ℝ × ℝ) : polyAt (dd a b (taylor D N z)) w =
    ∑ p ∈ (Finset.range (N + 1) ×ˢ Finset.range (N + 1)).filter (fun p => p.1 + p.2 ≤ N),
      D p.1 p.2 z / (p.1.factorial * p.2.factorial) * p.1.descFactorial a * p.2.descFactorial b *
        ((w.1 - z.1) ^ (p.1 - a) * (w.2 - z.2) ^ (p.2 - b)) := by
  rw [taylor, dd_sum]
  simp only [dd_shifted]
  simp only [polyAt, map_sum, map_mul, eval_C]
  refine Finset.sum_congr rfl fun p _ => ?_
  rw [← polyAt_shifted, polyAt]

/-- the derivatives at the centre -/
theorem taylor_centre {N a b : ℕ} (h : a + b ≤ N) (z : ℝ × ℝ) : polyAt (dd a b (taylor D N z)) z = D a b z := by
  rw [polyAt_dd_taylor, Finset.sum_eq_single (a, b)]
  · simp [Nat.descFactorial_self]
    field_simp
  · rintro ⟨i, j⟩ - hne
    simp only [sub_self]
    rcases lt_or_ge i a with hi | hi
    · simp [Nat.descFactorial_of_lt hi]
    rcases lt_or_ge j b with hj | hj
    · simp [Nat.descFactorial_of_lt hj]
    by_cases e : i = a
    · have : j - b ≠ 0 := fun hh => hne (by rw [e, show j = b by omega])
      simp [this]
    · have : i - a ≠ 0 := by omega
      simp [this]
  · intro hn
    exact absurd (Finset.mem_filter.2 ⟨Finset.mem_product.2 ⟨Finset.mem_range.2 (by simp; omega), Finset.mem_range.2 (by simp; omega)⟩, h⟩) hn

/-- the derivatives of highest order are constant -/
theorem taylor_top {N a b : ℕ} (h : a + b = N) (z w : ℝ × ℝ) : polyAt (dd a b (taylor D N z)) w = D a b z := by
  rw [polyAt_dd_taylor, Finset.sum_eq_single (a, b)]
  · simp [Nat.descFactorial_self]
    field_simp
  · rintro ⟨i, j⟩ hp hne
    have hp := (Finset.mem_filter.1 hp).2
    rcases lt_or_ge i a with hi | hi
    · simp [Nat.descFactorial_of_lt hi]
    rcases lt_or_ge j b with hj | hj
    · simp [Nat.descFactorial_of_lt hj]
    exact absurd (Prod.ext (show i = a by simp at hp; omega) (show j = b by simp at hp; omega)) hne
  · intro hn
    exact absurd (Finset.mem_filter.2 ⟨Finset.mem_product.2 ⟨Finset.mem_range.2 (by simp; omega), Finset.mem_range.2 (by simp; omega)⟩, h.le⟩) hn

/-- Taylor's formula: the derivatives of the remainder are small -/
theorem taylor_remainder {K : Set (ℝ × ℝ)} (hK : Convex ℝ K) {N : ℕ} {s ω : ℝ} {z : ℝ × ℝ} (hz : z ∈ K)
    (hdiam : ∀ w ∈ K, |w.1 - z.1| ≤ s ∧ |w.2 - z.2| ≤ s)
    (hD : ∀ i j, i + j < N → ∀ w ∈ K, HasFDerivAt (D i j) (lin (D (i + 1) j w) (D i (j + 1) w)) w)
    (hω : ∀ i j, i + j = N → ∀ w ∈ K, |D i j w - D i j z| ≤ ω) (r : ℕ) :
    ∀ i j, i + j + r = N → ∀ w ∈ K, |D i j w - polyAt (dd i j (taylor D N z)) w| ≤ ω * (2 * s) ^ r := by
  induction r with
  | zero =>
    intro i j h w hw
    rw [taylor_top (by omega), pow_zero, mul_one]
    exact hω i j (by omega) w hw
  | succ r ih =>
    intro i j h w hw
    have key : ∀ w ∈ K, HasFDerivAt (fun w => D i j w - polyAt (dd i j (taylor D N z)) w)
        (lin (D (i + 1) j w - polyAt (dd (i + 1) j (taylor D N z)) w) (D i (j + 1) w - polyAt (dd i (j + 1) (taylor D N z)) w)) w := by
      intro w hw
      have h1 := Bell.polyAt_deriv (dd i j (taylor D N z)) w
      rw [pderiv0_dd, pderiv1_dd] at h1
      refine ((hD i j (by omega) w hw).sub h1).congr_fderiv ?_
      ext <;> simp [lin]
    obtain ⟨ξ, hξ, -, e⟩ := mean_value hK key hz hw
    rw [taylor_centre (by omega), sub_self, sub_zero] at e
    rw [e]
    have a1 := ih (i + 1) j (by omega) ξ hξ
    have a2 := ih i (j + 1) (by omega) ξ hξ
    obtain ⟨d1, d2⟩ := hdiam w hw
    have hB : 0 ≤ ω * (2 * s) ^ r := (abs_nonneg _).trans a1
    calc _ ≤ ω * (2 * s) ^ r * s + ω * (2 * s) ^ r * s := by
          refine (abs_add_le _ _).trans (add_le_add ?_ ?_)
          · rw [abs_mul]; exact mul_le_mul a1 d1 (abs_nonneg _) hB
          · rw [abs_mul]; exact mul_le_mul a2 d2 (abs_nonneg _) hB
      _ = ω * (2 * s) ^ (r + 1) := by ring

end Tve
