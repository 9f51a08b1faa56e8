import Verif.Spec.FloatIntegrators
import Verif.Props.FloatTensors
import Verif.Props.FloatQuadrature
import Verif.Props.Integrators

/-!
# C108 (continued): Gauss rules and boundary integrals in double precision
-/

namespace Tve
open F64

/-! ### Gauss rules -/

theorem isDouble_half {x : ℚ} (h : IsDouble x) : IsDouble (x / 2) := by
  obtain ⟨m, e, hm, rfl⟩ := h
  refine ⟨m, e - 1, hm, ?_⟩
  rw [zpow_sub₀ (by norm_num)]
  ring

theorem isDouble_two : IsDouble 2 := ⟨2, 0, by norm_num, by norm_num⟩

theorem fl_half {x : ℚ} (h : IsDouble x) : fl (x / 2) = x / 2 := fl_double (isDouble_half h)

/-- the point of `[0, 1]` computed from a point of `[-1, 1]` -/
theorem gauss_point {p : ℚ} (h : |p| ≤ 1) :
    0 ≤ fl (fl (1 + p) / 2) ∧ fl (fl (1 + p) / 2) ≤ 1 ∧ |fl (fl (1 + p) / 2) - (1 + p) / 2| ≤ 1 / 2 ^ 53 := by
  obtain ⟨h1, h2⟩ := abs_le.1 h
  rw [fl_half (isDouble_fl _)]
  have a1 : 0 ≤ fl (1 + p) := fl_nonneg (by linarith)
  have a2 : fl (1 + p) ≤ 2 := by
    rw [← fl_double isDouble_two]
    exact fl_mono (by linarith)
  refine ⟨by linarith, by linarith, ?_⟩
  have := fl_error (1 + p)
  have e : fl (1 + p) / 2 - (1 + p) / 2 = (fl (1 + p) - (1 + p)) / 2 := by ring
  rw [e, abs_div, abs_of_pos (by norm_num : (0 : ℚ) < 2)]
  have : |1 + p| ≤ 2 := by rw [abs_of_nonneg (by linarith)]; linarith
  have : |1 + p| / 2 ^ 53 ≤ 2 / 2 ^ 53 := div_le_div_of_nonneg_right this (by positivity)
  linarith

theorem newGauss_ok {lg : ℕ → PyM (List ℚ × List ℚ)} {n : ℕ} {P W : List ℚ} (h : lg n = .ok (P, W)) :
    newGauss lg n = .ok ⟨P.map fun p => fl (fl (1 + p) / 2), W.map fun w => fl (w / 2)⟩ := by
  rw [newGauss, h]; rfl

/-- **Gauss rules.** In double precision the weights of `leggauss` are halved exactly, and its points are transported to `[0, 1]`
with an error of at most `2⁻⁵³`. -/
theorem C108_gauss {lg : ℕ → PyM (List ℚ × List ℚ)} {n : ℕ} {P W : List ℚ} (h : lg n = .ok (P, W))
    (hP : ∀ p ∈ P, |p| ≤ 1) (hW : ∀ w ∈ W, IsDouble w) :
    ∃ r, newGauss lg n = .ok r ∧ r.weights = W.map (fun w => w / 2) ∧
      List.Forall₂ (fun t p => 0 ≤ t ∧ t ≤ 1 ∧ |t - (1 + p) / 2| ≤ 1 / 2 ^ 53) r.points P := by
  refine ⟨_, newGauss_ok h, ?_, ?_⟩
  · exact List.map_congr_left fun w hw => fl_half (hW w hw)
  · simp only
    rw [List.forall₂_map_left_iff, List.forall₂_same]
    exact fun p hp => gauss_point (hP p hp)

theorem sum_le_of_forall {α : Type} (l : List α) {u v b : α → ℝ} (h : ∀ a ∈ l, |u a - v a| ≤ b a) :
    |(l.map u).sum - (l.map v).sum| ≤ (l.map b).sum := by
  induction l with
  | nil => simp
  | cons a l ih =>
    simp only [List.map_cons, List.sum_cons]
    have := ih fun c hc => h c (List.mem_cons_of_mem _ hc)
    have h1 := h a List.mem_cons_self
    have e : u a + (l.map u).sum - (v a + (l.map v).sum) = (u a - v a) + ((l.map u).sum - (l.map v).sum) := by ring
    rw [e]
    exact (abs_add_le _ _).trans (by linarith)

theorem pow_near {t s δ : ℝ} (ht0 : 0 ≤ t) (ht1 : t ≤ 1) (hs0 : 0 ≤ s) (hs1 : s ≤ 1) (h : |t - s| ≤ δ) (k : ℕ) :
    |t ^ k - s ^ k| ≤ k * δ := by
  induction k with
  | zero => simp
  | succ k ih =>
    have e : t ^ (k + 1) - s ^ (k + 1) = t * (t ^ k - s ^ k) + (t - s) * s ^ k := by ring
    rw [e]
    refine (abs_add_le _ _).trans ?_
    rw [abs_mul, abs_mul, abs_of_nonneg ht0, abs_of_nonneg (pow_nonneg hs0 k)]
    have h1 : t * |t ^ k - s ^ k| ≤ 1 * (k * δ) := mul_le_mul ht1 ih (abs_nonneg _) (by norm_num)
    have h2 : |t - s| * s ^ k ≤ δ * 1 := mul_le_mul h (pow_le_one₀ hs0 hs1) (pow_nonneg hs0 k) ((abs_nonneg _).trans h)
    push_cast
    linarith

/-- the polynomial `((1 + X) / 2) ^ k` -/
private theorem halfPow_props (k : ℕ) : ((Polynomial.C (1 / 2 : ℝ) * (Polynomial.X + 1)) ^ k).natDegree ≤ k ∧
    coeffSum1 ((Polynomial.C (1 / 2 : ℝ) * (Polynomial.X + 1)) ^ k) = 1 ∧
    ∀ x : ℝ, ((Polynomial.C (1 / 2 : ℝ) * (Polynomial.X + 1)) ^ k).eval x = ((1 + x) / 2) ^ k := by
  have hd : (Polynomial.C (1 / 2 : ℝ) * (Polynomial.X + 1)).natDegree ≤ 1 := by
    refine (Polynomial.natDegree_C_mul_le _ _).trans ?_
    exact (Polynomial.natDegree_X_add_C (1 : ℝ)).le
  have he : ∀ x : ℝ, ((Polynomial.C (1 / 2 : ℝ) * (Polynomial.X + 1)) ^ k).eval x = ((1 + x) / 2) ^ k := by
    intro x
    simp only [Polynomial.eval_pow, Polynomial.eval_mul, Polynomial.eval_C, Polynomial.eval_add, Polynomial.eval_X,
      Polynomial.eval_one]
    congr 1
    ring
  refine ⟨?_, ?_, he⟩
  · exact Polynomial.natDegree_pow_le.trans (by simpa using Nat.mul_le_mul_left k hd)
  · have hc : ∀ i, 0 ≤ ((Polynomial.C (1 / 2 : ℝ) * (Polynomial.X + 1)) ^ k).coeff i := by
      intro i
      rw [mul_pow, ← Polynomial.C_pow, Polynomial.coeff_C_mul, Polynomial.coeff_X_add_one_pow]
      positivity
    rw [coeffSum1]
    simp only [abs_of_nonneg (hc _)]
    have := he 1
    rw [Polynomial.eval_eq_sum, Polynomial.sum] at this
    simpa using this

theorem legSum_nonneg {P W : List ℚ} (h : ∀ w ∈ W, 0 ≤ w) :
    ((P.zip W).map fun q : ℚ × ℚ => |(q.2 : ℝ)|).sum = ((P.zip W).map fun q : ℚ × ℚ => (q.2 : ℝ)).sum := by
  congr 1
  refine List.map_congr_left fun q hq => abs_of_nonneg ?_
  exact_mod_cast h q.2 (List.of_mem_zip hq).2

/-- **Exactness of Gauss rules.** If the floats returned by `leggauss(n)` integrate polynomials of degree `d` over `[-1, 1]` up to
`ε` times the sum of the absolute values of the coefficients, the rule computed in double precision integrates them over
`[0, 1]` up to `ε / 2 + d (1 + ε / 2) 2⁻⁵³`. -/
theorem C108_gauss_exact {lg : ℕ → PyM (List ℚ × List ℚ)} {n d : ℕ} {P W : List ℚ} (h : lg n = .ok (P, W))
    (hP : ∀ p ∈ P, |p| ≤ 1) (hW : ∀ w ∈ W, IsDouble w ∧ 0 ≤ w) {ε : ℝ} (hex : LegExactUpTo P W d ε) :
    ∃ r, newGauss lg n = .ok r ∧ ∀ p : Polynomial ℝ, p.natDegree ≤ d →
      |r.toReal.value (fun t => p.eval t) - ∫ t in (0 : ℝ)..1, p.eval t| ≤
        (ε / 2 + d * (1 + ε / 2) / 2 ^ 53) * coeffSum1 p := by
  refine ⟨_, newGauss_ok h, ?_⟩
  have hw : W.map (fun w => fl (w / 2)) = W.map fun w => w / 2 := List.map_congr_left fun w hw => fl_half (hW w hw).1
  rw [hw]
  set r : GaussRule ℚ := ⟨P.map fun p => fl (fl (1 + p) / 2), W.map fun w => w / 2⟩ with hr
  have hval : ∀ g : ℝ → ℝ, r.toReal.value g =
      ((P.zip W).map fun q : ℚ × ℚ => (q.2 : ℝ) / 2 * g ((fl (fl (1 + q.1) / 2) : ℚ) : ℝ)).sum := by
    intro g
    simp only [GaussRule.value, GaussRule.toReal, hr, List.map_map, List.zip_map]
    congr 1
    refine List.map_congr_left fun q _ => ?_
    simp
  have habs := legSum_nonneg (P := P) fun w hw => (hW w hw).2
  have hsum : ((P.zip W).map fun q : ℚ × ℚ => |(q.2 : ℝ)|).sum ≤ 2 + ε := by
    rw [habs]
    have := hex 1 (by simp)
    have hc : coeffSum1 (1 : Polynomial ℝ) = 1 := by
      have := (halfPow_props 0).2.1
      simpa using this
    rw [hc] at this
    simp only [Polynomial.eval_one, mul_one, intervalIntegral.integral_const, smul_eq_mul] at this
    linarith [(abs_le.1 this).2]
  -- monomials
  have mono : ∀ k ≤ d, |r.toReal.value (fun t => t ^ k) - ∫ t in (0 : ℝ)..1, t ^ k| ≤ ε / 2 + d * (1 + ε / 2) / 2 ^ 53 := by
    intro k hk
    obtain ⟨q1, q2, q3⟩ := halfPow_props k
    have h1 := hex _ (q1.trans hk)
    rw [q2, mul_one] at h1
    simp only [q3] at h1
    have h2 : ∫ x in (-1 : ℝ)..1, ((1 + x) / 2) ^ k = 2 * ∫ t in (0 : ℝ)..1, t ^ k := by
      have := intervalIntegral.integral_comp_mul_add (a := -1) (b := 1) (fun t : ℝ => t ^ k) (c := (1 / 2 : ℝ)) (by norm_num) (1 / 2)
      have e : ∀ x : ℝ, (1 + x) / 2 = 1 / 2 * x + 1 / 2 := fun x => by ring
      simp only [e]
      rw [this]
      norm_num
    rw [h2] at h1
    have h3 : |r.toReal.value (fun t => t ^ k) - ((P.zip W).map fun q : ℚ × ℚ => (q.2 : ℝ) / 2 * ((1 + (q.1 : ℝ)) / 2) ^ k).sum| ≤
        ((P.zip W).map fun q : ℚ × ℚ => k / 2 ^ 53 / 2 * |(q.2 : ℝ)|).sum := by
      rw [hval]
      refine sum_le_of_forall _ fun q hq => ?_
      obtain ⟨m1, m2⟩ := List.of_mem_zip hq
      obtain ⟨g1, g2, g3⟩ := gauss_point (hP q.1 m1)
      have b1 := abs_le.1 (hP q.1 m1)
      have b2 : (-1 : ℝ) ≤ (q.1 : ℝ) := by exact_mod_cast b1.1
      have b3 : (q.1 : ℝ) ≤ 1 := by exact_mod_cast b1.2
      have g1' : (0 : ℝ) ≤ ((fl (fl (1 + q.1) / 2) : ℚ) : ℝ) := by exact_mod_cast g1
      have g2' : ((fl (fl (1 + q.1) / 2) : ℚ) : ℝ) ≤ 1 := by exact_mod_cast g2
      have g3' : |((fl (fl (1 + q.1) / 2) : ℚ) : ℝ) - (1 + (q.1 : ℝ)) / 2| ≤ 1 / 2 ^ 53 := by
        have : ((|fl (fl (1 + q.1) / 2) - (1 + q.1) / 2| : ℚ) : ℝ) ≤ ((1 / 2 ^ 53 : ℚ) : ℝ) := Rat.cast_le.2 g3
        push_cast at this
        exact this
      have := pow_near g1' g2' (by linarith) (by linarith) g3' k
      rw [← mul_sub, abs_mul, abs_div, abs_of_pos (by norm_num : (0 : ℝ) < 2)]
      refine (mul_le_mul_of_nonneg_left this (by positivity)).trans (le_of_eq ?_)
      ring
    have h4 : ((P.zip W).map fun q : ℚ × ℚ => (k : ℝ) / 2 ^ 53 / 2 * |(q.2 : ℝ)|).sum ≤ d * (1 + ε / 2) / 2 ^ 53 := by
      rw [List.sum_map_mul_left]
      have hk' : (k : ℝ) ≤ d := by exact_mod_cast hk
      have hs0 : 0 ≤ ((P.zip W).map fun q : ℚ × ℚ => |(q.2 : ℝ)|).sum :=
        List.sum_nonneg (by intro x hx; obtain ⟨q, -, rfl⟩ := List.mem_map.1 hx; exact abs_nonneg _)
      calc _ ≤ (d : ℝ) / 2 ^ 53 / 2 * (2 + ε) := mul_le_mul (by gcongr) hsum hs0 (by positivity)
        _ = _ := by ring
    have h5 : ((P.zip W).map fun q : ℚ × ℚ => (q.2 : ℝ) / 2 * ((1 + (q.1 : ℝ)) / 2) ^ k).sum =
        ((P.zip W).map fun q : ℚ × ℚ => (q.2 : ℝ) * ((1 + (q.1 : ℝ)) / 2) ^ k).sum / 2 := by
      rw [div_eq_inv_mul, ← List.sum_map_mul_left]
      congr 1
      exact List.map_congr_left fun q _ => by ring
    rw [h5] at h3
    have h6 := abs_le.1 (h3.trans h4)
    have h7 := abs_le.1 h1
    rw [abs_le]
    constructor <;> linarith [h6.1, h6.2, h7.1, h7.2]
  intro p hp
  have e1 : r.toReal.value (fun t => p.eval t) = ∑ i ∈ p.support, p.coeff i * r.toReal.value (fun t => t ^ i) := by
    simp only [GaussRule.value, Polynomial.eval_eq_sum, Polynomial.sum]
    generalize r.toReal.points.zip r.toReal.weights = l
    induction l with
    | nil => simp
    | cons a l ih =>
      simp only [List.map_cons, List.sum_cons]
      rw [ih, Finset.mul_sum, ← Finset.sum_add_distrib]
      exact Finset.sum_congr rfl fun i _ => by ring
  have e2 : ∫ t in (0 : ℝ)..1, p.eval t = ∑ i ∈ p.support, p.coeff i * ∫ t in (0 : ℝ)..1, t ^ i := by
    simp only [Polynomial.eval_eq_sum, Polynomial.sum]
    rw [intervalIntegral.integral_finsetSum]
    · exact Finset.sum_congr rfl fun i _ => intervalIntegral.integral_const_mul _ _
    · exact fun i _ => Continuous.intervalIntegrable (by fun_prop) _ _
  rw [e1, e2, ← Finset.sum_sub_distrib, coeffSum1, Finset.mul_sum]
  refine (Finset.abs_sum_le_sum_abs _ _).trans (Finset.sum_le_sum fun i hi => ?_)
  rw [← mul_sub, abs_mul, mul_comm]
  exact mul_le_mul_of_nonneg_right (mono i ((Polynomial.le_natDegree_of_mem_supp i hi).trans hp)) (abs_nonneg _)

/-! ### lengths of edges -/

theorem pyGet_floatPlanar {n : ℕ} {P : ℕ → ℚ × ℚ} {i : ℕ} (h : i < n) :
    pyGet (floatPlanar n P) i = .ok ⟨[(P i).1, (P i).2]⟩ := by
  rw [pyGet_ok (by simpa [floatPlanar] using h)]; simp [floatPlanar]

/-- real bounds from rational ones -/
theorem near_of_bounds {s len η : ℚ} (hs : 0 ≤ s) (h0 : 0 ≤ η) (h1 : η < 1)
    (lo : ∀ a, 0 ≤ a → a ^ 2 ≤ s → a * (1 - η) ≤ len) (hi : ∀ b, 0 ≤ b → s ≤ b ^ 2 → len ≤ b * (1 + η)) :
    |(len : ℝ) - Real.sqrt s| ≤ η * Real.sqrt s := by
  have h1' : (0 : ℝ) < 1 - (η : ℝ) := by
    have : (η : ℝ) < 1 := by exact_mod_cast h1
    linarith
  have h0' : (0 : ℝ) ≤ (η : ℝ) := by exact_mod_cast h0
  have hs' : (0 : ℝ) ≤ (s : ℝ) := by exact_mod_cast hs
  have len0 : (0 : ℝ) ≤ (len : ℝ) := by
    have := lo 0 le_rfl (by simpa using hs)
    rw [zero_mul] at this
    exact_mod_cast this
  rw [abs_le]
  constructor
  · by_contra hc
    have h2 : (len : ℝ) / (1 - η) < Real.sqrt s := by
      rw [div_lt_iff₀ h1']
      linarith
    obtain ⟨a, ha1, ha2⟩ := exists_rat_btwn h2
    have ha0 : (0 : ℝ) ≤ (a : ℝ) := (div_nonneg len0 h1'.le).trans ha1.le
    have ha3 : (a : ℝ) ^ 2 ≤ s := by
      have := Real.sq_sqrt hs'
      nlinarith
    have := lo a (by exact_mod_cast ha0) (by exact_mod_cast ha3)
    have h3 : (a : ℝ) * (1 - η) ≤ len := by exact_mod_cast this
    rw [div_lt_iff₀ h1'] at ha1
    linarith
  · by_contra hc
    have h2 : Real.sqrt s < (len : ℝ) / (1 + η) := by
      rw [lt_div_iff₀ (by linarith)]
      linarith
    obtain ⟨b, hb1, hb2⟩ := exists_rat_btwn h2
    have hb0 : (0 : ℝ) ≤ (b : ℝ) := (Real.sqrt_nonneg _).trans hb1.le
    have hb3 : (s : ℝ) ≤ (b : ℝ) ^ 2 := by
      have := Real.sq_sqrt hs'
      have := Real.sqrt_nonneg (s : ℝ)
      nlinarith
    have := hi b (by exact_mod_cast hb0) (by exact_mod_cast hb3)
    have h3 : (len : ℝ) ≤ (b : ℝ) * (1 + η) := by exact_mod_cast this
    rw [lt_div_iff₀ (by linarith)] at hb2
    linarith

/-- **Lengths of edges.** The computed length of an edge has a relative error of at most `7 · 2⁻⁵²`. -/
theorem C108_edge_length {S : Summation} (hS : Accurate S) {n : ℕ} (P : ℕ → ℚ × ℚ) {e : Edge} (h : e.1 < n ∧ e.2 < n) :
    ∃ len, boundaryEdgeLength S (floatPlanar n P) e = .ok len ∧ 0 ≤ len ∧
      |(len : ℝ) - edgeLen (fun i => realPoint (P i)) e| ≤ 7 / 2 ^ 52 * edgeLen (fun i => realPoint (P i)) e := by
  set x := (P e.1).1 - (P e.2).1 with hx
  set y := (P e.1).2 - (P e.2).2 with hy
  set q := S [fl (fl x * fl x), fl (fl y * fl y)] with hq
  have hok : boundaryEdgeLength S (floatPlanar n P) e = .ok (F64.sqrt q) := by
    rw [boundaryEdgeLength, pyGet_floatPlanar h.1, pyGet_floatPlanar h.2]
    rfl
  set s := x ^ 2 + y ^ 2 with hs
  have hs0 : 0 ≤ s := by positivity
  have hq1 : |q - (fl x ^ 2 + fl y ^ 2)| ≤ 3 / 2 ^ 52 * (fl x ^ 2 + fl y ^ 2) := by
    have := C109_normsqr hS (n := 2) (by norm_num) ![fl x, fl y]
    simp only [Fin.sum_univ_two, Matrix.cons_val_zero, Matrix.cons_val_one] at this
    refine le_trans (le_of_eq ?_) (this.trans (le_of_eq (by norm_num)))
    rfl
  have sqn : ∀ z : ℚ, |fl z ^ 2 - z ^ 2| ≤ (2 / 2 ^ 53 + 1 / 2 ^ 106) * z ^ 2 := by
    intro z
    have e1 := fl_error z
    have e2 : fl z ^ 2 - z ^ 2 = (fl z - z) * (fl z - z) + 2 * z * (fl z - z) := by ring
    rw [e2]
    refine (abs_add_le _ _).trans ?_
    rw [abs_mul, abs_mul, abs_mul, abs_of_pos (by norm_num : (0 : ℚ) < 2)]
    have hz : |z| * |z| = z ^ 2 := by rw [← abs_mul, ← sq, abs_of_nonneg (sq_nonneg z)]
    have e3 : |fl z - z| * |fl z - z| ≤ |z| / 2 ^ 53 * (|z| / 2 ^ 53) := mul_le_mul e1 e1 (abs_nonneg _) (by positivity)
    have e4 : 2 * |z| * |fl z - z| ≤ 2 * |z| * (|z| / 2 ^ 53) := mul_le_mul_of_nonneg_left e1 (by positivity)
    refine (add_le_add e3 e4).trans (le_of_eq ?_)
    rw [← hz]
    ring
  have hq2 : |q - s| ≤ 5 / 2 ^ 52 * s := by
    have a1 := sqn x
    have a2 := sqn y
    set t := fl x ^ 2 + fl y ^ 2 with ht
    have a3 : |t - s| ≤ (2 / 2 ^ 53 + 1 / 2 ^ 106) * s := by
      have : t - s = (fl x ^ 2 - x ^ 2) + (fl y ^ 2 - y ^ 2) := by rw [ht, hs]; ring
      rw [this]
      refine (abs_add_le _ _).trans ((add_le_add a1 a2).trans (le_of_eq ?_))
      rw [hs]; ring
    have a4 := (abs_le.1 a3)
    have a5 := (abs_le.1 hq1)
    rw [abs_le]
    constructor <;> nlinarith [a4.1, a4.2, a5.1, a5.2]
  refine ⟨_, hok, ?_, ?_⟩
  · have := (sqrt_near le_rfl (by positivity) (by norm_num) hq2 (a := 0)).1 (by simpa using hs0)
    simpa using this
  · have key := near_of_bounds (s := s) (len := F64.sqrt q) (η := 7 / 2 ^ 52) hs0 (by positivity) (by norm_num)
      (fun a ha h2 => ?_) (fun b hb h2 => ?_)
    · have e : edgeLen (fun i => realPoint (P i)) e = Real.sqrt s := by
        rw [edgeLen, hs, hx, hy]
        simp only [realPoint]
        push_cast
        rfl
      rw [e]
      push_cast at key ⊢
      exact key
    · refine le_trans ?_ ((sqrt_near ha (by positivity) (by norm_num) hq2).1 h2)
      nlinarith
    · refine ((sqrt_near hb (by positivity) (by norm_num) hq2).2 h2).trans ?_
      nlinarith

/-! ### integrals -/

theorem callBoundary_ok (S : Summation) (I : BoundaryIntegrator ℚ) (f : Edge → ℚ → ℚ) :
    callBoundary S I (fun e t => .ok (f e t)) = .ok (S ((I.lengths.zip I.edges).map fun p =>
      fl (p.1 * S ((I.quadrature.points.zip I.quadrature.weights).map fun q => fl (q.2 * f p.2 q.1))))) := by
  rw [callBoundary, pyMap_eq_ok (fun p : ℚ × Edge =>
    fl (p.1 * S ((I.quadrature.points.zip I.quadrature.weights).map fun q => fl (q.2 * f p.2 q.1))))]
  · rfl
  · rintro ⟨len, e⟩ -
    simp only
    rw [pyMap_eq_ok (fun q : ℚ × ℚ => fl (q.2 * f e q.1))]
    · rfl
    · exact fun q _ => rfl

theorem callIntegrator_ok (S : Summation) (I : Integrator ℚ) (f : Tri → Bary ℚ → ℚ) :
    callIntegrator S I (fun t b => .ok (f t b)) = .ok (F64.integrate S I.quadrature I.areas I.triangles f) := by
  rw [callIntegrator, pyMap_eq_ok (fun p : ℚ × Tri =>
    fl (p.1 * S ((I.quadrature.points.zip I.quadrature.weights).map fun q => fl (q.2 * f p.2 q.1))))]
  · rfl
  · rintro ⟨a, t⟩ -
    simp only
    rw [pyMap_eq_ok (fun q : Bary ℚ × ℚ => fl (q.2 * f t q.1))]
    · rfl
    · exact fun q _ => rfl

/-- **Boundary integrators.** In double precision a boundary integrator on a list of `N` edges with valid vertices is built whenever
`leggauss` returns; its rule is the Gauss rule, its lengths are those of the edges up to a relative error of `7 · 2⁻⁵²`, and
integrating any function differs from the exactly computed sum `∑ lₑ ∑ wᵢ f(e, tᵢ)` over the same lengths, weights and values
by at most `(n + N + 2) · 2⁻⁵¹` times the sum of the absolute values of the terms. -/
theorem C108_boundary_integrator {S : Summation} (hS : Accurate S) {lg : ℕ → PyM (List ℚ × List ℚ)} {deg : ℕ}
    {r : GaussRule ℚ} (hr : newGauss lg deg = .ok r) {n : ℕ} (P : ℕ → ℚ × ℚ) {es : List Edge}
    (h : ∀ e ∈ es, e.1 < n ∧ e.2 < n) (hn : r.weights.length ≤ 2 ^ 50) (hN : es.length ≤ 2 ^ 50) :
    ∃ I, newBoundaryIntegrator S lg deg es (floatPlanar n P) = .ok I ∧ I.quadrature = r ∧ I.edges = es ∧
      List.Forall₂ (fun (len : ℚ) e => 0 ≤ len ∧ |(len : ℝ) - edgeLen (fun i => realPoint (P i)) e| ≤
        7 / 2 ^ 52 * edgeLen (fun i => realPoint (P i)) e) I.lengths es ∧
      ∀ f : Edge → ℚ → ℚ, ∃ v, callBoundary S I (fun e t => .ok (f e t)) = .ok v ∧
        |v - ((I.lengths.zip es).map fun p => p.1 * ((r.points.zip r.weights).map fun q => q.2 * f p.2 q.1).sum).sum| ≤
          (r.weights.length + es.length + 2) / 2 ^ 51 *
            ((I.lengths.zip es).map fun p => |p.1| * ((r.points.zip r.weights).map fun q => |q.2 * f p.2 q.1|).sum).sum := by
  have hl : ∀ e, ∃ len, e ∈ es → boundaryEdgeLength S (floatPlanar n P) e = .ok len ∧ 0 ≤ len ∧
      |(len : ℝ) - edgeLen (fun i => realPoint (P i)) e| ≤ 7 / 2 ^ 52 * edgeLen (fun i => realPoint (P i)) e := by
    intro e
    by_cases he : e ∈ es
    · obtain ⟨len, hlen⟩ := C108_edge_length hS P (h e he)
      exact ⟨len, fun _ => hlen⟩
    · exact ⟨0, fun h => absurd h he⟩
  choose L hL using hl
  refine ⟨⟨es, r, es.map L⟩, ?_, rfl, rfl, ?_, fun f => ⟨_, callBoundary_ok S _ f, ?_⟩⟩
  · rw [newBoundaryIntegrator, hr, bind_ok, pyMap_eq_ok L (fun e he => (hL e he).1)]; rfl
  · simp only
    rw [List.forall₂_map_left_iff, List.forall₂_same]
    exact fun e he => (hL e he).2
  · exact integral_approx hS _ _ f (by rw [List.length_zip]; exact min_le_right _ _)
      (by rw [List.length_zip]; exact min_le_right _ _) hn hN

theorem integratorArea_ok {n : ℕ} {P : ℕ → ℚ × ℚ} {t : Tri} (h : t.Valid n) :
    integratorArea (floatPlanar n P) t = .ok (F64.triangleArea (P t.1) (P t.2.1) (P t.2.2)) := by
  rw [integratorArea, pyGet_floatPlanar h.1, pyGet_floatPlanar h.2.1, pyGet_floatPlanar h.2.2, bind_ok, bind_ok, bind_ok]
  have e1 : ∀ p q : ℚ × ℚ, V.sub ⟨[p.1, p.2]⟩ ⟨[q.1, q.2]⟩ = .ok ⟨[fl (p.1 - q.1), fl (p.2 - q.2)]⟩ := fun p q => rfl
  have e2 : ∀ a b c d : ℚ, (⟨[a, b]⟩ : Vec ℚ).stack ⟨[c, d]⟩ = .ok (matOf !![a, b; c, d]) := by
    intro a b c d
    simp [Vec.stack, Vec.size, Mat.new, matOf, List.ofFn_succ]
  rw [e1, e1, bind_ok, bind_ok, e2, bind_ok, det2_eq _ _ _ _ (isDouble_fl _) (isDouble_fl _)]
  rfl

/-- **Integrators.** The integrator of a valid mesh with `N` triangles is built; calling it computes the integral of
`C108_integrator` with the areas of `C108_area`. -/
theorem C108_new_integrator (S : Summation) (r : TriRule ℚ) {n : ℕ} (P : ℕ → ℚ × ℚ) {ts : List Tri} (h : ∀ t ∈ ts, t.Valid n) :
    ∃ I, newIntegrator r ts (floatPlanar n P) = .ok I ∧ ∀ f : Tri → Bary ℚ → ℚ,
      callIntegrator S I (fun t b => .ok (f t b)) =
        .ok (F64.integrate S r (ts.map fun t => F64.triangleArea (P t.1) (P t.2.1) (P t.2.2)) ts f) := by
  refine ⟨⟨ts, r, ts.map fun t => F64.triangleArea (P t.1) (P t.2.1) (P t.2.2)⟩, ?_, fun f => by rw [callIntegrator_ok]⟩
  rw [newIntegrator, pyMap_eq_ok (fun t : Tri => F64.triangleArea (P t.1) (P t.2.1) (P t.2.2)) (fun t ht => integratorArea_ok (h t ht)), bind_ok, pure_eq_ok]

/-- **Boundary integrators.** Integrating the constant `1` with the midpoint rule returns the total length up to a relative error of
`(N + 7) · 2⁻⁵⁰`. -/
theorem C108_boundary_length {S : Summation} (hS : Accurate S) {lg : ℕ → PyM (List ℚ × List ℚ)} (hlg : lg 1 = .ok ([0], [2]))
    {n : ℕ} (P : ℕ → ℚ × ℚ) {es : List Edge} (h : ∀ e ∈ es, e.1 < n ∧ e.2 < n) (hN : es.length ≤ 2 ^ 50) :
    ∃ I v, newBoundaryIntegrator S lg 1 es (floatPlanar n P) = .ok I ∧ callBoundary S I (fun _ _ => .ok 1) = .ok v ∧
      |(v : ℝ) - (es.map (edgeLen fun i => realPoint (P i))).sum| ≤
        (es.length + 7) / 2 ^ 50 * (es.map (edgeLen fun i => realPoint (P i))).sum := by
  have hr : newGauss lg 1 = .ok ⟨[1 / 2], [1]⟩ := by
    rw [newGauss_ok hlg]
    have h1 : fl (fl (1 + 0) / 2) = 1 / 2 := by decide +kernel
    have h2 : fl (2 / 2) = 1 := by decide +kernel
    simp only [List.map_cons, List.map_nil, h1, h2]
  obtain ⟨I, hI, hq, hE, hL, hf⟩ := C108_boundary_integrator hS hr P h (by norm_num) hN
  obtain ⟨v, hv, hb⟩ := hf fun _ _ => 1
  refine ⟨I, v, hI, hv, ?_⟩
  have hz : ∀ g : ℚ → ℚ, ((I.lengths.zip es).map fun p => g p.1).sum = (I.lengths.map g).sum := by
    intro g
    have hl : I.lengths.length ≤ es.length := by rw [hL.length_eq]
    conv_rhs => rw [← List.map_fst_zip (l₂ := es) hl, List.map_map]
    rfl
  simp only [List.zip_cons_cons, List.zip_nil_right, List.map_cons, List.map_nil, List.sum_cons, List.sum_nil, mul_one, add_zero,
    abs_one, List.length_cons, List.length_nil] at hb
  rw [hz (fun x => x), hz (fun x => |x|)] at hb
  generalize I.lengths = ls at hL hb
  generalize edgeLen (fun i => realPoint (P i)) = D at hL
  have key : 0 ≤ (es.map D).sum ∧ |((ls.sum : ℚ) : ℝ) - (es.map D).sum| ≤ 7 / 2 ^ 52 * (es.map D).sum ∧
      (ls.map fun x => |x|) = ls := by
    clear hb h hN hr hf hI hv hE hz
    induction hL with
    | nil => simp
    | cons h1 h2 ih =>
      rename_i a b l1 l2
      obtain ⟨i1, i2, i3⟩ := ih
      have hb0 : 0 ≤ D b := by
        by_contra hc
        have := (abs_nonneg _).trans h1.2
        nlinarith
      refine ⟨?_, ?_, ?_⟩
      · simp only [List.map_cons, List.sum_cons]; linarith
      · simp only [List.map_cons, List.sum_cons, Rat.cast_add]
        have e : (a : ℝ) + ((l1.sum : ℚ) : ℝ) - (D b + (l2.map D).sum) = ((a : ℝ) - D b) + (((l1.sum : ℚ) : ℝ) - (l2.map D).sum) := by ring
        rw [e]
        exact (abs_add_le _ _).trans (by linarith [h1.2])
      · rw [List.map_cons, i3, abs_of_nonneg h1.1]
  obtain ⟨k1, k2, k3⟩ := key
  rw [k3, List.map_id'] at hb
  set T := (es.map D).sum
  have hb' : |(v : ℝ) - ((ls.sum : ℚ) : ℝ)| ≤ (1 + (es.length : ℝ) + 2) / 2 ^ 51 * ((ls.sum : ℚ) : ℝ) := by
    have : ((|v - ls.sum| : ℚ) : ℝ) ≤ (((0 + 1 : ℕ) + (es.length : ℚ) + 2) / 2 ^ 51 * ls.sum : ℚ) := Rat.cast_le.2 hb
    push_cast at this
    simpa using this
  have hN' : (es.length : ℝ) ≤ 2 ^ 50 := by exact_mod_cast hN
  have N0 : (0 : ℝ) ≤ es.length := Nat.cast_nonneg _
  have k2' := abs_le.1 k2
  have s1 : ((ls.sum : ℚ) : ℝ) ≤ (1 + 7 / 2 ^ 52) * T := by linarith [k2'.2]
  have s2 : (1 + (es.length : ℝ) + 2) / 2 ^ 51 * ((ls.sum : ℚ) : ℝ) ≤ (1 + (es.length : ℝ) + 2) / 2 ^ 51 * ((1 + 7 / 2 ^ 52) * T) :=
    mul_le_mul_of_nonneg_left s1 (by positivity)
  have e : (v : ℝ) - T = (v - ((ls.sum : ℚ) : ℝ)) + (((ls.sum : ℚ) : ℝ) - T) := by ring
  rw [e]
  refine (abs_add_le _ _).trans ?_
  have s3 : (1 + (es.length : ℝ) + 2) / 2 ^ 51 * ((1 + 7 / 2 ^ 52) * T) + 7 / 2 ^ 52 * T ≤ (es.length + 7) / 2 ^ 50 * T := by
    have : (1 + (es.length : ℝ) + 2) / 2 ^ 51 * (1 + 7 / 2 ^ 52) + 7 / 2 ^ 52 ≤ (es.length + 7) / 2 ^ 50 := by
      nlinarith
    nlinarith
  linarith

/-- the unit square: in double precision the midpoint rule returns its perimeter up to `1e-13`, whatever the version of `sum` -/
example : ∃ I v, newBoundaryIntegrator sum311 (fun _ => .ok ([0], [2])) 1 [(0, 1), (1, 2), (2, 3), (3, 0)]
      (floatPlanar 4 fun i => if i = 0 then (0, 0) else if i = 1 then (1, 0) else if i = 2 then (1, 1) else (0, 1)) = .ok I ∧
    callBoundary sum311 I (fun _ _ => .ok 1) = .ok v ∧ |(v : ℝ) - 4| ≤ 1 / 10 ^ 13 := by
  obtain ⟨I, v, h1, h2, h3⟩ := C108_boundary_length C108_sum (lg := fun _ => .ok ([0], [2])) rfl (n := 4)
    (fun i => if i = 0 then (0, 0) else if i = 1 then (1, 0) else if i = 2 then (1, 1) else (0, 1))
    (es := [(0, 1), (1, 2), (2, 3), (3, 0)]) (by decide) (by norm_num)
  refine ⟨I, v, h1, h2, ?_⟩
  have e : ([((0 : ℕ), (1 : ℕ)), (1, 2), (2, 3), (3, 0)].map (edgeLen fun i => realPoint
      (if i = 0 then ((0 : ℚ), (0 : ℚ)) else if i = 1 then (1, 0) else if i = 2 then (1, 1) else (0, 1)))).sum = 4 := by
    norm_num [edgeLen, realPoint]
  rw [e] at h3
  refine h3.trans ?_
  norm_num

/-- the midpoint rule meets the hypotheses of `C108_gauss` and `C108_gauss_exact` -/
example : (∀ p ∈ [(0 : ℚ)], |p| ≤ 1) ∧ (∀ w ∈ [(2 : ℚ)], IsDouble w ∧ 0 ≤ w) ∧ LegExactUpTo [0] [2] 1 0 := by
  refine ⟨by simp, by simpa using isDouble_two, fun p hp => ?_⟩
  have e : ∀ x : ℝ, p.eval x = p.coeff 0 + p.coeff 1 * x := by
    intro x
    rw [Polynomial.eval_eq_sum_range' (n := 2) (by omega)]
    simp [Finset.sum_range_succ]
  simp_rw [e]
  rw [intervalIntegral.integral_add, intervalIntegral.integral_const_mul]
  · simp
    ring
  all_goals exact Continuous.intervalIntegrable (by fun_prop) _ _

end Tve
