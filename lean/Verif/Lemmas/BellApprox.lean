import Verif.Lemmas.BellBound
import Verif.Lemmas.BellPoly
import Verif.Lemmas.Approx
import Verif.Props.BellC1
import Verif.Lemmas.Interp

/-! Approximation properties of the Bell interpolation on grids of the library. -/

set_option linter.unusedSimpArgs false

namespace Tve
namespace Bell

/-- bounds for the six nodal values -/
def nodeBound (e0 e1 e2 : ℝ) : Fin 6 → ℝ := ![e0, e1, e1, e2, e2, e2]

/-- the combined bound -/
noncomputable def dataBound (s e0 e1 e2 : ℝ) : ℝ := e0 + 6 / 5 * s * e1 + 7 / 15 * s ^ 2 * e2

theorem data_sum (s e0 e1 e2 : ℝ) : ∑ k, shapeBound s k * nodeBound e0 e1 e2 k = dataBound s e0 e1 e2 := by
  simp [shapeBound, nodeBound, dataBound, Fin.sum_univ_six]; ring

theorem total_le {F p : Fin 3 → Fin 6 → ℝ} {s B e0 e1 e2 : ℝ} (hF : ∀ i k, |F i k| ≤ shapeBound s k * B)
    (hp : ∀ i k, |p i k| ≤ nodeBound e0 e1 e2 k) : |∑ i, ∑ k, F i k * p i k| ≤ 3 * B * dataBound s e0 e1 e2 := by
  have : ∀ i, |∑ k, F i k * p i k| ≤ B * dataBound s e0 e1 e2 := fun i => by
    rw [← data_sum, Finset.mul_sum]
    refine (Finset.abs_sum_le_sum_abs _ _).trans (Finset.sum_le_sum fun k _ => ?_)
    rw [abs_mul]
    calc |F i k| * |p i k| ≤ shapeBound s k * B * nodeBound e0 e1 e2 k :=
          mul_le_mul (hF i k) (hp i k) (abs_nonneg _) ((abs_nonneg _).trans (hF i k))
      _ = B * (shapeBound s k * nodeBound e0 e1 e2 k) := by ring
  refine (Finset.abs_sum_le_sum_abs _ _).trans ?_
  rw [Fin.sum_univ_three]
  have h0 := this 0; have h1 := this 1; have h2 := this 2
  linarith

/-- the edge vectors of a right isosceles triangle with legs parallel to the axes -/
structure RightIso (P : Fin 3 → ℝ × ℝ) (s σ : ℝ) : Prop where
  pos : 0 < s
  sign : σ = 1 ∨ σ = -1
  b : bb P = ![-(σ * s), σ * s, 0]
  c : cc P = ![0, -(σ * s), σ * s]
  d : twoD P = s ^ 2

variable {P : Fin 3 → ℝ × ℝ} {L : Fin 3 → ℝ} {p : Fin 3 → Fin 6 → ℝ} {s σ e0 e1 e2 : ℝ}

theorem RightIso.coef_le (R : RightIso P s σ) (i : Fin 3) (k : Fin 6) (j : Fin 8) :
    |coef (sh i (bb P)) (sh i (cc P)) k j| ≤ shapeBound s k * mult j := by
  have hs := R.pos
  have hσ : |σ * s| = s := by rcases R.sign with h | h <;> simp [h, abs_of_pos hs]
  have hσ2 : (σ * s) ^ 2 = s ^ 2 := by rcases R.sign with h | h <;> simp [h]
  have h2 : s ^ 2 ≠ 0 := by positivity
  have e1 : (s ^ 2 + s ^ 2) ≠ 0 := by positivity
  have e2 : s ^ 2 / (s ^ 2 + s ^ 2) = 1 / 2 := by field_simp; norm_num
  have e3 : s ^ 2 / s ^ 2 = 1 := div_self h2
  refine Bell.coef_le ?_ ?_ ?_ ?_ k j
  · intro l
    rw [R.b]
    fin_cases i <;> fin_cases l <;> simp [sh, hσ, hs.le]
  · intro l
    rw [R.c]
    fin_cases i <;> fin_cases l <;> simp [sh, hσ, hs.le]
  · rw [R.b, R.c]
    fin_cases i <;> simp [sh, R21, ← sq, hσ2, e2, e3]
    all_goals norm_num
  · rw [R.b, R.c]
    fin_cases i <;> simp [sh, R31, ← sq, hσ2, e2, e3]
    all_goals norm_num

theorem sh_simplex (h0 : ∀ i, 0 ≤ L i) (h1 : L 0 + L 1 + L 2 = 1) (i : Fin 3) :
    (∀ j, 0 ≤ sh i L j) ∧ sh i L 0 + sh i L 1 + sh i L 2 = 1 := by
  refine ⟨fun j => h0 _, ?_⟩
  fin_cases i <;> simp [sh] <;> linarith

theorem bval_le (R : RightIso P s σ) (h0 : ∀ i, 0 ≤ L i) (h1 : L 0 + L 1 + L 2 = 1)
    (hp : ∀ i k, |p i k| ≤ nodeBound e0 e1 e2 k) : |bval P p L| ≤ 3 * dataBound s e0 e1 e2 := by
  rw [bval_form]
  have := total_le (s := s) (B := 1)
    (F := fun i k => nform (coef (sh i (bb P)) (sh i (cc P)) k) (sh i L)) (fun i k => by
      rw [mul_one]; exact nform_le (R.coef_le i k) (sh_simplex h0 h1 i).1 (sh_simplex h0 h1 i).2) hp
  rwa [mul_one] at this

theorem bder_le (R : RightIso P s σ) (h0 : ∀ i, 0 ≤ L i) (h1 : L 0 + L 1 + L 2 = 1)
    (hp : ∀ i k, |p i k| ≤ nodeBound e0 e1 e2 k) (j : Fin 3) : |bder P p L j| ≤ 3 * 5 * dataBound s e0 e1 e2 := by
  rw [bder_form]
  exact total_le (F := fun i k => dform (coef (sh i (bb P)) (sh i (cc P)) k) (sh i L) (j - i)) (fun i k =>
    dform_le (R.coef_le i k) (sh_simplex h0 h1 i).1 (sh_simplex h0 h1 i).2 _) hp

theorem bder2_le (R : RightIso P s σ) (h0 : ∀ i, 0 ≤ L i) (h1 : L 0 + L 1 + L 2 = 1)
    (hp : ∀ i k, |p i k| ≤ nodeBound e0 e1 e2 k) (j l : Fin 3) : |bder2 P p L j l| ≤ 3 * 20 * dataBound s e0 e1 e2 := by
  rw [bder2_form]
  exact total_le (F := fun i k => ddform (coef (sh i (bb P)) (sh i (cc P)) k) (sh i L) (j - i) (l - i)) (fun i k =>
    ddform_le (R.coef_le i k) (sh_simplex h0 h1 i).1 (sh_simplex h0 h1 i).2 _ _) hp

/-- stability: the interpolation of small nodal data is small, and so are its derivatives -/
theorem stable (R : RightIso P s σ) (h0 : ∀ i, 0 ≤ L i) (h1 : L 0 + L 1 + L 2 = 1)
    (hp : ∀ i k, |p i k| ≤ nodeBound e0 e1 e2 k) :
    |bval P p L| ≤ 3 * dataBound s e0 e1 e2 ∧
    (|∑ j, bb P j * bder P p L j / twoD P| ≤ 30 * dataBound s e0 e1 e2 / s ∧
      |∑ j, cc P j * bder P p L j / twoD P| ≤ 30 * dataBound s e0 e1 e2 / s) ∧
    |∑ j, ∑ l, bb P j * bb P l * bder2 P p L j l / twoD P ^ 2| ≤ 240 * dataBound s e0 e1 e2 / s ^ 2 ∧
    |∑ j, ∑ l, bb P j * cc P l * bder2 P p L j l / twoD P ^ 2| ≤ 240 * dataBound s e0 e1 e2 / s ^ 2 ∧
    |∑ j, ∑ l, cc P j * bb P l * bder2 P p L j l / twoD P ^ 2| ≤ 240 * dataBound s e0 e1 e2 / s ^ 2 ∧
    |∑ j, ∑ l, cc P j * cc P l * bder2 P p L j l / twoD P ^ 2| ≤ 240 * dataBound s e0 e1 e2 / s ^ 2 := by
  have hs := R.pos
  have d0 := bval_le R h0 h1 hp
  have d1 := bder_le R h0 h1 hp
  have d2 := bder2_le R h0 h1 hp
  generalize dataBound s e0 e1 e2 = m at *
  have hσ : |σ| = 1 := by rcases R.sign with h | h <;> simp [h]
  have two : ∀ {x y B : ℝ}, |x| ≤ B → |y| ≤ B → |x - y| ≤ 2 * B := fun {x y B} hx hy => by
    have := abs_sub x y; linarith
  have four : ∀ {x y z w B : ℝ}, |x| ≤ B → |y| ≤ B → |z| ≤ B → |w| ≤ B → |x - y - (z - w)| ≤ 4 * B := fun hx hy hz hw => by
    have := two (two hx hy) (two hz hw); linarith
  have g : ∀ {x : ℝ}, |x| ≤ 2 * (3 * 5 * m) → |σ / s * x| ≤ 30 * m / s := fun {x} hx => by
    rw [abs_mul, abs_div, hσ, abs_of_pos hs, div_mul_eq_mul_div, one_mul]
    exact (div_le_div_iff_of_pos_right hs).2 (by linarith)
  have h : ∀ {x : ℝ}, |x| ≤ 4 * (3 * 20 * m) → |x / s ^ 2| ≤ 240 * m / s ^ 2 := fun {x} hx => by
    rw [abs_div, abs_of_pos (by positivity : 0 < s ^ 2)]
    exact (div_le_div_iff_of_pos_right (by positivity)).2 (by linarith)
  have σ2 : σ ^ 2 = 1 := by rcases R.sign with h | h <;> simp [h]
  refine ⟨d0, ⟨?_, ?_⟩, ?_, ?_, ?_, ?_⟩
  · rw [show ∑ j, bb P j * bder P p L j / twoD P = σ / s * (bder P p L 1 - bder P p L 0) by
      rw [R.b, R.d, Fin.sum_univ_three]; simp; field_simp; ring]
    exact g (two (d1 _) (d1 _))
  · rw [show ∑ j, cc P j * bder P p L j / twoD P = σ / s * (bder P p L 2 - bder P p L 1) by
      rw [R.c, R.d, Fin.sum_univ_three]; simp; field_simp; ring]
    exact g (two (d1 _) (d1 _))
  · rw [show ∑ j, ∑ l, bb P j * bb P l * bder2 P p L j l / twoD P ^ 2 =
        (bder2 P p L 1 1 - bder2 P p L 1 0 - (bder2 P p L 0 1 - bder2 P p L 0 0)) / s ^ 2 by
      rw [R.b, R.d]; simp [Fin.sum_univ_three]; field_simp; rw [σ2]; ring]
    exact h (four (d2 _ _) (d2 _ _) (d2 _ _) (d2 _ _))
  · rw [show ∑ j, ∑ l, bb P j * cc P l * bder2 P p L j l / twoD P ^ 2 =
        (bder2 P p L 1 2 - bder2 P p L 1 1 - (bder2 P p L 0 2 - bder2 P p L 0 1)) / s ^ 2 by
      rw [R.b, R.c, R.d]; simp [Fin.sum_univ_three]; field_simp; rw [σ2]; ring]
    exact h (four (d2 _ _) (d2 _ _) (d2 _ _) (d2 _ _))
  · rw [show ∑ j, ∑ l, cc P j * bb P l * bder2 P p L j l / twoD P ^ 2 =
        (bder2 P p L 2 1 - bder2 P p L 2 0 - (bder2 P p L 1 1 - bder2 P p L 1 0)) / s ^ 2 by
      rw [R.b, R.c, R.d]; simp [Fin.sum_univ_three]; field_simp; rw [σ2]; ring]
    exact h (four (d2 _ _) (d2 _ _) (d2 _ _) (d2 _ _))
  · rw [show ∑ j, ∑ l, cc P j * cc P l * bder2 P p L j l / twoD P ^ 2 =
        (bder2 P p L 2 2 - bder2 P p L 2 1 - (bder2 P p L 1 2 - bder2 P p L 1 1)) / s ^ 2 by
      rw [R.c, R.d]; simp [Fin.sum_univ_three]; field_simp; rw [σ2]; ring]
    exact h (four (d2 _ _) (d2 _ _) (d2 _ _) (d2 _ _))

theorem bval_sub (p q : Fin 3 → Fin 6 → ℝ) : bval P (fun i k => p i k - q i k) L = bval P p L - bval P q L := by
  simp only [bval, ← Finset.sum_sub_distrib, mul_sub]
theorem bder_sub (p q : Fin 3 → Fin 6 → ℝ) (j : Fin 3) :
    bder P (fun i k => p i k - q i k) L j = bder P p L j - bder P q L j := by
  simp only [bder, ← Finset.sum_sub_distrib, mul_sub]
theorem bder2_sub (p q : Fin 3 → Fin 6 → ℝ) (j l : Fin 3) :
    bder2 P (fun i k => p i k - q i k) L j l = bder2 P p L j l - bder2 P q L j l := by
  simp only [bder2, ← Finset.sum_sub_distrib, mul_sub]

open MvPolynomial in
/-- the interpolation is as close to a quartic polynomial as its nodal data -/
theorem near_quartic (R : RightIso P s σ) (h0 : ∀ i, 0 ≤ L i) (h1 : L 0 + L 1 + L 2 = 1) (hP : Nondegenerate P)
    (q : MvPolynomial (Fin 2) ℝ) (hq : q.totalDegree ≤ 4) (hp : ∀ i k, |p i k - nodal q (P i) k| ≤ nodeBound e0 e1 e2 k) :
    ∃ y gx gy a b d, interpolation (tvOf P) (baryOf L) (parOf p) = .ok y ∧
      interpolationGradient (tvOf P) (baryOf L) (parOf p) = .ok (vecOf ![gx, gy]) ∧
      interpolationHessian (tvOf P) (baryOf L) (parOf p) = .ok (matOf !![a, b; b, d]) ∧
      |y - polyAt q (pointOf P L)| ≤ 3 * dataBound s e0 e1 e2 ∧
      |gx - polyAt (pderiv 0 q) (pointOf P L)| ≤ 30 * dataBound s e0 e1 e2 / s ∧
      |gy - polyAt (pderiv 1 q) (pointOf P L)| ≤ 30 * dataBound s e0 e1 e2 / s ∧
      |a - polyAt (pderiv 0 (pderiv 0 q)) (pointOf P L)| ≤ 240 * dataBound s e0 e1 e2 / s ^ 2 ∧
      |b - polyAt (pderiv 1 (pderiv 0 q)) (pointOf P L)| ≤ 240 * dataBound s e0 e1 e2 / s ^ 2 ∧
      |d - polyAt (pderiv 1 (pderiv 1 q)) (pointOf P L)| ≤ 240 * dataBound s e0 e1 e2 / s ^ 2 := by
  obtain ⟨q1, q2, q3⟩ := C38_quartics P hP q hq L h1
  obtain ⟨s1, ⟨s2, s3⟩, s4, s5, s6, s7⟩ := stable R h0 h1 hp
  rw [interpolation_eq hP] at q1
  rw [gradient_eq hP] at q2
  rw [hessian_eq hP] at q3
  have q1 := Except.ok.inj q1
  have q2 := vecOf_injective (Except.ok.inj q2)
  have q3 := matOf_injective (Except.ok.inj q3)
  have q20 := congrFun q2 0
  have q21 := congrFun q2 1
  have q300 := congrFun (congrFun q3 0) 0
  have q301 := congrFun (congrFun q3 0) 1
  have q311 := congrFun (congrFun q3 1) 1
  simp only [Matrix.of_apply, Matrix.cons_val_zero, Matrix.cons_val_one, Matrix.cons_val', Matrix.cons_val_fin_one] at q20 q21 q300 q301 q311
  simp only [bval_sub, bder_sub, bder2_sub, mul_sub, sub_div, Finset.sum_sub_distrib] at s1 s2 s3 s4 s5 s6 s7
  have sym : ∑ j, ∑ l, cc P j * bb P l * bder2 P p L j l / twoD P ^ 2 = ∑ j, ∑ l, bb P j * cc P l * bder2 P p L j l / twoD P ^ 2 := by
    rw [Finset.sum_comm]
    refine Finset.sum_congr rfl fun j _ => Finset.sum_congr rfl fun l _ => ?_
    rw [bder2_symm]; ring
  have he := hessian_eq (p := p) (L := L) hP
  rw [sym] at he
  refine ⟨_, _, _, _, _, _, interpolation_eq hP, gradient_eq hP, he, ?_, ?_, ?_, ?_, ?_, ?_⟩
  · rw [← q1]; exact s1
  · rw [← q20]; exact s2
  · rw [← q21]; exact s3
  · rw [← q300]; exact s4
  · rw [← q301]; exact s5
  · rw [← q311]; exact s7

end Bell

open Bell

variable {g : Grid ℝ} {nx ny : ℕ} {s : ℝ} {u : List (List ℝ)} {I : Interp} {t : Tri}

theorem rightIso (G : LibraryGrid g nx ny s) (ht : t ∈ g.triangles) : ∃ σ, RightIso (g.corners t) s σ := by
  obtain ⟨f1, f2, f3, f4, -, -, -, hc⟩ := tri_frame G ht
  have hs := (C22_structure G).1
  have k0 : g.corners t 0 = g.xy t.1 := rfl
  have k1 : g.corners t 1 = g.xy t.2.1 := rfl
  have k2 : g.corners t 2 = g.xy t.2.2 := rfl
  have hcr : ((g.xy t.2.1).1 - (g.xy t.1).1) * ((g.xy t.2.2).2 - (g.xy t.2.1).2) = s ^ 2 := by
    rw [← hc, cross]
    rw [← f1, ← f2]; ring
  obtain ⟨σ, hσ, e1, e2⟩ : ∃ σ : ℝ, (σ = 1 ∨ σ = -1) ∧ (g.xy t.2.1).1 - (g.xy t.1).1 = σ * s ∧
      (g.xy t.2.2).2 - (g.xy t.2.1).2 = σ * s := by
    rcases abs_eq hs.le |>.1 f3 with h | h <;> rcases abs_eq hs.le |>.1 f4 with h' | h'
    · exact ⟨1, Or.inl rfl, by rw [h, one_mul], by rw [h', one_mul]⟩
    · rw [h, h'] at hcr; nlinarith
    · rw [h, h'] at hcr; nlinarith
    · exact ⟨-1, Or.inr rfl, by rw [h]; ring, by rw [h']; ring⟩
  refine ⟨σ, hs, hσ, ?_, ?_, hc⟩
  · funext i
    fin_cases i <;> simp [bb, k0, k1, k2] <;> linarith
  · funext i
    fin_cases i <;> simp [cc, k0, k1, k2] <;> linarith

end Tve
