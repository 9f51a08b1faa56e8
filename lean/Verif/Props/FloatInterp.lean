import Verif.Spec.FloatInterp
import Verif.Lemmas.FloatLocate
import Verif.Props.FloatIntegrators
import Verif.Props.FloatTensors
import Verif.Props.FloatLocate
import Verif.Props.FloatRefine

/-!
# C110: piecewise affine interpolation in double precision
-/

namespace Tve
open F64

theorem pyGet_floatValues {n i : ℕ} {u : ℕ → ℚ} (h : i < n) : pyGet (floatValues n u) i = .ok (u i) := by
  rw [pyGet_ok (by simpa [floatValues] using h)]; simp [floatValues]

/-! ### values -/

/-- the formula of the values on edges -/
theorem edge_value_error {t a b B : ℚ} (h0 : 0 ≤ t) (h1 : t ≤ 1) (ha : |a| ≤ B) (hb : |b| ≤ B) :
    |fl (fl (t * a) + fl (fl (1 - t) * b)) - (t * a + (1 - t) * b)| ≤ B / 2 ^ 51 := by
  have hB : 0 ≤ B := (abs_nonneg _).trans ha
  have A : Ap t t 0 t := Ap.of (by rw [abs_of_nonneg h0])
  have C : Ap (1 - t) (1 - t) 0 (1 - t) := Ap.of (by rw [abs_of_nonneg (by linarith)])
  have := (((A.mul (Ap.of ha)).fl).add ((C.fl.mul (Ap.of hb)).fl)).fl.1
  refine this.trans ?_
  have : 0 ≤ t * B := mul_nonneg h0 hB
  have : 0 ≤ (1 - t) * B := mul_nonneg (by linarith) hB
  ring_nf at *
  nlinarith

theorem edge_value_nonneg {t a b : ℚ} (h0 : 0 ≤ t) (h1 : t ≤ 1) (ha : 0 ≤ a) (hb : 0 ≤ b) :
    0 ≤ fl (fl (t * a) + fl (fl (1 - t) * b)) :=
  fl_nonneg (add_nonneg (fl_nonneg (mul_nonneg h0 ha)) (fl_nonneg (mul_nonneg (fl_nonneg (by linarith)) hb)))

theorem edge_value_ends {a b : ℚ} (ha : IsDouble a) (hb : IsDouble b) :
    fl (fl (0 * a) + fl (fl (1 - 0) * b)) = b ∧ fl (fl (1 * a) + fl (fl (1 - 1) * b)) = a := by
  have h1 : fl (1 : ℚ) = 1 := fl_double ⟨1, 0, by norm_num, by norm_num⟩
  constructor
  · rw [zero_mul, fl_zero, sub_zero, h1, one_mul, fl_double hb, zero_add, fl_double hb]
  · rw [sub_self, fl_zero, zero_mul, fl_zero, one_mul, fl_double ha, add_zero, fl_double ha]

/-- **C110** (values on edges). On an edge, the value computed for a parameter `t` between 0 and 1 differs from the value of the affine
function by at most `2⁻⁵¹` times the larger of the two absolute values; it is nonnegative if the values at the ends are, and exact at
the ends. -/
theorem C110_on_edge {n : ℕ} {u : ℕ → ℚ} {e : Edge} (h : e.1 < n ∧ e.2 < n) :
    (∀ t B : ℚ, 0 ≤ t → t ≤ 1 → |u e.1| ≤ B → |u e.2| ≤ B → ∃ v, p1OnEdge (floatValues n u) e t = .ok v ∧
      |v - (t * u e.1 + (1 - t) * u e.2)| ≤ B / 2 ^ 51 ∧ IsDouble v ∧ (0 ≤ u e.1 → 0 ≤ u e.2 → 0 ≤ v)) ∧
    (IsDouble (u e.1) → IsDouble (u e.2) → p1OnEdge (floatValues n u) e 0 = .ok (u e.2) ∧
      p1OnEdge (floatValues n u) e 1 = .ok (u e.1)) := by
  have key : ∀ t, p1OnEdge (floatValues n u) e t = .ok (fl (fl (t * u e.1) + fl (fl (1 - t) * u e.2))) := by
    intro t
    rw [p1OnEdge, pyGet_floatValues h.1, pyGet_floatValues h.2]; rfl
  refine ⟨fun t B h0 h1 ha hb => ⟨_, key t, edge_value_error h0 h1 ha hb, isDouble_fl _, edge_value_nonneg h0 h1⟩,
    fun ha hb => ?_⟩
  rw [key, key, (edge_value_ends ha hb).1, (edge_value_ends ha hb).2]
  exact ⟨rfl, rfl⟩

/-- **C110** (boundary data). The same for functions on the boundary, given by a dictionary of the values at its vertices. -/
theorem C110_boundary_call {d : PyDict Vertex ℚ} {e : Edge} {a b : ℚ} (hd : d.get e.1 = .ok a ∧ d.get e.2 = .ok b) :
    (∀ t B : ℚ, 0 ≤ t → t ≤ 1 → |a| ≤ B → |b| ≤ B → ∃ v, p1BoundaryCall d e t = .ok v ∧
      |v - (t * a + (1 - t) * b)| ≤ B / 2 ^ 51 ∧ IsDouble v ∧ (0 ≤ a → 0 ≤ b → 0 ≤ v)) ∧
    (IsDouble a → IsDouble b → p1BoundaryCall d e 0 = .ok b ∧ p1BoundaryCall d e 1 = .ok a) := by
  have key : ∀ t, p1BoundaryCall d e t = .ok (fl (fl (t * a) + fl (fl (1 - t) * b))) := by
    intro t
    rw [p1BoundaryCall, hd.1, hd.2]; rfl
  refine ⟨fun t B h0 h1 ha hb => ⟨_, key t, edge_value_error h0 h1 ha hb, isDouble_fl _, edge_value_nonneg h0 h1⟩,
    fun ha hb => ?_⟩
  rw [key, key, (edge_value_ends ha hb).1, (edge_value_ends ha hb).2]
  exact ⟨rfl, rfl⟩

theorem call_value_error (l1 l2 l3 a b c : ℚ) :
    |fl (fl (fl (l1 * a) + fl (l2 * b)) + fl (l3 * c)) - (l1 * a + l2 * b + l3 * c)| ≤
      (|l1 * a| + |l2 * b| + |l3 * c|) / 2 ^ 51 := by
  have := (((Ap.of (le_refl |l1 * a|)).fl.add (Ap.of (le_refl |l2 * b|)).fl).fl.add (Ap.of (le_refl |l3 * c|)).fl).fl.1
  refine this.trans ?_
  have := abs_nonneg (l1 * a)
  have := abs_nonneg (l2 * b)
  have := abs_nonneg (l3 * c)
  ring_nf at *
  nlinarith

/-- **C110** (values in triangles). At barycentric coordinates `c` the computed value differs from the value of the affine function by at
most `2⁻⁵¹` times the weighted sum of the absolute values; it is nonnegative if the weights and the values are, and exact at the corners. -/
theorem C110_call {n : ℕ} {u : ℕ → ℚ} {t : Tri} (h : t.Valid n) :
    (∀ c : Bary ℚ, ∃ v, p1Call (floatValues n u) t c = .ok v ∧
      |v - (c.l1 * u t.1 + c.l2 * u t.2.1 + c.l3 * u t.2.2)| ≤ (|c.l1 * u t.1| + |c.l2 * u t.2.1| + |c.l3 * u t.2.2|) / 2 ^ 51 ∧
      IsDouble v ∧ (0 ≤ c.l1 → 0 ≤ c.l2 → 0 ≤ c.l3 → 0 ≤ u t.1 → 0 ≤ u t.2.1 → 0 ≤ u t.2.2 → 0 ≤ v)) ∧
    (IsDouble (u t.1) → p1Call (floatValues n u) t ⟨1, 0, 0⟩ = .ok (u t.1)) ∧
    (IsDouble (u t.2.1) → p1Call (floatValues n u) t ⟨0, 1, 0⟩ = .ok (u t.2.1)) ∧
    (IsDouble (u t.2.2) → p1Call (floatValues n u) t ⟨0, 0, 1⟩ = .ok (u t.2.2)) := by
  have key : ∀ c, p1Call (floatValues n u) t c =
      .ok (fl (fl (fl (c.l1 * u t.1) + fl (c.l2 * u t.2.1)) + fl (c.l3 * u t.2.2))) := by
    intro c
    rw [p1Call, pyGet_floatValues h.1, pyGet_floatValues h.2.1, pyGet_floatValues h.2.2]; rfl
  refine ⟨fun c => ⟨_, key c, call_value_error .., isDouble_fl _, fun a b d x y z => ?_⟩, fun hd => ?_, fun hd => ?_, fun hd => ?_⟩
  · exact fl_nonneg (add_nonneg (fl_nonneg (add_nonneg (fl_nonneg (mul_nonneg a x)) (fl_nonneg (mul_nonneg b y))))
      (fl_nonneg (mul_nonneg d z)))
  all_goals
    rw [key]
    simp only [one_mul, zero_mul, fl_zero, add_zero, zero_add, fl_double hd]

/-- **C110** (deformations). The point computed by a deformation in a triangle or on an edge is, in each coordinate, accurate in the same
sense. -/
theorem C110_deformation {n : ℕ} {u w : ℕ → ℚ} {t : Tri} (h : t.Valid n) {e : Edge} (he : e.1 < n ∧ e.2 < n) :
    (∀ c : Bary ℚ, ∃ a b, p1DeformationCall (floatValues n u) (floatValues n w) t c = .ok ⟨[a, b]⟩ ∧
      |a - (c.l1 * u t.1 + c.l2 * u t.2.1 + c.l3 * u t.2.2)| ≤ (|c.l1 * u t.1| + |c.l2 * u t.2.1| + |c.l3 * u t.2.2|) / 2 ^ 51 ∧
      |b - (c.l1 * w t.1 + c.l2 * w t.2.1 + c.l3 * w t.2.2)| ≤ (|c.l1 * w t.1| + |c.l2 * w t.2.1| + |c.l3 * w t.2.2|) / 2 ^ 51) ∧
    (∀ x B : ℚ, 0 ≤ x → x ≤ 1 → |u e.1| ≤ B → |u e.2| ≤ B → |w e.1| ≤ B → |w e.2| ≤ B →
      ∃ a b, p1DeformationOnEdge (floatValues n u) (floatValues n w) e x = .ok ⟨[a, b]⟩ ∧
        |a - (x * u e.1 + (1 - x) * u e.2)| ≤ B / 2 ^ 51 ∧ |b - (x * w e.1 + (1 - x) * w e.2)| ≤ B / 2 ^ 51) := by
  refine ⟨fun c => ?_, fun x B h0 h1 b1 b2 b3 b4 => ?_⟩
  · obtain ⟨a, a1, a2, -⟩ := (C110_call (u := u) h).1 c
    obtain ⟨b, d1, d2, -⟩ := (C110_call (u := w) h).1 c
    exact ⟨a, b, by rw [p1DeformationCall, a1, d1]; rfl, a2, d2⟩
  · obtain ⟨a, a1, a2, -⟩ := (C110_on_edge (u := u) he).1 x B h0 h1 b1 b2
    obtain ⟨b, d1, d2, -⟩ := (C110_on_edge (u := w) he).1 x B h0 h1 b3 b4
    exact ⟨a, b, by rw [p1DeformationOnEdge, a1, d1]; rfl, a2, d2⟩

/-! ### gradients -/

/-- twice the area as computed by `transform_gradient` -/
def area2F (S : Summation) (x1 y1 x2 y2 x3 y3 : ℚ) : ℚ :=
  fl (2 * fl (S [fl (fl (x2 * y3) - fl (x3 * y2)), fl (fl (x3 * y1) - fl (x1 * y3)), fl (fl (x1 * y2) - fl (x2 * y1))] / 2))

theorem transformGradient_ok (S : Summation) {x1 y1 x2 y2 x3 y3 : ℚ} (h : area2F S x1 y1 x2 y2 x3 y3 ≠ 0) (f : Fin 3 → ℚ) :
    transformGradient S (⟨[x1, y1]⟩, ⟨[x2, y2]⟩, ⟨[x3, y3]⟩) ⟨[f 0, f 1, f 2]⟩ = .ok (vecOf fun i : Fin 2 =>
      S (List.ofFn fun j : Fin 3 => fl (fl ((!![fl (y2 - y3), fl (y3 - y1), fl (y1 - y2); fl (x3 - x2), fl (x1 - x3), fl (x2 - x1)] :
        Matrix (Fin 2) (Fin 3) ℚ) i j / area2F S x1 y1 x2 y2 x3 y3) * f j))) := by
  set E := area2F S x1 y1 x2 y2 x3 y3 with hE
  set B : Matrix (Fin 2) (Fin 3) ℚ := !![fl (y2 - y3), fl (y3 - y1), fl (y1 - y2); fl (x3 - x2), fl (x1 - x3), fl (x2 - x1)] with hB
  have e1 : transformGradient S (⟨[x1, y1]⟩, ⟨[x2, y2]⟩, ⟨[x3, y3]⟩) ⟨[f 0, f 1, f 2]⟩ = (do
      let m ← Mat.new [[fl (y2 - y3), fl (y3 - y1), fl (y1 - y2)], [fl (x3 - x2), fl (x1 - x3), fl (x2 - x1)]]
      let trafo ← M.truediv m E
      M.dot S trafo ⟨[f 0, f 1, f 2]⟩) := rfl
  have e2 : Mat.new [[fl (y2 - y3), fl (y3 - y1), fl (y1 - y2)], [fl (x3 - x2), fl (x1 - x3), fl (x2 - x1)]] = .ok (matOf B) := by
    simp [Mat.new, matOf, hB, List.ofFn_succ]
  have e3 : (⟨[f 0, f 1, f 2]⟩ : Vec ℚ) = vecOf f := by simp [vecOf, List.ofFn_succ]
  have e4 : M.truediv (matOf B) E = .ok (matOf (Matrix.of fun i j => fl (B i j / E))) := by
    have : pyMap (matOf B).data (fun row => pyMap row fun x => F64.pyDiv x E) =
        .ok (List.ofFn fun i => List.ofFn fun j => fl (B i j / E)) :=
      pyMap_ofFn _ _ fun i => pyMap_ofFn _ _ fun j => by rw [F64.pyDiv, if_neg h]
    rw [M.truediv, this]
    exact Mat.new_ofFn (Matrix.of fun i j => fl (B i j / E))
  rw [e1, e2, bind_ok, e4, bind_ok, e3, M.dot, if_neg (by simp), matOf_rows, matOf_cols]
  rw [pyMap_range_ofFn (fun i => S (List.ofFn fun k => fl (fl (B i k / E) * f k)))]
  · rfl
  · intro i
    rw [pyMap_range_ofFn (fun k => fl (fl (B i k / E) * f k))]
    · rfl
    · intro k; rw [matOf_at, bind_ok, getItem_vecOf]; rfl

theorem transformGradient_zero (S : Summation) {x1 y1 x2 y2 x3 y3 : ℚ} (h : area2F S x1 y1 x2 y2 x3 y3 = 0) (g : Vec ℚ) :
    transformGradient S (⟨[x1, y1]⟩, ⟨[x2, y2]⟩, ⟨[x3, y3]⟩) g = .error .zeroDivision := by
  have e1 : transformGradient S (⟨[x1, y1]⟩, ⟨[x2, y2]⟩, ⟨[x3, y3]⟩) g = (do
      let m ← Mat.new [[fl (y2 - y3), fl (y3 - y1), fl (y1 - y2)], [fl (x3 - x2), fl (x1 - x3), fl (x2 - x1)]]
      let trafo ← M.truediv m (area2F S x1 y1 x2 y2 x3 y3)
      M.dot S trafo g) := rfl
  rw [e1, h]
  rfl

/-- the computed area -/
theorem area2F_error {S : Summation} (hS : Accurate S) {x1 y1 x2 y2 x3 y3 M : ℚ} (hx1 : |x1| ≤ M) (hy1 : |y1| ≤ M) (hx2 : |x2| ≤ M)
    (hy2 : |y2| ≤ M) (hx3 : |x3| ≤ M) (hy3 : |y3| ≤ M) :
    |area2F S x1 y1 x2 y2 x3 y3 - ((x2 - x1) * (y3 - y1) - (y2 - y1) * (x3 - x1))| ≤ M ^ 2 / 2 ^ 47 := by
  have a1 := (((Ap.of hx2).mul (Ap.of hy3)).fl.sub ((Ap.of hx3).mul (Ap.of hy2)).fl).fl
  have a2 := (((Ap.of hx3).mul (Ap.of hy1)).fl.sub ((Ap.of hx1).mul (Ap.of hy3)).fl).fl
  have a3 := (((Ap.of hx1).mul (Ap.of hy2)).fl.sub ((Ap.of hx2).mul (Ap.of hy1)).fl).fl
  set a := fl (fl (x2 * y3) - fl (x3 * y2)) with ha
  set b := fl (fl (x3 * y1) - fl (x1 * y3)) with hb
  set c := fl (fl (x1 * y2) - fl (x2 * y1)) with hc
  have hs := hS [a, b, c] (by simp)
  simp only [List.length_cons, List.length_nil, List.sum_cons, List.sum_nil, List.map_cons, List.map_nil] at hs
  have hM : 0 ≤ M ^ 2 := sq_nonneg M
  have la := a1.le
  have lb := a2.le
  have lc := a3.le
  have s : Ap (S [a, b, c]) ((x2 - x1) * (y3 - y1) - (y2 - y1) * (x3 - x1)) (49 * M ^ 2 / 2 ^ 53) (6 * M ^ 2) := by
    have h3 := (a1.add a2).add a3
    have e : x2 * y3 - x3 * y2 + (x3 * y1 - x1 * y3) + (x1 * y2 - x2 * y1) = (x2 - x1) * (y3 - y1) - (y2 - y1) * (x3 - x1) := by ring
    rw [e] at h3
    refine ⟨?_, h3.2.trans (le_of_eq (by ring))⟩
    have t := abs_add_le (S [a, b, c] - (a + (b + (c + 0)))) ((a + b + c) - ((x2 - x1) * (y3 - y1) - (y2 - y1) * (x3 - x1)))
    rw [show S [a, b, c] - (a + (b + (c + 0))) + ((a + b + c) - ((x2 - x1) * (y3 - y1) - (y2 - y1) * (x3 - x1))) =
      S [a, b, c] - ((x2 - x1) * (y3 - y1) - (y2 - y1) * (x3 - x1)) by ring] at t
    refine t.trans ((add_le_add hs h3.1).trans ?_)
    ring_nf at *
    norm_num at *
    linarith
  have h2 : Ap (S [a, b, c] / 2) (((x2 - x1) * (y3 - y1) - (y2 - y1) * (x3 - x1)) / 2) (49 * M ^ 2 / 2 ^ 53 / 2) (3 * M ^ 2) := by
    constructor
    · rw [← sub_div, abs_div, abs_two]
      have := s.1
      linarith
    · rw [abs_div, abs_two]
      have := s.2
      linarith
  have h3 := (((Ap.of (x := 2) (B := 2) (by norm_num)).mul h2.fl).fl).1
  rw [show (2 : ℚ) * (((x2 - x1) * (y3 - y1) - (y2 - y1) * (x3 - x1)) / 2) = (x2 - x1) * (y3 - y1) - (y2 - y1) * (x3 - x1) by ring] at h3
  refine h3.trans ?_
  ring_nf
  norm_num
  linarith

/-- one component of the gradient -/
theorem component_error {S : Summation} (hS : Accurate S) {b f : Fin 3 → ℚ} {E E' δ : ℚ} (hE : |E' - E| ≤ δ) (hδ : 2 * δ ≤ |E|)
    (h0 : E ≠ 0) :
    |S (List.ofFn fun j : Fin 3 => fl (fl (fl (b j) / E') * f j)) - (∑ j, b j * f j) / E| ≤
      2 * δ / |E| * |(∑ j, b j * f j) / E| + (∑ j, |b j * f j|) / |E| / 2 ^ 48 := by
  have hEp : 0 < |E| := abs_pos.2 h0
  have hE2 : |E| / 2 ≤ |E'| := by
    have := abs_sub_abs_le_abs_sub E E'
    rw [abs_sub_comm] at this
    linarith
  have hE'p : 0 < |E'| := by linarith
  have hE'0 : E' ≠ 0 := abs_pos.1 hE'p
  have hterm : ∀ j, |fl (fl (fl (b j) / E') * f j) - b j / E' * f j| ≤ (7 / 2 ^ 54) * |b j / E' * f j| := by
    intro j
    have h1 : |fl (b j) / E' - b j / E'| ≤ |b j / E'| / 2 ^ 53 := by
      rw [← sub_div, abs_div, abs_div, div_right_comm]
      exact div_le_div_of_nonneg_right (fl_error (b j)) (abs_nonneg _)
    have h2 : Ap (fl (b j) / E') (b j / E') (|b j / E'| / 2 ^ 53) |b j / E'| := ⟨h1, le_rfl⟩
    have h3 := ((h2.fl.mul (Ap.of (le_refl |f j|))).fl).1
    refine h3.trans ?_
    rw [abs_mul (b j / E')]
    have : 0 ≤ |b j / E'| * |f j| := by positivity
    generalize |b j / E'| = X at this ⊢
    generalize |f j| = Y at this ⊢
    linarith
  have h := sum_terms hS (n := 3) (by norm_num) (by norm_num) hterm
  have e1 : ∑ j, b j / E' * f j = (∑ j, b j * f j) / E' := by
    rw [Finset.sum_div]; exact Finset.sum_congr rfl fun j _ => by ring
  have e2 : ∑ j, |b j / E' * f j| = (∑ j, |b j * f j|) / |E'| := by
    rw [Finset.sum_div]; exact Finset.sum_congr rfl fun j _ => by rw [← abs_div]; congr 1; ring
  rw [e1, e2] at h
  set G := ∑ j, b j * f j with hG
  set T := ∑ j, |b j * f j| with hT
  have hT0 : 0 ≤ T := Finset.sum_nonneg fun j _ => abs_nonneg _
  clear_value G T
  have h4 : T / |E'| ≤ 2 * (T / |E|) := by
    rw [← mul_div_assoc, div_le_div_iff₀ hE'p hEp]
    nlinarith
  have h5 : |G / E' - G / E| ≤ 2 * δ / |E| * |G / E| := by
    have e : G / E' - G / E = (E - E') / E' * (G / E) := by field_simp
    rw [e, abs_mul, abs_div]
    apply mul_le_mul_of_nonneg_right _ (abs_nonneg _)
    rw [div_le_div_iff₀ hE'p hEp, abs_sub_comm]
    have : 0 ≤ δ := (abs_nonneg _).trans hE
    nlinarith
  have t := abs_add_le (S (List.ofFn fun j : Fin 3 => fl (fl (fl (b j) / E') * f j)) - G / E') (G / E' - G / E)
  rw [sub_add_sub_cancel] at t
  refine t.trans ?_
  have hc : (((3 : ℕ) : ℚ) / 2 ^ 52 + 2 * (7 / 2 ^ 54)) = 13 / 2 ^ 53 := by norm_num
  rw [hc] at h
  have h6 : 13 / 2 ^ 53 * (T / |E'|) ≤ T / |E| / 2 ^ 48 := by
    have : 0 ≤ T / |E| := div_nonneg hT0 hEp.le
    refine (mul_le_mul_of_nonneg_left h4 (by norm_num)).trans ?_
    generalize T / |E| = Z at this ⊢
    linarith
  linarith

theorem triangleVertices_floatPlanar {n : ℕ} {P : ℕ → ℚ × ℚ} {grid : Grid ℚ} (hp : grid.points = floatPlanar n P) {t : Tri}
    (ht : t ∈ grid.triangles) (hv : t.Valid n) : grid.triangleVertices t =
      .ok (⟨[(P t.1).1, (P t.1).2]⟩, ⟨[(P t.2.1).1, (P t.2.1).2]⟩, ⟨[(P t.2.2).1, (P t.2.2).2]⟩) := by
  rw [Grid.triangleVertices, if_neg (not_not.2 ht), hp, pyGet_floatPlanar hv.1, pyGet_floatPlanar hv.2.1, pyGet_floatPlanar hv.2.2]
  rfl

theorem gradient_sums {p : Fin 3 → ℚ × ℚ} {f : Fin 3 → ℚ} {g : Fin 2 → ℚ} (h : IsGradient p f g) :
    g 0 * signedArea2 p = ((p 1).2 - (p 2).2) * f 0 + ((p 2).2 - (p 0).2) * f 1 + ((p 0).2 - (p 1).2) * f 2 ∧
    g 1 * signedArea2 p = ((p 2).1 - (p 1).1) * f 0 + ((p 0).1 - (p 2).1) * f 1 + ((p 1).1 - (p 0).1) * f 2 := by
  have h02 := h 0 2
  have h12 := h 1 2
  unfold signedArea2
  constructor
  · linear_combination -((p 1).2 - (p 2).2) * h02 - ((p 2).2 - (p 0).2) * h12
  · linear_combination -((p 2).1 - (p 1).1) * h02 - ((p 0).1 - (p 2).1) * h12

/-- **C110** (gradients). Let the coordinates of the corners of a triangle be at most `M` in absolute value, and let `M² / 2⁴⁶` be less
than twice its area `A`. Then the gradient is computed, and each component differs from that of the exact gradient `g` by at most
`(M² |gᵢ| + L U) / (2⁴⁶ · 2A)`, where `L` bounds the differences of the coordinates of the corners and `U` the values. -/
theorem C110_gradient {S : Summation} (hS : Accurate S) {n : ℕ} {P : ℕ → ℚ × ℚ} {u : ℕ → ℚ} {grid : Grid ℚ}
    (hp : grid.points = floatPlanar n P) {t : Tri} (ht : t ∈ grid.triangles) (hv : t.Valid n) {M L U : ℚ}
    (hM : ∀ i, |(Tri.of P t i).1| ≤ M ∧ |(Tri.of P t i).2| ≤ M)
    (hL : ∀ i j, |(Tri.of P t i).1 - (Tri.of P t j).1| ≤ L ∧ |(Tri.of P t i).2 - (Tri.of P t j).2| ≤ L)
    (hU : ∀ i, |Tri.of u t i| ≤ U) (hA : M ^ 2 / 2 ^ 46 < |signedArea2 (Tri.of P t)|) {g : Fin 2 → ℚ}
    (hg : IsGradient (Tri.of P t) (Tri.of u t) g) :
    ∃ g' : Fin 2 → ℚ, p1Gradient S grid (floatValues n u) t = .ok (vecOf g') ∧
      ∀ i, |g' i - g i| ≤ (M ^ 2 * |g i| + L * U) / (2 ^ 46 * |signedArea2 (Tri.of P t)|) := by
  obtain ⟨s0, s1⟩ := gradient_sums hg
  set p := Tri.of P t with hpd
  set f := Tri.of u t with hfd
  have hE := area2F_error hS (hM 0).1 (hM 0).2 (hM 1).1 (hM 1).2 (hM 2).1 (hM 2).2
  rw [show ((p 1).1 - (p 0).1) * ((p 2).2 - (p 0).2) - ((p 1).2 - (p 0).2) * ((p 2).1 - (p 0).1) = signedArea2 p from rfl] at hE
  set E := signedArea2 p with hEd
  set E' := area2F S (p 0).1 (p 0).2 (p 1).1 (p 1).2 (p 2).1 (p 2).2 with hE'd
  have hM2 : 0 ≤ M ^ 2 := sq_nonneg M
  have hEp : 0 < |E| := lt_of_le_of_lt (by positivity) hA
  have hE0 : E ≠ 0 := abs_pos.1 hEp
  have hδ : 2 * (M ^ 2 / 2 ^ 47) ≤ |E| := by
    refine le_trans (le_of_eq ?_) hA.le
    ring
  have hE'0 : E' ≠ 0 := by
    intro h
    rw [h, zero_sub, abs_neg] at hE
    have : M ^ 2 / 2 ^ 47 ≤ M ^ 2 / 2 ^ 46 := by gcongr <;> norm_num
    linarith
  refine ⟨fun i : Fin 2 => S (List.ofFn fun j : Fin 3 => fl (fl ((!![fl ((p 1).2 - (p 2).2), fl ((p 2).2 - (p 0).2), fl ((p 0).2 - (p 1).2);
      fl ((p 2).1 - (p 1).1), fl ((p 0).1 - (p 2).1), fl ((p 1).1 - (p 0).1)] : Matrix (Fin 2) (Fin 3) ℚ) i j / E') * f j)), ?_, ?_⟩
  · rw [p1Gradient, pyGet_floatValues hv.1, pyGet_floatValues hv.2.1, pyGet_floatValues hv.2.2, bind_ok, bind_ok, bind_ok,
      triangleVertices_floatPlanar hp ht hv, bind_ok]
    exact transformGradient_ok S hE'0 f
  · have hU0 : 0 ≤ U := (abs_nonneg _).trans (hU 0)
    have hL0 : 0 ≤ L := (abs_nonneg _).trans (hL 0 0).1
    have fin : ∀ (b : Fin 3 → ℚ) (gi : ℚ), gi * E = ∑ j, b j * f j → (∀ j, |b j| ≤ L) →
        |S (List.ofFn fun j : Fin 3 => fl (fl (fl (b j) / E') * f j)) - gi| ≤ (M ^ 2 * |gi| + L * U) / (2 ^ 46 * |E|) := by
      intro b gi hgi hb
      have h := component_error hS (b := b) (f := f) hE hδ hE0
      rw [← hgi, mul_div_cancel_right₀ _ hE0] at h
      refine h.trans ?_
      have hs : ∑ j, |b j * f j| ≤ 3 * (L * U) := by
        have : ∀ j, |b j * f j| ≤ L * U := fun j => by
          rw [abs_mul]; exact mul_le_mul (hb j) (hU j) (abs_nonneg _) hL0
        refine (Finset.sum_le_sum fun j _ => this j).trans ?_
        simp
      have hs0 : 0 ≤ L * U := mul_nonneg hL0 hU0
      have e : (M ^ 2 * |gi| + L * U) / (2 ^ 46 * |E|) = 2 * (M ^ 2 / 2 ^ 47) / |E| * |gi| + 4 * (L * U) / |E| / 2 ^ 48 := by
        have hne : |E| ≠ 0 := hEp.ne'
        clear_value E
        generalize |E| = X at hne ⊢
        generalize |gi| = Y
        field_simp
        ring
      rw [e]
      have : (∑ j, |b j * f j|) / |E| / 2 ^ 48 ≤ 4 * (L * U) / |E| / 2 ^ 48 := by gcongr; linarith
      linarith
    have f0 := fin ![(p 1).2 - (p 2).2, (p 2).2 - (p 0).2, (p 0).2 - (p 1).2] (g 0)
      (by rw [s0, Fin.sum_univ_three]; rfl) (fun j => by
        fin_cases j
        · exact (hL 1 2).2
        · exact (hL 2 0).2
        · exact (hL 0 1).2)
    have f1 := fin ![(p 2).1 - (p 1).1, (p 0).1 - (p 2).1, (p 1).1 - (p 0).1] (g 1)
      (by rw [s1, Fin.sum_univ_three]; rfl) (fun j => by
        fin_cases j
        · exact (hL 2 1).1
        · exact (hL 0 2).1
        · exact (hL 1 0).1)
    intro i
    fin_cases i
    · refine le_trans (le_of_eq ?_) f0
      simp [List.ofFn_succ]
    · refine le_trans (le_of_eq ?_) f1
      simp [List.ofFn_succ]

/-! ### gradients on grids of rectangles -/

/-- the computed position of a vertex -/
def floatPosition (nx : ℕ) (s : ℚ) (v : Vertex) : ℚ × ℚ := (fl ((v % (nx + 1) : ℕ) * s), fl ((v / (nx + 1) : ℕ) * s))

theorem gridNew_fields {v : List Vertex} {e : List Edge} {ts : List Tri} {b d n : Boundary} {pts : List (Vec ℚ)} {F : Grid ℚ}
    (h : F64.gridNew v e ts b d n pts = .ok F) : F.triangles = ts ∧ F.points = pts := by
  unfold F64.gridNew at h
  split at h
  · cases Except.ok.inj h; exact ⟨rfl, rfl⟩
  · cases hl : pyMap (_ :: _ : List Edge) (F64.edgeLength pts) with
    | error x => rw [hl] at h; cases h
    | ok l => rw [hl] at h; cases Except.ok.inj h; exact ⟨rfl, rfl⟩

theorem grid_fields {it : SetIter} {d : RectDomain ℚ} {s : ℚ} {nx ny : ℕ} (hw : F64.numCells d.width s = nx)
    (hh : F64.numCells d.height s = ny) {F : Grid ℚ} (hF : F64.grid it d s = .ok F) :
    F.triangles = RectGrid.triangles (nx + 1) (ny + 1) ∧ F.points = floatPlanar ((nx + 1) * (ny + 1)) (floatPosition nx s) := by
  unfold F64.grid at hF
  split_ifs at hF with h
  simp only [hw, hh, show ((nx : ℤ) + 1).toNat = nx + 1 by omega, show ((ny : ℤ) + 1).toNat = ny + 1 by omega] at hF
  cases ht : RectGrid.tagState it (nx + 1) (ny + 1) d.fix with
  | error x => rw [ht] at hF; cases hF
  | ok st =>
    rw [ht, bind_ok] at hF
    exact gridNew_fields hF

theorem pv_mod {nx i j : ℕ} (hi : i ≤ nx) : RectGrid.pv (nx + 1) i j % (nx + 1) = i := by
  unfold RectGrid.pv; rw [Nat.mul_add_mod']; exact Nat.mod_eq_of_lt (by omega)

theorem pv_div {nx i j : ℕ} (hi : i ≤ nx) : RectGrid.pv (nx + 1) i j / (nx + 1) = j := by
  unfold RectGrid.pv
  rw [Nat.mul_comm, Nat.mul_add_div (by omega), Nat.div_eq_of_lt (by omega), add_zero]

theorem pv_lt {nx ny i j : ℕ} (hi : i ≤ nx) (hj : j ≤ ny) : RectGrid.pv (nx + 1) i j < (nx + 1) * (ny + 1) := by
  unfold RectGrid.pv
  calc j * (nx + 1) + i < j * (nx + 1) + (nx + 1) := by omega
    _ = (nx + 1) * (j + 1) := by ring
    _ ≤ (nx + 1) * (ny + 1) := Nat.mul_le_mul_left _ (by omega)

/-- the three corners of a triangle of a grid, for exact and computed positions -/
theorem tri_corners {nx ny : ℕ} {t : Tri} (ht : t ∈ RectGrid.triangles (nx + 1) (ny + 1)) : t.Valid ((nx + 1) * (ny + 1)) ∧
    ∃ i j, i < nx ∧ j < ny ∧
      ((∀ φ : ℕ → ℚ, Tri.of (fun v : ℕ => (φ (v % (nx + 1)), φ (v / (nx + 1)))) t =
        ![(φ i, φ j), (φ (i + 1), φ j), (φ (i + 1), φ (j + 1))]) ∨
      ∀ φ : ℕ → ℚ, Tri.of (fun v : ℕ => (φ (v % (nx + 1)), φ (v / (nx + 1)))) t =
        ![(φ (i + 1), φ (j + 1)), (φ i, φ (j + 1)), (φ i, φ j)]) := by
  simp only [RectGrid.triangles, RectGrid.lowerTriangles, RectGrid.upperTriangles, List.mem_append, List.mem_flatMap,
    List.mem_map, List.mem_range, Nat.add_sub_cancel] at ht
  rcases ht with ⟨i, hi, j, hj, rfl⟩ | ⟨i, hi, j, hj, rfl⟩
  · refine ⟨⟨pv_lt hi.le hj.le, pv_lt hi hj.le, pv_lt hi hj⟩, i, j, hi, hj, .inl fun φ => ?_⟩
    funext k
    fin_cases k
    · simp [Tri.of, Tri.get, pv_mod hi.le, pv_div hi.le]
    · simp [Tri.of, Tri.get, pv_mod (show i + 1 ≤ nx from hi), pv_div (show i + 1 ≤ nx from hi)]
    · simp [Tri.of, Tri.get, pv_mod (show i + 1 ≤ nx from hi), pv_div (show i + 1 ≤ nx from hi)]
  · refine ⟨⟨pv_lt hi hj, pv_lt hi.le hj, pv_lt hi.le hj.le⟩, i, j, hi, hj, .inr fun φ => ?_⟩
    funext k
    fin_cases k
    · simp [Tri.of, Tri.get, pv_mod (show i + 1 ≤ nx from hi), pv_div (show i + 1 ≤ nx from hi)]
    · simp [Tri.of, Tri.get, pv_mod hi.le, pv_div hi.le]
    · simp [Tri.of, Tri.get, pv_mod hi.le, pv_div hi.le]

theorem coordinate_error {s : ℚ} (hs : 0 < s) {i K : ℕ} (hi : i ≤ K) : |fl (i * s) - i * s| ≤ K * s / 2 ^ 53 := by
  have h : (i : ℚ) ≤ K := by exact_mod_cast hi
  refine (fl_error _).trans ?_
  rw [abs_of_nonneg (by positivity)]
  gcongr

/-- the sizes of the computed cells -/
theorem cell_bounds {s : ℚ} (hs : 0 < s) {i K : ℕ} (hi : i < K) (hK : K ≤ 10 ^ 6) :
    |fl ((i + 1 : ℕ) * s) - fl (i * s) - s| ≤ K * s / 2 ^ 52 ∧ (K : ℚ) / 2 ^ 52 ≤ 1 / 2 ^ 30 ∧
      |fl ((i + 1 : ℕ) * s)| ≤ K * s * (1 + 1 / 2 ^ 53) ∧ |fl (i * s)| ≤ K * s * (1 + 1 / 2 ^ 53) := by
  have h1 := coordinate_error hs (i := i + 1) hi
  have h0 := coordinate_error hs (i := i) hi.le
  have hK' : (K : ℚ) ≤ 10 ^ 6 := by exact_mod_cast hK
  have b : ∀ k : ℕ, k ≤ K → |fl (k * s)| ≤ K * s * (1 + 1 / 2 ^ 53) := fun k hk =>
    fl_abs_le (by rw [abs_of_nonneg (by positivity)]; have : (k : ℚ) ≤ K := by exact_mod_cast hk
                  gcongr)
  refine ⟨?_, ?_, b _ hi, b _ hi.le⟩
  · rw [abs_le] at *
    push_cast at *
    constructor <;> nlinarith [h0.1, h0.2, h1.1, h1.2]
  · rw [div_le_div_iff₀ (by norm_num) (by norm_num)]
    refine (mul_le_mul_of_nonneg_right hK' (by norm_num)).trans (by norm_num)

theorem stretch_error {g s h η K : ℚ} (hs : 0 < s) (h1 : |h - s| ≤ K * s / 2 ^ 52) (h2 : K * s / 2 ^ 52 ≤ s / 2 ^ 30) :
    |g * s / h - g| ≤ K * |g| / 2 ^ 51 := by
  have hp : s / 2 ≤ h := by
    have := abs_le.1 h1
    linarith [this.1]
  have h0 : 0 < h := by linarith
  have e : g * s / h - g = g * ((s - h) / h) := by field_simp
  rw [e, abs_mul, abs_div, abs_of_pos h0, abs_sub_comm]
  have : |h - s| / h ≤ K / 2 ^ 51 := by
    rw [div_le_iff₀ h0]
    refine h1.trans ?_
    have hK : 0 ≤ K := by
      have := (abs_nonneg _).trans h1
      by_contra hc
      have : K * s < 0 := mul_neg_of_neg_of_pos (not_le.1 hc) hs
      linarith
    calc K * s / 2 ^ 52 = K / 2 ^ 51 * (s / 2) := by ring
      _ ≤ _ := by gcongr
  calc |g| * (|h - s| / h) ≤ |g| * (K / 2 ^ 51) := by gcongr
    _ = _ := by ring

/-- bounds for the computed corners of a triangle -/
theorem tri_bounds {nx ny K : ℕ} (hx : nx ≤ K) (hy : ny ≤ K) (hK : K ≤ 10 ^ 6) {s : ℚ} (hs : 0 < s) {t : Tri}
    (ht : t ∈ RectGrid.triangles (nx + 1) (ny + 1)) :
    (∀ i, |(Tri.of (floatPosition nx s) t i).1| ≤ K * s * (1 + 1 / 2 ^ 53) ∧
      |(Tri.of (floatPosition nx s) t i).2| ≤ K * s * (1 + 1 / 2 ^ 53)) ∧
    (∀ i j, |(Tri.of (floatPosition nx s) t i).1 - (Tri.of (floatPosition nx s) t j).1| ≤ s * (1 + 1 / 2 ^ 30) ∧
      |(Tri.of (floatPosition nx s) t i).2 - (Tri.of (floatPosition nx s) t j).2| ≤ s * (1 + 1 / 2 ^ 30)) ∧
    s ^ 2 * (1 - 1 / 2 ^ 28) ≤ signedArea2 (Tri.of (floatPosition nx s) t) ∧
    ∀ u : Fin 3 → ℚ, ∀ g, IsGradient (Tri.of (gridPosition nx s) t) u g → ∃ gF, IsGradient (Tri.of (floatPosition nx s) t) u gF ∧
      ∀ i, |gF i - g i| ≤ K * |g i| / 2 ^ 51 := by
  obtain ⟨-, i, j, hi, hj, hφ⟩ := tri_corners ht
  obtain ⟨cx, ck, bx1, bx0⟩ := cell_bounds hs (hi.trans_le hx) hK
  obtain ⟨cy, -, by1, by0⟩ := cell_bounds hs (hj.trans_le hy) hK
  have cK : K * s / 2 ^ 52 ≤ s / 2 ^ 30 := by
    have := mul_le_mul_of_nonneg_right ck hs.le
    calc K * s / 2 ^ 52 = K / 2 ^ 52 * s := by ring
      _ ≤ 1 / 2 ^ 30 * s := this
      _ = _ := by ring
  have eF : (fun v : ℕ => ((fun k : ℕ => fl (k * s)) (v % (nx + 1)), (fun k : ℕ => fl (k * s)) (v / (nx + 1)))) = floatPosition nx s := rfl
  have eE : (fun v : ℕ => ((fun k : ℕ => (k : ℚ) * s) (v % (nx + 1)), (fun k : ℕ => (k : ℚ) * s) (v / (nx + 1)))) = gridPosition nx s := rfl
  have hφ' : (Tri.of (floatPosition nx s) t = ![(fl ((i : ℕ) * s), fl ((j : ℕ) * s)), (fl ((i + 1 : ℕ) * s), fl ((j : ℕ) * s)),
        (fl ((i + 1 : ℕ) * s), fl ((j + 1 : ℕ) * s))] ∧
      Tri.of (gridPosition nx s) t = ![((i : ℕ) * s, (j : ℕ) * s), ((i + 1 : ℕ) * s, (j : ℕ) * s), ((i + 1 : ℕ) * s, (j + 1 : ℕ) * s)]) ∨
      (Tri.of (floatPosition nx s) t = ![(fl ((i + 1 : ℕ) * s), fl ((j + 1 : ℕ) * s)), (fl ((i : ℕ) * s), fl ((j + 1 : ℕ) * s)),
        (fl ((i : ℕ) * s), fl ((j : ℕ) * s))] ∧
      Tri.of (gridPosition nx s) t = ![((i + 1 : ℕ) * s, (j + 1 : ℕ) * s), ((i : ℕ) * s, (j + 1 : ℕ) * s), ((i : ℕ) * s, (j : ℕ) * s)]) := by
    rcases hφ with h | h
    · exact .inl ⟨eF ▸ h (fun k : ℕ => fl (k * s)), eE ▸ h (fun k : ℕ => (k : ℚ) * s)⟩
    · exact .inr ⟨eF ▸ h (fun k : ℕ => fl (k * s)), eE ▸ h (fun k : ℕ => (k : ℚ) * s)⟩
  clear hφ
  generalize fl (((i + 1 : ℕ) : ℚ) * s) = X1 at *
  generalize fl ((i : ℚ) * s) = X0 at *
  generalize fl (((j + 1 : ℕ) : ℚ) * s) = Y1 at *
  generalize fl ((j : ℚ) * s) = Y0 at *
  have ax := abs_le.1 (cx.trans cK)
  have ay := abs_le.1 (cy.trans cK)
  have hX : 0 < X1 - X0 := by linarith [ax.1]
  have hY : 0 < Y1 - Y0 := by linarith [ay.1]
  have lX : |X1 - X0| ≤ s * (1 + 1 / 2 ^ 30) := by rw [abs_of_pos hX]; linarith [ax.2]
  have lY : |Y1 - Y0| ≤ s * (1 + 1 / 2 ^ 30) := by rw [abs_of_pos hY]; linarith [ay.2]
  have lX' : |X0 - X1| ≤ s * (1 + 1 / 2 ^ 30) := by rw [abs_sub_comm]; exact lX
  have lY' : |Y0 - Y1| ≤ s * (1 + 1 / 2 ^ 30) := by rw [abs_sub_comm]; exact lY
  have l0 : (0 : ℚ) ≤ s * (1 + 1 / 2 ^ 30) := by positivity
  have area : s ^ 2 * (1 - 1 / 2 ^ 28) ≤ (X1 - X0) * (Y1 - Y0) := by
    have h1 : s * (1 - 1 / 2 ^ 30) ≤ X1 - X0 := by linarith [ax.1]
    have h2 : s * (1 - 1 / 2 ^ 30) ≤ Y1 - Y0 := by linarith [ay.1]
    have h3 : 0 ≤ s * (1 - 1 / 2 ^ 30) := mul_nonneg hs.le (by norm_num)
    refine le_trans ?_ (mul_le_mul h1 h2 h3 hX.le)
    rw [show s * (1 - 1 / 2 ^ 30) * (s * (1 - 1 / 2 ^ 30)) = s ^ 2 * ((1 - 1 / 2 ^ 30) * (1 - 1 / 2 ^ 30)) by ring]
    exact mul_le_mul_of_nonneg_left (by norm_num) (sq_nonneg s)
  have grads : ∀ g : Fin 2 → ℚ, ∀ i, |(![g 0 * s / (X1 - X0), g 1 * s / (Y1 - Y0)] : Fin 2 → ℚ) i - g i| ≤ K * |g i| / 2 ^ 51 := by
    intro g i
    fin_cases i
    · exact stretch_error (η := 0) hs cx cK
    · exact stretch_error (η := 0) hs cy cK
  rcases hφ' with ⟨hF, hE⟩ | ⟨hF, hE⟩
  all_goals
    rw [hF, hE]
    refine ⟨?_, ?_, ?_, fun u g hg => ⟨![g 0 * s / (X1 - X0), g 1 * s / (Y1 - Y0)], ?_, grads g⟩⟩
    · intro k
      fin_cases k
      all_goals constructor <;> simp only [Matrix.cons_val, Matrix.cons_val_zero, Matrix.cons_val_one, Fin.zero_eta, Fin.mk_one, Fin.reduceFinMk] <;> assumption
    · intro k l
      fin_cases k <;> fin_cases l
      all_goals constructor <;> simp only [Matrix.cons_val, Matrix.cons_val_zero, Matrix.cons_val_one, Fin.zero_eta, Fin.mk_one, Fin.reduceFinMk, sub_self, abs_zero] <;> assumption
    · refine area.trans (le_of_eq ?_)
      simp [signedArea2]
      try ring
    · have h01 := hg 0 1
      have h12 := hg 1 2
      simp only [Matrix.cons_val, Matrix.cons_val_zero, Matrix.cons_val_one] at h01 h12
      push_cast at h01 h12
      have ex : g 0 * s / (X1 - X0) * (X1 - X0) = g 0 * s := div_mul_cancel₀ _ hX.ne'
      have ey : g 1 * s / (Y1 - Y0) * (Y1 - Y0) = g 1 * s := div_mul_cancel₀ _ hY.ne'
      generalize g 0 * s / (X1 - X0) = G0 at ex ⊢
      generalize g 1 * s / (Y1 - Y0) = G1 at ey ⊢
      intro k l
      fin_cases k <;> fin_cases l
      all_goals
        simp only [Matrix.cons_val, Matrix.cons_val_zero, Matrix.cons_val_one, Fin.zero_eta, Fin.mk_one, Fin.reduceFinMk]
        first
        | ring1
        | linarith

theorem final_bound {K s a U E : ℚ} (hs : 0 < s) (ha : 0 ≤ a) (hU : 0 ≤ U) (hE : s ^ 2 * (1 - 1 / 2 ^ 28) ≤ E) :
    ((K * s * (1 + 1 / 2 ^ 53)) ^ 2 * a + s * (1 + 1 / 2 ^ 30) * U) / (2 ^ 46 * E) ≤ (K ^ 2 * a + U / s) * (1 + 1 / 2 ^ 20) / 2 ^ 46 := by
  have hs2 : 0 < s ^ 2 := by positivity
  have hE0 : 0 < E := lt_of_lt_of_le (mul_pos hs2 (by norm_num)) hE
  rw [div_le_iff₀ (by positivity)]
  have h0 : 0 ≤ (K ^ 2 * a + U / s) * (1 + 1 / 2 ^ 20) := by positivity
  have e : (K ^ 2 * a + U / s) * (1 + 1 / 2 ^ 20) / 2 ^ 46 * (2 ^ 46 * E) = (K ^ 2 * a + U / s) * (1 + 1 / 2 ^ 20) * E := by
    field_simp
  rw [e]
  refine le_trans ?_ (mul_le_mul_of_nonneg_left hE h0)
  have e2 : (K ^ 2 * a + U / s) * (1 + 1 / 2 ^ 20) * (s ^ 2 * (1 - 1 / 2 ^ 28)) =
      (K ^ 2 * s ^ 2 * a) * ((1 + 1 / 2 ^ 20) * (1 - 1 / 2 ^ 28)) + (s * U) * ((1 + 1 / 2 ^ 20) * (1 - 1 / 2 ^ 28)) := by
    have : s ≠ 0 := hs.ne'
    field_simp
  have e1 : (K * s * (1 + 1 / 2 ^ 53)) ^ 2 * a + s * (1 + 1 / 2 ^ 30) * U =
      (K ^ 2 * s ^ 2 * a) * (1 + 1 / 2 ^ 53) ^ 2 + (s * U) * (1 + 1 / 2 ^ 30) := by ring
  rw [e1, e2]
  have h1 : 0 ≤ K ^ 2 * s ^ 2 * a := by positivity
  have h2 : 0 ≤ s * U := by positivity
  exact add_le_add (mul_le_mul_of_nonneg_left (by norm_num) h1) (mul_le_mul_of_nonneg_left (by norm_num) h2)

theorem area_condition {K : ℕ} (hK : K ≤ 10 ^ 6) {s E : ℚ} (hs : 0 < s) (hE : s ^ 2 * (1 - 1 / 2 ^ 28) ≤ E) :
    ((K : ℚ) * s * (1 + 1 / 2 ^ 53)) ^ 2 / 2 ^ 46 < |E| := by
  have hs2 : 0 < s ^ 2 := by positivity
  have hK' : (K : ℚ) ≤ 10 ^ 6 := by exact_mod_cast hK
  have hK2 : (K : ℚ) ^ 2 ≤ (10 ^ 6) ^ 2 := by gcongr
  refine lt_of_lt_of_le ?_ (hE.trans (le_abs_self E))
  rw [show ((K : ℚ) * s * (1 + 1 / 2 ^ 53)) ^ 2 / 2 ^ 46 = s ^ 2 * ((K : ℚ) ^ 2 * ((1 + 1 / 2 ^ 53) ^ 2 / 2 ^ 46)) by ring]
  refine mul_lt_mul_of_pos_left ?_ hs2
  refine lt_of_le_of_lt (mul_le_mul_of_nonneg_right hK2 (by norm_num)) (by norm_num)

/-- **C110** (gradients on grids). On the grid of a rectangle with at most `K ≤ 10⁶` cells per direction, the gradient of the interpolation
is computed in every triangle, and each component differs from that of the exact gradient `g` of the interpolation on the exact grid by at
most `(K² |gᵢ| + U / s) / 2⁴⁵`, where `U` bounds the absolute values at the corners and `s` is the size of the cells. -/
theorem C110_gradient_grid {S : Summation} (hS : Accurate S) {it : SetIter} {d : RectDomain ℚ} {s : ℚ} (hs : 0 < s) {nx ny K : ℕ}
    (hw : F64.numCells d.width s = nx) (hh : F64.numCells d.height s = ny) (hx : nx ≤ K) (hy : ny ≤ K) (hK : K ≤ 10 ^ 6)
    {F : Grid ℚ} (hF : F64.grid it d s = .ok F) {t : Tri} (ht : t ∈ F.triangles) {u : ℕ → ℚ} {U : ℚ} (hU : ∀ i, |Tri.of u t i| ≤ U)
    {g : Fin 2 → ℚ} (hg : IsGradient (Tri.of (gridPosition nx s) t) (Tri.of u t) g) :
    ∃ g' : Fin 2 → ℚ, p1Gradient S F (floatValues ((nx + 1) * (ny + 1)) u) t = .ok (vecOf g') ∧
      ∀ i, |g' i - g i| ≤ (K ^ 2 * |g i| + U / s) / 2 ^ 45 := by
  obtain ⟨ft, fp⟩ := grid_fields hw hh hF
  have ht' := ht
  rw [ft] at ht'
  obtain ⟨bM, bL, bE, bg⟩ := tri_bounds hx hy hK hs ht'
  obtain ⟨gF, hgF, hd⟩ := bg _ g hg
  obtain ⟨hv, i0, j0, hi0, -, -⟩ := tri_corners ht'
  have hK1 : (1 : ℚ) ≤ K := by
    have : 1 ≤ K := by omega
    exact_mod_cast this
  have hK' : (K : ℚ) ≤ 10 ^ 6 := by exact_mod_cast hK
  obtain ⟨g', h1, h2⟩ := C110_gradient hS fp ht hv bM bL hU (area_condition hK hs bE) hgF
  refine ⟨g', h1, fun i => ?_⟩
  have hU0 : 0 ≤ U := (abs_nonneg _).trans (hU 0)
  have hEpos : 0 ≤ signedArea2 (Tri.of (floatPosition nx s) t) :=
    le_trans (mul_nonneg (sq_nonneg s) (by norm_num)) bE
  have h3 := h2 i
  rw [abs_of_nonneg hEpos] at h3
  have h4 := h3.trans (final_bound hs (abs_nonneg _) hU0 bE)
  have h5 := hd i
  have ha : |gF i| ≤ |g i| * (1 + 1 / 2 ^ 20) := by
    have t1 := abs_add_le (gF i - g i) (g i)
    rw [sub_add_cancel] at t1
    have : (K : ℚ) * |g i| / 2 ^ 51 ≤ |g i| * (1 / 2 ^ 20) := by
      calc (K : ℚ) * |g i| / 2 ^ 51 = |g i| * (K / 2 ^ 51) := by ring
        _ ≤ |g i| * (10 ^ 6 / 2 ^ 51) := by gcongr
        _ ≤ _ := mul_le_mul_of_nonneg_left (by norm_num) (abs_nonneg _)
    linarith
  have hsq : (K : ℚ) ≤ (K : ℚ) ^ 2 := by nlinarith
  have hUs : 0 ≤ U / s := by positivity
  have t1 := abs_add_le (g' i - gF i) (gF i - g i)
  rw [sub_add_sub_cancel] at t1
  have hG := abs_nonneg (g i)
  have h6 : (K : ℚ) * |g i| / 2 ^ 51 ≤ (K : ℚ) ^ 2 * |g i| / 2 ^ 51 := by gcongr
  have h7 : (K : ℚ) ^ 2 * |gF i| ≤ (K : ℚ) ^ 2 * |g i| * (1 + 1 / 2 ^ 20) := by
    rw [mul_assoc]; gcongr
  have hKG : 0 ≤ (K : ℚ) ^ 2 * |g i| := by positivity
  generalize (K : ℚ) ^ 2 * |gF i| = x at *
  generalize (K : ℚ) ^ 2 * |g i| = y at *
  generalize U / s = z at *
  norm_num at *
  linarith

theorem coordinates_floatPlanar {n : ℕ} {P : ℕ → ℚ × ℚ} {F : Grid ℚ} (hp : F.points = floatPlanar n P) :
    F.coordinates 0 = floatValues n (fun v => (P v).1) ∧ F.coordinates 1 = floatValues n (fun v => (P v).2) := by
  simp only [Grid.coordinates, hp, floatPlanar, floatValues, List.map_map]
  exact ⟨rfl, rfl⟩

/-- **C110** (undeformed bodies). On the grid of a rectangle with at most `K ≤ 10⁶` cells per direction, the strain of the undeformed body,
whose deformation takes the coordinates of the vertices as values, differs from the identity by at most `K² / 2⁴⁴` in every entry. -/
theorem C110_undeformed {S : Summation} (hS : Accurate S) {it : SetIter} {d : RectDomain ℚ} {s : ℚ} (hs : 0 < s) {nx ny K : ℕ}
    (hw : F64.numCells d.width s = nx) (hh : F64.numCells d.height s = ny) (hx : nx ≤ K) (hy : ny ≤ K) (hK : K ≤ 10 ^ 6)
    {F : Grid ℚ} (hF : F64.grid it d s = .ok F) {t : Tri} (ht : t ∈ F.triangles) :
    ∃ A : Matrix (Fin 2) (Fin 2) ℚ, p1Strain S F (F.coordinates 0) (F.coordinates 1) t = .ok (matOf A) ∧
      ∀ i j, |A i j - (1 : Matrix (Fin 2) (Fin 2) ℚ) i j| ≤ K ^ 2 / 2 ^ 44 := by
  obtain ⟨ft, fp⟩ := grid_fields hw hh hF
  have ht' := ht
  rw [ft] at ht'
  obtain ⟨bM, bL, bE, -⟩ := tri_bounds hx hy hK hs ht'
  obtain ⟨hv, i0, j0, hi0, -, -⟩ := tri_corners ht'
  have hK1 : (1 : ℚ) ≤ K := by
    have : 1 ≤ K := by omega
    exact_mod_cast this
  have hEpos : 0 ≤ signedArea2 (Tri.of (floatPosition nx s) t) :=
    le_trans (mul_nonneg (sq_nonneg s) (by norm_num)) bE
  have hU0 : 0 ≤ (K : ℚ) * s * (1 + 1 / 2 ^ 53) := by positivity
  obtain ⟨a, a1, a2⟩ := C110_gradient hS fp ht hv bM bL (u := fun v => (floatPosition nx s v).1) (fun i => (bM i).1)
    (area_condition hK hs bE) (g := ![1, 0]) (fun i j => by simp [Tri.of])
  obtain ⟨b, b1, b2⟩ := C110_gradient hS fp ht hv bM bL (u := fun v => (floatPosition nx s v).2) (fun i => (bM i).2)
    (area_condition hK hs bE) (g := ![0, 1]) (fun i j => by simp [Tri.of])
  have key : ∀ x y : ℚ, |y| ≤ 1 → |x - y| ≤ (((K : ℚ) * s * (1 + 1 / 2 ^ 53)) ^ 2 * |y| +
      s * (1 + 1 / 2 ^ 30) * (K * s * (1 + 1 / 2 ^ 53))) / (2 ^ 46 * |signedArea2 (Tri.of (floatPosition nx s) t)|) →
      |x - y| ≤ K ^ 2 / 2 ^ 44 := by
    intro x y hy h
    rw [abs_of_nonneg hEpos] at h
    refine h.trans ((final_bound hs (abs_nonneg _) hU0 bE).trans ?_)
    have e : (K : ℚ) * s * (1 + 1 / 2 ^ 53) / s = K * (1 + 1 / 2 ^ 53) := by
      have : s ≠ 0 := hs.ne'
      field_simp
    rw [e]
    have h1 : (K : ℚ) ^ 2 * |y| ≤ (K : ℚ) ^ 2 * 1 := by gcongr
    have h2 : (K : ℚ) ≤ (K : ℚ) ^ 2 := by nlinarith
    norm_num at *
    linarith
  obtain ⟨cx, cy⟩ := coordinates_floatPlanar fp
  refine ⟨!![a 0, a 1; b 0, b 1], ?_, ?_⟩
  · rw [p1Strain, cx, cy, a1, b1, bind_ok, bind_ok]
    simp [Vec.stack, Vec.size, Mat.new, matOf, vecOf, List.ofFn_succ]
  · intro i j
    fin_cases i <;> fin_cases j
    · exact key _ _ (by norm_num) (a2 0)
    · exact key _ _ (by norm_num) (a2 1)
    · exact key _ _ (by norm_num) (b2 0)
    · exact key _ _ (by norm_num) (b2 1)

/-- Summation from left to right cancels. -/
theorem C110_cancels : Cancels sum311 := by
  intro x hx
  constructor
  · simp only [sum311, List.foldl, zero_add, fl_double hx, add_neg_cancel, fl_zero, add_zero]
  · simp only [sum311, List.foldl, zero_add, fl_zero, fl_double hx, add_neg_cancel]

/-- **C110** (constants). On the grid of a rectangle, constant functions have gradients that are exactly zero; in particular uniform
temperatures cause no flow of heat. -/
theorem C110_constant {S : Summation} (hS : Accurate S) (hC : Cancels S) {it : SetIter} {d : RectDomain ℚ} {s : ℚ} (hs : 0 < s)
    {nx ny K : ℕ} (hw : F64.numCells d.width s = nx) (hh : F64.numCells d.height s = ny) (hx : nx ≤ K) (hy : ny ≤ K) (hK : K ≤ 10 ^ 6)
    {F : Grid ℚ} (hF : F64.grid it d s = .ok F) {t : Tri} (ht : t ∈ F.triangles) (c : ℚ) :
    p1Gradient S F (floatValues ((nx + 1) * (ny + 1)) fun _ => c) t = .ok (vecOf ![0, 0]) := by
  obtain ⟨ft, fp⟩ := grid_fields hw hh hF
  have ht' := ht
  rw [ft] at ht'
  obtain ⟨bM, bL, bE, -⟩ := tri_bounds hx hy hK hs ht'
  obtain ⟨hv, i, j, hi, hj, hφ⟩ := tri_corners ht'
  have hE := area2F_error hS (bM 0).1 (bM 0).2 (bM 1).1 (bM 1).2 (bM 2).1 (bM 2).2
  have hA := area_condition hK hs bE
  have hE0 : area2F S (Tri.of (floatPosition nx s) t 0).1 (Tri.of (floatPosition nx s) t 0).2 (Tri.of (floatPosition nx s) t 1).1
      (Tri.of (floatPosition nx s) t 1).2 (Tri.of (floatPosition nx s) t 2).1 (Tri.of (floatPosition nx s) t 2).2 ≠ 0 := by
    intro h
    rw [h, zero_sub, abs_neg] at hE
    change |signedArea2 (Tri.of (floatPosition nx s) t)| ≤ _ at hE
    have h0 : 0 ≤ ((K : ℚ) * s * (1 + 1 / 2 ^ 53)) ^ 2 := sq_nonneg _
    have : ((K : ℚ) * s * (1 + 1 / 2 ^ 53)) ^ 2 / 2 ^ 47 ≤ ((K : ℚ) * s * (1 + 1 / 2 ^ 53)) ^ 2 / 2 ^ 46 := by gcongr <;> norm_num
    linarith
  have h := transformGradient_ok S hE0 (fun _ => c)
  rw [p1Gradient, pyGet_floatValues hv.1, pyGet_floatValues hv.2.1, pyGet_floatValues hv.2.2, bind_ok, bind_ok, bind_ok,
    triangleVertices_floatPlanar fp ht hv, bind_ok]
  refine Eq.trans h ?_
  congr 1
  have flneg : ∀ x y E : ℚ, fl (fl (fl (x - y) / E) * c) = -fl (fl (fl (y - x) / E) * c) := by
    intro x y E
    rw [← neg_sub y x, fl_neg, neg_div, fl_neg, neg_mul, fl_neg]
  have z0 : ∀ E : ℚ, fl (fl (fl 0 / E) * c) = 0 := fun E => by rw [fl_zero, zero_div, fl_zero, zero_mul, fl_zero]
  have cancel1 : ∀ a b E : ℚ, S [fl (fl (fl (a - b) / E) * c), fl (fl (fl (b - a) / E) * c), 0] = 0 := fun a b E => by
    rw [flneg b a]; exact (hC _ (isDouble_fl _)).1
  have cancel2 : ∀ a b E : ℚ, S [0, fl (fl (fl (a - b) / E) * c), fl (fl (fl (b - a) / E) * c)] = 0 := fun a b E => by
    rw [flneg b a]; exact (hC _ (isDouble_fl _)).2
  have eF : (fun v : ℕ => ((fun k : ℕ => fl (k * s)) (v % (nx + 1)), (fun k : ℕ => fl (k * s)) (v / (nx + 1)))) = floatPosition nx s := rfl
  congr 1
  funext k
  rcases hφ with hφ | hφ
  all_goals
    have hT : Tri.of (floatPosition nx s) t = _ := eF ▸ hφ (fun k : ℕ => fl (k * s))
    generalize area2F S (Tri.of (floatPosition nx s) t 0).1 (Tri.of (floatPosition nx s) t 0).2 (Tri.of (floatPosition nx s) t 1).1
      (Tri.of (floatPosition nx s) t 1).2 (Tri.of (floatPosition nx s) t 2).1 (Tri.of (floatPosition nx s) t 2).2 = E
    rw [hT]
    fin_cases k
  · simpa [List.ofFn_succ, z0] using cancel1 _ _ _
  · simpa [List.ofFn_succ, z0] using cancel2 _ _ _
  · simpa [List.ofFn_succ, z0] using cancel1 _ _ _
  · simpa [List.ofFn_succ, z0] using cancel2 _ _ _

/-- the triangle with the right angle at `(a, a)` and legs of length 1 -/
def cornerTriangle (a : ℚ) : Grid ℚ :=
  ⟨[0, 1, 2], [(0, 1), (1, 2), (0, 2)], [(0, 1, 2)], ⟨[], []⟩, ⟨[], []⟩, ⟨[], []⟩, [⟨[a, a]⟩, ⟨[a + 1, a]⟩, ⟨[a, a + 1]⟩], none⟩

/-- **C110** (far from the origin). The condition on the area is needed, since the area is computed from products of the absolute
coordinates: for the triangle with legs of length 1 at `(2²⁷, 2²⁷)` all gradients raise `ZeroDivisionError`, and two units further on the
gradient of the function `x` points in the wrong direction. -/
theorem C110_far_triangle : signedArea2 (fun i => ![((2 : ℚ) ^ 27, (2 : ℚ) ^ 27), (2 ^ 27 + 1, 2 ^ 27), (2 ^ 27, 2 ^ 27 + 1)] i) = 1 ∧
    p1Gradient sum311 (cornerTriangle (2 ^ 27)) [0, 1, 0] (0, 1, 2) = .error .zeroDivision ∧
    p1Gradient sum311 (cornerTriangle (2 ^ 27 + 2)) [0, 1, 0] (0, 1, 2) = .ok ⟨[-1 / 4, 0]⟩ := by
  refine ⟨by simp [signedArea2], by decide +kernel, by decide +kernel⟩

/-! ### concrete cases -/

example : ∃ v, p1OnEdge [1, 3] (0, 1) (1 / 4) = .ok v ∧ |v - (1 / 4 * 1 + (1 - 1 / 4) * 3)| ≤ 3 / 2 ^ 51 := by
  obtain ⟨v, h1, h2, -⟩ := (C110_on_edge (n := 2) (u := fun v => if v = 0 then 1 else 3) (e := (0, 1)) (by decide)).1 (1 / 4) 3
    (by norm_num) (by norm_num) (by norm_num) (by norm_num)
  refine ⟨v, ?_, by simpa using h2⟩
  rw [← h1]
  rfl

example (it : SetIter) : ∃ F, F64.grid it ⟨1, 1, .none⟩ (1 / 2) = .ok F ∧ F.triangles ≠ [] ∧ ∀ t ∈ F.triangles,
    ∃ A : Matrix (Fin 2) (Fin 2) ℚ, p1Strain sum311 F (F.coordinates 0) (F.coordinates 1) t = .ok (matOf A) ∧
      ∀ i j, |A i j - (1 : Matrix (Fin 2) (Fin 2) ℚ) i j| ≤ 4 / 2 ^ 44 := by
  have hw : F64.numCells 1 (1 / 2) = (2 : ℕ) := by decide +kernel
  obtain ⟨G, F, -, hF, -, -, -⟩ := C87_grid it (d := ⟨1, 1, .none⟩) (s := 1 / 2) (m := 2) (by norm_num) hw hw (by norm_num) (by norm_num)
    le_rfl le_rfl (by norm_num)
  refine ⟨F, hF, ?_, fun t ht => ?_⟩
  · rw [(grid_fields hw hw hF).1]
    decide
  · obtain ⟨A, h1, h2⟩ := C110_undeformed C108_sum (by norm_num) hw hw le_rfl le_rfl (by norm_num) hF ht
    exact ⟨A, h1, fun i j => (h2 i j).trans (by norm_num)⟩

end Tve
