import Verif.Lemmas.Integrators
import Verif.Props.Quadrature
import Verif.Props.Tensors

/-!
# Properties C32, C33: integrators

`planar n P` is the Python list of the points `P 0 … P (n-1)` of the plane; a mesh is a list of triangles with valid
vertex ids, of arbitrary shape and orientation (degenerate triangles included).
-/

namespace Tve
open MeasureTheory

/-! ## C32 -/

/-- The integrator of a valid mesh is constructed and evaluates total integrands to the weighted sum. -/
theorem C32_value (r : TriRule ℝ) (n : ℕ) (P : ℕ → ℝ × ℝ) (ts : List Tri) (h : ∀ t ∈ ts, t.Valid n) :
    ∃ I, Integrator.new r ts (planar n P) = .ok I ∧ ∀ f : Tri → Bary ℝ → ℝ,
      I.call (fun t b => .ok (f t b)) =
        .ok ((ts.map fun t => triArea P t * ((r.points.zip r.weights).map (fun bw => bw.2 * f t bw.1)).sum).sum) :=
  ⟨_, integrator_new_ok r h, fun f => integrator_call_ok f (fun _ _ _ _ => rfl)⟩

/-- A vertex id outside the point list raises `IndexError`. -/
theorem C32_invalid (r : TriRule ℝ) (n : ℕ) (P : ℕ → ℝ × ℝ) (t : Tri) (ts : List Tri) (h : ¬ t.Valid n) :
    Integrator.new r (t :: ts) (planar n P) = .error .indexError := by
  have h1 : ∀ i, ¬ i < n → pyGet (planar n P) i = .error .indexError := by
    intro i hi; exact pyGet_err (by simpa [planar] using hi)
  have : triangleArea (planar n P) t = .error .indexError := by
    rw [triangleArea]
    by_cases a : t.1 < n
    · rw [pyGet_planar a, bind_ok]
      by_cases b : t.2.1 < n
      · rw [pyGet_planar b, bind_ok]
        by_cases c : t.2.2 < n
        · exact absurd ⟨a, b, c⟩ h
        · rw [h1 _ c, bind_err]
      · rw [h1 _ b, bind_err]
    · rw [h1 _ a, bind_err]
  rw [Integrator.new, pyMap_cons, this]; rfl

/-- vertex 7 of a grid with 4 points does not exist -/
example (r : TriRule ℝ) (P : ℕ → ℝ × ℝ) : Integrator.new r [(0, 1, 7), (0, 1, 2)] (planar 4 P) = .error .indexError :=
  C32_invalid r 4 P _ _ (by simp [Tri.Valid])

/-- linearity in the integrand -/
theorem C32_linear (r : TriRule ℝ) (n : ℕ) (P : ℕ → ℝ × ℝ) (ts : List Tri) (h : ∀ t ∈ ts, t.Valid n) :
    ∃ I, Integrator.new r ts (planar n P) = .ok I ∧ ∀ (f g : Tri → Bary ℝ → ℝ) (α β : ℝ),
      ∃ vf vg, I.call (fun t b => .ok (f t b)) = .ok vf ∧ I.call (fun t b => .ok (g t b)) = .ok vg ∧
        I.call (fun t b => .ok (α * f t b + β * g t b)) = .ok (α * vf + β * vg) := by
  obtain ⟨I, hI, hv⟩ := C32_value r n P ts h
  refine ⟨I, hI, fun f g α β => ⟨_, _, hv f, hv g, ?_⟩⟩
  rw [hv]
  congr 1
  have key : ∀ (l : List (Bary ℝ × ℝ)) (t : Tri), (l.map (fun bw => bw.2 * (α * f t bw.1 + β * g t bw.1))).sum =
      α * (l.map (fun bw => bw.2 * f t bw.1)).sum + β * (l.map (fun bw => bw.2 * g t bw.1)).sum := by
    intro l t
    induction l with
    | nil => simp
    | cons a l ih => simp only [List.map_cons, List.sum_cons, ih]; ring
  simp only [key]
  clear hv hI h
  induction ts with
  | nil => simp
  | cons a l ih => simp only [List.map_cons, List.sum_cons, ih]; ring

/-- `f = 1` gives the total area times the sum of the weights (which the constructor keeps within `1e-9` of one;
it is exactly one for `CENTROID`, `VERTEX`, `DUNAVANT2`, `DUNAVANT3`). -/
theorem C32_area (r : TriRule ℝ) (hlen : r.points.length = r.weights.length)
    (n : ℕ) (P : ℕ → ℝ × ℝ) (ts : List Tri) (h : ∀ t ∈ ts, t.Valid n) :
    ∃ I, Integrator.new r ts (planar n P) = .ok I ∧
      I.call (fun _ _ => .ok 1) = .ok (r.weights.sum * (ts.map (triArea P)).sum) ∧
      (r.weights.sum = 1 → I.call (fun _ _ => .ok 1) = .ok (ts.map (triArea P)).sum) := by
  obtain ⟨I, hI, hv⟩ := C32_value r n P ts h
  have h1 : (r.points.zip r.weights).map (fun bw => bw.2 * 1) = r.weights := by
    simp only [mul_one]; exact List.map_snd_zip (by omega)
  have h2 : I.call (fun _ _ => .ok 1) = .ok (r.weights.sum * (ts.map (triArea P)).sum) := by
    rw [hv, h1, ← List.sum_map_mul_left]
    congr 3
    funext t; ring
  refine ⟨I, hI, h2, fun hw => ?_⟩
  rw [h2, hw, one_mul]

/-- `triArea` is the Lebesgue measure of the closed triangle. -/
theorem C32_area_is_measure (P : ℕ → ℝ × ℝ) (t : Tri) :
    triArea P t = ∫ _z in closedTriangle (P t.1) (P t.2.1) (P t.2.2), (1 : ℝ) := by
  rw [integral_closedTriangle]
  have := setIntegral_unitTri (fun _ _ => 1) continuous_const
  have h2 : unitTriangleIntegral (fun _ _ => 1) = 1 / 2 := by
    have := moment 0 0; simpa using this
  rw [this, h2, triArea]; ring

/-- monotone for nonnegative weights -/
theorem C32_mono (r : TriRule ℝ) (hw : ∀ w ∈ r.weights, 0 ≤ w) (n : ℕ) (P : ℕ → ℝ × ℝ) (ts : List Tri)
    (h : ∀ t ∈ ts, t.Valid n) :
    ∃ I, Integrator.new r ts (planar n P) = .ok I ∧ ∀ f g : Tri → Bary ℝ → ℝ,
      (∀ t ∈ ts, ∀ b ∈ r.points, f t b ≤ g t b) →
      ∃ vf vg, I.call (fun t b => .ok (f t b)) = .ok vf ∧ I.call (fun t b => .ok (g t b)) = .ok vg ∧ vf ≤ vg := by
  obtain ⟨I, hI, hv⟩ := C32_value r n P ts h
  refine ⟨I, hI, fun f g hfg => ⟨_, _, hv f, hv g, ?_⟩⟩
  apply List.sum_le_sum
  intro t ht
  have ha : 0 ≤ triArea P t := by rw [triArea]; positivity
  refine mul_le_mul_of_nonneg_left (List.sum_le_sum ?_) ha
  intro bw hbw
  have hm := List.of_mem_zip (a := bw.1) (b := bw.2) hbw
  exact mul_le_mul_of_nonneg_left (hfg t ht _ hm.1) (hw _ hm.2)

/-- If the rule is exact up to degree `d` and the integrand is, on each triangle `t`, a polynomial `F t` of degree
at most `d` evaluated at the Euclidean point with the given barycentric coordinates, then the integrator returns the
sum of the integrals over the closed triangles. -/
theorem C32_exact (r : TriRule ℝ) (d : ℕ) (hr : r.ExactTo d) (hb : ∀ b ∈ r.points, b.l1 + b.l2 + b.l3 = 1)
    (n : ℕ) (P : ℕ → ℝ × ℝ) (ts : List Tri) (h : ∀ t ∈ ts, t.Valid n) :
    ∃ I, Integrator.new r ts (planar n P) = .ok I ∧
      ∀ (f : Tri → Bary ℝ → ℝ) (F : Tri → MvPolynomial (Fin 2) ℝ), (∀ t ∈ ts, (F t).totalDegree ≤ d) →
      (∀ t ∈ ts, ∀ b ∈ r.points, f t b =
        polyFun (F t) (baryPoint (P t.1) (P t.2.1) (P t.2.2) b.l1 b.l2 b.l3).1
          (baryPoint (P t.1) (P t.2.1) (P t.2.2) b.l1 b.l2 b.l3).2) →
      I.call (fun t b => .ok (f t b)) =
        .ok ((ts.map fun t => ∫ z in closedTriangle (P t.1) (P t.2.1) (P t.2.2), polyFun (F t) z.1 z.2).sum) := by
  obtain ⟨I, hI, hv⟩ := C32_value r n P ts h
  refine ⟨I, hI, fun f F hF hf => ?_⟩
  rw [hv]
  congr 2
  refine List.map_congr_left (fun t ht => ?_)
  rw [← exact_on_triangle r d hr (F t) (hF t ht)]
  rw [triArea]
  congr 2
  refine List.map_congr_left (fun bw hbw => ?_)
  have hm := List.of_mem_zip (a := bw.1) (b := bw.2) hbw
  rw [hf t ht _ hm.1]
  have h3 : bw.1.l3 = 1 - bw.1.l1 - bw.1.l2 := by have := hb _ hm.1; linarith
  simp only [affMap, h3]

/-- `C32_exact` applies to `DUNAVANT3`, say: it is exact to degree 3 and its points are barycentric. -/
example : ∃ r, dunavant3 ℝ = .ok r ∧ r.ExactTo 3 ∧ (∀ b ∈ r.points, b.l1 + b.l2 + b.l3 = 1) ∧
    Tri.Valid 3 (0, 1, 2) := by
  obtain ⟨r, h1, h2⟩ := C29_dunavant3
  refine ⟨r, h1, h2, ?_, by simp [Tri.Valid]⟩
  obtain ⟨r', h3, -, -, h4⟩ := C28_accepted
    [(-(5 / 10) - 625 / 10000 : ℝ), 5 / 10 + 625 / 10000 / 3, 5 / 10 + 625 / 10000 / 3, 5 / 10 + 625 / 10000 / 3]
    [(1 / 3, 1 / 3), (6 / 10, 2 / 10), (2 / 10, 6 / 10), (2 / 10, 2 / 10)]
    (by intro p hp; simp at hp; rcases hp with rfl | rfl | rfl | rfl <;> norm_num) (by norm_num)
  have : r = r' := by
    have := h1.symm.trans h3; simpa using this
  subst this
  exact fun b hb => (h4 b hb).2.2.2

/-! ## C33 -/

theorem edgeLength_planar {n : ℕ} {P : ℕ → ℝ × ℝ} {e : Edge} (h : e.1 < n ∧ e.2 < n) :
    edgeLength (planar n P) e = .ok (edgeLen P e) := by
  rw [edgeLength, pyGet_planar h.1, pyGet_planar h.2]
  rw [bind_ok, bind_ok, vec2_sub]
  simp only [bind_ok, pure_eq_ok, edgeLen, Vec.normsqr, vec2]
  congr 1
  change Real.sqrt _ = _
  congr 1
  simp; ring

theorem C33_value (lg : ℕ → PyM (List ℝ × List ℝ)) (deg : ℕ) (r : GaussRule ℝ) (hr : GaussRule.new lg deg = .ok r)
    (n : ℕ) (P : ℕ → ℝ × ℝ) (es : List Edge) (h : ∀ e ∈ es, e.1 < n ∧ e.2 < n) :
    ∃ I, BoundaryIntegrator.new lg deg es (planar n P) = .ok I ∧ ∀ f : Edge → ℝ → ℝ,
      I.call (fun e t => .ok (f e t)) = .ok ((es.map fun e => edgeLen P e * r.value (f e)).sum) := by
  refine ⟨⟨es, r, es.map (edgeLen P)⟩, ?_, ?_⟩
  · rw [BoundaryIntegrator.new, hr, bind_ok, pyMap_eq_ok (edgeLen P) (fun e he => edgeLength_planar (h e he))]; rfl
  · intro f
    rw [BoundaryIntegrator.call]
    simp only
    rw [zip_map_self, pyMap_map, pyMap_eq_ok (fun e => edgeLen P e * r.value (f e))]
    · rfl
    · intro e he
      rw [pyMap_eq_ok (fun bw : ℝ × ℝ => bw.2 * f e bw.1)]
      · rfl
      · intro bw _; rfl

theorem C33_linear (lg : ℕ → PyM (List ℝ × List ℝ)) (deg : ℕ) (r : GaussRule ℝ) (hr : GaussRule.new lg deg = .ok r)
    (n : ℕ) (P : ℕ → ℝ × ℝ) (es : List Edge) (h : ∀ e ∈ es, e.1 < n ∧ e.2 < n) :
    ∃ I, BoundaryIntegrator.new lg deg es (planar n P) = .ok I ∧ ∀ (f g : Edge → ℝ → ℝ) (α β : ℝ),
      ∃ vf vg, I.call (fun e t => .ok (f e t)) = .ok vf ∧ I.call (fun e t => .ok (g e t)) = .ok vg ∧
        I.call (fun e t => .ok (α * f e t + β * g e t)) = .ok (α * vf + β * vg) := by
  obtain ⟨I, hI, hv⟩ := C33_value lg deg r hr n P es h
  refine ⟨I, hI, fun f g α β => ⟨_, _, hv f, hv g, ?_⟩⟩
  rw [hv]
  congr 1
  have key : ∀ e, r.value (fun t => α * f e t + β * g e t) = α * r.value (f e) + β * r.value (g e) := by
    intro e
    unfold GaussRule.value
    induction r.points.zip r.weights with
    | nil => simp
    | cons a l ih => simp only [List.map_cons, List.sum_cons, ih]; ring
  simp only [key]
  clear hv hI h
  induction es with
  | nil => simp
  | cons a l ih => simp only [List.map_cons, List.sum_cons, ih]; ring

/-- If `leggauss(degree)` is exact to degree `d`, the boundary integrator returns, for integrands polynomial of degree
at most `d` along each edge, the sum of edge length times the mean value along the edge; for `f = 1` the total
length. -/
theorem C33_exact (lg : ℕ → PyM (List ℝ × List ℝ)) (deg d : ℕ) (Q W : List ℝ) (hlg : lg deg = .ok (Q, W))
    (hex : LegExact (Q, W) d)
    (n : ℕ) (P : ℕ → ℝ × ℝ) (es : List Edge) (h : ∀ e ∈ es, e.1 < n ∧ e.2 < n) :
    ∃ I, BoundaryIntegrator.new lg deg es (planar n P) = .ok I ∧
      (∀ p : Edge → Polynomial ℝ, (∀ e ∈ es, (p e).natDegree ≤ d) →
        I.call (fun e t => .ok ((p e).eval t)) =
          .ok ((es.map fun e => edgeLen P e * ∫ t in (0 : ℝ)..1, (p e).eval t).sum)) ∧
      I.call (fun _ _ => .ok 1) = .ok (es.map (edgeLen P)).sum := by
  obtain ⟨r, hr, hre⟩ := C31_exact lg deg d Q W hlg hex
  obtain ⟨I, hI, hv⟩ := C33_value lg deg r hr n P es h
  have key : ∀ p : Edge → Polynomial ℝ, (∀ e ∈ es, (p e).natDegree ≤ d) →
        I.call (fun e t => .ok ((p e).eval t)) =
          .ok ((es.map fun e => edgeLen P e * ∫ t in (0 : ℝ)..1, (p e).eval t).sum) := by
    intro p hp
    rw [hv]
    congr 2
    exact List.map_congr_left (fun e he => by rw [hre _ (hp e he)])
  refine ⟨I, hI, key, ?_⟩
  have := key (fun _ => 1) (by simp)
  simpa using this

theorem C33_invalid (lg : ℕ → PyM (List ℝ × List ℝ)) (deg : ℕ) (r : GaussRule ℝ) (hr : GaussRule.new lg deg = .ok r)
    (n : ℕ) (P : ℕ → ℝ × ℝ) (e : Edge) (es : List Edge) (h : ¬ (e.1 < n ∧ e.2 < n)) :
    BoundaryIntegrator.new lg deg (e :: es) (planar n P) = .error .indexError := by
  have h1 : ∀ i, ¬ i < n → pyGet (planar n P) i = .error .indexError := by
    intro i hi; exact pyGet_err (by simpa [planar] using hi)
  have : edgeLength (planar n P) e = .error .indexError := by
    rw [edgeLength]
    by_cases a : e.1 < n
    · rw [pyGet_planar a, bind_ok]
      by_cases b : e.2 < n
      · exact absurd ⟨a, b⟩ h
      · rw [h1 _ b, bind_err]
    · rw [h1 _ a, bind_err]
  rw [BoundaryIntegrator.new, hr, bind_ok, pyMap_cons, this]; rfl

/-- Gauss rule with two points on the boundary of the unit square: `∫ 1 = 4`; and an edge to a vertex which does not exist -/
example : (∃ I, BoundaryIntegrator.new (fun _ => .ok ([-(1 / Real.sqrt 3), 1 / Real.sqrt 3], [1, 1])) 2
      [(0, 1), (1, 2), (2, 3), (3, 0)] (planar 4 fun i => if i = 0 then (0, 0) else if i = 1 then (1, 0) else
        if i = 2 then (1, 1) else (0, 1)) = .ok I ∧ I.call (fun _ _ => .ok (1 : ℝ)) = .ok 4) ∧
    ∀ P, BoundaryIntegrator.new (fun _ => .ok ([-(1 / Real.sqrt 3), 1 / Real.sqrt 3], [1, 1])) 2 [(0, 4)]
      (planar 4 P) = .error .indexError := by
  constructor
  · obtain ⟨I, h1, -, h2⟩ := C33_exact (fun _ => .ok ([-(1 / Real.sqrt 3), 1 / Real.sqrt 3], [1, 1])) 2 3 _ _ rfl leg2_exact
      4 (fun i => if i = 0 then (0, 0) else if i = 1 then (1, 0) else if i = 2 then (1, 1) else (0, 1))
      [(0, 1), (1, 2), (2, 3), (3, 0)] (by decide)
    refine ⟨I, h1, ?_⟩
    rw [h2]
    norm_num [edgeLen]
  · intro P
    exact C33_invalid _ 2 _ (gauss_new_ok rfl) 4 P _ _ (by decide)

/-- hypotheses of `C33_exact` are met by the 2-point rule -/
example : LegExact ([-(1 / Real.sqrt 3), 1 / Real.sqrt 3], [1, 1]) 3 := leg2_exact

end Tve
