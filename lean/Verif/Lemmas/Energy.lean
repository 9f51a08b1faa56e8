import Verif.Spec.Energy
import Verif.Lemmas.StepNew
import Verif.Props.InterpEval
import Verif.Props.Integrators
import Verif.Props.Helpers

/-! Values of the energies of a step. -/

namespace Tve
open Helpers Bell

/-! ### quadrature rules -/

/-- what the energies need of a rule -/
structure TriRule.Good (r : TriRule ℝ) : Prop where
  len : r.points.length = r.weights.length
  inside : ∀ b ∈ r.points, b.Inside
  pos : ∀ w ∈ r.weights, 0 < w
  sum : |r.weights.sum - 1| ≤ 1 / 10 ^ 14
  ne : r.points ≠ []

theorem rule_good {weights : List ℝ} {points : List (ℝ × ℝ)} (h1 : ∀ p ∈ points, 0 ≤ p.1 ∧ 0 ≤ p.2 ∧ p.1 + p.2 ≤ 1)
    (h2 : |weights.sum - 1| ≤ 1 / 10 ^ 14) (h3 : points.length = weights.length) (h4 : ∀ w ∈ weights, 0 < w)
    (h5 : points ≠ []) :
    ∃ r, TriRule.new weights points = .ok r ∧ r.Good ∧ r.weights = weights ∧
      r.points.map (fun b => (b.l1, b.l2)) = points := by
  obtain ⟨r, e1, e2, e3, e4⟩ := C28_accepted weights points h1 (h2.trans (by
    have := le_max_right |weights.sum| (1 : ℝ)
    generalize max |weights.sum| (1 : ℝ) = x at this
    norm_num; linarith))
  refine ⟨r, e1, ⟨?_, ?_, ?_, ?_, ?_⟩, e2, e3⟩
  · rw [e2, ← h3, ← e3, List.length_map]
  · intro b hb
    obtain ⟨a1, a2, a3, a4⟩ := e4 b hb
    exact ⟨a4, a1.1, a2.1, a3.1⟩
  · rw [e2]; exact h4
  · rw [e2]; exact h2
  · intro h; rw [h] at e3; exact h5 e3.symm

theorem centroid_good : ∃ r, centroid ℝ = .ok r ∧ r.Good ∧ r.weights.sum = 1 := by
  obtain ⟨r, h1, h2, h3, -⟩ := rule_good (weights := [(1 : ℝ)]) (points := [(1 / 3, 1 / 3)])
    (by intro p hp; simp at hp; subst hp; norm_num) (by norm_num) rfl (by simp) (by simp)
  exact ⟨r, h1, h2, by rw [h3]; simp⟩

theorem dunavant2_good : ∃ r, dunavant2 ℝ = .ok r ∧ r.Good ∧ r.weights.sum = 1 := by
  obtain ⟨r, h1, h2, h3, -⟩ := rule_good (weights := [(1 / 3 : ℝ), 1 / 3, 1 / 3])
    (points := [(2 / 3, 1 / 6), (1 / 6, 2 / 3), (1 / 6, 1 / 6)])
    (by intro p hp; simp at hp; rcases hp with rfl | rfl | rfl <;> norm_num) (by norm_num) rfl
    (by intro w hw; simp at hw; subst hw; norm_num) (by simp)
  exact ⟨r, h1, h2, by rw [h3]; norm_num⟩

theorem dunavant5_good : ∃ r, dunavant5 ℝ = .ok r ∧ r.Good := by
  obtain ⟨r, h1, h2, -⟩ := rule_good (weights := [(225 / 1000 : ℝ),
     132394152788506 / 10 ^ 15, 132394152788506 / 10 ^ 15, 132394152788506 / 10 ^ 15,
     125939180544827 / 10 ^ 15, 125939180544827 / 10 ^ 15, 125939180544827 / 10 ^ 15])
    (points := [(1 / 3, 1 / 3),
     (59715871789770 / 10 ^ 15, 470142064105115 / 10 ^ 15),
     (470142064105115 / 10 ^ 15, 59715871789770 / 10 ^ 15),
     (470142064105115 / 10 ^ 15, 470142064105115 / 10 ^ 15),
     (797426985353087 / 10 ^ 15, 101286507323456 / 10 ^ 15),
     (101286507323456 / 10 ^ 15, 797426985353087 / 10 ^ 15),
     (101286507323456 / 10 ^ 15, 101286507323456 / 10 ^ 15)])
    (by intro p hp; simp only [List.mem_cons, List.not_mem_nil, or_false] at hp
        rcases hp with rfl | rfl | rfl | rfl | rfl | rfl | rfl <;> norm_num) (by norm_num [abs_le]) rfl
    (by intro w hw; simp only [List.mem_cons, List.not_mem_nil, or_false] at hw
        rcases hw with rfl | rfl | rfl | rfl | rfl | rfl | rfl <;> norm_num) (by simp)
  exact ⟨r, h1, h2⟩

theorem energyRule_good (refined : Option (RefinedGrid ℝ)) : ∃ r, energyRule refined = .ok r ∧ r.Good := by
  cases refined with
  | none => obtain ⟨r, h1, h2, -⟩ := dunavant2_good; exact ⟨r, h1, h2⟩
  | some f => exact dunavant5_good

/-! ### integrators on grids -/

section
variable {G : Grid ℝ} {r : TriRule ℝ}

theorem points_planar (W : G.WellFormed) : G.points = planar G.points.length G.xy := by
  conv_lhs => rw [points_xy W]
  rw [planar, List.map_map]; rfl

theorem WF.valid (W : G.WellFormed) {t : Tri} (ht : t ∈ G.triangles) : t.Valid G.points.length := by
  obtain ⟨h1, h2, h3⟩ := W.triangles t ht
  exact ⟨WF.lt W h1, WF.lt W h2, WF.lt W h3⟩

theorem integrator_ok (W : G.WellFormed) (r : TriRule ℝ) :
    Integrator.new r G.triangles G.points = .ok ⟨G.triangles, r, G.triangles.map (triArea G.xy)⟩ := by
  conv_lhs => rw [points_planar W]
  exact integrator_new_ok r fun t ht => WF.valid W ht

theorem call_quad {f : Tri → Bary ℝ → PyM ℝ} (F : Tri → Bary ℝ → ℝ)
    (h : ∀ t ∈ G.triangles, ∀ b ∈ r.points, f t b = .ok (F t b)) :
    (Integrator.mk G.triangles r (G.triangles.map (triArea G.xy))).call f = .ok (G.quad r F) :=
  integrator_call_ok F h

theorem pyMap_ok_each {α β : Type} {l : List α} {f : α → PyM β} {v : List β} (h : pyMap l f = .ok v) :
    ∀ a ∈ l, ∃ b, f a = .ok b := by
  rw [pyMap_ok_iff] at h
  intro a ha
  induction h with
  | nil => simp at ha
  | @cons x y l1 l2 hxy _ ih =>
    rcases List.mem_cons.1 ha with rfl | ha
    · exact ⟨_, hxy⟩
    · exact ih ha

theorem bind_ok_left {α β : Type} {x : PyM α} {k : α → PyM β} {v : β} (h : x >>= k = .ok v) : ∃ a, x = .ok a := by
  cases x with
  | ok a => exact ⟨a, rfl⟩
  | error e => cases h

/-- If the integrator returns, the integrand has returned at every quadrature point of every triangle. -/
theorem call_ok_each (hlen : r.points.length = r.weights.length) {f : Tri → Bary ℝ → PyM ℝ} {areas : List ℝ}
    (ha : areas.length = G.triangles.length) {v : ℝ} (h : (Integrator.mk G.triangles r areas).call f = .ok v) :
    ∀ t ∈ G.triangles, ∀ b ∈ r.points, ∃ x, f t b = .ok x := by
  intro t ht b hb
  rw [Integrator.call] at h
  obtain ⟨terms, h1⟩ := bind_ok_left h
  have key : ∃ a, (a, t) ∈ areas.zip G.triangles := by
    obtain ⟨i, hi, rfl⟩ := List.getElem_of_mem ht
    refine ⟨areas[i]'(by omega), ?_⟩
    rw [List.mem_iff_getElem]
    exact ⟨i, by rw [List.length_zip]; omega, by rw [List.getElem_zip]⟩
  have key2 : ∃ w, (b, w) ∈ r.points.zip r.weights := by
    obtain ⟨i, hi, rfl⟩ := List.getElem_of_mem hb
    refine ⟨r.weights[i]'(by omega), ?_⟩
    rw [List.mem_iff_getElem]
    exact ⟨i, by rw [List.length_zip]; omega, by rw [List.getElem_zip]⟩
  obtain ⟨a, ha⟩ := key
  obtain ⟨w, hw⟩ := key2
  obtain ⟨x, hx⟩ := pyMap_ok_each h1 _ ha
  obtain ⟨inner, h2⟩ := bind_ok_left hx
  obtain ⟨y, hy⟩ := pyMap_ok_each h2 _ hw
  exact bind_ok_left hy

/-! ### algebra of the quadrature -/

theorem quad_congr {F F' : Tri → Bary ℝ → ℝ} (h : ∀ t ∈ G.triangles, ∀ b ∈ r.points, F t b = F' t b) :
    G.quad r F = G.quad r F' := by
  rw [Grid.quad, Grid.quad]
  congr 1
  refine List.map_congr_left fun t ht => ?_
  congr 2
  refine List.map_congr_left fun bw hbw => ?_
  rw [h t ht _ (List.of_mem_zip (a := bw.1) (b := bw.2) hbw).1]

theorem quad_mono (R : r.Good) {F F' : Tri → Bary ℝ → ℝ} (h : ∀ t ∈ G.triangles, ∀ b ∈ r.points, F t b ≤ F' t b) :
    G.quad r F ≤ G.quad r F' := by
  rw [Grid.quad, Grid.quad]
  apply List.sum_le_sum
  intro t ht
  have ha : 0 ≤ triArea G.xy t := by rw [triArea]; positivity
  refine mul_le_mul_of_nonneg_left (List.sum_le_sum ?_) ha
  intro bw hbw
  have hm := List.of_mem_zip (a := bw.1) (b := bw.2) hbw
  exact mul_le_mul_of_nonneg_left (h t ht _ hm.1) (R.pos _ hm.2).le

theorem quad_const (hlen : r.points.length = r.weights.length) (x : ℝ) :
    G.quad r (fun _ _ => x) = r.weights.sum * x * G.area := by
  have h1 : ((r.points.zip r.weights).map fun bw => bw.2 * x) = r.weights.map (· * x) := by
    rw [show (fun bw : Bary ℝ × ℝ => bw.2 * x) = (· * x) ∘ Prod.snd from rfl, ← List.map_map,
      List.map_snd_zip (by omega)]
  have h2 : (r.weights.map (· * x)).sum = r.weights.sum * x := by
    rw [List.sum_map_mul_right]; simp
  rw [Grid.quad, Grid.area, ← List.sum_map_mul_left]
  simp only [h1, h2]
  congr 1
  refine List.map_congr_left fun t _ => ?_
  ring

theorem quad_nonneg (R : r.Good) {F : Tri → Bary ℝ → ℝ} (h : ∀ t ∈ G.triangles, ∀ b ∈ r.points, 0 ≤ F t b) :
    0 ≤ G.quad r F := by
  have := quad_mono R (F := fun _ _ => 0) h
  rwa [quad_const R.len, mul_zero, zero_mul] at this

theorem quad_zero {F : Tri → Bary ℝ → ℝ} (R : r.Good) (h : ∀ t ∈ G.triangles, ∀ b ∈ r.points, F t b = 0) :
    G.quad r F = 0 := by
  rw [quad_congr (F' := fun _ _ => 0) h, quad_const R.len, mul_zero, zero_mul]

end

/-! ### strains of deformations -/

/-- the strain of a deformation is defined everywhere on the grid -/
def Deformation.Strains (D : Deformation) (G : Grid ℝ) (S : Tri → Bary ℝ → Matrix (Fin 2) (Fin 2) ℝ) : Prop :=
  ∀ t ∈ G.triangles, ∀ c : Bary ℝ, c.Normalized → D.strain t c = .ok (matOf (S t c))

/-- the strain of a piecewise affine deformation -/
noncomputable def p1Strain (g : Grid ℝ) (A B : List ℝ) (t : Tri) (_ : Bary ℝ) : Matrix (Fin 2) (Fin 2) ℝ :=
  !![∑ j, bb (g.corners t) j * A.getD (t.get j) 0 / twoD (g.corners t),
     ∑ j, cc (g.corners t) j * A.getD (t.get j) 0 / twoD (g.corners t);
     ∑ j, bb (g.corners t) j * B.getD (t.get j) 0 / twoD (g.corners t),
     ∑ j, cc (g.corners t) j * B.getD (t.get j) 0 / twoD (g.corners t)]

theorem vecOf_pair (a b : ℝ) : vecOf ![a, b] = vec2 (a, b) := by
  simp [vecOf, vec2, List.ofFn_succ]

theorem stack_pairs (a b c d : ℝ) : (vecOf ![a, b]).stack (vecOf ![c, d]) = .ok (matOf !![a, b; c, d]) := by
  rw [vecOf_pair, vecOf_pair, stack_vec2]

section
variable {g : Grid ℝ} {nx ny : ℕ} {s : ℝ}

theorem p1_strains (G : LibraryGrid g nx ny s) {A B : List ℝ} {D : Deformation}
    (h : P1MechModel.deformation g A B = .ok D) : D.Strains g (p1Strain g A B) := by
  rw [P1MechModel.deformation] at h
  obtain ⟨I1, h1⟩ := bind_ok_left h
  rw [h1, bind_ok] at h
  obtain ⟨I2, h2⟩ := bind_ok_left h
  rw [h2, bind_ok] at h
  cases h
  obtain ⟨l1, rfl⟩ := P1_of h1
  obtain ⟨l2, rfl⟩ := P1_of h2
  intro t ht c _
  rw [Deformation.strain]
  simp only
  rw [P1_gradient_eq G.wellFormed l1 ht (G.nondegenerate ht), bind_ok,
    P1_gradient_eq G.wellFormed l2 ht (G.nondegenerate ht), bind_ok, stack_pairs]
  rfl

/-- the determinant of the strain is the ratio of the signed areas of the deformed and the original triangle -/
theorem p1Strain_det (A B : List ℝ) {t : Tri} (h : Nondegenerate (g.corners t)) (c : Bary ℝ) :
    (p1Strain g A B t c).det * cross (g.xy t.1) (g.xy t.2.1) (g.xy t.2.2) =
      cross (A.getD t.1 0, B.getD t.1 0) (A.getD t.2.1 0, B.getD t.2.1 0) (A.getD t.2.2 0, B.getD t.2.2 0) := by
  have hd : twoD (g.corners t) ≠ 0 := h
  have he : twoD (g.corners t) = cross (g.xy t.1) (g.xy t.2.1) (g.xy t.2.2) := rfl
  rw [← he, p1Strain, Matrix.det_fin_two_of]
  simp only [Fin.sum_univ_three, ← add_div]
  have key : ∀ x : ℝ, x * twoD (g.corners t) = cross (A.getD t.1 0, B.getD t.1 0) (A.getD t.2.1 0, B.getD t.2.1 0)
      (A.getD t.2.2 0, B.getD t.2.2 0) * twoD (g.corners t) ^ 2 / twoD (g.corners t) ^ 2 ↔ x * twoD (g.corners t) =
      cross (A.getD t.1 0, B.getD t.1 0) (A.getD t.2.1 0, B.getD t.2.1 0) (A.getD t.2.2 0, B.getD t.2.2 0) := by
    intro x
    rw [mul_div_assoc, div_self (pow_ne_zero 2 hd), mul_one]
  rw [← key]
  rw [div_mul_div_comm, div_mul_div_comm, ← sub_div, div_mul_eq_mul_div, ← pow_two]
  congr 1
  have e0 : g.corners t 0 = g.xy t.1 := rfl
  have e1 : g.corners t 1 = g.xy t.2.1 := rfl
  have e2 : g.corners t 2 = g.xy t.2.2 := rfl
  have f0 : t.get 0 = t.1 := rfl
  have f1 : t.get 1 = t.2.1 := rfl
  have f2 : t.get 2 = t.2.2 := rfl
  have b0 : bb (g.corners t) 0 = (g.xy t.2.1).2 - (g.xy t.2.2).2 := rfl
  have b1 : bb (g.corners t) 1 = (g.xy t.2.2).2 - (g.xy t.1).2 := rfl
  have b2 : bb (g.corners t) 2 = (g.xy t.1).2 - (g.xy t.2.1).2 := rfl
  have c0 : cc (g.corners t) 0 = (g.xy t.2.2).1 - (g.xy t.2.1).1 := rfl
  have c1 : cc (g.corners t) 1 = (g.xy t.1).1 - (g.xy t.2.2).1 := rfl
  have c2 : cc (g.corners t) 2 = (g.xy t.2.1).1 - (g.xy t.1).1 := rfl
  simp only [b0, b1, b2, c0, c1, c2, f0, f1, f2, he, cross]
  ring

/-- the strain of a Bell interpolation on the refined grid, together with the hyperstrain -/
theorem reg_strains (G : LibraryGrid g nx ny s) {n : ℕ} (hn : 1 ≤ n) (hs : 1 / 10 ^ 15 ≤ s / n) {d : RectDomain ℝ}
    {r : RefinedGrid ℝ} (hr : d.refine g n = .ok r) {A B : List (List ℝ)} {D : Deformation}
    (h : RegMechModel.deformation g r A B = .ok D) :
    ∃ (S : Tri → Bary ℝ → Matrix (Fin 2) (Fin 2) ℝ) (H : Tri → Bary ℝ → Fin 2 → Fin 2 → Fin 2 → ℝ),
      D.Strains r.toGrid S ∧ ∀ t ∈ r.toGrid.triangles, ∀ c : Bary ℝ, c.Normalized →
        D.hyperStrain t c = .ok (tenOf (H t c)) := by
  rw [RegMechModel.deformation] at h
  obtain ⟨I1, h1⟩ := bind_ok_left h
  rw [h1, bind_ok] at h
  obtain ⟨I2, h2⟩ := bind_ok_left h
  rw [h2, bind_ok] at h
  cases h
  have key : ∀ t c, ∃ (S : Matrix (Fin 2) (Fin 2) ℝ) (H : Fin 2 → Fin 2 → Fin 2 → ℝ), t ∈ r.toGrid.triangles → c.Normalized →
      Deformation.strain ⟨RefinedInterpolation I1 r, RefinedInterpolation I2 r⟩ t c = .ok (matOf S) ∧
      Deformation.hyperStrain ⟨RefinedInterpolation I1 r, RefinedInterpolation I2 r⟩ t c = .ok (tenOf H) := by
    intro t c
    by_cases hc : t ∈ r.toGrid.triangles ∧ c.Normalized
    · obtain ⟨ht, hc⟩ := hc
      obtain ⟨t1, k1, c1, k2, -, -, -, k3, k4⟩ := C43_same_point G hn hs hr I1 ht hc
      obtain ⟨t2, l1, c2, l2, -, -, -, l3, l4⟩ := C43_same_point G hn hs hr I2 ht hc
      obtain ⟨f, fx, fy, fxx, fxy, fyy, -, -, -, e⟩ := C39_grid G.wellFormed h1 k1 (G.nondegenerate k1)
      obtain ⟨f', fx', fy', fxx', fxy', fyy', -, -, -, e'⟩ := C39_grid G.wellFormed h2 l1 (G.nondegenerate l1)
      obtain ⟨-, a2, a3⟩ := e c1 k2
      obtain ⟨-, b2, b3⟩ := e' c2 l2
      refine ⟨!![fx (g.pointAt t1 c1), fy (g.pointAt t1 c1); fx' (g.pointAt t2 c2), fy' (g.pointAt t2 c2)],
        ![(!![fxx (g.pointAt t1 c1), fxy (g.pointAt t1 c1); fxy (g.pointAt t1 c1), fyy (g.pointAt t1 c1)] :
            Matrix (Fin 2) (Fin 2) ℝ),
          !![fxx' (g.pointAt t2 c2), fxy' (g.pointAt t2 c2); fxy' (g.pointAt t2 c2), fyy' (g.pointAt t2 c2)]],
        fun _ _ => ⟨?_, ?_⟩⟩
      · rw [Deformation.strain]
        simp only
        rw [k3, a2, bind_ok, l3, b2, bind_ok, stack_pairs]
      · rw [Deformation.hyperStrain]
        simp only
        rw [k4, a3, bind_ok, l4, b3, bind_ok]
        simp [Mat.stack, matOf, tenOf, Ten3.new, List.ofFn_succ, Mat.rows]
    · exact ⟨0, 0, fun a b => absurd ⟨a, b⟩ hc⟩
  choose S H hSH using key
  exact ⟨S, H, fun t ht c hc => (hSH t c ht hc).1, fun t ht c hc => (hSH t c ht hc).2⟩

end

end Tve
