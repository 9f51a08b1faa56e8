import Verif.Props.Recorded
import Verif.Lemmas.Converge
import Verif.Lemmas.RegAnswer
import Verif.Props.ApproxC1
import Verif.Props.Usable

/-!
# C74: colours and limits of plots of regularized simulations
-/

namespace Tve
open RectGrid

theorem lattice_inside {g : Grid ℝ} {nx ny : ℕ} {s : ℝ} (G : LibraryGrid g nx ny s) {m : ℕ} (hm : 1 ≤ m)
    (hs : 2 * (1 / 10 ^ 10) / s ^ 2 < 1 / m) {t : Tri} (ht : t ∈ g.triangles) {c : Bary ℝ} (hc : c.Normalized) {i j : ℕ}
    (hz : g.pointAt t c = (i * (s / m), j * (s / m))) (h1 : -(2 * (1 / 10 ^ 10) / s ^ 2) ≤ c.l1)
    (h2 : -(2 * (1 / 10 ^ 10) / s ^ 2) ≤ c.l2) (h3 : -(2 * (1 / 10 ^ 10) / s ^ 2) ≤ c.l3) : c.Inside := by
  obtain ⟨P, dg, E, T, BV, BE, L⟩ := G.lattice
  have s0 := L.h_pos
  have m0 : (0 : ℝ) < m := by exact_mod_cast hm
  have aux : ∀ x : ℝ, -(2 * (1 / 10 ^ 10) / s ^ 2) ≤ x → ∀ k : ℤ, m * x = k → 0 ≤ x := by
    intro x hx k hk
    have : -1 < (k : ℝ) := by
      rw [← hk]
      have : -(1 / m) < x := by linarith
      have := mul_lt_mul_of_pos_left this m0
      rw [mul_neg, mul_one_div_cancel m0.ne'] at this
      exact this
    have : 0 ≤ k := by
      have : (-1 : ℤ) < k := by exact_mod_cast this
      omega
    have : (0 : ℝ) ≤ k := by exact_mod_cast this
    rw [← hk] at this
    exact nonneg_of_mul_nonneg_right this m0
  rw [L.triangles, List.mem_map] at ht
  obtain ⟨u, hu, rfl⟩ := ht
  obtain ⟨k1, k2, k3⟩ := L.memT_P hu
  have e1 := xy_of_at (L.at_lab k1)
  have e2 := xy_of_at (L.at_lab k2)
  have e3 := xy_of_at (L.at_lab k3)
  rw [Grid.pointAt] at hz
  simp only [labT] at hz
  rw [e1, e2, e3] at hz
  rw [Bary.Normalized] at hc
  have fin : ∀ k1 k2 k3 : ℤ, m * c.l1 = k1 → m * c.l2 = k2 → m * c.l3 = k3 → c.Inside := fun k1 k2 k3 q1 q2 q3 =>
    ⟨hc, aux _ h1 _ q1, aux _ h2 _ q2, aux _ h3 _ q3⟩
  obtain ⟨a, b, -, -, rfl | rfl⟩ := latTri_cases ((L.memT u).1 hu)
  · simp only [lowT, pos, baryPoint, Prod.ext_iff, Prod.fst_add, Prod.snd_add, Prod.smul_fst, Prod.smul_snd, smul_eq_mul] at hz
    push_cast at hz
    obtain ⟨z1, z2⟩ := hz
    have w1 : m * (a + c.l2 + c.l3) = (i : ℝ) := by
      field_simp at z1
      linear_combination z1 - m * a * hc
    have w2 : m * (b + c.l3) = (j : ℝ) := by
      field_simp at z2
      linear_combination z2 - m * b * hc
    refine fin (m - i + m * a) (i - m * a - (j - m * b)) (j - m * b) ?_ ?_ ?_ <;> push_cast
    · linear_combination m * hc - w1
    · linear_combination w1 - w2
    · linear_combination w2
  · simp only [uppT, pos, baryPoint, Prod.ext_iff, Prod.fst_add, Prod.snd_add, Prod.smul_fst, Prod.smul_snd, smul_eq_mul] at hz
    push_cast at hz
    obtain ⟨z1, z2⟩ := hz
    have w1 : m * (a + c.l1) = (i : ℝ) := by
      field_simp at z1
      linear_combination z1 - m * a * hc
    have w2 : m * (b + c.l1 + c.l2) = (j : ℝ) := by
      field_simp at z2
      linear_combination z2 - m * b * hc
    refine fin (i - m * a) (j - m * b - (i - m * a)) (m - (j - m * b)) ?_ ?_ ?_ <;> push_cast
    · linear_combination w1
    · linear_combination w2 - w1
    · linear_combination m * hc - w2

section
variable {solver : Solver} {domain : RectDomain ℝ} {params : SimParams} {ext : ExtTemp} {traction : Traction} {s : Sim}

/-- **C74** (colours). Without and with regularization: the colours of the plot of a recorded step lie between the smallest and the
largest recorded temperature of this step; if the solver respects the domain of the temperatures, they lie in the colour range from
zero to the maximal temperature of the simulation. (The scale is assumed to be larger than the tolerance of the point location.) -/
theorem C74_colours_partial (hs : s.Reachable solver domain params ext traction) (hh : 4 / 10 ^ 5 < params.scale)
    (hn : ∀ n : ℤ, params.refinementFactor = some n → 4 / 10 ^ 5 < params.scale / n)
    {st : Step} (hst : st ∈ s.steps) {p : TriPlot} (hp : st.plot s.maxTemp = .ok p) {c : ℝ} (hc : c ∈ p.c) :
    (∃ a ∈ st.thetaData.data, a ≤ c) ∧ (∃ b ∈ st.thetaData.data, c ≤ b) ∧
    (solver.RespectsDomain → p.vmin = 0 ∧ p.vmax = s.maxTemp ∧ 0 ≤ c ∧ c ≤ s.maxTemp) := by
  obtain ⟨p', hp', -, m1, m2, l1, l2, l3, H⟩ := C74_plot hs hst s.maxTemp
  rw [hp] at hp'
  cases hp'
  obtain ⟨nx, ny, k, ph, pn, rfl, rfl, G, hk, G2, pre1, G3, hpn, rfl, pre2, q1, q2, -, I3, hI3, hth⟩ := step_grids hs hst
  obtain ⟨v, hv, rfl⟩ := List.getElem_of_mem hc
  obtain ⟨z, hz⟩ := G3.wellFormed.planar v (by omega)
  obtain ⟨a, b, θ, -, -, h3, -, h5⟩ := H v z hz
  have e3 : p.c[v] = θ := by simpa [hv] using h3
  rw [e3]
  obtain ⟨i, j, hi, hj, rfl⟩ := ((C22_structure G3).2.2.2.2.2.1 z).1 ⟨v, hz⟩
  have k0 : (0 : ℝ) < k := by exact_mod_cast hk
  have pn0 : (0 : ℝ) < pn := by exact_mod_cast hpn
  have hsk : 4 / 10 ^ 5 < params.scale / k := by
    by_cases hr : params.regularization = none
    · rw [(q1 hr).1]; simpa using hh
    · simpa using hn k (q2 hr).1
  have hpn5 : (pn : ℝ) ≤ 5 := by
    by_cases hr : params.regularization = none
    · rw [(q1 hr).2.1]; norm_num
    · rw [(q2 hr).2]; norm_num
  have s0 := (C22_structure G2).1
  have hin := plot_points hs hst hz
  have ekc : ∀ n : ℕ, ((k * n : ℕ) : ℝ) * (params.scale / k) = n * params.scale := by
    intro n; push_cast; field_simp
  obtain ⟨t, ht, c, c1, c2, ⟨c3, c4, c5⟩, c6, -⟩ := C44_grid_points_partial G2 I3 (by rw [(P1_of hI3).2]) (x := i * (params.scale / k / pn))
    (y := j * (params.scale / k / pn)) ⟨hin.1, by rw [ekc]; exact hin.2.1⟩
    ⟨hin.2.2.1, by rw [ekc]; exact hin.2.2.2⟩
  have ci : c.Inside := by
    refine lattice_inside G2 hpn ?_ ht c1 c2 c3 c4 c5
    rw [div_lt_div_iff₀ (by positivity) pn0]
    have := mul_self_lt_mul_self (by norm_num) hsk
    nlinarith
  rw [hth, c6] at h5
  have W2 := G2.wellFormed
  have ex : ∀ j : Fin 3, ∃ x, st.thetaData.data[t.get j]? = some x := fun j => by
    obtain ⟨x, hx, -⟩ := C34_vertex_values W2 hI3 ht j
    exact ⟨x, hx⟩
  choose x hx using ex
  have hmem : ∀ j, x j ∈ st.thetaData.data := fun j => List.mem_of_getElem? (hx j)
  obtain ⟨j1, -, hj1⟩ := Finset.exists_min_image Finset.univ x Finset.univ_nonempty
  obtain ⟨j2, -, hj2⟩ := Finset.exists_max_image Finset.univ x Finset.univ_nonempty
  obtain ⟨y, y1, y2, y3⟩ := C34_bounds W2 hI3 ht c ci (x j1) (x j2)
    (fun j w hw => by rw [hx j] at hw; cases hw; exact hj1 j (Finset.mem_univ _))
    (fun j w hw => by rw [hx j] at hw; cases hw; exact hj2 j (Finset.mem_univ _))
  cases Except.ok.inj (h5.symm.trans y1)
  exact ⟨⟨_, hmem j1, y2⟩, ⟨_, hmem j2, y3⟩, fun hd => ⟨m1, m2, (C59_nonneg hs hd hst (hmem j1)).trans y2,
    y3.trans ((C62_max_temp hs).2 (Or.inr ⟨st, hst, hmem j2⟩))⟩⟩

end

/-- with regularization, the interpolations of a recorded step have the recorded array as parameters -/
theorem step_data_c1 {solver : Solver} {domain : RectDomain ℝ} {params : SimParams} {ext : ExtTemp} {traction : Traction} {s : Sim}
    (hs : s.Reachable solver domain params ext traction) (hreg : params.regularization ≠ none) {st : Step} (hst : st ∈ s.steps) :
    ∃ A B I1 I2, C1Interpolation s.grid A = .ok I1 ∧ C1Interpolation s.grid B = .ok I2 ∧ st.y = ⟨⟨I1⟩, ⟨I2⟩⟩ ∧
      ∀ v < s.grid.points.length, A[v]? = some (List.ofFn fun j : Fin 6 => st.yData.at3 2 6 v 0 j) ∧
        B[v]? = some (List.ofFn fun j : Fin 6 => st.yData.at3 2 6 v 1 j) := by
  obtain ⟨m0, t0, c⟩ := hs.context
  obtain ⟨it, hg⟩ := c.grid
  obtain ⟨Sh, -, F⟩ := c.setup.simShape hg c.refined c.mech0
  have W := (c.setup.grids hg c.refined).1.wellFormed
  have hy := (c.has st hst).1
  have hmade := c.made st hst
  rcases makeStep_parts Sh hy (c.has st hst).2 hmade with ⟨h, -⟩ |
    ⟨-, n, A, B, r, p, I1, I2, I3, U, hA, hB, hA6, hB6, eq, hs', -, i1, i2, i3, -, e⟩
  · exact absurd h hreg
  refine ⟨A, B, I1, I2, i1, i2, by rw [e], fun v hv => ?_⟩
  have hd : st.yData.data = (interleave A B).flatten := by rw [eq, pairs3_data]
  have hlen : A.length = s.grid.points.length := by
    have := (C1_of i1).2.1
    rw [this, W.vertices, List.length_range]
  have aux : ∀ (L : List (List ℝ)) (hL : v < L.length), (∀ x ∈ L, x.length = 6) → ∀ f : ℕ → ℝ,
      (∀ j < 6, f j = (L[v]?.bind fun row => row[j]?).getD 0) → L[v]? = some (List.ofFn fun j : Fin 6 => f j) := by
    intro L hL h6 f hf
    rw [List.getElem?_eq_getElem hL]
    congr 1
    have hl := h6 _ (List.getElem_mem hL)
    refine List.ext_getElem (by simp [hl]) fun j h1 h2 => ?_
    have := hf j (by omega)
    rw [List.getElem?_eq_getElem hL, Option.bind_some, List.getElem?_eq_getElem h1] at this
    rw [List.getElem_ofFn]
    exact this.symm
  have ix : ∀ i, i < 2 → ∀ j < 6, st.yData.at3 2 6 v i j = ((interleave A B).flatten[6 * (2 * v + i) + j]?).getD 0 := by
    intro i hi j hj
    rw [NdArray.at3, hd, List.getD_eq_getElem?_getD, show (v * 2 + i) * 6 + j = 6 * (2 * v + i) + j by ring]
  have k := fun j (hj : j < 6) => interleave2_getElem? (hA.trans hB.symm) hA6 hB6 v hj
  refine ⟨aux A (by omega) hA6 _ fun j hj => ?_, aux B (by omega) hB6 _ fun j hj => ?_⟩
  · rw [ix 0 (by norm_num) j hj, ← (k j hj).1, add_zero]
  · rw [ix 1 (by norm_num) j hj, ← (k j hj).2]

/-! ### regularized simulations and the axis limits -/

open MvPolynomial in
/-- the second component of the bent body -/
noncomputable def bentPoly : MvPolynomial (Fin 2) ℝ := X 1 + C (1 / 10) * X 0 ^ 2 - X 0

/-- the answers of a solver that bends a square with edges of length 10: `y = (x₁, x₂ + x₁ (x₁ - 10) / 10)` -/
noncomputable def bentSolver : Solver := fun _ _ =>
  ⟨fun v j => [if v % 2 = 1 then 10 else 0, 1, 0, 0, 0, 0].getD j 0,
   fun v j => [if v < 2 then 0 else 10, if v % 2 = 1 then 1 else -1, 1, 1 / 5, 0, 0].getD j 0, fun _ => 1, none⟩

theorem bent_degree : bentPoly.totalDegree ≤ 4 := by
  unfold bentPoly
  refine (MvPolynomial.totalDegree_sub _ _).trans (max_le ((MvPolynomial.totalDegree_add _ _).trans (max_le ?_
    ((MvPolynomial.totalDegree_mul _ _).trans ?_))) ?_)
  · rw [MvPolynomial.totalDegree_X]; norm_num
  · rw [MvPolynomial.totalDegree_C, MvPolynomial.totalDegree_X_pow]; norm_num
  · rw [MvPolynomial.totalDegree_X]; norm_num

theorem bent_nodal (z : ℝ × ℝ) : nodal bentPoly z = ![z.2 + z.1 * (z.1 - 10) / 10, z.1 / 5 - 1, 1, 1 / 5, 0, 0] := by
  have e01 : MvPolynomial.pderiv (0 : Fin 2) (MvPolynomial.X 1 : MvPolynomial (Fin 2) ℝ) = 0 :=
    MvPolynomial.pderiv_X_of_ne (by decide)
  have e10 : MvPolynomial.pderiv (1 : Fin 2) (MvPolynomial.X 0 : MvPolynomial (Fin 2) ℝ) = 0 :=
    MvPolynomial.pderiv_X_of_ne (by decide)
  have d0 : MvPolynomial.pderiv 0 bentPoly = MvPolynomial.C (1 / 5) * MvPolynomial.X 0 - 1 := by
    simp only [bentPoly, map_add, map_sub, e01, MvPolynomial.pderiv_X_self, MvPolynomial.pderiv_C_mul, MvPolynomial.pderiv_pow]
    have : (MvPolynomial.C (1 / 5) : MvPolynomial (Fin 2) ℝ) = MvPolynomial.C (1 / 10) * MvPolynomial.C 2 := by
      rw [← map_mul]; norm_num
    rw [this, show (MvPolynomial.C 2 : MvPolynomial (Fin 2) ℝ) = 2 from map_ofNat _ 2]
    simp
    ring
  have d1 : MvPolynomial.pderiv 1 bentPoly = 1 := by
    simp only [bentPoly, map_add, map_sub, e10, MvPolynomial.pderiv_X_self, MvPolynomial.pderiv_C_mul, MvPolynomial.pderiv_pow]
    simp
  have d00 : MvPolynomial.pderiv 0 (MvPolynomial.pderiv 0 bentPoly) = MvPolynomial.C (1 / 5) := by
    rw [d0]
    simp [MvPolynomial.pderiv_C_mul]
  rw [nodal, d00, d1, d0]
  ext j
  fin_cases j
  · simp [polyAt, bentPoly]; ring
  · simp [polyAt]; ring
  · simp [polyAt]
  · simp [polyAt]
  · simp [polyAt]
  · simp [polyAt]

/-- **C74** (limits) fails with regularization: plotted points lie outside the axis limits, because the limits are
determined from the entries of the recorded arrays (the positions of the vertices and the derivatives there) and not from the
plotted positions. -/
theorem C74_limits_false (it : SetIter) : ∃ (domain : RectDomain ℝ) (params : SimParams) (s : Sim),
    params.regularization ≠ none ∧ s.Healthy bentSolver domain params (fun _ => .ok 0) (fun _ _ _ => .ok [0, 0]) ∧
    ∃ st ∈ s.steps, ∃ p, st.plot s.maxTemp = .ok p ∧ ∃ y ∈ p.y, (y : WithTop ℝ) < s.record.ylims.1 := by
  set domain : RectDomain ℝ := ⟨10, 10, .many []⟩ with hdom
  set params : SimParams := ⟨1, 2, 3, 10, some (1 / 10), some 2⟩ with hpar
  have S : Setup domain params := {
    valid := ⟨1, 2, 3, 10, some (1 / 10), some 2, (C55_validation_partial _ _ _ _ _ _).1
      ⟨by norm_num, by norm_num, by norm_num, by norm_num, by rintro x ⟨⟩; norm_num, by rintro x ⟨⟩; norm_num, by simp⟩⟩
    width := le_refl _
    height := le_refl _
    fine := by rintro n ⟨⟩; norm_num [hpar] }
  have hreg : params.regularization ≠ none := by simp [hpar]
  obtain ⟨s, hnew⟩ := Sim.new_ok (it := it) (solver := bentSolver) (ext := fun _ => .ok 0) (traction := fun _ _ _ => .ok [0, 0])
    S (by norm_num [hpar]) (fun _ _ _ _ _ _ _ => rfl) (fun _ _ _ _ _ _ _ => rfl) (fun _ _ _ => ⟨_, rfl, by simp⟩)
    (fun _ => ⟨0, le_refl _, rfl⟩)
  have hh : s.Healthy bentSolver domain params (fun _ => .ok 0) (fun _ _ _ => .ok [0, 0]) := .new S hnew
  refine ⟨domain, params, s, hreg, hh, ?_⟩
  obtain ⟨m, t, step0, step1, r1, r2, w, c⟩ := Sim.of_new S hnew
  obtain ⟨Sh, ⟨n, U⟩, F⟩ := S.simShape c.grid c.refined c.mech
  have hst : s.steps = [step0, step1] := by rw [Sim.steps, c.eq, c.steps]
  have hc : cells domain.width params.scale = 1 := by simp [cells, hdom, hpar]
  have hc' : cells domain.height params.scale = 1 := by simp [cells, hdom, hpar]
  obtain ⟨G, -, -⟩ := S.grids c.grid c.refined
  have C := C10_points (by norm_num [hdom]) (by norm_num [hdom]) (by norm_num [hpar]) c.grid
  simp only [hc, hc'] at G C
  have hsc : params.scale = 10 := rfl
  rw [hsc] at G C
  have hlen : s.grid.points.length = 4 := (C22_structure G).2.2.2.2.1
  have hst1 : step1 ∈ s.steps := by rw [hst]; simp
  obtain ⟨-, -, -, init⟩ := mechanicalStep_initial U F c.mech
  obtain ⟨-, -, init⟩ := init hreg
  rw [← c.stepY0, ← U.num, hlen] at init
  obtain ⟨p', -, ans⟩ := hh.answer_reg hreg (k := 0) (a := step0) (b := step1) (by rw [hst]; rfl) (by rw [hst]; rfl)
  rw [hlen] at ans
  obtain ⟨p, hp, -, -, -, l1, l2, l3, H⟩ := C74_plot hh.reachable hst1 s.maxTemp
  refine ⟨step1, hst1, p, hp, ?_⟩
  obtain ⟨nx, ny, k, ph, pn, rfl, rfl, -, hk, G2, pre1, G3, hpn, rfl, pre2, -, q2, -⟩ :=
    step_grids hh.reachable hst1
  obtain ⟨A, B, I1, I2, i1, i2, e12, hAB⟩ := step_data_c1 hh.reachable hreg hst1
  obtain ⟨k2, rfl⟩ := q2 hreg
  have k2 : k = 2 := by
    have : (2 : ℤ) = k := Option.some.inj k2
    omega
  subst k2
  -- the plotted point
  obtain ⟨v, hv⟩ := ((C22_structure G3).2.2.2.2.2.1 (5, 0)).2 ⟨5, 0, by simp [hc], by simp, by norm_num [hsc]⟩
  obtain ⟨a, b, θ, -, h2, -, h4, -⟩ := H v _ hv
  refine ⟨b, List.mem_of_getElem? h2, ?_⟩
  -- the nodal data
  have data : ∀ v q, s.grid.At v q → B[v]? = some (List.ofFn (nodal bentPoly q)) := by
    intro v q hq
    rw [(hAB v (at_lt hq)).2, bent_nodal]
    congr 2
    obtain ⟨i, j, hi, hj, rfl, rfl⟩ := (C v q).1 hq
    have hv := at_lt hq
    rw [hlen] at hv
    funext l
    rw [(ans _ hv l l.2).2]
    interval_cases i <;> interval_cases j <;> fin_cases l <;> norm_num [bentSolver]
  have hb : b = -5 / 2 := by
    obtain ⟨u, hu, x, x1, x2, -, x4, -⟩ := C44_grid_points_partial G I2 (by rw [(C1_of i2).2.2]) (x := 5) (y := 0) (by norm_num)
      (by norm_num)
    obtain ⟨h6, hl, rfl⟩ := C1_of i2
    obtain ⟨e1', -⟩ := C1_call_eq G.wellFormed h6 hl hu x
    have e2' : C1.call s.grid B u x = .ok (-5 / 2) := by
      rw [e1']
      have e : (fun k => nodeParam B (u.get k)) = fun k => nodal bentPoly (s.grid.corners u k) := by
        funext k
        obtain ⟨z, hz⟩ := G.wellFormed.planar (u.get k) (by
          rw [← List.mem_range, ← G.wellFormed.vertices]; exact WF.mem_get G.wellFormed hu k)
        have d := data _ _ hz
        rw [Grid.corners, xy_of_at hz]
        funext j
        rw [nodeParam, show B.getD (u.get k) [] = List.ofFn (nodal bentPoly z) by rw [List.getD_eq_getElem?_getD, d]; rfl]
        rw [List.getD_eq_getElem?_getD, List.getElem?_ofFn]
        simp
      rw [e]
      have q := (C38_quartics (s.grid.corners u) (G.nondegenerate hu) bentPoly bent_degree ![x.l1, x.l2, x.l3] x1).1
      have e3 : pointOf (s.grid.corners u) ![x.l1, x.l2, x.l3] = (5, 0) := by
        rw [← x2]
        rfl
      rw [e3] at q
      refine q.trans ?_
      simp [polyAt, bentPoly]
      norm_num
    rw [e12] at h4
    rw [EuclDeformation.call] at h4
    rw [x4] at h4
    simp only [e2'] at h4
    cases hq : (EuclInterp.mk I1).call 5 0 with
    | error e => rw [hq] at h4; cases h4
    | ok w =>
      rw [hq] at h4
      simp only [bind_ok, pure_eq_ok] at h4
      have h5 : vecOf ![w, -5 / 2] = vecOf ![a, b] := Except.ok.inj h4
      exact (congrFun (vecOf_injective h5) 1).symm
  obtain ⟨-, ⟨lo, hi, e, ⟨hlo, -⟩, -⟩, -⟩ := C62_regularized_partial hh.reachable hreg
  rw [hb, e]
  refine WithTop.coe_lt_coe.2 (lt_of_lt_of_le (b := -1) (by norm_num) ?_)
  obtain ⟨st, hst', v, hv, j, hj, rfl⟩ := hlo
  have hv4 : v < 4 := by rw [← hlen, ← List.mem_range, ← G.wellFormed.vertices]; exact hv
  rw [hst, List.mem_cons, List.mem_singleton] at hst'
  rcases hst' with rfl | rfl
  · rw [(init v hv4 j hj).2]
    have : 0 ≤ (s.grid.xy v).2 := by
      obtain ⟨z, hz⟩ := G.wellFormed.planar v (by rw [hlen]; exact hv4)
      obtain ⟨i, j, -, -, -, rfl⟩ := (C v z).1 hz
      rw [xy_of_at hz]
      positivity
    interval_cases j <;> simp <;> linarith
  · rw [(ans v hv4 j hj).2]
    interval_cases j <;> norm_num [bentSolver] <;> split <;> norm_num

/-- the regularized example meets the hypotheses of `C74_colours_partial` -/
example (it : SetIter) : ∃ (s : Sim) (st : Step) (p : TriPlot) (c : ℝ),
    s.Reachable staySolver exampleDomain exampleParamsReg (fun t => .ok (t ^ 2)) (fun t x y => .ok [t + x, y]) ∧
    4 / 10 ^ 5 < exampleParamsReg.scale ∧ (∀ n : ℤ, exampleParamsReg.refinementFactor = some n → 4 / 10 ^ 5 < exampleParamsReg.scale / n) ∧
    st ∈ s.steps ∧ st.plot s.maxTemp = .ok p ∧ c ∈ p.c ∧ 0 ≤ c ∧ c ≤ s.maxTemp := by
  obtain ⟨s, -, hr, hl⟩ := example_run it (Or.inr rfl) (n := 1) (by norm_num)
  have h1 : 4 / 10 ^ 5 < exampleParamsReg.scale := by norm_num [exampleParamsReg]
  have h2 : ∀ n : ℤ, exampleParamsReg.refinementFactor = some n → 4 / 10 ^ 5 < exampleParamsReg.scale / n := by
    rintro n ⟨⟩; norm_num [exampleParamsReg]
  have hlt : 0 < s.steps.length := by omega
  have hst := List.getElem_mem hlt
  obtain ⟨p, hp, -, -, -, -, -, l3, -⟩ := C74_plot hr hst s.maxTemp
  obtain ⟨nx, ny, k, ph, pn, -, -, -, -, -, -, G3, -⟩ := step_grids hr hst
  have hlen : 0 < p.c.length := by
    rw [l3, (C22_structure G3).2.2.2.2.1]; positivity
  have hc := List.getElem_mem hlen
  obtain ⟨-, -, h⟩ := C74_colours_partial hr h1 h2 hst hp hc
  obtain ⟨-, -, d, -⟩ := stay_contracts
  obtain ⟨-, -, e1, e2⟩ := h d
  exact ⟨s, _, p, _, hr, h1, h2, hst, hp, hc, e1, e2⟩

end Tve
