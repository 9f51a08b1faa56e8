import Verif.Props.EvalAccuracy
import Verif.Props.Recorded

/-!
# C72: recorded steps between the vertices

Between the vertices the recorded fields are piecewise linear (the deformation without regularization, the temperature
always). Evaluation at Euclidean points differs from the piecewise linear function only by the effect of the tolerance of
the point location.
-/

namespace Tve
open Sim

variable {solver : Solver} {domain : RectDomain ℝ} {params : SimParams} {ext : ExtTemp} {traction : Traction} {s : Sim}

/-- the same as `C44_accuracy`, with the nodal values of the corners -/
theorem accuracy_corners {g : Grid ℝ} {nx ny : ℕ} {h : ℝ} (G : LibraryGrid g nx ny h) {u : List ℝ} {I : Interp}
    (hI : P1Interpolation g u = .ok I) {m M : ℝ} (hM : ∀ x ∈ u, |x - m| ≤ M) {t : Tri} (ht : t ∈ g.triangles) {c : Bary ℝ}
    (hc : c.Inside) :
    ∃ x, (EuclInterp.mk I).call (g.pointAt t c).1 (g.pointAt t c).2 = .ok x ∧
      |x - (c.l1 * u.getD t.1 0 + c.l2 * u.getD t.2.1 0 + c.l3 * u.getD t.2.2 0)| ≤ 36 * (1 / 10 ^ 10) * M / h ^ 2 := by
  obtain ⟨x, x', h1, h2, h3⟩ := C44_accuracy G hI hM ht hc
  obtain ⟨hu, rfl⟩ := P1_of hI
  obtain rfl := Except.ok.inj (h2.symm.trans (P1_call_eq G.wellFormed hu ht c))
  exact ⟨x', h1, h3⟩

/-- **C72** (temperature everywhere). In the point of a triangle with barycentric coordinates `λ` the recorded temperature
evaluates to `λ₁ θ₁ + λ₂ θ₂ + λ₃ θ₃` with the recorded temperatures of the three corners, up to `36e-10 M / h²`, where the
recorded temperatures have distance at most `M` to some number and `h` is the size of the cells of the grid of the
temperatures. -/
theorem C72_temperature_accuracy (hs : s.Reachable solver domain params ext traction) {st : Step} (hst : st ∈ s.steps)
    {nx ny : ℕ} {h : ℝ} (G : LibraryGrid (energyGrid s.grid s.refined) nx ny h) {m M : ℝ}
    (hM : ∀ x ∈ st.thetaData.data, |x - m| ≤ M) {t : Tri} (ht : t ∈ (energyGrid s.grid s.refined).triangles) {c : Bary ℝ}
    (hc : c.Inside) :
    ∃ θ₁ θ₂ θ₃ θ, st.thetaData.data[t.1]? = some θ₁ ∧ st.thetaData.data[t.2.1]? = some θ₂ ∧ st.thetaData.data[t.2.2]? = some θ₃ ∧
      st.theta.call ((energyGrid s.grid s.refined).pointAt t c).1 ((energyGrid s.grid s.refined).pointAt t c).2 = .ok θ ∧
      |θ - (c.l1 * θ₁ + c.l2 * θ₂ + c.l3 * θ₃)| ≤ 36 * (1 / 10 ^ 10) * M / h ^ 2 := by
  obtain ⟨-, -, -, -, -, -, -, -, -, -, -, -, -, -, -, -, -, -, I3, hI3, hth⟩ := step_grids hs hst
  obtain ⟨x, h1, h2⟩ := accuracy_corners G hI3 hM ht hc
  have W := G.wellFormed
  have hu := (P1_of hI3).1
  have hg : ∀ k, st.thetaData.data[t.get k]? = some (st.thetaData.data.getD (t.get k) 0) :=
    fun k => getElem?_of_getD (WF.len W hu (WF.mem_get W ht k)) 0
  exact ⟨_, _, _, x, hg 0, hg 1, hg 2, by rw [hth]; exact h1, h2⟩

/-- **C72** (deformation everywhere), without regularization: in the point of a triangle with barycentric coordinates `λ` the
recorded deformation evaluates to `λ₁ y₁ + λ₂ y₂ + λ₃ y₃` with the recorded positions of the three corners, up to
`36e-10 M / h²` in each component, where the recorded positions have distance at most `M` to some point (in each
coordinate) and `h` is the scale. -/
theorem C72_deformation_accuracy (hs : s.Reachable solver domain params ext traction) (hreg : params.regularization = none)
    {st : Step} (hst : st ∈ s.steps) {p : ℝ × ℝ} {M : ℝ}
    (hM : ∀ v ∈ s.grid.vertices, |(st.yData.deformed v).1 - p.1| ≤ M ∧ |(st.yData.deformed v).2 - p.2| ≤ M)
    {t : Tri} (ht : t ∈ s.grid.triangles) {c : Bary ℝ} (hc : c.Inside) :
    ∃ y : ℝ × ℝ, st.y.call (s.grid.pointAt t c).1 (s.grid.pointAt t c).2 = .ok (vecOf ![y.1, y.2]) ∧
      |y.1 - (c.l1 * (st.yData.deformed t.1).1 + c.l2 * (st.yData.deformed t.2.1).1 + c.l3 * (st.yData.deformed t.2.2).1)| ≤
        36 * (1 / 10 ^ 10) * M / params.scale ^ 2 ∧
      |y.2 - (c.l1 * (st.yData.deformed t.1).2 + c.l2 * (st.yData.deformed t.2.1).2 + c.l3 * (st.yData.deformed t.2.2).2)| ≤
        36 * (1 / 10 ^ 10) * M / params.scale ^ 2 := by
  obtain ⟨m0, t0, k⟩ := hs.context
  obtain ⟨it, hg⟩ := k.grid
  obtain ⟨Sh, -, F⟩ := k.setup.simShape hg k.refined k.mech0
  obtain ⟨G, -, -⟩ := k.setup.grids hg k.refined
  have W := G.wellFormed
  rcases makeStep_parts Sh (k.has st hst).1 (k.has st hst).2 (k.made st hst) with
    ⟨-, n, A, B, I1, I2, I3, U, hA, hB, hY, i1, i2, i3, e⟩ | ⟨hr, -⟩
  · have hd : ∀ v, st.yData.deformed v = (A.getD v 0, B.getD v 0) := by
      intro v; rw [hY]; exact deformed_pairs hA hB U.pos v
    have hn : n = s.grid.points.length := by
      have := (P1_of i1).1
      rw [hA, W.vertices, List.length_range] at this
      exact this
    have bound : ∀ {L : List ℝ} {q : ℝ}, L.length = n → (∀ v ∈ s.grid.vertices, |L.getD v 0 - q| ≤ M) →
        ∀ x ∈ L, |x - q| ≤ M := by
      intro L q hl h x hx
      obtain ⟨i, hi, rfl⟩ := List.getElem_of_mem hx
      have := h i (by rw [W.vertices, List.mem_range]; omega)
      simpa [hi] using this
    obtain ⟨x1, a1, a2⟩ := accuracy_corners G i1 (m := p.1) (M := M)
      (bound hA fun v hv => by have := (hM v hv).1; rwa [hd v] at this) ht hc
    obtain ⟨x2, b1, b2⟩ := accuracy_corners G i2 (m := p.2) (M := M)
      (bound hB fun v hv => by have := (hM v hv).2; rwa [hd v] at this) ht hc
    refine ⟨(x1, x2), ?_, ?_, ?_⟩
    · have := (C44_deformation st.y (s.grid.pointAt t c).1 (s.grid.pointAt t c).2).1 x1 x2
      rw [e] at this ⊢
      exact this a1 b1
    · simpa only [hd] using a2
    · simpa only [hd] using b2
  · exact absurd hreg hr

/-- a simulation with and without regularization, its third step: the temperatures are bounded by some `M`, and the grid of the
temperatures has triangles -/
example (it : SetIter) {params : SimParams} (hp : params = exampleParams ∨ params = exampleParamsReg) :
    ∃ (s : Sim) (st : Step) (h M : ℝ), s.steps[2]? = some st ∧ 0 < h ∧ (energyGrid s.grid s.refined).triangles ≠ [] ∧
      ∀ t ∈ (energyGrid s.grid s.refined).triangles, ∀ c : Bary ℝ, c.Inside → ∃ θ₁ θ₂ θ₃ θ, st.thetaData.data[t.1]? = some θ₁ ∧
        st.thetaData.data[t.2.1]? = some θ₂ ∧ st.thetaData.data[t.2.2]? = some θ₃ ∧
        st.theta.call ((energyGrid s.grid s.refined).pointAt t c).1 ((energyGrid s.grid s.refined).pointAt t c).2 = .ok θ ∧
        |θ - (c.l1 * θ₁ + c.l2 * θ₂ + c.l3 * θ₃)| ≤ 36 * (1 / 10 ^ 10) * M / h ^ 2 := by
  obtain ⟨s, hh, hr, hl⟩ := example_run it hp (n := 3) (by norm_num)
  obtain ⟨st, hst⟩ : ∃ st, s.steps[2]? = some st := ⟨s.steps[2], by simp⟩
  have hmem := List.mem_of_getElem? hst
  obtain ⟨nx, ny, k, ph, pn, e1, e2, G, hk, G2, -⟩ := step_grids hr hmem
  have bnd : ∀ l : List ℝ, ∃ M, ∀ x ∈ l, |x - 0| ≤ M := by
    intro l
    refine ⟨(l.map fun x => |x|).sum, fun x hx => ?_⟩
    rw [sub_zero]
    exact List.single_le_sum (by simp) _ (List.mem_map_of_mem hx)
  obtain ⟨M, hM⟩ := bnd st.thetaData.data
  have C := C22_structure G2
  refine ⟨s, st, _, M, hst, C.1, ?_, fun t ht c hc => C72_temperature_accuracy hr hmem G2 hM ht hc⟩
  intro h
  have := C.2.2.2.2.2.2.1
  have b1 := C.2.1
  have b2 := C.2.2.1
  rw [h, List.length_nil] at this
  have := Nat.mul_pos (by norm_num : 0 < 2) (Nat.mul_pos b1 b2)
  omega

/-- the same for the positions in a simulation without regularization -/
example (it : SetIter) : ∃ (s : Sim) (st : Step) (M : ℝ), s.steps[2]? = some st ∧ s.grid.triangles ≠ [] ∧
    ∀ t ∈ s.grid.triangles, ∃ y : ℝ × ℝ,
      st.y.call (s.grid.pointAt t ⟨1 / 2, 1 / 2, 0⟩).1 (s.grid.pointAt t ⟨1 / 2, 1 / 2, 0⟩).2 = .ok (vecOf ![y.1, y.2]) ∧
      |y.1 - (1 / 2 * (st.yData.deformed t.1).1 + 1 / 2 * (st.yData.deformed t.2.1).1)| ≤ 144 * (1 / 10 ^ 10) * M := by
  obtain ⟨s, hh, hr, hl⟩ := example_run it (Or.inl rfl) (n := 3) (by norm_num)
  obtain ⟨st, hst⟩ : ∃ st, s.steps[2]? = some st := ⟨s.steps[2], by simp⟩
  have hmem := List.mem_of_getElem? hst
  obtain ⟨nx, ny, k, ph, pn, e1, e2, G, -⟩ := step_grids hr hmem
  have bnd : ∃ M, ∀ v ∈ s.grid.vertices, |(st.yData.deformed v).1 - 0| ≤ M ∧ |(st.yData.deformed v).2 - 0| ≤ M := by
    refine ⟨(s.grid.vertices.map fun v => |(st.yData.deformed v).1| + |(st.yData.deformed v).2|).sum, fun v hv => ?_⟩
    have := List.single_le_sum (l := s.grid.vertices.map fun v => |(st.yData.deformed v).1| + |(st.yData.deformed v).2|)
      (by intro x hx; obtain ⟨w, -, rfl⟩ := List.mem_map.1 hx; positivity) _ (List.mem_map_of_mem hv)
    rw [sub_zero, sub_zero]
    constructor
    · linarith [abs_nonneg (st.yData.deformed v).2]
    · linarith [abs_nonneg (st.yData.deformed v).1]
  obtain ⟨M, hM⟩ := bnd
  have C := C22_structure G
  refine ⟨s, st, M, hst, ?_, fun t ht => ?_⟩
  · intro h
    have := C.2.2.2.2.2.2.1
    have b1 := C.2.1
    have b2 := C.2.2.1
    rw [h, List.length_nil] at this
    have := Nat.mul_pos (by norm_num : 0 < 2) (Nat.mul_pos b1 b2)
    omega
  · obtain ⟨y, h1, h2, -⟩ := C72_deformation_accuracy hr rfl hmem (p := (0, 0)) hM ht (c := ⟨1 / 2, 1 / 2, 0⟩)
      ⟨by norm_num [Bary.Normalized], by norm_num, by norm_num, le_refl _⟩
    refine ⟨y, h1, ?_⟩
    have es : exampleParams.scale = 1 / 2 := rfl
    rw [es] at h2
    simp only [zero_mul, add_zero] at h2
    refine h2.trans (le_of_eq ?_)
    ring

end Tve
