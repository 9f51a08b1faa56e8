import Verif.Lemmas.StepApi
import Verif.Spec.Simulation
import Verif.Props.Steps

/-!
# Helper lemmas about recording steps and running a simulation
-/

namespace Tve

/-- the shapes of the recorded arrays, and that every part of recording a step works for them -/
def SimShape (domain : RectDomain ℝ) (params : SimParams) (grid : Grid ℝ) (refined : Option (RefinedGrid ℝ))
    (ys ts : List ℕ) : Prop :=
  match params.regularization with
  | none => ∃ n, grid.Usable n ∧ ys = [n, 2] ∧ ts = [n]
  | some _ => ∃ n k r p, grid.Usable n ∧ refined = some r ∧ r.toGrid.Usable k ∧
      domain.refine r.toGrid plottingRefinementFactor = .ok p ∧ ys = [n, 2, 6] ∧ ts = [k]

/-- the step created by `_append_step` -/
noncomputable def makeStep (domain : RectDomain ℝ) (params : SimParams) (grid : Grid ℝ)
    (refined : Option (RefinedGrid ℝ)) (yData thetaData : NdArray) : PyM Step :=
  match params.regularization with
  | none => Step.new yData thetaData grid
  | some _ => Step.newRegularized yData thetaData domain grid refined

theorem npMax_ok {l : List ℝ} (h : l ≠ []) : ∃ M, NdArray.npMax l = .ok M := by
  cases l with
  | nil => exact absurd rfl h
  | cons a l => exact ⟨_, rfl⟩

theorem npMin_ok {l : List ℝ} (h : l ≠ []) : ∃ M, NdArray.npMin l = .ok M := by
  cases l with
  | nil => exact absurd rfl h
  | cons a l => exact ⟨_, rfl⟩

theorem updateLims_ok {lims : WithTop ℝ × WithBot ℝ} {l : List ℝ} (h : l ≠ []) : ∃ x, updateLims lims l = .ok x := by
  obtain ⟨a, ha⟩ := npMin_ok h
  obtain ⟨b, hb⟩ := npMax_ok h
  exact ⟨_, by rw [updateLims, ha, bind_ok, hb]; rfl⟩

theorem Has.ne_nil {a : NdArray} {n : ℕ} (h : a.Has [n]) (hn : 0 < n) : a.data ≠ [] := by
  have := (NdArray.of1_data h).2
  intro h0; rw [h0] at this; simp at this; omega

/-- everything about a step created from arrays of the right shapes -/
theorem makeStep_ok {domain : RectDomain ℝ} {params : SimParams} {grid : Grid ℝ} {refined : Option (RefinedGrid ℝ)}
    {ys ts : List ℕ} (S : SimShape domain params grid refined ys ts) {y θ : NdArray} (hy : y.Has ys) (ht : θ.Has ts) :
    ∃ step, makeStep domain params grid refined y θ = .ok step ∧ step.yData = y ∧ step.thetaData = θ := by
  unfold SimShape at S
  unfold makeStep
  split at S
  · obtain ⟨n, U, rfl, rfl⟩ := S
    obtain ⟨A, B, hA, hB, rfl⟩ := NdArray.exists_cols hy U.pos
    have hc := NdArray.col_pairs hA hB U.pos
    obtain ⟨I1, i1⟩ := P1_ok (g := grid) (hA.trans U.length.symm)
    obtain ⟨I2, i2⟩ := P1_ok (g := grid) (hB.trans U.length.symm)
    obtain ⟨I3, i3⟩ := P1_ok (g := grid) ((NdArray.of1_data ht).2.trans U.length.symm)
    refine ⟨⟨P1Mech.pairs A B, θ, ⟨⟨I1⟩, ⟨I2⟩⟩, ⟨I3⟩, grid⟩, ?_, rfl, rfl⟩
    simp only [Step.new]
    rw [if_neg (by rw [hy.1, U.vertices]; simp), if_neg (by rw [ht.1, U.vertices]; simp), hc.1, bind_ok, i1, bind_ok,
      hc.2, bind_ok, i2, bind_ok, i3]
    rfl
  · obtain ⟨n, k, r, p, U, rfl, F, hp, rfl, rfl⟩ := S
    obtain ⟨A, B, hA, hB, hA6, hB6, rfl⟩ := NdArray.exists_blocks hy U.pos
    have hc := NdArray.block_pairs hA hB hA6 hB6 U.pos
    obtain ⟨I1, i1⟩ := C1_ok (g := grid) hA6 (hA.trans U.length.symm)
    obtain ⟨I2, i2⟩ := C1_ok (g := grid) hB6 (hB.trans U.length.symm)
    obtain ⟨I3, i3⟩ := P1_ok (g := r.toGrid) ((NdArray.of1_data ht).2.trans F.length.symm)
    refine ⟨⟨RegMech.pairs A B, θ, ⟨⟨I1⟩, ⟨I2⟩⟩, ⟨I3⟩, p.toGrid⟩, ?_, rfl, rfl⟩
    simp only [Step.newRegularized]
    rw [if_neg (by rw [hy.1, U.vertices]; simp), if_neg (by rw [ht.1, F.vertices]; simp), hc.1, bind_ok, i1, bind_ok,
      hc.2, bind_ok, i2, bind_ok, i3, bind_ok, hp]
    rfl

theorem slice_ok {domain : RectDomain ℝ} {params : SimParams} {grid : Grid ℝ} {refined : Option (RefinedGrid ℝ)}
    {ys ts : List ℕ} (S : SimShape domain params grid refined ys ts) {y : NdArray} (hy : y.Has ys) {j : ℕ} (hj : j < 2) :
    ∃ l, y.slice j = .ok l ∧ l ≠ [] := by
  unfold SimShape at S
  split at S
  · obtain ⟨n, U, rfl, rfl⟩ := S
    refine ⟨_, by rw [NdArray.slice, hy.1]; exact NdArray.col_eq hy hj, ?_⟩
    have := U.pos
    simp; omega
  · obtain ⟨n, k, r, p, U, rfl, F, hp, rfl, rfl⟩ := S
    refine ⟨_, by rw [NdArray.slice, hy.1]; simp only [NdArray.block_eq hy hj, bind_ok]; rfl, ?_⟩
    have := U.pos
    obtain ⟨n, rfl⟩ : ∃ m, n = m + 1 := ⟨n - 1, by omega⟩
    rw [List.range_succ_eq_map]
    simp [List.range_succ]

/-- what recording a step does -/
theorem appendStep_ok {domain : RectDomain ℝ} {params : SimParams} {grid : Grid ℝ} {refined : Option (RefinedGrid ℝ)}
    {ys ts : List ℕ} (S : SimShape domain params grid refined ys ts) {y θ : NdArray} (hy : y.Has ys) (ht : θ.Has ts)
    (r : Record) :
    ∃ step r', appendStep domain params grid refined y θ r = (.ok (), r') ∧
      makeStep domain params grid refined y θ = .ok step ∧ step.yData = y ∧ step.thetaData = θ ∧
      r'.steps = r.steps ++ [step] ∧ r'.tau = r.tau ∧ r'.currentTime = r.currentTime + r.tau ∧
      (∃ M, NdArray.npMax θ.data = .ok M ∧ r'.maxTemp = Max.max r.maxTemp M) ∧
      (∃ xs, y.slice 0 = .ok xs ∧ updateLims r.xlims xs = .ok r'.xlims) ∧
      (∃ xs, y.slice 1 = .ok xs ∧ updateLims r.ylims xs = .ok r'.ylims) := by
  obtain ⟨step, h1, h2, h3⟩ := makeStep_ok S hy ht
  obtain ⟨xs, hx, hx0⟩ := slice_ok S hy (j := 0) (by norm_num)
  obtain ⟨zs, hz, hz0⟩ := slice_ok S hy (j := 1) (by norm_num)
  obtain ⟨xl, hxl⟩ := updateLims_ok (lims := r.xlims) hx0
  obtain ⟨yl, hyl⟩ := updateLims_ok (lims := r.ylims) hz0
  obtain ⟨M, hM⟩ : ∃ M, NdArray.npMax θ.data = .ok M := by
    unfold SimShape at S
    split at S
    · obtain ⟨n, U, rfl, rfl⟩ := S
      exact npMax_ok (Has.ne_nil ht U.pos)
    · obtain ⟨n, k, r, p, U, rfl, F, hp, rfl, rfl⟩ := S
      exact npMax_ok (Has.ne_nil ht F.pos)
  refine ⟨step, ⟨r.steps ++ [step], r.tau, r.currentTime + r.tau, Max.max r.maxTemp M, xl, yl⟩, ?_, h1, h2, h3, rfl, rfl,
    rfl, ⟨M, hM, rfl⟩, ⟨xs, hx, hxl⟩, ⟨zs, hz, hyl⟩⟩
  unfold appendStep
  rw [hM, PyS.lift_ok_bind, PyS.modify_bind, hx, PyS.lift_ok_bind, hz, PyS.lift_ok_bind, PyS.bind_apply, PyS.read_apply]
  simp only [hxl]
  rw [PyS.modify_bind, PyS.bind_apply, PyS.read_apply]
  simp only [hyl]
  rw [PyS.modify_bind]
  change (PyS.lift (makeStep domain params grid refined y θ) >>= _) _ = _
  rw [h1]
  rfl

end Tve
