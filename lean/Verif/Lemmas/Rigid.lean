import Verif.Lemmas.Linear
import Verif.Spec.Rigid

/-!
# Strains of rigidly moved deformations
-/

namespace Tve

open Helpers

section
variable {g : Grid ℝ} {refined : Option (RefinedGrid ℝ)}

theorem dof_rigid {R : Matrix (Fin 2) (Fin 2) ℝ} {c : Fin 2 → ℝ} {y y' : NdArray} (hy : y.Has (deformShape g refined))
    (h : y.RigidMotion R c y') {v : ℕ} (hv : v < g.vertices.length) (i : Fin 2) (k : Fin 6) :
    y'.dof i v k = ∑ j : Fin 2, R i j * y.dof j v k + if k = 0 then c i else 0 := by
  obtain ⟨h1, h2⟩ := h
  have hs := h1.1
  have hy1 := hy.1
  rw [hy1] at h2 hs
  cases refined with
  | none =>
    simp only [deformShape] at h2 hs hy1
    simp only [NdArray.dof, hs, hy1]
    by_cases hk : k = 0
    · simp only [hk, if_true]
      exact h2 v hv i
    · simp [hk]
  | some r =>
    simp only [deformShape] at h2 hs hy1
    simp only [NdArray.dof, hs, hy1]
    exact h2 v hv i k

theorem dofForm_rigid (W : g.WellFormed) {R : Matrix (Fin 2) (Fin 2) ℝ} {c : Fin 2 → ℝ} {y y' : NdArray}
    (hy : y.Has (deformShape g refined)) (h : y.RigidMotion R c y') {τ : Tri} (hτ : τ ∈ g.triangles) {L : Fin 3 → Fin 6 → ℝ}
    (hL : ∑ i, L i 0 = 0) (i : Fin 2) : dofForm τ L (y'.dof i) = ∑ j : Fin 2, R i j * dofForm τ L (y.dof j) := by
  have hlen : ∀ k, τ.get k < g.vertices.length := fun k => WF.len W (u := g.vertices) rfl (WF.mem_get W hτ k)
  have h0 : ∑ a : Fin 3, ∑ k : Fin 6, L a k * (if k = 0 then c i else 0) = 0 := by
    simp only [mul_ite, mul_zero, Finset.sum_ite_eq', Finset.mem_univ, if_true]
    rw [← Finset.sum_mul, hL, zero_mul]
  calc dofForm τ L (y'.dof i) = ∑ a : Fin 3, ∑ k : Fin 6, (∑ j : Fin 2, R i j * (L a k * y.dof j (τ.get a) k) +
        L a k * (if k = 0 then c i else 0)) := by
        refine Finset.sum_congr rfl fun a _ => Finset.sum_congr rfl fun k _ => ?_
        rw [dof_rigid hy h (hlen a) i k, mul_add, Finset.mul_sum]
        congr 1
        refine Finset.sum_congr rfl fun j _ => ?_
        ring
    _ = ∑ a : Fin 3, ∑ k : Fin 6, ∑ j : Fin 2, R i j * (L a k * y.dof j (τ.get a) k) := by
        simp only [Finset.sum_add_distrib, h0, add_zero]
    _ = _ := by
        simp only [dofForm, Finset.mul_sum, Fin.sum_univ_two, Finset.sum_add_distrib]

theorem rigid_shape {R : Matrix (Fin 2) (Fin 2) ℝ} {c : Fin 2 → ℝ} {y y' : NdArray}
    (hy : y.Has (deformShape g refined)) (h : y.RigidMotion R c y') : y'.Has (deformShape g refined) := by
  rw [← hy.1]
  exact h.1

/-- the strains and hyperstrains of a rigidly moved deformation -/
theorem Energetic.rigid (E : Energetic g refined) {R : Matrix (Fin 2) (Fin 2) ℝ} {c : Fin 2 → ℝ} {y y' : NdArray}
    (hy : y.Has (deformShape g refined)) (h : y.RigidMotion R c y') :
    ∃ (D D' : Deformation) (S : Tri → Bary ℝ → Matrix (Fin 2) (Fin 2) ℝ) (H : Tri → Bary ℝ → Fin 2 → Fin 2 → Fin 2 → ℝ),
      deformOf g refined y = .ok D ∧ deformOf g refined y' = .ok D' ∧
      D.Strains (energyGrid g refined) S ∧ D'.Strains (energyGrid g refined) (fun t b => R * S t b) ∧
      (refined ≠ none → ∀ t ∈ (energyGrid g refined).triangles, ∀ b : Bary ℝ, b.Normalized →
        D.hyperStrain t b = .ok (tenOf (H t b)) ∧
        D'.hyperStrain t b = .ok (tenOf fun i j l : Fin 2 => ∑ a : Fin 2, R i a * H t b a j l)) := by
  obtain ⟨τ, L, M, F⟩ := E.forms
  have W : g.WellFormed := by
    cases E with
    | coarse G => exact G.wellFormed
    | fine G _ _ _ => exact G.wellFormed
  obtain ⟨D, hD, hS, hH⟩ := F.deform y hy
  obtain ⟨D', hD', hS', hH'⟩ := F.deform y' (rigid_shape hy h)
  refine ⟨D, D', _, fun t b (i j l : Fin 2) => dofForm (τ t b) (M t b j l) (y.dof i), hD, hD', hS, ?_, ?_⟩
  · intro t ht b hb
    rw [hS' t ht b hb]
    congr 2
    ext i j
    simp only [Matrix.of_apply, Matrix.mul_apply]
    exact dofForm_rigid W hy h (F.mem t ht b hb) (F.grad t ht b hb j) i
  · intro hr t ht b hb
    refine ⟨hH hr t ht b hb, ?_⟩
    rw [hH' hr t ht b hb]
    congr 2
    funext i j l
    exact dofForm_rigid W hy h (F.mem t ht b hb) (F.hess t ht b hb j l) i

end

end Tve
