import Verif.Lemmas.Linear
import Mathlib.Topology.Algebra.Monoid
import Mathlib.Topology.Order.Compact
import Mathlib.Analysis.SpecialFunctions.Log.Basic
import Verif.Props.Energy

/-!
# The objective of the mechanical step as a function of the values of the unknowns
-/

namespace Tve

open Bell Helpers

/-! ### quadrature of functions that depend on a parameter -/

section
variable {X : Type} [TopologicalSpace X] {K : Set X} {G : Grid ℝ} {r : TriRule ℝ}

theorem continuousOn_list_sum {α : Type} (l : List α) {f : α → X → ℝ} (h : ∀ a ∈ l, ContinuousOn (f a) K) :
    ContinuousOn (fun x => (l.map fun a => f a x).sum) K := by
  induction l with
  | nil => simpa using continuousOn_const
  | cons a t ih =>
    simp only [List.map_cons, List.sum_cons]
    exact (h a (by simp)).add (ih fun b hb => h b (by simp [hb]))

theorem quad_continuousOn {F : X → Tri → Bary ℝ → ℝ}
    (h : ∀ t ∈ G.triangles, ∀ b ∈ r.points, ContinuousOn (fun x => F x t b) K) :
    ContinuousOn (fun x => G.quad r (F x)) K := by
  unfold Grid.quad
  refine continuousOn_list_sum _ fun t ht => ContinuousOn.mul continuousOn_const ?_
  refine continuousOn_list_sum (r.points.zip r.weights) (f := fun bw x => bw.2 * F x t bw.1) fun bw hbw => ?_
  exact continuousOn_const.mul (h t ht bw.1 (List.of_mem_zip (a := bw.1) (b := bw.2) hbw).1)

theorem sum_map_ge {α : Type} {l : List α} {f : α → ℝ} (h : ∀ a ∈ l, 0 ≤ f a) {a : α} (ha : a ∈ l) : f a ≤ (l.map f).sum :=
  List.single_le_sum (by
    intro x hx
    obtain ⟨b, hb, rfl⟩ := List.mem_map.1 hx
    exact h b hb) _ (List.mem_map_of_mem ha)

/-- each quadrature point contributes with a positive factor -/
theorem quad_term (R : r.Good) (hA : ∀ t ∈ G.triangles, 0 < triArea G.xy t) {t : Tri} (ht : t ∈ G.triangles) {b : Bary ℝ}
    (hb : b ∈ r.points) : ∃ k : ℝ, 0 < k ∧ ∀ F : Tri → Bary ℝ → ℝ,
      (∀ t ∈ G.triangles, ∀ b ∈ r.points, 0 ≤ F t b) → k * F t b ≤ G.quad r F := by
  obtain ⟨i, hi, rfl⟩ := List.mem_iff_getElem.1 hb
  have hi' : i < r.weights.length := R.len ▸ hi
  have hz : (r.points[i], r.weights[i]) ∈ r.points.zip r.weights := by
    rw [List.mem_iff_getElem]
    exact ⟨i, by simp [hi, hi'], by simp⟩
  have hw : 0 < r.weights[i] := R.pos _ (List.getElem_mem hi')
  refine ⟨triArea G.xy t * r.weights[i], mul_pos (hA t ht) hw, fun F hF => ?_⟩
  have hin : ∀ s ∈ G.triangles, ∀ bw ∈ r.points.zip r.weights, 0 ≤ bw.2 * F s bw.1 := by
    intro s hs bw hbw
    have hm := List.of_mem_zip (a := bw.1) (b := bw.2) hbw
    exact mul_nonneg (R.pos _ hm.2).le (hF s hs _ hm.1)
  have hsum : ∀ s ∈ G.triangles, 0 ≤ ((r.points.zip r.weights).map fun bw => bw.2 * F s bw.1).sum := fun s hs =>
    List.sum_nonneg (by
      intro x hx
      obtain ⟨bw, hbw, rfl⟩ := List.mem_map.1 hx
      exact hin s hs bw hbw)
  have h1 := sum_map_ge (f := fun bw : Bary ℝ × ℝ => bw.2 * F t bw.1) (hin t ht) hz
  have h2 := sum_map_ge (l := G.triangles)
    (f := fun s => triArea G.xy s * ((r.points.zip r.weights).map fun bw => bw.2 * F s bw.1).sum)
    (fun s hs => mul_nonneg (hA s hs).le (hsum s hs)) ht
  refine le_trans ?_ h2
  rw [mul_assoc]
  exact mul_le_mul_of_nonneg_left h1 (hA t ht).le

end

/-! ### arrays with given entries -/

/-- the array of a shape with given data -/
noncomputable def arrOf (shape : List ℕ) {N : ℕ} (x : Fin N → ℝ) : NdArray := ⟨shape, List.ofFn x⟩

theorem arrOf_has {shape : List ℕ} {N : ℕ} (h : shape.prod = N) (x : Fin N → ℝ) : (arrOf shape x).Has shape :=
  ⟨rfl, by simp [NdArray.Ok, arrOf, h]⟩

theorem exists_arrOf {shape : List ℕ} {N : ℕ} (h : shape.prod = N) {a : NdArray} (ha : a.Has shape) :
    ∃ x : Fin N → ℝ, a = arrOf shape x := by
  obtain ⟨h1, h2⟩ := ha
  obtain ⟨s, d⟩ := a
  simp only at h1
  subst h1
  have hd : d.length = N := by rw [← h]; exact h2
  subst hd
  refine ⟨fun i => d[i], ?_⟩
  rw [arrOf]
  congr 1
  exact (List.ofFn_getElem).symm

theorem continuous_getD {N : ℕ} (p : ℕ) : Continuous fun x : Fin N → ℝ => (List.ofFn x).getD p 0 := by
  by_cases hp : p < N
  · have : (fun x : Fin N → ℝ => (List.ofFn x).getD p 0) = fun x => x ⟨p, hp⟩ := by
      funext x
      rw [List.getD_eq_getElem?_getD, List.getElem?_ofFn, dif_pos hp]
      rfl
    rw [this]
    exact continuous_apply _
  · have : (fun x : Fin N → ℝ => (List.ofFn x).getD p 0) = fun x => 0 := by
      funext x
      rw [List.getD_eq_getElem?_getD, List.getElem?_ofFn, dif_neg hp]
      rfl
    rw [this]
    exact continuous_const

theorem continuous_at2 {N : ℕ} (shape : List ℕ) (c i j : ℕ) : Continuous fun x : Fin N → ℝ => (arrOf shape x).at2 c i j :=
  continuous_getD _

theorem continuous_at3 {N : ℕ} (shape : List ℕ) (c d i j k : ℕ) :
    Continuous fun x : Fin N → ℝ => (arrOf shape x).at3 c d i j k := continuous_getD _

theorem continuous_dof {N : ℕ} (shape : List ℕ) (i v : ℕ) (k : Fin 6) :
    Continuous fun x : Fin N → ℝ => (arrOf shape x).dof i v k := by
  have h2 : Continuous fun x : Fin N → ℝ => if k = 0 then (arrOf shape x).at2 2 v i else 0 := by
    split
    · exact continuous_at2 _ _ _ _
    · exact continuous_const
  have h3 : Continuous fun x : Fin N → ℝ => (arrOf shape x).at3 2 6 v i k := continuous_at3 _ _ _ _ _ _
  rcases shape with _ | ⟨a, _ | ⟨b, _ | ⟨c, _ | ⟨d, l⟩⟩⟩⟩
  · exact h2
  · exact h2
  · exact h2
  · exact h3
  · exact h2

theorem continuous_dofForm {N : ℕ} (shape : List ℕ) (τ : Tri) (L : Fin 3 → Fin 6 → ℝ) (i : ℕ) :
    Continuous fun x : Fin N → ℝ => dofForm τ L ((arrOf shape x).dof i) := by
  unfold dofForm
  exact continuous_finsetSum _ fun a _ => continuous_finsetSum _ fun k _ => continuous_const.mul (continuous_dof _ _ _ _)

theorem continuous_deformed {N : ℕ} (shape : List ℕ) (v : ℕ) :
    (Continuous fun x : Fin N → ℝ => ((arrOf shape x).deformed v).1) ∧
    (Continuous fun x : Fin N → ℝ => ((arrOf shape x).deformed v).2) := by
  have h2 : ∀ i, Continuous fun x : Fin N → ℝ => (arrOf shape x).at2 2 v i := fun i => continuous_at2 _ _ _ _
  have h3 : ∀ i, Continuous fun x : Fin N → ℝ => (arrOf shape x).at3 2 6 v i 0 := fun i => continuous_at3 _ _ _ _ _ _
  rcases shape with _ | ⟨a, _ | ⟨b, _ | ⟨c, _ | ⟨d, l⟩⟩⟩⟩
  · exact ⟨h2 0, h2 1⟩
  · exact ⟨h2 0, h2 1⟩
  · exact ⟨h2 0, h2 1⟩
  · exact ⟨h3 0, h3 1⟩
  · exact ⟨h2 0, h2 1⟩

/-! ### the elastic energy -/

theorem totalElastic_value {F : Matrix (Fin 2) (Fin 2) ℝ} (h : 0 < F.det) (x : ℝ) :
    totalElasticPotential (matOf F) x = .ok ((1 - Real.exp (-5 * x)) * wA F + Real.exp (-5 * x) * wM F) := by
  obtain ⟨W, a, wa, wm, h1, h2, h3, h4, h5, -⟩ := C53_convex_combination F h
  cases h1.symm.trans (austPot_eq h)
  cases h2.symm.trans (martPot_eq h.ne')
  have := Except.ok.inj ((h3 x).symm.trans (aust_eq x))
  rw [h4, h5, this]
  congr 1
  ring

theorem wA_nonneg {F : Matrix (Fin 2) (Fin 2) ℝ} (h : 0 < F.det) : 0 ≤ wA F := by
  have := wA_ge h
  nlinarith [sq_nonneg (F.det - 1), sq_nonneg (F 0 0 - F 1 1), sq_nonneg (F 0 1 + F 1 0)]

theorem wM_nonneg (F : Matrix (Fin 2) (Fin 2) ℝ) : 0 ≤ wM F := by
  rw [wM]; positivity

/-- a bound of the martensite potential bounds the determinant from below -/
theorem det_ge_of_wM {F : Matrix (Fin 2) (Fin 2) ℝ} (h : 0 < F.det) {M : ℝ} (hM : wM F ≤ M) : min 1 (1 / (3 + M)) ≤ F.det := by
  rcases le_or_gt 1 F.det with h1 | h1
  · exact (min_le_left _ _).trans h1
  · refine (min_le_right _ _).trans ?_
    set s := F.det ^ 2 + 1 / F.det ^ 2 - 2 with hs
    have h2 : s ^ 2 ≤ M := by
      refine le_trans ?_ hM
      rw [wM, ← hs]
      nlinarith [sq_nonneg (fsq F / F.det - 9 / 4)]
    have h3 : s ≤ 1 + M := by nlinarith [sq_nonneg (s - 1)]
    have h4 : 1 / F.det ^ 2 ≤ 3 + M := by
      have := sq_nonneg F.det
      linarith
    have hpos : 0 < F.det ^ 2 := by positivity
    have h5 : 1 / (3 + M) ≤ F.det ^ 2 := by
      have := one_div_le_one_div_of_le (by positivity) h4
      simpa using this
    nlinarith

section
variable {g : Grid ℝ} {refined : Option (RefinedGrid ℝ)} {N : ℕ}

theorem Energetic.area_pos (E : Energetic g refined) : ∀ t ∈ (energyGrid g refined).triangles, 0 < triArea (energyGrid g refined).xy t := by
  intro t ht
  obtain ⟨nx, ny, s, G⟩ := E.lib
  have := G.nondegenerate ht
  exact div_pos (abs_pos.2 this) two_pos

/-- the elastic energy as a function of the values of the unknowns -/
theorem elastic_fun (E : Energetic g refined) (hN : (deformShape g refined).prod = N) {θ : NdArray} {T : Interp}
    (hT : P1Interpolation (energyGrid g refined) θ.data = .ok T) (hθ : ∀ x ∈ θ.data, 0 ≤ x) :
    ∃ (r : TriRule ℝ) (det : Tri → Bary ℝ → (Fin N → ℝ) → ℝ) (e : (Fin N → ℝ) → ℝ), (∀ t b, Continuous (det t b)) ∧
      (∀ x, Oriented g refined (arrOf (deformShape g refined) x) ↔
        ∀ t ∈ (energyGrid g refined).triangles, ∀ b ∈ r.points, 0 < det t b x) ∧
      ContinuousOn e {x | ∀ t ∈ (energyGrid g refined).triangles, ∀ b ∈ r.points, 0 < det t b x} ∧
      (∀ x, (∀ t ∈ (energyGrid g refined).triangles, ∀ b ∈ r.points, 0 < det t b x) →
        IsElasticEnergy g refined (arrOf (deformShape g refined) x) θ (e x)) ∧
      ∀ B, ∀ t ∈ (energyGrid g refined).triangles, ∀ b ∈ r.points, ∃ ε, 0 < ε ∧
        ∀ x, (∀ t ∈ (energyGrid g refined).triangles, ∀ b ∈ r.points, 0 < det t b x) → e x ≤ B → ε ≤ det t b x := by
  obtain ⟨τ, L, M, F⟩ := E.forms
  obtain ⟨r, hr, hg⟩ := energyRule_good refined
  have hcall := temp_call E.wf hT
  have hl := (P1_of hT).1
  set u := θ.data with hu
  set S : Tri → Bary ℝ → (Fin N → ℝ) → Matrix (Fin 2) (Fin 2) ℝ := fun t c x =>
    Matrix.of fun i j => dofForm (τ t c) (L t c j) ((arrOf (deformShape g refined) x).dof i) with hS
  have cS : ∀ t c (i j : Fin 2), Continuous fun x => S t c x i j := fun t c i j => continuous_dofForm _ _ _ _
  have cdet : ∀ t c, Continuous fun x => (S t c x).det := by
    intro t c
    simp only [Matrix.det_fin_two]
    exact ((cS t c 0 0).mul (cS t c 1 1)).sub ((cS t c 0 1).mul (cS t c 1 0))
  have cfsq : ∀ t c, Continuous fun x => fsq (S t c x) := by
    intro t c
    unfold fsq
    exact ((((cS t c 0 0).pow 2).add ((cS t c 0 1).pow 2)).add ((cS t c 1 0).pow 2)).add ((cS t c 1 1).pow 2)
  set z : Tri → Bary ℝ → ℝ := fun t c => c.l1 * u.getD t.1 0 + c.l2 * u.getD t.2.1 0 + c.l3 * u.getD t.2.2 0 with hz
  have hz0 : ∀ t, ∀ b ∈ r.points, 0 ≤ z t b := by
    intro t b hb
    obtain ⟨-, b1, b2, b3⟩ := hg.inside b hb
    have hd : ∀ i : ℕ, 0 ≤ u.getD i 0 := by
      intro i
      rw [List.getD_eq_getElem?_getD]
      rcases h : u[i]? with _ | v
      · simp
      · exact hθ v (List.mem_of_getElem? h)
    have := mul_nonneg b1 (hd t.1)
    have := mul_nonneg b2 (hd t.2.1)
    have := mul_nonneg b3 (hd t.2.2)
    simp only [hz]
    linarith
  set W : (Fin N → ℝ) → Tri → Bary ℝ → ℝ := fun x t b =>
    (1 - Real.exp (-5 * z t b)) * wA (S t b x) + Real.exp (-5 * z t b) * wM (S t b x) with hW
  have hori : ∀ x, Oriented g refined (arrOf (deformShape g refined) x) ↔
        ∀ t ∈ (energyGrid g refined).triangles, ∀ b ∈ r.points, 0 < (S t b x).det := by
    intro x
    obtain ⟨D, hD, hDS, -⟩ := F.deform (arrOf (deformShape g refined) x) (arrOf_has hN x)
    constructor
    · rintro ⟨D', r', k1, k2, k3⟩ t ht b hb
      cases hD.symm.trans k1
      cases hr.symm.trans k2
      obtain ⟨A, l1, l2⟩ := k3 t ht b hb
      have := matOf_inj (Except.ok.inj (l1.symm.trans (hDS t ht b (hg.inside b hb).1)))
      rw [this] at l2
      exact l2
    · intro h
      exact ⟨D, r, hD, hr, fun t ht b hb => ⟨_, hDS t ht b (hg.inside b hb).1, h t ht b hb⟩⟩
  refine ⟨r, fun t b x => (S t b x).det, fun x => (energyGrid g refined).quad r (W x), cdet, hori, ?_, ?_, ?_⟩
  · refine quad_continuousOn fun t ht b hb => ?_
    have hne : ∀ x ∈ {x | ∀ t ∈ (energyGrid g refined).triangles, ∀ b ∈ r.points, 0 < (S t b x).det}, (S t b x).det ≠ 0 :=
      fun x hx => (hx t ht b hb).ne'
    have c1 := (cdet t b).continuousOn (s := {x | ∀ t ∈ (energyGrid g refined).triangles, ∀ b ∈ r.points, 0 < (S t b x).det})
    have c2 := (cfsq t b).continuousOn (s := {x | ∀ t ∈ (energyGrid g refined).triangles, ∀ b ∈ r.points, 0 < (S t b x).det})
    simp only [hW, wA, wM]
    refine ContinuousOn.add (ContinuousOn.mul continuousOn_const ?_) (ContinuousOn.mul continuousOn_const ?_)
    · exact ((c2.sub continuousOn_const).sub (continuousOn_const.mul (c1.log hne))).add ((c1.sub continuousOn_const).pow 2)
    · refine (((c2.div c1 hne).sub continuousOn_const).pow 2).add ?_
      refine (((c1.pow 2).add (continuousOn_const.div (c1.pow 2) fun x hx => ?_)).sub continuousOn_const).pow 2
      exact pow_ne_zero 2 (hne x hx)
  · intro x hx
    obtain ⟨D, hD, hDS, -⟩ := F.deform (arrOf (deformShape g refined) x) (arrOf_has hN x)
    refine ⟨D, T, r, W x, hD, hT, hr, fun t ht b hb => ?_, rfl⟩
    exact ⟨_, _, hDS t ht b (hg.inside b hb).1, hcall t ht b, totalElastic_value (hx t ht b hb) _⟩
  · intro B t ht b hb
    obtain ⟨k, hk, hterm⟩ := quad_term hg E.area_pos ht hb
    have ha : 0 < Real.exp (-5 * z t b) := Real.exp_pos _
    refine ⟨min 1 (1 / (3 + max 0 (B / (k * Real.exp (-5 * z t b))))), by positivity, fun x hx hB => ?_⟩
    refine det_ge_of_wM (hx t ht b hb) (le_max_of_le_right ?_)
    rw [le_div_iff₀ (by positivity)]
    have hnn : ∀ t ∈ (energyGrid g refined).triangles, ∀ b ∈ r.points, 0 ≤ W x t b := by
      intro t ht b hb
      have e1 : Real.exp (-5 * z t b) ≤ 1 := Real.exp_le_one_iff.2 (by linarith [hz0 t b hb])
      exact add_nonneg (mul_nonneg (by linarith) (wA_nonneg (hx t ht b hb))) (mul_nonneg (Real.exp_pos _).le (wM_nonneg _))
    have h1 := hterm (W x) hnn
    have e1 : Real.exp (-5 * z t b) ≤ 1 := Real.exp_le_one_iff.2 (by linarith [hz0 t b hb])
    have h2 : Real.exp (-5 * z t b) * wM (S t b x) ≤ W x t b := by
      have := mul_nonneg (show 0 ≤ 1 - Real.exp (-5 * z t b) by linarith) (wA_nonneg (hx t ht b hb))
      simp only [hW]
      linarith
    have h3 := mul_le_mul_of_nonneg_left h2 hk.le
    calc _ = k * (Real.exp (-5 * z t b) * wM (S t b x)) := by ring
      _ ≤ B := h3.trans (h1.trans hB)

/-- the other parts of the objective as a function of the values of the unknowns -/
theorem rest_fun (E : Energetic g refined) (hN : (deformShape g refined).prod = N) {leg : LegGauss} {params : SimParams}
    {traction : Traction} {time : ℝ} {y0 y1 θ : NdArray} {v1 : ℝ}
    (h : IsMechObjective leg params traction g refined time y0 y1 θ v1) :
    ∃ ρ : (Fin N → ℝ) → ℝ, Continuous ρ ∧ ∀ x e, IsElasticEnergy g refined (arrOf (deformShape g refined) x) θ e →
      IsMechObjective leg params traction g refined time y0 (arrOf (deformShape g refined) x) θ (e + ρ x) := by
  obtain ⟨E1, d1, -, ⟨D0, D1, r, W1, hD0, -, hr, -, -⟩, hnone, hsome⟩ := h
  obtain ⟨τ, L, M, F⟩ := E.forms
  obtain ⟨r', hr', hg⟩ := dissipationRule_good refined
  cases hr.symm.trans hr'
  obtain ⟨S0, hS0⟩ := E.strains hD0
  set S : Tri → Bary ℝ → (Fin N → ℝ) → Matrix (Fin 2) (Fin 2) ℝ := fun t c x =>
    Matrix.of fun i j => dofForm (τ t c) (L t c j) ((arrOf (deformShape g refined) x).dof i) with hS
  have cS : ∀ t c (i j : Fin 2), Continuous fun x => S t c x i j := fun t c i j => continuous_dofForm _ _ _ _
  set Wd : (Fin N → ℝ) → Tri → Bary ℝ → ℝ := fun x t b => (∑ i, ∑ j,
    ((S t b x - S0 t b).transpose * S0 t b + (S0 t b).transpose * (S t b x - S0 t b)) i j ^ 2) / 2 with hWd
  have cd : Continuous fun x => (energyGrid g refined).quad r (Wd x) := by
    rw [← continuousOn_univ]
    refine quad_continuousOn fun t ht b hb => Continuous.continuousOn ?_
    refine Continuous.div_const (continuous_finsetSum _ fun i _ => continuous_finsetSum _ fun j _ => Continuous.pow ?_ 2) _
    simp only [Matrix.add_apply, Matrix.mul_apply, Matrix.transpose_apply, Matrix.sub_apply]
    refine Continuous.add ?_ ?_
    · exact continuous_finsetSum _ fun k _ => ((cS _ _ _ _).sub continuous_const).mul continuous_const
    · exact continuous_finsetSum _ fun k _ => continuous_const.mul ((cS _ _ _ _).sub continuous_const)
  have hd : ∀ x, IsDissipation g refined y0 (arrOf (deformShape g refined) x) ((energyGrid g refined).quad r (Wd x)) := by
    intro x
    obtain ⟨D, hD, hDS, -⟩ := F.deform (arrOf (deformShape g refined) x) (arrOf_has hN x)
    refine ⟨D0, D, r, Wd x, hD0, hD, hr, fun t ht b hb => ?_, rfl⟩
    have hb' := (hg.inside b hb).1
    exact ⟨_, _, hS0 t ht b hb', hDS t ht b hb', C51_value _ _⟩
  rcases hreg : params.regularization with _ | κ
  · obtain ⟨w, ⟨q, Tr, hq, hTr, -⟩, -⟩ := hnone hreg
    set w : (Fin N → ℝ) → ℝ := fun x => g.edgeQuad g.neumann.edges q fun e s =>
      (s * (Tr e.1).1 + (1 - s) * (Tr e.2).1) * (s * ((arrOf (deformShape g refined) x).deformed e.1).1 +
        (1 - s) * ((arrOf (deformShape g refined) x).deformed e.2).1) +
      (s * (Tr e.1).2 + (1 - s) * (Tr e.2).2) * (s * ((arrOf (deformShape g refined) x).deformed e.1).2 +
        (1 - s) * ((arrOf (deformShape g refined) x).deformed e.2).2) with hw
    refine ⟨fun x => - w x + params.fps * (energyGrid g refined).quad r (Wd x), ?_, ?_⟩
    · refine Continuous.add (Continuous.neg ?_) (continuous_const.mul cd)
      rw [hw]
      unfold Grid.edgeQuad GaussRule.value
      rw [← continuousOn_univ]
      refine continuousOn_list_sum _ fun e _ => continuousOn_const.mul ?_
      refine continuousOn_list_sum _ fun p _ => continuousOn_const.mul (Continuous.continuousOn ?_)
      have k := fun v => continuous_deformed (N := N) (deformShape g refined) v
      exact (continuous_const.mul ((continuous_const.mul (k e.1).1).add (continuous_const.mul (k e.2).1))).add
        (continuous_const.mul ((continuous_const.mul (k e.1).2).add (continuous_const.mul (k e.2).2)))
    · intro x e he
      refine ⟨e, _, he, hd x, fun _ => ⟨w x, ⟨q, Tr, hq, hTr, rfl⟩, ?_⟩, fun κ hκ => ?_⟩
      · simp only [sub_eq_add_neg, add_assoc]
      · rw [hreg] at hκ; cases hκ
  · obtain ⟨r2, h1, rfl, -, -⟩ := hsome κ hreg
    obtain ⟨q, hq, hgq⟩ := dunavant5_good
    set Wh : (Fin N → ℝ) → Tri → Bary ℝ → ℝ := fun x t b => hyperElasticPotential (tenOf fun i j l : Fin 2 =>
      dofForm (τ t b) (M t b j l) ((arrOf (deformShape g (some r2)) x).dof i)) with hWh
    refine ⟨fun x => κ * r2.toGrid.quad q (Wh x) + params.fps * r2.toGrid.quad r (Wd x), ?_, ?_⟩
    · refine Continuous.add (continuous_const.mul ?_) (continuous_const.mul cd)
      rw [← continuousOn_univ]
      refine quad_continuousOn fun t ht b hb => Continuous.continuousOn ?_
      simp only [hWh, hyper_eq]
      refine (Real.continuous_sqrt.comp ?_).pow 3
      exact continuous_finsetSum _ fun i _ => continuous_finsetSum _ fun j _ => continuous_finsetSum _ fun l _ =>
        (continuous_dofForm _ _ _ _).pow 2
    · intro x e he
      refine ⟨e, _, he, hd x, fun h0 => ?_, fun κ' hκ' => ?_⟩
      · rw [hreg] at h0; cases h0
      · rw [hreg] at hκ'
        cases hκ'
        obtain ⟨D, hD, -, hDH⟩ := F.deform (arrOf (deformShape g (some r2)) x) (arrOf_has hN x)
        refine ⟨r2, r2.toGrid.quad q (Wh x), rfl, ⟨D, q, Wh x, hD, hq, fun t ht b hb => ?_, rfl⟩, ?_⟩
        · exact ⟨_, hDH (by simp) t ht b (hgq.inside b hb).1, rfl⟩
        · simp only [add_assoc]
          rfl

/-- in every compact set of values of the unknowns that contains a point where the objective is defined, the objective has
a minimizer -/
theorem mech_minimizer (E : Energetic g refined) (hN : (deformShape g refined).prod = N) {leg : LegGauss} {params : SimParams}
    {traction : Traction} {time : ℝ} {y0 θ : NdArray} (hθ : ∀ x ∈ θ.data, 0 ≤ x)
    (hU : ∀ v, IsEndpoint v g.neumann.edges → v ∈ g.neumann.vertices)
    {K : Set (Fin N → ℝ)} (hK : IsCompact K) {x1 : Fin N → ℝ} {v1 : ℝ} (hx1 : x1 ∈ K)
    (h1 : IsMechObjective leg params traction g refined time y0 (arrOf (deformShape g refined) x1) θ v1) :
    ∃ x ∈ K, ∃ v, IsMechObjective leg params traction g refined time y0 (arrOf (deformShape g refined) x) θ v ∧
      ∀ x' ∈ K, ∀ v', IsMechObjective leg params traction g refined time y0 (arrOf (deformShape g refined) x') θ v' → v ≤ v' := by
  obtain ⟨ρ, cρ, hρ⟩ := rest_fun E hN h1
  have hT : ∃ T, P1Interpolation (energyGrid g refined) θ.data = .ok T := by
    obtain ⟨_, _, ⟨_, T, _, _, _, hT, _⟩, _⟩ := h1
    exact ⟨T, hT⟩
  obtain ⟨T, hT⟩ := hT
  obtain ⟨r, det, e, cdet, hori, ce, he, hε⟩ := elastic_fun E hN hT hθ
  have hor1 : ∀ {x v}, IsMechObjective leg params traction g refined time y0 (arrOf (deformShape g refined) x) θ v →
      ∀ t ∈ (energyGrid g refined).triangles, ∀ b ∈ r.points, 0 < det t b x := by
    rintro x v ⟨E1, d1, hE1, -⟩
    exact (hori x).1 (hE1.oriented E)
  have hval : ∀ {x v}, IsMechObjective leg params traction g refined time y0 (arrOf (deformShape g refined) x) θ v →
      v = e x + ρ x := fun {x v} h => h.unique hU (hρ x _ (he x (hor1 h)))
  obtain ⟨xm, -, hm⟩ := hK.exists_isMinOn ⟨x1, hx1⟩ cρ.continuousOn
  choose! ε hε1 hε2 using hε (e x1 + ρ x1 - ρ xm)
  set K' := K ∩ {x | ∀ t ∈ (energyGrid g refined).triangles, ∀ b ∈ r.points, ε t b ≤ det t b x} with hK'
  have hclosed : IsClosed {x | ∀ t ∈ (energyGrid g refined).triangles, ∀ b ∈ r.points, ε t b ≤ det t b x} := by
    simp only [Set.ofPred_forall]
    exact isClosed_iInter fun t => isClosed_iInter fun _ => isClosed_iInter fun b => isClosed_iInter fun _ =>
      isClosed_le continuous_const (cdet t b)
  have hpos : ∀ x ∈ K', ∀ t ∈ (energyGrid g refined).triangles, ∀ b ∈ r.points, 0 < det t b x :=
    fun x hx t ht b hb => (hε1 t ht b hb).trans_le (hx.2 t ht b hb)
  have hin : ∀ x ∈ K, (∀ t ∈ (energyGrid g refined).triangles, ∀ b ∈ r.points, 0 < det t b x) →
      e x + ρ x ≤ e x1 + ρ x1 → x ∈ K' := by
    intro x hx hp hle
    refine ⟨hx, fun t ht b hb => hε2 t ht b hb x hp ?_⟩
    have : ρ xm ≤ ρ x := hm hx
    linarith
  obtain ⟨x, hx, hmin⟩ := (hK.inter_right hclosed).exists_isMinOn (f := fun x => e x + ρ x)
    ⟨x1, hin x1 hx1 (hor1 h1) le_rfl⟩ ((ce.mono fun x hx => hpos x hx).add cρ.continuousOn)
  refine ⟨x, hx.1, _, hρ x _ (he x (hpos x hx)), fun x' hx' v' hv' => ?_⟩
  rw [hval hv']
  have h2 : e x + ρ x ≤ e x1 + ρ x1 := hmin (hin x1 hx1 (hor1 h1) le_rfl)
  rcases le_or_gt (e x' + ρ x') (e x1 + ρ x1) with h3 | h3
  · exact hmin (hin x' hx' (hor1 hv') h3)
  · exact h2.trans h3.le

end

end Tve
