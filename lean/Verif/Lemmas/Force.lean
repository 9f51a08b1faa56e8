import Verif.Lemmas.Optimal
import Verif.Lemmas.HeatBalance
import Verif.Spec.Force
import Mathlib.Analysis.SpecialFunctions.Pow.Deriv
import Mathlib.Analysis.SpecialFunctions.Log.Deriv

/-!
# Helper lemmas: derivatives of the potentials and of the mechanical objective
-/

namespace Tve

open Helpers Topology

/-! ### stresses -/

/-- the cofactor matrix -/
def cof (F : Matrix (Fin 2) (Fin 2) ℝ) : Matrix (Fin 2) (Fin 2) ℝ := !![F 1 1, -F 1 0; -F 0 1, F 0 0]

/-- the stress of austenite -/
noncomputable def stressA (F : Matrix (Fin 2) (Fin 2) ℝ) : Matrix (Fin 2) (Fin 2) ℝ :=
  (2 : ℝ) • F + (-2 / F.det + 2 * (F.det - 1)) • cof F

/-- the stress of martensite -/
noncomputable def stressM (F : Matrix (Fin 2) (Fin 2) ℝ) : Matrix (Fin 2) (Fin 2) ℝ :=
  (4 * (fsq F / F.det - 9 / 4) / F.det) • F + (-2 * (fsq F / F.det - 9 / 4) * fsq F / F.det ^ 2 +
    2 * (F.det ^ 2 + 1 / F.det ^ 2 - 2) * (2 * F.det - 2 / F.det ^ 3)) • cof F

section
variable (F G : Matrix (Fin 2) (Fin 2) ℝ)

theorem hasDerivAt_entry (i j : Fin 2) (x : ℝ) : HasDerivAt (fun τ : ℝ => (F + τ • G) i j) (G i j) x := by
  simp only [Matrix.add_apply, Matrix.smul_apply, smul_eq_mul]
  simpa using ((hasDerivAt_id x).mul_const (G i j)).const_add (F i j)

theorem hasDerivAt_det : HasDerivAt (fun τ : ℝ => (F + τ • G).det) (∑ i, ∑ j, cof F i j * G i j) 0 := by
  have h := ((hasDerivAt_entry F G 0 0 0).mul (hasDerivAt_entry F G 1 1 0)).sub
    ((hasDerivAt_entry F G 0 1 0).mul (hasDerivAt_entry F G 1 0 0))
  simp only [Matrix.det_fin_two]
  refine h.congr_deriv ?_
  simp [Fin.sum_univ_two, cof]
  ring

theorem hasDerivAt_fsq : HasDerivAt (fun τ : ℝ => fsq (F + τ • G)) (∑ i, ∑ j, 2 * F i j * G i j) 0 := by
  have h := ((((hasDerivAt_entry F G 0 0 0).pow 2).add ((hasDerivAt_entry F G 0 1 0).pow 2)).add
    ((hasDerivAt_entry F G 1 0 0).pow 2)).add ((hasDerivAt_entry F G 1 1 0).pow 2)
  unfold fsq
  refine h.congr_deriv ?_
  simp [Fin.sum_univ_two]
  ring

theorem hasDerivAt_wA (h : 0 < F.det) :
    HasDerivAt (fun τ : ℝ => wA (F + τ • G)) (∑ i, ∑ j, stressA F i j * G i j) 0 := by
  have hd := hasDerivAt_det F G
  have hne : (F + (0 : ℝ) • G).det ≠ 0 := by simpa using h.ne'
  have h1 := (((hasDerivAt_fsq F G).sub_const 2).sub ((hd.log hne).const_mul 2)).add ((hd.sub_const 1).pow 2)
  unfold wA
  refine h1.congr_deriv ?_
  simp [Fin.sum_univ_two, stressA]
  have := h.ne'
  field_simp
  ring

theorem hasDerivAt_wM (h : 0 < F.det) :
    HasDerivAt (fun τ : ℝ => wM (F + τ • G)) (∑ i, ∑ j, stressM F i j * G i j) 0 := by
  have hd := hasDerivAt_det F G
  have hne : (F + (0 : ℝ) • G).det ≠ 0 := by simpa using h.ne'
  have hne2 : (F + (0 : ℝ) • G).det ^ 2 ≠ 0 := pow_ne_zero 2 hne
  have h1 := ((((hasDerivAt_fsq F G).div hd hne).sub_const (9 / 4)).pow 2).add
    ((((hd.pow 2).add ((hasDerivAt_const (0 : ℝ) (1 : ℝ)).div (hd.pow 2) hne2)).sub_const 2).pow 2)
  unfold wM
  refine h1.congr_deriv ?_
  simp [Fin.sum_univ_two, stressM]
  have := h.ne'
  field_simp
  ring

theorem det_near {F : Matrix (Fin 2) (Fin 2) ℝ} (h : 0 < F.det) : ∀ᶠ τ in 𝓝 (0 : ℝ), 0 < (F + τ • G).det := by
  have := (hasDerivAt_det F G).continuousAt.eventually (lt_mem_nhds (by simpa using h))
  exact this

/-- the stress of the total elastic potential at a temperature -/
noncomputable def stressE (x : ℝ) (F : Matrix (Fin 2) (Fin 2) ℝ) : Matrix (Fin 2) (Fin 2) ℝ :=
  (1 - Real.exp (-5 * x)) • stressA F + Real.exp (-5 * x) • stressM F

theorem elasticValue_deriv {F : Matrix (Fin 2) (Fin 2) ℝ} (h : 0 < F.det) (x : ℝ) :
    HasDerivAt (fun τ : ℝ => (1 - Real.exp (-5 * x)) * wA (F + τ • G) + Real.exp (-5 * x) * wM (F + τ • G))
      (∑ i, ∑ j, stressE x F i j * G i j) 0 := by
  refine (((hasDerivAt_wA F G h).const_mul _).add ((hasDerivAt_wM F G h).const_mul _)).congr_deriv ?_
  simp [Fin.sum_univ_two, stressE]
  ring

theorem isStress_elastic {F : Matrix (Fin 2) (Fin 2) ℝ} (h : 0 < F.det) (x : ℝ) :
    IsStress (fun A => totalElasticPotential (matOf A) x) F (stressE x F) := fun G =>
  ⟨_, (det_near G h).mono fun _ hτ => totalElastic_value hτ x, elasticValue_deriv G h x⟩

/-- the viscous stress -/
noncomputable def stressV (F0 F : Matrix (Fin 2) (Fin 2) ℝ) : Matrix (Fin 2) (Fin 2) ℝ :=
  (2 : ℝ) • (F0 * ((F - F0).transpose * F0 + F0.transpose * (F - F0)))

theorem viscousValue_deriv (F0 F G : Matrix (Fin 2) (Fin 2) ℝ) :
    HasDerivAt (fun τ : ℝ => (∑ i, ∑ j, ((F + τ • G - F0).transpose * F0 + F0.transpose * (F + τ • G - F0)) i j ^ 2) / 2)
      (∑ i, ∑ j, stressV F0 F i j * G i j) 0 := by
  have e : ∀ i j : Fin 2, HasDerivAt
      (fun τ : ℝ => ((F + τ • G - F0).transpose * F0 + F0.transpose * (F + τ • G - F0)) i j)
      ((G.transpose * F0 + F0.transpose * G) i j) 0 := by
    intro i j
    have h : (fun τ : ℝ => ((F + τ • G - F0).transpose * F0 + F0.transpose * (F + τ • G - F0)) i j) =
        fun τ : ℝ => (((F - F0).transpose * F0 + F0.transpose * (F - F0)) + τ • (G.transpose * F0 + F0.transpose * G)) i j := by
      funext τ
      simp [Matrix.mul_apply, Fin.sum_univ_two]
      ring
    rw [h]
    exact hasDerivAt_entry _ _ i j 0
  have h := (HasDerivAt.fun_sum (u := Finset.univ) fun i _ => HasDerivAt.fun_sum (u := Finset.univ) fun j _ => (e i j).pow 2).div_const 2
  refine h.congr_deriv ?_
  simp [Fin.sum_univ_two, stressV, Matrix.mul_apply]
  ring

theorem isStress_viscous (F0 F : Matrix (Fin 2) (Fin 2) ℝ) :
    IsStress (fun A => dissipationPotential (matOf F0) (matOf A)) F (stressV F0 F) := fun G =>
  ⟨_, Filter.Eventually.of_forall fun _ => C51_value F0 _, viscousValue_deriv F0 F G⟩

end

/-- the hyperstress -/
noncomputable def stressH (H : Fin 2 → Fin 2 → Fin 2 → ℝ) : Fin 2 → Fin 2 → Fin 2 → ℝ := fun i j l =>
  3 * Real.sqrt (∑ i, ∑ j, ∑ l, H i j l ^ 2) * H i j l

theorem isHyperStress (H : Fin 2 → Fin 2 → Fin 2 → ℝ) :
    IsHyperStress (fun A => hyperElasticPotential (tenOf A)) H (stressH H) := by
  intro K
  simp only [hyper_eq]
  set s : ℝ → ℝ := fun τ => ∑ i, ∑ j, ∑ l, (H i j l + τ * K i j l) ^ 2 with hs
  have hnn : ∀ τ, 0 ≤ s τ := fun τ => Finset.sum_nonneg fun i _ => Finset.sum_nonneg fun j _ => Finset.sum_nonneg fun l _ => sq_nonneg _
  have hd : HasDerivAt s (∑ i, ∑ j, ∑ l, 2 * H i j l * K i j l) 0 := by
    refine HasDerivAt.fun_sum fun i _ => HasDerivAt.fun_sum fun j _ => HasDerivAt.fun_sum fun l _ => ?_
    have := ((((hasDerivAt_id (0 : ℝ)).mul_const (K i j l)).const_add (H i j l))).pow 2
    refine this.congr_deriv ?_
    simp
  have hp : (fun τ => Real.sqrt (s τ) ^ 3) = fun τ => s τ ^ (3 / 2 : ℝ) := by
    funext τ
    rw [Real.sqrt_eq_rpow, ← Real.rpow_natCast, ← Real.rpow_mul (hnn τ)]
    norm_num
  rw [hp]
  refine (hd.rpow_const (Or.inr (by norm_num))).congr_deriv ?_
  have h0 : s 0 = ∑ i, ∑ j, ∑ l, H i j l ^ 2 := by simp [hs]
  rw [h0, show (3 / 2 : ℝ) - 1 = 1 / 2 by norm_num, ← Real.sqrt_eq_rpow]
  simp only [stressH, Finset.sum_mul]
  refine Finset.sum_congr rfl fun i _ => Finset.sum_congr rfl fun j _ => Finset.sum_congr rfl fun l _ => ?_
  ring

/-! ### lines of arrays -/

theorem along_getD {y z : NdArray} (h : y.data.length = z.data.length) (τ : ℝ) (p : ℕ) :
    (y.along z τ).data.getD p 0 = y.data.getD p 0 + τ * z.data.getD p 0 := by
  simp only [NdArray.along, List.getD_eq_getElem?_getD, List.getElem?_zipWith]
  by_cases hp : p < y.data.length
  · rw [List.getElem?_eq_getElem hp, List.getElem?_eq_getElem (h ▸ hp)]; rfl
  · rw [List.getElem?_eq_none (not_lt.1 hp), List.getElem?_eq_none (h ▸ not_lt.1 hp)]; simp

theorem along_has {y z : NdArray} {shape : List ℕ} (hy : y.Has shape) (hz : z.Has shape) (τ : ℝ) :
    (y.along z τ).Has shape := by
  obtain ⟨h1, h2⟩ := hy
  obtain ⟨h3, h4⟩ := hz
  refine ⟨h1, ?_⟩
  unfold NdArray.Ok at h2 h4 ⊢
  simp only [NdArray.along, List.length_zipWith]
  rw [h2, h4, h1, h3, min_self]

theorem has_length {y z : NdArray} {shape : List ℕ} (hy : y.Has shape) (hz : z.Has shape) : y.data.length = z.data.length := by
  obtain ⟨h1, h2⟩ := hy
  obtain ⟨h3, h4⟩ := hz
  unfold NdArray.Ok at h2 h4
  rw [h2, h4, h1, h3]

theorem along_dof {y z : NdArray} {shape : List ℕ} (hy : y.Has shape) (hz : z.Has shape) (τ : ℝ) (i v : ℕ) (k : Fin 6) :
    (y.along z τ).dof i v k = y.dof i v k + τ * z.dof i v k := by
  have hl := has_length hy hz
  have hs : (y.along z τ).shape = y.shape := rfl
  have hz' : z.shape = y.shape := hz.1.trans hy.1.symm
  unfold NdArray.dof
  rw [hs, hz']
  split
  · exact along_getD hl τ _
  · split
    · exact along_getD hl τ _
    · simp

theorem along_dofForm {y z : NdArray} {shape : List ℕ} (hy : y.Has shape) (hz : z.Has shape) (τ : ℝ) (t : Tri)
    (L : Fin 3 → Fin 6 → ℝ) (i : ℕ) :
    dofForm t L ((y.along z τ).dof i) = dofForm t L (y.dof i) + τ * dofForm t L (z.dof i) := by
  simp only [dofForm, along_dof hy hz, Finset.mul_sum, ← Finset.sum_add_distrib]
  refine Finset.sum_congr rfl fun a _ => Finset.sum_congr rfl fun k _ => ?_
  ring

theorem along_deformed {y z : NdArray} {shape : List ℕ} (hy : y.Has shape) (hz : z.Has shape) (τ : ℝ) (v : ℕ) :
    ((y.along z τ).deformed v).1 = (y.deformed v).1 + τ * (z.deformed v).1 ∧
    ((y.along z τ).deformed v).2 = (y.deformed v).2 + τ * (z.deformed v).2 := by
  have hl := has_length hy hz
  rw [deformed_eq (along_has hy hz τ).1, deformed_eq hy.1, deformed_eq hz.1]
  exact ⟨along_getD hl τ _, along_getD hl τ _⟩

/-! ### the objective -/

variable {g : Grid ℝ} {refined : Option (RefinedGrid ℝ)}

theorem mechObjective_deriv (E : Energetic g refined) {leg : LegGauss} {params : SimParams} {traction : Traction} {time : ℝ}
    {y0 y θ z : NdArray} {v : ℝ} (hy : y.Has (deformShape g refined)) (hz : z.Has (deformShape g refined))
    (h : IsMechObjective leg params traction g refined time y0 y θ v) :
    ∃ (J : ℝ → ℝ) (R : ℝ), (∀ᶠ τ in 𝓝 (0 : ℝ), IsMechObjective leg params traction g refined time y0 (y.along z τ) θ (J τ)) ∧
      HasDerivAt J R 0 ∧ IsForceBalance leg params traction g refined time y0 y θ z R := by
  obtain ⟨E1, d1, hE1, ⟨D0, D1, r, W1, hD0, -, hr, -, -⟩, hnone, hsome⟩ := h
  have hor := hE1.oriented E
  obtain ⟨-, T, re, -, -, hT, hre, -, -⟩ := hE1
  obtain ⟨τ', L, M, F⟩ := E.forms
  obtain ⟨re', hre', hge⟩ := energyRule_good refined
  cases hre.symm.trans hre'
  obtain ⟨r', hr', hg⟩ := dissipationRule_good refined
  cases hr.symm.trans hr'
  obtain ⟨S0, hS0⟩ := E.strains hD0
  have hcall := temp_call E.wf hT
  set x : Tri → Bary ℝ → ℝ := fun t c => c.l1 * θ.data.getD t.1 0 + c.l2 * θ.data.getD t.2.1 0 + c.l3 * θ.data.getD t.2.2 0 with hx
  set S : NdArray → Tri → Bary ℝ → Matrix (Fin 2) (Fin 2) ℝ := fun a t c =>
    Matrix.of fun i j => dofForm (τ' t c) (L t c j) (a.dof i) with hS
  have hSa : ∀ τ t c, S (y.along z τ) t c = S y t c + τ • S z t c := by
    intro τ t c
    ext i j
    simp only [hS, Matrix.of_apply, Matrix.add_apply, Matrix.smul_apply, smul_eq_mul]
    exact along_dofForm hy hz τ _ _ _
  obtain ⟨D, hD, hDS, hDH⟩ := F.deform y hy
  obtain ⟨Dz, hDz, hDzS, hDzH⟩ := F.deform z hz
  have hpos : ∀ t ∈ (energyGrid g refined).triangles, ∀ b ∈ re.points, 0 < (S y t b).det := by
    obtain ⟨D', r', k1, k2, k3⟩ := hor
    cases hD.symm.trans k1
    cases hre.symm.trans k2
    intro t ht b hb
    obtain ⟨A, l1, l2⟩ := k3 t ht b hb
    have := matOf_inj (Except.ok.inj (l1.symm.trans (hDS t ht b (hge.inside b hb).1)))
    rw [this] at l2
    exact l2
  -- elastic
  set We : ℝ → Tri → Bary ℝ → ℝ := fun τ t b =>
    (1 - Real.exp (-5 * x t b)) * wA (S y t b + τ • S z t b) + Real.exp (-5 * x t b) * wM (S y t b + τ • S z t b) with hWe
  have de := hasDerivAt_quad (energyGrid g refined) re (f := We)
    (f' := fun t b => ∑ i, ∑ j, stressE (x t b) (S y t b) i j * S z t b i j) (x := 0)
    fun t ht b hb => elasticValue_deriv (S z t b) (hpos t ht b hb) (x t b)
  have hnear : ∀ᶠ τ in 𝓝 (0 : ℝ), ∀ t ∈ (energyGrid g refined).triangles, ∀ b ∈ re.points, 0 < (S y t b + τ • S z t b).det := by
    have key : ∀ (l : List (Tri × Bary ℝ)), (∀ p ∈ l, 0 < (S y p.1 p.2).det) →
        ∀ᶠ τ in 𝓝 (0 : ℝ), ∀ p ∈ l, 0 < (S y p.1 p.2 + τ • S z p.1 p.2).det := by
      intro l
      induction l with
      | nil => intro _; exact Filter.Eventually.of_forall fun τ p hp => by simp at hp
      | cons a l ih =>
        intro h
        filter_upwards [det_near (S z a.1 a.2) (h a (by simp)), ih fun p hp => h p (by simp [hp])] with τ h1 h2 p hp
        rcases List.mem_cons.1 hp with rfl | hp
        · exact h1
        · exact h2 p hp
    have := key ((energyGrid g refined).triangles ×ˢ re.points) fun p hp => hpos p.1 (List.mem_product.1 hp).1 p.2 (List.mem_product.1 hp).2
    filter_upwards [this] with τ hτ t ht b hb
    exact hτ (t, b) (List.mem_product.2 ⟨ht, hb⟩)
  have he : ∀ᶠ τ in 𝓝 (0 : ℝ), IsElasticEnergy g refined (y.along z τ) θ ((energyGrid g refined).quad re (We τ)) := by
    filter_upwards [hnear] with τ hτ
    obtain ⟨Dτ, k1, k2, -⟩ := F.deform _ (along_has hy hz τ)
    refine ⟨Dτ, T, re, We τ, k1, hT, hre, fun t ht b hb => ?_, rfl⟩
    refine ⟨_, _, k2 t ht b (hge.inside b hb).1, hcall t ht b, ?_⟩
    show totalElasticPotential (matOf (S (y.along z τ) t b)) _ = _
    rw [hSa]
    exact totalElastic_value (hτ t ht b hb) _
  have fe : IsElasticForce g refined y θ z ((energyGrid g refined).quad re fun t b => ∑ i, ∑ j, stressE (x t b) (S y t b) i j * S z t b i j) :=
    ⟨re, S y, S z, fun t b => stressE (x t b) (S y t b), T, x, hre, ⟨D, hD, fun t ht b hb => hDS t ht b (hge.inside b hb).1⟩,
      ⟨Dz, hDz, fun t ht b hb => hDzS t ht b (hge.inside b hb).1⟩, hT,
      fun t ht b hb => ⟨hcall t ht b, isStress_elastic (hpos t ht b hb) _⟩, rfl⟩
  -- dissipation
  set Wd : ℝ → Tri → Bary ℝ → ℝ := fun τ t b => (∑ i, ∑ j,
    ((S y t b + τ • S z t b - S0 t b).transpose * S0 t b + (S0 t b).transpose * (S y t b + τ • S z t b - S0 t b)) i j ^ 2) / 2 with hWd
  have dd := hasDerivAt_quad (energyGrid g refined) r (f := Wd)
    (f' := fun t b => ∑ i, ∑ j, stressV (S0 t b) (S y t b) i j * S z t b i j) (x := 0)
    fun t ht b hb => viscousValue_deriv (S0 t b) (S y t b) (S z t b)
  have hd : ∀ τ, IsDissipation g refined y0 (y.along z τ) ((energyGrid g refined).quad r (Wd τ)) := by
    intro τ
    obtain ⟨Dτ, k1, k2, -⟩ := F.deform _ (along_has hy hz τ)
    refine ⟨D0, Dτ, r, Wd τ, hD0, k1, hr, fun t ht b hb => ?_, rfl⟩
    have hb' := (hg.inside b hb).1
    refine ⟨_, _, hS0 t ht b hb', k2 t ht b hb', ?_⟩
    show dissipationPotential _ (matOf (S (y.along z τ) t b)) = _
    rw [hSa]
    exact C51_value _ _
  have fd : IsViscousForce g refined y0 y z ((energyGrid g refined).quad r fun t b => ∑ i, ∑ j, stressV (S0 t b) (S y t b) i j * S z t b i j) :=
    ⟨r, S0, S y, S z, fun t b => stressV (S0 t b) (S y t b), hr, ⟨D0, hD0, fun t ht b hb => hS0 t ht b (hg.inside b hb).1⟩,
      ⟨D, hD, fun t ht b hb => hDS t ht b (hg.inside b hb).1⟩, ⟨Dz, hDz, fun t ht b hb => hDzS t ht b (hg.inside b hb).1⟩,
      fun t ht b hb => isStress_viscous _ _, rfl⟩
  rcases hreg : params.regularization with _ | κ
  · obtain ⟨-, ⟨q, Tr, hq, hTr, -⟩, -⟩ := hnone hreg
    set w : NdArray → ℝ := fun a => g.edgeQuad g.neumann.edges q fun e s =>
      (s * (Tr e.1).1 + (1 - s) * (Tr e.2).1) * (s * (a.deformed e.1).1 + (1 - s) * (a.deformed e.2).1) +
      (s * (Tr e.1).2 + (1 - s) * (Tr e.2).2) * (s * (a.deformed e.1).2 + (1 - s) * (a.deformed e.2).2) with hw
    have dw : HasDerivAt (fun τ => w (y.along z τ)) (w z) 0 := by
      refine hasDerivAt_edgeQuad _ _ _ fun e he s => ?_
      simp only [(along_deformed hy hz _ _).1, (along_deformed hy hz _ _).2]
      have k : ∀ a b : ℝ, HasDerivAt (fun τ : ℝ => a + τ * b) b 0 := fun a b => by
        simpa using ((hasDerivAt_id (0 : ℝ)).mul_const b).const_add a
      exact ((((k _ _).const_mul s).add ((k _ _).const_mul (1 - s))).const_mul _).add
        ((((k _ _).const_mul s).add ((k _ _).const_mul (1 - s))).const_mul _)
    refine ⟨_, _, ?_, (de.sub dw).add (dd.const_mul params.fps), _, _, fe, fd,
      fun _ => ⟨w z, ⟨q, Tr, hq, hTr, rfl⟩, rfl⟩, (fun κ hκ => by rw [hreg] at hκ; cases hκ)⟩
    filter_upwards [he] with τ hτ
    exact ⟨_, _, hτ, hd τ, fun _ => ⟨w (y.along z τ), ⟨q, Tr, hq, hTr, rfl⟩, rfl⟩, (fun κ hκ => by rw [hreg] at hκ; cases hκ)⟩
  · obtain ⟨r2, -, rfl, -, -⟩ := hsome κ hreg
    obtain ⟨q, hq, hgq⟩ := dunavant5_good
    set Hs : NdArray → Tri → Bary ℝ → Fin 2 → Fin 2 → Fin 2 → ℝ := fun a t b i j l => dofForm (τ' t b) (M t b j l) (a.dof i) with hHs
    have hHa : ∀ τ t c, Hs (y.along z τ) t c = fun i j l => Hs y t c i j l + τ * Hs z t c i j l := by
      intro τ t c
      funext i j l
      exact along_dofForm hy hz τ _ _ _
    have dh := hasDerivAt_quad r2.toGrid q (f := fun τ t b => hyperElasticPotential (tenOf fun i j l => Hs y t b i j l + τ * Hs z t b i j l))
      (f' := fun t b => ∑ i, ∑ j, ∑ l, stressH (Hs y t b) i j l * Hs z t b i j l) (x := 0)
      fun t ht b hb => isHyperStress (Hs y t b) (Hs z t b)
    have fh : IsHyperForce g r2 y z (r2.toGrid.quad q fun t b => ∑ i, ∑ j, ∑ l, stressH (Hs y t b) i j l * Hs z t b i j l) :=
      ⟨q, D, Dz, Hs y, Hs z, fun t b => stressH (Hs y t b), hq, hD, hDz, fun t ht b hb =>
        ⟨hDH (by simp) t ht b (hgq.inside b hb).1, hDzH (by simp) t ht b (hgq.inside b hb).1, isHyperStress _⟩, rfl⟩
    refine ⟨_, _, ?_, (de.add (dh.const_mul κ)).add (dd.const_mul params.fps), _, _, fe, fd,
      (fun h0 => by rw [hreg] at h0; cases h0), fun κ' hκ' => ?_⟩
    · filter_upwards [he] with τ hτ
      refine ⟨_, _, hτ, hd τ, (fun h0 => by rw [hreg] at h0; cases h0), fun κ' hκ' => ?_⟩
      rw [hreg] at hκ'
      cases hκ'
      obtain ⟨Dτ, k1, -, k2⟩ := F.deform _ (along_has hy hz τ)
      refine ⟨r2, _, rfl, ⟨Dτ, q, fun t b => hyperElasticPotential (tenOf (Hs (y.along z τ) t b)), k1, hq, fun t ht b hb =>
        ⟨_, k2 (by simp) t ht b (hgq.inside b hb).1, rfl⟩, rfl⟩, ?_⟩
      simp only [hHa]
      rfl
    · rw [hreg] at hκ'
      cases hκ'
      exact ⟨r2, _, rfl, fh, rfl⟩

end Tve
