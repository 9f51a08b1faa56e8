import Verif.Lemmas.Rest
import Verif.Props.Rigid
import Verif.Props.FirstLaw

/-!
# Undeformed bodies: the competition of the elastic energy and the dissipation
-/

namespace Tve
open Helpers

/-- the dissipation of the change of the strain from 1 to `F` -/
def dissOne (F : Matrix (Fin 2) (Fin 2) ℝ) : ℝ := 2 * ((F 0 0 - 1) ^ 2 + (F 1 1 - 1) ^ 2) + (F 0 1 + F 1 0) ^ 2

theorem dissOne_eq (F : Matrix (Fin 2) (Fin 2) ℝ) :
    dissipationPotential (matOf (1 : Matrix (Fin 2) (Fin 2) ℝ)) (matOf F) = .ok (dissOne F) := by
  have := C51_value (n := 1) 1 F
  rw [Matrix.transpose_one, Matrix.mul_one, Matrix.one_mul] at this
  rw [this]
  congr 1
  have e : ∑ i : Fin 2, ∑ j : Fin 2, ((F - 1).transpose + (F - 1)) i j ^ 2 = 2 * dissOne F := by
    simp only [Fin.sum_univ_two, Matrix.add_apply, Matrix.transpose_apply, Matrix.sub_apply, dissOne]
    norm_num [Matrix.one_apply]
    ring
  show (∑ i : Fin 2, ∑ j : Fin 2, ((F - 1).transpose + (F - 1)) i j ^ 2) / 2 = _
  rw [e]
  ring

theorem dissOne_nonneg (F : Matrix (Fin 2) (Fin 2) ℝ) : 0 ≤ dissOne F := by unfold dissOne; positivity

/-- half the dissipation outweighs the gain of the martensite potential -/
theorem martensite_key {F : Matrix (Fin 2) (Fin 2) ℝ} (h : 0 < F.det) :
    0 ≤ wM F - 1 / 16 + dissOne F / 2 ∧ (wM F - 1 / 16 + dissOne F / 2 ≤ 0 → F = 1) := by
  have hJ := h.ne'
  have hJd : F.det = F 0 0 * F 1 1 - F 0 1 * F 1 0 := Matrix.det_fin_two F
  set J := F.det with hJ'
  set s := fsq F / J - 2 with hs
  set T := F 0 0 + F 1 1 - 2 with hT
  have e1 : J * s = (F 0 0 - F 1 1) ^ 2 + (F 0 1 + F 1 0) ^ 2 := by
    rw [hs, mul_sub, mul_div_cancel₀ _ hJ, hJd, fsq]; ring
  have s0 : 0 ≤ s := by
    have : 0 ≤ J * s := by rw [e1]; positivity
    exact nonneg_of_mul_nonneg_right this h
  have e2 : dissOne F / 2 = J * s / 2 + T ^ 2 / 2 := by rw [e1, dissOne, hT]; ring
  have e3 : J = (1 + T / 2) ^ 2 - J * s / 4 + ((F 0 1 - F 1 0) / 2) ^ 2 := by rw [e1, hT]; linarith
  have hM : wM F - 1 / 16 = s ^ 2 - s / 2 + (J ^ 2 + 1 / J ^ 2 - 2) ^ 2 := by
    rw [wM, ← hJ', show fsq F / J = s + 2 by rw [hs]; ring]; ring
  have hq : 0 ≤ (J ^ 2 + 1 / J ^ 2 - 2) ^ 2 := sq_nonneg _
  have low : s ^ 2 / 2 + T ^ 2 / 4 + (J ^ 2 + 1 / J ^ 2 - 2) ^ 2 ≤ wM F - 1 / 16 + dissOne F / 2 := by
    rw [hM, e2]
    rcases le_or_gt 1 J with hge | hlt
    · nlinarith [sq_nonneg s, sq_nonneg T, mul_nonneg s0 (sub_nonneg.2 hge)]
    · have k1 : T - s / 4 ≤ J - 1 := by nlinarith [sq_nonneg T, sq_nonneg ((F 0 1 - F 1 0) / 2), mul_nonneg s0 (sub_nonneg.2 hlt.le)]
      have k2 := mul_le_mul_of_nonneg_left k1 s0
      nlinarith [sq_nonneg (s + T), sq_nonneg (s + 2 * T), sq_nonneg s, sq_nonneg T]
  have p1 := sq_nonneg s
  have p2 := sq_nonneg T
  refine ⟨by linarith, fun hle => ?_⟩
  have h1 : s = 0 := pow_eq_zero_iff two_ne_zero |>.1 (by linarith : s ^ 2 = 0)
  have h2 : T = 0 := pow_eq_zero_iff two_ne_zero |>.1 (by linarith : T ^ 2 = 0)
  have h3 : J ^ 2 + 1 / J ^ 2 - 2 = 0 := pow_eq_zero_iff two_ne_zero |>.1 (by linarith : (J ^ 2 + 1 / J ^ 2 - 2) ^ 2 = 0)
  have h4 : J = 1 := by
    field_simp at h3
    have : (J ^ 2 - 1) ^ 2 = 0 := by linarith
    have := pow_eq_zero_iff two_ne_zero |>.1 this
    have : (J - 1) * (J + 1) = 0 := by linarith
    rcases mul_eq_zero.1 this with h | h <;> linarith
  rw [h1, mul_zero] at e1
  have f1 : (F 0 0 - F 1 1) ^ 2 = 0 := by linarith [sq_nonneg (F 0 0 - F 1 1), sq_nonneg (F 0 1 + F 1 0)]
  have f2 : (F 0 1 + F 1 0) ^ 2 = 0 := by linarith [sq_nonneg (F 0 0 - F 1 1), sq_nonneg (F 0 1 + F 1 0)]
  have f1' := pow_eq_zero_iff two_ne_zero |>.1 f1
  have f2' := pow_eq_zero_iff two_ne_zero |>.1 f2
  rw [h1, h2, h4] at e3
  have f3 : ((F 0 1 - F 1 0) / 2) ^ 2 = 0 := by linarith
  have f3' := pow_eq_zero_iff two_ne_zero |>.1 f3
  ext i j
  fin_cases i <;> fin_cases j <;> simp <;> linarith

/-- if three times the austenite fraction plus twice the frame rate is at least one, the elastic energy and the dissipation
together are smallest for the undeformed state -/
theorem stay_key {F : Matrix (Fin 2) (Fin 2) ℝ} (h : 0 < F.det) {α f : ℝ} (h0 : 0 ≤ α) (h1 : α ≤ 1) (hf : 0 < f)
    (hc : 1 ≤ 3 * α + 2 * f) :
    0 ≤ α * wA F + (1 - α) * (wM F - 1 / 16) + f * dissOne F ∧
      (α * wA F + (1 - α) * (wM F - 1 / 16) + f * dissOne F ≤ 0 → F = 1) := by
  obtain ⟨a1, a2⟩ := transition_key h
  obtain ⟨m1, m2⟩ := martensite_key h
  have a3 := wA_nonneg h
  have d0 := dissOne_nonneg F
  have rot : wA F = 0 → dissOne F = 0 → F = 1 := fun z1 z2 =>
    rotation_one ((wA_rotation h).1 z1) (by rw [dissOne_eq, z2])
  rcases lt_or_ge (3 * α) 1 with hlt | hge
  · have e : α * wA F + (1 - α) * (wM F - 1 / 16) + f * dissOne F =
        α * (wA F + 2 * (wM F - 1 / 16)) + (1 - 3 * α) * (wM F - 1 / 16 + dissOne F / 2) + (f - (1 - 3 * α) / 2) * dissOne F := by ring
    rw [e]
    have p1 := mul_nonneg h0 a1
    have p2 := mul_nonneg (sub_nonneg.2 hlt.le) m1
    have p3 := mul_nonneg (show 0 ≤ f - (1 - 3 * α) / 2 by linarith) d0
    refine ⟨by linarith, fun hle => m2 ?_⟩
    by_contra hn
    push Not at hn
    have := mul_pos (sub_pos.2 hlt) hn
    linarith
  · have e : α * wA F + (1 - α) * (wM F - 1 / 16) + f * dissOne F =
        (1 - α) / 2 * (wA F + 2 * (wM F - 1 / 16)) + (3 * α - 1) / 2 * wA F + f * dissOne F := by ring
    rw [e]
    have p1 := mul_nonneg (show 0 ≤ (1 - α) / 2 by linarith) a1
    have p2 := mul_nonneg (show 0 ≤ (3 * α - 1) / 2 by linarith) a3
    have p3 := mul_nonneg hf.le d0
    refine ⟨by linarith, fun hle => ?_⟩
    have z2 : dissOne F = 0 := by
      have : f * dissOne F = 0 := by linarith
      exact (mul_eq_zero.1 this).resolve_left hf.ne'
    rcases eq_or_lt_of_le hge with heq | hgt
    · refine rot (a2 ?_) z2
      by_contra hn
      push Not at hn
      have := mul_pos (show 0 < (1 - α) / 2 by linarith) hn
      linarith
    · refine rot ?_ z2
      have : (3 * α - 1) / 2 * wA F = 0 := by linarith
      exact (mul_eq_zero.1 this).resolve_left (by linarith)

/-- below the threshold a small simple shear lowers the sum of elastic energy and dissipation -/
theorem shear_key {β f : ℝ} (hc : 3 * β + 2 * f < 1) : ∃ δ > 0, ∀ c : ℝ, |c| ≤ δ → ∀ α ≤ β,
    ∀ F : Matrix (Fin 2) (Fin 2) ℝ, F = !![1, c; 0, 1] ∨ F = !![1, 0; c, 1] →
      F.det = 1 ∧ α * wA F + (1 - α) * (wM F - 1 / 16) + f * dissOne F ≤ 0 ∧
        (c ≠ 0 → α * wA F + (1 - α) * (wM F - 1 / 16) + f * dissOne F < 0) := by
  have hB : 0 < |1 - β| + 1 := by positivity
  have hpos : 0 < (1 - 3 * β - 2 * f) / (4 * (|1 - β| + 1)) := by apply div_pos <;> linarith
  refine ⟨min 1 ((1 - 3 * β - 2 * f) / (4 * (|1 - β| + 1))), lt_min one_pos hpos, fun c hcd α hα F hF => ?_⟩
  have c1 := hcd.trans (min_le_left _ _)
  have c2 := hcd.trans (min_le_right _ _)
  rw [le_div_iff₀ (by linarith)] at c2
  have hdet : F.det = 1 := by rcases hF with rfl | rfl <;> simp [Matrix.det_fin_two]
  have hfs : fsq F = 2 + c ^ 2 := by rcases hF with rfl | rfl <;> simp [fsq] <;> ring
  have hA : wA F = c ^ 2 := by rw [wA, hdet, hfs]; simp
  have hM : wM F - 1 / 16 = c ^ 4 - c ^ 2 / 2 := by rw [wM, hdet, hfs]; ring
  have hd : dissOne F = c ^ 2 := by rcases hF with rfl | rfl <;> simp [dissOne]
  rw [hA, hM, hd]
  have e : α * c ^ 2 + (1 - α) * (c ^ 4 - c ^ 2 / 2) + f * c ^ 2 =
      -(c ^ 2 * ((1 - 3 * α - 2 * f) / 2 - c ^ 2 * (1 - α))) := by ring
  have cc : c ^ 2 ≤ |c| := by
    rw [← sq_abs]
    have := abs_nonneg c
    nlinarith
  have c0 := sq_nonneg c
  have key : 0 < (1 - 3 * α - 2 * f) / 2 - c ^ 2 * (1 - α) := by
    have k1 : c ^ 2 * (1 - β) ≤ (1 - 3 * β - 2 * f) / 4 := by
      have := le_abs_self (1 - β)
      have := abs_nonneg (1 - β)
      have := abs_nonneg c
      calc c ^ 2 * (1 - β) ≤ c ^ 2 * |1 - β| := by apply mul_le_mul_of_nonneg_left _ c0; assumption
        _ ≤ |c| * |1 - β| := by apply mul_le_mul_of_nonneg_right cc; assumption
        _ ≤ _ := by nlinarith
    have k2 : c ^ 2 ≤ 1 := cc.trans c1
    nlinarith
  rw [e]
  refine ⟨hdet, by have := mul_nonneg c0 key.le; linarith, fun hne => ?_⟩
  have : 0 < c ^ 2 := by positivity
  have := mul_pos this key
  linarith

/-! ### the whole body -/

section
variable {g : Grid ℝ} {refined : Option (RefinedGrid ℝ)}

theorem quad_tri (G : Grid ℝ) {r : TriRule ℝ} (hl : r.points.length = r.weights.length) (f : Tri → ℝ) :
    G.quad r (fun t _ => f t) = r.weights.sum * (G.triangles.map fun t => triArea G.xy t * f t).sum := by
  rw [Grid.quad, ← List.sum_map_mul_left]
  refine congrArg List.sum (List.map_congr_left fun t _ => ?_)
  have h1 : ((r.points.zip r.weights).map fun bw => bw.2 * f t) = r.weights.map (· * f t) := by
    rw [show (fun bw : Bary ℝ × ℝ => bw.2 * f t) = (· * f t) ∘ Prod.snd from rfl, ← List.map_map,
      List.map_snd_zip (by omega)]
  rw [h1, List.sum_map_mul_right]
  simp
  ring

/-- the dissipation may be integrated with the quadrature rule of the elastic energy -/
theorem Energetic.diss_rule (E : Energetic g refined) {r : TriRule ℝ} (hr : energyRule refined = .ok r) {y0 y : NdArray} {d : ℝ}
    (h : IsDissipation g refined y0 y d) {D0 D : Deformation} (h0 : deformOf g refined y0 = .ok D0)
    (h1 : deformOf g refined y = .ok D) : ∃ W : Tri → Bary ℝ → ℝ,
      (∀ t ∈ (energyGrid g refined).triangles, ∀ b ∈ r.points, ∃ F0 F, D0.strain t b = .ok F0 ∧ D.strain t b = .ok F ∧
        dissipationPotential F0 F = .ok (W t b)) ∧ d = (energyGrid g refined).quad r W := by
  obtain ⟨D0', D', rd, W, k1, k2, hrd, hW, rfl⟩ := h
  cases h0.symm.trans k1
  cases h1.symm.trans k2
  cases E with
  | coarse G =>
    obtain ⟨r1, e1, R1, s1⟩ := dunavant2_good
    cases hr.symm.trans e1
    obtain ⟨r2, e2, R2, s2⟩ := centroid_good
    cases hrd.symm.trans e2
    obtain ⟨b', hb'⟩ := List.exists_mem_of_ne_nil _ R2.ne
    have same : ∀ y D, deformOf g none y = .ok D → ∀ t ∈ g.triangles, ∀ b b' : Bary ℝ, b.Normalized → b'.Normalized →
        D.strain t b = D.strain t b' := by
      intro y D h t ht b b' hb hb'
      rw [deformOf, bind_eq_ok] at h
      obtain ⟨A, -, h⟩ := h
      rw [bind_eq_ok] at h
      obtain ⟨B, -, h⟩ := h
      have := p1_strains G h
      rw [this t ht b hb, this t ht b' hb']
      rfl
    refine ⟨fun t _ => W t b', fun t ht b hb => ?_, ?_⟩
    · obtain ⟨F0, F, f1, f2, f3⟩ := hW t ht b' hb'
      exact ⟨F0, F, (same _ _ h0 t ht b b' (R1.inside b hb).1 (R2.inside b' hb').1).trans f1,
        (same _ _ h1 t ht b b' (R1.inside b hb).1 (R2.inside b' hb').1).trans f2, f3⟩
    · rw [quad_tri _ R1.len, s1, ← s2, ← quad_tri _ R2.len]
      refine quad_congr fun t ht b hb => ?_
      obtain ⟨F0, F, f1, f2, f3⟩ := hW t ht b hb
      obtain ⟨F0', F', f4, f5, f6⟩ := hW t ht b' hb'
      rw [same _ _ h0 t ht b b' (R2.inside b hb).1 (R2.inside b' hb').1, f4] at f1
      rw [same _ _ h1 t ht b b' (R2.inside b hb).1 (R2.inside b' hb').1, f5] at f2
      cases f1
      cases f2
      exact Except.ok.inj (f3.symm.trans f6)
  | fine G hn hs hr0 =>
    cases hr.symm.trans hrd
    exact ⟨W, hW, rfl⟩

theorem temp_le (W : g.WellFormed) {u : List ℝ} {T : Interp} (hT : P1Interpolation g u = .ok T) {m : ℝ} (hu : ∀ x ∈ u, x ≤ m)
    {t : Tri} (ht : t ∈ g.triangles) {c : Bary ℝ} (hc : c.Inside) : ∃ x, T.call t c = .ok x ∧ x ≤ m := by
  refine ⟨_, temp_call W hT t ht c, ?_⟩
  obtain ⟨hl, -⟩ := P1_of hT
  have hv := WF.valid W ht
  have hn : g.points.length = u.length := by rw [hl, W.vertices, List.length_range]
  have key : ∀ v, v < g.points.length → u.getD v 0 ≤ m := by
    intro v hv
    rw [hn] at hv
    simp only [List.getD_eq_getElem?_getD, hv, List.getElem?_eq_getElem, Option.getD_some]
    exact hu _ (List.getElem_mem _)
  obtain ⟨h0, h1, h2, h3⟩ := hc
  have h0 : c.l1 + c.l2 + c.l3 = 1 := h0
  obtain ⟨v1, v2, v3⟩ := hv
  have a1 := mul_le_mul_of_nonneg_left (key _ v1) h1
  have a2 := mul_le_mul_of_nonneg_left (key _ v2) h2
  have a3 := mul_le_mul_of_nonneg_left (key _ v3) h3
  have : m = c.l1 * m + c.l2 * m + c.l3 * m := by rw [← add_mul, ← add_mul, h0, one_mul]
  linarith

/-- energy and dissipation of a change of a deformation with strain 1, pointwise -/
theorem Energetic.from_one (E : Energetic g refined) {y0 y θ : NdArray} {E0 E1 d f : ℝ} (h0 : Undeformed g refined y0)
    (e0 : IsElasticEnergy g refined y0 θ E0) (e1 : IsElasticEnergy g refined y θ E1) (hd : IsDissipation g refined y0 y d) :
    ∃ (D : Deformation) (T : Interp) (r : TriRule ℝ) (F : Tri → Bary ℝ → Matrix (Fin 2) (Fin 2) ℝ) (x : Tri → Bary ℝ → ℝ),
      deformOf g refined y = .ok D ∧ P1Interpolation (energyGrid g refined) θ.data = .ok T ∧ energyRule refined = .ok r ∧
      (∀ t ∈ (energyGrid g refined).triangles, ∀ b ∈ r.points, D.strain t b = .ok (matOf (F t b)) ∧ 0 < (F t b).det ∧
        T.call t b = .ok (x t b)) ∧
      E1 + f * d - E0 = (energyGrid g refined).quad r fun t b => (1 - Real.exp (-5 * x t b)) * wA (F t b) +
        (1 - (1 - Real.exp (-5 * x t b))) * (wM (F t b) - 1 / 16) + f * dissOne (F t b) := by
  have ho := e1.oriented E
  obtain ⟨D0, r, hD0, hr, hF0⟩ := h0
  obtain ⟨D, r', hD, hr', hF⟩ := ho
  cases hr.symm.trans hr'
  obtain ⟨D0', T, r', W0, k1, hT, k2, hW0, rfl⟩ := e0
  cases hD0.symm.trans k1
  cases hr.symm.trans k2
  obtain ⟨D', T', r', W, k1, k3, k2, hW, rfl⟩ := e1
  cases hD.symm.trans k1
  cases hr.symm.trans k2
  cases hT.symm.trans k3
  obtain ⟨Wd, hWd, rfl⟩ := E.diss_rule hr hd hD0 hD
  obtain ⟨r', k1, R⟩ := energyRule_good refined
  cases hr.symm.trans k1
  obtain ⟨S, hS⟩ := E.strains hD
  refine ⟨D, T, r, S, fun t b => (T.call t b).toOption.getD 0, hD, hT, hr, fun t ht b hb => ?_, ?_⟩
  · obtain ⟨F, x, f4, f5, f6⟩ := hW t ht b hb
    obtain ⟨F', f7, f8⟩ := hF t ht b hb
    have f9 := hS t ht b (R.inside b hb).1
    cases matOf_inj (Except.ok.inj (f9.symm.trans f7))
    exact ⟨f9, f8, by show T.call t b = .ok ((T.call t b).toOption.getD 0); rw [f5]; rfl⟩
  · rw [add_sub_right_comm, ← quad_sub, ← quad_mul, ← quad_add]
    refine quad_congr fun t ht b hb => ?_
    obtain ⟨F0, x, f1, f2, f3⟩ := hW0 t ht b hb
    obtain ⟨F, x', f4, f5, f6⟩ := hW t ht b hb
    cases f2.symm.trans f5
    cases f1.symm.trans (hF0 t ht b hb)
    obtain ⟨F', f7, f8⟩ := hF t ht b hb
    have f9 := hS t ht b (R.inside b hb).1
    cases f4.symm.trans f9
    cases matOf_inj (Except.ok.inj (f9.symm.trans f7))
    obtain ⟨F0, F, f1, f2, f10⟩ := hWd t ht b hb
    cases f1.symm.trans (hF0 t ht b hb)
    cases f2.symm.trans f9
    rw [dissOne_eq] at f10
    rw [totalElastic_value f8] at f6
    rw [totalElastic_value (by simp)] at f3
    rw [← Except.ok.inj f6, ← Except.ok.inj f3, ← Except.ok.inj f10]
    have hx : (T.call t b).toOption.getD 0 = x := by rw [f5]; rfl
    simp only [hx]
    have z1 : wA 1 = 0 := by norm_num [wA, fsq]
    have z2 : wM 1 = 1 / 16 := by norm_num [wM, fsq]
    rw [z1, z2]
    ring

end

end Tve
