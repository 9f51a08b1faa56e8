import Verif.Lemmas.Converge
import Verif.Props.Grid
import Verif.Spec.Converge
import Verif.Props.Sample
import Mathlib.RingTheory.Polynomial.Basic

/-!
# C93 — integrals over the domain
-/

namespace Tve

open MeasureTheory

variable {g : Grid ℝ} {nx ny : ℕ} {s : ℝ}

/-- The integrator of a grid of the library (refined or not), with a rule that is exact up to degree `d`, returns the integral
over the rectangle covered by the grid for every polynomial of degree at most `d`. -/
theorem C93_exact (G : LibraryGrid g nx ny s) (r : TriRule ℝ) (d : ℕ) (hr : r.ExactTo d)
    (hb : ∀ b ∈ r.points, b.Normalized) :
    ∃ I, Integrator.new r g.triangles g.points = .ok I ∧ ∀ F : MvPolynomial (Fin 2) ℝ, F.totalDegree ≤ d →
      I.call (fun t b => .ok (polyFun F (g.pointAt t b).1 (g.pointAt t b).2)) =
        .ok (∫ z in Set.Icc ((0 : ℝ), (0 : ℝ)) (nx * s, ny * s), polyFun F z.1 z.2) := by
  have W := G.wellFormed
  obtain ⟨I, hI, h⟩ := C32_exact r d hr hb g.points.length g.xy g.triangles fun t ht => WF.valid W ht
  rw [← points_planar W] at hI
  refine ⟨I, hI, fun F hF => ?_⟩
  rw [h (fun t b => polyFun F (g.pointAt t b).1 (g.pointAt t b).2) (fun _ => F) (fun _ _ => hF) fun _ _ _ _ => rfl]
  have hc := continuous_polyFun F
  exact congrArg Except.ok (sum_integrals G (hc.continuousOn.integrableOn_compact isCompact_Icc))

/-- The error for a continuous function: if the function varies by at most `ω` over each square of the size of a grid cell and is
bounded by `M`, the integrator is off by at most the area times `ω` times the sum of the absolute values of the
weights (plus what the weights miss of one). -/
theorem C93_error (G : LibraryGrid g nx ny s) (r : TriRule ℝ) (hlen : r.points.length = r.weights.length)
    (hin : ∀ b ∈ r.points, b.Inside) {f : ℝ × ℝ → ℝ} {ω M : ℝ}
    (hf : ContinuousOn f (Set.Icc (0, 0) (nx * s, ny * s)))
    (hω : ∀ z ∈ Set.Icc ((0 : ℝ), (0 : ℝ)) (nx * s, ny * s), ∀ z' ∈ Set.Icc ((0 : ℝ), (0 : ℝ)) (nx * s, ny * s),
      |z.1 - z'.1| ≤ s → |z.2 - z'.2| ≤ s → |f z - f z'| ≤ ω)
    (hM : ∀ z ∈ Set.Icc ((0 : ℝ), (0 : ℝ)) (nx * s, ny * s), |f z| ≤ M) :
    ∃ I v, Integrator.new r g.triangles g.points = .ok I ∧ I.call (fun t b => .ok (f (g.pointAt t b))) = .ok v ∧
      |v - ∫ z in Set.Icc ((0 : ℝ), (0 : ℝ)) (nx * s, ny * s), f z| ≤
        (nx * s) * (ny * s) * (ω * (r.weights.map abs).sum + |r.weights.sum - 1| * M) :=
  ⟨_, _, integrator_ok G.wellFormed r, call_quad _ fun _ _ _ _ => rfl, quad_error G hlen hin hf hω hM⟩

/-- the grid leaves out a strip of at most the grid scale -/
theorem cells_strip {w s : ℝ} (hs : 0 < s) (hw : 0 ≤ w) : (cells w s : ℝ) * s ≤ w ∧ w - s ≤ cells w s * s := by
  have h1 : (cells w s : ℝ) ≤ w / s := Nat.floor_le (div_nonneg hw hs.le)
  have h2 : w / s < cells w s + 1 := Nat.lt_floor_add_one _
  rw [le_div_iff₀ hs] at h1
  rw [div_lt_iff₀ hs] at h2
  constructor <;> linarith

/-- Convergence: for every continuous function on the rectangle of the domain, the value of the integrator on the grids of the
domain tends to the integral over the whole rectangle as the grid scale tends to zero (up to what the weights of the
rule miss of one). -/
theorem C93_convergence (d : RectDomain ℝ) (hw : 0 < d.width) (hh : 0 < d.height) (r : TriRule ℝ)
    (hlen : r.points.length = r.weights.length) (hin : ∀ b ∈ r.points, b.Inside) {f : ℝ × ℝ → ℝ}
    (hf : ContinuousOn f (Set.Icc (0, 0) (d.width, d.height))) {M : ℝ}
    (hM : ∀ z ∈ Set.Icc ((0 : ℝ), (0 : ℝ)) (d.width, d.height), |f z| ≤ M) {ε : ℝ} (hε : 0 < ε) :
    ∃ δ > 0, ∀ s, 0 < s → s < δ → ∀ it g, d.grid it s = .ok g →
      ∃ I v, Integrator.new r g.triangles g.points = .ok I ∧ I.call (fun t b => .ok (f (g.pointAt t b))) = .ok v ∧
        |v - ∫ z in Set.Icc ((0 : ℝ), (0 : ℝ)) (d.width, d.height), f z| ≤
          d.width * d.height * (|r.weights.sum - 1| * M) + ε := by
  set R := Set.Icc ((0 : ℝ), (0 : ℝ)) (d.width, d.height) with hR
  set K := (r.weights.map abs).sum with hK
  have hK0 : 0 ≤ K := List.sum_nonneg fun x hx => by
    obtain ⟨y, -, rfl⟩ := List.mem_map.1 hx
    exact abs_nonneg y
  have hM0 : 0 ≤ M := (abs_nonneg _).trans (hM (0, 0) ⟨le_refl _, ⟨hw.le, hh.le⟩⟩)
  obtain ⟨w1, h1, fix⟩ := d
  simp only at hw hh hR ⊢
  have hcR : IsCompact R := isCompact_Icc
  -- uniform continuity
  set η := ε / (2 * (w1 * h1 * K + 1)) with hη
  have hη0 : 0 < η := by positivity
  have huc := hcR.uniformContinuousOn_of_continuous hf
  rw [Metric.uniformContinuousOn_iff] at huc
  obtain ⟨δ1, hδ1, huc⟩ := huc η hη0
  refine ⟨min (min δ1 (min w1 h1)) (ε / (2 * (M * (w1 + h1) + 1))), by positivity, fun s hs hsδ it g hg => ?_⟩
  have s1 : s < δ1 := hsδ.trans_le ((min_le_left _ _).trans (min_le_left _ _))
  have s2 : s ≤ w1 := (hsδ.trans_le ((min_le_left _ _).trans ((min_le_right _ _).trans (min_le_left _ _)))).le
  have s3 : s ≤ h1 := (hsδ.trans_le ((min_le_left _ _).trans ((min_le_right _ _).trans (min_le_right _ _)))).le
  have s4 : s < ε / (2 * (M * (w1 + h1) + 1)) := hsδ.trans_le (min_le_right _ _)
  have G := LibraryGrid.grid hs s2 s3 hg
  simp only at G
  obtain ⟨cw1, cw2⟩ := cells_strip hs hw.le
  obtain ⟨ch1, ch2⟩ := cells_strip hs hh.le
  set a := (cells w1 s : ℝ) * s with ha
  set b := (cells h1 s : ℝ) * s with hb
  have ha0 : 0 ≤ a := by positivity
  have hb0 : 0 ≤ b := by positivity
  have hsub : Set.Icc ((0 : ℝ), (0 : ℝ)) (a, b) ⊆ R := Set.Icc_subset_Icc le_rfl ⟨cw1, ch1⟩
  obtain ⟨I, v, hI, hv, herr⟩ := C93_error G r hlen hin (f := f) (ω := η) (M := M) (hf.mono hsub)
    (fun z hz z' hz' d1 d2 => by
      have := huc z (hsub hz) z' (hsub hz') (by
        rw [Prod.dist_eq, Real.dist_eq, Real.dist_eq]
        exact (max_le d1 d2).trans_lt s1)
      rw [Real.dist_eq] at this
      exact this.le)
    fun z hz => hM z (hsub hz)
  refine ⟨I, v, hI, hv, ?_⟩
  -- the strip
  have hvol : ∀ x y : ℝ, 0 ≤ x → 0 ≤ y → volume.real (Set.Icc ((0 : ℝ), (0 : ℝ)) (x, y)) = x * y := by
    intro x y hx hy
    rw [← Set.Icc_prod_Icc, measureReal_def, Measure.volume_eq_prod, Measure.prod_prod, Real.volume_Icc, Real.volume_Icc,
      ENNReal.toReal_mul, ENNReal.toReal_ofReal (by linarith), ENNReal.toReal_ofReal (by linarith)]
    ring
  have hint : IntegrableOn f R := hf.integrableOn_compact hcR
  have hstrip : |(∫ z in R, f z) - ∫ z in Set.Icc ((0 : ℝ), (0 : ℝ)) (a, b), f z| ≤ M * (w1 * h1 - a * b) := by
    rw [← setIntegral_sdiff measurableSet_Icc hint hsub, ← Real.norm_eq_abs]
    have hfin : volume R < ⊤ := hcR.measure_lt_top
    refine (norm_setIntegral_le_of_norm_le_const ((measure_mono Set.sdiff_subset).trans_lt hfin)
      fun z hz => hM z hz.1).trans (le_of_eq ?_)
    rw [measureReal_sdiff hsub measurableSet_Icc, hvol _ _ hw.le hh.le, hvol _ _ ha0 hb0]
  have hab : a * b ≤ w1 * h1 := mul_le_mul cw1 ch1 hb0 hw.le
  have harea : w1 * h1 - a * b ≤ s * (w1 + h1) := by nlinarith
  have e1 : a * b * (η * K + |r.weights.sum - 1| * M) ≤ ε / 2 + w1 * h1 * (|r.weights.sum - 1| * M) := by
    have i1 : a * b * (η * K) ≤ ε / 2 := by
      have : a * b * (η * K) ≤ w1 * h1 * (η * K) := mul_le_mul_of_nonneg_right hab (by positivity)
      refine this.trans ?_
      rw [hη]
      rw [show w1 * h1 * (ε / (2 * (w1 * h1 * K + 1)) * K) = (ε / 2) * ((w1 * h1 * K) / (w1 * h1 * K + 1)) by field_simp]
      have : (w1 * h1 * K) / (w1 * h1 * K + 1) ≤ 1 := by rw [div_le_one (by positivity)]; linarith
      nlinarith
    have i2 : a * b * (|r.weights.sum - 1| * M) ≤ w1 * h1 * (|r.weights.sum - 1| * M) :=
      mul_le_mul_of_nonneg_right hab (by positivity)
    linarith
  have e2 : M * (w1 * h1 - a * b) ≤ ε / 2 := by
    have : M * (w1 * h1 - a * b) ≤ M * (s * (w1 + h1)) := mul_le_mul_of_nonneg_left harea hM0
    rw [lt_div_iff₀ (by positivity)] at s4
    nlinarith
  have := abs_sub_le v (∫ z in Set.Icc ((0 : ℝ), (0 : ℝ)) (a, b), f z) (∫ z in R, f z)
  rw [abs_sub_comm (∫ z in Set.Icc ((0 : ℝ), (0 : ℝ)) (a, b), f z)] at this
  linarith

/-! ### boundary -/

theorem side_sum {P : ℕ → ℝ × ℝ} {lb : LP → ℕ} {s : ℝ} (hs : 0 < s) {nx ny : ℕ} (hP : ∀ a, InBox nx ny a → P (lb a) = pos s a)
    {f : ℝ × ℝ → ℝ} (hf : Continuous f) (σ : FixOption) :
    (((sE nx ny σ).map fun a => ((lb a.1, lb a.2) : Edge)).map fun e =>
      edgeLen P e * ∫ t in (0 : ℝ)..1, f (edgePoint (P e.1) (P e.2) t)).sum = sideIntegral (nx * s) (ny * s) f σ := by
  have hor : ∀ (n : ℕ) (F : ℝ → ℝ), Continuous F →
      ((List.range n).map fun i : ℕ => s * ∫ t in (0 : ℝ)..1, F (i * s + (1 - t) * s)).sum = ∫ x in (0 : ℝ)..n * s, F x := by
    intro n F hF
    have step : ∀ i : ℕ, s * ∫ t in (0 : ℝ)..1, F (i * s + (1 - t) * s) = ∫ x in (i * s : ℝ)..((i + 1 : ℕ) : ℝ) * s, F x := by
      intro i
      have h1 : (fun t : ℝ => F (i * s + (1 - t) * s)) = fun t => F ((i + 1) * s - s * t) := by
        funext t; congr 1; ring
      rw [h1, intervalIntegral.integral_comp_sub_mul (f := F) hs.ne', smul_eq_mul, ← mul_assoc, mul_inv_cancel₀ hs.ne', one_mul]
      congr 1
      · ring
      · push_cast; ring
    rw [List.map_congr_left fun i _ => step i]
    induction n with
    | zero => simp
    | succ n ih =>
      rw [List.range_succ, List.map_append, List.sum_append, ih]
      simp only [List.map_cons, List.map_nil, List.sum_cons, List.sum_nil, add_zero]
      exact intervalIntegral.integral_add_adjacent_intervals (hF.intervalIntegrable _ _) (hF.intervalIntegrable _ _)
  have e1 : ∀ (i j : ℕ), Real.sqrt (((pos s (i, j)).1 - (pos s (i + 1, j)).1) ^ 2 + ((pos s (i, j)).2 - (pos s (i + 1, j)).2) ^ 2) = s := by
    intro i j
    simp only [pos]
    push_cast
    rw [show ((i : ℝ) * s - (i + 1) * s) ^ 2 + ((j : ℝ) * s - j * s) ^ 2 = s ^ 2 by ring, Real.sqrt_sq hs.le]
  have e2 : ∀ (i j : ℕ), Real.sqrt (((pos s (i, j)).1 - (pos s (i, j + 1)).1) ^ 2 + ((pos s (i, j)).2 - (pos s (i, j + 1)).2) ^ 2) = s := by
    intro i j
    simp only [pos]
    push_cast
    rw [show ((i : ℝ) * s - i * s) ^ 2 + ((j : ℝ) * s - (j + 1) * s) ^ 2 = s ^ 2 by ring, Real.sqrt_sq hs.le]
  have p1 : ∀ (i j : ℕ) (t : ℝ), edgePoint (pos s (i, j)) (pos s (i + 1, j)) t = (i * s + (1 - t) * s, j * s) := by
    intro i j t
    simp only [edgePoint, pos, Prod.smul_mk, Prod.mk_add_mk, smul_eq_mul]
    push_cast
    ext <;> simp only <;> ring
  have p2 : ∀ (i j : ℕ) (t : ℝ), edgePoint (pos s (i, j)) (pos s (i, j + 1)) t = (i * s, j * s + (1 - t) * s) := by
    intro i j t
    simp only [edgePoint, pos, Prod.smul_mk, Prod.mk_add_mk, smul_eq_mul]
    push_cast
    ext <;> simp only <;> ring
  cases σ with
  | lower =>
    simp only [sE, List.map_map, sideIntegral]
    rw [← hor nx (fun x => f (x, 0)) (by fun_prop)]
    refine congrArg List.sum (List.map_congr_left fun i hi => ?_)
    have hi := List.mem_range.1 hi
    simp only [Function.comp, edgeLen]
    rw [hP (i, 0) ⟨by simp only; omega, by simp only; omega⟩, hP (i + 1, 0) ⟨by simp only; omega, by simp only; omega⟩, e1]
    simp only [p1, Nat.cast_zero, zero_mul]
  | upper =>
    simp only [sE, List.map_map, sideIntegral]
    rw [← hor nx (fun x => f (x, ny * s)) (by fun_prop)]
    refine congrArg List.sum (List.map_congr_left fun i hi => ?_)
    have hi := List.mem_range.1 hi
    simp only [Function.comp, edgeLen]
    rw [hP (i, ny) ⟨by simp only; omega, by simp only; omega⟩, hP (i + 1, ny) ⟨by simp only; omega, by simp only; omega⟩, e1]
    simp only [p1]
  | left =>
    simp only [sE, List.map_map, sideIntegral]
    rw [← hor ny (fun x => f (0, x)) (by fun_prop)]
    refine congrArg List.sum (List.map_congr_left fun i hi => ?_)
    have hi := List.mem_range.1 hi
    simp only [Function.comp, edgeLen]
    rw [hP (0, i) ⟨by simp only; omega, by simp only; omega⟩, hP (0, i + 1) ⟨by simp only; omega, by simp only; omega⟩, e2]
    simp only [p2, Nat.cast_zero, zero_mul]
  | right =>
    simp only [sE, List.map_map, sideIntegral]
    rw [← hor ny (fun x => f (nx * s, x)) (by fun_prop)]
    refine congrArg List.sum (List.map_congr_left fun i hi => ?_)
    have hi := List.mem_range.1 hi
    simp only [Function.comp, edgeLen]
    rw [hP (nx, i) ⟨by simp only; omega, by simp only; omega⟩, hP (nx, i + 1) ⟨by simp only; omega, by simp only; omega⟩, e2]
    simp only [p2]
  | unknown _ => simp [sE, sideIntegral]

theorem sE_disjoint {nx ny : ℕ} (hx : 1 ≤ nx) (hy : 1 ≤ ny) {σ τ : FixOption} {e : LP × LP} (h1 : e ∈ sE nx ny σ)
    (h2 : e ∈ sE nx ny τ) (hσ : σ ∈ allSides) (hτ : τ ∈ allSides) : σ = τ := by
  simp only [allSides, List.mem_cons, List.not_mem_nil, or_false] at hσ hτ
  rcases hσ with rfl | rfl | rfl | rfl <;> rcases hτ with rfl | rfl | rfl | rfl <;> first
    | rfl
    | (exfalso
       simp only [sE, List.mem_map, List.mem_range] at h1 h2
       obtain ⟨i, hi, rfl⟩ := h1
       obtain ⟨j, hj, h⟩ := h2
       simp only [Prod.mk.injEq] at h
       omega)

theorem edges_sum {es : List Edge} (hes : es.Nodup) {S : List FixOption} (hS : S.Nodup) (hS' : ∀ σ ∈ S, σ ∈ allSides)
    {P : List LP} {nx ny : ℕ} (hx : 1 ≤ nx) (hy : 1 ≤ ny) (hP : ∀ a, InBox nx ny a → a ∈ P)
    (hmem : ∀ e, e ∈ es ↔ ∃ σ ∈ S, ∃ a, SideEdge nx ny σ a ∧ e = labE P a) (F : Edge → ℝ) :
    (es.map F).sum = (S.map fun σ => (((sE nx ny σ).map (labE P)).map F).sum).sum := by
  have hbox : ∀ {σ a}, a ∈ sE nx ny σ → a.1 ∈ P ∧ a.2 ∈ P := by
    intro σ a ha
    have := latEdge_mem (sideEdge_lat (dg := true) (mem_sE.1 ha))
    exact ⟨hP _ this.1, hP _ this.2⟩
  have hinj : ∀ {σ τ a b}, a ∈ sE nx ny σ → b ∈ sE nx ny τ → labE P a = labE P b → a = b := by
    intro σ τ a b ha hb h
    obtain ⟨a1, a2⟩ := hbox ha
    obtain ⟨b1, b2⟩ := hbox hb
    simp only [labE, Prod.mk.injEq] at h
    exact Prod.ext (lab_inj a1 h.1) (lab_inj a2 h.2)
  have hperm : es.Perm (S.flatMap fun σ => (sE nx ny σ).map (labE P)) := by
    refine (List.perm_ext_iff_of_nodup hes ?_).2 ?_
    · rw [List.nodup_flatMap]
      constructor
      · intro σ _
        exact List.Nodup.map_on (fun a ha b hb h => hinj ha hb h) (nodup_sE _ _ _)
      · refine hS.imp_of_mem ?_
        intro σ τ hσ hτ hne
        rw [Function.onFun, List.disjoint_left]
        intro e he he'
        obtain ⟨a, ha, rfl⟩ := List.mem_map.1 he
        obtain ⟨b, hb, h⟩ := List.mem_map.1 he'
        cases hinj hb ha h
        exact hne (sE_disjoint hx hy ha hb (hS' _ hσ) (hS' _ hτ))
    · intro e
      rw [hmem, List.mem_flatMap]
      simp only [List.mem_map, mem_sE]
      constructor
      · rintro ⟨σ, hσ, a, ha, rfl⟩; exact ⟨σ, hσ, a, ha, rfl⟩
      · rintro ⟨σ, hσ, a, ha, rfl⟩; exact ⟨σ, hσ, a, ha, rfl⟩
  rw [(hperm.map F).sum_eq, List.map_flatMap]
  clear hperm hmem hS hS'
  induction S with
  | nil => rfl
  | cons σ S ih => rw [List.flatMap_cons, List.sum_append, ih, List.map_cons, List.sum_cons]

theorem sideEdge_side {nx ny : ℕ} {σ : FixOption} {a : LP × LP} (h : SideEdge nx ny σ a) : σ ∈ allSides := by
  cases σ <;> first | exact h.elim | simp [allSides]

/-- The boundary edges of a grid of the library (refined or not) make up the four sides of the rectangle: the integrals over the
boundary edges sum up to the integral over the rim. -/
theorem C93_boundary (G : LibraryGrid g nx ny s) {f : ℝ × ℝ → ℝ} (hf : Continuous f) :
    (g.boundary.edges.map fun e => edgeLen g.xy e * ∫ t in (0 : ℝ)..1, f (edgePoint (g.xy e.1) (g.xy e.2) t)).sum =
      (allSides.map (sideIntegral (nx * s) (ny * s) f)).sum := by
  obtain ⟨P, dg, E, T, BV, BE, L⟩ := G.lattice
  rw [edges_sum L.nodup_bedges (S := allSides) (by decide) (fun _ h => h) L.hx L.hy (P := P) (fun a ha => (L.memP a).2 ha)
    (fun e => by
      rw [L.bedges, List.mem_map]
      constructor
      · rintro ⟨a, ha, rfl⟩
        obtain ⟨σ, hσ⟩ := (L.memBE a).1 ha
        exact ⟨σ, sideEdge_side hσ, a, hσ, rfl⟩
      · rintro ⟨σ, -, a, ha, rfl⟩
        exact ⟨a, (L.memBE a).2 ⟨σ, ha⟩, rfl⟩)]
  refine congrArg List.sum (List.map_congr_left fun σ _ => ?_)
  exact side_sum L.h_pos (lb := lab P) (fun a ha => xy_of_at (L.at_lab ((L.memP a).2 ha))) hf σ

/-- The Dirichlet edges make up the fixed sides, the Neumann edges the other sides. -/
theorem C93_parts {it : SetIter} {d : RectDomain ℝ} (hs : 0 < s) (hw : s ≤ d.width) (hh : s ≤ d.height)
    (hg : d.grid it s = .ok g) {f : ℝ × ℝ → ℝ} (hf : Continuous f) :
    (g.dirichlet.edges.map fun e => edgeLen g.xy e * ∫ t in (0 : ℝ)..1, f (edgePoint (g.xy e.1) (g.xy e.2) t)).sum =
      ((allSides.filter (· ∈ d.fix.options)).map
        (sideIntegral (cells d.width s * s) (cells d.height s * s) f)).sum ∧
    (g.neumann.edges.map fun e => edgeLen g.xy e * ∫ t in (0 : ℝ)..1, f (edgePoint (g.xy e.1) (g.xy e.2) t)).sum =
      ((allSides.filter (· ∉ d.fix.options)).map
        (sideIntegral (cells d.width s * s) (cells d.height s * s) f)).sum := by
  obtain ⟨ts, R⟩ := rectSpec_unique (hs.le.trans hw) (hs.le.trans hh) hs hg
  have hx := one_le_cells hs hw
  have hy := one_le_cells hs hh
  have hP : ∀ a, InBox (cells d.width s) (cells d.height s) a → a ∈ rowMajor (cells d.width s + 1) (cells d.height s + 1) :=
    fun a ha => (mem_rowMajor a).2 ha
  have hxy : ∀ a, InBox (cells d.width s) (cells d.height s) a →
      g.xy (lab (rowMajor (cells d.width s + 1) (cells d.height s + 1)) a) = pos s a := fun a ha => xy_of_at (R.at_lab ha)
  constructor
  · rw [edges_sum R.nodupDE (S := allSides.filter (· ∈ d.fix.options)) (List.Nodup.filter _ (by decide))
      (fun σ h => (List.mem_filter.1 h).1) hx hy hP (fun e => by
        rw [R.memDE]
        constructor
        · rintro ⟨σ, h, a, ha, rfl⟩
          exact ⟨σ, List.mem_filter.2 ⟨sideEdge_side ha, by simpa using h⟩, a, ha, rfl⟩
        · rintro ⟨σ, h, a, ha, rfl⟩
          exact ⟨σ, by simpa using (List.mem_filter.1 h).2, a, ha, rfl⟩)]
    exact congrArg List.sum (List.map_congr_left fun σ _ => side_sum hs hxy hf σ)
  · rw [edges_sum R.nodupNE (S := allSides.filter (· ∉ d.fix.options)) (List.Nodup.filter _ (by decide))
      (fun σ h => (List.mem_filter.1 h).1) hx hy hP (fun e => by
        rw [R.memNE, R.memBE, R.memDE]
        constructor
        · rintro ⟨⟨σ, a, ha, rfl⟩, h⟩
          refine ⟨σ, List.mem_filter.2 ⟨sideEdge_side ha, ?_⟩, a, ha, rfl⟩
          simp only [decide_eq_true_eq]
          exact fun h' => h ⟨σ, h', a, ha, rfl⟩
        · rintro ⟨σ, h, a, ha, rfl⟩
          refine ⟨⟨σ, a, ha, rfl⟩, ?_⟩
          rintro ⟨τ, hτ, b, hb, hab⟩
          have ha' := mem_sE.2 ha
          have hb' := mem_sE.2 hb
          have k1 := latEdge_mem (sideEdge_lat (dg := true) ha)
          simp only [labE, Prod.mk.injEq] at hab
          obtain rfl : a = b := Prod.ext (lab_inj (hP _ k1.1) hab.1) (lab_inj (hP _ k1.2) hab.2)
          cases sE_disjoint hx hy ha' hb' (sideEdge_side ha) (sideEdge_side hb)
          have := (List.mem_filter.1 h).2
          simp only [decide_eq_true_eq] at this
          exact this hτ)]
    exact congrArg List.sum (List.map_congr_left fun σ _ => side_sum hs hxy hf σ)

/-- The boundary integrator over the Neumann edges, with a Gauss rule exact up to degree `m`, returns the integral over the sides
that are not fixed for all polynomials of degree at most `m`; in particular the integral of one is their length. -/
theorem C93_neumann_integrator {it : SetIter} {d : RectDomain ℝ} (hs : 0 < s) (hw : s ≤ d.width) (hh : s ≤ d.height)
    (hg : d.grid it s = .ok g) (lg : ℕ → PyM (List ℝ × List ℝ)) (deg m : ℕ) (Q W : List ℝ) (hlg : lg deg = .ok (Q, W))
    (hex : LegExact (Q, W) m) :
    ∃ I, BoundaryIntegrator.new lg deg g.neumann.edges g.points = .ok I ∧
      ∀ F : MvPolynomial (Fin 2) ℝ, F.totalDegree ≤ m →
        I.call (fun e t => .ok (polyFun F (edgePoint (g.xy e.1) (g.xy e.2) t).1 (edgePoint (g.xy e.1) (g.xy e.2) t).2)) =
          .ok ((allSides.filter (· ∉ d.fix.options)).map
            (sideIntegral (cells d.width s * s) (cells d.height s * s) fun z => polyFun F z.1 z.2)).sum := by
  have hW := C09_indices_valid (hs.le.trans hw) (hs.le.trans hh) hs hg
  obtain ⟨I, hI, hv, -⟩ := C33_exact lg deg m Q W hlg hex g.points.length g.xy g.neumann.edges fun e he => by
    have := hW.neumann.2 e he
    exact ⟨WF.lt hW (hW.edges e this).1, WF.lt hW (hW.edges e this).2⟩
  rw [← points_planar hW] at hI
  refine ⟨I, hI, fun F hF => ?_⟩
  let p : Edge → Polynomial ℝ := fun e => MvPolynomial.aeval
    ![Polynomial.C (g.xy e.2).1 + Polynomial.C ((g.xy e.1).1 - (g.xy e.2).1) * Polynomial.X,
      Polynomial.C (g.xy e.2).2 + Polynomial.C ((g.xy e.1).2 - (g.xy e.2).2) * Polynomial.X] F
  have hp : ∀ e t, (p e).eval t = polyFun F (edgePoint (g.xy e.1) (g.xy e.2) t).1 (edgePoint (g.xy e.1) (g.xy e.2) t).2 := by
    intro e t
    simp only [p, polyFun]
    rw [MvPolynomial.aeval_def, ← Polynomial.coe_evalRingHom, MvPolynomial.hom_eval₂, ← MvPolynomial.eval₂_id F]
    have h1 : (Polynomial.evalRingHom t).comp (algebraMap ℝ (Polynomial ℝ)) = RingHom.id ℝ := by ext; simp
    rw [h1]
    congr 1
    funext i
    fin_cases i
    · simp [edgePoint]; ring
    · simp [edgePoint]; ring
  have hdeg : ∀ e ∈ g.neumann.edges, (p e).natDegree ≤ m := by
    intro e _
    have := MvPolynomial.aeval_natDegree_le (m := m) (n := 1) F hF
      ![Polynomial.C (g.xy e.2).1 + Polynomial.C ((g.xy e.1).1 - (g.xy e.2).1) * Polynomial.X,
      Polynomial.C (g.xy e.2).2 + Polynomial.C ((g.xy e.1).2 - (g.xy e.2).2) * Polynomial.X] (by
        intro i
        fin_cases i <;> simp <;> compute_degree)
    rw [mul_one] at this
    exact this
  have h1 := hv p hdeg
  simp only [hp] at h1
  rw [h1, ← (C93_parts hs hw hh hg (continuous_polyFun F)).2]

/-- the centroid rule integrates linear functions exactly on the sample grid (and all grids); every continuous function in the
limit; the boundary integrals of the sample grid run over its right and upper sides -/
example (it : SetIter) : (∃ r I, centroid ℝ = .ok r ∧ Integrator.new r (sampleGrid it).triangles (sampleGrid it).points = .ok I ∧
      I.call (fun t b => .ok (polyFun (MvPolynomial.X 0) ((sampleGrid it).pointAt t b).1 ((sampleGrid it).pointAt t b).2)) =
        .ok (∫ z in Set.Icc ((0 : ℝ), (0 : ℝ)) (((2 : ℕ) : ℝ) * (1 / 2), ((2 : ℕ) : ℝ) * (1 / 2)), z.1)) ∧
    (∃ r, centroid ℝ = .ok r ∧ ∀ ε > 0, ∃ δ > 0, ∀ s, 0 < s → s < δ → ∀ it g, sampleDomain.grid it s = .ok g →
      ∃ I v, Integrator.new r g.triangles g.points = .ok I ∧
        I.call (fun t b => .ok (Real.sin ((g.pointAt t b).1 * (g.pointAt t b).2))) = .ok v ∧
        |v - ∫ z in Set.Icc ((0 : ℝ), (0 : ℝ)) (5 / 4, 1), Real.sin (z.1 * z.2)| ≤ ε) ∧
    ((sampleGrid it).neumann.edges.map fun e => edgeLen (sampleGrid it).xy e * ∫ _t in (0 : ℝ)..1, (1 : ℝ)).sum = 2 := by
  obtain ⟨r, hr, good, hsum⟩ := centroid_good
  refine ⟨⟨r, ?_⟩, ⟨r, hr, fun ε hε => ?_⟩, ?_⟩
  · obtain ⟨r', hr', hex⟩ := C29_centroid
    cases hr.symm.trans hr'
    obtain ⟨I, hI, h⟩ := C93_exact (sampleGrid_library it) r 1 hex fun b hb => (good.inside b hb).1
    refine ⟨I, hr, hI, ?_⟩
    rw [h (MvPolynomial.X 0) (by simp)]
    simp [polyFun]
  · obtain ⟨δ, hδ, h⟩ := C93_convergence sampleDomain (by norm_num [sampleDomain]) (by norm_num [sampleDomain]) r good.len
      good.inside (f := fun z => Real.sin (z.1 * z.2)) (Real.continuous_sin.comp (by fun_prop)).continuousOn (M := 1)
      (fun z _ => Real.abs_sin_le_one _) hε
    refine ⟨δ, hδ, fun s h1 h2 it g hg => ?_⟩
    obtain ⟨I, v, k1, k2, k3⟩ := h s h1 h2 it g hg
    refine ⟨I, v, k1, k2, k3.trans (le_of_eq ?_)⟩
    rw [hsum]
    simp
  · have h := (C93_parts (f := fun _ => 1) (by norm_num) (by norm_num [sampleDomain]) (by norm_num [sampleDomain])
      (sampleGrid_eq it) continuous_const).2
    rw [sample_cells.1, sample_cells.2] at h
    have hf : allSides.filter (fun x => decide (x ∉ sampleDomain.fix.options)) = [.right, .upper] := by
      simp only [sampleDomain, Fix.options]
      decide
    rw [hf] at h
    rw [h]
    norm_num [sideIntegral]

end Tve
