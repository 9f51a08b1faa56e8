import Verif.Lemmas.SimilarObjective
import Verif.Props.Cold
import Verif.Props.FirstLaw
import Verif.Props.Optimal
import Verif.Props.SimState
import Verif.Spec.Similar

/-!
# C101: units of length and symmetries
-/

namespace Tve
open Helpers

/-! ### grids -/

section
variable {d d' : RectDomain ℝ} {s : ℝ} {it it' : SetIter} {g g' : Grid ℝ}

theorem cells_mul {κ : ℝ} (hκ : 0 < κ) (w s : ℝ) : cells (κ * w) (κ * s) = cells w s := by
  unfold cells
  rw [mul_div_mul_left _ _ hκ.ne']

/-- **C101** (magnified grids). The grid of a rectangle that is `κ` times as large, with edges that are `κ` times as long, is the
magnified grid. -/
theorem C101_magnify {κ : ℝ} (hκ : 0 < κ) (hs : 0 < s) (hw : s ≤ d.width) (hh : s ≤ d.height) (hw' : d'.width = κ * d.width)
    (hh' : d'.height = κ * d.height) (hfix : ∀ f, f ∈ d'.fix.options ↔ f ∈ d.fix.options) (hg : d.grid it s = .ok g)
    (hg' : d'.grid it' (κ * s) = .ok g') : ∃ σ, Grid.Image (.magnify κ) σ g g' := by
  obtain ⟨ts, R⟩ := rectSpec_unique (hs.le.trans hw) (hs.le.trans hh) hs hg
  obtain ⟨ts', R'⟩ := rectSpec_unique (d := d') (by rw [hw']; exact (mul_pos hκ (hs.trans_le hw)).le)
    (by rw [hh']; exact (mul_pos hκ (hs.trans_le hh)).le) (mul_pos hκ hs) hg'
  rw [hw', hh', cells_mul hκ, cells_mul hκ] at R'
  exact ⟨_, (latImage_magnify _ _ s κ).image R R' fun f _ => (hfix f).symm⟩

/-- **C101** (turned grids). The grid of a rectangle with the opposite sides fixed is the grid turned by half a turn. -/
theorem C101_turn (hs : 0 < s) (hw : s ≤ d.width) (hh : s ≤ d.height) (hw' : d'.width = d.width)
    (hh' : d'.height = d.height) (hfix : ∀ f, (∀ u, f ≠ .unknown u) → (f.turned ∈ d'.fix.options ↔ f ∈ d.fix.options))
    (hg : d.grid it s = .ok g) (hg' : d'.grid it' s = .ok g') :
    ∃ σ, Grid.Image (.turn (cells d.width s * s) (cells d.height s * s)) σ g g' := by
  obtain ⟨ts, R⟩ := rectSpec_unique (hs.le.trans hw) (hs.le.trans hh) hs hg
  obtain ⟨ts', R'⟩ := rectSpec_unique (d := d') (by rw [hw']; exact hs.le.trans hw) (by rw [hh']; exact hs.le.trans hh) hs hg'
  rw [hw', hh'] at R'
  exact ⟨_, (latImage_turn _ _ s).image R R' fun f hf => (hfix f hf).symm⟩

/-- **C101** (exchanged axes). The grid of a rectangle with exchanged width and height, and with the lower side fixed instead of the
left one, and so on, is the grid with exchanged axes. -/
theorem C101_exchange (hs : 0 < s) (hw : s ≤ d.width) (hh : s ≤ d.height) (hw' : d'.width = d.height)
    (hh' : d'.height = d.width) (hfix : ∀ f, (∀ u, f ≠ .unknown u) → (f.exchanged ∈ d'.fix.options ↔ f ∈ d.fix.options))
    (hg : d.grid it s = .ok g) (hg' : d'.grid it' s = .ok g') : ∃ σ, Grid.Image .exchange σ g g' := by
  obtain ⟨ts, R⟩ := rectSpec_unique (hs.le.trans hw) (hs.le.trans hh) hs hg
  obtain ⟨ts', R'⟩ := rectSpec_unique (d := d') (by rw [hw']; exact hs.le.trans hh) (by rw [hh']; exact hs.le.trans hw) hs hg'
  rw [hw', hh'] at R'
  exact ⟨_, (latImage_exchange _ _ s).image R R' fun f hf => (hfix f hf).symm⟩

end

/-! ### simulations -/

section
variable {solver solver' : Solver} {domain domain' : RectDomain ℝ} {params params' : SimParams} {ext ext' : ExtTemp}
  {traction traction' : Traction} {s s' : Sim} {T : Similarity} {σ : Vertex → Vertex} {leg : LegGauss}

/-- the facts about simulations without regularization used below -/
theorem Sim.Reachable.plain (hs : s.Reachable solver domain params ext traction) (hr : params.regularization = none) :
    s.refined = none ∧ (∃ nx ny h, LibraryGrid s.grid nx ny h) ∧
    (∀ v, IsEndpoint v s.grid.neumann.edges → v ∈ s.grid.neumann.vertices) ∧ 0 < s.grid.points.length ∧
    ∀ st ∈ s.steps, st.yData.Has [s.grid.points.length, 2] ∧ st.thetaData.Has [s.grid.points.length] := by
  obtain ⟨m0, t0, c⟩ := hs.context
  obtain ⟨it, hg⟩ := c.grid
  obtain ⟨Sh, ⟨n, U⟩, F⟩ := c.setup.simShape hg c.refined c.mech0
  obtain ⟨a1, a2, a3, a4, a5, a6, a7⟩ := mechanicalStep_facts U F c.mech0
  obtain ⟨G, h1, h2⟩ := c.setup.grids hg c.refined
  obtain ⟨-, -, e1, e2⟩ := a6 hr
  refine ⟨h1 hr, ⟨_, _, _, G⟩, (C15_neumann_vertices_partial c.setup.facts.2.2.2.1 c.setup.width c.setup.height hg).2.2.1,
    U.num ▸ U.pos, fun st hst => ?_⟩
  have := c.has st hst
  rwa [e1, e2, ← U.num] at this

/-- the two grids of corresponding simulations -/
theorem similar_sims (hs : s.Reachable solver domain params ext traction) (hr : params.regularization = none)
    (hs' : s'.Reachable solver' domain' params' ext' traction') (hr' : params'.regularization = none) (hκ : T.κ ≠ 0)
    (I : Grid.Image T σ s.grid s'.grid) : Similar T σ s.grid s'.grid := by
  obtain ⟨-, ⟨nx, ny, h, G⟩, -⟩ := hs.plain hr
  obtain ⟨-, ⟨nx', ny', h', G'⟩, -⟩ := hs'.plain hr'
  exact I.similar hκ G G'

/-- **C101** (initial states). The initial states of corresponding simulations correspond. -/
theorem C101_initial (hs : s.Reachable solver domain params ext traction) (hr : params.regularization = none)
    (hs' : s'.Reachable solver' domain' params' ext' traction') (hr' : params'.regularization = none) (hκ : T.κ ≠ 0)
    (I : Grid.Image T σ s.grid s'.grid) (ht : params'.initialTemperature = params.initialTemperature) :
    ∃ a a', s.steps[0]? = some a ∧ s'.steps[0]? = some a' ∧
      NdArray.ImageDeformation T σ s.grid.points.length a.yData a'.yData ∧
      NdArray.ImageTemperature σ s.grid.points.length a.thetaData a'.thetaData := by
  have S := similar_sims hs hr hs' hr' hκ I
  obtain ⟨e, -, -, -, H⟩ := hs.plain hr
  obtain ⟨e', -, -, -, H'⟩ := hs'.plain hr'
  obtain ⟨a, h1, h2, h3, -⟩ := C68_initial hs
  obtain ⟨a', h1', h2', h3', -⟩ := C68_initial hs'
  obtain ⟨k1, k2⟩ := H a (List.mem_of_getElem? h1)
  obtain ⟨k1', k2'⟩ := H' a' (List.mem_of_getElem? h1')
  rw [S.len] at k1' k2'
  refine ⟨a, a', h1, h1', ⟨k1, k1', fun v hv => ?_⟩, ⟨k2, k2', fun v hv => ?_⟩⟩
  · have hv' := (mem_vertices S.wf).2 hv
    rw [h2 v hv', h2' _ (S.maps v hv'), S.xy v hv']
  · have hv' := (mem_vertices S.wf).2 hv
    rw [h3, h3', e, e']
    have l1 : (energyGrid s.grid none).vertices.length = s.grid.points.length := length_vertices S.wf
    have l2 : (energyGrid s'.grid none).vertices.length = s.grid.points.length := (length_vertices S.wf').trans S.len
    rw [l1, l2, ht, List.getD_eq_getElem?_getD, List.getD_eq_getElem?_getD, List.getElem?_replicate, List.getElem?_replicate,
      if_pos hv, if_pos (S.mem hv').2]

/-- **C101** (elastic energy). The elastic energy of the image of a deformation, at the same temperatures, is the energy of the
deformation times the square of the magnification; one is defined if and only if the other is. -/
theorem C101_elastic (hs : s.Reachable solver domain params ext traction) (hr : params.regularization = none)
    (hs' : s'.Reachable solver' domain' params' ext' traction') (hr' : params'.regularization = none) (hκ : T.κ ≠ 0)
    (I : Grid.Image T σ s.grid s'.grid) {y y' θ θ' : NdArray} (hy : NdArray.ImageDeformation T σ s.grid.points.length y y')
    (hθ : NdArray.ImageTemperature σ s.grid.points.length θ θ') (E : ℝ) :
    IsElasticEnergy s.grid s.refined y θ E ↔ IsElasticEnergy s'.grid s'.refined y' θ' (T.κ ^ 2 * E) := by
  rw [(hs.plain hr).1, (hs'.plain hr').1]
  exact (similar_sims hs hr hs' hr' hκ I).elastic_image hy hθ E

/-- **C101** (dissipation). The dissipation is multiplied by the square of the magnification. -/
theorem C101_dissipation (hs : s.Reachable solver domain params ext traction) (hr : params.regularization = none)
    (hs' : s'.Reachable solver' domain' params' ext' traction') (hr' : params'.regularization = none) (hκ : T.κ ≠ 0)
    (I : Grid.Image T σ s.grid s'.grid) {y0 y0' y y' : NdArray}
    (hy0 : NdArray.ImageDeformation T σ s.grid.points.length y0 y0') (hy : NdArray.ImageDeformation T σ s.grid.points.length y y')
    (d : ℝ) : IsDissipation s.grid s.refined y0 y d ↔ IsDissipation s'.grid s'.refined y0' y' (T.κ ^ 2 * d) := by
  rw [(hs.plain hr).1, (hs'.plain hr').1]
  exact (similar_sims hs hr hs' hr' hκ I).dissipation_image hy0 hy d

/-- **C101** (mechanical objective). With the turned traction at the image points, the objective of the mechanical step is
multiplied by the square of the magnification, up to a constant `C` that does not depend on the deformations and is zero if the
origin is not moved. -/
theorem C101_mechanical (hs : s.Reachable solver domain params ext traction) (hr : params.regularization = none)
    (hs' : s'.Reachable solver' domain' params' ext' traction') (hr' : params'.regularization = none) (hκ : T.κ ≠ 0)
    (I : Grid.Image T σ s.grid s'.grid) (hl : LegMidpoint leg) (ht : Traction.Image T traction traction')
    (hf : params'.fps = params.fps) (time : ℝ) :
    ∃ C, (T.c = 0 → C = 0) ∧ ∀ y0 y0' y y' θ θ', NdArray.ImageDeformation T σ s.grid.points.length y0 y0' →
      NdArray.ImageDeformation T σ s.grid.points.length y y' → NdArray.ImageTemperature σ s.grid.points.length θ θ' → ∀ v,
      IsMechObjective leg params traction s.grid s.refined time y0 y θ v ↔
        IsMechObjective leg params' traction' s'.grid s'.refined time y0' y' θ' (T.κ ^ 2 * v - C) := by
  obtain ⟨e, -, hN, -⟩ := hs.plain hr
  obtain ⟨e', -, hN', -⟩ := hs'.plain hr'
  rw [e, e']
  exact (similar_sims hs hr hs' hr' hκ I).mech_image hN hN' hl ht hf hr hr' time

/-- **C101** (thermal objective). Half a turn and an exchange of the axes do not change the objective of the thermal step. -/
theorem C101_thermal (hs : s.Reachable solver domain params ext traction) (hr : params.regularization = none)
    (hs' : s'.Reachable solver' domain' params' ext' traction') (hr' : params'.regularization = none) (hκ : T.κ = 1 ∨ T.κ = -1)
    (I : Grid.Image T σ s.grid s'.grid) (hl : LegMidpoint leg) (hf : params'.fps = params.fps) {time : ℝ}
    {y0 y0' y y' θ0 θ0' θ θ' : NdArray} (hy0 : NdArray.ImageDeformation T σ s.grid.points.length y0 y0')
    (hy : NdArray.ImageDeformation T σ s.grid.points.length y y')
    (hθ0 : NdArray.ImageTemperature σ s.grid.points.length θ0 θ0') (hθ : NdArray.ImageTemperature σ s.grid.points.length θ θ') (v : ℝ) :
    IsThermObjective leg params ext s.grid s.refined time y0 y θ0 θ v ↔
      IsThermObjective leg params' ext s'.grid s'.refined time y0' y' θ0' θ' v := by
  have h2 : T.κ ^ 2 = 1 := by rcases hκ with h | h <;> rw [h] <;> norm_num
  have h0 : T.κ ≠ 0 := by rcases hκ with h | h <;> rw [h] <;> norm_num
  rw [(hs.plain hr).1, (hs'.plain hr').1]
  exact (similar_sims hs hr hs' hr' h0 I).therm_image h2 hl hf hr hr' hy0 hy hθ0 hθ v

/-! ### optimal steps -/

theorem data_entry {y : NdArray} {n : ℕ} (h : y.Has [n, 2]) {i : ℕ} {w : ℝ} (hi : y.data[i]? = some w) :
    i / 2 < n ∧ w = if i % 2 = 0 then (y.deformed (i / 2)).1 else (y.deformed (i / 2)).2 := by
  have hl : y.data.length = n * 2 := by have := h.2; rw [NdArray.Ok, h.1] at this; simpa using this
  have h1 : i < y.data.length := by
    by_contra hn
    rw [List.getElem?_eq_none (not_lt.1 hn)] at hi
    cases hi
  refine ⟨by omega, ?_⟩
  have hw : y.data.getD i 0 = w := by rw [List.getD_eq_getElem?_getD, hi]; rfl
  rw [deformed_2 h, NdArray.at2, NdArray.at2]
  split_ifs with h0
  · simp only
    rw [show i / 2 * 2 + 0 = i by omega, hw]
  · simp only
    rw [show i / 2 * 2 + 1 = i by omega, hw]

theorem entry_data {y : NdArray} {n : ℕ} (h : y.Has [n, 2]) {v : ℕ} (hv : v < n) :
    y.data[v * 2]? = some (y.deformed v).1 ∧ y.data[v * 2 + 1]? = some (y.deformed v).2 := by
  have hl : y.data.length = n * 2 := by have := h.2; rw [NdArray.Ok, h.1] at this; simpa using this
  rw [deformed_2 h, NdArray.at2, NdArray.at2, List.getElem?_eq_getElem (by omega), List.getElem?_eq_getElem (by omega),
    List.getD_eq_getElem?_getD, List.getD_eq_getElem?_getD, List.getElem?_eq_getElem (by omega),
    List.getElem?_eq_getElem (by omega)]
  exact ⟨rfl, rfl⟩

section
variable {g g' : Grid ℝ}

/-- every deformation has an image -/
theorem Similar.exists_image (S : Similar T σ g g') (hn : 0 < g.points.length) {y : NdArray} (hy : y.Has [g.points.length, 2]) :
    ∃ y', NdArray.ImageDeformation T σ g.points.length y y' := by
  classical
  set τ : Vertex → Vertex := fun v' => if h : ∃ v ∈ g.vertices, σ v = v' then h.choose else 0 with hτ
  have hτσ : ∀ v ∈ g.vertices, τ (σ v) = v := by
    intro v hv
    have h : ∃ w ∈ g.vertices, σ w = σ v := ⟨v, hv, rfl⟩
    simp only [hτ, dif_pos h]
    exact S.inj _ h.choose_spec.1 _ hv h.choose_spec.2
  set A := (List.range g.points.length).map fun v' => (T.map (y.deformed (τ v'))).1 with hA
  set B := (List.range g.points.length).map fun v' => (T.map (y.deformed (τ v'))).2 with hB
  have lA : A.length = g.points.length := by simp [hA]
  have lB : B.length = g.points.length := by simp [hB]
  refine ⟨P1Mech.pairs A B, hy, NdArray.has_pairs lA lB hn, fun v hv => ?_⟩
  have hv' := (mem_vertices S.wf).2 hv
  have hw := (S.mem hv').2
  rw [deformed_2 (NdArray.has_pairs lA lB hn), (NdArray.at2_pairs lA lB hw).1, (NdArray.at2_pairs lA lB hw).2, hA, hB,
    getD_range _ hw, getD_range _ hw, hτσ v hv']

/-- every deformation is an image -/
theorem Similar.exists_preimage (S : Similar T σ g g') (hn : 0 < g.points.length) {y' : NdArray}
    (hy : y'.Has [g.points.length, 2]) : ∃ y, NdArray.ImageDeformation T σ g.points.length y y' := by
  set A := (List.range g.points.length).map fun v => (T.inv (y'.deformed (σ v))).1 with hA
  set B := (List.range g.points.length).map fun v => (T.inv (y'.deformed (σ v))).2 with hB
  have lA : A.length = g.points.length := by simp [hA]
  have lB : B.length = g.points.length := by simp [hB]
  refine ⟨P1Mech.pairs A B, NdArray.has_pairs lA lB hn, hy, fun v hv => ?_⟩
  rw [deformed_2 (NdArray.has_pairs lA lB hn), (NdArray.at2_pairs lA lB hv).1, (NdArray.at2_pairs lA lB hv).2, hA, hB,
    getD_range _ hv, getD_range _ hv]
  exact (Similarity.map_inv S.ne _).symm

/-- two deformations are close in all coordinates if and only if their images are -/
theorem map_near (hκ : T.κ ≠ 0) {p q : ℝ × ℝ} {r : ℝ} :
    (|(T.map p).1 - (T.map q).1| ≤ |T.κ| * r ∧ |(T.map p).2 - (T.map q).2| ≤ |T.κ| * r) ↔ |p.1 - q.1| ≤ r ∧ |p.2 - q.2| ≤ r := by
  have k := abs_pos.2 hκ
  have e : ∀ a b c : ℝ, |T.κ * a + c - (T.κ * b + c)| ≤ |T.κ| * r ↔ |a - b| ≤ r := by
    intro a b c
    rw [show T.κ * a + c - (T.κ * b + c) = T.κ * (a - b) by ring, abs_mul]
    exact mul_le_mul_iff_right₀ k
  unfold Similarity.map Similarity.dir
  cases T.swap
  · simp only [Bool.false_eq_true, if_false, e]
  · simp only [if_true, e]
    exact and_comm

end

/-- **C101** (optimal deformations). Let two simulations correspond under a similarity of the plane that multiplies all lengths by
`|κ|`: the grids, the tractions, and the search radius, with the same number of steps per time. If two recorded steps correspond and
both solvers answer the next mechanical problems optimally, then the image of the next deformation of the first simulation is as
good as the next deformation of the second: both have the same objective in the second simulation. -/
theorem C101_optimal (hs : s.Healthy solver domain params ext traction) (hr : params.regularization = none)
    (hs' : s'.Healthy solver' domain' params' ext' traction') (hr' : params'.regularization = none) (hκ : T.κ ≠ 0)
    (I : Grid.Image T σ s.grid s'.grid) (hl : LegMidpoint leg) (ht : Traction.Image T traction traction')
    (hf : params'.fps = params.fps) (hrad : params'.searchRadius = |T.κ| * params.searchRadius)
    (hfx : solver.RespectsFixed) (hbd : solver.RespectsBounds) (hfx' : solver'.RespectsFixed) (hbd' : solver'.RespectsBounds)
    {k : ℕ} {a b a' b' : Step} (ha : s.steps[k]? = some a) (hb : s.steps[k + 1]? = some b)
    (ha' : s'.steps[k]? = some a') (hb' : s'.steps[k + 1]? = some b') {p p' : Problem} (hp : s.calls[2 * k]? = some p)
    (hp' : s'.calls[2 * k]? = some p') (hopt : p.IsOptimal leg (solver (s.calls.take (2 * k)) p))
    (hopt' : p'.IsOptimal leg (solver' (s'.calls.take (2 * k)) p'))
    (hy : NdArray.ImageDeformation T σ s.grid.points.length a.yData a'.yData)
    (hθ : NdArray.ImageTemperature σ s.grid.points.length a.thetaData a'.thetaData) :
    ∃ y', NdArray.ImageDeformation T σ s.grid.points.length b.yData y' ∧
      ∃ v, IsMechObjective leg params' traction' s'.grid s'.refined (k / params'.fps) a'.yData y' a'.thetaData v ∧
        IsMechObjective leg params' traction' s'.grid s'.refined (k / params'.fps) a'.yData b'.yData a'.thetaData v := by
  have hR := hs.reachable
  have hR' := hs'.reachable
  have S := similar_sims hR hr hR' hr' hκ I
  obtain ⟨e, -, hN, hn, H⟩ := hR.plain hr
  obtain ⟨e', -, hN', hn', H'⟩ := hR'.plain hr'
  have ma := List.mem_of_getElem? ha
  have mb := List.mem_of_getElem? hb
  have ma' := List.mem_of_getElem? ha'
  have mb' := List.mem_of_getElem? hb'
  have Hb := (H b mb).1
  have Hb' := (H' b' mb').1
  have Ha := (H a ma).1
  have Ha' := (H' a' ma').1
  rw [S.len] at Hb' Ha'
  obtain ⟨yb', hyb'⟩ := S.exists_image hn Hb
  obtain ⟨yb, hyb⟩ := S.exists_preimage hn Hb'
  have hq := midpoint_rule hl
  obtain ⟨C, -, MI⟩ := C101_mechanical hR hr hR' hr' hκ I hl ht hf (k / params.fps)
  -- closeness to the previous step
  have near : ∀ v < s.grid.points.length, |(b.yData.deformed v).1 - (a.yData.deformed v).1| ≤ params.searchRadius ∧
      |(b.yData.deformed v).2 - (a.yData.deformed v).2| ≤ params.searchRadius := by
    intro v hv
    have := (C58_step hs hbd ha hb).1
    rw [List.forall₂_iff_get] at this
    obtain ⟨i1, i2⟩ := entry_data Ha hv
    obtain ⟨j1, j2⟩ := entry_data Hb hv
    obtain ⟨x1, x2⟩ := List.getElem?_eq_some_iff.1 i1
    obtain ⟨x3, x4⟩ := List.getElem?_eq_some_iff.1 i2
    obtain ⟨z1, z2⟩ := List.getElem?_eq_some_iff.1 j1
    obtain ⟨z3, z4⟩ := List.getElem?_eq_some_iff.1 j2
    have c1 := this.2 _ x1 z1
    have c2 := this.2 _ x3 z3
    simp only [List.get_eq_getElem, x2, x4, z2, z4] at c1 c2
    exact ⟨c1, c2⟩
  have near' : ∀ v < s.grid.points.length, |(b'.yData.deformed v).1 - (a'.yData.deformed v).1| ≤ params'.searchRadius ∧
      |(b'.yData.deformed v).2 - (a'.yData.deformed v).2| ≤ params'.searchRadius := by
    intro v hv
    have := (C58_step hs' hbd' ha' hb').1
    rw [List.forall₂_iff_get] at this
    obtain ⟨i1, i2⟩ := entry_data Ha' hv
    obtain ⟨j1, j2⟩ := entry_data Hb' hv
    obtain ⟨x1, x2⟩ := List.getElem?_eq_some_iff.1 i1
    obtain ⟨x3, x4⟩ := List.getElem?_eq_some_iff.1 i2
    obtain ⟨z1, z2⟩ := List.getElem?_eq_some_iff.1 j1
    obtain ⟨z3, z4⟩ := List.getElem?_eq_some_iff.1 j2
    have c1 := this.2 _ x1 z1
    have c2 := this.2 _ x3 z3
    simp only [List.get_eq_getElem, x2, x4, z2, z4] at c1 c2
    exact ⟨c1, c2⟩
  -- fixed vertices
  have fixd : ∀ v ∈ s.grid.dirichlet.vertices, b.yData.deformed v = a.yData.deformed v := by
    intro v hv
    obtain ⟨z, hz⟩ := S.wf.planar v ((mem_vertices S.wf).1 (S.wf.dirichlet.1 v hv))
    rw [C57_fixed_boundary hR hfx mb hv hz, C57_fixed_boundary hR hfx ma hv hz]
  have fixd' : ∀ v ∈ s'.grid.dirichlet.vertices, b'.yData.deformed v = a'.yData.deformed v := by
    intro v hv
    obtain ⟨z, hz⟩ := S.wf'.planar v ((mem_vertices S.wf').1 (S.wf'.dirichlet.1 v hv))
    rw [C57_fixed_boundary hR' hfx' mb' hv hz, C57_fixed_boundary hR' hfx' ma' hv hz]
  have sh : deformShape s.grid s.refined = [s.grid.points.length, 2] := by
    rw [e, deformShape, length_vertices S.wf]
  have sh' : deformShape s'.grid s'.refined = [s.grid.points.length, 2] := by
    rw [e', deformShape, length_vertices S.wf', S.len]
  have vo : ∀ (n i : ℕ), vertexOf [n, 2] i = i / 2 := fun _ _ => rfl
  have rad0 : 0 < |T.κ| := abs_pos.2 hκ
  -- the first comparison: the image of `b`
  obtain ⟨m0', t0', c', -⟩ := hs'.history
  obtain ⟨m0, t0, c, -⟩ := hs.history
  have ob : Oriented s.grid s.refined b.yData := by
    obtain ⟨p1, h1, -, h2, -⟩ := C63_objective hs hq ha hb
    cases h1.symm.trans hp
    obtain ⟨-, v, hv, -⟩ := hopt
    exact ((h2 v).1 hv).oriented c.energetic
  have ob' : Oriented s'.grid s'.refined b'.yData := by
    obtain ⟨p1, h1, -, h2, -⟩ := C63_objective hs' hq ha' hb'
    cases h1.symm.trans hp'
    obtain ⟨-, v, hv, -⟩ := hopt'
    exact ((h2 v).1 hv).oriented c'.energetic
  obtain ⟨v1, w1, k1, k2, k3⟩ := mech_beats hs' hq ha' hb' hp' hopt' (y' := yb') (by rw [sh']; exact hyb'.2.1)
    (fun i u v hu hv => by
      obtain ⟨i1, rfl⟩ := data_entry Ha' hu
      obtain ⟨-, rfl⟩ := data_entry hyb'.2.1 hv
      obtain ⟨x, hx, hxi⟩ := S.surj (i / 2) ((mem_vertices S.wf').2 (by rw [S.len]; exact i1))
      have hx' := (mem_vertices S.wf).1 hx
      rw [← hxi, hyb'.2.2 x hx', hy.2.2 x hx', hrad]
      have := (map_near (T := T) hκ).2 (near x hx')
      split_ifs
      · exact this.1
      · exact this.2)
    (fun i u v hm _ hu hv => by
      obtain ⟨i1, rfl⟩ := data_entry Ha' hu
      obtain ⟨-, rfl⟩ := data_entry hyb'.2.1 hv
      obtain ⟨x, hx, hxi⟩ := S.surj (i / 2) ((mem_vertices S.wf').2 (by rw [S.len]; exact i1))
      have hx' := (mem_vertices S.wf).1 hx
      rw [sh', vo, ← hxi, ← S.im.dirichletVertices x hx] at hm
      rw [← hxi, hyb'.2.2 x hx', hy.2.2 x hx', fixd x hm])
    (fun h => absurd e' h) (by rw [e'] at *; rw [e] at ob; exact (S.oriented_image hyb').1 ob)
  obtain ⟨v2, w2, l1, l2, l3⟩ := mech_beats hs hq ha hb hp hopt (y' := yb) (by rw [sh]; exact hyb.1)
    (fun i u v hu hv => by
      obtain ⟨i1, rfl⟩ := data_entry Ha hu
      obtain ⟨-, rfl⟩ := data_entry hyb.1 hv
      have := near' (σ (i / 2)) (S.mem ((mem_vertices S.wf).2 i1)).2
      rw [hyb.2.2 _ i1, hy.2.2 _ i1, hrad] at this
      have := (map_near (T := T) hκ).1 this
      split_ifs
      · exact this.1
      · exact this.2)
    (fun i u v hm _ hu hv => by
      obtain ⟨i1, rfl⟩ := data_entry Ha hu
      obtain ⟨-, rfl⟩ := data_entry hyb.1 hv
      rw [sh, vo, S.im.dirichletVertices _ ((mem_vertices S.wf).2 i1)] at hm
      have := fixd' _ hm
      rw [hyb.2.2 _ i1, hy.2.2 _ i1] at this
      rw [Similarity.map_inj hκ this])
    (fun h => absurd e h) (by rw [e] at *; rw [e'] at ob'; exact (S.oriented_image hyb).2 ob')
  have n1 := (MI _ _ _ _ _ _ hy hyb' hθ v2).1 l1
  have n2 := (MI _ _ _ _ _ _ hy hyb hθ w2).1 l2
  rw [hf] at k1 k2
  have u1 := n1.unique hN' k2
  have u2 := n2.unique hN' k1
  have : T.κ ^ 2 * v2 ≤ T.κ ^ 2 * w2 := mul_le_mul_of_nonneg_left l3 (sq_nonneg _)
  have e12 : v1 = w1 := le_antisymm k3 (by rw [← u1, ← u2]; linarith)
  refine ⟨yb', hyb', v1, ?_, ?_⟩
  · rw [hf, e12]; exact k2
  · rw [hf]; exact k1

/-- the objective of the thermal problem for every answer of the solver -/
theorem therm_load {q : GaussRule ℝ} (hs : s.Healthy solver domain params ext traction) (hq : GaussRule.new leg 1 = .ok q) {k : ℕ}
    {a b : Step} (ha : s.steps[k]? = some a) (hb : s.steps[k + 1]? = some b) {p : Problem} (hp : s.calls[2 * k + 1]? = some p)
    (o : Outcome) (v : ℝ) {θ : NdArray} (hθ : θ.data = p.answer o) : (p.load o).objective leg = .ok v ↔
      IsThermObjective leg params ext s.grid s.refined (k / params.fps) a.yData b.yData a.thetaData θ v := by
  obtain ⟨m0, t0, c, H⟩ := hs.history
  obtain ⟨m, t, h1, h2, st1, st2, -, S⟩ := H.each k _ _ ha hb
  cases hp.symm.trans h2
  have w' := S.thermWF.load o
  have M' : ThermEnv (t.load o) s.grid s.refined params ext := c.thermEnv w'.1 (by rw [← st2]; cases t <;> rfl)
  have i1 := M'.objective_iff hq (S.therm.extAt.load o) v
  rw [w'.2.1, w'.2.2.1, w'.2.2.2.1, S.therm.prevY, S.therm.y, S.therm.prevTheta, ThermStep.load_problem] at i1
  rw [i1]
  have hd : (t.load o).theta.data = θ.data := by rw [w'.2.2.2.2.1, hθ]
  unfold IsThermObjective
  rw [hd]

/-- the optimal temperatures of two simulations with corresponding thermal objectives correspond -/
theorem temperature_gen {q : GaussRule ℝ} {n : ℕ} (hs : s.Healthy solver domain params ext traction)
    (hs' : s'.Healthy solver' domain' params' ext' traction') (hq : GaussRule.new leg 1 = .ok q) (hw : ∀ w ∈ q.weights, 0 ≤ w)
    (mm : ∀ v < n, σ v < n) (sur : ∀ v' < n, ∃ v < n, σ v = v') (inj : ∀ v < n, ∀ w < n, σ v = σ w → v = w)
    (hrad : params'.searchRadius = params.searchRadius)
    {k : ℕ} {a b a' b' : Step} (ha : s.steps[k]? = some a) (hb : s.steps[k + 1]? = some b)
    (ha' : s'.steps[k]? = some a') (hb' : s'.steps[k + 1]? = some b') {p p' : Problem} (hp : s.calls[2 * k + 1]? = some p)
    (hp' : s'.calls[2 * k + 1]? = some p') (hopt : p.IsOptimal leg (solver (s.calls.take (2 * k + 1)) p))
    (hopt' : p'.IsOptimal leg (solver' (s'.calls.take (2 * k + 1)) p'))
    (Ha : a.thetaData.Has [n]) (Hb : b.thetaData.Has [n]) (Ha' : a'.thetaData.Has [n]) (Hb' : b'.thetaData.Has [n])
    (hθ : NdArray.ImageTemperature σ n a.thetaData a'.thetaData) (hm : ModerateStrain s.grid s.refined b.yData)
    (hobj : ∀ θ θ', NdArray.ImageTemperature σ n θ θ' → ∀ v,
      IsThermObjective leg params ext s.grid s.refined (k / params.fps) a.yData b.yData a.thetaData θ v ↔
      IsThermObjective leg params' ext' s'.grid s'.refined (k / params'.fps) a'.yData b'.yData a'.thetaData θ' v) :
    NdArray.ImageTemperature σ n b.thetaData b'.thetaData := by
  classical
  obtain ⟨q1, q2, q3⟩ := therm_unknowns hs ha hb hp
  obtain ⟨q1', q2', q3'⟩ := therm_unknowns hs' ha' hb' hp'
  have len : ∀ {x : NdArray}, x.Has [n] → x.data.length = n := fun {x} h => by
    have := h.2; rw [NdArray.Ok, h.1] at this; simpa using this
  have hu : p.unknowns.length = n := by rw [q3.length_eq, len Ha]
  have hu' : p'.unknowns.length = n := by rw [q3'.length_eq, len Ha']
  set sol := solver (s.calls.take (2 * k + 1)) p with hsol
  set sol' := solver' (s'.calls.take (2 * k + 1)) p' with hsol'
  have bθ : ∀ v < n, b.thetaData.data.getD v 0 = sol.theta v := by
    intro v hv
    rw [q2, therm_answer q1, hu, nodalList, getD_range _ hv]
  have bθ' : ∀ v < n, b'.thetaData.data.getD v 0 = sol'.theta v := by
    intro v hv
    rw [q2', therm_answer q1', hu', nodalList, getD_range _ hv]
  -- bounds in terms of the previous temperatures
  have bnd : ∀ o : Outcome, p.Admits o ↔ ∀ v < n, a.thetaData.data.getD v 0 - params.searchRadius ≤ o.theta v ∧
      o.theta v ≤ a.thetaData.data.getD v 0 + params.searchRadius ∧ 0 ≤ o.theta v := by
    intro o
    rw [therm_admits q1]
    rw [List.forall₂_iff_get] at q3
    have aux : ∀ v (h1 : v < p.unknowns.length) (h2 : v < n), p.unknowns[v].lb = a.thetaData.data.getD v 0 - params.searchRadius ∧
        p.unknowns[v].ub = a.thetaData.data.getD v 0 + params.searchRadius ∧ p.unknowns[v].fixed = false := by
      intro v h1 h2
      have := q3.2 v h1 (by rw [len Ha]; exact h2)
      rw [List.getD_eq_getElem?_getD, List.getElem?_eq_getElem (by rw [len Ha]; exact h2)]
      simpa using this
    constructor
    · intro h v hv
      obtain ⟨x1, x2, x3⟩ := aux v (hu ▸ hv) hv
      obtain ⟨z1, z2, -, z3⟩ := h v (hu ▸ hv)
      rw [x1] at z1
      rw [x2] at z2
      exact ⟨z1, z2, z3⟩
    · intro h v hv
      obtain ⟨x1, x2, x3⟩ := aux v hv (hu ▸ hv)
      obtain ⟨z1, z2, z3⟩ := h v (hu ▸ hv)
      rw [x1, x2, x3]
      exact ⟨z1, z2, by simp, z3⟩
  have bnd' : ∀ o : Outcome, p'.Admits o ↔ ∀ v < n, a'.thetaData.data.getD v 0 - params'.searchRadius ≤ o.theta v ∧
      o.theta v ≤ a'.thetaData.data.getD v 0 + params'.searchRadius ∧ 0 ≤ o.theta v := by
    intro o
    rw [therm_admits q1']
    rw [List.forall₂_iff_get] at q3'
    have aux : ∀ v (h1 : v < p'.unknowns.length) (h2 : v < n),
        p'.unknowns[v].lb = a'.thetaData.data.getD v 0 - params'.searchRadius ∧
        p'.unknowns[v].ub = a'.thetaData.data.getD v 0 + params'.searchRadius ∧ p'.unknowns[v].fixed = false := by
      intro v h1 h2
      have := q3'.2 v h1 (by rw [len Ha']; exact h2)
      rw [List.getD_eq_getElem?_getD, List.getElem?_eq_getElem (by rw [len Ha']; exact h2)]
      simpa using this
    constructor
    · intro h v hv
      obtain ⟨x1, x2, x3⟩ := aux v (hu' ▸ hv) hv
      obtain ⟨z1, z2, -, z3⟩ := h v (hu' ▸ hv)
      rw [x1] at z1
      rw [x2] at z2
      exact ⟨z1, z2, z3⟩
    · intro h v hv
      obtain ⟨x1, x2, x3⟩ := aux v hv (hu' ▸ hv)
      obtain ⟨z1, z2, z3⟩ := h v (hu' ▸ hv)
      rw [x1, x2, x3]
      exact ⟨z1, z2, by simp, z3⟩
  -- the two transported answers
  set τ : Vertex → Vertex := fun v' => if h : ∃ v < n, σ v = v' then h.choose else 0 with hτ
  have hτσ : ∀ v < n, τ (σ v) = v := by
    intro v hv
    have h : ∃ w < n, σ w = σ v := ⟨v, hv, rfl⟩
    simp only [hτ, dif_pos h]
    exact inj _ h.choose_spec.1 _ hv h.choose_spec.2
  set o : Outcome := ⟨fun _ _ => 0, fun _ _ => 0, fun v => sol'.theta (σ v), none⟩ with ho
  set o' : Outcome := ⟨fun _ _ => 0, fun _ _ => 0, fun v => sol.theta (τ v), none⟩ with ho'
  have Ao : p.Admits o := by
    refine (bnd o).2 fun v hv => ?_
    have := (bnd' sol').1 hopt'.1 (σ v) (mm v hv)
    rwa [hθ.2.2 v hv, hrad] at this
  have Ao' : p'.Admits o' := by
    refine (bnd' o').2 fun v' hv' => ?_
    obtain ⟨v, hv, rfl⟩ := sur v' hv'
    have := (bnd sol).1 hopt.1 v hv
    rw [hθ.2.2 v hv, hrad]
    simp only [ho', hτσ v hv]
    exact this
  have ans : (p.answer o) = (List.range n).map o.theta := by rw [therm_answer q1, hu]; rfl
  have ans' : (p'.answer o') = (List.range n).map o'.theta := by rw [therm_answer q1', hu']; rfl
  have has1 : (NdArray.mk [n] (p.answer o)).Has [n] := ⟨rfl, by rw [NdArray.Ok, ans]; simp⟩
  have has2 : (NdArray.mk [n] (p'.answer o')).Has [n] := ⟨rfl, by rw [NdArray.Ok, ans']; simp⟩
  have i1 : NdArray.ImageTemperature σ n (NdArray.mk [n] (p.answer o)) b'.thetaData := by
    refine ⟨has1, Hb', fun v hv => ?_⟩
    rw [bθ' _ (mm v hv)]
    simp only
    rw [ans, getD_range _ hv]
  have i2 : NdArray.ImageTemperature σ n b.thetaData (NdArray.mk [n] (p'.answer o')) := by
    refine ⟨Hb, has2, fun v hv => ?_⟩
    rw [bθ _ hv]
    simp only
    rw [ans', getD_range _ (mm v hv)]
    simp only [ho', hτσ v hv]
  have hopt1 := hopt
  obtain ⟨-, v, hv, hmin⟩ := hopt
  obtain ⟨-, v', hv', hmin'⟩ := hopt'
  have t1 := (therm_load hs hq ha hb hp sol v q2).1 hv
  have t1' := (therm_load hs' hq ha' hb' hp' sol' v' q2').1 hv'
  have s1 := (hobj _ _ i2 v).1 t1
  have s2 := (hobj _ _ i1 v').2 t1'
  have r1 := (therm_load hs' hq ha' hb' hp' o' v (θ := NdArray.mk [n] (p'.answer o')) rfl).2 s1
  have r2 := (therm_load hs hq ha hb hp o v' (θ := NdArray.mk [n] (p.answer o)) rfl).2 s2
  have c1 := hmin' o' v Ao' r1
  have opt : p.IsOptimal leg o := ⟨Ao, v', r2, fun o2 v2 a2 b2 => c1.trans (hmin o2 v2 a2 b2)⟩
  have uniq := C84_unique hs hq hw ha hb t1.oriented.1 hm hp opt hopt1
  refine ⟨Hb, Hb', fun w hw => ?_⟩
  rw [i1.2.2 w hw, q2]
  simp only
  rw [uniq]

/-- **C101** (optimal temperatures). Let two simulations correspond under half a turn or an exchange of the axes, with the same
external temperature. If two recorded steps correspond, the next deformations correspond, their strains are moderate (see C84), and both
solvers answer the next thermal problems optimally, then the next temperatures correspond. -/
theorem C101_temperature (hs : s.Healthy solver domain params ext traction) (hr : params.regularization = none)
    (hs' : s'.Healthy solver' domain' params' ext traction') (hr' : params'.regularization = none) (hκ : T.κ = 1 ∨ T.κ = -1)
    (I : Grid.Image T σ s.grid s'.grid) (hl : LegMidpoint leg)
    (hf : params'.fps = params.fps) (hrad : params'.searchRadius = params.searchRadius)
    {k : ℕ} {a b a' b' : Step} (ha : s.steps[k]? = some a) (hb : s.steps[k + 1]? = some b)
    (ha' : s'.steps[k]? = some a') (hb' : s'.steps[k + 1]? = some b') {p p' : Problem} (hp : s.calls[2 * k + 1]? = some p)
    (hp' : s'.calls[2 * k + 1]? = some p') (hopt : p.IsOptimal leg (solver (s.calls.take (2 * k + 1)) p))
    (hopt' : p'.IsOptimal leg (solver' (s'.calls.take (2 * k + 1)) p'))
    (hy0 : NdArray.ImageDeformation T σ s.grid.points.length a.yData a'.yData)
    (hy : NdArray.ImageDeformation T σ s.grid.points.length b.yData b'.yData)
    (hθ : NdArray.ImageTemperature σ s.grid.points.length a.thetaData a'.thetaData)
    (hm : ModerateStrain s.grid s.refined b.yData) :
    NdArray.ImageTemperature σ s.grid.points.length b.thetaData b'.thetaData := by
  have hR := hs.reachable
  have hR' := hs'.reachable
  have h0 : T.κ ≠ 0 := by rcases hκ with h | h <;> rw [h] <;> norm_num
  have S := similar_sims hR hr hR' hr' h0 I
  obtain ⟨-, -, -, -, H⟩ := hR.plain hr
  obtain ⟨-, -, -, -, H'⟩ := hR'.plain hr'
  have Hb' := (H' b' (List.mem_of_getElem? hb')).2
  have Ha' := (H' a' (List.mem_of_getElem? ha')).2
  rw [S.len] at Hb' Ha'
  refine temperature_gen hs hs' (midpoint_rule hl) (by simp) (fun v hv => (S.mem ((mem_vertices S.wf).2 hv)).2) (fun v' hv' => ?_)
    (fun v hv w hw e => S.inj _ ((mem_vertices S.wf).2 hv) _ ((mem_vertices S.wf).2 hw) e) hrad ha hb ha' hb' hp hp' hopt hopt'
    (H a (List.mem_of_getElem? ha)).2 (H b (List.mem_of_getElem? hb)).2 Ha' Hb' hθ hm fun θ θ' hi v => ?_
  · obtain ⟨v, h1, h2⟩ := S.surj v' ((mem_vertices S.wf').2 (by rw [S.len]; exact hv'))
    exact ⟨v, (mem_vertices S.wf).1 h1, h2⟩
  · rw [hf]
    exact C101_thermal hR hr hR' hr' hκ I hl hf hy0 hy hθ hi v

end

/-! ### examples -/

/-- the example simulation in a unit of length that is half as long -/
theorem doubleSetup : Setup ⟨1, 2, .many [.lower]⟩ ⟨1, 1 / 4, 3, 1, none, none⟩ where
  valid := ⟨1, 1 / 4, 3, 1, none, none, by simp [SimParams.new]; norm_num⟩
  width := by norm_num
  height := by norm_num
  fine := by rintro n ⟨⟩

/-- the example simulation with exchanged axes -/
theorem exchangedSetup : Setup ⟨1, 1 / 2, .one .left⟩ exampleParams where
  valid := exampleSetup.valid
  width := by norm_num [exampleParams]
  height := by norm_num [exampleParams]
  fine := by rintro n ⟨⟩

/-- Two corresponding simulations of two steps with a traction that depends on time and place, and optimal solvers: in the
second one, all lengths are twice as long. They meet the hypotheses of the theorems above. -/
example (it it' : SetIter) :
    ∃ (leg : LegGauss) (solver : Solver) (traction traction' : Traction) (s s' : Sim) (σ : Vertex → Vertex) (a b a' b' : Step)
      (p p' : Problem), LegMidpoint leg ∧ solver.RespectsFixed ∧ solver.RespectsBounds ∧
      s.Healthy solver exampleDomain exampleParams (fun t => .ok (t ^ 2)) traction ∧
      s'.Healthy solver ⟨1, 2, .many [.lower]⟩ ⟨1, 1 / 4, 3, 1, none, none⟩ (fun t => .ok (t ^ 2)) traction' ∧
      Grid.Image (.magnify 2) σ s.grid s'.grid ∧ Traction.Image (.magnify 2) traction traction' ∧
      s.steps[0]? = some a ∧ s.steps[1]? = some b ∧ s'.steps[0]? = some a' ∧ s'.steps[1]? = some b' ∧
      s.calls[0]? = some p ∧ s'.calls[0]? = some p' ∧ p.IsOptimal leg (solver (s.calls.take 0) p) ∧
      p'.IsOptimal leg (solver (s'.calls.take 0) p') ∧
      NdArray.ImageDeformation (.magnify 2) σ s.grid.points.length a.yData a'.yData ∧
      NdArray.ImageTemperature σ s.grid.points.length a.thetaData a'.thetaData := by
  have hl : LegMidpoint fun _ => .ok ([0], [2]) := rfl
  obtain ⟨solver, h1, h2, h3, h4, h5, -, h7⟩ := C78_optimal_solver _ (midpoint_rule hl)
  have B1 : BoundaryDataOk (fun t => .ok (t ^ 2)) (fun t x y => .ok [t + x, y]) := exampleBoundary
  have B2 : BoundaryDataOk (fun t => .ok (t ^ 2)) (fun t x y => .ok [t + x / 2, y / 2]) :=
    ⟨fun t x y => ⟨_, _, rfl⟩, fun t => ⟨_, sq_nonneg t, rfl⟩⟩
  obtain ⟨s, hs⟩ := C55_usable_partial exampleSetup (by norm_num [exampleParams]) h5 it fun _ => B1
  obtain ⟨s', hs'⟩ := C55_usable_partial doubleSetup (by norm_num) h5 it' fun _ => B2
  have hh := Sim.Healthy.new exampleSetup hs
  have hh' := Sim.Healthy.new doubleSetup hs'
  obtain ⟨m0, t0, c, H⟩ := hh.history
  obtain ⟨m0', t0', c', H'⟩ := hh'.history
  obtain ⟨i1, g1⟩ := c.grid
  obtain ⟨i2, g2⟩ := c'.grid
  obtain ⟨σ, I⟩ := C101_magnify (κ := 2) (d := exampleDomain) (d' := ⟨1, 2, .many [.lower]⟩) (s := 1 / 2) (by norm_num) (by norm_num)
    (by norm_num [exampleDomain]) (by norm_num [exampleDomain]) (by norm_num [exampleDomain]) (by norm_num [exampleDomain])
    (fun f => by simp [exampleDomain, Fix.options]) g1 (by norm_num; exact g2)
  obtain ⟨a, a', k1, k2, k3, k4⟩ := C101_initial hh.reachable rfl hh'.reachable rfl (T := .magnify 2)
    (by norm_num [Similarity.magnify]) I rfl
  have l1 := C60_new exampleSetup hs
  have l2 := C60_new doubleSetup hs'
  have b1 : ∃ b, s.steps[1]? = some b := ⟨_, List.getElem?_eq_getElem (by omega)⟩
  have b2 : ∃ b, s'.steps[1]? = some b := ⟨_, List.getElem?_eq_getElem (by omega)⟩
  obtain ⟨b, b1⟩ := b1
  obtain ⟨b', b2⟩ := b2
  obtain ⟨p, p1, -⟩ := C63_objective hh (midpoint_rule hl) k1 b1
  obtain ⟨p', p2, -⟩ := C63_objective hh' (midpoint_rule hl) k2 b2
  refine ⟨_, solver, _, _, s, s', σ, a, b, a', b', p, p', hl, h1, h2, hh, hh', I, ?_, k1, b1, k2, b2, p1, p2, h7 hh.reachable 0 p p1,
    h7 hh'.reachable 0 p' p2, k3, k4⟩
  intro t q
  refine ⟨(t + q.1, q.2), rfl, ?_⟩
  norm_num [Similarity.map, Similarity.magnify, Similarity.dir]

/-- a body that is fixed at its lower or left side and on which no traction acts does not move -/
theorem stays_put {solver : Solver} {domain : RectDomain ℝ} {params : SimParams} {ext : ExtTemp} {s : Sim} {leg : LegGauss}
    {q : GaussRule ℝ} (hs : s.Healthy solver domain params ext fun _ _ _ => .ok [0, 0])
    (hq : GaussRule.new leg 1 = .ok q) (hr : params.regularization = none) (hf : 1 ≤ params.fps) (h0 : 0 ≤ params.initialTemperature)
    (hside : FixOption.lower ∈ domain.fix.options ∨ FixOption.left ∈ domain.fix.options) (hd : solver.Decreases leg)
    (hfx : solver.RespectsFixed) {a b : Step} (ha : s.steps[0]? = some a) (hb : s.steps[1]? = some b) :
    (∀ v ∈ s.grid.vertices, b.yData.deformed v = s.grid.xy v) ∧ Undeformed s.grid s.refined b.yData := by
  obtain ⟨st, k1, -, k2, D, k3, k4⟩ := C68_initial hs.reachable
  cases ha.symm.trans k1
  obtain ⟨r, hr', R⟩ := energyRule_good s.refined
  have hu : Undeformed s.grid s.refined a.yData :=
    ⟨D, r, k3, hr', fun t ht b hb => (k4 t ht b (R.inside b hb).1).2.1⟩
  have hS := C99_stays hs hq hd ha hb hu (fun κ h => by rw [hr] at h; cases h) (fun x hx => by
      rw [k2] at hx
      rw [List.eq_of_mem_replicate hx]
      refine ⟨h0, _, aust_eq _, ?_⟩
      have : Real.exp (-5 * params.initialTemperature) ≤ 1 := Real.exp_le_one_iff.2 (by linarith)
      linarith) (fun _ _ _ => rfl)
  refine ⟨?_, hS.1⟩
  obtain ⟨e, ⟨nx, ny, h, G⟩, -, -, H⟩ := hs.reachable.plain hr
  have hU := hS.1
  rw [e] at hU
  have mb := List.mem_of_getElem? hb
  obtain ⟨c, hc⟩ := p1_undeformed G (H b mb).1 (length_vertices G.wellFormed).symm hU
  obtain ⟨m0, t0, cx⟩ := hs.reachable.context
  obtain ⟨it, hg⟩ := cx.grid
  have hsc := cx.setup.facts.2.2.2.1
  have hw := cx.setup.width
  have hh := cx.setup.height
  have at0 : s.grid.At 0 (0, 0) := (C10_points (hsc.le.trans hw) (hsc.le.trans hh) hsc hg 0 (0, 0)).2
    ⟨0, 0, by omega, by omega, by simp, by simp⟩
  have hdir : (0 : ℕ) ∈ s.grid.dirichlet.vertices := by
    rw [(C14_dirichlet_vertices hsc hw hh hg).2.1]
    rcases hside with h | h
    · exact ⟨(0, 0), at0, _, h, rfl⟩
    · exact ⟨(0, 0), at0, _, h, rfl⟩
  have f0 := C57_fixed_boundary hs.reachable hfx mb hdir at0
  have v0 : (0 : ℕ) ∈ s.grid.vertices := G.wellFormed.dirichlet.1 _ hdir
  rw [hc 0 v0, xy_of_at at0] at f0
  have c0 : c = 0 := by simpa using f0
  intro v hv
  rw [hc v hv, c0, add_zero]

/-- The example, without traction, and the example with exchanged axes: they meet the hypotheses of `C101_temperature`. -/
example (it it' : SetIter) :
    ∃ (leg : LegGauss) (solver : Solver) (s s' : Sim) (σ : Vertex → Vertex) (a b a' b' : Step) (p p' : Problem),
      LegMidpoint leg ∧ s.Healthy solver exampleDomain exampleParams (fun t => .ok (t ^ 2)) (fun _ _ _ => .ok [0, 0]) ∧
      s'.Healthy solver ⟨1, 1 / 2, .one .left⟩ exampleParams (fun t => .ok (t ^ 2)) (fun _ _ _ => .ok [0, 0]) ∧
      Grid.Image .exchange σ s.grid s'.grid ∧
      s.steps[0]? = some a ∧ s.steps[1]? = some b ∧ s'.steps[0]? = some a' ∧ s'.steps[1]? = some b' ∧
      s.calls[1]? = some p ∧ s'.calls[1]? = some p' ∧ p.IsOptimal leg (solver (s.calls.take 1) p) ∧
      p'.IsOptimal leg (solver (s'.calls.take 1) p') ∧
      NdArray.ImageDeformation .exchange σ s.grid.points.length a.yData a'.yData ∧
      NdArray.ImageTemperature σ s.grid.points.length a.thetaData a'.thetaData ∧
      NdArray.ImageDeformation .exchange σ s.grid.points.length b.yData b'.yData ∧
      ModerateStrain s.grid s.refined b.yData ∧
      NdArray.ImageTemperature σ s.grid.points.length b.thetaData b'.thetaData := by
  have hl : LegMidpoint fun _ => .ok ([0], [2]) := rfl
  have hq := midpoint_rule hl
  obtain ⟨solver, h1, h2, h3, h4, h5, h6, h7⟩ := C78_optimal_solver _ hq
  have B : BoundaryDataOk (fun t => .ok (t ^ 2)) (fun _ _ _ => .ok [0, 0]) :=
    ⟨fun t x y => ⟨_, _, rfl⟩, fun t => ⟨_, sq_nonneg t, rfl⟩⟩
  obtain ⟨s, hs⟩ := C55_usable_partial exampleSetup (by norm_num [exampleParams]) h5 it fun _ => B
  obtain ⟨s', hs'⟩ := C55_usable_partial exchangedSetup (by norm_num [exampleParams]) h5 it' fun _ => B
  have hh := Sim.Healthy.new exampleSetup hs
  have hh' := Sim.Healthy.new exchangedSetup hs'
  obtain ⟨m0, t0, c, H⟩ := hh.history
  obtain ⟨m0', t0', c', H'⟩ := hh'.history
  obtain ⟨i1, g1⟩ := c.grid
  obtain ⟨i2, g2⟩ := c'.grid
  obtain ⟨σ, I⟩ := C101_exchange (d := exampleDomain) (d' := ⟨1, 1 / 2, .one .left⟩) (s := 1 / 2) (by norm_num)
    (by norm_num [exampleDomain]) (by norm_num [exampleDomain]) (by norm_num [exampleDomain]) (by norm_num [exampleDomain])
    (fun f hf => by cases f <;> simp_all [exampleDomain, Fix.options, FixOption.exchanged]) g1 g2
  have κ1 : Similarity.exchange.κ = 1 := rfl
  obtain ⟨a, a', k1, k2, k3, k4⟩ := C101_initial hh.reachable rfl hh'.reachable rfl (T := .exchange) (by rw [κ1]; exact one_ne_zero) I rfl
  have l1 := C60_new exampleSetup hs
  have l2 := C60_new exchangedSetup hs'
  have b1 : ∃ b, s.steps[1]? = some b := ⟨_, List.getElem?_eq_getElem (by omega)⟩
  have b2 : ∃ b, s'.steps[1]? = some b := ⟨_, List.getElem?_eq_getElem (by omega)⟩
  obtain ⟨b, b1⟩ := b1
  obtain ⟨b', b2⟩ := b2
  obtain ⟨p, p1, -⟩ := C69_objective hh hq k1 b1
  obtain ⟨p', p2, -⟩ := C69_objective hh' hq k2 b2
  have e1 := stays_put hh hq rfl (by norm_num [exampleParams]) (by norm_num [exampleParams])
    (Or.inl (by simp [exampleDomain, Fix.options])) h6 h1 k1 b1
  have e2 := stays_put hh' hq rfl (by norm_num [exampleParams]) (by norm_num [exampleParams])
    (Or.inr (by simp [Fix.options])) h6 h1 k2 b2
  have S := similar_sims hh.reachable rfl hh'.reachable rfl (T := .exchange) (by rw [κ1]; exact one_ne_zero) I
  have hy : NdArray.ImageDeformation .exchange σ s.grid.points.length b.yData b'.yData := by
    refine ⟨((hh.reachable.plain rfl).2.2.2.2 b (List.mem_of_getElem? b1)).1, ?_, fun v hv => ?_⟩
    · rw [← S.len]; exact ((hh'.reachable.plain rfl).2.2.2.2 b' (List.mem_of_getElem? b2)).1
    · have hv' := (mem_vertices S.wf).2 hv
      rw [e1.1 v hv', e2.1 _ (S.maps v hv'), S.xy v hv']
  have hm := e1.2.moderate
  exact ⟨_, solver, s, s', σ, a, b, a', b', p, p', hl, hh, hh', I, k1, b1, k2, b2, p1, p2, h7 hh.reachable 1 p p1, h7 hh'.reachable 1 p' p2, k3, k4, hy,
    hm, C101_temperature hh rfl hh' rfl (Or.inl rfl) I hl rfl rfl k1 b1 k2 b2 p1 p2 (h7 hh.reachable 1 p p1) (h7 hh'.reachable 1 p' p2) k3 hy k4 hm⟩

/-- the grids of the example and of the example with exchanged axes, and a grid turned by half a turn -/
example (it it' : SetIter) : ∃ g g' h h' σ τ, exampleDomain.grid it (1 / 2) = .ok g ∧
    RectDomain.grid it' ⟨1, 1 / 2, .one .left⟩ (1 / 2) = .ok g' ∧ Grid.Image .exchange σ g g' ∧
    RectDomain.grid it ⟨3, 2, .many [.lower, .left]⟩ (2 / 3) = .ok h ∧
    RectDomain.grid it' ⟨3, 2, .many [.upper, .right]⟩ (2 / 3) = .ok h' ∧
    Grid.Image (.turn (cells 3 (2 / 3) * (2 / 3)) (cells 2 (2 / 3) * (2 / 3))) τ h h' := by
  obtain ⟨g, -, hg, -⟩ := rect_grid_spec it exampleDomain (s := 1 / 2) (by norm_num [exampleDomain]) (by norm_num [exampleDomain])
    (by norm_num)
  obtain ⟨g', -, hg', -⟩ := rect_grid_spec it' ⟨1, 1 / 2, .one .left⟩ (s := 1 / 2) (by norm_num) (by norm_num) (by norm_num)
  obtain ⟨h, -, hh, -⟩ := rect_grid_spec it ⟨3, 2, .many [.lower, .left]⟩ (s := 2 / 3) (by norm_num) (by norm_num) (by norm_num)
  obtain ⟨h', -, hh', -⟩ := rect_grid_spec it' ⟨3, 2, .many [.upper, .right]⟩ (s := 2 / 3) (by norm_num) (by norm_num) (by norm_num)
  obtain ⟨σ, h1⟩ := C101_exchange (by norm_num) (by norm_num [exampleDomain]) (by norm_num [exampleDomain]) (by norm_num [exampleDomain])
    (by norm_num [exampleDomain]) (fun f hf => by cases f <;> simp_all [exampleDomain, Fix.options, FixOption.exchanged]) hg hg'
  obtain ⟨τ, h2⟩ := C101_turn (by norm_num) (by norm_num) (by norm_num) (by norm_num) (by norm_num)
    (fun f hf => by cases f <;> simp_all [Fix.options, FixOption.turned]) hh hh'
  exact ⟨g, g', h, h', σ, τ, hg, hg', h1, hh, hh', h2⟩

end Tve
