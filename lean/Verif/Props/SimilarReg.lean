import Verif.Lemmas.SimilarRegObj
import Verif.Lemmas.SimilarRegStep
import Verif.Lemmas.RegAnswer
import Verif.Props.Similar
import Verif.Props.Refine

/-!
# C105: units of length and half turns in regularized simulations
-/

namespace Tve
open Helpers

/-! ### grids -/

section
variable {d d' : RectDomain ℝ} {s : ℝ} {it it' : SetIter} {g g' : Grid ℝ} {r r' : RefinedGrid ℝ} {n : ℕ}

/-- **C105** (magnified grids). The grid and the refined grid of a rectangle that is `κ` times as large, with edges that are `κ`
times as long and the same refinement factor, are the magnified grids. -/
theorem C105_magnify {κ : ℝ} (hκ : 0 < κ) (hs : 0 < s) (hw : s ≤ d.width) (hh : s ≤ d.height) (hw' : d'.width = κ * d.width)
    (hh' : d'.height = κ * d.height) (hfix : ∀ f, f ∈ d'.fix.options ↔ f ∈ d.fix.options) (hg : d.grid it s = .ok g)
    (hg' : d'.grid it' (κ * s) = .ok g') (hn : 1 ≤ n) (hf : 1 / 10 ^ 15 ≤ s / n) (hf' : 1 / 10 ^ 15 ≤ κ * s / n)
    (hr : d.refine g n = .ok r) (hr' : d'.refine g' n = .ok r') :
    ∃ σ σr, Grid.Image (.magnify κ) σ g g' ∧ Grid.MeshImage (.magnify κ) σr r.toGrid r'.toGrid := by
  obtain ⟨σ, h1⟩ := C101_magnify hκ hs hw hh hw' hh' hfix hg hg'
  have G := LibraryGrid.refine (LibraryGrid.grid hs hw hh hg) hn hf hr
  have G' := LibraryGrid.refine (LibraryGrid.grid (d := d') (mul_pos hκ hs) (by rw [hw']; exact mul_le_mul_of_nonneg_left hw hκ.le)
    (by rw [hh']; exact mul_le_mul_of_nonneg_left hh hκ.le) hg') hn hf' hr'
  rw [hw', hh', cells_mul hκ, cells_mul hκ, mul_div_assoc] at G'
  obtain ⟨σr, h2⟩ := (latImage_magnify _ _ _ κ).meshImage G G'
  exact ⟨σ, σr, h1, h2⟩

/-- **C105** (turned grids). The grid and the refined grid of a rectangle with the opposite sides fixed are the grids turned by
half a turn. -/
theorem C105_turn (hs : 0 < s) (hw : s ≤ d.width) (hh : s ≤ d.height) (hw' : d'.width = d.width)
    (hh' : d'.height = d.height) (hfix : ∀ f, (∀ u, f ≠ .unknown u) → (f.turned ∈ d'.fix.options ↔ f ∈ d.fix.options))
    (hg : d.grid it s = .ok g) (hg' : d'.grid it' s = .ok g') (hn : 1 ≤ n) (hf : 1 / 10 ^ 15 ≤ s / n)
    (hr : d.refine g n = .ok r) (hr' : d'.refine g' n = .ok r') :
    ∃ σ σr, Grid.Image (.turn (cells d.width s * s) (cells d.height s * s)) σ g g' ∧
      Grid.MeshImage (.turn (cells d.width s * s) (cells d.height s * s)) σr r.toGrid r'.toGrid := by
  obtain ⟨σ, h1⟩ := C101_turn hs hw hh hw' hh' hfix hg hg'
  have G := LibraryGrid.refine (LibraryGrid.grid hs hw hh hg) hn hf hr
  have G' := LibraryGrid.refine (LibraryGrid.grid (d := d') hs (by rw [hw']; exact hw) (by rw [hh']; exact hh) hg') hn hf hr'
  rw [hw', hh'] at G'
  obtain ⟨σr, h2⟩ := (latImage_turn _ _ _).meshImage G G'
  have n0 : (n : ℝ) ≠ 0 := by positivity
  have e : ∀ c : ℕ, ((n * c : ℕ) : ℝ) * (s / n) = c * s := by
    intro c; push_cast; field_simp
  rw [e, e] at h2
  exact ⟨σ, σr, h1, h2⟩

end

/-! ### simulations -/

section
variable {solver solver' : Solver} {domain domain' : RectDomain ℝ} {params params' : SimParams} {ext ext' : ExtTemp}
  {traction traction' : Traction} {s s' : Sim} {T : Similarity} {σ σr : Vertex → Vertex} {leg : LegGauss} {c : ℝ}

/-- the facts about regularized simulations used below -/
theorem Sim.Reachable.smooth (hs : s.Reachable solver domain params ext traction) (hr : params.regularization ≠ none) :
    ∃ r, s.refined = some r ∧ (∃ (nx ny n : ℕ) (h : ℝ), LibraryGrid s.grid nx ny h ∧ 1 ≤ n ∧ 1 / 10 ^ 15 ≤ h / n ∧
      domain.refine s.grid n = .ok r ∧ LibraryGrid r.toGrid (n * nx) (n * ny) (h / n)) ∧ 0 < s.grid.points.length ∧
    ∀ st ∈ s.steps, st.yData.Has [s.grid.points.length, 2, 6] ∧ st.thetaData.Has [r.toGrid.points.length] := by
  obtain ⟨m0, t0, c⟩ := hs.context
  obtain ⟨it, hg⟩ := c.grid
  obtain ⟨Sh, ⟨n, U⟩, F⟩ := c.setup.simShape hg c.refined c.mech0
  obtain ⟨a1, a2, a3, a4, a5, a6, a7⟩ := mechanicalStep_facts U F c.mech0
  obtain ⟨G, h1, h2⟩ := c.setup.grids hg c.refined
  obtain ⟨k, r, p, k1, k2, k3, k4, k5, k6⟩ := h2 hr
  obtain ⟨-, -, r', k', e0, Ur, e1, e2⟩ := a7 hr
  cases k3.symm.trans e0
  refine ⟨r, k3, ⟨_, _, k, _, G, k1, (c.setup.fine' k2).2, k4, k5⟩, U.num ▸ U.pos, fun st hst => ?_⟩
  have := c.has st hst
  rwa [e1, e2, ← U.num, ← Ur.num] at this

/-- the coarse and the refined grids of corresponding simulations -/
theorem reg_sims (hs : s.Reachable solver domain params ext traction) (hr : params.regularization ≠ none)
    (hs' : s'.Reachable solver' domain' params' ext' traction') (hr' : params'.regularization ≠ none) (hκ : T.κ ≠ 0)
    (hsw : T.swap = false) (I : Grid.MeshImage T σ s.grid s'.grid)
    (J : Grid.MeshImage T σr (energyGrid s.grid s.refined) (energyGrid s'.grid s'.refined)) :
    ∃ r r', s.refined = some r ∧ s'.refined = some r' ∧ RegImage T σ σr s.grid s'.grid r r' := by
  obtain ⟨r, e, ⟨nx, ny, n, h, G, k1, k2, k3, R⟩, -⟩ := hs.smooth hr
  obtain ⟨r', e', ⟨nx', ny', n', h', G', k1', k2', k3', R'⟩, -⟩ := hs'.smooth hr'
  rw [e, e'] at J
  exact ⟨r, r', e, e', hsw, I.similar hκ G G', Grid.MeshImage.similar J hκ R R', ⟨_, _, _, _, _, G, k1, k2, k3⟩,
    ⟨_, _, _, _, _, G', k1', k2', k3'⟩⟩

/-- **C105** (initial states). The initial states of corresponding simulations correspond. -/
theorem C105_initial (hs : s.Reachable solver domain params ext traction) (hr : params.regularization ≠ none)
    (hs' : s'.Reachable solver' domain' params' ext' traction') (hr' : params'.regularization ≠ none) (hκ : T.κ ≠ 0)
    (hsw : T.swap = false) (I : Grid.MeshImage T σ s.grid s'.grid)
    (J : Grid.MeshImage T σr (energyGrid s.grid s.refined) (energyGrid s'.grid s'.refined))
    (ht : params'.initialTemperature = params.initialTemperature) :
    ∃ a a', s.steps[0]? = some a ∧ s'.steps[0]? = some a' ∧
      NdArray.ImageDeformationC1 T σ s.grid.points.length a.yData a'.yData ∧
      NdArray.ImageTemperature σr (energyGrid s.grid s.refined).points.length a.thetaData a'.thetaData := by
  obtain ⟨r, r', e, e', R⟩ := reg_sims hs hr hs' hr' hκ hsw I J
  have S := R.coarse
  obtain ⟨_, e1, -, -, H⟩ := hs.smooth hr
  cases e.symm.trans e1
  obtain ⟨_, e1', -, -, H'⟩ := hs'.smooth hr'
  cases e'.symm.trans e1'
  obtain ⟨a, h1, h2, h3, -⟩ := C68_initial hs
  obtain ⟨a', h1', h2', h3', -⟩ := C68_initial hs'
  obtain ⟨k1, k2⟩ := H a (List.mem_of_getElem? h1)
  obtain ⟨k1', k2'⟩ := H' a' (List.mem_of_getElem? h1')
  have init : ∀ {solver : Solver} {domain : RectDomain ℝ} {params : SimParams} {ext : ExtTemp} {traction : Traction} {s : Sim}
      {a : Step}, s.Reachable solver domain params ext traction → params.regularization ≠ none → s.steps[0]? = some a →
      ∀ v < s.grid.points.length, ∀ j < 6, a.yData.at3 2 6 v 0 j = [(s.grid.xy v).1, 1, 0, 0, 0, 0].getD j 0 ∧
        a.yData.at3 2 6 v 1 j = [(s.grid.xy v).2, 0, 1, 0, 0, 0].getD j 0 := by
    intro solver domain params ext traction s a hs hr ha v hv
    obtain ⟨m0, t0, c⟩ := hs.context
    obtain ⟨st, z1, z2, z3⟩ := c.first
    cases ha.symm.trans z1
    obtain ⟨it, hg⟩ := c.grid
    obtain ⟨Sh, ⟨n, U⟩, F⟩ := c.setup.simShape hg c.refined c.mech0
    obtain ⟨i1, i2, i3, i4⟩ := mechanicalStep_initial U F c.mech0
    rw [z2]
    exact (i4 hr).2.2 v (U.num ▸ hv)
  have b := init hs hr h1
  have b' := init hs' hr' h1'
  rw [S.len] at k1'
  rw [R.fine.len] at k2'
  rw [e, e'] at *
  refine ⟨a, a', h1, h1', ⟨k1, k1', fun v hv => ?_⟩, ⟨k2, k2', fun v hv => ?_⟩⟩
  · have hv' := (mem_vertices S.wf).2 hv
    refine ⟨by rw [h2 v hv', h2' _ (S.maps v hv'), S.xy v hv'], ?_⟩
    have q := b v hv
    have q' := b' (σ v) (by rw [S.len]; exact (S.mem hv').2)
    intro i hi
    constructor
    · intro j hj
      simp only [List.mem_cons, List.not_mem_nil, or_false] at hj
      interval_cases i
      · rw [(q j (by omega)).1, (q' j (by omega)).1]; rcases hj with rfl | rfl <;> rfl
      · rw [(q j (by omega)).2, (q' j (by omega)).2]; rcases hj with rfl | rfl <;> rfl
    · intro j hj
      simp only [List.mem_cons, List.not_mem_nil, or_false] at hj
      interval_cases i
      · rw [(q j (by omega)).1, (q' j (by omega)).1]; rcases hj with rfl | rfl | rfl <;> simp
      · rw [(q j (by omega)).2, (q' j (by omega)).2]; rcases hj with rfl | rfl | rfl <;> simp
  · have hv' := (mem_vertices R.fine.wf).2 hv
    rw [h3, h3']
    have l1 : (energyGrid s.grid (some r)).vertices.length = r.toGrid.points.length := length_vertices R.fine.wf
    have l2 : (energyGrid s'.grid (some r')).vertices.length = r.toGrid.points.length :=
      (length_vertices R.fine.wf').trans R.fine.len
    rw [l1, l2, ht, List.getD_eq_getElem?_getD, List.getD_eq_getElem?_getD, List.getElem?_replicate, List.getElem?_replicate,
      if_pos (show v < r.toGrid.points.length from hv), if_pos (R.fine.mem hv').2]

/-- **C105** (elastic energy). The elastic energy of the image of a deformation, at the same temperatures, is the energy of the
deformation times the square of the magnification; one is defined if and only if the other is. -/
theorem C105_elastic (hs : s.Reachable solver domain params ext traction) (hr : params.regularization ≠ none)
    (hs' : s'.Reachable solver' domain' params' ext' traction') (hr' : params'.regularization ≠ none) (hκ : T.κ ≠ 0)
    (hsw : T.swap = false) (I : Grid.MeshImage T σ s.grid s'.grid)
    (J : Grid.MeshImage T σr (energyGrid s.grid s.refined) (energyGrid s'.grid s'.refined)) {y y' θ θ' : NdArray}
    (hy : NdArray.ImageDeformationC1 T σ s.grid.points.length y y')
    (hθ : NdArray.ImageTemperature σr (energyGrid s.grid s.refined).points.length θ θ') (E : ℝ) :
    IsElasticEnergy s.grid s.refined y θ E ↔ IsElasticEnergy s'.grid s'.refined y' θ' (T.κ ^ 2 * E) := by
  obtain ⟨r, r', e, e', R⟩ := reg_sims hs hr hs' hr' hκ hsw I J
  rw [e] at hθ
  rw [e, e']
  exact R.elastic hy hθ E

/-- **C105** (dissipation). The dissipation is multiplied by the square of the magnification. -/
theorem C105_dissipation (hs : s.Reachable solver domain params ext traction) (hr : params.regularization ≠ none)
    (hs' : s'.Reachable solver' domain' params' ext' traction') (hr' : params'.regularization ≠ none) (hκ : T.κ ≠ 0)
    (hsw : T.swap = false) (I : Grid.MeshImage T σ s.grid s'.grid)
    (J : Grid.MeshImage T σr (energyGrid s.grid s.refined) (energyGrid s'.grid s'.refined)) {y0 y0' y y' : NdArray}
    (hy0 : NdArray.ImageDeformationC1 T σ s.grid.points.length y0 y0')
    (hy : NdArray.ImageDeformationC1 T σ s.grid.points.length y y') (d : ℝ) :
    IsDissipation s.grid s.refined y0 y d ↔ IsDissipation s'.grid s'.refined y0' y' (T.κ ^ 2 * d) := by
  obtain ⟨r, r', e, e', R⟩ := reg_sims hs hr hs' hr' hκ hsw I J
  rw [e, e']
  exact R.dissipation hy0 hy d

/-- **C105** (hyperelastic energy). The hyperelastic energy is divided by the magnification: it does not scale like the elastic
energy. -/
theorem C105_hyper (hs : s.Reachable solver domain params ext traction) (hr : params.regularization ≠ none)
    (hs' : s'.Reachable solver' domain' params' ext' traction') (hr' : params'.regularization ≠ none) (hκ : T.κ ≠ 0)
    (hsw : T.swap = false) (I : Grid.MeshImage T σ s.grid s'.grid)
    (J : Grid.MeshImage T σr (energyGrid s.grid s.refined) (energyGrid s'.grid s'.refined)) {y y' : NdArray}
    (hy : NdArray.ImageDeformationC1 T σ s.grid.points.length y y') (h : ℝ) :
    (∃ r, s.refined = some r ∧ IsHyperEnergy s.grid r y h) ↔ ∃ r', s'.refined = some r' ∧ IsHyperEnergy s'.grid r' y' (h / |T.κ|) := by
  obtain ⟨r, r', e, e', R⟩ := reg_sims hs hr hs' hr' hκ hsw I J
  constructor
  · rintro ⟨r1, e1, h1⟩
    cases e.symm.trans e1
    exact ⟨r', e', (R.hyper hy h).1 h1⟩
  · rintro ⟨r1, e1, h1⟩
    cases e'.symm.trans e1
    exact ⟨r, e, (R.hyper hy h).2 h1⟩

/-- **C105** (mechanical objective). If the regularization is multiplied by the third power of the magnification, then the objective
of the mechanical step is multiplied by its square. -/
theorem C105_mechanical (hs : s.Reachable solver domain params ext traction) (hr : params.regularization = some c)
    (hs' : s'.Reachable solver' domain' params' ext' traction') (hr' : params'.regularization = some (|T.κ| ^ 3 * c)) (hκ : T.κ ≠ 0)
    (hsw : T.swap = false) (I : Grid.MeshImage T σ s.grid s'.grid)
    (J : Grid.MeshImage T σr (energyGrid s.grid s.refined) (energyGrid s'.grid s'.refined)) (hf : params'.fps = params.fps)
    {time : ℝ} {y0 y0' y y' θ θ' : NdArray} (hy0 : NdArray.ImageDeformationC1 T σ s.grid.points.length y0 y0')
    (hy : NdArray.ImageDeformationC1 T σ s.grid.points.length y y')
    (hθ : NdArray.ImageTemperature σr (energyGrid s.grid s.refined).points.length θ θ') (v : ℝ) :
    IsMechObjective leg params traction s.grid s.refined time y0 y θ v ↔
      IsMechObjective leg params' traction' s'.grid s'.refined time y0' y' θ' (T.κ ^ 2 * v) := by
  obtain ⟨r, r', e, e', R⟩ := reg_sims hs (by rw [hr]; simp) hs' (by rw [hr']; simp) hκ hsw I J
  rw [e] at hθ
  rw [e, e']
  exact R.mech hf hr hr' hy0 hy hθ v

/-- **C105** (thermal objective). Half a turn does not change the objective of the thermal step. -/
theorem C105_thermal (hs : s.Reachable solver domain params ext traction) (hr : params.regularization ≠ none)
    (hs' : s'.Reachable solver' domain' params' ext' traction') (hr' : params'.regularization ≠ none) (hκ : T.κ = 1 ∨ T.κ = -1)
    (hsw : T.swap = false) (I : Grid.MeshImage T σ s.grid s'.grid)
    (J : Grid.MeshImage T σr (energyGrid s.grid s.refined) (energyGrid s'.grid s'.refined)) (hf : params'.fps = params.fps)
    {time : ℝ} {y0 y0' y y' θ0 θ0' θ θ' : NdArray} (hy0 : NdArray.ImageDeformationC1 T σ s.grid.points.length y0 y0')
    (hy : NdArray.ImageDeformationC1 T σ s.grid.points.length y y')
    (hθ0 : NdArray.ImageTemperature σr (energyGrid s.grid s.refined).points.length θ0 θ0')
    (hθ : NdArray.ImageTemperature σr (energyGrid s.grid s.refined).points.length θ θ') (v : ℝ) :
    IsThermObjective leg params ext s.grid s.refined time y0 y θ0 θ v ↔
      IsThermObjective leg params' ext' s'.grid s'.refined time y0' y' θ0' θ' v := by
  have h2 : T.κ ^ 2 = 1 := by rcases hκ with h | h <;> rw [h] <;> norm_num
  have h0 : T.κ ≠ 0 := by rcases hκ with h | h <;> rw [h] <;> norm_num
  obtain ⟨r, r', e, e', R⟩ := reg_sims hs hr hs' hr' h0 hsw I J
  rw [e] at hθ hθ0
  rw [e, e']
  exact R.therm h2 hf hr hr' hy0 hy hθ0 hθ v

/-- **C105** (optimal deformations). Let two regularized simulations with the same parameters correspond under half a turn or a
translation. If two recorded steps correspond and both solvers answer the next mechanical problems optimally, then the image of the
next deformation of the first simulation is as good as the next deformation of the second: both have the same objective in the second
simulation. -/
theorem C105_optimal (hs : s.Healthy solver domain params ext traction) (hr : params.regularization = some c)
    (hs' : s'.Healthy solver' domain' params' ext' traction') (hr' : params'.regularization = some c) (hκ : T.κ = 1 ∨ T.κ = -1)
    (hsw : T.swap = false) (I : Grid.Image T σ s.grid s'.grid)
    (J : Grid.MeshImage T σr (energyGrid s.grid s.refined) (energyGrid s'.grid s'.refined)) (hl : LegMidpoint leg)
    (hf : params'.fps = params.fps) (hrad : params'.searchRadius = params.searchRadius)
    (hfx : solver.RespectsFixed) (hbd : solver.RespectsBounds) (hc : solver.RespectsConstraints)
    (hfx' : solver'.RespectsFixed) (hbd' : solver'.RespectsBounds) (hc' : solver'.RespectsConstraints)
    {k : ℕ} {a b a' b' : Step} (ha : s.steps[k]? = some a) (hb : s.steps[k + 1]? = some b)
    (ha' : s'.steps[k]? = some a') (hb' : s'.steps[k + 1]? = some b') {p p' : Problem} (hp : s.calls[2 * k]? = some p)
    (hp' : s'.calls[2 * k]? = some p') (hopt : p.IsOptimal leg (solver (s.calls.take (2 * k)) p))
    (hopt' : p'.IsOptimal leg (solver' (s'.calls.take (2 * k)) p'))
    (hy : NdArray.ImageDeformationC1 T σ s.grid.points.length a.yData a'.yData)
    (hθ : NdArray.ImageTemperature σr (energyGrid s.grid s.refined).points.length a.thetaData a'.thetaData) :
    ∃ y', NdArray.ImageDeformationC1 T σ s.grid.points.length b.yData y' ∧
      ∃ v, IsMechObjective leg params' traction' s'.grid s'.refined (k / params'.fps) a'.yData y' a'.thetaData v ∧
        IsMechObjective leg params' traction' s'.grid s'.refined (k / params'.fps) a'.yData b'.yData a'.thetaData v := by
  have hR := hs.reachable
  have hR' := hs'.reachable
  have nr : params.regularization ≠ none := by rw [hr]; simp
  have nr' : params'.regularization ≠ none := by rw [hr']; simp
  have k0 : T.κ ≠ 0 := by rcases hκ with h | h <;> rw [h] <;> norm_num
  have k1 : |T.κ| ^ 3 * c = c := by rcases hκ with h | h <;> rw [h] <;> norm_num
  have k2 : T.κ ^ 2 = 1 := by rcases hκ with h | h <;> rw [h] <;> norm_num
  obtain ⟨r, r', e, e', R⟩ := reg_sims hR nr hR' nr' k0 hsw I.toMeshImage J
  have S := R.coarse
  obtain ⟨_, e1, -, hn, H⟩ := hR.smooth nr
  cases e.symm.trans e1
  obtain ⟨_, e1', -, hn', H'⟩ := hR'.smooth nr'
  cases e'.symm.trans e1'
  have ma := List.mem_of_getElem? ha
  have mb := List.mem_of_getElem? hb
  have ma' := List.mem_of_getElem? ha'
  have mb' := List.mem_of_getElem? hb'
  have Hb := (H b mb).1
  have Hb' := (H' b' mb').1
  have Ha := (H a ma).1
  have Ha' := (H' a' ma').1
  rw [S.len] at Hb' Ha'
  obtain ⟨yb', hyb'⟩ := Similar.exists_image3 S hsw hn Hb
  obtain ⟨yb, hyb⟩ := Similar.exists_preimage3 S hsw hn Hb'
  have hq := midpoint_rule hl
  have MI := fun y y' hi v => C105_mechanical (leg := leg) hR hr hR' (by rw [k1]; exact hr') k0 hsw I.toMeshImage J hf
    (time := k / params.fps) hy (y := y) (y' := y') hi hθ v
  have ia := (imageC1_iff hsw).1 hy
  have ib' := (imageC1_iff hsw).1 hyb'
  have ib := (imageC1_iff hsw).1 hyb
  -- closeness to the previous step
  have near : ∀ v < s.grid.points.length, ∀ i < 2, ∀ j < 6,
      |b.yData.at3 2 6 v i j - a.yData.at3 2 6 v i j| ≤ params.searchRadius := by
    intro v hv i hi j hj
    have := (C58_step hs hbd ha hb).1
    rw [List.forall₂_iff_get] at this
    obtain ⟨x1, x2⟩ := List.getElem?_eq_some_iff.1 (entry_data3 Ha hv hi hj)
    obtain ⟨z1, z2⟩ := List.getElem?_eq_some_iff.1 (entry_data3 Hb hv hi hj)
    have c1 := this.2 _ x1 z1
    simp only [List.get_eq_getElem, x2, z2] at c1
    exact c1
  have near' : ∀ v < s.grid.points.length, ∀ i < 2, ∀ j < 6,
      |b'.yData.at3 2 6 v i j - a'.yData.at3 2 6 v i j| ≤ params'.searchRadius := by
    intro v hv i hi j hj
    have := (C58_step hs' hbd' ha' hb').1
    rw [List.forall₂_iff_get] at this
    obtain ⟨x1, x2⟩ := List.getElem?_eq_some_iff.1 (entry_data3 Ha' hv hi hj)
    obtain ⟨z1, z2⟩ := List.getElem?_eq_some_iff.1 (entry_data3 Hb' hv hi hj)
    have c1 := this.2 _ x1 z1
    simp only [List.get_eq_getElem, x2, z2] at c1
    exact c1
  -- fixed vertices
  have fixd : ∀ v ∈ s.grid.dirichlet.vertices, ∀ i < 2, b.yData.at3 2 6 v i 0 = a.yData.at3 2 6 v i 0 := by
    intro v hv i hi
    obtain ⟨z, hz⟩ := S.wf.planar v ((mem_vertices S.wf).1 (S.wf.dirichlet.1 v hv))
    have e : b.yData.deformed v = a.yData.deformed v := by
      rw [C57_fixed_boundary hR hfx mb hv hz, C57_fixed_boundary hR hfx ma hv hz]
    rw [deformed_3 Hb, deformed_3 Ha, Prod.mk.injEq] at e
    interval_cases i
    · exact e.1
    · exact e.2
  have fixd' : ∀ v ∈ s'.grid.dirichlet.vertices, ∀ i < 2, b'.yData.at3 2 6 v i 0 = a'.yData.at3 2 6 v i 0 := by
    intro v hv i hi
    obtain ⟨z, hz⟩ := S.wf'.planar v ((mem_vertices S.wf').1 (S.wf'.dirichlet.1 v hv))
    have e : b'.yData.deformed v = a'.yData.deformed v := by
      rw [C57_fixed_boundary hR' hfx' mb' hv hz, C57_fixed_boundary hR' hfx' ma' hv hz]
    rw [deformed_3 Hb', deformed_3 Ha', Prod.mk.injEq] at e
    interval_cases i
    · exact e.1
    · exact e.2
  have sh : deformShape s.grid s.refined = [s.grid.points.length, 2, 6] := by
    rw [e, deformShape, length_vertices S.wf]
  have sh' : deformShape s'.grid s'.refined = [s.grid.points.length, 2, 6] := by
    rw [e', deformShape, length_vertices S.wf', S.len]
  have vo : ∀ (n i : ℕ), vertexOf [n, 2, 6] i = i / 12 := fun _ _ => rfl
  obtain ⟨m0', t0', cx', -⟩ := hs'.history
  obtain ⟨m0, t0, cx, -⟩ := hs.history
  have ob : Oriented s.grid s.refined b.yData := by
    obtain ⟨p1, h1, -, h2, -⟩ := C63_objective hs hq ha hb
    cases h1.symm.trans hp
    obtain ⟨-, v, hv, -⟩ := hopt
    exact ((h2 v).1 hv).oriented cx.energetic
  have ob' : Oriented s'.grid s'.refined b'.yData := by
    obtain ⟨p1, h1, -, h2, -⟩ := C63_objective hs' hq ha' hb'
    cases h1.symm.trans hp'
    obtain ⟨-, v, hv, -⟩ := hopt'
    exact ((h2 v).1 hv).oriented cx'.energetic
  obtain ⟨-, -, -, -, db⟩ := hR.dirichletId hc nr
  obtain ⟨-, -, -, -, db'⟩ := hR'.dirichletId hc' nr'
  -- the first comparison: the image of `b`
  obtain ⟨v1, w1, l1, l2, l3⟩ := mech_beats hs' hq ha' hb' hp' hopt' (y' := yb') (by rw [sh']; exact hyb'.2.1)
    (fun i u v hu hv => by
      obtain ⟨i1, rfl⟩ := data_entry3 Ha' hu
      obtain ⟨-, rfl⟩ := data_entry3 hyb'.2.1 hv
      obtain ⟨x, hx, hxi⟩ := S.surj (i / 12) ((mem_vertices S.wf').2 (by rw [S.len]; exact i1))
      have hx' := (mem_vertices S.wf).1 hx
      have i2 : i / 6 % 2 < 2 := Nat.mod_lt _ (by norm_num)
      have i3 : i % 6 < 6 := Nat.mod_lt _ (by norm_num)
      rw [← hxi, ib'.2.2 x hx' _ i2 _ i3, ia.2.2 x hx' _ i2 _ i3, hrad, imageEntry_near hκ]
      exact near x hx' _ i2 _ i3)
    (fun i u v hm h6 hu hv => by
      obtain ⟨i1, rfl⟩ := data_entry3 Ha' hu
      obtain ⟨-, rfl⟩ := data_entry3 hyb'.2.1 hv
      obtain ⟨x, hx, hxi⟩ := S.surj (i / 12) ((mem_vertices S.wf').2 (by rw [S.len]; exact i1))
      have hx' := (mem_vertices S.wf).1 hx
      have i2 : i / 6 % 2 < 2 := Nat.mod_lt _ (by norm_num)
      rw [sh', vo, ← hxi, ← I.dirichletVertices x hx] at hm
      rw [h6 (by rw [e']; simp), ← hxi, ib'.2.2 x hx' _ i2 _ (by norm_num), ia.2.2 x hx' _ i2 _ (by norm_num), fixd x hm _ i2])
    (fun _ => (dirichletId_image S I hsw hyb').1 (db b mb)) (by rw [e'] at *; rw [e] at ob; exact (R.oriented hyb').1 ob)
  obtain ⟨v2, w2, l4, l5, l6⟩ := mech_beats hs hq ha hb hp hopt (y' := yb) (by rw [sh]; exact hyb.1)
    (fun i u v hu hv => by
      obtain ⟨i1, rfl⟩ := data_entry3 Ha hu
      obtain ⟨-, rfl⟩ := data_entry3 hyb.1 hv
      have i2 : i / 6 % 2 < 2 := Nat.mod_lt _ (by norm_num)
      have i3 : i % 6 < 6 := Nat.mod_lt _ (by norm_num)
      have := near' (σ (i / 12)) (S.mem ((mem_vertices S.wf).2 i1)).2 _ i2 _ i3
      rw [ib.2.2 _ i1 _ i2 _ i3, ia.2.2 _ i1 _ i2 _ i3, hrad, imageEntry_near hκ] at this
      exact this)
    (fun i u v hm h6 hu hv => by
      obtain ⟨i1, rfl⟩ := data_entry3 Ha hu
      obtain ⟨-, rfl⟩ := data_entry3 hyb.1 hv
      have i2 : i / 6 % 2 < 2 := Nat.mod_lt _ (by norm_num)
      rw [sh, vo, I.dirichletVertices _ ((mem_vertices S.wf).2 i1)] at hm
      have := fixd' _ hm _ i2
      rw [ib.2.2 _ i1 _ i2 _ (by norm_num), ia.2.2 _ i1 _ i2 _ (by norm_num)] at this
      rw [h6 (by rw [e]; simp)]
      exact imageEntry_inj k0 this)
    (fun _ => (dirichletId_image S I hsw hyb).2 (db' b' mb')) (by rw [e] at *; rw [e'] at ob'; exact (R.oriented hyb).2 ob')
  have n1 := (MI _ _ hyb' v2).1 l4
  have n2 := (MI _ _ hyb w2).1 l5
  rw [k2, one_mul] at n1 n2
  rw [hf] at l1 l2
  have hN' : ∀ v, IsEndpoint v s'.grid.neumann.edges → v ∈ s'.grid.neumann.vertices := by
    obtain ⟨it, hg⟩ := cx'.grid
    exact (C15_neumann_vertices_partial cx'.setup.facts.2.2.2.1 cx'.setup.width cx'.setup.height hg).2.2.1
  have u1 := n1.unique hN' l2
  have u2 := n2.unique hN' l1
  have e12 : v1 = w1 := le_antisymm l3 (by rw [← u1, ← u2]; exact l6)
  refine ⟨yb', hyb', v1, ?_, ?_⟩
  · rw [hf, e12]; exact l2
  · rw [hf]; exact l1

/-- **C105** (optimal temperatures). Let two regularized simulations correspond under half a turn. If two recorded steps correspond,
the next deformations correspond, their strains are moderate (see C84), and both solvers answer the next thermal problems optimally,
then the next temperatures correspond. -/
theorem C105_temperature (hs : s.Healthy solver domain params ext traction) (hr : params.regularization ≠ none)
    (hs' : s'.Healthy solver' domain' params' ext' traction') (hr' : params'.regularization ≠ none) (hκ : T.κ = 1 ∨ T.κ = -1)
    (hsw : T.swap = false) (I : Grid.MeshImage T σ s.grid s'.grid)
    (J : Grid.MeshImage T σr (energyGrid s.grid s.refined) (energyGrid s'.grid s'.refined)) (hl : LegMidpoint leg)
    (hf : params'.fps = params.fps) (hrad : params'.searchRadius = params.searchRadius)
    {k : ℕ} {a b a' b' : Step} (ha : s.steps[k]? = some a) (hb : s.steps[k + 1]? = some b)
    (ha' : s'.steps[k]? = some a') (hb' : s'.steps[k + 1]? = some b') {p p' : Problem} (hp : s.calls[2 * k + 1]? = some p)
    (hp' : s'.calls[2 * k + 1]? = some p') (hopt : p.IsOptimal leg (solver (s.calls.take (2 * k + 1)) p))
    (hopt' : p'.IsOptimal leg (solver' (s'.calls.take (2 * k + 1)) p'))
    (hy0 : NdArray.ImageDeformationC1 T σ s.grid.points.length a.yData a'.yData)
    (hy : NdArray.ImageDeformationC1 T σ s.grid.points.length b.yData b'.yData)
    (hθ : NdArray.ImageTemperature σr (energyGrid s.grid s.refined).points.length a.thetaData a'.thetaData)
    (hm : ModerateStrain s.grid s.refined b.yData) :
    NdArray.ImageTemperature σr (energyGrid s.grid s.refined).points.length b.thetaData b'.thetaData := by
  have hR := hs.reachable
  have hR' := hs'.reachable
  have h0 : T.κ ≠ 0 := by rcases hκ with h | h <;> rw [h] <;> norm_num
  obtain ⟨r, r', e, e', R⟩ := reg_sims hR hr hR' hr' h0 hsw I J
  have hobj := fun θ θ' hi v => C105_thermal (leg := leg) hR hr hR' hr' hκ hsw I J hf (time := k / params.fps) hy0 hy hθ (θ := θ) (θ' := θ') hi v
  have hn : (energyGrid s.grid s.refined).points.length = r.toGrid.points.length := by rw [e]; rfl
  obtain ⟨_, e1, -, -, H⟩ := hR.smooth hr
  cases e.symm.trans e1
  obtain ⟨_, e1', -, -, H'⟩ := hR'.smooth hr'
  cases e'.symm.trans e1'
  have S := R.fine
  have Hb' := (H' b' (List.mem_of_getElem? hb')).2
  have Ha' := (H' a' (List.mem_of_getElem? ha')).2
  rw [S.len] at Hb' Ha'
  rw [hn] at hobj hθ ⊢
  refine temperature_gen hs hs' (midpoint_rule hl) (by simp) (fun v hv => (S.mem ((mem_vertices S.wf).2 hv)).2) (fun v' hv' => ?_)
    (fun v hv w hw e => S.inj _ ((mem_vertices S.wf).2 hv) _ ((mem_vertices S.wf).2 hw) e) hrad ha hb ha' hb' hp hp' hopt hopt'
    (H a (List.mem_of_getElem? ha)).2 (H b (List.mem_of_getElem? hb)).2 Ha' Hb' hθ hm fun θ θ' hi v => ?_
  · obtain ⟨v, h1, h2⟩ := S.surj v' ((mem_vertices S.wf').2 (by rw [S.len]; exact hv'))
    exact ⟨v, (mem_vertices S.wf).1 h1, h2⟩
  · rw [hf]
    exact hobj θ θ' hi v

end

/-! ### examples -/

open Classical in
/-- a solver that keeps the deformation and finds optimal temperatures -/
noncomputable def mixSolver (leg : LegGauss) : Solver := fun cs p => if p.IsTherm then optSolver leg cs p else staySolver cs p

theorem mixSolver_spec (leg : LegGauss) (cs : List Problem) (p : Problem) :
    ((mixSolver leg cs p).err = none ↔ p.Feasible) ∧ (p.Feasible → p.Admits (mixSolver leg cs p)) ∧
    (p.IsTherm → p.Feasible → (∃ o, p.IsOptimal leg o) → p.IsOptimal leg (mixSolver leg cs p)) ∧
    (p.Feasible → ∀ a, p.objective leg = .ok a → ∃ b ≤ a, (p.load (mixSolver leg cs p)).objective leg = .ok b) ∧
    (¬ p.IsTherm → p.load (mixSolver leg cs p) = p) := by
  by_cases h : p.IsTherm
  · have e : mixSolver leg cs p = optSolver leg cs p := if_pos h
    rw [e]
    obtain ⟨h1, h2, h3, h4⟩ := optSolver_spec leg cs p
    exact ⟨h1, h2, fun _ => h3, h4, fun hn => absurd h hn⟩
  · have e : mixSolver leg cs p = staySolver cs p := if_neg h
    rw [e]
    exact ⟨⟨stay_feasible, stay_contracts.2.2.2.2.1 cs p⟩, fun hf => feasible_admits hf cs, fun ht => absurd ht h,
      fun hf a ha => ⟨a, le_refl _, by rw [stay_load]; exact ha⟩, fun _ => stay_load cs p⟩

theorem mixSolver_succeeds (leg : LegGauss) : (mixSolver leg).Succeeds := fun cs p h => (mixSolver_spec leg cs p).1.2 h

/-- a simulation with this solver: the deformation does not change, the temperatures are optimal -/
theorem mixSolver_sim {leg : LegGauss} {q : GaussRule ℝ} (hq : GaussRule.new leg 1 = .ok q) {domain : RectDomain ℝ}
    {params : SimParams} {ext : ExtTemp} {traction : Traction} {s : Sim}
    (hs : s.Healthy (mixSolver leg) domain params ext traction) {k : ℕ} {a b : Step} (ha : s.steps[k]? = some a)
    (hb : s.steps[k + 1]? = some b) :
    b.yData = a.yData ∧ ∃ p, s.calls[2 * k + 1]? = some p ∧ p.IsOptimal leg (mixSolver leg (s.calls.take (2 * k + 1)) p) := by
  have M := mixSolver_spec leg
  obtain ⟨m0, t0, c, H⟩ := hs.history
  obtain ⟨m, t, h1, h2, -, -, -, S⟩ := H.each k _ _ ha hb
  constructor
  · rw [S.y]
    have nt : ¬ m.problem.IsTherm := by cases m <;> exact id
    have h := (M (s.calls.take (2 * k)) m.problem).2.2.2.2 nt
    rw [← MechStep.load_problem] at h
    have e : (m.load (mixSolver leg (s.calls.take (2 * k)) m.problem)) = m := by
      cases m with
      | p1 x => simp only [MechStep.load, MechStep.problem, Problem.mechP1.injEq] at h ⊢; rw [h]
      | reg x => simp only [MechStep.load, MechStep.problem, Problem.mechReg.injEq] at h ⊢; rw [h]
    rw [e]
    exact S.mech.y
  · have hc : (mixSolver leg).RespectsConstraints := fun cs p h => ((M cs p).2.1 ((M cs p).1.1 h)).2.2
    have hd : (mixSolver leg).Decreases leg := fun cs p h => (M cs p).2.2.2.1 ((M cs p).1.1 h)
    have ho := (C78_exists hs.reachable hq hc hd (List.mem_of_getElem? h2)).2
    have it : t.problem.IsTherm := by cases t <;> trivial
    refine ⟨_, h2, (M _ _).2.2.1 it ((M (s.calls.take (2 * k + 1)) _).1.1 ?_) ho⟩
    have htake : s.calls.take (2 * k + 1) = s.calls.take (2 * k) ++ [m.problem] := by
      rw [List.take_add_one, h1]; rfl
    rw [htake]
    exact S.thermOk

/-- the regularized example in a unit of length that is half as long -/
theorem doubleSetupReg : Setup ⟨1, 2, .many [.lower]⟩ ⟨1, 1 / 4, 3, 1, some (|2| ^ 3 * (1 / 10)), some 2⟩ where
  valid := ⟨1, 1 / 4, 3, 1, some (|2| ^ 3 * (1 / 10)), some 2, (C55_validation_partial _ _ _ _ _ _).1
    ⟨by norm_num, by norm_num, by norm_num, by norm_num, by rintro x ⟨⟩; norm_num, by rintro x ⟨⟩; norm_num, by simp⟩⟩
  width := by norm_num
  height := by norm_num
  fine := by rintro n ⟨⟩; norm_num

/-- the regularized example, turned by half a turn -/
theorem turnedSetupReg : Setup ⟨1 / 2, 1, .one .upper⟩ exampleParamsReg where
  valid := exampleSetupReg.valid
  width := by norm_num [exampleParamsReg]
  height := by norm_num [exampleParamsReg]
  fine := exampleSetupReg.fine

/-- The regularized example and its double: they meet the hypotheses of the theorems above about lengths. -/
example (it it' : SetIter) :
    ∃ (solver : Solver) (s s' : Sim) (σ σr : Vertex → Vertex) (a a' : Step),
      s.Healthy solver exampleDomain exampleParamsReg (fun t => .ok (t ^ 2)) (fun t x y => .ok [t + x, y]) ∧
      s'.Healthy solver ⟨1, 2, .many [.lower]⟩ ⟨1, 1 / 4, 3, 1, some (|2| ^ 3 * (1 / 10)), some 2⟩ (fun t => .ok (t ^ 2))
        (fun t x y => .ok [t + x, y]) ∧
      Grid.Image (.magnify 2) σ s.grid s'.grid ∧
      Grid.MeshImage (.magnify 2) σr (energyGrid s.grid s.refined) (energyGrid s'.grid s'.refined) ∧
      s.steps[0]? = some a ∧ s'.steps[0]? = some a' ∧
      NdArray.ImageDeformationC1 (.magnify 2) σ s.grid.points.length a.yData a'.yData ∧
      NdArray.ImageTemperature σr (energyGrid s.grid s.refined).points.length a.thetaData a'.thetaData ∧
      ∃ v, IsMechObjective (fun _ => .ok ([0], [2])) exampleParamsReg (fun t x y => .ok [t + x, y]) s.grid s.refined 0 a.yData a.yData
        a.thetaData v := by
  have hl : LegMidpoint fun _ => .ok ([0], [2]) := rfl
  obtain ⟨solver, h1, h2, h3, h4, h5, h6, h7⟩ := C78_optimal_solver _ (midpoint_rule hl)
  obtain ⟨s, hs⟩ := C55_usable_partial exampleSetupReg (by norm_num [exampleParamsReg]) h5 it fun _ => exampleBoundary
  obtain ⟨s', hs'⟩ := C55_usable_partial doubleSetupReg (by norm_num) h5 it' fun _ => exampleBoundary
  have hh := Sim.Healthy.new exampleSetupReg hs
  have hh' := Sim.Healthy.new doubleSetupReg hs'
  obtain ⟨m0, t0, c, H⟩ := hh.history
  obtain ⟨m0', t0', c', H'⟩ := hh'.history
  obtain ⟨i1, g1⟩ := c.grid
  obtain ⟨i2, g2⟩ := c'.grid
  obtain ⟨-, -, q⟩ := c.setup.grids g1 c.refined
  obtain ⟨-, -, q'⟩ := c'.setup.grids g2 c'.refined
  obtain ⟨n, r, -, -, n1, n2, n3, -⟩ := q (by simp [exampleParamsReg])
  obtain ⟨n', r', -, -, n1', n2', n3', -⟩ := q' (by simp)
  obtain rfl : n = 2 := by simp only [exampleParamsReg, Option.some.injEq] at n1; omega
  obtain rfl : n' = 2 := by simp only [Option.some.injEq] at n1'; omega
  obtain ⟨σ, σr, I, J⟩ := C105_magnify (κ := 2) (d := exampleDomain) (d' := ⟨1, 2, .many [.lower]⟩) (s := 1 / 2) (n := 2) (by norm_num)
    (by norm_num) (by norm_num [exampleDomain]) (by norm_num [exampleDomain]) (by norm_num [exampleDomain])
    (by norm_num [exampleDomain]) (fun f => by simp [exampleDomain, Fix.options]) g1 (by norm_num; exact g2) (by norm_num)
    (by norm_num) (by norm_num) n3 n3'
  have J' : Grid.MeshImage (.magnify 2) σr (energyGrid s.grid s.refined) (energyGrid s'.grid s'.refined) := by
    rw [n2, n2']; exact J
  obtain ⟨a, a', k1, k2, k3, k4⟩ := C105_initial hh.reachable (by simp [exampleParamsReg]) hh'.reachable (by simp) (T := .magnify 2)
    (by norm_num [Similarity.magnify]) rfl I.toMeshImage J' rfl
  have l1 := C60_new exampleSetupReg hs
  have b1 : ∃ b, s.steps[1]? = some b := ⟨_, List.getElem?_eq_getElem (by omega)⟩
  obtain ⟨b, b1⟩ := b1
  obtain ⟨p, p1, p2, -⟩ := C63_objective hh (midpoint_rule hl) k1 b1
  obtain ⟨-, v, -, -, hv⟩ := (C78_exists hh.reachable (midpoint_rule hl) h4 h6 (List.mem_of_getElem? p1)).1
  have hv' := (p2 v).1 hv
  rw [Nat.cast_zero, zero_div] at hv'
  exact ⟨solver, s, s', σ, σr, a, a', hh, hh', I, J', k1, k2, k3, k4, v, hv'⟩

/-- the regularized example and the example turned by half a turn, with the same solver -/
theorem turned_sims {solver : Solver} (h5 : solver.Succeeds) (it it' : SetIter) :
    ∃ (s s' : Sim) (σ σr : Vertex → Vertex) (a b a' b' : Step),
      s.Healthy solver exampleDomain exampleParamsReg (fun t => .ok (t ^ 2)) (fun t x y => .ok [t + x, y]) ∧
      s'.Healthy solver ⟨1 / 2, 1, .one .upper⟩ exampleParamsReg (fun t => .ok (t ^ 2)) (fun t x y => .ok [t + x, y]) ∧
      Grid.Image (.turn (1 / 2) 1) σ s.grid s'.grid ∧
      Grid.MeshImage (.turn (1 / 2) 1) σr (energyGrid s.grid s.refined) (energyGrid s'.grid s'.refined) ∧
      s.steps[0]? = some a ∧ s.steps[1]? = some b ∧ s'.steps[0]? = some a' ∧ s'.steps[1]? = some b' ∧
      NdArray.ImageDeformationC1 (.turn (1 / 2) 1) σ s.grid.points.length a.yData a'.yData ∧
      NdArray.ImageTemperature σr (energyGrid s.grid s.refined).points.length a.thetaData a'.thetaData := by
  obtain ⟨s, hs⟩ := C55_usable_partial exampleSetupReg (by norm_num [exampleParamsReg]) h5 it fun _ => exampleBoundary
  obtain ⟨s', hs'⟩ := C55_usable_partial turnedSetupReg (by norm_num [exampleParamsReg]) h5 it' fun _ => exampleBoundary
  have hh := Sim.Healthy.new exampleSetupReg hs
  have hh' := Sim.Healthy.new turnedSetupReg hs'
  obtain ⟨m0, t0, c, H⟩ := hh.history
  obtain ⟨m0', t0', c', H'⟩ := hh'.history
  obtain ⟨i1, g1⟩ := c.grid
  obtain ⟨i2, g2⟩ := c'.grid
  obtain ⟨-, -, q⟩ := c.setup.grids g1 c.refined
  obtain ⟨-, -, q'⟩ := c'.setup.grids g2 c'.refined
  have hr : exampleParamsReg.regularization ≠ none := by simp [exampleParamsReg]
  obtain ⟨n, r, -, -, n1, n2, n3, -⟩ := q hr
  obtain ⟨n', r', -, -, n1', n2', n3', -⟩ := q' hr
  obtain rfl : n = 2 := by simp only [exampleParamsReg, Option.some.injEq] at n1; omega
  obtain rfl : n' = 2 := by simp only [exampleParamsReg, Option.some.injEq] at n1'; omega
  obtain ⟨σ, σr, I, J⟩ := C105_turn (d := exampleDomain) (d' := ⟨1 / 2, 1, .one .upper⟩) (s := 1 / 2) (n := 2) (by norm_num)
    (by norm_num [exampleDomain]) (by norm_num [exampleDomain]) (by norm_num [exampleDomain]) (by norm_num [exampleDomain])
    (fun f hf => by cases f <;> simp_all [exampleDomain, Fix.options, FixOption.turned]) g1 g2 (by norm_num) (by norm_num) n3 n3'
  have w1 : (cells exampleDomain.width (1 / 2) : ℝ) * (1 / 2) = 1 / 2 := by
    rw [show cells exampleDomain.width (1 / 2) = 1 by norm_num [cells, exampleDomain]]; norm_num
  have w2 : (cells exampleDomain.height (1 / 2) : ℝ) * (1 / 2) = 1 := by
    rw [show cells exampleDomain.height (1 / 2) = 2 by norm_num [cells, exampleDomain]]; norm_num
  rw [w1, w2] at I J
  have J' : Grid.MeshImage (.turn (1 / 2) 1) σr (energyGrid s.grid s.refined) (energyGrid s'.grid s'.refined) := by
    rw [n2, n2']; exact J
  have κ1 : (Similarity.turn (1 / 2) 1).κ = -1 := rfl
  obtain ⟨a, a', k1, k2, k3, k4⟩ := C105_initial hh.reachable hr hh'.reachable hr (T := .turn (1 / 2) 1)
    (by rw [κ1]; norm_num) rfl I.toMeshImage J' rfl
  have l1 := C60_new exampleSetupReg hs
  have l2 := C60_new turnedSetupReg hs'
  have b1 : ∃ b, s.steps[1]? = some b := ⟨_, List.getElem?_eq_getElem (by omega)⟩
  have b2 : ∃ b, s'.steps[1]? = some b := ⟨_, List.getElem?_eq_getElem (by omega)⟩
  obtain ⟨b, b1⟩ := b1
  obtain ⟨b', b2⟩ := b2
  exact ⟨s, s', σ, σr, a, b, a', b', hh, hh', I, J', k1, b1, k2, b2, k3, k4⟩

/-- The regularized example and the example turned by half a turn: they meet the hypotheses of the theorems above about half turns. -/
example (it it' : SetIter) :
    ∃ (leg : LegGauss) (solver : Solver) (s s' : Sim) (σ σr : Vertex → Vertex) (a b a' b' : Step) (p p' : Problem),
      LegMidpoint leg ∧
      s.Healthy solver exampleDomain exampleParamsReg (fun t => .ok (t ^ 2)) (fun t x y => .ok [t + x, y]) ∧
      s'.Healthy solver ⟨1 / 2, 1, .one .upper⟩ exampleParamsReg (fun t => .ok (t ^ 2)) (fun t x y => .ok [t + x, y]) ∧
      Grid.Image (.turn (1 / 2) 1) σ s.grid s'.grid ∧
      Grid.MeshImage (.turn (1 / 2) 1) σr (energyGrid s.grid s.refined) (energyGrid s'.grid s'.refined) ∧
      s.steps[0]? = some a ∧ s.steps[1]? = some b ∧ s'.steps[0]? = some a' ∧ s'.steps[1]? = some b' ∧
      s.calls[1]? = some p ∧ s'.calls[1]? = some p' ∧ p.IsOptimal leg (solver (s.calls.take 1) p) ∧
      p'.IsOptimal leg (solver (s'.calls.take 1) p') ∧
      NdArray.ImageDeformationC1 (.turn (1 / 2) 1) σ s.grid.points.length a.yData a'.yData ∧
      NdArray.ImageTemperature σr (energyGrid s.grid s.refined).points.length a.thetaData a'.thetaData ∧
      NdArray.ImageDeformationC1 (.turn (1 / 2) 1) σ s.grid.points.length b.yData b'.yData ∧
      ModerateStrain s.grid s.refined b.yData ∧
      NdArray.ImageTemperature σr (energyGrid s.grid s.refined).points.length b.thetaData b'.thetaData := by
  have hl : LegMidpoint fun _ => .ok ([0], [2]) := rfl
  have hq := midpoint_rule hl
  have h5 := mixSolver_succeeds fun _ => .ok ([0], [2])
  obtain ⟨s, s', σ, σr, a, b, a', b', hh, hh', I, J', k1, b1, k2, b2, k3, k4⟩ := turned_sims h5 it it'
  have hr : exampleParamsReg.regularization ≠ none := by simp [exampleParamsReg]
  obtain ⟨y1, p, p1, o1⟩ := mixSolver_sim hq hh k1 b1
  obtain ⟨y2, p', p2, o2⟩ := mixSolver_sim hq hh' k2 b2
  have hm : ModerateStrain s.grid s.refined b.yData := by
    obtain ⟨st, z1, -, z2, D, z3, z4⟩ := C68_initial hh.reachable
    cases k1.symm.trans z1
    obtain ⟨r, hr', R⟩ := energyRule_good s.refined
    have hu : Undeformed s.grid s.refined a.yData :=
      ⟨D, r, z3, hr', fun t ht b hb => (z4 t ht b (R.inside b hb).1).2.1⟩
    rw [y1]
    exact hu.moderate
  have ky : NdArray.ImageDeformationC1 (.turn (1 / 2) 1) σ s.grid.points.length b.yData b'.yData := by rw [y1, y2]; exact k3
  exact ⟨_, _, s, s', σ, σr, a, b, a', b', p, p', hl, hh, hh', I, J', k1, b1, k2, b2, p1, p2, o1, o2, k3, k4, ky, hm,
    C105_temperature hh hr hh' hr (Or.inr rfl) rfl I.toMeshImage J' hl rfl rfl k1 b1 k2 b2 p1 p2 o1 o2 k3 ky k4 hm⟩

/-- The same simulations with an optimal solver: they meet the hypotheses of `C105_optimal`. -/
example (it it' : SetIter) :
    ∃ (leg : LegGauss) (solver : Solver) (s s' : Sim) (σ σr : Vertex → Vertex) (a b a' b' : Step) (p p' : Problem),
      LegMidpoint leg ∧ solver.RespectsFixed ∧ solver.RespectsBounds ∧ solver.RespectsConstraints ∧
      s.Healthy solver exampleDomain exampleParamsReg (fun t => .ok (t ^ 2)) (fun t x y => .ok [t + x, y]) ∧
      s'.Healthy solver ⟨1 / 2, 1, .one .upper⟩ exampleParamsReg (fun t => .ok (t ^ 2)) (fun t x y => .ok [t + x, y]) ∧
      Grid.Image (.turn (1 / 2) 1) σ s.grid s'.grid ∧
      Grid.MeshImage (.turn (1 / 2) 1) σr (energyGrid s.grid s.refined) (energyGrid s'.grid s'.refined) ∧
      s.steps[0]? = some a ∧ s.steps[1]? = some b ∧ s'.steps[0]? = some a' ∧ s'.steps[1]? = some b' ∧
      s.calls[0]? = some p ∧ s'.calls[0]? = some p' ∧ p.IsOptimal leg (solver (s.calls.take 0) p) ∧
      p'.IsOptimal leg (solver (s'.calls.take 0) p') ∧
      NdArray.ImageDeformationC1 (.turn (1 / 2) 1) σ s.grid.points.length a.yData a'.yData ∧
      NdArray.ImageTemperature σr (energyGrid s.grid s.refined).points.length a.thetaData a'.thetaData := by
  have hl : LegMidpoint fun _ => .ok ([0], [2]) := rfl
  have hq := midpoint_rule hl
  obtain ⟨solver, h1, h2, h3, h4, h5, h6, h7⟩ := C78_optimal_solver _ hq
  obtain ⟨s, s', σ, σr, a, b, a', b', hh, hh', I, J', k1, b1, k2, b2, k3, k4⟩ := turned_sims h5 it it'
  obtain ⟨p, p1, -⟩ := C63_objective hh hq k1 b1
  obtain ⟨p', p2, -⟩ := C63_objective hh' hq k2 b2
  exact ⟨_, solver, s, s', σ, σr, a, b, a', b', p, p', hl, h1, h2, h4, hh, hh', I, J', k1, b1, k2, b2, p1, p2, h7 hh.reachable 0 p p1,
    h7 hh'.reachable 0 p' p2, k3, k4⟩

end Tve
