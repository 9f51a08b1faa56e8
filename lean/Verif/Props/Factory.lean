import Verif.Props.Steps
import Verif.Props.Usable
import Verif.Props.Sample
import Verif.Props.Refine

/-!
# C88: the formulation of a step is chosen by the regularization alone
-/

namespace Tve

section
variable {g : Grid ℝ} {nx ny : ℕ} {s : ℝ} {params : MechParams} {tparams : ThermParams}

/-- Asking for a regularized step without giving a refined grid raises `ValueError`, whatever the other arguments are. -/
theorem C88_missing_refined_grid (g : Grid ℝ) :
    (params.regularization ≠ none → ∀ traction, mechanicalStep g params none traction = .error .valueError) ∧
    (tparams.regularization ≠ none → ∀ a b c ext, thermalStep g a b c tparams ext none = .error .valueError) := by
  constructor
  · intro h traction
    obtain ⟨r, hr⟩ := Option.ne_none_iff_exists'.1 h
    rw [mechanicalStep, hr]
  · intro h a b c ext
    obtain ⟨r, hr⟩ := Option.ne_none_iff_exists'.1 h
    rw [thermalStep, hr]

/-- Without regularization a refined grid is ignored, and the arrays have one vector and one number per vertex of the grid. -/
theorem C88_plain (G : LibraryGrid g nx ny s) :
    (params.regularization = none → ∀ refined traction,
      mechanicalStep g params refined traction = mechanicalStep g params none traction ∧
      ∀ m, mechanicalStep g params refined traction = .ok m →
        m.y.Has [g.vertices.length, 2] ∧ m.prevY.Has [g.vertices.length, 2] ∧ m.prevTheta.Has [g.vertices.length]) ∧
    (tparams.regularization = none → ∀ refined a b c ext,
      thermalStep g a b c tparams ext refined = thermalStep g a b c tparams ext none ∧
      ∀ m, a.Ok → b.Ok → c.Ok → thermalStep g a b c tparams ext refined = .ok m →
        a.shape = [g.vertices.length, 2] ∧ b.shape = [g.vertices.length, 2] ∧ c.shape = [g.vertices.length] ∧
        m.prevY = a ∧ m.y = b ∧ m.prevTheta = c ∧ m.theta = c) := by
  have F0 : RefinedOk none := by intro r hr; cases hr
  constructor
  · intro h refined traction
    have e : mechanicalStep g params refined traction = mechanicalStep g params none traction := by
      simp only [mechanicalStep, h]
    refine ⟨e, fun m hm => ?_⟩
    rw [e] at hm
    have S := C56_mech_shapes (MechStep.Reachable.new G F0 hm)
    simp only [mechanicalStep, h] at hm
    obtain ⟨x, hx, hm⟩ := bind_eq_ok.1 hm
    cases hm
    obtain ⟨-, G1, G2, -, rfl⟩ := P1Mech.of_new G.usable hx
    exact ⟨S.2.1, S.1, S.2.2⟩
  · intro h refined a b c ext
    have e : thermalStep g a b c tparams ext refined = thermalStep g a b c tparams ext none := by
      simp only [thermalStep, h]
    refine ⟨e, fun m ha hb hc hm => ?_⟩
    rw [e] at hm
    obtain ⟨-, h1, h2, h3, h4, -⟩ := thermalStep_WF G.usable (by intro r hr; cases hr) ha hb hc hm
    have S := C56_therm_shapes (ThermStep.Reachable.new G F0 ha hb hc hm)
    rw [h1, h2, h3] at S
    simp only [thermalStep, h] at hm
    obtain ⟨x, hx, hm⟩ := bind_eq_ok.1 hm
    cases hm
    obtain ⟨e, -, -, A, B, A', B', T, -, -, -, -, -, -, -, -, -, rfl⟩ := P1Therm.of_new G.usable ha hb hc hx
    exact ⟨S.1.1, S.2.1.1, S.2.2.1.1, h1, h2, h3, h4⟩

/-- With regularization the boundary data are ignored, and the arrays have two times six numbers per vertex of the grid and one
number per vertex of the refined grid. -/
theorem C88_regularized (G : LibraryGrid g nx ny s) {r : RefinedGrid ℝ} {nx' ny' : ℕ} {s' : ℝ}
    (F : LibraryGrid r.toGrid nx' ny' s') :
    (params.regularization ≠ none → ∀ traction traction',
      mechanicalStep g params (some r) traction = mechanicalStep g params (some r) traction' ∧
      ∀ m, mechanicalStep g params (some r) traction = .ok m →
        m.y.Has [g.vertices.length, 2, 6] ∧ m.prevY.Has [g.vertices.length, 2, 6] ∧
        m.prevTheta.Has [r.toGrid.vertices.length]) ∧
    (tparams.regularization ≠ none → ∀ a b c ext ext',
      thermalStep g a b c tparams ext (some r) = thermalStep g a b c tparams ext' (some r) ∧
      ∀ m, a.Ok → b.Ok → c.Ok → thermalStep g a b c tparams ext (some r) = .ok m →
        a.shape = [g.vertices.length, 2, 6] ∧ b.shape = [g.vertices.length, 2, 6] ∧ c.shape = [r.toGrid.vertices.length] ∧
        m.prevY = a ∧ m.y = b ∧ m.prevTheta = c ∧ m.theta = c) := by
  have F0 : RefinedOk (some r) := by intro r' hr; cases hr; exact ⟨_, _, _, F⟩
  constructor
  · intro h traction traction'
    obtain ⟨reg, hr⟩ := Option.ne_none_iff_exists'.1 h
    refine ⟨by simp only [mechanicalStep, hr], fun m hm => ?_⟩
    have S := C56_mech_shapes (MechStep.Reachable.new G F0 hm)
    simp only [mechanicalStep, hr] at hm
    obtain ⟨x, hx, hm⟩ := bind_eq_ok.1 hm
    cases hm
    obtain ⟨-, rfl⟩ := RegMech.of_new G.usable F.usable hx
    exact ⟨S.2.1, S.1, S.2.2⟩
  · intro h a b c ext ext'
    obtain ⟨reg, hr⟩ := Option.ne_none_iff_exists'.1 h
    refine ⟨by simp only [thermalStep, hr], fun m ha hb hc hm => ?_⟩
    obtain ⟨-, h1, h2, h3, h4, -⟩ := thermalStep_WF G.usable (by intro r' hr; cases hr; exact ⟨_, F.usable⟩) ha hb hc hm
    have S := C56_therm_shapes (ThermStep.Reachable.new G F0 ha hb hc hm)
    rw [h1, h2, h3] at S
    simp only [thermalStep, hr] at hm
    obtain ⟨x, hx, hm⟩ := bind_eq_ok.1 hm
    cases hm
    obtain ⟨A, B, A', B', T, -, -, -, -, -, -, -, -, -, -, -, -, -, rfl⟩ := RegTherm.of_new G.usable F.usable ha hb hc hx
    exact ⟨S.1.1, S.2.1.1, S.2.2.1.1, h1, h2, h3, h4⟩

end

/-- on the sample grid with nine vertices, and its refinement with 25, both kinds of mechanical steps are created; the arrays are
`(9, 2)` and `(9,)`, and `(9, 2, 6)` and `(25,)` -/
example (it : SetIter) : ∃ r m m', sampleDomain.refine (sampleGrid it) (2 : ℕ) = .ok r ∧
    mechanicalStep (sampleGrid it) ⟨1, 1 / 8, 3, none⟩ (some r) (fun t x y => .ok [t + x, y]) = .ok m ∧
    mechanicalStep (sampleGrid it) ⟨1, 1 / 8, 3, some (1 / 10)⟩ (some r) (fun t x y => .ok [t + x, y]) = .ok m' ∧
    m.y.Has [9, 2] ∧ m.prevTheta.Has [9] ∧ m'.y.Has [9, 2, 6] ∧ m'.prevTheta.Has [25] := by
  have G := sampleGrid_library it
  obtain ⟨r, hr, LR, -, -, -, hv, -⟩ := C22_refine G sampleDomain (n := 2) (by norm_num) (by norm_num)
  obtain ⟨m, hm⟩ := mechanicalStep_ok G.usable (params := ⟨1, 1 / 8, 3, none⟩) (refined := some r)
    (tr := fun t x y => .ok [t + x, y]) (by norm_num) (fun h => absurd rfl h) (fun _ v _ => ⟨_, rfl, by simp⟩)
  obtain ⟨m', hm'⟩ := mechanicalStep_ok G.usable (params := ⟨1, 1 / 8, 3, some (1 / 10)⟩) (refined := some r)
    (tr := fun t x y => .ok [t + x, y]) (by norm_num) (fun _ => ⟨r, _, rfl, LR.usable⟩) (by simp)
  have h9 : (sampleGrid it).vertices.length = 9 := by rw [(sampleGrid_lists it).1]; rfl
  have h25 : r.toGrid.vertices.length = 25 := by rw [hv]
  have a := (((C88_plain (params := ⟨1, 1 / 8, 3, none⟩) (tparams := ⟨1, 1, none⟩) G).1 rfl (some r) _).2 m hm)
  have b := (((C88_regularized (params := ⟨1, 1 / 8, 3, some (1 / 10)⟩) (tparams := ⟨1, 1, none⟩) G LR).1 (by simp) _
    (fun t x y => .ok [t + x, y])).2 m' hm')
  rw [h9] at a b
  rw [h25] at b
  exact ⟨r, m, m', hr, hm, hm', a.1, a.2.2, b.1, b.2.2⟩

end Tve
