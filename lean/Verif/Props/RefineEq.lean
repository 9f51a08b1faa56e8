import Verif.Lemmas.RefineEq
import Verif.Props.Refine

/-!
# Property C23: refining equals gridding at the finer scale

The claim is false as soon as a side is fixed and the factor is at least two (`C23_fixed_side_false`): `refine` does not
put the new vertices of a fixed side among the Neumann vertices, whereas `grid` does (compare C15). It holds when no side
is fixed (`C23_no_fix_partial`), and in general everything except the list of Neumann vertices agrees
(`C23_up_to_neumann_vertices_partial`).
-/

namespace Tve

/-- no option of `fix` names a side of the rectangle -/
def Fix.NoSide (fix : Fix) : Prop := ∀ f ∈ fix.options, ∃ name, f = .unknown name

theorem onSide_inner {nx ny n : ℕ} (hn : 2 ≤ n) (hx : 1 ≤ nx) (hy : 1 ≤ ny) {f f' : FixOption} {e : LP × LP}
    (he : SideEdge nx ny f e) (hf : OnSideL (n * nx) (n * ny) f' (subP n e 1)) : f' = f := by
  have h1 : n ≤ n * nx := Nat.le_mul_of_pos_right n hx
  have h2 : n ≤ n * ny := Nat.le_mul_of_pos_right n hy
  have key : ∀ k i, 2 ≤ k → i * k + 1 = 0 → False := by intro k i _ h; omega
  have key2 : ∀ m i, 2 ≤ n → n * i + 1 = n * m → False := by
    intro m i _ h
    have := congrArg (· % n) h
    simp only [Nat.mul_add_mod, Nat.mul_mod_right] at this
    rw [Nat.mod_eq_of_lt (by omega)] at this
    omega
  cases f
  case unknown => exact he.elim
  all_goals
    obtain ⟨i, hi, rfl⟩ := he
    first
    | rw [subP_h (by omega)] at hf
    | rw [subP_v (by omega)] at hf
    cases f' <;> simp only [OnSideL] at hf <;>
      first
      | rfl
      | exact hf.elim
      | (exfalso; omega)
      | (exfalso; exact key2 _ _ hn hf)

/-- Sharp form: if the finer grid has the same extent, comparing the refined grid with it (in either order) never raises
and gives `True` exactly if the factor is one or no side is fixed. -/
theorem C23_sharp_partial {it it' : SetIter} {d : RectDomain ℝ} {s : ℝ} {n : ℕ} {g g' : Grid ℝ} {r : RefinedGrid ℝ}
    (hs : 0 < s) (hw : s ≤ d.width) (hh : s ≤ d.height) (hn : 1 ≤ n) (hmin : 1 / 10 ^ 15 ≤ s / n)
    (hg : d.grid it s = .ok g) (hr : d.refine g n = .ok r) (hg' : d.grid it' (s / n) = .ok g')
    (ew : cells d.width (s / n) = n * cells d.width s) (eh : cells d.height (s / n) = n * cells d.height s) :
    (∃ b, r.toGrid.eq g' = .ok b ∧ (b = true ↔ n = 1 ∨ d.fix.NoSide)) ∧
    (∃ b, g'.eq r.toGrid = .ok b ∧ (b = true ↔ n = 1 ∨ d.fix.NoSide)) ∧
    ∃ σ, SameMesh { r.toGrid with neumann := ⟨g'.neumann.vertices.map σ, r.toGrid.neumann.edges⟩ } g' σ := by
  have hn0 : (0 : ℝ) < n := by exact_mod_cast hn
  have hsn : 0 < s / n := div_pos hs hn0
  have hle : s / n ≤ s := div_le_self hs.le (by exact_mod_cast hn)
  have G := LibraryGrid.grid hs hw hh hg
  have hx := one_le_cells hs hw
  have hy := one_le_cells hs hh
  have F := LibraryGrid.refine G hn hmin hr
  have G' := LibraryGrid.grid hsn (hle.trans hw) (hle.trans hh) hg'
  rw [ew, eh] at G'
  obtain ⟨ts, S⟩ := rectSpec_unique (hs.le.trans hw) (hs.le.trans hh) hs hg
  obtain ⟨ts', S'⟩ := rectSpec_unique (hs.le.trans hw) (hs.le.trans hh) hsn hg'
  rw [ew, eh] at S'
  generalize cells d.width s = nx at *
  generalize cells d.height s = ny at *
  obtain ⟨P, E, T, BV, BE, DV, DE, NV, NE, H, hDE, hNV⟩ := rect_LGrid' S hx hy hs
  obtain ⟨P', E', T', BV', BE', DV', DE', NV', NE', B, hDE', hNV'⟩ :=
    rect_LGrid' S' (Nat.mul_pos hn hx) (Nat.mul_pos hn hy) hsn
  obtain ⟨r', hr', R⟩ := refine_ok hn d H.lat hmin H.pd H.pn
  rw [hr] at hr'
  cases hr'
  have A := H.refined hn R
  have tolF := F.separated
  have tolG := G'.separated
  have hFpos : 0 < r.toGrid.pointTol := by rw [A.lat.pointTol_eq]; exact (C17_unique F).1
  have hGpos : 0 < g'.pointTol := by rw [B.lat.pointTol_eq]; exact (C17_unique G').1
  have e1 : r.toGrid.pointTol ≤ s / n := by
    have := tolF.2; have : s / n / 10 ^ 6 ≤ s / n := div_le_self hsn.le (by norm_num)
    linarith
  have e2 : g'.pointTol ≤ s / n := by
    have := tolG.2; have : s / n / 10 ^ 6 ≤ s / n := div_le_self hsn.le (by norm_num)
    linarith
  have hmono : s / n / 10 ^ 6 ≤ s / n := div_le_self hsn.le (by norm_num)
  have hD : ∀ e, e ∈ T.flatMap (fineBE n DE) ↔ e ∈ DE' := by
    intro e'
    rw [mem_fineX H.lat H.nodupDE H.DEsub, hDE']
    constructor
    · rintro ⟨e, he, h'⟩
      obtain ⟨f, hf, h1⟩ := (hDE e).1 he
      exact ⟨f, hf, (sideEdge_sub hn f e').2 ⟨e, h1, h'⟩⟩
    · rintro ⟨f, hf, h1⟩
      obtain ⟨e, h2, h'⟩ := (sideEdge_sub hn f e').1 h1
      exact ⟨e, (hDE e).2 ⟨f, hf, h2⟩, h'⟩
  have hcrit : (∀ a, a ∈ NV.map (scaleP n) ++ T.flatMap (fineBV n NE) ↔ a ∈ NV') ↔ n = 1 ∨ d.fix.NoSide := by
    constructor
    · intro hall
      by_contra hcon
      rw [not_or, Fix.NoSide] at hcon
      obtain ⟨hn1, hcon⟩ := hcon
      push Not at hcon
      obtain ⟨f, hf, hun⟩ := hcon
      have hn2 : 2 ≤ n := by omega
      have hex : ∃ e, SideEdge nx ny f e := by
        cases f
        exacts [⟨_, 0, by omega, rfl⟩, ⟨_, 0, by omega, rfl⟩, ⟨_, 0, by omega, rfl⟩, ⟨_, 0, by omega, rfl⟩,
          absurd rfl (hun _)]
      obtain ⟨e, he⟩ := hex
      have hsub := (sideEdge_iff (dg := true)).1 ((sideEdge_sub hn f (subE n e 1)).2 ⟨e, he, 1, by omega, rfl⟩)
      have hmem : subP n e 1 ∈ NV' := by
        rw [hNV']
        refine ⟨(latEdge_mem hsub.1).1, ⟨f, hsub.2.1⟩, ?_⟩
        rw [Finset.card_le_one]
        have : ∀ x, x ∈ fixedSides (n * nx) (n * ny) d.fix (subP n e 1) → x = f := by
          intro x hx'
          simp only [fixedSides, Finset.mem_filter] at hx'
          exact onSide_inner hn2 hx hy he hx'.2
        intro a ha b hb
        rw [this a ha, this b hb]
      rcases List.mem_append.1 ((hall _).2 hmem) with h1 | h1
      · obtain ⟨b, -, h2⟩ := List.mem_map.1 h1
        exact subP_not_scale (sideEdge_HV he) le_rfl (by omega) h2.symm
      · obtain ⟨e2, he2, k, hk1, hk2, h2⟩ := (mem_fineV H.lat H.nodupNE H.NEsub _).1 h1
        obtain ⟨rfl, -⟩ := subP_inj (sideEdge_HV he) (BE_HV H.lat (H.NEsub e2 he2)) le_rfl (by omega) hk1 hk2 h2
        exact H.disj e ((hDE e).2 ⟨f, hf, he⟩) he2
    · rintro (rfl | hno) a
      · rw [List.mem_append, mem_fineV H.lat H.nodupNE H.NEsub, List.mem_map, hNV', Nat.one_mul, Nat.one_mul]
        have hsc : ∀ b : LP, scaleP 1 b = b := fun b => by simp [scaleP]
        simp only [hsc, exists_eq_right]
        rw [← hNV]
        constructor
        · rintro (h1 | ⟨e, -, k, h1, h2, -⟩)
          · exact h1
          · omega
        · exact .inl
      · have hD0 : ∀ e, e ∉ DE := by
          intro e he
          obtain ⟨f, hf, h1⟩ := (hDE e).1 he
          obtain ⟨name, rfl⟩ := hno f hf
          exact h1
        have hcard : ∀ m k b, (fixedSides m k d.fix b).card ≤ 1 := by
          intro m k b
          have : fixedSides m k d.fix b = ∅ := by
            rw [Finset.eq_empty_iff_forall_notMem]
            intro f hf
            simp only [fixedSides, Finset.mem_filter, List.mem_toFinset] at hf
            obtain ⟨name, rfl⟩ := hno f hf.1
            exact hf.2
          rw [this]; simp
        have hNB : ∀ b, b ∈ NV ↔ b ∈ BV := by
          intro b
          rw [hNV, H.lat.memBV, ← onSideL_any]
          exact ⟨fun h => ⟨h.1, h.2.1⟩, fun h => ⟨h.1, h.2, hcard _ _ _⟩⟩
        have hNE : ∀ e, e ∈ NE ↔ e ∈ BE := fun e =>
          ⟨H.NEsub e, fun he => ((H.cover e).1 he).resolve_left (hD0 e)⟩
        rw [hNV']
        have hB := A.lat.memBV a
        rw [← onSideL_any] at hB
        rw [List.mem_append, mem_fineV H.lat H.nodupNE H.NEsub, List.mem_map]
        rw [List.mem_append, mem_fineV H.lat H.lat.nodupBE (fun _ h => h), List.mem_map] at hB
        simp only [hNB, hNE]
        rw [hB]
        exact ⟨fun h => ⟨h.1, h.2, hcard _ _ _⟩, fun h => ⟨h.1, h.2.1⟩⟩
  refine ⟨?_, ?_, ?_⟩
  · obtain ⟨b, hb1, hb2⟩ := C20_library F G' hmono
    exact ⟨b, hb1, by rw [hb2, sameMesh_iff A B hD hFpos e1, hcrit]⟩
  · obtain ⟨b, hb1, hb2⟩ := C20_library G' F hmono
    refine ⟨b, hb1, ?_⟩
    rw [hb2, sameMesh_iff B A (fun e => (hD e).symm) hGpos e2, ← hcrit]
    exact ⟨fun h a => (h a).symm, fun h a => (h a).symm⟩
  · refine ⟨_, sameMesh_of A B hD hFpos ⟨List.Perm.refl _, ?_⟩⟩
    have hNE : NE'.Perm (T.flatMap (fineBE n NE)) := (List.perm_ext_iff_of_nodup B.nodupNE A.nodupNE).2 fun e => by
      rw [neumann_edges_iff A, neumann_edges_iff B, A.lat.memBE, B.lat.memBE, hD]
    show List.Perm _ (r.toGrid.neumann.edges.map _)
    rw [A.pn.edges, B.pn.edges, map_rename B.pn.memX, map_undirected]
    exact (hNE.map _).map _

section
variable {it it' : SetIter} {d : RectDomain ℝ} {s : ℝ} {n : ℕ} {g g' : Grid ℝ} {r : RefinedGrid ℝ}

/-- If no side is fixed, `refine(grid(scale), n) == grid(scale / n)` is `True` whenever the finer grid has the same
extent. Missing from the full claim: fixed sides, for which it is false. -/
theorem C23_no_fix_partial (hs : 0 < s) (hw : s ≤ d.width) (hh : s ≤ d.height) (hn : 1 ≤ n) (hmin : 1 / 10 ^ 15 ≤ s / n)
    (hg : d.grid it s = .ok g) (hr : d.refine g n = .ok r) (hg' : d.grid it' (s / n) = .ok g')
    (ew : cells d.width (s / n) = n * cells d.width s) (eh : cells d.height (s / n) = n * cells d.height s)
    (hfix : d.fix = .none) : r.toGrid.eq g' = .ok true := by
  obtain ⟨⟨b, h1, h2⟩, -⟩ := C23_sharp_partial hs hw hh hn hmin hg hr hg' ew eh
  have : b = true := h2.2 (.inr (by rw [hfix]; intro f hf; simp [Fix.options] at hf))
  rw [h1, this]

/-- In general everything agrees except for the list of Neumann vertices. -/
theorem C23_up_to_neumann_vertices_partial (hs : 0 < s) (hw : s ≤ d.width) (hh : s ≤ d.height) (hn : 1 ≤ n)
    (hmin : 1 / 10 ^ 15 ≤ s / n)
    (hg : d.grid it s = .ok g) (hr : d.refine g n = .ok r) (hg' : d.grid it' (s / n) = .ok g')
    (ew : cells d.width (s / n) = n * cells d.width s) (eh : cells d.height (s / n) = n * cells d.height s) :
    ∃ σ, SameMesh { r.toGrid with neumann := ⟨g'.neumann.vertices.map σ, r.toGrid.neumann.edges⟩ } g' σ :=
  (C23_sharp_partial hs hw hh hn hmin hg hr hg' ew eh).2.2

/-- The claim is false for every rectangle with a fixed side and every factor of at least two. -/
theorem C23_fixed_side_false (hs : 0 < s) (hw : s ≤ d.width) (hh : s ≤ d.height) (hn : 2 ≤ n) (hmin : 1 / 10 ^ 15 ≤ s / n)
    (hg : d.grid it s = .ok g) (hr : d.refine g n = .ok r) (hg' : d.grid it' (s / n) = .ok g')
    (ew : cells d.width (s / n) = n * cells d.width s) (eh : cells d.height (s / n) = n * cells d.height s)
    (hfix : ¬ d.fix.NoSide) : r.toGrid.eq g' = .ok false := by
  obtain ⟨⟨b, h1, h2⟩, -⟩ := C23_sharp_partial hs hw hh (by omega) hmin hg hr hg' ew eh
  cases b
  · exact h1
  · rcases h2.1 rfl with h3 | h3
    · omega
    · exact absurd h3 hfix

end

/-- Concrete case: the unit square with its lower side fixed, `scale = 1` and `n = 2`, against `scale = 1 / 2`. -/
theorem C23_example (it it' : SetIter) : ∃ g r g', (RectDomain.mk (1 : ℝ) 1 (.one .lower)).grid it 1 = .ok g ∧
    (RectDomain.mk (1 : ℝ) 1 (.one .lower)).refine g 2 = .ok r ∧
    (RectDomain.mk (1 : ℝ) 1 (.one .lower)).grid it' (1 / 2) = .ok g' ∧ r.toGrid.eq g' = .ok false := by
  obtain ⟨g, ts, hg, -⟩ := rect_grid_spec it (RectDomain.mk (1 : ℝ) 1 (.one .lower)) (s := 1) (by norm_num)
    (by norm_num) (by norm_num)
  obtain ⟨g', ts', hg', -⟩ := rect_grid_spec it' (RectDomain.mk (1 : ℝ) 1 (.one .lower)) (s := 1 / 2) (by norm_num)
    (by norm_num) (by norm_num)
  have G := LibraryGrid.grid (by norm_num) (by norm_num) (by norm_num) hg
  obtain ⟨r, hr, -⟩ := C22_refine G (RectDomain.mk (1 : ℝ) 1 (.one .lower)) (n := 2) (by norm_num) (by norm_num)
  have c1 : cells 1 1 = 1 := by simp [cells]
  have c2 : cells 1 (1 / 2) = 2 := by
    rw [cells, show (1 : ℝ) / (1 / 2) = (2 : ℕ) by norm_num, Nat.floor_natCast]
  refine ⟨g, r, g', hg, hr, hg', ?_⟩
  refine C23_fixed_side_false (n := 2) (by norm_num) (by norm_num) (by norm_num) le_rfl (by norm_num) hg hr
    (by push_cast; exact hg') ?_ ?_ ?_
  · push_cast; simp only [c1, c2]
  · push_cast; simp only [c1, c2]
  · intro h
    obtain ⟨name, h⟩ := h .lower (by simp [Fix.options])
    cases h

end Tve
