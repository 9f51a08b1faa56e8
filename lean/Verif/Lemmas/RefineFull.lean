import Verif.Lemmas.RefineLat
import Verif.Lemmas.GridFix

/-! `refine` on lattice grids: it succeeds and gives a lattice grid again. -/

namespace Tve
open RectGrid

/-- everything known about a grid made by the library, in lattice coordinates -/
structure LGrid (g : Grid ℝ) (nx ny : ℕ) (h : ℝ) (P : List LP) (dg : Bool) (E : List (LP × LP))
    (T : List (LP × LP × LP)) (BV : List LP) (BE : List (LP × LP)) (DV : List LP) (DE : List (LP × LP))
    (NV : List LP) (NE : List (LP × LP)) : Prop where
  lat : Lattice g nx ny h P dg E T BV BE
  pd : Part P g.dirichlet DV DE
  pn : Part P g.neumann NV NE
  nodupDE : DE.Nodup
  nodupNE : NE.Nodup
  nodupDV : DV.Nodup
  nodupNV : NV.Nodup
  cover : ∀ e, e ∈ BE ↔ e ∈ DE ∨ e ∈ NE
  disj : ∀ e ∈ DE, e ∉ NE
  memDV : ∀ a, a ∈ DV ↔ ∃ e ∈ DE, a = e.1 ∨ a = e.2
  NVsub : ∀ a ∈ NV, a ∈ BV
  NVend : ∀ e ∈ NE, ∀ a, a = e.1 ∨ a = e.2 → a ∉ DV → a ∈ NV

section
variable {g : Grid ℝ} {nx ny : ℕ} {h : ℝ} {P : List LP} {dg : Bool} {E : List (LP × LP)}
  {T : List (LP × LP × LP)} {BV : List LP} {BE : List (LP × LP)} {DV : List LP} {DE : List (LP × LP)}
  {NV : List LP} {NE : List (LP × LP)}

theorem pos_scale {n : ℕ} (hn : 1 ≤ n) (h : ℝ) (a : LP) : pos (h / n) (scaleP n a) = pos h a := by
  have : (n : ℝ) ≠ 0 := by exact_mod_cast (by omega : n ≠ 0)
  simp only [pos, scaleP, Prod.mk.injEq]
  push_cast
  constructor <;> field_simp

theorem points_scale {n : ℕ} (hn : 1 ≤ n) (h : ℝ) (P : List LP) :
    (P.map (scaleP n)).map (fun a => vec2 (pos (h / n) a)) = P.map fun a => vec2 (pos h a) := by
  rw [List.map_map]
  apply List.map_congr_left
  intro a _
  simp only [Function.comp, pos_scale hn]

/-- the loop over the triangles -/
theorem refineLoop {n : ℕ} (hn : 1 ≤ n) (L : Lattice g nx ny h P dg E T BV BE) (hsmall : 1 / 10 ^ 15 ≤ h / n)
    (pd : Part P g.dirichlet DV DE) (pn : Part P g.neumann NV NE) (ts' : List (LP × LP × LP)) :
    ∀ {ts : List (LP × LP × LP)} {s : RefState ℝ}, (∀ t ∈ ts, t ∈ T) → (∀ t ∈ ts', t ∈ T) →
    Rep n h P dg BV DV NV BE DE NE ts s →
    ∃ s', pyFor (ts'.map (labT P)) s (refineTriangle g n) = .ok s' ∧ Rep n h P dg BV DV NV BE DE NE (ts ++ ts') s' := by
  induction ts' with
  | nil => intro ts s _ _ R; exact ⟨s, rfl, by simpa using R⟩
  | cons t ts' ih =>
    intro ts s h1 h2 R
    have ht : t ∈ T := h2 t (by simp)
    obtain ⟨s1, e1, R1⟩ := refineTriangle_step hn L hsmall pd pn h1 R ht
    obtain ⟨s2, e2, R2⟩ := ih (ts := ts ++ [t]) (fun u hu => by
      rcases List.mem_append.1 hu with hu | hu
      · exact h1 u hu
      · rw [List.mem_singleton.1 hu]; exact ht) (fun u hu => h2 u (by simp [hu])) R1
    refine ⟨s2, ?_, by simpa using R2⟩
    rw [List.map_cons, pyFor_cons, e1, bind_ok, e2]

/-- the initial state -/
theorem rep_nil {n : ℕ} (hn : 1 ≤ n) (L : Lattice g nx ny h P dg E T BV BE)
    (pd : Part P g.dirichlet DV DE) (pn : Part P g.neumann NV NE) :
    Rep n h P dg BV DV NV BE DE NE []
      ⟨⟨g.vertices, [], [], ⟨g.boundary.vertices, []⟩, ⟨g.dirichlet.vertices, []⟩, ⟨g.neumann.vertices, []⟩, g.points,
        none⟩, PyDict.empty, PyDict.empty, PyDict.empty, PyDict.empty⟩ := by
  have hP : Pts n P [] = P.map (scaleP n) := rfl
  have hlab : ∀ V : List LP, (∀ a ∈ V, a ∈ P) → (V.map (scaleP n)).map (lab (P.map (scaleP n))) = V.map (lab P) := by
    intro V hV
    rw [List.map_map]
    apply List.map_congr_left
    intro a ha
    exact lab_scale hn (List.prefix_refl _) (hV a ha)
  refine ⟨?_, Joint.empty, Joint.empty⟩
  simp only [hP, partOf, List.flatMap_nil, List.append_nil, List.map_nil, List.length_map, points_scale hn, Eds,
    pySetUpdate_nil, meanOf, if_true]
  rw [hlab BV (fun a ha => L.memBV_P ha), hlab DV pd.memV, hlab NV pn.memV, L.vertices, L.points, L.bvertices,
    pd.vertices, pn.vertices]

/-- the result of `refine` in lattice coordinates -/
structure RefinedOf (n : ℕ) (g : Grid ℝ) (h : ℝ) (P : List LP) (dg : Bool) (T : List (LP × LP × LP)) (BV DV NV : List LP)
    (BE DE NE : List (LP × LP)) (r : RefinedGrid ℝ) : Prop where
  grid : r.toGrid = ⟨List.range (Pts n P T).length, (Eds n dg T).map (labE (Pts n P T)),
    (T.flatMap (fineTris n)).map (labT (Pts n P T)), partOf n P BV BE T, partOf n P DV DE T, partOf n P NV NE T,
    (Pts n P T).map (fun a => vec2 (pos (h / n) a)), meanOf (h / n) (Eds n dg T)⟩
  coarse : r.coarseGrid = g
  tris : Joint r.coarseTriangle r.coarseBary (T.flatMap (triEntries n P (Pts n P T)))
  edges : Joint r.coarseEdge r.coarseEdgeCoords (T.flatMap fun t => (fineCE n dg t).map (ceEntry n P (Pts n P T)))

theorem refine_ok {n : ℕ} (hn : 1 ≤ n) (d : RectDomain ℝ) (L : Lattice g nx ny h P dg E T BV BE)
    (hsmall : 1 / 10 ^ 15 ≤ h / n) (pd : Part P g.dirichlet DV DE) (pn : Part P g.neumann NV NE) :
    ∃ r, d.refine g n = .ok r ∧ RefinedOf n g h P dg T BV DV NV BE DE NE r := by
  obtain ⟨s, e, R⟩ := refineLoop hn L hsmall pd pn T (ts := []) (by simp) (fun _ h => h) (rep_nil hn L pd pn)
  rw [List.nil_append] at R
  refine ⟨?r, ?_, ?spec⟩
  case r => exact ⟨s.grid, g, s.coarseTriangle, s.coarseBary, s.coarseEdge, s.coarseEdgeCoords⟩
  case spec => exact ⟨R.grid, rfl, R.tris, R.edges⟩
  unfold RectDomain.refine
  rw [if_neg (by omega)]
  simp only [Grid.new, bind_ok, Int.toNat_natCast]
  rw [L.triangles, e]
  simp only [bind_ok]
  have hnew := grid_new_ok (P := Pts n P T) (h := h / n) (E := Eds n dg T) (fun e he => Eds_mem he)
    s.grid.vertices s.grid.triangles s.grid.boundary s.grid.dirichlet s.grid.neumann
  have hg := R.grid
  have e1 : s.grid.edges = (Eds n dg T).map (labE (Pts n P T)) := by rw [hg]
  have e2 : s.grid.points = (Pts n P T).map (fun a => vec2 (pos (h / n) a)) := by rw [hg]
  have e3 : s.grid.meanEdgeLength = meanOf (h / n) (Eds n dg T) := by rw [hg]
  have := hnew
  rw [Grid.new.eq_def] at this
  rw [e1, e2, this]
  simp only [bind_ok, pure_eq_ok, Except.ok.injEq, RefinedGrid.mk.injEq, and_true]
  rw [show (if Eds n dg T = [] then none else some (((Eds n dg T).map (lenL (h / n))).sum / ((Eds n dg T).length : ℝ)))
    = meanOf (h / n) (Eds n dg T) from rfl, ← e1, ← e2, ← e3]

/-! ### it is a lattice grid -/

theorem Eds_memP_lat (L : Lattice g nx ny h P dg E T BV BE) {n : ℕ} (hn : 1 ≤ n) (e : LP × LP) :
    e ∈ Eds n dg T ↔ LatEdge (n * nx) (n * ny) (!dg) e := by
  constructor
  · exact fun he => Eds_lat (fun t ht => (L.memT t).1 ht) he
  · intro he
    obtain ⟨t, ht, h'⟩ := fineEdges_surj hn L.hx L.hy he
    exact mem_pySetUpdate.2 (.inr (List.mem_flatMap.2 ⟨t, (L.memT t).2 ht, h'⟩))

theorem fineTris_mem_lat (L : Lattice g nx ny h P dg E T BV BE) {n : ℕ} (hn : 1 ≤ n) (f : LP × LP × LP) :
    f ∈ T.flatMap (fineTris n) ↔ LatTri (n * nx) (n * ny) f := by
  rw [List.mem_flatMap]
  constructor
  · rintro ⟨t, ht, hf⟩; exact fineTris_lat ((L.memT t).1 ht) hf
  · intro hf
    obtain ⟨t, ht, h'⟩ := fineTris_surj hn hf
    exact ⟨t, (L.memT t).2 ht, h'⟩

theorem fineTris_nodup (L : Lattice g nx ny h P dg E T BV BE) {n : ℕ} (hn : 1 ≤ n) :
    (T.flatMap (fineTris n)).Nodup := by
  have hlen : (T.flatMap (fineTris n)).length = (T0 (n * nx) (n * ny)).length := by
    rw [List.length_flatMap, length_T0]
    simp only [length_fineTris, List.map_const', List.sum_replicate, L.lengthT, smul_eq_mul]
    ring
  have hsub : (T0 (n * nx) (n * ny)) ⊆ T.flatMap (fineTris n) := fun f hf =>
    (fineTris_mem_lat L hn f).2 (mem_T0.1 hf)
  have hsp := List.subperm_of_subset (nodup_T0 _ _) hsub
  exact (hsp.perm_of_length_le hlen.le).nodup_iff.1 (nodup_T0 _ _)

theorem corner_of_tri {nx ny : ℕ} (hx : 1 ≤ nx) (hy : 1 ≤ ny) {a : LP} (ha : InBox nx ny a) :
    ∃ t, LatTri nx ny t ∧ (a = t.1 ∨ a = t.2.1 ∨ a = t.2.2) := by
  obtain ⟨i, j⟩ := a
  obtain ⟨hi, hj⟩ := ha
  simp only at hi hj
  by_cases h1 : i < nx <;> by_cases h2 : j < ny
  · exact ⟨_, ⟨i, j, h1, h2, .inl rfl⟩, .inl rfl⟩
  · exact ⟨_, ⟨i, j - 1, h1, by omega, .inr rfl⟩, .inr (.inl (Prod.ext (by dsimp only) (by dsimp only; omega)))⟩
  · exact ⟨_, ⟨i - 1, j, by omega, h2, .inl rfl⟩, .inr (.inl (Prod.ext (by dsimp only; omega) (by dsimp only)))⟩
  · exact ⟨_, ⟨i - 1, j - 1, by omega, by omega, .inr rfl⟩,
      .inl (Prod.ext (by dsimp only; omega) (by dsimp only; omega))⟩

theorem Pts_mem_lat (L : Lattice g nx ny h P dg E T BV BE) {n : ℕ} (hn : 1 ≤ n) (a : LP) :
    a ∈ Pts n P T ↔ InBox (n * nx) (n * ny) a := by
  constructor
  · intro ha
    rcases mem_pySetUpdate.1 ha with ha | ha
    · obtain ⟨b, hb, rfl⟩ := List.mem_map.1 ha
      obtain ⟨h1, h2⟩ := (L.memP b).1 hb
      exact ⟨Nat.mul_le_mul_left _ h1, Nat.mul_le_mul_left _ h2⟩
    · obtain ⟨t, ht, ha⟩ := List.mem_flatMap.1 ha
      obtain ⟨⟨k, l⟩, hkl, rfl⟩ := List.mem_map.1 ha
      have hkl := mem_vertexIndices.1 hkl
      simp only at hkl
      obtain ⟨i, j, hi, hj, rfl | rfl⟩ := latTri_cases ((L.memT t).1 ht)
      · have b1 := mul_bound (n := n) hi
        have b2 := mul_bound (n := n) hj
        rw [mp_low hkl]; constructor <;> dsimp only <;> omega
      · have b1 := mul_bound (n := n) hi
        have b2 := mul_bound (n := n) hj
        rw [mp_upp hkl]; constructor <;> dsimp only <;> omega
  · intro ha
    obtain ⟨f, hf, h'⟩ := corner_of_tri (Nat.mul_pos hn L.hx) (Nat.mul_pos hn L.hy) ha
    obtain ⟨t, ht, hft⟩ := List.mem_flatMap.1 ((fineTris_mem_lat L hn f).2 hf)
    have := fineTris_mem (P := P) ht hft
    rcases h' with rfl | rfl | rfl
    exacts [this.1, this.2.1, this.2.2]

theorem subP_zero (n : ℕ) (e : LP × LP) : subP n e 0 = scaleP n e.1 := by simp [subP, scaleP]
theorem subP_full (n : ℕ) (e : LP × LP) : subP n e n = scaleP n e.2 := by simp [subP, scaleP]

/-- endpoints of subdivided edges -/
theorem sub_endpoint {n : ℕ} (hn : 1 ≤ n) {X : List (LP × LP)} (a : LP) :
    (∃ e' , (∃ e ∈ X, ∃ s < n, e' = subE n e s) ∧ (a = e'.1 ∨ a = e'.2)) ↔
      (∃ b, (∃ e ∈ X, b = e.1 ∨ b = e.2) ∧ a = scaleP n b) ∨ ∃ e ∈ X, ∃ s, 1 ≤ s ∧ s < n ∧ a = subP n e s := by
  have key : ∀ e ∈ X, ∀ s ≤ n, ((∃ b, (∃ e ∈ X, b = e.1 ∨ b = e.2) ∧ subP n e s = scaleP n b) ∨
      ∃ e' ∈ X, ∃ s', 1 ≤ s' ∧ s' < n ∧ subP n e s = subP n e' s') := by
    intro e he s hs
    by_cases h0 : s = 0
    · subst h0; left; exact ⟨e.1, ⟨e, he, .inl rfl⟩, subP_zero n e⟩
    by_cases h1 : s = n
    · subst h1; left; exact ⟨e.2, ⟨e, he, .inr rfl⟩, subP_full _ e⟩
    right; exact ⟨e, he, s, by omega, by omega, rfl⟩
  constructor
  · rintro ⟨_, ⟨e, he, s, hs, rfl⟩, rfl | rfl⟩
    · exact key e he s (by omega)
    · exact key e he (s + 1) (by omega)
  · rintro (⟨b, ⟨e, he, rfl | rfl⟩, rfl⟩ | ⟨e, he, s, h1, h2, rfl⟩)
    · exact ⟨_, ⟨e, he, 0, by omega, rfl⟩, .inl (subP_zero n e).symm⟩
    · refine ⟨_, ⟨e, he, n - 1, by omega, rfl⟩, .inr ?_⟩
      simp only [subE, Nat.sub_add_cancel hn, subP_full]
    · exact ⟨_, ⟨e, he, s, h2, rfl⟩, .inl rfl⟩

theorem BV_endpoint (L : Lattice g nx ny h P dg E T BV BE) (a : LP) :
    a ∈ BV ↔ ∃ e ∈ BE, a = e.1 ∨ a = e.2 := by
  constructor
  · intro ha
    obtain ⟨hb, hr⟩ := (L.memBV a).1 ha
    obtain ⟨f, hf⟩ := onSideL_any.2 hr
    obtain ⟨e, he, h'⟩ := side_endpoint L.hx L.hy hb hf
    exact ⟨e, (L.memBE e).2 ⟨f, he⟩, h'⟩
  · rintro ⟨e, he, h'⟩
    obtain ⟨f, hf⟩ := (L.memBE e).1 he
    obtain ⟨h1, h2, h3⟩ := (sideEdge_iff (dg := dg)).1 hf
    have hb := latEdge_mem h1
    rcases h' with rfl | rfl
    · exact (L.memBV _).2 ⟨hb.1, onSideL_any.1 ⟨f, h2⟩⟩
    · exact (L.memBV _).2 ⟨hb.2, onSideL_any.1 ⟨f, h3⟩⟩

/-- membership in the vertices of a subdivided part -/
theorem part_vertices (L : Lattice g nx ny h P dg E T BV BE) {n : ℕ} (hn : 1 ≤ n) {V : List LP} {X : List (LP × LP)}
    (hX : X.Nodup) (hXB : ∀ e ∈ X, e ∈ BE) (hV : ∀ a, a ∈ V ↔ ∃ e ∈ X, a = e.1 ∨ a = e.2) (a : LP) :
    a ∈ V.map (scaleP n) ++ T.flatMap (fineBV n X) ↔ ∃ e ∈ T.flatMap (fineBE n X), a = e.1 ∨ a = e.2 := by
  rw [List.mem_append, mem_fineV L hX hXB, List.mem_map]
  have := sub_endpoint hn (X := X) a
  constructor
  · rintro (⟨b, hb, rfl⟩ | h')
    · obtain ⟨e', h1, h2⟩ := this.2 (.inl ⟨b, (hV b).1 hb, rfl⟩)
      exact ⟨e', (mem_fineX L hX hXB e').2 h1, h2⟩
    · obtain ⟨e', h1, h2⟩ := this.2 (.inr h')
      exact ⟨e', (mem_fineX L hX hXB e').2 h1, h2⟩
  · rintro ⟨e', h1, h2⟩
    rcases this.1 ⟨e', (mem_fineX L hX hXB e').1 h1, h2⟩ with ⟨b, hb, rfl⟩ | h'
    · left; exact ⟨b, (hV b).2 hb, rfl⟩
    · right; exact h'

theorem part_of_refined {n : ℕ} {V : List LP} {X : List (LP × LP)} (hV : ∀ a ∈ V, a ∈ P) :
    Part (Pts n P T) (partOf n P V X T) (V.map (scaleP n) ++ T.flatMap (fineBV n X)) (T.flatMap (fineBE n X)) := by
  refine ⟨rfl, rfl, ?_, ?_⟩
  · intro a ha
    rcases List.mem_append.1 ha with ha | ha
    · obtain ⟨b, hb, rfl⟩ := List.mem_map.1 ha
      exact mem_Pts_base (hV b hb)
    · obtain ⟨t, ht, ha⟩ := List.mem_flatMap.1 ha
      exact fineBV_mem ht ha
  · intro e he
    obtain ⟨t, ht, he⟩ := List.mem_flatMap.1 he
    exact fineBE_mem ht he

theorem LGrid.DEsub (G : LGrid g nx ny h P dg E T BV BE DV DE NV NE) : ∀ e ∈ DE, e ∈ BE :=
  fun e he => (G.cover e).2 (.inl he)
theorem LGrid.NEsub (G : LGrid g nx ny h P dg E T BV BE DV DE NV NE) : ∀ e ∈ NE, e ∈ BE :=
  fun e he => (G.cover e).2 (.inr he)

theorem LGrid.refined (G : LGrid g nx ny h P dg E T BV BE DV DE NV NE) {n : ℕ} (hn : 1 ≤ n) {r : RefinedGrid ℝ}
    (R : RefinedOf n g h P dg T BV DV NV BE DE NE r) :
    LGrid r.toGrid (n * nx) (n * ny) (h / n) (Pts n P T) (!dg) (Eds n dg T) (T.flatMap (fineTris n))
      (BV.map (scaleP n) ++ T.flatMap (fineBV n BE)) (T.flatMap (fineBE n BE))
      (DV.map (scaleP n) ++ T.flatMap (fineBV n DE)) (T.flatMap (fineBE n DE))
      (NV.map (scaleP n) ++ T.flatMap (fineBV n NE)) (T.flatMap (fineBE n NE)) := by
  have L := G.lat
  have hBB : ∀ e ∈ BE, e ∈ BE := fun _ h => h
  have hbe : ∀ e', e' ∈ T.flatMap (fineBE n BE) ↔ ∃ f, SideEdge (n * nx) (n * ny) f e' := by
    intro e'
    rw [mem_fineX L L.nodupBE hBB]
    constructor
    · rintro ⟨e, he, h'⟩
      obtain ⟨f, hf⟩ := (L.memBE e).1 he
      exact ⟨f, (sideEdge_sub hn f e').2 ⟨e, hf, h'⟩⟩
    · rintro ⟨f, hf⟩
      obtain ⟨e, he, h'⟩ := (sideEdge_sub hn f e').1 hf
      exact ⟨e, (L.memBE e).2 ⟨f, he⟩, h'⟩
  have hL : Lattice r.toGrid (n * nx) (n * ny) (h / n) (Pts n P T) (!dg) (Eds n dg T) (T.flatMap (fineTris n))
      (BV.map (scaleP n) ++ T.flatMap (fineBV n BE)) (T.flatMap (fineBE n BE)) := by
    refine ⟨div_pos L.h_pos (by exact_mod_cast hn), Nat.mul_pos hn L.hx, Nat.mul_pos hn L.hy,
      nodup_pySetUpdate (L.nodupP.map fun a b h => scaleP_inj hn h), Pts_mem_lat L hn, by rw [R.grid], by rw [R.grid],
      by rw [R.grid], nodup_pySetUpdate (by simp), Eds_memP_lat L hn, by rw [R.grid], fineTris_nodup L hn,
      fineTris_mem_lat L hn, by rw [R.grid]; rfl, nodup_fineV L hn L.nodupBV L.nodupBE hBB, ?_, by rw [R.grid]; rfl,
      nodup_fineX L L.nodupBE hBB, hbe, ?_⟩
    · intro a
      rw [part_vertices L hn L.nodupBE hBB (BV_endpoint L)]
      constructor
      · rintro ⟨e, he, h'⟩
        obtain ⟨f, hf⟩ := (hbe e).1 he
        obtain ⟨h1, h2, h3⟩ := (sideEdge_iff (dg := dg)).1 hf
        have hb := latEdge_mem h1
        rcases h' with rfl | rfl
        · exact ⟨hb.1, onSideL_any.1 ⟨f, h2⟩⟩
        · exact ⟨hb.2, onSideL_any.1 ⟨f, h3⟩⟩
      · rintro ⟨hb, hr⟩
        obtain ⟨f, hf⟩ := onSideL_any.2 hr
        obtain ⟨e, he, h'⟩ := side_endpoint (Nat.mul_pos hn L.hx) (Nat.mul_pos hn L.hy) hb hf
        exact ⟨e, (hbe e).2 ⟨f, he⟩, h'⟩
    · rw [R.grid]
      simp only
      rw [meanOf, if_neg]
      intro h0
      have : ((0, 0), (1, 0)) ∈ Eds n dg T := (Eds_memP_lat L hn _).2
        ⟨0, 0, .inl ⟨Nat.mul_pos hn L.hx, by omega, rfl⟩⟩
      rw [h0] at this; simp at this
  refine ⟨hL, ?_, ?_, nodup_fineX L G.nodupDE G.DEsub, nodup_fineX L G.nodupNE G.NEsub,
    nodup_fineV L hn G.nodupDV G.nodupDE G.DEsub, nodup_fineV L hn G.nodupNV G.nodupNE G.NEsub, ?_, ?_,
    part_vertices L hn G.nodupDE G.DEsub G.memDV, ?_, ?_⟩
  · rw [R.grid]; exact part_of_refined G.pd.memV
  · rw [R.grid]; exact part_of_refined G.pn.memV
  · intro e'
    rw [mem_fineX L L.nodupBE hBB, mem_fineX L G.nodupDE G.DEsub, mem_fineX L G.nodupNE G.NEsub]
    constructor
    · rintro ⟨e, he, h'⟩
      rcases (G.cover e).1 he with he | he
      · exact .inl ⟨e, he, h'⟩
      · exact .inr ⟨e, he, h'⟩
    · rintro (⟨e, he, h'⟩ | ⟨e, he, h'⟩)
      · exact ⟨e, G.DEsub e he, h'⟩
      · exact ⟨e, G.NEsub e he, h'⟩
  · intro e' h1 h2
    obtain ⟨e, he, s, hs, rfl⟩ := (mem_fineX L G.nodupDE G.DEsub _).1 h1
    obtain ⟨e2, he2, s2, hs2, h'⟩ := (mem_fineX L G.nodupNE G.NEsub _).1 h2
    obtain ⟨rfl, -⟩ := subE_inj (BE_HV L (G.DEsub e he)) (BE_HV L (G.NEsub e2 he2)) hs hs2 h'
    exact G.disj e he he2
  · intro a ha
    rcases List.mem_append.1 ha with ha | ha
    · obtain ⟨b, hb, rfl⟩ := List.mem_map.1 ha
      exact List.mem_append_left _ (List.mem_map_of_mem (G.NVsub b hb))
    · obtain ⟨e, he, h'⟩ := (mem_fineV L G.nodupNE G.NEsub a).1 ha
      exact List.mem_append_right _ ((mem_fineV L L.nodupBE hBB a).2 ⟨e, G.NEsub e he, h'⟩)
  · intro e' he' a ha hna
    have he'' := (mem_fineX L G.nodupNE G.NEsub e').1 he'
    rcases (sub_endpoint hn (X := NE) a).1 ⟨e', he'', ha⟩ with ⟨b, ⟨e, he, hb⟩, rfl⟩ | h'
    · refine List.mem_append_left _ (List.mem_map_of_mem (G.NVend e he b hb fun hd => hna ?_))
      exact List.mem_append_left _ (List.mem_map_of_mem hd)
    · exact List.mem_append_right _ ((mem_fineV L G.nodupNE G.NEsub a).2 h')

/-! ### grids of rectangles -/

theorem rect_LGrid' {it : SetIter} {fix : Fix} {s : TagState} (R : RectSpec g it nx ny h fix s) (hx : 1 ≤ nx)
    (hy : 1 ≤ ny) (hh : 0 < h) :
    ∃ P E T BV BE DV DE NV NE, LGrid g nx ny h P true E T BV BE DV DE NV NE ∧
      (∀ e, e ∈ DE ↔ ∃ f ∈ fix.options, SideEdge nx ny f e) ∧
      (∀ a, a ∈ NV ↔ InBox nx ny a ∧ (∃ f, OnSideL nx ny f a) ∧ (fixedSides nx ny fix a).card ≤ 1) := by
  have L := rect_lattice R hx hy hh
  set P := rowMajor (nx + 1) (ny + 1) with hPd
  have hPn := nodup_rowMajor (nx + 1) (ny + 1)
  have W := R.wellFormed
  have hlt : ∀ v ∈ g.vertices, v < P.length := by
    intro v hv; rw [L.vertices] at hv; exact List.mem_range.1 hv
  let coE : Edge → LP × LP := fun e => (co P e.1, co P e.2)
  have labco : ∀ e : Edge, e ∈ g.edges → labE P (coE e) = e := by
    intro e he
    obtain ⟨h1, h2⟩ := W.edges e he
    exact Prod.ext (lab_co hPn (hlt _ h1)) (lab_co hPn (hlt _ h2))
  have map_labco : ∀ X : List Edge, (∀ e ∈ X, e ∈ g.edges) → (X.map coE).map (labE P) = X := by
    intro X hX
    rw [List.map_map]
    conv_rhs => rw [← List.map_id X]
    exact List.map_congr_left fun e he => labco e (hX e he)
  have nd : ∀ X : List Edge, (∀ e ∈ X, e ∈ g.edges) → X.Nodup → (X.map coE).Nodup := by
    intro X hX hn
    refine List.Nodup.map_on ?_ hn
    intro e he e' he' hh'
    rw [← labco e (hX e he), ← labco e' (hX e' he'), hh']
  have ndV : ∀ X : List Vertex, (∀ v ∈ X, v ∈ g.vertices) → X.Nodup → (X.map (co P)).Nodup := by
    intro X hX hn
    refine List.Nodup.map_on ?_ hn
    intro v hv v' hv' hh'
    rw [← lab_co hPn (hlt _ (hX v hv)), hh', lab_co hPn (hlt _ (hX v' hv'))]
  have memX : ∀ X : List Edge, (∀ e ∈ X, e ∈ g.edges) → ∀ e, e ∈ X.map coE → e.1 ∈ P ∧ e.2 ∈ P := by
    intro X hX e he
    obtain ⟨e', he', rfl⟩ := List.mem_map.1 he
    obtain ⟨h1, h2⟩ := W.edges e' (hX e' he')
    exact ⟨co_mem (hlt _ h1), co_mem (hlt _ h2)⟩
  have memXiff : ∀ X : List Edge, (∀ e ∈ X, e ∈ g.edges) → ∀ e : LP × LP, e.1 ∈ P ∧ e.2 ∈ P →
      (e ∈ X.map coE ↔ labE P e ∈ X) := by
    intro X hX e he
    constructor
    · intro h'
      obtain ⟨e', he', rfl⟩ := List.mem_map.1 h'
      rw [labco e' (hX e' he')]; exact he'
    · intro h'
      refine List.mem_map.2 ⟨_, h', ?_⟩
      exact Prod.ext (co_lab he.1) (co_lab he.2)
  have memViff : ∀ X : List Vertex, (∀ v ∈ X, v ∈ g.vertices) → ∀ a : LP, a ∈ P → (a ∈ X.map (co P) ↔ lab P a ∈ X) := by
    intro X hX a ha
    constructor
    · intro h'
      obtain ⟨v, hv, rfl⟩ := List.mem_map.1 h'
      rw [lab_co hPn (hlt v (hX v hv))]; exact hv
    · intro h'
      exact List.mem_map.2 ⟨_, h', co_lab ha⟩
  have hDV : ∀ a, a ∈ g.dirichlet.vertices.map (co P) ↔ ∃ f ∈ fix.options, InBox nx ny a ∧ OnSideL nx ny f a := by
    intro a
    constructor
    · intro ha
      obtain ⟨v, hv, rfl⟩ := List.mem_map.1 ha
      obtain ⟨f, hf, a, h1, h2, rfl⟩ := (R.memDV v).1 hv
      rw [co_lab ((mem_rowMajor a).2 h1)]
      exact ⟨f, hf, h1, h2⟩
    · rintro ⟨f, hf, h1, h2⟩
      exact List.mem_map.2 ⟨_, (R.memDV _).2 ⟨f, hf, a, h1, h2, rfl⟩, co_lab ((mem_rowMajor a).2 h1)⟩
  have hDE : ∀ e, e ∈ g.dirichlet.edges.map coE ↔ ∃ f ∈ fix.options, SideEdge nx ny f e := by
    intro e
    constructor
    · intro he
      obtain ⟨e', he', rfl⟩ := List.mem_map.1 he
      obtain ⟨f, hf, a, h1, rfl⟩ := (R.memDE e').1 he'
      have hb := latEdge_mem (sideEdge_lat (dg := true) h1)
      have : coE (labE P a) = a := Prod.ext (co_lab ((mem_rowMajor _).2 hb.1)) (co_lab ((mem_rowMajor _).2 hb.2))
      rw [this]
      exact ⟨f, hf, h1⟩
    · rintro ⟨f, hf, h1⟩
      have hb := latEdge_mem (sideEdge_lat (dg := true) h1)
      exact List.mem_map.2 ⟨_, (R.memDE _).2 ⟨f, hf, e, h1, rfl⟩,
        Prod.ext (co_lab ((mem_rowMajor _).2 hb.1)) (co_lab ((mem_rowMajor _).2 hb.2))⟩
  have hBE : ∀ e, e ∈ BE0 nx ny → e.1 ∈ P ∧ e.2 ∈ P := fun e he => L.memE_P (L.memBE_E he)
  have hBElab : ∀ e : LP × LP, e.1 ∈ P ∧ e.2 ∈ P → (labE P e ∈ g.boundary.edges ↔ e ∈ BE0 nx ny) := by
    intro e he
    rw [L.bedges]
    constructor
    · intro h'
      obtain ⟨e', he', h2⟩ := List.mem_map.1 h'
      rw [labE_inj he h2.symm]; exact he'
    · exact fun h' => List.mem_map_of_mem h'
  refine ⟨P, _, _, _, _, g.dirichlet.vertices.map (co P), g.dirichlet.edges.map coE, g.neumann.vertices.map (co P),
    g.neumann.edges.map coE, ⟨L, ?_, ?_, nd _ W.dirichlet.2 R.nodupDE, nd _ W.neumann.2 R.nodupNE, ?_, ?_, ?_, ?_, ?_,
    ?_, ?_⟩, hDE, ?_⟩
  · exact ⟨(map_lab_co hPn fun v hv => hlt v (W.dirichlet.1 v hv)).symm, (map_labco _ W.dirichlet.2).symm,
      fun a ha => by
        obtain ⟨v, hv, rfl⟩ := List.mem_map.1 ha
        exact co_mem (hlt v (W.dirichlet.1 v hv)), memX _ W.dirichlet.2⟩
  · exact ⟨(map_lab_co hPn fun v hv => hlt v (W.neumann.1 v hv)).symm, (map_labco _ W.neumann.2).symm,
      fun a ha => by
        obtain ⟨v, hv, rfl⟩ := List.mem_map.1 ha
        exact co_mem (hlt v (W.neumann.1 v hv)), memX _ W.neumann.2⟩
  · refine ndV _ W.dirichlet.1 ?_
    rw [R.dirichlet]; exact nodup_dirichletVertices R.tags
  · refine ndV _ W.neumann.1 ?_
    rw [R.neumann]; exact nodup_neumannVertices R.tags
  · intro e
    by_cases he : e.1 ∈ P ∧ e.2 ∈ P
    · rw [memXiff _ W.dirichlet.2 e he, memXiff _ W.neumann.2 e he, R.memNE, ← hBElab e he]
      constructor
      · intro h1
        by_cases h2 : labE P e ∈ g.dirichlet.edges
        · exact .inl h2
        · exact .inr ⟨h1, h2⟩
      · rintro (h1 | h1)
        · obtain ⟨f, _, a, h2, h3⟩ := (R.memDE _).1 h1
          exact (R.memBE _).2 ⟨f, a, h2, h3⟩
        · exact h1.1
    · constructor
      · exact fun h' => absurd (hBE e h') he
      · rintro (h' | h')
        · exact absurd (memX _ W.dirichlet.2 e h') he
        · exact absurd (memX _ W.neumann.2 e h') he
  · intro e h1 h2
    have he := memX _ W.dirichlet.2 e h1
    rw [memXiff _ W.dirichlet.2 e he] at h1
    rw [memXiff _ W.neumann.2 e he, R.memNE] at h2
    exact h2.2 h1
  · intro a
    rw [hDV]
    constructor
    · rintro ⟨f, hf, h1, h2⟩
      obtain ⟨e, he, h'⟩ := side_endpoint hx hy h1 h2
      exact ⟨e, (hDE e).2 ⟨f, hf, he⟩, h'⟩
    · rintro ⟨e, he, h'⟩
      obtain ⟨f, hf, hs⟩ := (hDE e).1 he
      obtain ⟨h1, h2, h3⟩ := (sideEdge_iff (dg := true)).1 hs
      have hb := latEdge_mem h1
      rcases h' with rfl | rfl
      · exact ⟨f, hf, hb.1, h2⟩
      · exact ⟨f, hf, hb.2, h3⟩
  · intro a ha
    obtain ⟨v, hv, rfl⟩ := List.mem_map.1 ha
    have := R.NV_sub hv
    rw [R.boundary] at this
    exact List.mem_map_of_mem this
  · intro e he a ha hna
    have heP := memX _ W.neumann.2 e he
    have haP : a ∈ P := by rcases ha with rfl | rfl; exacts [heP.1, heP.2]
    rw [memViff _ W.neumann.1 a haP]
    have hab : InBox nx ny a := (mem_rowMajor a).1 haP
    rw [R.memNV hab]
    have he' := (memXiff _ W.neumann.2 e heP).1 he
    rw [R.memNE] at he'
    obtain ⟨f, b, hb, h'⟩ := (R.memBE _).1 he'.1
    have : e = b := labE_inj heP h'
    subst this
    obtain ⟨h1, h2, h3⟩ := (sideEdge_iff (dg := true)).1 hb
    constructor
    · rcases ha with rfl | rfl
      · exact ⟨f, h2⟩
      · exact ⟨f, h3⟩
    · have : fixedSides nx ny fix a = ∅ := by
        classical
        rw [Finset.eq_empty_iff_forall_notMem]
        intro f' hf'
        simp only [fixedSides, Finset.mem_filter, List.mem_toFinset] at hf'
        exact hna ((hDV a).2 ⟨f', hf'.1, hab, hf'.2⟩)
      rw [this]; simp
  · intro a
    constructor
    · intro ha
      obtain ⟨v, hv, rfl⟩ := List.mem_map.1 ha
      have hP : co P v ∈ P := co_mem (hlt v (W.neumann.1 v hv))
      have hab := (mem_rowMajor _).1 hP
      rw [memViff _ W.neumann.1 _ hP, R.memNV hab] at ha
      exact ⟨hab, ha⟩
    · rintro ⟨hab, h'⟩
      rw [memViff _ W.neumann.1 _ ((mem_rowMajor a).2 hab), R.memNV hab]
      exact h'

theorem rect_LGrid {it : SetIter} {fix : Fix} {s : TagState} (R : RectSpec g it nx ny h fix s) (hx : 1 ≤ nx)
    (hy : 1 ≤ ny) (hh : 0 < h) :
    ∃ P E T BV BE DV DE NV NE, LGrid g nx ny h P true E T BV BE DV DE NV NE := by
  obtain ⟨P, E, T, BV, BE, DV, DE, NV, NE, H, -⟩ := rect_LGrid' R hx hy hh
  exact ⟨P, E, T, BV, BE, DV, DE, NV, NE, H⟩

end
end Tve
