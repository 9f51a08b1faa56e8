import Verif.Lemmas.RefineTri

/-! The refinement of a lattice grid. -/

namespace Tve

/-- a boundary of the coarse grid in lattice coordinates -/
structure Part (P : List LP) (b : Boundary) (V : List LP) (X : List (LP × LP)) : Prop where
  vertices : b.vertices = V.map (lab P)
  edges : b.edges = X.map (labE P)
  memV : ∀ a ∈ V, a ∈ P
  memX : ∀ e ∈ X, e.1 ∈ P ∧ e.2 ∈ P

theorem Part.mem_edges {P : List LP} {b : Boundary} {V : List LP} {X : List (LP × LP)} (p : Part P b V X)
    {e : LP × LP} (he : e.1 ∈ P ∧ e.2 ∈ P) : labE P e ∈ b.edges ↔ e ∈ X := by
  rw [p.edges]
  constructor
  · intro h
    obtain ⟨e', he', h'⟩ := List.mem_map.1 h
    rw [labE_inj he h'.symm]; exact he'
  · exact fun h => List.mem_map_of_mem h

/-- the fine points after refining the triangles `ts` -/
def Pts (n : ℕ) (P : List LP) (ts : List (LP × LP × LP)) : List LP :=
  pySetUpdate (P.map (scaleP n)) (ts.flatMap (fineVerts n))

/-- the fine edges after refining the triangles `ts` -/
def Eds (n : ℕ) (dg : Bool) (ts : List (LP × LP × LP)) : List (LP × LP) := pySetUpdate [] (ts.flatMap (fineEdges n dg))

/-- the boundary of the fine grid after refining the triangles `ts` -/
def partOf (n : ℕ) (P V : List LP) (X : List (LP × LP)) (ts : List (LP × LP × LP)) : Boundary :=
  ⟨(V.map (scaleP n) ++ ts.flatMap (fineBV n X)).map (lab (Pts n P ts)),
    (ts.flatMap (fineBE n X)).map (labE (Pts n P ts))⟩

noncomputable def triEntries (n : ℕ) (P : List LP) (Q : List LP) (t : LP × LP × LP) :
    List (Tri × Tri × Bary ℝ × Bary ℝ × Bary ℝ) := (fineK n).map fun K => (labT Q (mpT n t K), labT P t, bary3 n K)

/-- the state after refining the triangles `ts` -/
structure Rep (n : ℕ) (h : ℝ) (P : List LP) (dg : Bool) (BV DV NV : List LP) (BE DE NE : List (LP × LP))
    (ts : List (LP × LP × LP)) (s : RefState ℝ) : Prop where
  grid : s.grid = ⟨List.range (Pts n P ts).length, (Eds n dg ts).map (labE (Pts n P ts)),
    (ts.flatMap (fineTris n)).map (labT (Pts n P ts)), partOf n P BV BE ts, partOf n P DV DE ts, partOf n P NV NE ts,
    (Pts n P ts).map (fun a => vec2 (pos (h / n) a)), meanOf (h / n) (Eds n dg ts)⟩
  tris : Joint s.coarseTriangle s.coarseBary (ts.flatMap (triEntries n P (Pts n P ts)))
  edges : Joint s.coarseEdge s.coarseEdgeCoords (ts.flatMap fun t => (fineCE n dg t).map (ceEntry n P (Pts n P ts)))

theorem Pts_append (n : ℕ) (P : List LP) (ts : List (LP × LP × LP)) (t : LP × LP × LP) :
    Pts n P (ts ++ [t]) = pySetUpdate (Pts n P ts) (fineVerts n t) := by
  simp [Pts, pySetUpdate_append]

theorem Eds_append (n : ℕ) (dg : Bool) (ts : List (LP × LP × LP)) (t : LP × LP × LP) :
    Eds n dg (ts ++ [t]) = pySetUpdate (Eds n dg ts) (fineEdges n dg t) := by
  simp [Eds, pySetUpdate_append]

theorem Pts_prefix (n : ℕ) (P : List LP) (ts : List (LP × LP × LP)) (t : LP × LP × LP) :
    Pts n P ts <+: Pts n P (ts ++ [t]) := by
  rw [Pts_append]; exact prefix_pySetUpdate _ _

theorem base_prefix (n : ℕ) (P : List LP) (ts : List (LP × LP × LP)) : P.map (scaleP n) <+: Pts n P ts :=
  prefix_pySetUpdate _ _

theorem mem_Pts_base {n : ℕ} {P : List LP} {ts : List (LP × LP × LP)} {a : LP} (ha : a ∈ P) :
    scaleP n a ∈ Pts n P ts := mem_pySetUpdate.2 (.inl (List.mem_map_of_mem ha))

theorem mem_Pts_mp {n : ℕ} {P : List LP} {ts : List (LP × LP × LP)} {t : LP × LP × LP} (ht : t ∈ ts) {k l : ℕ}
    (hkl : k + l ≤ n) : mp n t (k, l) ∈ Pts n P ts := by
  refine mem_pySetUpdate.2 (.inr (List.mem_flatMap.2 ⟨t, ht, ?_⟩))
  exact List.mem_map_of_mem (mem_vertexIndices.2 hkl)

theorem mem_orientL {Q : List LP} {c : Bool} {a b : LP} (ha : a ∈ Q) (hb : b ∈ Q) :
    (orientL c (a, b)).1 ∈ Q ∧ (orientL c (a, b)).2 ∈ Q := by
  cases c
  · exact ⟨hb, ha⟩
  · exact ⟨ha, hb⟩

theorem subP_side {n : ℕ} (t : LP × LP × LP) (c : Bool) {s : ℕ} (hs : s ≤ n) {a b : LP}
    (hab : (a, b) = (t.1, t.2.1) ∨ (a, b) = (t.2.1, t.2.2) ∨ (a, b) = (t.2.2, t.1)) :
    ∃ k l, k + l ≤ n ∧ subP n (orientL c (a, b)) s = mp n t (k, l) := by
  have key : ∀ s ≤ n, ∃ k l, k + l ≤ n ∧ subP n (a, b) s = mp n t (k, l) := by
    intro s hs
    rcases hab with h | h | h
    · exact ⟨s, 0, by omega, by rw [h, mp_h]⟩
    · exact ⟨n - s, s, by omega, by rw [h, mp_v hs]⟩
    · exact ⟨0, n - s, by omega, by rw [h, mp_d hs]⟩
  cases c
  · simp only [orientL, Bool.false_eq_true, if_false]
    rw [← subP_swap hs a b]
    exact key _ (by omega)
  · exact key s hs

theorem subP_hside {n : ℕ} (t : LP × LP × LP) {s : ℕ} (hs : s ≤ n) :
    ∃ k l, k + l ≤ n ∧ subP n (hside t) s = mp n t (k, l) := subP_side t _ hs (.inl rfl)
theorem subP_vside {n : ℕ} (t : LP × LP × LP) {s : ℕ} (hs : s ≤ n) :
    ∃ k l, k + l ≤ n ∧ subP n (vside t) s = mp n t (k, l) := subP_side t _ hs (.inr (.inl rfl))
theorem subP_dside {n : ℕ} (dg : Bool) (t : LP × LP × LP) {s : ℕ} (hs : s ≤ n) :
    ∃ k l, k + l ≤ n ∧ subP n (dside dg t) s = mp n t (k, l) := subP_side t _ hs (.inr (.inr rfl))

section
variable {n : ℕ} {P : List LP} {ts : List (LP × LP × LP)} {t : LP × LP × LP}

theorem fineTris_mem {f : LP × LP × LP} (ht : t ∈ ts) (hf : f ∈ fineTris n t) :
    f.1 ∈ Pts n P ts ∧ f.2.1 ∈ Pts n P ts ∧ f.2.2 ∈ Pts n P ts := by
  obtain ⟨K, hK, rfl⟩ := List.mem_map.1 hf
  have := fineK_bounds hK
  exact ⟨mem_Pts_mp ht this.1, mem_Pts_mp ht this.2.1, mem_Pts_mp ht this.2.2⟩

theorem fineEdges_mem {dg : Bool} {e : LP × LP} (ht : t ∈ ts) (he : e ∈ fineEdges n dg t) :
    e.1 ∈ Pts n P ts ∧ e.2 ∈ Pts n P ts := by
  obtain ⟨⟨k, l⟩, hkl, he⟩ := List.mem_flatMap.1 he
  have hkl := mem_lowerIndices.1 hkl
  simp only at hkl
  simp only [fineEdges1, List.mem_cons, List.not_mem_nil, or_false] at he
  have q1 : mp n t (k, l) ∈ Pts n P ts := mem_Pts_mp ht (by omega)
  have q2 : mp n t (k + 1, l) ∈ Pts n P ts := mem_Pts_mp ht (by omega)
  have q3 : mp n t (k, l + 1) ∈ Pts n P ts := mem_Pts_mp ht (by omega)
  rcases he with rfl | rfl | rfl
  exacts [mem_orientL q1 q2, mem_orientL q2 q3, mem_orientL q1 q3]

theorem subE_side_mem {dg : Bool} {e : LP × LP} (ht : t ∈ ts) (he : e = hside t ∨ e = vside t ∨ e = dside dg t) {s : ℕ}
    (hs : s < n) : (subE n e s).1 ∈ Pts n P ts ∧ (subE n e s).2 ∈ Pts n P ts := by
  have key : ∀ s ≤ n, subP n e s ∈ Pts n P ts := by
    intro s hs
    obtain ⟨k, l, hkl, h⟩ : ∃ k l, k + l ≤ n ∧ subP n e s = mp n t (k, l) := by
      rcases he with rfl | rfl | rfl
      exacts [subP_hside t hs, subP_vside t hs, subP_dside dg t hs]
    rw [h]; exact mem_Pts_mp ht hkl
  exact ⟨key s (by omega), key (s + 1) (by omega)⟩

theorem fineBE_mem {X : List (LP × LP)} {e : LP × LP} (ht : t ∈ ts) (he : e ∈ fineBE n X t) :
    e.1 ∈ Pts n P ts ∧ e.2 ∈ Pts n P ts := by
  obtain ⟨c, hc, he⟩ := List.mem_flatMap.1 he
  simp only [List.mem_cons, List.not_mem_nil, or_false] at hc
  split at he
  · obtain ⟨s, hs, rfl⟩ := List.mem_map.1 he
    exact subE_side_mem (dg := true) ht (by tauto) (List.mem_range.1 hs)
  · simp at he

theorem fineBV_mem {X : List (LP × LP)} {a : LP} (ht : t ∈ ts) (ha : a ∈ fineBV n X t) : a ∈ Pts n P ts := by
  obtain ⟨c, hc, ha⟩ := List.mem_flatMap.1 ha
  simp only [List.mem_cons, List.not_mem_nil, or_false] at hc
  split at ha
  · obtain ⟨s, hs, rfl⟩ := List.mem_map.1 ha
    have := List.mem_range.1 hs
    exact (subE_side_mem (dg := true) ht (by tauto) (show s < n by omega)).2
  · simp at ha

theorem fineCE_mem {dg : Bool} {x : (LP × LP) × ℕ} (ht : t ∈ ts) (hx : x ∈ fineCE n dg t) :
    (subE n x.1 x.2).1 ∈ Pts n P ts ∧ (subE n x.1 x.2).2 ∈ Pts n P ts := by
  obtain ⟨c, hc, hx⟩ := List.mem_flatMap.1 hx
  simp only [List.mem_cons, List.not_mem_nil, or_false] at hc
  obtain ⟨s, hs, rfl⟩ := List.mem_map.1 hx
  exact subE_side_mem ht hc (List.mem_range.1 hs)

theorem Eds_mem {dg : Bool} {e : LP × LP} (he : e ∈ Eds n dg ts) : e.1 ∈ Pts n P ts ∧ e.2 ∈ Pts n P ts := by
  rcases mem_pySetUpdate.1 he with h | h
  · simp at h
  · obtain ⟨t, ht, he⟩ := List.mem_flatMap.1 h
    exact fineEdges_mem ht he

theorem Eds_lat {nx ny : ℕ} {dg : Bool} (hts : ∀ t ∈ ts, LatTri nx ny t) {e : LP × LP} (he : e ∈ Eds n dg ts) :
    LatEdge (n * nx) (n * ny) (!dg) e := by
  rcases mem_pySetUpdate.1 he with h | h
  · simp at h
  · obtain ⟨t, ht, he⟩ := List.mem_flatMap.1 h
    obtain ⟨kl, hkl, he⟩ := List.mem_flatMap.1 he
    exact fineEdges1_lat (hts t ht) (mem_lowerIndices.1 hkl) he

/-- the two boundary updates for one triangle -/
theorem part_step {V : List LP} {X : List (LP × LP)} {b : Boundary} (p : Part P b V X)
    (h1 : (hside t).1 ∈ P ∧ (hside t).2 ∈ P) (h2 : (vside t).1 ∈ P ∧ (vside t).2 ∈ P) :
    refineBoundaryEdge (labE P (vside t))
        ((List.range (n + 1)).map fun i => lab (Pts n P (ts ++ [t])) (subP n (vside t) i)) b
      (refineBoundaryEdge (labE P (hside t))
        ((List.range (n + 1)).map fun i => lab (Pts n P (ts ++ [t])) (subP n (hside t) i)) b (partOf n P V X ts)) =
      partOf n P V X (ts ++ [t]) := by
  rw [refineBoundaryEdge_sub, refineBoundaryEdge_sub]
  have i1 := p.mem_edges h1
  have i2 := p.mem_edges h2
  have e1 : (partOf n P V X ts).vertices =
      (V.map (scaleP n) ++ ts.flatMap (fineBV n X)).map (lab (Pts n P (ts ++ [t]))) := by
    rw [map_lab_prefix (Pts_prefix n P ts t)]
    · rfl
    · intro a ha
      rcases List.mem_append.1 ha with ha | ha
      · obtain ⟨b, hb, rfl⟩ := List.mem_map.1 ha
        exact mem_Pts_base (p.memV b hb)
      · obtain ⟨t, ht, ha⟩ := List.mem_flatMap.1 ha
        exact fineBV_mem ht ha
  have e2 : (partOf n P V X ts).edges = (ts.flatMap (fineBE n X)).map (labE (Pts n P (ts ++ [t]))) := by
    rw [map_labE_prefix (Pts_prefix n P ts t)]
    · rfl
    · intro a ha
      obtain ⟨t, ht, ha⟩ := List.mem_flatMap.1 ha
      exact fineBE_mem ht ha
  have e3 : partOf n P V X ts = ⟨(V.map (scaleP n) ++ ts.flatMap (fineBV n X)).map (lab (Pts n P (ts ++ [t]))),
      (ts.flatMap (fineBE n X)).map (labE (Pts n P (ts ++ [t])))⟩ := by
    rw [← e1, ← e2]
  rw [e3]
  unfold partOf
  by_cases c1 : hside t ∈ X <;> by_cases c2 : vside t ∈ X <;>
    simp [i1, i2, c1, c2, fineBE, fineBV, List.flatMap_append]

end

section
variable {g : Grid ℝ} {nx ny : ℕ} {h : ℝ} {P : List LP} {dg : Bool} {E : List (LP × LP)}
  {T : List (LP × LP × LP)} {BV : List LP} {BE : List (LP × LP)}

theorem sides_orient (L : Lattice g nx ny h P dg E T BV BE) {t : LP × LP × LP} (ht : t ∈ T) :
    decide (labE P (t.1, t.2.1) ∈ g.edges) = upOf t ∧ decide (labE P (t.2.1, t.2.2) ∈ g.edges) = upOf t ∧
    decide (labE P (t.2.2, t.1) ∈ g.edges) = dcOf dg t := by
  have hP := L.memT_P ht
  have key : ∀ e : LP × LP, e.1 ∈ P ∧ e.2 ∈ P → (labE P e ∈ g.edges ↔ LatEdge nx ny dg e) := by
    intro e he
    rw [L.edges, ← L.memE]
    constructor
    · intro h
      obtain ⟨e', he', h'⟩ := List.mem_map.1 h
      rw [labE_inj he h'.symm]; exact he'
    · exact fun h => List.mem_map_of_mem h
  have k1 := key (t.1, t.2.1) ⟨hP.1, hP.2.1⟩
  have k2 := key (t.2.1, t.2.2) ⟨hP.2.1, hP.2.2⟩
  have k3 := key (t.2.2, t.1) ⟨hP.2.2, hP.1⟩
  obtain ⟨i, j, hi, hj, rfl | rfl⟩ := latTri_cases ((L.memT t).1 ht)
  · have hu : upOf (lowT i j) = true := by simp [upOf, lowT]
    simp only [dcOf, hu, if_true]
    refine ⟨decide_eq_true (k1.2 ⟨i, j, .inl ⟨hi, by omega, rfl⟩⟩),
      decide_eq_true (k2.2 ⟨i + 1, j, .inr (.inl ⟨by omega, hj, rfl⟩)⟩), ?_⟩
    cases dg
    · exact decide_eq_true (k3.2 ⟨i, j, .inr (.inr ⟨hi, hj, rfl⟩)⟩)
    · refine decide_eq_false fun hh => ?_
      exact latEdge_not_swap (k3.1 hh) ⟨i, j, .inr (.inr ⟨hi, hj, rfl⟩)⟩
  · have hu : upOf (uppT i j) = false := by simp [upOf, uppT]
    simp only [dcOf, hu, Bool.false_eq_true, if_false]
    refine ⟨decide_eq_false fun hh => ?_, decide_eq_false fun hh => ?_, ?_⟩
    · exact latEdge_not_swap (k1.1 hh) ⟨i, j + 1, .inl ⟨hi, by omega, rfl⟩⟩
    · exact latEdge_not_swap (k2.1 hh) ⟨i, j, .inr (.inl ⟨by omega, hj, rfl⟩)⟩
    cases dg
    · refine decide_eq_false fun hh => ?_
      exact latEdge_not_swap (k3.1 hh) ⟨i, j, .inr (.inr ⟨hi, hj, rfl⟩)⟩
    · exact decide_eq_true (k3.2 ⟨i, j, .inr (.inr ⟨hi, hj, rfl⟩)⟩)

theorem side_mem_E (L : Lattice g nx ny h P dg E T BV BE) {t : LP × LP × LP} (ht : t ∈ T) :
    hside t ∈ E ∧ vside t ∈ E ∧ dside dg t ∈ E := by
  rw [L.memE, L.memE, L.memE]
  obtain ⟨i, j, hi, hj, rfl | rfl⟩ := latTri_cases ((L.memT t).1 ht)
  · have hu : upOf (lowT i j) = true := by simp [upOf, lowT]
    simp only [hside, vside, dside, dcOf, hu, if_true, orientL]
    refine ⟨⟨i, j, .inl ⟨hi, by omega, rfl⟩⟩, ⟨i + 1, j, .inr (.inl ⟨by omega, hj, rfl⟩)⟩,
      ⟨i, j, .inr (.inr ⟨hi, hj, ?_⟩)⟩⟩
    cases dg <;> rfl
  · have hu : upOf (uppT i j) = false := by simp [upOf, uppT]
    simp only [hside, vside, dside, dcOf, hu, Bool.false_eq_true, if_false, orientL]
    refine ⟨⟨i, j + 1, .inl ⟨hi, by omega, rfl⟩⟩, ⟨i, j, .inr (.inl ⟨by omega, hj, rfl⟩)⟩,
      ⟨i, j, .inr (.inr ⟨hi, hj, ?_⟩)⟩⟩
    cases dg <;> rfl

theorem triangleVertices_lat (L : Lattice g nx ny h P dg E T BV BE) {t : LP × LP × LP} (ht : t ∈ T) :
    g.triangleVertices (labT P t) = .ok (vec2 (pos h t.1), vec2 (pos h t.2.1), vec2 (pos h t.2.2)) := by
  have hP := L.memT_P ht
  unfold Grid.triangleVertices
  rw [if_neg (by rw [not_not, L.triangles]; exact List.mem_map_of_mem ht), L.points]
  simp only [labT]
  rw [pyGet_lab hP.1, pyGet_lab hP.2.1, pyGet_lab hP.2.2]
  rfl

theorem pyIdx_last (m : ℕ) (hm : 1 ≤ m) : pyIdx (List.range m) (-1) = .ok (m - 1) := by
  have h := pyIdx_neg (l := List.range m) (i := 1) (by norm_num) (by simpa using hm)
  simpa [pyGet_ok (l := List.range m) (i := m - 1) (by simp; omega)] using h

theorem tiny_zero : tiny (0 : ℝ) = true := by simp [tiny]

/-- refining one triangle -/
theorem refineTriangle_step {n : ℕ} {DV NV : List LP} {DE NE : List (LP × LP)} (hn : 1 ≤ n)
    (L : Lattice g nx ny h P dg E T BV BE) (hsmall : 1 / 10 ^ 15 ≤ h / n)
    (pd : Part P g.dirichlet DV DE) (pn : Part P g.neumann NV NE)
    {ts : List (LP × LP × LP)} (hts : ∀ t ∈ ts, t ∈ T) {s : RefState ℝ}
    (R : Rep n h P dg BV DV NV BE DE NE ts s) {t : LP × LP × LP} (ht : t ∈ T) :
    ∃ s', refineTriangle g n s (labT P t) = .ok s' ∧ Rep n h P dg BV DV NV BE DE NE (ts ++ [t]) s' := by
  have hh := L.h_pos
  have hh' : 0 < h / n := div_pos hh (by exact_mod_cast hn)
  have hP := L.memT_P ht
  have hlat := (L.memT t).1 ht
  have pb : Part P g.boundary BV BE := ⟨L.bvertices, L.bedges, fun a ha => L.memBV_P ha, fun e he => L.memE_P (L.memBE_E he)⟩
  obtain ⟨oh, ov, od⟩ := sides_orient L ht
  obtain ⟨sh, sv, sd⟩ := side_mem_E L ht
  obtain ⟨hcr, hy, hx⟩ := latTri_geom (h := h) hlat
  have hQ : ∀ k l, k + l ≤ n → mp n t (k, l) ∈ Pts n P (ts ++ [t]) := fun k l hkl => mem_Pts_mp (by simp) hkl
  -- tolerance
  have htol : 0 < s.grid.tolerance ∧ s.grid.tolerance ≤ h / n := by
    rw [R.grid]
    unfold Grid.tolerance meanOf
    simp only
    by_cases hE : Eds n dg ts = []
    · rw [if_pos hE]; exact ⟨by norm_num, hsmall⟩
    · rw [if_neg hE]
      have := mean_bounds hh' (fun e he => Eds_lat (n := n) (dg := dg) (fun t ht => (L.memT t).1 (hts t ht)) he) hE
      simp only
      constructor
      · exact div_pos (by linarith) (by norm_num)
      · rw [div_le_iff₀ (by norm_num)]; nlinarith
  obtain ⟨tv, hv, htv⟩ := vertexLoop (g := s.grid) (t := t) (Q := Pts n P ts) hn hh htol.1 htol.2 (by rw [R.grid])
    (by rw [R.grid]) (mem_Pts_base hP.1) (mem_Pts_base hP.2.1) (mem_Pts_base hP.2.2)
  rw [← Pts_append] at hv
  simp only [← Pts_append] at htv
  have hlen : 1 ≤ (Pts n P ts).length := List.length_pos_iff.2 (List.ne_nil_of_mem (mem_Pts_base (n := n) (ts := ts) hP.1))
  rw [lab_scale hn (base_prefix n P ts) hP.1, lab_scale hn (base_prefix n P ts) hP.2.1,
    lab_scale hn (base_prefix n P ts) hP.2.2] at hv
  set Q := Pts n P (ts ++ [t]) with hQdef
  have hpre : Pts n P ts <+: Q := Pts_prefix n P ts t
  unfold refineTriangle
  simp only [labT]
  rw [show (lab P t.1, lab P t.2.1, lab P t.2.2) = labT P t from rfl, triangleVertices_lat L ht]
  simp only [bind_ok, getItem0_vec2, getItem1_vec2, hy, hx, sub_self, tiny_zero, Bool.not_true, Bool.false_eq_true,
    if_false]
  rw [show s.grid.vertices = List.range (Pts n P ts).length by rw [R.grid], pyIdx_last _ hlen]
  simp only [bind_ok, Nat.sub_add_cancel hlen]
  rw [hv]
  simp only [bind_ok]
  rw [lowerLoop (h := h / n) htv hQ (labT P t) (by rfl)]
  simp only [bind_ok]
  have htri0 : s.grid.triangles = (ts.flatMap (fineTris n)).map (labT Q) := by
    rw [R.grid, map_labT_prefix hpre]
    intro f hf
    obtain ⟨t', ht', hf⟩ := List.mem_flatMap.1 hf
    exact fineTris_mem ht' hf
  have htris0 : ts.flatMap (triEntries n P (Pts n P ts)) = ts.flatMap (triEntries n P Q) := by
    apply List.flatMap_congr
    intro t' ht'
    apply List.map_congr_left
    intro K hK
    rw [labT_prefix hpre]
    exact fineTris_mem ht' (List.mem_map_of_mem hK)
  have hed0 : s.grid.edges = (Eds n dg ts).map (labE Q) := by
    rw [R.grid, map_labE_prefix hpre]
    exact fun e he => Eds_mem he
  have hce0 : (ts.flatMap fun t => (fineCE n dg t).map (ceEntry n P (Pts n P ts))) =
      ts.flatMap fun t => (fineCE n dg t).map (ceEntry n P Q) := by
    apply List.flatMap_congr
    intro t' ht'
    apply List.map_congr_left
    intro x hx
    simp only [ceEntry]
    rw [labE_prefix hpre (fineCE_mem ht' hx)]
  have J0 := R.tris
  rw [htris0] at J0
  obtain ⟨d1, d2, e1, J1⟩ := triStep_fold (n := n) (t := t) (Q := Q) (labT P t) ((lowerIndices n).map lowerK)
    (s := { s with grid := { s.grid with
      vertices := List.range Q.length
      points := Q.map fun a => vec2 (pos (h / n) a) } }) J0
  rw [e1]
  rw [upperLoop (h := h / n) htv (labT P t) (by rfl)]
  simp only [bind_ok]
  obtain ⟨d3, d4, e2, J2⟩ := triStep_fold (n := n) (t := t) (Q := Q) (labT P t) ((upperIndices n).map upperK)
    (s := { s with
      grid := { s.grid with
        vertices := List.range Q.length
        points := Q.map fun a => vec2 (pos (h / n) a)
        triangles := s.grid.triangles ++ ((lowerIndices n).map lowerK).map fun K => labT Q (mpT n t K) }
      coarseTriangle := d1
      coarseBary := d2 }) J1
  rw [e2]
  simp only [show (lab P t.1, lab P t.2.1) = labE P (t.1, t.2.1) from rfl,
    show (lab P t.2.1, lab P t.2.2) = labE P (t.2.1, t.2.2) from rfl,
    show (lab P t.2.2, lab P t.1) = labE P (t.2.2, t.1) from rfl, oh, ov, od]
  rw [edgeLoop (dg := dg) (h := h / n) hlat htv hQ (lowerIndices n) (fun kl hkl => mem_lowerIndices.1 hkl)
    (F := Eds n dg ts) (by rfl) (by exact hed0) (by rw [R.grid])
    (fun e he => Eds_lat (fun t ht => (L.memT t).1 (hts t ht)) he)]
  simp only [bind_ok]
  rw [pyMap_eq_ok (fun i => lab Q (subP n (t.1, t.2.1) i)) (by
    intro i hi
    have := List.mem_range.1 hi
    rw [get_tv htv (by omega), mp_h])]
  simp only [bind_ok]
  rw [pyMap_eq_ok (fun i => lab Q (subP n (t.2.1, t.2.2) i)) (by
    intro i hi
    have := List.mem_range.1 hi
    rw [get_tv htv (by omega), mp_v (by omega)])]
  simp only [bind_ok]
  rw [labE_orientL, labE_orientL, labE_orientL, orientList_sub, orientList_sub]
  simp only [List.foldl_cons, List.foldl_nil, refineBoundaries]
  have eb := part_step (n := n) (ts := ts) (t := t) pb (L.memE_P sh) (L.memE_P sv)
  have ed := part_step (n := n) (ts := ts) (t := t) pd (L.memE_P sh) (L.memE_P sv)
  have en := part_step (n := n) (ts := ts) (t := t) pn (L.memE_P sh) (L.memE_P sv)
  rw [← hQdef] at eb ed en
  have gb : s.grid.boundary = partOf n P BV BE ts := by rw [R.grid]
  have gd : s.grid.dirichlet = partOf n P DV DE ts := by rw [R.grid]
  have gn : s.grid.neumann = partOf n P NV NE ts := by rw [R.grid]
  rw [gb, gd, gn]
  simp only [show orientL (upOf t) (t.1, t.2.1) = hside t from rfl,
    show orientL (upOf t) (t.2.1, t.2.2) = vside t from rfl, eb, ed, en]
  have J3 := R.edges
  rw [hce0] at J3
  obtain ⟨d5, d6, S', e3, J4, hm⟩ := coarseEdgeLoop (n := n) (dg := dg) (t := t) (P := P) (Q := Q) htv (List.range n)
    (fun i hi => List.mem_range.1 hi)
    (s := ⟨⟨List.range Q.length, (pySetUpdate (Eds n dg ts) ((lowerIndices n).flatMap (fineEdges1 n dg t))).map (labE Q),
        s.grid.triangles ++ (((lowerIndices n).map lowerK).map fun K => labT Q (mpT n t K)) ++
          (((upperIndices n).map upperK).map fun K => labT Q (mpT n t K)),
        partOf n P BV BE (ts ++ [t]), partOf n P DV DE (ts ++ [t]), partOf n P NV NE (ts ++ [t]),
        Q.map (fun a => vec2 (pos (h / n) a)),
        meanOf (h / n) (pySetUpdate (Eds n dg ts) ((lowerIndices n).flatMap (fineEdges1 n dg t)))⟩,
        d3, d4, s.coarseEdge, s.coarseEdgeCoords⟩) J3
  refine ⟨_, e3, ?_, ?_, ?_⟩
  · simp only [← hQdef, Eds_append]
    rw [htri0]
    simp only [List.flatMap_append, List.flatMap_cons, List.flatMap_nil, List.append_nil, List.map_append, fineTris, fineK,
      List.map_map, List.append_assoc, Function.comp_def]
    rfl
  · refine J2.congr fun x => ?_
    rw [← hQdef]
    simp only [List.flatMap_append, List.flatMap_cons, List.flatMap_nil, List.append_nil, triEntries, fineK,
      List.map_append, List.append_assoc]
  · refine J4.congr fun x => ?_
    rw [hm, mem_fineCE_iff, ← hQdef]
    simp only [List.flatMap_append, List.flatMap_cons, List.flatMap_nil, List.append_nil, List.mem_append]

end

end Tve
