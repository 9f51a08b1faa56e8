import Verif.Lemmas.FloatRefine

/-!
# Exact and double precision refinement side by side: the loops over triangles and edges
-/

namespace Tve
open F64

theorem weights_near {n i : ℕ} (hi : i < n) (c : Bool) :
    PNear (orientWeights c ((1 - (i : ℝ) / n, 1 - ((i + 1 : ℕ) : ℝ) / n) : ℝ × ℝ))
      (F64.orientWeights c (fl (1 - fl ((i : ℚ) / n)), fl (1 - fl (((i + 1 : ℕ) : ℚ) / n)))) := by
  have hn' : (0 : ℚ) < n := by exact_mod_cast (by omega : 0 < n)
  have one : Ap 1 1 0 1 := Ap.of (by norm_num)
  have key : ∀ j : ℕ, j ≤ n → Ap (fl (1 - fl ((j : ℚ) / n))) (1 - j / n) (3 / 2 ^ 53) 1 ∧
      Ap (fl (1 - fl (1 - fl ((j : ℚ) / n)))) (1 - (1 - j / n)) (8 / 2 ^ 53) 1 := by
    intro j hj
    have hj0 : (0 : ℚ) ≤ j / n := by positivity
    have hj1 : (j : ℚ) / n ≤ 1 := by rw [div_le_one hn']; exact_mod_cast hj
    have a := (Ap.of (x := (j : ℚ) / n) (B := 1) (by rw [abs_of_nonneg hj0]; exact hj1)).fl
    have b : Ap (fl (1 - fl ((j : ℚ) / n))) (1 - j / n) (3 / 2 ^ 53) 1 := by
      have := one.sub a
      have hB : |1 - (j : ℚ) / n| ≤ 1 := by rw [abs_of_nonneg (by linarith)]; linarith
      exact (show Ap _ _ _ 1 from ⟨this.1, hB⟩).fl.mono (by norm_num) le_rfl
    refine ⟨b, ?_⟩
    have := one.sub b
    have hB : |1 - (1 - (j : ℚ) / n)| ≤ 1 := by rw [abs_of_nonneg (by linarith)]; linarith
    exact (show Ap _ _ _ 1 from ⟨this.1, hB⟩).fl.mono (by norm_num) le_rfl
  obtain ⟨a1, a2⟩ := key i hi.le
  obtain ⟨b1, b2⟩ := key (i + 1) hi
  cases c
  · have w1 := WNear.of b2.1
    have w2 := WNear.of a2.1
    push_cast at w1 w2
    simp only [orientWeights, F64.orientWeights, Bool.false_eq_true, if_false]
    refine ⟨?_, ?_⟩
    · push_cast; exact w1
    · exact w2
  · have w1 := WNear.of (a1.1.trans (by norm_num))
    have w2 := WNear.of (b1.1.trans (by norm_num))
    push_cast at w1 w2
    simp only [orientWeights, F64.orientWeights, if_true]
    refine ⟨w1, ?_⟩
    push_cast; exact w2

/-- the states of the refinement loops -/
structure SRel (e h : ℚ) (N : ℕ) (Q : List LP) (s : RefState ℝ) (f : RefState ℚ) : Prop where
  grid : GRel e h N Q s.grid f.grid
  verts : f.grid.vertices = List.range Q.length
  tri : f.coarseTriangle = s.coarseTriangle
  edge : f.coarseEdge = s.coarseEdge
  bary : SameKeys TNear s.coarseBary f.coarseBary
  coords : SameKeys PNear s.coarseEdgeCoords f.coarseEdgeCoords

section
variable {e h : ℚ} {N n : ℕ} {Q : List LP}

theorem pyGet_points {s : RefState ℝ} {f : RefState ℚ} (R : SRel e h N Q s f) (i : ℕ) :
    Agree (fun _ _ => True) (pyGet s.grid.points i) (pyGet f.grid.points i) := by
  have h1 : s.grid.points.length = f.grid.points.length := by
    rw [R.grid.points, List.length_map, R.grid.fpoints.length_eq]
  rcases lt_or_ge i s.grid.points.length with hi | hi
  · rw [pyGet_ok hi, pyGet_ok (by omega)]; exact Agree.ok trivial
  · have e1 : s.grid.points[i]? = none := List.getElem?_eq_none hi
    have e2 : f.grid.points[i]? = none := List.getElem?_eq_none (by omega)
    simp only [pyGet, e1, e2]; exact Agree.error _

/-- adding a triangle with its dictionary entries -/
theorem SRel.addTri {s : RefState ℝ} {f : RefState ℚ} (R : SRel e h N Q s f) (x y : Tri) {p : Bary ℝ × Bary ℝ × Bary ℝ}
    {q : Bary ℚ × Bary ℚ × Bary ℚ} (hpq : TNear p q) :
    SRel e h N Q { s with
        grid := { s.grid with triangles := s.grid.triangles ++ [x] }
        coarseTriangle := s.coarseTriangle.set x y
        coarseBary := s.coarseBary.set x p }
      { f with
        grid := { f.grid with triangles := f.grid.triangles ++ [x] }
        coarseTriangle := f.coarseTriangle.set x y
        coarseBary := f.coarseBary.set x q } :=
  ⟨⟨⟨R.grid.cells.vertices, R.grid.cells.edges, by simp [R.grid.cells.triangles], R.grid.cells.boundary,
      R.grid.cells.dirichlet, R.grid.cells.neumann⟩, R.grid.points, R.grid.fpoints, R.grid.none_iff, R.grid.none_edges,
      R.grid.mean, R.grid.fmean, R.grid.count, R.grid.adj⟩, R.verts, by simp only [R.tri], R.edge, R.bary.set x hpq, R.coords⟩

theorem lower_agree (hn : 1 ≤ n) (ct : Tri) (tv : PyDict (ℕ × ℕ) Vertex) {s : RefState ℝ} {f : RefState ℚ}
    (R : SRel e h N Q s f) : Agree (fun s' f' => SRel e h N Q s' f' ∧ f'.grid.meanEdgeLength = f.grid.meanEdgeLength)
      (pyFor (lowerIndices n) s (refineLower n ct tv)) (pyFor (lowerIndices n) f (F64.refineLower n ct tv)) := by
  refine Agree.pyFor (fun _ s' f' => SRel e h N Q s' f' ∧ f'.grid.meanEdgeLength = f.grid.meanEdgeLength) _ ?_ s f ⟨R, rfl⟩
  rintro pre ⟨k, l⟩ post hl s' f' ⟨R', hm⟩
  have hkl := mem_lowerIndices.1 (show (k, l) ∈ lowerIndices n by rw [hl]; simp)
  simp only at hkl
  unfold refineLower F64.refineLower
  refine (Agree.same _).bind ?_
  rintro a _ rfl
  refine (Agree.same _).bind ?_
  rintro b _ rfl
  refine (Agree.same _).bind ?_
  rintro c _ rfl
  refine (pyGet_points R' _).bind fun _ _ _ => (pyGet_points R' _).bind fun _ _ _ => ?_
  exact Agree.ok ⟨R'.addTri _ _ ⟨refBary_near hn (by omega), refBary_near hn (by omega), refBary_near hn (by omega)⟩, hm⟩

theorem upper_agree (hn : 1 ≤ n) (ct : Tri) (tv : PyDict (ℕ × ℕ) Vertex) {s : RefState ℝ} {f : RefState ℚ}
    (R : SRel e h N Q s f) : Agree (fun s' f' => SRel e h N Q s' f' ∧ f'.grid.meanEdgeLength = f.grid.meanEdgeLength)
      (pyFor (upperIndices n) s (refineUpper n ct tv)) (pyFor (upperIndices n) f (F64.refineUpper n ct tv)) := by
  refine Agree.pyFor (fun _ s' f' => SRel e h N Q s' f' ∧ f'.grid.meanEdgeLength = f.grid.meanEdgeLength) _ ?_ s f ⟨R, rfl⟩
  rintro pre ⟨k, l⟩ post hl s' f' ⟨R', hm⟩
  have hkl := mem_upperIndices.1 (show (k, l) ∈ upperIndices n by rw [hl]; simp)
  simp only at hkl
  unfold refineUpper F64.refineUpper
  refine (Agree.same _).bind ?_
  rintro a _ rfl
  refine (Agree.same _).bind ?_
  rintro b _ rfl
  refine (Agree.same _).bind ?_
  rintro c _ rfl
  exact Agree.ok ⟨R'.addTri _ _ ⟨refBary_near hn (by omega), refBary_near hn (by omega), refBary_near hn (by omega)⟩, hm⟩

theorem get_eq_ok {κ α : Type} [DecidableEq κ] {d : PyDict κ α} {k : κ} {a : α} (h : d.get k = .ok a) : d.get? k = some a := by
  unfold PyDict.get at h
  cases hd : d.get? k with
  | none => rw [hd] at h; cases h
  | some b => rw [hd] at h; rw [Except.ok.inj h]

theorem GRel.mono {N' : ℕ} {g : Grid ℝ} {f : Grid ℚ} (R : GRel e h N Q g f) (h' : N ≤ N') : GRel e h N' Q g f :=
  ⟨R.cells, R.points, R.fpoints, R.none_iff, R.none_edges, R.mean, R.fmean, R.count.trans h', R.adj⟩

/-- appending an oriented edge -/
theorem GRel.appendOriented {g : Grid ℝ} {f : Grid ℚ} (R : GRel e h N Q g f) (hh : 0 < h) (he : e ≤ h * (2 / 10 ^ 9))
    (hN : N ≤ 10 ^ 13) {i j : ℕ} {a b : LP} (hi : Q[i]? = some a) (hj : Q[j]? = some b) (hab : Adjacent a b) (c : Bool) :
    Agree (fun g' f' => (GRel e h (N + 1) Q g' f' ∧ f'.vertices = f.vertices) ∧ f'.meanEdgeLength ≠ none)
      (g.appendEdge (orientPair c (i, j))) (F64.appendEdge f (orientPair c (i, j))) := by
  have key : Agree (fun g' f' => GRel e h (N + 1) Q g' f' ∧ f'.meanEdgeLength ≠ none)
      (g.appendEdge (orientPair c (i, j))) (F64.appendEdge f (orientPair c (i, j))) := by
    cases c
    · exact R.appendEdge hh he hN hj hi hab.symm
    · exact R.appendEdge hh he hN hi hj hab
  rcases key with ⟨g', f', e1, e2, h1, h2⟩ | ⟨x, e1, e2⟩
  · refine .inl ⟨g', f', e1, e2, ⟨h1, ?_⟩, h2⟩
    unfold F64.appendEdge at e2
    split at e2
    · revert e2
      cases F64.edgeLength f.points (orientPair c (i, j)) with
      | error x => intro e2; cases e2
      | ok L => intro e2; rw [← Except.ok.inj e2]
    · rw [← Except.ok.inj e2]
  · exact .inr ⟨x, e1, e2⟩

theorem edges_agree {nx ny : ℕ} {t : LP × LP × LP} (ht : LatTri nx ny t) (hh : 0 < h) (he : e ≤ h * (2 / 10 ^ 9))
    (hN : N + 3 * (lowerIndices n).length ≤ 10 ^ 13) (hn : 1 ≤ n) (hc vc dc : Bool) {tv : PyDict (ℕ × ℕ) Vertex}
    (htv : ∀ kl i, tv.get? kl = some i → Q[i]? = some (mp n t kl)) {g : Grid ℝ} {f : Grid ℚ} (R : GRel e h N Q g f) :
    Agree (fun g' f' => (GRel e h (N + 3 * (lowerIndices n).length) Q g' f' ∧ f'.vertices = f.vertices) ∧
        f'.meanEdgeLength ≠ none)
      (pyFor (lowerIndices n) g (refineEdges hc vc dc tv)) (pyFor (lowerIndices n) f (F64.refineEdges hc vc dc tv)) := by
  have hne : lowerIndices n ≠ [] := List.ne_nil_of_mem (mem_lowerIndices.2 (show (0, 0).1 + (0, 0).2 < n by simp only; omega))
  refine Agree.mono (r := fun g' f' => (GRel e h (N + 3 * (lowerIndices n).length) Q g' f' ∧ f'.vertices = f.vertices) ∧
    (lowerIndices n ≠ [] → f'.meanEdgeLength ≠ none)) ?_ fun g' f' h => ⟨h.1, h.2 hne⟩
  refine Agree.pyFor (fun pre g' f' => (GRel e h (N + 3 * pre.length) Q g' f' ∧ f'.vertices = f.vertices) ∧
    (pre ≠ [] → f'.meanEdgeLength ≠ none)) _ ?_ g f ⟨⟨R, rfl⟩, by simp⟩
  rintro pre ⟨k, l⟩ post hl g' f' ⟨⟨R', hv⟩, -⟩
  have hkl := mem_lowerIndices.1 (show (k, l) ∈ lowerIndices n by rw [hl]; simp)
  simp only at hkl
  have hlen : pre.length + 1 ≤ (lowerIndices n).length := by rw [hl]; simp
  obtain ⟨a1, a2, a3⟩ := adjacent_fine ht hkl
  unfold refineEdges F64.refineEdges
  refine (Agree.same_eq _).bind ?_
  rintro a _ ⟨rfl, ha⟩
  refine (Agree.same_eq _).bind ?_
  rintro b _ ⟨rfl, hb⟩
  have ha := htv _ _ (get_eq_ok ha)
  have hb := htv _ _ (get_eq_ok hb)
  refine (R'.appendOriented hh he (by omega) ha hb a1 hc).bind ?_
  rintro g1 f1 ⟨⟨R1, v1⟩, -⟩
  refine (Agree.same_eq _).bind ?_
  rintro c _ ⟨rfl, hc'⟩
  have hc' := htv _ _ (get_eq_ok hc')
  refine (R1.appendOriented hh he (by omega) hb hc' a2 vc).bind ?_
  rintro g2 f2 ⟨⟨R2, v2⟩, -⟩
  refine (R2.appendOriented hh he (by omega) ha hc' a3 dc).mono ?_
  rintro g3 f3 ⟨⟨R3, v3⟩, h3⟩
  refine ⟨⟨R3.mono (by simp only [List.length_append, List.length_singleton]; omega), by rw [v3, v2, v1, hv]⟩, fun _ => h3⟩

theorem SRel.setCE {s : RefState ℝ} {f : RefState ℚ} (R : SRel e h N Q s f) (x y : Edge) {p : ℝ × ℝ} {q : ℚ × ℚ}
    (hpq : PNear p q) : SRel e h N Q (setCoarseEdge s x y p) (setCoarseEdge f x y q) :=
  ⟨R.grid, R.verts, R.tri, by simp only [setCoarseEdge, R.edge], R.bary, R.coords.set x hpq⟩

theorem coarseEdges_agree (hc vc dc : Bool) (ch cv cd : Edge) (tv : PyDict (ℕ × ℕ) Vertex)
    {s : RefState ℝ} {f : RefState ℚ} (R : SRel e h N Q s f) :
    Agree (fun s' f' => SRel e h N Q s' f' ∧ f'.grid.meanEdgeLength = f.grid.meanEdgeLength)
      (pyFor (List.range n) s (refineCoarseEdges n hc vc dc ch cv cd tv))
      (pyFor (List.range n) f (F64.refineCoarseEdges n hc vc dc ch cv cd tv)) := by
  refine Agree.pyFor (fun _ s' f' => SRel e h N Q s' f' ∧ f'.grid.meanEdgeLength = f.grid.meanEdgeLength) _ ?_ s f ⟨R, rfl⟩
  rintro pre i post hl s' f' ⟨R', hm⟩
  have hi := List.mem_range.1 (show i ∈ List.range n by rw [hl]; simp)
  unfold refineCoarseEdges F64.refineCoarseEdges
  refine (Agree.same _).bind ?_
  rintro a _ rfl
  refine (Agree.same _).bind ?_
  rintro b _ rfl
  refine (Agree.same _).bind ?_
  rintro a' _ rfl
  refine (Agree.same _).bind ?_
  rintro b' _ rfl
  refine (Agree.same _).bind ?_
  rintro a'' _ rfl
  refine (Agree.same _).bind ?_
  rintro b'' _ rfl
  exact Agree.ok ⟨((R'.setCE _ _ (weights_near hi hc)).setCE _ _ (weights_near hi vc)).setCE _ _ (weights_near hi dc), hm⟩

end

/-! ### one triangle -/

theorem tiny_zero_float : F64.tiny 0 = true := by decide +kernel

theorem GRel.setBoundaries {e h : ℚ} {N : ℕ} {Q : List LP} {g : Grid ℝ} {f : Grid ℚ} (R : GRel e h N Q g f)
    {G : Grid ℝ} {F : Grid ℚ} (hGF : SameCells G F) (x : Edge × List Vertex) :
    GRel e h N Q (refineBoundaries G g x) (refineBoundaries F f x) :=
  ⟨⟨R.cells.vertices, R.cells.edges, R.cells.triangles, by simp only [refineBoundaries, hGF.boundary, R.cells.boundary],
    by simp only [refineBoundaries, hGF.dirichlet, R.cells.dirichlet], by simp only [refineBoundaries, hGF.neumann, R.cells.neumann]⟩,
    R.points, R.fpoints, R.none_iff, R.none_edges, R.mean, R.fmean, R.count, R.adj⟩

section
variable {s : ℚ} {n m nx ny N : ℕ} {P : List LP} {dg : Bool} {E : List (LP × LP)} {T : List (LP × LP × LP)}
  {BV : List LP} {BE : List (LP × LP)} {G : Grid ℝ} {F : Grid ℚ}

/-- the states of the loop over the coarse triangles -/
structure TRel (e h : ℚ) (n N : ℕ) (P : List LP) (Q : List LP) (s : RefState ℝ) (f : RefState ℚ) : Prop where
  state : SRel e h N Q s f
  grow : P.map (scaleP n) <+: Q
  first : f.grid.meanEdgeLength = none → Q = P.map (scaleP n)

theorem triangleVertices_float (L : Lattice G nx ny (s : ℝ) P dg E T BV BE) (hGF : SameCells G F)
    (hF : F.points = P.map (fpt s)) {t : LP × LP × LP} (ht : t ∈ T) :
    F.triangleVertices (labT P t) = .ok (fpt s t.1, fpt s t.2.1, fpt s t.2.2) := by
  have hP := L.memT_P ht
  unfold Grid.triangleVertices
  rw [if_neg (by rw [not_not, hGF.triangles, L.triangles]; exact List.mem_map_of_mem ht), hF]
  simp only [labT]
  have key : ∀ a ∈ P, pyGet (P.map (fpt s)) (lab P a) = .ok (fpt s a) := by
    intro a ha
    simp [pyGet, getElem?_lab ha]
  rw [key _ hP.1, key _ hP.2.1, key _ hP.2.2]
  rfl

theorem refineTriangle_agree (hs : 0 < s) (hn : 1 ≤ n) (hx : nx ≤ m) (hy : ny ≤ m) (hnm : n * m ≤ 10 ^ 6)
    (hsmall : 2 / 10 ^ 15 ≤ s / n) (hN : N + 3 * (lowerIndices n).length ≤ 10 ^ 13)
    (L : Lattice G nx ny (s : ℝ) P dg E T BV BE) (hGF : SameCells G F) (hF : F.points = P.map (fpt s))
    {t : LP × LP × LP} (ht : t ∈ T) {Q : List LP} {S : RefState ℝ} {SF : RefState ℚ}
    (R : TRel (ptErr s m) (s / n) n N P Q S SF) :
    Agree (fun S' SF' => ∃ Q', TRel (ptErr s m) (s / n) n (N + 3 * (lowerIndices n).length) P Q' S' SF')
      (refineTriangle G n S (labT P t)) (F64.refineTriangle F n SF (labT P t)) := by
  have hP := L.memT_P ht
  have hlat := (L.memT t).1 ht
  obtain ⟨-, hy', hx'⟩ := latTri_geom (h := (s : ℝ)) hlat
  have hyf : t.1.2 = t.2.1.2 ∧ t.2.1.1 = t.2.2.1 := by
    obtain ⟨i, j, -, -, rfl | rfl⟩ := hlat <;> exact ⟨rfl, rfl⟩
  have hh : 0 < s / n := div_pos hs (by exact_mod_cast hn)
  have he := ptErr_small hs hn hnm
  have hQP : P.map (scaleP n) <+: Q := R.grow
  have hlen : 1 ≤ Q.length :=
    List.length_pos_iff.2 (List.ne_nil_of_mem (hQP.subset (List.mem_map_of_mem hP.1)))
  have hcorner : ∀ a ∈ P, Q[lab P a]? = some (scaleP n a) := by
    intro a ha
    rw [← lab_scale hn hQP ha]
    exact getElem?_lab (hQP.subset (List.mem_map_of_mem ha))
  have hvv : S.grid.vertices = SF.grid.vertices := R.state.grid.cells.vertices.symm
  unfold refineTriangle F64.refineTriangle
  simp only [labT]
  rw [show (lab P t.1, lab P t.2.1, lab P t.2.2) = labT P t from rfl, triangleVertices_lat L ht,
    triangleVertices_float L hGF hF ht]
  simp only [bind_ok, getItem0_vec2, getItem1_vec2, hy', hx', sub_self, tiny_zero, Bool.not_true, Bool.false_eq_true,
    if_false]
  have i1 : ∀ a, (fpt s a).getItem 1 = .ok (fl (a.2 * s)) := fun a => rfl
  have i0 : ∀ a, (fpt s a).getItem 0 = .ok (fl (a.1 * s)) := fun a => rfl
  simp only [i0, i1, bind_ok, hyf.1, hyf.2, sub_self, show fl 0 = 0 from rfl, tiny_zero_float, Bool.not_true,
    Bool.false_eq_true, if_false]
  rw [hvv, R.state.verts, pyIdx_last _ hlen]
  simp only [bind_ok, Nat.sub_add_cancel hlen]
  have hn0 : n ≠ 0 := by omega
  have VR : VRel (ptErr s m) (s / n) N n t Q [] Q
      ⟨S.grid, Q.length, ((PyDict.empty.set (0, 0) (lab P t.1)).set (n, 0) (lab P t.2.1)).set (0, n) (lab P t.2.2)⟩
      ⟨SF.grid, Q.length, ((PyDict.empty.set (0, 0) (lab P t.1)).set (n, 0) (lab P t.2.1)).set (0, n) (lab P t.2.2)⟩ := by
    refine ⟨R.state.grid, R.state.verts, rfl, rfl, rfl, ?_, List.prefix_rfl, ?_⟩
    · intro kl i hi
      simp only [PyDict.get?_set] at hi
      split at hi
      · rename_i h0; subst h0; rw [mp_corner3, ← Option.some.inj hi]; exact hcorner _ hP.2.2
      split at hi
      · rename_i h0; subst h0; rw [mp_corner2, ← Option.some.inj hi]; exact hcorner _ hP.2.1
      split at hi
      · rename_i h0; subst h0; rw [mp_corner1, ← Option.some.inj hi]; exact hcorner _ hP.1
      · cases hi
    · intro h0 kl h1 h2 _ h3
      rw [R.first h0] at h3
      obtain ⟨a, -, ha⟩ := List.mem_map.1 h3
      exact h2 (mp_scale_corner hlat h1 ha.symm)
  refine (vertexLoop_agree hs hn hx hy hnm hsmall (by omega) hlat VR).bind ?_
  rintro v w ⟨Q', V⟩
  have S0 : SRel (ptErr s m) (s / n) N Q' { S with grid := v.grid } { SF with grid := w.grid } :=
    ⟨V.grid, V.verts, R.state.tri, R.state.edge, R.state.bary, R.state.coords⟩
  rw [V.tv]
  refine (lower_agree hn _ v.tv S0).bind ?_
  rintro s1 f1 ⟨S1, m1⟩
  refine (upper_agree hn _ v.tv S1).bind ?_
  rintro s2 f2 ⟨S2, m2⟩
  rw [hGF.edges]
  refine (edges_agree hlat hh he hN hn _ _ _ V.tvQ S2.grid).bind ?_
  rintro g3 f3 ⟨⟨R3, v3⟩, m3⟩
  refine (Agree.same _).bind ?_
  rintro _ hvs rfl
  refine (Agree.same _).bind ?_
  rintro _ vvs rfl
  have R4 := (R3.setBoundaries hGF (orientPair (decide ((lab P t.1, lab P t.2.1) ∈ G.edges)) (lab P t.1, lab P t.2.1),
    orientList (decide ((lab P t.1, lab P t.2.1) ∈ G.edges)) hvs)).setBoundaries hGF
    (orientPair (decide ((lab P t.2.1, lab P t.2.2) ∈ G.edges)) (lab P t.2.1, lab P t.2.2),
    orientList (decide ((lab P t.2.1, lab P t.2.2) ∈ G.edges)) vvs)
  simp only [List.foldl_cons, List.foldl_nil]
  have S4 : SRel (ptErr s m) (s / n) (N + 3 * (lowerIndices n).length) Q' { s2 with grid := _ } { f2 with grid := _ } :=
    ⟨R4, by show f3.vertices = _; rw [v3]; exact S2.verts, S2.tri, S2.edge, S2.bary, S2.coords⟩
  refine (coarseEdges_agree _ _ _ _ _ _ _ S4).mono ?_
  rintro s5 f5 ⟨S5, m5⟩
  refine ⟨Q', S5, R.grow.trans V.grow, ?_⟩
  intro h0
  rw [m5] at h0
  exact absurd h0 m3

end

end Tve
