import Verif.Lemmas.ThermStep
import Verif.Lemmas.Interp
import Verif.Lemmas.GridComb
import Verif.Lemmas.Library

/-! Closed forms of the constructors of the steps. -/

namespace Tve

/-- what the constructors of the steps need of a grid -/
structure Grid.Usable (g : Grid ℝ) (n : ℕ) : Prop where
  wf : g.WellFormed
  num : g.points.length = n
  pos : 0 < n
  nodup : g.neumann.vertices.Nodup
  nodupD : g.dirichlet.vertices.Nodup

theorem nodup_map_lab {P V : List LP} (h : ∀ a ∈ V, a ∈ P) (hV : V.Nodup) : (V.map (lab P)).Nodup := by
  refine List.Nodup.map_on ?_ hV
  intro a ha b _ hab
  exact lab_inj (h a ha) hab

theorem LibraryGrid.usable {g : Grid ℝ} {nx ny : ℕ} {s : ℝ} (G : LibraryGrid g nx ny s) :
    g.Usable ((nx + 1) * (ny + 1)) := by
  obtain ⟨P, dg, E, T, BV, BE, DV, DE, NV, NE, h⟩ := G.lgrid
  refine ⟨G.wellFormed, ?_, by positivity, ?_, ?_⟩
  · rw [h.lat.points, List.length_map, h.lat.lengthP]
  · rw [h.pn.vertices]; exact nodup_map_lab h.pn.memV h.nodupNV
  · rw [h.pd.vertices]; exact nodup_map_lab h.pd.memV h.nodupDV

section
variable {g : Grid ℝ} {n : ℕ}

theorem Grid.Usable.vertices (U : g.Usable n) : g.vertices = List.range n := by rw [U.wf.vertices, U.num]

theorem Grid.Usable.length (U : g.Usable n) : g.vertices.length = n := by rw [U.vertices, List.length_range]

theorem Grid.Usable.mem (U : g.Usable n) {v : Vertex} (hv : v < n) : v ∈ g.vertices := by
  rw [U.vertices]; exact List.mem_range.2 hv

theorem Grid.Usable.point (U : g.Usable n) {v : Vertex} (hv : v < n) : pyGet g.points v = .ok (vec2 (g.xy v)) :=
  WF.pyGet_point U.wf (U.mem hv)

theorem vec2_getItem (q : ℝ × ℝ) : (vec2 q).getItem 0 = .ok q.1 ∧ (vec2 q).getItem 1 = .ok q.2 := ⟨rfl, rfl⟩

/-- first coordinates of the vertices -/
noncomputable def xsOf (g : Grid ℝ) (n : ℕ) : List ℝ := (List.range n).map fun v => (g.xy v).1
/-- second coordinates of the vertices -/
noncomputable def ysOf (g : Grid ℝ) (n : ℕ) : List ℝ := (List.range n).map fun v => (g.xy v).2

theorem pointArgs_eq (U : g.Usable n) {v : Vertex} (hv : v < n) : pointArgs g v = .ok ((g.xy v).1, (g.xy v).2) := by
  rw [pointArgs, U.point hv]; rfl

theorem length_pySet {l : List ℕ} (h : l.Nodup) : (pySet l).length = l.length :=
  ((List.perm_ext_iff_of_nodup (nodup_pySet l) h).2 fun _ => mem_pySet).length_eq

theorem P1_ok {u : List ℝ} (h : u.length = g.vertices.length) : ∃ I, P1Interpolation g u = .ok I :=
  ⟨_, by rw [P1Interpolation, if_neg (not_not.2 h)]⟩

theorem C1_ok {u : List (List ℝ)} (h6 : ∀ p ∈ u, p.length = 6) (h : u.length = g.vertices.length) :
    ∃ I, C1Interpolation g u = .ok I := by
  have hn : ¬ (u.any fun p => p.length != 6) = true := by
    simp only [List.any_eq_true, not_exists, not_and, bne_iff_ne, ne_eq, not_not]
    exact h6
  exact ⟨_, by rw [C1Interpolation, if_neg hn, if_neg (not_not.2 h)]⟩

theorem length_fixVertices (vs : List Vertex) (l : List VarData) : (fixVertices vs l).length = l.length := by
  unfold fixVertices
  induction vs generalizing l with
  | nil => rfl
  | cons a t ih => rw [List.foldl_cons, ih, List.length_modify]

theorem fixVertices_getElem? {vs : List Vertex} (hvs : vs.Nodup) (l : List VarData) (k : ℕ) :
    (fixVertices vs l)[k]? = if k ∈ vs then l[k]?.map VarData.fix else l[k]? :=
  foldl_modify_getElem? (fun _ => VarData.fix) vs hvs l k

theorem varValues_fixVertices {vs : List Vertex} (hvs : vs.Nodup) (l : List VarData) :
    varValues (fixVertices vs l) = varValues l := by
  apply List.ext_getElem?
  intro k
  simp only [varValues, List.getElem?_map, fixVertices_getElem? hvs]
  split
  · rcases l[k]? with _ | v <;> rfl
  · rfl

theorem varValues_centred (l : List ℝ) (r : ℝ) : varValues (l.map fun x => VarData.centred x r) = l := by
  simp [varValues, VarData.centred, Function.comp_def]

/-- the traction at a vertex as a function; irrelevant where the traction is not defined -/
theorem tractionParam_eq {nv : List Vertex} {tr : ℝ → ℝ → PyM (List ℝ)} {k : ℕ} {G : Vertex → ℝ}
    (U : g.Usable n) (hnv : ∀ v ∈ nv, v < n)
    (h : ∀ v ∈ nv, ∃ l, tr (g.xy v).1 (g.xy v).2 = .ok l ∧ l[k]? = some (G v)) :
    tractionParam g nv tr k = .ok ⟨nv.map fun v => (v, G v)⟩ := by
  rw [tractionParam, pyMap_eq_ok (fun v => (v, G v))]
  · rfl
  · intro v hv
    obtain ⟨l, h1, h2⟩ := h v hv
    rw [pointArgs_eq U (hnv v hv), bind_ok]
    simp only
    rw [h1, bind_ok, pyGet_eq_ok.2 h2]; rfl

theorem tractionParam_of_ok {nv : List Vertex} {tr : ℝ → ℝ → PyM (List ℝ)} {k : ℕ} {d : PyDict Vertex ℝ}
    (U : g.Usable n) (hnv : ∀ v ∈ nv, v < n) (h : tractionParam g nv tr k = .ok d) :
    ∀ v ∈ nv, ∃ l x, tr (g.xy v).1 (g.xy v).2 = .ok l ∧ l[k]? = some x := by
  rw [tractionParam, bind_eq_ok] at h
  obtain ⟨items, h, -⟩ := h
  intro v hv
  obtain ⟨i, hi, rfl⟩ := List.mem_iff_getElem.1 hv
  have := pyMap_getElem h i hi
  rw [pointArgs_eq U (hnv _ hv), bind_ok, bind_eq_ok] at this
  obtain ⟨l, h1, h2⟩ := this
  rw [bind_eq_ok] at h2
  obtain ⟨x, h2, -⟩ := h2
  exact ⟨l, x, h1, pyGet_eq_ok.1 h2⟩

/-- the model created by `_model` -/
noncomputable def initialP1Mech (g : Grid ℝ) (n : ℕ) (T0 r fps : ℝ) (G1 G2 : Vertex → ℝ) : P1MechModel where
  grid := g
  fps := fps
  neumannVertices := pySet g.neumann.vertices
  prevY1 := xsOf g n
  prevY2 := ysOf g n
  prevTheta := List.replicate n T0
  g1 := ⟨(pySet g.neumann.vertices).map fun v => (v, G1 v)⟩
  g2 := ⟨(pySet g.neumann.vertices).map fun v => (v, G2 v)⟩
  y1 := fixVertices (pySet g.dirichlet.vertices) ((xsOf g n).map fun x => VarData.centred x r)
  y2 := fixVertices (pySet g.dirichlet.vertices) ((ysOf g n).map fun x => VarData.centred x r)

theorem lt_of_neumann (U : g.Usable n) {v : Vertex} (hv : v ∈ pySet g.neumann.vertices) : v < n := by
  have := U.wf.neumann.1 v (mem_pySet.1 hv)
  rw [U.vertices] at this
  exact List.mem_range.1 this

theorem lt_of_dirichlet (U : g.Usable n) {v : Vertex} (hv : v ∈ g.dirichlet.vertices) : v < n := by
  have := U.wf.dirichlet.1 v hv
  rw [U.vertices] at this
  exact List.mem_range.1 this

theorem replicate_eq_map (n : ℕ) (T0 : ℝ) : (List.range n).map (fun _ => T0) = List.replicate n T0 := by
  simp [List.map_const']

theorem P1MechModel.new_eq (U : g.Usable n) {T0 r fps : ℝ} (h0 : 0 ≤ T0) {tr : ℝ → ℝ → PyM (List ℝ)}
    {G1 G2 : Vertex → ℝ}
    (h : ∀ v ∈ g.neumann.vertices, ∃ l, tr (g.xy v).1 (g.xy v).2 = .ok l ∧ l[0]? = some (G1 v) ∧ l[1]? = some (G2 v)) :
    P1MechModel.new g T0 r fps tr = .ok (initialP1Mech g n T0 r fps G1 G2) := by
  have e1 : pyMap g.vertices (fun i => do let p ← pyGet g.points i; p.getItem 0) = .ok (xsOf g n) := by
    rw [U.vertices]
    refine pyMap_eq_ok _ fun v hv => ?_
    rw [U.point (List.mem_range.1 hv)]; rfl
  have e2 : pyMap g.vertices (fun i => do let p ← pyGet g.points i; p.getItem 1) = .ok (ysOf g n) := by
    rw [U.vertices]
    refine pyMap_eq_ok _ fun v hv => ?_
    rw [U.point (List.mem_range.1 hv)]; rfl
  have e3 : pyMap g.vertices (fun _ => if T0 < 0 then (.error .valueError : PyM ℝ) else .ok T0) =
      .ok (List.replicate n T0) := by
    rw [if_neg (by linarith), pyMap_ok, U.vertices, replicate_eq_map]
  have hx : (xsOf g n).length = g.vertices.length := by simp [xsOf, U.length]
  have hy : (ysOf g n).length = g.vertices.length := by simp [ysOf, U.length]
  obtain ⟨I1, i1⟩ := P1_ok hx
  obtain ⟨I2, i2⟩ := P1_ok hy
  obtain ⟨I3, i3⟩ := P1_ok (g := g) (u := List.replicate n T0) (by simp [U.length])
  have hv1 : varValues (fixVertices (pySet g.dirichlet.vertices) ((xsOf g n).map fun x => VarData.centred x r)) =
      xsOf g n := by rw [varValues_fixVertices (nodup_pySet _), varValues_centred]
  have hv2 : varValues (fixVertices (pySet g.dirichlet.vertices) ((ysOf g n).map fun x => VarData.centred x r)) =
      ysOf g n := by rw [varValues_fixVertices (nodup_pySet _), varValues_centred]
  have hb : ∀ G : Vertex → ℝ, ∃ B, P1BoundaryInterp.new g.neumann
      ⟨(pySet g.neumann.vertices).map fun v => (v, G v)⟩ = .ok B := by
    intro G
    exact ⟨_, by rw [P1BoundaryInterp.new, if_neg (by simp [length_pySet U.nodup])]⟩
  obtain ⟨B1, b1⟩ := hb G1
  obtain ⟨B2, b2⟩ := hb G2
  rw [P1MechModel.new]
  simp only [e1, e2, e3, bind_ok]
  rw [tractionParam_eq U (fun v hv => lt_of_neumann U hv) (G := G1)
      (fun v hv => by obtain ⟨l, a, b, c⟩ := h v (mem_pySet.1 hv); exact ⟨l, a, b⟩), bind_ok,
    tractionParam_eq U (fun v hv => lt_of_neumann U hv) (G := G2)
      (fun v hv => by obtain ⟨l, a, b, c⟩ := h v (mem_pySet.1 hv); exact ⟨l, a, c⟩), bind_ok]
  simp only [hv1, hv2, i1, i2, i3, b1, b2, bind_ok]
  rfl

theorem P1MechModel.of_new (U : g.Usable n) {T0 r fps : ℝ} {tr : ℝ → ℝ → PyM (List ℝ)} {m : P1MechModel}
    (h : P1MechModel.new g T0 r fps tr = .ok m) :
    0 ≤ T0 ∧ ∃ G1 G2 : Vertex → ℝ, (∀ v ∈ g.neumann.vertices, ∃ l, tr (g.xy v).1 (g.xy v).2 = .ok l ∧
      l[0]? = some (G1 v) ∧ l[1]? = some (G2 v)) ∧ m = initialP1Mech g n T0 r fps G1 G2 := by
  have h' := h
  rw [P1MechModel.new] at h
  simp only [bind_eq_ok] at h
  obtain ⟨_, -, _, -, th, hth, d1, hd1, d2, hd2, -⟩ := h
  have h0 : 0 ≤ T0 := by
    by_contra hc
    rw [if_pos (by linarith), U.vertices] at hth
    obtain ⟨k, rfl⟩ : ∃ k, n = k + 1 := ⟨n - 1, by have := U.pos; omega⟩
    rw [List.range_succ_eq_map, pyMap_cons] at hth
    cases hth
  have t1 := tractionParam_of_ok U (fun v hv => lt_of_neumann U hv) hd1
  have t2 := tractionParam_of_ok U (fun v hv => lt_of_neumann U hv) hd2
  classical
  let G1 : Vertex → ℝ := fun v => if hv : v ∈ pySet g.neumann.vertices then (t1 v hv).choose_spec.choose else 0
  let G2 : Vertex → ℝ := fun v => if hv : v ∈ pySet g.neumann.vertices then (t2 v hv).choose_spec.choose else 0
  have key : ∀ v ∈ g.neumann.vertices, ∃ l, tr (g.xy v).1 (g.xy v).2 = .ok l ∧
      l[0]? = some (G1 v) ∧ l[1]? = some (G2 v) := by
    intro v hv
    have hv' : v ∈ pySet g.neumann.vertices := mem_pySet.2 hv
    have s1 := (t1 v hv').choose_spec.choose_spec
    have s2 := (t2 v hv').choose_spec.choose_spec
    refine ⟨_, s1.1, ?_, ?_⟩
    · simp only [G1, dif_pos hv']; exact s1.2
    · have : (t1 v hv').choose = (t2 v hv').choose := Except.ok.inj (s1.1.symm.trans s2.1)
      simp only [G2, dif_pos hv']; rw [this]; exact s2.2
  refine ⟨h0, G1, G2, key, ?_⟩
  rw [P1MechModel.new_eq U h0 key] at h'
  exact (Except.ok.inj h').symm

theorem initialP1Mech_WF (U : g.Usable n) (T0 r fps : ℝ) (G1 G2 : Vertex → ℝ) :
    (initialP1Mech g n T0 r fps G1 G2).WF n where
  pos := U.pos
  vertices := U.vertices
  prevY1 := by simp [initialP1Mech, xsOf]
  prevY2 := by simp [initialP1Mech, ysOf]
  prevTheta := by simp [initialP1Mech]
  y1 := by simp [initialP1Mech, length_fixVertices, xsOf]
  y2 := by simp [initialP1Mech, length_fixVertices, ysOf]
  nv := rfl
  g1 := by simp [initialP1Mech, Function.comp_def]
  g2 := by simp [initialP1Mech, Function.comp_def]

/-! ### with regularization -/

/-- the initial C1 parameters of the first component -/
noncomputable def c1xs (g : Grid ℝ) (n : ℕ) : List (List ℝ) := (List.range n).map fun v => [(g.xy v).1, 1, 0, 0, 0, 0]
/-- the initial C1 parameters of the second component -/
noncomputable def c1ys (g : Grid ℝ) (n : ℕ) : List (List ℝ) := (List.range n).map fun v => [(g.xy v).2, 0, 1, 0, 0, 0]

/-- the model created by `_model_regularized` -/
noncomputable def initialRegMech (g : Grid ℝ) (f : RefinedGrid ℝ) (n k : ℕ) (T0 r fps reg : ℝ) : RegMechModel where
  grid := g
  refined := f
  fps := fps
  regularization := reg
  prevY1 := c1xs g n
  prevY2 := c1ys g n
  prevTheta := List.replicate k T0
  y1 := fixValues g.dirichlet.vertices ((c1xs g n).map fun row => row.map fun x => VarData.centred x r)
  y2 := fixValues g.dirichlet.vertices ((c1ys g n).map fun row => row.map fun x => VarData.centred x r)

theorem length_fixValues (vs : List Vertex) (l : List (List VarData)) : (fixValues vs l).length = l.length := by
  unfold fixValues
  induction vs generalizing l with
  | nil => rfl
  | cons a t ih => rw [List.foldl_cons, ih, List.length_modify]

theorem fixValues_getElem? {vs : List Vertex} (hvs : vs.Nodup) (l : List (List VarData)) (k : ℕ) :
    (fixValues vs l)[k]? = if k ∈ vs then l[k]?.map (fun row => row.modify 0 VarData.fix) else l[k]? :=
  foldl_modify_getElem? (fun _ (row : List VarData) => row.modify 0 VarData.fix) vs hvs l k

theorem varValues_modify (row : List VarData) : varValues (row.modify 0 VarData.fix) = varValues row := by
  cases row <;> simp [varValues, List.modify, VarData.fix]

theorem varValues2_fixValues {vs : List Vertex} (hvs : vs.Nodup) (l : List (List VarData)) :
    varValues2 (fixValues vs l) = varValues2 l := by
  apply List.ext_getElem?
  intro k
  simp only [varValues2, List.getElem?_map, fixValues_getElem? hvs]
  split
  · rcases l[k]? with _ | v
    · rfl
    · simp [varValues_modify]
  · rfl

theorem fixValues_rows {vs : List Vertex} (hvs : vs.Nodup) {l : List (List VarData)} (h : ∀ x ∈ l, x.length = 6) :
    ∀ x ∈ fixValues vs l, x.length = 6 := by
  intro x hx
  obtain ⟨k, hk⟩ := List.mem_iff_getElem?.1 hx
  rw [fixValues_getElem? hvs] at hk
  split at hk
  · rcases hl : l[k]? with _ | row
    · simp [hl] at hk
    · rw [hl] at hk
      simp only [Option.map_some, Option.some.injEq] at hk
      rw [← hk, List.length_modify]; exact h _ (List.mem_of_getElem? hl)
  · exact h _ (List.mem_of_getElem? hk)

theorem varValues2_centred (l : List (List ℝ)) (r : ℝ) :
    varValues2 (l.map fun row => row.map fun x => VarData.centred x r) = l := by
  simp [varValues2, varValues_centred, Function.comp_def]

theorem c1xs_shape (g : Grid ℝ) (n : ℕ) : (c1xs g n).length = n ∧ ∀ x ∈ c1xs g n, x.length = 6 := by
  constructor
  · simp [c1xs]
  · intro x hx; obtain ⟨v, -, rfl⟩ := List.mem_map.1 hx; rfl

theorem c1ys_shape (g : Grid ℝ) (n : ℕ) : (c1ys g n).length = n ∧ ∀ x ∈ c1ys g n, x.length = 6 := by
  constructor
  · simp [c1ys]
  · intro x hx; obtain ⟨v, -, rfl⟩ := List.mem_map.1 hx; rfl

theorem initialRegMech_WF (U : g.Usable n) {f : RefinedGrid ℝ} {k : ℕ} (F : f.toGrid.Usable k) (T0 r fps reg : ℝ) :
    (initialRegMech g f n k T0 r fps reg).WF n k := by
  have h6 : ∀ l : List (List ℝ), (∀ x ∈ l, x.length = 6) →
      ∀ x ∈ l.map (fun row => row.map fun x => VarData.centred x r), x.length = 6 := by
    intro l h x hx
    obtain ⟨y, hy, rfl⟩ := List.mem_map.1 hx
    rw [List.length_map]; exact h y hy
  exact ⟨U.pos, U.length, F.length, c1xs_shape g n, c1ys_shape g n, by simp [initialRegMech],
    ⟨by simp [initialRegMech, length_fixValues, (c1xs_shape g n).1],
      fixValues_rows U.nodupD (h6 _ (c1xs_shape g n).2)⟩,
    ⟨by simp [initialRegMech, length_fixValues, (c1ys_shape g n).1],
      fixValues_rows U.nodupD (h6 _ (c1ys_shape g n).2)⟩⟩

theorem edgeVertices_eq (W : g.WellFormed) {e : Edge} (he : e ∈ g.edges) :
    g.edgeVertices e = .ok (vec2 (g.xy e.1), vec2 (g.xy e.2)) := by
  rw [Grid.edgeVertices, if_neg (not_not.2 he), WF.pyGet_point W (W.edges e he).1, bind_ok,
    WF.pyGet_point W (W.edges e he).2]
  rfl

theorem RegMechModel.new_eq (U : g.Usable n) {f : RefinedGrid ℝ} {k : ℕ} (F : f.toGrid.Usable k) {T0 r fps reg : ℝ}
    (h0 : 0 ≤ T0) : RegMechModel.new g f T0 r fps reg = .ok (initialRegMech g f n k T0 r fps reg) := by
  have hpts : g.points = (List.range n).map fun v => vec2 (g.xy v) := by
    rw [points_xy U.wf, U.num, List.map_map]; rfl
  have e1 : pyMap g.points (fun p => do let x ← p.getItem 0; return ([x, 1, 0, 0, 0, 0] : List ℝ)) = .ok (c1xs g n) := by
    rw [pyMap_eq_ok (fun p => [(p.getItem 0).toOption.getD 0, 1, 0, 0, 0, 0])]
    · rw [hpts, List.map_map]; rfl
    · intro p hp
      rw [hpts] at hp
      obtain ⟨v, -, rfl⟩ := List.mem_map.1 hp
      rfl
  have e2 : pyMap g.points (fun p => do let y ← p.getItem 1; return ([y, 0, 1, 0, 0, 0] : List ℝ)) = .ok (c1ys g n) := by
    rw [pyMap_eq_ok (fun p => [(p.getItem 1).toOption.getD 0, 0, 1, 0, 0, 0])]
    · rw [hpts, List.map_map]; rfl
    · intro p hp
      rw [hpts] at hp
      obtain ⟨v, -, rfl⟩ := List.mem_map.1 hp
      rfl
  have copy : ∀ l : List (List ℝ), l.length = n → pyMap (List.range g.vertices.length) (fun i => pyGet l i) = .ok l := by
    intro l hl
    rw [U.length, pyMap_eq_ok (fun i => l.getD i [])]
    · congr 1
      apply List.ext_getElem
      · simp [hl]
      · intro i h1 h2; simp [List.getD, h2]
    · intro i hi
      rw [pyGet_getD (by rw [hl]; exact List.mem_range.1 hi)]
  have e3 : pyMap f.toGrid.vertices (fun _ => if T0 < 0 then (.error .valueError : PyM ℝ) else .ok T0) =
      .ok (List.replicate k T0) := by
    rw [if_neg (by linarith), pyMap_ok, F.vertices, replicate_eq_map]
  have e4 : ∃ l, pyMap g.dirichlet.edges g.edgeVertices = .ok l :=
    ⟨_, pyMap_eq_ok (fun e => (vec2 (g.xy e.1), vec2 (g.xy e.2)))
      fun e he => edgeVertices_eq U.wf (U.wf.dirichlet.2 e he)⟩
  obtain ⟨ev, e4⟩ := e4
  have W := initialRegMech_WF U F T0 r fps reg
  have hv1 : varValues2 (fixValues g.dirichlet.vertices ((c1xs g n).map fun row => row.map fun x => VarData.centred x r)) =
      c1xs g n := by rw [varValues2_fixValues U.nodupD, varValues2_centred]
  have hv2 : varValues2 (fixValues g.dirichlet.vertices ((c1ys g n).map fun row => row.map fun x => VarData.centred x r)) =
      c1ys g n := by rw [varValues2_fixValues U.nodupD, varValues2_centred]
  obtain ⟨I1, i1⟩ := C1_ok (g := g) (c1xs_shape g n).2 ((c1xs_shape g n).1.trans U.length.symm)
  obtain ⟨I2, i2⟩ := C1_ok (g := g) (c1ys_shape g n).2 ((c1ys_shape g n).1.trans U.length.symm)
  obtain ⟨I3, i3⟩ := P1_ok (g := f.toGrid) (u := List.replicate k T0) (by simp [F.length])
  rw [RegMechModel.new]
  simp only [e1, e2, e3, e4, bind_ok, copy _ (c1xs_shape g n).1, copy _ (c1ys_shape g n).1, hv1, hv2, i1, i2, i3]
  rfl

theorem RegMechModel.of_new (U : g.Usable n) {f : RefinedGrid ℝ} {k : ℕ} (F : f.toGrid.Usable k) {T0 r fps reg : ℝ}
    {m : RegMechModel} (h : RegMechModel.new g f T0 r fps reg = .ok m) :
    0 ≤ T0 ∧ m = initialRegMech g f n k T0 r fps reg := by
  have h' := h
  rw [RegMechModel.new] at h
  simp only [bind_eq_ok] at h
  obtain ⟨_, -, _, -, _, -, _, -, th, hth, -⟩ := h
  have h0 : 0 ≤ T0 := by
    by_contra hc
    rw [if_pos (by linarith), F.vertices] at hth
    obtain ⟨j, rfl⟩ : ∃ j, k = j + 1 := ⟨k - 1, by have := F.pos; omega⟩
    rw [List.range_succ_eq_map, pyMap_cons] at hth
    cases hth
  refine ⟨h0, ?_⟩
  rw [RegMechModel.new_eq U F h0] at h'
  exact (Except.ok.inj h').symm

/-! ### thermal steps -/

theorem nonNegParam_eq {l : List ℝ} (h : ∀ x ∈ l, 0 ≤ x) : Thermal.nonNegParam l = .ok l := by
  rw [Thermal.nonNegParam, pyMap_eq_ok id]
  · simp
  · intro x hx; rw [if_neg (by have := h x hx; linarith)]; rfl

theorem nonNegParam_of_ok {l l' : List ℝ} (h : Thermal.nonNegParam l = .ok l') : ∀ x ∈ l, 0 ≤ x := by
  intro x hx
  obtain ⟨i, hi, rfl⟩ := List.mem_iff_getElem.1 hx
  have := pyMap_getElem h i hi
  by_contra hc
  rw [if_pos (by linarith)] at this
  cases this

/-- the model created by `_model` -/
noncomputable def initialP1Therm (g : Grid ℝ) (A B A' B' T : List ℝ) (r fps e : ℝ) : P1ThermModel :=
  ⟨g, fps, A, B, A', B', T, T.map fun x => VarData.centred x r, e⟩

theorem copyRange {l : List ℝ} (hl : l.length = n) : pyMap (List.range n) (fun i => pyGet l i) = .ok l := by
  rw [pyMap_eq_ok (fun i => l.getD i 0), NdArray.map_getD_range l hl]
  intro i hi
  exact pyGet_getD' (by rw [hl]; exact List.mem_range.1 hi)

theorem deformation_ok {A B : List ℝ} (U : g.Usable n) (hA : A.length = n) (hB : B.length = n) :
    ∃ d, P1MechModel.deformation g A B = .ok d := by
  obtain ⟨I1, i1⟩ := P1_ok (g := g) (hA.trans U.length.symm)
  obtain ⟨I2, i2⟩ := P1_ok (g := g) (hB.trans U.length.symm)
  exact ⟨⟨I1, I2⟩, by rw [P1MechModel.deformation, i1, bind_ok, i2]; rfl⟩

theorem P1ThermModel.new_eq (U : g.Usable n) {A B A' B' T : List ℝ} (hA : A.length = n) (hB : B.length = n)
    (hA' : A'.length = n) (hB' : B'.length = n) (hT : T.length = n) (h0 : ∀ x ∈ T, 0 ≤ x) {r fps e : ℝ} (he : 0 ≤ e) :
    P1ThermModel.new g (P1Mech.pairs A B) (P1Mech.pairs A' B') (NdArray.of1 T) r fps e =
      .ok (initialP1Therm g A B A' B' T r fps e) := by
  have s1 := (NdArray.has_pairs hA hB U.pos).1
  have s2 := (NdArray.has_pairs hA' hB' U.pos).1
  have c1 := NdArray.col_pairs hA hB U.pos
  have c2 := NdArray.col_pairs hA' hB' U.pos
  obtain ⟨d1, e1⟩ := deformation_ok U hA hB
  obtain ⟨d2, e2⟩ := deformation_ok U hA' hB'
  obtain ⟨I, i1⟩ := P1_ok (g := g) (hT.trans U.length.symm)
  have hchk : Thermal.checkPrevStepData [g.vertices.length, 2] [g.vertices.length] (P1Mech.pairs A B)
      (P1Mech.pairs A' B') (NdArray.of1 T) = .ok () := by
    rw [Thermal.checkPrevStepData, if_neg (by rw [s1, U.length]; simp), if_neg (by rw [s2, U.length]; simp),
      if_neg (by simp [NdArray.of1, hT, U.length])]
  rw [P1ThermModel.new, hchk, bind_ok, c1.1, bind_ok, c1.2, bind_ok, c2.1, bind_ok, c2.2, bind_ok, U.vertices,
    copyRange hA, bind_ok, copyRange hB, bind_ok, copyRange hA', bind_ok, copyRange hB', bind_ok,
    show (fun i => (NdArray.of1 T).get1 i) = fun i => pyGet T i from rfl, copyRange hT, bind_ok, nonNegParam_eq h0,
    bind_ok, if_neg (by linarith), e1]
  simp only [bind_ok, e2, i1, varValues_centred]
  rfl

theorem P1ThermModel.of_new (U : g.Usable n) {a a' t : NdArray} (ha : a.Ok) (ha' : a'.Ok) (ht : t.Ok) {r fps e : ℝ}
    {m : P1ThermModel} (h : P1ThermModel.new g a a' t r fps e = .ok m) :
    0 ≤ e ∧ ∃ A B A' B' T : List ℝ, A.length = n ∧ B.length = n ∧ A'.length = n ∧ B'.length = n ∧ T.length = n ∧
      (∀ x ∈ T, 0 ≤ x) ∧ a = P1Mech.pairs A B ∧ a' = P1Mech.pairs A' B' ∧ t = NdArray.of1 T ∧
      m = initialP1Therm g A B A' B' T r fps e := by
  have h' := h
  rw [P1ThermModel.new, bind_eq_ok] at h
  obtain ⟨_, hc, h⟩ := h
  rw [Thermal.checkPrevStepData] at hc
  split_ifs at hc with c1 c2 c3
  rw [U.length, not_not] at c1 c2 c3
  obtain ⟨A, B, hA, hB, rfl⟩ := NdArray.exists_cols ⟨c1, ha⟩ U.pos
  obtain ⟨A', B', hA', hB', rfl⟩ := NdArray.exists_cols ⟨c2, ha'⟩ U.pos
  obtain ⟨ht1, ht2⟩ := NdArray.of1_data ⟨c3, ht⟩
  simp only [bind_eq_ok] at h
  obtain ⟨_, -, _, -, _, -, _, -, _, -, _, -, _, -, _, -, th, hth, pt, hpt, he'⟩ := h
  rw [U.vertices, ← ht1, show (fun i => (NdArray.of1 t.data).get1 i) = fun i => pyGet t.data i from rfl,
    copyRange ht2] at hth
  cases hth
  have h0 := nonNegParam_of_ok hpt
  have he : 0 ≤ e := by
    by_contra hc
    rw [if_pos (by linarith)] at he'
    cases he'
  refine ⟨he, A, B, A', B', t.data, hA, hB, hA', hB', ht2, h0, rfl, rfl, ht1.symm, ?_⟩
  rw [← ht1, P1ThermModel.new_eq U hA hB hA' hB' ht2 h0 he] at h'
  exact (Except.ok.inj h').symm

theorem initialP1Therm_WF (U : g.Usable n) {A B A' B' T : List ℝ} (hA : A.length = n) (hB : B.length = n)
    (hA' : A'.length = n) (hB' : B'.length = n) (hT : T.length = n) (r fps e : ℝ) :
    (initialP1Therm g A B A' B' T r fps e).WF n :=
  ⟨U.pos, U.vertices, hA, hB, hA', hB', hT, by simp [initialP1Therm, hT], by simp [initialP1Therm, VarData.centred]⟩

/-- the model created by `_model_regularized` -/
noncomputable def initialRegTherm (g : Grid ℝ) (f : RefinedGrid ℝ) (A B A' B' : List (List ℝ)) (T : List ℝ) (r fps : ℝ) :
    RegThermModel :=
  ⟨g, f, fps, A, B, A', B', T, T.map fun x => VarData.centred x r⟩

theorem regDeformation_ok {A B : List (List ℝ)} (U : g.Usable n) (f : RefinedGrid ℝ) (hA : A.length = n)
    (hB : B.length = n) (hA6 : ∀ x ∈ A, x.length = 6) (hB6 : ∀ x ∈ B, x.length = 6) :
    ∃ d, RegMechModel.deformation g f A B = .ok d := by
  obtain ⟨I1, i1⟩ := C1_ok (g := g) hA6 (hA.trans U.length.symm)
  obtain ⟨I2, i2⟩ := C1_ok (g := g) hB6 (hB.trans U.length.symm)
  exact ⟨_, by rw [RegMechModel.deformation, i1, bind_ok, i2]; rfl⟩

theorem RegThermModel.new_eq (U : g.Usable n) {f : RefinedGrid ℝ} {k : ℕ} (F : f.toGrid.Usable k)
    {A B A' B' : List (List ℝ)} {T : List ℝ} (hA : A.length = n) (hB : B.length = n)
    (hA' : A'.length = n) (hB' : B'.length = n) (hA6 : ∀ x ∈ A, x.length = 6) (hB6 : ∀ x ∈ B, x.length = 6)
    (hA6' : ∀ x ∈ A', x.length = 6) (hB6' : ∀ x ∈ B', x.length = 6) (hT : T.length = k) (h0 : ∀ x ∈ T, 0 ≤ x)
    {r fps : ℝ} :
    RegThermModel.new g f (RegMech.pairs A B) (RegMech.pairs A' B') (NdArray.of1 T) r fps =
      .ok (initialRegTherm g f A B A' B' T r fps) := by
  have s1 := (NdArray.has_pairs3 hA hB hA6 hB6 U.pos).1
  have s2 := (NdArray.has_pairs3 hA' hB' hA6' hB6' U.pos).1
  have c1 := NdArray.block_pairs hA hB hA6 hB6 U.pos
  have c2 := NdArray.block_pairs hA' hB' hA6' hB6' U.pos
  obtain ⟨d1, e1⟩ := regDeformation_ok U f hA hB hA6 hB6
  obtain ⟨d2, e2⟩ := regDeformation_ok U f hA' hB' hA6' hB6'
  obtain ⟨I, i1⟩ := P1_ok (g := f.toGrid) (hT.trans F.length.symm)
  have hchk : Thermal.checkPrevStepData [g.vertices.length, 2, 6] [f.toGrid.vertices.length] (RegMech.pairs A B)
      (RegMech.pairs A' B') (NdArray.of1 T) = .ok () := by
    rw [Thermal.checkPrevStepData, if_neg (by rw [s1, U.length]; simp), if_neg (by rw [s2, U.length]; simp),
      if_neg (by simp [NdArray.of1, hT, F.length])]
  rw [RegThermModel.new, hchk, bind_ok, c1.1, bind_ok, c1.2, bind_ok, c2.1, bind_ok, c2.2, bind_ok, F.length,
    show (fun i => (NdArray.of1 T).get1 i) = fun i => pyGet T i from rfl, copyRange hT, bind_ok, nonNegParam_eq h0,
    bind_ok, e1, bind_ok, e2, bind_ok, i1, bind_ok, varValues_centred, i1, bind_ok]
  rfl

theorem RegThermModel.of_new (U : g.Usable n) {f : RefinedGrid ℝ} {k : ℕ} (F : f.toGrid.Usable k) {a a' t : NdArray}
    (ha : a.Ok) (ha' : a'.Ok) (ht : t.Ok) {r fps : ℝ} {m : RegThermModel}
    (h : RegThermModel.new g f a a' t r fps = .ok m) :
    ∃ (A B A' B' : List (List ℝ)) (T : List ℝ), A.length = n ∧ B.length = n ∧ A'.length = n ∧ B'.length = n ∧
      (∀ x ∈ A, x.length = 6) ∧ (∀ x ∈ B, x.length = 6) ∧ (∀ x ∈ A', x.length = 6) ∧ (∀ x ∈ B', x.length = 6) ∧
      T.length = k ∧ (∀ x ∈ T, 0 ≤ x) ∧ a = RegMech.pairs A B ∧ a' = RegMech.pairs A' B' ∧ t = NdArray.of1 T ∧
      m = initialRegTherm g f A B A' B' T r fps := by
  have h' := h
  rw [RegThermModel.new, bind_eq_ok] at h
  obtain ⟨_, hc, h⟩ := h
  rw [Thermal.checkPrevStepData] at hc
  split_ifs at hc with c1 c2 c3
  rw [U.length, not_not] at c1 c2
  rw [F.length, not_not] at c3
  obtain ⟨A, B, hA, hB, hA6, hB6, rfl⟩ := NdArray.exists_blocks ⟨c1, ha⟩ U.pos
  obtain ⟨A', B', hA', hB', hA6', hB6', rfl⟩ := NdArray.exists_blocks ⟨c2, ha'⟩ U.pos
  obtain ⟨ht1, ht2⟩ := NdArray.of1_data ⟨c3, ht⟩
  simp only [bind_eq_ok] at h
  obtain ⟨_, -, _, -, _, -, _, -, th, hth, pt, hpt, -⟩ := h
  rw [F.length, ← ht1, show (fun i => (NdArray.of1 t.data).get1 i) = fun i => pyGet t.data i from rfl,
    copyRange ht2] at hth
  cases hth
  have h0 := nonNegParam_of_ok hpt
  refine ⟨A, B, A', B', t.data, hA, hB, hA', hB', hA6, hB6, hA6', hB6', ht2, h0, rfl, rfl, ht1.symm, ?_⟩
  rw [← ht1, RegThermModel.new_eq U F hA hB hA' hB' hA6 hB6 hA6' hB6' ht2 h0] at h'
  exact (Except.ok.inj h').symm

theorem initialRegTherm_WF (U : g.Usable n) {f : RefinedGrid ℝ} {k : ℕ} (F : f.toGrid.Usable k)
    {A B A' B' : List (List ℝ)} {T : List ℝ} (hA : A.length = n) (hB : B.length = n)
    (hA' : A'.length = n) (hB' : B'.length = n) (hA6 : ∀ x ∈ A, x.length = 6) (hB6 : ∀ x ∈ B, x.length = 6)
    (hA6' : ∀ x ∈ A', x.length = 6) (hB6' : ∀ x ∈ B', x.length = 6) (hT : T.length = k) (r fps : ℝ) :
    (initialRegTherm g f A B A' B' T r fps).WF n k :=
  ⟨U.pos, U.length, F.length, ⟨hA, hA6⟩, ⟨hB, hB6⟩, ⟨hA', hA6'⟩, ⟨hB', hB6'⟩, hT, by simp [initialRegTherm, hT],
    by simp [initialRegTherm, VarData.centred]⟩

end

end Tve
