import Verif.Lemmas.SimilarRegObj
import Verif.Lemmas.Constraints
import Verif.Lemmas.RegAnswer

/-!
# Helper lemmas: images of the deformations of regularized simulations, entry by entry
-/

namespace Tve

/-- the entries of the data -/
theorem data_entry3 {y : NdArray} {n : ℕ} (h : y.Has [n, 2, 6]) {i : ℕ} {w : ℝ} (hi : y.data[i]? = some w) :
    i / 12 < n ∧ w = y.at3 2 6 (i / 12) (i / 6 % 2) (i % 6) := by
  have hl : y.data.length = n * (2 * 6) := by have := h.2; rw [NdArray.Ok, h.1] at this; simpa using this
  have h1 : i < y.data.length := by
    by_contra hn
    rw [List.getElem?_eq_none (not_lt.1 hn)] at hi
    cases hi
  refine ⟨by omega, ?_⟩
  rw [NdArray.at3, show (i / 12 * 2 + i / 6 % 2) * 6 + i % 6 = i by omega, List.getD_eq_getElem?_getD, hi]
  rfl

theorem entry_data3 {y : NdArray} {n : ℕ} (h : y.Has [n, 2, 6]) {v c j : ℕ} (hv : v < n) (hc : c < 2) (hj : j < 6) :
    y.data[(v * 2 + c) * 6 + j]? = some (y.at3 2 6 v c j) := by
  have hl : y.data.length = n * (2 * 6) := by have := h.2; rw [NdArray.Ok, h.1] at this; simpa using this
  have hi : (v * 2 + c) * 6 + j < y.data.length := by omega
  rw [NdArray.at3, List.getD_eq_getElem?_getD, List.getElem?_eq_getElem hi]
  rfl

/-- an array with given entries -/
theorem exists_at3 {n : ℕ} (hn : 0 < n) (f : ℕ → ℕ → ℕ → ℝ) :
    ∃ y : NdArray, y.Has [n, 2, 6] ∧ ∀ v < n, ∀ c < 2, ∀ j < 6, y.at3 2 6 v c j = f v c j := by
  have l6 : ∀ c, ∀ r ∈ (List.range n).map (fun v => (List.range 6).map (f v c)), r.length = 6 := by
    intro c r hr; obtain ⟨i, _, rfl⟩ := List.mem_map.1 hr; simp
  refine ⟨RegMech.pairs ((List.range n).map fun v => (List.range 6).map (f v 0)) ((List.range n).map fun v => (List.range 6).map (f v 1)),
    NdArray.has_pairs3 (by simp) (by simp) (l6 0) (l6 1) hn, fun v hv c hc j hj => ?_⟩
  have := NdArray.at3_pairs (n := n) (i := v) (k := j) (by simp) (by simp) (l6 0) (l6 1) hv hj
  rcases (by omega : c = 0 ∨ c = 1) with rfl | rfl
  · rw [this.1]; simp [List.getD, hv, hj]
  · rw [this.2]; simp [List.getD, hv, hj]

/-- what becomes of an entry -/
noncomputable def imageEntry (T : Similarity) (c j : ℕ) (x : ℝ) : ℝ :=
  if j = 0 then T.κ * x + coord c T.c else if j < 3 then x else x / T.κ

variable {T : Similarity} {σ : Vertex → Vertex} {g g' : Grid ℝ}

theorem imageC1_iff (hsw : T.swap = false) {n : ℕ} {y y' : NdArray} :
    NdArray.ImageDeformationC1 T σ n y y' ↔ y.Has [n, 2, 6] ∧ y'.Has [n, 2, 6] ∧
      ∀ v < n, ∀ c < 2, ∀ j < 6, y'.at3 2 6 (σ v) c j = imageEntry T c j (y.at3 2 6 v c j) := by
  have key : ∀ z, T.map z = (T.κ * z.1 + T.c.1, T.κ * z.2 + T.c.2) := by
    intro z; simp [Similarity.map, Similarity.dir, hsw]
  constructor
  · rintro ⟨h1, h2, h3⟩
    refine ⟨h1, h2, fun v hv c hc j hj => ?_⟩
    obtain ⟨k1, k2⟩ := h3 v hv
    rw [deformed_3 h1, deformed_3 h2, key, Prod.mk.injEq] at k1
    obtain ⟨k3, k4⟩ := k2 c hc
    unfold imageEntry
    rcases (by omega : j = 0 ∨ (j = 1 ∨ j = 2) ∨ (j = 3 ∨ j = 4 ∨ j = 5)) with rfl | hj | hj
    · rw [if_pos rfl]
      interval_cases c
      · exact k1.1
      · exact k1.2
    · rw [if_neg (by omega), if_pos (by omega)]
      exact k3 j (by simpa using hj)
    · rw [if_neg (by omega), if_neg (by omega)]
      exact k4 j (by simpa using hj)
  · rintro ⟨h1, h2, h3⟩
    refine ⟨h1, h2, fun v hv => ⟨?_, fun c hc => ⟨fun j hj => ?_, fun j hj => ?_⟩⟩⟩
    · rw [deformed_3 h1, deformed_3 h2, key, h3 v hv 0 (by omega) 0 (by omega), h3 v hv 1 (by omega) 0 (by omega)]
      rfl
    · simp only [List.mem_cons, List.not_mem_nil, or_false] at hj
      rw [h3 v hv c hc j (by omega), imageEntry, if_neg (by omega), if_pos (by omega)]
    · simp only [List.mem_cons, List.not_mem_nil, or_false] at hj
      rw [h3 v hv c hc j (by omega), imageEntry, if_neg (by omega), if_neg (by omega)]

theorem imageEntry_near (hκ : T.κ = 1 ∨ T.κ = -1) (c j : ℕ) (x z : ℝ) :
    |imageEntry T c j x - imageEntry T c j z| = |x - z| := by
  unfold imageEntry
  rcases hκ with h | h <;> rw [h] <;> split_ifs
  · congr 1; ring
  · rfl
  · congr 1; ring
  · rw [← abs_neg]; congr 1; ring
  · rfl
  · rw [← abs_neg]; congr 1; ring

theorem imageEntry_inj (hκ : T.κ ≠ 0) {c j : ℕ} {x z : ℝ} (h : imageEntry T c j x = imageEntry T c j z) : x = z := by
  unfold imageEntry at h
  split_ifs at h
  · exact mul_left_cancel₀ hκ (add_right_cancel h)
  · exact h
  · field_simp at h; exact h

theorem imageEntry_surj (hκ : T.κ ≠ 0) (c j : ℕ) (z : ℝ) : ∃ x, imageEntry T c j x = z := by
  unfold imageEntry
  split_ifs
  · exact ⟨(z - coord c T.c) / T.κ, by field_simp; ring⟩
  · exact ⟨z, rfl⟩
  · exact ⟨T.κ * z, by field_simp⟩

/-- every deformation has an image -/
theorem Similar.exists_image3 (S : SimilarMesh T σ g g') (hsw : T.swap = false) (hn : 0 < g.points.length) {y : NdArray}
    (hy : y.Has [g.points.length, 2, 6]) : ∃ y', NdArray.ImageDeformationC1 T σ g.points.length y y' := by
  classical
  set τ : Vertex → Vertex := fun v' => if h : ∃ v ∈ g.vertices, σ v = v' then h.choose else 0 with hτ
  have hτσ : ∀ v ∈ g.vertices, τ (σ v) = v := by
    intro v hv
    have h : ∃ w ∈ g.vertices, σ w = σ v := ⟨v, hv, rfl⟩
    simp only [hτ, dif_pos h]
    exact S.inj _ h.choose_spec.1 _ hv h.choose_spec.2
  obtain ⟨y', h1, h2⟩ := exists_at3 hn fun v c j => imageEntry T c j (y.at3 2 6 (τ v) c j)
  refine ⟨y', (imageC1_iff hsw).2 ⟨hy, h1, fun v hv c hc j hj => ?_⟩⟩
  have hv' := (mem_vertices S.wf).2 hv
  rw [h2 _ (S.mem hv').2 c hc j hj, hτσ v hv']

/-- every deformation is an image -/
theorem Similar.exists_preimage3 (S : SimilarMesh T σ g g') (hsw : T.swap = false) (hn : 0 < g.points.length) {y' : NdArray}
    (hy : y'.Has [g.points.length, 2, 6]) : ∃ y, NdArray.ImageDeformationC1 T σ g.points.length y y' := by
  choose f hf using fun c j z => imageEntry_surj S.ne c j z
  obtain ⟨y, h1, h2⟩ := exists_at3 hn fun v c j => f c j (y'.at3 2 6 (σ v) c j)
  refine ⟨y, (imageC1_iff hsw).2 ⟨h1, hy, fun v hv c hc j hj => ?_⟩⟩
  rw [h2 v hv c hc j hj, hf]

/-! ### the equations at the Dirichlet edges -/

/-- the coefficients at a vertex -/
noncomputable def nodeAt (y : NdArray) (v c : ℕ) (j : Fin 6) : ℝ := y.at3 2 6 v c j

theorem edgeEqs_symm {c : ℕ} {P Q : ℝ × ℝ} {p q : Fin 6 → ℝ} (h : EdgeEqs c P Q p q) : EdgeEqs c Q P q p := by
  obtain ⟨h1, h2, h3, h4, h5, h6⟩ := h
  exact ⟨h4, by linear_combination -h5, by linear_combination h6, h1, by linear_combination -h2, by linear_combination h3⟩

theorem dirichletId_iff {n : ℕ} {y : NdArray} (hy : y.Has [n, 2, 6]) (he : ∀ e ∈ g.dirichlet.edges, e.1 < n ∧ e.2 < n) :
    DirichletId g y ↔ ∀ e ∈ g.dirichlet.edges, ∀ c < 2,
      EdgeEqs c (g.xy e.1) (g.xy e.2) (nodeAt y e.1 c) (nodeAt y e.2 c) := by
  have e0 := NdArray.block_eq hy (j := 0) (by norm_num)
  have e1 := NdArray.block_eq hy (j := 1) (by norm_num)
  have node : ∀ c v, v < n → nodeParam ((List.range n).map fun i => (List.range 6).map fun k => y.at3 2 6 i c k) v = nodeAt y v c := by
    intro c v hv
    funext k
    have hk := k.2
    simp [nodeParam, nodeAt, List.getD_eq_getElem?_getD, hv]
  constructor
  · intro h e hee c hc
    obtain ⟨k1, k2⟩ := h _ _ e0 e1 e hee
    rw [node _ _ (he e hee).1, node _ _ (he e hee).2] at k1 k2
    interval_cases c
    · exact k1
    · exact k2
  · intro h A B hA hB e hee
    cases e0.symm.trans hA
    cases e1.symm.trans hB
    rw [node _ _ (he e hee).1, node _ _ (he e hee).2, node _ _ (he e hee).1, node _ _ (he e hee).2]
    exact ⟨h e hee 0 (by norm_num), h e hee 1 (by norm_num)⟩

theorem edgeEqs_image (hκ : T.κ ≠ 0) (hsw : T.swap = false) {c : ℕ} {P Q : ℝ × ℝ} {p q p' q' : Fin 6 → ℝ}
    (hp : ∀ j : Fin 6, p' j = imageEntry T c j (p j)) (hq : ∀ j : Fin 6, q' j = imageEntry T c j (q j)) :
    EdgeEqs c (T.map P) (T.map Q) p' q' ↔ EdgeEqs c P Q p q := by
  have key : ∀ z, T.map z = (T.κ * z.1 + T.c.1, T.κ * z.2 + T.c.2) := by
    intro z; simp [Similarity.map, Similarity.dir, hsw]
  have kc : ∀ z, coord c (T.map z) = T.κ * coord c z + coord c T.c := by
    intro z; rw [key]; unfold coord; split <;> rfl
  have e0 : ∀ x, imageEntry T c ((0 : Fin 6) : ℕ) x = T.κ * x + coord c T.c := fun x => rfl
  have e1 : ∀ x, imageEntry T c ((1 : Fin 6) : ℕ) x = x := fun x => rfl
  have e2 : ∀ x, imageEntry T c ((2 : Fin 6) : ℕ) x = x := fun x => rfl
  have e3 : ∀ x, imageEntry T c ((3 : Fin 6) : ℕ) x = x / T.κ := fun x => rfl
  have e4 : ∀ x, imageEntry T c ((4 : Fin 6) : ℕ) x = x / T.κ := fun x => rfl
  have e5 : ∀ x, imageEntry T c ((5 : Fin 6) : ℕ) x = x / T.κ := fun x => rfl
  unfold EdgeEqs
  simp only [kc, hp, hq, e0, e1, e2, e3, e4, e5]
  simp only [key]
  have d1 : ∀ a b x : ℝ, T.κ * a + x - (T.κ * b + x) = T.κ * (a - b) := fun a b x => by ring
  simp only [d1]
  have s1 : ∀ a b : ℝ, (T.κ * a + coord c T.c = T.κ * b + coord c T.c ↔ a = b) := fun a b => by
    rw [add_left_inj, mul_right_inj' hκ]
  have s2 : ∀ a b u v w : ℝ, (a * (T.κ * u) + b * (T.κ * v) = T.κ * w ↔ a * u + b * v = w) := fun a b u v w => by
    rw [show a * (T.κ * u) + b * (T.κ * v) = T.κ * (a * u + b * v) by ring, mul_right_inj' hκ]
  have s3 : ∀ a b d u v : ℝ, (a / T.κ * (T.κ * u) ^ 2 + 2 * (b / T.κ) * (T.κ * u) * (T.κ * v) + d / T.κ * (T.κ * v) ^ 2 = 0 ↔
      a * u ^ 2 + 2 * b * u * v + d * v ^ 2 = 0) := fun a b d u v => by
    rw [show a / T.κ * (T.κ * u) ^ 2 + 2 * (b / T.κ) * (T.κ * u) * (T.κ * v) + d / T.κ * (T.κ * v) ^ 2 =
      T.κ * (a * u ^ 2 + 2 * b * u * v + d * v ^ 2) by field_simp, mul_eq_zero]
    simp [hκ]
  simp only [s1, s2, s3]

/-- a deformation satisfies the equations if and only if its image does -/
theorem dirichletId_image (S : SimilarMesh T σ g g') (I : Grid.Image T σ g g') (hsw : T.swap = false) {y y' : NdArray}
    (hy : NdArray.ImageDeformationC1 T σ g.points.length y y') : DirichletId g y ↔ DirichletId g' y' := by
  obtain ⟨h1, h2, h3⟩ := (imageC1_iff hsw).1 hy
  have lt : ∀ v ∈ g.vertices, v < g.points.length := fun v hv => (mem_vertices S.wf).1 hv
  have ev : ∀ e ∈ g.dirichlet.edges, e.1 ∈ g.vertices ∧ e.2 ∈ g.vertices := fun e he => S.wf.edges e (S.wf.dirichlet.2 e he)
  have ev' : ∀ e ∈ g'.dirichlet.edges, e.1 ∈ g'.vertices ∧ e.2 ∈ g'.vertices := fun e he => S.wf'.edges e (S.wf'.dirichlet.2 e he)
  have eqs : ∀ v ∈ g.vertices, ∀ w ∈ g.vertices, ∀ c < 2,
      (EdgeEqs c (g'.xy (σ v)) (g'.xy (σ w)) (nodeAt y' (σ v) c) (nodeAt y' (σ w) c) ↔
        EdgeEqs c (g.xy v) (g.xy w) (nodeAt y v c) (nodeAt y w c)) := by
    intro v hv w hw c hc
    rw [S.xy v hv, S.xy w hw]
    exact edgeEqs_image S.ne hsw (fun j => h3 v (lt v hv) c hc j j.2) (fun j => h3 w (lt w hw) c hc j j.2)
  have und : ∀ {l : List Edge} {v w : Vertex}, s(v, w) ∈ l.map Edge.undirected ↔ (v, w) ∈ l ∨ (w, v) ∈ l := by
    intro l v w
    rw [List.mem_map]
    constructor
    · rintro ⟨⟨a, b⟩, hm, he⟩
      rcases Sym2.eq_iff.1 he with ⟨rfl, rfl⟩ | ⟨rfl, rfl⟩
      · exact Or.inl hm
      · exact Or.inr hm
    · rintro (h | h)
      · exact ⟨_, h, rfl⟩
      · exact ⟨_, h, Sym2.eq_swap⟩
  rw [dirichletId_iff h1 fun e he => ⟨lt _ (ev e he).1, lt _ (ev e he).2⟩,
    dirichletId_iff (g := g') (n := g.points.length) h2 fun e he => ⟨?_, ?_⟩]
  rotate_left
  · rw [← S.len]; exact (mem_vertices S.wf').1 (ev' e he).1
  · rw [← S.len]; exact (mem_vertices S.wf').1 (ev' e he).2
  constructor
  · intro h e he c hc
    obtain ⟨x, z⟩ := e
    obtain ⟨v, hv, rfl⟩ := S.surj _ (ev' _ he).1
    obtain ⟨w, hw, rfl⟩ := S.surj _ (ev' _ he).2
    refine (eqs v hv w hw c hc).2 ?_
    rcases und.1 ((I.dirichlet v hv w hw).2 (und.2 (Or.inl he))) with h' | h'
    · exact h _ h' c hc
    · exact edgeEqs_symm (h _ h' c hc)
  · intro h e he c hc
    obtain ⟨v, w⟩ := e
    obtain ⟨hv, hw⟩ := ev _ he
    refine (eqs v hv w hw c hc).1 ?_
    rcases und.1 ((I.dirichlet v hv w hw).1 (und.2 (Or.inl he))) with h' | h'
    · exact h _ h' c hc
    · exact edgeEqs_symm (h _ h' c hc)

end Tve
