import Verif.Lemmas.NdArray
import Verif.Lemmas.GridComb

/-! Closed forms of the updates of the mechanical steps. -/

namespace Tve

/-- new values and search ranges around them; nothing is fixed or released -/
noncomputable def recentre (r : ℝ) (A : List ℝ) (l : List VarData) : List VarData :=
  l.mapIdx fun i v => ⟨A.getD i 0, A.getD i 0 - r, A.getD i 0 + r, v.fixed⟩

/-- the same for rows -/
noncomputable def recentre2 (r : ℝ) (A : List (List ℝ)) (l : List (List VarData)) : List (List VarData) :=
  l.mapIdx fun i row => recentre r (A.getD i []) row

theorem length_recentre (r : ℝ) (A : List ℝ) (l : List VarData) : (recentre r A l).length = l.length := by
  simp [recentre]

theorem varValues_recentre {r : ℝ} {A : List ℝ} {l : List VarData} (h : A.length = l.length) :
    varValues (recentre r A l) = A := by
  apply List.ext_getElem
  · simp [varValues, recentre, h]
  · intro i h1 h2; simp [varValues, recentre, List.getD, h2]

theorem varValues2_recentre2 {r : ℝ} {A : List (List ℝ)} {l : List (List VarData)} (h : A.length = l.length)
    (hA : ∀ x ∈ A, x.length = 6) (hl : ∀ x ∈ l, x.length = 6) : varValues2 (recentre2 r A l) = A := by
  apply List.ext_getElem
  · simp [varValues2, recentre2, h]
  · intro i h1 h2
    simp only [varValues2, recentre2, List.getElem_map, List.getElem_mapIdx]
    rw [varValues_recentre]
    · simp [List.getD, h2]
    · have h3 : i < l.length := by omega
      rw [hl _ (List.getElem_mem h3)]
      simp only [List.getD, h2, List.getElem?_eq_getElem, Option.getD_some]
      exact hA _ (List.getElem_mem h2)

/-! ### without regularization -/

/-- shape invariant of the model without regularization -/
structure P1MechModel.WF (m : P1MechModel) (n : ℕ) : Prop where
  pos : 0 < n
  vertices : m.grid.vertices = List.range n
  prevY1 : m.prevY1.length = n
  prevY2 : m.prevY2.length = n
  prevTheta : m.prevTheta.length = n
  y1 : m.y1.length = n
  y2 : m.y2.length = n
  nv : m.neumannVertices = pySet m.grid.neumann.vertices
  g1 : m.g1.items.map Prod.fst = m.neumannVertices
  g2 : m.g2.items.map Prod.fst = m.neumannVertices

theorem P1MechModel.WF.nodup {m : P1MechModel} {n : ℕ} (h : m.WF n) : m.neumannVertices.Nodup := by
  rw [h.nv]; exact nodup_pySet _

/-- shape invariant of the step without regularization -/
structure P1Mech.WF (s : P1Mech) (n : ℕ) : Prop extends s.model.WF n where
  num : s.numVertices = n
  grid : s.grid = s.model.grid

namespace P1Mech

theorem updatePrevY_shape {s : P1Mech} {a : NdArray} (h : a.shape ≠ [s.numVertices, 2]) :
    updatePrevY a s = (.error .valueError, s) := by
  rw [updatePrevY, PyS.get_bind, if_pos h]; rfl

theorem updatePrevTheta_shape {s : P1Mech} {a : NdArray} (h : a.shape ≠ [s.numVertices]) :
    updatePrevTheta a s = (.error .valueError, s) := by
  rw [updatePrevTheta, PyS.get_bind, if_pos h]; rfl

theorem foldl_updatePrevYAt (r : ℝ) (A B : List ℝ) (vs : List ℕ) (m : P1MechModel) :
    vs.foldl (fun (m : P1MechModel) i =>
      { m with
        prevY1 := m.prevY1.set i (A.getD i 0), prevY2 := m.prevY2.set i (B.getD i 0),
        y1 := m.y1.modify i fun v => ⟨A.getD i 0, A.getD i 0 - r, A.getD i 0 + r, v.fixed⟩,
        y2 := m.y2.modify i fun v => ⟨B.getD i 0, B.getD i 0 - r, B.getD i 0 + r, v.fixed⟩ }) m =
    { m with
      prevY1 := vs.foldl (fun l i => l.set i (A.getD i 0)) m.prevY1,
      prevY2 := vs.foldl (fun l i => l.set i (B.getD i 0)) m.prevY2,
      y1 := vs.foldl (fun l i => l.modify i fun v => ⟨A.getD i 0, A.getD i 0 - r, A.getD i 0 + r, v.fixed⟩) m.y1,
      y2 := vs.foldl (fun l i => l.modify i fun v => ⟨B.getD i 0, B.getD i 0 - r, B.getD i 0 + r, v.fixed⟩) m.y2 } := by
  induction vs generalizing m with
  | nil => rfl
  | cons a t ih => rw [List.foldl_cons, ih]; rfl

theorem modify_modify {α : Type} (l : List α) (i : ℕ) (f g : α → α) :
    (l.modify i f).modify i g = l.modify i (g ∘ f) := by
  apply List.ext_getElem?; intro k
  simp only [List.getElem?_modify]
  rcases l[k]? with _ | x
  · rfl
  · by_cases h : i = k <;> simp [h]

theorem updatePrevY_eq {s : P1Mech} {n : ℕ} (hs : s.WF n) {A B : List ℝ} (hA : A.length = n) (hB : B.length = n) :
    updatePrevY (pairs A B) s = (.ok (), { s with model := { s.model with
      prevY1 := A, prevY2 := B, y1 := recentre s.searchRadius A s.model.y1,
      y2 := recentre s.searchRadius B s.model.y2 } }) := by
  have hh := NdArray.has_pairs hA hB hs.pos
  have hc := NdArray.col_pairs hA hB hs.pos
  rw [updatePrevY, PyS.get_bind, if_neg (by rw [hh.1, hs.num]; simp), hc.1, PyS.lift_ok_bind, hc.2, PyS.lift_ok_bind,
    PyS.get_bind, PyS.get_bind, hs.vertices, onModel, PyS.onAttr_apply,
    PyS.forEach_ok (fun i (m : P1MechModel) =>
      { m with
        prevY1 := m.prevY1.set i (A.getD i 0), prevY2 := m.prevY2.set i (B.getD i 0),
        y1 := m.y1.modify i fun v => ⟨A.getD i 0, A.getD i 0 - s.searchRadius, A.getD i 0 + s.searchRadius, v.fixed⟩,
        y2 := m.y2.modify i fun v => ⟨B.getD i 0, B.getD i 0 - s.searchRadius, B.getD i 0 + s.searchRadius, v.fixed⟩ }),
    foldl_updatePrevYAt, foldl_set_range _ _ hs.prevY1 hA, foldl_set_range _ _ hs.prevY2 hB,
    foldl_modify_range _ _ hs.y1, foldl_modify_range _ _ hs.y2]
  · rfl
  · intro i hi m
    rw [List.mem_range] at hi
    rw [updatePrevYAt, pyGet_getD' (by omega), PyS.lift_ok_bind, PyS.modify_bind, pyGet_getD' (by omega),
      PyS.lift_ok_bind]
    simp only [PyS.modify_bind, PyS.modify_apply, modify_modify]
    rfl

theorem foldl_updatePrevTheta (A : List ℝ) (vs : List ℕ) (m : P1MechModel) :
    vs.foldl (fun (m : P1MechModel) i => { m with prevTheta := m.prevTheta.set i (A.getD i 0) }) m =
    { m with prevTheta := vs.foldl (fun l i => l.set i (A.getD i 0)) m.prevTheta } := by
  induction vs generalizing m with
  | nil => rfl
  | cons a t ih => rw [List.foldl_cons, ih]; rfl

theorem updatePrevTheta_eq {s : P1Mech} {n : ℕ} (hs : s.WF n) {T : List ℝ} (hT : T.length = n) (h0 : ∀ x ∈ T, 0 ≤ x) :
    updatePrevTheta (NdArray.of1 T) s = (.ok (), { s with model := { s.model with prevTheta := T } }) := by
  rw [updatePrevTheta, PyS.get_bind, if_neg (by simp [NdArray.of1, hT, hs.num]), PyS.get_bind, hs.vertices, onModel,
    PyS.onAttr_apply,
    PyS.forEach_ok (fun i (m : P1MechModel) => { m with prevTheta := m.prevTheta.set i (T.getD i 0) }),
    foldl_updatePrevTheta, foldl_set_range _ _ hs.prevTheta hT]
  intro i hi m
  rw [List.mem_range] at hi
  have hT' : 0 ≤ T.getD i 0 := by
    rw [List.getD_eq_getElem?_getD, List.getElem?_eq_getElem (by omega)]
    exact h0 _ (List.getElem_mem _)
  rw [NdArray.get1, show (NdArray.of1 T).data = T from rfl, pyGet_getD' (by omega), PyS.lift_ok_bind, assignNonNeg,
    if_neg (by linarith)]
  rfl

/-- a negative entry makes the update raise; only the previous temperature can have changed -/
theorem updatePrevTheta_neg {s : P1Mech} {n : ℕ} (hs : s.WF n) {T : List ℝ} (hT : T.length = n)
    (h0 : ∃ x ∈ T, x < 0) : ∃ T', T'.length = n ∧
      updatePrevTheta (NdArray.of1 T) s = (.error .valueError, { s with model := { s.model with prevTheta := T' } }) := by
  rw [updatePrevTheta, PyS.get_bind, if_neg (by simp [NdArray.of1, hT, hs.num]), PyS.get_bind, hs.vertices, onModel,
    PyS.onAttr_apply]
  have key : ∀ (vs : List ℕ) (m : P1MechModel), m.prevTheta.length = n → (∀ i ∈ vs, i < n) →
      (∃ i ∈ vs, T.getD i 0 < 0) →
      ∃ T' : List ℝ, T'.length = n ∧ PyS.forEach vs (fun i => (do
        let x ← PyS.lift ((NdArray.of1 T).get1 i)
        assignNonNeg x fun x m => { m with prevTheta := m.prevTheta.set i x } : PyS P1MechModel Unit)) m =
        (.error .valueError, { m with prevTheta := T' }) := by
    intro vs
    induction vs with
    | nil => intro m _ _ h; obtain ⟨i, hi, _⟩ := h; simp at hi
    | cons a t ih =>
      intro m hm hv h
      have ha : a < n := hv a (by simp)
      by_cases hneg : T.getD a 0 < 0
      · refine ⟨m.prevTheta, hm, ?_⟩
        rw [PyS.forEach_cons, PyS.bind_of_err (e := .valueError) (s' := m)]
        rw [NdArray.get1, show (NdArray.of1 T).data = T from rfl, pyGet_getD' (by omega), PyS.lift_ok_bind,
          assignNonNeg, if_pos hneg]; rfl
      · obtain ⟨T', h1, h2⟩ := ih { m with prevTheta := m.prevTheta.set a (T.getD a 0) } (by simpa using hm)
          (fun i hi => hv i (by simp [hi])) (by
            obtain ⟨i, hi, hi'⟩ := h
            rcases List.mem_cons.1 hi with rfl | hi
            · exact absurd hi' hneg
            · exact ⟨i, hi, hi'⟩)
        refine ⟨T', h1, ?_⟩
        rw [PyS.forEach_cons, PyS.bind_of_ok (a := ()) (s' := { m with prevTheta := m.prevTheta.set a (T.getD a 0) }), h2]
        rw [NdArray.get1, show (NdArray.of1 T).data = T from rfl, pyGet_getD' (by omega), PyS.lift_ok_bind,
          assignNonNeg, if_neg hneg]; rfl
  obtain ⟨x, hx, hx0⟩ := h0
  obtain ⟨i, hi, rfl⟩ := List.mem_iff_getElem.1 hx
  obtain ⟨T', h1, h2⟩ := key (List.range n) s.model hs.prevTheta (fun i hi => List.mem_range.1 hi)
    ⟨i, by simpa [hT] using hi, by simpa [List.getD, hi] using hx0⟩
  exact ⟨T', h1, by rw [h2]⟩

/-! #### boundary traction -/

theorem setL_keys {β : Type} (l : List (ℕ × β)) (a : ℕ) (b : β) (h : a ∈ l.map Prod.fst) :
    (PyDict.setL l a b).map Prod.fst = l.map Prod.fst := by
  induction l with
  | nil => simp at h
  | cons p t ih =>
    obtain ⟨k, w⟩ := p
    by_cases hk : k = a
    · simp [PyDict.setL, hk]
    · have : a ∈ t.map Prod.fst := by
        simp only [List.map_cons, List.mem_cons] at h
        exact h.resolve_left (Ne.symm hk)
      simp [PyDict.setL, hk, ih this]

theorem setL_map {β : Type} (nv : List ℕ) (f : ℕ → β) (a : ℕ) (b : β) (ha : a ∈ nv) (hn : nv.Nodup) :
    PyDict.setL (nv.map fun i => (i, f i)) a b = nv.map fun i => (i, if i = a then b else f i) := by
  induction nv with
  | nil => simp at ha
  | cons k t ih =>
    by_cases hk : k = a
    · subst hk
      have hkt := (List.nodup_cons.1 hn).1
      simp only [List.map_cons, PyDict.setL, if_true]
      congr 1
      apply List.map_congr_left
      intro i hi
      rw [if_neg (fun (h : i = k) => hkt (h ▸ hi))]
    · simp only [List.map_cons, PyDict.setL, hk, if_false]
      rw [ih ((List.mem_cons.1 ha).resolve_left (Ne.symm hk)) (List.nodup_cons.1 hn).2]

theorem eq_map_of_keys {β : Type} [Inhabited β] (l : List (ℕ × β)) (hn : (l.map Prod.fst).Nodup) :
    ∃ f : ℕ → β, l = (l.map Prod.fst).map fun i => (i, f i) := by
  induction l with
  | nil => exact ⟨fun _ => default, rfl⟩
  | cons p t ih =>
    obtain ⟨f, hf⟩ := ih (List.nodup_cons.1 hn).2
    refine ⟨fun i => if i = p.1 then p.2 else f i, ?_⟩
    simp only [List.map_cons, if_true]
    congr 1
    conv_lhs => rw [hf]
    apply List.map_congr_left
    intro i hi
    have : i ≠ p.1 := fun h => (List.nodup_cons.1 hn).1 (h ▸ hi)
    rw [if_neg this]

theorem foldl_setL_map {β : Type} (nv vs : List ℕ) (f g : ℕ → β) (hvs : ∀ a ∈ vs, a ∈ nv) (hn : nv.Nodup) :
    vs.foldl (fun l a => PyDict.setL l a (g a)) (nv.map fun i => (i, f i)) =
      nv.map fun i => (i, if i ∈ vs then g i else f i) := by
  induction vs generalizing f with
  | nil => simp
  | cons a t ih =>
    rw [List.foldl_cons, setL_map nv f a (g a) (hvs a (by simp)) hn, ih _ (fun b hb => hvs b (by simp [hb]))]
    apply List.map_congr_left
    intro i hi
    by_cases h1 : i ∈ t
    · simp [h1]
    · by_cases h2 : i = a
      · subst h2; simp [h1]
      · simp [h1, h2]

theorem updateBoundaryTraction_keys {s : P1Mech} (hk1 : s.model.g1.items.map Prod.fst = s.model.neumannVertices)
    (hk2 : s.model.g2.items.map Prod.fst = s.model.neumannVertices) (hn : s.model.neumannVertices.Nodup) {time : ℝ}
    (G1 G2 : ℕ → ℝ)
    (h : ∀ v ∈ s.model.neumannVertices, ∃ p, pointArgs s.grid v = .ok p ∧ s.traction time p.1 p.2 = .ok [G1 v, G2 v]) :
    updateBoundaryTraction time s = (.ok (), { s with model := { s.model with
      g1 := ⟨s.model.neumannVertices.map fun i => (i, G1 i)⟩,
      g2 := ⟨s.model.neumannVertices.map fun i => (i, G2 i)⟩ } }) := by
  rw [updateBoundaryTraction, PyS.get_bind, PyS.get_bind, PyS.get_bind, onModel, PyS.onAttr_apply,
    PyS.forEach_ok (fun i (m : P1MechModel) => { m with g1 := m.g1.set i (G1 i), g2 := m.g2.set i (G2 i) })]
  · have hf : ∀ (vs : List ℕ) (m : P1MechModel),
        vs.foldl (fun (m : P1MechModel) i => { m with g1 := m.g1.set i (G1 i), g2 := m.g2.set i (G2 i) }) m =
        { m with g1 := ⟨vs.foldl (fun l a => PyDict.setL l a (G1 a)) m.g1.items⟩,
                 g2 := ⟨vs.foldl (fun l a => PyDict.setL l a (G2 a)) m.g2.items⟩ } := by
      intro vs
      induction vs with
      | nil => intro m; rfl
      | cons a t ih => intro m; rw [List.foldl_cons, ih]; rfl
    rw [hf]
    obtain ⟨f1, hf1⟩ := eq_map_of_keys s.model.g1.items (by rw [hk1]; exact hn)
    obtain ⟨f2, hf2⟩ := eq_map_of_keys s.model.g2.items (by rw [hk2]; exact hn)
    rw [hk1] at hf1
    rw [hk2] at hf2
    have h1 := foldl_setL_map _ s.model.neumannVertices f1 G1 (fun a ha => ha) hn
    have h2 := foldl_setL_map _ s.model.neumannVertices f2 G2 (fun a ha => ha) hn
    rw [← hf1] at h1
    rw [← hf2] at h2
    rw [h1, h2]
    have e1 : (s.model.neumannVertices.map fun i => (i, if i ∈ s.model.neumannVertices then G1 i else f1 i)) =
        s.model.neumannVertices.map fun i => (i, G1 i) :=
      List.map_congr_left fun i hi => by rw [if_pos hi]
    have e2 : (s.model.neumannVertices.map fun i => (i, if i ∈ s.model.neumannVertices then G2 i else f2 i)) =
        s.model.neumannVertices.map fun i => (i, G2 i) :=
      List.map_congr_left fun i hi => by rw [if_pos hi]
    rw [e1, e2]
  · intro v hv m
    obtain ⟨p, h1, h2⟩ := h v hv
    rw [updateTractionAt, h1, PyS.lift_ok_bind]
    simp only
    rw [h2, PyS.lift_ok_bind]
    rfl

theorem updateBoundaryTraction_eq {s : P1Mech} {n : ℕ} (hs : s.WF n) {time : ℝ} (G1 G2 : ℕ → ℝ)
    (h : ∀ v ∈ s.model.neumannVertices, ∃ p, pointArgs s.grid v = .ok p ∧ s.traction time p.1 p.2 = .ok [G1 v, G2 v]) :
    updateBoundaryTraction time s = (.ok (), { s with model := { s.model with
      g1 := ⟨s.model.neumannVertices.map fun i => (i, G1 i)⟩,
      g2 := ⟨s.model.neumannVertices.map fun i => (i, G2 i)⟩ } }) :=
  updateBoundaryTraction_keys hs.g1 hs.g2 hs.nodup G1 G2 h

/-! #### the shape invariant survives every method, also when it raises -/

theorem WF.of_model {s : P1Mech} {n : ℕ} (hs : s.WF n) {m : P1MechModel} (hm : m.WF n) (hg : m.grid = s.model.grid) :
    ({ s with model := m } : P1Mech).WF n := ⟨hm, hs.num, by rw [hs.grid]; exact hg.symm⟩

theorem WF.updatePrevY {s : P1Mech} {n : ℕ} (hs : s.WF n) {a : NdArray} (ha : a.Ok) :
    (P1Mech.updatePrevY a s).2.WF n := by
  by_cases h : a.shape = [s.numVertices, 2]
  · rw [hs.num] at h
    obtain ⟨A, B, hA, hB, rfl⟩ := NdArray.exists_cols ⟨h, ha⟩ hs.pos
    rw [updatePrevY_eq hs hA hB]
    exact hs.of_model ⟨hs.pos, hs.vertices, hA, hB, hs.prevTheta, by simpa [length_recentre] using hs.y1,
      by simpa [length_recentre] using hs.y2, hs.nv, hs.g1, hs.g2⟩ rfl
  · rw [updatePrevY_shape h]; exact hs

theorem WF.updatePrevTheta {s : P1Mech} {n : ℕ} (hs : s.WF n) {a : NdArray} (ha : a.Ok) :
    (P1Mech.updatePrevTheta a s).2.WF n := by
  by_cases h : a.shape = [s.numVertices]
  · rw [hs.num] at h
    obtain ⟨h1, h2⟩ := NdArray.of1_data ⟨h, ha⟩
    rw [← h1]
    by_cases h0 : ∀ x ∈ a.data, 0 ≤ x
    · rw [updatePrevTheta_eq hs h2 h0]
      exact hs.of_model ⟨hs.pos, hs.vertices, hs.prevY1, hs.prevY2, h2, hs.y1, hs.y2, hs.nv, hs.g1, hs.g2⟩ rfl
    · push Not at h0
      obtain ⟨T', h3, h4⟩ := updatePrevTheta_neg hs h2 h0
      rw [h4]
      exact hs.of_model ⟨hs.pos, hs.vertices, hs.prevY1, hs.prevY2, h3, hs.y1, hs.y2, hs.nv, hs.g1, hs.g2⟩ rfl
  · rw [updatePrevTheta_shape h]; exact hs

/-- whatever the traction does, only the two traction parameters can change, and they keep their index set -/
theorem updateBoundaryTraction_any {s : P1Mech} {n : ℕ} (hs : s.WF n) (time : ℝ) :
    ∃ g1 g2 : PyDict Vertex ℝ, g1.items.map Prod.fst = s.model.neumannVertices ∧
      g2.items.map Prod.fst = s.model.neumannVertices ∧
      (updateBoundaryTraction time s).2 = { s with model := { s.model with g1 := g1, g2 := g2 } } := by
  rw [updateBoundaryTraction, PyS.get_bind, PyS.get_bind, PyS.get_bind, onModel, PyS.onAttr_apply]
  have := PyS.forEach_inv (l := s.model.neumannVertices) (f := updateTractionAt s.traction s.grid time)
    (fun m => ∃ g1 g2 : PyDict Vertex ℝ, g1.items.map Prod.fst = s.model.neumannVertices ∧
      g2.items.map Prod.fst = s.model.neumannVertices ∧ m = { s.model with g1 := g1, g2 := g2 })
    (by
      rintro i hi m ⟨g1, g2, h1, h2, rfl⟩
      rw [updateTractionAt, PyS.bind_apply, PyS.lift_apply]
      rcases pointArgs s.grid i with e | p
      · exact ⟨g1, g2, h1, h2, rfl⟩
      · simp only
        rw [PyS.bind_apply, PyS.lift_apply]
        rcases s.traction time p.1 p.2 with e | t
        · exact ⟨g1, g2, h1, h2, rfl⟩
        · simp only
          split
          · refine ⟨_, _, ?_, ?_, rfl⟩
            · exact (setL_keys _ _ _ (by rw [h1]; exact hi)).trans h1
            · exact (setL_keys _ _ _ (by rw [h2]; exact hi)).trans h2
          · exact ⟨g1, g2, h1, h2, rfl⟩)
    s.model ⟨s.model.g1, s.model.g2, hs.g1, hs.g2, rfl⟩
  obtain ⟨g1, g2, h1, h2, h3⟩ := this
  exact ⟨g1, g2, h1, h2, by rw [h3]⟩

theorem WF.updateBoundaryTraction {s : P1Mech} {n : ℕ} (hs : s.WF n) (time : ℝ) :
    (P1Mech.updateBoundaryTraction time s).2.WF n := by
  obtain ⟨g1, g2, h1, h2, h3⟩ := updateBoundaryTraction_any hs time
  rw [h3]
  exact hs.of_model ⟨hs.pos, hs.vertices, hs.prevY1, hs.prevY2, hs.prevTheta, hs.y1, hs.y2, hs.nv, h1, h2⟩ rfl

end P1Mech

/-! ### with regularization -/

/-- shape invariant of the model with regularization -/
structure RegMechModel.WF (m : RegMechModel) (n k : ℕ) : Prop where
  pos : 0 < n
  vertices : m.grid.vertices.length = n
  fine : m.refined.toGrid.vertices.length = k
  prevY1 : m.prevY1.length = n ∧ ∀ x ∈ m.prevY1, x.length = 6
  prevY2 : m.prevY2.length = n ∧ ∀ x ∈ m.prevY2, x.length = 6
  prevTheta : m.prevTheta.length = k
  y1 : m.y1.length = n ∧ ∀ x ∈ m.y1, x.length = 6
  y2 : m.y2.length = n ∧ ∀ x ∈ m.y2, x.length = 6

/-- shape invariant of the step with regularization -/
structure RegMech.WF (s : RegMech) (n k : ℕ) : Prop extends s.model.WF n k where
  num : s.numVertices = n

namespace RegMech

theorem updatePrevY_shape {s : RegMech} {a : NdArray} (h : a.shape ≠ [s.model.grid.vertices.length, 2, 6]) :
    updatePrevY a s = (.error .valueError, s) := by
  rw [updatePrevY, PyS.get_bind, if_pos h]; rfl

theorem updatePrevTheta_shape {s : RegMech} {a : NdArray} (h : a.shape ≠ [s.model.refined.toGrid.vertices.length]) :
    updatePrevTheta a s = (.error .valueError, s) := by
  rw [updatePrevTheta, PyS.get_bind, if_pos h]; rfl

theorem foldl_rangeSet {α : Type} (n : ℕ) (f : α → ℕ → α) (a : α) :
    (rangeSet n).foldl f a = (List.range n).foldl (fun a i => f a (i + 1)) a := by
  rw [rangeSet, List.foldl_map]

/-- a double loop over the members of a doubly indexed component -/
theorem foldl_set2 {α : Type} (f : ℕ → ℕ → α → α) (l : List (List α)) {n : ℕ} (h : l.length = n)
    (h6 : ∀ x ∈ l, x.length = 6) :
    (rangeSet n).foldl (fun l i => (rangeSet 6).foldl (fun l j => set2 l i j (f (i - 1) (j - 1))) l) l =
      l.mapIdx fun i row => row.mapIdx fun j x => f i j x := by
  rw [foldl_rangeSet]
  have : ∀ i : ℕ, ∀ l : List (List α),
      (rangeSet 6).foldl (fun l j => set2 l (i + 1) j (f (i + 1 - 1) (j - 1))) l =
      l.modify i fun row => (List.range 6).foldl (fun row j => row.modify j (f i j)) row := by
    intro i l
    rw [foldl_rangeSet]
    exact foldl_modify_same i (fun j row => row.modify j (f i j)) (List.range 6) l
  simp only [this]
  rw [foldl_modify_range (fun i row => (List.range 6).foldl (fun row j => row.modify j (f i j)) row) _ h]
  apply List.ext_getElem
  · simp
  · intro i h1 h2
    simp only [List.getElem_mapIdx]
    have h3 : i < l.length := by simpa using h1
    exact foldl_modify_range _ _ (h6 _ (List.getElem_mem h3))

theorem mapIdx_const {A : List (List ℝ)} {l : List (List ℝ)} (h : A.length = l.length)
    (hA : ∀ x ∈ A, x.length = 6) (hl : ∀ x ∈ l, x.length = 6) :
    (l.mapIdx fun i row => row.mapIdx fun j _ => (A.getD i []).getD j 0) = A := by
  apply List.ext_getElem
  · simp [h]
  · intro i h1 h2
    have h3 : i < l.length := by omega
    simp only [List.getElem_mapIdx]
    apply List.ext_getElem
    · simp [hl _ (List.getElem_mem h3), hA _ (List.getElem_mem h2)]
    · intro j h4 h5
      simp [List.getD, h2, h5]

/-- nested loops whose bodies never raise -/
theorem forEach_forEach_ok {σ ι κ : Type} {l : List ι} {l' : List κ} {f : ι → κ → PyS σ Unit} (g : ι → κ → σ → σ)
    (h : ∀ i ∈ l, ∀ j ∈ l', ∀ s, f i j s = (.ok (), g i j s)) (s : σ) :
    PyS.forEach l (fun i => PyS.forEach l' fun j => f i j) s =
      (.ok (), l.foldl (fun s i => l'.foldl (fun s j => g i j s) s) s) :=
  PyS.forEach_ok (fun i s => l'.foldl (fun s j => g i j s) s)
    (fun i hi s => PyS.forEach_ok (g i) (fun j hj s => h i hi j hj s) s) s

theorem updatePrevY_eq {s : RegMech} {n k : ℕ} (hs : s.WF n k) {A B : List (List ℝ)} (hA : A.length = n)
    (hB : B.length = n) (hA6 : ∀ x ∈ A, x.length = 6) (hB6 : ∀ x ∈ B, x.length = 6) :
    updatePrevY (pairs A B) s = (.ok (), { s with model := { s.model with
      prevY1 := A, prevY2 := B, y1 := recentre2 s.searchRadius A s.model.y1,
      y2 := recentre2 s.searchRadius B s.model.y2 } }) := by
  have hh := NdArray.has_pairs3 hA hB hA6 hB6 hs.pos
  have hc := NdArray.block_pairs hA hB hA6 hB6 hs.pos
  set r := s.searchRadius with hr
  set a : ℕ → ℕ → ℝ := fun i j => (A.getD i []).getD j 0 with ha
  set b : ℕ → ℕ → ℝ := fun i j => (B.getD i []).getD j 0 with hb
  rw [updatePrevY, PyS.get_bind, if_neg (by rw [hh.1, hs.vertices]; simp), hc.1, PyS.lift_ok_bind, hc.2,
    PyS.lift_ok_bind, PyS.get_bind, onModel, PyS.onAttr_apply,
    forEach_forEach_ok (fun i j (m : RegMechModel) =>
      { m with
        prevY1 := set2 m.prevY1 i j fun _ => a (i - 1) (j - 1), prevY2 := set2 m.prevY2 i j fun _ => b (i - 1) (j - 1),
        y1 := set2 m.y1 i j fun v => ⟨a (i - 1) (j - 1), a (i - 1) (j - 1) - r, a (i - 1) (j - 1) + r, v.fixed⟩,
        y2 := set2 m.y2 i j fun v => ⟨b (i - 1) (j - 1), b (i - 1) (j - 1) - r, b (i - 1) (j - 1) + r, v.fixed⟩ })]
  · have inner : ∀ (i : ℕ) (js : List ℕ) (m : RegMechModel),
        js.foldl (fun (m : RegMechModel) j => { m with
          prevY1 := set2 m.prevY1 i j fun _ => a (i - 1) (j - 1), prevY2 := set2 m.prevY2 i j fun _ => b (i - 1) (j - 1),
          y1 := set2 m.y1 i j fun v => ⟨a (i - 1) (j - 1), a (i - 1) (j - 1) - r, a (i - 1) (j - 1) + r, v.fixed⟩,
          y2 := set2 m.y2 i j fun v => ⟨b (i - 1) (j - 1), b (i - 1) (j - 1) - r, b (i - 1) (j - 1) + r, v.fixed⟩ }) m =
        { m with
          prevY1 := js.foldl (fun l j => set2 l i j fun _ => a (i - 1) (j - 1)) m.prevY1
          prevY2 := js.foldl (fun l j => set2 l i j fun _ => b (i - 1) (j - 1)) m.prevY2
          y1 := js.foldl (fun l j => set2 l i j fun v =>
            ⟨a (i - 1) (j - 1), a (i - 1) (j - 1) - r, a (i - 1) (j - 1) + r, v.fixed⟩) m.y1
          y2 := js.foldl (fun l j => set2 l i j fun v =>
            ⟨b (i - 1) (j - 1), b (i - 1) (j - 1) - r, b (i - 1) (j - 1) + r, v.fixed⟩) m.y2 } := by
      intro i js
      induction js with
      | nil => intro m; rfl
      | cons x t ih => intro m; rw [List.foldl_cons, ih]; rfl
    have outer : ∀ (is js : List ℕ) (m : RegMechModel),
        is.foldl (fun (m : RegMechModel) i => js.foldl (fun (m : RegMechModel) j => { m with
          prevY1 := set2 m.prevY1 i j fun _ => a (i - 1) (j - 1), prevY2 := set2 m.prevY2 i j fun _ => b (i - 1) (j - 1),
          y1 := set2 m.y1 i j fun v => ⟨a (i - 1) (j - 1), a (i - 1) (j - 1) - r, a (i - 1) (j - 1) + r, v.fixed⟩,
          y2 := set2 m.y2 i j fun v => ⟨b (i - 1) (j - 1), b (i - 1) (j - 1) - r, b (i - 1) (j - 1) + r, v.fixed⟩ }) m) m =
        { m with
          prevY1 := is.foldl (fun l i => js.foldl (fun l j => set2 l i j fun _ => a (i - 1) (j - 1)) l) m.prevY1
          prevY2 := is.foldl (fun l i => js.foldl (fun l j => set2 l i j fun _ => b (i - 1) (j - 1)) l) m.prevY2
          y1 := is.foldl (fun l i => js.foldl (fun l j => set2 l i j fun v =>
            ⟨a (i - 1) (j - 1), a (i - 1) (j - 1) - r, a (i - 1) (j - 1) + r, v.fixed⟩) l) m.y1
          y2 := is.foldl (fun l i => js.foldl (fun l j => set2 l i j fun v =>
            ⟨b (i - 1) (j - 1), b (i - 1) (j - 1) - r, b (i - 1) (j - 1) + r, v.fixed⟩) l) m.y2 } := by
      intro is js
      induction is with
      | nil => intro m; rfl
      | cons x t ih => intro m; rw [List.foldl_cons, ih, inner]; rfl
    rw [outer, hs.vertices, foldl_set2 (fun i j _ => a i j) _ hs.prevY1.1 hs.prevY1.2,
      foldl_set2 (fun i j _ => b i j) _ hs.prevY2.1 hs.prevY2.2,
      foldl_set2 (fun i j v => ⟨a i j, a i j - r, a i j + r, v.fixed⟩) _ hs.y1.1 hs.y1.2,
      foldl_set2 (fun i j v => ⟨b i j, b i j - r, b i j + r, v.fixed⟩) _ hs.y2.1 hs.y2.2,
      mapIdx_const (hA.trans hs.prevY1.1.symm) hA6 hs.prevY1.2, mapIdx_const (hB.trans hs.prevY2.1.symm) hB6 hs.prevY2.2]
    rfl
  · intro i hi j hj m
    obtain ⟨i', hi', rfl⟩ := List.mem_map.1 hi
    obtain ⟨j', hj', rfl⟩ := List.mem_map.1 hj
    rw [List.mem_range, hs.vertices] at hi'
    rw [List.mem_range] at hj'
    have e1 : pyGet A i' = .ok (A.getD i' []) := by
      rw [pyGet_ok (by omega)]; simp [List.getD, hA, hi']
    have e2 : pyGet B i' = .ok (B.getD i' []) := by
      rw [pyGet_ok (by omega)]; simp [List.getD, hB, hi']
    have l1 : (A.getD i' []).length = 6 := by
      rw [List.getD_eq_getElem?_getD, List.getElem?_eq_getElem (by omega)]; exact hA6 _ (List.getElem_mem _)
    have l2 : (B.getD i' []).length = 6 := by
      rw [List.getD_eq_getElem?_getD, List.getElem?_eq_getElem (by omega)]; exact hB6 _ (List.getElem_mem _)
    rw [updatePrevYAt, Nat.add_sub_cancel, Nat.add_sub_cancel, e1, PyS.lift_ok_bind, pyGet_getD' (by omega),
      PyS.lift_ok_bind, PyS.modify_bind, e2, PyS.lift_ok_bind, pyGet_getD' (by omega), PyS.lift_ok_bind]
    have hset : ∀ (l : List (List VarData)) (f g : VarData → VarData),
        set2 (set2 l (i' + 1) (j' + 1) f) (i' + 1) (j' + 1) g = set2 l (i' + 1) (j' + 1) (g ∘ f) := by
      intro l f g
      simp only [set2]
      rw [P1Mech.modify_modify]
      congr 1
      funext row
      exact P1Mech.modify_modify row _ f g
    simp only [PyS.modify_bind, PyS.modify_apply, hset]
    rfl

theorem updatePrevTheta_loop {T : List ℝ} {k : ℕ} (hT : T.length = k) (m : RegMechModel)
    (hm : m.prevTheta.length = k) (h0 : ∀ x ∈ T, 0 ≤ x) :
    PyS.forEach (rangeSet k) (fun i => (do
      let x ← PyS.lift ((NdArray.of1 T).get1 (i - 1))
      assignNonNeg x fun x m => { m with prevTheta := m.prevTheta.set (i - 1) x } : PyS RegMechModel Unit)) m =
      (.ok (), { m with prevTheta := T }) := by
  rw [PyS.forEach_ok (fun i (m : RegMechModel) => { m with prevTheta := m.prevTheta.set (i - 1) (T.getD (i - 1) 0) })]
  · have : ∀ (vs : List ℕ) (m : RegMechModel),
        vs.foldl (fun (m : RegMechModel) i => { m with prevTheta := m.prevTheta.set (i - 1) (T.getD (i - 1) 0) }) m =
        { m with prevTheta := vs.foldl (fun l i => l.set (i - 1) (T.getD (i - 1) 0)) m.prevTheta } := by
      intro vs
      induction vs with
      | nil => intro m; rfl
      | cons a t ih => intro m; rw [List.foldl_cons, ih]; rfl
    rw [this, foldl_rangeSet]
    simp only [Nat.add_sub_cancel]
    rw [foldl_set_range _ _ hm hT]
  · intro i hi m
    obtain ⟨i, hi', rfl⟩ := List.mem_map.1 hi
    rw [List.mem_range] at hi'
    have hT' : 0 ≤ T.getD i 0 := by
      rw [List.getD_eq_getElem?_getD, List.getElem?_eq_getElem (by omega)]
      exact h0 _ (List.getElem_mem _)
    rw [NdArray.get1, show (NdArray.of1 T).data = T from rfl, Nat.add_sub_cancel, pyGet_getD' (by omega),
      PyS.lift_ok_bind, assignNonNeg, if_neg (by linarith)]
    rfl

theorem updatePrevTheta_eq {s : RegMech} {n k : ℕ} (hs : s.WF n k) {T : List ℝ} (hT : T.length = k)
    (h0 : ∀ x ∈ T, 0 ≤ x) :
    updatePrevTheta (NdArray.of1 T) s = (.ok (), { s with model := { s.model with prevTheta := T } }) := by
  rw [updatePrevTheta, PyS.get_bind, if_neg (by simp [NdArray.of1, hT, hs.fine]), onModel, PyS.onAttr_apply, hs.fine,
    updatePrevTheta_loop hT _ hs.prevTheta h0]

theorem updatePrevTheta_neg {s : RegMech} {n k : ℕ} (hs : s.WF n k) {T : List ℝ} (hT : T.length = k)
    (h0 : ∃ x ∈ T, x < 0) : ∃ T', T'.length = k ∧
      updatePrevTheta (NdArray.of1 T) s = (.error .valueError, { s with model := { s.model with prevTheta := T' } }) := by
  rw [updatePrevTheta, PyS.get_bind, if_neg (by simp [NdArray.of1, hT, hs.fine]), onModel, PyS.onAttr_apply, hs.fine]
  have key : ∀ (vs : List ℕ) (m : RegMechModel), m.prevTheta.length = k → (∀ i ∈ vs, i - 1 < k) →
      (∃ i ∈ vs, T.getD (i - 1) 0 < 0) →
      ∃ T' : List ℝ, T'.length = k ∧ PyS.forEach vs (fun i => (do
        let x ← PyS.lift ((NdArray.of1 T).get1 (i - 1))
        assignNonNeg x fun x m => { m with prevTheta := m.prevTheta.set (i - 1) x } : PyS RegMechModel Unit)) m =
        (.error .valueError, { m with prevTheta := T' }) := by
    intro vs
    induction vs with
    | nil => intro m _ _ h; obtain ⟨i, hi, _⟩ := h; simp at hi
    | cons a t ih =>
      intro m hm hv h
      have ha : a - 1 < k := hv a (by simp)
      by_cases hneg : T.getD (a - 1) 0 < 0
      · refine ⟨m.prevTheta, hm, ?_⟩
        rw [PyS.forEach_cons, PyS.bind_of_err (e := .valueError) (s' := m)]
        rw [NdArray.get1, show (NdArray.of1 T).data = T from rfl, pyGet_getD' (by omega), PyS.lift_ok_bind,
          assignNonNeg, if_pos hneg]; rfl
      · obtain ⟨T', h1, h2⟩ := ih { m with prevTheta := m.prevTheta.set (a - 1) (T.getD (a - 1) 0) } (by simpa using hm)
          (fun i hi => hv i (by simp [hi])) (by
            obtain ⟨i, hi, hi'⟩ := h
            rcases List.mem_cons.1 hi with rfl | hi
            · exact absurd hi' hneg
            · exact ⟨i, hi, hi'⟩)
        refine ⟨T', h1, ?_⟩
        rw [PyS.forEach_cons,
          PyS.bind_of_ok (a := ()) (s' := { m with prevTheta := m.prevTheta.set (a - 1) (T.getD (a - 1) 0) }), h2]
        rw [NdArray.get1, show (NdArray.of1 T).data = T from rfl, pyGet_getD' (by omega), PyS.lift_ok_bind,
          assignNonNeg, if_neg hneg]; rfl
  obtain ⟨x, hx, hx0⟩ := h0
  obtain ⟨i, hi, rfl⟩ := List.mem_iff_getElem.1 hx
  obtain ⟨T', h1, h2⟩ := key (rangeSet k) s.model hs.prevTheta
    (fun i hi => by obtain ⟨j, hj, rfl⟩ := List.mem_map.1 hi; rw [List.mem_range] at hj; omega)
    ⟨i + 1, List.mem_map.2 ⟨i, by simpa [hT] using hi, rfl⟩, by simpa [List.getD, hi] using hx0⟩
  exact ⟨T', h1, by rw [h2]⟩

theorem WF.of_model {s : RegMech} {n k : ℕ} (hs : s.WF n k) {m : RegMechModel} (hm : m.WF n k) :
    ({ s with model := m } : RegMech).WF n k := ⟨hm, hs.num⟩

theorem recentre2_shape {r : ℝ} {A : List (List ℝ)} {l : List (List VarData)} {n : ℕ} (h : l.length = n)
    (h6 : ∀ x ∈ l, x.length = 6) : (recentre2 r A l).length = n ∧ ∀ x ∈ recentre2 r A l, x.length = 6 := by
  refine ⟨by simpa [recentre2] using h, ?_⟩
  intro x hx
  rw [recentre2, List.mem_mapIdx] at hx
  obtain ⟨i, hi, rfl⟩ := hx
  rw [length_recentre]
  exact h6 _ (List.getElem_mem _)

theorem WF.updatePrevY {s : RegMech} {n k : ℕ} (hs : s.WF n k) {a : NdArray} (ha : a.Ok) :
    (RegMech.updatePrevY a s).2.WF n k := by
  by_cases h : a.shape = [s.model.grid.vertices.length, 2, 6]
  · rw [hs.vertices] at h
    obtain ⟨A, B, hA, hB, hA6, hB6, rfl⟩ := NdArray.exists_blocks ⟨h, ha⟩ hs.pos
    rw [updatePrevY_eq hs hA hB hA6 hB6]
    exact hs.of_model ⟨hs.pos, hs.vertices, hs.fine, ⟨hA, hA6⟩, ⟨hB, hB6⟩, hs.prevTheta,
      recentre2_shape hs.y1.1 hs.y1.2, recentre2_shape hs.y2.1 hs.y2.2⟩
  · rw [updatePrevY_shape h]; exact hs

theorem WF.updatePrevTheta {s : RegMech} {n k : ℕ} (hs : s.WF n k) {a : NdArray} (ha : a.Ok) :
    (RegMech.updatePrevTheta a s).2.WF n k := by
  by_cases h : a.shape = [s.model.refined.toGrid.vertices.length]
  · rw [hs.fine] at h
    obtain ⟨h1, h2⟩ := NdArray.of1_data ⟨h, ha⟩
    rw [← h1]
    by_cases h0 : ∀ x ∈ a.data, 0 ≤ x
    · rw [updatePrevTheta_eq hs h2 h0]
      exact hs.of_model ⟨hs.pos, hs.vertices, hs.fine, hs.prevY1, hs.prevY2, h2, hs.y1, hs.y2⟩
    · push Not at h0
      obtain ⟨T', h3, h4⟩ := updatePrevTheta_neg hs h2 h0
      rw [h4]
      exact hs.of_model ⟨hs.pos, hs.vertices, hs.fine, hs.prevY1, hs.prevY2, h3, hs.y1, hs.y2⟩
  · rw [updatePrevTheta_shape h]; exact hs

end RegMech

end Tve
