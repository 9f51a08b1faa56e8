import Verif.Spec.Steps
import Verif.Lemmas.StepNew

/-! The steps through their interface, independent of regularization. -/

namespace Tve

/-! ### lists in pairs -/

section
variable {α β : Type}

@[simp] theorem interleave_nil (b : List α) : interleave [] b = [] := rfl

@[simp] theorem interleave_cons (x y : α) (a b : List α) : interleave (x :: a) (y :: b) = x :: y :: interleave a b := rfl

theorem interleave_map (f : α → β) (a b : List α) : (interleave a b).map f = interleave (a.map f) (b.map f) := by
  induction a generalizing b with
  | nil => rfl
  | cons x a ih => cases b with
    | nil => rfl
    | cons y b => simp [ih]

theorem interleave_forall₂ {R : α → β → Prop} {a b : List α} {c d : List β} (h1 : List.Forall₂ R a c)
    (h2 : List.Forall₂ R b d) : List.Forall₂ R (interleave a b) (interleave c d) := by
  induction h1 generalizing b d with
  | nil => simp
  | cons h1 _ ih => cases h2 with
    | nil => simp [interleave]
    | cons h2 h2' => exact .cons h1 (.cons h2 (ih h2'))

theorem forall₂_flatten {R : α → β → Prop} {a : List (List α)} {b : List (List β)}
    (h : List.Forall₂ (List.Forall₂ R) a b) : List.Forall₂ R a.flatten b.flatten := by
  induction h with
  | nil => simp
  | cons h _ ih => exact List.rel_append h ih

theorem of2_data (rows : List (List ℝ)) : (NdArray.of2 rows).data = rows.flatten := by cases rows <;> rfl

theorem of3_data (rows : List (List (List ℝ))) : (NdArray.of3 rows).data = rows.flatten.flatten := by cases rows <;> rfl

theorem pairs_data (a b : List ℝ) : (P1Mech.pairs a b).data = interleave a b := of2_data _

theorem pairs3_data (a b : List (List ℝ)) : (RegMech.pairs a b).data = (interleave a b).flatten := of3_data _

theorem forall₂_recentre {r : ℝ} {A : List ℝ} {l : List VarData} (h : A.length = l.length) :
    List.Forall₂ (fun v x => v.Around x r) (recentre r A l) A := by
  rw [List.forall₂_iff_get]
  refine ⟨by simp [recentre, h], fun i h1 h2 => ?_⟩
  simp [recentre, VarData.Around, List.getD, h2]

theorem map_fixed_recentre (r : ℝ) (A : List ℝ) (l : List VarData) :
    (recentre r A l).map VarData.fixed = l.map VarData.fixed := by
  apply List.ext_getElem
  · simp [recentre]
  · intro i h1 h2; simp [recentre]

theorem forall₂_recentre2 {r : ℝ} {A : List (List ℝ)} {l : List (List VarData)} (h : A.length = l.length)
    (hA : ∀ x ∈ A, x.length = 6) (hl : ∀ x ∈ l, x.length = 6) :
    List.Forall₂ (List.Forall₂ fun v x => v.Around x r) (recentre2 r A l) A := by
  rw [List.forall₂_iff_get]
  refine ⟨by simp [recentre2, h], fun i h1 h2 => ?_⟩
  have h3 : i < l.length := by omega
  simp only [recentre2, List.get_eq_getElem, List.getElem_mapIdx]
  rw [show A.getD i [] = A[i] by simp [List.getD, h2]]
  exact forall₂_recentre (by rw [hA _ (List.getElem_mem h2), hl _ (List.getElem_mem h3)])

theorem map_fixed_recentre2 (r : ℝ) (A : List (List ℝ)) (l : List (List VarData)) :
    (recentre2 r A l).map (List.map VarData.fixed) = l.map (List.map VarData.fixed) := by
  apply List.ext_getElem
  · simp [recentre2]
  · intro i h1 h2; simp [recentre2, map_fixed_recentre]

theorem flatten_interleave_map (f : α → β) (a b : List (List α)) :
    (interleave a b).flatten.map f = (interleave (a.map (List.map f)) (b.map (List.map f))).flatten := by
  rw [List.map_flatten, interleave_map]

theorem varValues_loadVars (f : ℕ → ℝ) (l : List VarData) : varValues (loadVars f l) = l.mapIdx fun i _ => f i := by
  apply List.ext_getElem
  · simp [varValues, loadVars]
  · intro i h1 h2; simp [varValues, loadVars, VarData.assign]

theorem varValues2_loadVars2 (f : ℕ → ℕ → ℝ) (l : List (List VarData)) :
    varValues2 (loadVars2 f l) = l.mapIdx fun i row => row.mapIdx fun j _ => f i j := by
  apply List.ext_getElem
  · simp [varValues2, loadVars2]
  · intro i h1 h2; simp [varValues2, loadVars2, varValues_loadVars]

theorem map_fixed_loadVars (f : ℕ → ℝ) (l : List VarData) : (loadVars f l).map VarData.fixed = l.map VarData.fixed := by
  apply List.ext_getElem
  · simp [loadVars]
  · intro i h1 h2; simp [loadVars, VarData.assign]

theorem map_fixed_loadVars2 (f : ℕ → ℕ → ℝ) (l : List (List VarData)) :
    (loadVars2 f l).map (List.map VarData.fixed) = l.map (List.map VarData.fixed) := by
  apply List.ext_getElem
  · simp [loadVars2]
  · intro i h1 h2; simp [loadVars2, map_fixed_loadVars]

theorem loadVars2_shape {f : ℕ → ℕ → ℝ} {l : List (List VarData)} {n : ℕ} (h : l.length = n ∧ ∀ x ∈ l, x.length = 6) :
    (loadVars2 f l).length = n ∧ ∀ x ∈ loadVars2 f l, x.length = 6 := by
  refine ⟨by simp [loadVars2, h.1], fun x hx => ?_⟩
  obtain ⟨i, hi, rfl⟩ := List.mem_iff_getElem.1 hx
  have hi' : i < l.length := by simpa [loadVars2] using hi
  simp only [loadVars2, List.getElem_mapIdx, loadVars, List.length_mapIdx]
  exact h.2 _ (List.getElem_mem hi')

theorem varValues2_shape {l : List (List VarData)} {n : ℕ} (h : l.length = n ∧ ∀ x ∈ l, x.length = 6) :
    (varValues2 l).length = n ∧ ∀ x ∈ varValues2 l, x.length = 6 := by
  refine ⟨by simp [varValues2, h.1], fun x hx => ?_⟩
  obtain ⟨y, hy, rfl⟩ := List.mem_map.1 hx
  simp [varValues, h.2 y hy]

end

namespace PyS

theorem forEach_each {σ ι : Type} {l : List ι} {f : ι → PyS σ Unit} {s s' : σ} (h : forEach l f s = (.ok (), s')) :
    ∀ i ∈ l, ∃ s1 s2, f i s1 = (.ok (), s2) := by
  induction l generalizing s with
  | nil => simp
  | cons a t ih =>
    rw [forEach_cons, bind_apply] at h
    rcases hf : f a s with ⟨e | u, s1⟩
    · rw [hf] at h; simp at h
    · rw [hf] at h
      intro i hi
      rcases List.mem_cons.1 hi with rfl | hi
      · exact ⟨s, s1, hf⟩
      · exact ih h i hi

end PyS

/-! ### mechanical steps -/

/-- well-formed step whose deformation has shape `ys` and whose temperature has shape `ts` -/
def MechStep.WF (m : MechStep) (ys ts : List ℕ) : Prop :=
  match m with
  | .p1 s => ∃ n, s.WF n ∧ ys = [n, 2] ∧ ts = [n]
  | .reg s => ∃ n k, s.WF n k ∧ ys = [n, 2, 6] ∧ ts = [k]

theorem getL_map_nat (l : List ℕ) (G : ℕ → ℝ) {v : ℕ} (h : v ∈ l) :
    PyDict.get? (⟨l.map fun i => (i, G i)⟩ : PyDict ℕ ℝ) v = some (G v) := by
  show PyDict.getL _ v = _
  induction l with
  | nil => simp at h
  | cons a t ih =>
    rw [List.map_cons, PyDict.getL]
    by_cases ha : a = v
    · subst ha; simp
    · rw [if_neg ha, ih ((List.mem_cons.1 h).resolve_left (Ne.symm ha))]

theorem pointArgs_at {g : Grid ℝ} {v : Vertex} {x y : ℝ} (h : pointArgs g v = .ok (x, y)) : g.At v (x, y) := by
  rw [pointArgs, bind_eq_ok] at h
  obtain ⟨⟨d⟩, hp, h⟩ := h
  rw [pyGet_eq_ok] at hp
  simp only at h
  split at h
  · simp only [Except.ok.injEq, Prod.mk.injEq] at h
    obtain ⟨rfl, rfl⟩ := h
    exact hp
  · cases h

/-- if the update succeeds, the traction is defined at all Neumann vertices and its values are stored -/
theorem P1Mech.updateBoundaryTraction_of_ok {s s' : P1Mech} {n : ℕ} (hs : s.WF n) {time : ℝ}
    (h : updateBoundaryTraction time s = (.ok (), s')) :
    ∀ v ∈ s.model.grid.neumann.vertices, ∃ q a b, s.grid.At v q ∧ s.traction time q.1 q.2 = .ok [a, b] ∧
      s'.model.g1.get? v = some a ∧ s'.model.g2.get? v = some b := by
  have h' := h
  rw [updateBoundaryTraction, PyS.get_bind, PyS.get_bind, PyS.get_bind, onModel, PyS.onAttr_apply] at h
  have h1 : (PyS.forEach s.model.neumannVertices (updateTractionAt s.traction s.grid time) s.model).1 = .ok () :=
    congrArg Prod.fst h
  have each := PyS.forEach_each (s' := (PyS.forEach s.model.neumannVertices
    (updateTractionAt s.traction s.grid time) s.model).2) (Prod.ext h1 rfl)
  have key : ∀ v ∈ s.model.neumannVertices, ∃ p a b, pointArgs s.grid v = .ok p ∧ s.traction time p.1 p.2 = .ok [a, b] := by
    intro v hv
    obtain ⟨s1, s2, e⟩ := each v hv
    rw [updateTractionAt, PyS.bind_apply, PyS.lift_apply] at e
    rcases hp : pointArgs s.grid v with er | p
    · rw [hp] at e; simp at e
    · rw [hp] at e
      simp only at e
      rw [PyS.bind_apply, PyS.lift_apply] at e
      rcases ht : s.traction time p.1 p.2 with er | t
      · rw [ht] at e; simp at e
      · rw [ht] at e
        simp only at e
        split at e
        · exact ⟨p, _, _, rfl, ht⟩
        · simp at e
  classical
  let G1 : ℕ → ℝ := fun v => if hv : v ∈ s.model.neumannVertices then (key v hv).choose_spec.choose else 0
  let G2 : ℕ → ℝ := fun v => if hv : v ∈ s.model.neumannVertices then (key v hv).choose_spec.choose_spec.choose else 0
  have kk : ∀ v ∈ s.model.neumannVertices, ∃ p, pointArgs s.grid v = .ok p ∧
      s.traction time p.1 p.2 = .ok [G1 v, G2 v] := by
    intro v hv
    have := (key v hv).choose_spec.choose_spec.choose_spec
    exact ⟨_, this.1, by simp only [G1, G2, dif_pos hv]; exact this.2⟩
  rw [updateBoundaryTraction_eq hs G1 G2 kk] at h'
  intro v hv
  have hv' : v ∈ s.model.neumannVertices := by rw [hs.nv]; exact mem_pySet.2 hv
  obtain ⟨p, e1, e2⟩ := kk v hv'
  refine ⟨p, G1 v, G2 v, pointArgs_at (x := p.1) (y := p.2) e1, e2, ?_, ?_⟩
  · rw [← (Prod.mk.inj h').2]; exact getL_map_nat _ _ hv'
  · rw [← (Prod.mk.inj h').2]; exact getL_map_nat _ _ hv'

namespace MechStep
variable {m : MechStep} {ys ts : List ℕ}

theorem p1_of {α : Type} {f : PyS P1Mech α} {g : PyS RegMech α} {s s' : P1Mech} {r : PyM α} (h : f s = (r, s')) :
    MechStep.dispatch f g (.p1 s) = (r, .p1 s') := by rw [MechStep.dispatch, h]

theorem reg_of {α : Type} {f : PyS P1Mech α} {g : PyS RegMech α} {s s' : RegMech} {r : PyM α} (h : g s = (r, s')) :
    MechStep.dispatch f g (.reg s) = (r, .reg s') := by rw [MechStep.dispatch, h]

@[simp] theorem prevTheta_eraseY (m : MechStep) : m.eraseY.prevTheta = m.prevTheta := by cases m <;> rfl
@[simp] theorem prevY_eraseTheta (m : MechStep) : m.eraseTheta.prevY = m.prevY := by cases m <;> rfl
@[simp] theorem y_eraseTheta (m : MechStep) : m.eraseTheta.y = m.y := by cases m <;> rfl
@[simp] theorem unknowns_eraseTheta (m : MechStep) : m.eraseTheta.unknowns = m.unknowns := by cases m <;> rfl
@[simp] theorem prevY_eraseTraction (m : MechStep) : m.eraseTraction.prevY = m.prevY := by cases m <;> rfl
@[simp] theorem y_eraseTraction (m : MechStep) : m.eraseTraction.y = m.y := by cases m <;> rfl
@[simp] theorem unknowns_eraseTraction (m : MechStep) : m.eraseTraction.unknowns = m.unknowns := by cases m <;> rfl
@[simp] theorem prevTheta_eraseTraction (m : MechStep) : m.eraseTraction.prevTheta = m.prevTheta := by cases m <;> rfl
@[simp] theorem searchRadius_eraseY (m : MechStep) : m.eraseY.searchRadius = m.searchRadius := by cases m <;> rfl
@[simp] theorem searchRadius_eraseTheta (m : MechStep) : m.eraseTheta.searchRadius = m.searchRadius := by
  cases m <;> rfl
@[simp] theorem searchRadius_eraseTraction (m : MechStep) : m.eraseTraction.searchRadius = m.searchRadius := by
  cases m <;> rfl

theorem y_data (m : MechStep) : m.y.data = m.unknowns.map VarData.value := by
  rcases m with s | s
  · exact (pairs_data _ _).trans (interleave_map _ _ _).symm
  · exact (pairs3_data _ _).trans (flatten_interleave_map _ _ _).symm

theorem WF.prevY (h : m.WF ys ts) : m.prevY.Has ys := by
  rcases m with s | s
  · obtain ⟨n, h, rfl, rfl⟩ := h; exact NdArray.has_pairs h.prevY1 h.prevY2 h.pos
  · obtain ⟨n, k, h, rfl, rfl⟩ := h; exact NdArray.has_pairs3 h.prevY1.1 h.prevY2.1 h.prevY1.2 h.prevY2.2 h.pos

theorem WF.y (h : m.WF ys ts) : m.y.Has ys := by
  rcases m with s | s
  · obtain ⟨n, h, rfl, rfl⟩ := h
    exact NdArray.has_pairs (by simp [varValues, h.y1]) (by simp [varValues, h.y2]) h.pos
  · obtain ⟨n, k, h, rfl, rfl⟩ := h
    exact NdArray.has_pairs3 (varValues2_shape h.y1).1 (varValues2_shape h.y2).1 (varValues2_shape h.y1).2
      (varValues2_shape h.y2).2 h.pos

theorem WF.prevTheta (h : m.WF ys ts) : m.prevTheta.Has ts := by
  rcases m with s | s
  · obtain ⟨n, h, rfl, rfl⟩ := h; exact NdArray.has_of1 h.prevTheta
  · obtain ⟨n, k, h, rfl, rfl⟩ := h; exact NdArray.has_of1 h.prevTheta

/-- the updated deformation -/
theorem WF.updatePrevY_ok (h : m.WF ys ts) {a : NdArray} (ha : a.Has ys) :
    ∃ m', m.updatePrevY a = (.ok (), m') ∧ m'.WF ys ts ∧ m'.prevY = a ∧ m'.y = a ∧
      List.Forall₂ (fun v x => v.Around x m.searchRadius) m'.unknowns a.data ∧
      m'.unknowns.map VarData.fixed = m.unknowns.map VarData.fixed ∧ m'.eraseY = m.eraseY := by
  rcases m with s | s
  · obtain ⟨n, h, rfl, rfl⟩ := h
    have hw := h.updatePrevY ha.2
    obtain ⟨A, B, hA, hB, rfl⟩ := NdArray.exists_cols ha h.pos
    have he := P1Mech.updatePrevY_eq h hA hB
    rw [he] at hw
    refine ⟨.p1 _, p1_of he, ⟨n, hw, rfl, rfl⟩, rfl, ?_, ?_, ?_, rfl⟩
    · show P1Mech.pairs (varValues (recentre _ _ _)) (varValues (recentre _ _ _)) = _
      rw [varValues_recentre (by rw [hA, h.y1]), varValues_recentre (by rw [hB, h.y2])]
    · rw [pairs_data]
      exact interleave_forall₂ (forall₂_recentre (by rw [hA, h.y1])) (forall₂_recentre (by rw [hB, h.y2]))
    · show (interleave _ _).map _ = (interleave _ _).map _
      rw [interleave_map, interleave_map, map_fixed_recentre, map_fixed_recentre]
  · obtain ⟨n, k, h, rfl, rfl⟩ := h
    have hw := h.updatePrevY ha.2
    obtain ⟨A, B, hA, hB, hA6, hB6, rfl⟩ := NdArray.exists_blocks ha h.pos
    have he := RegMech.updatePrevY_eq h hA hB hA6 hB6
    rw [he] at hw
    refine ⟨.reg _, reg_of he, ⟨n, k, hw, rfl, rfl⟩, rfl, ?_, ?_, ?_, rfl⟩
    · show RegMech.pairs (varValues2 (recentre2 _ _ _)) (varValues2 (recentre2 _ _ _)) = _
      rw [varValues2_recentre2 (by rw [hA, h.y1.1]) hA6 h.y1.2, varValues2_recentre2 (by rw [hB, h.y2.1]) hB6 h.y2.2]
    · rw [pairs3_data]
      exact forall₂_flatten (interleave_forall₂ (forall₂_recentre2 (by rw [hA, h.y1.1]) hA6 h.y1.2)
        (forall₂_recentre2 (by rw [hB, h.y2.1]) hB6 h.y2.2))
    · show (interleave _ _).flatten.map _ = (interleave _ _).flatten.map _
      rw [flatten_interleave_map, flatten_interleave_map, map_fixed_recentre2, map_fixed_recentre2]

theorem WF.updatePrevY_shape (h : m.WF ys ts) {a : NdArray} (ha : a.shape ≠ ys) :
    m.updatePrevY a = (.error .valueError, m) := by
  rcases m with s | s
  · obtain ⟨n, h, rfl, rfl⟩ := h
    rw [MechStep.updatePrevY, MechStep.dispatch, P1Mech.updatePrevY_shape (by rwa [h.num])]
  · obtain ⟨n, k, h, rfl, rfl⟩ := h
    rw [MechStep.updatePrevY, MechStep.dispatch, RegMech.updatePrevY_shape (by rwa [h.vertices])]

theorem WF.updatePrevTheta_ok (h : m.WF ys ts) {a : NdArray} (ha : a.Has ts) (h0 : ∀ x ∈ a.data, 0 ≤ x) :
    ∃ m', m.updatePrevTheta a = (.ok (), m') ∧ m'.WF ys ts ∧ m'.prevTheta = a ∧ m'.eraseTheta = m.eraseTheta := by
  rcases m with s | s
  · obtain ⟨n, h, rfl, rfl⟩ := h
    have hw := h.updatePrevTheta ha.2
    obtain ⟨h1, h2⟩ := NdArray.of1_data ha
    rw [← h1] at hw ⊢
    have he := P1Mech.updatePrevTheta_eq h h2 h0
    rw [he] at hw
    exact ⟨.p1 _, p1_of he, ⟨n, hw, rfl, rfl⟩, rfl, rfl⟩
  · obtain ⟨n, k, h, rfl, rfl⟩ := h
    have hw := h.updatePrevTheta ha.2
    obtain ⟨h1, h2⟩ := NdArray.of1_data ha
    rw [← h1] at hw ⊢
    have he := RegMech.updatePrevTheta_eq h h2 h0
    rw [he] at hw
    exact ⟨.reg _, reg_of he, ⟨n, k, hw, rfl, rfl⟩, rfl, rfl⟩

theorem WF.updatePrevTheta_shape (h : m.WF ys ts) {a : NdArray} (ha : a.shape ≠ ts) :
    m.updatePrevTheta a = (.error .valueError, m) := by
  rcases m with s | s
  · obtain ⟨n, h, rfl, rfl⟩ := h
    rw [MechStep.updatePrevTheta, MechStep.dispatch, P1Mech.updatePrevTheta_shape (by rwa [h.num])]
  · obtain ⟨n, k, h, rfl, rfl⟩ := h
    rw [MechStep.updatePrevTheta, MechStep.dispatch, RegMech.updatePrevTheta_shape (by rwa [h.fine])]

theorem WF.updatePrevTheta_neg (h : m.WF ys ts) {a : NdArray} (ha : a.Has ts) (h0 : ∃ x ∈ a.data, x < 0) :
    ∃ m', m.updatePrevTheta a = (.error .valueError, m') ∧ m'.WF ys ts ∧ m'.eraseTheta = m.eraseTheta := by
  rcases m with s | s
  · obtain ⟨n, h, rfl, rfl⟩ := h
    have hw := h.updatePrevTheta ha.2
    obtain ⟨h1, h2⟩ := NdArray.of1_data ha
    rw [← h1] at hw ⊢
    obtain ⟨T', -, he⟩ := P1Mech.updatePrevTheta_neg h h2 h0
    rw [he] at hw
    exact ⟨.p1 _, p1_of he, ⟨n, hw, rfl, rfl⟩, rfl⟩
  · obtain ⟨n, k, h, rfl, rfl⟩ := h
    have hw := h.updatePrevTheta ha.2
    obtain ⟨h1, h2⟩ := NdArray.of1_data ha
    rw [← h1] at hw ⊢
    obtain ⟨T', -, he⟩ := RegMech.updatePrevTheta_neg h h2 h0
    rw [he] at hw
    exact ⟨.reg _, reg_of he, ⟨n, k, hw, rfl, rfl⟩, rfl⟩

/-- whatever the traction does, nothing but the traction values changes -/
theorem WF.updateBoundaryTraction_any (h : m.WF ys ts) (time : ℝ) :
    (m.updateBoundaryTraction time).2.WF ys ts ∧
    (m.updateBoundaryTraction time).2.eraseTraction = m.eraseTraction := by
  rcases m with s | s
  · obtain ⟨n, h, rfl, rfl⟩ := h
    refine ⟨⟨n, h.updateBoundaryTraction time, rfl, rfl⟩, ?_⟩
    obtain ⟨g1, g2, -, -, he⟩ := P1Mech.updateBoundaryTraction_any h time
    simp only [MechStep.updateBoundaryTraction, MechStep.dispatch, he]
    rfl
  · exact ⟨h, rfl⟩

theorem WF.load (h : m.WF ys ts) (o : Outcome) :
    (m.load o).WF ys ts ∧ (m.load o).prevY = m.prevY ∧ (m.load o).prevTheta = m.prevTheta ∧
    (m.load o).y.data = m.problem.answer o ∧
    (m.load o).unknowns.map VarData.fixed = m.unknowns.map VarData.fixed ∧ (m.load o).eraseY = m.eraseY := by
  rcases m with s | s
  · obtain ⟨n, h, rfl, rfl⟩ := h
    refine ⟨⟨n, ⟨⟨h.pos, h.vertices, h.prevY1, h.prevY2, h.prevTheta, by simp [loadVars, h.y1], by simp [loadVars, h.y2],
      h.nv, h.g1, h.g2⟩, h.num, h.grid⟩, rfl, rfl⟩, rfl, rfl, ?_, ?_, rfl⟩
    · refine (pairs_data _ _).trans ?_
      simp only [varValues_loadVars]; rfl
    · show (interleave _ _).map _ = (interleave _ _).map _
      rw [interleave_map, interleave_map, map_fixed_loadVars, map_fixed_loadVars]
  · obtain ⟨n, k, h, rfl, rfl⟩ := h
    refine ⟨⟨n, k, ⟨⟨h.pos, h.vertices, h.fine, h.prevY1, h.prevY2, h.prevTheta, loadVars2_shape h.y1,
      loadVars2_shape h.y2⟩, h.num⟩, rfl, rfl⟩, rfl, rfl, ?_, ?_, rfl⟩
    · refine (pairs3_data _ _).trans ?_
      simp only [varValues2_loadVars2]; rfl
    · show (interleave _ _).flatten.map _ = (interleave _ _).flatten.map _
      rw [flatten_interleave_map, flatten_interleave_map, map_fixed_loadVars2, map_fixed_loadVars2]

theorem WF.updatePrevY (h : m.WF ys ts) {a : NdArray} (ha : a.Ok) : (m.updatePrevY a).2.WF ys ts := by
  by_cases hs : a.shape = ys
  · obtain ⟨m', e, hw, -⟩ := h.updatePrevY_ok ⟨hs, ha⟩; rw [e]; exact hw
  · rw [h.updatePrevY_shape hs]; exact h

theorem WF.updatePrevTheta (h : m.WF ys ts) {a : NdArray} (ha : a.Ok) : (m.updatePrevTheta a).2.WF ys ts := by
  by_cases hs : a.shape = ts
  · by_cases h0 : ∀ x ∈ a.data, 0 ≤ x
    · obtain ⟨m', e, hw, -⟩ := h.updatePrevTheta_ok ⟨hs, ha⟩ h0; rw [e]; exact hw
    · push Not at h0
      obtain ⟨m', e, hw, -⟩ := h.updatePrevTheta_neg ⟨hs, ha⟩ h0; rw [e]; exact hw
  · rw [h.updatePrevTheta_shape hs]; exact h

end MechStep

theorem P1Mech.of_new {g : Grid ℝ} {n : ℕ} (U : g.Usable n) {T0 r fps : ℝ} {tr : Traction} {s : P1Mech}
    (h : P1Mech.new g T0 r fps tr = .ok s) :
    0 ≤ T0 ∧ ∃ G1 G2 : Vertex → ℝ, (∀ v ∈ g.neumann.vertices, ∃ l, tr 0 (g.xy v).1 (g.xy v).2 = .ok l ∧
      l[0]? = some (G1 v) ∧ l[1]? = some (G2 v)) ∧ s = ⟨n, r, initialP1Mech g n T0 r fps G1 G2, tr, g⟩ := by
  rw [P1Mech.new, bind_eq_ok] at h
  obtain ⟨m, hm, h⟩ := h
  obtain ⟨h0, G1, G2, h1, rfl⟩ := P1MechModel.of_new U hm
  refine ⟨h0, G1, G2, h1, ?_⟩
  cases h
  rw [U.length]

theorem RegMech.of_new {g : Grid ℝ} {n : ℕ} (U : g.Usable n) {f : RefinedGrid ℝ} {k : ℕ} (F : f.toGrid.Usable k)
    {T0 r fps reg : ℝ} {s : RegMech} (h : RegMech.new g f T0 r fps reg = .ok s) :
    0 ≤ T0 ∧ s = ⟨n, r, initialRegMech g f n k T0 r fps reg⟩ := by
  rw [RegMech.new, bind_eq_ok] at h
  obtain ⟨m, hm, h⟩ := h
  obtain ⟨h0, rfl⟩ := RegMechModel.of_new U F hm
  refine ⟨h0, ?_⟩
  cases h
  rw [U.length]

theorem mechanicalStep_WF {g : Grid ℝ} {n : ℕ} (U : g.Usable n) {params : MechParams} {refined : Option (RefinedGrid ℝ)}
    (F : ∀ r, refined = some r → ∃ k, r.toGrid.Usable k) {tr : Traction} {m : MechStep}
    (h : mechanicalStep g params refined tr = .ok m) : ∃ ys ts, m.WF ys ts := by
  unfold mechanicalStep at h
  split at h
  · rw [bind_eq_ok] at h
    obtain ⟨s, hs, h⟩ := h
    cases h
    obtain ⟨-, G1, G2, -, rfl⟩ := P1Mech.of_new U hs
    exact ⟨_, _, n, ⟨initialP1Mech_WF U _ _ _ _ _, rfl, rfl⟩, rfl, rfl⟩
  · split at h
    · cases h
    · rename_i f
      obtain ⟨k, Fk⟩ := F f rfl
      rw [bind_eq_ok] at h
      obtain ⟨s, hs, h⟩ := h
      cases h
      obtain ⟨-, rfl⟩ := RegMech.of_new U Fk hs
      exact ⟨_, _, n, k, ⟨initialRegMech_WF U Fk _ _ _ _, rfl⟩, rfl, rfl⟩

theorem RefinedOk.usable {refined : Option (RefinedGrid ℝ)} (F : RefinedOk refined) :
    ∀ r, refined = some r → ∃ k, r.toGrid.Usable k := by
  intro r hr
  obtain ⟨nx, ny, s, G⟩ := F r hr
  exact ⟨_, G.usable⟩

theorem MechStep.Reachable.wf {m : MechStep} (h : m.Reachable) : ∃ ys ts, m.WF ys ts := by
  induction h with
  | new G F h => exact mechanicalStep_WF G.usable F.usable h
  | updatePrevY _ ha ih => obtain ⟨ys, ts, h⟩ := ih; exact ⟨ys, ts, h.updatePrevY ha⟩
  | updatePrevTheta _ ha ih => obtain ⟨ys, ts, h⟩ := ih; exact ⟨ys, ts, h.updatePrevTheta ha⟩
  | updateBoundaryTraction _ ih => obtain ⟨ys, ts, h⟩ := ih; exact ⟨ys, ts, (h.updateBoundaryTraction_any _).1⟩
  | solve _ ih => obtain ⟨ys, ts, h⟩ := ih; exact ⟨ys, ts, (h.load _).1⟩

/-! ### thermal steps -/

/-- well-formed step whose deformation has shape `ys` and whose temperature has shape `ts` -/
def ThermStep.WF (m : ThermStep) (ys ts : List ℕ) : Prop :=
  match m with
  | .p1 s => ∃ n, s.WF n ∧ ys = [n, 2] ∧ ts = [n]
  | .reg s => ∃ n k, s.WF n k ∧ ys = [n, 2, 6] ∧ ts = [k]

namespace ThermStep
variable {m : ThermStep} {ys ts : List ℕ}

theorem p1_of {α : Type} {f : PyS P1Therm α} {g : PyS RegTherm α} {s s' : P1Therm} {r : PyM α} (h : f s = (r, s')) :
    ThermStep.dispatch f g (.p1 s) = (r, .p1 s') := by rw [ThermStep.dispatch, h]

theorem reg_of {α : Type} {f : PyS P1Therm α} {g : PyS RegTherm α} {s s' : RegTherm} {r : PyM α} (h : g s = (r, s')) :
    ThermStep.dispatch f g (.reg s) = (r, .reg s') := by rw [ThermStep.dispatch, h]

@[simp] theorem y_erasePrevY (m : ThermStep) : m.erasePrevY.y = m.y := by cases m <;> rfl
@[simp] theorem prevTheta_erasePrevY (m : ThermStep) : m.erasePrevY.prevTheta = m.prevTheta := by cases m <;> rfl
@[simp] theorem theta_erasePrevY (m : ThermStep) : m.erasePrevY.theta = m.theta := by cases m <;> rfl
@[simp] theorem unknowns_erasePrevY (m : ThermStep) : m.erasePrevY.unknowns = m.unknowns := by cases m <;> rfl
@[simp] theorem searchRadius_erasePrevY (m : ThermStep) : m.erasePrevY.searchRadius = m.searchRadius := by
  cases m <;> rfl
@[simp] theorem extTemp_erasePrevY (m : ThermStep) : m.erasePrevY.extTemp = m.extTemp := by cases m <;> rfl
@[simp] theorem prevY_eraseY (m : ThermStep) : m.eraseY.prevY = m.prevY := by cases m <;> rfl
@[simp] theorem prevTheta_eraseY (m : ThermStep) : m.eraseY.prevTheta = m.prevTheta := by cases m <;> rfl
@[simp] theorem theta_eraseY (m : ThermStep) : m.eraseY.theta = m.theta := by cases m <;> rfl
@[simp] theorem unknowns_eraseY (m : ThermStep) : m.eraseY.unknowns = m.unknowns := by cases m <;> rfl
@[simp] theorem searchRadius_eraseY (m : ThermStep) : m.eraseY.searchRadius = m.searchRadius := by cases m <;> rfl
@[simp] theorem extTemp_eraseY (m : ThermStep) : m.eraseY.extTemp = m.extTemp := by cases m <;> rfl
@[simp] theorem prevY_eraseTheta (m : ThermStep) : m.eraseTheta.prevY = m.prevY := by cases m <;> rfl
@[simp] theorem y_eraseTheta (m : ThermStep) : m.eraseTheta.y = m.y := by cases m <;> rfl
@[simp] theorem searchRadius_eraseTheta (m : ThermStep) : m.eraseTheta.searchRadius = m.searchRadius := by
  cases m <;> rfl
@[simp] theorem extTemp_eraseTheta (m : ThermStep) : m.eraseTheta.extTemp = m.extTemp := by cases m <;> rfl
@[simp] theorem prevY_eraseExt (m : ThermStep) : m.eraseExt.prevY = m.prevY := by cases m <;> rfl
@[simp] theorem y_eraseExt (m : ThermStep) : m.eraseExt.y = m.y := by cases m <;> rfl
@[simp] theorem prevTheta_eraseExt (m : ThermStep) : m.eraseExt.prevTheta = m.prevTheta := by cases m <;> rfl
@[simp] theorem theta_eraseExt (m : ThermStep) : m.eraseExt.theta = m.theta := by cases m <;> rfl
@[simp] theorem unknowns_eraseExt (m : ThermStep) : m.eraseExt.unknowns = m.unknowns := by cases m <;> rfl
@[simp] theorem searchRadius_eraseExt (m : ThermStep) : m.eraseExt.searchRadius = m.searchRadius := by cases m <;> rfl

theorem theta_data (m : ThermStep) : m.theta.data = m.unknowns.map VarData.value := by
  rcases m with s | s <;> rfl

theorem WF.prevY (h : m.WF ys ts) : m.prevY.Has ys := by
  rcases m with s | s
  · obtain ⟨n, h, rfl, rfl⟩ := h; exact NdArray.has_pairs h.prevY1 h.prevY2 h.pos
  · obtain ⟨n, k, h, rfl, rfl⟩ := h; exact NdArray.has_pairs3 h.prevY1.1 h.prevY2.1 h.prevY1.2 h.prevY2.2 h.pos

theorem WF.y (h : m.WF ys ts) : m.y.Has ys := by
  rcases m with s | s
  · obtain ⟨n, h, rfl, rfl⟩ := h; exact NdArray.has_pairs h.y1 h.y2 h.pos
  · obtain ⟨n, k, h, rfl, rfl⟩ := h; exact NdArray.has_pairs3 h.y1.1 h.y2.1 h.y1.2 h.y2.2 h.pos

theorem WF.prevTheta (h : m.WF ys ts) : m.prevTheta.Has ts := by
  rcases m with s | s
  · obtain ⟨n, h, rfl, rfl⟩ := h; exact NdArray.has_of1 h.prevTheta
  · obtain ⟨n, k, h, rfl, rfl⟩ := h; exact NdArray.has_of1 h.prevTheta

theorem WF.theta (h : m.WF ys ts) : m.theta.Has ts := by
  rcases m with s | s
  · obtain ⟨n, h, rfl, rfl⟩ := h; exact NdArray.has_of1 (by simp [varValues, h.theta])
  · obtain ⟨n, k, h, rfl, rfl⟩ := h; exact NdArray.has_of1 (by simp [varValues, h.theta])

theorem WF.updatePrevY_ok (h : m.WF ys ts) {a : NdArray} (ha : a.Has ys) :
    ∃ m', m.updatePrevY a = (.ok (), m') ∧ m'.WF ys ts ∧ m'.prevY = a ∧ m'.erasePrevY = m.erasePrevY := by
  rcases m with s | s
  · obtain ⟨n, h, rfl, rfl⟩ := h
    have hw := h.updatePrevY ha.2
    obtain ⟨A, B, hA, hB, rfl⟩ := NdArray.exists_cols ha h.pos
    have he := P1Therm.updatePrevY_eq h hA hB
    rw [he] at hw
    exact ⟨.p1 _, p1_of he, ⟨n, hw, rfl, rfl⟩, rfl, rfl⟩
  · obtain ⟨n, k, h, rfl, rfl⟩ := h
    have hw := h.updatePrevY ha.2
    obtain ⟨A, B, hA, hB, hA6, hB6, rfl⟩ := NdArray.exists_blocks ha h.pos
    have he := RegTherm.updatePrevY_eq h hA hB hA6 hB6
    rw [he] at hw
    exact ⟨.reg _, reg_of he, ⟨n, k, hw, rfl, rfl⟩, rfl, rfl⟩

theorem WF.updatePrevY_shape (h : m.WF ys ts) {a : NdArray} (ha : a.shape ≠ ys) :
    m.updatePrevY a = (.error .valueError, m) := by
  rcases m with s | s
  · obtain ⟨n, h, rfl, rfl⟩ := h
    rw [ThermStep.updatePrevY, ThermStep.dispatch, P1Therm.updatePrevY_shape (by rwa [h.num])]
  · obtain ⟨n, k, h, rfl, rfl⟩ := h
    rw [ThermStep.updatePrevY, ThermStep.dispatch, RegTherm.updatePrevY_shape (by rwa [h.vertices])]

theorem WF.updateY_ok (h : m.WF ys ts) {a : NdArray} (ha : a.Has ys) :
    ∃ m', m.updateY a = (.ok (), m') ∧ m'.WF ys ts ∧ m'.y = a ∧ m'.eraseY = m.eraseY := by
  rcases m with s | s
  · obtain ⟨n, h, rfl, rfl⟩ := h
    have hw := h.updateY ha.2
    obtain ⟨A, B, hA, hB, rfl⟩ := NdArray.exists_cols ha h.pos
    have he := P1Therm.updateY_eq h hA hB
    rw [he] at hw
    exact ⟨.p1 _, p1_of he, ⟨n, hw, rfl, rfl⟩, rfl, rfl⟩
  · obtain ⟨n, k, h, rfl, rfl⟩ := h
    have hw := h.updateY ha.2
    obtain ⟨A, B, hA, hB, hA6, hB6, rfl⟩ := NdArray.exists_blocks ha h.pos
    have he := RegTherm.updateY_eq h hA hB hA6 hB6
    rw [he] at hw
    exact ⟨.reg _, reg_of he, ⟨n, k, hw, rfl, rfl⟩, rfl, rfl⟩

theorem WF.updateY_shape (h : m.WF ys ts) {a : NdArray} (ha : a.shape ≠ ys) :
    m.updateY a = (.error .valueError, m) := by
  rcases m with s | s
  · obtain ⟨n, h, rfl, rfl⟩ := h
    rw [ThermStep.updateY, ThermStep.dispatch, P1Therm.updateY_shape (by rwa [h.num])]
  · obtain ⟨n, k, h, rfl, rfl⟩ := h
    rw [ThermStep.updateY, ThermStep.dispatch, RegTherm.updateY_shape (by rwa [h.vertices])]

theorem WF.updatePrevTheta_ok (h : m.WF ys ts) {a : NdArray} (ha : a.Has ts) (h0 : ∀ x ∈ a.data, 0 ≤ x) :
    ∃ m', m.updatePrevTheta a = (.ok (), m') ∧ m'.WF ys ts ∧ m'.prevTheta = a ∧ m'.theta = a ∧
      List.Forall₂ (fun v x => v.Around x m.searchRadius) m'.unknowns a.data ∧
      m'.unknowns.map VarData.fixed = m.unknowns.map VarData.fixed ∧ m'.eraseTheta = m.eraseTheta := by
  rcases m with s | s
  · obtain ⟨n, h, rfl, rfl⟩ := h
    have hw := h.updatePrevTheta a
    obtain ⟨h1, h2⟩ := NdArray.of1_data ha
    rw [← h1] at hw ⊢
    have he := P1Therm.updatePrevTheta_eq h h2 h0
    rw [he] at hw
    refine ⟨.p1 _, p1_of he, ⟨n, hw, rfl, rfl⟩, rfl, ?_,
      forall₂_recentre (by rw [h2, h.theta]), map_fixed_recentre _ _ _, rfl⟩
    show NdArray.of1 (varValues (recentre _ _ _)) = _
    rw [varValues_recentre (by rw [h2, h.theta])]
  · obtain ⟨n, k, h, rfl, rfl⟩ := h
    have hw := h.updatePrevTheta a
    obtain ⟨h1, h2⟩ := NdArray.of1_data ha
    rw [← h1] at hw ⊢
    have he := RegTherm.updatePrevTheta_eq h h2 h0
    rw [he] at hw
    refine ⟨.reg _, reg_of he, ⟨n, k, hw, rfl, rfl⟩, rfl, ?_,
      forall₂_recentre (by rw [h2, h.theta]), map_fixed_recentre _ _ _, rfl⟩
    show NdArray.of1 (varValues (recentre _ _ _)) = _
    rw [varValues_recentre (by rw [h2, h.theta])]

theorem WF.updatePrevTheta_shape (h : m.WF ys ts) {a : NdArray} (ha : a.shape ≠ ts) :
    m.updatePrevTheta a = (.error .valueError, m) := by
  rcases m with s | s
  · obtain ⟨n, h, rfl, rfl⟩ := h
    rw [ThermStep.updatePrevTheta, ThermStep.dispatch, P1Therm.updatePrevTheta_shape (by rwa [h.num])]
  · obtain ⟨n, k, h, rfl, rfl⟩ := h
    rw [ThermStep.updatePrevTheta, ThermStep.dispatch, RegTherm.updatePrevTheta_shape (by rwa [h.fine])]

/-- a failing temperature update changes at most the temperatures -/
theorem WF.updatePrevTheta_any (h : m.WF ys ts) (a : NdArray) :
    (m.updatePrevTheta a).2.WF ys ts ∧ (m.updatePrevTheta a).2.eraseTheta = m.eraseTheta := by
  rcases m with s | s
  · obtain ⟨n, h, rfl, rfl⟩ := h
    refine ⟨⟨n, h.updatePrevTheta a, rfl, rfl⟩, ?_⟩
    obtain ⟨T, V, -, -, he⟩ := P1Therm.updatePrevTheta_any h a
    simp only [ThermStep.updatePrevTheta, ThermStep.dispatch, he]
    rfl
  · obtain ⟨n, k, h, rfl, rfl⟩ := h
    refine ⟨⟨n, k, h.updatePrevTheta a, rfl, rfl⟩, ?_⟩
    obtain ⟨T, V, -, -, he⟩ := RegTherm.updatePrevTheta_any h a
    simp only [ThermStep.updatePrevTheta, ThermStep.dispatch, he]
    rfl

theorem WF.updatePrevTheta_neg (h : m.WF ys ts) {a : NdArray} (ha : a.Has ts) (h0 : ∃ x ∈ a.data, x < 0) :
    (m.updatePrevTheta a).1 = .error .valueError := by
  rcases m with s | s
  · obtain ⟨n, h, rfl, rfl⟩ := h
    obtain ⟨h1, h2⟩ := NdArray.of1_data ha
    rw [← h1]
    exact P1Therm.updatePrevTheta_neg h h2 h0
  · obtain ⟨n, k, h, rfl, rfl⟩ := h
    obtain ⟨h1, h2⟩ := NdArray.of1_data ha
    rw [← h1]
    exact RegTherm.updatePrevTheta_neg h h2 h0

theorem WF.updateExternalTemperature_any (h : m.WF ys ts) (time : ℝ) :
    (m.updateExternalTemperature time).2.WF ys ts ∧
    (m.updateExternalTemperature time).2.eraseExt = m.eraseExt := by
  rcases m with s | s
  · obtain ⟨n, h, rfl, rfl⟩ := h
    refine ⟨⟨n, h.updateExternalTemperature time, rfl, rfl⟩, ?_⟩
    obtain ⟨e, he⟩ := P1Therm.updateExternalTemperature_any s time
    simp only [ThermStep.updateExternalTemperature, ThermStep.dispatch, he]
    rfl
  · exact ⟨h, rfl⟩

theorem WF.load (h : m.WF ys ts) (o : Outcome) :
    (m.load o).WF ys ts ∧ (m.load o).prevY = m.prevY ∧ (m.load o).y = m.y ∧ (m.load o).prevTheta = m.prevTheta ∧
    (m.load o).theta.data = m.problem.answer o ∧
    (m.load o).unknowns.map VarData.fixed = m.unknowns.map VarData.fixed ∧ (m.load o).eraseTheta = m.eraseTheta := by
  rcases m with s | s
  · obtain ⟨n, h, rfl, rfl⟩ := h
    exact ⟨⟨n, ⟨⟨h.pos, h.vertices, h.prevY1, h.prevY2, h.y1, h.y2, h.prevTheta, by simp [loadVars, h.theta],
      free_loadVars h.free⟩, h.num⟩,
      rfl, rfl⟩, rfl, rfl, rfl, varValues_loadVars _ _, map_fixed_loadVars _ _, rfl⟩
  · obtain ⟨n, k, h, rfl, rfl⟩ := h
    exact ⟨⟨n, k, ⟨⟨h.pos, h.vertices, h.fine, h.prevY1, h.prevY2, h.y1, h.y2, h.prevTheta,
      by simp [loadVars, h.theta], free_loadVars h.free⟩, h.num⟩, rfl, rfl⟩, rfl, rfl, rfl, varValues_loadVars _ _, map_fixed_loadVars _ _, rfl⟩

theorem WF.updatePrevY (h : m.WF ys ts) {a : NdArray} (ha : a.Ok) : (m.updatePrevY a).2.WF ys ts := by
  by_cases hs : a.shape = ys
  · obtain ⟨m', e, hw, -⟩ := h.updatePrevY_ok ⟨hs, ha⟩; rw [e]; exact hw
  · rw [h.updatePrevY_shape hs]; exact h

theorem WF.updateY (h : m.WF ys ts) {a : NdArray} (ha : a.Ok) : (m.updateY a).2.WF ys ts := by
  by_cases hs : a.shape = ys
  · obtain ⟨m', e, hw, -⟩ := h.updateY_ok ⟨hs, ha⟩; rw [e]; exact hw
  · rw [h.updateY_shape hs]; exact h

end ThermStep

theorem P1Therm.of_new {g : Grid ℝ} {n : ℕ} (U : g.Usable n) {a a' t : NdArray} (ha : a.Ok) (ha' : a'.Ok) (ht : t.Ok)
    {r fps : ℝ} {ext : ExtTemp} {s : P1Therm} (h : P1Therm.new g a a' t r fps ext = .ok s) :
    ∃ e, ext 0 = .ok e ∧ 0 ≤ e ∧ ∃ A B A' B' T : List ℝ, A.length = n ∧ B.length = n ∧ A'.length = n ∧ B'.length = n ∧
      T.length = n ∧ (∀ x ∈ T, 0 ≤ x) ∧ a = P1Mech.pairs A B ∧ a' = P1Mech.pairs A' B' ∧ t = NdArray.of1 T ∧
      s = ⟨n, initialP1Therm g A B A' B' T r fps e, r, ext⟩ := by
  rw [P1Therm.new, bind_eq_ok] at h
  obtain ⟨e, he, h⟩ := h
  rw [bind_eq_ok] at h
  obtain ⟨m, hm, h⟩ := h
  obtain ⟨h0, A, B, A', B', T, hA, hB, hA', hB', hT, hT0, e1, e2, e3, rfl⟩ := P1ThermModel.of_new U ha ha' ht hm
  refine ⟨e, he, h0, A, B, A', B', T, hA, hB, hA', hB', hT, hT0, e1, e2, e3, ?_⟩
  cases h
  rw [U.length]

theorem RegTherm.of_new {g : Grid ℝ} {n : ℕ} (U : g.Usable n) {f : RefinedGrid ℝ} {k : ℕ} (F : f.toGrid.Usable k)
    {a a' t : NdArray} (ha : a.Ok) (ha' : a'.Ok) (ht : t.Ok) {r fps : ℝ} {s : RegTherm}
    (h : RegTherm.new g f a a' t r fps = .ok s) :
    ∃ (A B A' B' : List (List ℝ)) (T : List ℝ), A.length = n ∧ B.length = n ∧ A'.length = n ∧ B'.length = n ∧
      (∀ x ∈ A, x.length = 6) ∧ (∀ x ∈ B, x.length = 6) ∧ (∀ x ∈ A', x.length = 6) ∧ (∀ x ∈ B', x.length = 6) ∧
      T.length = k ∧ (∀ x ∈ T, 0 ≤ x) ∧ a = RegMech.pairs A B ∧ a' = RegMech.pairs A' B' ∧ t = NdArray.of1 T ∧
      s = ⟨n, r, initialRegTherm g f A B A' B' T r fps⟩ := by
  rw [RegTherm.new, bind_eq_ok] at h
  obtain ⟨m, hm, h⟩ := h
  obtain ⟨A, B, A', B', T, h1, h2, h3, h4, h5, h6, h7, h8, h9, h10, e1, e2, e3, rfl⟩ :=
    RegThermModel.of_new U F ha ha' ht hm
  refine ⟨A, B, A', B', T, h1, h2, h3, h4, h5, h6, h7, h8, h9, h10, e1, e2, e3, ?_⟩
  cases h
  rw [U.length]

theorem thermalStep_WF {g : Grid ℝ} {n : ℕ} (U : g.Usable n) {params : ThermParams} {refined : Option (RefinedGrid ℝ)}
    (F : ∀ r, refined = some r → ∃ k, r.toGrid.Usable k) {a a' t : NdArray} (ha : a.Ok) (ha' : a'.Ok) (ht : t.Ok)
    {ext : ExtTemp} {m : ThermStep} (h : thermalStep g a a' t params ext refined = .ok m) :
    m.WF a.shape t.shape ∧ m.prevY = a ∧ m.y = a' ∧ m.prevTheta = t ∧ m.theta = t ∧ (∀ x ∈ t.data, 0 ≤ x) ∧
      List.Forall₂ (fun v x => v.Around x params.searchRadius) m.unknowns t.data ∧ m.searchRadius = params.searchRadius ∧
      m.unknowns.map VarData.fixed = t.data.map fun _ => false := by
  have hvars : ∀ T : List ℝ, List.Forall₂ (fun v x => v.Around x params.searchRadius)
      (T.map fun x => VarData.centred x params.searchRadius) T := by
    intro T
    induction T with
    | nil => exact .nil
    | cons x T ih => exact .cons ⟨rfl, rfl, rfl⟩ ih
  unfold thermalStep at h
  split at h
  · rw [bind_eq_ok] at h
    obtain ⟨s, hs, h⟩ := h
    cases h
    obtain ⟨e, he, h0, A, B, A', B', T, hA, hB, hA', hB', hT, hT0, rfl, rfl, rfl, rfl⟩ := P1Therm.of_new U ha ha' ht hs
    refine ⟨⟨n, ⟨initialP1Therm_WF U hA hB hA' hB' hT _ _ _, rfl⟩, (NdArray.has_pairs hA hB U.pos).1, by simp [NdArray.of1, hT]⟩,
      rfl, rfl, rfl, ?_, hT0, hvars T, rfl, ?_⟩
    · show NdArray.of1 (varValues (T.map _)) = _
      rw [varValues_centred]
    · show (T.map _).map _ = _
      rw [List.map_map]; rfl
  · split at h
    · cases h
    · rename_i f
      obtain ⟨k, Fk⟩ := F f rfl
      rw [bind_eq_ok] at h
      obtain ⟨s, hs, h⟩ := h
      cases h
      obtain ⟨A, B, A', B', T, h1, h2, h3, h4, h5, h6, h7, h8, h9, h10, rfl, rfl, rfl, rfl⟩ :=
        RegTherm.of_new U Fk ha ha' ht hs
      refine ⟨⟨n, k, ⟨initialRegTherm_WF U Fk h1 h2 h3 h4 h5 h6 h7 h8 h9 _ _, rfl⟩,
        (NdArray.has_pairs3 h1 h2 h5 h6 U.pos).1, by simp [NdArray.of1, h9]⟩, rfl, rfl, rfl, ?_, h10, hvars T, rfl, ?_⟩
      · show NdArray.of1 (varValues (T.map _)) = _
        rw [varValues_centred]
      · show (T.map _).map _ = _
        rw [List.map_map]; rfl

theorem ThermStep.Reachable.wf {m : ThermStep} (h : m.Reachable) : ∃ ys ts, m.WF ys ts := by
  induction h with
  | new G F h1 h2 h3 h => exact ⟨_, _, (thermalStep_WF G.usable F.usable h1 h2 h3 h).1⟩
  | updatePrevY _ ha ih => obtain ⟨ys, ts, h⟩ := ih; exact ⟨ys, ts, h.updatePrevY ha⟩
  | updateY _ ha ih => obtain ⟨ys, ts, h⟩ := ih; exact ⟨ys, ts, h.updateY ha⟩
  | updatePrevTheta _ ha ih => obtain ⟨ys, ts, h⟩ := ih; exact ⟨ys, ts, (h.updatePrevTheta_any _).1⟩
  | updateExternalTemperature _ ih => obtain ⟨ys, ts, h⟩ := ih; exact ⟨ys, ts, (h.updateExternalTemperature_any _).1⟩
  | solve _ ih => obtain ⟨ys, ts, h⟩ := ih; exact ⟨ys, ts, (h.load _).1⟩

theorem MechStep.WF.shapes {m : MechStep} {ys ts : List ℕ} (h : m.WF ys ts) : ys = m.yShape ∧ ts = m.thetaShape := by
  rcases m with s | s
  · obtain ⟨n, h, rfl, rfl⟩ := h
    simp [yShape, thetaShape, h.vertices]
  · obtain ⟨n, k, h, rfl, rfl⟩ := h
    simp [yShape, thetaShape, h.vertices, h.fine]

theorem ThermStep.WF.shapes {m : ThermStep} {ys ts : List ℕ} (h : m.WF ys ts) : ys = m.yShape ∧ ts = m.thetaShape := by
  rcases m with s | s
  · obtain ⟨n, h, rfl, rfl⟩ := h
    simp [yShape, thetaShape, h.vertices]
  · obtain ⟨n, k, h, rfl, rfl⟩ := h
    simp [yShape, thetaShape, h.vertices, h.fine]

theorem MechStep.Reachable.wf' {m : MechStep} (h : m.Reachable) : m.WF m.yShape m.thetaShape := by
  obtain ⟨ys, ts, hw⟩ := h.wf
  obtain ⟨rfl, rfl⟩ := hw.shapes
  exact hw

theorem ThermStep.Reachable.wf' {m : ThermStep} (h : m.Reachable) : m.WF m.yShape m.thetaShape := by
  obtain ⟨ys, ts, hw⟩ := h.wf
  obtain ⟨rfl, rfl⟩ := hw.shapes
  exact hw

/-- the traction after a successful update -/
theorem MechStep.WF.traction_of_ok {m : MechStep} {ys ts : List ℕ} (h : m.WF ys ts) {time : ℝ} {f : Traction}
    (hf : m.traction = some f) (hok : (m.updateBoundaryTraction time).1 = .ok ()) :
    ∀ v ∈ m.grid.neumann.vertices, ∃ z a b, m.grid.At v z ∧ f time z.1 z.2 = .ok [a, b] ∧
        (m.updateBoundaryTraction time).2.tractionAt v = some (a, b) := by
  intro v hv
  rcases m with s | s
  · obtain ⟨n, hw, -, -⟩ := h
    cases hf
    rcases hu : P1Mech.updateBoundaryTraction time s with ⟨r, s'⟩
    have hr : r = .ok () := by
      have := hok
      simp only [MechStep.updateBoundaryTraction, MechStep.dispatch, hu] at this
      exact this
    subst hr
    obtain ⟨q, a, b, h1, h2, h3, h4⟩ := P1Mech.updateBoundaryTraction_of_ok hw hu v hv
    refine ⟨q, a, b, by rw [hw.grid] at h1; exact h1, h2, ?_⟩
    simp only [MechStep.updateBoundaryTraction, MechStep.dispatch, hu, MechStep.tractionAt, h3, h4]
  · cases hf

/-- the external temperature after a successful update -/
theorem ThermStep.ext_of_ok {m : ThermStep} {time : ℝ} {f : ExtTemp} (hf : m.ext = some f)
    (hok : (m.updateExternalTemperature time).1 = .ok ()) :
    ∃ x, 0 ≤ x ∧ f time = .ok x ∧ (m.updateExternalTemperature time).2.extTemp = some x := by
  rcases m with s | s
  · cases hf
    have hok' : (P1Therm.updateExternalTemperature time s).1 = .ok () := hok
    rcases hx : s.externalTemperature time with e | x
    · simp [P1Therm.updateExternalTemperature, PyS.get_bind, hx, PyS.lift_err_bind] at hok'
    · by_cases hneg : x < 0
      · rw [P1Therm.updateExternalTemperature, PyS.get_bind, hx, PyS.lift_ok_bind, P1Therm.onModel, PyS.onAttr_apply,
          assignNonNeg, if_pos hneg] at hok'
        cases hok'
      · refine ⟨x, not_lt.1 hneg, rfl, ?_⟩
        simp only [ThermStep.updateExternalTemperature, ThermStep.dispatch,
          P1Therm.updateExternalTemperature_eq hx (not_lt.1 hneg), ThermStep.extTemp]
  · cases hf

end Tve
