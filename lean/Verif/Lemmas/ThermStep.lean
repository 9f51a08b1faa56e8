import Verif.Lemmas.MechStep

/-! Closed forms of the updates of the thermal steps. -/

namespace Tve

theorem free_modify {V : List VarData} (h : ∀ v ∈ V, v.fixed = false) {f : VarData → VarData}
    (hf : ∀ v, (f v).fixed = v.fixed) {i : ℕ} : ∀ v ∈ V.modify i f, v.fixed = false := by
  intro v hv
  obtain ⟨j, hj, rfl⟩ := List.mem_iff_getElem.1 hv
  rw [List.getElem_modify]
  split
  · rw [hf]; exact h _ (List.getElem_mem _)
  · exact h _ (List.getElem_mem _)

theorem free_recentre {r : ℝ} {A : List ℝ} {V : List VarData} (h : ∀ v ∈ V, v.fixed = false) :
    ∀ v ∈ recentre r A V, v.fixed = false := by
  intro v hv
  rw [recentre, List.mem_mapIdx] at hv
  obtain ⟨i, hi, rfl⟩ := hv
  exact h V[i] (List.getElem_mem _)

theorem free_loadVars {f : ℕ → ℝ} {V : List VarData} (h : ∀ v ∈ V, v.fixed = false) :
    ∀ v ∈ loadVars f V, v.fixed = false := by
  intro v hv
  rw [loadVars, List.mem_mapIdx] at hv
  obtain ⟨i, hi, rfl⟩ := hv
  exact h V[i] (List.getElem_mem _)

/-- shape invariant of the model without regularization; no temperature is ever fixed -/
structure P1ThermModel.WF (m : P1ThermModel) (n : ℕ) : Prop where
  pos : 0 < n
  vertices : m.grid.vertices = List.range n
  prevY1 : m.prevY1.length = n
  prevY2 : m.prevY2.length = n
  y1 : m.y1.length = n
  y2 : m.y2.length = n
  prevTheta : m.prevTheta.length = n
  theta : m.theta.length = n
  free : ∀ v ∈ m.theta, v.fixed = false

/-- shape invariant of the step without regularization -/
structure P1Therm.WF (s : P1Therm) (n : ℕ) : Prop extends s.model.WF n where
  num : s.numVertices = n

namespace P1Therm
open P1Mech (pairs)

theorem updatePrevY_shape {s : P1Therm} {a : NdArray} (h : a.shape ≠ [s.numVertices, 2]) :
    updatePrevY a s = (.error .valueError, s) := by
  rw [updatePrevY, PyS.get_bind, if_pos h]; rfl

theorem updateY_shape {s : P1Therm} {a : NdArray} (h : a.shape ≠ [s.numVertices, 2]) :
    updateY a s = (.error .valueError, s) := by
  rw [updateY, PyS.get_bind, if_pos h]; rfl

theorem updatePrevTheta_shape {s : P1Therm} {a : NdArray} (h : a.shape ≠ [s.numVertices]) :
    updatePrevTheta a s = (.error .valueError, s) := by
  rw [updatePrevTheta, PyS.get_bind, if_pos h]; rfl

theorem updatePrevY_eq {s : P1Therm} {n : ℕ} (hs : s.WF n) {A B : List ℝ} (hA : A.length = n) (hB : B.length = n) :
    updatePrevY (pairs A B) s = (.ok (), { s with model := { s.model with prevY1 := A, prevY2 := B } }) := by
  have hh := NdArray.has_pairs hA hB hs.pos
  have hc := NdArray.col_pairs hA hB hs.pos
  rw [updatePrevY, PyS.get_bind, if_neg (by rw [hh.1, hs.num]; simp), hc.1, PyS.lift_ok_bind, hc.2, PyS.lift_ok_bind,
    PyS.get_bind, hs.vertices, onModel, PyS.onAttr_apply,
    PyS.forEach_ok (fun i (m : P1ThermModel) =>
      { m with prevY1 := m.prevY1.set i (A.getD i 0), prevY2 := m.prevY2.set i (B.getD i 0) })]
  · have : ∀ (vs : List ℕ) (m : P1ThermModel), vs.foldl (fun (m : P1ThermModel) i =>
        { m with prevY1 := m.prevY1.set i (A.getD i 0), prevY2 := m.prevY2.set i (B.getD i 0) }) m =
        { m with
          prevY1 := vs.foldl (fun l i => l.set i (A.getD i 0)) m.prevY1
          prevY2 := vs.foldl (fun l i => l.set i (B.getD i 0)) m.prevY2 } := by
      intro vs
      induction vs with
      | nil => intro m; rfl
      | cons a t ih => intro m; rw [List.foldl_cons, ih]; rfl
    rw [this, foldl_set_range _ _ hs.prevY1 hA, foldl_set_range _ _ hs.prevY2 hB]
  · intro i hi m
    rw [List.mem_range] at hi
    rw [pyGet_getD' (by omega), PyS.lift_ok_bind, PyS.modify_bind, pyGet_getD' (by omega), PyS.lift_ok_bind]
    rfl

theorem updateY_eq {s : P1Therm} {n : ℕ} (hs : s.WF n) {A B : List ℝ} (hA : A.length = n) (hB : B.length = n) :
    updateY (pairs A B) s = (.ok (), { s with model := { s.model with y1 := A, y2 := B } }) := by
  have hh := NdArray.has_pairs hA hB hs.pos
  have hc := NdArray.col_pairs hA hB hs.pos
  rw [updateY, PyS.get_bind, if_neg (by rw [hh.1, hs.num]; simp), hc.1, PyS.lift_ok_bind, hc.2, PyS.lift_ok_bind,
    PyS.get_bind, hs.vertices, onModel, PyS.onAttr_apply,
    PyS.forEach_ok (fun i (m : P1ThermModel) =>
      { m with y1 := m.y1.set i (A.getD i 0), y2 := m.y2.set i (B.getD i 0) })]
  · have : ∀ (vs : List ℕ) (m : P1ThermModel), vs.foldl (fun (m : P1ThermModel) i =>
        { m with y1 := m.y1.set i (A.getD i 0), y2 := m.y2.set i (B.getD i 0) }) m =
        { m with
          y1 := vs.foldl (fun l i => l.set i (A.getD i 0)) m.y1
          y2 := vs.foldl (fun l i => l.set i (B.getD i 0)) m.y2 } := by
      intro vs
      induction vs with
      | nil => intro m; rfl
      | cons a t ih => intro m; rw [List.foldl_cons, ih]; rfl
    rw [this, foldl_set_range _ _ hs.y1 hA, foldl_set_range _ _ hs.y2 hB]
  · intro i hi m
    rw [List.mem_range] at hi
    rw [pyGet_getD' (by omega), PyS.lift_ok_bind, PyS.modify_bind, pyGet_getD' (by omega), PyS.lift_ok_bind]
    rfl

theorem updatePrevTheta_eq {s : P1Therm} {n : ℕ} (hs : s.WF n) {T : List ℝ} (hT : T.length = n) (h0 : ∀ x ∈ T, 0 ≤ x) :
    updatePrevTheta (NdArray.of1 T) s = (.ok (), { s with model := { s.model with
      prevTheta := T, theta := recentre s.searchRadius T s.model.theta } }) := by
  rw [updatePrevTheta, PyS.get_bind, if_neg (by simp [NdArray.of1, hT, hs.num]), PyS.get_bind, PyS.get_bind,
    hs.vertices, onModel, PyS.onAttr_apply,
    PyS.forEach_ok (fun i (m : P1ThermModel) => { m with
      prevTheta := m.prevTheta.set i (T.getD i 0)
      theta := m.theta.modify i fun v => ⟨T.getD i 0, T.getD i 0 - s.searchRadius, T.getD i 0 + s.searchRadius, v.fixed⟩ })]
  · have : ∀ (vs : List ℕ) (m : P1ThermModel), vs.foldl (fun (m : P1ThermModel) i => { m with
        prevTheta := m.prevTheta.set i (T.getD i 0)
        theta := m.theta.modify i fun v =>
          ⟨T.getD i 0, T.getD i 0 - s.searchRadius, T.getD i 0 + s.searchRadius, v.fixed⟩ }) m =
        { m with
          prevTheta := vs.foldl (fun l i => l.set i (T.getD i 0)) m.prevTheta
          theta := vs.foldl (fun l i => l.modify i fun v =>
            ⟨T.getD i 0, T.getD i 0 - s.searchRadius, T.getD i 0 + s.searchRadius, v.fixed⟩) m.theta } := by
      intro vs
      induction vs with
      | nil => intro m; rfl
      | cons a t ih => intro m; rw [List.foldl_cons, ih]; rfl
    rw [this, foldl_set_range _ _ hs.prevTheta hT, foldl_modify_range _ _ hs.theta]
    rfl
  · intro i hi m
    rw [List.mem_range] at hi
    have hT' : 0 ≤ T.getD i 0 := by
      rw [List.getD_eq_getElem?_getD, List.getElem?_eq_getElem (by omega)]
      exact h0 _ (List.getElem_mem _)
    rw [NdArray.get1, show (NdArray.of1 T).data = T from rfl, pyGet_getD' (by omega), PyS.lift_ok_bind]
    simp only [assignNonNeg, not_lt.2 hT', if_false, PyS.modify_bind, PyS.modify_apply, P1Mech.modify_modify]
    rfl

/-- `P` holds for the previous temperature and the variables after a loop that may raise -/
theorem updatePrevTheta_any {s : P1Therm} {n : ℕ} (hs : s.WF n) (a : NdArray) :
    ∃ T V, T.length = n ∧ V.length = n ∧ (∀ v ∈ V, v.fixed = false) ∧
      (updatePrevTheta a s).2 = { s with model := { s.model with prevTheta := T, theta := V } } := by
  by_cases h : a.shape = [s.numVertices]
  · rw [updatePrevTheta, PyS.get_bind, if_neg (by simpa using h), PyS.get_bind, PyS.get_bind, onModel,
      PyS.onAttr_apply]
    obtain ⟨T, V, h1, h2, h2', h3⟩ := PyS.forEach_inv (l := s.model.grid.vertices) (f := fun i => (do
      let x ← PyS.lift (a.get1 i)
      assignNonNeg x fun x m => { m with prevTheta := m.prevTheta.set i x }
      assignNonNeg x fun x m => { m with theta := m.theta.modify i (VarData.assign x) }
      PyS.modify fun m => { m with theta := m.theta.modify i (VarData.setBounds (x - s.searchRadius) (x + s.searchRadius)) } :
        PyS P1ThermModel Unit))
      (fun m => ∃ (T : List ℝ) (V : List VarData), T.length = n ∧ V.length = n ∧
        (∀ v ∈ V, v.fixed = false) ∧ m = { s.model with prevTheta := T, theta := V })
      (by
        rintro i hi m ⟨T, V, h1, h2, h2', rfl⟩
        rcases hx : a.get1 i with e | x
        · rw [PyS.lift_err_bind]; exact ⟨T, V, h1, h2, h2', rfl⟩
        · rw [PyS.lift_ok_bind]
          by_cases h0 : x < 0
          · simp only [assignNonNeg, h0, if_true, PyS.raise_bind]
            exact ⟨T, V, h1, h2, h2', rfl⟩
          · simp only [assignNonNeg, h0, if_false, PyS.modify_bind, PyS.modify_apply]
            exact ⟨T.set i x, (V.modify i _).modify i _, by simpa using h1, by simpa using h2,
              free_modify (f := VarData.setBounds (x - s.searchRadius) (x + s.searchRadius))
                (free_modify (f := VarData.assign x) h2' fun _ => rfl) fun _ => rfl, rfl⟩)
      s.model ⟨s.model.prevTheta, s.model.theta, hs.prevTheta, hs.theta, hs.free, rfl⟩
    exact ⟨T, V, h1, h2, h2', by rw [h3]⟩
  · rw [updatePrevTheta_shape h]; exact ⟨s.model.prevTheta, s.model.theta, hs.prevTheta, hs.theta, hs.free, rfl⟩

theorem updatePrevTheta_neg {s : P1Therm} {n : ℕ} (hs : s.WF n) {T : List ℝ} (hT : T.length = n)
    (h0 : ∃ x ∈ T, x < 0) : (updatePrevTheta (NdArray.of1 T) s).1 = .error .valueError := by
  rw [updatePrevTheta, PyS.get_bind, if_neg (by simp [NdArray.of1, hT, hs.num]), PyS.get_bind, PyS.get_bind,
    hs.vertices, onModel, PyS.onAttr_apply]
  have key : ∀ (vs : List ℕ) (m : P1ThermModel), (∀ i ∈ vs, i < n) → (∃ i ∈ vs, T.getD i 0 < 0) →
      (PyS.forEach vs (fun i => (do
        let x ← PyS.lift ((NdArray.of1 T).get1 i)
        assignNonNeg x fun x m => { m with prevTheta := m.prevTheta.set i x }
        assignNonNeg x fun x m => { m with theta := m.theta.modify i (VarData.assign x) }
        PyS.modify fun m => { m with
          theta := m.theta.modify i (VarData.setBounds (x - s.searchRadius) (x + s.searchRadius)) } :
        PyS P1ThermModel Unit)) m).1 = .error .valueError := by
    intro vs
    induction vs with
    | nil => intro m _ h; obtain ⟨i, hi, _⟩ := h; simp at hi
    | cons a t ih =>
      intro m hv h
      have ha : a < n := hv a (by simp)
      rw [PyS.forEach_cons, NdArray.get1, show (NdArray.of1 T).data = T from rfl, pyGet_getD' (by omega),
        PyS.bind_apply, PyS.lift_ok_bind]
      by_cases hneg : T.getD a 0 < 0
      · simp only [assignNonNeg, hneg, if_true, PyS.raise_bind]
      · simp only [assignNonNeg, hneg, if_false, PyS.modify_bind, PyS.modify_apply]
        refine ih _ (fun i hi => hv i (by simp [hi])) ?_
        obtain ⟨i, hi, hi'⟩ := h
        rcases List.mem_cons.1 hi with rfl | hi
        · exact absurd hi' hneg
        · exact ⟨i, hi, hi'⟩
  obtain ⟨x, hx, hx0⟩ := h0
  obtain ⟨i, hi, rfl⟩ := List.mem_iff_getElem.1 hx
  exact key (List.range n) s.model (fun i hi => List.mem_range.1 hi)
    ⟨i, by simpa [hT] using hi, by simpa [List.getD, hi] using hx0⟩

theorem updateExternalTemperature_eq {s : P1Therm} {time e : ℝ} (h : s.externalTemperature time = .ok e) (h0 : 0 ≤ e) :
    updateExternalTemperature time s = (.ok (), { s with model := { s.model with externalTemperature := e } }) := by
  rw [updateExternalTemperature, PyS.get_bind, h, PyS.lift_ok_bind, onModel, PyS.onAttr_apply, assignNonNeg,
    if_neg (by linarith)]; rfl

theorem updateExternalTemperature_any (s : P1Therm) (time : ℝ) : ∃ e,
    (updateExternalTemperature time s).2 = { s with model := { s.model with externalTemperature := e } } := by
  rw [updateExternalTemperature, PyS.get_bind]
  rcases s.externalTemperature time with x | x
  · exact ⟨s.model.externalTemperature, rfl⟩
  · rw [PyS.lift_ok_bind, onModel, PyS.onAttr_apply, assignNonNeg]
    by_cases h : x < 0
    · rw [if_pos h]; exact ⟨s.model.externalTemperature, rfl⟩
    · rw [if_neg h]; exact ⟨x, rfl⟩

theorem WF.of_model {s : P1Therm} {n : ℕ} (hs : s.WF n) {m : P1ThermModel} (hm : m.WF n) :
    ({ s with model := m } : P1Therm).WF n := ⟨hm, hs.num⟩

theorem WF.updatePrevY {s : P1Therm} {n : ℕ} (hs : s.WF n) {a : NdArray} (ha : a.Ok) :
    (P1Therm.updatePrevY a s).2.WF n := by
  by_cases h : a.shape = [s.numVertices, 2]
  · rw [hs.num] at h
    obtain ⟨A, B, hA, hB, rfl⟩ := NdArray.exists_cols ⟨h, ha⟩ hs.pos
    rw [updatePrevY_eq hs hA hB]
    exact hs.of_model ⟨hs.pos, hs.vertices, hA, hB, hs.y1, hs.y2, hs.prevTheta, hs.theta, hs.free⟩
  · rw [updatePrevY_shape h]; exact hs

theorem WF.updateY {s : P1Therm} {n : ℕ} (hs : s.WF n) {a : NdArray} (ha : a.Ok) :
    (P1Therm.updateY a s).2.WF n := by
  by_cases h : a.shape = [s.numVertices, 2]
  · rw [hs.num] at h
    obtain ⟨A, B, hA, hB, rfl⟩ := NdArray.exists_cols ⟨h, ha⟩ hs.pos
    rw [updateY_eq hs hA hB]
    exact hs.of_model ⟨hs.pos, hs.vertices, hs.prevY1, hs.prevY2, hA, hB, hs.prevTheta, hs.theta, hs.free⟩
  · rw [updateY_shape h]; exact hs

theorem WF.updatePrevTheta {s : P1Therm} {n : ℕ} (hs : s.WF n) (a : NdArray) :
    (P1Therm.updatePrevTheta a s).2.WF n := by
  obtain ⟨T, V, h1, h2, h2', h3⟩ := updatePrevTheta_any hs a
  rw [h3]
  exact hs.of_model ⟨hs.pos, hs.vertices, hs.prevY1, hs.prevY2, hs.y1, hs.y2, h1, h2, h2'⟩

theorem WF.updateExternalTemperature {s : P1Therm} {n : ℕ} (hs : s.WF n) (time : ℝ) :
    (P1Therm.updateExternalTemperature time s).2.WF n := by
  obtain ⟨e, h⟩ := updateExternalTemperature_any s time
  rw [h]
  exact hs.of_model ⟨hs.pos, hs.vertices, hs.prevY1, hs.prevY2, hs.y1, hs.y2, hs.prevTheta, hs.theta, hs.free⟩

end P1Therm

/-! ### with regularization -/

/-- shape invariant of the model with regularization -/
structure RegThermModel.WF (m : RegThermModel) (n k : ℕ) : Prop where
  pos : 0 < n
  vertices : m.grid.vertices.length = n
  fine : m.refined.toGrid.vertices.length = k
  prevY1 : m.prevY1.length = n ∧ ∀ x ∈ m.prevY1, x.length = 6
  prevY2 : m.prevY2.length = n ∧ ∀ x ∈ m.prevY2, x.length = 6
  y1 : m.y1.length = n ∧ ∀ x ∈ m.y1, x.length = 6
  y2 : m.y2.length = n ∧ ∀ x ∈ m.y2, x.length = 6
  prevTheta : m.prevTheta.length = k
  theta : m.theta.length = k
  free : ∀ v ∈ m.theta, v.fixed = false

/-- shape invariant of the step with regularization -/
structure RegTherm.WF (s : RegTherm) (n k : ℕ) : Prop extends s.model.WF n k where
  num : s.numVertices = n

namespace RegTherm
open RegMech (pairs set2 rangeSet)

theorem updatePrevY_shape {s : RegTherm} {a : NdArray} (h : a.shape ≠ [s.model.grid.vertices.length, 2, 6]) :
    updatePrevY a s = (.error .valueError, s) := by
  rw [updatePrevY, PyS.get_bind, if_pos h]; rfl

theorem updateY_shape {s : RegTherm} {a : NdArray} (h : a.shape ≠ [s.model.grid.vertices.length, 2, 6]) :
    updateY a s = (.error .valueError, s) := by
  rw [updateY, PyS.get_bind, if_pos h]; rfl

theorem updatePrevTheta_shape {s : RegTherm} {a : NdArray} (h : a.shape ≠ [s.model.refined.toGrid.vertices.length]) :
    updatePrevTheta a s = (.error .valueError, s) := by
  rw [updatePrevTheta, PyS.get_bind, if_pos h]; rfl

theorem get_entry {A : List (List ℝ)} {n i j : ℕ} (hA : A.length = n) (hA6 : ∀ x ∈ A, x.length = 6) (hi : i < n)
    (hj : j < 6) : pyGet A i = .ok (A.getD i []) ∧ pyGet (A.getD i []) j = .ok ((A.getD i []).getD j 0) := by
  have l1 : (A.getD i []).length = 6 := by
    rw [List.getD_eq_getElem?_getD, List.getElem?_eq_getElem (by omega)]; exact hA6 _ (List.getElem_mem _)
  exact ⟨by rw [pyGet_ok (by omega)]; simp [List.getD, hA, hi], pyGet_getD' (by omega)⟩

theorem updatePrevY_eq {s : RegTherm} {n k : ℕ} (hs : s.WF n k) {A B : List (List ℝ)} (hA : A.length = n)
    (hB : B.length = n) (hA6 : ∀ x ∈ A, x.length = 6) (hB6 : ∀ x ∈ B, x.length = 6) :
    updatePrevY (pairs A B) s = (.ok (), { s with model := { s.model with prevY1 := A, prevY2 := B } }) := by
  have hh := NdArray.has_pairs3 hA hB hA6 hB6 hs.pos
  have hc := NdArray.block_pairs hA hB hA6 hB6 hs.pos
  set a : ℕ → ℕ → ℝ := fun i j => (A.getD i []).getD j 0 with ha
  set b : ℕ → ℕ → ℝ := fun i j => (B.getD i []).getD j 0 with hb
  rw [updatePrevY, PyS.get_bind, if_neg (by rw [hh.1, hs.vertices]; simp), hc.1, PyS.lift_ok_bind, hc.2,
    PyS.lift_ok_bind, onModel, PyS.onAttr_apply,
    RegMech.forEach_forEach_ok (fun i j (m : RegThermModel) => { m with
      prevY1 := set2 m.prevY1 i j fun _ => a (i - 1) (j - 1), prevY2 := set2 m.prevY2 i j fun _ => b (i - 1) (j - 1) })]
  · have inner : ∀ (i : ℕ) (js : List ℕ) (m : RegThermModel),
        js.foldl (fun (m : RegThermModel) j => { m with
          prevY1 := set2 m.prevY1 i j fun _ => a (i - 1) (j - 1)
          prevY2 := set2 m.prevY2 i j fun _ => b (i - 1) (j - 1) }) m =
        { m with
          prevY1 := js.foldl (fun l j => set2 l i j fun _ => a (i - 1) (j - 1)) m.prevY1
          prevY2 := js.foldl (fun l j => set2 l i j fun _ => b (i - 1) (j - 1)) m.prevY2 } := by
      intro i js
      induction js with
      | nil => intro m; rfl
      | cons x t ih => intro m; rw [List.foldl_cons, ih]; rfl
    have outer : ∀ (is js : List ℕ) (m : RegThermModel),
        is.foldl (fun (m : RegThermModel) i => js.foldl (fun (m : RegThermModel) j => { m with
          prevY1 := set2 m.prevY1 i j fun _ => a (i - 1) (j - 1)
          prevY2 := set2 m.prevY2 i j fun _ => b (i - 1) (j - 1) }) m) m =
        { m with
          prevY1 := is.foldl (fun l i => js.foldl (fun l j => set2 l i j fun _ => a (i - 1) (j - 1)) l) m.prevY1
          prevY2 := is.foldl (fun l i => js.foldl (fun l j => set2 l i j fun _ => b (i - 1) (j - 1)) l) m.prevY2 } := by
      intro is js
      induction is with
      | nil => intro m; rfl
      | cons x t ih => intro m; rw [List.foldl_cons, ih, inner]; rfl
    rw [outer, hs.vertices, RegMech.foldl_set2 (fun i j _ => a i j) _ hs.prevY1.1 hs.prevY1.2,
      RegMech.foldl_set2 (fun i j _ => b i j) _ hs.prevY2.1 hs.prevY2.2,
      RegMech.mapIdx_const (hA.trans hs.prevY1.1.symm) hA6 hs.prevY1.2,
      RegMech.mapIdx_const (hB.trans hs.prevY2.1.symm) hB6 hs.prevY2.2]
  · intro i hi j hj m
    obtain ⟨i', hi', rfl⟩ := List.mem_map.1 hi
    obtain ⟨j', hj', rfl⟩ := List.mem_map.1 hj
    rw [List.mem_range, hs.vertices] at hi'
    rw [List.mem_range] at hj'
    obtain ⟨e1, e2⟩ := get_entry hA hA6 hi' hj'
    obtain ⟨e3, e4⟩ := get_entry hB hB6 hi' hj'
    rw [Nat.add_sub_cancel, Nat.add_sub_cancel, e1, PyS.lift_ok_bind, e2, PyS.lift_ok_bind, PyS.modify_bind, e3,
      PyS.lift_ok_bind, e4, PyS.lift_ok_bind]
    rfl

theorem updateY_eq {s : RegTherm} {n k : ℕ} (hs : s.WF n k) {A B : List (List ℝ)} (hA : A.length = n)
    (hB : B.length = n) (hA6 : ∀ x ∈ A, x.length = 6) (hB6 : ∀ x ∈ B, x.length = 6) :
    updateY (pairs A B) s = (.ok (), { s with model := { s.model with y1 := A, y2 := B } }) := by
  have hh := NdArray.has_pairs3 hA hB hA6 hB6 hs.pos
  have hc := NdArray.block_pairs hA hB hA6 hB6 hs.pos
  set a : ℕ → ℕ → ℝ := fun i j => (A.getD i []).getD j 0 with ha
  set b : ℕ → ℕ → ℝ := fun i j => (B.getD i []).getD j 0 with hb
  rw [updateY, PyS.get_bind, if_neg (by rw [hh.1, hs.vertices]; simp), hc.1, PyS.lift_ok_bind, hc.2,
    PyS.lift_ok_bind, onModel, PyS.onAttr_apply,
    RegMech.forEach_forEach_ok (fun i j (m : RegThermModel) => { m with
      y1 := set2 m.y1 i j fun _ => a (i - 1) (j - 1), y2 := set2 m.y2 i j fun _ => b (i - 1) (j - 1) })]
  · have inner : ∀ (i : ℕ) (js : List ℕ) (m : RegThermModel),
        js.foldl (fun (m : RegThermModel) j => { m with
          y1 := set2 m.y1 i j fun _ => a (i - 1) (j - 1), y2 := set2 m.y2 i j fun _ => b (i - 1) (j - 1) }) m =
        { m with
          y1 := js.foldl (fun l j => set2 l i j fun _ => a (i - 1) (j - 1)) m.y1
          y2 := js.foldl (fun l j => set2 l i j fun _ => b (i - 1) (j - 1)) m.y2 } := by
      intro i js
      induction js with
      | nil => intro m; rfl
      | cons x t ih => intro m; rw [List.foldl_cons, ih]; rfl
    have outer : ∀ (is js : List ℕ) (m : RegThermModel),
        is.foldl (fun (m : RegThermModel) i => js.foldl (fun (m : RegThermModel) j => { m with
          y1 := set2 m.y1 i j fun _ => a (i - 1) (j - 1), y2 := set2 m.y2 i j fun _ => b (i - 1) (j - 1) }) m) m =
        { m with
          y1 := is.foldl (fun l i => js.foldl (fun l j => set2 l i j fun _ => a (i - 1) (j - 1)) l) m.y1
          y2 := is.foldl (fun l i => js.foldl (fun l j => set2 l i j fun _ => b (i - 1) (j - 1)) l) m.y2 } := by
      intro is js
      induction is with
      | nil => intro m; rfl
      | cons x t ih => intro m; rw [List.foldl_cons, ih, inner]; rfl
    rw [outer, hs.vertices, RegMech.foldl_set2 (fun i j _ => a i j) _ hs.y1.1 hs.y1.2,
      RegMech.foldl_set2 (fun i j _ => b i j) _ hs.y2.1 hs.y2.2,
      RegMech.mapIdx_const (hA.trans hs.y1.1.symm) hA6 hs.y1.2,
      RegMech.mapIdx_const (hB.trans hs.y2.1.symm) hB6 hs.y2.2]
  · intro i hi j hj m
    obtain ⟨i', hi', rfl⟩ := List.mem_map.1 hi
    obtain ⟨j', hj', rfl⟩ := List.mem_map.1 hj
    rw [List.mem_range, hs.vertices] at hi'
    rw [List.mem_range] at hj'
    obtain ⟨e1, e2⟩ := get_entry hA hA6 hi' hj'
    obtain ⟨e3, e4⟩ := get_entry hB hB6 hi' hj'
    rw [Nat.add_sub_cancel, Nat.add_sub_cancel, e1, PyS.lift_ok_bind, e2, PyS.lift_ok_bind, PyS.modify_bind, e3,
      PyS.lift_ok_bind, e4, PyS.lift_ok_bind]
    rfl

theorem updatePrevTheta_eq {s : RegTherm} {n k : ℕ} (hs : s.WF n k) {T : List ℝ} (hT : T.length = k)
    (h0 : ∀ x ∈ T, 0 ≤ x) :
    updatePrevTheta (NdArray.of1 T) s = (.ok (), { s with model := { s.model with
      prevTheta := T, theta := recentre s.searchRadius T s.model.theta } }) := by
  rw [updatePrevTheta, PyS.get_bind, if_neg (by simp [NdArray.of1, hT, hs.fine]), PyS.get_bind,
    hs.fine, onModel, PyS.onAttr_apply,
    PyS.forEach_ok (fun i (m : RegThermModel) => { m with
      prevTheta := m.prevTheta.set (i - 1) (T.getD (i - 1) 0)
      theta := m.theta.modify (i - 1) fun v =>
        ⟨T.getD (i - 1) 0, T.getD (i - 1) 0 - s.searchRadius, T.getD (i - 1) 0 + s.searchRadius, v.fixed⟩ })]
  · have : ∀ (vs : List ℕ) (m : RegThermModel), vs.foldl (fun (m : RegThermModel) i => { m with
        prevTheta := m.prevTheta.set (i - 1) (T.getD (i - 1) 0)
        theta := m.theta.modify (i - 1) fun v =>
          ⟨T.getD (i - 1) 0, T.getD (i - 1) 0 - s.searchRadius, T.getD (i - 1) 0 + s.searchRadius, v.fixed⟩ }) m =
        { m with
          prevTheta := vs.foldl (fun l i => l.set (i - 1) (T.getD (i - 1) 0)) m.prevTheta
          theta := vs.foldl (fun l i => l.modify (i - 1) fun v =>
            ⟨T.getD (i - 1) 0, T.getD (i - 1) 0 - s.searchRadius, T.getD (i - 1) 0 + s.searchRadius, v.fixed⟩) m.theta } := by
      intro vs
      induction vs with
      | nil => intro m; rfl
      | cons a t ih => intro m; rw [List.foldl_cons, ih]; rfl
    rw [this, RegMech.foldl_rangeSet, RegMech.foldl_rangeSet]
    simp only [Nat.add_sub_cancel]
    rw [foldl_set_range _ _ hs.prevTheta hT, foldl_modify_range _ _ hs.theta]
    rfl
  · intro i hi m
    obtain ⟨i, hi', rfl⟩ := List.mem_map.1 hi
    rw [List.mem_range] at hi'
    have hT' : 0 ≤ T.getD i 0 := by
      rw [List.getD_eq_getElem?_getD, List.getElem?_eq_getElem (by omega)]
      exact h0 _ (List.getElem_mem _)
    rw [NdArray.get1, show (NdArray.of1 T).data = T from rfl, Nat.add_sub_cancel, pyGet_getD' (by omega),
      PyS.lift_ok_bind]
    simp only [assignNonNeg, not_lt.2 hT', if_false, PyS.modify_bind, PyS.modify_apply, P1Mech.modify_modify]
    rfl

theorem updatePrevTheta_any {s : RegTherm} {n k : ℕ} (hs : s.WF n k) (a : NdArray) :
    ∃ T V, T.length = k ∧ V.length = k ∧ (∀ v ∈ V, v.fixed = false) ∧
      (updatePrevTheta a s).2 = { s with model := { s.model with prevTheta := T, theta := V } } := by
  by_cases h : a.shape = [s.model.refined.toGrid.vertices.length]
  · rw [updatePrevTheta, PyS.get_bind, if_neg (by simpa using h), PyS.get_bind, onModel, PyS.onAttr_apply]
    obtain ⟨T, V, h1, h2, h2', h3⟩ := PyS.forEach_inv (l := rangeSet s.model.refined.toGrid.vertices.length) (f := fun i => (do
      let x ← PyS.lift (a.get1 (i - 1))
      assignNonNeg x fun x m => { m with prevTheta := m.prevTheta.set (i - 1) x }
      assignNonNeg x fun x m => { m with theta := m.theta.modify (i - 1) (VarData.assign x) }
      PyS.modify fun m => { m with
        theta := m.theta.modify (i - 1) (VarData.setBounds (x - s.searchRadius) (x + s.searchRadius)) } :
        PyS RegThermModel Unit))
      (fun m => ∃ (T : List ℝ) (V : List VarData), T.length = k ∧ V.length = k ∧
        (∀ v ∈ V, v.fixed = false) ∧ m = { s.model with prevTheta := T, theta := V })
      (by
        rintro i hi m ⟨T, V, h1, h2, h2', rfl⟩
        rcases hx : a.get1 (i - 1) with e | x
        · rw [PyS.lift_err_bind]; exact ⟨T, V, h1, h2, h2', rfl⟩
        · rw [PyS.lift_ok_bind]
          by_cases h0 : x < 0
          · simp only [assignNonNeg, h0, if_true, PyS.raise_bind]
            exact ⟨T, V, h1, h2, h2', rfl⟩
          · simp only [assignNonNeg, h0, if_false, PyS.modify_bind, PyS.modify_apply]
            exact ⟨T.set (i - 1) x, (V.modify (i - 1) _).modify (i - 1) _, by simpa using h1, by simpa using h2,
              free_modify (f := VarData.setBounds (x - s.searchRadius) (x + s.searchRadius))
                (free_modify (f := VarData.assign x) h2' fun _ => rfl) fun _ => rfl, rfl⟩)
      s.model ⟨s.model.prevTheta, s.model.theta, hs.prevTheta, hs.theta, hs.free, rfl⟩
    exact ⟨T, V, h1, h2, h2', by rw [h3]⟩
  · rw [updatePrevTheta_shape h]; exact ⟨s.model.prevTheta, s.model.theta, hs.prevTheta, hs.theta, hs.free, rfl⟩

theorem updatePrevTheta_neg {s : RegTherm} {n k : ℕ} (hs : s.WF n k) {T : List ℝ} (hT : T.length = k)
    (h0 : ∃ x ∈ T, x < 0) : (updatePrevTheta (NdArray.of1 T) s).1 = .error .valueError := by
  rw [updatePrevTheta, PyS.get_bind, if_neg (by simp [NdArray.of1, hT, hs.fine]), PyS.get_bind,
    hs.fine, onModel, PyS.onAttr_apply]
  have key : ∀ (vs : List ℕ) (m : RegThermModel), (∀ i ∈ vs, i - 1 < k) → (∃ i ∈ vs, T.getD (i - 1) 0 < 0) →
      (PyS.forEach vs (fun i => (do
        let x ← PyS.lift ((NdArray.of1 T).get1 (i - 1))
        assignNonNeg x fun x m => { m with prevTheta := m.prevTheta.set (i - 1) x }
        assignNonNeg x fun x m => { m with theta := m.theta.modify (i - 1) (VarData.assign x) }
        PyS.modify fun m => { m with
          theta := m.theta.modify (i - 1) (VarData.setBounds (x - s.searchRadius) (x + s.searchRadius)) } :
        PyS RegThermModel Unit)) m).1 = .error .valueError := by
    intro vs
    induction vs with
    | nil => intro m _ h; obtain ⟨i, hi, _⟩ := h; simp at hi
    | cons a t ih =>
      intro m hv h
      have ha : a - 1 < k := hv a (by simp)
      rw [PyS.forEach_cons, NdArray.get1, show (NdArray.of1 T).data = T from rfl, pyGet_getD' (by omega),
        PyS.bind_apply, PyS.lift_ok_bind]
      by_cases hneg : T.getD (a - 1) 0 < 0
      · simp only [assignNonNeg, hneg, if_true, PyS.raise_bind]
      · simp only [assignNonNeg, hneg, if_false, PyS.modify_bind, PyS.modify_apply]
        refine ih _ (fun i hi => hv i (by simp [hi])) ?_
        obtain ⟨i, hi, hi'⟩ := h
        rcases List.mem_cons.1 hi with rfl | hi
        · exact absurd hi' hneg
        · exact ⟨i, hi, hi'⟩
  obtain ⟨x, hx, hx0⟩ := h0
  obtain ⟨i, hi, rfl⟩ := List.mem_iff_getElem.1 hx
  exact key (rangeSet k) s.model
    (fun i hi => by obtain ⟨j, hj, rfl⟩ := List.mem_map.1 hi; rw [List.mem_range] at hj; omega)
    ⟨i + 1, List.mem_map.2 ⟨i, by simpa [hT] using hi, rfl⟩, by simpa [List.getD, hi] using hx0⟩

theorem WF.of_model {s : RegTherm} {n k : ℕ} (hs : s.WF n k) {m : RegThermModel} (hm : m.WF n k) :
    ({ s with model := m } : RegTherm).WF n k := ⟨hm, hs.num⟩

theorem WF.updatePrevY {s : RegTherm} {n k : ℕ} (hs : s.WF n k) {a : NdArray} (ha : a.Ok) :
    (RegTherm.updatePrevY a s).2.WF n k := by
  by_cases h : a.shape = [s.model.grid.vertices.length, 2, 6]
  · rw [hs.vertices] at h
    obtain ⟨A, B, hA, hB, hA6, hB6, rfl⟩ := NdArray.exists_blocks ⟨h, ha⟩ hs.pos
    rw [updatePrevY_eq hs hA hB hA6 hB6]
    exact hs.of_model ⟨hs.pos, hs.vertices, hs.fine, ⟨hA, hA6⟩, ⟨hB, hB6⟩, hs.y1, hs.y2, hs.prevTheta, hs.theta, hs.free⟩
  · rw [updatePrevY_shape h]; exact hs

theorem WF.updateY {s : RegTherm} {n k : ℕ} (hs : s.WF n k) {a : NdArray} (ha : a.Ok) :
    (RegTherm.updateY a s).2.WF n k := by
  by_cases h : a.shape = [s.model.grid.vertices.length, 2, 6]
  · rw [hs.vertices] at h
    obtain ⟨A, B, hA, hB, hA6, hB6, rfl⟩ := NdArray.exists_blocks ⟨h, ha⟩ hs.pos
    rw [updateY_eq hs hA hB hA6 hB6]
    exact hs.of_model ⟨hs.pos, hs.vertices, hs.fine, hs.prevY1, hs.prevY2, ⟨hA, hA6⟩, ⟨hB, hB6⟩, hs.prevTheta, hs.theta, hs.free⟩
  · rw [updateY_shape h]; exact hs

theorem WF.updatePrevTheta {s : RegTherm} {n k : ℕ} (hs : s.WF n k) (a : NdArray) :
    (RegTherm.updatePrevTheta a s).2.WF n k := by
  obtain ⟨T, V, h1, h2, h2', h3⟩ := updatePrevTheta_any hs a
  rw [h3]
  exact hs.of_model ⟨hs.pos, hs.vertices, hs.fine, hs.prevY1, hs.prevY2, hs.y1, hs.y2, h1, h2, h2'⟩

end RegTherm

end Tve
