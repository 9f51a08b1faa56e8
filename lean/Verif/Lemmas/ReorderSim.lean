import Verif.Lemmas.ReorderStep

/-! Simulations that differ only in the order of the boundary lists. -/

namespace Tve

/-! ### creating models -/

theorem pySet_perm {α : Type} [DecidableEq α] {l l' : List α} (h : l.Perm l') : (pySet l).Perm (pySet l') :=
  (List.perm_ext_iff_of_nodup (nodup_pySet l) (nodup_pySet l')).2 fun a => by rw [mem_pySet, mem_pySet, h.mem_iff]

theorem modify_comm {α : Type} (l : List α) (f : α → α) (i j : ℕ) :
    (l.modify i f).modify j f = (l.modify j f).modify i f := by
  apply List.ext_getElem?
  intro k
  simp only [List.getElem?_modify]
  cases l[k]? <;> simp <;> split_ifs <;> rfl

theorem fixVertices_perm {vs vs' : List Vertex} (h : vs.Perm vs') (l : List VarData) :
    fixVertices vs l = fixVertices vs' l := by
  unfold fixVertices
  exact h.foldl_eq' (fun x _ y _ z => (modify_comm z _ y x).symm ▸ rfl) l

theorem fixValues_perm {vs vs' : List Vertex} (h : vs.Perm vs') (l : List (List VarData)) :
    fixValues vs l = fixValues vs' l := by
  unfold fixValues
  exact h.foldl_eq' (fun x _ y _ z => (modify_comm z _ y x).symm ▸ rfl) l

theorem PyWeak.ok_left {α β : Type} {R : α → β → Prop} {x : PyM α} {y : PyM β} (h : PyWeak R x y) {a : α} (hx : x = .ok a) :
    ∃ b, y = .ok b ∧ R a b := by
  subst hx
  cases h with
  | ok h => exact ⟨_, rfl, h⟩

theorem PyWeak.bind_eq {α γ δ : Type} {S : γ → δ → Prop} {x : PyM α} {f : α → PyM γ} {g : α → PyM δ}
    (hf : ∀ a, PyWeak S (f a) (g a)) : PyWeak S (x >>= f) (x >>= g) := by
  cases x with
  | ok a => exact hf a
  | error e => exact .err e e

/-- the relation between dictionaries of tractions -/
def TractionRel (nv nv' : List Vertex) (d d' : PyDict Vertex ℝ) : Prop :=
  d.items.Perm d'.items ∧ d.items.map Prod.fst = nv ∧ d'.items.map Prod.fst = nv'

theorem pyMap_fst {nv : List Vertex} {F : Vertex → PyM ℝ} {r : List (Vertex × ℝ)}
    (h : pyMap nv (fun i => do let v ← F i; return (i, v)) = .ok r) : r.map Prod.fst = nv := by
  rw [pyMap_ok_iff] at h
  induction h with
  | nil => rfl
  | @cons a b l l' h1 _ ih =>
    rw [List.map_cons, ih]
    cases hF : F a with
    | error e => rw [hF] at h1; cases h1
    | ok v => rw [hF] at h1; cases h1; rfl

theorem tractionParam_rel {g g' : Grid ℝ} (h : g.Reordered g') {nv nv' : List Vertex} (hnv : nv.Perm nv')
    (tr : ℝ → ℝ → PyM (List ℝ)) (k : ℕ) :
    PyWeak (TractionRel nv nv') (tractionParam g nv tr k) (tractionParam g' nv' tr k) := by
  have e : ∀ (g : Grid ℝ) nv, tractionParam g nv tr k =
      (pyMap nv fun i => do
        let v ← (do let (x, y) ← pointArgs g i; let t ← tr x y; pyGet t k)
        return (i, v)) >>= fun items => .ok ⟨items⟩ := by
    intro g nv
    unfold tractionParam
    congr 1
    congr 1
    funext i
    simp only [bind_assoc]
  have hp : pointArgs g' = pointArgs g := by rw [h.retag_eq]; rfl
  rw [e, e, hp]
  have w := pyMap_perm hnv (fun i => do
        let v ← (do let (x, y) ← pointArgs g i; let t ← tr x y; pyGet t k)
        return (i, v))
  generalize h1 : pyMap nv (fun i => do
        let v ← (do let (x, y) ← pointArgs g i; let t ← tr x y; pyGet t k)
        return (i, v)) = X at w ⊢
  generalize h2 : pyMap nv' (fun i => do
        let v ← (do let (x, y) ← pointArgs g i; let t ← tr x y; pyGet t k)
        return (i, v)) = Y at w ⊢
  cases w with
  | err e e' => exact .err _ _
  | ok hw => exact .ok ⟨hw, pyMap_fst h1, pyMap_fst h2⟩

/-- the relation between models of the mechanical step without regularization -/
structure P1MechModel.Rel (N : List Vertex) (m m' : P1MechModel) : Prop where
  nv : m.neumannVertices = N
  same : (Problem.mechP1 m).Same (.mechP1 m')
  k1 : m.g1.items.map Prod.fst = m.neumannVertices
  k2 : m.g2.items.map Prod.fst = m.neumannVertices
  k1' : m'.g1.items.map Prod.fst = m'.neumannVertices
  k2' : m'.g2.items.map Prod.fst = m'.neumannVertices

theorem P1MechModel_new_rel {g g' : Grid ℝ} (h : g.Reordered g') (a b c : ℝ) (tr : ℝ → ℝ → PyM (List ℝ)) :
    PyWeak (P1MechModel.Rel (pySet g.neumann.vertices))
      (P1MechModel.new g a b c tr) (P1MechModel.new g' a b c tr) := by
  unfold P1MechModel.new
  simp only
  rw [← h.vertices, ← h.points]
  refine PyWeak.bind_eq fun y1 => PyWeak.bind_eq fun y2 => PyWeak.bind_eq fun th => ?_
  refine (tractionParam_rel h (pySet_perm h.neumann.1) tr 0).bind fun d1 d1' h1 => ?_
  refine (tractionParam_rel h (pySet_perm h.neumann.1) tr 1).bind fun d2 d2' h2 => ?_
  rw [fixVertices_perm (pySet_perm h.dirichlet.1), fixVertices_perm (pySet_perm h.dirichlet.1)]
  have n1 : (d1.items.map Prod.fst).Nodup := by rw [h1.2.1]; exact nodup_pySet _
  have n2 : (d2.items.map Prod.fst).Nodup := by rw [h2.2.1]; exact nodup_pySet _
  refine (P1Interpolation_rel h _).weak.bind fun _ _ _ => (P1Interpolation_rel h _).weak.bind fun _ _ _ =>
    (P1Interpolation_rel h _).weak.bind fun _ _ _ => (P1Interpolation_rel h _).weak.bind fun _ _ _ =>
    (P1Interpolation_rel h _).weak.bind fun _ _ _ => (P1BoundaryInterp_rel h.neumann h1.1 n1).weak.bind fun _ _ _ =>
    (P1BoundaryInterp_rel h.neumann h2.1 n2).weak.bind fun _ _ _ => .ok ⟨rfl, ?_, h1.2.1, h2.2.1, h1.2.2, h2.2.2⟩
  exact .mechP1 h rfl (pySet_perm h.neumann.1) rfl rfl rfl h1.1 h2.1 n1 n2 rfl rfl

theorem RegMechModel_new_rel {g g' : Grid ℝ} (h : g.Reordered g') {r r' : RefinedGrid ℝ} (hr : r.Reordered r') (a b c d : ℝ) :
    PyWeak (fun m m' => (Problem.mechReg m).Same (.mechReg m'))
      (RegMechModel.new g r a b c d) (RegMechModel.new g' r' a b c d) := by
  unfold RegMechModel.new
  simp only
  rw [← h.vertices, ← h.points, ← hr.fine.vertices]
  refine PyWeak.bind_eq fun i1 => PyWeak.bind_eq fun i2 => PyWeak.bind_eq fun y1 => PyWeak.bind_eq fun y2 =>
    PyWeak.bind_eq fun th => ?_
  rw [fixValues_perm h.dirichlet.1, fixValues_perm h.dirichlet.1]
  have hev : g'.edgeVertices = g.edgeVertices := by rw [h.retag_eq]; rfl
  rw [hev]
  refine (pyMap_perm h.dirichlet.2 _).bind fun _ _ _ => ?_
  refine (C1Interpolation_rel h _).weak.bind fun _ _ _ => (C1Interpolation_rel h _).weak.bind fun _ _ _ =>
    (P1Interpolation_rel hr.fine _).weak.bind fun _ _ _ => (C1Interpolation_rel h _).weak.bind fun _ _ _ =>
    (C1Interpolation_rel h _).weak.bind fun _ _ _ => .ok (.mechReg h hr rfl rfl rfl rfl rfl rfl rfl)

/-- the relation between mechanical steps; the traction is defined at the Neumann vertices -/
inductive MechStep.Rel (N : List Vertex) : MechStep → MechStep → Prop
  | p1 {s s' : P1Mech} (num : s.numVertices = s'.numVertices) (radius : s.searchRadius = s'.searchRadius)
      (traction : s.traction = s'.traction) (grid : s.grid.Reordered s'.grid)
      (ok : (∀ v ∈ N, ∃ p, pointArgs s.grid v = .ok p) ∧ ∀ t x y, ∃ a b, s.traction t x y = .ok [a, b])
      (model : P1MechModel.Rel N s.model s'.model) : MechStep.Rel N (.p1 s) (.p1 s')
  | reg {s s' : RegMech} (num : s.numVertices = s'.numVertices) (radius : s.searchRadius = s'.searchRadius)
      (model : (Problem.mechReg s.model).Same (.mechReg s'.model)) : MechStep.Rel N (.reg s) (.reg s')

theorem mechanicalStep_rel {g g' : Grid ℝ} (h : g.Reordered g') {r r' : Option (RefinedGrid ℝ)}
    (hr : Option.Rel RefinedGrid.Reordered r r') (params : MechParams) (tr : Traction)
    (hp : ∀ v ∈ g.neumann.vertices, ∃ p, pointArgs g v = .ok p) (ht : params.regularization = none → ∀ t x y, ∃ a b, tr t x y = .ok [a, b]) :
    PyWeak (MechStep.Rel (pySet g.neumann.vertices)) (mechanicalStep g params r tr) (mechanicalStep g' params r' tr) := by
  unfold mechanicalStep
  split
  · rename_i hreg
    unfold P1Mech.new
    rw [← h.vertices, bind_assoc, bind_assoc]
    exact (P1MechModel_new_rel h _ _ _ _).bind fun m m' hm =>
      .ok (.p1 rfl rfl rfl h ⟨fun v hv => hp v (mem_pySet.1 hv), ht hreg⟩ hm)
  · cases hr with
    | none => exact .err _ _
    | some hr =>
      simp only [RegMech.new]
      rw [← h.vertices, bind_assoc, bind_assoc]
      exact (RegMechModel_new_rel h hr _ _ _ _).bind fun m m' hm => .ok (.reg rfl rfl hm)

/-- the relation between thermal steps -/
inductive ThermStep.Rel : ThermStep → ThermStep → Prop
  | p1 {s s' : P1Therm} (num : s.numVertices = s'.numVertices) (radius : s.searchRadius = s'.searchRadius)
      (ext : s.externalTemperature = s'.externalTemperature)
      (model : (Problem.thermP1 s.model).Same (.thermP1 s'.model)) : ThermStep.Rel (.p1 s) (.p1 s')
  | reg {s s' : RegTherm} (num : s.numVertices = s'.numVertices) (radius : s.searchRadius = s'.searchRadius)
      (model : (Problem.thermReg s.model).Same (.thermReg s'.model)) : ThermStep.Rel (.reg s) (.reg s')

theorem thermalStep_rel {g g' : Grid ℝ} (h : g.Reordered g') {r r' : Option (RefinedGrid ℝ)}
    (hr : Option.Rel RefinedGrid.Reordered r r') (a b c : NdArray) (params : ThermParams) (ext : ExtTemp) :
    PyRel ThermStep.Rel (thermalStep g a b c params ext r) (thermalStep g' a b c params ext r') := by
  unfold thermalStep
  split
  · simp only [P1Therm.new, P1ThermModel.new, bind_assoc]
    rw [← h.vertices]
    refine .bind_eq fun e => .bind_eq fun _ => .bind_eq fun _ => .bind_eq fun _ => .bind_eq fun _ => .bind_eq fun _ =>
      .bind_eq fun y1 => .bind_eq fun y2 => .bind_eq fun _ => .bind_eq fun _ => .bind_eq fun _ => .bind_eq fun th => ?_
    split_ifs
    · exact .err _
    simp only [bind_ok, bind_assoc]
    exact (P1_deformation_rel h _ _).bind fun _ _ _ => (P1_deformation_rel h _ _).bind fun _ _ _ =>
      (P1Interpolation_rel h _).bind fun _ _ _ => (P1Interpolation_rel h _).bind fun _ _ _ =>
      .ok (.p1 rfl rfl rfl (.thermP1 h rfl))
  · cases hr with
    | none => exact .err _
    | some hr =>
      simp only [RegTherm.new, RegThermModel.new, bind_assoc]
      rw [← h.vertices, ← hr.fine.vertices]
      refine .bind_eq fun e => .bind_eq fun _ => .bind_eq fun _ => .bind_eq fun _ => .bind_eq fun _ => .bind_eq fun _ =>
        .bind_eq fun _ => ?_
      exact (Reg_deformation_rel h hr _ _).bind fun _ _ _ => (Reg_deformation_rel h hr _ _).bind fun _ _ _ =>
        (P1Interpolation_rel hr.fine _).bind fun _ _ _ => (P1Interpolation_rel hr.fine _).bind fun _ _ _ =>
        .ok (.reg rfl rfl (.thermReg h hr rfl))

/-! ### the methods of the steps -/

variable {N : List Vertex}

theorem P1MechModel.Rel.modify {m m' : P1MechModel} (h : P1MechModel.Rel N m m') {a b t : List ℝ → List ℝ} {u v : List VarData → List VarData} :
    P1MechModel.Rel N
      { m with prevY1 := a m.prevY1, prevY2 := b m.prevY2, prevTheta := t m.prevTheta, y1 := u m.y1, y2 := v m.y2 }
      { m' with prevY1 := a m'.prevY1, prevY2 := b m'.prevY2, prevTheta := t m'.prevTheta, y1 := u m'.y1, y2 := v m'.y2 } := by
  obtain ⟨nv, hs, k1, k2, k1', k2'⟩ := h
  refine ⟨nv, ?_, k1, k2, k1', k2'⟩
  cases hs with
  | mechP1 grid fps neumann prevY1 prevY2 prevTheta g1 g2 keys1 keys2 y1 y2 =>
    exact .mechP1 grid fps neumann (by simp only [prevY1]) (by simp only [prevY2]) (by simp only [prevTheta]) g1 g2 keys1 keys2
      (by simp only [y1]) (by simp only [y2])

theorem RegMech_modify {m m' : RegMechModel} (h : (Problem.mechReg m).Same (.mechReg m'))
    {a b : List (List ℝ) → List (List ℝ)} {t : List ℝ → List ℝ} {u v : List (List VarData) → List (List VarData)} :
    (Problem.mechReg
      { m with prevY1 := a m.prevY1, prevY2 := b m.prevY2, prevTheta := t m.prevTheta, y1 := u m.y1, y2 := v m.y2 }).Same
    (.mechReg
      { m' with prevY1 := a m'.prevY1, prevY2 := b m'.prevY2, prevTheta := t m'.prevTheta, y1 := u m'.y1, y2 := v m'.y2 }) := by
  cases h with
  | mechReg grid refined fps reg prevY1 prevY2 prevTheta y1 y2 =>
    exact .mechReg grid refined fps reg (by simp only [prevY1]) (by simp only [prevY2]) (by simp only [prevTheta])
      (by simp only [y1]) (by simp only [y2])

theorem P1MechModel.Rel.grid {m m' : P1MechModel} (h : P1MechModel.Rel N m m') : m.grid.Reordered m'.grid := by
  obtain ⟨-, hs, -, -, -, -⟩ := h
  cases hs with
  | mechP1 grid => exact grid

theorem P1MechModel.Rel.neumann {m m' : P1MechModel} (h : P1MechModel.Rel N m m') : m.neumannVertices.Perm m'.neumannVertices := by
  obtain ⟨-, hs, -, -, -, -⟩ := h
  cases hs with
  | mechP1 grid fps neumann => exact neumann

theorem MechStep.Rel.problem {s s' : MechStep} (h : MechStep.Rel N s s') : s.problem.Same s'.problem := by
  cases h with
  | p1 num radius traction grid ok model => exact model.same
  | reg num radius model => exact model

theorem MechStep.Rel.prevY {s s' : MechStep} (h : MechStep.Rel N s s') : s.prevY = s'.prevY := by
  cases h with
  | p1 num radius traction grid ok model =>
    have := model.same
    cases this with
    | mechP1 grid fps neumann prevY1 prevY2 => simp only [MechStep.prevY, P1Mech.prevY, prevY1, prevY2]
  | reg num radius model =>
    cases model with
    | mechReg grid refined fps reg prevY1 prevY2 => simp only [MechStep.prevY, RegMech.prevY, prevY1, prevY2]

theorem MechStep.Rel.y {s s' : MechStep} (h : MechStep.Rel N s s') : s.y = s'.y := by
  cases h with
  | p1 num radius traction grid ok model =>
    have := model.same
    cases this with
    | mechP1 grid fps neumann prevY1 prevY2 prevTheta g1 g2 k1 k2 y1 y2 => simp only [MechStep.y, P1Mech.y, y1, y2]
  | reg num radius model =>
    cases model with
    | mechReg grid refined fps reg prevY1 prevY2 prevTheta y1 y2 => simp only [MechStep.y, RegMech.y, y1, y2]

theorem MechStep.Rel.prevTheta {s s' : MechStep} (h : MechStep.Rel N s s') : s.prevTheta = s'.prevTheta := by
  cases h with
  | p1 num radius traction grid ok model =>
    have := model.same
    cases this with
    | mechP1 grid fps neumann prevY1 prevY2 prevTheta => simp only [MechStep.prevTheta, P1Mech.prevTheta, prevTheta]
  | reg num radius model =>
    cases model with
    | mechReg grid refined fps reg prevY1 prevY2 prevTheta => simp only [MechStep.prevTheta, RegMech.prevTheta, prevTheta]

theorem MechStep.Rel.load {s s' : MechStep} (h : MechStep.Rel N s s') (o : Outcome) : MechStep.Rel N (s.load o) (s'.load o) := by
  cases h with
  | p1 num radius traction grid ok model => exact .p1 num radius traction grid ok (model.modify (a := id) (b := id) (t := id))
  | reg num radius model => exact .reg num radius (RegMech_modify model (a := id) (b := id) (t := id))

/-- the relation between mechanical steps without regularization -/
structure P1Mech.Rel (N : List Vertex) (s s' : P1Mech) : Prop where
  num : s.numVertices = s'.numVertices
  radius : s.searchRadius = s'.searchRadius
  traction : s.traction = s'.traction
  grid : s.grid.Reordered s'.grid
  ok : (∀ v ∈ N, ∃ p, pointArgs s.grid v = .ok p) ∧ ∀ t x y, ∃ a b, s.traction t x y = .ok [a, b]
  model : P1MechModel.Rel N s.model s'.model

/-- the relation between mechanical steps with regularization -/
structure RegMech.Rel (s s' : RegMech) : Prop where
  num : s.numVertices = s'.numVertices
  radius : s.searchRadius = s'.searchRadius
  model : (Problem.mechReg s.model).Same (.mechReg s'.model)

theorem RegMech.Rel.grid {s s' : RegMech} (h : s.Rel s') : s.model.grid.Reordered s'.model.grid := by
  obtain ⟨-, -, h⟩ := h
  cases h with
  | mechReg grid => exact grid

theorem RegMech.Rel.refined {s s' : RegMech} (h : s.Rel s') : s.model.refined.Reordered s'.model.refined := by
  obtain ⟨-, -, h⟩ := h
  cases h with
  | mechReg grid refined => exact refined

theorem P1Mech_onModel {α : Type} {f f' : PyS P1MechModel α} (h : PySRel (P1MechModel.Rel N) f f') :
    PySRel (P1Mech.Rel N) (P1Mech.onModel f) (P1Mech.onModel f') :=
  h.onAttr (fun _ _ h => h.model) fun _ _ _ _ h hm => ⟨h.num, h.radius, h.traction, h.grid, h.ok, hm⟩

theorem RegMech_onModel {α : Type} {f f' : PyS RegMechModel α}
    (h : PySRel (fun m m' => (Problem.mechReg m).Same (.mechReg m')) f f') :
    PySRel RegMech.Rel (RegMech.onModel f) (RegMech.onModel f') :=
  h.onAttr (fun _ _ h => h.model) fun _ _ _ _ h hm => ⟨h.num, h.radius, hm⟩

theorem P1Mech_updatePrevY (a : NdArray) : PySRel (P1Mech.Rel N) (P1Mech.updatePrevY a) (P1Mech.updatePrevY a) := by
  refine (PySRel.get fun _ _ h => h.num).bind fun n => ?_
  split_ifs
  · exact .raise _
  refine (PySRel.lift _).bind fun a1 => (PySRel.lift _).bind fun a2 => (PySRel.get fun _ _ h => h.radius).bind fun r =>
    (PySRel.get fun _ _ h => h.model.grid.vertices).bind fun vs => P1Mech_onModel (.forEach _ fun i => ?_)
  refine (PySRel.lift _).bind fun x => (PySRel.modify ?_).bind fun _ => (PySRel.lift _).bind fun y =>
    (PySRel.modify ?_).bind fun _ => (PySRel.modify ?_).bind fun _ => (PySRel.modify ?_).bind fun _ =>
    (PySRel.modify ?_).bind fun _ => PySRel.modify ?_
  · exact fun _ _ h => h.modify (a := fun l => l.set i x) (b := id) (t := id) (u := id) (v := id)
  · exact fun _ _ h => h.modify (b := fun l => l.set i y) (a := id) (t := id) (u := id) (v := id)
  · exact fun _ _ h => h.modify (u := fun l => l.modify i _) (a := id) (b := id) (t := id) (v := id)
  · exact fun _ _ h => h.modify (u := fun l => l.modify i _) (a := id) (b := id) (t := id) (v := id)
  · exact fun _ _ h => h.modify (v := fun l => l.modify i _) (a := id) (b := id) (t := id) (u := id)
  · exact fun _ _ h => h.modify (v := fun l => l.modify i _) (a := id) (b := id) (t := id) (u := id)

theorem P1Mech_updatePrevTheta (a : NdArray) : PySRel (P1Mech.Rel N) (P1Mech.updatePrevTheta a) (P1Mech.updatePrevTheta a) := by
  refine (PySRel.get fun _ _ h => h.num).bind fun n => ?_
  split_ifs
  · exact .raise _
  refine (PySRel.get fun _ _ h => h.model.grid.vertices).bind fun vs => P1Mech_onModel (.forEach _ fun i => ?_)
  exact (PySRel.lift _).bind fun x => .assignNonNeg fun _ _ h =>
    h.modify (t := fun l => l.set i x) (a := id) (b := id) (u := id) (v := id)

theorem RegMech_updatePrevY (a : NdArray) : PySRel RegMech.Rel (RegMech.updatePrevY a) (RegMech.updatePrevY a) := by
  refine (PySRel.get fun _ _ h => by rw [h.grid.vertices]).bind fun n => ?_
  split_ifs
  · exact .raise _
  refine (PySRel.lift _).bind fun a1 => (PySRel.lift _).bind fun a2 => (PySRel.get fun _ _ h => h.radius).bind fun r =>
    RegMech_onModel (.forEach _ fun i => .forEach _ fun j => ?_)
  refine (PySRel.lift _).bind fun _ => (PySRel.lift _).bind fun x => (PySRel.modify ?_).bind fun _ =>
    (PySRel.lift _).bind fun _ => (PySRel.lift _).bind fun y =>
    (PySRel.modify ?_).bind fun _ => (PySRel.modify ?_).bind fun _ => (PySRel.modify ?_).bind fun _ =>
    (PySRel.modify ?_).bind fun _ => PySRel.modify ?_
  · exact fun _ _ h => RegMech_modify h (a := fun l => RegMech.set2 l i j _) (b := id) (t := id) (u := id) (v := id)
  · exact fun _ _ h => RegMech_modify h (b := fun l => RegMech.set2 l i j _) (a := id) (t := id) (u := id) (v := id)
  · exact fun _ _ h => RegMech_modify h (u := fun l => RegMech.set2 l i j _) (a := id) (b := id) (t := id) (v := id)
  · exact fun _ _ h => RegMech_modify h (u := fun l => RegMech.set2 l i j _) (a := id) (b := id) (t := id) (v := id)
  · exact fun _ _ h => RegMech_modify h (v := fun l => RegMech.set2 l i j _) (a := id) (b := id) (t := id) (u := id)
  · exact fun _ _ h => RegMech_modify h (v := fun l => RegMech.set2 l i j _) (a := id) (b := id) (t := id) (u := id)

theorem RegMech_updatePrevTheta (a : NdArray) : PySRel RegMech.Rel (RegMech.updatePrevTheta a) (RegMech.updatePrevTheta a) := by
  refine (PySRel.get fun _ _ h => by rw [h.refined.fine.vertices]).bind fun n => ?_
  split_ifs
  · exact .raise _
  refine RegMech_onModel (.forEach _ fun i => ?_)
  exact (PySRel.lift _).bind fun x => .assignNonNeg fun _ _ h =>
    RegMech_modify h (t := fun l => l.set (i - 1) x) (a := id) (b := id) (u := id) (v := id)

theorem MechStep_dispatch {α : Type} {f : PyS P1Mech α} {g : PyS RegMech α} (hf : PySRel (P1Mech.Rel N) f f)
    (hg : PySRel RegMech.Rel g g) : PySRel (MechStep.Rel N) (MechStep.dispatch f g) (MechStep.dispatch f g) := by
  intro s s' h
  cases h with
  | p1 num radius traction grid ok model =>
    obtain ⟨h1, h2⟩ := hf _ _ ⟨num, radius, traction, grid, ok, model⟩
    exact ⟨h1, .p1 h2.num h2.radius h2.traction h2.grid h2.ok h2.model⟩
  | reg num radius model =>
    obtain ⟨h1, h2⟩ := hg _ _ ⟨num, radius, model⟩
    exact ⟨h1, .reg h2.num h2.radius h2.model⟩

theorem MechStep_updateBoundaryTraction (time : ℝ) :
    PySRel (MechStep.Rel N) (MechStep.updateBoundaryTraction time) (MechStep.updateBoundaryTraction time) := by
  intro s s' h
  cases h with
  | reg num radius model => exact ⟨rfl, .reg num radius model⟩
  | @p1 s s' num radius traction grid ok model =>
    obtain ⟨hp, htr⟩ := ok
    have nv := model.nv
    subst nv
    have key : ∀ v, ∃ a b, v ∈ s.model.neumannVertices → ∃ p, pointArgs s.grid v = .ok p ∧ s.traction time p.1 p.2 = .ok [a, b] := by
      intro v
      by_cases hv : v ∈ s.model.neumannVertices
      · obtain ⟨p, h1⟩ := hp v hv
        obtain ⟨a, b, h2⟩ := htr time p.1 p.2
        exact ⟨a, b, fun _ => ⟨p, h1, h2⟩⟩
      · exact ⟨0, 0, fun h => absurd h hv⟩
    choose G1 G2 hG using key
    have hpa : pointArgs s'.grid = pointArgs s.grid := by rw [grid.retag_eq]; rfl
    have hn : s.model.neumannVertices.Nodup := by
      have := model.same
      rw [← model.k1]
      cases this with
      | mechP1 _ _ _ _ _ _ _ _ keys1 => exact keys1
    have hn' : s'.model.neumannVertices.Nodup := model.neumann.nodup_iff.1 hn
    have e := P1Mech.updateBoundaryTraction_keys model.k1 model.k2 hn G1 G2 hG
    have e' := P1Mech.updateBoundaryTraction_keys (s := s') (time := time) model.k1' model.k2' hn' G1 G2 (fun v hv => by
      rw [hpa, ← traction]; exact hG v (model.neumann.mem_iff.2 hv))
    show (P1Mech.updateBoundaryTraction time s).1 = (P1Mech.updateBoundaryTraction time s').1 ∧
      MechStep.Rel _ (.p1 (P1Mech.updateBoundaryTraction time s).2) (.p1 (P1Mech.updateBoundaryTraction time s').2)
    rw [e, e']
    have hk : ∀ (l : List Vertex) (G : Vertex → ℝ), (l.map fun i => (i, G i)).map Prod.fst = l := by
      intro l G; rw [List.map_map]; exact List.map_id _
    refine ⟨rfl, .p1 num radius traction grid ⟨hp, htr⟩ ⟨rfl, ?_, hk _ _, hk _ _, hk _ _, hk _ _⟩⟩
    have := model.same
    cases this with
    | mechP1 grid fps neumann prevY1 prevY2 prevTheta g1 g2 keys1 keys2 y1 y2 =>
      exact .mechP1 grid fps neumann prevY1 prevY2 prevTheta (neumann.map _) (neumann.map _) ((hk _ _).symm ▸ hn) ((hk _ _).symm ▸ hn) y1 y2

/-- the relation between thermal models without regularization -/
def P1ThermModel.Rel (m m' : P1ThermModel) : Prop := (Problem.thermP1 m).Same (.thermP1 m')

/-- the relation between thermal models with regularization -/
def RegThermModel.Rel (m m' : RegThermModel) : Prop := (Problem.thermReg m).Same (.thermReg m')

theorem P1ThermModel.Rel.iff {m m' : P1ThermModel} : m.Rel m' ↔ ∃ g, m.grid.Reordered g ∧ m' = { m with grid := g } := by
  constructor
  · intro h
    cases h with
    | thermP1 grid rest => exact ⟨_, grid, rest⟩
  · rintro ⟨g, h1, h2⟩
    exact .thermP1 h1 h2

theorem RegThermModel.Rel.iff {m m' : RegThermModel} :
    m.Rel m' ↔ ∃ g r, m.grid.Reordered g ∧ m.refined.Reordered r ∧ m' = { m with grid := g, refined := r } := by
  constructor
  · intro h
    cases h with
    | thermReg grid refined rest => exact ⟨_, _, grid, refined, rest⟩
  · rintro ⟨g, r, h1, h2, h3⟩
    exact .thermReg h1 h2 h3

theorem P1Therm_modify {f : P1ThermModel → P1ThermModel} (hf : ∀ m g, f { m with grid := g } = { f m with grid := g })
    (hg : ∀ m, (f m).grid = m.grid) (m m' : P1ThermModel) (h : m.Rel m') : (f m).Rel (f m') := by
  obtain ⟨g, h1, rfl⟩ := P1ThermModel.Rel.iff.1 h
  exact P1ThermModel.Rel.iff.2 ⟨g, by rw [hg]; exact h1, hf m g⟩

theorem RegTherm_modify {f : RegThermModel → RegThermModel}
    (hf : ∀ m g r, f { m with grid := g, refined := r } = { f m with grid := g, refined := r })
    (hg : ∀ m, (f m).grid = m.grid) (hr : ∀ m, (f m).refined = m.refined) (m m' : RegThermModel) (h : m.Rel m') :
    (f m).Rel (f m') := by
  obtain ⟨g, r, h1, h2, rfl⟩ := RegThermModel.Rel.iff.1 h
  exact RegThermModel.Rel.iff.2 ⟨g, r, by rw [hg]; exact h1, by rw [hr]; exact h2, hf m g r⟩

/-- the relation between thermal steps without regularization -/
structure P1Therm.Rel (s s' : P1Therm) : Prop where
  num : s.numVertices = s'.numVertices
  radius : s.searchRadius = s'.searchRadius
  ext : s.externalTemperature = s'.externalTemperature
  model : s.model.Rel s'.model

/-- the relation between thermal steps with regularization -/
structure RegTherm.Rel (s s' : RegTherm) : Prop where
  num : s.numVertices = s'.numVertices
  radius : s.searchRadius = s'.searchRadius
  model : s.model.Rel s'.model

theorem P1Therm.Rel.vertices {s s' : P1Therm} (h : s.Rel s') : s.model.grid.vertices = s'.model.grid.vertices := by
  obtain ⟨g, h1, h2⟩ := P1ThermModel.Rel.iff.1 h.model
  rw [h2]; exact h1.vertices

theorem RegTherm.Rel.vertices {s s' : RegTherm} (h : s.Rel s') : s.model.grid.vertices = s'.model.grid.vertices := by
  obtain ⟨g, r, h1, h2, h3⟩ := RegThermModel.Rel.iff.1 h.model
  rw [h3]; exact h1.vertices

theorem RegTherm.Rel.fineVertices {s s' : RegTherm} (h : s.Rel s') :
    s.model.refined.toGrid.vertices = s'.model.refined.toGrid.vertices := by
  obtain ⟨g, r, h1, h2, h3⟩ := RegThermModel.Rel.iff.1 h.model
  rw [h3]; exact h2.fine.vertices

theorem P1Therm_onModel {α : Type} {f f' : PyS P1ThermModel α} (h : PySRel P1ThermModel.Rel f f') :
    PySRel P1Therm.Rel (P1Therm.onModel f) (P1Therm.onModel f') :=
  h.onAttr (fun _ _ h => h.model) fun _ _ _ _ h hm => ⟨h.num, h.radius, h.ext, hm⟩

theorem RegTherm_onModel {α : Type} {f f' : PyS RegThermModel α} (h : PySRel RegThermModel.Rel f f') :
    PySRel RegTherm.Rel (RegTherm.onModel f) (RegTherm.onModel f') :=
  h.onAttr (fun _ _ h => h.model) fun _ _ _ _ h hm => ⟨h.num, h.radius, hm⟩

theorem P1Therm_updatePrevY (a : NdArray) : PySRel P1Therm.Rel (P1Therm.updatePrevY a) (P1Therm.updatePrevY a) := by
  refine (PySRel.get fun _ _ h => h.num).bind fun n => ?_
  split_ifs
  · exact .raise _
  refine (PySRel.lift _).bind fun a1 => (PySRel.lift _).bind fun a2 =>
    (PySRel.get fun _ _ h => h.vertices).bind fun vs => P1Therm_onModel (.forEach _ fun i => ?_)
  refine (PySRel.lift _).bind fun x => (PySRel.modify ?_).bind fun _ =>
    (PySRel.lift _).bind fun y => PySRel.modify ?_
  all_goals exact P1Therm_modify (fun _ _ => rfl) fun _ => rfl

theorem P1Therm_updateY (a : NdArray) : PySRel P1Therm.Rel (P1Therm.updateY a) (P1Therm.updateY a) := by
  refine (PySRel.get fun _ _ h => h.num).bind fun n => ?_
  split_ifs
  · exact .raise _
  refine (PySRel.lift _).bind fun a1 => (PySRel.lift _).bind fun a2 =>
    (PySRel.get fun _ _ h => h.vertices).bind fun vs => P1Therm_onModel (.forEach _ fun i => ?_)
  refine (PySRel.lift _).bind fun x => (PySRel.modify ?_).bind fun _ =>
    (PySRel.lift _).bind fun y => PySRel.modify ?_
  all_goals exact P1Therm_modify (fun _ _ => rfl) fun _ => rfl

theorem P1Therm_updatePrevTheta (a : NdArray) :
    PySRel P1Therm.Rel (P1Therm.updatePrevTheta a) (P1Therm.updatePrevTheta a) := by
  refine (PySRel.get fun _ _ h => h.num).bind fun n => ?_
  split_ifs
  · exact .raise _
  refine (PySRel.get fun _ _ h => h.radius).bind fun r =>
    (PySRel.get fun _ _ h => h.vertices).bind fun vs => P1Therm_onModel (.forEach _ fun i => ?_)
  refine (PySRel.lift _).bind fun x => (PySRel.assignNonNeg ?_).bind fun _ =>
    (PySRel.assignNonNeg ?_).bind fun _ =>
    PySRel.modify ?_
  all_goals exact P1Therm_modify (fun _ _ => rfl) fun _ => rfl

theorem P1Therm_updateExternalTemperature (t : ℝ) :
    PySRel P1Therm.Rel (P1Therm.updateExternalTemperature t) (P1Therm.updateExternalTemperature t) := by
  refine (PySRel.get fun _ _ h => h.ext).bind fun e => (PySRel.lift _).bind fun x => P1Therm_onModel ?_
  exact PySRel.assignNonNeg (P1Therm_modify (fun _ _ => rfl) fun _ => rfl)

theorem RegTherm_updatePrevY (a : NdArray) : PySRel RegTherm.Rel (RegTherm.updatePrevY a) (RegTherm.updatePrevY a) := by
  refine (PySRel.get fun _ _ h => by rw [h.vertices]).bind fun n => ?_
  split_ifs
  · exact .raise _
  refine (PySRel.lift _).bind fun a1 => (PySRel.lift _).bind fun a2 =>
    RegTherm_onModel (.forEach _ fun i => .forEach _ fun j => ?_)
  refine (PySRel.lift _).bind fun _ => (PySRel.lift _).bind fun x =>
    (PySRel.modify ?_).bind fun _ =>
    (PySRel.lift _).bind fun _ => (PySRel.lift _).bind fun y =>
    PySRel.modify ?_
  all_goals exact RegTherm_modify (fun _ _ _ => rfl) (fun _ => rfl) fun _ => rfl

theorem RegTherm_updateY (a : NdArray) : PySRel RegTherm.Rel (RegTherm.updateY a) (RegTherm.updateY a) := by
  refine (PySRel.get fun _ _ h => by rw [h.vertices]).bind fun n => ?_
  split_ifs
  · exact .raise _
  refine (PySRel.lift _).bind fun a1 => (PySRel.lift _).bind fun a2 =>
    RegTherm_onModel (.forEach _ fun i => .forEach _ fun j => ?_)
  refine (PySRel.lift _).bind fun _ => (PySRel.lift _).bind fun x =>
    (PySRel.modify ?_).bind fun _ =>
    (PySRel.lift _).bind fun _ => (PySRel.lift _).bind fun y =>
    PySRel.modify ?_
  all_goals exact RegTherm_modify (fun _ _ _ => rfl) (fun _ => rfl) fun _ => rfl

theorem RegTherm_updatePrevTheta (a : NdArray) :
    PySRel RegTherm.Rel (RegTherm.updatePrevTheta a) (RegTherm.updatePrevTheta a) := by
  refine (PySRel.get fun _ _ h => by rw [h.fineVertices]).bind fun n => ?_
  split_ifs
  · exact .raise _
  refine (PySRel.get fun _ _ h => h.radius).bind fun r => RegTherm_onModel (.forEach _ fun i => ?_)
  refine (PySRel.lift _).bind fun x =>
    (PySRel.assignNonNeg ?_).bind fun _ =>
    (PySRel.assignNonNeg ?_).bind fun _ =>
    PySRel.modify ?_
  all_goals exact RegTherm_modify (fun _ _ _ => rfl) (fun _ => rfl) fun _ => rfl

theorem ThermStep_dispatch {α : Type} {f : PyS P1Therm α} {g : PyS RegTherm α} (hf : PySRel P1Therm.Rel f f)
    (hg : PySRel RegTherm.Rel g g) : PySRel ThermStep.Rel (ThermStep.dispatch f g) (ThermStep.dispatch f g) := by
  intro s s' h
  cases h with
  | p1 num radius ext model =>
    obtain ⟨h1, h2⟩ := hf _ _ ⟨num, radius, ext, model⟩
    exact ⟨h1, .p1 h2.num h2.radius h2.ext h2.model⟩
  | reg num radius model =>
    obtain ⟨h1, h2⟩ := hg _ _ ⟨num, radius, model⟩
    exact ⟨h1, .reg h2.num h2.radius h2.model⟩

theorem ThermStep.Rel.problem {s s' : ThermStep} (h : s.Rel s') : s.problem.Same s'.problem := by
  cases h with
  | p1 num radius ext model => exact model
  | reg num radius model => exact model

theorem ThermStep.Rel.y {s s' : ThermStep} (h : s.Rel s') : s.y = s'.y := by
  cases h with
  | p1 num radius ext model =>
    obtain ⟨g, h1, h2⟩ := P1ThermModel.Rel.iff.1 model
    simp only [ThermStep.y, P1Therm.y, h2]
  | reg num radius model =>
    obtain ⟨g, r, h1, h2, h3⟩ := RegThermModel.Rel.iff.1 model
    simp only [ThermStep.y, RegTherm.y, h3]

theorem ThermStep.Rel.theta {s s' : ThermStep} (h : s.Rel s') : s.theta = s'.theta := by
  cases h with
  | p1 num radius ext model =>
    obtain ⟨g, h1, h2⟩ := P1ThermModel.Rel.iff.1 model
    simp only [ThermStep.theta, P1Therm.theta, h2]
  | reg num radius model =>
    obtain ⟨g, r, h1, h2, h3⟩ := RegThermModel.Rel.iff.1 model
    simp only [ThermStep.theta, RegTherm.theta, h3]

theorem ThermStep.Rel.load {s s' : ThermStep} (h : s.Rel s') (o : Outcome) : (s.load o).Rel (s'.load o) := by
  cases h with
  | p1 num radius ext model => exact .p1 num radius ext (model.load o)
  | reg num radius model => exact .reg num radius (model.load o)

/-! ### the simulation -/

/-- the relation between the records -/
structure Record.Rel (r r' : Record) : Prop where
  steps : List.Forall₂ Step.Same r.steps r'.steps
  tau : r.tau = r'.tau
  currentTime : r.currentTime = r'.currentTime
  maxTemp : r.maxTemp = r'.maxTemp
  xlims : r.xlims = r'.xlims
  ylims : r.ylims = r'.ylims

theorem forall₂_snoc {α β : Type} {R : α → β → Prop} {l : List α} {l' : List β} (h : List.Forall₂ R l l') {a : α} {b : β}
    (hab : R a b) : List.Forall₂ R (l ++ [a]) (l' ++ [b]) := List.rel_append h (.cons hab .nil)

theorem PySRel.lift_rel {σ α β : Type} {R : σ → σ → Prop} {S : α → α → Prop} {x y : PyM α} (h : PyRel S x y)
    {f f' : α → PyS σ β} (hf : ∀ a b, S a b → PySRel R (f a) (f' b)) :
    PySRel R (PyS.lift x >>= f) (PyS.lift y >>= f') := by
  intro s s' hs
  cases h with
  | ok h => exact hf _ _ h s s' hs
  | err e => exact ⟨rfl, hs⟩

theorem PySRel.read {σ α : Type} {R : σ → σ → Prop} {f f' : σ → PyM α} (h : ∀ s s', R s s' → f s = f' s') :
    PySRel R (PyS.read f) (PyS.read f') := fun s s' hs => ⟨h s s' hs, hs⟩

theorem appendStep_rel {D D' : RectDomain ℝ} {params : SimParams} {g g' : Grid ℝ} (h : g.Reordered g')
    {r r' : Option (RefinedGrid ℝ)} (hr : Option.Rel RefinedGrid.Reordered r r') (yd td : NdArray) :
    PySRel Record.Rel (appendStep D params g r yd td) (appendStep D' params g' r' yd td) := by
  unfold appendStep
  refine (PySRel.lift _).bind fun m => (PySRel.modify ?_).bind fun _ => (PySRel.lift _).bind fun xs =>
    (PySRel.lift _).bind fun ys => (PySRel.read ?_).bind fun xl => (PySRel.modify ?_).bind fun _ =>
    (PySRel.read ?_).bind fun yl => (PySRel.modify ?_).bind fun _ => PySRel.lift_rel (S := Step.Same) ?_ fun st st' hst =>
    (PySRel.modify ?_).bind fun _ => PySRel.modify ?_
  · exact fun s s' h => ⟨h.steps, h.tau, h.currentTime, by simp only [h.maxTemp], h.xlims, h.ylims⟩
  · exact fun s s' h => by rw [h.xlims]
  · exact fun s s' h => ⟨h.steps, h.tau, h.currentTime, h.maxTemp, rfl, h.ylims⟩
  · exact fun s s' h => by rw [h.ylims]
  · exact fun s s' h => ⟨h.steps, h.tau, h.currentTime, h.maxTemp, h.xlims, rfl⟩
  · split
    · exact Step_new_rel h _ _
    · exact Step_newReg_rel h hr _ _
  · exact fun s s' h => ⟨forall₂_snoc h.steps hst, h.tau, h.currentTime, h.maxTemp, h.xlims, h.ylims⟩
  · exact fun s s' h => ⟨h.steps, h.tau, by simp only [h.currentTime, h.tau], h.maxTemp, h.xlims, h.ylims⟩

/-- the relation between simulations -/
structure Sim.Rel (N : List Vertex) (s s' : Sim) : Prop where
  params : s.params = s'.params
  grid : s.grid.Reordered s'.grid
  refined : Option.Rel RefinedGrid.Reordered s.refined s'.refined
  mech : MechStep.Rel N s.mech s'.mech
  therm : s.therm.Rel s'.therm
  record : s.record.Rel s'.record
  calls : List.Forall₂ Problem.Same s.calls s'.calls

namespace Sim

theorem Rel.same {s s' : Sim} (h : Sim.Rel N s s') : s.Same s' :=
  ⟨h.record.steps, h.record.currentTime, h.record.tau, h.record.maxTemp, h.record.xlims, h.record.ylims, h.calls⟩

theorem onMech_rel {α : Type} {f : PyS MechStep α} (h : PySRel (MechStep.Rel N) f f) :
    PySRel (Sim.Rel N) (onMech f) (onMech f) :=
  h.onAttr (fun _ _ h => h.mech) fun _ _ _ _ h hm => ⟨h.params, h.grid, h.refined, hm, h.therm, h.record, h.calls⟩

theorem onTherm_rel {α : Type} {f : PyS ThermStep α} (h : PySRel ThermStep.Rel f f) :
    PySRel (Sim.Rel N) (onTherm f) (onTherm f) :=
  h.onAttr (fun _ _ h => h.therm) fun _ _ _ _ h hm => ⟨h.params, h.grid, h.refined, h.mech, hm, h.record, h.calls⟩

theorem solveMech_rel {solver : Solver} (hs : solver.OrderBlind) :
    PySRel (Sim.Rel N) (solveMech solver) (solveMech solver) := by
  intro s s' h
  rw [solveMech_apply, solveMech_apply]
  have e := hs _ _ _ _ h.calls h.mech.problem
  rw [e]
  exact ⟨rfl, h.params, h.grid, h.refined, h.mech.load _, h.therm, h.record, forall₂_snoc h.calls h.mech.problem⟩

theorem solveTherm_rel {solver : Solver} (hs : solver.OrderBlind) :
    PySRel (Sim.Rel N) (solveTherm solver) (solveTherm solver) := by
  intro s s' h
  rw [solveTherm_apply, solveTherm_apply]
  have e := hs _ _ _ _ h.calls h.therm.problem
  rw [e]
  exact ⟨rfl, h.params, h.grid, h.refined, h.mech, h.therm.load _, h.record, forall₂_snoc h.calls h.therm.problem⟩

theorem updateMechanicalStep_rel : PySRel (Sim.Rel N) updateMechanicalStep updateMechanicalStep :=
  (PySRel.get fun _ _ h => h.therm.y).bind fun y =>
    (onMech_rel (MechStep_dispatch (P1Mech_updatePrevY y) (RegMech_updatePrevY y))).bind fun _ =>
    (PySRel.get fun _ _ h => h.therm.theta).bind fun t =>
    (onMech_rel (MechStep_dispatch (P1Mech_updatePrevTheta t) (RegMech_updatePrevTheta t))).bind fun _ =>
    (PySRel.get fun _ _ h => h.record.currentTime).bind fun time => onMech_rel (MechStep_updateBoundaryTraction time)

theorem updateThermalStep_rel : PySRel (Sim.Rel N) updateThermalStep updateThermalStep :=
  (PySRel.get fun _ _ h => h.mech.prevY).bind fun y =>
    (onTherm_rel (ThermStep_dispatch (P1Therm_updatePrevY y) (RegTherm_updatePrevY y))).bind fun _ =>
    (PySRel.get fun _ _ h => h.mech.prevTheta).bind fun t =>
    (onTherm_rel (ThermStep_dispatch (P1Therm_updatePrevTheta t) (RegTherm_updatePrevTheta t))).bind fun _ =>
    (PySRel.get fun _ _ h => h.mech.y).bind fun y =>
    (onTherm_rel (ThermStep_dispatch (P1Therm_updateY y) (RegTherm_updateY y))).bind fun _ =>
    (PySRel.get fun _ _ h => h.record.currentTime).bind fun time =>
    onTherm_rel (ThermStep_dispatch (P1Therm_updateExternalTemperature time) (.pure ()))

theorem append_rel (y t : NdArray) : PySRel (Sim.Rel N) (append y t) (append y t) := by
  intro s s' h
  unfold append
  rw [← h.params]
  have := appendStep_rel (D := s.domain) (D' := s'.domain) (params := s.params) h.grid h.refined y t _ _ h.record
  exact ⟨this.1, h.params, h.grid, h.refined, h.mech, h.therm, this.2, h.calls⟩

theorem runSingleStep_rel {solver : Solver} (hs : solver.OrderBlind) :
    PySRel (Sim.Rel N) (runSingleStep solver) (runSingleStep solver) :=
  updateMechanicalStep_rel.bind fun _ => (solveMech_rel hs).bind fun _ => updateThermalStep_rel.bind fun _ =>
    (solveTherm_rel hs).bind fun _ => (PySRel.get fun _ _ h => h.therm.y).bind fun y =>
    (PySRel.get fun _ _ h => h.therm.theta).bind fun t => append_rel y t

theorem run_rel {solver : Solver} (hs : solver.OrderBlind) (n : ℤ) :
    PySRel (Sim.Rel N) (run solver n) (run solver n) := by
  unfold run
  split_ifs
  · exact .raise _
  · exact runSingleStep_rel hs
  · exact .forEach _ fun _ => runSingleStep_rel hs

theorem refineIf_rel {D D' : RectDomain ℝ} {g g' : Grid ℝ} (h : g.Reordered g') (f : Option ℤ) :
    PyRel (Option.Rel RefinedGrid.Reordered) (refineIf D g f) (refineIf D' g' f) := by
  cases f with
  | none => exact .ok .none
  | some n => exact (refine_rel h n).bind fun _ _ hr => .ok (.some hr)

/-- creating a simulation -/
theorem new_rel {solver : Solver} (hs : solver.OrderBlind) {it it' : SetIter} {D D' : RectDomain ℝ} {params : SimParams}
    {ext : ExtTemp} {tr : Traction} {g g' : Grid ℝ} (hg : D.grid it params.scale = .ok g)
    (hg' : D'.grid it' params.scale = .ok g') (h : g.Reordered g')
    (hp : ∀ v ∈ g.neumann.vertices, ∃ p, pointArgs g v = .ok p) (ht : params.regularization = none → ∀ t x y, ∃ a b, tr t x y = .ok [a, b])
    (hm : ∀ r, refineIf D g params.refinementFactor = .ok r →
      ∃ m, mechanicalStep g params.mechanicalStepParams r tr = .ok m) :
    PyRel (Sim.Rel (pySet g.neumann.vertices)) (Sim.new solver it D params ext tr) (Sim.new solver it' D' params ext tr) := by
  unfold Sim.new
  rw [hg, hg', bind_ok, bind_ok]
  have hrr := refineIf_rel (D := D) (D' := D') h params.refinementFactor
  generalize e1 : refineIf D g params.refinementFactor = X at hrr hm ⊢
  generalize refineIf D' g' params.refinementFactor = Y at hrr ⊢
  cases hrr with
  | err e => exact .err e
  | @ok r r' hr =>
    rw [bind_ok, bind_ok]
    obtain ⟨m, hm⟩ := hm r rfl
    obtain ⟨m', hm', hmm⟩ := (mechanicalStep_rel h hr params.mechanicalStepParams tr hp ht).ok_left hm
    rw [hm, hm', bind_ok, bind_ok]
    simp only
    rw [← hs [] [] _ _ .nil hmm.problem]
    refine .bind_eq fun _ => .bind_eq fun tau => ?_
    have hml := hmm.load (solver [] m.problem)
    have ha := appendStep_rel (D := D) (D' := D') (params := params) h hr (m.load (solver [] m.problem)).prevY
      (m.load (solver [] m.problem)).prevTheta ⟨[], tau, -tau, 0, (⊤, ⊥), (⊤, ⊥)⟩ ⟨[], tau, -tau, 0, (⊤, ⊥), (⊤, ⊥)⟩
      ⟨.nil, rfl, rfl, rfl, rfl, rfl⟩
    rw [← hml.prevY, ← hml.prevTheta, ← hml.y, ← ha.1]
    refine .bind_eq fun _ => ?_
    refine (thermalStep_rel h hr _ _ _ _ _).bind fun t t' htt => ?_
    rw [← hs [m.problem] [m'.problem] _ _ (.cons hmm.problem .nil) htt.problem]
    refine .bind_eq fun _ => ?_
    have htl := htt.load (solver [m.problem] t.problem)
    have hb := appendStep_rel (D := D) (D' := D') (params := params) h hr (t.load (solver [m.problem] t.problem)).y
      (t.load (solver [m.problem] t.problem)).theta _ _ ha.2
    rw [← htl.y, ← htl.theta, ← hb.1]
    refine .bind_eq fun _ => .ok ⟨rfl, h, hr, hml, htl, hb.2, ?_⟩
    exact forall₂_snoc (.cons hmm.problem .nil) htt.problem

end Sim

end Tve
