import Verif.Lemmas.Reorder
import Verif.Lemmas.Energy
import Verif.Spec.Optimal

/-! Steps and problems that differ only in the order of the boundary lists. -/

namespace Tve

/-! ### stateful computations with related states -/

/-- from related states: the same result and related states -/
def PySRel {σ α : Type} (R : σ → σ → Prop) (m m' : PyS σ α) : Prop :=
  ∀ s s', R s s' → (m s).1 = (m' s').1 ∧ R (m s).2 (m' s').2

namespace PySRel
variable {σ τ α β : Type} {R : σ → σ → Prop} {S : τ → τ → Prop}

theorem pure (a : α) : PySRel R (Pure.pure a) (Pure.pure a) := fun _ _ h => ⟨rfl, h⟩

theorem bind {m m' : PyS σ α} {f f' : α → PyS σ β} (h : PySRel R m m') (hf : ∀ a, PySRel R (f a) (f' a)) :
    PySRel R (m >>= f) (m' >>= f') := by
  intro s s' hs
  have h1 := h s s' hs
  change (PyS.bind m f s).1 = (PyS.bind m' f' s').1 ∧ R (PyS.bind m f s).2 (PyS.bind m' f' s').2
  unfold PyS.bind
  rcases e : m s with ⟨r, t⟩
  rcases e' : m' s' with ⟨r', t'⟩
  rw [e, e'] at h1
  obtain ⟨h2, h3⟩ := h1
  simp only at h2 h3
  subst h2
  cases r with
  | ok a => exact hf a _ _ h3
  | error e => exact ⟨rfl, h3⟩

theorem get {f f' : σ → α} (h : ∀ s s', R s s' → f s = f' s') : PySRel R (PyS.get f) (PyS.get f') :=
  fun s s' hs => ⟨congrArg Except.ok (h s s' hs), hs⟩

theorem lift (x : PyM α) : PySRel R (PyS.lift x) (PyS.lift x) := fun _ _ h => ⟨rfl, h⟩

theorem raise (e : PyErr) : PySRel R (PyS.raise (α := α) e) (PyS.raise e) := fun _ _ h => ⟨rfl, h⟩

theorem modify {f f' : σ → σ} (h : ∀ s s', R s s' → R (f s) (f' s')) : PySRel R (PyS.modify f) (PyS.modify f') :=
  fun s s' hs => ⟨rfl, h s s' hs⟩

theorem forEach {ι : Type} (l : List ι) {f f' : ι → PyS σ Unit} (h : ∀ i, PySRel R (f i) (f' i)) :
    PySRel R (PyS.forEach l f) (PyS.forEach l f') := by
  induction l with
  | nil => exact pure ()
  | cons a t ih => exact bind (h a) fun _ => ih

theorem onAttr {g g' : σ → τ} {put put' : τ → σ → σ} {m m' : PyS τ α} (h : PySRel S m m')
    (hg : ∀ s s', R s s' → S (g s) (g' s')) (hput : ∀ s s' t t', R s s' → S t t' → R (put t s) (put' t' s')) :
    PySRel R (PyS.onAttr g put m) (PyS.onAttr g' put' m') := by
  intro s s' hs
  have := h _ _ (hg s s' hs)
  exact ⟨this.1, hput _ _ _ _ hs this.2⟩

theorem assignNonNeg {x : ℝ} {f f' : ℝ → σ → σ} (h : ∀ s s', R s s' → R (f x s) (f' x s')) :
    PySRel R (assignNonNeg x f) (assignNonNeg x f') := by
  unfold Tve.assignNonNeg
  split_ifs
  · exact raise _
  · exact modify h

end PySRel

/-! ### interpolations -/

/-- the same interpolation, with another order of the boundary lists of its grid -/
def Interp.Same (I I' : Interp) : Prop := ∃ g, I.grid.Reordered g ∧ I' = { I with grid := g }

theorem triangleVertices_retag (g : Grid ℝ) (b d n : Boundary) :
    (g.retag b d n).triangleVertices = g.triangleVertices := rfl

theorem P1Interpolation_rel {g g' : Grid ℝ} (h : g.Reordered g') (a : List ℝ) :
    PyRel Interp.Same (P1Interpolation g a) (P1Interpolation g' a) := by
  unfold P1Interpolation
  rw [← h.vertices]
  split_ifs
  · exact .err _
  · refine .ok ⟨g', h, ?_⟩
    rw [h.retag_eq]
    rfl

theorem C1Interpolation_rel {g g' : Grid ℝ} (h : g.Reordered g') (a : List (List ℝ)) :
    PyRel Interp.Same (C1Interpolation g a) (C1Interpolation g' a) := by
  unfold C1Interpolation
  rw [← h.vertices]
  split_ifs
  · exact .err _
  · exact .err _
  · refine .ok ⟨g', h, ?_⟩
    rw [h.retag_eq]
    rfl

theorem RefinedInterpolation_same {I I' : Interp} (h : I.Same I') {r r' : RefinedGrid ℝ} (hr : r.Reordered r') :
    (RefinedInterpolation I r).Same (RefinedInterpolation I' r') := by
  obtain ⟨g, hg, rfl⟩ := h
  refine ⟨r'.toGrid, hr.fine, ?_⟩
  have h1 : toCoarseParameters r' = toCoarseParameters r := by
    funext t c
    unfold toCoarseParameters RefinedGrid.toCoarseBarycentricPoint RefinedGrid.storedTriangle
    rw [hr.coarseTriangle, hr.coarseBary, hr.fine.triangles]
  have h2 : r'.toCoarseEdgePoint = r.toCoarseEdgePoint := by
    funext e t
    unfold RefinedGrid.toCoarseEdgePoint
    rw [hr.coarseEdge, hr.coarseEdgeCoords]
  unfold RefinedInterpolation
  rw [h1, h2]

theorem toBarycentricPoint_same {g g' : Grid ℝ} (h : g.Reordered g') : g'.toBarycentricPoint = g.toBarycentricPoint := by
  funext p
  rw [h.retag_eq]
  rfl

/-- the same deformation -/
def Deformation.Same (d d' : Deformation) : Prop := d.y1.Same d'.y1 ∧ d.y2.Same d'.y2

theorem P1_deformation_rel {g g' : Grid ℝ} (h : g.Reordered g') (a b : List ℝ) :
    PyRel Deformation.Same (P1MechModel.deformation g a b) (P1MechModel.deformation g' a b) :=
  (P1Interpolation_rel h a).bind fun _ _ h1 => (P1Interpolation_rel h b).bind fun _ _ h2 => .ok ⟨h1, h2⟩

theorem Reg_deformation_rel {g g' : Grid ℝ} (h : g.Reordered g') {r r' : RefinedGrid ℝ} (hr : r.Reordered r')
    (a b : List (List ℝ)) :
    PyRel Deformation.Same (RegMechModel.deformation g r a b) (RegMechModel.deformation g' r' a b) :=
  (C1Interpolation_rel h a).bind fun _ _ h1 => (C1Interpolation_rel h b).bind fun _ _ h2 =>
    .ok ⟨RefinedInterpolation_same h1 hr, RefinedInterpolation_same h2 hr⟩

theorem Deformation.Same.strain {d d' : Deformation} (h : d.Same d') : d'.strain = d.strain := by
  obtain ⟨⟨a, b⟩, ⟨c, e⟩⟩ := d, d'
  obtain ⟨⟨g1, -, h1⟩, ⟨g2, -, h2⟩⟩ := h
  simp only at h1 h2
  subst h1 h2
  rfl

theorem Deformation.Same.onEdge {d d' : Deformation} (h : d.Same d') : d'.onEdge = d.onEdge := by
  obtain ⟨⟨a, b⟩, ⟨c, e⟩⟩ := d, d'
  obtain ⟨⟨g1, -, h1⟩, ⟨g2, -, h2⟩⟩ := h
  simp only at h1 h2
  subst h1 h2
  rfl

theorem Deformation.Same.hyperStrain {d d' : Deformation} (h : d.Same d') : d'.hyperStrain = d.hyperStrain := by
  obtain ⟨⟨a, b⟩, ⟨c, e⟩⟩ := d, d'
  obtain ⟨⟨g1, -, h1⟩, ⟨g2, -, h2⟩⟩ := h
  simp only at h1 h2
  subst h1 h2
  rfl

/-! ### recorded steps -/

theorem EuclInterp_same {I I' : Interp} (h : I.Same I') :
    (∀ x y, (⟨I'⟩ : EuclInterp).call x y = (⟨I⟩ : EuclInterp).call x y) ∧
    (∀ x y, (⟨I'⟩ : EuclInterp).gradient x y = (⟨I⟩ : EuclInterp).gradient x y) := by
  obtain ⟨g, hg, rfl⟩ := h
  constructor
  all_goals
    intro x y
    simp only [EuclInterp.call, EuclInterp.gradient, EuclInterp.toBarycentricInputs, toBarycentricPoint_same hg]

theorem Step_same {yd td : NdArray} {i1 i2 t i1' i2' t' : Interp} {g g' : Grid ℝ} (h1 : i1.Same i1') (h2 : i2.Same i2')
    (ht : t.Same t') (hg : g.Reordered g') :
    Step.Same ⟨yd, td, ⟨⟨i1⟩, ⟨i2⟩⟩, ⟨t⟩, g⟩ ⟨yd, td, ⟨⟨i1'⟩, ⟨i2'⟩⟩, ⟨t'⟩, g'⟩ := by
  refine ⟨rfl, rfl, ?_, ?_, fun x y => ((EuclInterp_same ht).1 x y).symm, fun x y => ((EuclInterp_same ht).2 x y).symm, hg⟩
  · intro x y
    simp only [EuclDeformation.call, (EuclInterp_same h1).1, (EuclInterp_same h2).1]
  · intro x y
    simp only [EuclDeformation.strain, (EuclInterp_same h1).2, (EuclInterp_same h2).2]

theorem Step_new_rel {g g' : Grid ℝ} (h : g.Reordered g') (yd td : NdArray) :
    PyRel Step.Same (Step.new yd td g) (Step.new yd td g') := by
  unfold Step.new
  rw [← h.vertices]
  split_ifs
  · exact .err _
  · exact .err _
  exact .bind_eq fun p1 => (P1Interpolation_rel h p1).bind fun _ _ h1 => .bind_eq fun p2 =>
    (P1Interpolation_rel h p2).bind fun _ _ h2 => (P1Interpolation_rel h _).bind fun _ _ ht => .ok (Step_same h1 h2 ht h)

theorem Step_newReg_rel {D D' : RectDomain ℝ} {g g' : Grid ℝ} (h : g.Reordered g') {r r' : Option (RefinedGrid ℝ)}
    (hr : Option.Rel RefinedGrid.Reordered r r') (yd td : NdArray) :
    PyRel Step.Same (Step.newRegularized yd td D g r) (Step.newRegularized yd td D' g' r') := by
  unfold Step.newRegularized
  cases hr with
  | none => exact .err _
  | some hr =>
    simp only
    rw [← h.vertices, ← hr.fine.vertices]
    split_ifs
    · exact .err _
    · exact .err _
    exact .bind_eq fun p1 => (C1Interpolation_rel h p1).bind fun _ _ h1 => .bind_eq fun p2 =>
      (C1Interpolation_rel h p2).bind fun _ _ h2 => (P1Interpolation_rel hr.fine _).bind fun _ _ ht =>
        (refine_rel hr.fine _).bind fun _ _ hp => .ok (Step_same h1 h2 ht hp.fine)

/-! ### sums over boundary edges -/

/-- both computations raise or return related values -/
inductive PyWeak {α β : Type} (R : α → β → Prop) : PyM α → PyM β → Prop
  | ok {a b} (h : R a b) : PyWeak R (.ok a) (.ok b)
  | err (e e') : PyWeak R (.error e) (.error e')

namespace PyWeak
variable {α β γ δ : Type} {R : α → β → Prop} {S : γ → δ → Prop}

theorem bind {x : PyM α} {y : PyM β} {f : α → PyM γ} {g : β → PyM δ} (h : PyWeak R x y)
    (hf : ∀ a b, R a b → PyWeak S (f a) (g b)) : PyWeak S (x >>= f) (y >>= g) := by
  cases h with
  | ok h => exact hf _ _ h
  | err e e' => exact .err e e'

theorem of_rel {x : PyM α} {y : PyM β} (h : PyRel R x y) : PyWeak R x y := by
  cases h with
  | ok h => exact .ok h
  | err e => exact .err e e

theorem refl {x : PyM α} : PyWeak Eq x x := by
  cases x with
  | ok a => exact .ok rfl
  | error e => exact .err e e

theorem ok_iff {x y : PyM α} (h : PyWeak Eq x y) (a : α) : x = .ok a ↔ y = .ok a := by
  cases h with
  | ok h => rw [h]
  | err e e' => simp

end PyWeak

theorem pyMap_error {α β : Type} {l : List α} {f : α → PyM β} {e : PyErr} (h : pyMap l f = .error e) :
    ∃ a ∈ l, ∃ e, f a = .error e := by
  by_contra hc
  push Not at hc
  have : ∀ a, ∃ b, a ∈ l → f a = .ok b := by
    intro a
    cases hfa : f a with
    | ok b => exact ⟨b, fun _ => rfl⟩
    | error e' =>
      by_cases ha : a ∈ l
      · exact absurd hfa (hc a ha e')
      · cases l with
        | nil => cases h
        | cons a0 t =>
          cases hfa0 : f a0 with
          | ok b => exact ⟨b, fun h => absurd h ha⟩
          | error e' => exact absurd hfa0 (hc a0 (by simp) e')
  choose g hg using this
  rw [pyMap_eq_ok g hg] at h
  cases h

theorem pyMap_perm {α β : Type} {l l' : List α} (h : l.Perm l') (f : α → PyM β) :
    PyWeak List.Perm (pyMap l f) (pyMap l' f) := by
  by_cases hc : ∃ a ∈ l, ∃ e, f a = .error e
  · obtain ⟨a, ha, e, he⟩ := hc
    have key : ∀ l : List α, a ∈ l → ∃ e, pyMap l f = .error e := by
      intro l hl
      cases hm : pyMap l f with
      | error e => exact ⟨e, rfl⟩
      | ok r =>
        obtain ⟨b, hb⟩ := pyMap_ok_each hm a hl
        rw [he] at hb; cases hb
    obtain ⟨e1, h1⟩ := key l ha
    obtain ⟨e2, h2⟩ := key l' (h.mem_iff.1 ha)
    rw [h1, h2]
    exact .err _ _
  · have h1 : ∃ r, pyMap l f = .ok r := by
      cases hm : pyMap l f with
      | ok r => exact ⟨r, rfl⟩
      | error e => exact absurd (pyMap_error hm) hc
    obtain ⟨r, hr⟩ := h1
    rcases l with _ | ⟨a0, t⟩
    · obtain rfl : l' = [] := h.nil_eq.symm
      exact .ok (.refl _)
    obtain ⟨b0, hb0⟩ := pyMap_ok_each hr a0 (by simp)
    let g : α → β := fun a => match f a with
      | .ok b => b
      | .error _ => b0
    have hg : ∀ a ∈ a0 :: t, f a = .ok (g a) := by
      intro a ha
      obtain ⟨b, hb⟩ := pyMap_ok_each hr a ha
      simp only [g, hb]
    rw [pyMap_eq_ok g hg, pyMap_eq_ok g fun a ha => hg a (h.mem_iff.2 ha)]
    exact .ok (h.map g)

theorem boundaryIntegral_perm (leg : LegGauss) (d : ℕ) {E E' : List Edge} (h : E.Perm E') (P : List (Vec ℝ))
    (f : Edge → ℝ → PyM ℝ) :
    PyWeak Eq (BoundaryIntegrator.new leg d E P >>= fun I => I.call f)
      (BoundaryIntegrator.new leg d E' P >>= fun I => I.call f) := by
  unfold BoundaryIntegrator.new
  rw [bind_assoc, bind_assoc]
  refine PyWeak.bind PyWeak.refl ?_
  rintro q _ rfl
  rw [bind_assoc, bind_assoc]
  have key : ∀ (E : List Edge) (L : List ℝ), pyMap E (edgeLength P) = .ok L →
      pyMap E (fun e => do let l ← edgeLength P e; return (l, e)) = .ok (L.zip E) := by
    intro E L hL
    rw [pyMap_ok_iff] at hL ⊢
    induction hL with
    | nil => exact .nil
    | cons h1 _ ih => exact .cons (by rw [h1]; rfl) ih
  have hp := pyMap_perm h (edgeLength P)
  generalize hx : pyMap E (edgeLength P) = x at hp ⊢
  generalize hy : pyMap E' (edgeLength P) = y at hp ⊢
  cases hp with
  | err e e' => exact .err e e'
  | ok _ =>
    rename_i L L' _
    have h1 := key E L hx
    have h2 := key E' L' hy
    have h3 := pyMap_perm h (fun e => do let l ← edgeLength P e; return (l, e))
    rw [h1, h2] at h3
    cases h3 with
    | ok h3 =>
      change PyWeak Eq (BoundaryIntegrator.call ⟨E, q, L⟩ f) (BoundaryIntegrator.call ⟨E', q, L'⟩ f)
      unfold BoundaryIntegrator.call
      exact (pyMap_perm h3 _).bind fun a b hab => .ok hab.sum_eq

/-! ### problems -/

theorem getL_eq_some {β : Type} {l : List (Vertex × β)} (hn : (l.map Prod.fst).Nodup) {a : Vertex} {b : β} :
    PyDict.getL l a = some b ↔ (a, b) ∈ l := by
  induction l with
  | nil => simp [PyDict.getL]
  | cons p t ih =>
    obtain ⟨k, v⟩ := p
    rw [List.map_cons, List.nodup_cons] at hn
    rw [PyDict.getL, List.mem_cons]
    split_ifs with h
    · subst h
      constructor
      · intro h; exact .inl (by cases h; rfl)
      · rintro (h | h)
        · cases h; rfl
        · exact absurd (List.mem_map_of_mem h) hn.1
    · rw [ih hn.2]
      constructor
      · exact .inr
      · rintro (h' | h')
        · exact absurd (congrArg Prod.fst h').symm h
        · exact h'

theorem PyDict_get_perm {β : Type} {d d' : PyDict Vertex β} (h : d.items.Perm d'.items) (hn : (d.items.map Prod.fst).Nodup)
    (a : Vertex) : d'.get a = d.get a := by
  have hn' : (d'.items.map Prod.fst).Nodup := (h.map Prod.fst).nodup_iff.1 hn
  have : d'.get? a = d.get? a := by
    apply Option.ext
    intro b
    show PyDict.getL _ _ = _ ↔ PyDict.getL _ _ = _
    rw [getL_eq_some hn, getL_eq_some hn', h.mem_iff]
  unfold PyDict.get
  rw [this]

/-- boundary interpolations with the same values -/
def P1BoundaryInterp.Same (I I' : P1BoundaryInterp) : Prop := ∀ e t, I'.call e t = I.call e t

theorem P1BoundaryInterp_rel {b b' : Boundary} (h : b.Reordered b') {d d' : PyDict Vertex ℝ} (hd : d.items.Perm d'.items)
    (hn : (d.items.map Prod.fst).Nodup) :
    PyRel P1BoundaryInterp.Same (P1BoundaryInterp.new b d) (P1BoundaryInterp.new b' d') := by
  unfold P1BoundaryInterp.new
  rw [← hd.length_eq, ← h.1.length_eq]
  split_ifs
  · exact .err _
  · refine .ok fun e t => ?_
    unfold P1BoundaryInterp.call
    simp only [PyDict_get_perm hd hn]

theorem PyRel.refl {α : Type} (x : PyM α) : PyRel Eq x x := by
  cases x with
  | ok a => exact .ok rfl
  | error e => exact .err e

theorem PyRel.weak {α β : Type} {R : α → β → Prop} {x : PyM α} {y : PyM β} (h : PyRel R x y) : PyWeak R x y := .of_rel h

theorem weak_swap {α β γ δ : Type} {B B' : PyM α} {f : α → PyM β} {X : PyM γ} {Y : γ → PyM δ} {r : γ → δ → β → ℝ}
    (h : PyWeak Eq (B >>= f) (B' >>= f)) :
    PyWeak Eq (B >>= fun b => X >>= fun x => Y x >>= fun y => f b >>= fun z => Except.ok (r x y z))
      (B' >>= fun b => X >>= fun x => Y x >>= fun y => f b >>= fun z => Except.ok (r x y z)) := by
  have err : ∀ x : PyM α, ∀ e : PyErr, ∃ e', (x >>= fun _ => (Except.error e : PyM ℝ)) = .error e' := by
    intro x e; cases x with
    | ok a => exact ⟨e, rfl⟩
    | error e' => exact ⟨e', rfl⟩
  cases X with
  | error e =>
    obtain ⟨e1, h1⟩ := err B e
    obtain ⟨e2, h2⟩ := err B' e
    show PyWeak Eq (B >>= fun _ => Except.error e) (B' >>= fun _ => Except.error e)
    rw [h1, h2]; exact .err _ _
  | ok x =>
    show PyWeak Eq (B >>= fun b => Y x >>= fun y => f b >>= fun z => Except.ok (r x y z))
      (B' >>= fun b => Y x >>= fun y => f b >>= fun z => Except.ok (r x y z))
    cases Y x with
    | error e =>
      obtain ⟨e1, h1⟩ := err B e
      obtain ⟨e2, h2⟩ := err B' e
      show PyWeak Eq (B >>= fun _ => Except.error e) (B' >>= fun _ => Except.error e)
      rw [h1, h2]; exact .err _ _
    | ok y =>
      show PyWeak Eq (B >>= fun b => f b >>= fun z => Except.ok (r x y z)) (B' >>= fun b => f b >>= fun z => Except.ok (r x y z))
      rw [← bind_assoc, ← bind_assoc]
      exact h.bind fun a b hab => by rw [hab]; exact .refl

namespace Problem.Same
variable {p p' : Problem} (leg : LegGauss)

theorem objective (h : p.Same p') : PyWeak Eq (p.objective leg) (p'.objective leg) := by
  cases h with
  | @mechP1 m m' grid fps neumann prevY1 prevY2 prevTheta g1 g2 keys1 keys2 y1 y2 =>
    simp only [Problem.objective, P1MechModel.objective]
    refine PyWeak.bind (R := Eq) ?_ ?_
    · unfold P1MechModel.totalElasticEnergy
      rw [← y1, ← y2, ← prevTheta, ← grid.triangles, ← grid.points]
      refine ((P1_deformation_rel grid _ _).bind fun d d' hd => (P1Interpolation_rel grid _).bind ?_).weak
      rintro I _ ⟨g, -, rfl⟩
      rw [hd.strain]
      exact .refl _
    rintro elastic _ rfl
    refine PyWeak.bind (R := Eq) ?_ ?_
    · unfold P1MechModel.boundaryTractionEnergy
      rw [← y1, ← y2, ← grid.points]
      refine (P1_deformation_rel grid _ _).weak.bind fun d d' hd =>
        (P1BoundaryInterp_rel grid.neumann g1 keys1).weak.bind fun a a' ha =>
        (P1BoundaryInterp_rel grid.neumann g2 keys2).weak.bind fun b b' hb => ?_
      rw [hd.onEdge]
      simp only [show ∀ e t, a'.call e t = a.call e t from ha, show ∀ e t, b'.call e t = b.call e t from hb]
      exact boundaryIntegral_perm leg 1 grid.neumann.2 _ _
    rintro boundary _ rfl
    refine PyWeak.bind (R := Eq) ?_ ?_
    · unfold P1MechModel.dissipation
      rw [← y1, ← y2, ← prevY1, ← prevY2, ← grid.triangles, ← grid.points]
      refine ((P1_deformation_rel grid _ _).bind fun d d' hd => (P1_deformation_rel grid _ _).bind fun e e' he => ?_).weak
      rw [hd.strain, he.strain]
      exact .refl _
    rintro diss _ rfl
    rw [fps]
    exact .refl
  | @mechReg m m' grid refined fps reg prevY1 prevY2 prevTheta y1 y2 =>
    simp only [Problem.objective, RegMechModel.objective]
    refine PyWeak.bind (R := Eq) ?_ ?_
    · unfold RegMechModel.totalElasticEnergy
      rw [← y1, ← y2, ← prevTheta, ← refined.fine.triangles, ← refined.fine.points]
      refine ((Reg_deformation_rel grid refined _ _).bind fun d d' hd => (P1Interpolation_rel refined.fine _).bind ?_).weak
      rintro I _ ⟨g, -, rfl⟩
      rw [hd.strain]
      exact .refl _
    rintro elastic _ rfl
    refine PyWeak.bind (R := Eq) ?_ ?_
    · unfold RegMechModel.hyperElasticEnergy
      rw [← y1, ← y2, ← refined.fine.triangles, ← refined.fine.points]
      refine ((Reg_deformation_rel grid refined _ _).bind fun d d' hd => ?_).weak
      rw [hd.hyperStrain]
      exact .refl _
    rintro hyper _ rfl
    refine PyWeak.bind (R := Eq) ?_ ?_
    · unfold RegMechModel.dissipation
      rw [← y1, ← y2, ← prevY1, ← prevY2, ← refined.fine.triangles, ← refined.fine.points]
      refine ((Reg_deformation_rel grid refined _ _).bind fun d d' hd =>
        (Reg_deformation_rel grid refined _ _).bind fun e e' he => ?_).weak
      rw [hd.strain, he.strain]
      exact .refl _
    rintro diss _ rfl
    rw [fps, reg]
    exact .refl
  | @thermP1 m m' g grid rest =>
    subst rest
    simp only [Problem.objective, P1ThermModel.objective]
    rw [← grid.triangles, ← grid.points]
    refine (P1_deformation_rel grid _ _).weak.bind fun d d' hd => (P1_deformation_rel grid _ _).weak.bind fun e e' he =>
      (P1Interpolation_rel grid _).weak.bind ?_
    rintro I _ ⟨gI, -, rfl⟩
    refine (P1Interpolation_rel grid _).weak.bind ?_
    rintro J _ ⟨gJ, -, rfl⟩
    refine PyWeak.refl.bind ?_
    rintro rule _ rfl
    refine PyWeak.refl.bind ?_
    rintro int _ rfl
    have hbi := boundaryIntegral_perm leg 1 grid.boundary.2 m.grid.points
      fun e t => do
        let tt ← J.onEdge e t
        return Thermal.boundaryPotential Helpers.heatTransferCoefficient m.externalTemperature tt
    simp only [Thermal.objective, Thermal.energy, Thermal.dissipation, hd.strain, he.strain, Thermal.boundaryHeatTransfer]
    generalize BoundaryIntegrator.new leg 1 m.grid.boundary.edges m.grid.points = B at hbi ⊢
    generalize BoundaryIntegrator.new leg 1 g.boundary.edges m.grid.points = B' at hbi ⊢
    exact weak_swap hbi
  | @thermReg m m' g r grid refined rest =>
    subst rest
    simp only [Problem.objective, RegThermModel.objective]
    rw [← refined.fine.triangles, ← refined.fine.points]
    refine ((Reg_deformation_rel grid refined _ _).bind fun d d' hd => (Reg_deformation_rel grid refined _ _).bind fun e e' he =>
      (P1Interpolation_rel refined.fine _).bind ?_).weak
    rintro I _ ⟨gI, -, rfl⟩
    refine (P1Interpolation_rel refined.fine _).bind ?_
    rintro J _ ⟨gJ, -, rfl⟩
    simp only [Thermal.objective, Thermal.energy, Thermal.dissipation, hd.strain, he.strain]
    exact .refl _

theorem symm (h : p.Same p') : p'.Same p := by
  cases h with
  | mechP1 grid fps neumann prevY1 prevY2 prevTheta g1 g2 keys1 keys2 y1 y2 =>
    exact .mechP1 grid.symm fps.symm neumann.symm prevY1.symm prevY2.symm prevTheta.symm g1.symm g2.symm
      ((g1.map Prod.fst).nodup_iff.1 keys1) ((g2.map Prod.fst).nodup_iff.1 keys2) y1.symm y2.symm
  | mechReg grid refined fps reg prevY1 prevY2 prevTheta y1 y2 =>
    exact .mechReg grid.symm refined.symm fps.symm reg.symm prevY1.symm prevY2.symm prevTheta.symm y1.symm y2.symm
  | @thermP1 m m' g grid rest => subst rest; exact .thermP1 (g := m.grid) grid.symm rfl
  | @thermReg m m' g r grid refined rest => subst rest; exact .thermReg (g := m.grid) (r := m.refined) grid.symm refined.symm rfl

theorem unknowns (h : p.Same p') : p.unknowns = p'.unknowns := by
  cases h with
  | mechP1 grid fps neumann prevY1 prevY2 prevTheta g1 g2 keys1 keys2 y1 y2 => simp only [Problem.unknowns, y1, y2]
  | mechReg grid refined fps reg prevY1 prevY2 prevTheta y1 y2 => simp only [Problem.unknowns, y1, y2]
  | thermP1 grid rest => subst rest; rfl
  | thermReg grid refined rest => subst rest; rfl

theorem answer (h : p.Same p') (o : Outcome) : p.answer o = p'.answer o := by
  cases h with
  | mechP1 grid fps neumann prevY1 prevY2 prevTheta g1 g2 keys1 keys2 y1 y2 => simp only [Problem.answer, y1, y2]
  | mechReg grid refined fps reg prevY1 prevY2 prevTheta y1 y2 => simp only [Problem.answer, y1, y2]
  | thermP1 grid rest => subst rest; rfl
  | thermReg grid refined rest => subst rest; rfl

theorem isTherm (h : p.Same p') : p.IsTherm ↔ p'.IsTherm := by
  cases h <;> rfl

theorem load (h : p.Same p') (o : Outcome) : (p.load o).Same (p'.load o) := by
  cases h with
  | mechP1 grid fps neumann prevY1 prevY2 prevTheta g1 g2 keys1 keys2 y1 y2 =>
    exact .mechP1 grid fps neumann prevY1 prevY2 prevTheta g1 g2 keys1 keys2 (by simp only [y1]) (by simp only [y2])
  | mechReg grid refined fps reg prevY1 prevY2 prevTheta y1 y2 =>
    exact .mechReg grid refined fps reg prevY1 prevY2 prevTheta (by simp only [y1]) (by simp only [y2])
  | thermP1 grid rest => subst rest; exact .thermP1 grid rfl
  | thermReg grid refined rest => subst rest; exact .thermReg grid refined rfl

theorem constraints_iff (m : RegMechModel) : (Problem.mechReg m).ConstraintsHold ↔
    ∀ component < 2, ∀ e ∈ m.grid.dirichlet.edges, ∀ id, 1 ≤ id → id ≤ 6 → ∃ a, (do
      let ev ← m.grid.edgeVertices e
      dirichletConstraint (if component = 0 then varValues2 m.y1 else varValues2 m.y2) e ev id component) = .ok (a, a) := by
  simp only [Problem.ConstraintsHold, RegMechModel.constraint]
  constructor
  · intro h c hc e he id h1 h6
    obtain ⟨i, hi, rfl⟩ := List.getElem_of_mem he
    obtain ⟨a, ha⟩ := h c hc (i + 1) (by omega) (by omega) id h1 h6
    refine ⟨a, ?_⟩
    rw [← ha, Nat.add_sub_cancel, pyGet_eq_ok.2 (List.getElem?_eq_getElem hi)]
    rfl
  · intro h c hc i hi1 hi2 id h1 h6
    have hi : i - 1 < m.grid.dirichlet.edges.length := by omega
    obtain ⟨a, ha⟩ := h c hc _ (List.getElem_mem hi) id h1 h6
    refine ⟨a, ?_⟩
    rw [← ha, pyGet_eq_ok.2 (List.getElem?_eq_getElem hi)]
    rfl

theorem constraintsHold (h : p.Same p') : p.ConstraintsHold ↔ p'.ConstraintsHold := by
  cases h with
  | mechP1 => rfl
  | @mechReg m m' grid refined fps reg prevY1 prevY2 prevTheta y1 y2 =>
    rw [constraints_iff, constraints_iff]
    have : m'.grid.edgeVertices = m.grid.edgeVertices := by rw [grid.retag_eq]; rfl
    simp only [this, y1, y2, grid.dirichlet.2.mem_iff]
  | thermP1 => rfl
  | thermReg => rfl

theorem admits (h : p.Same p') (o : Outcome) : p.Admits o ↔ p'.Admits o := by
  unfold Problem.Admits
  rw [h.unknowns, h.answer o, h.isTherm, (h.load o).constraintsHold]

theorem isOptimal (h : p.Same p') (o : Outcome) : p.IsOptimal leg o ↔ p'.IsOptimal leg o := by
  unfold Problem.IsOptimal
  simp only [h.admits, fun o v => ((h.load o).objective leg).ok_iff v]

end Problem.Same

end Tve
