import Verif.Lemmas.GridComb

/-! The `fix` loop of `RectangleDomain.grid`. -/

namespace Tve
open RectGrid

/-- a dictionary with keys `l` and values `f` -/
def dictOf {α β : Type} (l : List α) (f : α → β) : PyDict α β := ⟨l.map fun a => (a, f a)⟩

theorem getL_map {α β : Type} [DecidableEq α] {l : List α} {f : α → β} {a : α} (h : a ∈ l) :
    PyDict.getL (l.map fun a => (a, f a)) a = some (f a) := by
  induction l with
  | nil => simp at h
  | cons b t ih =>
    simp only [List.map_cons, PyDict.getL]
    split
    · rename_i hb; rw [hb]
    · rename_i hb
      rcases List.mem_cons.1 h with rfl | h
      · exact absurd rfl hb
      · exact ih h

theorem setL_map {α β : Type} [DecidableEq α] {l : List α} {f : α → β} {a : α} {b : β} (h : a ∈ l) (hn : l.Nodup) :
    PyDict.setL (l.map fun a => (a, f a)) a b = l.map fun x => (x, if x = a then b else f x) := by
  induction l with
  | nil => simp at h
  | cons c t ih =>
    simp only [List.map_cons, PyDict.setL]
    have hn' := List.nodup_cons.1 hn
    split
    · rename_i hb
      subst hb
      congr 1
      apply List.map_congr_left
      intro x hx
      rw [if_neg]
      rintro rfl
      exact hn'.1 hx
    · rename_i hb
      rcases List.mem_cons.1 h with rfl | h
      · exact absurd rfl hb
      · rw [ih h hn'.2]

theorem decrementTags_ok {l side : List Vertex} {f : Vertex → ℤ} (hl : l.Nodup) (hs : side.Nodup)
    (hsub : ∀ v ∈ side, v ∈ l) :
    decrementTags (dictOf l f) side = .ok (dictOf l fun v => if v ∈ side then f v - 1 else f v) := by
  unfold decrementTags
  obtain ⟨s', h1, h2⟩ := pyFor_inv (l := side) (s := dictOf l f)
    (f := fun tags i => do
      let t ← tags.get i
      return tags.set i (t - 1))
    (fun pre s => s = dictOf l fun v => if v ∈ pre then f v - 1 else f v)
    (by simp) (by
      rintro pre a post s hsplit rfl
      have ha : a ∈ side := by rw [hsplit]; simp
      have hpre : a ∉ pre := by
        rw [hsplit] at hs
        have := (List.nodup_append.1 hs).2.2
        intro h
        exact this a h a (by simp) rfl
      refine ⟨_, ?_, rfl⟩
      have hget : (dictOf l fun v => if v ∈ pre then f v - 1 else f v).get a = .ok (f a) := by
        apply PyDict.get_of_get?
        unfold PyDict.get? dictOf
        rw [getL_map (f := fun v => if v ∈ pre then f v - 1 else f v) (hsub a ha), if_neg hpre]
      rw [hget]
      simp only [bind_ok, pure_eq_ok]
      congr 1
      unfold PyDict.set dictOf
      congr 1
      rw [setL_map (f := fun v => if v ∈ pre then f v - 1 else f v) (hsub a ha) hl]
      apply List.map_congr_left
      intro x _
      congr 1
      by_cases hx : x = a
      · subst hx; simp
      · simp [hx])
  rw [h1, h2]

/-- the number of options of a list that contain a vertex -/
def fixCount (nh nv : ℕ) (fs : List FixOption) (v : Vertex) : ℕ :=
  (fs.filter fun f => decide (v ∈ sideVertices nh nv f)).length

theorem mem_boundaryVertices {it : SetIter} {nh nv : ℕ} {v : Vertex} :
    v ∈ boundaryVertices it nh nv ↔ ∃ f, v ∈ sideVertices nh nv f := by
  unfold boundaryVertices
  rw [(it.vert_perm _ _).mem_iff]
  simp only [mem_pySetUpdate, mem_pySet]
  constructor
  · rintro (((h | h) | h) | h)
    exacts [⟨_, h⟩, ⟨_, h⟩, ⟨_, h⟩, ⟨_, h⟩]
  · rintro ⟨f, h⟩
    cases f
    exacts [.inl (.inl (.inl h)), .inl (.inl (.inr h)), .inl (.inr h), .inr h, by simp [sideVertices] at h]

theorem nodup_boundaryVertices (it : SetIter) (nh nv : ℕ) : (boundaryVertices it nh nv).Nodup := by
  unfold boundaryVertices
  rw [(it.vert_perm _ _).nodup_iff]
  exact nodup_pySetUpdate (nodup_pySetUpdate (nodup_pySetUpdate (nodup_pySet _)))

theorem mem_boundaryEdges {nh nv : ℕ} {e : Edge} : e ∈ boundaryEdges nh nv ↔ ∃ f, e ∈ sideEdges nh nv f := by
  simp only [boundaryEdges, List.mem_append]
  constructor
  · rintro (((h | h) | h) | h)
    exacts [⟨_, h⟩, ⟨_, h⟩, ⟨_, h⟩, ⟨_, h⟩]
  · rintro ⟨f, h⟩
    cases f
    exacts [.inl (.inl (.inl h)), .inl (.inl (.inr h)), .inl (.inr h), .inr h, by simp [sideEdges] at h]

/-- result of the `fix` loop -/
structure TagSpec (it : SetIter) (nh nv : ℕ) (fs : List FixOption) (s : TagState) : Prop where
  tags : s.tags = dictOf (boundaryVertices it nh nv) fun v => 1 - (fixCount nh nv fs v : ℤ)
  nodupD : s.dirichletEdges.Nodup
  memD : ∀ e, e ∈ s.dirichletEdges ↔ ∃ f ∈ fs, e ∈ sideEdges nh nv f
  nodupN : s.neumannEdges.Nodup
  memN : ∀ e, e ∈ s.neumannEdges ↔ e ∈ boundaryEdges nh nv ∧ ∀ f ∈ fs, e ∉ sideEdges nh nv f

theorem fixSide_spec {it : SetIter} {nh nv : ℕ} {fs : List FixOption} {s : TagState} (f : FixOption)
    (h : TagSpec it nh nv fs s) :
    ∃ s', fixSide it nh nv s f = .ok s' ∧ TagSpec it nh nv (fs ++ [f]) s' := by
  by_cases hf : ∃ st, f = .unknown st
  · obtain ⟨st, rfl⟩ := hf
    refine ⟨s, rfl, ⟨?_, h.nodupD, ?_, h.nodupN, ?_⟩⟩
    · rw [h.tags]; congr 1; funext v; simp [fixCount, List.filter_append, sideVertices]
    · intro e; rw [h.memD]; simp [or_and_right, exists_or, sideEdges]
    · intro e; rw [h.memN]; simp [or_imp, forall_and, sideEdges]
  · have hfix : fixSide it nh nv s f = (do
        let tags ← decrementTags s.tags (it.vert 1 (pySet (sideVertices nh nv f)))
        return ⟨tags, pySetUpdate s.dirichletEdges (sideEdges nh nv f),
          pySetDiff s.neumannEdges (sideEdges nh nv f)⟩) := by
      cases f
      case unknown st => exact absurd ⟨st, rfl⟩ hf
      all_goals rfl
    have hmem : ∀ v, v ∈ it.vert 1 (pySet (sideVertices nh nv f)) ↔ v ∈ sideVertices nh nv f := by
      intro v; rw [(it.vert_perm _ _).mem_iff, mem_pySet]
    rw [hfix, h.tags, decrementTags_ok (nodup_boundaryVertices it nh nv)
      ((it.vert_perm _ _).nodup_iff.2 (nodup_pySet _))
      (fun v hv => mem_boundaryVertices.2 ⟨f, (hmem v).1 hv⟩)]
    refine ⟨_, rfl, ⟨?_, nodup_pySetUpdate h.nodupD, ?_, nodup_pySetDiff h.nodupN, ?_⟩⟩
    · simp only
      congr 1
      funext v
      simp only [hmem, fixCount, List.filter_append, List.length_append]
      by_cases hv : v ∈ sideVertices nh nv f
      · simp [hv]
      · simp [hv]
    · intro e
      simp only [mem_pySetUpdate, h.memD, List.mem_append, List.mem_singleton, or_and_right, exists_or, exists_eq_left]
    · intro e
      simp only [mem_pySetDiff, h.memN, List.mem_append, List.mem_singleton, or_imp, forall_and, forall_eq, and_assoc]

theorem tagState_spec (it : SetIter) (nh nv : ℕ) (fix : Fix) :
    ∃ s, tagState it nh nv fix = .ok s ∧ TagSpec it nh nv (fixes it fix) s := by
  unfold tagState
  refine pyFor_inv (fun pre s => TagSpec it nh nv pre s) ?_ ?_
  · refine ⟨?_, by simp, by simp, nodup_pySet _, ?_⟩
    · simp [dictOf, fixCount]
    · intro e; simp [mem_pySet]
  · intro pre f post s _ hI
    exact fixSide_spec f hI

theorem mem_fixes {it : SetIter} {fix : Fix} {f : FixOption} : f ∈ fixes it fix ↔ f ∈ fix.options := by
  cases fix
  · simp [fixes, Fix.options]
  · simp [fixes, Fix.options]
  · simp only [fixes, Fix.options]; rw [(it.fix_perm _ _).mem_iff, mem_pySet]

theorem nodup_fixes (it : SetIter) (fix : Fix) : (fixes it fix).Nodup := by
  cases fix
  · simp [fixes]
  · simp [fixes]
  · simp only [fixes]; rw [(it.fix_perm _ _).nodup_iff]; exact nodup_pySet _

theorem mem_dirichletVertices {it : SetIter} {nh nv : ℕ} {fs : List FixOption} {s : TagState}
    (h : TagSpec it nh nv fs s) {v : Vertex} :
    v ∈ dirichletVertices s ↔ ∃ f ∈ fs, v ∈ sideVertices nh nv f := by
  simp only [dirichletVertices, h.tags, dictOf, List.mem_map, List.mem_filter, decide_eq_true_eq]
  constructor
  · rintro ⟨kt, ⟨⟨v', hv', rfl⟩, hle⟩, rfl⟩
    simp only at hle ⊢
    have : 0 < fixCount nh nv fs v' := by omega
    obtain ⟨f, hf⟩ := List.length_pos_iff_exists_mem.1 this
    simp only [List.mem_filter, decide_eq_true_eq] at hf
    exact ⟨f, hf⟩
  · rintro ⟨f, hf, hv⟩
    refine ⟨_, ⟨⟨v, mem_boundaryVertices.2 ⟨f, hv⟩, rfl⟩, ?_⟩, rfl⟩
    have : 0 < fixCount nh nv fs v :=
      List.length_pos_iff_exists_mem.2 ⟨f, List.mem_filter.2 ⟨hf, by simpa using hv⟩⟩
    simp only; omega

theorem mem_neumannVertices {it : SetIter} {nh nv : ℕ} {fs : List FixOption} {s : TagState}
    (h : TagSpec it nh nv fs s) {v : Vertex} :
    v ∈ neumannVertices s ↔ v ∈ boundaryVertices it nh nv ∧ fixCount nh nv fs v ≤ 1 := by
  simp only [neumannVertices, h.tags, dictOf, List.mem_map, List.mem_filter, decide_eq_true_eq]
  constructor
  · rintro ⟨kt, ⟨⟨v', hv', rfl⟩, hle⟩, rfl⟩
    simp only at hle ⊢
    exact ⟨hv', by omega⟩
  · rintro ⟨hb, hv⟩
    exact ⟨_, ⟨⟨v, hb, rfl⟩, by simp only; omega⟩, rfl⟩

theorem nodup_dirichletVertices {it : SetIter} {nh nv : ℕ} {fs : List FixOption} {s : TagState}
    (h : TagSpec it nh nv fs s) : (dirichletVertices s).Nodup := by
  simp only [dirichletVertices, h.tags, dictOf]
  refine List.Nodup.map_on ?_ (((nodup_boundaryVertices it nh nv).map ?_).filter _)
  · intro x hx y hy hxy
    obtain ⟨_, _, rfl⟩ := List.mem_map.1 (List.mem_filter.1 hx).1
    obtain ⟨_, _, rfl⟩ := List.mem_map.1 (List.mem_filter.1 hy).1
    simp only at hxy; rw [hxy]
  · intro a b hab; exact (Prod.mk.inj hab).1

theorem nodup_neumannVertices {it : SetIter} {nh nv : ℕ} {fs : List FixOption} {s : TagState}
    (h : TagSpec it nh nv fs s) : (neumannVertices s).Nodup := by
  simp only [neumannVertices, h.tags, dictOf]
  refine List.Nodup.map_on ?_ (((nodup_boundaryVertices it nh nv).map ?_).filter _)
  · intro x hx y hy hxy
    obtain ⟨_, _, rfl⟩ := List.mem_map.1 (List.mem_filter.1 hx).1
    obtain ⟨_, _, rfl⟩ := List.mem_map.1 (List.mem_filter.1 hy).1
    simp only at hxy; rw [hxy]
  · intro a b hab; exact (Prod.mk.inj hab).1

end Tve
