import Verif.Lemmas.TensorStorage

/-!
# C90: tensors are independent objects, except where they are put together without copying
-/

namespace Tve
namespace TS

variable {K : Type} [Field K] [DecidableEq K]

/-- **C90.** An operation on tensors as objects returns an object with the value the operation has on values, and raises
exactly if the operation on values does, with the same exception. The `size` and `shape` attributes of the result are right. -/
theorem C90_values (op : Op K) (h : Heap K) (hok : op.Ok h) :
    (∀ e, op.onValues h = .error e → (op.run h).1 = .error e) ∧
    ∀ t, op.onValues h = .ok t → ∃ o, (op.run h).1 = .ok o ∧ (op.run h).2.value o = t ∧ (op.run h).2.Valid o := by
  have m := run_made op h hok
  refine ⟨m.error, fun t ht => ?_⟩
  obtain ⟨o, h1, h2, h3, -⟩ := m.ok t ht
  exact ⟨o, h1, h2, h3⟩

/-- **C90.** No operation changes a list that exists: not its operands, and not any other tensor. -/
theorem C90_untouched (op : Op K) (h : Heap K) :
    h.Untouched (op.run h).2 ∧
    ∀ o, h.Valid o → (op.run h).2.Valid o ∧ (op.run h).2.value o = h.value o ∧ (op.run h).2.Cells o = h.Cells o := by
  have u := (run_grown op h).untouched
  refine ⟨u, fun o ho => ?_⟩
  have s : ∀ x ∈ h.Cells o, h.Same (op.run h).2 x := fun x hx => u x (ho.1 x hx)
  exact ⟨valid_same s ho, (numLists_same s).2.2, cells_same s⟩

/-- **C90.** Whatever a program does later, a tensor changes its value only if one of the lists it consists of is changed in
place. -/
theorem C90_history {P : Cell → Prop} {h h' : Heap K} (hist : History P h h') (o : Obj) (ho : h.Valid o)
    (hP : ∀ x ∈ h.Cells o, ¬ P x) : h'.Valid o ∧ h'.value o = h.value o := by
  have s : ∀ x ∈ h.Cells o, h.Same h' x := fun x hx => hist.same (ho.1 x hx) (hP x hx)
  exact ⟨valid_same s ho, (numLists_same s).2.2⟩

/-- **C90.** All operations but the constructors, `Vector.stack`, `Vector.transpose` and `Matrix.stack` return a tensor that
consists of new lists only, all different from each other. Changing in place any lists that existed before does not change
the result, and changing the lists of the result does not change any tensor that existed before. -/
theorem C90_independent (op : Op K) (h : Heap K) (hok : op.Ok h) (hs : ¬ op.Shares) (o : Obj) (hrun : (op.run h).1 = .ok o) :
    ((∀ x ∈ (op.run h).2.Cells o, ¬ h.Has x) ∧ ((op.run h).2.numLists o).Nodup ∧ ((op.run h).2.rowLists o).Nodup) ∧
    (∀ h', History (fun x => h.Has x) (op.run h).2 h' → h'.Valid o ∧ h'.value o = (op.run h).2.value o) ∧
    ∀ h', History (fun x => x ∈ (op.run h).2.Cells o) (op.run h).2 h' → ∀ o', h.Valid o' → h'.Valid o' ∧ h'.value o' = h.value o' := by
  have m := run_made op h hok
  have hv : ∃ t, op.onValues h = .ok t := by
    cases e : op.onValues h with
    | ok t => exact ⟨t, rfl⟩
    | error e' => rw [m.error e' e] at hrun; cases hrun
  obtain ⟨t, ht⟩ := hv
  obtain ⟨o1, h1, h2, h3, h4⟩ := m.ok t ht
  obtain rfl : o1 = o := by rw [hrun] at h1; exact (Except.ok.inj h1).symm
  refine ⟨h4 hs, fun h' hist => C90_history hist o1 h3 (h4 hs).1, fun h' hist o' ho' => ?_⟩
  obtain ⟨v1, v2, v3⟩ := (C90_untouched op h).2 o' ho'
  have := C90_history hist o' v1 fun x hx hx' => (h4 hs).1 x hx' (ho'.1 x (v3 ▸ hx))
  exact ⟨this.1, this.2.trans v2⟩

/-- **C90.** `v.stack(w)` and `v.transpose()` do not copy the entries: as long as the outer list of the result is not
changed, the rows of the result are at any time the current entries of `v` and `w`, also after the entries were changed in
place through any of the objects. -/
theorem C90_rows_shared {P : Cell → Prop} {h h' : Heap K} (v w : VecObj) (A : Obj) :
    (((Op.vecStack v w : Op K).run h).1 = .ok A → History P ((Op.vecStack v w : Op K).run h).2 h' →
      (∀ x ∈ ((Op.vecStack v w : Op K).run h).2.rowLists A, ¬ P (.rows x)) →
      h'.value A = .mat ⟨[h'.num v.data, h'.num w.data]⟩) ∧
    (((Op.vecTranspose v : Op K).run h).1 = .ok A → History P ((Op.vecTranspose v : Op K).run h).2 h' →
      (∀ x ∈ ((Op.vecTranspose v : Op K).run h).2.rowLists A, ¬ P (.rows x)) → h'.value A = .mat ⟨[h'.num v.data]⟩) := by
  have key : ∀ (l : List Addr) (r : PyM Obj × Heap K), r = toMat (PyS.bind (newRows l) fun a => MatObj.new a) h →
      r.1 = .ok A → History P r.2 h' → (∀ x ∈ r.2.rowLists A, ¬ P (.rows x)) → h'.value A = .mat ⟨l.map h'.num⟩ := by
    intro l r hr h1 hist hP
    have run : PyS.bind (newRows l) (fun a => MatObj.new a) h =
        ((Mat.new (({ h with rows := h.rows ++ [l] } : Heap K).row h.rows.length)).map fun M => ⟨M.shape, h.rows.length⟩,
          { h with rows := h.rows ++ [l] }) := by
      simp only [PyS.bind, newRows, matNew_run]
    subst hr
    simp only [toMat, run] at h1 hist hP
    cases hM : Mat.new (({ h with rows := h.rows ++ [l] } : Heap K).row h.rows.length) with
    | error e => rw [hM] at h1; cases h1
    | ok M =>
      rw [hM] at h1
      obtain rfl := (Except.ok.inj h1).symm
      have := hist.same (x := .rows h.rows.length) (by simp [Heap.Has]) (hP _ (by simp [Heap.rowLists]))
      simp only [Heap.Same, List.getElem?_append_right le_rfl, Nat.sub_self, List.getElem?_cons_zero] at this
      simp [Heap.value, Heap.row, ← this]
  constructor
  · intro h1 hist hP
    by_cases hs : v.size = w.size
    · have e : (Op.vecStack v w : Op K).run h = toMat (PyS.bind (newRows [v.data, w.data]) fun a => MatObj.new a) h := by
        show toMat (VecObj.stack v w) h = _
        unfold VecObj.stack
        simp only [hs, ne_eq, not_true_eq_false, if_false]
        rfl
      exact key [v.data, w.data] _ e h1 hist hP
    · have e : ((Op.vecStack v w : Op K).run h).1 = .error .valueError := by
        show (toMat (VecObj.stack v w) h).1 = _
        unfold VecObj.stack
        simp only [hs, ne_eq, not_false_eq_true, if_true]
        rfl
      rw [e] at h1; cases h1
  · intro h1 hist hP
    exact key [v.data] _ rfl h1 hist hP

/-- **C90.** `A.stack(B)` does not copy the rows: the two matrices of the result are at any time the current matrices `A` and
`B`, as long as the outer list of the result is not changed. -/
theorem C90_matrices_shared {P : Cell → Prop} {h h' : Heap K} (A B : MatObj) (T : TenObj)
    (hrun : ((Op.matStack A B : Op K).run h).1 = .ok (.ten T)) (hist : History P ((Op.matStack A B : Op K).run h).2 h')
    (hP : ¬ P (.mats T.data)) : h'.value (.ten T) = .ten ⟨[h'.row A.data, h'.row B.data]⟩ := by
  by_cases hs : A.shape.1 = B.shape.1
  · have e : (Op.matStack A B : Op K).run h = toTen (PyS.bind (newMats [A.data, B.data]) fun a => TenObj.new a) h := by
      show toTen (MatObj.stack A B) h = _
      unfold MatObj.stack
      simp only [hs, ne_eq, not_true_eq_false, if_false]
      rfl
    have run : PyS.bind (newMats [A.data, B.data]) (fun a => TenObj.new a) h =
        ((Ten3.new (({ h with mats := h.mats ++ [[A.data, B.data]] } : Heap K).mat h.mats.length)).map
          fun M => ⟨M.shape, h.mats.length⟩, { h with mats := h.mats ++ [[A.data, B.data]] }) := by
      simp only [PyS.bind, newMats, tenNew_run]
    rw [e] at hrun hist
    simp only [toTen, run] at hrun hist
    cases hM : Ten3.new (({ h with mats := h.mats ++ [[A.data, B.data]] } : Heap K).mat h.mats.length) with
    | error e => rw [hM] at hrun; cases hrun
    | ok M =>
      rw [hM] at hrun
      obtain rfl : (⟨M.shape, h.mats.length⟩ : TenObj) = T := by simpa [Except.map] using hrun
      have := hist.same (x := .mats h.mats.length) (by simp [Heap.Has]) hP
      simp only [Heap.Same, List.getElem?_append_right le_rfl, Nat.sub_self, List.getElem?_cons_zero] at this
      simp [Heap.value, Heap.mat, ← this]
  · have e : ((Op.matStack A B : Op K).run h).1 = .error .valueError := by
      show (toTen (MatObj.stack A B) h).1 = _
      unfold MatObj.stack
      simp only [hs, ne_eq, not_false_eq_true, if_true]
      rfl
    rw [e] at hrun; cases hrun

/-- **C90.** The constructors keep the list they are given: the tensor always has the current entries of this list. -/
theorem C90_constructors (h h' : Heap K) (a : Addr) (o : Obj) :
    (((Op.vecNew a : Op K).run h).1 = .ok o → h'.value o = .vec ⟨h'.num a⟩) ∧
    (((Op.matNew a : Op K).run h).1 = .ok o → h'.value o = .mat ⟨h'.row a⟩) ∧
    (((Op.tenNew a : Op K).run h).1 = .ok o → h'.value o = .ten ⟨h'.mat a⟩) := by
  refine ⟨fun e => ?_, fun e => ?_, fun e => ?_⟩
  · obtain rfl := (Except.ok.inj e).symm
    rfl
  · simp only [Op.run, toMat, matNew_run] at e
    cases hM : Mat.new (h.row a) with
    | error e' => rw [hM] at e; cases e
    | ok M => rw [hM] at e; obtain rfl := (Except.ok.inj e).symm; rfl
  · simp only [Op.run, toTen, tenNew_run] at e
    cases hM : Ten3.new (h.mat a) with
    | error e' => rw [hM] at e; cases e
    | ok M => rw [hM] at e; obtain rfl := (Except.ok.inj e).symm; rfl

/-- two vectors `v = (1, 2)` and `w = (3, 4)` -/
def exampleHeap : Heap ℚ := ⟨[[1, 2], [3, 4]], [], []⟩

theorem exampleHeap_valid : exampleHeap.Valid (.vec ⟨2, 0⟩) ∧ exampleHeap.Valid (.vec ⟨2, 1⟩) := by
  constructor
  · refine ⟨?_, rfl⟩
    rintro x (⟨a, ha, rfl⟩ | ⟨a, ha, rfl⟩ | ⟨T, hT, -⟩)
    · have e : a = 0 := by simpa [Heap.numLists] using ha
      subst e; show (0 : ℕ) < 2; norm_num
    · simp [Heap.rowLists] at ha
    · cases hT
  · refine ⟨?_, rfl⟩
    rintro x (⟨a, ha, rfl⟩ | ⟨a, ha, rfl⟩ | ⟨T, hT, -⟩)
    · have e : a = 1 := by simpa [Heap.numLists] using ha
      subst e; show (1 : ℕ) < 2; norm_num
    · simp [Heap.rowLists] at ha
    · cases hT

/-- The hypotheses are met: adding and stacking two vectors. After `v.data[0] = 5` the sum still is `(4, 6)`, but the first row
of the stacked matrix is `(5, 2)`. -/
example : (Op.vecAdd ⟨2, 0⟩ ⟨2, 1⟩ : Op ℚ).Ok exampleHeap ∧ ¬ (Op.vecAdd ⟨2, 0⟩ ⟨2, 1⟩ : Op ℚ).Shares ∧
    ((Op.vecAdd ⟨2, 0⟩ ⟨2, 1⟩ : Op ℚ).run exampleHeap).1 = .ok (.vec ⟨2, 2⟩) ∧
    ((Op.vecAdd ⟨2, 0⟩ ⟨2, 1⟩ : Op ℚ).run exampleHeap).2.value (.vec ⟨2, 2⟩) = .vec ⟨[4, 6]⟩ ∧
    (writeNums 0 [5, 2] ((Op.vecAdd ⟨2, 0⟩ ⟨2, 1⟩ : Op ℚ).run exampleHeap).2).value (.vec ⟨2, 2⟩) = .vec ⟨[4, 6]⟩ ∧
    ((Op.vecStack ⟨2, 0⟩ ⟨2, 1⟩ : Op ℚ).run exampleHeap).1 = .ok (.mat ⟨(2, 2), 0⟩) ∧
    (writeNums 0 [5, 2] ((Op.vecStack ⟨2, 0⟩ ⟨2, 1⟩ : Op ℚ).run exampleHeap).2).value (.mat ⟨(2, 2), 0⟩) =
      .mat ⟨[[5, 2], [3, 4]]⟩ := by
  have s : ((1 : ℚ) + 3) = 4 ∧ ((2 : ℚ) + 4) = 6 := by norm_num
  refine ⟨⟨trivial, ?_⟩, id, rfl, ?_, ?_, rfl, rfl⟩
  · intro o ho
    rcases List.mem_pair.1 ho with rfl | rfl
    · exact exampleHeap_valid.1
    · exact exampleHeap_valid.2
  · rw [← s.1, ← s.2]; rfl
  · rw [← s.1, ← s.2]; rfl

end TS
end Tve
