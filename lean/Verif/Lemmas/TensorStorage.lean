import Verif.Spec.TensorStorage
import Verif.Lemmas.Tensors
import Verif.Lemmas.PyState

/-!
# Lemmas about tensors in a heap
-/

namespace Tve
namespace TS

variable {K : Type}

/-! ### reading -/

/-- an object whose lists are the same in two heaps consists of the same lists and has the same value -/
theorem numLists_same {h h' : Heap K} {o : Obj} (hs : ∀ x ∈ h.Cells o, h.Same h' x) :
    h'.rowLists o = h.rowLists o ∧ h'.numLists o = h.numLists o ∧ h'.value o = h.value o := by
  have num : ∀ a ∈ h.numLists o, h'.num a = h.num a := by
    intro a ha
    have := hs (.nums a) (.inl ⟨a, ha, rfl⟩)
    simp only [Heap.Same] at this
    simp only [Heap.num, List.getD_eq_getElem?_getD, this]
  have rows : ∀ a ∈ h.rowLists o, h'.rows.getD a [] = h.rows.getD a [] := by
    intro a ha
    have := hs (.rows a) (.inr (.inl ⟨a, ha, rfl⟩))
    simp only [Heap.Same] at this
    simp only [List.getD_eq_getElem?_getD, this]
  cases o with
  | vec v =>
    refine ⟨rfl, rfl, ?_⟩
    simp only [Heap.value, num v.data (by simp [Heap.numLists])]
  | mat A =>
    have r := rows A.data (by simp [Heap.rowLists])
    refine ⟨rfl, by simp only [Heap.numLists, Heap.rowLists, List.flatMap_cons, List.flatMap_nil, r], ?_⟩
    simp only [Heap.value, Heap.row, r]
    congr 2
    apply List.map_congr_left
    intro a ha
    exact num a (by simpa [Heap.numLists, Heap.rowLists] using ha)
  | ten T =>
    have m : h'.mats.getD T.data [] = h.mats.getD T.data [] := by
      have := hs (.mats T.data) (.inr (.inr ⟨T, rfl, rfl⟩))
      simp only [Heap.Same] at this
      simp only [List.getD_eq_getElem?_getD, this]
    have e1 : h'.rowLists (.ten T) = h.rowLists (.ten T) := m
    have e2 : h'.numLists (.ten T) = h.numLists (.ten T) := by
      simp only [Heap.numLists, e1]
      exact List.flatMap_congr rows
    refine ⟨e1, e2, ?_⟩
    simp only [Heap.value, Heap.mat, m]
    congr 2
    apply List.map_congr_left
    intro a ha
    simp only [Heap.row, rows a ha]
    apply List.map_congr_left
    intro b hb
    exact num b (List.mem_flatMap.2 ⟨a, ha, hb⟩)

theorem cells_same {h h' : Heap K} {o : Obj} (hs : ∀ x ∈ h.Cells o, h.Same h' x) : h'.Cells o = h.Cells o := by
  obtain ⟨e1, e2, -⟩ := numLists_same hs
  simp only [Heap.Cells, e1, e2]

theorem value_num {h h' : Heap K} {v : VecObj} (e : h'.value (.vec v) = h.value (.vec v)) : h'.num v.data = h.num v.data := by
  simpa [Heap.value] using e

theorem value_row {h h' : Heap K} {A : MatObj} (e : h'.value (.mat A) = h.value (.mat A)) : h'.row A.data = h.row A.data := by
  simpa [Heap.value] using e

theorem value_mat {h h' : Heap K} {T : TenObj} (e : h'.value (.ten T) = h.value (.ten T)) : h'.mat T.data = h.mat T.data := by
  simpa [Heap.value] using e

theorem Heap.Same.has {h h' : Heap K} {x : Cell} (hs : h.Same h' x) (hh : h.Has x) : h'.Has x := by
  cases x <;> simp only [Heap.Same, Heap.Has] at * <;> rw [List.getElem?_eq_getElem hh] at hs <;>
    exact (List.getElem?_eq_some_iff.1 hs.symm).1

theorem valid_same {h h' : Heap K} {o : Obj} (hs : ∀ x ∈ h.Cells o, h.Same h' x) (hv : h.Valid o) : h'.Valid o := by
  refine ⟨fun x hx => ?_, ?_⟩
  · rw [cells_same hs] at hx
    exact (hs x hx).has (hv.1 x hx)
  · obtain ⟨-, -, e⟩ := numLists_same hs
    have := hv.2
    cases o with
    | vec v => simpa only [value_num e] using this
    | mat A => simpa only [value_row e] using this
    | ten T => simpa only [value_mat e] using this

/-! ### growing heaps -/

/-- the heap after creating lists -/
def Grown (h h' : Heap K) : Prop := ∃ a b c, h' = ⟨h.nums ++ a, h.rows ++ b, h.mats ++ c⟩

theorem Grown.refl (h : Heap K) : Grown h h := ⟨[], [], [], by simp⟩

theorem Grown.trans {h h' h'' : Heap K} (a : Grown h h') (b : Grown h' h'') : Grown h h'' := by
  obtain ⟨a1, a2, a3, rfl⟩ := a
  obtain ⟨b1, b2, b3, rfl⟩ := b
  exact ⟨a1 ++ b1, a2 ++ b2, a3 ++ b3, by simp⟩

theorem Grown.untouched {h h' : Heap K} (g : Grown h h') : h.Untouched h' := by
  obtain ⟨a, b, c, rfl⟩ := g
  intro x hx
  cases x <;> simp only [Heap.Same, Heap.Has] at * <;> rw [List.getElem?_append_left hx]

theorem Grown.has {h h' : Heap K} (g : Grown h h') {x : Cell} (hx : h.Has x) : h'.Has x := (g.untouched x hx).has hx

/-! ### creating lists -/

theorem createAll_newNums (l : List (List K)) (h : Heap K) :
    createAll newNums l h = (.ok (List.range' h.nums.length l.length), { h with nums := h.nums ++ l }) := by
  induction l generalizing h with
  | nil => simp [createAll, PyS.pure]
  | cons x l ih =>
    simp only [createAll]
    show PyS.bind (newNums x) _ h = _
    simp only [PyS.bind, newNums]
    show PyS.bind (createAll newNums l) _ _ = _
    simp only [PyS.bind, ih]
    show ((Except.ok _ : PyM (List Addr)), _) = _
    simp [List.range'_succ]

theorem newRowsOf_run (l : List (List K)) (h : Heap K) :
    newRowsOf l h = (.ok h.rows.length,
      ⟨h.nums ++ l, h.rows ++ [List.range' h.nums.length l.length], h.mats⟩) := by
  show PyS.bind (createAll newNums l) _ h = _
  simp only [PyS.bind, createAll_newNums, newRows]

/-- the addresses of the rows of a new three-dimensional list -/
def spread : ℕ → List (List (List K)) → List (List Addr)
  | _, [] => []
  | n, m :: l => List.range' n m.length :: spread (n + m.length) l

@[simp] theorem spread_length (n : ℕ) (l : List (List (List K))) : (spread n l).length = l.length := by
  induction l generalizing n with
  | nil => rfl
  | cons m l ih => simp [spread, ih]

theorem createAll_newRowsOf (l : List (List (List K))) (h : Heap K) :
    createAll newRowsOf l h = (.ok (List.range' h.rows.length l.length),
      ⟨h.nums ++ l.flatten, h.rows ++ spread h.nums.length l, h.mats⟩) := by
  induction l generalizing h with
  | nil => simp [createAll, PyS.pure, spread]
  | cons x l ih =>
    simp only [createAll]
    show PyS.bind (newRowsOf x) _ h = _
    simp only [PyS.bind, newRowsOf_run]
    show PyS.bind (createAll newRowsOf l) _ _ = _
    simp only [PyS.bind, ih]
    show ((Except.ok _ : PyM (List Addr)), _) = _
    simp [List.range'_succ, spread]

theorem newMatsOf_run (l : List (List (List K))) (h : Heap K) :
    newMatsOf l h = (.ok h.mats.length,
      ⟨h.nums ++ l.flatten, h.rows ++ spread h.nums.length l, h.mats ++ [List.range' h.rows.length l.length]⟩) := by
  show PyS.bind (createAll newRowsOf l) _ h = _
  simp only [PyS.bind, createAll_newRowsOf, newMats]

/-! ### constructors -/

theorem pyGet_cons_zero {α : Type} (x : α) (l : List α) : pyGet (x :: l) 0 = .ok x := rfl

theorem matNew_run (a : Addr) (h : Heap K) :
    MatObj.new a h = ((Mat.new (h.row a)).map fun M => ⟨M.shape, a⟩, h) := by
  simp only [MatObj.new, PyS.read]
  cases e : h.row a with
  | nil => rfl
  | cons r l =>
    simp only [Mat.new, pyGet_cons_zero, bind_ok, List.drop_one, List.tail_cons]
    split <;> rfl

theorem tenNew_run (a : Addr) (h : Heap K) :
    TenObj.new a h = ((Ten3.new (h.mat a)).map fun T => ⟨T.shape, a⟩, h) := by
  simp only [TenObj.new, PyS.read]
  cases e : h.mat a with
  | nil => rfl
  | cons s l =>
    cases s with
    | nil => rfl
    | cons r t =>
      simp only [Ten3.new, pyGet_cons_zero, bind_ok]
      split <;> rfl

theorem newVec_run (l : List K) (h : Heap K) :
    newVec l h = (.ok ⟨l.length, h.nums.length⟩, { h with nums := h.nums ++ [l] }) := by
  show PyS.bind (newNums l) (fun a => VecObj.new a) h = _
  simp [PyS.bind, newNums, VecObj.new, PyS.read, Heap.num]

theorem row_of_range (l : List (List K)) (h : Heap K) (b c) :
    (List.range' h.nums.length l.length).map (Heap.num ⟨h.nums ++ l, b, c⟩) = l := by
  apply List.ext_getElem (by simp)
  intro i h1 h2
  simp [Heap.num, List.getElem?_append_right, h2]

theorem newMat_run (l : List (List K)) (h : Heap K) :
    newMat l h = ((Mat.new l).map fun M => ⟨M.shape, h.rows.length⟩,
      ⟨h.nums ++ l, h.rows ++ [List.range' h.nums.length l.length], h.mats⟩) := by
  show PyS.bind (newRowsOf l) _ h = _
  simp only [PyS.bind, newRowsOf_run, matNew_run]
  congr 3
  simp only [Heap.row, List.getD_eq_getElem?_getD, List.getElem?_append_right le_rfl, Nat.sub_self, List.getElem?_cons_zero,
    Option.getD_some]
  exact row_of_range l h _ _

theorem mat_of_spread (l : List (List (List K))) (n r : List (List K)) (rs : List (List Addr)) (c) :
    (List.range' rs.length l.length).map (Heap.row ⟨n ++ l.flatten ++ r, rs ++ spread n.length l, c⟩) = l := by
  induction l generalizing n rs with
  | nil => rfl
  | cons m l ih =>
    rw [List.length_cons, List.range'_succ, List.map_cons]
    congr 1
    · simp only [Heap.row, List.getD_eq_getElem?_getD, List.getElem?_append_right le_rfl, Nat.sub_self, spread,
        List.getElem?_cons_zero, Option.getD_some]
      apply List.ext_getElem (by simp)
      intro i h1 h2
      simp [Heap.num, List.getElem?_append_right, List.getElem?_append_left, h2]
    · have := ih (n ++ m) (rs ++ [List.range' n.length m.length])
      simpa [spread] using this

theorem newTen_run (l : List (List (List K))) (h : Heap K) :
    newTen l h = ((Ten3.new l).map fun T => ⟨T.shape, h.mats.length⟩,
      ⟨h.nums ++ l.flatten, h.rows ++ spread h.nums.length l, h.mats ++ [List.range' h.rows.length l.length]⟩) := by
  show PyS.bind (newMatsOf l) _ h = _
  simp only [PyS.bind, newMatsOf_run, tenNew_run]
  congr 3
  simp only [Heap.mat, List.getD_eq_getElem?_getD, List.getElem?_append_right le_rfl, Nat.sub_self, List.getElem?_cons_zero,
    Option.getD_some]
  have := mat_of_spread l h.nums [] h.rows (h.mats ++ [List.range' h.rows.length l.length])
  simpa using this

/-! ### results of operations -/

/-- what an operation with the result `r` in the heap `h` does, if the operation on values results in `v` -/
structure Made (fresh : Prop) (h : Heap K) (r : PyM Obj × Heap K) (v : PyM (Tensor K)) : Prop where
  grown : Grown h r.2
  error : ∀ e, v = .error e → r.1 = .error e
  ok : ∀ t, v = .ok t → ∃ o, r.1 = .ok o ∧ r.2.value o = t ∧ r.2.Valid o ∧
    (fresh → (∀ x ∈ r.2.Cells o, ¬ h.Has x) ∧ (r.2.numLists o).Nodup ∧ (r.2.rowLists o).Nodup)

theorem Made.weaken {P Q : Prop} {h : Heap K} {r : PyM Obj × Heap K} {v : PyM (Tensor K)} (m : Made P h r v) (hq : Q → P) :
    Made Q h r v :=
  ⟨m.grown, m.error, fun t ht => by
    obtain ⟨o, h1, h2, h3, h4⟩ := m.ok t ht
    exact ⟨o, h1, h2, h3, fun q => h4 (hq q)⟩⟩

theorem Made.raise {fresh : Prop} {h : Heap K} {e : PyErr} : Made fresh h (.error e, h) (.error e) :=
  ⟨Grown.refl h, fun e' he => by cases he; rfl, fun t ht => by cases ht⟩

theorem Made.raise' {fresh : Prop} {h h' : Heap K} {e : PyErr} (g : Grown h h') : Made fresh h (.error e, h') (.error e) :=
  ⟨g, fun e' he => by cases he; rfl, fun t ht => by cases ht⟩

theorem Made.after {fresh : Prop} {h h' : Heap K} {r : PyM Obj × Heap K} {v : PyM (Tensor K)} (g : Grown h h') (m : Made fresh h' r v) :
    Made fresh h r v :=
  ⟨g.trans m.grown, m.error, fun t ht => by
    obtain ⟨o, h1, h2, h3, h4⟩ := m.ok t ht
    exact ⟨o, h1, h2, h3, fun q => ⟨fun x hx hh => (h4 q).1 x hx (g.has hh), (h4 q).2⟩⟩⟩

theorem check_vec {fresh c : Prop} {h : Heap K} {e : PyErr} [i : Decidable c] [j : Decidable c] {x : PyS (Heap K) VecObj} {v : PyM (Vec K)}
    (hx : ¬ c → Made fresh h (toVec x h) (v.map .vec)) :
    Made fresh h (toVec (if c then PyS.raise e else x) h) ((@ite _ c j (.error e) v).map .vec) := by
  obtain rfl : i = j := Subsingleton.elim _ _
  split <;> rename_i hc
  · exact Made.raise
  · exact hx hc

theorem check_mat {fresh c : Prop} {h : Heap K} {e : PyErr} [i : Decidable c] [j : Decidable c] {x : PyS (Heap K) MatObj} {v : PyM (Mat K)}
    (hx : ¬ c → Made fresh h (toMat x h) (v.map .mat)) :
    Made fresh h (toMat (if c then PyS.raise e else x) h) ((@ite _ c j (.error e) v).map .mat) := by
  obtain rfl : i = j := Subsingleton.elim _ _
  split <;> rename_i hc
  · exact Made.raise
  · exact hx hc

theorem Mat.new_eq {l : List (List K)} {M : Mat K} (h : Mat.new l = .ok M) : M = ⟨l⟩ := by
  cases l with
  | nil => cases h
  | cons r l =>
    simp only [Mat.new] at h
    split at h
    · exact (Except.ok.inj h).symm
    · cases h

theorem Ten3.new_eq {l : List (List (List K))} {T : Ten3 K} (h : Ten3.new l = .ok T) : T = ⟨l⟩ := by
  cases l with
  | nil => cases h
  | cons s l =>
    cases s with
    | nil => cases h
    | cons r t =>
      simp only [Ten3.new] at h
      split at h
      · exact (Except.ok.inj h).symm
      · cases h

theorem newVec_made (fresh : Prop) (l : List K) (h : Heap K) : Made fresh h (toVec (newVec l) h) (.ok (.vec ⟨l⟩)) := by
  refine ⟨⟨[l], [], [], by simp [toVec, newVec_run]⟩, fun e he => (by cases he), fun t ht => ?_⟩
  obtain rfl := (Except.ok.inj ht).symm
  simp only [toVec, newVec_run]
  have e : Heap.num (⟨h.nums ++ [l], h.rows, h.mats⟩ : Heap K) h.nums.length = l := by simp [Heap.num]
  refine ⟨_, rfl, by simp [Heap.value, e], ⟨?_, by simp [e]⟩, fun _ => ⟨?_, by simp [Heap.numLists], by simp [Heap.rowLists]⟩⟩
  · rintro x (⟨a, ha, rfl⟩ | ⟨a, ha, rfl⟩ | ⟨T, hT, -⟩)
    · simp [Heap.numLists] at ha; simp [Heap.Has, ha]
    · simp [Heap.rowLists] at ha
    · cases hT
  · rintro x (⟨a, ha, rfl⟩ | ⟨a, ha, rfl⟩ | ⟨T, hT, -⟩)
    · simp [Heap.numLists] at ha; simp [Heap.Has, ha]
    · simp [Heap.rowLists] at ha
    · cases hT

theorem newMat_made (fresh : Prop) (l : List (List K)) (h : Heap K) :
    Made fresh h (toMat (newMat l) h) ((Mat.new l).map .mat) := by
  refine ⟨⟨l, [List.range' h.nums.length l.length], [], by simp [toMat, newMat_run]⟩, fun e he => ?_, fun t ht => ?_⟩
  · simp only [toMat, newMat_run]
    cases hM : Mat.new l with
    | error e' => rw [hM] at he; cases he; rfl
    | ok M => rw [hM] at he; cases he
  · simp only [toMat, newMat_run]
    cases hM : Mat.new l with
    | error e' => rw [hM] at ht; cases ht
    | ok M =>
      rw [hM] at ht
      obtain rfl := (Except.ok.inj ht).symm
      have hl := Mat.new_eq hM
      subst hl
      have er : Heap.row (⟨h.nums ++ l, h.rows ++ [List.range' h.nums.length l.length], h.mats⟩ : Heap K) h.rows.length = l := by
        simp only [Heap.row, List.getD_eq_getElem?_getD, List.getElem?_append_right le_rfl, Nat.sub_self, List.getElem?_cons_zero,
          Option.getD_some]
        exact row_of_range l h _ _
      have en : ∀ sh, (⟨h.nums ++ l, h.rows ++ [List.range' h.nums.length l.length], h.mats⟩ : Heap K).numLists
          (.mat ⟨sh, h.rows.length⟩) = List.range' h.nums.length l.length := by
        intro sh; simp [Heap.numLists, Heap.rowLists]
      refine ⟨_, rfl, by simp only [Heap.value, er], ⟨?_, by simp only [er]; exact ⟨hM, trivial⟩⟩, fun _ => ⟨?_, ?_, by simp [Heap.rowLists]⟩⟩
      · rintro x (⟨a, ha, rfl⟩ | ⟨a, ha, rfl⟩ | ⟨T, hT, -⟩)
        · rw [en, List.mem_range'_1] at ha; simpa [Heap.Has] using ha.2
        · simp [Heap.rowLists] at ha; simp [Heap.Has, ha]
        · cases hT
      · rintro x (⟨a, ha, rfl⟩ | ⟨a, ha, rfl⟩ | ⟨T, hT, -⟩)
        · rw [en, List.mem_range'_1] at ha; simpa [Heap.Has] using ha.1
        · simp [Heap.rowLists] at ha; simp [Heap.Has, ha]
        · cases hT
      · rw [en]; exact List.nodup_range'

theorem spread_flatten (n : ℕ) (l : List (List (List K))) : (spread n l).flatten = List.range' n l.flatten.length := by
  induction l generalizing n with
  | nil => rfl
  | cons m l ih =>
    simp only [spread, List.flatten_cons, ih, List.length_append, List.length_flatten]
    rw [List.range'_append_1]

theorem spread_get (n : ℕ) (l : List (List (List K))) (rs : List (List Addr)) :
    (List.range' rs.length l.length).flatMap (fun a => (rs ++ spread n l).getD a []) = (spread n l).flatten := by
  rw [List.flatMap_def]
  congr 1
  apply List.ext_getElem (by simp)
  intro i h1 h2
  have : i < l.length := by simpa using h1
  simp [List.getElem?_append_right, this]

theorem newTen_made (fresh : Prop) (l : List (List (List K))) (h : Heap K) :
    Made fresh h (toTen (newTen l) h) ((Ten3.new l).map .ten) := by
  refine ⟨⟨l.flatten, spread h.nums.length l, [List.range' h.rows.length l.length], by simp [toTen, newTen_run]⟩,
    fun e he => ?_, fun t ht => ?_⟩
  · simp only [toTen, newTen_run]
    cases hM : Ten3.new l with
    | error e' => rw [hM] at he; cases he; rfl
    | ok M => rw [hM] at he; cases he
  · simp only [toTen, newTen_run]
    cases hM : Ten3.new l with
    | error e' => rw [hM] at ht; cases ht
    | ok M =>
      rw [hM] at ht
      obtain rfl := (Except.ok.inj ht).symm
      have hl := Ten3.new_eq hM
      subst hl
      generalize hH : (⟨h.nums ++ l.flatten, h.rows ++ spread h.nums.length l, h.mats ++ [List.range' h.rows.length l.length]⟩ :
        Heap K) = H
      have em : H.mats.getD h.mats.length [] = List.range' h.rows.length l.length := by subst hH; simp
      have er : H.mat h.mats.length = l := by
        simp only [Heap.mat, em]
        have := mat_of_spread l h.nums [] h.rows (h.mats ++ [List.range' h.rows.length l.length])
        subst hH
        simpa using this
      have ew : ∀ sh, H.rowLists (.ten ⟨sh, h.mats.length⟩) = List.range' h.rows.length l.length := fun sh => em
      have en : ∀ sh, H.numLists (.ten ⟨sh, h.mats.length⟩) = List.range' h.nums.length l.flatten.length := by
        intro sh
        simp only [Heap.numLists, ew]
        subst hH
        rw [spread_get, spread_flatten]
      refine ⟨_, rfl, by simp only [Heap.value, er], ⟨?_, by simp only [er]; exact ⟨hM, trivial⟩⟩, fun _ => ⟨?_, ?_, ?_⟩⟩
      · rintro x (⟨a, ha, rfl⟩ | ⟨a, ha, rfl⟩ | ⟨T, hT, rfl⟩)
        · rw [en, List.mem_range'_1] at ha; subst hH; simpa [Heap.Has] using ha.2
        · rw [ew, List.mem_range'_1] at ha; subst hH; simpa [Heap.Has] using ha.2
        · cases hT; subst hH; simp [Heap.Has]
      · rintro x (⟨a, ha, rfl⟩ | ⟨a, ha, rfl⟩ | ⟨T, hT, rfl⟩)
        · rw [en, List.mem_range'_1] at ha; simpa [Heap.Has] using ha.1
        · rw [ew, List.mem_range'_1] at ha; simpa [Heap.Has] using ha.1
        · cases hT; simp [Heap.Has]
      · rw [en]; exact List.nodup_range'
      · rw [ew]; exact List.nodup_range'

theorem lift_vec_made (fresh : Prop) (x : PyM (List K)) (h : Heap K) :
    Made fresh h (toVec (PyS.bind (PyS.lift x) fun l => newVec l) h) (x.bind fun l => .ok (.vec ⟨l⟩)) := by
  cases x with
  | error e => exact Made.raise
  | ok l => exact newVec_made fresh l h

theorem lift_mat_made (fresh : Prop) (x : PyM (List (List K))) (h : Heap K) :
    Made fresh h (toMat (PyS.bind (PyS.lift x) fun l => newMat l) h) ((x.bind Mat.new).map .mat) := by
  cases x with
  | error e => exact Made.raise
  | ok l => exact newMat_made fresh l h

theorem bind_map_vec (x : PyM (List K)) : (x.bind fun l => .ok (Tensor.vec ⟨l⟩)) = (x.bind fun l => .ok (⟨l⟩ : Vec K)).map Tensor.vec := by
  cases x <;> rfl

theorem vec_size {h : Heap K} {v : VecObj} (hv : h.Valid (.vec v)) : v.size = (h.num v.data).length := hv.2

theorem mat_shape {h : Heap K} {A : MatObj} (hv : h.Valid (.mat A)) : A.shape = (⟨h.row A.data⟩ : Mat K).shape := hv.2.2

theorem ten_shape {h : Heap K} {T : TenObj} (hv : h.Valid (.ten T)) : T.shape = (⟨h.mat T.data⟩ : Ten3 K).shape := hv.2.2

/-- a new object made of existing lists of numbers -/
theorem newRows_made (l : List Addr) (h : Heap K) (hl : ∀ a ∈ l, h.Has (.nums a)) :
    Made False h (toMat (PyS.bind (newRows l) fun a => MatObj.new a) h) ((Mat.new (l.map h.num)).map .mat) := by
  have run : PyS.bind (newRows l) (fun a => MatObj.new a) h =
      ((Mat.new (l.map h.num)).map fun M => ⟨M.shape, h.rows.length⟩, { h with rows := h.rows ++ [l] }) := by
    simp only [PyS.bind, newRows, matNew_run]
    congr 3
    simp only [Heap.row, List.getD_eq_getElem?_getD, List.getElem?_append_right le_rfl, Nat.sub_self, List.getElem?_cons_zero,
      Option.getD_some]
    rfl
  refine ⟨⟨[], [l], [], by simp [toMat, run]⟩, fun e he => ?_, fun t ht => ?_⟩
  · simp only [toMat, run]
    cases hM : Mat.new (l.map h.num) with
    | error e' => rw [hM] at he; cases he; rfl
    | ok M => rw [hM] at he; cases he
  · simp only [toMat, run]
    cases hM : Mat.new (l.map h.num) with
    | error e' => rw [hM] at ht; cases ht
    | ok M =>
      rw [hM] at ht
      obtain rfl := (Except.ok.inj ht).symm
      have hl' := Mat.new_eq hM
      subst hl'
      have er : Heap.row (⟨h.nums, h.rows ++ [l], h.mats⟩ : Heap K) h.rows.length = l.map h.num := by
        simp only [Heap.row, List.getD_eq_getElem?_getD, List.getElem?_append_right le_rfl, Nat.sub_self, List.getElem?_cons_zero,
          Option.getD_some]
        rfl
      refine ⟨_, rfl, by simp only [Heap.value, er], ⟨?_, by simp only [er]; exact ⟨hM, trivial⟩⟩, fun h => h.elim⟩
      rintro x (⟨a, ha, rfl⟩ | ⟨a, ha, rfl⟩ | ⟨T, hT, -⟩)
      · exact hl a (by simpa [Heap.numLists, Heap.rowLists] using ha)
      · simp [Heap.rowLists] at ha; simp [Heap.Has, ha]
      · cases hT

/-- a new object made of existing lists of rows -/
theorem newMats_made (l : List Addr) (h : Heap K)
    (hl : ∀ a ∈ l, h.Has (.rows a) ∧ ∀ b ∈ h.rows.getD a [], h.Has (.nums b)) :
    Made False h (toTen (PyS.bind (newMats l) fun a => TenObj.new a) h) ((Ten3.new (l.map h.row)).map .ten) := by
  have run : PyS.bind (newMats l) (fun a => TenObj.new a) h =
      ((Ten3.new (l.map h.row)).map fun M => ⟨M.shape, h.mats.length⟩, { h with mats := h.mats ++ [l] }) := by
    simp only [PyS.bind, newMats, tenNew_run]
    congr 3
    simp only [Heap.mat, List.getD_eq_getElem?_getD, List.getElem?_append_right le_rfl, Nat.sub_self, List.getElem?_cons_zero,
      Option.getD_some]
    rfl
  refine ⟨⟨[], [], [l], by simp [toTen, run]⟩, fun e he => ?_, fun t ht => ?_⟩
  · simp only [toTen, run]
    cases hM : Ten3.new (l.map h.row) with
    | error e' => rw [hM] at he; cases he; rfl
    | ok M => rw [hM] at he; cases he
  · simp only [toTen, run]
    cases hM : Ten3.new (l.map h.row) with
    | error e' => rw [hM] at ht; cases ht
    | ok M =>
      rw [hM] at ht
      obtain rfl := (Except.ok.inj ht).symm
      have hl' := Ten3.new_eq hM
      subst hl'
      have ew : ∀ sh, (⟨h.nums, h.rows, h.mats ++ [l]⟩ : Heap K).rowLists (.ten ⟨sh, h.mats.length⟩) = l := by
        intro sh; simp [Heap.rowLists]
      have er : Heap.mat (⟨h.nums, h.rows, h.mats ++ [l]⟩ : Heap K) h.mats.length = l.map h.row := by
        simp only [Heap.mat, List.getD_eq_getElem?_getD, List.getElem?_append_right le_rfl, Nat.sub_self, List.getElem?_cons_zero,
          Option.getD_some]
        rfl
      refine ⟨_, rfl, by simp only [Heap.value, er], ⟨?_, by simp only [er]; exact ⟨hM, trivial⟩⟩, fun h => h.elim⟩
      rintro x (⟨a, ha, rfl⟩ | ⟨a, ha, rfl⟩ | ⟨T, hT, rfl⟩)
      · simp only [Heap.numLists, ew, List.mem_flatMap] at ha
        obtain ⟨b, hb, hab⟩ := ha
        exact (hl b hb).2 a hab
      · rw [ew] at ha; exact (hl a ha).1
      · cases hT; simp [Heap.Has]

variable [Field K] [DecidableEq K]

theorem inverse_made (A : MatObj) (h : Heap K) (hv : h.Valid (.mat A)) (fresh : Prop) :
    Made fresh h (toMat A.inverse h) ((inverse2x2 (⟨h.row A.data⟩ : Mat K)).map .mat) := by
  by_cases hs : A.shape = (2, 2)
  swap
  · have hs' : (⟨h.row A.data⟩ : Mat K).shape ≠ (2, 2) := by rw [← mat_shape hv]; exact hs
    simp only [inverse2x2, MatObj.inverse, if_pos hs, if_pos hs']
    exact Made.raise
  have hs' : (⟨h.row A.data⟩ : Mat K).shape = (2, 2) := by rw [← mat_shape hv]; exact hs
  obtain ⟨r0, r1, e⟩ : ∃ r0 r1, h.row A.data = [r0, r1] := by
    have : (h.row A.data).length = 2 := (Prod.mk.inj hs').1
    exact List.length_eq_two.1 this
  have l0 : r0.length = 2 := by
    have := (Prod.mk.inj hs').2
    simpa [Mat.cols, e] using this
  have l1 : r1.length = 2 := by
    have := hv.2.1
    rw [e] at this
    simp only [Mat.new] at this
    split at this
    · rename_i hc
      simpa [l0] using hc
    · cases this
  obtain ⟨a, b, rfl⟩ := List.length_eq_two.1 l0
  obtain ⟨c, d, rfl⟩ := List.length_eq_two.1 l1
  have i11 : A.item [[a, b], [c, d]] 1 1 = .ok d := by simp [MatObj.item, hs, entry, pyGet, bind_ok]
  have i01 : A.item [[a, b], [c, d]] 0 1 = .ok b := by simp [MatObj.item, hs, entry, pyGet, bind_ok]
  have i10 : A.item [[a, b], [c, d]] 1 0 = .ok c := by simp [MatObj.item, hs, entry, pyGet, bind_ok]
  have i00 : A.item [[a, b], [c, d]] 0 0 = .ok a := by simp [MatObj.item, hs, entry, pyGet, bind_ok]
  have run : A.inverse h = PyS.bind (newMat [[d, -b], [-c, a]])
      (fun m => PyS.bind (PyS.lift (⟨[[a, b], [c, d]]⟩ : Mat K).det) fun x => m.truediv x) h := by
    simp only [MatObj.inverse, hs, ne_eq, not_true_eq_false, if_false]
    show PyS.bind (A.read) _ h = _
    simp only [MatObj.read, PyS.get, PyS.bind, e]
    show PyS.bind (PyS.lift (A.item [[a, b], [c, d]] 1 1)) _ h = _
    simp only [PyS.lift, PyS.bind, i11]
    show PyS.bind (PyS.lift (A.item [[a, b], [c, d]] 0 1)) _ h = _
    simp only [PyS.lift, PyS.bind, i01]
    show PyS.bind (PyS.lift (A.item [[a, b], [c, d]] 1 0)) _ h = _
    simp only [PyS.lift, PyS.bind, i10]
    show PyS.bind (PyS.lift (A.item [[a, b], [c, d]] 0 0)) _ h = _
    simp only [PyS.lift, PyS.bind, i00]
    rfl
  have val : inverse2x2 (⟨h.row A.data⟩ : Mat K) =
      (⟨[[a, b], [c, d]]⟩ : Mat K).det.bind fun x => (⟨[[d, -b], [-c, a]]⟩ : Mat K).truediv x := by
    rw [e] at hs' ⊢
    simp only [inverse2x2, hs', ne_eq, not_true_eq_false, if_false]
    rfl
  have e2 : toMat A.inverse h = ((A.inverse h).1.map Obj.mat, (A.inverse h).2) := rfl
  rw [e2, run, val]
  simp only [PyS.bind, newMat_run]
  generalize hH : (⟨h.nums ++ [[d, -b], [-c, a]], h.rows ++ [List.range' h.nums.length [[d, -b], [-c, a]].length], h.mats⟩ : Heap K) = H
  have g : Grown h H := ⟨[[d, -b], [-c, a]], [List.range' h.nums.length [[d, -b], [-c, a]].length], [], by rw [← hH]; simp⟩
  have hr : H.row h.rows.length = [[d, -b], [-c, a]] := by
    subst hH
    simp only [Heap.row, List.getD_eq_getElem?_getD, List.getElem?_append_right le_rfl, Nat.sub_self, List.getElem?_cons_zero,
      Option.getD_some]
    exact row_of_range [[d, -b], [-c, a]] h _ _
  have hm : Mat.new [[d, -b], [-c, a]] = .ok (⟨[[d, -b], [-c, a]]⟩ : Mat K) := by simp [Mat.new]
  rw [hm]
  cases hd : (⟨[[a, b], [c, d]]⟩ : Mat K).det with
  | error e' => exact Made.raise' g
  | ok x =>
    have := lift_mat_made fresh (pyMap (H.row h.rows.length) fun r => pyMap r fun y => pyDiv y x) H
    have e3 : (pyMap [[d, -b], [-c, a]] fun r => pyMap r fun y => pyDiv y x) =
        pyMap (H.row h.rows.length) fun r => pyMap r fun y => pyDiv y x := by rw [hr]
    refine Made.after g ?_
    show Made fresh H (toMat (MatObj.truediv ⟨_, h.rows.length⟩ x) H)
      (((pyMap [[d, -b], [-c, a]] fun r => pyMap r fun y => pyDiv y x).bind Mat.new).map .mat)
    rw [e3]
    exact this

theorem run_made (op : Op K) (h : Heap K) (hok : op.Ok h) : Made (¬ op.Shares) h (op.run h) (op.onValues h) := by
  obtain ⟨harg, hop⟩ := hok
  cases op with
  | vecNew a =>
    refine ⟨Grown.refl h, fun e he => (by cases he), fun t ht => ?_⟩
    obtain rfl := (Except.ok.inj ht).symm
    refine ⟨.vec ⟨(h.num a).length, a⟩, rfl, rfl, ⟨?_, rfl⟩, fun hf => (hf trivial).elim⟩
    rintro x (⟨b, hb, rfl⟩ | ⟨b, hb, rfl⟩ | ⟨T, hT, -⟩)
    · have : b = a := by simpa [Heap.numLists] using hb
      subst this; exact harg
    · simp [Heap.rowLists] at hb
    · cases hT
  | matNew a =>
    simp only [Op.run, Op.onValues, toMat, matNew_run]
    cases hM : Mat.new (h.row a) with
    | error e => exact Made.raise
    | ok M =>
      refine ⟨Grown.refl h, fun e he => (by cases he), fun t ht => ?_⟩
      obtain rfl := (Except.ok.inj ht).symm
      obtain rfl := Mat.new_eq hM
      exact ⟨.mat ⟨_, a⟩, rfl, rfl, ⟨fun x hx => harg x (by
        rcases hx with ⟨b, hb, rfl⟩ | ⟨b, hb, rfl⟩ | ⟨T, hT, -⟩
        · exact .inl ⟨b, hb, rfl⟩
        · exact .inr (.inl ⟨b, hb, rfl⟩)
        · cases hT), hM, rfl⟩, fun hf => (hf trivial).elim⟩
  | tenNew a =>
    simp only [Op.run, Op.onValues, toTen, tenNew_run]
    cases hM : Ten3.new (h.mat a) with
    | error e => exact Made.raise
    | ok M =>
      refine ⟨Grown.refl h, fun e he => (by cases he), fun t ht => ?_⟩
      obtain rfl := (Except.ok.inj ht).symm
      obtain rfl := Ten3.new_eq hM
      exact ⟨.ten ⟨_, a⟩, rfl, rfl, ⟨fun x hx => harg x (by
        rcases hx with ⟨b, hb, rfl⟩ | ⟨b, hb, rfl⟩ | ⟨T, hT, rfl⟩
        · exact .inl ⟨b, hb, rfl⟩
        · exact .inr (.inl ⟨b, hb, rfl⟩)
        · cases hT; exact .inr (.inr ⟨_, rfl, rfl⟩)), hM, rfl⟩, fun hf => (hf trivial).elim⟩
  | vecSlice v s =>
    have := lift_vec_made (¬ (Op.vecSlice v s : Op K).Shares) (pySlice (h.num v.data) s) h
    rw [bind_map_vec] at this
    exact this
  | vecMap v f => exact newVec_made _ _ h
  | vecStack v w =>
    have hv := hop (.vec v) (by simp [Op.operands])
    have hw := hop (.vec w) (by simp [Op.operands])
    simp only [Op.run, Op.onValues, VecObj.stack, Vec.stack, Vec.size, vec_size hv, vec_size hw]
    refine check_mat fun _ => (newRows_made [v.data, w.data] h fun a ha => ?_).weaken (fun hf => (hf trivial).elim)
    rcases List.mem_pair.1 ha with rfl | rfl
    · exact hv.1 _ (.inl ⟨_, by simp [Heap.numLists], rfl⟩)
    · exact hw.1 _ (.inl ⟨_, by simp [Heap.numLists], rfl⟩)
  | vecReshape v r c =>
    have hv := vec_size (hop _ (List.mem_cons_self ..))
    simp only [Op.run, Op.onValues, VecObj.reshape, Vec.reshape, Vec.size, hv]
    exact check_mat fun _ => lift_mat_made _ _ h
  | vecExtend v w => exact newVec_made _ _ h
  | vecTranspose v =>
    have hv := hop (.vec v) (by simp [Op.operands])
    refine (newRows_made [v.data] h fun a ha => ?_).weaken (fun hf => (hf trivial).elim)
    obtain rfl := List.mem_singleton.1 ha
    exact hv.1 _ (.inl ⟨_, by simp [Heap.numLists], rfl⟩)
  | vecNeg v => exact newVec_made _ _ h
  | vecAdd v w =>
    have hv := vec_size (hop (.vec v) (by simp [Op.operands]))
    have hw := vec_size (hop (.vec w) (by simp [Op.operands]))
    simp only [Op.run, Op.onValues, VecObj.add, Vec.add, Vec.size, hv, hw]
    exact check_vec fun _ => newVec_made _ _ h
  | vecSub v w =>
    have hv := vec_size (hop (.vec v) (by simp [Op.operands]))
    have hw := vec_size (hop (.vec w) (by simp [Op.operands]))
    simp only [Op.run, Op.onValues, VecObj.sub, Vec.sub, Vec.size, hv, hw]
    exact check_vec fun _ => newVec_made _ _ h
  | vecMul v s => exact newVec_made _ _ h
  | vecDiv v d =>
    have := lift_vec_made (¬ (Op.vecDiv v d : Op K).Shares) (pyMap (h.num v.data) fun x => pyDiv x d) h
    rw [bind_map_vec] at this
    exact this
  | matTranspose A =>
    have hA := mat_shape (hop (.mat A) (by simp [Op.operands]))
    simp only [Op.run, Op.onValues, MatObj.transpose, hA]
    exact lift_mat_made _ _ h
  | matFlatten A => exact newVec_made _ _ h
  | matMap A f => exact newMat_made _ _ h
  | matStack A B =>
    have hA := hop (.mat A) (by simp [Op.operands])
    have hB := hop (.mat B) (by simp [Op.operands])
    simp only [Op.run, Op.onValues, MatObj.stack, Mat.stack, mat_shape hA, mat_shape hB, Mat.shape]
    have ok : ∀ C : MatObj, h.Valid (.mat C) → h.Has (.rows C.data) ∧ ∀ b ∈ h.rows.getD C.data [], h.Has (.nums b) :=
      fun C hC => ⟨hC.1 _ (.inr (.inl ⟨_, by simp [Heap.rowLists], rfl⟩)), fun b hb =>
        hC.1 _ (.inl ⟨b, by simpa [Heap.numLists, Heap.rowLists] using hb, rfl⟩)⟩
    split
    · exact Made.raise
    · refine (newMats_made [A.data, B.data] h fun a ha => ?_).weaken (fun hf => (hf trivial).elim)
      rcases List.mem_pair.1 ha with rfl | rfl
      · exact ok A hA
      · exact ok B hB
  | matNeg A => exact newMat_made _ _ h
  | matAdd A B =>
    have hA := mat_shape (hop (.mat A) (by simp [Op.operands]))
    have hB := mat_shape (hop (.mat B) (by simp [Op.operands]))
    simp only [Op.run, Op.onValues, MatObj.add, Mat.add, hA, hB]
    split
    · exact Made.raise
    · exact newMat_made _ _ h
  | matSub A B =>
    have hA := mat_shape (hop (.mat A) (by simp [Op.operands]))
    have hB := mat_shape (hop (.mat B) (by simp [Op.operands]))
    simp only [Op.run, Op.onValues, MatObj.sub, Mat.sub, hA, hB]
    split
    · exact Made.raise
    · exact newMat_made _ _ h
  | matMul A s => exact newMat_made _ _ h
  | matDiv A d => exact lift_mat_made _ (pyMap (h.row A.data) fun r => pyMap r fun x => pyDiv x d) h
  | matMatmul A B =>
    have hA := mat_shape (hop (.mat A) (by simp [Op.operands]))
    have hB := mat_shape (hop (.mat B) (by simp [Op.operands]))
    simp only [Op.run, Op.onValues, MatObj.matmul, Mat.matmul, hA, hB, Mat.shape]
    split
    · exact Made.raise
    · exact lift_mat_made _ _ h
  | matDot A v =>
    have hA := mat_shape (hop (.mat A) (by simp [Op.operands]))
    have hv := vec_size (hop (.vec v) (by simp [Op.operands]))
    simp only [Op.run, Op.onValues, MatObj.dot, Mat.dot, hA, hv, Mat.shape, Vec.size]
    refine check_vec fun _ => ?_
    have e : ∀ j, (⟨h.num v.data⟩ : Vec K).getItem (j : ℕ) = v.item (h.num v.data) j := by
      intro j
      simp only [VecObj.item, hv]
      have e1 : (⟨h.num v.data⟩ : Vec K).size = (h.num v.data).length := rfl
      simp only [Vec.getItem]
      by_cases hj : j ≥ (h.num v.data).length
      · rw [if_pos hj, if_pos (.inr (by rw [e1]; exact_mod_cast hj))]
      · rw [if_neg hj, if_neg (by push Not; rw [e1]; exact ⟨by omega, by omega⟩), pyIdx_natCast]
    simp only [e]
    have := lift_vec_made (¬ (Op.matDot A v : Op K).Shares) (pyMap (List.range (⟨h.row A.data⟩ : Mat K).rows) fun i => do
      let terms ← pyMap (List.range (⟨h.row A.data⟩ : Mat K).cols) fun j => do
        let a ← entry (h.row A.data) i j
        let x ← v.item (h.num v.data) j
        return a * x
      return terms.sum) h
    rw [bind_map_vec] at this
    exact this
  | matInverse A => exact inverse_made A h (hop _ (by simp [Op.operands])) _
  | tenMap T f => exact newTen_made _ _ h
  | tenNeg T => exact newTen_made _ _ h
  | tenAdd T S =>
    have hT := ten_shape (hop (.ten T) (by simp [Op.operands]))
    have hS := ten_shape (hop (.ten S) (by simp [Op.operands]))
    simp only [Op.run, Op.onValues, TenObj.add, Ten3.add, hT, hS]
    split
    · exact Made.raise
    · exact newTen_made _ _ h
  | tenSub T S =>
    have hT := ten_shape (hop (.ten T) (by simp [Op.operands]))
    have hS := ten_shape (hop (.ten S) (by simp [Op.operands]))
    simp only [Op.run, Op.onValues, TenObj.sub, Ten3.sub, hT, hS]
    split
    · exact Made.raise
    · exact newTen_made _ _ h

omit [Field K] [DecidableEq K] in
theorem grown_matNew {l : List Addr} {h : Heap K} : Grown h (PyS.bind (newRows l) (fun a => MatObj.new a) h).2 := by
  simp only [PyS.bind, newRows, matNew_run]
  exact ⟨[], [l], [], by simp⟩

omit [Field K] [DecidableEq K] in
theorem grown_tenNew {l : List Addr} {h : Heap K} : Grown h (PyS.bind (newMats l) (fun a => TenObj.new a) h).2 := by
  simp only [PyS.bind, newMats, tenNew_run]
  exact ⟨[], [], [l], by simp⟩

omit [Field K] [DecidableEq K] in
theorem grown_ite {α : Type} {c : Prop} [Decidable c] {e : PyErr} {x : PyS (Heap K) α} {h : Heap K} (hx : Grown h (x h).2) :
    Grown h ((if c then PyS.raise e else x : PyS (Heap K) α) h).2 := by
  split
  · exact Grown.refl h
  · exact hx

omit [Field K] [DecidableEq K] in
theorem grown_bind {α β : Type} {x : PyS (Heap K) α} {f : α → PyS (Heap K) β} {h : Heap K} (hx : Grown h (x h).2)
    (hf : ∀ a h', Grown h' (f a h').2) : Grown h (PyS.bind x f h).2 := by
  unfold PyS.bind
  generalize e : x h = r at hx ⊢
  obtain ⟨r1, r2⟩ := r
  cases r1 with
  | ok a => exact hx.trans (hf a _)
  | error e => exact hx

/-- operations only create lists -/
theorem run_grown (op : Op K) (h : Heap K) : Grown h (op.run h).2 := by
  have vec : ∀ (l : List K) (h : Heap K), Grown h (newVec l h).2 := fun l h => (newVec_made True l h).grown
  have mat : ∀ (l : List (List K)) (h : Heap K), Grown h (newMat l h).2 := fun l h => (newMat_made True l h).grown
  have ten : ∀ (l : List (List (List K))) (h : Heap K), Grown h (newTen l h).2 := fun l h => (newTen_made True l h).grown
  have lvec : ∀ (x : PyM (List K)) (h : Heap K), Grown h (PyS.bind (PyS.lift x) (fun l => newVec l) h).2 :=
    fun l h => (lift_vec_made True l h).grown
  have lmat : ∀ (x : PyM (List (List K))) (h : Heap K), Grown h (PyS.bind (PyS.lift x) (fun l => newMat l) h).2 :=
    fun l h => (lift_mat_made True l h).grown
  have lift : ∀ {α : Type} (x : PyM α) (h : Heap K), Grown h (PyS.lift x h).2 := fun x h => Grown.refl h
  cases op with
  | vecNew a => exact Grown.refl h
  | matNew a => exact Grown.refl h
  | tenNew a => exact Grown.refl h
  | vecSlice v s => exact lvec _ h
  | vecMap v f => exact vec _ h
  | vecStack v w =>
    show Grown h (VecObj.stack v w h).2
    unfold VecObj.stack
    exact grown_ite grown_matNew
  | vecReshape v r c =>
    show Grown h (VecObj.reshape v r c h).2
    unfold VecObj.reshape
    exact grown_ite (lmat _ h)
  | vecExtend v w => exact vec _ h
  | vecTranspose v => exact grown_matNew
  | vecNeg v => exact vec _ h
  | vecAdd v w =>
    show Grown h (VecObj.add v w h).2
    unfold VecObj.add
    exact grown_ite (vec _ h)
  | vecSub v w =>
    show Grown h (VecObj.sub v w h).2
    unfold VecObj.sub
    exact grown_ite (vec _ h)
  | vecMul v s => exact vec _ h
  | vecDiv v d => exact lvec _ h
  | matTranspose A => exact lmat _ h
  | matFlatten A => exact vec _ h
  | matMap A f => exact mat _ h
  | matStack A B =>
    show Grown h (MatObj.stack A B h).2
    unfold MatObj.stack
    exact grown_ite grown_tenNew
  | matNeg A => exact mat _ h
  | matAdd A B =>
    show Grown h (MatObj.add A B h).2
    unfold MatObj.add
    exact grown_ite (mat _ h)
  | matSub A B =>
    show Grown h (MatObj.sub A B h).2
    unfold MatObj.sub
    exact grown_ite (mat _ h)
  | matMul A s => exact mat _ h
  | matDiv A d => exact lmat _ h
  | matMatmul A B =>
    show Grown h (MatObj.matmul A B h).2
    unfold MatObj.matmul
    exact grown_ite (lmat _ h)
  | matDot A v =>
    show Grown h (MatObj.dot A v h).2
    unfold MatObj.dot
    exact grown_ite (lvec _ h)
  | matInverse A =>
    show Grown h (MatObj.inverse A h).2
    unfold MatObj.inverse
    refine grown_ite ?_
    show Grown h (PyS.bind _ _ h).2
    refine grown_bind (Grown.refl h) fun l h => ?_
    refine grown_bind (lift _ h) fun a11 h => ?_
    refine grown_bind (lift _ h) fun a01 h => ?_
    refine grown_bind (lift _ h) fun a10 h => ?_
    refine grown_bind (lift _ h) fun a00 h => ?_
    refine grown_bind (mat _ h) fun m h => ?_
    exact grown_bind (lift _ h) fun d h => lmat _ h
  | tenMap T f => exact ten _ h
  | tenNeg T => exact ten _ h
  | tenAdd T S =>
    show Grown h (TenObj.add T S h).2
    unfold TenObj.add
    exact grown_ite (ten _ h)
  | tenSub T S =>
    show Grown h (TenObj.sub T S h).2
    unfold TenObj.sub
    exact grown_ite (ten _ h)

/-- lists that are not changed in place stay the same -/
theorem History.same {P : Cell → Prop} {h h' : Heap K} (hist : History P h h') {x : Cell} (hx : h.Has x) (hP : ¬ P x) : h.Same h' x := by
  have trans : ∀ {a b c : Heap K}, a.Same b x → b.Same c x → a.Same c x := by
    intro a b c h1 h2
    cases x <;> exact Eq.trans h1 h2
  have step : ∀ {b c : Heap K}, h.Same b x → Grown b c → h.Same c x := fun h1 g => trans h1 (g.untouched x (h1.has hx))
  induction hist with
  | start => cases x <;> rfl
  | call op _ ih => exact step ih (run_grown op _)
  | newNums l _ ih => exact step ih ⟨[l], [], [], by simp [TS.newNums]⟩
  | newRows l _ ih => exact step ih ⟨[], [l], [], by simp [TS.newRows]⟩
  | newMats l _ ih => exact step ih ⟨[], [], [l], by simp [TS.newMats]⟩
  | writeNums a l ha _ ih =>
    refine trans ih ?_
    cases x with
    | nums b =>
      have : a ≠ b := by rintro rfl; exact hP ha
      simp [Heap.Same, TS.writeNums, List.getElem?_set_ne this]
    | rows b => rfl
    | mats b => rfl
  | writeRows a l ha _ ih =>
    refine trans ih ?_
    cases x with
    | rows b =>
      have : a ≠ b := by rintro rfl; exact hP ha
      simp [Heap.Same, TS.writeRows, List.getElem?_set_ne this]
    | nums b => rfl
    | mats b => rfl
  | writeMats a l ha _ ih =>
    refine trans ih ?_
    cases x with
    | mats b =>
      have : a ≠ b := by rintro rfl; exact hP ha
      simp [Heap.Same, TS.writeMats, List.getElem?_set_ne this]
    | nums b => rfl
    | rows b => rfl

end TS
end Tve
