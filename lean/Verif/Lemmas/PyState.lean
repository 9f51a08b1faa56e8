import Verif.Model.PyState
import Verif.Lemmas.Py

/-! Helper lemmas about mutable state, arrays and loops. -/

namespace Tve
namespace PyS
variable {σ τ α β ι : Type}

theorem bind_apply (m : PyS σ α) (f : α → PyS σ β) (s : σ) :
    (m >>= f) s = match m s with
      | (.ok a, s') => f a s'
      | (.error e, s') => (.error e, s') := rfl

theorem bind_of_ok {m : PyS σ α} {f : α → PyS σ β} {s s' : σ} {a : α} (h : m s = (.ok a, s')) :
    (m >>= f) s = f a s' := by rw [bind_apply, h]

theorem bind_of_err {m : PyS σ α} {f : α → PyS σ β} {s s' : σ} {e : PyErr} (h : m s = (.error e, s')) :
    (m >>= f) s = (.error e, s') := by rw [bind_apply, h]

@[simp] theorem pure_apply (a : α) (s : σ) : (pure a : PyS σ α) s = (.ok a, s) := rfl
@[simp] theorem pure_apply' (a : α) (s : σ) : (PyS.pure a : PyS σ α) s = (.ok a, s) := rfl
@[simp] theorem get_apply (f : σ → α) (s : σ) : (PyS.get f : PyS σ α) s = (.ok (f s), s) := rfl
@[simp] theorem read_apply (f : σ → PyM α) (s : σ) : (PyS.read f : PyS σ α) s = (f s, s) := rfl
@[simp] theorem lift_apply (x : PyM α) (s : σ) : (PyS.lift x : PyS σ α) s = (x, s) := rfl
@[simp] theorem modify_apply (f : σ → σ) (s : σ) : (PyS.modify f : PyS σ Unit) s = (.ok (), f s) := rfl
@[simp] theorem raise_apply (e : PyErr) (s : σ) : (PyS.raise e : PyS σ α) s = (.error e, s) := rfl
@[simp] theorem get_bind (f : σ → α) (k : α → PyS σ β) (s : σ) : (PyS.get f >>= k) s = k (f s) s := rfl
@[simp] theorem lift_ok_bind (a : α) (k : α → PyS σ β) (s : σ) : (PyS.lift (.ok a) >>= k) s = k a s := rfl
@[simp] theorem lift_err_bind (e : PyErr) (k : α → PyS σ β) (s : σ) :
    (PyS.lift (.error e) >>= k) s = (.error e, s) := rfl
@[simp] theorem modify_bind (f : σ → σ) (k : Unit → PyS σ β) (s : σ) : (PyS.modify f >>= k) s = k () (f s) := rfl
@[simp] theorem raise_bind (e : PyErr) (k : α → PyS σ β) (s : σ) : (PyS.raise e >>= k) s = (.error e, s) := rfl
theorem onAttr_apply (g : σ → τ) (put : τ → σ → σ) (m : PyS τ α) (s : σ) :
    onAttr g put m s = ((m (g s)).1, put (m (g s)).2 s) := rfl

@[simp] theorem forEach_nil (f : ι → PyS σ Unit) (s : σ) : forEach [] f s = (.ok (), s) := rfl

theorem forEach_cons (a : ι) (l : List ι) (f : ι → PyS σ Unit) :
    forEach (a :: l) f = (f a >>= fun _ => forEach l f) := rfl

theorem forEach_append (l l' : List ι) (f : ι → PyS σ Unit) (s : σ) :
    forEach (l ++ l') f s = (forEach l f >>= fun _ => forEach l' f) s := by
  induction l generalizing s with
  | nil => rfl
  | cons a t ih =>
    rw [List.cons_append, forEach_cons, forEach_cons, bind_apply, bind_apply, bind_apply]
    rcases h : f a s with ⟨_ | _, s'⟩
    · rfl
    · simp only; rw [ih, bind_apply]

theorem forEach_ok {l : List ι} {f : ι → PyS σ Unit} (g : ι → σ → σ) (h : ∀ i ∈ l, ∀ s, f i s = (.ok (), g i s))
    (s : σ) : forEach l f s = (.ok (), l.foldl (fun s i => g i s) s) := by
  induction l generalizing s with
  | nil => rfl
  | cons a t ih =>
    rw [forEach_cons, bind_of_ok (h a (by simp) s), ih fun i hi => h i (by simp [hi])]; rfl

/-- an invariant of a loop, also when the loop raises -/
theorem forEach_inv {l : List ι} {f : ι → PyS σ Unit} (I : σ → Prop) (h : ∀ i ∈ l, ∀ s, I s → I (f i s).2) (s : σ)
    (hs : I s) : I (forEach l f s).2 := by
  induction l generalizing s with
  | nil => exact hs
  | cons a t ih =>
    rw [forEach_cons, bind_apply]
    have := h a (by simp) s hs
    rcases hf : f a s with ⟨_ | _, s'⟩
    · rw [hf] at this; exact this
    · rw [hf] at this; exact ih (fun i hi => h i (by simp [hi])) s' this

end PyS

/-! ### lists -/

theorem foldl_modify_getElem? {α : Type} (f : ℕ → α → α) (vs : List ℕ) (hvs : vs.Nodup) (l : List α) (k : ℕ) :
    (vs.foldl (fun l i => l.modify i (f i)) l)[k]? = if k ∈ vs then l[k]?.map (f k) else l[k]? := by
  induction vs generalizing l with
  | nil => simp
  | cons a t ih =>
    rw [List.foldl_cons, ih (List.nodup_cons.1 hvs).2]
    have ha := (List.nodup_cons.1 hvs).1
    by_cases hk : k ∈ t
    · have : a ≠ k := fun h => ha (h ▸ hk)
      simp [hk, List.getElem?_modify, this]
    · by_cases h : a = k
      · subst h; simp [hk, List.getElem?_modify]
      · simp [hk, List.getElem?_modify, h, Ne.symm h]

theorem foldl_modify_range {α : Type} (f : ℕ → α → α) (l : List α) {n : ℕ} (h : l.length = n) :
    (List.range n).foldl (fun l i => l.modify i (f i)) l = l.mapIdx f := by
  apply List.ext_getElem?
  intro k
  rw [foldl_modify_getElem? f _ List.nodup_range, List.getElem?_mapIdx]
  by_cases hk : k < n
  · simp [hk]
  · rw [if_neg (by simpa using hk), List.getElem?_eq_none (by omega)]; rfl

theorem foldl_set_range {α : Type} (a l : List α) {n : ℕ} (h : l.length = n) (ha : a.length = n) (d : α) :
    (List.range n).foldl (fun l i => l.set i (a.getD i d)) l = a := by
  have : (fun (l : List α) (i : ℕ) => l.set i (a.getD i d)) = fun l i => l.modify i (fun _ => a.getD i d) := by
    funext l i; rw [List.modify_eq_set_getElem?]
    by_cases hi : i < l.length
    · simp [hi]
    · rw [List.getElem?_eq_none (by omega), List.set_eq_of_length_le (by omega)]; rfl
  rw [this, foldl_modify_range _ _ h]
  apply List.ext_getElem?
  intro k
  rw [List.getElem?_mapIdx]
  by_cases hk : k < n
  · rw [List.getElem?_eq_getElem (by omega), List.getElem?_eq_getElem (by omega)]; simp [List.getD, ha, hk]
  · rw [List.getElem?_eq_none (by omega), List.getElem?_eq_none (by omega)]; rfl

theorem foldl_modify_same {α ι : Type} (i : ℕ) (g : ι → α → α) (js : List ι) (l : List α) :
    js.foldl (fun l j => l.modify i (g j)) l = l.modify i fun x => js.foldl (fun x j => g j x) x := by
  induction js generalizing l with
  | nil =>
    apply List.ext_getElem?; intro k
    simp [List.getElem?_modify]
  | cons a t ih =>
    rw [List.foldl_cons, ih]
    apply List.ext_getElem?; intro k
    simp only [List.getElem?_modify, List.foldl_cons]
    rcases l[k]? with _ | x
    · rfl
    · by_cases h : i = k <;> simp [h]

theorem pyGet_getD' {l : List ℝ} {i : ℕ} (h : i < l.length) : pyGet l i = .ok (l.getD i 0) := by
  rw [pyGet_ok h]; simp [List.getD, h]

end Tve
