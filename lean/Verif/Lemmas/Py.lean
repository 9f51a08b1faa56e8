import Verif.Model.Py
import Mathlib.Tactic.Ring
import Mathlib.Data.List.Forall2
import Mathlib.Tactic.Linarith

/-! Helper lemmas about the Python runtime fragment. -/

namespace Tve

@[simp] theorem bind_ok {α β : Type} (a : α) (f : α → PyM β) :
    ((Except.ok a : PyM α) >>= f) = f a := rfl
@[simp] theorem bind_err {α β : Type} (e : PyErr) (f : α → PyM β) :
    ((Except.error e : PyM α) >>= f) = .error e := rfl
@[simp] theorem pure_eq_ok {α : Type} (a : α) : (pure a : PyM α) = .ok a := rfl

theorem bind_eq_ok {α β : Type} {x : PyM α} {f : α → PyM β} {b : β} :
    (x >>= f) = .ok b ↔ ∃ a, x = .ok a ∧ f a = .ok b := by
  cases x <;> simp

theorem pyGet_ok {α : Type} {l : List α} {i : ℕ} (h : i < l.length) : pyGet l i = .ok l[i] := by
  simp [pyGet, h]

theorem pyGet_eq_ok {α : Type} {l : List α} {i : ℕ} {a : α} : pyGet l i = .ok a ↔ l[i]? = some a := by
  unfold pyGet; cases h : l[i]? <;> simp

theorem pyGet_err {α : Type} {l : List α} {i : ℕ} (h : l.length ≤ i) : pyGet l i = .error .indexError := by
  simp [pyGet, h]

theorem pyIdx_natCast {α : Type} (l : List α) (i : ℕ) : pyIdx l (i : ℤ) = pyGet l i := by
  simp [pyIdx]

theorem pyIdx_neg {α : Type} {l : List α} {i : ℕ} (h0 : 0 < i) (h : i ≤ l.length) :
    pyIdx l (-(i : ℤ)) = .ok (l[l.length - i]'(by omega)) := by
  have h1 : ¬ (0 ≤ -(i : ℤ)) := by omega
  have h2 : 0 ≤ -(i : ℤ) + l.length := by omega
  have h3 : (-(i : ℤ) + l.length).toNat = l.length - i := by omega
  rw [pyIdx, if_neg h1, if_pos h2, h3, pyGet_ok (by omega)]

@[simp] theorem pyMap_nil {α β : Type} (f : α → PyM β) : pyMap [] f = .ok [] := rfl

theorem pyMap_cons {α β : Type} (a : α) (l : List α) (f : α → PyM β) :
    pyMap (a :: l) f = f a >>= fun b => pyMap l f >>= fun bs => .ok (b :: bs) := rfl

theorem pyMap_eq_ok {α β : Type} {l : List α} {f : α → PyM β} (g : α → β)
    (h : ∀ x ∈ l, f x = .ok (g x)) : pyMap l f = .ok (l.map g) := by
  induction l with
  | nil => rfl
  | cons a t ih =>
    rw [pyMap_cons, h a (by simp), ih (fun x hx => h x (by simp [hx]))]; rfl

theorem pyMap_congr {α β : Type} {l : List α} {f g : α → PyM β}
    (h : ∀ x ∈ l, f x = g x) : pyMap l f = pyMap l g := by
  induction l with
  | nil => rfl
  | cons a t ih =>
    rw [pyMap_cons, pyMap_cons, h a (by simp), ih (fun x hx => h x (by simp [hx]))]

@[simp] theorem pyMap_ok {α β : Type} (l : List α) (g : α → β) :
    pyMap l (fun x => .ok (g x)) = .ok (l.map g) := pyMap_eq_ok g (fun _ _ => rfl)

theorem pyMap_ok_iff {α β : Type} {l : List α} {f : α → PyM β} {r : List β} :
    pyMap l f = .ok r ↔ List.Forall₂ (fun a b => f a = .ok b) l r := by
  induction l generalizing r with
  | nil =>
    cases r <;> simp
  | cons a t ih =>
    cases r with
    | nil => simp [pyMap_cons, bind_eq_ok]
    | cons b bs =>
      simp [pyMap_cons, bind_eq_ok, ih]

theorem pyMap_length {α β : Type} {l : List α} {f : α → PyM β} {r : List β} (h : pyMap l f = .ok r) :
    r.length = l.length := (List.Forall₂.length_eq (pyMap_ok_iff.1 h)).symm

theorem pyMap_getElem {α β : Type} {l : List α} {f : α → PyM β} {r : List β} (h : pyMap l f = .ok r)
    (i : ℕ) (hi : i < l.length) : f l[i] = .ok (r[i]'(by rw [pyMap_length h]; exact hi)) :=
  (List.forall₂_iff_get.1 (pyMap_ok_iff.1 h)).2 i hi (by rw [pyMap_length h]; exact hi)

@[simp] theorem pyFor_nil {α σ : Type} (s : σ) (f : σ → α → PyM σ) : pyFor [] s f = .ok s := rfl

theorem pyFor_cons {α σ : Type} (a : α) (l : List α) (s : σ) (f : σ → α → PyM σ) :
    pyFor (a :: l) s f = f s a >>= fun s' => pyFor l s' f := rfl

theorem pyFor_append {α σ : Type} (l l' : List α) (s : σ) (f : σ → α → PyM σ) :
    pyFor (l ++ l') s f = pyFor l s f >>= fun s' => pyFor l' s' f := by
  induction l generalizing s with
  | nil => rfl
  | cons a t ih =>
    rw [List.cons_append, pyFor_cons, pyFor_cons]
    cases f s a with
    | error e => rfl
    | ok s' => exact ih s'

/-- Loop rule: an invariant indexed by the processed prefix. -/
theorem pyFor_inv {α σ : Type} {l : List α} {s : σ} {f : σ → α → PyM σ} (I : List α → σ → Prop)
    (h0 : I [] s)
    (hstep : ∀ pre a post s, l = pre ++ a :: post → I pre s → ∃ s', f s a = .ok s' ∧ I (pre ++ [a]) s') :
    ∃ s', pyFor l s f = .ok s' ∧ I l s' := by
  suffices H : ∀ post pre s, l = pre ++ post → I pre s → ∃ s', pyFor post s f = .ok s' ∧ I l s' from
    H l [] s rfl h0
  intro post
  induction post with
  | nil => intro pre s h hI; exact ⟨s, rfl, by simpa [h] using hI⟩
  | cons a t ih =>
    intro pre s h hI
    obtain ⟨s', h1, h2⟩ := hstep pre a t s h hI
    obtain ⟨s'', h3, h4⟩ := ih (pre ++ [a]) s' (by simp [h]) h2
    exact ⟨s'', by rw [pyFor_cons, h1]; exact h3, h4⟩

/-- A loop that never raises is a left fold. -/
theorem pyFor_ok {α σ : Type} (l : List α) (s : σ) (g : σ → α → σ) :
    pyFor l s (fun s a => .ok (g s a)) = .ok (l.foldl g s) := by
  induction l generalizing s with
  | nil => rfl
  | cons a t ih => rw [pyFor_cons]; exact ih _

namespace PyDict
variable {α β : Type} [DecidableEq α]

@[simp] theorem get?_empty (a : α) : (empty : PyDict α β).get? a = none := rfl

theorem getL_setL (l : List (α × β)) (a b : α) (v : β) :
    getL (setL l a v) b = if a = b then some v else getL l b := by
  induction l with
  | nil => simp [setL, getL]
  | cons p t ih =>
    obtain ⟨k, w⟩ := p
    by_cases h : k = a
    · subst h; simp only [setL, if_true, getL]; split <;> simp_all
    · simp only [setL, h, if_false, getL, ih]
      by_cases h' : k = b
      · subst h'; simp [Ne.symm h]
      · simp [h']

theorem get?_set (d : PyDict α β) (a b : α) (v : β) :
    (d.set a v).get? b = if a = b then some v else d.get? b := getL_setL _ _ _ _

theorem get_eq_ok {d : PyDict α β} {a : α} {v : β} : d.get a = .ok v ↔ d.get? a = some v := by
  unfold get; cases d.get? a <;> simp

theorem get_of_get? {d : PyDict α β} {a : α} {v : β} (h : d.get? a = some v) : d.get a = .ok v :=
  get_eq_ok.2 h

end PyDict

end Tve
