import Verif.Spec.Tensors
import Verif.Lemmas.Py
import Mathlib.Tactic.FieldSimp
import Mathlib.Data.List.OfFn
import Mathlib.Data.List.FinRange
import Mathlib.Algebra.BigOperators.Fin

/-! Helper lemmas for the tensor model. -/

namespace Tve

theorem pyMap_range_ofFn {β : Type} {n : ℕ} {f : ℕ → PyM β} (g : Fin n → β)
    (h : ∀ i : Fin n, f i = .ok (g i)) : pyMap (List.range n) f = .ok (List.ofFn g) := by
  have h1 : List.range n = (List.finRange n).map (fun i : Fin n => (i : ℕ)) := by
    simp
  have h2 : ∀ (l : List (Fin n)), pyMap (l.map (fun i : Fin n => (i : ℕ))) f = .ok (l.map g) := by
    intro l
    induction l with
    | nil => rfl
    | cons a t ih => rw [List.map_cons, pyMap_cons, h a, ih]; rfl
  rw [h1, h2, List.ofFn_eq_map]

theorem pyMap_map {α β γ : Type} (l : List α) (h : α → β) (f : β → PyM γ) :
    pyMap (l.map h) f = pyMap l (fun a => f (h a)) := by
  induction l with
  | nil => rfl
  | cons a t ih => rw [List.map_cons, pyMap_cons, pyMap_cons, ih]

theorem pyMap_ofFn {α β : Type} {n : ℕ} {f : α → PyM β} (a : Fin n → α) (g : Fin n → β)
    (h : ∀ i : Fin n, f (a i) = .ok (g i)) : pyMap (List.ofFn a) f = .ok (List.ofFn g) := by
  rw [List.ofFn_eq_map, pyMap_map, List.ofFn_eq_map]
  exact pyMap_eq_ok g (fun x _ => h x)

theorem zipWith_ofFn {α β γ : Type} {n : ℕ} (f : α → β → γ) (a : Fin n → α) (b : Fin n → β) :
    List.zipWith f (List.ofFn a) (List.ofFn b) = List.ofFn (fun i => f (a i) (b i)) := by
  apply List.ext_getElem <;> simp

theorem Mat.new_of_rows {K : Type} {d : List (List K)} {c : ℕ} (h0 : d ≠ [])
    (h : ∀ r ∈ d, r.length = c) : Mat.new d = .ok ⟨d⟩ := by
  cases d with
  | nil => exact absurd rfl h0
  | cons r rest =>
    have : rest.all (fun row => row.length == r.length) = true := by
      rw [List.all_eq_true]; intro x hx
      simp [h x (by simp [hx]), h r (by simp)]
    simp [Mat.new, this]

theorem Mat.new_ofFn {K : Type} {r c : ℕ} (M : Matrix (Fin (r + 1)) (Fin c) K) :
    Mat.new (List.ofFn fun i => List.ofFn fun j => M i j) = .ok (matOf M) := by
  apply Mat.new_of_rows (c := c)
  · simp
  · intro x hx
    rw [List.mem_ofFn] at hx
    obtain ⟨i, rfl⟩ := hx
    simp

@[simp] theorem matOf_rows {K : Type} {r c : ℕ} (M : Matrix (Fin r) (Fin c) K) : (matOf M).rows = r := by
  simp [matOf, Mat.rows]

@[simp] theorem matOf_cols {K : Type} {r c : ℕ} (M : Matrix (Fin (r + 1)) (Fin c) K) : (matOf M).cols = c := by
  simp [matOf, Mat.cols, List.ofFn_succ]

@[simp] theorem matOf_shape {K : Type} {r c : ℕ} (M : Matrix (Fin (r + 1)) (Fin c) K) :
    (matOf M).shape = (r + 1, c) := by simp [Mat.shape]

@[simp] theorem vecOf_size {K : Type} {n : ℕ} (f : Fin n → K) : (vecOf f).size = n := by
  simp [vecOf, Vec.size]

theorem matOf_at {K : Type} {r c : ℕ} (M : Matrix (Fin r) (Fin c) K) (i : Fin r) (j : Fin c) :
    (matOf M).at' i j = .ok (M i j) := by
  simp [Mat.at', matOf, pyGet]

/-- Every object accepted by `Matrix.__init__` is `matOf` of some matrix. -/
theorem Mat.exists_of_new {K : Type} {d : List (List K)} {A : Mat K} (h : Mat.new d = .ok A) :
    ∃ (r c : ℕ) (M : Matrix (Fin (r + 1)) (Fin c) K), A = matOf M := by
  cases d with
  | nil => simp [Mat.new] at h
  | cons r0 rest =>
    simp only [Mat.new] at h
    split at h
    case isFalse => simp at h
    case isTrue hall =>
      simp only [Except.ok.injEq] at h
      subst h
      have hl : ∀ r ∈ r0 :: rest, r.length = r0.length := by
        intro r hr
        rw [List.all_eq_true] at hall
        rcases List.mem_cons.1 hr with rfl | hr
        · rfl
        · simpa using hall r hr
      have hi : ∀ i : Fin (rest.length + 1), (i : ℕ) < (r0 :: rest).length := fun i => i.2
      refine ⟨rest.length, r0.length, fun i j =>
        ((r0 :: rest)[(i : ℕ)]'(hi i)).get ⟨j, by rw [hl _ (List.getElem_mem (hi i))]; exact j.2⟩, ?_⟩
      simp only [matOf, Mat.mk.injEq]
      apply List.ext_getElem
      · simp
      · intro n h1 h2
        rw [List.getElem_ofFn]
        apply List.ext_getElem
        · rw [List.length_ofFn, hl _ (List.getElem_mem _)]
        · intro m h3 h4; simp

theorem matOf_injective {K : Type} {r c : ℕ} {M N : Matrix (Fin r) (Fin c) K} (h : matOf M = matOf N) :
    M = N := by
  simp only [matOf, Mat.mk.injEq] at h
  have h1 := List.ofFn_injective h
  funext i j
  exact congrFun (List.ofFn_injective (congrFun h1 i)) j

theorem vecOf_injective {K : Type} {n : ℕ} {f g : Fin n → K} (h : vecOf f = vecOf g) : f = g := by
  simp only [vecOf, Vec.mk.injEq] at h
  exact List.ofFn_injective h

theorem Vec.exists_eq {K : Type} (v : Vec K) : ∃ (n : ℕ) (f : Fin n → K), v = vecOf f :=
  ⟨v.data.length, v.data.get, by simp [vecOf]⟩

theorem pyDiv_ok {K : Type} [Field K] [DecidableEq K] {x d : K} (h : d ≠ 0) : pyDiv x d = .ok (x / d) := by
  simp [pyDiv, h]

theorem truediv_matOf {K : Type} [Field K] [DecidableEq K] {r c : ℕ} (M : Matrix (Fin (r + 1)) (Fin c) K)
    {d : K} (h : d ≠ 0) : (matOf M).truediv d = .ok (matOf (Matrix.of fun i j => M i j / d)) := by
  have : pyMap (matOf M).data (fun row => pyMap row fun x => pyDiv x d) =
      .ok (List.ofFn fun i => List.ofFn fun j => M i j / d) :=
    pyMap_ofFn _ _ (fun i => pyMap_ofFn _ _ (fun j => pyDiv_ok h))
  rw [Mat.truediv, this, bind_ok]
  exact Mat.new_ofFn _

theorem matmul_matOf {K : Type} [Field K] {r c d : ℕ} (M : Matrix (Fin (r + 1)) (Fin (c + 1)) K)
    (N : Matrix (Fin (c + 1)) (Fin d) K) : (matOf M).matmul (matOf N) = .ok (matOf (M * N)) := by
  rw [Mat.matmul, if_neg (by simp)]
  rw [matOf_rows, matOf_cols, matOf_cols]
  rw [pyMap_range_ofFn (fun i => List.ofFn fun j => (M * N) i j)]
  · rw [bind_ok]; exact Mat.new_ofFn _
  · intro i
    apply pyMap_range_ofFn
    intro j
    rw [pyMap_range_ofFn (fun k => M i k * N k j)]
    · rw [bind_ok, List.sum_ofFn, Matrix.mul_apply]; rfl
    · intro k
      rw [matOf_at, matOf_at]; rfl

theorem transpose_matOf {K : Type} {r c : ℕ} (M : Matrix (Fin (r + 1)) (Fin (c + 1)) K) :
    (matOf M).transpose = .ok (matOf M.transpose) := by
  rw [Mat.transpose, matOf_rows, matOf_cols]
  rw [pyMap_range_ofFn (fun j => List.ofFn fun i => M.transpose j i)]
  · rw [bind_ok]; exact Mat.new_ofFn _
  · intro j; apply pyMap_range_ofFn; intro i; exact matOf_at _ _ _

theorem getItem_vecOf {K : Type} {n : ℕ} (f : Fin n → K) (i : Fin n) :
    (vecOf f).getItem (i : ℕ) = .ok (f i) := by
  rw [Vec.getItem, if_neg (by simp), pyIdx_natCast]
  simp [vecOf, pyGet]

theorem dot_matOf {K : Type} [Field K] {r c : ℕ} (M : Matrix (Fin (r + 1)) (Fin c) K) (f : Fin c → K) :
    (matOf M).dot (vecOf f) = .ok (vecOf (M.mulVec f)) := by
  rw [Mat.dot, if_neg (by simp), matOf_rows, matOf_cols]
  rw [pyMap_range_ofFn (fun i => (M.mulVec f) i)]
  · rfl
  · intro i
    rw [pyMap_range_ofFn (fun j => M i j * f j)]
    · simp [Matrix.mulVec, dotProduct, List.sum_ofFn]
    · intro j; rw [matOf_at, bind_ok, getItem_vecOf]; rfl

/-! ### Determinant -/

theorem picks_ofFn {α : Type} {n : ℕ} (c : Fin (n + 1) → α) :
    picks (List.ofFn c) = List.ofFn (fun j => (c j, List.ofFn (fun i => c (j.succAbove i)))) := by
  induction n with
  | zero => simp [picks]
  | succ n ih =>
    rw [List.ofFn_succ, picks, ih (fun i => c i.succ), List.map_ofFn]
    conv_rhs => rw [List.ofFn_succ]
    congr 1
    congr 1
    funext j
    simp [Function.comp, List.ofFn_succ]

theorem mem_permsN {α : Type} {n : ℕ} {c : Fin n → α} {p : List α} (h : p ∈ permsN n (List.ofFn c)) :
    p.Perm (List.ofFn c) := by
  induction n generalizing p with
  | zero => simp [permsN] at h; simp [h]
  | succ n ih =>
    rw [permsN, picks_ofFn, List.mem_flatMap] at h
    obtain ⟨q, hq, hp⟩ := h
    rw [List.mem_ofFn] at hq
    obtain ⟨j, rfl⟩ := hq
    rw [List.mem_map] at hp
    obtain ⟨p', hp', rfl⟩ := hp
    have h1 := (ih hp').cons (c j)
    refine h1.trans ?_
    rw [← List.ofFn_cons]
    have : (Fin.cons (c j) (fun i => c (j.succAbove i)) : Fin (n + 1) → α) =
        c ∘ (Fin.cons j j.succAbove) := by
      funext i; refine Fin.cases ?_ (fun i => ?_) i <;> simp
    rw [this]
    have hbij : Function.Bijective (Fin.cons j j.succAbove : Fin (n + 1) → Fin (n + 1)) := by
      rw [← Finite.injective_iff_bijective]
      rw [Fin.cons_injective_iff]
      exact ⟨by simp, Fin.succAbove_right_injective⟩
    exact Equiv.Perm.ofFn_comp_perm (Equiv.ofBijective _ hbij) c

theorem filter_lt_succAbove {n : ℕ} {c : Fin (n + 1) → ℕ} (hc : StrictMono c) (j : Fin (n + 1)) :
    ((List.ofFn (fun i => c (j.succAbove i))).filter (fun b => b < c j)).length = (j : ℕ) := by
  rw [List.ofFn_eq_map, List.filter_map, List.length_map]
  have : ((fun b => decide (b < c j)) ∘ fun i => c (j.succAbove i)) = fun i : Fin n => decide ((i : ℕ) < j) := by
    funext i
    simp only [Function.comp, decide_eq_decide, hc.lt_iff_lt]
    rw [Fin.succAbove_lt_iff_castSucc_lt]
    simp [Fin.lt_def]
  rw [this]
  have h2 : ∀ m, m ≤ n → ((List.finRange n).filter (fun i : Fin n => decide ((i : ℕ) < m))).length = m := by
    intro m hm
    have : ((List.finRange n).filter (fun i : Fin n => decide ((i : ℕ) < m))).length =
        ((List.range n).filter (fun i => decide (i < m))).length := by
      have hr : List.range n = (List.finRange n).map (fun i : Fin n => (i : ℕ)) := by simp
      rw [hr, List.filter_map, List.length_map]; rfl
    rw [this]
    obtain ⟨k, rfl⟩ := Nat.exists_eq_add_of_le hm
    rw [List.range_add, List.filter_append, List.filter_eq_self.2, List.filter_eq_nil_iff.2]
    · simp
    · intro a ha; simp at ha; obtain ⟨b, _, rfl⟩ := ha; simp
    · intro a ha; simpa using ha
  exact h2 j (by omega)

/-- product of `R i p_i` along the list -/
def prodIdx {K : Type} [Field K] : (ℕ → ℕ → K) → List ℕ → K
  | _, [] => 1
  | R, a :: t => R 0 a * prodIdx (fun i => R (i + 1)) t

theorem signPy_eq {p : List ℕ} : signPy p = (-1) ^ numMisplaced p := by
  unfold signPy
  rcases Nat.mod_two_eq_zero_or_one (numMisplaced p) with h | h
  · simp [h, (Nat.even_iff.2 h).neg_one_pow]
  · simp [h, (Nat.odd_iff.2 h).neg_one_pow]

theorem sum_permsN {K : Type} [Field K] {n : ℕ} (R : ℕ → ℕ → K) (c : Fin n → ℕ) (hc : StrictMono c) :
    ((permsN n (List.ofFn c)).map (fun p => (signPy p : K) * prodIdx R p)).sum =
      Matrix.det (Matrix.of fun i j : Fin n => R i (c j)) := by
  induction n generalizing R with
  | zero => simp [permsN, signPy, numMisplaced, prodIdx]
  | succ n ih =>
    rw [Matrix.det_succ_row_zero, permsN, picks_ofFn, List.ofFn_eq_map, List.flatMap_map, List.flatMap,
      List.map_flatten, List.sum_flatten, List.map_map, List.map_map]
    have hF : ∀ f : Fin (n + 1) → K, ((List.finRange (n + 1)).map f).sum = ∑ j, f j := by
      intro f; rw [← List.ofFn_eq_map, List.sum_ofFn]
    rw [hF]
    apply Finset.sum_congr rfl
    intro j _
    simp only [Function.comp, List.map_map]
    have hterm : ∀ p ∈ permsN n (List.ofFn fun i => c (j.succAbove i)),
        (signPy (c j :: p) : K) * prodIdx R (c j :: p) =
          ((-1) ^ (j : ℕ) * R 0 (c j)) * ((signPy p : K) * prodIdx (fun i => R (i + 1)) p) := by
      intro p hp
      have h1 : numMisplaced (c j :: p) = (j : ℕ) + numMisplaced p := by
        rw [numMisplaced, ((mem_permsN hp).filter _).length_eq, filter_lt_succAbove hc]
      rw [signPy_eq, signPy_eq, h1, prodIdx]
      push_cast
      ring
    have hm : List.map ((fun p => (signPy p : K) * prodIdx R p) ∘ fun p => c j :: p)
        (permsN n (List.ofFn fun i => c (j.succAbove i))) =
        List.map (fun p => ((-1) ^ (j : ℕ) * R 0 (c j)) * ((signPy p : K) * prodIdx (fun i => R (i + 1)) p))
        (permsN n (List.ofFn fun i => c (j.succAbove i))) := List.map_congr_left (fun p hp => hterm p hp)
    rw [hm, List.sum_map_mul_left, ih (fun i => R (i + 1)) (fun i => c (j.succAbove i))
      (fun a b h => hc (Fin.strictMono_succAbove j h))]
    rfl

theorem prodIdx_eq {K : Type} [Field K] (R : ℕ → ℕ → K) (p : List ℕ) :
    prodIdx R p = (List.ofFn fun i : Fin p.length => R i p[i]).prod := by
  induction p generalizing R with
  | nil => rfl
  | cons a t ih =>
    rw [prodIdx, ih]
    simp [List.ofFn_succ]

theorem det_matOf {K : Type} [Field K] {n : ℕ} (M : Matrix (Fin (n + 1)) (Fin (n + 1)) K) :
    (matOf M).det = .ok M.det := by
  rw [Mat.det, if_neg (by simp), matOf_rows]
  set R : ℕ → ℕ → K := fun i j => if h : i < n + 1 ∧ j < n + 1 then M ⟨i, h.1⟩ ⟨j, h.2⟩ else 0 with hR
  have hrange : List.range (n + 1) = List.ofFn (fun i : Fin (n + 1) => (i : ℕ)) := by
    rw [List.ofFn_eq_map]; simp
  rw [hrange, pyMap_eq_ok (fun p => (signPy p : K) * prodIdx R p)]
  · simp only [bind_ok, pure_eq_ok, Except.ok.injEq]
    rw [sum_permsN R _ (fun a b h => h)]
    congr 1
    funext i j
    have h1 : (i : ℕ) < n + 1 ∧ (j : ℕ) < n + 1 := ⟨i.2, j.2⟩
    simp only [hR, Matrix.of_apply, dif_pos h1]
  · intro p hp
    have hperm := mem_permsN hp
    have hlen : p.length = n + 1 := by simpa using hperm.length_eq
    have hlt : ∀ x ∈ p, x < n + 1 := by
      intro x hx
      have := hperm.mem_iff.1 hx
      rw [List.mem_ofFn] at this
      obtain ⟨i, rfl⟩ := this
      exact i.2
    rw [← hrange, pyMap_range_ofFn (fun i : Fin (n + 1) => R i (p[i]'(by rw [hlen]; exact i.2)))]
    · simp only [bind_ok, pure_eq_ok]
      rw [prodIdx_eq]
      congr 2
      congr 1
      have : ∀ (m k : ℕ) (h : m = k) (f : Fin m → K) (g : Fin k → K),
          (∀ i : Fin m, f i = g (Fin.cast h i)) → List.ofFn f = List.ofFn g := by
        intro m k h f g hfg; subst h; congr 1; funext i; simpa using hfg i
      exact this _ _ hlen.symm _ _ (fun i => rfl)
    · intro i
      have hi : (i : ℕ) < p.length := by rw [hlen]; exact i.2
      rw [pyGet_ok hi, bind_ok]
      have h2 := hlt _ (List.getElem_mem hi)
      have := matOf_at M i ⟨p[(i : ℕ)], h2⟩
      rw [this]
      have h3 : (i : ℕ) < n + 1 ∧ p[(i : ℕ)] < n + 1 := ⟨i.2, h2⟩
      simp only [hR]
      simp [h3]

end Tve
