import Verif.Model.Slices
import Verif.Props.Tensors

/-!
# C89: slices of vectors
-/

namespace Tve

/-- the position meant by a bound of a slice of `n` elements: negative bounds are counted from the end -/
def fromEnd (n : ℕ) (a : ℤ) : ℤ := if a < 0 then a + n else a

section
variable {K : Type} {n : ℕ} (f : Fin n → K)

private theorem slice_of_positions {a b c : ℤ} {L : List (Fin n)}
    (h : (List.range (PySlice.count a b c)).map (fun (i : ℕ) => a + i * c) = L.map fun (p : Fin n) => ((p : ℕ) : ℤ)) :
    pyMap (List.range (PySlice.count a b c)) (fun (i : ℕ) => pyIdx (List.ofFn f) (a + i * c)) = .ok (L.map f) := by
  have key : ∀ {α β γ : Type} (l : List α) (g : α → β) (k : β → PyM γ), pyMap (l.map g) k = pyMap l fun x => k (g x) := by
    intro α β γ l g k
    induction l with
    | nil => rfl
    | cons x l ih => rw [List.map_cons, pyMap_cons, pyMap_cons, ih]
  rw [← key (List.range (PySlice.count a b c)) (fun (i : ℕ) => a + i * c) (pyIdx (List.ofFn f)), h, key]
  refine pyMap_eq_ok f fun p _ => ?_
  rw [pyIdx, if_pos (by omega), Int.toNat_natCast, pyGet, List.getElem?_ofFn]
  simp

theorem mem_positions_pos {a b c : ℤ} (hc : 0 < c) (p : ℤ) :
    p ∈ (List.range (PySlice.count a b c)).map (fun (i : ℕ) => a + i * c) ↔ a ≤ p ∧ p < b ∧ c ∣ p - a := by
  simp only [List.mem_map, List.mem_range, PySlice.count, if_pos hc]
  constructor
  · rintro ⟨i, hi, rfl⟩
    split at hi
    · rename_i hab
      have h1 : (i : ℤ) ≤ (b - a - 1) / c := by omega
      have h2 : (i : ℤ) * c ≤ b - a - 1 := (Int.le_ediv_iff_mul_le hc).1 h1
      have h3 : 0 ≤ (i : ℤ) * c := by positivity
      exact ⟨by omega, by omega, ⟨i, by ring⟩⟩
    · omega
  · rintro ⟨h1, h2, k, hk⟩
    have hk0 : 0 ≤ k := by
      by_contra h
      have : c * k < 0 := mul_neg_of_pos_of_neg hc (by omega)
      omega
    refine ⟨k.toNat, ?_, ?_⟩
    · rw [if_pos (by omega)]
      have : k ≤ (b - a - 1) / c := (Int.le_ediv_iff_mul_le hc).2 (by rw [mul_comm]; omega)
      omega
    · rw [Int.toNat_of_nonneg hk0, mul_comm]; omega

theorem mem_positions_neg {a b c : ℤ} (hc : c < 0) (p : ℤ) :
    p ∈ (List.range (PySlice.count a b c)).map (fun (i : ℕ) => a + i * c) ↔ p ≤ a ∧ b < p ∧ c ∣ p - a := by
  have hc' : 0 < -c := by omega
  simp only [List.mem_map, List.mem_range, PySlice.count, if_neg (show ¬ 0 < c by omega)]
  constructor
  · rintro ⟨i, hi, rfl⟩
    split at hi
    · rename_i hab
      have h1 : (i : ℤ) ≤ (a - b - 1) / (-c) := by omega
      have h2 : (i : ℤ) * (-c) ≤ a - b - 1 := (Int.le_ediv_iff_mul_le hc').1 h1
      have h3 : 0 ≤ (i : ℤ) * (-c) := by positivity
      have h4 : (i : ℤ) * (-c) = - (i * c) := by ring
      exact ⟨by omega, by omega, ⟨i, by ring⟩⟩
    · omega
  · rintro ⟨h1, h2, k, hk⟩
    have hk0 : 0 ≤ k := by
      by_contra h
      have : 0 < c * k := mul_pos_of_neg_of_neg hc (by omega)
      omega
    have h4 : k * (-c) = - (c * k) := by ring
    refine ⟨k.toNat, ?_, ?_⟩
    · rw [if_pos (by omega)]
      have : k ≤ (a - b - 1) / (-c) := (Int.le_ediv_iff_mul_le hc').2 (by omega)
      omega
    · rw [Int.toNat_of_nonneg hk0, mul_comm]; omega

/-- Slicing forwards: the entries at the positions from the first bound on (by default the beginning) before the second bound (by
default the end) in steps of `c`; negative bounds count from the end, a first bound before the beginning means the beginning. -/
theorem C89_forward (a b : Option ℤ) {c : ℤ} (hc : 0 < c) :
    (vecOf f).getSlice ⟨a, b, some c⟩ = .ok ⟨((List.finRange n).filter fun (p : Fin n) =>
      decide (max 0 (a.elim 0 (fromEnd n)) ≤ ((p : ℕ) : ℤ) ∧ ((p : ℕ) : ℤ) < b.elim (n : ℤ) (fromEnd n) ∧
        c ∣ ((p : ℕ) : ℤ) - max 0 (a.elim 0 (fromEnd n)))).map f⟩ := by
  have key : (vecOf f).getSlice ⟨a, b, some c⟩ = (pyMap (List.range (PySlice.count (PySlice.first ⟨a, b, some c⟩ n true)
      (PySlice.last ⟨a, b, some c⟩ n true) c)) fun (i : ℕ) => pyIdx (List.ofFn f)
        (PySlice.first ⟨a, b, some c⟩ n true + i * c)) >>= fun l => .ok ⟨l⟩ := by
    simp only [Vec.getSlice, pySlice, vecOf, Option.getD_some, if_neg hc.ne', List.length_ofFn, decide_eq_true hc]
    rfl
  rw [key, slice_of_positions f (L := (List.finRange n).filter fun (p : Fin n) =>
      decide (max 0 (a.elim 0 (fromEnd n)) ≤ ((p : ℕ) : ℤ) ∧ ((p : ℕ) : ℤ) < b.elim (n : ℤ) (fromEnd n) ∧
        c ∣ ((p : ℕ) : ℤ) - max 0 (a.elim 0 (fromEnd n))))]
  · rfl
  · refine List.Pairwise.eq_of_mem_iff (r := (· < ·)) ?_ ?_ ?_
    · rw [List.pairwise_map]
      refine List.pairwise_lt_range.imp ?_
      intro i j hij
      have : (i : ℤ) * c < j * c := mul_lt_mul_of_pos_right (by exact_mod_cast hij) hc
      omega
    · rw [List.pairwise_map]
      refine ((List.pairwise_lt_finRange n).filter _).imp ?_
      intro i j hij
      exact_mod_cast hij
    · intro p
      rw [mem_positions_pos hc]
      have hlo : PySlice.first ⟨a, b, some c⟩ n true = min (max 0 (a.elim 0 (fromEnd n))) n := by
        rcases a with - | a <;> simp only [PySlice.first, PySlice.clip, fromEnd, Option.elim, if_true] <;> (try split) <;> omega
      have hhi : PySlice.last ⟨a, b, some c⟩ n true = min (max 0 (b.elim (n : ℤ) (fromEnd n))) n := by
        rcases b with - | b <;> simp only [PySlice.last, PySlice.clip, fromEnd, Option.elim, if_true] <;> (try split) <;> omega
      rw [hlo, hhi]
      generalize a.elim 0 (fromEnd n) = A
      generalize b.elim (n : ℤ) (fromEnd n) = B
      simp only [List.mem_map, List.mem_filter, List.mem_finRange, true_and, decide_eq_true_eq]
      constructor
      · rintro ⟨h1, h2, h3⟩
        refine ⟨⟨p.toNat, by omega⟩, ?_, by simp only; omega⟩
        simp only [Int.toNat_of_nonneg (show 0 ≤ p by omega)]
        rw [min_eq_left (by omega)] at h1 h3
        exact ⟨h1, by omega, h3⟩
      · rintro ⟨q, ⟨h1, h2, h3⟩, rfl⟩
        have := q.2
        rw [min_eq_left (by omega)]
        exact ⟨h1, by omega, h3⟩

/-- Slicing backwards: the entries at the positions from the first bound down (by default the end) to after the second bound (by
default the beginning) in steps of `-c`; a first bound after the end means the end. -/
theorem C89_backward (a b : Option ℤ) {c : ℤ} (hc : c < 0) :
    (vecOf f).getSlice ⟨a, b, some c⟩ = .ok ⟨((List.finRange n).reverse.filter fun (p : Fin n) =>
      decide (((p : ℕ) : ℤ) ≤ min ((n : ℤ) - 1) (a.elim ((n : ℤ) - 1) (fromEnd n)) ∧ b.elim (-1) (fromEnd n) < ((p : ℕ) : ℤ) ∧
        c ∣ ((p : ℕ) : ℤ) - min ((n : ℤ) - 1) (a.elim ((n : ℤ) - 1) (fromEnd n)))).map f⟩ := by
  have key : (vecOf f).getSlice ⟨a, b, some c⟩ = (pyMap (List.range (PySlice.count (PySlice.first ⟨a, b, some c⟩ n false)
      (PySlice.last ⟨a, b, some c⟩ n false) c)) fun (i : ℕ) => pyIdx (List.ofFn f)
        (PySlice.first ⟨a, b, some c⟩ n false + i * c)) >>= fun l => .ok ⟨l⟩ := by
    simp only [Vec.getSlice, pySlice, vecOf, Option.getD_some, if_neg hc.ne, List.length_ofFn,
      decide_eq_false (show ¬ 0 < c by omega)]
    rfl
  rw [key, slice_of_positions f (L := (List.finRange n).reverse.filter fun (p : Fin n) =>
      decide (((p : ℕ) : ℤ) ≤ min ((n : ℤ) - 1) (a.elim ((n : ℤ) - 1) (fromEnd n)) ∧ b.elim (-1) (fromEnd n) < ((p : ℕ) : ℤ) ∧
        c ∣ ((p : ℕ) : ℤ) - min ((n : ℤ) - 1) (a.elim ((n : ℤ) - 1) (fromEnd n))))]
  · rfl
  · refine List.Pairwise.eq_of_mem_iff (r := (· > ·)) ?_ ?_ ?_
    · rw [List.pairwise_map]
      refine List.pairwise_lt_range.imp ?_
      intro i j hij
      have : (j : ℤ) * c < i * c := mul_lt_mul_of_neg_right (by exact_mod_cast hij) hc
      omega
    · rw [List.pairwise_map]
      refine List.Pairwise.imp ?_ ((List.pairwise_reverse.2 (List.pairwise_lt_finRange n)).filter _)
      intro i j hij
      exact_mod_cast hij
    · intro p
      rw [mem_positions_neg hc]
      have hlo : PySlice.first ⟨a, b, some c⟩ n false = max (-1) (min ((n : ℤ) - 1) (a.elim ((n : ℤ) - 1) (fromEnd n))) := by
        rcases a with - | a <;> simp only [PySlice.first, PySlice.clip, fromEnd, Option.elim, Bool.false_eq_true, if_false] <;>
          (try split) <;> omega
      have hhi : PySlice.last ⟨a, b, some c⟩ n false = max (-1) (min ((n : ℤ) - 1) (b.elim (-1) (fromEnd n))) := by
        rcases b with - | b <;> simp only [PySlice.last, PySlice.clip, fromEnd, Option.elim, Bool.false_eq_true, if_false] <;>
          (try split) <;> omega
      rw [hlo, hhi]
      generalize a.elim ((n : ℤ) - 1) (fromEnd n) = A
      generalize b.elim (-1) (fromEnd n) = B
      simp only [List.mem_map, List.mem_filter, List.mem_reverse, List.mem_finRange, true_and, decide_eq_true_eq]
      constructor
      · rintro ⟨h1, h2, h3⟩
        refine ⟨⟨p.toNat, by omega⟩, ?_, by simp only; omega⟩
        simp only [Int.toNat_of_nonneg (show 0 ≤ p by omega)]
        rw [max_eq_right (by omega)] at h1 h3
        exact ⟨h1, by omega, h3⟩
      · rintro ⟨q, ⟨h1, h2, h3⟩, rfl⟩
        have := q.2
        rw [max_eq_right (by omega)]
        exact ⟨h1, by omega, h3⟩

/-- A step of zero raises `ValueError`; without a step the step is one. -/
theorem C89_step (v : Vec K) (a b : Option ℤ) :
    v.getSlice ⟨a, b, some 0⟩ = .error .valueError ∧ v.getSlice ⟨a, b, none⟩ = v.getSlice ⟨a, b, some 1⟩ := ⟨rfl, rfl⟩

private theorem vec_eq (v : Vec K) : v = vecOf fun i : Fin v.data.length => v.data[i] := by
  obtain ⟨l⟩ := v
  simp [vecOf]

/-- `v[:k]` and `v[k:]` put together are `v`, for every integer `k`. -/
theorem C89_split (v : Vec K) (k : ℤ) :
    ∃ x y, v.getSlice ⟨none, some k, none⟩ = .ok x ∧ v.getSlice ⟨some k, none, none⟩ = .ok y ∧ x.extend y = v := by
  rw [(C89_step v _ _).2, (C89_step v _ _).2]
  rw [vec_eq v, C89_forward _ _ _ one_pos, C89_forward _ _ _ one_pos]
  refine ⟨_, _, rfl, rfl, ?_⟩
  simp only [Vec.extend, vecOf, List.ofFn_eq_map, ← List.map_append]
  congr 2
  generalize v.data.length = m
  refine List.Pairwise.eq_of_mem_iff (r := (· < ·)) ?_ (List.pairwise_lt_finRange m) ?_
  · rw [List.pairwise_append]
    refine ⟨(List.pairwise_lt_finRange m).filter _, (List.pairwise_lt_finRange m).filter _, ?_⟩
    intro a ha b hb
    have h1 := (of_decide_eq_true (List.mem_filter.1 ha).2).2.1
    have h2 := (of_decide_eq_true (List.mem_filter.1 hb).2).1
    simp only [Option.elim] at h1 h2
    rw [Fin.lt_def]
    omega
  · intro p
    simp only [List.mem_append, List.mem_filter, List.mem_finRange, true_and, decide_eq_true_eq, Option.elim, one_dvd, and_true,
      iff_true]
    have := p.2
    omega

/-- `v[::-1]` is `v` backwards, and `v[:]` is `v`. -/
theorem C89_reverse : (vecOf f).getSlice ⟨none, none, some (-1)⟩ = .ok (vecOf fun i => f i.rev) ∧
    (vecOf f).getSlice ⟨none, none, none⟩ = .ok (vecOf f) := by
  constructor
  · rw [C89_backward _ _ _ (by norm_num), List.filter_eq_self.2]
    · simp only [vecOf, List.ofFn_eq_map, List.map_reverse]
      congr 2
      apply List.ext_getElem
      · simp
      · intro i h1 h2
        simp only [List.length_reverse, List.length_map, List.length_finRange] at h1
        simp only [List.getElem_reverse, List.getElem_map, List.getElem_finRange, List.length_map, List.length_finRange]
        congr 1
        ext
        simp [Fin.rev]
        omega
    · intro p _
      have := p.2
      refine decide_eq_true ?_
      simp only [Option.elim]
      refine ⟨by omega, by omega, ?_⟩
      rw [neg_dvd]; exact one_dvd _
  · rw [(C89_step _ _ _).2, C89_forward _ _ _ one_pos, List.filter_eq_self.2]
    · simp only [vecOf, List.ofFn_eq_map]
    · intro p _
      have := p.2
      refine decide_eq_true ?_
      simp only [Option.elim]
      exact ⟨by omega, by omega, one_dvd _⟩

/-- The modelled slices with natural bounds of C02 are the same. -/
theorem C89_natural (a b : ℕ) : (vecOf f).getSlice ⟨some a, some b, none⟩ = .ok ((vecOf f).slice a b) := by
  rw [(C89_step _ _ _).2, C89_forward _ _ _ one_pos]
  congr 1
  rw [Vec.ext_iff]
  simp only [Vec.slice, vecOf, List.ofFn_eq_map, ← List.map_take, ← List.map_drop]
  congr 1
  refine List.Pairwise.eq_of_mem_iff (r := (· < ·)) ((List.pairwise_lt_finRange n).filter _)
    ((List.pairwise_lt_finRange n).sublist ((List.drop_sublist _ _).trans (List.take_sublist _ _))) ?_
  intro p
  simp only [List.mem_filter, List.mem_finRange, true_and, decide_eq_true_eq, Option.elim, one_dvd, and_true, fromEnd,
    if_neg (show ¬ ((a : ℤ) < 0) by omega), if_neg (show ¬ ((b : ℤ) < 0) by omega), List.mem_drop_iff_getElem,
    List.getElem_take, List.getElem_finRange, List.length_take, List.length_finRange]
  constructor
  · rintro ⟨h1, h2⟩
    have := p.2
    refine ⟨p - a, by omega, ?_⟩
    ext
    simp
    omega
  · rintro ⟨i, hi, rfl⟩
    simp only [Fin.val_cast]
    omega

end

/-- `v[1:-1]` and `v[::2]`, `v[-2:]`, `v[10:0:-2]` of `Vector([1, 2, 3, 4, 5])` -/
example : (vecOf ![1, 2, 3, 4, 5] : Vec ℚ).getSlice ⟨some 1, some (-1), none⟩ = .ok (vecOf ![2, 3, 4]) ∧
    (vecOf ![1, 2, 3, 4, 5] : Vec ℚ).getSlice ⟨none, none, some 2⟩ = .ok (vecOf ![1, 3, 5]) ∧
    (vecOf ![1, 2, 3, 4, 5] : Vec ℚ).getSlice ⟨some (-2), none, none⟩ = .ok (vecOf ![4, 5]) ∧
    (vecOf ![1, 2, 3, 4, 5] : Vec ℚ).getSlice ⟨some 10, some 0, some (-2)⟩ = .ok (vecOf ![5, 3]) := by
  decide +kernel

/-! ### C06: reshaping to any integers -/

/-- Reshaping to any integers never returns a matrix of another shape than asked for: it agrees with reshaping to natural numbers
of rows and columns, and negative or zero numbers of rows raise `ValueError`, or `IndexError` if the product is the size. -/
theorem C06_reshape_int {K : Type} (v : Vec K) (r c : ℤ) :
    (0 ≤ r → 0 ≤ c → v.reshapeInt r c = v.reshape r.toNat c.toNat) ∧
    (r < 0 ∨ c < 0 → v.reshapeInt r c = .error .valueError ∨ (v.reshapeInt r c = .error .indexError ∧ (v.size : ℤ) = r * c)) ∧
    ∀ A, v.reshapeInt r c = .ok A → 1 ≤ r ∧ 0 ≤ c ∧ (A.shape.1 : ℤ) = r ∧ (A.shape.2 : ℤ) = c := by
  have nat : 0 ≤ r → 0 ≤ c → v.reshapeInt r c = v.reshape r.toNat c.toNat := by
    intro hr hc
    lift r to ℕ using hr
    lift c to ℕ using hc
    simp only [Vec.reshapeInt, Vec.reshape, Int.toNat_natCast]
    have e : ∀ i j : ℕ, pyIdx v.data ((i : ℤ) * c + j) = pyGet v.data (i * c + j) := by
      intro i j
      have h : (i : ℤ) * c + j = ((i * c + j : ℕ) : ℤ) := by push_cast; rfl
      rw [h, pyIdx, if_pos (by omega), Int.toNat_natCast]
    simp only [e]
    by_cases h : v.size = r * c
    · rw [if_neg (by rw [h]; push_cast; simp), if_neg (by simp [h])]
    · rw [if_pos (by exact_mod_cast h), if_pos h]
  have neg : r < 0 ∨ c < 0 →
      v.reshapeInt r c = .error .valueError ∨ (v.reshapeInt r c = .error .indexError ∧ (v.size : ℤ) = r * c) := by
    intro h
    unfold Vec.reshapeInt
    split
    · exact .inl rfl
    · rename_i h0
      rw [not_not] at h0
      have hr : r ≤ 0 := by
        by_contra h1
        have hc : c < 0 := by omega
        have : r * c < 0 := mul_neg_of_pos_of_neg (by omega) hc
        omega
      rw [Int.toNat_of_nonpos hr]
      exact .inr ⟨rfl, h0⟩
  refine ⟨nat, neg, ?_⟩
  intro A hA
  by_cases h : r < 0 ∨ c < 0
  · rcases neg h with h | ⟨h, -⟩ <;> rw [hA] at h <;> cases h
  · have hr : 0 ≤ r := by omega
    have hc : 0 ≤ c := by omega
    rw [nat hr hc] at hA
    have hs := (C06_flatten_reshape _ _ _ _ hA).2
    rw [hs]
    refine ⟨?_, hc, by simp [hr], by simp [hc]⟩
    by_contra h1
    have hr0 : r = 0 := by omega
    subst hr0
    simp only [Vec.reshape, Int.toNat_zero] at hA
    split at hA <;> cases hA

example : (vecOf ![1, 2, 3, 4, 5, 6] : Vec ℚ).reshapeInt (-2) (-3) = .error .indexError ∧
    (vecOf ![1, 2, 3, 4, 5, 6] : Vec ℚ).reshapeInt 2 (-3) = .error .valueError ∧
    (vecOf ![1, 2, 3, 4, 5, 6] : Vec ℚ).reshapeInt 2 3 = .ok ⟨[[1, 2, 3], [4, 5, 6]]⟩ := by decide +kernel

/-! ### C07: maps that raise -/

/-- Mapping a function that raises: the first exception in reading order is raised, and without one the result has the images as
entries and the same shape. -/
theorem C07_map_raising {K : Type} (f : K → PyM K) :
    (∀ {n : ℕ} (g : Fin n → K), (∀ i, ∃ y, f (g i) = .ok y) → ∃ h : Fin n → K, (∀ i, f (g i) = .ok (h i)) ∧
      (vecOf g).mapM f = .ok (vecOf h)) ∧
    (∀ {n : ℕ} (g : Fin n → K) (k : Fin n) e, (∀ i < k, ∃ y, f (g i) = .ok y) → f (g k) = .error e →
      (vecOf g).mapM f = .error e) ∧
    (∀ {r c : ℕ} (M : Matrix (Fin (r + 1)) (Fin c) K), (∀ i j, ∃ y, f (M i j) = .ok y) →
      ∃ N : Matrix (Fin (r + 1)) (Fin c) K, (∀ i j, f (M i j) = .ok (N i j)) ∧ (matOf M).mapM f = .ok (matOf N)) ∧
    (∀ {r c : ℕ} (M : Matrix (Fin (r + 1)) (Fin c) K) (a : Fin (r + 1)) (b : Fin c) e,
      (∀ i j, i < a ∨ (i = a ∧ j < b) → ∃ y, f (M i j) = .ok y) → f (M a b) = .error e → (matOf M).mapM f = .error e) := by
  have first : ∀ {α β : Type} (l : List α) (h : α → PyM β) (k : ℕ) (hk : k < l.length) (e : PyErr),
      (∀ i (hi : i < k), ∃ y, h (l[i]'(hi.trans hk)) = .ok y) → h l[k] = .error e → pyMap l h = .error e := by
    intro α β l h
    induction l with
    | nil => intro k hk; simp at hk
    | cons x l ih =>
      intro k hk e h1 h2
      rw [pyMap_cons]
      cases k with
      | zero => rw [List.getElem_cons_zero] at h2; rw [h2]; rfl
      | succ k =>
        obtain ⟨y, hy⟩ := h1 0 (by omega)
        rw [List.getElem_cons_zero] at hy
        rw [List.getElem_cons_succ] at h2
        rw [hy, bind_ok, ih k (by simpa using hk) e (fun i hi => by simpa using h1 (i + 1) (by omega)) h2]
        rfl
  have all : ∀ {n : ℕ} (g : Fin n → K) (h : Fin n → K), (∀ i, f (g i) = .ok (h i)) →
      pyMap (List.ofFn g) f = .ok (List.ofFn h) := by
    intro n g h hh
    rw [pyMap_ok_iff, List.forall₂_iff_get]
    refine ⟨by simp, fun i h1 h2 => ?_⟩
    simp [hh]
  refine ⟨?_, ?_, ?_, ?_⟩
  · intro n g hg
    choose h hh using hg
    refine ⟨h, hh, ?_⟩
    simp only [Vec.mapM, vecOf, all g h hh]
    rfl
  · intro n g k e h1 h2
    simp only [Vec.mapM, vecOf]
    rw [first (List.ofFn g) f k (by simp) e (fun i hi => by simpa using h1 ⟨i, by omega⟩ hi) (by simpa using h2)]
    rfl
  · intro r c M hM
    choose N hN using hM
    refine ⟨N, hN, ?_⟩
    simp only [Mat.mapM, matOf]
    have : pyMap (List.ofFn fun i => List.ofFn fun j => M i j) (fun row => pyMap row f) =
        .ok (List.ofFn fun i => List.ofFn fun j => N i j) := by
      rw [pyMap_ok_iff, List.forall₂_iff_get]
      refine ⟨by simp, fun i h1 h2 => ?_⟩
      simp only [List.get_eq_getElem, List.getElem_ofFn]
      exact all _ _ (hN _)
    rw [this, bind_ok]
    exact Mat.new_ofFn N
  · intro r c M a b e h1 h2
    simp only [Mat.mapM, matOf]
    rw [first (List.ofFn fun i => List.ofFn fun j => M i j) (fun row => pyMap row f) a
      (by rw [List.length_ofFn]; exact a.2) e]
    · rfl
    · intro i hi
      have hi' : i < r + 1 := by omega
      have := fun j => h1 ⟨i, hi'⟩ j (.inl hi)
      choose h hh using this
      refine ⟨List.ofFn h, ?_⟩
      simp only [List.getElem_ofFn]
      exact all _ h hh
    · simp only [List.getElem_ofFn]
      exact first _ f b (by simp) e (fun j hj => by simpa using h1 a ⟨j, by omega⟩ (.inr ⟨rfl, hj⟩)) (by simpa using h2)

end Tve
