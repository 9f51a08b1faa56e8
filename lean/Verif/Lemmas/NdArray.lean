import Verif.Spec.Steps
import Verif.Lemmas.PyState
import Mathlib.Tactic.NormNum

/-! Lemmas about numpy arrays. -/

namespace Tve
namespace NdArray

theorem flatten_pairs_range (n : ℕ) (f : ℕ → ℝ) :
    ((List.range n).map fun i => [f (i * 2), f (i * 2 + 1)]).flatten = (List.range (n * 2)).map f := by
  induction n with
  | zero => rfl
  | succ n ih =>
    rw [List.range_succ, List.map_append, List.flatten_append, ih, Nat.succ_mul, List.range_add, List.map_append]
    simp [List.range_succ]

theorem map_getD_range (l : List ℝ) {n : ℕ} (h : l.length = n) : (List.range n).map (fun i => l.getD i 0) = l := by
  apply List.ext_getElem
  · simp [h]
  · intro i h1 h2; simp [List.getD, h2]

theorem col_eq {a : NdArray} {n c j : ℕ} (ha : a.Has [n, c]) (hj : j < c) :
    a.col j = .ok ((List.range n).map fun i => a.at2 c i j) := by
  have h2 : a.data.length = n * c := by have := ha.2; rw [NdArray.Ok, ha.1] at this; simpa using this
  rw [NdArray.col, ha.1]
  simp only [hj, if_true]
  apply pyMap_eq_ok
  intro i hi
  rw [List.mem_range] at hi
  apply pyGet_getD'
  rw [h2]
  calc i * c + j < i * c + c := by omega
    _ = (i + 1) * c := by ring
    _ ≤ n * c := Nat.mul_le_mul_right _ hi

theorem pairs_eq {a : NdArray} {n : ℕ} (ha : a.Has [n, 2]) (hn : 0 < n) :
    P1Mech.pairs ((List.range n).map fun i => a.at2 2 i 0) ((List.range n).map fun i => a.at2 2 i 1) = a := by
  have h2 : a.data.length = n * 2 := by have := ha.2; rw [NdArray.Ok, ha.1] at this; simpa using this
  have hz : List.zipWith (fun x y => [x, y]) ((List.range n).map fun i => a.at2 2 i 0)
      ((List.range n).map fun i => a.at2 2 i 1) =
      (List.range n).map fun i => [a.data.getD (i * 2) 0, a.data.getD (i * 2 + 1) 0] := by
    rw [List.zipWith_map, List.zipWith_self]; rfl
  rw [P1Mech.pairs, hz]
  have hf := flatten_pairs_range n fun i => a.data.getD i 0
  rw [map_getD_range _ h2] at hf
  obtain ⟨m, rfl⟩ : ∃ m, n = m + 1 := ⟨n - 1, by omega⟩
  rw [List.range_succ_eq_map, List.map_cons] at hf ⊢
  rw [NdArray.of2, hf]
  obtain ⟨sh, d⟩ := a
  have := ha.1
  simp only at this
  subst this
  simp

theorem has_pairs {a b : List ℝ} {n : ℕ} (ha : a.length = n) (hb : b.length = n) (hn : 0 < n) :
    (P1Mech.pairs a b).Has [n, 2] := by
  obtain ⟨x, a, rfl⟩ : ∃ x t, a = x :: t := by cases a with | nil => simp at ha; omega | cons x t => exact ⟨x, t, rfl⟩
  obtain ⟨y, b, rfl⟩ : ∃ x t, b = x :: t := by cases b with | nil => simp at hb; omega | cons x t => exact ⟨x, t, rfl⟩
  rw [P1Mech.pairs, List.zipWith_cons_cons, NdArray.of2]
  simp only [List.length_cons] at ha hb
  refine ⟨by simp; omega, ?_⟩
  have : ∀ a b : List ℝ, (List.zipWith (fun x y => [x, y]) a b).flatten.length = 2 * min a.length b.length := by
    intro a
    induction a with
    | nil => simp
    | cons x a ih =>
      intro b
      cases b with
      | nil => simp
      | cons y b => simp [ih]; omega
  simp only [NdArray.Ok, List.flatten_cons, List.length_append, this, List.length_cons, List.length_zipWith,
    List.prod_cons, List.prod_nil, List.length_nil]
  omega

theorem at2_pairs {a b : List ℝ} {n i : ℕ} (ha : a.length = n) (hb : b.length = n) (hi : i < n) :
    (P1Mech.pairs a b).at2 2 i 0 = a.getD i 0 ∧ (P1Mech.pairs a b).at2 2 i 1 = b.getD i 0 := by
  have hd : (P1Mech.pairs a b).data = (List.zipWith (fun x y => [x, y]) a b).flatten := by
    rw [P1Mech.pairs]
    cases h : List.zipWith (fun x y => [x, y]) a b <;> simp [NdArray.of2]
  rw [NdArray.at2, NdArray.at2, hd]
  clear hd
  induction i generalizing a b n with
  | zero =>
    cases a with
    | nil => simp at ha; omega
    | cons x a =>
      cases b with
      | nil => simp at hb; omega
      | cons y b => simp
  | succ i ih =>
    cases a with
    | nil => simp at ha; omega
    | cons x a =>
      cases b with
      | nil => simp at hb; omega
      | cons y b =>
        have := ih (a := a) (b := b) (n := n - 1) (by simp at ha; omega) (by simp at hb; omega) (by omega)
        rw [show (i + 1) * 2 + 0 = i * 2 + 0 + 1 + 1 by ring, show (i + 1) * 2 + 1 = i * 2 + 1 + 1 + 1 by ring]
        simp only [List.zipWith_cons_cons, List.flatten_cons, List.cons_append, List.nil_append]
        simp only [List.getD_cons_succ]
        exact this

theorem col_pairs {a b : List ℝ} {n : ℕ} (ha : a.length = n) (hb : b.length = n) (hn : 0 < n) :
    (P1Mech.pairs a b).col 0 = .ok a ∧ (P1Mech.pairs a b).col 1 = .ok b := by
  rw [col_eq (has_pairs ha hb hn) (by norm_num), col_eq (has_pairs ha hb hn) (by norm_num)]
  constructor
  · congr 1
    rw [← map_getD_range a ha]
    apply List.map_congr_left
    intro i hi
    rw [map_getD_range a ha]
    exact (at2_pairs ha hb (List.mem_range.1 hi)).1
  · congr 1
    rw [← map_getD_range b hb]
    apply List.map_congr_left
    intro i hi
    rw [map_getD_range b hb]
    exact (at2_pairs ha hb (List.mem_range.1 hi)).2

/-- every array of shape `(n, 2)` consists of two columns -/
theorem exists_cols {a : NdArray} {n : ℕ} (ha : a.Has [n, 2]) (hn : 0 < n) :
    ∃ A B : List ℝ, A.length = n ∧ B.length = n ∧ a = P1Mech.pairs A B :=
  ⟨_, _, by simp, by simp, (pairs_eq ha hn).symm⟩

/-! ### one-dimensional arrays -/

theorem has_of1 {l : List ℝ} {n : ℕ} (h : l.length = n) : (NdArray.of1 l).Has [n] := by
  subst h
  exact ⟨rfl, by simp [NdArray.Ok, NdArray.of1]⟩

theorem of1_data {a : NdArray} {n : ℕ} (ha : a.Has [n]) : NdArray.of1 a.data = a ∧ a.data.length = n := by
  have h2 : a.data.length = n := by have := ha.2; rw [NdArray.Ok, ha.1] at this; simpa using this
  obtain ⟨sh, d⟩ := a
  have := ha.1
  simp only at this h2
  subst this
  exact ⟨by simp [NdArray.of1, h2], h2⟩

/-! ### three-dimensional arrays -/

theorem has_pairs3 {a b : List (List ℝ)} {n : ℕ} (ha : a.length = n) (hb : b.length = n) (ha6 : ∀ r ∈ a, r.length = 6)
    (hb6 : ∀ r ∈ b, r.length = 6) (hn : 0 < n) : (RegMech.pairs a b).Has [n, 2, 6] := by
  obtain ⟨x, a, rfl⟩ : ∃ x t, a = x :: t := by cases a with | nil => simp at ha; omega | cons x t => exact ⟨x, t, rfl⟩
  obtain ⟨y, b, rfl⟩ : ∃ x t, b = x :: t := by cases b with | nil => simp at hb; omega | cons x t => exact ⟨x, t, rfl⟩
  rw [RegMech.pairs, List.zipWith_cons_cons, NdArray.of3]
  simp only [List.length_cons] at ha hb
  refine ⟨by simp [ha6 x (by simp)]; omega, ?_⟩
  have : ∀ a b : List (List ℝ), (∀ r ∈ a, r.length = 6) → (∀ r ∈ b, r.length = 6) →
      (List.zipWith (fun x y => [x, y]) a b).flatten.flatten.length = 12 * min a.length b.length := by
    intro a
    induction a with
    | nil => simp
    | cons x a ih =>
      intro b h1 h2
      cases b with
      | nil => simp
      | cons y b =>
        have := ih b (fun r hr => h1 r (by simp [hr])) (fun r hr => h2 r (by simp [hr]))
        simp only [List.zipWith_cons_cons, List.flatten_cons, List.flatten_append, List.length_append, this,
          List.length_cons, h1 x (by simp), h2 y (by simp), List.flatten_nil, List.length_nil]
        omega
  have h := this (x :: a) (y :: b) ha6 hb6
  rw [List.zipWith_cons_cons] at h
  simp only [NdArray.Ok, h, List.length_cons, List.length_zipWith,
    List.prod_cons, List.prod_nil, List.length_nil, List.headD, ha6 x (by simp)]
  omega

theorem data_pairs3 (a b : List (List ℝ)) :
    (RegMech.pairs a b).data = (List.zipWith (fun x y => [x, y]) a b).flatten.flatten := by
  rw [RegMech.pairs]
  cases h : List.zipWith (fun x y => [x, y]) a b <;> simp [NdArray.of3]

theorem block_eq {a : NdArray} {n c d j : ℕ} (ha : a.Has [n, c, d]) (hj : j < c) :
    a.block j = .ok ((List.range n).map fun i => (List.range d).map fun k => a.at3 c d i j k) := by
  have h2 : a.data.length = n * (c * d) := by have := ha.2; rw [NdArray.Ok, ha.1] at this; simpa using this
  rw [NdArray.block, ha.1]
  simp only [hj, if_true]
  apply pyMap_eq_ok
  intro i hi
  rw [List.mem_range] at hi
  apply pyMap_eq_ok
  intro k hk
  rw [List.mem_range] at hk
  apply pyGet_getD'
  rw [h2]
  calc (i * c + j) * d + k < (i * c + j) * d + d := by omega
    _ = (i * c + j + 1) * d := by ring
    _ ≤ (n * c) * d := by
        apply Nat.mul_le_mul_right
        calc i * c + j + 1 ≤ i * c + c := by omega
          _ = (i + 1) * c := by ring
          _ ≤ n * c := Nat.mul_le_mul_right _ hi
    _ = n * (c * d) := by ring

theorem at3_pairs {a b : List (List ℝ)} {n i k : ℕ} (ha : a.length = n) (hb : b.length = n)
    (ha6 : ∀ r ∈ a, r.length = 6) (hb6 : ∀ r ∈ b, r.length = 6) (hi : i < n) (hk : k < 6) :
    (RegMech.pairs a b).at3 2 6 i 0 k = (a.getD i []).getD k 0 ∧
    (RegMech.pairs a b).at3 2 6 i 1 k = (b.getD i []).getD k 0 := by
  rw [NdArray.at3, NdArray.at3, data_pairs3]
  induction i generalizing a b n with
  | zero =>
    cases a with
    | nil => simp at ha; omega
    | cons x a =>
      cases b with
      | nil => simp at hb; omega
      | cons y b =>
        have hx := ha6 x (by simp)
        have hy := hb6 y (by simp)
        simp only [List.zipWith_cons_cons, List.flatten_cons, List.flatten_append, List.flatten_nil, List.append_nil,
          List.getD_eq_getElem?_getD, List.getElem?_cons_zero, Option.getD_some]
        constructor
        · rw [List.append_assoc, List.getElem?_append_left (by omega)]; simp
        · rw [List.append_assoc, List.getElem?_append_right (by omega), List.getElem?_append_left (by omega)]
          rw [hx]; simp
  | succ i ih =>
    cases a with
    | nil => simp at ha; omega
    | cons x a =>
      cases b with
      | nil => simp at hb; omega
      | cons y b =>
        have hx := ha6 x (by simp)
        have hy := hb6 y (by simp)
        have := ih (a := a) (b := b) (n := n - 1) (by simp at ha; omega) (by simp at hb; omega)
          (fun r hr => ha6 r (by simp [hr])) (fun r hr => hb6 r (by simp [hr])) (by omega)
        simp only [List.zipWith_cons_cons, List.flatten_cons, List.flatten_append, List.flatten_nil, List.append_nil,
          List.getD_cons_succ]
        rw [List.getD_eq_getElem?_getD, List.getD_eq_getElem?_getD] at this ⊢
        rw [List.getD_eq_getElem?_getD, List.getD_eq_getElem?_getD] at this ⊢
        rw [← this.1, ← this.2]
        constructor
        · rw [List.getElem?_append_right (by simp; omega)]
          congr 2
          simp only [List.length_append]; omega
        · rw [List.getElem?_append_right (by simp; omega)]
          congr 2
          simp only [List.length_append]; omega

theorem map_map_getD (a : List (List ℝ)) {n : ℕ} (ha : a.length = n) (ha6 : ∀ r ∈ a, r.length = 6) :
    ((List.range n).map fun i => (List.range 6).map fun k => (a.getD i []).getD k 0) = a := by
  apply List.ext_getElem
  · simp [ha]
  · intro i h1 h2
    simp only [List.getElem_map, List.getElem_range]
    have : a.getD i [] = a[i] := by simp [List.getD, h2]
    rw [this, map_getD_range _ (ha6 _ (List.getElem_mem h2))]

theorem block_pairs {a b : List (List ℝ)} {n : ℕ} (ha : a.length = n) (hb : b.length = n)
    (ha6 : ∀ r ∈ a, r.length = 6) (hb6 : ∀ r ∈ b, r.length = 6) (hn : 0 < n) :
    (RegMech.pairs a b).block 0 = .ok a ∧ (RegMech.pairs a b).block 1 = .ok b := by
  have h := has_pairs3 ha hb ha6 hb6 hn
  rw [block_eq h (by norm_num), block_eq h (by norm_num)]
  constructor
  · congr 1
    conv_rhs => rw [← map_map_getD a ha ha6]
    refine List.map_congr_left fun i hi => List.map_congr_left fun k hk => ?_
    exact (at3_pairs ha hb ha6 hb6 (List.mem_range.1 hi) (List.mem_range.1 hk)).1
  · congr 1
    conv_rhs => rw [← map_map_getD b hb hb6]
    refine List.map_congr_left fun i hi => List.map_congr_left fun k hk => ?_
    exact (at3_pairs ha hb ha6 hb6 (List.mem_range.1 hi) (List.mem_range.1 hk)).2

/-- an array is determined by its entries -/
theorem ext3 {a b : NdArray} {n : ℕ} (ha : a.Has [n, 2, 6]) (hb : b.Has [n, 2, 6])
    (h : ∀ i < n, ∀ j < 2, ∀ k < 6, a.at3 2 6 i j k = b.at3 2 6 i j k) : a = b := by
  have h1 : a.data.length = n * (2 * 6) := by have := ha.2; rw [NdArray.Ok, ha.1] at this; simpa using this
  have h2 : b.data.length = n * (2 * 6) := by have := hb.2; rw [NdArray.Ok, hb.1] at this; simpa using this
  obtain ⟨sa, da⟩ := a
  obtain ⟨sb, db⟩ := b
  have h3 := ha.1
  have h4 := hb.1
  simp only at h1 h2 h3 h4
  subst h3 h4
  congr 1
  apply List.ext_getElem (by omega)
  intro p hp hq
  have := h (p / 12) (by omega) (p / 6 % 2) (by omega) (p % 6) (by omega)
  simp only [NdArray.at3] at this
  rw [show (p / 12 * 2 + p / 6 % 2) * 6 + p % 6 = p by omega] at this
  simpa [List.getD, hp, hq] using this

/-- every array of shape `(n, 2, 6)` consists of two blocks -/
theorem exists_blocks {a : NdArray} {n : ℕ} (ha : a.Has [n, 2, 6]) (hn : 0 < n) :
    ∃ A B : List (List ℝ), A.length = n ∧ B.length = n ∧ (∀ r ∈ A, r.length = 6) ∧ (∀ r ∈ B, r.length = 6) ∧
      a = RegMech.pairs A B := by
  refine ⟨(List.range n).map fun i => (List.range 6).map fun k => a.at3 2 6 i 0 k,
    (List.range n).map fun i => (List.range 6).map fun k => a.at3 2 6 i 1 k, by simp, by simp, ?_, ?_, ?_⟩
  · intro r hr; obtain ⟨i, _, rfl⟩ := List.mem_map.1 hr; simp
  · intro r hr; obtain ⟨i, _, rfl⟩ := List.mem_map.1 hr; simp
  · refine ext3 ha (has_pairs3 (by simp) (by simp) ?_ ?_ hn) ?_
    · intro r hr; obtain ⟨i, _, rfl⟩ := List.mem_map.1 hr; simp
    · intro r hr; obtain ⟨i, _, rfl⟩ := List.mem_map.1 hr; simp
    · intro i hi j hj k hk
      have := at3_pairs (a := (List.range n).map fun i => (List.range 6).map fun k => a.at3 2 6 i 0 k)
        (b := (List.range n).map fun i => (List.range 6).map fun k => a.at3 2 6 i 1 k) (n := n) (i := i) (k := k)
        (by simp) (by simp) (by intro r hr; obtain ⟨i, _, rfl⟩ := List.mem_map.1 hr; simp)
        (by intro r hr; obtain ⟨i, _, rfl⟩ := List.mem_map.1 hr; simp) hi hk
      rcases (by omega : j = 0 ∨ j = 1) with rfl | rfl
      · rw [this.1]; simp [List.getD, hi, hk]
      · rw [this.2]; simp [List.getD, hi, hk]

end NdArray
end Tve
