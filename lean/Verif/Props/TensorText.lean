import Std.Data.String.ToNat
import Verif.Model.TensorText
import Verif.Props.Tensors
import Verif.Lemmas.NdArray

/-!
# Properties C76 and C77: comparing, iterating, exporting and printing tensors
-/

namespace Tve

/-- The object was returned by its constructor. -/
def TensorObj.Built {K : Type} : TensorObj K → Prop
  | .vec _ => True
  | .mat A => ∃ d, Mat.new d = .ok A
  | .ten T => ∃ d, Ten3.new d = .ok T

/-! ## C76 comparison -/

/-- **C76.** Two vectors are equal exactly if they have the same size and the same entries. -/
theorem C76_eq_vector {K : Type} [DecidableEq K] (v w : Vec K) :
    TensorObj.eqPy (.vec v) (.vec w) = true ↔ v.len = w.len ∧ ∀ i : ℤ, v.getItem i = w.getItem i := by
  constructor
  · intro h
    have : v = w := by
      simp only [TensorObj.eqPy, beq_iff_eq] at h
      exact Vec.ext h
    subst this; exact ⟨rfl, fun _ => rfl⟩
  · rintro ⟨h1, h2⟩
    simp only [TensorObj.eqPy, beq_iff_eq]
    apply List.ext_getElem h1
    intro i hi hi'
    have := h2 i
    rw [Vec.getItem, Vec.getItem, if_neg (by simp only [Vec.size]; omega), if_neg (by simp only [Vec.size]; omega),
      pyIdx_natCast, pyIdx_natCast, pyGet_ok hi, pyGet_ok hi', Except.ok.injEq] at this
    exact this

/-- **C76.** Two matrices are equal exactly if they have the same shape and the same entries. -/
theorem C76_eq_matrix {K : Type} [DecidableEq K] {A B : Mat K} (hA : (TensorObj.mat A).Built)
    (hB : (TensorObj.mat B).Built) :
    TensorObj.eqPy (.mat A) (.mat B) = true ↔ A.shape = B.shape ∧ ∀ i j : ℤ, A.getItem i j = B.getItem i j := by
  constructor
  · intro h
    have : A = B := by
      simp only [TensorObj.eqPy, beq_iff_eq] at h
      exact Mat.ext h
    subst this; exact ⟨rfl, fun _ _ => rfl⟩
  · rintro ⟨h1, h2⟩
    obtain ⟨d, hd⟩ := hA
    obtain ⟨d', hd'⟩ := hB
    obtain ⟨r, c, M, rfl, -⟩ := C07_matrix_is_matOf hd
    obtain ⟨r', c', N, rfl, -⟩ := C07_matrix_is_matOf hd'
    rw [matOf_shape, matOf_shape, Prod.mk.injEq, Nat.add_right_cancel_iff] at h1
    obtain ⟨rfl, rfl⟩ := h1
    have : M = N := by
      ext i j
      have := h2 i j
      rw [C02_matrix, C02_matrix, dif_pos (by omega), dif_pos (by omega), Except.ok.injEq] at this
      simpa using this
    simp [TensorObj.eqPy, this]

/-- **C76.** Two 3-d tensors are equal exactly if they have the same shape and the same entries. -/
theorem C76_eq_tensor {K : Type} [DecidableEq K] {T S : Ten3 K} (hT : (TensorObj.ten T).Built)
    (hS : (TensorObj.ten S).Built) :
    TensorObj.eqPy (.ten T) (.ten S) = true ↔
      T.shape = S.shape ∧ ∀ i j k : ℤ, T.getItem i j k = S.getItem i j k := by
  constructor
  · intro h
    have : T = S := by
      simp only [TensorObj.eqPy, beq_iff_eq] at h
      exact Ten3.ext h
    subst this; exact ⟨rfl, fun _ _ _ => rfl⟩
  · rintro ⟨h1, h2⟩
    obtain ⟨d, hd⟩ := hT
    obtain ⟨d', hd'⟩ := hS
    obtain ⟨a, b, c, f, rfl⟩ := C07_tensor_is_tenOf hd
    obtain ⟨a', b', c', g, rfl⟩ := C07_tensor_is_tenOf hd'
    have hs : ∀ {a b c : ℕ} (f : Fin (a + 1) → Fin (b + 1) → Fin c → K), (tenOf f).shape = (a + 1, b + 1, c) := by
      intro a b c f; simp [tenOf, Ten3.shape]
    rw [hs, hs, Prod.mk.injEq, Prod.mk.injEq, Nat.add_right_cancel_iff, Nat.add_right_cancel_iff] at h1
    obtain ⟨rfl, rfl, rfl⟩ := h1
    have : f = g := by
      funext i j k
      have := h2 i j k
      rw [C02_tensor_partial _ _ _ _ (by omega) (by omega), C02_tensor_partial _ _ _ _ (by omega) (by omega),
        dif_pos (by omega), dif_pos (by omega), Except.ok.injEq] at this
      simpa using this
    simp [TensorObj.eqPy, this]

/-- the hypotheses of C76 and C77: matrices and tensors that their constructors accept -/
example : (TensorObj.mat (⟨[[1, 2], [3, 4]]⟩ : Mat ℚ)).Built ∧
    (TensorObj.ten (⟨[[[1, 2]], [[3, 4]]]⟩ : Ten3 ℚ)).Built :=
  ⟨⟨[[1, 2], [3, 4]], by decide +kernel⟩, ⟨[[[1, 2]], [[3, 4]]], by decide +kernel⟩⟩

/-- **C76.** Objects of different classes are never equal, and comparison is an equivalence relation. -/
theorem C76_equivalence {K : Type} [DecidableEq K] :
    (∀ a : TensorObj K, a.eqPy a = true) ∧ (∀ a b : TensorObj K, a.eqPy b = b.eqPy a) ∧
      (∀ a b c : TensorObj K, a.eqPy b = true → b.eqPy c = true → a.eqPy c = true) ∧
      (∀ (v : Vec K) (A : Mat K) (T : Ten3 K), TensorObj.eqPy (.vec v) (.mat A) = false ∧
        TensorObj.eqPy (.vec v) (.ten T) = false ∧ TensorObj.eqPy (.mat A) (.ten T) = false) := by
  refine ⟨?_, ?_, ?_, ?_⟩
  · rintro (v | A | T) <;> simp [TensorObj.eqPy]
  · rintro (v | A | T) (w | B | S) <;> simp [TensorObj.eqPy, Bool.beq_comm]
  · rintro (v | A | T) (w | B | S) (u | C | R) h1 h2 <;> simp_all [TensorObj.eqPy]
  · intro v A T; simp [TensorObj.eqPy]

/-! ## C76 iteration and export -/

/-- **C76.** Iterating over a vector yields `v[0], …, v[len(v)-1]`. -/
theorem C76_iter_vector {K : Type} (v : Vec K) :
    v.iter.length = v.len ∧ ∀ (i : ℕ) (h : i < v.iter.length), v.getItem i = .ok v.iter[i] := by
  refine ⟨rfl, fun i h => ?_⟩
  rw [Vec.getItem, if_neg (by simp only [Vec.size]; change i < v.data.length at h; omega), pyIdx_natCast]
  exact pyGet_ok h

/-- **C76.** Iterating over barycentric coordinates yields the three weights, and the three weights only. -/
theorem C76_iter_bary {K : Type} (b : Bary K) :
    b.iter.length = b.len ∧ b.len = 3 ∧ ∀ (i : ℕ) (h : i < b.iter.length), b.getItem i = .ok b.iter[i] := by
  refine ⟨rfl, rfl, fun i h => ?_⟩
  change i < 3 at h
  rw [C02_bary]
  match i, h with
  | 0, _ => rfl
  | 1, _ => rfl
  | 2, _ => rfl

theorem flatten_ofFn_ofFn {α : Type} {p q : ℕ} (g : Fin p → Fin q → α) :
    (List.ofFn fun i => List.ofFn fun j => g i j).flatten = List.ofFn fun k : Fin (p * q) => g k.divNat k.modNat := by
  rw [List.ofFn_mul]
  congr 1
  congr 1
  funext i
  congr 1
  funext j
  have hq : 0 < q := j.pos
  congr 1
  · ext; simp [Fin.divNat, Nat.add_div_of_dvd_right, Nat.mul_div_cancel _ hq, Nat.div_eq_of_lt j.2]
  · ext; simp [Fin.modNat, Nat.mod_eq_of_lt j.2]

theorem getElem?_flatten_ofFn {α : Type} {p q : ℕ} (g : Fin p → Fin q → α) (i : Fin p) (j : Fin q) :
    (List.ofFn fun i => List.ofFn fun j => g i j).flatten[(i : ℕ) * q + j]? = some (g i j) := by
  have hq : 0 < q := j.pos
  have hlt : (i : ℕ) * q + j < p * q := by
    calc (i : ℕ) * q + j < i * q + q := by omega
      _ = (i + 1) * q := by ring
      _ ≤ p * q := Nat.mul_le_mul_right _ i.2
  rw [flatten_ofFn_ofFn, List.getElem?_eq_getElem (by rw [List.length_ofFn]; exact hlt), List.getElem_ofFn]
  congr 2
  · ext; simp [Fin.divNat, Nat.add_div_of_dvd_right, Nat.mul_div_cancel _ hq, Nat.div_eq_of_lt j.2]
  · ext; simp [Fin.modNat, Nat.mod_eq_of_lt j.2]

/-- **C76.** `numpy()` exports shape and entries. -/
theorem C76_numpy {n r c a b d : ℕ} (f : Fin n → ℝ) (M : Matrix (Fin (r + 1)) (Fin c) ℝ)
    (T : Fin (a + 1) → Fin (b + 1) → Fin d → ℝ) :
    ((vecOf f).numpy.Has [n] ∧ ∀ i : Fin n, (vecOf f).numpy.get1 i = .ok (f i)) ∧
    ((matOf M).numpy.Has [r + 1, c] ∧ ∀ (i : Fin (r + 1)) (j : Fin c), (matOf M).numpy.at2 c i j = M i j) ∧
    ((tenOf T).numpy.Has [a + 1, b + 1, d] ∧
      ∀ (i : Fin (a + 1)) (j : Fin (b + 1)) (k : Fin d), (tenOf T).numpy.at3 (b + 1) d i j k = T i j k) := by
  have eM : (matOf M).numpy = ⟨[r + 1, c], (List.ofFn fun i => List.ofFn fun j => M i j).flatten⟩ := by
    simp [Mat.numpy, matOf, List.ofFn_succ, NdArray.of2]
  have eT : (tenOf T).numpy = ⟨[a + 1, b + 1, d],
      ((List.ofFn fun i => List.ofFn fun j => List.ofFn fun k => T i j k).flatten).flatten⟩ := by
    simp [Ten3.numpy, tenOf, List.ofFn_succ, NdArray.of3]
  have e2 : (List.ofFn fun i => List.ofFn fun j => List.ofFn fun k => T i j k).flatten
      = List.ofFn fun p : Fin ((a + 1) * (b + 1)) => List.ofFn fun k => T p.divNat p.modNat k :=
    flatten_ofFn_ofFn fun i j => List.ofFn fun k => T i j k
  rw [eM, eT, e2]
  refine ⟨⟨⟨by simp [Vec.numpy, NdArray.of1, vecOf], by simp [Vec.numpy, NdArray.of1, NdArray.Ok]⟩, fun i => ?_⟩,
    ⟨⟨rfl, ?_⟩, fun i j => ?_⟩, ⟨⟨rfl, ?_⟩, fun i j k => ?_⟩⟩
  · change pyGet (List.ofFn f) i = _
    rw [pyGet_ok (by simp), List.getElem_ofFn]
  · simp only [NdArray.Ok]
    rw [flatten_ofFn_ofFn (fun i j => M i j), List.length_ofFn]; simp
  · rw [NdArray.at2, List.getD_eq_getElem?_getD]
    simp only
    rw [getElem?_flatten_ofFn (fun i j => M i j)]; rfl
  · simp only [NdArray.Ok]
    rw [flatten_ofFn_ofFn, List.length_ofFn]; simp [mul_assoc]
  · have hlt : (i : ℕ) * (b + 1) + j < (a + 1) * (b + 1) := by
      calc (i : ℕ) * (b + 1) + j < i * (b + 1) + (b + 1) := by have := j.2; omega
        _ = (i + 1) * (b + 1) := by ring
        _ ≤ (a + 1) * (b + 1) := Nat.mul_le_mul_right _ i.2
    have := getElem?_flatten_ofFn (fun (p : Fin ((a + 1) * (b + 1))) k => T p.divNat p.modNat k) ⟨_, hlt⟩ k
    rw [NdArray.at3, List.getD_eq_getElem?_getD, this, Option.getD_some]
    congr 1
    · ext
      simp [Fin.divNat, Nat.add_div_of_dvd_right, Nat.div_eq_of_lt j.2]
    · ext; simp [Fin.modNat, Nat.mod_eq_of_lt j.2]

example : TensorObj.eqPy (.vec ⟨[1, 2]⟩) (.vec ⟨[1, (2 : ℚ)]⟩) = true ∧
    TensorObj.eqPy (.mat ⟨[[1, 2]]⟩) (.mat ⟨[[(1 : ℚ), 3]]⟩) = false ∧
    TensorObj.eqPy (.vec ⟨[1, (2 : ℚ)]⟩) (.mat ⟨[[1, 2]]⟩) = false := by decide +kernel

/-! ## C77 printing -/

/-- The texts of the entries are unambiguous: different entries have different texts, and no text is empty or contains
a separator or bracket. Python's texts of ints and floats are of this kind. -/
structure PlainText {K : Type} (r : K → String) : Prop where
  inj : ∀ x y, r x = r y → x = y
  ne : ∀ x, r x ≠ ""
  plain : ∀ x, ∀ c ∈ (r x).toList, c ∉ [',', ' ', '\n', '[', ']', '(', ')']

/-- Decimal texts of natural numbers are of this kind. -/
example : PlainText (fun n : ℕ => n.repr) where
  inj := fun x y h => by
    have h' := congrArg String.toNat? h
    simpa using h'
  ne := fun _ => Nat.repr_ne_empty
  plain := fun x c hc => by
    have : c.isDigit = true := by
      simp at hc
      exact Nat.isDigit_of_mem_toDigits (by decide) (by decide) hc
    simp only [List.mem_cons, List.not_mem_nil, or_false, not_or]
    refine ⟨?_, ?_, ?_, ?_, ?_, ?_, ?_⟩ <;> rintro rfl <;> exact absurd this (by decide)

/-- `enc` can be read off a text that continues with a character in `S` -/
def Readable {β : Type} (S : Char → Prop) (enc : β → List Char) : Prop :=
  ∀ b b' c c' t t', S c → S c' → enc b ++ c :: t = enc b' ++ c' :: t' → b = b' ∧ c :: t = c' :: t'

theorem readable_of_avoid {β : Type} {S : Char → Prop} {enc : β → List Char} (hi : ∀ b b', enc b = enc b' → b = b')
    (ha : ∀ b, ∀ c ∈ enc b, ¬ S c) : Readable S enc := by
  intro b b' c c' t t' hc hc' h
  suffices H : ∀ (l l' : List Char), (∀ x ∈ l, ¬ S x) → (∀ x ∈ l', ¬ S x) → l ++ c :: t = l' ++ c' :: t' →
      l = l' ∧ c :: t = c' :: t' by
    obtain ⟨h1, h2⟩ := H _ _ (ha b) (ha b') h
    exact ⟨hi _ _ h1, h2⟩
  intro l
  induction l with
  | nil =>
    intro l' _ h2 h
    cases l' with
    | nil => exact ⟨rfl, by simpa using h⟩
    | cons x l' =>
      simp only [List.nil_append, List.cons_append, List.cons.injEq] at h
      exact absurd (h.1 ▸ hc) (h2 x (by simp))
  | cons y l ih =>
    intro l' h1 h2 h
    cases l' with
    | nil =>
      simp only [List.nil_append, List.cons_append, List.cons.injEq] at h
      exact absurd (h.1 ▸ hc') (h1 y (by simp))
    | cons x l' =>
      simp only [List.cons_append, List.cons.injEq] at h
      obtain ⟨e1, e2⟩ := ih l' (fun z hz => h1 z (by simp [hz])) (fun z hz => h2 z (by simp [hz])) h.2
      exact ⟨by rw [h.1, e1], e2⟩

theorem intercalate_cons' {α : Type} (sep a : List α) (l : List (List α)) :
    sep.intercalate (a :: l) = a ++ (if l = [] then [] else sep ++ sep.intercalate l) := by
  cases l with
  | nil => simp [List.intercalate]
  | cons b l => simp [List.intercalate]

/-- a list of readable items with separators, up to its closing bracket -/
theorem readable_list {β : Type} {S : Char → Prop} {enc : β → List Char} (he : Readable S enc) {s0 t0 : Char}
    {sep : List Char} (hs0 : S s0) (ht0 : S t0) (hst : s0 ≠ t0) (hne : ∀ b, ∃ c t, enc b = c :: t ∧ c ≠ t0)
    (bs bs' : List β) (t t' : List Char)
    (h : (s0 :: sep).intercalate (bs.map enc) ++ t0 :: t = (s0 :: sep).intercalate (bs'.map enc) ++ t0 :: t') :
    bs = bs' ∧ t = t' := by
  induction bs generalizing bs' with
  | nil =>
    cases bs' with
    | nil => exact ⟨rfl, by simpa using h⟩
    | cons b bs' =>
      obtain ⟨c, u, h1, h2⟩ := hne b
      rw [List.map_cons, intercalate_cons', h1] at h
      simp only [List.map_nil, List.cons_append] at h
      exact absurd (List.cons.inj h).1.symm h2
  | cons a bs ih =>
    cases bs' with
    | nil =>
      obtain ⟨c, u, h1, h2⟩ := hne a
      rw [List.map_cons, intercalate_cons', h1] at h
      simp only [List.map_nil, List.cons_append] at h
      exact absurd (List.cons.inj h).1 h2
    | cons b bs' =>
      rw [List.map_cons, List.map_cons, intercalate_cons', intercalate_cons', List.append_assoc, List.append_assoc] at h
      by_cases e1 : bs = [] <;> by_cases e2 : bs' = []
      · subst e1; subst e2
        obtain ⟨h1, h2⟩ := he _ _ _ _ _ _ ht0 ht0 (by simpa using h)
        exact ⟨by rw [h1], (List.cons.inj h2).2⟩
      · subst e1
        obtain ⟨h1, h2⟩ := he _ _ _ _ _ _ ht0 hs0 (by simpa [e2] using h)
        exact absurd (List.cons.inj h2).1.symm hst
      · subst e2
        obtain ⟨h1, h2⟩ := he _ _ _ _ _ _ hs0 ht0 (by simpa [e1] using h)
        exact absurd (List.cons.inj h2).1 hst
      · obtain ⟨h1, h2⟩ := he a b s0 s0 (sep ++ ((s0 :: sep).intercalate (bs.map enc) ++ t0 :: t))
          (sep ++ ((s0 :: sep).intercalate (bs'.map enc) ++ t0 :: t')) hs0 hs0 (by simpa [e1, e2] using h)
        have h3 := List.append_cancel_left (List.cons.inj h2).2
        obtain ⟨h4, h5⟩ := ih bs' h3
        exact ⟨by rw [h1, h4], h5⟩

/-- `"[" + sep.join(...) + "]"` -/
def bracket {β : Type} (enc : β → List Char) (s0 : Char) (sep : List Char) (bs : List β) : List Char :=
  '[' :: ((s0 :: sep).intercalate (bs.map enc) ++ [']'])

theorem readable_bracket {β : Type} {S : Char → Prop} {enc : β → List Char} (he : Readable S enc) {s0 : Char}
    {sep : List Char} (hs0 : S s0) (ht0 : S ']') (hst : s0 ≠ ']') (hne : ∀ b, ∃ c t, enc b = c :: t ∧ c ≠ ']') :
    Readable (fun _ => True) (bracket enc s0 sep) := by
  intro b b' c c' t t' _ _ h
  simp only [bracket, List.cons_append, List.append_assoc, List.nil_append, List.cons.injEq, true_and] at h
  exact readable_list he hs0 ht0 hst hne _ _ _ _ h

theorem bracket_ne {β : Type} (enc : β → List Char) (s0 : Char) (sep : List Char) (bs : List β) :
    ∃ c t, bracket enc s0 sep bs = c :: t ∧ c ≠ ']' := ⟨_, _, rfl, by decide⟩

namespace PlainText
variable {K : Type} {r : K → String}

theorem readable (h : PlainText r) : Readable (fun c => c ∈ [',', ' ', '\n', '[', ']', '(', ')']) (fun x => (r x).toList) :=
  readable_of_avoid (fun _ _ e => h.inj _ _ (String.toList_inj.1 e)) (fun x c hc => h.plain x c hc)

theorem head (h : PlainText r) (x : K) :
    ∃ c t, (r x).toList = c :: t ∧ c ∉ [',', ' ', '\n', '[', ']', '(', ')'] := by
  have := h.plain x
  cases e : (r x).toList with
  | nil => exact absurd (String.toList_inj.1 (by rw [e]; rfl)) (h.ne x)
  | cons c t => rw [e] at this; exact ⟨c, t, rfl, this c (by simp)⟩

theorem head' (h : PlainText r) (x : K) : ∃ c t, (r x).toList = c :: t ∧ c ≠ ']' := by
  obtain ⟨c, t, h1, h2⟩ := h.head x
  exact ⟨c, t, h1, fun e => h2 (by simp [e])⟩

end PlainText

/-- the row text of a matrix, as characters -/
def rowChars {K : Type} (r : K → String) (s0 : Char) (sep : List Char) : List K → List Char :=
  bracket (fun x => (r x).toList) s0 sep

theorem PlainText.row {K : Type} {r : K → String} (h : PlainText r) {s0 : Char} (sep : List Char)
    (hs : s0 = ',' ∨ s0 = ' ') : Readable (fun _ => True) (rowChars r s0 sep) := by
  apply readable_bracket h.readable
  · rcases hs with rfl | rfl <;> simp
  · simp
  · rcases hs with rfl | rfl <;> decide
  · exact h.head'

theorem Mat.lines_ok {K : Type} (r : K → String) (sep : String) {A : Mat K} (hA : (TensorObj.mat A).Built) :
    A.lines r sep = .ok (A.data.map fun row => "[" ++ sep.intercalate (row.map r) ++ "]") := by
  obtain ⟨d, hd⟩ := hA
  obtain ⟨m, c, M, rfl, -⟩ := C07_matrix_is_matOf hd
  rw [Mat.lines, matOf_rows, matOf_cols]
  rw [pyMap_range_ofFn (fun i => "[" ++ sep.intercalate ((List.ofFn fun j => M i j).map r) ++ "]")]
  · simp [matOf, List.map_ofFn, Function.comp_def]
  · intro i
    rw [pyMap_range_ofFn (fun j => r (M i j))]
    · simp [List.map_ofFn, Function.comp_def]
    · intro j; rw [matOf_at]; rfl

theorem Ten3.blocks_ok {K : Type} (r : K → String) (pad : String) {T : Ten3 K} (hT : (TensorObj.ten T).Built) :
    T.blocks r pad = .ok (T.data.map fun sub => "[" ++ (",\n " ++ pad).intercalate (sub.map fun row =>
      "[" ++ ", ".intercalate (row.map r) ++ "]") ++ "]") := by
  obtain ⟨d, hd⟩ := hT
  obtain ⟨a, b, c, f, rfl⟩ := C07_tensor_is_tenOf hd
  have hs : (tenOf f).shape = (a + 1, b + 1, c) := by simp [tenOf, Ten3.shape]
  rw [Ten3.blocks, hs]
  rw [pyMap_range_ofFn (fun i => "[" ++ (",\n " ++ pad).intercalate ((List.ofFn fun j => List.ofFn fun k => f i j k).map
    fun row => "[" ++ ", ".intercalate (row.map r) ++ "]") ++ "]")]
  · simp only [tenOf, List.map_ofFn, Function.comp_def]
  · intro i
    rw [pyMap_range_ofFn (fun j => "[" ++ ", ".intercalate ((List.ofFn fun k => f i j k).map r) ++ "]")]
    · simp [List.map_ofFn, Function.comp_def]
    · intro j
      rw [pyMap_range_ofFn (fun k => r (f i j k))]
      · simp [List.map_ofFn, Function.comp_def]
      · intro k
        simp only [tenOf]
        rw [pyGet_ok (by rw [List.length_ofFn]; exact i.2), bind_ok, List.getElem_ofFn,
          pyGet_ok (by rw [List.length_ofFn]; exact j.2), bind_ok, List.getElem_ofFn,
          pyGet_ok (by rw [List.length_ofFn]; exact k.2), bind_ok, List.getElem_ofFn]
        rfl

/-- the characters of the text of a vector, matrix or 3-d tensor -/
theorem chars_row {K : Type} (r : K → String) (s0 : Char) (sep : String) (row : List K) (sep' : List Char)
    (h : sep.toList = s0 :: sep') :
    ("[" ++ sep.intercalate (row.map r) ++ "]").toList = rowChars r s0 sep' row := by
  simp [rowChars, bracket, String.toList_intercalate, h, Function.comp_def]

theorem chars_block {K : Type} (r : K → String) (pad : String) (sub : List (List K)) :
    ("[" ++ (",\n " ++ pad).intercalate (sub.map fun row => "[" ++ ", ".intercalate (row.map r) ++ "]") ++ "]").toList =
      bracket (rowChars r ',' [' ']) ',' ('\n' :: ' ' :: pad.toList) sub := by
  have e : (",\n " ++ pad).toList = ',' :: '\n' :: ' ' :: pad.toList := by simp
  rw [bracket, String.toList_append, String.toList_append, String.toList_intercalate, e, List.map_map]
  have : (String.toList ∘ fun row => "[" ++ ", ".intercalate (row.map r) ++ "]") = rowChars r ',' [' '] := by
    funext row; exact chars_row r ',' ", " row [' '] (by simp)
  rw [this]; simp

theorem chars_matrix {K : Type} (r : K → String) (s0 : Char) (sep join : String) (sep' join' : List Char) (j0 : Char)
    (h : sep.toList = s0 :: sep') (hj : join.toList = j0 :: join') (d : List (List K)) :
    (join.intercalate (d.map fun row => "[" ++ sep.intercalate (row.map r) ++ "]")).toList =
      (j0 :: join').intercalate (d.map (rowChars r s0 sep')) := by
  rw [String.toList_intercalate, hj, List.map_map]
  congr 2
  funext row; exact chars_row r s0 sep row sep' h

theorem chars_tensor {K : Type} (r : K → String) (pad join : String) (join' : List Char) (j0 : Char)
    (hj : join.toList = j0 :: join') (d : List (List (List K))) :
    (join.intercalate (d.map fun sub => "[" ++ (",\n " ++ pad).intercalate (sub.map fun row =>
      "[" ++ ", ".intercalate (row.map r) ++ "]") ++ "]")).toList =
      (j0 :: join').intercalate (d.map (bracket (rowChars r ',' [' ']) ',' ('\n' :: ' ' :: pad.toList))) := by
  rw [String.toList_intercalate, hj, List.map_map]
  congr 2
  funext sub; exact chars_block r pad sub

theorem Mat.reprPy_ok {K : Type} (r : K → String) {A : Mat K} (hA : (TensorObj.mat A).Built) :
    ∃ s, A.reprPy r = .ok s ∧ s.toList = "Matrix([".toList ++
      (('\n' :: "        ".toList).cons ',').intercalate (A.data.map (rowChars r ',' [' '])) ++ ']' :: [')'] := by
  rw [Mat.reprPy, Mat.lines_ok r ", " hA]
  refine ⟨_, rfl, ?_⟩
  rw [String.toList_append, String.toList_append,
    chars_matrix r ',' ", " (",\n" ++ "        ") [' '] ('\n' :: "        ".toList) ',' (by simp) (by simp)]
  simp

theorem Mat.strPy_ok {K : Type} (r : K → String) {A : Mat K} (hA : (TensorObj.mat A).Built) :
    ∃ s, A.strPy r = .ok s ∧ s.toList = '[' ::
      (['\n', ' '].intercalate (A.data.map (rowChars r ' ' [])) ++ ']' :: []) := by
  rw [Mat.strPy, Mat.lines_ok r " " hA]
  refine ⟨_, rfl, ?_⟩
  rw [String.toList_append, String.toList_append,
    chars_matrix r ' ' " " ("\n" ++ " ") [] [' '] '\n' (by simp) (by simp)]
  simp

theorem Ten3.reprPy_ok {K : Type} (r : K → String) {T : Ten3 K} (hT : (TensorObj.ten T).Built) :
    ∃ s, T.reprPy r = .ok s ∧ s.toList = "Tensor3D([".toList ++
      (('\n' :: "          ".toList).cons ',').intercalate (T.data.map
        (bracket (rowChars r ',' [' ']) ',' ('\n' :: ' ' :: "          ".toList))) ++ ']' :: [')'] := by
  rw [Ten3.reprPy, Ten3.blocks_ok r _ hT]
  refine ⟨_, rfl, ?_⟩
  rw [String.toList_append, String.toList_append,
    chars_tensor r "          " (",\n" ++ "          ") ('\n' :: "          ".toList) ',' (by simp)]
  simp

theorem Ten3.strPy_ok {K : Type} (r : K → String) {T : Ten3 K} (hT : (TensorObj.ten T).Built) :
    ∃ s, T.strPy r = .ok s ∧ s.toList = '[' ::
      ([',', '\n', ' '].intercalate (T.data.map
        (bracket (rowChars r ',' [' ']) ',' ('\n' :: ' ' :: " ".toList))) ++ ']' :: []) := by
  rw [Ten3.strPy, Ten3.blocks_ok r _ hT]
  refine ⟨_, rfl, ?_⟩
  rw [String.toList_append, String.toList_append,
    chars_tensor r " " (",\n" ++ " ") ['\n', ' '] ',' (by simp)]
  simp

theorem Vec.reprPy_chars {K : Type} (r : K → String) (v : Vec K) : (v.reprPy r).toList = "Vector([".toList ++
    (',' :: [' ']).intercalate (v.data.map fun x => (r x).toList) ++ ']' :: [')'] := by
  simp [Vec.reprPy, String.toList_intercalate, Function.comp_def]

theorem Vec.strPy_chars {K : Type} (r : K → String) (v : Vec K) : (v.strPy r).toList = '[' ::
    ((' ' :: []).intercalate (v.data.map fun x => (r x).toList) ++ ']' :: []) := by
  simp [Vec.strPy, String.toList_intercalate, Function.comp_def]

/-- **C77.** `repr` and `str` of every tensor exist. -/
theorem C77_total {K : Type} (r : K → String) (a : TensorObj K) (ha : a.Built) :
    (∃ s, a.reprPy r = .ok s) ∧ (∃ s, a.strPy r = .ok s) := by
  cases a with
  | vec v => exact ⟨⟨_, rfl⟩, ⟨_, rfl⟩⟩
  | mat A =>
    obtain ⟨s, h, -⟩ := Mat.reprPy_ok r ha
    obtain ⟨s', h', -⟩ := Mat.strPy_ok r ha
    exact ⟨⟨s, h⟩, ⟨s', h'⟩⟩
  | ten T =>
    obtain ⟨s, h, -⟩ := Ten3.reprPy_ok r ha
    obtain ⟨s', h', -⟩ := Ten3.strPy_ok r ha
    exact ⟨⟨s, h⟩, ⟨s', h'⟩⟩

/-- **C77.** `repr` identifies the tensor: two tensors, of whatever classes and shapes, with the same `repr` are the same
tensor. -/
theorem C77_repr {K : Type} {r : K → String} (hr : PlainText r) {a b : TensorObj K} (ha : a.Built) (hb : b.Built)
    (h : a.reprPy r = b.reprPy r) : a = b := by
  have hrow := hr.row (s0 := ',') [' '] (.inl rfl)
  have hrow' : ∀ x, ∃ c t, rowChars r ',' [' '] x = c :: t ∧ c ≠ ']' := bracket_ne _ _ _
  cases a with
  | vec v =>
    cases b with
    | vec w =>
      simp only [TensorObj.reprPy, Except.ok.injEq] at h
      have h := congrArg String.toList h
      rw [Vec.reprPy_chars, Vec.reprPy_chars, List.append_assoc, List.append_assoc] at h
      have := readable_list hr.readable (by simp) (by simp) (by decide) hr.head' _ _ _ _ (List.append_cancel_left h)
      rw [Vec.ext this.1]
    | mat B =>
      obtain ⟨s, h1, h2⟩ := Mat.reprPy_ok r hb
      simp only [TensorObj.reprPy, h1, Except.ok.injEq] at h
      have h := congrArg String.toList h
      rw [Vec.reprPy_chars, h2] at h
      simp at h
    | ten T =>
      obtain ⟨s, h1, h2⟩ := Ten3.reprPy_ok r hb
      simp only [TensorObj.reprPy, h1, Except.ok.injEq] at h
      have h := congrArg String.toList h
      rw [Vec.reprPy_chars, h2] at h
      simp at h
  | mat A =>
    obtain ⟨s, h1, h2⟩ := Mat.reprPy_ok r ha
    cases b with
    | vec w =>
      simp only [TensorObj.reprPy, h1, Except.ok.injEq] at h
      have h := congrArg String.toList h
      rw [Vec.reprPy_chars, h2] at h
      simp at h
    | mat B =>
      obtain ⟨s', h1', h2'⟩ := Mat.reprPy_ok r hb
      simp only [TensorObj.reprPy, h1, h1', Except.ok.injEq] at h
      subst h
      rw [h2, List.append_assoc, List.append_assoc] at h2'
      have := readable_list hrow trivial trivial (by decide) hrow' _ _ _ _ (List.append_cancel_left h2')
      rw [Mat.ext this.1]
    | ten T =>
      obtain ⟨s', h1', h2'⟩ := Ten3.reprPy_ok r hb
      simp only [TensorObj.reprPy, h1, h1', Except.ok.injEq] at h
      subst h
      rw [h2] at h2'
      simp at h2'
  | ten T =>
    obtain ⟨s, h1, h2⟩ := Ten3.reprPy_ok r ha
    cases b with
    | vec w =>
      simp only [TensorObj.reprPy, h1, Except.ok.injEq] at h
      have h := congrArg String.toList h
      rw [Vec.reprPy_chars, h2] at h
      simp at h
    | mat B =>
      obtain ⟨s', h1', h2'⟩ := Mat.reprPy_ok r hb
      simp only [TensorObj.reprPy, h1, h1', Except.ok.injEq] at h
      subst h
      rw [h2] at h2'
      simp at h2'
    | ten S =>
      obtain ⟨s', h1', h2'⟩ := Ten3.reprPy_ok r hb
      simp only [TensorObj.reprPy, h1, h1', Except.ok.injEq] at h
      subst h
      rw [h2, List.append_assoc, List.append_assoc] at h2'
      have := readable_list (readable_bracket hrow trivial trivial (by decide) hrow') trivial trivial (by decide)
        (bracket_ne _ _ _) _ _ _ _ (List.append_cancel_left h2')
      rw [Ten3.ext this.1]

/-- the text of a list of entries does not begin with a bracket -/
theorem PlainText.list_head {K : Type} {r : K → String} (hr : PlainText r) (s0 : Char) (sep : List Char) (l : List K)
    (t : List Char) : ∃ c u, (s0 :: sep).intercalate (l.map fun x => (r x).toList) ++ ']' :: t = c :: u ∧ c ≠ '[' := by
  cases l with
  | nil => exact ⟨']', t, by simp, by decide⟩
  | cons x l =>
    obtain ⟨c, u, h1, h2⟩ := hr.head x
    rw [List.map_cons, intercalate_cons', h1]
    exact ⟨c, _, rfl, fun e => h2 (by simp [e])⟩

theorem matrix_head {β : Type} (enc : β → List Char) (s0 : Char) (sep sep' : List Char) (s1 : Char) (d : List (List β))
    (hd : d ≠ []) (t : List Char) : ∃ row u, (s1 :: sep').intercalate (d.map (bracket enc s0 sep)) ++ t =
      '[' :: ((s0 :: sep).intercalate (row.map enc) ++ ']' :: u) ∧ row ∈ d := by
  cases d with
  | nil => exact absurd rfl hd
  | cons row d =>
    refine ⟨row, ?_⟩
    rw [List.map_cons, intercalate_cons', bracket]
    exact ⟨_, by simp; rfl, by simp⟩

theorem TensorObj.Built.mat_ne {K : Type} {A : Mat K} (h : (TensorObj.mat A).Built) : A.data ≠ [] := by
  obtain ⟨d, hd⟩ := h
  obtain ⟨r, c, M, rfl, -⟩ := C07_matrix_is_matOf hd
  simp [matOf]

theorem TensorObj.Built.ten_ne {K : Type} {T : Ten3 K} (h : (TensorObj.ten T).Built) :
    T.data ≠ [] ∧ ∀ s ∈ T.data, s ≠ [] := by
  obtain ⟨d, hd⟩ := h
  obtain ⟨a, b, c, f, rfl⟩ := C07_tensor_is_tenOf hd
  constructor
  · simp [tenOf]
  · intro s hs
    rw [tenOf, List.mem_ofFn] at hs
    obtain ⟨i, rfl⟩ := hs
    simp

/-- **C77.** `str` identifies the tensor as well, including its class: it nests as many brackets as there are axes. -/
theorem C77_str {K : Type} {r : K → String} (hr : PlainText r) {a b : TensorObj K} (ha : a.Built) (hb : b.Built)
    (h : a.strPy r = b.strPy r) : a = b := by
  have hrow := hr.row (s0 := ' ') [] (.inr rfl)
  have hrow' : ∀ x, ∃ c t, rowChars r ' ' [] x = c :: t ∧ c ≠ ']' := bracket_ne _ _ _
  have hro2 := hr.row (s0 := ',') [' '] (.inl rfl)
  have hro2' : ∀ x, ∃ c t, rowChars r ',' [' '] x = c :: t ∧ c ≠ ']' := bracket_ne _ _ _
  have VM : ∀ (v : Vec K) (B : Mat K), (TensorObj.mat B).Built → TensorObj.strPy r (.vec v) ≠ TensorObj.strPy r (.mat B) := by
    intro v B hB h
    obtain ⟨s, h1, h2⟩ := Mat.strPy_ok r hB
    simp only [TensorObj.strPy, h1, Except.ok.injEq] at h
    have h := congrArg String.toList h
    obtain ⟨row, u, e, -⟩ := matrix_head (fun x => (r x).toList) ' ' [] [' '] '\n' B.data hB.mat_ne (']' :: [])
    obtain ⟨c, w, e', hc⟩ := hr.list_head ' ' [] v.data []
    rw [Vec.strPy_chars, h2, e'] at h
    unfold rowChars at h
    rw [e] at h
    simp only [List.cons.injEq, true_and] at h
    exact hc h.1
  have VT : ∀ (v : Vec K) (T : Ten3 K), (TensorObj.ten T).Built → TensorObj.strPy r (.vec v) ≠ TensorObj.strPy r (.ten T) := by
    intro v T hT h
    obtain ⟨s, h1, h2⟩ := Ten3.strPy_ok r hT
    simp only [TensorObj.strPy, h1, Except.ok.injEq] at h
    have h := congrArg String.toList h
    obtain ⟨row, u, e, -⟩ := matrix_head (rowChars r ',' [' ']) ',' ('\n' :: ' ' :: " ".toList) ['\n', ' '] ',' T.data
      hT.ten_ne.1 (']' :: [])
    obtain ⟨c, w, e', hc⟩ := hr.list_head ' ' [] v.data []
    rw [Vec.strPy_chars, h2, e', e] at h
    simp only [List.cons.injEq, true_and] at h
    exact hc h.1
  have MT : ∀ (A : Mat K) (T : Ten3 K), (TensorObj.mat A).Built → (TensorObj.ten T).Built →
      TensorObj.strPy r (.mat A) ≠ TensorObj.strPy r (.ten T) := by
    intro A T hA hT h
    obtain ⟨s, h1, h2⟩ := Mat.strPy_ok r hA
    obtain ⟨s', h1', h2'⟩ := Ten3.strPy_ok r hT
    simp only [TensorObj.strPy, h1, h1', Except.ok.injEq] at h
    subst h
    obtain ⟨row, u, e, -⟩ := matrix_head (fun x => (r x).toList) ' ' [] [' '] '\n' A.data hA.mat_ne (']' :: [])
    obtain ⟨sub, u', e', hsub⟩ := matrix_head (rowChars r ',' [' ']) ',' ('\n' :: ' ' :: " ".toList) ['\n', ' '] ',' T.data
      hT.ten_ne.1 (']' :: [])
    obtain ⟨row2, u2, e2, -⟩ := matrix_head (fun x => (r x).toList) ',' [' '] ('\n' :: ' ' :: " ".toList) ',' sub
      (hT.ten_ne.2 _ hsub) (']' :: u')
    obtain ⟨c, w, ec, hc⟩ := hr.list_head ' ' [] row u
    rw [h2, e'] at h2'
    unfold rowChars at h2'
    rw [e, e2, ec] at h2'
    simp only [List.cons.injEq, true_and] at h2'
    exact hc h2'.1
  cases a with
  | vec v =>
    cases b with
    | vec w =>
      simp only [TensorObj.strPy, Except.ok.injEq] at h
      have h := congrArg String.toList h
      rw [Vec.strPy_chars, Vec.strPy_chars] at h
      have := readable_list hr.readable (by simp) (by simp) (by decide) hr.head' _ _ _ _ (List.cons.inj h).2
      rw [Vec.ext this.1]
    | mat B => exact absurd h (VM v B hb)
    | ten T => exact absurd h (VT v T hb)
  | mat A =>
    cases b with
    | vec w => exact absurd h.symm (VM w A ha)
    | mat B =>
      obtain ⟨s, h1, h2⟩ := Mat.strPy_ok r ha
      obtain ⟨s', h1', h2'⟩ := Mat.strPy_ok r hb
      simp only [TensorObj.strPy, h1, h1', Except.ok.injEq] at h
      subst h
      rw [h2] at h2'
      have := readable_list hrow trivial trivial (by decide) hrow' _ _ _ _ (List.cons.inj h2').2
      rw [Mat.ext this.1]
    | ten T => exact absurd h (MT A T ha hb)
  | ten T =>
    cases b with
    | vec w => exact absurd h.symm (VT w T ha)
    | mat B => exact absurd h.symm (MT B T hb ha)
    | ten S =>
      obtain ⟨s, h1, h2⟩ := Ten3.strPy_ok r ha
      obtain ⟨s', h1', h2'⟩ := Ten3.strPy_ok r hb
      simp only [TensorObj.strPy, h1, h1', Except.ok.injEq] at h
      subst h
      rw [h2] at h2'
      have := readable_list (readable_bracket hro2 trivial trivial (by decide) hro2') trivial trivial (by decide)
        (bracket_ne _ _ _) _ _ _ _ (List.cons.inj h2').2
      rw [Ten3.ext this.1]

/-- **C77.** Printed barycentric coordinates determine the three weights. -/
theorem C77_bary {K : Type} {r : K → String} (hr : PlainText r) (b c : Bary K) :
    (b.reprPy r = c.reprPy r → b = c) ∧ (b.strPy r = c.strPy r → b = c) := by
  have hne : ∀ x, ∃ c t, (r x).toList = c :: t ∧ c ≠ ')' := by
    intro x
    obtain ⟨c, t, h1, h2⟩ := hr.head x
    exact ⟨c, t, h1, fun e => h2 (by simp [e])⟩
  have key : ∀ pre : String, pre ++ ", ".intercalate (b.iter.map r) ++ ")" = pre ++ ", ".intercalate (c.iter.map r) ++ ")" →
      b = c := by
    intro pre h
    have h := congrArg String.toList h
    rw [String.toList_append, String.toList_append, String.toList_append, String.toList_append, List.append_assoc,
      List.append_assoc] at h
    have h := List.append_cancel_left h
    rw [String.toList_intercalate, String.toList_intercalate, List.map_map, List.map_map] at h
    have h' : (',' :: [' ']).intercalate (b.iter.map fun x => (r x).toList) ++ ')' :: [] =
      (',' :: [' ']).intercalate (c.iter.map fun x => (r x).toList) ++ ')' :: [] := h
    have := (readable_list hr.readable (by simp) (by simp) (by decide) hne _ _ _ _ h').1
    simp only [Bary.iter, List.cons.injEq, and_true] at this
    exact Bary.ext this.1 this.2.1 this.2.2
  exact ⟨key _, key _⟩

/-- A concrete text function: decimal numerals. -/
theorem plainText_nat : PlainText (fun n : ℕ => toString n) where
  inj x y h := by
    have h1 : Nat.repr x = Nat.repr y := h
    have h2 := congrArg (fun s => Nat.ofDigitChars 10 s.toList 0) h1
    simp only [Nat.toList_repr] at h2
    rwa [Nat.ofDigitChars_toDigits (by decide) (by decide), Nat.ofDigitChars_toDigits (by decide) (by decide)] at h2
  ne x := Nat.repr_ne_empty
  plain x c hc := by
    have : c ∈ Nat.toDigits 10 x := by
      have h2 : c ∈ (Nat.repr x).toList := hc
      simpa [Nat.repr] using h2
    have hd := Nat.isDigit_of_mem_toDigits (by norm_num) (by norm_num) this
    intro hm
    fin_cases hm <;> simp [Char.isDigit] at hd

example : (TensorObj.mat (⟨[[1, 2], [3, 4]]⟩ : Mat ℕ)).reprPy toString = .ok "Matrix([[1, 2],\n        [3, 4]])" ∧
    (TensorObj.ten (⟨[[[1, 2]], [[3, 4]]]⟩ : Ten3 ℕ)).strPy toString = .ok "[[[1, 2]],\n [[3, 4]]]" ∧
    (TensorObj.vec (⟨[1, 2]⟩ : Vec ℕ)).strPy toString = .ok "[1 2]" := by
  refine ⟨?_, ?_, ?_⟩ <;> decide +kernel

end Tve
