import Verif.Spec.Operators
import Verif.Lemmas.Tensors
import Mathlib.Algebra.Field.Rat

/-!
# C100: operators applied to arbitrary operands
-/

namespace Tve
namespace Obj
variable {K : Type}

theorem pyMap_attach {α β : Type} (l : List α) (f : α → PyM β) : pyMap l.attach (fun x => f x.1) = pyMap l f := by
  have := pyMap_map l.attach Subtype.val f
  rw [List.attach_map_subtype_val] at this
  exact this.symm

theorem pyMap_zip_attach {α β γ : Type} (l : List α) (l' : List β) (f : α → β → PyM γ) :
    pyMap (l.attach.zip l'.attach) (fun p => f p.1.1 p.2.1) = pyMap (l.zip l') fun p => f p.1 p.2 := by
  have := pyMap_map (l.attach.zip l'.attach) (Prod.map Subtype.val Subtype.val) fun p : α × β => f p.1 p.2
  rw [← List.zip_map, List.attach_map_subtype_val, List.attach_map_subtype_val] at this
  exact this.symm

variable [Field K]

/-! ### the operators without bookkeeping -/

theorem mul_vec (l : List (Obj K)) (b : Obj K) : mul (.vec l) b = pyMap l (fun x => mul x b) >>= newVec := by
  rw [mul, pyMap_attach l fun x => mul x b]

theorem mul_mat (l : List (List (Obj K))) (b : Obj K) :
    mul (.mat l) b = pyMap l (fun row => pyMap row fun x => mul x b) >>= newMat := by
  rw [mul]
  simp only [pyMap_attach _ fun x => mul x b]
  rw [pyMap_attach l fun row => pyMap row fun x => mul x b]

theorem num_vec (x : K) (l : List (Obj K)) : mul (.num x) (.vec l) = pyMap l (fun y => mul y (.num x)) >>= newVec := by
  rw [mul, pyMap_attach l fun y => mul y (.num x)]

theorem num_mat (x : K) (l : List (List (Obj K))) :
    mul (.num x) (.mat l) = pyMap l (fun row => pyMap row fun y => mul y (.num x)) >>= newMat := by
  rw [mul]
  simp only [pyMap_attach _ fun y => mul y (.num x)]
  rw [pyMap_attach l fun row => pyMap row fun y => mul y (.num x)]

theorem ten_vec (t : List (List (List (Obj K)))) (l : List (Obj K)) :
    mul (.ten t) (.vec l) = pyMap l (fun y => mul y (.ten t)) >>= newVec := by
  rw [mul, pyMap_attach l fun y => mul y (.ten t)]

theorem ten_mat (t : List (List (List (Obj K)))) (l : List (List (Obj K))) :
    mul (.ten t) (.mat l) = pyMap l (fun row => pyMap row fun y => mul y (.ten t)) >>= newMat := by
  rw [mul]
  simp only [pyMap_attach _ fun y => mul y (.ten t)]
  rw [pyMap_attach l fun row => pyMap row fun y => mul y (.ten t)]

theorem num_num (x y : K) : mul (.num x) (.num y) = .ok (.num (x * y)) := by rw [mul]
theorem num_ten (x : K) (t) : mul (.num x) (.ten t) = .error .typeError := by rw [mul]
theorem ten_num (x : K) (t) : mul (.ten t) (.num x) = .error .typeError := by rw [mul]
theorem ten_ten (t t' : List (List (List (Obj K)))) : mul (.ten t) (.ten t') = .error .typeError := by rw [mul]

theorem newMat_ofFn {r c : ℕ} (M : Fin (r + 1) → Fin c → Obj K) :
    newMat (List.ofFn fun i => List.ofFn fun j => M i j) = .ok (.mat (List.ofFn fun i => List.ofFn fun j => M i j)) := by
  rw [newMat, List.ofFn_succ, Mat.new]
  simp

theorem newTen_ofFn {a b c : ℕ} (T : Fin (a + 1) → Fin (b + 1) → Fin c → Obj K) :
    newTen (List.ofFn fun i => List.ofFn fun j => List.ofFn fun k => T i j k) =
      .ok (.ten (List.ofFn fun i => List.ofFn fun j => List.ofFn fun k => T i j k)) := by
  rw [newTen, Ten3.new.eq_def]
  simp [List.ofFn_succ]

theorem vec_ofFn {n : ℕ} (f g : Fin n → Obj K) (h : Obj K → PyM (Obj K)) (hh : ∀ i, h (f i) = .ok (g i)) :
    (pyMap (List.ofFn f) h >>= newVec) = .ok (.vec (List.ofFn g)) := by
  rw [pyMap_ofFn f g hh]; rfl

theorem mat_ofFn {r c : ℕ} (f g : Fin (r + 1) → Fin c → Obj K) (h : Obj K → PyM (Obj K))
    (hh : ∀ i j, h (f i j) = .ok (g i j)) :
    (pyMap (List.ofFn fun i => List.ofFn fun j => f i j) (fun row => pyMap row h) >>= newMat) =
      .ok (.mat (List.ofFn fun i => List.ofFn fun j => g i j)) := by
  rw [pyMap_ofFn (fun i => List.ofFn fun j => f i j) (fun i => List.ofFn fun j => g i j) fun i => pyMap_ofFn _ _ (hh i)]
  exact newMat_ofFn g

theorem vec_error {n : ℕ} (f : Fin (n + 1) → Obj K) (h : Obj K → PyM (Obj K)) {e : PyErr} (hh : h (f 0) = .error e) :
    (pyMap (List.ofFn f) h >>= newVec) = .error e := by
  rw [List.ofFn_succ, pyMap_cons, hh]; rfl

theorem mat_error {r c : ℕ} (f : Fin (r + 1) → Fin (c + 1) → Obj K) (h : Obj K → PyM (Obj K)) {e : PyErr}
    (hh : h (f 0 0) = .error e) :
    (pyMap (List.ofFn fun i => List.ofFn fun j => f i j) (fun row => pyMap row h) >>= newMat) = .error e := by
  rw [List.ofFn_succ, pyMap_cons, List.ofFn_succ, pyMap_cons, hh]; rfl

/-- **C100** (scaling). A number times a vector or a matrix, from either side, scales every entry; 3-d tensors cannot be scaled with
`*`: `TypeError`. -/
theorem C100_scaling (s : K) :
    (∀ x : K, mul (.num s) (.num x) = .ok (.num (s * x))) ∧
    (∀ {n : ℕ} (f : Fin n → K), mul (.num s) (ofVec f) = .ok (ofVec fun i => s * f i) ∧
      mul (ofVec f) (.num s) = .ok (ofVec fun i => s * f i)) ∧
    (∀ {r c : ℕ} (M : Fin (r + 1) → Fin c → K), mul (.num s) (ofMat M) = .ok (ofMat fun i j => s * M i j) ∧
      mul (ofMat M) (.num s) = .ok (ofMat fun i j => s * M i j)) ∧
    (∀ {a b c : ℕ} (T : Fin a → Fin b → Fin c → K), mul (.num s) (ofTen T) = .error .typeError ∧
      mul (ofTen T) (.num s) = .error .typeError) := by
  refine ⟨fun x => num_num s x, fun f => ?_, fun M => ?_, fun T => ⟨num_ten _ _, ten_num _ _⟩⟩
  · rw [ofVec, num_vec, mul_vec]
    exact ⟨vec_ofFn _ _ _ fun i => by rw [num_num, mul_comm], vec_ofFn _ _ _ fun i => by rw [num_num, mul_comm]⟩
  · rw [ofMat, num_mat, mul_mat]
    exact ⟨mat_ofFn _ _ _ fun i j => by rw [num_num, mul_comm], mat_ofFn _ _ _ fun i j => by rw [num_num, mul_comm]⟩

/-- **C100** (products of tensors). The product `a * b` of two vectors or matrices is neither the entrywise product nor a scalar or
matrix product, and it raises nothing: every entry of the left operand is replaced by the right operand times this entry. A product
in which a 3-d tensor meets a vector or a matrix with entries, or a 3-d tensor, raises `TypeError`. -/
theorem C100_products {n m r c r' c' a b d : ℕ} (f : Fin n → K) (g : Fin m → K) (M : Fin (r + 1) → Fin c → K)
    (N : Fin (r' + 1) → Fin c' → K) (T : Fin a → Fin b → Fin d → K) :
    mul (ofVec f) (ofVec g) = .ok (.vec (List.ofFn fun i => ofVec fun j => f i * g j)) ∧
    mul (ofVec f) (ofMat N) = .ok (.vec (List.ofFn fun i => ofMat fun k l => f i * N k l)) ∧
    mul (ofMat M) (ofVec g) = .ok (.mat (List.ofFn fun i => List.ofFn fun j => ofVec fun k => M i j * g k)) ∧
    mul (ofMat M) (ofMat N) = .ok (.mat (List.ofFn fun i => List.ofFn fun j => ofMat fun k l => M i j * N k l)) ∧
    (∀ f' : Fin (n + 1) → K, mul (ofVec f') (ofTen T) = .error .typeError ∧ mul (ofTen T) (ofVec f') = .error .typeError) ∧
    (∀ M' : Fin (r + 1) → Fin (c + 1) → K, mul (ofMat M') (ofTen T) = .error .typeError ∧
      mul (ofTen T) (ofMat M') = .error .typeError) ∧
    mul (ofTen T) (ofTen T) = .error .typeError := by
  obtain ⟨-, h1, h2, h3⟩ := C100_scaling (K := K) 0
  refine ⟨?_, ?_, ?_, ?_, fun f' => ⟨?_, ?_⟩, fun M' => ⟨?_, ?_⟩, ten_ten _ _⟩
  · rw [ofVec, mul_vec]
    exact vec_ofFn _ _ _ fun i => ((C100_scaling (f i)).2.1 g).1
  · rw [ofVec, mul_vec]
    exact vec_ofFn _ _ _ fun i => ((C100_scaling (f i)).2.2.1 N).1
  · rw [ofMat, mul_mat]
    exact mat_ofFn _ _ _ fun i j => ((C100_scaling (M i j)).2.1 g).1
  · rw [ofMat, mul_mat]
    exact mat_ofFn _ _ _ fun i j => ((C100_scaling (M i j)).2.2.1 N).1
  · rw [ofVec, mul_vec]; exact vec_error _ _ (num_ten _ _)
  · rw [ofVec, ofTen, ten_vec]; exact vec_error _ _ (num_ten _ _)
  · rw [ofMat, mul_mat]; exact mat_error _ _ (num_ten _ _)
  · rw [ofMat, ofTen, ten_mat]; exact mat_error _ _ (num_ten _ _)

/-! ### division -/

section
variable [DecidableEq K]

theorem div_vec (l : List (Obj K)) (b : Obj K) : div (.vec l) b = pyMap l (fun x => div x b) >>= newVec := by
  rw [div, pyMap_attach l fun x => div x b]

theorem div_mat (l : List (List (Obj K))) (b : Obj K) :
    div (.mat l) b = pyMap l (fun row => pyMap row fun x => div x b) >>= newMat := by
  rw [div]
  simp only [pyMap_attach _ fun x => div x b]
  rw [pyMap_attach l fun row => pyMap row fun x => div x b]

theorem div_num (x y : K) : div (.num x) (.num y) = pyDiv x y >>= fun z => .ok (.num z) := by rw [div]; rfl

theorem num_div {b : Obj K} {s : List ℕ} (hb : Plain b s) (hs : s ≠ []) (x : K) : div (.num x) b = .error .typeError := by
  cases hb with
  | num => exact absurd rfl hs
  | vec => rw [ofVec, div.eq_def]
  | mat => rw [ofMat, div.eq_def]
  | ten => rw [ofTen, div.eq_def]

theorem ten_div (t) (b : Obj K) : div (.ten t) b = .error .typeError := by rw [div.eq_def]

/-- **C100** (division). Dividing a number, a vector or a matrix by a nonzero number divides every entry; by zero raises
`ZeroDivisionError` as soon as there is an entry. Dividing by anything else than a number raises `TypeError` as soon as there is
an entry, also if the dividend is a number; 3-d tensors cannot be divided. -/
theorem C100_division {n r c : ℕ} (x : K) (f : Fin n → K) (M : Fin (r + 1) → Fin c → K) (f' : Fin (n + 1) → K)
    (M' : Fin (r + 1) → Fin (c + 1) → K) :
    (∀ y : K, y ≠ 0 → div (.num x) (.num y) = .ok (.num (x / y)) ∧ div (ofVec f) (.num y) = .ok (ofVec fun i => f i / y) ∧
      div (ofMat M) (.num y) = .ok (ofMat fun i j => M i j / y)) ∧
    (div (.num x) (.num 0) = .error .zeroDivision ∧ div (ofVec f') (.num 0) = .error .zeroDivision ∧
      div (ofMat M') (.num 0) = .error .zeroDivision) ∧
    (∀ b s, Plain b s → s ≠ [] → div (.num x) b = .error .typeError ∧ div (ofVec f') b = .error .typeError ∧
      div (ofMat M') b = .error .typeError) ∧
    (∀ {p q o : ℕ} (T : Fin p → Fin q → Fin o → K) (b : Obj K), div (ofTen T) b = .error .typeError) := by
  have ok : ∀ {y : K}, y ≠ 0 → ∀ x : K, div (.num x) (.num y) = .ok (.num (x / y)) := by
    intro y hy x
    rw [div_num, pyDiv_ok hy]; rfl
  have zero : ∀ x : K, div (.num x) (.num 0) = .error .zeroDivision := by
    intro x
    rw [div_num]; simp [pyDiv]
  refine ⟨fun y hy => ⟨ok hy x, ?_, ?_⟩, ⟨zero x, ?_, ?_⟩, fun b s hb hs => ⟨num_div hb hs x, ?_, ?_⟩, fun T b => ten_div _ b⟩
  · rw [ofVec, div_vec]; exact vec_ofFn _ _ _ fun i => ok hy _
  · rw [ofMat, div_mat]; exact mat_ofFn _ _ _ fun i j => ok hy _
  · rw [ofVec, div_vec]; exact vec_error _ _ (zero _)
  · rw [ofMat, div_mat]; exact mat_error _ _ (zero _)
  · rw [ofVec, div_vec]; exact vec_error _ _ (num_div hb hs _)
  · rw [ofMat, div_mat]; exact mat_error _ _ (num_div hb hs _)

end

/-! ### sums and differences -/

theorem addSub_num (op : K → K → K) (x y : K) : addSub op (.num x) (.num y) = .ok (.num (op x y)) := by rw [addSub]

theorem addSub_vec (op : K → K → K) (l l' : List (Obj K)) (h : l.length = l'.length) :
    addSub op (.vec l) (.vec l') = pyMap (l.zip l') (fun p => addSub op p.1 p.2) >>= newVec := by
  rw [addSub]
  simp only [size, bind_ok, h, ne_eq, not_true_eq_false, if_false]
  rw [pyMap_zip_attach l l' fun x y => addSub op x y]

theorem addSub_mat (op : K → K → K) (l l' : List (List (Obj K))) (h : l.length = l'.length)
    (h' : (l.headD []).length = (l'.headD []).length) :
    addSub op (.mat l) (.mat l') =
      pyMap (l.zip l') (fun p => pyMap (p.1.zip p.2) fun q => addSub op q.1 q.2) >>= newMat := by
  rw [addSub]
  simp only [shape, bind_ok, h, h', ne_eq, not_true_eq_false, if_false]
  simp only [pyMap_zip_attach _ _ fun x y => addSub op x y]
  rw [pyMap_zip_attach l l' fun x y => pyMap (x.zip y) fun q => addSub op q.1 q.2]

theorem addSub_ten (op : K → K → K) (l l' : List (List (List (Obj K)))) (h : l.length = l'.length)
    (h' : (l.headD []).length = (l'.headD []).length)
    (h'' : ((l.headD []).headD []).length = ((l'.headD []).headD []).length) :
    addSub op (.ten l) (.ten l') =
      pyMap (l.zip l') (fun p => pyMap (p.1.zip p.2) fun q => pyMap (q.1.zip q.2) fun r => addSub op r.1 r.2) >>= newTen := by
  rw [addSub]
  simp only [shape, bind_ok, h, h', h'', ne_eq, not_true_eq_false, if_false]
  simp only [pyMap_zip_attach _ _ fun x y => addSub op x y]
  simp only [pyMap_zip_attach _ _ fun (x y : List (Obj K)) => pyMap (x.zip y) fun q => addSub op q.1 q.2]
  rw [pyMap_zip_attach l l' fun x y => pyMap (x.zip y) fun q => pyMap (q.1.zip q.2) fun r => addSub op r.1 r.2]

theorem zip_ofFn {α β : Type} {n : ℕ} (f : Fin n → α) (g : Fin n → β) :
    (List.ofFn f).zip (List.ofFn g) = List.ofFn fun i => (f i, g i) := by
  rw [List.zip, zipWith_ofFn]

theorem addSub_values (op : K → K → K) :
    (∀ {n : ℕ} (f g : Fin n → K), addSub op (ofVec f) (ofVec g) = .ok (ofVec fun i => op (f i) (g i))) ∧
    (∀ {r c : ℕ} (M N : Fin (r + 1) → Fin c → K), addSub op (ofMat M) (ofMat N) = .ok (ofMat fun i j => op (M i j) (N i j))) ∧
    (∀ {a b c : ℕ} (T S : Fin (a + 1) → Fin (b + 1) → Fin c → K),
      addSub op (ofTen T) (ofTen S) = .ok (ofTen fun i j k => op (T i j k) (S i j k))) := by
  refine ⟨fun f g => ?_, fun M N => ?_, fun T S => ?_⟩
  · rw [ofVec, ofVec, addSub_vec _ _ _ (by simp), zip_ofFn, pyMap_ofFn _ (fun i => .num (op (f i) (g i))) fun i => addSub_num op _ _]
    rfl
  · rw [ofMat, ofMat, addSub_mat _ _ _ (by simp) (by simp [List.ofFn_succ]), zip_ofFn,
      pyMap_ofFn _ (fun i => List.ofFn fun j => .num (op (M i j) (N i j))) fun i => by
        rw [zip_ofFn]; exact pyMap_ofFn _ _ fun j => addSub_num op _ _]
    exact newMat_ofFn _
  · rw [ofTen, ofTen, addSub_ten _ _ _ (by simp) (by simp [List.ofFn_succ]) (by simp [List.ofFn_succ]), zip_ofFn,
      pyMap_ofFn _ (fun i => List.ofFn fun j => List.ofFn fun k => .num (op (T i j k) (S i j k))) fun i => by
        rw [zip_ofFn]
        refine pyMap_ofFn _ _ fun j => ?_
        rw [zip_ofFn]
        exact pyMap_ofFn _ _ fun k => addSub_num op _ _]
    exact newTen_ofFn _

/-- the error raised by a sum or a difference of a value of shape `s` and one of another shape `s'` -/
def sumError (s s' : List ℕ) : PyErr :=
  if s = [] then .typeError
  else if s' = [] ∨ (s.length = 1 ∧ s'.length ≠ 1) then .attributeError
  else .valueError

theorem addSub_error (op : K → K → K) {a b : Obj K} {s s' : List ℕ} (ha : Plain a s) (hb : Plain b s') (h : s ≠ s') :
    addSub op a b = .error (sumError s s') := by
  have hv : ∀ l, addSub op (.vec l) b = (do
      let n ← size b
      if l.length ≠ n then .error .valueError
      else match b with
        | vec l' => do
          let r ← pyMap (l.attach.zip l'.attach) fun p => addSub op p.1.1 p.2.1
          newVec r
        | _ => .error .attributeError) := fun l => by rw [addSub.eq_def]; rfl
  have hm : ∀ l, (hs : shape b ≠ .ok [l.length, (l.headD []).length]) → addSub op (.mat l) b =
      shape b >>= fun _ => .error .valueError := fun l hs => by
    rw [addSub.eq_def]
    simp only
    rcases hb' : shape b with e | s
    · rfl
    · rw [bind_ok, bind_ok, if_pos]
      rintro rfl
      exact hs hb'
  have ht : ∀ l, (hs : shape b ≠ .ok [l.length, (l.headD []).length, ((l.headD []).headD []).length]) →
      addSub op (.ten l) b = shape b >>= fun _ => .error .valueError := fun l hs => by
    rw [addSub.eq_def]
    simp only
    rcases hb' : shape b with e | s
    · rfl
    · rw [bind_ok, bind_ok, if_pos]
      rintro rfl
      exact hs hb'
  have sb : s' ≠ [] → shape b = .ok s' := by
    intro hn
    cases hb with
    | num => exact absurd rfl hn
    | vec f => simp [ofVec, shape]
    | mat M => simp [ofMat, shape, List.ofFn_succ]
    | ten T => simp [ofTen, shape, List.ofFn_succ]
  have sn : s' = [] → shape b = .error .attributeError ∧ size b = .error .attributeError := by
    rintro rfl
    cases hb
    exact ⟨rfl, rfl⟩
  cases ha with
  | num x =>
    rw [sumError, if_pos rfl]
    cases hb with
    | num => exact absurd rfl h
    | vec f => rw [ofVec, addSub.eq_def]
    | mat M => rw [ofMat, addSub.eq_def]
    | ten T => rw [ofTen, addSub.eq_def]
  | vec f =>
    rw [ofVec, hv, sumError, if_neg (by simp)]
    cases hb with
    | num => simp [size]
    | vec g => 
      simp only [ofVec, size, bind_ok, List.length_ofFn]
      rw [if_pos (by simpa using h), if_neg (by simp)]
    | mat M => simp [ofMat, size]
    | ten T => simp [ofTen, size]
  | mat M =>
    rw [sumError, if_neg (by simp)]
    by_cases hn : s' = []
    · rw [ofMat, hm _ (by rw [(sn hn).1]; simp), (sn hn).1, if_pos (Or.inl hn)]
      rfl
    · rw [ofMat, hm _ (by rw [sb hn]; simpa [List.ofFn_succ, eq_comm] using h), sb hn, if_neg (by simpa using hn)]
      rfl
  | ten T =>
    rw [sumError, if_neg (by simp)]
    by_cases hn : s' = []
    · rw [ofTen, ht _ (by rw [(sn hn).1]; simp), (sn hn).1, if_pos (Or.inl hn)]
      rfl
    · rw [ofTen, ht _ (by rw [sb hn]; simpa [List.ofFn_succ, eq_comm] using h), sb hn, if_neg (by simpa using hn)]
      rfl

/-- **C100** (sums). Numbers, and tensors of the same kind and shape, are added and subtracted entry by entry. -/
theorem C100_sums :
    (∀ x y : K, add (.num x) (.num y) = .ok (.num (x + y)) ∧ sub (.num x) (.num y) = .ok (.num (x - y))) ∧
    (∀ {n : ℕ} (f g : Fin n → K), add (ofVec f) (ofVec g) = .ok (ofVec fun i => f i + g i) ∧
      sub (ofVec f) (ofVec g) = .ok (ofVec fun i => f i - g i)) ∧
    (∀ {r c : ℕ} (M N : Fin (r + 1) → Fin c → K), add (ofMat M) (ofMat N) = .ok (ofMat fun i j => M i j + N i j) ∧
      sub (ofMat M) (ofMat N) = .ok (ofMat fun i j => M i j - N i j)) ∧
    (∀ {a b c : ℕ} (T S : Fin (a + 1) → Fin (b + 1) → Fin c → K),
      add (ofTen T) (ofTen S) = .ok (ofTen fun i j k => T i j k + S i j k) ∧
      sub (ofTen T) (ofTen S) = .ok (ofTen fun i j k => T i j k - S i j k)) :=
  ⟨fun x y => ⟨addSub_num _ x y, addSub_num _ x y⟩, fun f g => ⟨(addSub_values _).1 f g, (addSub_values _).1 f g⟩,
    fun M N => ⟨(addSub_values _).2.1 M N, (addSub_values _).2.1 M N⟩,
    fun T S => ⟨(addSub_values _).2.2 T S, (addSub_values _).2.2 T S⟩⟩

/-- **C100** (mixed sums). All other sums and differences raise: `TypeError` if the left operand is a number, `AttributeError` if
the right operand is a number or the left one is a vector and the right one not, `ValueError` otherwise. In particular a number is
never added to the entries of a tensor, and sizes are never adapted to each other. -/
theorem C100_mixed_sums {a b : Obj K} {s s' : List ℕ} (ha : Plain a s) (hb : Plain b s') (h : s ≠ s') :
    (s = [] → add a b = .error .typeError ∧ sub a b = .error .typeError) ∧
    (s ≠ [] → (s' = [] ∨ (s.length = 1 ∧ s'.length ≠ 1)) → add a b = .error .attributeError ∧ sub a b = .error .attributeError) ∧
    (s ≠ [] → s' ≠ [] → (s.length = 1 → s'.length = 1) → add a b = .error .valueError ∧ sub a b = .error .valueError) := by
  have h1 := addSub_error (· + ·) ha hb h
  have h2 := addSub_error (· - ·) ha hb h
  refine ⟨fun e => ?_, fun e e' => ?_, fun e e' e'' => ?_⟩
  · rw [add, sub, h1, h2, sumError, if_pos e]; exact ⟨rfl, rfl⟩
  · rw [add, sub, h1, h2, sumError, if_neg e, if_pos e']; exact ⟨rfl, rfl⟩
  · rw [add, sub, h1, h2, sumError, if_neg e, if_neg (by tauto)]; exact ⟨rfl, rfl⟩

/-! ### products with `@` -/

theorem sumGen_nums {l : List (PyM (Obj K))} {f : List K} (h : l = f.map fun x => .ok (.num x)) : sumGen l = .ok (.num f.sum) := by
  subst h
  have : ∀ (f : List K) (a : K), (f.map fun x => (.ok (.num x) : PyM (Obj K))).foldlM (fun a t => t >>= fun b => add a b) (.num a) =
      .ok (.num (a + f.sum)) := by
    intro f
    induction f with
    | nil => intro a; simp
    | cons x f ih =>
      intro a
      rw [List.map_cons, List.foldlM_cons, bind_ok, add, addSub_num, bind_ok, ih, List.sum_cons, add_assoc]
  rw [sumGen, this, zero_add]

theorem entry_ofFn {r c : ℕ} (M : Fin r → Fin c → K) (i : Fin r) (j : Fin c) :
    entry (List.ofFn fun i => List.ofFn fun j => (.num (M i j) : Obj K)) i j = .ok (.num (M i j)) := by
  have h : pyGet (List.ofFn fun i => List.ofFn fun j => (.num (M i j) : Obj K)) i = .ok (List.ofFn fun j => .num (M i j)) :=
    pyGet_eq_ok.2 (by simp)
  rw [entry, h, bind_ok]
  exact pyGet_eq_ok.2 (by simp)

/-- **C100** (matrix products). `A @ B` is the matrix product if both are matrices and their sizes fit, and raises otherwise:
`TypeError` if `A` is not a matrix, `AttributeError` if `B` is a number, `ValueError` if the sizes do not fit, and if they do,
`IndexError` for a vector and `TypeError` for a 3-d tensor. So a matrix is not applied to a vector by `@`. -/
theorem C100_matmul {r c : ℕ} (M : Fin (r + 1) → Fin (c + 1) → K) :
    (∀ {d : ℕ} (N : Fin (c + 1) → Fin d → K), matmul (ofMat M) (ofMat N) = .ok (ofMat fun i j => ∑ k, M i k * N k j)) ∧
    (∀ x : K, matmul (ofMat M) (.num x) = .error .attributeError) ∧
    (∀ (b : Obj K) s, Plain b s → s ≠ [] → s.head? ≠ some (c + 1) → matmul (ofMat M) b = .error .valueError) ∧
    (∀ f : Fin (c + 1) → K, matmul (ofMat M) (ofVec f) = .error .indexError) ∧
    (∀ {p q : ℕ} (T : Fin (c + 1) → Fin (p + 1) → Fin q → K), matmul (ofMat M) (ofTen T) = .error .typeError) ∧
    (∀ (a : Obj K) s b, Plain a s → s.length ≠ 2 → matmul a b = .error .typeError) := by
  have hc : ((List.ofFn fun i => List.ofFn fun j => (.num (M i j) : Obj K)).headD []).length = c + 1 := by
    simp [List.ofFn_succ]
  refine ⟨fun {d} N => ?_, fun x => rfl, fun b s hb hs hh => ?_, fun f => ?_, fun T => ?_, fun a s b ha hs => ?_⟩
  · have hs : shape (ofMat N) = .ok [c + 1, d] := by simp [ofMat, shape, List.ofFn_succ]
    rw [ofMat, matmul, hs, bind_ok, hc]
    simp only [ofMat]
    rw [show pyGet [c + 1, d] 0 = .ok (c + 1) from rfl, bind_ok, if_neg (by simp), show pyGet [c + 1, d] 1 = .ok d from rfl, bind_ok,
      List.length_ofFn, pyMap_range_ofFn (fun i => List.ofFn fun j => .num (∑ k, M i k * N k j)) fun i => ?_]
    · exact newMat_ofFn _
    · refine pyMap_range_ofFn _ fun j => ?_
      rw [← List.sum_ofFn]
      refine sumGen_nums ?_
      apply List.ext_getElem
      · simp
      · intro k h1 h2
        simp only [List.getElem_map, List.getElem_range, List.getElem_ofFn]
        have hk : k < c + 1 := by simpa using h2
        rw [entry_ofFn M i ⟨k, hk⟩, bind_ok, entry_ofFn N ⟨k, hk⟩ j, bind_ok, num_num]
  · have sb : shape b = .ok s := by
      cases hb with
      | num => exact absurd rfl hs
      | vec f => simp [ofVec, shape]
      | mat M => simp [ofMat, shape, List.ofFn_succ]
      | ten T => simp [ofTen, shape, List.ofFn_succ]
    rw [ofMat, matmul, sb, bind_ok, hc]
    obtain ⟨x, s, rfl⟩ := List.exists_cons_of_ne_nil hs
    rw [show pyGet (x :: s) 0 = .ok x from rfl, bind_ok, if_pos]
    rintro rfl
    exact hh rfl
  · rw [ofMat, matmul, hc]
    simp [ofVec, shape, pyGet]
  · rw [ofMat, matmul, hc]
    simp [ofTen, shape, pyGet, List.ofFn_succ]
  · cases ha with
    | num => rfl
    | vec => rfl
    | mat => exact absurd rfl hs
    | ten => rfl

/-! ### signs -/

theorem neg_vec (l : List (Obj K)) : neg (.vec l) = pyMap l neg >>= newVec := by
  rw [neg, pyMap_attach l fun x => neg x]

theorem neg_mat (l : List (List (Obj K))) : neg (.mat l) = pyMap l (fun row => pyMap row neg) >>= newMat := by
  rw [neg]
  simp only [pyMap_attach _ neg]
  rw [pyMap_attach l fun row => pyMap row neg]

theorem neg_ten (l : List (List (List (Obj K)))) :
    neg (.ten l) = pyMap l (fun m => pyMap m fun row => pyMap row neg) >>= newTen := by
  rw [neg]
  simp only [pyMap_attach _ neg, pyMap_attach _ fun row => pyMap row neg]
  rw [pyMap_attach l fun m => pyMap m fun row => pyMap row neg]

/-- **C100** (signs). The minus sign works for all four kinds of values. -/
theorem C100_signs :
    (∀ x : K, neg (.num x) = .ok (.num (-x))) ∧
    (∀ {n : ℕ} (f : Fin n → K), neg (ofVec f) = .ok (ofVec fun i => -f i)) ∧
    (∀ {r c : ℕ} (M : Fin (r + 1) → Fin c → K), neg (ofMat M) = .ok (ofMat fun i j => -M i j)) ∧
    (∀ {a b c : ℕ} (T : Fin (a + 1) → Fin (b + 1) → Fin c → K), neg (ofTen T) = .ok (ofTen fun i j k => -T i j k)) := by
  have h : ∀ x : K, neg (.num x) = .ok (.num (-x)) := fun x => by rw [neg]
  refine ⟨h, fun f => ?_, fun M => ?_, fun T => ?_⟩
  · rw [ofVec, neg_vec]; exact vec_ofFn _ _ _ fun i => h _
  · rw [ofMat, neg_mat]; exact mat_ofFn _ _ _ fun i j => h _
  · have e : pyMap (List.ofFn fun i => List.ofFn fun j => List.ofFn fun k => (.num (T i j k) : Obj K))
        (fun m => pyMap m fun row => pyMap row neg) =
        .ok (List.ofFn fun i => List.ofFn fun j => List.ofFn fun k => (.num (-T i j k) : Obj K)) :=
      pyMap_ofFn _ _ fun i => pyMap_ofFn _ _ fun j => pyMap_ofFn _ _ fun k => h _
    rw [ofTen, neg_ten, e]
    exact newTen_ofFn _

/-! ### nested values do not turn into numbers -/

omit [Field K] in
theorem newMat_num {l : List (List (Obj K))} {x : K} : newMat l ≠ .ok (.num x) := by
  rw [newMat]
  rcases Mat.new l with e | A <;> simp

theorem mul_eq_num {x y : Obj K} {z : K} (h : mul x y = .ok (.num z)) : ∃ p q, x = .num p ∧ y = .num q ∧ z = p * q := by
  cases x with
  | num p =>
    cases y with
    | num q =>
      rw [num_num] at h
      cases h
      exact ⟨p, q, rfl, rfl, rfl⟩
    | vec l =>
      rw [num_vec, bind_eq_ok] at h
      obtain ⟨r, -, h⟩ := h
      cases h
    | mat l =>
      rw [num_mat, bind_eq_ok] at h
      obtain ⟨r, -, h⟩ := h
      exact absurd h newMat_num
    | ten t => rw [num_ten] at h; cases h
  | vec l =>
    rw [mul_vec, bind_eq_ok] at h
    obtain ⟨r, -, h⟩ := h
    cases h
  | mat l =>
    rw [mul_mat, bind_eq_ok] at h
    obtain ⟨r, -, h⟩ := h
    exact absurd h newMat_num
  | ten t =>
    cases y with
    | num q => rw [ten_num] at h; cases h
    | vec l =>
      rw [ten_vec, bind_eq_ok] at h
      obtain ⟨r, -, h⟩ := h
      cases h
    | mat l =>
      rw [ten_mat, bind_eq_ok] at h
      obtain ⟨r, -, h⟩ := h
      exact absurd h newMat_num
    | ten t' => rw [ten_ten] at h; cases h

theorem add_num {x : K} {b r : Obj K} (h : add (.num x) b = .ok r) : ∃ y, b = .num y ∧ r = .num (x + y) := by
  cases b with
  | num y => rw [add, addSub_num] at h; cases h; exact ⟨y, rfl, rfl⟩
  | vec l => rw [add, addSub.eq_def] at h; cases h
  | mat l => rw [add, addSub.eq_def] at h; cases h
  | ten l => rw [add, addSub.eq_def] at h; cases h

theorem sumGen_ok {l : List (PyM (Obj K))} {r : Obj K} (h : sumGen l = .ok r) :
    ∃ f : List K, l = f.map (fun x => .ok (.num x)) ∧ r = .num f.sum := by
  have : ∀ (l : List (PyM (Obj K))) (a : K), l.foldlM (fun a t => t >>= fun b => add a b) (.num a) = .ok r →
      ∃ f : List K, l = f.map (fun x => .ok (.num x)) := by
    intro l
    induction l with
    | nil => exact fun a _ => ⟨[], rfl⟩
    | cons t l ih =>
      intro a ha
      rw [List.foldlM_cons] at ha
      have ha : ((t >>= fun b => add (.num a) b) >>= fun z => l.foldlM (fun a t => t >>= fun b => add a b) z) = .ok r := ha
      rw [bind_eq_ok] at ha
      obtain ⟨z, h1, h2⟩ := ha
      rw [bind_eq_ok] at h1
      obtain ⟨b, rfl, h1⟩ := h1
      obtain ⟨y, rfl, rfl⟩ := add_num h1
      obtain ⟨f, rfl⟩ := ih _ h2
      exact ⟨y :: f, rfl⟩
  obtain ⟨f, hf⟩ := this l 0 h
  refine ⟨f, hf, ?_⟩
  rw [sumGen_nums hf] at h
  exact (Except.ok.inj h).symm

/-- **C100** (no wrong numbers). However the entries of vectors and matrices came about, and however deeply they are nested: if
`normsqr`, the scalar product `dot` or the matrix product `@` return at all, then all entries they use are numbers, and `normsqr`
and `dot` return a number. So the nested results of `v * w` never turn into a number by these operations. -/
theorem C100_no_wrong_number :
    (∀ (l : List (Obj K)) (r : Obj K), vecNormsqr l = .ok r →
      ∃ f : List K, l = f.map .num ∧ r = .num (f.map fun x => x * x).sum) ∧
    (∀ (l l' : List (Obj K)) (r : Obj K), vecDot l l' = .ok r →
      ∃ f : List (K × K), l.zip l' = f.map (fun p => (.num p.1, .num p.2)) ∧ r = .num (f.map fun p => p.1 * p.2).sum) ∧
    (∀ (l l' : List (List (Obj K))) (r : Obj K), matmul (.mat l) (.mat l') = .ok r →
      ∀ i < l.length, ∀ k < (l.headD []).length, ∀ j < (l'.headD []).length,
        ∃ x y, entry l i k = .ok (.num x) ∧ entry l' k j = .ok (.num y)) := by
  refine ⟨fun l r h => ?_, fun l l' r h => ?_, fun l l' r h i hi k hk j hj => ?_⟩
  · obtain ⟨f, hf, rfl⟩ := sumGen_ok h
    clear h
    induction l generalizing f with
    | nil =>
      cases f with
      | nil => exact ⟨[], rfl, rfl⟩
      | cons x f => cases hf
    | cons a l ih =>
      cases f with
      | nil => cases hf
      | cons x f =>
        rw [List.map_cons, List.map_cons] at hf
        obtain ⟨h1, h2⟩ := List.cons.inj hf
        obtain ⟨p, q, rfl, hq, rfl⟩ := mul_eq_num h1
        cases hq
        obtain ⟨f', rfl, h3⟩ := ih f h2
        refine ⟨p :: f', rfl, ?_⟩
        have h3 : f.sum = (f'.map fun x => x * x).sum := Obj.num.inj h3
        rw [List.sum_cons, List.map_cons, List.sum_cons, h3]
  · rw [vecDot] at h
    generalize l.zip l' = z at h ⊢
    obtain ⟨f, hf, rfl⟩ := sumGen_ok h
    clear h
    induction z generalizing f with
    | nil =>
      cases f with
      | nil => exact ⟨[], rfl, rfl⟩
      | cons x f => cases hf
    | cons a l ih =>
      cases f with
      | nil => cases hf
      | cons x f =>
        rw [List.map_cons, List.map_cons] at hf
        obtain ⟨h1, h2⟩ := List.cons.inj hf
        obtain ⟨p, q, hp, hq, rfl⟩ := mul_eq_num h1
        obtain ⟨f', rfl, h3⟩ := ih f h2
        refine ⟨(p, q) :: f', by rw [List.map_cons, ← hp, ← hq], ?_⟩
        have h3 : f.sum = (f'.map fun p => p.1 * p.2).sum := Obj.num.inj h3
        rw [List.sum_cons, List.map_cons, List.sum_cons, h3]
  · rw [matmul] at h
    simp only [shape, bind_ok] at h
    rw [show pyGet [l'.length, (l'.headD []).length] 0 = .ok l'.length from rfl, bind_ok] at h
    split at h
    · cases h
    · rw [show pyGet [l'.length, (l'.headD []).length] 1 = .ok (l'.headD []).length from rfl, bind_ok, bind_eq_ok] at h
      obtain ⟨rows, h, -⟩ := h
      have h1 := pyMap_getElem h i (by simpa using hi)
      have h2 := pyMap_getElem h1 j (by simpa using hj)
      obtain ⟨f, hf, -⟩ := sumGen_ok h2
      have hl : f.length = (l.headD []).length := by
        have := congrArg List.length hf
        simpa using this.symm
      have h3 : ((List.range (l.headD []).length).map fun k => do
          let x ← entry l i k
          let y ← entry l' k j
          mul x y)[k]? = (f.map fun x => (.ok (.num x) : PyM (Obj K)))[k]? := by
        simp only [List.getElem_range] at hf
        rw [hf]
      rw [List.getElem?_map, List.getElem?_map, List.getElem?_range hk, List.getElem?_eq_getElem (by omega)] at h3
      have h3 := Option.some.inj h3
      rw [bind_eq_ok] at h3
      obtain ⟨x, e1, h3⟩ := h3
      rw [bind_eq_ok] at h3
      obtain ⟨y, e2, h3⟩ := h3
      obtain ⟨p, q, rfl, rfl, -⟩ := mul_eq_num h3
      exact ⟨p, q, e1, e2⟩

/-- the squared norm of a product of two vectors raises `TypeError` -/
example : mul (ofVec ![(1 : ℚ), 2]) (ofVec ![3, 4]) = .ok (.vec [ofVec ![3, 4], ofVec ![6, 8]]) ∧
    vecNormsqr [ofVec ![(3 : ℚ), 4], ofVec ![6, 8]] ≠ .ok (.num 125) := by
  constructor
  · rw [(C100_products (r := 0) (c := 0) (r' := 0) (c' := 0) (a := 0) (b := 0) (d := 0) _ _ (fun _ => nofun) (fun _ => nofun) (fun _ => nofun)).1]
    norm_num [ofVec, List.ofFn_succ]
  · intro h
    obtain ⟨f, hf, -⟩ := C100_no_wrong_number.1 _ _ h
    cases f with
    | nil => cases hf
    | cons x f => cases hf

/-- `Vector([1, 2]) + 3`, `3 + Vector([1, 2])` and `Matrix([[1, 2]]) + Vector([1, 2])` -/
example : add (ofVec ![(1 : ℚ), 2]) (.num 3) = .error .attributeError ∧ add (.num 3) (ofVec ![(1 : ℚ), 2]) = .error .typeError ∧
    add (ofMat ![![(1 : ℚ), 2]]) (ofVec ![(1 : ℚ), 2]) = .error .valueError :=
  ⟨((C100_mixed_sums (.vec _) (.num _) (by decide)).2.1 (by decide) (by decide)).1,
    ((C100_mixed_sums (.num _) (.vec _) (by decide)).1 rfl).1,
    ((C100_mixed_sums (.mat _) (.vec _) (by decide)).2.2 (by decide) (by decide) (by decide)).1⟩

/-- `6 / Vector([1, 2])`, and `Matrix([[1, 2], [3, 4]]) @ Vector([1, 2])` -/
example : div (.num 6) (ofVec ![(1 : ℚ), 2]) = .error .typeError ∧
    matmul (ofMat ![![(1 : ℚ), 2], ![3, 4]]) (ofVec ![(1 : ℚ), 2]) = .error .indexError :=
  ⟨((C100_division 6 ![(1 : ℚ)] ![![(1 : ℚ)]] ![1, 1] ![![1, 1]]).2.2.1 _ _ (.vec _) (by decide)).1, (C100_matmul _).2.2.2.1 _⟩

end Obj
end Tve
