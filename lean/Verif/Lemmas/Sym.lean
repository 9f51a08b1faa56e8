import Verif.Model.Sym
import Verif.Lemmas.Py
import Mathlib.Analysis.Calculus.FDeriv.Prod
import Mathlib.Analysis.Calculus.FDeriv.Mul
import Mathlib.Analysis.Calculus.FDeriv.Pow
import Mathlib.Analysis.SpecialFunctions.Log.Deriv
import Mathlib.Analysis.SpecialFunctions.ExpDeriv
import Mathlib.Tactic.FieldSimp
import Mathlib.Tactic.Ring
import Mathlib.Tactic.LinearCombination

/-! Semantics of the sympy fragment: total evaluation, substitution and correctness of symbolic differentiation. -/

set_option linter.unusedSimpArgs false

namespace Tve
namespace Sym

/-- total evaluation (division by zero gives 0) -/
noncomputable def eval (v : Symb → ℝ) : Sym → ℝ
  | num q => q
  | var s => v s
  | add a b => a.eval v + b.eval v
  | sub a b => a.eval v - b.eval v
  | neg a => -a.eval v
  | mul a b => a.eval v * b.eval v
  | div a b => a.eval v / b.eval v
  | pow a n => a.eval v ^ n
  | log a => Real.log (a.eval v)
  | exp a => Real.exp (a.eval v)

/-- no division by zero and no logarithm of a nonpositive number -/
def Safe (v : Symb → ℝ) : Sym → Prop
  | num _ => True
  | var _ => True
  | add a b => a.Safe v ∧ b.Safe v
  | sub a b => a.Safe v ∧ b.Safe v
  | neg a => a.Safe v
  | mul a b => a.Safe v ∧ b.Safe v
  | div a b => a.Safe v ∧ b.Safe v ∧ b.eval v ≠ 0
  | pow a _ => a.Safe v
  | log a => a.Safe v ∧ 0 < a.eval v
  | exp a => a.Safe v

section simps
variable (v : Symb → ℝ) (a b : Sym)
@[simp] theorem eval_num (q : ℚ) : (num q).eval v = q := rfl
@[simp] theorem eval_var (s : Symb) : (var s).eval v = v s := rfl
@[simp] theorem eval_hadd : (a + b).eval v = a.eval v + b.eval v := rfl
@[simp] theorem eval_hsub : (a - b).eval v = a.eval v - b.eval v := rfl
@[simp] theorem eval_hneg : (-a).eval v = -a.eval v := rfl
@[simp] theorem eval_hmul : (a * b).eval v = a.eval v * b.eval v := rfl
@[simp] theorem eval_hdiv : (a / b).eval v = a.eval v / b.eval v := rfl
@[simp] theorem eval_hpow (n : ℕ) : (a ^ n).eval v = a.eval v ^ n := rfl
@[simp] theorem eval_ofNat (n : ℕ) [n.AtLeastTwo] : (OfNat.ofNat n : Sym).eval v = (OfNat.ofNat n : ℝ) := by
  show (((OfNat.ofNat n : ℕ) : ℚ) : ℝ) = _
  simp
@[simp] theorem eval_zero : (0 : Sym).eval v = 0 := by show (((0 : ℕ) : ℚ) : ℝ) = 0; simp
@[simp] theorem eval_one : (1 : Sym).eval v = 1 := by show (((1 : ℕ) : ℚ) : ℝ) = 1; simp
@[simp] theorem safe_num (q : ℚ) : (num q).Safe v := trivial
@[simp] theorem safe_var (s : Symb) : (var s).Safe v := trivial
@[simp] theorem safe_hadd : (a + b).Safe v ↔ a.Safe v ∧ b.Safe v := Iff.rfl
@[simp] theorem safe_hsub : (a - b).Safe v ↔ a.Safe v ∧ b.Safe v := Iff.rfl
@[simp] theorem safe_hneg : (-a).Safe v ↔ a.Safe v := Iff.rfl
@[simp] theorem safe_hmul : (a * b).Safe v ↔ a.Safe v ∧ b.Safe v := Iff.rfl
@[simp] theorem safe_hdiv : (a / b).Safe v ↔ a.Safe v ∧ b.Safe v ∧ b.eval v ≠ 0 := Iff.rfl
@[simp] theorem safe_hpow (n : ℕ) : (a ^ n).Safe v ↔ a.Safe v := Iff.rfl
@[simp] theorem safe_ofNat (n : ℕ) : (OfNat.ofNat n : Sym).Safe v := trivial
@[simp] theorem safe_zero : (0 : Sym).Safe v := trivial
@[simp] theorem safe_one : (1 : Sym).Safe v := trivial
end simps

theorem evalPy_eq {env : Symb → Option ℝ} {v : Symb → ℝ} {e : Sym} (hf : ∀ s ∈ e.free, env s = some (v s))
    (hs : e.Safe v) : e.evalPy env = .ok (e.eval v) := by
  induction e with
  | num q => rfl
  | var s => simp [evalPy, hf s (by simp [free]), eval]
  | add a b iha ihb | sub a b iha ihb | mul a b iha ihb =>
    have ha := iha (fun s h => hf s (by simp [free, h])) hs.1
    have hb := ihb (fun s h => hf s (by simp [free, h])) hs.2
    simp [evalPy, eval, ha, hb]
  | div a b iha ihb =>
    have ha := iha (fun s h => hf s (by simp [free, h])) hs.1
    have hb := ihb (fun s h => hf s (by simp [free, h])) hs.2.1
    simp [evalPy, eval, ha, hb, hs.2.2]
  | neg a iha | exp a iha => simp [evalPy, eval, iha (fun s h => hf s (by simpa [free] using h)) hs]
  | pow a n iha => simp [evalPy, eval, iha (fun s h => hf s (by simpa [free] using h)) hs]
  | log a iha =>
    simp [evalPy, eval, iha (fun s h => hf s (by simpa [free] using h)) hs.1, not_le.mpr hs.2]

theorem eval_congr {v w : Symb → ℝ} {e : Sym} (h : ∀ s ∈ e.free, v s = w s) : e.eval v = e.eval w := by
  induction e with
  | num q => rfl
  | var s => exact h s (by simp [free])
  | add a b iha ihb | sub a b iha ihb | mul a b iha ihb | div a b iha ihb =>
    simp only [eval, iha (fun s hs => h s (by simp [free, hs])), ihb (fun s hs => h s (by simp [free, hs]))]
  | neg a iha | exp a iha | log a iha | pow a _ iha =>
    simp only [eval, iha (fun s hs => h s (by simpa [free] using hs))]

theorem safe_congr {v w : Symb → ℝ} {e : Sym} (h : ∀ s ∈ e.free, v s = w s) : e.Safe v ↔ e.Safe w := by
  induction e with
  | num q => rfl
  | var s => rfl
  | add a b iha ihb | sub a b iha ihb | mul a b iha ihb =>
    simp only [Safe, iha (fun s hs => h s (by simp [free, hs])), ihb (fun s hs => h s (by simp [free, hs]))]
  | div a b iha ihb =>
    simp only [Safe, iha (fun s hs => h s (by simp [free, hs])), ihb (fun s hs => h s (by simp [free, hs])),
      eval_congr (fun s hs => h s (by simp [free, hs]) : ∀ s ∈ b.free, v s = w s)]
  | neg a iha | exp a iha | pow a _ iha =>
    simp only [Safe, iha (fun s hs => h s (by simpa [free] using hs))]
  | log a iha =>
    simp only [Safe, iha (fun s hs => h s (by simpa [free] using hs)),
      eval_congr (fun s hs => h s (by simpa [free] using hs) : ∀ s ∈ a.free, v s = w s)]

/-- renaming of symbols -/
def rename (ρ : Symb → Symb) : Sym → Sym
  | num q => num q
  | var s => var (ρ s)
  | add a b => a.rename ρ + b.rename ρ
  | sub a b => a.rename ρ - b.rename ρ
  | neg a => -a.rename ρ
  | mul a b => a.rename ρ * b.rename ρ
  | div a b => a.rename ρ / b.rename ρ
  | pow a n => a.rename ρ ^ n
  | log a => log (a.rename ρ)
  | exp a => exp (a.rename ρ)

theorem eval_rename (ρ : Symb → Symb) (v : Symb → ℝ) (e : Sym) : (e.rename ρ).eval v = e.eval (v ∘ ρ) := by
  induction e <;> simp_all [rename, eval]

theorem safe_rename (ρ : Symb → Symb) (v : Symb → ℝ) (e : Sym) : (e.rename ρ).Safe v ↔ e.Safe (v ∘ ρ) := by
  induction e <;> simp_all [rename, Safe, eval_rename]

section ctor
variable (a b : Sym)
theorem c_add : a + b = add a b := rfl
theorem c_sub : a - b = sub a b := rfl
theorem c_neg : -a = neg a := rfl
theorem c_mul : a * b = mul a b := rfl
theorem c_div : a / b = div a b := rfl
theorem c_pow (n : ℕ) : a ^ n = pow a n := rfl
theorem c_ofNat (n : ℕ) : (OfNat.ofNat n : Sym) = num n := rfl
end ctor

theorem free_rename (ρ : Symb → Symb) (e : Sym) : (e.rename ρ).free = e.free.map ρ := by
  induction e <;> simp_all [rename, free, c_add, c_sub, c_neg, c_mul, c_div, c_pow]

theorem diff_rename {ρ : Symb → Symb} (hρ : Function.Injective ρ) (x : Symb) (e : Sym) :
    (e.rename ρ).diff (ρ x) = (e.diff x).rename ρ := by
  induction e with
  | num q => rfl
  | var s =>
    by_cases h : s = x
    · subst h; simp only [rename, diff, if_true]; rfl
    · simp only [rename, diff, h, hρ.ne h, if_false]; rfl
  | pow a n iha =>
    cases n with
    | zero => rfl
    | succ n => simp_all [rename, diff, c_add, c_sub, c_neg, c_mul, c_div, c_pow]
  | _ => simp_all [rename, diff, c_add, c_sub, c_neg, c_mul, c_div, c_pow]

theorem free_diff (x : Symb) (e : Sym) : ∀ s ∈ (e.diff x).free, s ∈ e.free := by
  induction e with
  | num q => intro s hs; exact hs
  | var s =>
    intro t ht
    by_cases h : s = x
    · simp [diff, h, c_ofNat, free] at ht
    · simp [diff, h, c_ofNat, free] at ht
  | add a b iha ihb | sub a b iha ihb | mul a b iha ihb | div a b iha ihb => 
    intro s hs
    simp only [diff, free, List.mem_append, c_add, c_sub, c_neg, c_mul, c_div, c_pow] at hs ⊢
    have := iha s; have := ihb s
    tauto
  | neg a iha | exp a iha | log a iha =>
    intro s hs
    simp only [diff, free, List.mem_append, c_add, c_sub, c_neg, c_mul, c_div, c_pow] at hs ⊢
    have := iha s
    tauto
  | pow a n iha =>
    intro s hs
    cases n with
    | zero => exact absurd hs (by show s ∉ []; simp)
    | succ n =>
      simp only [diff, free, List.mem_append, c_add, c_sub, c_neg, c_mul, c_div, c_pow, List.not_mem_nil,
        false_or] at hs ⊢
      have := iha s
      tauto

theorem safe_diff {v : Symb → ℝ} (x : Symb) {e : Sym} (h : e.Safe v) : (e.diff x).Safe v := by
  induction e with
  | num q => trivial
  | var s => simp only [diff]; split <;> trivial
  | add a b iha ihb | sub a b iha ihb => exact ⟨iha h.1, ihb h.2⟩
  | mul a b iha ihb => exact ⟨⟨iha h.1, h.2⟩, h.1, ihb h.2⟩
  | div a b iha ihb =>
    exact ⟨⟨⟨iha h.1, h.2.1⟩, h.1, ihb h.2.1⟩, h.2.1, by simpa using h.2.2⟩
  | neg a iha => exact iha h
  | exp a iha => exact ⟨h, iha h⟩
  | log a iha => exact ⟨iha h.1, h.1, h.2.ne'⟩
  | pow a n iha =>
    cases n with
    | zero => trivial
    | succ n => exact ⟨⟨trivial, h⟩, iha h⟩

/-- Second derivatives commute. -/
theorem eval_diff_comm (v : Symb → ℝ) (x y : Symb) (e : Sym) :
    ((e.diff x).diff y).eval v = ((e.diff y).diff x).eval v := by
  induction e with
  | num q => rfl
  | var s =>
    simp only [diff]
    split <;> split <;> rfl
  | pow a n iha =>
    cases n with
    | zero => rfl
    | succ n =>
      cases n with
      | zero =>
        simp only [diff, eval, c_add, c_sub, c_neg, c_mul, c_div, c_pow, c_ofNat, iha]
        push_cast; ring
      | succ n =>
        simp only [diff, eval, c_add, c_sub, c_neg, c_mul, c_div, c_pow, c_ofNat, iha]
        push_cast; ring
  | _ => simp only [diff, eval, c_add, c_sub, c_neg, c_mul, c_div, c_pow, c_ofNat, *]; try (push_cast; ring)

/-- Symbolic differentiation is differentiation: if only the symbols in `xs` vary, the derivative of the value of `e`
is the sum of the values of the symbolic derivatives times the derivatives of the symbols. -/
theorem hasFDerivAt_eval {E : Type*} [NormedAddCommGroup E] [NormedSpace ℝ E] {v : E → Symb → ℝ} {z : E}
    (xs : Finset Symb) (v' : Symb → E →L[ℝ] ℝ)
    (hv : ∀ s ∈ xs, HasFDerivAt (fun y => v y s) (v' s) z) (hc : ∀ s ∉ xs, ∀ y, v y s = v z s)
    {e : Sym} (h : e.Safe (v z)) :
    HasFDerivAt (fun y => e.eval (v y)) (∑ x ∈ xs, (e.diff x).eval (v z) • v' x) z := by
  induction e with
  | num q => 
    simp only [diff, eval_zero, zero_smul, Finset.sum_const_zero]
    exact hasFDerivAt_const _ _
  | var s => 
    have : ∀ x, ((var s).diff x).eval (v z) • v' x = if x = s then v' s else 0 := by
      intro x
      by_cases hxs : x = s
      · subst hxs; simp [diff]
      · simp [diff, hxs, Ne.symm hxs]
    simp only [this, Finset.sum_ite_eq']
    split
    · exact hv s ‹_›
    · have : (fun y => (var s).eval (v y)) = fun _ => v z s := by
        funext y; exact hc s ‹_› y
      rw [this]
      exact hasFDerivAt_const _ _
  | add a b iha ihb =>
    refine HasFDerivAt.congr_fderiv ((iha h.1).add (ihb h.2)) (Eq.symm ?_)
    simp [diff, add_smul, Finset.sum_add_distrib]
  | sub a b iha ihb =>
    refine HasFDerivAt.congr_fderiv ((iha h.1).sub (ihb h.2)) (Eq.symm ?_)
    rw [← Finset.sum_sub_distrib]
    exact Finset.sum_congr rfl fun x _ => (sub_smul (eval (v z) (diff x a)) (eval (v z) (diff x b)) (v' x))
  | neg a iha =>
    refine HasFDerivAt.congr_fderiv ((iha h).neg) (Eq.symm ?_)
    rw [← Finset.sum_neg_distrib]
    exact Finset.sum_congr rfl fun x _ => (neg_smul (eval (v z) (diff x a)) (v' x))
  | mul a b iha ihb =>
    refine HasFDerivAt.congr_fderiv ((iha h.1).mul (ihb h.2)) (Eq.symm ?_)
    simp only [diff, eval_hadd, eval_hmul, add_smul, Finset.sum_add_distrib, Finset.smul_sum, smul_smul]
    rw [add_comm]; congr 1
    apply Finset.sum_congr rfl; intro x _; rw [mul_comm]
  | div a b iha ihb =>
    have hb := (hasDerivAt_inv h.2.2).comp_hasFDerivAt z (ihb h.2.1)
    refine HasFDerivAt.congr_fderiv ((iha h.1).mul hb) (Eq.symm ?_)
    · simp only [diff, eval_hsub, eval_hmul, eval_hdiv, eval_hpow, Finset.smul_sum, smul_smul,
        ← Finset.sum_add_distrib, ← add_smul]
      apply Finset.sum_congr rfl; intro x _
      congr 1
      have := h.2.2
      field_simp
      ring
  | log a iha =>
    refine HasFDerivAt.congr_fderiv ((iha h.1).log h.2.ne') (Eq.symm ?_)
    simp only [diff, eval_hdiv, Finset.smul_sum, smul_smul, div_eq_inv_mul]
  | exp a iha =>
    refine HasFDerivAt.congr_fderiv ((iha h).exp) (Eq.symm ?_)
    simp only [diff, eval_hmul, Finset.smul_sum, smul_smul, eval]
  | pow a n iha =>
    cases n with
    | zero =>
      simp only [diff, eval, eval_zero, zero_smul, Finset.sum_const_zero, pow_zero]
      exact hasFDerivAt_const _ _
    | succ n =>
      refine HasFDerivAt.congr_fderiv ((iha h).pow (n + 1)) (Eq.symm ?_)
      simp only [diff, eval_hmul, eval_hpow, eval_num, Finset.smul_sum, smul_smul, nsmul_eq_mul]
      apply Finset.sum_congr rfl; intro x _
      congr 2
      push_cast
      simp

/-- substitution of a symbol -/
theorem eval_subs1 (v : Symb → ℝ) (x : Symb) (r e : Sym) :
    (e.subs1 x r).eval v = e.eval (Function.update v x (r.eval v)) := by
  induction e with
  | var s =>
    by_cases h : s = x
    · subst h; simp [subs1]
    · simp [subs1, h]
  | _ => simp_all [subs1, eval]

theorem safe_subs1 {v : Symb → ℝ} {x : Symb} {r e : Sym} (hr : r.Safe v)
    (h : e.Safe (Function.update v x (r.eval v))) : (e.subs1 x r).Safe v := by
  induction e with
  | var s =>
    simp only [subs1]; split
    · exact hr
    · trivial
  | _ => simp_all [subs1, Safe, eval_subs1]

theorem isZero_eval {e : Sym} (v : Symb → ℝ) (h : e.isZero = true) : e.eval v = 0 := by
  cases e <;> simp_all [isZero]

theorem eval_zsimp (v : Symb → ℝ) (e : Sym) : e.zsimp.eval v = e.eval v := by
  induction e with
  | num q => rfl
  | var s => rfl
  | neg a iha | div a b iha ihb | pow a n iha => 
    simp only [zsimp, eval]
    split
    · have := isZero_eval v ‹_›
      rw [iha] at this
      try split
      all_goals simp_all [eval]
    · simp_all [eval]
  | add a b iha ihb | sub a b iha ihb | mul a b iha ihb =>
    simp only [zsimp, eval, ← iha, ← ihb]
    split
    · rename_i h0
      have h1 := isZero_eval v h0
      simp [eval, h1]
    · split
      · rename_i h0
        have h1 := isZero_eval v h0
        simp [eval, h1]
      · simp [eval]
  | log a iha | exp a iha => simp_all [zsimp, eval]

theorem safe_zsimp {v : Symb → ℝ} {e : Sym} (h : e.Safe v) : e.zsimp.Safe v := by
  induction e with
  | num q => trivial
  | var s => trivial
  | neg a iha =>
    simp only [zsimp]; split
    · trivial
    · exact iha h
  | div a b iha ihb =>
    simp only [zsimp]; split
    · trivial
    · exact ⟨iha h.1, ihb h.2.1, by rw [eval_zsimp]; exact h.2.2⟩
  | pow a n iha =>
    simp only [zsimp]
    split
    · split <;> trivial
    · exact iha h
  | add a b iha ihb | sub a b iha ihb | mul a b iha ihb =>
    simp only [zsimp]
    split
    · first | exact iha h.1 | exact ihb h.2 | trivial
    · split
      · first | exact iha h.1 | exact ihb h.2 | trivial
      · exact ⟨iha h.1, ihb h.2⟩
  | log a iha => exact ⟨iha h.1, by rw [eval_zsimp]; exact h.2⟩
  | exp a iha => exact iha h

theorem lambdifyList_eq {params : List Symb} {args : List ℝ} (hl : params.length = args.length) {v : Symb → ℝ}
    {es : List Sym} (hv : ∀ e ∈ es, ∀ s ∈ e.free, bindArgs params args s = some (v s)) (hs : ∀ e ∈ es, e.Safe v) :
    lambdifyList params es args = .ok (es.map (eval v)) := by
  unfold lambdifyList
  apply pyMap_eq_ok
  intro e he
  simp only [lambdify, hl, ne_eq, not_true_eq_false, if_false]
  exact evalPy_eq (hv e he) (hs e he)

theorem lambdifyMat_eq {params : List Symb} {args : List ℝ} (hl : params.length = args.length) {v : Symb → ℝ}
    {es : List (List Sym)} (hv : ∀ r ∈ es, ∀ e ∈ r, ∀ s ∈ e.free, bindArgs params args s = some (v s))
    (hs : ∀ r ∈ es, ∀ e ∈ r, e.Safe v) :
    lambdifyMat params es args = .ok (es.map fun r => r.map (eval v)) := by
  unfold lambdifyMat
  apply pyMap_eq_ok
  intro r hr
  exact lambdifyList_eq hl (hv r hr) (hs r hr)

end Sym
end Tve
