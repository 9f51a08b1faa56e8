import Verif.Model.Tensors
import Mathlib.Analysis.SpecialFunctions.Log.Basic
import Mathlib.Analysis.SpecialFunctions.Exp

/-!
# The fragment of sympy used by the repository

`Sym` are sympy expressions (symbols are strings, rational constants); `diff`, `subs`, `lambdify` model `sp.diff`,
`Expr.subs` and `sp.lambdify`. sympy's automatic simplification is modelled only where it is observable: the
elimination of zero terms and factors after a substitution (`zsimp`), without which
`sp.lambdify([_t, _b3, _c3], _N_on_edge)` (bell_finite_element.py:189) would not be a function of the three symbols.
Other rewriting by sympy is assumed to preserve values (trusted base).
-/

namespace Tve

/-- bell_finite_element.py:10-14, helpers.py:20, 43 -/
abbrev Symb := String

/-- sympy expressions (bell_finite_element.py:16-86, helpers.py:20-77) -/
inductive Sym
  | num (q : ℚ)
  | var (s : Symb)
  | add (a b : Sym)
  | sub (a b : Sym)
  | neg (a : Sym)
  | mul (a b : Sym)
  | div (a b : Sym)
  | pow (a : Sym) (n : ℕ)
  | log (a : Sym)
  | exp (a : Sym)
  deriving DecidableEq, Repr

namespace Sym

/-- bell_finite_element.py:23-71 -/
instance : Add Sym := ⟨add⟩
/-- bell_finite_element.py:23-71 -/
instance : Sub Sym := ⟨sub⟩
/-- bell_finite_element.py:23-71 -/
instance : Neg Sym := ⟨neg⟩
/-- bell_finite_element.py:23-71 -/
instance : Mul Sym := ⟨mul⟩
/-- bell_finite_element.py:23-71 -/
instance : Div Sym := ⟨div⟩
/-- bell_finite_element.py:23-71 -/
instance : HPow Sym ℕ Sym := ⟨pow⟩
/-- bell_finite_element.py:23-71 -/
instance (n : ℕ) : OfNat Sym n := ⟨num n⟩

/-- `sp.diff(e, x)` (bell_finite_element.py:137, 159, helpers.py:28, 57, 77) -/
def diff (x : Symb) : Sym → Sym
  | num _ => 0
  | var s => if s = x then 1 else 0
  | add a b => a.diff x + b.diff x
  | sub a b => a.diff x - b.diff x
  | neg a => -(a.diff x)
  | mul a b => a.diff x * b + a * b.diff x
  | div a b => (a.diff x * b - a * b.diff x) / b ^ 2
  | pow _ 0 => 0
  | pow a (n + 1) => num (n + 1) * a ^ n * a.diff x
  | log a => a.diff x / a
  | exp a => exp a * a.diff x

/-- `e.subs(x, r)`: replace one symbol (bell_finite_element.py:86, 188, helpers.py:70) -/
def subs1 (e : Sym) (x : Symb) (r : Sym) : Sym :=
  match e with
  | num q => num q
  | var s => if s = x then r else var s
  | add a b => subs1 a x r + subs1 b x r
  | sub a b => subs1 a x r - subs1 b x r
  | neg a => -(subs1 a x r)
  | mul a b => subs1 a x r * subs1 b x r
  | div a b => subs1 a x r / subs1 b x r
  | pow a n => subs1 a x r ^ n
  | log a => log (subs1 a x r)
  | exp a => exp (subs1 a x r)

/-- `e.subs([(x1, r1), (x2, r2), …])`: the replacements are made one after the other (bell_finite_element.py:86, 188) -/
def subs (e : Sym) (l : List (Symb × Sym)) : Sym := l.foldl (fun e p => e.subs1 p.1 p.2) e

/-- Is the expression the constant 0? (bell_finite_element.py:188) -/
def isZero : Sym → Bool
  | num q => decide (q = 0)
  | _ => false

/-- sympy's automatic elimination of zero terms and factors (bell_finite_element.py:188) -/
def zsimp : Sym → Sym
  | num q => num q
  | var s => var s
  | add a b => if a.zsimp.isZero then b.zsimp else if b.zsimp.isZero then a.zsimp else a.zsimp + b.zsimp
  | sub a b => if b.zsimp.isZero then a.zsimp else if a.zsimp.isZero then -b.zsimp else a.zsimp - b.zsimp
  | neg a => if a.zsimp.isZero then num 0 else -a.zsimp
  | mul a b => if a.zsimp.isZero then num 0 else if b.zsimp.isZero then num 0 else a.zsimp * b.zsimp
  | div a b => if a.zsimp.isZero then num 0 else a.zsimp / b.zsimp
  | pow a n => if a.zsimp.isZero then (if n = 0 then num 1 else num 0) else a.zsimp ^ n
  | log a => log a.zsimp
  | exp a => exp a.zsimp

/-- free symbols (bell_finite_element.py:189) -/
def free : Sym → List Symb
  | num _ => []
  | var s => [s]
  | add a b => a.free ++ b.free
  | sub a b => a.free ++ b.free
  | neg a => a.free
  | mul a b => a.free ++ b.free
  | div a b => a.free ++ b.free
  | pow a _ => a.free
  | log a => a.free
  | exp a => a.free

open Classical in
/-- Evaluation in Python, for real arguments: unknown names, division by zero and logarithms of nonpositive numbers
raise. (bell_finite_element.py:99, 138, 164, 189) -/
noncomputable def evalPy (env : Symb → Option ℝ) : Sym → PyM ℝ
  | num q => .ok q
  | var s => match env s with
    | some v => .ok v
    | none => .error .nameError
  | add a b => do let x ← a.evalPy env; let y ← b.evalPy env; return x + y
  | sub a b => do let x ← a.evalPy env; let y ← b.evalPy env; return x - y
  | neg a => do let x ← a.evalPy env; return -x
  | mul a b => do let x ← a.evalPy env; let y ← b.evalPy env; return x * y
  | div a b => do
    let x ← a.evalPy env
    let y ← b.evalPy env
    if y = 0 then .error .zeroDivision else .ok (x / y)
  | pow a n => do let x ← a.evalPy env; return x ^ n
  | log a => do
    let x ← a.evalPy env
    if x ≤ 0 then .error .valueError else .ok (Real.log x)
  | exp a => do let x ← a.evalPy env; return Real.exp x

/-- binding of the lambda's parameters (bell_finite_element.py:99, 189) -/
def bindArgs (params : List Symb) (args : List ℝ) : Symb → Option ℝ :=
  fun s => (params.zip args).lookup s

/-- `sp.lambdify(params, e)(*args)`; a wrong number of arguments is a `TypeError`. (helpers.py:24, 31, 39, 52, 72) -/
noncomputable def lambdify (params : List Symb) (e : Sym) (args : List ℝ) : PyM ℝ :=
  if params.length ≠ args.length then .error .typeError else e.evalPy (bindArgs params args)

/-- `sp.lambdify(params, [e1, …])(*args)` (bell_finite_element.py:99, 189) -/
noncomputable def lambdifyList (params : List Symb) (es : List Sym) (args : List ℝ) : PyM (List ℝ) :=
  pyMap es (fun e => e.lambdify params args)

/-- `sp.lambdify(params, [[e11, …], …])(*args)` (bell_finite_element.py:138, 164, helpers.py:59, 79) -/
noncomputable def lambdifyMat (params : List Symb) (es : List (List Sym)) (args : List ℝ) : PyM (List (List ℝ)) :=
  pyMap es (fun row => lambdifyList params row args)

end Sym
end Tve
