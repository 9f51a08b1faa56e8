import Mathlib.Algebra.Field.Basic
import Mathlib.Algebra.Order.Ring.Defs
import Mathlib.Data.List.Basic

/-!
# Python runtime fragment used by the model

Exceptions are values, containers are lists. Nothing in this file models code of the repository; it
fixes the meaning of the Python constructs the repository uses.
-/

namespace Tve

/-- The Python exception classes that the modelled code can raise. (the `raise` statements of all modules, e.g. tensors.py:28, 38, domain.py:170) -/
inductive PyErr
  | valueError
  | indexError
  | keyError
  | zeroDivision
  | assertion
  | notImplemented
  | nameError
  | typeError
  | solverError
  | attributeError
  deriving DecidableEq, Repr

/-- A Python computation: a value or a raised exception. (all functions of the repository that can raise) -/
abbrev PyM (α : Type) := Except PyErr α

/-- `raise e`. (tensors.py:28, 38, 43, 82, and all other `raise` statements) -/
def pyRaise {α : Type} (e : PyErr) : PyM α := Except.error e

/-- `l[i]` for a Python list and a non-negative index. (e.g. domain.py:167-181, `self.points[i]`) -/
def pyGet {α : Type} (l : List α) (i : ℕ) : PyM α :=
  match l[i]? with
  | some a => .ok a
  | none => .error .indexError

/-- `l[i]` for a Python list and an arbitrary integer index: negative indices count from the end. (e.g. tensors.py:31, 99) -/
def pyIdx {α : Type} (l : List α) (i : ℤ) : PyM α :=
  if 0 ≤ i then pyGet l i.toNat
  else if 0 ≤ i + l.length then pyGet l (i + l.length).toNat
  else .error .indexError

/-- `x / d` for Python floats. (e.g. tensors.py:53, 311, domain.py:426) -/
def pyDiv {K : Type} [Field K] [DecidableEq K] (x d : K) : PyM K :=
  if d = 0 then .error .zeroDivision else .ok (x / d)

/-- A list comprehension `[f(x) for x in l]` whose body may raise. (e.g. tensors.py:34, 39) -/
def pyMap {α β : Type} (l : List α) (f : α → PyM β) : PyM (List β) :=
  match l with
  | [] => .ok []
  | a :: t => do
    let b ← f a
    let bs ← pyMap t f
    return b :: bs

/-- A `for x in l:` loop with loop state `σ`, whose body may raise. (e.g. tensors.py:272-283, domain.py:654-665) -/
def pyFor {α σ : Type} (l : List α) (s : σ) (f : σ → α → PyM σ) : PyM σ :=
  match l with
  | [] => .ok s
  | a :: t => do
    let s' ← f s a
    pyFor t s' f

/-- Python dictionaries: association lists in insertion order, keys unique by construction. (domain.py:239, 650-653, 705-712) -/
structure PyDict (α β : Type) where
  items : List (α × β)

namespace PyDict
variable {α β : Type} [DecidableEq α]

/-- `{}` (domain.py:239, 650-653, 705) -/
def empty : PyDict α β := ⟨[]⟩

/-- lookup in an association list (domain.py:239-260) -/
def getL : List (α × β) → α → Option β
  | [], _ => none
  | (k, v) :: t, a => if k = a then some v else getL t a

/-- store into an association list: overwrite in place or append at the end (domain.py:244, 731-755) -/
def setL : List (α × β) → α → β → List (α × β)
  | [], a, b => [(a, b)]
  | (k, v) :: t, a, b => if k = a then (k, b) :: t else (k, v) :: setL t a b

/-- `d.get(k)` (domain.py:239-260, 705-740) -/
def get? (d : PyDict α β) (a : α) : Option β := getL d.items a

/-- `d[k]`, raising `KeyError`. (domain.py:354-361, 372-377) -/
def get (d : PyDict α β) (a : α) : PyM β :=
  match d.get? a with
  | some b => .ok b
  | none => .error .keyError

/-- `d[k] = v` (domain.py:244, 706-712, 731-755) -/
def set (d : PyDict α β) (a : α) (b : β) : PyDict α β := ⟨setL d.items a b⟩

/-- `k in d` (domain.py:705-755) -/
def contains (d : PyDict α β) (a : α) : Bool := (d.get? a).isSome

end PyDict

/-- `sqrt` on the number type (`pyo.sqrt` on floats); the theorems use `Real.sqrt`. (tensors.py:69, 291, 433) -/
class PySqrt (K : Type) where
  sqrt : K → K

end Tve
