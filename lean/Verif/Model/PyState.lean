import Verif.Model.PyReal
import Verif.Model.Domain

/-!
# Python objects with mutable state, numpy arrays and pyomo components

Nothing in this file models code of the repository; it fixes the meaning of the library constructs the optimisation
steps and the simulation use. Numbers are real numbers.
-/

namespace Tve

/-- A method of an object with state `σ`: it returns a value or raises, and in both cases leaves a new state. State
changes made before an exception remain. (the methods of the classes in simulation.py, mechanical_step.py, thermal_step.py) -/
def PyS (σ α : Type) : Type := σ → PyM α × σ

namespace PyS
variable {σ τ α β : Type}

/-- `return a` (e.g. simulation.py:286) -/
protected def pure (a : α) : PyS σ α := fun s => (.ok a, s)

/-- sequencing: an exception skips the rest (e.g. simulation.py:354-359) -/
protected def bind (m : PyS σ α) (f : α → PyS σ β) : PyS σ β := fun s =>
  match m s with
  | (.ok a, s') => f a s'
  | (.error e, s') => (.error e, s')

/-- e.g. simulation.py:354-359 -/
instance : Monad (PyS σ) where
  pure := PyS.pure
  bind := PyS.bind

/-- read from the state (e.g. simulation.py:286) -/
def get (f : σ → α) : PyS σ α := fun s => (.ok (f s), s)

/-- a computation without side effects (e.g. mechanical_step.py:252) -/
def lift (x : PyM α) : PyS σ α := fun s => (x, s)

/-- a computation that reads the state (e.g. mechanical_step.py:201) -/
def read (f : σ → PyM α) : PyS σ α := fun s => (f s, s)

/-- assignment (e.g. mechanical_step.py:224-236) -/
def modify (f : σ → σ) : PyS σ Unit := fun s => (.ok (), f s)

/-- `raise e` (e.g. mechanical_step.py:215, simulation.py:365) -/
def raise (e : PyErr) : PyS σ α := fun s => (.error e, s)

/-- `for x in l: f(x)` (e.g. mechanical_step.py:223, 246, 251, simulation.py:371) -/
def forEach {ι : Type} (l : List ι) (f : ι → PyS σ Unit) : PyS σ Unit :=
  match l with
  | [] => PyS.pure ()
  | a :: t => PyS.bind (f a) fun _ => forEach t f

/-- a method call on an attribute of the object (e.g. simulation.py:325-333) -/
def onAttr (g : σ → τ) (put : τ → σ → σ) (m : PyS τ α) : PyS σ α := fun s =>
  let r := m (g s)
  (r.1, put r.2 s)

end PyS

/-! ### numpy -/

/-- a `numpy` array of floats: its shape and its entries in row-major order (e.g. simulation.py:99-107) -/
structure NdArray where
  shape : List ℕ
  data : List ℝ

namespace NdArray

/-- every numpy array has as many entries as its shape says (e.g. simulation.py:104-107) -/
def Ok (a : NdArray) : Prop := a.data.length = a.shape.prod

/-- `np.array(l)` for a list of numbers (mechanical_step.py:211, thermal_step.py:386, 391) -/
def of1 (l : List ℝ) : NdArray := ⟨[l.length], l⟩

/-- `np.array(rows)` for a list of lists of numbers of the same length; `np.array([])` has shape `(0,)` (mechanical_step.py:201, 206, thermal_step.py:376, 381) -/
def of2 (rows : List (List ℝ)) : NdArray :=
  match rows with
  | [] => ⟨[0], []⟩
  | r :: _ => ⟨[rows.length, r.length], rows.flatten⟩

/-- `np.array(blocks)` for a list of lists of lists of numbers of the same lengths (mechanical_step.py:420-446, thermal_step.py:471-497) -/
def of3 (blocks : List (List (List ℝ))) : NdArray :=
  match blocks with
  | [] => ⟨[0], []⟩
  | b :: _ => ⟨[blocks.length, b.length, (b.headD []).length], blocks.flatten.flatten⟩

/-- `a[i]` for a one-dimensional array (mechanical_step.py:247) -/
def get1 (a : NdArray) (i : ℕ) : PyM ℝ := pyGet a.data i

/-- `a[:, j]` for a two-dimensional array, as a list (mechanical_step.py:220-221, simulation.py:112-114) -/
def col (a : NdArray) (j : ℕ) : PyM (List ℝ) :=
  match a.shape with
  | [n, c] => if j < c then pyMap (List.range n) fun i => pyGet a.data (i * c + j) else .error .indexError
  | _ => .error .indexError

/-- `a[:, j, :]` for a three-dimensional array, as a list of lists (simulation.py:149-151) -/
def block (a : NdArray) (j : ℕ) : PyM (List (List ℝ)) :=
  match a.shape with
  | [n, c, d] =>
    if j < c then pyMap (List.range n) fun i => pyMap (List.range d) fun k => pyGet a.data ((i * c + j) * d + k)
    else .error .indexError
  | _ => .error .indexError

/-- `np.max(l)`, raising `ValueError` for an empty list (simulation.py:337-341) -/
noncomputable def npMax : List ℝ → PyM ℝ
  | [] => .error .valueError
  | x :: l => .ok (l.foldl Max.max x)

/-- `np.min(l)`, raising `ValueError` for an empty list (simulation.py:340-341) -/
noncomputable def npMin : List ℝ → PyM ℝ
  | [] => .error .valueError
  | x :: l => .ok (l.foldl Min.min x)

end NdArray

/-! ### pyomo -/

/-- one scalar variable of a pyomo model: value, bounds and whether it is fixed (mechanical_step.py:117-133, 293-310, thermal_step.py:224, 316) -/
structure VarData where
  value : ℝ
  lb : ℝ
  ub : ℝ
  fixed : Bool

namespace VarData

/-- a variable with value `x` and bounds `(x - r, x + r)` (pyomo keeps the bounds as expressions in a parameter whose
value is `x`) (mechanical_step.py:119-129, 296-306) -/
noncomputable def centred (x r : ℝ) : VarData := ⟨x, x - r, x + r, false⟩

/-- `var = x` for `within=pyo.Reals`: changes the value only, also of fixed variables (mechanical_step.py:120, 125, 227, 232) -/
def assign (x : ℝ) (v : VarData) : VarData := { v with value := x }

/-- `var.bounds = (lb, ub)` (mechanical_step.py:121-129, 228-236) -/
def setBounds (lb ub : ℝ) (v : VarData) : VarData := { v with lb := lb, ub := ub }

/-- `var.fix()` (mechanical_step.py:131-133, 308-310) -/
def fix (v : VarData) : VarData := { v with fixed := true }

end VarData

/-- `component[i] = x` for an indexed component `within=pyo.NonNegativeReals`: pyomo raises `ValueError` for values
outside the domain and stores nothing. (mechanical_step.py:247, thermal_step.py:421-439) -/
noncomputable def assignNonNeg {σ : Type} (x : ℝ) (store : ℝ → σ → σ) : PyS σ Unit :=
  if x < 0 then PyS.raise .valueError else PyS.modify (store x)

/-- the values of the members of an indexed variable (mechanical_step.py:206, thermal_step.py:391) -/
def varValues (l : List VarData) : List ℝ := l.map VarData.value

end Tve
