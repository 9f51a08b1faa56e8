import Verif.Model.Tensors

/-!
# Slices of vectors, reshaping to any integers, and maps that may raise (`src/tvemoves_rufbad/tensors.py`)

The slicing of Python lists is fixed as documented for `slice.indices` and sequences.
-/

namespace Tve

/-- a Python slice `start:stop:step` (tensors.py:25-31) -/
structure PySlice where
  start : Option ℤ
  stop : Option ℤ
  step : Option ℤ

namespace PySlice

/-- `slice.indices(n)`: a given bound is counted from the end if it is negative, and clipped to the valid positions, which depend
on the direction (`self.data[i]`, tensors.py:31) -/
def clip (n : ℤ) (forward : Bool) (a : ℤ) : ℤ :=
  let lower := if forward then 0 else -1
  let upper := if forward then n else n - 1
  if a < 0 then max (a + n) lower else min a upper

/-- first position (`self.data[i]`, tensors.py:31) -/
def first (s : PySlice) (n : ℤ) (forward : Bool) : ℤ :=
  match s.start with
  | none => if forward then 0 else n - 1
  | some a => clip n forward a

/-- end position, exclusive (`self.data[i]`, tensors.py:31) -/
def last (s : PySlice) (n : ℤ) (forward : Bool) : ℤ :=
  match s.stop with
  | none => if forward then n else -1
  | some b => clip n forward b

/-- the number of elements of `range(start, stop, step)` (`self.data[i]`, tensors.py:31) -/
def count (start stop step : ℤ) : ℕ :=
  if 0 < step then if start < stop then ((stop - start - 1) / step + 1).toNat else 0
  else if stop < start then ((start - stop - 1) / (-step) + 1).toNat else 0

end PySlice

/-- `data[s]` for a list and a slice: the step must not be zero (tensors.py:31) -/
def pySlice {α : Type} (data : List α) (s : PySlice) : PyM (List α) :=
  let step := s.step.getD 1
  if step = 0 then .error .valueError
  else
    let a := s.first data.length (decide (0 < step))
    let b := s.last data.length (decide (0 < step))
    pyMap (List.range (PySlice.count a b step)) fun (i : ℕ) => pyIdx data (a + i * step)

/-- `Vector.__getitem__` for a slice (tensors.py:30-31) -/
def Vec.getSlice {K : Type} (v : Vec K) (s : PySlice) : PyM (Vec K) := do
  let l ← pySlice v.data s
  return ⟨l⟩

/-- `Vector.reshape` (tensors.py:91-100) for any integers: `range` of a negative number is empty, and `Matrix([])` raises
`IndexError` -/
def Vec.reshapeInt {K : Type} (v : Vec K) (numRows numCols : ℤ) : PyM (Mat K) :=
  if (v.size : ℤ) ≠ numRows * numCols then .error .valueError
  else do
    let rows ← pyMap (List.range numRows.toNat) fun (i : ℕ) =>
      pyMap (List.range numCols.toNat) fun (j : ℕ) => pyIdx v.data (i * numCols + j)
    Mat.new rows

/-- `Vector.map` (tensors.py:75-77) for a function that may raise -/
def Vec.mapM {K : Type} (v : Vec K) (f : K → PyM K) : PyM (Vec K) := do
  let l ← pyMap v.data f
  return ⟨l⟩

/-- `Matrix.map` (tensors.py:330-332) for a function that may raise -/
def Mat.mapM {K : Type} (A : Mat K) (f : K → PyM K) : PyM (Mat K) := do
  let rows ← pyMap A.data fun row => pyMap row f
  Mat.new rows

end Tve
