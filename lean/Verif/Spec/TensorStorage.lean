import Verif.Model.TensorStorage

/-!
# Specification: which lists a tensor consists of, and what a reader of it sees
-/

namespace Tve
namespace TS

variable {K : Type}

/-- the identity of a list, by the type of its entries -/
inductive Cell
  | nums (a : Addr)
  | rows (a : Addr)
  | mats (a : Addr)

namespace Heap

/-- the list exists -/
def Has (h : Heap K) : Cell → Prop
  | .nums a => a < h.nums.length
  | .rows a => a < h.rows.length
  | .mats a => a < h.mats.length

/-- the list has the same entries in both heaps -/
def Same (h h' : Heap K) : Cell → Prop
  | .nums a => h.nums[a]? = h'.nums[a]?
  | .rows a => h.rows[a]? = h'.rows[a]?
  | .mats a => h.mats[a]? = h'.mats[a]?

/-- all lists that exist in `h` are unchanged in `h'` -/
def Untouched (h h' : Heap K) : Prop := ∀ x, h.Has x → h.Same h' x

/-- the lists of rows of an object -/
def rowLists (h : Heap K) : Obj → List Addr
  | .vec _ => []
  | .mat A => [A.data]
  | .ten T => h.mats.getD T.data []

/-- the lists of numbers of an object, in order -/
def numLists (h : Heap K) (o : Obj) : List Addr :=
  match o with
  | .vec v => [v.data]
  | o => (h.rowLists o).flatMap fun a => h.rows.getD a []

/-- all lists an object consists of -/
def Cells (h : Heap K) (o : Obj) : Set Cell :=
  {x | (∃ a ∈ h.numLists o, x = .nums a) ∨ (∃ a ∈ h.rowLists o, x = .rows a) ∨ ∃ T, o = .ten T ∧ x = .mats T.data}

end Heap

/-- a tensor as a value -/
inductive Tensor (K : Type)
  | vec (v : Vec K)
  | mat (A : Mat K)
  | ten (T : Ten3 K)

/-- what a reader of the object sees -/
def Heap.value (h : Heap K) : Obj → Tensor K
  | .vec v => .vec ⟨h.num v.data⟩
  | .mat A => .mat ⟨h.row A.data⟩
  | .ten T => .ten ⟨h.mat T.data⟩

/-- the object `size`/`shape` attributes agree with its lists, which exist; there is a first row, and all rows have the same
length -/
def Heap.Valid (h : Heap K) (o : Obj) : Prop :=
  (∀ x ∈ h.Cells o, h.Has x) ∧
  match o with
  | .vec v => v.size = (h.num v.data).length
  | .mat A => Mat.new (h.row A.data) = .ok ⟨h.row A.data⟩ ∧ A.shape = (⟨h.row A.data⟩ : Mat K).shape
  | .ten T => Ten3.new (h.mat T.data) = .ok ⟨h.mat T.data⟩ ∧ T.shape = (⟨h.mat T.data⟩ : Ten3 K).shape

namespace Op

/-- the tensors an operation is applied to -/
def operands : Op K → List Obj
  | .vecNew _ | .matNew _ | .tenNew _ => []
  | .vecSlice v _ | .vecMap v _ | .vecReshape v _ _ | .vecTranspose v | .vecNeg v | .vecMul v _ | .vecDiv v _ => [.vec v]
  | .vecStack v w | .vecExtend v w | .vecAdd v w | .vecSub v w => [.vec v, .vec w]
  | .matTranspose A | .matFlatten A | .matMap A _ | .matNeg A | .matMul A _ | .matDiv A _ | .matInverse A => [.mat A]
  | .matStack A B | .matAdd A B | .matSub A B | .matMatmul A B => [.mat A, .mat B]
  | .matDot A v => [.mat A, .vec v]
  | .tenMap T _ | .tenNeg T => [.ten T]
  | .tenAdd T S | .tenSub T S => [.ten T, .ten S]

/-- the list passed to a constructor exists, together with the lists it consists of -/
def ArgOk (h : Heap K) : Op K → Prop
  | .vecNew a => h.Has (.nums a)
  | .matNew a => ∀ x ∈ h.Cells (.mat ⟨(0, 0), a⟩), h.Has x
  | .tenNew a => ∀ x ∈ h.Cells (.ten ⟨(0, 0, 0), a⟩), h.Has x
  | _ => True

/-- an operation a program can call: its operands are tensors -/
def Ok (h : Heap K) (op : Op K) : Prop := op.ArgOk h ∧ ∀ o ∈ op.operands, h.Valid o

/-- the operation takes over existing lists: the constructors, and the ways to put tensors together without copying -/
def Shares : Op K → Prop
  | .vecNew _ | .matNew _ | .tenNew _ | .vecStack _ _ | .vecTranspose _ | .matStack _ _ => True
  | _ => False

/-- the same operation on values -/
def onValues [Field K] [DecidableEq K] (h : Heap K) : Op K → PyM (Tensor K)
  | .vecNew a => .ok (.vec ⟨h.num a⟩)
  | .matNew a => (Mat.new (h.row a)).map .mat
  | .tenNew a => (Ten3.new (h.mat a)).map .ten
  | .vecSlice v s => ((⟨h.num v.data⟩ : Vec K).getSlice s).map .vec
  | .vecMap v f => .ok (.vec ((⟨h.num v.data⟩ : Vec K).map f))
  | .vecStack v w => ((⟨h.num v.data⟩ : Vec K).stack ⟨h.num w.data⟩).map .mat
  | .vecReshape v r c => ((⟨h.num v.data⟩ : Vec K).reshape r c).map .mat
  | .vecExtend v w => .ok (.vec ((⟨h.num v.data⟩ : Vec K).extend ⟨h.num w.data⟩))
  | .vecTranspose v => ((⟨h.num v.data⟩ : Vec K).transpose).map .mat
  | .vecNeg v => .ok (.vec (⟨h.num v.data⟩ : Vec K).neg)
  | .vecAdd v w => ((⟨h.num v.data⟩ : Vec K).add ⟨h.num w.data⟩).map .vec
  | .vecSub v w => ((⟨h.num v.data⟩ : Vec K).sub ⟨h.num w.data⟩).map .vec
  | .vecMul v s => .ok (.vec ((⟨h.num v.data⟩ : Vec K).smul s))
  | .vecDiv v d => ((⟨h.num v.data⟩ : Vec K).truediv d).map .vec
  | .matTranspose A => ((⟨h.row A.data⟩ : Mat K).transpose).map .mat
  | .matFlatten A => .ok (.vec (⟨h.row A.data⟩ : Mat K).flatten)
  | .matMap A f => ((⟨h.row A.data⟩ : Mat K).map f).map .mat
  | .matStack A B => ((⟨h.row A.data⟩ : Mat K).stack ⟨h.row B.data⟩).map .ten
  | .matNeg A => ((⟨h.row A.data⟩ : Mat K).neg).map .mat
  | .matAdd A B => ((⟨h.row A.data⟩ : Mat K).add ⟨h.row B.data⟩).map .mat
  | .matSub A B => ((⟨h.row A.data⟩ : Mat K).sub ⟨h.row B.data⟩).map .mat
  | .matMul A s => ((⟨h.row A.data⟩ : Mat K).smul s).map .mat
  | .matDiv A d => ((⟨h.row A.data⟩ : Mat K).truediv d).map .mat
  | .matMatmul A B => ((⟨h.row A.data⟩ : Mat K).matmul ⟨h.row B.data⟩).map .mat
  | .matDot A v => ((⟨h.row A.data⟩ : Mat K).dot ⟨h.num v.data⟩).map .vec
  | .matInverse A => (inverse2x2 (⟨h.row A.data⟩ : Mat K)).map .mat
  | .tenMap T f => ((⟨h.mat T.data⟩ : Ten3 K).map f).map .ten
  | .tenNeg T => ((⟨h.mat T.data⟩ : Ten3 K).neg).map .ten
  | .tenAdd T S => ((⟨h.mat T.data⟩ : Ten3 K).add ⟨h.mat S.data⟩).map .ten
  | .tenSub T S => ((⟨h.mat T.data⟩ : Ten3 K).sub ⟨h.mat S.data⟩).map .ten

end Op

/-- what can happen in a program after the heap was `h`: operations on tensors, new lists, and changes in place of those lists
that satisfy `P` -/
inductive History [Field K] [DecidableEq K] (P : Cell → Prop) (h : Heap K) : Heap K → Prop
  | start : History P h h
  | call {h'} (op : Op K) : History P h h' → History P h (op.run h').2
  | newNums {h'} (l : List K) : History P h h' → History P h (TS.newNums l h').2
  | newRows {h'} (l : List Addr) : History P h h' → History P h (TS.newRows l h').2
  | newMats {h'} (l : List Addr) : History P h h' → History P h (TS.newMats l h').2
  | writeNums {h'} (a : Addr) (l : List K) : P (.nums a) → History P h h' → History P h (TS.writeNums a l h')
  | writeRows {h'} (a : Addr) (l : List Addr) : P (.rows a) → History P h h' → History P h (TS.writeRows a l h')
  | writeMats {h'} (a : Addr) (l : List Addr) : P (.mats a) → History P h h' → History P h (TS.writeMats a l h')

end TS
end Tve
