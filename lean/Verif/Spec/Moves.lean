import Verif.Spec.Steps

/-! Specification for C116: how many mechanical problems have been posed between two points of the history of a simulation. -/

namespace Tve

open Classical in
/-- the number of mechanical problems among the problems number `i`, …, `j - 1` posed to the solver -/
noncomputable def Sim.mechanicalBetween (s : Sim) (i j : ℕ) : ℕ := ((s.calls.take j).drop i).countP fun p => decide p.IsMech

/-- corresponding entries of two arrays differ by at most `r` -/
def NdArray.Within (r : ℝ) (a b : NdArray) : Prop := List.Forall₂ (fun x z => |z - x| ≤ r) a.data b.data

/-- `pos k` is the number of problems posed to the solver when step `k` was recorded: none for the initial state; the steps recorded
later are made from the last two problems posed before, a mechanical and a thermal one -/
structure Sim.RecordedAt (s : Sim) (solver : Solver) (pos : ℕ → ℕ) : Prop where
  initial : pos 0 = 0
  le : ∀ k < s.steps.length, pos k ≤ s.calls.length
  later : ∀ (k : ℕ) (b : Step), s.steps[k + 1]? = some b → ∃ i p q, pos (k + 1) = i + 2 ∧ pos k ≤ i ∧ s.calls[i]? = some p ∧
    s.calls[i + 1]? = some q ∧ p.IsMech ∧ q.IsTherm ∧ b.yData.data = p.answer (solver (s.calls.take i) p) ∧
    b.thetaData.data = q.answer (solver (s.calls.take (i + 1)) q)

end Tve
