import Verif.Spec.Descent

/-! Specification for C111: the problems a recorded step was made from. -/

namespace Tve

/-- the deformation `y` is the answer to a mechanical problem solved without failure before the problem number `i` -/
def Sim.AnsweredBefore (s : Sim) (solver : Solver) (i : ℕ) (y : NdArray) : Prop :=
  ∃ j o, j < i ∧ s.calls[j]? = some o ∧ o.IsMech ∧ (solver (s.calls.take j) o).err = none ∧
    y.data = o.answer (solver (s.calls.take j) o)

/-- The step `b`, recorded after the step `a`, records the answers to the problems number `i` and `i + 1` posed to the solver: a
mechanical problem `p`, whose search starts at its previous deformation, and a thermal problem `q` for the same previous data and the
new deformation, both solved without failure. If failing thermal solves load nothing, the previous temperatures in both problems are
those of `a`. The previous deformation is that of `a` or the answer to an earlier mechanical problem (of a failed attempt). -/
structure Sim.RecordedFrom (s : Sim) (solver : Solver) (a b : Step) (i : ℕ) (p q : Problem) : Prop where
  mechCall : s.calls[i]? = some p
  thermCall : s.calls[i + 1]? = some q
  mech : p.IsMech
  therm : q.IsTherm
  mechOk : (solver (s.calls.take i) p).err = none
  thermOk : (solver (s.calls.take (i + 1)) q).err = none
  start : p.y = p.prevY
  prevY : q.prevY = p.prevY
  prevTheta : q.prevTheta = p.prevTheta
  newY : q.y = b.yData
  y : b.yData.data = p.answer (solver (s.calls.take i) p)
  theta : b.thetaData.data = q.answer (solver (s.calls.take (i + 1)) q)
  keeps : solver.KeepsTemperature → p.prevTheta = a.thetaData
  previous : p.prevY = a.yData ∨ s.AnsweredBefore solver i p.prevY

end Tve
