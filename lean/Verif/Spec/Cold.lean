import Verif.Spec.Simulation

/-!
# Specification vocabulary: bodies whose rows or columns can slide
-/

namespace Tve

/-- the rows of the body can slide (only the lower and the upper side may be fixed, and there are at least two rows of cells), or
the columns can; with regularization nothing is fixed -/
def CanSlide (domain : RectDomain ℝ) (params : SimParams) : Prop :=
  (params.regularization = none →
    ((∀ f ∈ domain.fix.options, f ≠ .left ∧ f ≠ .right) ∧ 2 * params.scale ≤ domain.height) ∨
    ((∀ f ∈ domain.fix.options, f ≠ .lower ∧ f ≠ .upper) ∧ 2 * params.scale ≤ domain.width)) ∧
  (params.regularization ≠ none → domain.fix.options = [])

end Tve
