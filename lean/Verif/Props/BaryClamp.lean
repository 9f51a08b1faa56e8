import Verif.Props.Tensors

/-!
# C08 (continued): exactly when clamping keeps the sum of barycentric coordinates
-/

namespace Tve

/-- Clamping barycentric coordinates to `[0, 1]` never makes the sum smaller than `1` and at most `2`, and the sum stays `1` exactly
when no coordinate is negative or at most one is positive. -/
theorem C08_sum_kept_iff {K : Type} [Field K] [LinearOrder K] [IsStrictOrderedRing K] (l1 l2 : K) :
    1 ≤ ((Bary.new l1 l2).assertBounds 0 1).l1 + ((Bary.new l1 l2).assertBounds 0 1).l2 + ((Bary.new l1 l2).assertBounds 0 1).l3 ∧
    ((Bary.new l1 l2).assertBounds 0 1).l1 + ((Bary.new l1 l2).assertBounds 0 1).l2 + ((Bary.new l1 l2).assertBounds 0 1).l3 ≤ 2 ∧
    (((Bary.new l1 l2).assertBounds 0 1).l1 + ((Bary.new l1 l2).assertBounds 0 1).l2 + ((Bary.new l1 l2).assertBounds 0 1).l3 = 1 ↔
      (0 ≤ (Bary.new l1 l2).l1 ∧ 0 ≤ (Bary.new l1 l2).l2 ∧ 0 ≤ (Bary.new l1 l2).l3) ∨
      ((Bary.new l1 l2).l1 ≤ 0 ∧ (Bary.new l1 l2).l2 ≤ 0) ∨ ((Bary.new l1 l2).l1 ≤ 0 ∧ (Bary.new l1 l2).l3 ≤ 0) ∨
      ((Bary.new l1 l2).l2 ≤ 0 ∧ (Bary.new l1 l2).l3 ≤ 0)) := by
  have hs := C08_sum l1 l2
  generalize Bary.new l1 l2 = b at hs
  obtain ⟨x, y, z⟩ := b
  simp only at hs
  have c : ∀ t : K, (t ≤ 0 ∧ Bary.clamp 0 1 t = 0) ∨ (0 < t ∧ t ≤ 1 ∧ Bary.clamp 0 1 t = t) ∨ (1 < t ∧ Bary.clamp 0 1 t = 1) := by
    intro t
    rw [Bary.clamp]
    rcases le_or_gt t 0 with h | h
    · refine .inl ⟨h, ?_⟩
      rcases h.lt_or_eq with h | rfl
      · rw [if_pos h]
      · simp
    · refine .inr ?_
      rcases le_or_gt t 1 with h1 | h1
      · exact .inl ⟨h, h1, by rw [if_neg (not_lt.2 h.le), if_neg (not_lt.2 h1)]⟩
      · exact .inr ⟨h1, by rw [if_neg (not_lt.2 h.le), if_pos h1]⟩
  simp only [Bary.assertBounds]
  rcases c x with ⟨x1, ex⟩ | ⟨x1, x2, ex⟩ | ⟨x1, ex⟩ <;> rcases c y with ⟨y1, ey⟩ | ⟨y1, y2, ey⟩ | ⟨y1, ey⟩ <;>
    rcases c z with ⟨z1, ez⟩ | ⟨z1, z2, ez⟩ | ⟨z1, ez⟩ <;> rw [ex, ey, ez] <;>
    refine ⟨by linarith, by linarith, ⟨fun h => ?_, ?_⟩⟩ <;>
    first
      | exact .inl ⟨by linarith, by linarith, by linarith⟩
      | exact .inr (.inl ⟨by linarith, by linarith⟩)
      | exact .inr (.inr (.inl ⟨by linarith, by linarith⟩))
      | exact .inr (.inr (.inr ⟨by linarith, by linarith⟩))
      | (rintro (⟨a1, a2, a3⟩ | ⟨a1, a2⟩ | ⟨a1, a2⟩ | ⟨a1, a2⟩) <;> linarith)

/-- `BarycentricCoordinates(1.5, -0.5)` keeps the sum, `BarycentricCoordinates(-0.5, 0.5)` does not -/
example : ((Bary.new (3 / 2) (-1 / 2) : Bary ℚ).assertBounds 0 1) = ⟨1, 0, 0⟩ ∧
    ((Bary.new (-1 / 2) (1 / 2) : Bary ℚ).assertBounds 0 1) = ⟨0, 1 / 2, 1⟩ := by
  constructor <;> norm_num [Bary.new, Bary.assertBounds, Bary.clamp]

end Tve
