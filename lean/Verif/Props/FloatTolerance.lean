import Verif.Props.FloatRefine
import Verif.Props.GridQuery

/-!
# C79: the tolerance of `refine` in double precision
-/

namespace Tve
open F64

theorem pyFor_raises {α σ : Type} {l : List α} {s : σ} {f : σ → α → PyM σ} {a : α} (ha : a ∈ l)
    (h : ∀ s, ∃ e, f s a = .error e) : ∃ e, pyFor l s f = .error e := by
  induction l generalizing s with
  | nil => simp at ha
  | cons b l ih =>
    rw [pyFor]
    rcases List.mem_cons.1 ha with rfl | ha
    · obtain ⟨e, he⟩ := h s
      exact ⟨e, by rw [he]; rfl⟩
    · cases hb : f s b with
      | error e => exact ⟨e, rfl⟩
      | ok s' => exact ih ha

/-- In double precision `refine` raises exactly like in exact arithmetic (`C79_tolerance`): whenever in some triangle the heights
of the first two corners, or the first coordinates of the last two, differ by `1e-15` or more. -/
theorem C79_tolerance_doubles {g : Grid ℚ} {t : Tri} (ht : t ∈ g.triangles) {p q r : ℚ × ℚ}
    (hp : g.points[t.1]? = some ⟨[p.1, p.2]⟩) (hq : g.points[t.2.1]? = some ⟨[q.1, q.2]⟩)
    (hr : g.points[t.2.2]? = some ⟨[r.1, r.2]⟩)
    (h : fl (1 / 10 ^ 15) ≤ |fl (p.2 - q.2)| ∨ fl (1 / 10 ^ 15) ≤ |fl (q.1 - r.1)|) (n : ℤ) :
    ∃ e, F64.refine g n = .error e := by
  rw [F64.refine]
  split_ifs with hn
  · exact ⟨_, rfl⟩
  · cases hg : gridNew g.vertices [] [] ⟨g.boundary.vertices, []⟩ ⟨g.dirichlet.vertices, []⟩ ⟨g.neumann.vertices, []⟩
      g.points with
    | error e => exact ⟨e, rfl⟩
    | ok ig =>
      obtain ⟨e, he⟩ := pyFor_raises (s := (⟨ig, PyDict.empty, PyDict.empty, PyDict.empty, PyDict.empty⟩ : RefState ℚ))
        (f := F64.refineTriangle g n.toNat) ht (fun s => by
          refine ⟨.assertion, ?_⟩
          rw [F64.refineTriangle, (C18_triangle_vertices g t).2 _ _ _ ht hp hq hr, bind_ok]
          have h1 : (⟨[p.1, p.2]⟩ : Vec ℚ).getItem 1 = .ok p.2 := rfl
          have h2 : (⟨[q.1, q.2]⟩ : Vec ℚ).getItem 1 = .ok q.2 := rfl
          have h3 : (⟨[q.1, q.2]⟩ : Vec ℚ).getItem 0 = .ok q.1 := rfl
          have h4 : (⟨[r.1, r.2]⟩ : Vec ℚ).getItem 0 = .ok r.1 := rfl
          simp only [h1, h2, h3, h4, bind_ok]
          by_cases c : F64.tiny (fl (p.2 - q.2)) = true
          · rw [c]
            rcases h with h | h
            · rw [F64.tiny, decide_eq_true_eq] at c
              exact absurd h (not_le.2 c)
            · have : F64.tiny (fl (q.1 - r.1)) = false := by
                rw [F64.tiny, decide_eq_false_iff_not]; exact not_lt.2 h
              simp [this]
          · rw [Bool.not_eq_true] at c
            simp [c])
      exact ⟨e, by rw [bind_ok, he]; rfl⟩

/-- some triangle of the grid is not aligned up to `1e-15` -/
def misaligned (g : Grid ℚ) : Bool := g.triangles.any fun t =>
  match g.points[t.1]?, g.points[t.2.1]?, g.points[t.2.2]? with
  | some ⟨[_, p2]⟩, some ⟨[q1, q2]⟩, some ⟨[r1, _]⟩ =>
    decide (fl (1 / 10 ^ 15) ≤ |fl (p2 - q2)|) || decide (fl (1 / 10 ^ 15) ≤ |fl (q1 - r1)|)
  | _, _, _ => false

theorem misaligned_raises {g : Grid ℚ} (h : misaligned g = true) (n : ℤ) : ∃ e, F64.refine g n = .error e := by
  obtain ⟨t, ht, h⟩ := List.any_eq_true.1 h
  split at h
  · rename_i p1 p2 q1 q2 r1 r2 e1 e2 e3
    refine C79_tolerance_doubles ht (p := (p1, p2)) (q := (q1, q2)) (r := (r1, r2)) e1 e2 e3 ?_ n
    simpa using h
  · simp at h

/-- `RectangleDomain(10, 10, fix="lower").grid(10)` in double precision can be refined by 3, and the result is not aligned. -/
def badExample : Bool :=
  match F64.grid .insertion ⟨10, 10, .one .lower⟩ 10 with
  | .ok g => match F64.refine g 3 with
    | .ok r => misaligned r.toGrid
    | .error _ => false
  | .error _ => false

theorem badExample_true : badExample = true := by decide +kernel

/-- **Negation of C79 for the whole program**: in double precision `RectangleDomain(10, 10, fix="lower").grid(10)` can be refined
by 3, but the refined grid cannot be refined again by any factor.  Regularized simulations refine the refined grid for their plots
(`simulation.py:157`). -/
theorem C79_program_second_refinement_false : ∃ g r, F64.grid .insertion ⟨10, 10, .one .lower⟩ 10 = .ok g ∧ F64.refine g 3 = .ok r ∧
    ∀ m, ∃ e, F64.refine r.toGrid m = .error e := by
  have h := badExample_true
  rw [badExample] at h
  cases hg : F64.grid .insertion ⟨10, 10, .one .lower⟩ 10 with
  | error e => rw [hg] at h; simp at h
  | ok g =>
    rw [hg] at h
    cases hr : F64.refine g 3 with
    | error e => simp only [hr] at h; simp at h
    | ok r =>
      simp only [hr] at h
      exact ⟨g, r, rfl, hr, fun m => misaligned_raises h m⟩

end Tve
