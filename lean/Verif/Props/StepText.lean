import Verif.Model.StepText
import Verif.Props.Usable

/-!
# C77: printed steps
-/

namespace Tve

/-- a prefix without the letter `c` is determined by a text in which `c` follows -/
theorem split_at {a b u v x y : List Char} {c : Char} (ha : c ∉ a) (hb : c ∉ b) (hu : c ∉ u)
    (h : a ++ (u ++ c :: x) = b ++ (u ++ c :: y)) : a = b ∧ x = y := by
  have key : ∀ {a b x y : List Char}, c ∉ a → c ∉ b → a ++ c :: x = b ++ c :: y → a = b ∧ x = y := by
    intro a
    induction a with
    | nil =>
      intro b x y _ hb h
      cases b with
      | nil => simpa using h
      | cons d b =>
        simp only [List.nil_append, List.cons_append, List.cons.injEq] at h
        exact absurd (by simp [h.1]) hb
    | cons d a ih =>
      intro b x y ha hb h
      cases b with
      | nil =>
        simp only [List.nil_append, List.cons_append, List.cons.injEq] at h
        exact absurd (by simp [h.1]) ha
      | cons d' b =>
        simp only [List.cons_append, List.cons.injEq] at h
        obtain ⟨h1, h2⟩ := ih (by simp_all) (by simp_all) h.2
        exact ⟨by rw [h.1, h1], h2⟩
  obtain ⟨h1, h2⟩ := key (a := a ++ u) (b := b ++ u) (by simp [ha, hu]) (by simp [hb, hu]) (by simpa using h)
  exact ⟨List.append_cancel_right h1, h2⟩

/-- **C77** (steps). If the texts of arrays do not contain the letter t (numpy prints nonempty arrays of floats as
`array([[0.1, 0.2], …])`), two recorded steps have the same `repr` exactly if the texts of their deformations and of their
temperatures agree. -/
theorem C77_step_repr {r : NdArray → String} (hr : ∀ a, 't' ∉ (r a).toList) (s s' : Step) :
    s.reprPy r = s'.reprPy r ↔ r s.yData = r s'.yData ∧ r s.thetaData = r s'.thetaData := by
  constructor
  · intro h
    have h := congrArg String.toList h
    simp only [Step.reprPy, String.toList_append, List.append_assoc, List.append_cancel_left_eq] at h
    obtain ⟨h1, h2⟩ := split_at (u := [',', ' ']) (v := []) (c := 't') (hr _) (hr _) (by decide) h
    refine ⟨String.toList_inj.1 h1, String.toList_inj.1 ?_⟩
    exact List.append_cancel_right (List.append_cancel_left (as := "heta=".toList) h2)
  · rintro ⟨h1, h2⟩
    rw [Step.reprPy, Step.reprPy, h1, h2]

/-- **C77** (steps). The same for `str`. -/
theorem C77_step_str {r : NdArray → String} (hr : ∀ a, 't' ∉ (r a).toList) (s s' : Step) :
    s.strPy r = s'.strPy r ↔ r s.yData = r s'.yData ∧ r s.thetaData = r s'.thetaData := by
  constructor
  · intro h
    have h := congrArg String.toList h
    simp only [Step.strPy, String.toList_append, List.append_assoc, List.append_cancel_left_eq] at h
    obtain ⟨h1, h2⟩ := split_at (u := ['\n']) (v := []) (c := 't') (hr _) (hr _) (by decide) h
    exact ⟨String.toList_inj.1 h1, String.toList_inj.1 (List.append_cancel_left (as := "heta:\n".toList) h2)⟩
  · rintro ⟨h1, h2⟩
    rw [Step.strPy, Step.strPy, h1, h2]

/-- a printer of arrays as in the hypothesis of C77: one letter per entry -/
example (s : Step) (h : s.yData.data ≠ []) :
    ∃ r : NdArray → String, (∀ a, 't' ∉ (r a).toList) ∧ r ⟨[2], [0, 1]⟩ = "xx" ∧
      s.reprPy r ≠ { s with yData := ⟨[0], []⟩ }.reprPy r := by
  have hr : ∀ a : NdArray, 't' ∉ (String.ofList (a.data.map fun _ => 'x')).toList := fun a => by simp
  refine ⟨fun a => String.ofList (a.data.map fun _ => 'x'), hr, rfl, fun e => ?_⟩
  have := ((C77_step_repr hr _ _).1 e).1
  have := congrArg (fun t : String => t.toList.length) this
  simp at this
  exact h this

end Tve
