import Verif.Lemmas.SimHistory

/-!
# Helper lemmas: largest temperature and axis limits
-/

namespace Tve
open Sim

theorem npMax_greatest {l : List ℝ} {M : ℝ} (h : NdArray.npMax l = .ok M) : IsGreatest {x | x ∈ l} M := by
  cases l with
  | nil => cases h
  | cons a l =>
    cases h
    have key : ∀ (l : List ℝ) (a : ℝ), (l.foldl Max.max a = a ∨ l.foldl Max.max a ∈ l) ∧ a ≤ l.foldl Max.max a ∧
        ∀ x ∈ l, x ≤ l.foldl Max.max a := by
      intro l
      induction l with
      | nil => intro a; simp
      | cons b l ih =>
        intro a
        obtain ⟨h1, h2, h3⟩ := ih (Max.max a b)
        rw [List.foldl_cons]
        refine ⟨?_, (le_max_left _ _).trans h2, ?_⟩
        · rcases h1 with h1 | h1
          · rw [h1]
            rcases max_choice a b with h | h
            · left; exact h
            · right; rw [h]; simp
          · right; simp [h1]
        · intro x hx
          rcases List.mem_cons.1 hx with rfl | hx
          · exact (le_max_right _ _).trans h2
          · exact h3 x hx
    obtain ⟨h1, h2, h3⟩ := key l a
    refine ⟨?_, fun x hx => ?_⟩
    · rcases h1 with h1 | h1
      · simp [h1]
      · simp [h1]
    · rcases List.mem_cons.1 hx with rfl | hx
      · exact h2
      · exact h3 x hx

theorem npMin_least {l : List ℝ} {M : ℝ} (h : NdArray.npMin l = .ok M) : IsLeast {x | x ∈ l} M := by
  cases l with
  | nil => cases h
  | cons a l =>
    cases h
    have key : ∀ (l : List ℝ) (a : ℝ), (l.foldl Min.min a = a ∨ l.foldl Min.min a ∈ l) ∧ l.foldl Min.min a ≤ a ∧
        ∀ x ∈ l, l.foldl Min.min a ≤ x := by
      intro l
      induction l with
      | nil => intro a; simp
      | cons b l ih =>
        intro a
        obtain ⟨h1, h2, h3⟩ := ih (Min.min a b)
        rw [List.foldl_cons]
        refine ⟨?_, h2.trans (min_le_left _ _), ?_⟩
        · rcases h1 with h1 | h1
          · rw [h1]
            rcases min_choice a b with h | h
            · left; exact h
            · right; rw [h]; simp
          · right; simp [h1]
        · intro x hx
          rcases List.mem_cons.1 hx with rfl | hx
          · exact h2.trans (min_le_right _ _)
          · exact h3 x hx
    obtain ⟨h1, h2, h3⟩ := key l a
    refine ⟨?_, fun x hx => ?_⟩
    · rcases h1 with h1 | h1
      · simp [h1]
      · simp [h1]
    · rcases List.mem_cons.1 hx with rfl | hx
      · exact h2
      · exact h3 x hx

theorem updateLims_first {l : List ℝ} {lims : WithTop ℝ × WithBot ℝ} (h : updateLims (⊤, ⊥) l = .ok lims) :
    IsRange lims {x | x ∈ l} := by
  unfold updateLims at h
  obtain ⟨lo, hlo, h⟩ := bind_eq_ok.1 h
  obtain ⟨hi, hhi, h⟩ := bind_eq_ok.1 h
  cases h
  exact ⟨lo, hi, by simp, npMin_least hlo, npMax_greatest hhi⟩

theorem updateLims_next {l : List ℝ} {lims lims' : WithTop ℝ × WithBot ℝ} {S : Set ℝ} (hS : IsRange lims S)
    (h : updateLims lims l = .ok lims') : IsRange lims' (S ∪ {x | x ∈ l}) := by
  obtain ⟨a, b, rfl, ha, hb⟩ := hS
  unfold updateLims at h
  obtain ⟨lo, hlo, h⟩ := bind_eq_ok.1 h
  obtain ⟨hi, hhi, h⟩ := bind_eq_ok.1 h
  cases h
  exact ⟨Min.min a lo, Max.max b hi, by simp, ha.union (npMin_least hlo), hb.union (npMax_greatest hhi)⟩

/-- all entries of component `j` of the recorded deformations -/
def Sim.entries (s : Sim) (j : ℕ) : Set ℝ := {x | ∃ st ∈ s.steps, ∃ l, st.yData.slice j = .ok l ∧ x ∈ l}

/-- all recorded temperatures -/
def Sim.temps (s : Sim) : Set ℝ := {x | ∃ st ∈ s.steps, x ∈ st.thetaData.data}

theorem Sim.entries_append {s s' : Sim} {j : ℕ} {st : Step} {l : List ℝ} (h : s'.steps = s.steps ++ [st])
    (hl : st.yData.slice j = .ok l) : s'.entries j = s.entries j ∪ {x | x ∈ l} := by
  ext x
  simp only [Sim.entries, h, List.mem_append, List.mem_singleton, Set.mem_setOf_eq, Set.mem_union]
  constructor
  · rintro ⟨st', h1 | rfl, l', h2, h3⟩
    · exact Or.inl ⟨st', h1, l', h2, h3⟩
    · rw [hl] at h2; cases h2; exact Or.inr h3
  · rintro (⟨st', h1, l', h2, h3⟩ | h)
    · exact ⟨st', Or.inl h1, l', h2, h3⟩
    · exact ⟨st, Or.inr rfl, l, hl, h⟩

theorem Sim.temps_append {s s' : Sim} {st : Step} (h : s'.steps = s.steps ++ [st]) :
    s'.temps = s.temps ∪ {x | x ∈ st.thetaData.data} := by
  ext x
  simp only [Sim.temps, h, List.mem_append, List.mem_singleton, Set.mem_setOf_eq, Set.mem_union]
  constructor
  · rintro ⟨st', h1 | rfl, h2⟩
    · exact Or.inl ⟨st', h1, h2⟩
    · exact Or.inr h2
  · rintro (⟨st', h1, h2⟩ | h)
    · exact ⟨st', Or.inl h1, h2⟩
    · exact ⟨st, Or.inr rfl, h⟩

section
variable {solver : Solver} {domain : RectDomain ℝ} {params : SimParams} {ext : ExtTemp} {traction : Traction} {s : Sim}

theorem Sim.Reachable.ranges (hs : s.Reachable solver domain params ext traction) :
    IsGreatest ({0} ∪ s.temps) s.maxTemp ∧ IsRange s.record.xlims (s.entries 0) ∧ IsRange s.record.ylims (s.entries 1) := by
  refine hs.induct (fun s => IsGreatest ({0} ∪ s.temps) s.maxTemp ∧ IsRange s.record.xlims (s.entries 0) ∧
    IsRange s.record.ylims (s.entries 1)) ?_ ?_
  · intro it s S h
    obtain ⟨m, t, step0, step1, r1, r2, w, c⟩ := Sim.of_new S h
    have hr : s.record = r2 := by rw [c.eq]
    have hst : s.steps = [step0] ++ [step1] := by rw [Sim.steps, hr, c.steps]; rfl
    obtain ⟨M1, hM1, m1⟩ := c.maxTemp1
    obtain ⟨M2, hM2, m2⟩ := c.maxTemp2
    obtain ⟨x1, hx1, hxl1⟩ := c.xlims1
    obtain ⟨x2, hx2, hxl2⟩ := c.xlims2
    obtain ⟨y1, hy1, hyl1⟩ := c.ylims1
    obtain ⟨y2, hy2, hyl2⟩ := c.ylims2
    have ent : ∀ j l1 l2, step0.yData.slice j = .ok l1 → step1.yData.slice j = .ok l2 →
        s.entries j = {x | x ∈ l1} ∪ {x | x ∈ l2} := by
      intro j l1 l2 h1 h2
      ext x
      simp [Sim.entries, hst, h1, h2]
    have tmp : s.temps = {x | x ∈ step0.thetaData.data} ∪ {x | x ∈ step1.thetaData.data} := by
      ext x
      simp [Sim.temps, hst]
    refine ⟨?_, ?_, ?_⟩
    · rw [Sim.maxTemp, hr, m2, m1, tmp, ← Set.union_assoc]
      exact (isGreatest_singleton.union (npMax_greatest hM1)).union (npMax_greatest hM2)
    · rw [ent 0 x1 x2 hx1 hx2, hr]; exact updateLims_next (updateLims_first hxl1) hxl2
    · rw [ent 1 y1 y2 hy1 hy2, hr]; exact updateLims_next (updateLims_first hyl1) hyl2
  · rintro s m0 t0 c ⟨h1, h2, h3⟩
    rcases runSingle_any solver c.wf with ⟨m, t, step, r, s', e1, w, h⟩ | ⟨e, s', e1, w, h⟩
    · have hr : s'.record = r := by rw [h.eq]
      have hst : s'.steps = s.steps ++ [step] := by rw [Sim.steps, hr, h.steps]; rfl
      obtain ⟨M, hM, m1⟩ := h.maxTemp
      obtain ⟨xs, hx, hxl⟩ := h.xlims
      obtain ⟨ys, hy, hyl⟩ := h.ylims
      simp only [e1]
      refine ⟨?_, ?_, ?_⟩
      · rw [Sim.temps_append hst, Sim.maxTemp, hr, m1, ← Set.union_assoc]
        exact h1.union (npMax_greatest hM)
      · rw [Sim.entries_append hst hx, hr]; exact updateLims_next h2 hxl
      · rw [Sim.entries_append hst hy, hr]; exact updateLims_next h3 hyl
    · have hst : s'.steps = s.steps := by rw [Sim.steps, h.record]; rfl
      simp only [e1, Sim.maxTemp, h.record, Sim.temps, Sim.entries, hst]
      exact ⟨h1, h2, h3⟩

/-- the entries of a deformation array of a simulation: positions, and with regularization derivatives as well -/
theorem slice_mem {g : Grid ℝ} {refined : Option (RefinedGrid ℝ)} {ys ts : List ℕ}
    (Sh : SimShape domain params g refined ys ts) {y : NdArray} (hy : y.Has ys) :
    (params.regularization = none →
      (∀ l, y.slice 0 = .ok l → ∀ x, x ∈ l ↔ ∃ v ∈ g.vertices, x = (y.deformed v).1) ∧
      (∀ l, y.slice 1 = .ok l → ∀ x, x ∈ l ↔ ∃ v ∈ g.vertices, x = (y.deformed v).2)) ∧
    (params.regularization ≠ none →
      (∀ l, y.slice 0 = .ok l → ∀ x, x ∈ l ↔ ∃ v ∈ g.vertices, ∃ k < 6, x = y.at3 2 6 v 0 k) ∧
      (∀ l, y.slice 1 = .ok l → ∀ x, x ∈ l ↔ ∃ v ∈ g.vertices, ∃ k < 6, x = y.at3 2 6 v 1 k)) := by
  unfold SimShape at Sh
  split at Sh
  · rename_i hreg
    obtain ⟨n, U, rfl, rfl⟩ := Sh
    refine ⟨fun _ => ?_, fun h => absurd hreg h⟩
    constructor
    all_goals
      intro l hl x
      rw [NdArray.slice, hy.1] at hl
      simp only [NdArray.col_eq hy (show 0 < 2 by norm_num), NdArray.col_eq hy (show 1 < 2 by norm_num)] at hl
      cases hl
      simp only [List.mem_map, List.mem_range, U.vertices, NdArray.deformed, hy.1]
      constructor
      · rintro ⟨i, h1, h2⟩; exact ⟨i, h1, h2.symm⟩
      · rintro ⟨i, h1, h2⟩; exact ⟨i, h1, h2.symm⟩
  · rename_i reg hreg
    obtain ⟨n, k, r, p, U, rfl, F, hp, rfl, rfl⟩ := Sh
    refine ⟨fun h => (by rw [hreg] at h; cases h), fun _ => ?_⟩
    constructor
    all_goals
      intro l hl x
      rw [NdArray.slice, hy.1] at hl
      simp only [NdArray.block_eq hy (show 0 < 2 by norm_num), NdArray.block_eq hy (show 1 < 2 by norm_num), bind_ok] at hl
      cases hl
      simp only [List.mem_flatten, List.mem_map, List.mem_range, U.vertices]
      constructor
      · rintro ⟨_, ⟨i, h1, rfl⟩, h2⟩
        simp only [List.mem_map, List.mem_range] at h2
        obtain ⟨k, h3, h4⟩ := h2
        exact ⟨i, h1, k, h3, h4.symm⟩
      · rintro ⟨i, h1, k, h3, h4⟩
        exact ⟨_, ⟨i, h1, rfl⟩, by simp only [List.mem_map, List.mem_range]; exact ⟨k, h3, h4.symm⟩⟩

end

end Tve
