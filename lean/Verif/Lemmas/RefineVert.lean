import Verif.Lemmas.GridLocate
import Verif.Lemmas.GridFix
import Verif.Model.Refine

/-! The vertex loop of the refinement of one triangle. -/

namespace Tve

/-! ### growing sets -/

section
variable {α : Type} [DecidableEq α]

theorem pySetUpdate_nil (s : List α) : pySetUpdate s [] = s := rfl

theorem pySetUpdate_cons (s : List α) (a : α) (l : List α) :
    pySetUpdate s (a :: l) = pySetUpdate (if a ∈ s then s else s ++ [a]) l := rfl

theorem pySetUpdate_append (s l l' : List α) : pySetUpdate s (l ++ l') = pySetUpdate (pySetUpdate s l) l' := by
  unfold pySetUpdate; rw [List.foldl_append]

theorem prefix_pySetUpdate (s l : List α) : s <+: pySetUpdate s l := by
  induction l generalizing s with
  | nil => exact List.prefix_rfl
  | cons a t ih =>
    rw [pySetUpdate_cons]
    refine List.IsPrefix.trans ?_ (ih _)
    split
    · exact List.prefix_rfl
    · exact List.prefix_append _ _

theorem pySetUpdate_of_subset {s l : List α} (h : ∀ a ∈ l, a ∈ s) : pySetUpdate s l = s := by
  induction l with
  | nil => rfl
  | cons a t ih =>
    rw [pySetUpdate_cons, if_pos (h a (by simp))]
    exact ih fun b hb => h b (by simp [hb])

end

/-! ### labels do not change when the list of points grows -/

theorem lab_prefix {P Q : List LP} (h : P <+: Q) {a : LP} (ha : a ∈ P) : lab Q a = lab P a := by
  obtain ⟨R, rfl⟩ := h
  exact List.idxOf_append_of_mem ha

theorem labE_prefix {P Q : List LP} (h : P <+: Q) {e : LP × LP} (he : e.1 ∈ P ∧ e.2 ∈ P) : labE Q e = labE P e := by
  simp only [labE, lab_prefix h he.1, lab_prefix h he.2]

theorem labT_prefix {P Q : List LP} (h : P <+: Q) {t : LP × LP × LP} (ht : t.1 ∈ P ∧ t.2.1 ∈ P ∧ t.2.2 ∈ P) :
    labT Q t = labT P t := by
  simp only [labT, lab_prefix h ht.1, lab_prefix h ht.2.1, lab_prefix h ht.2.2]

theorem map_lab_prefix {P Q : List LP} (h : P <+: Q) {l : List LP} (hl : ∀ a ∈ l, a ∈ P) :
    l.map (lab Q) = l.map (lab P) := List.map_congr_left fun a ha => lab_prefix h (hl a ha)

theorem map_labE_prefix {P Q : List LP} (h : P <+: Q) {l : List (LP × LP)} (hl : ∀ a ∈ l, a.1 ∈ P ∧ a.2 ∈ P) :
    l.map (labE Q) = l.map (labE P) := List.map_congr_left fun a ha => labE_prefix h (hl a ha)

theorem map_labT_prefix {P Q : List LP} (h : P <+: Q) {l : List (LP × LP × LP)}
    (hl : ∀ t ∈ l, t.1 ∈ P ∧ t.2.1 ∈ P ∧ t.2.2 ∈ P) :
    l.map (labT Q) = l.map (labT P) := List.map_congr_left fun a ha => labT_prefix h (hl a ha)

/-- labels of scaled points -/
def scaleP (n : ℕ) (a : LP) : LP := (n * a.1, n * a.2)

theorem scaleP_inj {n : ℕ} (hn : 1 ≤ n) {a b : LP} (h : scaleP n a = scaleP n b) : a = b := by
  simp only [scaleP, Prod.mk.injEq] at h
  exact Prod.ext (Nat.eq_of_mul_eq_mul_left (by omega) h.1) (Nat.eq_of_mul_eq_mul_left (by omega) h.2)

theorem lab_map {P : List LP} {f : LP → LP} (hf : Function.Injective f) (a : LP) : lab (P.map f) (f a) = lab P a := by
  unfold lab List.idxOf
  rw [List.findIdx_map]
  congr 1
  funext b
  simp only [Function.comp, beq_eq_decide, decide_eq_decide]
  exact hf.eq_iff

theorem lab_scale {P Q : List LP} {n : ℕ} (hn : 1 ≤ n) (h : P.map (scaleP n) <+: Q) {a : LP} (ha : a ∈ P) :
    lab Q (scaleP n a) = lab P a := by
  rw [lab_prefix h (List.mem_map_of_mem ha), lab_map (fun a b h => scaleP_inj hn h)]

/-! ### the subdivision points of a lattice triangle -/

/-- the point with index `(k, l)` of the `n`-fold subdivision of a lattice triangle -/
def mp (n : ℕ) (t : LP × LP × LP) (kl : ℕ × ℕ) : LP :=
  ((n - kl.1 - kl.2) * t.1.1 + kl.1 * t.2.1.1 + kl.2 * t.2.2.1,
    (n - kl.1 - kl.2) * t.1.2 + kl.1 * t.2.1.2 + kl.2 * t.2.2.2)

theorem mp_corner1 (n : ℕ) (t : LP × LP × LP) : mp n t (0, 0) = scaleP n t.1 := by simp [mp, scaleP]
theorem mp_corner2 (n : ℕ) (t : LP × LP × LP) : mp n t (n, 0) = scaleP n t.2.1 := by simp [mp, scaleP]
theorem mp_corner3 (n : ℕ) (t : LP × LP × LP) : mp n t (0, n) = scaleP n t.2.2 := by simp [mp, scaleP]

theorem pos_mp {n : ℕ} (hn : 1 ≤ n) {h : ℝ} (t : LP × LP × LP) {kl : ℕ × ℕ} (hkl : kl.1 + kl.2 ≤ n) :
    pos (h / n) (mp n t kl) = baryPoint (pos h t.1) (pos h t.2.1) (pos h t.2.2)
      (1 - kl.1 / n - kl.2 / n) (kl.1 / n) (kl.2 / n) := by
  have hn0 : (n : ℝ) ≠ 0 := by positivity
  have hc : ((n - kl.1 - kl.2 : ℕ) : ℝ) = n - kl.1 - kl.2 := by
    rw [Nat.cast_sub (by omega), Nat.cast_sub (by omega)]
  ext
  · simp only [pos, mp, baryPoint, Prod.fst_add, Prod.smul_fst, smul_eq_mul]
    push_cast
    rw [hc]; field_simp
  · simp only [pos, mp, baryPoint, Prod.snd_add, Prod.smul_snd, smul_eq_mul]
    push_cast
    rw [hc]; field_simp

theorem vec2_smul (p : ℝ × ℝ) (c : ℝ) : (vec2 p).smul c = vec2 (c • p) := by
  simp [Vec.smul, vec2, mul_comm]

theorem vec2_add (p q : ℝ × ℝ) : (vec2 p).add (vec2 q) = .ok (vec2 (p + q)) := by
  simp [Vec.add, vec2, Vec.size]

theorem clamp_of_mem {x : ℝ} (h0 : 0 ≤ x) (h1 : x ≤ 1) : Bary.clamp 0 1 x = x := by
  unfold Bary.clamp
  rw [if_neg (not_lt.2 h0), if_neg (not_lt.2 h1)]

theorem refBary_bounds {n : ℕ} (hn : 1 ≤ n) {k l : ℕ} (hkl : k + l ≤ n) :
    (refBary n k l : Bary ℝ).assertBounds 0 1 = ⟨1 - k / n - l / n, k / n, l / n⟩ := by
  have hn0 : (0 : ℝ) < n := by exact_mod_cast hn
  have h1 : (0 : ℝ) ≤ (k : ℝ) / n := by positivity
  have h2 : (0 : ℝ) ≤ (l : ℝ) / n := by positivity
  have h3 : (k : ℝ) / n + (l : ℝ) / n ≤ 1 := by
    rw [← add_div, div_le_one hn0]; exact_mod_cast hkl
  have e : 1 - (1 - (k : ℝ) / n - l / n) - k / n = l / n := by ring
  simp only [refBary, Bary.new, Bary.assertBounds, e]
  rw [clamp_of_mem (by linarith) (by linarith), clamp_of_mem h1 (by linarith), clamp_of_mem h2 (by linarith)]

theorem refBary_eq (n k l : ℕ) : (refBary n k l : Bary ℝ) = ⟨1 - k / n - l / n, k / n, l / n⟩ := by
  simp only [refBary, Bary.new]
  congr 1; ring

/-- the state of the vertex loop in lattice coordinates -/
structure VRep (g : Grid ℝ) (n : ℕ) (h : ℝ) (t : LP × LP × LP) (Q : List LP) (dom : List (ℕ × ℕ)) (s : VertState ℝ) :
    Prop where
  grid : s.grid = { g with vertices := List.range Q.length, points := Q.map fun a => vec2 (pos (h / n) a) }
  next : s.nextVertex = Q.length
  tv : ∀ kl ∈ dom, s.tv.get? kl = some (lab Q (mp n t kl)) ∧ mp n t kl ∈ Q

theorem refineVertex_step {g : Grid ℝ} {n : ℕ} {h : ℝ} {t : LP × LP × LP} {Q : List LP} {dom : List (ℕ × ℕ)}
    {s : VertState ℝ} (hn : 1 ≤ n) (hh : 0 < h) (ht0 : 0 < g.tolerance) (ht1 : g.tolerance ≤ h / n)
    (hc : (0, 0) ∈ dom ∧ (n, 0) ∈ dom ∧ (0, n) ∈ dom) (R : VRep g n h t Q dom s) {kl : ℕ × ℕ}
    (hkl : kl.1 + kl.2 ≤ n) :
    ∃ s', refineVertex n (vec2 (pos h t.1)) (vec2 (pos h t.2.1)) (vec2 (pos h t.2.2)) s kl = .ok s' ∧
      VRep g n h t (pySetUpdate Q [mp n t kl]) (kl :: dom) s' := by
  have hcorner : kl ∈ dom → ∃ s', Except.ok s = (Except.ok s' : PyM (VertState ℝ)) ∧
      VRep g n h t (pySetUpdate Q [mp n t kl]) (kl :: dom) s' := by
    intro hd
    have hm := R.tv kl hd
    refine ⟨s, rfl, ?_⟩
    rw [pySetUpdate_of_subset (by simpa using hm.2)]
    refine ⟨R.grid, R.next, ?_⟩
    intro kl' hkl'
    rcases List.mem_cons.1 hkl' with rfl | h'
    · exact hm
    · exact R.tv _ h'
  unfold refineVertex
  split
  · rename_i h0; exact hcorner (by rw [show kl = (0, 0) from Prod.ext h0.1 h0.2]; exact hc.1)
  split
  · rename_i h0; exact hcorner (by rw [show kl = (n, 0) from Prod.ext h0.1 h0.2]; exact hc.2.1)
  split
  · rename_i h0; exact hcorner (by rw [show kl = (0, n) from Prod.ext h0.1 h0.2]; exact hc.2.2)
  have hh' : 0 < h / n := div_pos hh (by exact_mod_cast hn)
  have hq : (refBary n kl.1 kl.2 : Bary ℝ).assertBounds 0 1 = ⟨1 - kl.1 / n - kl.2 / n, kl.1 / n, kl.2 / n⟩ :=
    refBary_bounds hn hkl
  have hpt : (1 - (kl.1 : ℝ) / n - kl.2 / n) • pos h t.1 + ((kl.1 : ℝ) / n) • pos h t.2.1 +
      ((kl.2 : ℝ) / n) • pos h t.2.2 = pos (h / n) (mp n t kl) := (pos_mp hn t hkl).symm
  have hptv : s.grid.pointToVertex (vec2 (pos (h / n) (mp n t kl))) =
      .ok (if mp n t kl ∈ Q then some (lab Q (mp n t kl)) else none) := by
    apply pointToVertex_pos hh'
    · rw [R.grid]
    · rw [R.grid]; exact ht0
    · rw [R.grid]; exact ht1
  simp only [hq, vec2_smul, vec2_add, bind_ok, hpt, hptv]
  by_cases hin : mp n t kl ∈ Q
  · rw [if_pos hin, pySetUpdate_of_subset (by simpa using hin)]
    refine ⟨_, rfl, R.grid, R.next, ?_⟩
    intro kl' hkl'
    simp only [PyDict.get?_set]
    split
    · rename_i he; subst he; exact ⟨rfl, hin⟩
    · rename_i he
      rcases List.mem_cons.1 hkl' with h' | h'
      · exact absurd h'.symm he
      · exact R.tv _ h'
  · rw [if_neg hin]
    have hQ : pySetUpdate Q [mp n t kl] = Q ++ [mp n t kl] := by
      rw [pySetUpdate_cons, if_neg hin, pySetUpdate_nil]
    rw [hQ]
    have hlab : lab (Q ++ [mp n t kl]) (mp n t kl) = Q.length := by
      unfold lab; rw [List.idxOf_append_of_notMem hin]; simp
    refine ⟨_, rfl, ?_, ?_, ?_⟩
    · simp only [R.grid, R.next, List.length_append, List.length_singleton, List.range_succ, List.map_append,
        List.map_cons, List.map_nil]
    · simp only [R.next, List.length_append, List.length_singleton]
    intro kl' hkl'
    simp only [PyDict.get?_set, R.next]
    split
    · rename_i he; subst he; exact ⟨by rw [hlab], by simp⟩
    · rename_i he
      rcases List.mem_cons.1 hkl' with h' | h'
      · exact absurd h'.symm he
      · obtain ⟨e1, e2⟩ := R.tv _ h'
        exact ⟨by rw [e1, lab_prefix (List.prefix_append _ _) e2], by simp [e2]⟩

theorem refineVertex_loop {g : Grid ℝ} {n : ℕ} {h : ℝ} {t : LP × LP × LP} (hn : 1 ≤ n) (hh : 0 < h)
    (ht0 : 0 < g.tolerance) (ht1 : g.tolerance ≤ h / n) (ks : List (ℕ × ℕ)) (hks : ∀ kl ∈ ks, kl.1 + kl.2 ≤ n) :
    ∀ {Q : List LP} {dom : List (ℕ × ℕ)} {s : VertState ℝ}, ((0, 0) ∈ dom ∧ (n, 0) ∈ dom ∧ (0, n) ∈ dom) →
    VRep g n h t Q dom s →
    ∃ s', pyFor ks s (refineVertex n (vec2 (pos h t.1)) (vec2 (pos h t.2.1)) (vec2 (pos h t.2.2))) = .ok s' ∧
      VRep g n h t (pySetUpdate Q (ks.map (mp n t))) (ks.reverse ++ dom) s' := by
  induction ks with
  | nil => intro Q dom s _ R; exact ⟨s, rfl, R⟩
  | cons kl ks ih =>
    intro Q dom s hc R
    obtain ⟨s1, h1, R1⟩ := refineVertex_step hn hh ht0 ht1 hc R (hks kl (by simp))
    obtain ⟨s2, h2, R2⟩ := ih (fun k hk => hks k (by simp [hk])) (by simp [hc]) R1
    refine ⟨s2, by rw [pyFor_cons, h1]; exact h2, ?_⟩
    rw [List.map_cons, List.reverse_cons, List.append_assoc]
    rw [show mp n t kl :: ks.map (mp n t) = [mp n t kl] ++ ks.map (mp n t) from rfl, pySetUpdate_append]
    exact R2

theorem mem_vertexIndices {n : ℕ} {kl : ℕ × ℕ} : kl ∈ vertexIndices n ↔ kl.1 + kl.2 ≤ n := by
  obtain ⟨k, l⟩ := kl
  simp only [vertexIndices, List.mem_flatMap, List.mem_map, List.mem_range, Prod.mk.injEq]
  constructor
  · rintro ⟨l', h1, k', h2, rfl, rfl⟩; omega
  · intro hkl; exact ⟨l, by omega, k, by omega, rfl, rfl⟩

theorem mem_lowerIndices {n : ℕ} {kl : ℕ × ℕ} : kl ∈ lowerIndices n ↔ kl.1 + kl.2 < n := by
  obtain ⟨k, l⟩ := kl
  simp only [lowerIndices, List.mem_flatMap, List.mem_map, List.mem_range, Prod.mk.injEq]
  constructor
  · rintro ⟨l', h1, k', h2, rfl, rfl⟩; omega
  · intro hkl; exact ⟨l, by omega, k, by omega, rfl, rfl⟩

theorem mem_upperIndices {n : ℕ} {kl : ℕ × ℕ} : kl ∈ upperIndices n ↔ 1 ≤ kl.1 ∧ kl.1 + kl.2 < n := by
  obtain ⟨k, l⟩ := kl
  simp only [upperIndices, List.mem_flatMap, List.mem_map, List.mem_range, Prod.mk.injEq]
  constructor
  · rintro ⟨l', h1, k', h2, rfl, rfl⟩; omega
  · rintro ⟨h1, h2⟩; exact ⟨l, by omega, k - 1, by omega, by omega, rfl⟩

/-- the subdivision points of a triangle -/
def fineVerts (n : ℕ) (t : LP × LP × LP) : List LP := (vertexIndices n).map (mp n t)

/-- the whole vertex loop -/
theorem vertexLoop {g : Grid ℝ} {n : ℕ} {h : ℝ} {t : LP × LP × LP} {Q : List LP} (hn : 1 ≤ n) (hh : 0 < h)
    (ht0 : 0 < g.tolerance) (ht1 : g.tolerance ≤ h / n) (hv : g.vertices = List.range Q.length)
    (hp : g.points = Q.map fun a => vec2 (pos (h / n) a))
    (h1 : scaleP n t.1 ∈ Q) (h2 : scaleP n t.2.1 ∈ Q) (h3 : scaleP n t.2.2 ∈ Q) :
    ∃ tv, pyFor (vertexIndices n) (⟨g, Q.length, ((PyDict.empty.set (0, 0) (lab Q (scaleP n t.1))).set (n, 0)
        (lab Q (scaleP n t.2.1))).set (0, n) (lab Q (scaleP n t.2.2))⟩ : VertState ℝ)
        (refineVertex n (vec2 (pos h t.1)) (vec2 (pos h t.2.1)) (vec2 (pos h t.2.2))) =
      .ok ⟨{ g with
        vertices := List.range (pySetUpdate Q (fineVerts n t)).length
        points := (pySetUpdate Q (fineVerts n t)).map fun a => vec2 (pos (h / n) a) },
        (pySetUpdate Q (fineVerts n t)).length, tv⟩ ∧
      ∀ k l, k + l ≤ n → tv.get? (k, l) = some (lab (pySetUpdate Q (fineVerts n t)) (mp n t (k, l))) := by
  have R : VRep g n h t Q [(0, 0), (n, 0), (0, n)]
      (⟨g, Q.length, ((PyDict.empty.set (0, 0) (lab Q (scaleP n t.1))).set (n, 0)
        (lab Q (scaleP n t.2.1))).set (0, n) (lab Q (scaleP n t.2.2))⟩ : VertState ℝ) := by
    refine ⟨by cases g; simp_all, rfl, ?_⟩
    intro kl hkl
    have hn0 : n ≠ 0 := by omega
    simp only [List.mem_cons, List.not_mem_nil, or_false] at hkl
    rcases hkl with rfl | rfl | rfl
    · rw [mp_corner1]
      refine ⟨?_, h1⟩
      simp [PyDict.get?_set, hn0]
    · rw [mp_corner2]
      refine ⟨?_, h2⟩
      simp [PyDict.get?_set, hn0]
    · rw [mp_corner3]
      refine ⟨?_, h3⟩
      simp [PyDict.get?_set, hn0]
  obtain ⟨s', e, R'⟩ := refineVertex_loop (g := g) (t := t) hn hh ht0 ht1 (vertexIndices n)
    (fun kl hkl => mem_vertexIndices.1 hkl) (by simp) R
  obtain ⟨g', nv, tv⟩ := s'
  refine ⟨tv, ?_, ?_⟩
  · rw [e, show g' = _ from R'.grid, show nv = _ from R'.next]; rfl
  · intro k l hkl
    exact (R'.tv (k, l) (by simp [mem_vertexIndices, hkl])).1

end Tve
