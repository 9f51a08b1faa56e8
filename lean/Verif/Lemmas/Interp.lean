import Verif.Spec.Interpolation
import Verif.Lemmas.Library
import Verif.Props.GridEq
import Verif.Props.BellC1

/-! Interpolations on grids. -/

namespace Tve
open Bell

theorem getElem?_of_getD {α : Type} {l : List α} {v : ℕ} (h : v < l.length) (d : α) : l[v]? = some (l.getD v d) := by
  rw [List.getD_eq_getElem?_getD, List.getElem?_eq_getElem h]; rfl

theorem pyGet_getD {α : Type} {l : List α} {v : ℕ} (h : v < l.length) (d : α) : pyGet l v = .ok (l.getD v d) :=
  pyGet_eq_ok.2 (getElem?_of_getD h d)

section
variable {g : Grid ℝ} {t : Tri}

theorem WF.lt (W : g.WellFormed) {v : Vertex} (hv : v ∈ g.vertices) : v < g.points.length := by
  rw [W.vertices, List.mem_range] at hv; exact hv

theorem WF.at_xy (W : g.WellFormed) {v : Vertex} (hv : v ∈ g.vertices) : g.At v (g.xy v) := by
  obtain ⟨q, hq⟩ := W.planar v (WF.lt W hv)
  rw [xy_of_at hq]; exact hq

theorem WF.mem_get (W : g.WellFormed) (ht : t ∈ g.triangles) (k : Fin 3) : t.get k ∈ g.vertices := by
  obtain ⟨h1, h2, h3⟩ := W.triangles t ht
  fin_cases k
  exacts [h1, h2, h3]

theorem WF.pyGet_point (W : g.WellFormed) {v : Vertex} (hv : v ∈ g.vertices) : pyGet g.points v = .ok (vec2 (g.xy v)) :=
  pyGet_eq_ok.2 (WF.at_xy W hv)

theorem WF.triangleVertices (W : g.WellFormed) (ht : t ∈ g.triangles) :
    g.triangleVertices t = .ok (tvOf (g.corners t)) := by
  obtain ⟨h1, h2, h3⟩ := W.triangles t ht
  rw [Grid.triangleVertices, if_neg (not_not.2 ht), WF.pyGet_point W h1, WF.pyGet_point W h2, WF.pyGet_point W h3]
  rfl

theorem pointAt_eq (g : Grid ℝ) (t : Tri) (c : Bary ℝ) :
    g.pointAt t c = pointOf (g.corners t) ![c.l1, c.l2, c.l3] := rfl

theorem baryOf_eq (c : Bary ℝ) : baryOf ![c.l1, c.l2, c.l3] = c := rfl

end

theorem P1_of {g : Grid ℝ} {u : List ℝ} {I : Interp} (hI : P1Interpolation g u = .ok I) :
    u.length = g.vertices.length ∧
      I = ⟨g, P1.call u, P1.gradient g u, P1.hessian, P1.onEdge u⟩ := by
  unfold P1Interpolation at hI
  split_ifs at hI with h
  exact ⟨not_not.1 h, (Except.ok.inj hI).symm⟩

theorem C1_of {g : Grid ℝ} {u : List (List ℝ)} {I : Interp} (hI : C1Interpolation g u = .ok I) :
    (∀ p ∈ u, p.length = 6) ∧ u.length = g.vertices.length ∧
      I = ⟨g, C1.call g u, C1.gradient g u, C1.hessian g u, C1.onEdge g u⟩ := by
  unfold C1Interpolation at hI
  split_ifs at hI with h h'
  refine ⟨?_, not_not.1 h', (Except.ok.inj hI).symm⟩
  intro p hp
  by_contra hne
  exact h (List.any_eq_true.2 ⟨p, hp, by simpa using hne⟩)

section
variable {g : Grid ℝ} {u : List ℝ} {t : Tri}

theorem WF.len (W : g.WellFormed) {α : Type} {u : List α} (hu : u.length = g.vertices.length) {v : Vertex}
    (hv : v ∈ g.vertices) : v < u.length := by
  rw [hu, W.vertices, List.length_range]; exact WF.lt W hv

theorem P1_call_eq (W : g.WellFormed) (hu : u.length = g.vertices.length) (ht : t ∈ g.triangles) (c : Bary ℝ) :
    P1.call u t c = .ok (c.l1 * u.getD t.1 0 + c.l2 * u.getD t.2.1 0 + c.l3 * u.getD t.2.2 0) := by
  obtain ⟨h1, h2, h3⟩ := W.triangles t ht
  rw [P1.call, pyGet_getD (WF.len W hu h1) 0, pyGet_getD (WF.len W hu h2) 0, pyGet_getD (WF.len W hu h3) 0]
  rfl

theorem P1_gradient_eq (W : g.WellFormed) (hu : u.length = g.vertices.length) (ht : t ∈ g.triangles)
    (hd : Nondegenerate (g.corners t)) (c : Bary ℝ) :
    P1.gradient g u t c = .ok (vecOf ![∑ j, bb (g.corners t) j * u.getD (t.get j) 0 / twoD (g.corners t),
      ∑ j, cc (g.corners t) j * u.getD (t.get j) 0 / twoD (g.corners t)]) := by
  obtain ⟨h1, h2, h3⟩ := W.triangles t ht
  rw [P1.gradient, pyGet_getD (WF.len W hu h1) 0, pyGet_getD (WF.len W hu h2) 0, pyGet_getD (WF.len W hu h3) 0,
    WF.triangleVertices W ht]
  simp only [bind_ok]
  have : (⟨[u.getD t.1 0, u.getD t.2.1 0, u.getD t.2.2 0]⟩ : Vec ℝ) = vecOf fun k => u.getD (t.get k) 0 := by
    simp [vecOf, List.ofFn_succ, Tri.get]
  rw [this, transformGradient_eq hd]

end

/-! ### C1 interpolation on a grid -/

section
variable {g : Grid ℝ} {u : List (List ℝ)} {t : Tri}

theorem param_eq (h6 : ∀ p ∈ u, p.length = 6) {v : Vertex} (hv : v < u.length) :
    u.getD v [] = List.ofFn (nodeParam u v) := by
  have hl : (u.getD v []).length = 6 := by
    apply h6
    rw [List.getD_eq_getElem?_getD, List.getElem?_eq_getElem hv]
    exact List.getElem_mem hv
  have key : nodeParam u v = fun k : Fin 6 => (u.getD v []).getD k 0 := rfl
  rw [key]
  generalize u.getD v [] = l at hl
  apply List.ext_getElem
  · rw [hl, List.length_ofFn]
  · intro i hi hi'
    rw [List.getElem_ofFn, List.getD_eq_getElem?_getD, List.getElem?_eq_getElem hi]; rfl

theorem C1_params_eq (W : g.WellFormed) (h6 : ∀ p ∈ u, p.length = 6) (hu : u.length = g.vertices.length)
    (ht : t ∈ g.triangles) : C1.triangleParams u t = .ok (parOf fun k => nodeParam u (t.get k)) := by
  obtain ⟨h1, h2, h3⟩ := W.triangles t ht
  rw [C1.triangleParams, pyGet_getD (WF.len W hu h1) [], pyGet_getD (WF.len W hu h2) [], pyGet_getD (WF.len W hu h3) []]
  simp only [bind_ok, pure_eq_ok, Vec.extend, parOf]
  rw [param_eq h6 (WF.len W hu h1), param_eq h6 (WF.len W hu h2), param_eq h6 (WF.len W hu h3)]
  rfl

theorem C1_call_eq (W : g.WellFormed) (h6 : ∀ p ∈ u, p.length = 6) (hu : u.length = g.vertices.length)
    (ht : t ∈ g.triangles) (c : Bary ℝ) :
    C1.call g u t c = interpolation (tvOf (g.corners t)) c (parOf fun k => nodeParam u (t.get k)) ∧
    C1.gradient g u t c = interpolationGradient (tvOf (g.corners t)) c (parOf fun k => nodeParam u (t.get k)) ∧
    C1.hessian g u t c = interpolationHessian (tvOf (g.corners t)) c (parOf fun k => nodeParam u (t.get k)) := by
  rw [C1.call, C1.gradient, C1.hessian, WF.triangleVertices W ht, C1_params_eq W h6 hu ht]
  exact ⟨rfl, rfl, rfl⟩

theorem C1_onEdge_eq (W : g.WellFormed) (h6 : ∀ p ∈ u, p.length = 6) (hu : u.length = g.vertices.length) {e : Edge}
    (h1 : e.1 ∈ g.vertices) (h2 : e.2 ∈ g.vertices) (s : ℝ) :
    C1.onEdge g u e s = interpolationOnEdge (vec2 (g.xy e.1), vec2 (g.xy e.2)) s
      ⟨List.ofFn (nodeParam u e.1) ++ List.ofFn (nodeParam u e.2)⟩ := by
  rw [C1.onEdge, pyGet_getD (WF.len W hu h1) [], pyGet_getD (WF.len W hu h2) [], WF.pyGet_point W h1,
    WF.pyGet_point W h2]
  simp only [bind_ok, Vec.extend]
  rw [param_eq h6 (WF.len W hu h1), param_eq h6 (WF.len W hu h2)]

end

/-! ### weights of vertices -/

/-- the weight of a vertex in barycentric coordinates of a triangle -/
def weightOf {V : Type} [DecidableEq V] (t : V × V × V) (c : Bary ℝ) (v : V) : ℝ :=
  (if t.1 = v then c.l1 else 0) + (if t.2.1 = v then c.l2 else 0) + (if t.2.2 = v then c.l3 else 0)

/-- the hat function of the lattice triangulation -/
noncomputable def hat (x y : ℝ) : ℝ := max 0 (1 - max (max |x| |y|) |x - y|)

theorem hat_zero_of {x y : ℝ} (h : 1 ≤ |x| ∨ 1 ≤ |y| ∨ 1 ≤ |x - y|) : hat x y = 0 := by
  rw [hat, max_eq_left]
  have := le_max_left (max |x| |y|) |x - y|
  have := le_max_right (max |x| |y|) |x - y|
  have := le_max_left |x| |y|
  have := le_max_right |x| |y|
  rcases h with h | h | h <;> linarith

theorem hat_of {x y m : ℝ} (h1 : |x| ≤ m) (h2 : |y| ≤ m) (h3 : |x - y| ≤ m) (h4 : m ≤ 1)
    (h5 : |x| = m ∨ |y| = m ∨ |x - y| = m) : hat x y = 1 - m := by
  have : max (max |x| |y|) |x - y| = m := by
    apply le_antisymm (max_le (max_le h1 h2) h3)
    rcases h5 with h | h | h
    · rw [← h]; exact (le_max_left _ _).trans (le_max_left _ _)
    · rw [← h]; exact (le_max_right _ _).trans (le_max_left _ _)
    · rw [← h]; exact le_max_right _ _
  rw [hat, this, max_eq_right (by linarith)]

/-- In a lattice triangle the weight of a lattice point is the hat function. -/
theorem weight_hat {nx ny : ℕ} {t : LP × LP × LP} (ht : LatTri nx ny t) {c : Bary ℝ} (hc : c.Inside) (a : LP) :
    weightOf t c a = hat
      ((baryPoint (pos 1 t.1) (pos 1 t.2.1) (pos 1 t.2.2) c.l1 c.l2 c.l3).1 - a.1)
      ((baryPoint (pos 1 t.1) (pos 1 t.2.1) (pos 1 t.2.2) c.l1 c.l2 c.l3).2 - a.2) := by
  obtain ⟨hs, h1, h2, h3⟩ := hc
  obtain ⟨l1, l2, l3⟩ := c
  simp only [Bary.Normalized] at *
  have hcast : ∀ m n : ℕ, m ≠ n → 1 ≤ |(m : ℝ) - n| := by
    intro m n hmn
    have : (1 : ℤ) ≤ |(m : ℤ) - n| := Int.one_le_abs (by omega)
    exact_mod_cast this
  obtain ⟨i, j, hi, hj, rfl | rfl⟩ := ht
  · have ex : (baryPoint (pos 1 (i, j)) (pos 1 (i + 1, j)) (pos 1 (i + 1, j + 1)) l1 l2 l3) =
        ((i : ℝ) + (l2 + l3), (j : ℝ) + l3) := by
      simp only [baryPoint, pos]
      ext
      · simp; linear_combination (i : ℝ) * hs
      · simp; linear_combination (j : ℝ) * hs
    simp only [ex]
    obtain ⟨m, n⟩ := a
    simp only
    by_cases ha : m = i
    · subst ha
      by_cases hb : n = j
      · subst hb
        rw [hat_of (m := l2 + l3)]
        · simp [weightOf]; linarith
        · rw [abs_le]; constructor <;> linarith
        · rw [abs_le]; constructor <;> linarith
        · rw [abs_le]; constructor <;> linarith
        · linarith
        · left; rw [abs_of_nonneg] <;> linarith
      · rw [hat_zero_of]
        · simp [weightOf, Ne.symm hb]
        · by_cases hb' : n = j + 1
          · subst hb'
            right; right
            push_cast
            rw [abs_of_nonneg] <;> linarith
          · right; left
            rcases lt_or_gt_of_ne hb with h | h
            · have : (n : ℝ) + 1 ≤ j := by exact_mod_cast h
              rw [abs_of_nonneg] <;> linarith
            · have : (j : ℝ) + 2 ≤ n := by exact_mod_cast (by omega : j + 2 ≤ n)
              rw [abs_of_nonpos] <;> linarith
    · by_cases ha' : m = i + 1
      · subst ha'
        by_cases hb : n = j
        · subst hb
          rw [hat_of (m := l1 + l3)]
          · simp [weightOf]; linarith
          · push_cast; rw [abs_le]; constructor <;> linarith
          · push_cast; rw [abs_le]; constructor <;> linarith
          · push_cast; rw [abs_le]; constructor <;> linarith
          · linarith
          · right; right; push_cast; rw [abs_of_nonpos] <;> linarith
        · by_cases hb' : n = j + 1
          · subst hb'
            rw [hat_of (m := l1 + l2)]
            · simp [weightOf]; linarith
            · push_cast; rw [abs_le]; constructor <;> linarith
            · push_cast; rw [abs_le]; constructor <;> linarith
            · push_cast; rw [abs_le]; constructor <;> linarith
            · linarith
            · right; left; push_cast; rw [abs_of_nonpos] <;> linarith
          · rw [hat_zero_of]
            · simp [weightOf, Ne.symm hb, Ne.symm hb']
            · right; left
              rcases lt_or_gt_of_ne hb with h | h
              · have : (n : ℝ) + 1 ≤ j := by exact_mod_cast h
                rw [abs_of_nonneg] <;> linarith
              · have : (j : ℝ) + 2 ≤ n := by exact_mod_cast (by omega : j + 2 ≤ n)
                rw [abs_of_nonpos] <;> linarith
      · rw [hat_zero_of]
        · simp [weightOf, Ne.symm ha, Ne.symm ha']
        · left
          rcases lt_or_gt_of_ne ha with h | h
          · have : (m : ℝ) + 1 ≤ i := by exact_mod_cast h
            rw [abs_of_nonneg] <;> linarith
          · have : (i : ℝ) + 2 ≤ m := by exact_mod_cast (by omega : i + 2 ≤ m)
            rw [abs_of_nonpos] <;> linarith
  · have ex : (baryPoint (pos 1 (i + 1, j + 1)) (pos 1 (i, j + 1)) (pos 1 (i, j)) l1 l2 l3) =
        ((i : ℝ) + l1, (j : ℝ) + (l1 + l2)) := by
      simp only [baryPoint, pos]
      ext
      · simp; linear_combination (i : ℝ) * hs
      · simp; linear_combination (j : ℝ) * hs
    simp only [ex]
    obtain ⟨m, n⟩ := a
    simp only
    by_cases hb : n = j
    · subst hb
      by_cases ha : m = i
      · subst ha
        rw [hat_of (m := l1 + l2)]
        · simp [weightOf]; linarith
        · rw [abs_le]; constructor <;> linarith
        · rw [abs_le]; constructor <;> linarith
        · rw [abs_le]; constructor <;> linarith
        · linarith
        · right; left; rw [abs_of_nonneg] <;> linarith
      · rw [hat_zero_of]
        · simp [weightOf, Ne.symm ha]
        · by_cases ha' : m = i + 1
          · subst ha'
            right; right
            push_cast
            rw [abs_of_nonpos] <;> linarith
          · left
            rcases lt_or_gt_of_ne ha with h | h
            · have : (m : ℝ) + 1 ≤ i := by exact_mod_cast h
              rw [abs_of_nonneg] <;> linarith
            · have : (i : ℝ) + 2 ≤ m := by exact_mod_cast (by omega : i + 2 ≤ m)
              rw [abs_of_nonpos] <;> linarith
    · by_cases hb' : n = j + 1
      · subst hb'
        by_cases ha : m = i
        · subst ha
          rw [hat_of (m := l1 + l3)]
          · simp [weightOf]; linarith
          · push_cast; rw [abs_le]; constructor <;> linarith
          · push_cast; rw [abs_le]; constructor <;> linarith
          · push_cast; rw [abs_le]; constructor <;> linarith
          · linarith
          · right; right; push_cast; rw [abs_of_nonneg] <;> linarith
        · by_cases ha' : m = i + 1
          · subst ha'
            rw [hat_of (m := l2 + l3)]
            · simp [weightOf]; linarith
            · push_cast; rw [abs_le]; constructor <;> linarith
            · push_cast; rw [abs_le]; constructor <;> linarith
            · push_cast; rw [abs_le]; constructor <;> linarith
            · linarith
            · left; push_cast; rw [abs_of_nonpos] <;> linarith
          · rw [hat_zero_of]
            · simp [weightOf, Ne.symm ha, Ne.symm ha']
            · left
              rcases lt_or_gt_of_ne ha with h | h
              · have : (m : ℝ) + 1 ≤ i := by exact_mod_cast h
                rw [abs_of_nonneg] <;> linarith
              · have : (i : ℝ) + 2 ≤ m := by exact_mod_cast (by omega : i + 2 ≤ m)
                rw [abs_of_nonpos] <;> linarith
      · rw [hat_zero_of]
        · simp [weightOf, Ne.symm hb, Ne.symm hb']
        · right; left
          rcases lt_or_gt_of_ne hb with h | h
          · have : (n : ℝ) + 1 ≤ j := by exact_mod_cast h
            rw [abs_of_nonneg] <;> linarith
          · have : (j : ℝ) + 2 ≤ n := by exact_mod_cast (by omega : j + 2 ≤ n)
            rw [abs_of_nonpos] <;> linarith

theorem baryPoint_pos (h : ℝ) (t : LP × LP × LP) (a b c : ℝ) :
    baryPoint (pos h t.1) (pos h t.2.1) (pos h t.2.2) a b c =
      h • baryPoint (pos 1 t.1) (pos 1 t.2.1) (pos 1 t.2.2) a b c := by
  simp only [baryPoint, pos]
  ext <;> simp <;> ring

theorem weightOf_lab {P : List LP} {t : LP × LP × LP} (h : t.1 ∈ P ∧ t.2.1 ∈ P ∧ t.2.2 ∈ P) (c : Bary ℝ) {a : LP}
    (ha : a ∈ P) : weightOf (labT P t) c (lab P a) = weightOf t c a := by
  have key : ∀ b ∈ P, (lab P b = lab P a) = (b = a) := fun b hb => propext ⟨fun h => lab_inj hb h, fun h => by rw [h]⟩
  simp only [weightOf, labT, key _ h.1, key _ h.2.1, key _ h.2.2]

/-- Two barycentric descriptions of the same point in closed triangles of a library grid give every vertex the same
weight. -/
theorem weight_unique {g : Grid ℝ} {nx ny : ℕ} {s : ℝ} (G : LibraryGrid g nx ny s) {t t' : Tri} (ht : t ∈ g.triangles)
    (ht' : t' ∈ g.triangles) {c c' : Bary ℝ} (hc : c.Inside) (hc' : c'.Inside) (h : g.pointAt t c = g.pointAt t' c')
    (v : Vertex) : weightOf t c v = weightOf t' c' v := by
  obtain ⟨P, dg, E, T, BV, BE, L⟩ := G.lattice
  have hs := L.h_pos
  rw [L.triangles] at ht ht'
  obtain ⟨τ, hτ, rfl⟩ := List.mem_map.1 ht
  obtain ⟨τ', hτ', rfl⟩ := List.mem_map.1 ht'
  have m := L.memT_P hτ
  have m' := L.memT_P hτ'
  have x : ∀ σ, σ ∈ T → ∀ c, g.pointAt (labT P σ) c = s • baryPoint (pos 1 σ.1) (pos 1 σ.2.1) (pos 1 σ.2.2) c.l1 c.l2 c.l3 := by
    intro σ hσ c
    have := L.memT_P hσ
    rw [← baryPoint_pos, Grid.pointAt]
    simp only [labT]
    rw [xy_of_at (L.at_lab this.1), xy_of_at (L.at_lab this.2.1), xy_of_at (L.at_lab this.2.2)]
  rw [x τ hτ, x τ' hτ'] at h
  have h' := smul_right_injective (ℝ × ℝ) hs.ne' h
  by_cases hv : v < P.length
  · rw [← lab_co L.nodupP hv, weightOf_lab m c (co_mem hv), weightOf_lab m' c' (co_mem hv),
      weight_hat ((L.memT _).1 hτ) hc, weight_hat ((L.memT _).1 hτ') hc', h']
  · have : ∀ a ∈ P, lab P a ≠ v := fun a ha h => hv (h ▸ lab_lt ha)
    simp [weightOf, labT, this _ m.1, this _ m.2.1, this _ m.2.2, this _ m'.1, this _ m'.2.1, this _ m'.2.2]

end Tve
