import Verif.Lemmas.FloatGrid
import Verif.Lemmas.FloatLocate
import Verif.Lemmas.RefineMain

/-!
# Exact and double precision refinement side by side
-/

namespace Tve
open F64

/-! ### coordinates of fine vertices -/

/-- the double precision coordinates of a vertex of the coarse grid -/
def fpt (s : ℚ) (a : LP) : Vec ℚ := ⟨[fl (a.1 * s), fl (a.2 * s)]⟩

/-- bound of the coordinate errors of the fine vertices -/
def ptErr (s : ℚ) (m : ℕ) : ℚ := 15 / 2 ^ 53 * (s * m)

section
variable {s : ℚ} {n m : ℕ}

theorem coarse_coord (hs : 0 < s) {a : ℕ} (ha : a ≤ m) : |fl (a * s) - a * s| ≤ s * m / 2 ^ 53 := by
  refine (fl_error _).trans ?_
  rw [abs_of_nonneg (by positivity)]
  have : (a : ℚ) ≤ m := by exact_mod_cast ha
  apply div_le_div_of_nonneg_right _ (by norm_num)
  nlinarith

theorem fine_coord (hs : 0 < s) (hn : 1 ≤ n) {k l : ℕ} (hkl : k + l ≤ n) {a b c : ℕ} (ha : a ≤ m) (hb : b ≤ m)
    (hc : c ≤ m) :
    |finePoint n k l (fl (a * s)) (fl (b * s)) (fl (c * s)) - ((n - k - l) * a + k * b + l * c : ℕ) * (s / n)| ≤ ptErr s m := by
  have hn0 : (0 : ℚ) < n := by exact_mod_cast hn
  have hM : 0 ≤ s * m := by positivity
  have bound : ∀ {a : ℕ}, a ≤ m → |fl (a * s)| ≤ s * m * (1 + 1 / 2 ^ 53) := by
    intro a ha
    apply fl_abs_le
    rw [abs_of_nonneg (by positivity)]
    have : (a : ℚ) ≤ m := by exact_mod_cast ha
    nlinarith
  have h1 := C79_fine_point_error hkl hn (bound ha) (bound hb) (bound hc)
  have ea := abs_le.1 (coarse_coord hs ha)
  have eb := abs_le.1 (coarse_coord hs hb)
  have ec := abs_le.1 (coarse_coord hs hc)
  have hc' : ((n - k - l : ℕ) : ℚ) = n - k - l := by rw [Nat.cast_sub (by omega), Nat.cast_sub (by omega)]
  have hx : (((n - k - l) * a + k * b + l * c : ℕ) : ℚ) * (s / n) =
      (1 - k / n - l / n) * (a * s) + k / n * (b * s) + l / n * (c * s) := by
    push_cast; rw [hc']; field_simp
  rw [hx]
  have hk : (0 : ℚ) ≤ k / n := by positivity
  have hl : (0 : ℚ) ≤ l / n := by positivity
  have hkl' : (k : ℚ) / n + l / n ≤ 1 := by
    rw [← add_div, div_le_one hn0]; exact_mod_cast hkl
  generalize (k : ℚ) / n = κ at *
  generalize (l : ℚ) / n = μ at *
  generalize fl ((a : ℚ) * s) = fa at *
  generalize fl ((b : ℚ) * s) = fb at *
  generalize fl ((c : ℚ) * s) = fc at *
  generalize (a : ℚ) * s = xa at *
  generalize (b : ℚ) * s = xb at *
  generalize (c : ℚ) * s = xc at *
  have hw : 0 ≤ 1 - κ - μ := by linarith
  have h2 : |((1 - κ - μ) * fa + κ * fb + μ * fc) - ((1 - κ - μ) * xa + κ * xb + μ * xc)| ≤ s * m / 2 ^ 53 := by
    rw [abs_le]
    constructor
    · nlinarith [mul_le_mul_of_nonneg_left ea.1 hw, mul_le_mul_of_nonneg_left eb.1 hk, mul_le_mul_of_nonneg_left ec.1 hl]
    · nlinarith [mul_le_mul_of_nonneg_left ea.2 hw, mul_le_mul_of_nonneg_left eb.2 hk, mul_le_mul_of_nonneg_left ec.2 hl]
  have h3 := abs_add_le _ _ |>.trans (add_le_add h1 h2)
  rw [sub_add_sub_cancel] at h3
  refine h3.trans ?_
  unfold ptErr
  generalize s * m = M at *
  norm_num at *; linarith

theorem ptErr_small (hs : 0 < s) (hn : 1 ≤ n) (hnm : n * m ≤ 10 ^ 6) : ptErr s m ≤ s / n * (2 / 10 ^ 9) := by
  have hn0 : (0 : ℚ) < n := by exact_mod_cast hn
  have h1 : (n : ℚ) * m ≤ 10 ^ 6 := by
    have : ((n * m : ℕ) : ℚ) ≤ ((10 ^ 6 : ℕ) : ℚ) := Nat.cast_le.2 hnm
    push_cast at this; exact this
  unfold ptErr
  rw [show s / n * (2 / 10 ^ 9) = s * (2 / 10 ^ 9) / n by ring, le_div_iff₀ hn0, show 15 / 2 ^ 53 * (s * m) * n = 15 / 2 ^ 53 * s * (n * m) by ring]
  calc 15 / 2 ^ 53 * s * (n * m) ≤ 15 / 2 ^ 53 * s * 10 ^ 6 := by gcongr
    _ ≤ s * (2 / 10 ^ 9) := by norm_num; nlinarith

theorem near_coarse (hs : 0 < s) (hn : 1 ≤ n) {a : LP} (h1 : a.1 ≤ m) (h2 : a.2 ≤ m) :
    NearPt (ptErr s m) (s / n) (scaleP n a) (fpt s a) := by
  have hn0 : (n : ℚ) ≠ 0 := by positivity
  have hM : 0 ≤ s * m := by positivity
  have key : ∀ i : ℕ, i ≤ m → |fl (i * s) - ((n * i : ℕ) : ℚ) * (s / n)| ≤ ptErr s m := by
    intro i hi
    have := coarse_coord hs hi
    rw [show ((n * i : ℕ) : ℚ) * (s / n) = i * s by push_cast; field_simp]
    refine this.trans ?_
    unfold ptErr
    generalize s * m = M at *
    norm_num at *; linarith
  exact ⟨_, _, rfl, key _ h1, key _ h2⟩

/-- the float point computed for a subdivision index -/
def ffine (s : ℚ) (n : ℕ) (t : LP × LP × LP) (kl : ℕ × ℕ) : Vec ℚ :=
  ⟨[finePoint n kl.1 kl.2 (fl (t.1.1 * s)) (fl (t.2.1.1 * s)) (fl (t.2.2.1 * s)),
    finePoint n kl.1 kl.2 (fl (t.1.2 * s)) (fl (t.2.1.2 * s)) (fl (t.2.2.2 * s))]⟩

theorem near_fine (hs : 0 < s) (hn : 1 ≤ n) {nx ny : ℕ} (hx : nx ≤ m) (hy : ny ≤ m) {t : LP × LP × LP}
    (ht : LatTri nx ny t) {kl : ℕ × ℕ} (hkl : kl.1 + kl.2 ≤ n) :
    NearPt (ptErr s m) (s / n) (mp n t kl) (ffine s n t kl) := by
  obtain ⟨i, j, hi, hj, rfl | rfl⟩ := ht
  · exact ⟨_, _, rfl, fine_coord hs hn hkl (by simp only; omega) (by simp only; omega) (by simp only; omega),
      fine_coord hs hn hkl (by simp only; omega) (by simp only; omega) (by simp only; omega)⟩
  · exact ⟨_, _, rfl, fine_coord hs hn hkl (by simp only; omega) (by simp only; omega) (by simp only; omega),
      fine_coord hs hn hkl (by simp only; omega) (by simp only; omega) (by simp only; omega)⟩

theorem ffine_eq (s : ℚ) (n : ℕ) (t : LP × LP × LP) (kl : ℕ × ℕ) :
    (do
      let a ← vadd (smul (fpt s t.1) ((F64.refBary n kl.1 kl.2).assertBounds 0 1).l1)
        (smul (fpt s t.2.1) ((F64.refBary n kl.1 kl.2).assertBounds 0 1).l2)
      vadd a (smul (fpt s t.2.2) ((F64.refBary n kl.1 kl.2).assertBounds 0 1).l3)) = .ok (ffine s n t kl) := by
  have h : (F64.refBary n kl.1 kl.2).assertBounds 0 1 =
      ⟨(fineCoords n kl.1 kl.2).1, (fineCoords n kl.1 kl.2).2.1, (fineCoords n kl.1 kl.2).2.2⟩ := rfl
  simp only [h, vadd, smul, fpt, ffine, Vec.size, List.map_cons, List.map_nil, List.length_cons, List.length_nil, ne_eq,
    not_true_eq_false, if_false, bind_ok, List.zipWith_cons_cons, List.zipWith_nil_left, finePoint]
  generalize fineCoords n kl.1 kl.2 = w
  simp only [mul_comm w.1, mul_comm w.2.1, mul_comm w.2.2]

end

/-! ### distinct subdivision points -/

/-- the index of a corner -/
def IsCorner (n : ℕ) (kl : ℕ × ℕ) : Prop := (kl.1 = 0 ∧ kl.2 = 0) ∨ (kl.1 = n ∧ kl.2 = 0) ∨ (kl.1 = 0 ∧ kl.2 = n)

theorem mp_injective {n nx ny : ℕ} {t : LP × LP × LP} (ht : LatTri nx ny t) {a b : ℕ × ℕ} (ha : a.1 + a.2 ≤ n)
    (hb : b.1 + b.2 ≤ n) (h : mp n t a = mp n t b) : a = b := by
  obtain ⟨k, l⟩ := a
  obtain ⟨k', l'⟩ := b
  obtain ⟨i, j, hi, hj, rfl | rfl⟩ := latTri_cases ht
  · rw [mp_low ha, mp_low hb, Prod.mk.injEq] at h
    simp only at ha hb
    exact Prod.ext (by simp only; omega) (by simp only; omega)
  · rw [mp_upp ha, mp_upp hb, Prod.mk.injEq] at h
    simp only at ha hb
    exact Prod.ext (by simp only; omega) (by simp only; omega)

private theorem mult_cases {n i r j : ℕ} (hr : r ≤ n) (h : n * i + r = n * j) : r = 0 ∨ r = n := by
  have hd : n ∣ r := by
    have h1 : n ∣ n * i + r := h ▸ Dvd.intro _ rfl
    exact (Nat.dvd_add_right (Dvd.intro _ rfl)).1 h1
  rcases Nat.eq_zero_or_pos r with h0 | h0
  · exact .inl h0
  · exact .inr (le_antisymm hr (Nat.le_of_dvd h0 hd))

theorem mp_scale_corner {n nx ny : ℕ} {t : LP × LP × LP} (ht : LatTri nx ny t) {a : ℕ × ℕ} (ha : a.1 + a.2 ≤ n) {b : LP}
    (h : mp n t a = scaleP n b) : IsCorner n a := by
  obtain ⟨k, l⟩ := a
  unfold IsCorner
  simp only at ha
  obtain ⟨i, j, hi, hj, rfl | rfl⟩ := latTri_cases ht
  · rw [mp_low ha, scaleP, Prod.mk.injEq] at h
    have h1 := mult_cases (r := k + l) ha (by rw [← add_assoc]; exact h.1)
    have h2 := mult_cases (r := l) (by omega) h.2
    simp only; omega
  · rw [mp_upp ha, scaleP, Prod.mk.injEq] at h
    have h1 := mult_cases (r := n - k - l) (by omega) h.1
    have h2 := mult_cases (r := n - l) (by omega) h.2
    simp only; omega

theorem adjacent_of_latEdge {nx ny : ℕ} {dg : Bool} {x : LP × LP} (h : LatEdge nx ny dg x) : Adjacent x.1 x.2 := by
  obtain ⟨i, j, ⟨-, -, rfl⟩ | ⟨-, -, rfl⟩ | ⟨-, -, rfl⟩⟩ := h
  · refine ⟨fun h => ?_, ?_, ?_⟩
    · simp only [Prod.mk.injEq] at h; omega
    · simp
    · simp
  · refine ⟨fun h => ?_, ?_, ?_⟩
    · simp only [Prod.mk.injEq] at h; omega
    · simp
    · simp
  · cases dg
    · refine ⟨fun h => ?_, ?_, ?_⟩
      · simp only [Bool.false_eq_true, if_false, Prod.mk.injEq] at h; omega
      · simp
      · simp
    · refine ⟨fun h => ?_, ?_, ?_⟩
      · simp only [if_true, Prod.mk.injEq] at h; omega
      · simp
      · simp

theorem Adjacent.symm {a b : LP} (h : Adjacent a b) : Adjacent b a :=
  ⟨fun h' => h.1 h'.symm, by rw [abs_sub_comm]; exact h.2.1, by rw [abs_sub_comm]; exact h.2.2⟩

theorem adjacent_orientL {c : Bool} {x : LP × LP} : Adjacent (orientL c x).1 (orientL c x).2 → Adjacent x.1 x.2 := by
  cases c
  · exact fun h => h.symm
  · exact fun h => h

theorem adjacent_fine {n nx ny : ℕ} {t : LP × LP × LP} (ht : LatTri nx ny t) {k l : ℕ} (hkl : k + l < n) :
    Adjacent (mp n t (k, l)) (mp n t (k + 1, l)) ∧ Adjacent (mp n t (k + 1, l)) (mp n t (k, l + 1)) ∧
      Adjacent (mp n t (k, l)) (mp n t (k, l + 1)) := by
  have key := fun x hx => adjacent_of_latEdge (fineEdges1_lat (dg := true) ht (kl := (k, l)) hkl (e := x) hx)
  simp only [fineEdges1, List.mem_cons, List.not_mem_nil, or_false, forall_eq_or_imp, forall_eq] at key
  exact ⟨adjacent_orientL key.1, adjacent_orientL key.2.1, adjacent_orientL key.2.2⟩

/-! ### the vertex loop -/

theorem Agree.same_eq {α : Type} (x : PyM α) : Agree (fun a b => b = a ∧ x = .ok a) x x := by
  cases x with
  | ok a => exact Agree.ok ⟨rfl, rfl⟩
  | error e => exact Agree.error e

/-- the states of the vertex loops after the indices `pre` -/
structure VRel (e h : ℚ) (N n : ℕ) (t : LP × LP × LP) (Q0 : List LP) (pre : List (ℕ × ℕ)) (Q : List LP) (v : VertState ℝ)
    (w : VertState ℚ) : Prop where
  grid : GRel e h N Q v.grid w.grid
  verts : w.grid.vertices = List.range Q.length
  next : v.nextVertex = Q.length
  fnext : w.nextVertex = Q.length
  tv : w.tv = v.tv
  tvQ : ∀ kl i, v.tv.get? kl = some i → Q[i]? = some (mp n t kl)
  grow : Q0 <+: Q
  fresh : w.grid.meanEdgeLength = none → ∀ kl, kl.1 + kl.2 ≤ n → ¬ IsCorner n kl → kl ∉ pre → mp n t kl ∉ Q

theorem GRel.addPoint {e h : ℚ} {N : ℕ} {Q : List LP} {g : Grid ℝ} {f : Grid ℚ} (R : GRel e h N Q g f) (v : Vertex) {a : LP}
    {q : Vec ℚ} (hq : NearPt e h a q) :
    GRel e h N (Q ++ [a]) { g with vertices := g.vertices ++ [v], points := g.points ++ [vec2 (pos (h : ℝ) a)] }
      { f with vertices := f.vertices ++ [v], points := f.points ++ [q] } := by
  refine ⟨⟨by simp [R.cells.vertices], R.cells.edges, R.cells.triangles, R.cells.boundary, R.cells.dirichlet, R.cells.neumann⟩,
    by simp [R.points], ?_, R.none_iff, R.none_edges, R.mean, R.fmean, R.count, ?_⟩
  · exact List.rel_append R.fpoints (.cons hq .nil)
  · intro x hx
    obtain ⟨a', b', h1, h2, h3⟩ := R.adj x hx
    refine ⟨a', b', ?_, ?_, h3⟩
    · rw [List.getElem?_append_left (List.getElem?_eq_some_iff.1 h1).1]; exact h1
    · rw [List.getElem?_append_left (List.getElem?_eq_some_iff.1 h2).1]; exact h2

section
variable {s : ℚ} {n m nx ny N : ℕ} {t : LP × LP × LP}

theorem refineVertex_agree (hs : 0 < s) (hn : 1 ≤ n) (hx : nx ≤ m) (hy : ny ≤ m) (hnm : n * m ≤ 10 ^ 6)
    (hsmall : 2 / 10 ^ 15 ≤ s / n) (hN : N ≤ 10 ^ 13) (ht : LatTri nx ny t) {Q0 Q : List LP} {pre : List (ℕ × ℕ)}
    {kl : ℕ × ℕ} (hkl : kl.1 + kl.2 ≤ n) (hpre : kl ∉ pre) {v : VertState ℝ} {w : VertState ℚ}
    (R : VRel (ptErr s m) (s / n) N n t Q0 pre Q v w) :
    Agree (fun v' w' => ∃ Q', VRel (ptErr s m) (s / n) N n t Q0 (pre ++ [kl]) Q' v' w')
      (refineVertex n (vec2 (pos (s : ℝ) t.1)) (vec2 (pos (s : ℝ) t.2.1)) (vec2 (pos (s : ℝ) t.2.2)) v kl)
      (F64.refineVertex n (fpt s t.1) (fpt s t.2.1) (fpt s t.2.2) w kl) := by
  have hskip : IsCorner n kl → Agree (fun v' w' => ∃ Q', VRel (ptErr s m) (s / n) N n t Q0 (pre ++ [kl]) Q' v' w')
      (.ok v) (.ok w) := by
    intro _
    refine Agree.ok ⟨Q, R.grid, R.verts, R.next, R.fnext, R.tv, R.tvQ, R.grow, ?_⟩
    intro h0 kl' h1 h2 h3
    exact R.fresh h0 kl' h1 h2 fun h4 => h3 (by simp [h4])
  unfold refineVertex F64.refineVertex
  split
  · rename_i h0; exact hskip (.inl h0)
  split
  · rename_i h0; exact hskip (.inr (.inl h0))
  split
  · rename_i h0; exact hskip (.inr (.inr h0))
  rename_i c1 c2 c3
  have hcorner : ¬ IsCorner n kl := by
    rintro (h | h | h)
    exacts [c1 h, c2 h, c3 h]
  have hh : 0 < s / n := div_pos hs (by exact_mod_cast hn)
  have hcast : (((s / n : ℚ)) : ℝ) = (s : ℝ) / n := by push_cast; rfl
  have hpt : (1 - (kl.1 : ℝ) / n - kl.2 / n) • pos (s : ℝ) t.1 + ((kl.1 : ℝ) / n) • pos (s : ℝ) t.2.1 +
      ((kl.2 : ℝ) / n) • pos (s : ℝ) t.2.2 = pos ((s / n : ℚ) : ℝ) (mp n t kl) := by
    rw [hcast]; exact (pos_mp hn t hkl).symm
  have hnear := near_fine (s := s) hs hn hx hy ht hkl
  obtain ⟨p1, p2⟩ := R.grid.pointToVertex hh (fun _ => hsmall) (ptErr_small hs hn hnm) hN hnear
    (fun h0 => R.fresh h0 kl hkl hcorner hpre)
  simp only [refBary_bounds hn hkl, vec2_smul, vec2_add, bind_ok, hpt, p1]
  have hf := ffine_eq s n t kl
  have hfl : ∀ (k : Vec ℚ → PyM (VertState ℚ)), (do
      let a ← vadd (smul (fpt s t.1) ((F64.refBary n kl.1 kl.2).assertBounds 0 1).l1)
        (smul (fpt s t.2.1) ((F64.refBary n kl.1 kl.2).assertBounds 0 1).l2)
      let q ← vadd a (smul (fpt s t.2.2) ((F64.refBary n kl.1 kl.2).assertBounds 0 1).l3)
      k q) = k (ffine s n t kl) := by
    intro k
    rw [← bind_assoc, hf]; rfl
  rw [hfl, p2]
  simp only [bind_ok]
  by_cases hin : mp n t kl ∈ Q
  · rw [if_pos hin]
    refine Agree.ok ⟨Q, R.grid, R.verts, R.next, R.fnext, by simp only [R.tv], ?_, R.grow, ?_⟩
    · intro kl' i hi
      simp only [PyDict.get?_set] at hi
      split at hi
      · rename_i he
        subst he
        rw [Option.some.injEq] at hi
        rw [← hi]; exact getElem?_lab hin
      · exact R.tvQ _ _ hi
    · intro h0 kl' h1 h2 h3
      exact R.fresh h0 kl' h1 h2 fun h4 => h3 (by simp [h4])
  · rw [if_neg hin]
    simp only [R.next, R.fnext]
    refine Agree.ok ⟨Q ++ [mp n t kl], R.grid.addPoint _ hnear, ?_, by simp, by simp, by simp only [R.tv], ?_,
      R.grow.trans (List.prefix_append _ _), ?_⟩
    · simp [R.verts, List.range_succ]
    · intro kl' i hi
      simp only [PyDict.get?_set] at hi
      split at hi
      · rename_i he
        subst he
        rw [Option.some.injEq] at hi
        rw [← hi]; simp
      · have := R.tvQ _ _ hi
        rw [List.getElem?_append_left (List.getElem?_eq_some_iff.1 this).1]; exact this
    · intro h0 kl' h1 h2 h3 h4
      rcases List.mem_append.1 h4 with h4 | h4
      · exact R.fresh h0 kl' h1 h2 (fun h5 => h3 (by simp [h5])) h4
      · have := mp_injective ht h1 hkl (List.mem_singleton.1 h4)
        exact h3 (by simp [this])

theorem nodup_vertexIndices (n : ℕ) : (vertexIndices n).Nodup := by
  unfold vertexIndices
  rw [List.nodup_flatMap]
  refine ⟨fun l _ => ?_, ?_⟩
  · exact List.Nodup.map (fun a b h => (Prod.mk.inj h).1) List.nodup_range
  · refine List.Pairwise.imp_of_mem ?_ List.nodup_range
    intro a b _ _ hab x hx hx'
    simp only [List.mem_map] at hx hx'
    obtain ⟨k, -, rfl⟩ := hx
    obtain ⟨k', -, h⟩ := hx'
    exact hab (Prod.mk.inj h).2.symm

theorem vertexLoop_agree (hs : 0 < s) (hn : 1 ≤ n) (hx : nx ≤ m) (hy : ny ≤ m) (hnm : n * m ≤ 10 ^ 6)
    (hsmall : 2 / 10 ^ 15 ≤ s / n) (hN : N ≤ 10 ^ 13) (ht : LatTri nx ny t) {Q : List LP} {v : VertState ℝ} {w : VertState ℚ}
    (R : VRel (ptErr s m) (s / n) N n t Q [] Q v w) :
    Agree (fun v' w' => ∃ Q', VRel (ptErr s m) (s / n) N n t Q (vertexIndices n) Q' v' w')
      (pyFor (vertexIndices n) v
        (refineVertex n (vec2 (pos (s : ℝ) t.1)) (vec2 (pos (s : ℝ) t.2.1)) (vec2 (pos (s : ℝ) t.2.2))))
      (pyFor (vertexIndices n) w (F64.refineVertex n (fpt s t.1) (fpt s t.2.1) (fpt s t.2.2))) := by
  refine Agree.pyFor (fun pre v w => ∃ Q', VRel (ptErr s m) (s / n) N n t Q pre Q' v w) _ ?_ v w ⟨Q, R⟩
  rintro pre kl post hl v w ⟨Q', R'⟩
  have hnd := nodup_vertexIndices n
  have hmem : kl ∈ vertexIndices n := by rw [hl]; simp
  rw [hl, List.nodup_append] at hnd
  refine refineVertex_agree hs hn hx hy hnm hsmall hN ht (mem_vertexIndices.1 hmem) ?_ R'
  intro h
  exact hnd.2.2 kl h kl (by simp) rfl

end

/-! ### dictionaries and coordinates -/

theorem SameKeys.empty {κ α β : Type} {r : α → β → Prop} : SameKeys r (PyDict.empty : PyDict κ α) PyDict.empty := .nil

theorem SameKeys.set {κ α β : Type} [DecidableEq κ] {r : α → β → Prop} {d : PyDict κ α} {d' : PyDict κ β} (h : SameKeys r d d')
    (k : κ) {a : α} {b : β} (hab : r a b) : SameKeys r (d.set k a) (d'.set k b) := by
  obtain ⟨l⟩ := d
  obtain ⟨l'⟩ := d'
  unfold SameKeys PyDict.set at *
  simp only at *
  induction h with
  | nil => exact .cons ⟨rfl, hab⟩ .nil
  | @cons x y l l' hxy h ih =>
    obtain ⟨x1, x2⟩ := x
    obtain ⟨y1, y2⟩ := y
    obtain ⟨rfl, hr⟩ := hxy
    simp only [PyDict.setL]
    split
    · exact .cons ⟨rfl, hab⟩ h
    · exact .cons ⟨rfl, hr⟩ ih

theorem SameKeys.get {κ α β : Type} [DecidableEq κ] {r : α → β → Prop} {d : PyDict κ α} {d' : PyDict κ β} (h : SameKeys r d d')
    (k : κ) : (d.get? k = none ∧ d'.get? k = none) ∨ ∃ a b, d.get? k = some a ∧ d'.get? k = some b ∧ r a b := by
  obtain ⟨l⟩ := d
  obtain ⟨l'⟩ := d'
  unfold SameKeys PyDict.get? at *
  simp only at *
  induction h with
  | nil => exact .inl ⟨rfl, rfl⟩
  | @cons x y l l' hxy h ih =>
    obtain ⟨x1, x2⟩ := x
    obtain ⟨y1, y2⟩ := y
    obtain ⟨rfl, hr⟩ := hxy
    simp only [PyDict.getL]
    split
    · exact .inr ⟨_, _, rfl, rfl, hr⟩
    · exact ih

theorem WNear.of {x y : ℚ} (h : |y - x| ≤ 8 / 2 ^ 53) : WNear (x : ℝ) y := by
  unfold WNear
  have : ((|y - x| : ℚ) : ℝ) ≤ ((8 / 2 ^ 53 : ℚ) : ℝ) := by exact_mod_cast h
  push_cast at this
  exact this

theorem refBary_near {n k l : ℕ} (hn : 1 ≤ n) (h : k + l ≤ n) : BNear (refBary n k l) (F64.refBary n k l) := by
  have hn' : (0 : ℚ) < n := by exact_mod_cast hn
  have hk : (0 : ℚ) ≤ k / n := by positivity
  have hl : (0 : ℚ) ≤ l / n := by positivity
  have hkl : (k : ℚ) / n + l / n ≤ 1 := by
    rw [← add_div, div_le_one hn']
    exact_mod_cast h
  have hk1 : |(k : ℚ) / n| ≤ 1 := by rw [abs_of_nonneg hk]; linarith
  have hl1 : |(l : ℚ) / n| ≤ 1 := by rw [abs_of_nonneg hl]; linarith
  have one : Ap 1 1 0 1 := Ap.of (by norm_num)
  have a := (Ap.of hk1).fl
  have b := (Ap.of hl1).fl
  have c : Ap (fl (1 - fl ((k : ℚ) / n))) (1 - k / n) (21 / 10 / 2 ^ 53) 1 := by
    have := (one.sub a)
    have hB : |1 - (k : ℚ) / n| ≤ 1 := by rw [abs_of_nonneg (by linarith)]; linarith
    exact (show Ap _ _ _ 1 from ⟨this.1, hB⟩).fl.mono (by norm_num) le_rfl
  have d : Ap (fl (fl (1 - fl ((k : ℚ) / n)) - fl ((l : ℚ) / n))) (1 - k / n - l / n) (42 / 10 / 2 ^ 53) 1 := by
    have := c.sub b
    have hB : |1 - (k : ℚ) / n - l / n| ≤ 1 := by rw [abs_of_nonneg (by linarith)]; linarith
    exact (show Ap _ _ _ 1 from ⟨this.1, hB⟩).fl.mono (by norm_num) le_rfl
  have f : Ap (fl (1 - fl (fl (1 - fl ((k : ℚ) / n)) - fl ((l : ℚ) / n)))) (1 - (1 - k / n - l / n)) (53 / 10 / 2 ^ 53) 1 := by
    have := one.sub d
    have hB : |1 - (1 - (k : ℚ) / n - l / n)| ≤ 1 := by rw [abs_of_nonneg (by linarith)]; linarith
    exact (show Ap _ _ _ 1 from ⟨this.1, hB⟩).fl.mono (by norm_num) le_rfl
  have g : Ap (fl (fl (1 - fl (fl (1 - fl ((k : ℚ) / n)) - fl ((l : ℚ) / n))) - fl ((k : ℚ) / n)))
      (1 - (1 - k / n - l / n) - k / n) (8 / 2 ^ 53) 1 := by
    have := f.sub a
    have hB : |1 - (1 - (k : ℚ) / n - l / n) - k / n| ≤ 1 := by rw [abs_of_nonneg (by linarith)]; linarith
    exact (show Ap _ _ _ 1 from ⟨this.1, hB⟩).fl.mono (by norm_num) le_rfl
  have w1 := WNear.of (d.1.trans (by norm_num))
  have w2 := WNear.of (a.1.trans (by norm_num))
  have w3 := WNear.of g.1
  push_cast at w1 w2 w3
  exact ⟨w1, w2, w3⟩

end Tve
