import Verif.Lemmas.GridGeom

/-! Point location and vertex lookup. -/

namespace Tve

theorem getItem0_vec2 (q : ℝ × ℝ) : (vec2 q).getItem 0 = .ok q.1 := rfl
theorem getItem1_vec2 (q : ℝ × ℝ) : (vec2 q).getItem 1 = .ok q.2 := rfl

theorem signOf_vec2 (p q r : ℝ × ℝ) : signOf (vec2 p) (vec2 q) (vec2 r) = .ok (cross p q r) := by
  simp only [signOf, getItem0_vec2, getItem1_vec2, bind_ok, pure_eq_ok, cross]
  congr 1; ring

theorem contains_vec2 (p q r z : ℝ × ℝ) :
    triangleContainsPoint (vec2 p) (vec2 q) (vec2 r) (vec2 z) =
      .ok (!(decide (cross p q z < -containsEps ∨ cross q r z < -containsEps ∨ cross r p z < -containsEps) &&
        decide (cross p q z > containsEps ∨ cross q r z > containsEps ∨ cross r p z > containsEps))) := by
  simp only [triangleContainsPoint, signOf_vec2, bind_ok, pure_eq_ok]
  rw [cross_cyc z p q, cross_cyc z q r, cross_cyc z r p]

theorem dot_vec2 (p q : ℝ × ℝ) : (vec2 p).dot (vec2 q) = p.1 * q.1 + p.2 * q.2 := by
  simp [Vec.dot, vec2]

theorem toBary_vec2 {p q r : ℝ × ℝ} (h : 0 < cross p q r) (z : ℝ × ℝ) :
    toBarycentricCoordinates (vec2 p) (vec2 q) (vec2 r) (vec2 z) =
      .ok ⟨cross q r z / cross p q r, cross r p z / cross p q r, cross p q z / cross p q r⟩ := by
  have hd : ((q.1 - p.1) * (q.1 - p.1) + (q.2 - p.2) * (q.2 - p.2)) *
      ((r.1 - p.1) * (r.1 - p.1) + (r.2 - p.2) * (r.2 - p.2)) -
      ((q.1 - p.1) * (r.1 - p.1) + (q.2 - p.2) * (r.2 - p.2)) *
      ((q.1 - p.1) * (r.1 - p.1) + (q.2 - p.2) * (r.2 - p.2)) = cross p q r ^ 2 := by
    unfold cross; ring
  have hs := cross_add p q r z
  have hne := h.ne'
  have ev : ∀ x, x / cross p q r ^ 2 = (x / cross p q r) / cross p q r := by intro x; rw [sq, div_div]
  simp only [toBarycentricCoordinates, vec2_sub, dot_vec2, bind_ok, hd, pyDiv, if_neg (pow_ne_zero 2 hne),
    pure_eq_ok, Bary.new]
  have e1 : (((r.1 - p.1) * (r.1 - p.1) + (r.2 - p.2) * (r.2 - p.2)) *
      ((z.1 - p.1) * (q.1 - p.1) + (z.2 - p.2) * (q.2 - p.2)) -
      ((q.1 - p.1) * (r.1 - p.1) + (q.2 - p.2) * (r.2 - p.2)) *
      ((z.1 - p.1) * (r.1 - p.1) + (z.2 - p.2) * (r.2 - p.2))) = cross p q r * cross r p z := by
    unfold cross; ring
  have e2 : (((q.1 - p.1) * (q.1 - p.1) + (q.2 - p.2) * (q.2 - p.2)) *
      ((z.1 - p.1) * (r.1 - p.1) + (z.2 - p.2) * (r.2 - p.2)) -
      ((q.1 - p.1) * (r.1 - p.1) + (q.2 - p.2) * (r.2 - p.2)) *
      ((z.1 - p.1) * (q.1 - p.1) + (z.2 - p.2) * (q.2 - p.2))) = cross p q r * cross p q z := by
    unfold cross; ring
  rw [e1, e2]
  have e3 : ∀ x, cross p q r * x / cross p q r ^ 2 = x / cross p q r := by intro x; field_simp
  rw [e3, e3]
  congr 1
  ext <;> simp only
  · field_simp; linarith
  · field_simp; ring

/-- reconstruction of a point from its coordinates -/
theorem baryPoint_cross {p q r : ℝ × ℝ} (h : 0 < cross p q r) (z : ℝ × ℝ) :
    baryPoint p q r (cross q r z / cross p q r) (cross r p z / cross p q r) (cross p q z / cross p q r) = z := by
  have hne := h.ne'
  ext
  · simp only [baryPoint, Prod.fst_add, Prod.smul_fst, smul_eq_mul]
    field_simp
    unfold cross; ring
  · simp only [baryPoint, Prod.snd_add, Prod.smul_snd, smul_eq_mul]
    field_simp
    unfold cross; ring

/-- acceptance bounds the coordinates from below -/
theorem contains_bound {p q r z : ℝ × ℝ} {A : ℝ} (hA : cross p q r = A)
    (h : triangleContainsPoint (vec2 p) (vec2 q) (vec2 r) (vec2 z) = .ok true) :
    min (-containsEps) (A - 2 * containsEps) ≤ cross p q z ∧ min (-containsEps) (A - 2 * containsEps) ≤ cross q r z ∧
      min (-containsEps) (A - 2 * containsEps) ≤ cross r p z := by
  rw [contains_vec2] at h
  have hs := cross_add p q r z
  rw [hA] at hs
  simp only [Except.ok.injEq, Bool.not_eq_true', Bool.and_eq_false_iff, decide_eq_false_iff_not, not_or, not_lt,
    gt_iff_lt] at h
  rcases h with ⟨h1, h2, h3⟩ | ⟨h1, h2, h3⟩
  · exact ⟨(min_le_left _ _).trans h1, (min_le_left _ _).trans h2, (min_le_left _ _).trans h3⟩
  · refine ⟨(min_le_right _ _).trans ?_, (min_le_right _ _).trans ?_, (min_le_right _ _).trans ?_⟩ <;> linarith

theorem contains_of_mem {p q r z : ℝ × ℝ} (h0 : 0 < cross p q r) (h : z ∈ closedTriangle p q r) :
    triangleContainsPoint (vec2 p) (vec2 q) (vec2 r) (vec2 z) = .ok true := by
  obtain ⟨h1, h2, h3⟩ := (mem_closedTriangle_iff h0).1 h
  have he : (0 : ℝ) < containsEps := by unfold containsEps; norm_num
  rw [contains_vec2]
  congr 1
  rw [decide_eq_false]
  · simp
  · rintro (h | h | h) <;> linarith

section
variable {g : Grid ℝ} {nx ny : ℕ} {h : ℝ} {P : List LP} {dg : Bool} {E : List (LP × LP)}
  {T : List (LP × LP × LP)} {BV : List LP} {BE : List (LP × LP)}

/-- what a successful location means for lattice triangles -/
def LocatedL (h : ℝ) (z : ℝ × ℝ) (t : LP × LP × LP) (c : Bary ℝ) : Prop :=
  triangleContainsPoint (vec2 (pos h t.1)) (vec2 (pos h t.2.1)) (vec2 (pos h t.2.2)) (vec2 z) = .ok true ∧
  c = ⟨cross (pos h t.2.1) (pos h t.2.2) z / h ^ 2, cross (pos h t.2.2) (pos h t.1) z / h ^ 2,
    cross (pos h t.1) (pos h t.2.1) z / h ^ 2⟩

theorem locate_lattice (hh : 0 < h) (z : ℝ × ℝ) (ts : List (LP × LP × LP))
    (hts : ∀ t ∈ ts, LatTri nx ny t ∧ t.1 ∈ P ∧ t.2.1 ∈ P ∧ t.2.2 ∈ P) :
    (∃ t ∈ ts, ∃ c, LocatedL h z t c ∧
      Grid.locate (P.map fun a => vec2 (pos h a)) (vec2 z) (ts.map (labT P)) = .ok (some ⟨labT P t, c⟩)) ∨
    ((∀ t ∈ ts, z ∉ regionL h t) ∧
      Grid.locate (P.map fun a => vec2 (pos h a)) (vec2 z) (ts.map (labT P)) = .ok none) := by
  induction ts with
  | nil => right; exact ⟨by simp, rfl⟩
  | cons t ts ih =>
    obtain ⟨hl, h1, h2, h3⟩ := hts t (by simp)
    have hA := (latTri_geom (h := h) hl).1
    have hA0 : 0 < cross (pos h t.1) (pos h t.2.1) (pos h t.2.2) := by rw [hA]; positivity
    have hstep : Grid.locate (P.map fun a => vec2 (pos h a)) (vec2 z) ((t :: ts).map (labT P)) =
        (triangleContainsPoint (vec2 (pos h t.1)) (vec2 (pos h t.2.1)) (vec2 (pos h t.2.2)) (vec2 z) >>= fun b =>
          if b then (toBarycentricCoordinates (vec2 (pos h t.1)) (vec2 (pos h t.2.1)) (vec2 (pos h t.2.2)) (vec2 z)
            >>= fun c => pure (some ⟨labT P t, c⟩))
          else Grid.locate (P.map fun a => vec2 (pos h a)) (vec2 z) (ts.map (labT P))) := by
      rw [List.map_cons, Grid.locate]
      simp only [labT]
      rw [pyGet_lab h1, pyGet_lab h2, pyGet_lab h3]
      rfl
    have hb : ∃ b, triangleContainsPoint (vec2 (pos h t.1)) (vec2 (pos h t.2.1)) (vec2 (pos h t.2.2)) (vec2 z) = .ok b :=
      ⟨_, contains_vec2 _ _ _ _⟩
    obtain ⟨b, hb⟩ := hb
    rw [hstep, hb]
    cases b with
    | true =>
      left
      refine ⟨t, by simp, _, ⟨hb, rfl⟩, ?_⟩
      simp only [bind_ok, if_true, toBary_vec2 hA0, hA, pure_eq_ok]
    | false =>
      simp only [bind_ok, Bool.false_eq_true, if_false]
      rcases ih (fun t' ht' => hts t' (by simp [ht'])) with ⟨t', ht', c, hc, e⟩ | ⟨hn, e⟩
      · left; exact ⟨t', by simp [ht'], c, hc, e⟩
      · right
        refine ⟨?_, e⟩
        intro t' ht'
        rcases List.mem_cons.1 ht' with rfl | ht'
        · intro hz
          rw [contains_of_mem hA0 hz] at hb
          cases hb
        · exact hn t' ht'

/-! ### vertex lookup -/

theorem lenL_bounds (hh : 0 < h) {e : LP × LP} (he : LatEdge nx ny dg e) : h ≤ lenL h e ∧ lenL h e ≤ 2 * h := by
  have h1 : h = Real.sqrt (h ^ 2) := (Real.sqrt_sq hh.le).symm
  have key : ∀ x : ℝ, h ^ 2 ≤ x → x ≤ (2 * h) ^ 2 → h ≤ Real.sqrt x ∧ Real.sqrt x ≤ 2 * h := by
    intro x hx1 hx2
    refine ⟨?_, ?_⟩
    · calc h = Real.sqrt (h ^ 2) := h1
        _ ≤ Real.sqrt x := Real.sqrt_le_sqrt hx1
    · calc Real.sqrt x ≤ Real.sqrt ((2 * h) ^ 2) := Real.sqrt_le_sqrt hx2
        _ = 2 * h := Real.sqrt_sq (by linarith)
  apply key
  all_goals
    obtain ⟨i, j, ⟨_, _, rfl⟩ | ⟨_, _, rfl⟩ | ⟨_, _, rfl⟩⟩ := he
    · push_cast; nlinarith [sq_nonneg h]
    · push_cast; nlinarith [sq_nonneg h]
    · cases dg <;> simp <;> nlinarith [sq_nonneg h]

theorem sum_bounds (hh : 0 < h) {E : List (LP × LP)} (hE : ∀ e ∈ E, LatEdge nx ny dg e) :
    h * E.length ≤ (E.map (lenL h)).sum ∧ (E.map (lenL h)).sum ≤ 2 * h * E.length := by
  induction E with
  | nil => simp
  | cons e t ih =>
    have h1 := lenL_bounds hh (hE e (by simp))
    have h2 := ih (fun e' he' => hE e' (by simp [he']))
    simp only [List.map_cons, List.sum_cons, List.length_cons]
    push_cast
    constructor <;> linarith

theorem mean_bounds (hh : 0 < h) {E : List (LP × LP)} (hE : ∀ e ∈ E, LatEdge nx ny dg e) (hne : E ≠ []) :
    h ≤ (E.map (lenL h)).sum / (E.length : ℝ) ∧ (E.map (lenL h)).sum / (E.length : ℝ) ≤ 2 * h := by
  have hl : (0 : ℝ) < E.length := by exact_mod_cast List.length_pos_iff.2 hne
  have := sum_bounds hh hE
  rw [le_div_iff₀ hl, div_le_iff₀ hl]
  exact this

theorem coincide_vec2 (g : Grid ℝ) (p q : ℝ × ℝ) :
    g.pointsCoincide (vec2 p) (vec2 q) = .ok (decide (dist2 p q < g.tolerance)) := by
  simp only [Grid.pointsCoincide, vec2_sub, bind_ok, pure_eq_ok, norm_vec2]
  rfl

/-- lookup returns the first index whose point is close -/
theorem findPoint_vec2 (g : Grid ℝ) (z : ℝ × ℝ) (qs : List (ℝ × ℝ)) (i : ℕ) :
    g.findPoint (vec2 z) (qs.map vec2) i =
      .ok ((qs.findIdx? fun q => decide (dist2 z q < g.tolerance)).map fun k => i + k) := by
  induction qs generalizing i with
  | nil => rfl
  | cons q t ih =>
    rw [List.map_cons, Grid.findPoint, coincide_vec2]
    simp only [bind_ok]
    rw [List.findIdx?_cons]
    by_cases hq : dist2 z q < g.tolerance
    · simp [hq]
    · simp only [hq, decide_false, Bool.false_eq_true, if_false]
      rw [ih]
      cases List.findIdx? (fun q => decide (dist2 z q < g.tolerance)) t with
      | none => rfl
      | some k => simp only [Option.map_some, Except.ok.injEq, Option.some.injEq]; exact (show i + 1 + k = i + (k + 1) by omega)

theorem dist2_self (p : ℝ × ℝ) : dist2 p p = 0 := by simp [dist2]

theorem dist2_pos_ge (hh : 0 < h) {a b : LP} (hab : a ≠ b) : h ≤ dist2 (pos h a) (pos h b) := by
  have h1 : h = Real.sqrt (h ^ 2) := (Real.sqrt_sq hh.le).symm
  rw [h1, dist2]
  apply Real.sqrt_le_sqrt
  simp only [← h1]
  have key : ∀ m n : ℕ, m ≠ n → (1 : ℝ) ≤ ((m : ℝ) - n) ^ 2 := by
    intro m n hmn
    rcases Nat.lt_or_gt_of_ne hmn with h' | h'
    · have : (m : ℝ) + 1 ≤ n := by exact_mod_cast h'
      nlinarith
    · have : (n : ℝ) + 1 ≤ m := by exact_mod_cast h'
      nlinarith
  have e : (pos h a).1 - (pos h b).1 = ((a.1 : ℝ) - b.1) * h ∧ (pos h a).2 - (pos h b).2 = ((a.2 : ℝ) - b.2) * h := by
    simp only [pos]; constructor <;> ring
  rw [e.1, e.2, mul_pow, mul_pow]
  by_cases h1 : a.1 = b.1
  · have h2 : a.2 ≠ b.2 := fun h2 => hab (Prod.ext h1 h2)
    nlinarith [key _ _ h2, sq_nonneg h, mul_nonneg (sq_nonneg ((a.1 : ℝ) - b.1)) (sq_nonneg h)]
  · nlinarith [key _ _ h1, sq_nonneg h, mul_nonneg (sq_nonneg ((a.2 : ℝ) - b.2)) (sq_nonneg h)]

/-- vertex lookup in a list of lattice points with a small positive tolerance -/
theorem pointToVertex_pos {g : Grid ℝ} (hh : 0 < h) (hp : g.points = P.map fun a => vec2 (pos h a))
    (ht0 : 0 < g.tolerance) (ht1 : g.tolerance ≤ h) (a : LP) :
    g.pointToVertex (vec2 (pos h a)) = .ok (if a ∈ P then some (lab P a) else none) := by
  have hp' : g.points = (P.map (pos h)).map vec2 := by rw [hp, List.map_map]; rfl
  rw [Grid.pointToVertex, hp', findPoint_vec2]
  congr 1
  have hiff : ∀ b, (dist2 (pos h a) (pos h b) < g.tolerance) ↔ b = a := by
    intro b
    constructor
    · intro hd
      by_contra hne
      have := dist2_pos_ge hh (a := a) (b := b) (fun h => hne h.symm)
      linarith
    · rintro rfl; rw [dist2_self]; exact ht0
  rw [List.findIdx?_map]
  have hf : ((fun q => decide (dist2 (pos h a) q < g.tolerance)) ∘ pos h) = fun b => decide (b = a) := by
    funext b; simp only [Function.comp, decide_eq_decide]; exact hiff b
  rw [hf]
  split
  · rename_i ha
    have : List.findIdx? (fun b => decide (b = a)) P = some (lab P a) := by
      rw [List.findIdx?_eq_some_iff_findIdx_eq]
      refine ⟨lab_lt ha, ?_⟩
      rw [lab, List.idxOf]
      congr 1
      funext b; exact (beq_eq_decide b a).symm
    rw [this]; simp
  · rename_i ha
    have : List.findIdx? (fun b => decide (b = a)) P = none := by
      rw [List.findIdx?_eq_none_iff]
      intro b hb
      simp only [decide_eq_false_iff_not]
      rintro rfl; exact ha hb
    rw [this]; rfl

theorem Lattice.E_ne (L : Lattice g nx ny h P dg E T BV BE) : E ≠ [] := by
  intro h0
  have : ((0, 0), (1, 0)) ∈ E := (L.memE _).2 ⟨0, 0, .inl ⟨L.hx, by omega, rfl⟩⟩
  rw [h0] at this; simp at this

theorem Lattice.tolerance_eq (L : Lattice g nx ny h P dg E T BV BE) :
    g.tolerance = (E.map (lenL h)).sum / (E.length : ℝ) / 10 ^ 7 := by
  rw [Grid.tolerance, L.mean]

theorem Lattice.tolerance_bounds (L : Lattice g nx ny h P dg E T BV BE) :
    0 < g.tolerance ∧ g.tolerance ≤ h := by
  have := mean_bounds L.h_pos (fun e he => (L.memE e).1 he) L.E_ne
  have hh := L.h_pos
  rw [L.tolerance_eq]
  constructor
  · exact div_pos (by linarith) (by norm_num)
  · rw [div_le_iff₀ (by norm_num)]
    nlinarith

end
end Tve
