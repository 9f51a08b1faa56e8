import Verif.Lemmas.FloatNorm
import Verif.Lemmas.GridLocate
import Verif.Lemmas.RefineTri
import Verif.Spec.FloatGrid

/-!
# Exact and double precision runs of grid operations side by side
-/

namespace Tve
open F64

/-- both computations raise the same exception, or both succeed with related results -/
def Agree {α β : Type} (r : α → β → Prop) (x : PyM α) (y : PyM β) : Prop :=
  (∃ a b, x = .ok a ∧ y = .ok b ∧ r a b) ∨ ∃ e, x = .error e ∧ y = .error e

namespace Agree
variable {α β γ δ : Type} {r : α → β → Prop}

theorem ok {a : α} {b : β} (h : r a b) : Agree r (.ok a) (.ok b) := .inl ⟨a, b, rfl, rfl, h⟩

theorem error (e : PyErr) : Agree r (.error e) (.error e) := .inr ⟨e, rfl, rfl⟩

theorem same (x : PyM α) : Agree (fun a b => b = a) x x := by
  cases x with
  | ok a => exact ok rfl
  | error e => exact error e

theorem bind {q : γ → δ → Prop} {x : PyM α} {y : PyM β} {f : α → PyM γ} {g : β → PyM δ} (h : Agree r x y)
    (hf : ∀ a b, r a b → Agree q (f a) (g b)) : Agree q (x >>= f) (y >>= g) := by
  rcases h with ⟨a, b, rfl, rfl, h⟩ | ⟨e, rfl, rfl⟩
  · exact hf a b h
  · exact error e

theorem mono {q : α → β → Prop} {x : PyM α} {y : PyM β} (h : Agree r x y) (hq : ∀ a b, r a b → q a b) : Agree q x y := by
  rcases h with ⟨a, b, rfl, rfl, h⟩ | ⟨e, rfl, rfl⟩
  · exact ok (hq a b h)
  · exact error e

/-- two loops over the same list -/
theorem pyFor {σ τ ι : Type} (R : List ι → σ → τ → Prop) {f : σ → ι → PyM σ} {g : τ → ι → PyM τ} (l : List ι)
    (hstep : ∀ pre a post, l = pre ++ a :: post → ∀ s t, R pre s t → Agree (R (pre ++ [a])) (f s a) (g t a)) :
    ∀ s t, R [] s t → Agree (R l) (Tve.pyFor l s f) (Tve.pyFor l t g) := by
  have key : ∀ (post pre : List ι), l = pre ++ post → ∀ s t, R pre s t →
      Agree (R l) (Tve.pyFor post s f) (Tve.pyFor post t g) := by
    intro post
    induction post with
    | nil => intro pre hl s t h; rw [List.append_nil] at hl; subst hl; exact ok h
    | cons a post ih =>
      intro pre hl s t h
      refine (hstep pre a post hl s t h).bind fun s' t' h' => ih (pre ++ [a]) (by simp [hl]) s' t' h'
  exact fun s t h => key l [] rfl s t h

end Agree

/-! ### related grids -/

/-- the points are the lattice points `Q`, exactly in one grid and up to `e` in the other, and the mean edge lengths are as
computed from edges between neighbouring lattice points -/
structure GRel (e h : ℚ) (N : ℕ) (Q : List LP) (g : Grid ℝ) (f : Grid ℚ) : Prop where
  cells : SameCells g f
  points : g.points = Q.map fun a => vec2 (pos (h : ℝ) a)
  fpoints : List.Forall₂ (NearPt e h) Q f.points
  none_iff : g.meanEdgeLength = none ↔ f.meanEdgeLength = none
  none_edges : f.meanEdgeLength = none → f.edges = []
  mean : ∀ m, g.meanEdgeLength = some m → (h : ℝ) ≤ m ∧ m ≤ 2 * h
  fmean : ∀ m, f.meanEdgeLength = some m → h * (98 / 100) * (1 - 4 * f.edges.length / 2 ^ 53) ≤ m ∧
    m ≤ h * (142 / 100) * (1 + 4 * f.edges.length / 2 ^ 53)
  count : f.edges.length ≤ N
  adj : ∀ x ∈ f.edges, ∃ a b, Q[x.1]? = some a ∧ Q[x.2]? = some b ∧ Adjacent a b

section
variable {e h : ℚ} {N : ℕ} {Q : List LP} {g : Grid ℝ} {f : Grid ℚ}

theorem GRel.cast_pos (hh : 0 < h) : (0 : ℝ) < h := by exact_mod_cast hh

theorem GRel.tolerance_exact (R : GRel e h N Q g f) (hh : 0 < h) (hs : f.meanEdgeLength = none → 2 / 10 ^ 15 ≤ h) :
    0 < g.tolerance ∧ g.tolerance ≤ h := by
  have hh' : (0 : ℝ) < h := by exact_mod_cast hh
  unfold Grid.tolerance
  cases hm : g.meanEdgeLength with
  | none =>
    have hs := hs (R.none_iff.1 hm)
    have : (2 / 10 ^ 15 : ℝ) ≤ h := by
      have : ((2 / 10 ^ 15 : ℚ) : ℝ) ≤ (h : ℝ) := by exact_mod_cast hs
      push_cast at this; exact this
    simp only
    exact ⟨by norm_num, by norm_num at *; linarith⟩
  | some m =>
    obtain ⟨h1, h2⟩ := R.mean m hm
    simp only
    constructor
    · exact div_pos (by linarith) (by norm_num)
    · rw [div_le_iff₀ (by norm_num)]; nlinarith

theorem count_small {k N : ℕ} (h : k ≤ N) (hN : N ≤ 10 ^ 13) : 4 * (k : ℚ) / 2 ^ 53 ≤ 1 / 200 := by
  have : (k : ℚ) ≤ ((10 ^ 13 : ℕ) : ℚ) := Nat.cast_le.2 (h.trans hN)
  push_cast at this
  rw [div_le_iff₀ (by norm_num)]
  linarith

theorem GRel.tolerance_float (R : GRel e h N Q g f) (hh : 0 < h) (hs : f.meanEdgeLength = none → 2 / 10 ^ 15 ≤ h) (hN : N ≤ 10 ^ 13) :
    F64.tolerance f < h * (98 / 100) ∧ (f.meanEdgeLength ≠ none → h / 10 ^ 8 < F64.tolerance f) := by
  unfold F64.tolerance
  cases hm : f.meanEdgeLength with
  | none =>
    simp only [ne_eq, not_true_eq_false, false_implies, and_true]
    have := fl_le (x := 1 / 10 ^ 15) (by norm_num) le_rfl
    have hs := hs hm
    norm_num at *; linarith
  | some m =>
    obtain ⟨h1, h2⟩ := R.fmean m hm
    have hk := count_small R.count hN
    have m1 : h * (97 / 100) ≤ m := by
      refine le_trans ?_ h1
      nlinarith
    have m2 : m ≤ h * (143 / 100) := by
      refine le_trans h2 ?_
      nlinarith
    simp only
    have a1 : h * (97 / 100) / 10 ^ 7 ≤ m / 10 ^ 7 := div_le_div_of_nonneg_right m1 (by norm_num)
    have a2 : m / 10 ^ 7 ≤ h * (143 / 100) / 10 ^ 7 := div_le_div_of_nonneg_right m2 (by norm_num)
    have b1 := fl_ge (by positivity) a1
    have b2 := fl_le (div_nonneg (le_trans (by positivity) m1) (by norm_num) : 0 ≤ m / 10 ^ 7) a2
    constructor
    · norm_num at *; linarith
    · intro _; norm_num at *; linarith

theorem findPoint_near (hh : 0 < h) (he : e ≤ h * (2 / 10 ^ 9)) {a : LP} {q : Vec ℚ} (hq : NearPt e h a q)
    (ht1 : F64.tolerance f < h * (98 / 100)) (ht2 : a ∈ Q → h / 10 ^ 8 < F64.tolerance f) {pts : List (Vec ℚ)}
    (hp : List.Forall₂ (NearPt e h) Q pts) (i : ℕ) :
    F64.findPoint f q pts i = .ok (if a ∈ Q then some (i + lab Q a) else none) := by
  induction hp generalizing i with
  | nil => rfl
  | @cons b p Q pts hb hp ih =>
    rw [F64.findPoint, F64.pointsCoincide]
    by_cases hab : a = b
    · subst hab
      obtain ⟨d, e1, h1⟩ := dist_same he hq hb
      have : F64.norm d < F64.tolerance f := lt_of_le_of_lt h1 (ht2 (by simp))
      simp [e1, this, lab]
    · obtain ⟨d, e1, h1⟩ := dist_ne hh he hab hq hb
      have hlt : ¬ F64.norm d < F64.tolerance f := not_lt.2 (by linarith)
      have hl : lab (b :: Q) a = lab Q a + 1 := by
        unfold lab; rw [List.idxOf_cons_ne _ (fun h => hab h.symm)]
      rw [e1]
      simp only [bind_ok, pure_eq_ok, hlt, decide_false, Bool.false_eq_true, if_false]
      rw [ih (fun ha => ht2 (by simp [ha]))]
      simp only [List.mem_cons, hab, false_or, hl]
      split
      · rw [show i + 1 + lab Q a = i + (lab Q a + 1) by omega]
      · rfl

/-- both searches for a lattice point give the same vertex -/
theorem GRel.pointToVertex (R : GRel e h N Q g f) (hh : 0 < h) (hs : f.meanEdgeLength = none → 2 / 10 ^ 15 ≤ h) (he : e ≤ h * (2 / 10 ^ 9))
    (hN : N ≤ 10 ^ 13) {a : LP} {q : Vec ℚ} (hq : NearPt e h a q) (ha : f.meanEdgeLength = none → a ∉ Q) :
    g.pointToVertex (vec2 (pos (h : ℝ) a)) = .ok (if a ∈ Q then some (lab Q a) else none) ∧
      F64.pointToVertex f q = .ok (if a ∈ Q then some (lab Q a) else none) := by
  obtain ⟨t1, t2⟩ := R.tolerance_exact hh hs
  obtain ⟨f1, f2⟩ := R.tolerance_float hh hs hN
  refine ⟨pointToVertex_pos (by exact_mod_cast hh) R.points t1 t2 a, ?_⟩
  rw [F64.pointToVertex, findPoint_near hh he hq f1 (fun h' => f2 fun h0 => ha h0 h') R.fpoints]
  simp

/-! ### edges -/

theorem near_get {pts : List (Vec ℚ)} (hp : List.Forall₂ (NearPt e h) Q pts) {i : ℕ} {a : LP} (hi : Q[i]? = some a) :
    ∃ p, pts[i]? = some p ∧ NearPt e h a p := by
  induction hp generalizing i with
  | nil => simp at hi
  | @cons b p Q pts hb hp ih =>
    cases i with
    | zero => simp only [List.getElem?_cons_zero, Option.some.injEq] at hi; subst hi; exact ⟨p, by simp, hb⟩
    | succ i => simp only [List.getElem?_cons_succ] at hi ⊢; exact ih hi

theorem edgeLength_near (hh : 0 < h) (he : e ≤ h * (2 / 10 ^ 9)) {pts : List (Vec ℚ)}
    (hp : List.Forall₂ (NearPt e h) Q pts) {i j : ℕ} {a b : LP} (hi : Q[i]? = some a) (hj : Q[j]? = some b)
    (hab : Adjacent a b) :
    ∃ L, F64.edgeLength pts (i, j) = .ok L ∧ h * (98 / 100) ≤ L ∧ L ≤ h * (142 / 100) := by
  obtain ⟨p, hp1, hp2⟩ := near_get hp hi
  obtain ⟨q, hq1, hq2⟩ := near_get hp hj
  obtain ⟨d, e1, h1, h2⟩ := dist_adjacent hh he hab hp2 hq2
  refine ⟨_, ?_, h1, h2⟩
  simp [F64.edgeLength, pyGet, hp1, hq1, e1]

theorem dist2_adjacent {h : ℝ} (hh : 0 < h) {a b : LP} (hab : Adjacent a b) :
    h ≤ dist2 (pos h a) (pos h b) ∧ dist2 (pos h a) (pos h b) ≤ 2 * h := by
  refine ⟨dist2_pos_ge hh hab.1, ?_⟩
  have key : ∀ m k : ℕ, |(m : ℚ) - k| ≤ 1 → ((m : ℝ) * h - k * h) ^ 2 ≤ h ^ 2 := by
    intro m k hmk
    have : |(m : ℝ) - k| ≤ 1 := by
      have : ((|(m : ℚ) - k| : ℚ) : ℝ) ≤ ((1 : ℚ) : ℝ) := by exact_mod_cast hmk
      push_cast at this; exact this
    have h2 : ((m : ℝ) - k) ^ 2 ≤ 1 := by rw [sq_le_one_iff_abs_le_one]; exact this
    rw [← sub_mul, mul_pow]
    nlinarith [sq_nonneg h]
  have h1 := key _ _ hab.2.1
  have h2 := key _ _ hab.2.2
  unfold dist2
  rw [show 2 * h = Real.sqrt ((2 * h) ^ 2) from (Real.sqrt_sq (by linarith)).symm]
  apply Real.sqrt_le_sqrt
  simp only [pos]
  nlinarith

theorem gridEdgeLength_exact {h : ℝ} (hh : 0 < h) {i j : ℕ} {a b : LP} (hi : Q[i]? = some a) (hj : Q[j]? = some b)
    (hab : Adjacent a b) :
    ∃ L, gridEdgeLength (Q.map fun a => vec2 (pos h a)) (i, j) = .ok L ∧ h ≤ L ∧ L ≤ 2 * h := by
  obtain ⟨h1, h2⟩ := dist2_adjacent hh hab
  refine ⟨_, ?_, h1, h2⟩
  simp only [gridEdgeLength, pyGet, List.getElem?_map, hi, hj, Option.map_some, bind_ok, vec2_sub, norm_vec2, pure_eq_ok]
  rfl

theorem mean_step_le {H m L : ℚ} {k : ℕ} (hH : 0 ≤ H) (hk : 4 * (k : ℚ) / 2 ^ 53 ≤ 1 / 200) (m0 : 0 ≤ m) (L0 : 0 ≤ L)
    (hm : m ≤ H * (1 + 4 * k / 2 ^ 53)) (hL : L ≤ H) :
    fl (fl (fl (m * k) / (k + 1)) + fl (L / (k + 1))) ≤ H * (1 + 4 * (k + 1) / 2 ^ 53) := by
  obtain ⟨u, hu⟩ : ∃ u : ℚ, u = 1 / 2 ^ 53 := ⟨_, rfl⟩
  have hu0 : 0 < u := by positivity
  have hu1 : u ≤ 1 / 1000000 := by rw [hu]; norm_num
  have hku : 4 * (k : ℚ) / 2 ^ 53 = 4 * k * u := by rw [hu]; ring
  have hku' : 4 * ((k : ℚ) + 1) / 2 ^ 53 = 4 * (k + 1) * u := by rw [hu]; ring
  rw [hku] at hm hk
  rw [hku']
  have hk1 : (0 : ℚ) < k + 1 := by positivity
  have a1 : fl (m * k) ≤ H * (1 + 4 * k * u) * k * (1 + u) := by
    have := fl_le (x := m * k) (b := H * (1 + 4 * k * u) * k) (by positivity) (by gcongr)
    rwa [← hu] at this
  have a0 : 0 ≤ fl (m * k) := fl_nonneg (by positivity)
  have b1 : fl (fl (m * k) / (k + 1)) ≤ H * (1 + 4 * k * u) * k * (1 + u) / (k + 1) * (1 + u) := by
    have := fl_le (x := fl (m * k) / (k + 1)) (b := H * (1 + 4 * k * u) * k * (1 + u) / (k + 1)) (by positivity) (by gcongr)
    rwa [← hu] at this
  have b0 : 0 ≤ fl (fl (m * k) / (k + 1)) := fl_nonneg (by positivity)
  have c1 : fl (L / (k + 1)) ≤ H / (k + 1) * (1 + u) := by
    have := fl_le (x := L / (k + 1)) (b := H / (k + 1)) (by positivity) (by gcongr)
    rwa [← hu] at this
  have c0 : 0 ≤ fl (L / (k + 1)) := fl_nonneg (by positivity)
  have d1 := fl_le (add_nonneg b0 c0) (add_le_add b1 c1)
  rw [← hu] at d1
  refine d1.trans ?_
  have e1 : H * (1 + 4 * k * u) * k * (1 + u) / (k + 1) * (1 + u) + H / (k + 1) * (1 + u) ≤
      H * (1 + 4 * k * u) * (1 + u) * (1 + u) := by
    have i1 : H / (k + 1) * (1 + u) ≤ H * (1 + 4 * k * u) * (1 + u) / (k + 1) * (1 + u) := by
      have : H ≤ H * (1 + 4 * k * u) * (1 + u) := by
        have : 1 ≤ (1 + 4 * k * u) * (1 + u) := one_le_mul_of_one_le_of_one_le (by have : 0 ≤ 4 * k * u := by positivity
                                                                                   linarith) (by linarith)
        nlinarith
      gcongr
    calc _ ≤ H * (1 + 4 * k * u) * k * (1 + u) / (k + 1) * (1 + u) + H * (1 + 4 * k * u) * (1 + u) / (k + 1) * (1 + u) := by
          linarith
      _ = _ := by field_simp
  calc _ ≤ H * (1 + 4 * k * u) * (1 + u) * (1 + u) * (1 + u) := mul_le_mul_of_nonneg_right e1 (by linarith)
    _ = H * ((1 + 4 * k * u) * ((1 + u) * (1 + u) * (1 + u))) := by ring
    _ ≤ H * (1 + 4 * (k + 1) * u) := by
        apply mul_le_mul_of_nonneg_left _ hH
        have : (1 + u) * (1 + u) * (1 + u) ≤ 1 + (3 + 1 / 10) * u := by nlinarith
        have hk0 : 0 ≤ 4 * (k : ℚ) * u := by positivity
        calc _ ≤ (1 + 4 * k * u) * (1 + (3 + 1 / 10) * u) := mul_le_mul_of_nonneg_left this (by linarith)
          _ ≤ _ := by nlinarith

theorem mean_step_ge {H m L : ℚ} {k : ℕ} (hH : 0 ≤ H) (hk : 4 * (k : ℚ) / 2 ^ 53 ≤ 1 / 200)
    (hm : H * (1 - 4 * k / 2 ^ 53) ≤ m) (hL : H ≤ L) :
    H * (1 - 4 * (k + 1) / 2 ^ 53) ≤ fl (fl (fl (m * k) / (k + 1)) + fl (L / (k + 1))) := by
  obtain ⟨u, hu⟩ : ∃ u : ℚ, u = 1 / 2 ^ 53 := ⟨_, rfl⟩
  have hu0 : 0 < u := by positivity
  have hu1 : u ≤ 1 / 1000000 := by rw [hu]; norm_num
  have hku : 4 * (k : ℚ) / 2 ^ 53 = 4 * k * u := by rw [hu]; ring
  have hku' : 4 * ((k : ℚ) + 1) / 2 ^ 53 = 4 * (k + 1) * u := by rw [hu]; ring
  rw [hku] at hm hk
  rw [hku']
  have hk1 : (0 : ℚ) < k + 1 := by positivity
  have hu2 : 0 ≤ 1 - u := by linarith
  have hk2 : 0 ≤ 1 - 4 * k * u := by linarith
  have hk3 : 0 ≤ 4 * (k : ℚ) * u := by positivity
  have a1 : H * (1 - 4 * k * u) * k * (1 - u) ≤ fl (m * k) := by
    have := fl_ge (x := m * k) (a := H * (1 - 4 * k * u) * k) (by positivity) (by gcongr)
    rwa [← hu] at this
  have b1 : H * (1 - 4 * k * u) * k * (1 - u) / (k + 1) * (1 - u) ≤ fl (fl (m * k) / (k + 1)) := by
    have := fl_ge (x := fl (m * k) / (k + 1)) (a := H * (1 - 4 * k * u) * k * (1 - u) / (k + 1)) (by positivity) (by gcongr)
    rwa [← hu] at this
  have c1 : H / (k + 1) * (1 - u) ≤ fl (L / (k + 1)) := by
    have := fl_ge (x := L / (k + 1)) (a := H / (k + 1)) (by positivity) (by gcongr)
    rwa [← hu] at this
  have d1 := fl_ge (by positivity) (add_le_add b1 c1)
  rw [← hu] at d1
  refine le_trans ?_ d1
  have e1 : H * (1 - 4 * k * u) * (1 - u) * (1 - u) ≤
      H * (1 - 4 * k * u) * k * (1 - u) / (k + 1) * (1 - u) + H / (k + 1) * (1 - u) := by
    have i1 : H * (1 - 4 * k * u) * (1 - u) / (k + 1) * (1 - u) ≤ H / (k + 1) * (1 - u) := by
      have : H * (1 - 4 * k * u) * (1 - u) ≤ H := by
        have : (1 - 4 * k * u) * (1 - u) ≤ 1 := mul_le_one₀ (by linarith) hu2 (by linarith)
        nlinarith
      gcongr
    calc _ = H * (1 - 4 * k * u) * k * (1 - u) / (k + 1) * (1 - u) + H * (1 - 4 * k * u) * (1 - u) / (k + 1) * (1 - u) := by
          field_simp
      _ ≤ _ := by linarith
  calc H * (1 - 4 * (k + 1) * u) ≤ H * ((1 - 4 * k * u) * ((1 - u) * (1 - u) * (1 - u))) := by
        apply mul_le_mul_of_nonneg_left _ hH
        have : 1 - 3 * u ≤ (1 - u) * (1 - u) * (1 - u) := by nlinarith
        calc _ ≤ (1 - 4 * k * u) * (1 - 3 * u) := by nlinarith
          _ ≤ _ := mul_le_mul_of_nonneg_left this hk2
    _ = H * (1 - 4 * k * u) * (1 - u) * (1 - u) * (1 - u) := by ring
    _ ≤ _ := mul_le_mul_of_nonneg_right e1 hu2

/-- appending an edge between neighbouring lattice points -/
theorem GRel.appendEdge (R : GRel e h N Q g f) (hh : 0 < h) (he : e ≤ h * (2 / 10 ^ 9)) (hN : N ≤ 10 ^ 13) {i j : ℕ}
    {a b : LP} (hi : Q[i]? = some a) (hj : Q[j]? = some b) (hab : Adjacent a b) :
    Agree (fun g' f' => GRel e h (N + 1) Q g' f' ∧ f'.meanEdgeLength ≠ none)
      (g.appendEdge (i, j)) (F64.appendEdge f (i, j)) := by
  have hh' : (0 : ℝ) < h := by exact_mod_cast hh
  obtain ⟨Lf, ef, f1, f2⟩ := edgeLength_near hh he R.fpoints hi hj hab
  obtain ⟨L, eg, g1, g2⟩ := gridEdgeLength_exact hh' hi hj hab
  rw [← R.points] at eg
  unfold Grid.appendEdge F64.appendEdge
  rw [R.cells.edges]
  split_ifs with hc
  · rw [eg, ef]
    refine Agree.ok ⟨?_, by simp⟩
    have hcells : f.edges.length = g.edges.length := by rw [R.cells.edges]
    refine ⟨⟨R.cells.vertices, rfl, R.cells.triangles, R.cells.boundary, R.cells.dirichlet,
      R.cells.neumann⟩, R.points, R.fpoints, by simp, by simp, ?_, ?_, ?_, ?_⟩
    · intro m hm
      simp only [Option.some.injEq] at hm
      subst hm
      cases hg : g.meanEdgeLength with
      | none => exact ⟨g1, g2⟩
      | some m =>
        obtain ⟨m1, m2⟩ := R.mean m hg
        simp only
        have hk : (0 : ℝ) < g.edges.length + 1 := by positivity
        rw [← add_div]
        constructor
        · rw [le_div_iff₀ hk]
          nlinarith [Nat.cast_nonneg (α := ℝ) g.edges.length]
        · rw [div_le_iff₀ hk]
          nlinarith [Nat.cast_nonneg (α := ℝ) g.edges.length]
    · intro m hm
      simp only [Option.some.injEq] at hm
      subst hm
      simp only [List.length_append, List.length_singleton]
      push_cast
      have hk0 : (0 : ℚ) ≤ g.edges.length := by positivity
      cases hg : f.meanEdgeLength with
      | none =>
        have hpos : 0 ≤ 4 * ((g.edges.length : ℚ) + 1) / 2 ^ 53 := by positivity
        constructor
        · nlinarith
        · nlinarith
      | some m =>
        obtain ⟨m1, m2⟩ := R.fmean m hg
        have hk := count_small R.count hN
        rw [hcells] at m1 m2 hk
        simp only
        have m0 : 0 ≤ m := le_trans (mul_nonneg (by positivity) (by linarith)) m1
        exact ⟨mean_step_ge (by positivity) hk m1 f1, mean_step_le (by positivity) hk m0 (by linarith) m2 f2⟩
    · have := R.count
      rw [hcells] at this
      simp only [List.length_append, List.length_singleton]
      omega
    · intro x hx
      rcases List.mem_append.1 hx with hx | hx
      · exact R.adj x (by rw [R.cells.edges]; exact hx)
      · rw [List.mem_singleton.1 hx]; exact ⟨a, b, hi, hj, hab⟩
  · refine Agree.ok ⟨⟨R.cells, R.points, R.fpoints, R.none_iff, R.none_edges, R.mean, R.fmean, R.count.trans (by omega),
      R.adj⟩, ?_⟩
    intro h0
    have := R.none_edges h0
    rw [R.cells.edges] at this
    rw [this] at hc
    simp at hc

/-! ### the constructor -/

theorem fsum_bounds {lo hi : ℚ} (h0 : 0 ≤ lo) (hlh : lo ≤ hi) (l : List ℚ) (hl : ∀ x ∈ l, lo ≤ x ∧ x ≤ hi)
    (hk : 4 * (l.length : ℚ) / 2 ^ 53 ≤ 1 / 200) :
    l.length * lo * (1 - 2 * l.length / 2 ^ 53) ≤ F64.sum l ∧ F64.sum l ≤ l.length * hi * (1 + 2 * l.length / 2 ^ 53) := by
  obtain ⟨u, hu⟩ : ∃ u : ℚ, u = 1 / 2 ^ 53 := ⟨_, rfl⟩
  have hu0 : 0 < u := by rw [hu]; positivity
  have hu1 : u ≤ 1 / 1000000 := by rw [hu]; norm_num
  have hh : 0 ≤ hi := h0.trans hlh
  have eqs : ∀ x : ℚ, x / 2 ^ 53 = x * u := by intro x; rw [hu]; ring
  simp only [eqs] at hk ⊢
  induction l using List.reverseRecOn with
  | nil => simp [F64.sum]
  | append_singleton l x ih =>
    simp only [List.length_append, List.length_singleton, Nat.cast_add, Nat.cast_one] at hk ⊢
    obtain ⟨i1, i2⟩ := ih (fun y hy => hl y (by simp [hy])) (by nlinarith)
    obtain ⟨x1, x2⟩ := hl x (by simp)
    have es : F64.sum (l ++ [x]) = fl (F64.sum l + x) := by simp [F64.sum, List.foldl_append]
    rw [es]
    generalize F64.sum l = S at *
    have hk0 : (0 : ℚ) ≤ l.length := by positivity
    generalize (l.length : ℚ) = k at *
    have hku : 0 ≤ k * u := by positivity
    have lw : 0 ≤ k * lo * (1 - 2 * k * u) := mul_nonneg (by positivity) (by nlinarith)
    have a1 : (k + 1) * lo * (1 - 2 * k * u) ≤ S + x := by
      have : lo * (1 - 2 * k * u) ≤ lo := by nlinarith
      nlinarith
    have a2 : S + x ≤ (k + 1) * hi * (1 + 2 * k * u) := by
      have : hi ≤ hi * (1 + 2 * k * u) := by nlinarith
      nlinarith
    have a0 : 0 ≤ S + x := by linarith
    have b1 := fl_ge (mul_nonneg (by positivity) (by nlinarith)) a1
    have b2 := fl_le a0 a2
    rw [eqs] at b1 b2
    constructor
    · refine le_trans ?_ b1
      rw [mul_assoc ((k + 1) * lo)]
      apply mul_le_mul_of_nonneg_left _ (by positivity)
      nlinarith
    · refine b2.trans ?_
      rw [mul_assoc ((k + 1) * hi)]
      apply mul_le_mul_of_nonneg_left _ (by positivity)
      nlinarith

theorem pyMap_lengths (hh : 0 < h) (he : e ≤ h * (2 / 10 ^ 9)) {pts : List (Vec ℚ)}
    (hp : List.Forall₂ (NearPt e h) Q pts) (es : List Edge)
    (hadj : ∀ x ∈ es, ∃ a b, Q[x.1]? = some a ∧ Q[x.2]? = some b ∧ Adjacent a b) :
    ∃ l lf, pyMap es (gridEdgeLength (Q.map fun a => vec2 (pos (h : ℝ) a))) = .ok l ∧
      pyMap es (F64.edgeLength pts) = .ok lf ∧ l.length = es.length ∧ lf.length = es.length ∧
      (∀ x ∈ l, (h : ℝ) ≤ x ∧ x ≤ 2 * h) ∧ ∀ x ∈ lf, h * (98 / 100) ≤ x ∧ x ≤ h * (142 / 100) := by
  induction es with
  | nil => exact ⟨[], [], rfl, rfl, rfl, rfl, by simp, by simp⟩
  | cons x es ih =>
    obtain ⟨l, lf, e1, e2, h1, h2, h3, h4⟩ := ih fun y hy => hadj y (by simp [hy])
    obtain ⟨a, b, ha, hb, hab⟩ := hadj x (by simp)
    obtain ⟨L, eL, L1, L2⟩ := gridEdgeLength_exact (Q := Q) (h := (h : ℝ)) (by exact_mod_cast hh) ha hb hab
    obtain ⟨Lf, eLf, f1, f2⟩ := edgeLength_near hh he hp ha hb hab
    refine ⟨L :: l, Lf :: lf, ?_, ?_, by simp [h1], by simp [h2], ?_, ?_⟩
    · rw [pyMap, eL, bind_ok, e1]; rfl
    · rw [pyMap, eLf, bind_ok, e2]; rfl
    · simpa using ⟨⟨L1, L2⟩, h3⟩
    · simpa using ⟨⟨f1, f2⟩, h4⟩

/-- constructing a grid from lattice points -/
theorem GRel.new (hh : 0 < h) (he : e ≤ h * (2 / 10 ^ 9)) {pts : List (Vec ℚ)} (hp : List.Forall₂ (NearPt e h) Q pts)
    (vs : List Vertex) (es : List Edge) (ts : List Tri) (b d n : Boundary) (hN : N ≤ 10 ^ 13) (hes : es.length ≤ N)
    (hadj : ∀ x ∈ es, ∃ a b, Q[x.1]? = some a ∧ Q[x.2]? = some b ∧ Adjacent a b) :
    ∃ g f, Grid.new vs es ts b d n (Q.map fun a => vec2 (pos (h : ℝ) a)) = .ok g ∧ F64.gridNew vs es ts b d n pts = .ok f ∧
      GRel e h N Q g f ∧ f.vertices = vs ∧ f.edges = es ∧ f.triangles = ts ∧ f.boundary = b ∧ f.dirichlet = d ∧
      f.neumann = n ∧ f.points = pts := by
  cases es with
  | nil =>
    refine ⟨_, _, rfl, rfl, ⟨⟨rfl, rfl, rfl, rfl, rfl, rfl⟩, rfl, hp, by simp, by simp, by simp, by simp, by simp, by simp⟩,
      rfl, rfl, rfl, rfl, rfl, rfl, rfl⟩
  | cons x es =>
    obtain ⟨l, lf, e1, e2, h1, h2, h3, h4⟩ := pyMap_lengths hh he hp (x :: es) hadj
    have hh' : (0 : ℝ) < h := by exact_mod_cast hh
    refine ⟨_, _, by rw [Grid.new, e1]; rfl, by rw [F64.gridNew, e2]; rfl,
      ⟨⟨rfl, rfl, rfl, rfl, rfl, rfl⟩, rfl, hp, by simp, by simp, ?_, ?_, hes, hadj⟩, rfl, rfl, rfl, rfl, rfl, rfl, rfl⟩
    · intro m hm
      simp only [Option.some.injEq] at hm
      subst hm
      have hk : (0 : ℝ) < (x :: es).length := by simp; positivity
      rw [← h1] at hk ⊢
      rw [le_div_iff₀ hk, div_le_iff₀ hk]
      have s1 := List.card_nsmul_le_sum l (h : ℝ) fun x hx => (h3 x hx).1
      have s2 := List.sum_le_card_nsmul l (2 * h : ℝ) fun x hx => (h3 x hx).2
      rw [nsmul_eq_mul] at s1 s2
      constructor <;> linarith
    · intro m hm
      simp only [Option.some.injEq] at hm
      subst hm
      have hk' := count_small hes hN
      simp only
      have hk1 : (1 : ℚ) ≤ (x :: es).length := by exact_mod_cast (by simp : 1 ≤ (x :: es).length)
      rw [← h2] at hk' hk1 ⊢
      obtain ⟨s1, s2⟩ := fsum_bounds (by positivity) (by linarith) lf h4 hk'
      obtain ⟨u, hu⟩ : ∃ u : ℚ, u = 1 / 2 ^ 53 := ⟨_, rfl⟩
      have hu0 : 0 < u := by rw [hu]; positivity
      have hu1 : u ≤ 1 / 1000000 := by rw [hu]; norm_num
      have eqs : ∀ x : ℚ, x / 2 ^ 53 = x * u := by intro x; rw [hu]; ring
      simp only [eqs] at s1 s2 hk' ⊢
      generalize F64.sum lf = S at *
      generalize (lf.length : ℚ) = k at *
      have hk0 : 0 < k := by linarith
      have hku : 0 ≤ k * u := by positivity
      have hku1 : u ≤ k * u := by nlinarith
      have c1 : h * (98 / 100) * (1 - 2 * k * u) ≤ S / k := by rw [le_div_iff₀ hk0]; linarith
      have c2 : S / k ≤ h * (142 / 100) * (1 + 2 * k * u) := by rw [div_le_iff₀ hk0]; linarith
      have c0 : 0 ≤ h * (98 / 100) * (1 - 2 * k * u) := mul_nonneg (by positivity) (by linarith)
      have d1 := fl_ge c0 c1
      have d2 := fl_le (c0.trans c1) c2
      rw [eqs] at d1 d2
      constructor
      · refine le_trans ?_ d1
        rw [mul_assoc]
        rw [mul_assoc (h * (98 / 100))]
        rw [← mul_assoc]
        apply mul_le_mul_of_nonneg_left _ (by positivity)
        nlinarith
      · refine d2.trans ?_
        rw [mul_assoc (h * (142 / 100))]
        apply mul_le_mul_of_nonneg_left _ (by positivity)
        nlinarith

end

end Tve
