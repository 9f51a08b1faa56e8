import Verif.Lemmas.Library

/-! Fine edges and coarse edges. -/

namespace Tve

theorem pos_subP {n : ℕ} (hn : 1 ≤ n) {h : ℝ} (e : LP × LP) {s : ℕ} (hs : s ≤ n) :
    pos (h / n) (subP n e s) = edgePoint (pos h e.1) (pos h e.2) (1 - s / n) := by
  have hn0 : (n : ℝ) ≠ 0 := by positivity
  have hc : ((n - s : ℕ) : ℝ) = n - s := Nat.cast_sub hs
  ext
  · simp only [pos, subP, edgePoint, Prod.fst_add, Prod.smul_fst, smul_eq_mul]
    push_cast
    rw [hc]; field_simp; ring
  · simp only [pos, subP, edgePoint, Prod.snd_add, Prod.smul_snd, smul_eq_mul]
    push_cast
    rw [hc]; field_simp; ring

theorem edgePoint_comp (p q : ℝ × ℝ) (a b t : ℝ) :
    edgePoint (edgePoint p q a) (edgePoint p q b) t = edgePoint p q (t * a + (1 - t) * b) := by
  simp only [edgePoint]; module

theorem sub_weight {n s : ℕ} (hn : 1 ≤ n) (hs : s ≤ n) : (0 : ℝ) ≤ 1 - s / n ∧ (1 : ℝ) - s / n ≤ 1 := by
  have h0 : (0 : ℝ) < n := by exact_mod_cast hn
  have h1 : (s : ℝ) / n ≤ 1 := by rw [div_le_one h0]; exact_mod_cast hs
  have h2 : (0 : ℝ) ≤ (s : ℝ) / n := by positivity
  constructor <;> linarith

section
variable {g : Grid ℝ} {nx ny : ℕ} {h : ℝ} {P : List LP} {dg : Bool} {E : List (LP × LP)}
  {T : List (LP × LP × LP)} {BV : List LP} {BE : List (LP × LP)} {DV : List LP} {DE : List (LP × LP)}
  {NV : List LP} {NE : List (LP × LP)} {r : RefinedGrid ℝ} {n : ℕ}

/-- the coarse edges whose subdivisions are keys -/
theorem mem_ce (H : LGrid g nx ny h P dg E T BV BE DV DE NV NE) (x : Edge × Edge × ℝ × ℝ) :
    x ∈ (T.flatMap fun t => (fineCE n dg t).map (ceEntry n P (Pts n P T))) →
      ∃ c ∈ E, ∃ s < n, x = ceEntry n P (Pts n P T) (c, s) := by
  intro hx
  obtain ⟨t, ht, hx⟩ := List.mem_flatMap.1 hx
  obtain ⟨⟨c, s⟩, hc, rfl⟩ := List.mem_map.1 hx
  have hE := side_mem_E H.lat ht
  simp only [fineCE, List.mem_flatMap, List.mem_cons, List.not_mem_nil, or_false, List.mem_map, List.mem_range,
    Prod.mk.injEq] at hc
  obtain ⟨c', hc', s', hs', rfl, rfl⟩ := hc
  refine ⟨c', ?_, s', hs', rfl⟩
  rcases hc' with rfl | rfl | rfl
  exacts [hE.1, hE.2.1, hE.2.2]

theorem ce_mem (H : LGrid g nx ny h P dg E T BV BE DV DE NV NE) {c : LP × LP} (hc : c ∈ E) (hv : HV c) {s : ℕ}
    (hs : s < n) :
    ceEntry n P (Pts n P T) (c, s) ∈ (T.flatMap fun t => (fineCE n dg t).map (ceEntry n P (Pts n P T))) := by
  obtain ⟨t, ht, hside⟩ := (latEdge_iff_side (dg := dg) H.lat.hx H.lat.hy s(c.1, c.2)).1 ⟨c, (H.lat.memE c).1 hc, rfl⟩
  refine List.mem_flatMap.2 ⟨t, (H.lat.memT t).2 ht, List.mem_map_of_mem ?_⟩
  simp only [fineCE, List.mem_flatMap, List.mem_cons, List.not_mem_nil, or_false, List.mem_map, List.mem_range,
    Prod.mk.injEq]
  refine ⟨c, ?_, s, hs, rfl, rfl⟩
  rcases side_is_hv ht hv hside with h' | h'
  · exact .inl h'
  · exact .inr (.inl h')

/-- lookup of an edge: either it is a subdivision edge of some coarse edge, and then the answer describes the same point, or
it is rejected -/
theorem coarseEdge_lookup (H : LGrid g nx ny h P dg E T BV BE DV DE NV NE)
    (R : RefinedOf n g h P dg T BV DV NV BE DE NE r) (e : Edge) :
    (∃ c ∈ E, ∃ s < n, e = labE (Pts n P T) (subE n c s) ∧ ∀ t, r.toCoarseEdgePoint e t =
      .ok (labE P c, t * (1 - (s : ℝ) / n) + (1 - t) * (1 - ((s + 1 : ℕ) : ℝ) / n))) ∨
    ((∀ c ∈ E, HV c → ∀ s < n, e ≠ labE (Pts n P T) (subE n c s)) ∧ ∀ t, r.toCoarseEdgePoint e t = .error .valueError) := by
  rcases R.edges e with ⟨h1, h2, h3⟩ | ⟨a, b, h1, h2, h3⟩
  · right
    refine ⟨?_, ?_⟩
    · intro c hc hv s hs he
      have := ce_mem H hc hv hs
      rw [ceEntry] at this
      simp only at this
      rw [← he] at this
      exact h3 _ _ this
    · intro t
      rw [RefinedGrid.toCoarseEdgePoint, if_pos]
      simp [PyDict.contains, h1]
  · left
    obtain ⟨c, hc, s, hs, hx⟩ := mem_ce H _ h3
    simp only [ceEntry, Prod.mk.injEq] at hx
    obtain ⟨rfl, rfl, rfl⟩ := hx
    refine ⟨c, hc, s, hs, rfl, ?_⟩
    intro t
    rw [RefinedGrid.toCoarseEdgePoint, if_neg (by simp [PyDict.contains, h1, h2]), PyDict.get_of_get? h1, bind_ok,
      PyDict.get_of_get? h2, bind_ok]
    rfl

theorem subE_mem_Pts (H : LGrid g nx ny h P dg E T BV BE DV DE NV NE) (hn : 1 ≤ n) {c : LP × LP} (hc : c ∈ E) {s : ℕ}
    (hs : s ≤ n) : subP n c s ∈ Pts n P T := by
  rw [Pts_mem_lat H.lat hn]
  obtain ⟨h1, h2⟩ := H.lat.memE_P hc
  obtain ⟨a1, a2⟩ := (H.lat.memP _).1 h1
  obtain ⟨b1, b2⟩ := (H.lat.memP _).1 h2
  have key : ∀ x y m : ℕ, x ≤ m → y ≤ m → (n - s) * x + s * y ≤ n * m := by
    intro x y m hx hy
    calc (n - s) * x + s * y ≤ (n - s) * m + s * m := by gcongr
      _ = n * m := by rw [← Nat.add_mul, Nat.sub_add_cancel hs]
  exact ⟨key _ _ _ a1 b1, key _ _ _ a2 b2⟩

/-- positions of the subdivision points -/
theorem at_subP (H : LGrid g nx ny h P dg E T BV BE DV DE NV NE) (hn : 1 ≤ n)
    (R : RefinedOf n g h P dg T BV DV NV BE DE NE r) {c : LP × LP} (hc : c ∈ E) {s : ℕ} (hs : s ≤ n) :
    r.toGrid.At (lab (Pts n P T) (subP n c s)) (edgePoint (pos h c.1) (pos h c.2) (1 - s / n)) := by
  rw [← pos_subP hn c hs]
  exact (H.refined hn R).lat.at_lab (subE_mem_Pts H hn hc hs)

/-- the answer describes the same point -/
theorem coarseEdge_point (H : LGrid g nx ny h P dg E T BV BE DV DE NV NE) (hn : 1 ≤ n)
    (R : RefinedOf n g h P dg T BV DV NV BE DE NE r) {c : LP × LP} (hc : c ∈ E) {s : ℕ} (hs : s < n) (t : ℝ) :
    edgePoint (g.xy (labE P c).1) (g.xy (labE P c).2)
        (t * (1 - (s : ℝ) / n) + (1 - t) * (1 - ((s + 1 : ℕ) : ℝ) / n)) =
      edgePoint (r.toGrid.xy (labE (Pts n P T) (subE n c s)).1) (r.toGrid.xy (labE (Pts n P T) (subE n c s)).2) t := by
  obtain ⟨h1, h2⟩ := H.lat.memE_P hc
  simp only [labE, subE]
  rw [xy_of_at (H.lat.at_lab h1), xy_of_at (H.lat.at_lab h2), xy_of_at (at_subP H hn R hc hs.le),
    xy_of_at (at_subP H hn R hc hs), edgePoint_comp]

theorem weight_mem {n s : ℕ} (hn : 1 ≤ n) (hs : s < n) {t : ℝ} (h0 : 0 ≤ t) (h1 : t ≤ 1) :
    0 ≤ t * (1 - (s : ℝ) / n) + (1 - t) * (1 - ((s + 1 : ℕ) : ℝ) / n) ∧
    t * (1 - (s : ℝ) / n) + (1 - t) * (1 - ((s + 1 : ℕ) : ℝ) / n) ≤ 1 := by
  obtain ⟨a1, a2⟩ := sub_weight hn hs.le
  obtain ⟨b1, b2⟩ := sub_weight hn (show s + 1 ≤ n from hs)
  constructor <;> nlinarith

/-- an axis-parallel fine edge on a coarse edge is a subdivision edge of an axis-parallel coarse edge -/
theorem axis_sub (H : LGrid g nx ny h P dg E T BV BE DV DE NV NE) (hn : 1 ≤ n) {e : LP × LP}
    (he : e ∈ Eds n dg T)
    (hax : (pos (h / n) e.1).1 = (pos (h / n) e.2).1 ∨ (pos (h / n) e.1).2 = (pos (h / n) e.2).2)
    {c : LP × LP} (hc : c ∈ E) (h1 : onSegment (pos h c.1) (pos h c.2) (pos (h / n) e.1))
    (h2 : onSegment (pos h c.1) (pos h c.2) (pos (h / n) e.2)) :
    ∃ c ∈ E, HV c ∧ ∃ s < n, e = subE n c s := by
  have hh := H.lat.h_pos
  have hn0 : (0 : ℝ) < n := by exact_mod_cast hn
  have hhn : 0 < h / n := by positivity
  have he' := (Eds_memP_lat H.lat hn e).1 he
  obtain ⟨t1, -, -, p1⟩ := h1
  obtain ⟨t2, -, -, p2⟩ := h2
  obtain ⟨I, J, ⟨hI, hJ, rfl⟩ | ⟨hI, hJ, rfl⟩ | ⟨hI, hJ, rfl⟩⟩ := he'
  · -- horizontal
    have hdiv : ∃ j ≤ ny, J = n * j := by
      obtain ⟨i, j, ⟨hi, hj, rfl⟩ | ⟨hi, hj, rfl⟩ | ⟨hi, hj, rfl⟩⟩ := (H.lat.memE c).1 hc
      · refine ⟨j, hj, ?_⟩
        have := congrArg Prod.snd p1
        simp only [pos, edgePoint, Prod.snd_add, Prod.smul_snd, smul_eq_mul] at this
        have e1 : (J : ℝ) = n * j := by field_simp at this; linarith
        exact_mod_cast e1
      · exfalso
        have q1 := congrArg Prod.fst p1
        have q2 := congrArg Prod.fst p2
        simp only [pos, edgePoint, Prod.fst_add, Prod.smul_fst, smul_eq_mul] at q1 q2
        push_cast at q2
        nlinarith
      · exfalso
        have q1 := congrArg Prod.fst p1
        have q2 := congrArg Prod.fst p2
        have r1 := congrArg Prod.snd p1
        have r2 := congrArg Prod.snd p2
        cases dg <;> simp only [pos, edgePoint, Prod.fst_add, Prod.smul_fst, smul_eq_mul, Prod.snd_add, Prod.smul_snd,
          if_true, Bool.false_eq_true, if_false] at q1 q2 r1 r2 <;> push_cast at q1 q2 r1 r2 <;> nlinarith
    obtain ⟨j, hj, rfl⟩ := hdiv
    obtain ⟨i, u, hi, hu, rfl⟩ := divmod hn hI
    refine ⟨((i, j), (i + 1, j)), (H.lat.memE _).2 ⟨i, j, .inl ⟨hi, hj, rfl⟩⟩, ⟨i, j, .inl rfl⟩, u, hu, ?_⟩
    rw [subE, subP_h (by omega), subP_h (by omega)]; rfl
  · have hdiv : ∃ j ≤ nx, I = n * j := by
      obtain ⟨i, j, ⟨hi, hj, rfl⟩ | ⟨hi, hj, rfl⟩ | ⟨hi, hj, rfl⟩⟩ := (H.lat.memE c).1 hc
      · exfalso
        have q1 := congrArg Prod.snd p1
        have q2 := congrArg Prod.snd p2
        simp only [pos, edgePoint, Prod.snd_add, Prod.smul_snd, smul_eq_mul] at q1 q2
        push_cast at q2
        nlinarith
      · refine ⟨i, hi, ?_⟩
        have := congrArg Prod.fst p1
        simp only [pos, edgePoint, Prod.fst_add, Prod.smul_fst, smul_eq_mul] at this
        have e1 : (I : ℝ) = n * i := by field_simp at this; linarith
        exact_mod_cast e1
      · exfalso
        have q1 := congrArg Prod.fst p1
        have q2 := congrArg Prod.fst p2
        have r1 := congrArg Prod.snd p1
        have r2 := congrArg Prod.snd p2
        cases dg <;> simp only [pos, edgePoint, Prod.fst_add, Prod.smul_fst, smul_eq_mul, Prod.snd_add, Prod.smul_snd,
          if_true, Bool.false_eq_true, if_false] at q1 q2 r1 r2 <;> push_cast at q1 q2 r1 r2 <;> nlinarith
    obtain ⟨i, hi, rfl⟩ := hdiv
    obtain ⟨j, u, hj, hu, rfl⟩ := divmod hn hJ
    refine ⟨((i, j), (i, j + 1)), (H.lat.memE _).2 ⟨i, j, .inr (.inl ⟨hi, hj, rfl⟩)⟩, ⟨i, j, .inr rfl⟩, u, hu, ?_⟩
    rw [subE, subP_v (by omega), subP_v (by omega)]; rfl
  · exfalso
    cases dg <;> simp only [pos, Bool.not_true, Bool.not_false, if_true, Bool.false_eq_true, if_false] at hax <;>
      push_cast at hax <;> rcases hax with hax | hax <;> nlinarith

/-- the subdivision edges of a diagonal have the opposite orientation of the fine diagonals -/
theorem diag_not_sub (H : LGrid g nx ny h P dg E T BV BE DV DE NV NE) (hn : 1 ≤ n) {e : LP × LP}
    (he : e ∈ Eds n dg T) (hd1 : e.1.1 ≠ e.2.1) (hd2 : e.1.2 ≠ e.2.2) {c : LP × LP} (hc : c ∈ E) {s : ℕ} (hs : s < n) :
    e ≠ subE n c s := by
  have he' := (Eds_memP_lat H.lat hn e).1 he
  obtain ⟨m, rfl⟩ := Nat.exists_eq_add_of_le (show s + 1 ≤ n from hs)
  obtain ⟨I, J, ⟨hI, hJ, rfl⟩ | ⟨hI, hJ, rfl⟩ | ⟨hI, hJ, rfl⟩⟩ := he'
  · exact absurd rfl hd2
  · exact absurd rfl hd1
  · obtain ⟨i, j, ⟨hi, hj, rfl⟩ | ⟨hi, hj, rfl⟩ | ⟨hi, hj, rfl⟩⟩ := (H.lat.memE c).1 hc
    · intro h'
      rw [subE, subP_h (by omega), subP_h (by omega)] at h'
      cases dg <;> simp [Prod.ext_iff] at h' <;> omega
    · intro h'
      rw [subE, subP_v (by omega), subP_v (by omega)] at h'
      cases dg <;> simp [Prod.ext_iff] at h' <;> omega
    · intro h'
      simp only [subE, subP, show s + 1 + m - s = m + 1 by omega, show s + 1 + m - (s + 1) = m by omega] at h'
      cases dg <;> simp [Prod.ext_iff] at h' <;> nlinarith [h'.1.1, h'.2.1]

/-- a fine diagonal on a coarse diagonal -/
theorem diag_exists (H : LGrid g nx ny h P dg E T BV BE DV DE NV NE) (hn : 1 ≤ n) :
    ∃ e ∈ Eds n dg T, e.1.1 ≠ e.2.1 ∧ e.1.2 ≠ e.2.2 ∧ ∃ c ∈ E,
      onSegment (pos h c.1) (pos h c.2) (pos (h / n) e.1) ∧ onSegment (pos h c.1) (pos h c.2) (pos (h / n) e.2) := by
  have hh := H.lat.h_pos
  have hn0 : (0 : ℝ) < n := by exact_mod_cast hn
  obtain ⟨w1, w2⟩ := sub_weight hn hn
  have w3 : (0 : ℝ) ≤ 1 / n := by positivity
  have w4 : (1 : ℝ) / n ≤ 1 := by rw [div_le_one hn0]; exact_mod_cast hn
  have hx := Nat.mul_pos hn H.lat.hx
  have hy := Nat.mul_pos hn H.lat.hy
  cases dg with
  | true =>
    refine ⟨((1, 1), (0, 0)), (Eds_memP_lat H.lat hn _).2 ⟨0, 0, .inr (.inr ⟨hx, hy, rfl⟩)⟩, by simp, by simp,
      ((0, 0), (1, 1)), (H.lat.memE _).2 ⟨0, 0, .inr (.inr ⟨H.lat.hx, H.lat.hy, rfl⟩)⟩, ⟨1 - 1 / n, by linarith, by linarith, ?_⟩,
      ⟨1, by norm_num, by norm_num, ?_⟩⟩
    · ext <;> simp [pos, edgePoint] <;> ring
    · ext <;> simp [pos, edgePoint]
  | false =>
    refine ⟨((0, 0), (1, 1)), (Eds_memP_lat H.lat hn _).2 ⟨0, 0, .inr (.inr ⟨hx, hy, rfl⟩)⟩, by simp, by simp,
      ((1, 1), (0, 0)), (H.lat.memE _).2 ⟨0, 0, .inr (.inr ⟨H.lat.hx, H.lat.hy, rfl⟩)⟩, ⟨0, by norm_num, by norm_num, ?_⟩,
      ⟨1 / n, by linarith, by linarith, ?_⟩⟩
    · ext <;> simp [pos, edgePoint]
    · ext <;> simp [pos, edgePoint] <;> ring

end
end Tve
