import Verif.Props.GridEquiv
import Verif.Props.Sample

/-!
# Property C81: refinements compose
-/

namespace Tve

theorem scaleP_scaleP (a b : ℕ) (p : LP) : scaleP b (scaleP a p) = scaleP (a * b) p := by
  simp only [scaleP, Prod.mk.injEq]
  constructor <;> ring

theorem subP_subE {a b k l : ℕ} {e : LP × LP} (he : HV e) (hk : k < a) (hl : l ≤ b) :
    subP b (subE a e k) l = subP (a * b) e (k * b + l) := by
  have h1 : k * b + l ≤ a * b := by nlinarith
  obtain ⟨i, j, rfl | rfl⟩ := he
  · have : subE a ((i, j), (i + 1, j)) k = ((a * i + k, a * j), (a * i + k + 1, a * j)) := by
      rw [subE, subP_h hk.le, subP_h hk]; rfl
    rw [this, subP_h hl, subP_h h1]
    simp only [Prod.mk.injEq]
    constructor <;> ring
  · have : subE a ((i, j), (i, j + 1)) k = ((a * i, a * j + k), (a * i, a * j + k + 1)) := by
      rw [subE, subP_v hk.le, subP_v hk]; rfl
    rw [this, subP_v hl, subP_v h1]
    simp only [Prod.mk.injEq]
    constructor <;> ring

theorem subE_subE {a b k l : ℕ} {e : LP × LP} (he : HV e) (hk : k < a) (hl : l < b) :
    subE b (subE a e k) l = subE (a * b) e (k * b + l) := by
  show (subP b (subE a e k) l, subP b (subE a e k) (l + 1)) = _
  rw [subP_subE he hk hl.le, subP_subE he hk hl]
  rfl

theorem exists_subE_subE {a b : ℕ} (hb : 1 ≤ b) {e : LP × LP} (he : HV e) (f : LP × LP) :
    (∃ k < a, ∃ l < b, f = subE b (subE a e k) l) ↔ ∃ m < a * b, f = subE (a * b) e m := by
  constructor
  · rintro ⟨k, hk, l, hl, rfl⟩
    exact ⟨k * b + l, by nlinarith, subE_subE he hk hl⟩
  · rintro ⟨m, hm, rfl⟩
    have h1 : m / b < a := Nat.div_lt_of_lt_mul (by rwa [Nat.mul_comm] at hm)
    refine ⟨m / b, h1, m % b, Nat.mod_lt _ hb, ?_⟩
    rw [subE_subE he h1 (Nat.mod_lt _ hb), Nat.div_add_mod' m b]

theorem exists_subP_subE {a b : ℕ} (hb : 1 ≤ b) {e : LP × LP} (he : HV e) (p : LP) :
    ((∃ k, 1 ≤ k ∧ k < a ∧ p = scaleP b (subP a e k)) ∨ ∃ k < a, ∃ l, 1 ≤ l ∧ l < b ∧ p = subP b (subE a e k) l) ↔
      ∃ m, 1 ≤ m ∧ m < a * b ∧ p = subP (a * b) e m := by
  constructor
  · rintro (⟨k, h1, h2, rfl⟩ | ⟨k, hk, l, h1, h2, rfl⟩)
    · have h3 := subP_subE (l := 0) (b := b) he h2 (Nat.zero_le _)
      rw [subP_zero] at h3
      exact ⟨k * b, by nlinarith, by nlinarith, h3⟩
    · exact ⟨k * b + l, by omega, by nlinarith, subP_subE he hk h2.le⟩
  · rintro ⟨m, h1, hm, rfl⟩
    have h2 : m / b < a := Nat.div_lt_of_lt_mul (by rwa [Nat.mul_comm] at hm)
    have h3 := subP_subE (l := m % b) (b := b) he h2 (Nat.mod_lt _ hb).le
    rw [Nat.div_add_mod' m b] at h3
    rcases Nat.eq_zero_or_pos (m % b) with h0 | h0
    · refine .inl ⟨m / b, ?_, h2, ?_⟩
      · rcases Nat.eq_zero_or_pos (m / b) with h4 | h4
        · have := Nat.div_add_mod' m b; rw [h0, h4] at this; omega
        · exact h4
      · rw [h0, subP_zero] at h3
        exact h3.symm
    · exact .inr ⟨m / b, h2, m % b, h0, Nat.mod_lt _ hb, h3.symm⟩

section
variable {g : Grid ℝ} {nx ny : ℕ} {s : ℝ} {d d' d'' : RectDomain ℝ} {a b : ℕ} {r r' r'' : RefinedGrid ℝ}

/-- Refining by `a` and refining the result by `b` gives the same mesh as refining by `a * b`: `==` returns `True`, in
either order. The domain objects on which `refine` is called are irrelevant. -/
theorem C81_refine_twice (G : LibraryGrid g nx ny s) (ha : 1 ≤ a) (hb : 1 ≤ b) (hs : 1 / 10 ^ 15 ≤ s / (a * b))
    (h1 : d.refine g a = .ok r) (h2 : d'.refine r.toGrid b = .ok r') (h3 : d''.refine g (a * b : ℕ) = .ok r'') :
    r'.toGrid.eq r''.toGrid = .ok true ∧ r''.toGrid.eq r'.toGrid = .ok true := by
  have hspos := (C22_structure G).1
  have ha0 : (1 : ℝ) ≤ a := by exact_mod_cast ha
  have hb0 : (1 : ℝ) ≤ b := by exact_mod_cast hb
  have hs1 : 1 / 10 ^ 15 ≤ s / a := hs.trans (by gcongr; nlinarith)
  have hs2 : 1 / 10 ^ 15 ≤ s / a / b := by rwa [div_div]
  have hs3 : 1 / 10 ^ 15 ≤ s / ((a * b : ℕ) : ℝ) := by push_cast; exact hs
  have e1 : a * b * nx = b * (a * nx) := by ring
  have e2 : a * b * ny = b * (a * ny) := by ring
  have e3 : s / ((a * b : ℕ) : ℝ) = s / a / b := by push_cast; rw [div_div]
  have hab : 1 ≤ a * b := Nat.mul_pos ha hb
  have F1 := LibraryGrid.refine G ha hs1 h1
  have F2 := LibraryGrid.refine F1 hb hs2 h2
  have F3 := LibraryGrid.refine G hab hs3 h3
  obtain ⟨P, dg, E, T, BV, BE, DV, DE, NV, NE, H⟩ := G.lgrid
  obtain ⟨_, h1', R1⟩ := refine_ok ha d H.lat hs1 H.pd H.pn
  rw [h1] at h1'; cases h1'
  have A := H.refined ha R1
  obtain ⟨_, h2', R2⟩ := refine_ok hb d' A.lat hs2 A.pd A.pn
  rw [h2] at h2'; cases h2'
  have B := A.refined hb R2
  obtain ⟨_, h3', R3⟩ := refine_ok hab d'' H.lat hs3 H.pd H.pn
  rw [h3] at h3'; cases h3'
  have C := H.refined hab R3
  rw [e1, e2, e3] at C
  rw [e1, e2, e3] at F3
  have key : r'.toGrid.eq r''.toGrid = .ok true := by
    obtain ⟨c', c1', c2'⟩ := C20_library F2 F3 (div_le_self (C22_structure F2).1.le (by norm_num))
    have htol : r'.toGrid.pointTol ≤ s / a / b := by
      have := F2.separated.2
      have h4 := F2.pointTol_pos
      have : s / a / b / 10 ^ 6 ≤ s / a / b := div_le_self (C22_structure F2).1.le (by norm_num)
      linarith
    have hc : c' = true := by
      refine c2'.2 ((sameMesh_iff B C ?_ F2.pointTol_pos htol).2 ?_)
      · intro f
        rw [mem_fineX A.lat A.nodupDE A.DEsub, mem_fineX H.lat H.nodupDE H.DEsub]
        simp only [mem_fineX H.lat H.nodupDE H.DEsub]
        constructor
        · rintro ⟨f', ⟨e, he, k, hk, rfl⟩, l, hl, rfl⟩
          exact ⟨e, he, (exists_subE_subE hb (BE_HV H.lat (H.DEsub e he)) _).1 ⟨k, hk, l, hl, rfl⟩⟩
        · rintro ⟨e, he, hm⟩
          obtain ⟨k, hk, l, hl, h⟩ := (exists_subE_subE hb (BE_HV H.lat (H.DEsub e he)) _).2 hm
          exact ⟨_, ⟨e, he, k, hk, rfl⟩, l, hl, h⟩
      · intro p
        simp only [List.mem_append, List.mem_map, mem_fineV A.lat A.nodupNE A.NEsub, mem_fineV H.lat H.nodupNE H.NEsub,
          mem_fineX H.lat H.nodupNE H.NEsub]
        constructor
        · rintro (⟨q, ⟨q', hq', rfl⟩ | ⟨e, he, k, k1, k2, rfl⟩, rfl⟩ | ⟨f', ⟨e, he, k, hk, rfl⟩, l, l1, l2, rfl⟩)
          · exact .inl ⟨q', hq', (scaleP_scaleP a b q').symm⟩
          · exact .inr ⟨e, he, (exists_subP_subE hb (BE_HV H.lat (H.NEsub e he)) _).1 (.inl ⟨k, k1, k2, rfl⟩)⟩
          · exact .inr ⟨e, he, (exists_subP_subE hb (BE_HV H.lat (H.NEsub e he)) _).1 (.inr ⟨k, hk, l, l1, l2, rfl⟩)⟩
        · rintro (⟨q', hq', rfl⟩ | ⟨e, he, hm⟩)
          · exact .inl ⟨_, .inl ⟨q', hq', rfl⟩, scaleP_scaleP a b q'⟩
          · rcases (exists_subP_subE hb (BE_HV H.lat (H.NEsub e he)) _).2 hm with ⟨k, k1, k2, h⟩ | ⟨k, hk, l, l1, l2, h⟩
            · exact .inl ⟨_, .inr ⟨e, he, k, k1, k2, rfl⟩, h.symm⟩
            · exact .inr ⟨_, ⟨e, he, k, hk, rfl⟩, l, l1, l2, h⟩
    rw [c1', hc]
  exact ⟨key, C20_symmetric F2 F3 ▸ key⟩

/-- The order of two refinements is irrelevant. -/
theorem C81_refine_commutes {rb rba : RefinedGrid ℝ} {d₁ d₂ d₃ d₄ : RectDomain ℝ} (G : LibraryGrid g nx ny s)
    (ha : 1 ≤ a) (hb : 1 ≤ b) (hs : 1 / 10 ^ 15 ≤ s / (a * b))
    (h1 : d₁.refine g a = .ok r) (h2 : d₂.refine r.toGrid b = .ok r')
    (h3 : d₃.refine g b = .ok rb) (h4 : d₄.refine rb.toGrid a = .ok rba) : r'.toGrid.eq rba.toGrid = .ok true := by
  have hab : 1 ≤ a * b := Nat.mul_pos ha hb
  have hspos := (C22_structure G).1
  have ha0 : (1 : ℝ) ≤ a := by exact_mod_cast ha
  have hb0 : (1 : ℝ) ≤ b := by exact_mod_cast hb
  obtain ⟨r'', h5, -⟩ := C22_refine G d₁ hab (by push_cast; exact hs)
  have k1 := (C81_refine_twice G ha hb hs h1 h2 h5).1
  have k2 := (C81_refine_twice G hb ha (by rwa [mul_comm] at hs) h3 h4 (by rw [Nat.mul_comm]; exact h5)).2
  have F1 := LibraryGrid.refine G ha (hs.trans (by gcongr; nlinarith)) h1
  have F2 := LibraryGrid.refine F1 hb (by rwa [div_div]) h2
  have F3 := LibraryGrid.refine G hb (hs.trans (by gcongr; nlinarith)) h3
  have F4 := LibraryGrid.refine F3 ha (by rw [div_div, mul_comm (b : ℝ)]; exact hs) h4
  have F5 := LibraryGrid.refine G hab (by push_cast; exact hs) h5
  rw [show s / ((a * b : ℕ) : ℝ) = s / a / b by push_cast; rw [div_div]] at F5
  rw [show s / b / a = s / a / b by rw [div_div, div_div, mul_comm]] at F4
  exact C20_transitive F2 F5 F4 k1 k2

/-- Refining by one changes nothing. -/
theorem C81_refine_by_one (G : LibraryGrid g nx ny s) (hs : 1 / 10 ^ 15 ≤ s) (h1 : d.refine g 1 = .ok r) :
    r.toGrid.eq g = .ok true ∧ g.eq r.toGrid = .ok true ∧ r.toGrid.points = g.points := by
  have hs' : 1 / 10 ^ 15 ≤ s / ((1 : ℕ) : ℝ) := by simpa using hs
  have h1' : d.refine g ((1 : ℕ) : ℤ) = .ok r := h1
  have F := LibraryGrid.refine G le_rfl hs' h1'
  obtain ⟨P, dg, E, T, BV, BE, DV, DE, NV, NE, H⟩ := G.lgrid
  obtain ⟨_, h2, R1⟩ := refine_ok le_rfl d H.lat hs' H.pd H.pn
  rw [h1'] at h2; cases h2
  have A := H.refined le_rfl R1
  rw [Nat.one_mul, Nat.one_mul, Nat.cast_one, div_one] at A F
  have hsc : ∀ p : LP, scaleP 1 p = p := fun p => by simp [scaleP]
  have hsE : ∀ e : LP × LP, subE 1 e 0 = e := fun e => by
    rw [subE, subP_zero, hsc, show (0 + 1) = 1 from rfl, subP_full, hsc]
  have htol : r.toGrid.pointTol ≤ s := by
    have := F.separated.2
    have h4 := F.pointTol_pos
    have : s / 10 ^ 6 ≤ s := div_le_self (C22_structure F).1.le (by norm_num)
    linarith
  obtain ⟨c, c1, c2⟩ := C20_library F G (div_le_self (C22_structure F).1.le (by norm_num))
  have hc : c = true := by
    refine c2.2 ((sameMesh_iff A H ?_ F.pointTol_pos htol).2 ?_)
    · intro f
      rw [mem_fineX H.lat H.nodupDE H.DEsub]
      constructor
      · rintro ⟨e, he, k, hk, rfl⟩
        obtain rfl : k = 0 := by omega
        rwa [hsE]
      · intro he; exact ⟨f, he, 0, by omega, (hsE f).symm⟩
    · intro p
      simp only [List.mem_append, List.mem_map, mem_fineV H.lat H.nodupNE H.NEsub, hsc, exists_eq_right]
      constructor
      · rintro (h | ⟨e, -, k, k1, k2, -⟩)
        · exact h
        · omega
      · exact .inl
  have hk : r.toGrid.eq g = .ok true := by rw [c1, hc]
  refine ⟨hk, C20_symmetric F G ▸ hk, ?_⟩
  obtain ⟨r2, e1, -, -, -, e2, -⟩ := C22_refine G d (n := 1) le_rfl hs'
  rw [h1'] at e1; cases e1
  refine (e2.eq_of_length ?_).symm
  rw [(C22_structure G).2.2.2.2.1, (C22_structure F).2.2.2.2.1]

/-- a case that meets the hypotheses: the sample grid (`5/4 × 1`, mesh size `1/2`), refined by 2 and then by 3 -/
example (it : SetIter) : ∃ r r' r'', sampleDomain.refine (sampleGrid it) 2 = .ok r ∧
    sampleDomain.refine r.toGrid 3 = .ok r' ∧ sampleDomain.refine (sampleGrid it) 6 = .ok r'' ∧
    r'.toGrid.eq r''.toGrid = .ok true ∧ r'.toGrid.points.length = 13 * 13 := by
  have G := sampleGrid_library it
  obtain ⟨r, h1, F, -⟩ := C22_refine G sampleDomain (n := 2) (by norm_num) (by norm_num)
  obtain ⟨r', h2, F', -⟩ := C22_refine F sampleDomain (n := 3) (by norm_num) (by norm_num)
  obtain ⟨r'', h3, -⟩ := C22_refine G sampleDomain (n := 6) (by norm_num) (by norm_num)
  refine ⟨r, r', r'', h1, h2, h3, ?_, ?_⟩
  · exact (C81_refine_twice G (a := 2) (b := 3) (by norm_num) (by norm_num) (by norm_num) h1 h2 h3).1
  · rw [(C22_structure F').2.2.2.2.1]

end
end Tve
