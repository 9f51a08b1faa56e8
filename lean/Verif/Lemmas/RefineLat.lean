import Verif.Lemmas.RefineMain

/-! The refined grid is again a lattice grid. -/

namespace Tve

/-! ### arithmetic of subdivisions -/

theorem lowT_low {n i j u v : ℕ} (hv : v ≤ u) (hu : u < n) :
    lowT (n * i + u) (n * j + v) = mpT n (lowT i j) (lowerK (u - v, v)) := by
  simp only [mpT, lowerK]
  rw [mp_low (by omega), mp_low (by omega), mp_low (by omega)]
  refine Prod.ext (Prod.ext ?_ ?_) (Prod.ext (Prod.ext ?_ ?_) (Prod.ext ?_ ?_)) <;> simp only [lowT] <;> omega

theorem uppT_upp {n i j u v : ℕ} (hu : u ≤ v) (hv : v < n) :
    uppT (n * i + u) (n * j + v) = mpT n (uppT i j) (lowerK (v - u, n - 1 - v)) := by
  simp only [mpT, lowerK]
  rw [mp_upp (by omega), mp_upp (by omega), mp_upp (by omega)]
  refine Prod.ext (Prod.ext ?_ ?_) (Prod.ext (Prod.ext ?_ ?_) (Prod.ext ?_ ?_)) <;> simp only [uppT] <;> omega

theorem lowT_upp {n i j u v : ℕ} (hu : u < v) (hv : v < n) :
    lowT (n * i + u) (n * j + v) = mpT n (uppT i j) (upperK (v - u, n - 1 - v)) := by
  simp only [mpT, upperK]
  rw [mp_upp (by omega), mp_upp (by omega), mp_upp (by omega)]
  refine Prod.ext (Prod.ext ?_ ?_) (Prod.ext (Prod.ext ?_ ?_) (Prod.ext ?_ ?_)) <;> simp only [lowT] <;> omega

theorem uppT_low {n i j u v : ℕ} (hv : v < u) (hu : u < n) :
    uppT (n * i + u) (n * j + v) = mpT n (lowT i j) (upperK (u - v, v)) := by
  simp only [mpT, upperK]
  rw [mp_low (by omega), mp_low (by omega), mp_low (by omega)]
  refine Prod.ext (Prod.ext ?_ ?_) (Prod.ext (Prod.ext ?_ ?_) (Prod.ext ?_ ?_)) <;> simp only [uppT] <;> omega

theorem divmod {n I nx : ℕ} (hn : 1 ≤ n) (hI : I < n * nx) :
    ∃ i u, i < nx ∧ u < n ∧ I = n * i + u :=
  ⟨I / n, I % n, Nat.div_lt_of_lt_mul hI, Nat.mod_lt _ hn, (Nat.div_add_mod I n).symm⟩

theorem mem_fineTris_lower {n : ℕ} {t : LP × LP × LP} {kl : ℕ × ℕ} (h : kl.1 + kl.2 < n) :
    mpT n t (lowerK kl) ∈ fineTris n t :=
  List.mem_map_of_mem (List.mem_append_left _ (List.mem_map_of_mem (mem_lowerIndices.2 h)))

theorem mem_fineTris_upper {n : ℕ} {t : LP × LP × LP} {kl : ℕ × ℕ} (h : 1 ≤ kl.1 ∧ kl.1 + kl.2 < n) :
    mpT n t (upperK kl) ∈ fineTris n t :=
  List.mem_map_of_mem (List.mem_append_right _ (List.mem_map_of_mem (mem_upperIndices.2 h)))

/-- fine triangles are lattice triangles -/
theorem fineTris_lat {n nx ny : ℕ} {t f : LP × LP × LP} (ht : LatTri nx ny t) (hf : f ∈ fineTris n t) :
    LatTri (n * nx) (n * ny) f := by
  obtain ⟨K, hK, rfl⟩ := List.mem_map.1 hf
  obtain ⟨i, j, hi, hj, rfl | rfl⟩ := latTri_cases ht
  · have b1 := mul_bound (n := n) hi
    have b2 := mul_bound (n := n) hj
    rcases List.mem_append.1 hK with hK | hK
    · obtain ⟨⟨k, l⟩, hkl, rfl⟩ := List.mem_map.1 hK
      have hkl := mem_lowerIndices.1 hkl
      simp only at hkl
      refine ⟨n * i + (k + l), n * j + l, by omega, by omega, .inl ?_⟩
      have := lowT_low (n := n) (i := i) (j := j) (u := k + l) (v := l) (by omega) hkl
      rw [show k + l - l = k by omega] at this
      exact this.symm
    · obtain ⟨⟨k, l⟩, hkl, rfl⟩ := List.mem_map.1 hK
      have hkl := mem_upperIndices.1 hkl
      simp only at hkl
      refine ⟨n * i + (k + l), n * j + l, by omega, by omega, .inr ?_⟩
      have := uppT_low (n := n) (i := i) (j := j) (u := k + l) (v := l) (by omega) hkl.2
      rw [show k + l - l = k by omega] at this
      exact this.symm
  · have b1 := mul_bound (n := n) hi
    have b2 := mul_bound (n := n) hj
    rcases List.mem_append.1 hK with hK | hK
    · obtain ⟨⟨k, l⟩, hkl, rfl⟩ := List.mem_map.1 hK
      have hkl := mem_lowerIndices.1 hkl
      simp only at hkl
      refine ⟨n * i + (n - 1 - l - k), n * j + (n - 1 - l), by omega, by omega, .inr ?_⟩
      have := uppT_upp (n := n) (i := i) (j := j) (u := n - 1 - l - k) (v := n - 1 - l) (by omega) (by omega)
      rw [show n - 1 - l - (n - 1 - l - k) = k by omega, show n - 1 - (n - 1 - l) = l by omega] at this
      exact this.symm
    · obtain ⟨⟨k, l⟩, hkl, rfl⟩ := List.mem_map.1 hK
      have hkl := mem_upperIndices.1 hkl
      simp only at hkl
      refine ⟨n * i + (n - 1 - l - k), n * j + (n - 1 - l), by omega, by omega, .inl ?_⟩
      have := lowT_upp (n := n) (i := i) (j := j) (u := n - 1 - l - k) (v := n - 1 - l) (by omega) (by omega)
      rw [show n - 1 - l - (n - 1 - l - k) = k by omega, show n - 1 - (n - 1 - l) = l by omega] at this
      exact this.symm

/-- every lattice triangle of the fine box is a fine triangle of a coarse one -/
theorem fineTris_surj {n nx ny : ℕ} (hn : 1 ≤ n) {f : LP × LP × LP} (hf : LatTri (n * nx) (n * ny) f) :
    ∃ t, LatTri nx ny t ∧ f ∈ fineTris n t := by
  obtain ⟨I, J, hI, hJ, h⟩ := latTri_cases hf
  obtain ⟨i, u, hi, hu, rfl⟩ := divmod hn hI
  obtain ⟨j, v, hj, hv, rfl⟩ := divmod hn hJ
  rcases h with rfl | rfl
  · by_cases huv : v ≤ u
    · rw [lowT_low huv hu]
      exact ⟨lowT i j, ⟨i, j, hi, hj, .inl rfl⟩, mem_fineTris_lower (by simp only; omega)⟩
    · rw [lowT_upp (by omega) hv]
      exact ⟨uppT i j, ⟨i, j, hi, hj, .inr rfl⟩, mem_fineTris_upper (by simp only; omega)⟩
  · by_cases huv : v < u
    · rw [uppT_low huv hu]
      exact ⟨lowT i j, ⟨i, j, hi, hj, .inl rfl⟩, mem_fineTris_upper (by simp only; omega)⟩
    · rw [uppT_upp (by omega) hv]
      exact ⟨uppT i j, ⟨i, j, hi, hj, .inr rfl⟩, mem_fineTris_lower (by simp only; omega)⟩

theorem length_lowerIndices (n : ℕ) : 2 * (lowerIndices n).length = n * (n + 1) := by
  have : ∀ m ≤ n, 2 * ((List.range m).map fun l => n - l).sum + m * m = m * (2 * n + 1) := by
    intro m
    induction m with
    | zero => simp
    | succ m ih =>
      intro hm
      have := ih (by omega)
      rw [List.range_succ, List.map_append, List.sum_append]
      simp only [List.map_cons, List.map_nil, List.sum_cons, List.sum_nil, add_zero]
      have e : n - m + m = n := by omega
      nlinarith
  have h := this n le_rfl
  simp only [lowerIndices, List.length_flatMap, List.length_map, List.length_range]
  nlinarith

theorem length_upperIndices (n : ℕ) : 2 * (upperIndices n).length + 2 * n = n * (n + 1) := by
  cases n with
  | zero => rfl
  | succ n =>
    have : ∀ m ≤ n, 2 * ((List.range m).map fun l => n - l).sum + m * m = m * (2 * n + 1) := by
      intro m
      induction m with
      | zero => simp
      | succ m ih =>
        intro hm
        have := ih (by omega)
        rw [List.range_succ, List.map_append, List.sum_append]
        simp only [List.map_cons, List.map_nil, List.sum_cons, List.sum_nil, add_zero]
        have e : n - m + m = n := by omega
        nlinarith
    have h := this n le_rfl
    simp only [upperIndices, List.length_flatMap, List.length_map, List.length_range, Nat.add_sub_cancel]
    have e : (fun l => n + 1 - l - 1) = fun l => n - l := by funext l; omega
    rw [e]
    nlinarith

theorem length_fineTris (n : ℕ) (t : LP × LP × LP) : (fineTris n t).length = n * n := by
  have h1 := length_lowerIndices n
  have h2 := length_upperIndices n
  simp only [fineTris, fineK, List.length_map, List.length_append]
  nlinarith

/-- every lattice edge of the fine box is added for a coarse triangle -/
theorem fineEdges_surj {n nx ny : ℕ} {dg : Bool} (hn : 1 ≤ n) (hx : 1 ≤ nx) (hy : 1 ≤ ny) {e : LP × LP}
    (he : LatEdge (n * nx) (n * ny) (!dg) e) : ∃ t, LatTri nx ny t ∧ e ∈ fineEdges n dg t := by
  have hul : ∀ i j, upOf (lowT i j) = true := fun i j => by simp [upOf, lowT]
  have huu : ∀ i j, upOf (uppT i j) = false := fun i j => by simp [upOf, uppT]
  -- the sides of the triangles found above
  have low : ∀ i j u v, i < nx → j < ny → v ≤ u → u < n →
      ∃ t, LatTri nx ny t ∧ ((n * i + u, n * j + v), (n * i + u + 1, n * j + v)) ∈ fineEdges n dg t ∧
        ((n * i + u + 1, n * j + v), (n * i + u + 1, n * j + v + 1)) ∈ fineEdges n dg t ∧
        (if !dg then ((n * i + u, n * j + v), (n * i + u + 1, n * j + v + 1)) else
          ((n * i + u + 1, n * j + v + 1), (n * i + u, n * j + v))) ∈ fineEdges n dg t := by
    intro i j u v hi hj hv hu
    have hl : ((u - v, v) : ℕ × ℕ) ∈ lowerIndices n := mem_lowerIndices.2 (by simp only; omega)
    have h := lowT_low (n := n) (i := i) (j := j) hv hu
    simp only [mpT, lowerK, lowT, Prod.mk.injEq] at h
    obtain ⟨h1, h2, h3⟩ := h
    refine ⟨lowT i j, ⟨i, j, hi, hj, .inl rfl⟩, List.mem_flatMap.2 ⟨_, hl, ?_⟩, List.mem_flatMap.2 ⟨_, hl, ?_⟩,
      List.mem_flatMap.2 ⟨_, hl, ?_⟩⟩ <;> simp only [fineEdges1, dcOf, hul, orientL, if_true, List.mem_cons]
    · left; rw [h1, h2]; rfl
    · right; left; rw [h2, h3]; rfl
    · right; right; left; rw [h1, h3]; cases dg <;> rfl
  have upp : ∀ i j u v, i < nx → j < ny → u ≤ v → v < n →
      ∃ t, LatTri nx ny t ∧ ((n * i + u, n * j + v + 1), (n * i + u + 1, n * j + v + 1)) ∈ fineEdges n dg t ∧
        ((n * i + u, n * j + v), (n * i + u, n * j + v + 1)) ∈ fineEdges n dg t ∧
        (if !dg then ((n * i + u, n * j + v), (n * i + u + 1, n * j + v + 1)) else
          ((n * i + u + 1, n * j + v + 1), (n * i + u, n * j + v))) ∈ fineEdges n dg t := by
    intro i j u v hi hj hu hv
    have hl : ((v - u, n - 1 - v) : ℕ × ℕ) ∈ lowerIndices n := mem_lowerIndices.2 (by simp only; omega)
    have h := uppT_upp (n := n) (i := i) (j := j) hu hv
    simp only [mpT, lowerK, uppT, Prod.mk.injEq] at h
    obtain ⟨h1, h2, h3⟩ := h
    refine ⟨uppT i j, ⟨i, j, hi, hj, .inr rfl⟩, List.mem_flatMap.2 ⟨_, hl, ?_⟩, List.mem_flatMap.2 ⟨_, hl, ?_⟩,
      List.mem_flatMap.2 ⟨_, hl, ?_⟩⟩ <;>
      simp only [fineEdges1, dcOf, huu, orientL, Bool.false_eq_true, if_false, List.mem_cons]
    · left; rw [h1, h2]; rfl
    · right; left; rw [h2, h3]; rfl
    · right; right; left; rw [h1, h3]; cases dg <;> rfl
  obtain ⟨I, J, ⟨hI, hJ, rfl⟩ | ⟨hI, hJ, rfl⟩ | ⟨hI, hJ, rfl⟩⟩ := he
  · obtain ⟨i, u, hi, hu, rfl⟩ := divmod hn hI
    by_cases hJ' : J < n * ny
    · obtain ⟨j, v, hj, hv, rfl⟩ := divmod hn hJ'
      by_cases huv : v ≤ u
      · obtain ⟨t, ht, h1, -, -⟩ := low i j u v hi hj huv hu
        exact ⟨t, ht, h1⟩
      · obtain ⟨t, ht, h1, -, -⟩ := upp i j u (v - 1) hi hj (by omega) (by omega)
        rw [show n * j + (v - 1) + 1 = n * j + v by omega] at h1
        exact ⟨t, ht, h1⟩
    · obtain ⟨t, ht, h1, -, -⟩ := upp i (ny - 1) u (n - 1) hi (by omega) (by omega) (by omega)
      have hb : n * (ny - 1) + n = n * ny := by rw [← Nat.mul_succ]; congr 1; omega
      rw [show n * (ny - 1) + (n - 1) + 1 = J by omega] at h1
      exact ⟨t, ht, h1⟩
  · obtain ⟨j, v, hj, hv, rfl⟩ := divmod hn hJ
    by_cases hI' : I < n * nx
    · obtain ⟨i, u, hi, hu, rfl⟩ := divmod hn hI'
      by_cases huv : u ≤ v
      · obtain ⟨t, ht, -, h1, -⟩ := upp i j u v hi hj huv hv
        exact ⟨t, ht, h1⟩
      · obtain ⟨t, ht, -, h1, -⟩ := low i j (u - 1) v hi hj (by omega) (by omega)
        rw [show n * i + (u - 1) + 1 = n * i + u by omega] at h1
        exact ⟨t, ht, h1⟩
    · obtain ⟨t, ht, -, h1, -⟩ := low (nx - 1) j (n - 1) v (by omega) hj (by omega) (by omega)
      have hb : n * (nx - 1) + n = n * nx := by rw [← Nat.mul_succ]; congr 1; omega
      rw [show n * (nx - 1) + (n - 1) + 1 = I by omega] at h1
      exact ⟨t, ht, h1⟩
  · obtain ⟨i, u, hi, hu, rfl⟩ := divmod hn hI
    obtain ⟨j, v, hj, hv, rfl⟩ := divmod hn hJ
    by_cases huv : v ≤ u
    · obtain ⟨t, ht, -, -, h1⟩ := low i j u v hi hj huv hu
      exact ⟨t, ht, h1⟩
    · obtain ⟨t, ht, -, -, h1⟩ := upp i j u v hi hj (by omega) hv
      exact ⟨t, ht, h1⟩

theorem subP_h {n i j s : ℕ} (hs : s ≤ n) : subP n ((i, j), (i + 1, j)) s = (n * i + s, n * j) := by
  obtain ⟨m, rfl⟩ := Nat.exists_eq_add_of_le hs
  have e : s + m - s = m := by omega
  simp only [subP, e, Prod.mk.injEq]
  constructor <;> ring

theorem subP_v {n i j s : ℕ} (hs : s ≤ n) : subP n ((i, j), (i, j + 1)) s = (n * i, n * j + s) := by
  obtain ⟨m, rfl⟩ := Nat.exists_eq_add_of_le hs
  have e : s + m - s = m := by omega
  simp only [subP, e, Prod.mk.injEq]
  constructor <;> ring

/-- a horizontal or vertical lattice edge -/
def HV (e : LP × LP) : Prop := ∃ i j, e = ((i, j), (i + 1, j)) ∨ e = ((i, j), (i, j + 1))

theorem sideEdge_HV {nx ny : ℕ} {f : FixOption} {e : LP × LP} (h : SideEdge nx ny f e) : HV e := by
  cases f
  · obtain ⟨i, _, rfl⟩ := h; exact ⟨i, 0, .inl rfl⟩
  · obtain ⟨i, _, rfl⟩ := h; exact ⟨nx, i, .inr rfl⟩
  · obtain ⟨i, _, rfl⟩ := h; exact ⟨i, ny, .inl rfl⟩
  · obtain ⟨i, _, rfl⟩ := h; exact ⟨0, i, .inr rfl⟩
  · exact h.elim

theorem mul_add_inj {n i i' u u' : ℕ} (hu : u < n) (hu' : u' < n) (h : n * i + u = n * i' + u') : i = i' ∧ u = u' := by
  have h1 : (n * i + u) / n = (n * i' + u') / n := by rw [h]
  have h2 : (n * i + u) % n = (n * i' + u') % n := by rw [h]
  rw [Nat.mul_add_div (by omega), Nat.mul_add_div (by omega), Nat.div_eq_of_lt hu, Nat.div_eq_of_lt hu'] at h1
  rw [Nat.mul_add_mod, Nat.mul_add_mod, Nat.mod_eq_of_lt hu, Nat.mod_eq_of_lt hu'] at h2
  exact ⟨by omega, h2⟩

theorem mul_inj {n i i' : ℕ} (hn : 1 ≤ n) (h : n * i = n * i') : i = i' := Nat.eq_of_mul_eq_mul_left (by omega) h

/-- the subdivision edges determine the edge -/
theorem subE_inj {n s s' : ℕ} {e e' : LP × LP} (he : HV e) (he' : HV e') (hs : s < n) (hs' : s' < n)
    (h : subE n e s = subE n e' s') : e = e' ∧ s = s' := by
  obtain ⟨i, j, rfl | rfl⟩ := he <;> obtain ⟨i', j', rfl | rfl⟩ := he'
  · simp only [subE, subP_h (show s ≤ n by omega), subP_h (show s + 1 ≤ n by omega), subP_h (show s' ≤ n by omega),
      subP_h (show s' + 1 ≤ n by omega), Prod.mk.injEq] at h
    obtain ⟨rfl, rfl⟩ := mul_add_inj hs hs' h.1.1
    obtain rfl := mul_inj (by omega) h.1.2
    exact ⟨rfl, rfl⟩
  · simp only [subE, subP_h (show s ≤ n by omega), subP_h (show s + 1 ≤ n by omega), subP_v (show s' ≤ n by omega),
      subP_v (show s' + 1 ≤ n by omega), Prod.mk.injEq] at h
    omega
  · simp only [subE, subP_v (show s ≤ n by omega), subP_v (show s + 1 ≤ n by omega), subP_h (show s' ≤ n by omega),
      subP_h (show s' + 1 ≤ n by omega), Prod.mk.injEq] at h
    omega
  · simp only [subE, subP_v (show s ≤ n by omega), subP_v (show s + 1 ≤ n by omega), subP_v (show s' ≤ n by omega),
      subP_v (show s' + 1 ≤ n by omega), Prod.mk.injEq] at h
    obtain ⟨rfl, rfl⟩ := mul_add_inj hs hs' h.1.2
    obtain rfl := mul_inj (by omega) h.1.1
    exact ⟨rfl, rfl⟩

theorem not_mul {n i i' u : ℕ} (h0 : 1 ≤ u) (h1 : u < n) (h : n * i' = n * i + u) : False := by
  have := mul_add_inj (n := n) (i := i') (i' := i) (u := 0) (u' := u) (by omega) h1 (by omega)
  omega

/-- interior subdivision points determine the edge -/
theorem subP_inj {n s s' : ℕ} {e e' : LP × LP} (he : HV e) (he' : HV e') (hs0 : 1 ≤ s) (hs : s < n) (hs0' : 1 ≤ s')
    (hs' : s' < n) (h : subP n e s = subP n e' s') : e = e' ∧ s = s' := by
  obtain ⟨i, j, rfl | rfl⟩ := he <;> obtain ⟨i', j', rfl | rfl⟩ := he'
  · simp only [subP_h hs.le, subP_h hs'.le, Prod.mk.injEq] at h
    obtain ⟨rfl, rfl⟩ := mul_add_inj hs hs' h.1
    obtain rfl := mul_inj (by omega) h.2
    exact ⟨rfl, rfl⟩
  · simp only [subP_h hs.le, subP_v hs'.le, Prod.mk.injEq] at h
    exact (not_mul hs0 hs h.1.symm).elim
  · simp only [subP_v hs.le, subP_h hs'.le, Prod.mk.injEq] at h
    exact (not_mul hs0' hs' h.1).elim
  · simp only [subP_v hs.le, subP_v hs'.le, Prod.mk.injEq] at h
    obtain ⟨rfl, rfl⟩ := mul_add_inj hs hs' h.2
    obtain rfl := mul_inj (by omega) h.1
    exact ⟨rfl, rfl⟩

theorem subP_not_scale {n s : ℕ} {e : LP × LP} {a : LP} (he : HV e) (hs0 : 1 ≤ s) (hs : s < n) :
    subP n e s ≠ scaleP n a := by
  intro h
  obtain ⟨i, j, rfl | rfl⟩ := he
  · simp only [subP_h hs.le, scaleP, Prod.mk.injEq] at h
    exact not_mul hs0 hs h.1.symm
  · simp only [subP_v hs.le, scaleP, Prod.mk.injEq] at h
    exact not_mul hs0 hs h.2.symm

/-! ### subdivided boundaries -/

/-- the sides of the triangles that belong to `X`, in the order in which they are refined -/
def sidesIn (X : List (LP × LP)) (ts : List (LP × LP × LP)) : List (LP × LP) :=
  ts.flatMap fun t => [hside t, vside t].filter (· ∈ X)

theorem fineBE_sidesIn (n : ℕ) (X : List (LP × LP)) (ts : List (LP × LP × LP)) :
    ts.flatMap (fineBE n X) = (sidesIn X ts).flatMap (subEdges n) := by
  rw [sidesIn, List.flatMap_assoc]
  apply List.flatMap_congr
  intro t _
  by_cases h1 : hside t ∈ X <;> by_cases h2 : vside t ∈ X <;> simp [fineBE, h1, h2]

theorem fineBV_sidesIn (n : ℕ) (X : List (LP × LP)) (ts : List (LP × LP × LP)) :
    ts.flatMap (fineBV n X) = (sidesIn X ts).flatMap (subVerts n) := by
  rw [sidesIn, List.flatMap_assoc]
  apply List.flatMap_congr
  intro t _
  by_cases h1 : hside t ∈ X <;> by_cases h2 : vside t ∈ X <;> simp [fineBV, h1, h2]

theorem hside_sides (t : LP × LP × LP) : s((hside t).1, (hside t).2) ∈ sidesL t := by
  unfold hside orientL sidesL
  cases upOf t <;> simp [Sym2.eq_swap]

theorem vside_sides (t : LP × LP × LP) : s((vside t).1, (vside t).2) ∈ sidesL t := by
  unfold vside orientL sidesL
  cases upOf t <;> simp [Sym2.eq_swap]

theorem hside_ne_vside {nx ny : ℕ} {t : LP × LP × LP} (ht : LatTri nx ny t) : hside t ≠ vside t := by
  obtain ⟨i, j, hi, hj, rfl | rfl⟩ := latTri_cases ht
  · simp [hside, vside, upOf, lowT, orientL]
  · simp [hside, vside, upOf, uppT, orientL]

theorem side_is_hv {nx ny : ℕ} {t : LP × LP × LP} (ht : LatTri nx ny t) {e : LP × LP} (he : HV e)
    (hs : s(e.1, e.2) ∈ sidesL t) : e = hside t ∨ e = vside t := by
  obtain ⟨i, j, hi, hj, rfl | rfl⟩ := latTri_cases ht <;> obtain ⟨i', j', rfl | rfl⟩ := he <;>
    simp only [sidesL, lowT, uppT, List.mem_cons, List.not_mem_nil, or_false, Sym2.eq_iff, Prod.mk.injEq] at hs <;>
    simp only [hside, vside, upOf, lowT, uppT, orientL, lt_add_iff_pos_right, zero_lt_one, decide_true, if_true,
      show ¬ (i + 1 < i) by omega, decide_false, Bool.false_eq_true, if_false, Prod.mk.injEq] <;> omega

section
variable {g : Grid ℝ} {nx ny : ℕ} {h : ℝ} {P : List LP} {dg : Bool} {E : List (LP × LP)}
  {T : List (LP × LP × LP)} {BV : List LP} {BE : List (LP × LP)}

theorem sidesIn_perm (L : Lattice g nx ny h P dg E T BV BE) {X : List (LP × LP)} (hX : X.Nodup)
    (hXB : ∀ e ∈ X, e ∈ BE) : (sidesIn X T).Perm X := by
  have hmem : ∀ e, e ∈ sidesIn X T ↔ e ∈ X := by
    intro e
    constructor
    · intro he
      obtain ⟨t, _, he⟩ := List.mem_flatMap.1 he
      simpa using (List.mem_filter.1 he).2
    · intro he
      obtain ⟨f, hf⟩ := (L.memBE e).1 (hXB e he)
      obtain ⟨t, ⟨ht, hs⟩, -⟩ := (sideEdge_iff_unique (dg := dg) L.hx L.hy (sideEdge_lat hf)).1 ⟨f, hf⟩
      refine List.mem_flatMap.2 ⟨t, (L.memT t).2 ht, List.mem_filter.2 ⟨?_, by simpa using he⟩⟩
      rcases side_is_hv ht (sideEdge_HV hf) hs with h' | h' <;> simp [h']
  refine (List.perm_ext_iff_of_nodup ?_ hX).2 hmem
  rw [sidesIn, List.nodup_flatMap]
  constructor
  · intro t ht
    refine List.Nodup.filter _ ?_
    have := hside_ne_vside ((L.memT t).1 ht)
    simp [this]
  · refine List.Pairwise.imp_of_mem ?_ L.nodupT
    intro t t' ht ht' hne e he he'
    have he1 := List.mem_filter.1 he
    have he2 := List.mem_filter.1 he'
    obtain ⟨f, hf⟩ := (L.memBE e).1 (hXB e (by simpa using he1.2))
    have hu := (sideEdge_iff_unique (dg := dg) L.hx L.hy (sideEdge_lat hf)).1 ⟨f, hf⟩
    have hs : ∀ t, e ∈ [hside t, vside t] → s(e.1, e.2) ∈ sidesL t := by
      intro t h
      simp only [List.mem_cons, List.not_mem_nil, or_false] at h
      rcases h with rfl | rfl
      exacts [hside_sides t, vside_sides t]
    exact hne (hu.unique ⟨(L.memT t).1 ht, hs t he1.1⟩ ⟨(L.memT t').1 ht', hs t' he2.1⟩)

/-- the subdivided edges -/
theorem mem_fineX (L : Lattice g nx ny h P dg E T BV BE) {n : ℕ} {X : List (LP × LP)} (hX : X.Nodup)
    (hXB : ∀ e ∈ X, e ∈ BE) (e' : LP × LP) :
    e' ∈ T.flatMap (fineBE n X) ↔ ∃ e ∈ X, ∃ s < n, e' = subE n e s := by
  rw [fineBE_sidesIn, List.mem_flatMap]
  have this : ∀ e, e ∈ sidesIn X T ↔ e ∈ X := fun e => (sidesIn_perm L hX hXB).mem_iff
  simp only [this, subEdges, List.mem_map, List.mem_range]
  constructor
  · rintro ⟨e, he, s, hs, rfl⟩; exact ⟨e, he, s, hs, rfl⟩
  · rintro ⟨e, he, s, hs, rfl⟩; exact ⟨e, he, s, hs, rfl⟩

theorem mem_fineV (L : Lattice g nx ny h P dg E T BV BE) {n : ℕ} {X : List (LP × LP)} (hX : X.Nodup)
    (hXB : ∀ e ∈ X, e ∈ BE) (a : LP) :
    a ∈ T.flatMap (fineBV n X) ↔ ∃ e ∈ X, ∃ s, 1 ≤ s ∧ s < n ∧ a = subP n e s := by
  rw [fineBV_sidesIn, List.mem_flatMap]
  have this : ∀ e, e ∈ sidesIn X T ↔ e ∈ X := fun e => (sidesIn_perm L hX hXB).mem_iff
  simp only [this, subVerts, List.mem_map, List.mem_range]
  constructor
  · rintro ⟨e, he, s, hs, rfl⟩; exact ⟨e, he, s + 1, by omega, by omega, rfl⟩
  · rintro ⟨e, he, s, hs, hs', rfl⟩; exact ⟨e, he, s - 1, by omega, by rw [Nat.sub_add_cancel hs]⟩

theorem BE_HV (L : Lattice g nx ny h P dg E T BV BE) {e : LP × LP} (he : e ∈ BE) : HV e := by
  obtain ⟨f, hf⟩ := (L.memBE e).1 he
  exact sideEdge_HV hf

theorem nodup_fineX (L : Lattice g nx ny h P dg E T BV BE) {n : ℕ} {X : List (LP × LP)} (hX : X.Nodup)
    (hXB : ∀ e ∈ X, e ∈ BE) : (T.flatMap (fineBE n X)).Nodup := by
  rw [fineBE_sidesIn]
  refine ((sidesIn_perm L hX hXB).flatMap_right _).nodup_iff.2 ?_
  rw [List.nodup_flatMap]
  constructor
  · intro e he
    refine List.Nodup.map_on ?_ List.nodup_range
    intro s hs s' hs' h'
    exact (subE_inj (BE_HV L (hXB e he)) (BE_HV L (hXB e he)) (List.mem_range.1 hs) (List.mem_range.1 hs') h').2
  · refine List.Pairwise.imp_of_mem ?_ hX
    intro e e' he he' hne x hx hx'
    obtain ⟨s, hs, rfl⟩ := List.mem_map.1 hx
    obtain ⟨s', hs', h'⟩ := List.mem_map.1 hx'
    exact hne (subE_inj (BE_HV L (hXB e he)) (BE_HV L (hXB e' he')) (List.mem_range.1 hs) (List.mem_range.1 hs') h'.symm).1

theorem nodup_fineV (L : Lattice g nx ny h P dg E T BV BE) {n : ℕ} (hn : 1 ≤ n) {V : List LP} {X : List (LP × LP)}
    (hV : V.Nodup) (hX : X.Nodup) (hXB : ∀ e ∈ X, e ∈ BE) :
    (V.map (scaleP n) ++ T.flatMap (fineBV n X)).Nodup := by
  rw [List.nodup_append']
  refine ⟨hV.map fun a b h => scaleP_inj hn h, ?_, ?_⟩
  · rw [fineBV_sidesIn]
    refine ((sidesIn_perm L hX hXB).flatMap_right _).nodup_iff.2 ?_
    rw [List.nodup_flatMap]
    constructor
    · intro e he
      refine List.Nodup.map_on ?_ List.nodup_range
      intro s hs s' hs' h'
      have h1 := List.mem_range.1 hs
      have h2 := List.mem_range.1 hs'
      have := (subP_inj (BE_HV L (hXB e he)) (BE_HV L (hXB e he)) (by omega) (by omega) (by omega) (by omega) h').2
      omega
    · refine List.Pairwise.imp_of_mem ?_ hX
      intro e e' he he' hne x hx hx'
      obtain ⟨s, hs, rfl⟩ := List.mem_map.1 hx
      obtain ⟨s', hs', h'⟩ := List.mem_map.1 hx'
      have h1 := List.mem_range.1 hs
      have h2 := List.mem_range.1 hs'
      exact hne (subP_inj (BE_HV L (hXB e he)) (BE_HV L (hXB e' he')) (by omega) (by omega) (by omega) (by omega)
        h'.symm).1
  · intro a ha ha'
    obtain ⟨b, _, rfl⟩ := List.mem_map.1 ha
    obtain ⟨e, he, s, h1, h2, h'⟩ := (mem_fineV L hX hXB _).1 ha'
    exact subP_not_scale (BE_HV L (hXB e he)) h1 h2 h'.symm

/-- subdividing the boundary of the box -/
theorem sideEdge_sub {n nx ny : ℕ} (hn : 1 ≤ n) (f : FixOption) (e' : LP × LP) :
    SideEdge (n * nx) (n * ny) f e' ↔ ∃ e, SideEdge nx ny f e ∧ ∃ s < n, e' = subE n e s := by
  cases f
  all_goals simp only [SideEdge]
  · constructor
    · rintro ⟨I, hI, rfl⟩
      obtain ⟨i, u, hi, hu, rfl⟩ := divmod hn hI
      refine ⟨_, ⟨i, hi, rfl⟩, u, hu, ?_⟩
      rw [subE, subP_h (by omega), subP_h (by omega)]; rfl
    · rintro ⟨_, ⟨i, hi, rfl⟩, s, hs, rfl⟩
      refine ⟨n * i + s, by have := mul_bound (n := n) hi; omega, ?_⟩
      rw [subE, subP_h (by omega), subP_h (by omega)]; rfl
  · constructor
    · rintro ⟨I, hI, rfl⟩
      obtain ⟨i, u, hi, hu, rfl⟩ := divmod hn hI
      refine ⟨_, ⟨i, hi, rfl⟩, u, hu, ?_⟩
      rw [subE, subP_v (by omega), subP_v (by omega)]; rfl
    · rintro ⟨_, ⟨i, hi, rfl⟩, s, hs, rfl⟩
      refine ⟨n * i + s, by have := mul_bound (n := n) hi; omega, ?_⟩
      rw [subE, subP_v (by omega), subP_v (by omega)]; rfl
  · constructor
    · rintro ⟨I, hI, rfl⟩
      obtain ⟨i, u, hi, hu, rfl⟩ := divmod hn hI
      refine ⟨_, ⟨i, hi, rfl⟩, u, hu, ?_⟩
      rw [subE, subP_h (by omega), subP_h (by omega)]; rfl
    · rintro ⟨_, ⟨i, hi, rfl⟩, s, hs, rfl⟩
      refine ⟨n * i + s, by have := mul_bound (n := n) hi; omega, ?_⟩
      rw [subE, subP_h (by omega), subP_h (by omega)]; rfl
  · constructor
    · rintro ⟨I, hI, rfl⟩
      obtain ⟨i, u, hi, hu, rfl⟩ := divmod hn hI
      refine ⟨_, ⟨i, hi, rfl⟩, u, hu, ?_⟩
      rw [subE, subP_v (by omega), subP_v (by omega)]; simp; rfl
    · rintro ⟨_, ⟨i, hi, rfl⟩, s, hs, rfl⟩
      refine ⟨n * i + s, by have := mul_bound (n := n) hi; omega, ?_⟩
      rw [subE, subP_v (by omega), subP_v (by omega)]; simp; rfl
  · simp

end
end Tve
