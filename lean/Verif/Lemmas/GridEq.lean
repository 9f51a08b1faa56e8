import Verif.Lemmas.Library
import Mathlib.Data.List.Perm.Subperm
import Mathlib.Analysis.InnerProductSpace.PiL2
import Mathlib.Analysis.Complex.Norm

/-! `Grid.__eq__` decides equality of meshes up to renumbering. -/

namespace Tve

/-! ### lists -/

theorem sortedNat_eq_iff {l l' : List ℕ} : sortedNat l = sortedNat l' ↔ l.Perm l' := by
  have hp : ∀ l : List ℕ, (sortedNat l).Perm l := fun l => List.mergeSort_perm _ _
  have hs : ∀ l : List ℕ, (sortedNat l).Pairwise (fun a b => a ≤ b) := by
    intro l
    have := List.pairwise_mergeSort (le := fun a b : ℕ => decide (a ≤ b))
      (by intro a b c; simp; omega) (by intro a b; simp; omega) l
    simpa [sortedNat] using this
  constructor
  · intro h
    exact (hp l).symm.trans (h ▸ hp l')
  · intro h
    exact List.Perm.eq_of_pairwise (fun a b _ _ h1 h2 => le_antisymm h1 h2) (hs l) (hs l')
      ((hp l).trans (h.trans (hp l').symm))

theorem perm_iff_of_nodup {β : Type} {A B : List β} (hA : A.Nodup) (hl : A.length = B.length) :
    A.Perm B ↔ ∀ a ∈ A, a ∈ B := by
  constructor
  · intro h a ha; exact h.subset ha
  · intro h
    exact (List.subperm_of_subset hA h).perm_of_length_le hl.symm.le

theorem pyAnyNot_eq {α : Type} {f : α → PyM Bool} {l : List α} (g : α → Bool) (h : ∀ a ∈ l, f a = .ok (g a)) :
    pyAnyNot f l = .ok (l.any fun a => !g a) := by
  induction l with
  | nil => rfl
  | cons a t ih =>
    rw [pyAnyNot, h a (by simp), bind_ok]
    cases hg : g a
    · simp [hg]
    · simp only [if_true, List.any_cons, hg, Bool.not_true, Bool.false_or]
      exact ih fun b hb => h b (by simp [hb])

/-! ### triangles up to rotation -/

theorem cycle_eq_iff {t t' : Tri} : Tri.cycle t = Tri.cycle t' ↔
    t = t' ∨ (t.2.1, t.2.2, t.1) = t' ∨ (t.2.2, t.1, t.2.1) = t' := by
  obtain ⟨a, b, c⟩ := t
  obtain ⟨x, y, z⟩ := t'
  unfold Tri.cycle
  rw [Cycle.coe_eq_coe, List.isRotated_iff_mod]
  constructor
  · rintro ⟨n, hn, h⟩
    simp only [List.length_cons, List.length_nil] at hn
    interval_cases n <;> simp [List.rotate] at h <;> simp [h]
  · rintro (h | h | h) <;> simp only [Prod.mk.injEq] at h <;> obtain ⟨rfl, rfl, rfl⟩ := h
    · exact ⟨0, by simp, by simp⟩
    · exact ⟨1, by simp, by simp [List.rotate]⟩
    · exact ⟨2, by simp, by simp [List.rotate]⟩

theorem containsEdge_iff {g : Grid ℝ} {e : Edge} :
    g.containsEdge e = true ↔ e.undirected ∈ g.edges.map Edge.undirected := by
  unfold Grid.containsEdge
  rw [decide_eq_true_iff, List.mem_map]
  constructor
  · rintro (h | h)
    · exact ⟨_, h, rfl⟩
    · exact ⟨_, h, Sym2.eq_swap⟩
  · rintro ⟨e', he', h'⟩
    rcases Sym2.eq_iff.1 h' with ⟨h1, h2⟩ | ⟨h1, h2⟩
    · left; rwa [show e = e' from Prod.ext h1.symm h2.symm]
    · right; rwa [show (e.2, e.1) = e' from Prod.ext h1.symm h2.symm]

theorem containsTriangle_iff {g : Grid ℝ} {t : Tri} :
    g.containsTriangle t = true ↔ Tri.cycle t ∈ g.triangles.map Tri.cycle := by
  unfold Grid.containsTriangle
  rw [decide_eq_true_iff, List.mem_map]
  constructor
  · rintro (h | h | h)
    · exact ⟨_, h, rfl⟩
    · exact ⟨_, h, (cycle_eq_iff.2 (.inr (.inl rfl))).symm⟩
    · exact ⟨_, h, (cycle_eq_iff.2 (.inr (.inr rfl))).symm⟩
  · rintro ⟨t', ht', h'⟩
    rcases cycle_eq_iff.1 h'.symm with rfl | rfl | rfl
    · exact .inl ht'
    · exact .inr (.inl ht')
    · exact .inr (.inr ht')

/-! ### renaming -/

theorem nodup_rename_edges {es : List Edge} {N : ℕ} {σ : Vertex → Vertex} (hn : (es.map Edge.undirected).Nodup)
    (hs : ∀ e ∈ es, e.1 < N ∧ e.2 < N) (hi : ∀ v < N, ∀ w < N, σ v = σ w → v = w) :
    (es.map (Edge.rename σ)).Nodup := by
  rw [List.Nodup, List.pairwise_map] at hn ⊢
  refine hn.imp_of_mem fun {a b} ha hb hne h => hne ?_
  obtain ⟨a1, a2⟩ := hs a ha
  obtain ⟨b1, b2⟩ := hs b hb
  rcases Sym2.eq_iff.1 h with ⟨h1, h2⟩ | ⟨h1, h2⟩
  · exact Sym2.eq_iff.2 (.inl ⟨hi _ a1 _ b1 h1, hi _ a2 _ b2 h2⟩)
  · exact Sym2.eq_iff.2 (.inr ⟨hi _ a1 _ b2 h1, hi _ a2 _ b1 h2⟩)

theorem nodup_rename_tris {ts : List Tri} {N : ℕ} {σ : Vertex → Vertex} (hn : (ts.map Tri.cycle).Nodup)
    (hs : ∀ t ∈ ts, t.1 < N ∧ t.2.1 < N ∧ t.2.2 < N) (hi : ∀ v < N, ∀ w < N, σ v = σ w → v = w) :
    (ts.map (Tri.rename σ)).Nodup := by
  rw [List.Nodup, List.pairwise_map] at hn ⊢
  refine hn.imp_of_mem fun {a b} ha hb hne h => hne ?_
  obtain ⟨a1, a2, a3⟩ := hs a ha
  obtain ⟨b1, b2, b3⟩ := hs b hb
  obtain ⟨x, y, z⟩ := a
  obtain ⟨u, v, w⟩ := b
  unfold Tri.rename at h
  rw [cycle_eq_iff] at h ⊢
  simp only [Prod.mk.injEq] at h ⊢ a1 a2 a3 b1 b2 b3
  rcases h with ⟨h1, h2, h3⟩ | ⟨h1, h2, h3⟩ | ⟨h1, h2, h3⟩
  · exact .inl ⟨hi _ a1 _ b1 h1, hi _ a2 _ b2 h2, hi _ a3 _ b3 h3⟩
  · exact .inr (.inl ⟨hi _ a2 _ b1 h1, hi _ a3 _ b2 h2, hi _ a1 _ b3 h3⟩)
  · exact .inr (.inr ⟨hi _ a3 _ b1 h1, hi _ a1 _ b2 h2, hi _ a2 _ b3 h3⟩)

theorem boundariesCoincide_spec {b b' : Boundary} {ren : PyDict Vertex Vertex} {N : ℕ} {σ : Vertex → Vertex}
    (hr : ∀ v < N, ren.get v = .ok (σ v)) (hi : ∀ v < N, ∀ w < N, σ v = σ w → v = w)
    (hv : ∀ v ∈ b'.vertices, v < N) (he : ∀ e ∈ b'.edges, e.1 < N ∧ e.2 < N)
    (hn : (b'.edges.map Edge.undirected).Nodup) :
    ∃ B, boundariesCoincide b b' ren = .ok B ∧ (B = true ↔ Boundary.Renames σ b b') := by
  unfold boundariesCoincide Boundary.Renames
  rw [pyMap_eq_ok σ (fun v h => hr v (hv v h)), bind_ok]
  by_cases h1 : sortedNat b.vertices = sortedNat (b'.vertices.map σ)
  swap
  · refine ⟨false, by rw [if_pos h1]; rfl, ?_⟩
    simp only [Bool.false_eq_true, false_iff, not_and]
    intro h; exact absurd (sortedNat_eq_iff.2 h.symm) h1
  rw [if_neg (by simpa using h1)]
  have hp := (sortedNat_eq_iff.1 h1).symm
  by_cases h2 : b.edges.length = b'.edges.length
  swap
  · refine ⟨false, by rw [if_pos h2]; rfl, ?_⟩
    simp only [Bool.false_eq_true, false_iff, not_and]
    intro _ h; exact h2 (by simpa using h.length_eq.symm)
  rw [if_neg (by simpa using h2)]
  rw [pyMap_eq_ok (fun e : Edge => (σ e.1, σ e.2)) (by
    rintro ⟨i, j⟩ h
    obtain ⟨h1, h2⟩ := he _ h
    simp only [hr _ h1, hr _ h2, bind_ok, pure_eq_ok]), bind_ok]
  refine ⟨_, rfl, ?_⟩
  rw [and_iff_right hp, perm_iff_of_nodup (nodup_rename_edges hn he hi) (by simp [h2])]
  simp only [Bool.not_eq_true', List.any_eq_false, List.mem_map, decide_eq_true_eq, forall_exists_index, and_imp,
    forall_apply_eq_imp_iff₂]
  refine forall₂_congr fun e _ => ?_
  have := @containsEdge_iff ⟨[], b.edges, [], b, b, b, [], none⟩ (σ e.1, σ e.2)
  unfold Grid.containsEdge at this
  rw [decide_eq_true_iff, List.mem_map] at this
  rw [← not_or, not_not]
  exact this

/-! ### the renumbering -/

theorem renumbering_spec {g : Grid ℝ} {find : ℝ × ℝ → Option Vertex}
    (hf : ∀ z, g.pointToVertex (vec2 z) = .ok (find z)) (qs : List (ℝ × ℝ)) :
    ∀ (i : ℕ) (d : PyDict Vertex Vertex),
    (g.renumbering (qs.map vec2) i d = .ok none ∧ ∃ q ∈ qs, find q = none) ∨
    ∃ d', g.renumbering (qs.map vec2) i d = .ok (some d') ∧ (∀ q ∈ qs, find q ≠ none) ∧
      (∀ k (hk : k < qs.length), d'.get? (i + k) = find qs[k]) ∧ ∀ j < i, d'.get? j = d.get? j := by
  induction qs with
  | nil => intro i d; exact .inr ⟨d, rfl, by simp, by simp, fun _ _ => rfl⟩
  | cons q qs ih =>
    intro i d
    simp only [List.map_cons, Grid.renumbering, hf, bind_ok]
    cases hq : find q with
    | none => exact .inl ⟨rfl, q, by simp, hq⟩
    | some v =>
      rcases ih (i + 1) (d.set i v) with ⟨h1, q', h2, h3⟩ | ⟨d', h1, h2, h3, h4⟩
      · exact .inl ⟨h1, q', by simp [h2], h3⟩
      · refine .inr ⟨d', h1, ?_, ?_, ?_⟩
        · intro q' hq'
          rcases List.mem_cons.1 hq' with rfl | h
          · rw [hq]; simp
          · exact h2 _ h
        · intro k hk
          cases k with
          | zero =>
            rw [Nat.add_zero, h4 i (by omega), PyDict.get?_set]; simp [hq]
          | succ k =>
            have := h3 k (by simpa using hk)
            rw [show i + (k + 1) = i + 1 + k by omega, this]; simp
        · intro j hj
          rw [h4 j (by omega), PyDict.get?_set, if_neg (Nat.ne_of_gt hj)]

theorem dist2_triangle (a b c : ℝ × ℝ) : dist2 a c ≤ dist2 a b + dist2 b c := by
  have h : ∀ p q : ℝ × ℝ, dist2 p q = ‖(⟨p.1 - q.1, p.2 - q.2⟩ : ℂ)‖ := by
    intro p q
    rw [Complex.norm_def, Complex.normSq_mk, dist2]; congr 1; ring
  rw [h, h, h]
  refine le_trans (le_of_eq ?_) (norm_add_le _ _)
  congr 1
  apply Complex.ext <;> simp

theorem dist2_comm (a b : ℝ × ℝ) : dist2 a b = dist2 b a := by
  unfold dist2; congr 1; ring

/-- the main theorem about `==` -/
theorem eq_spec {g g' : Grid ℝ} (W : g.WellFormed) (W' : g'.WellFormed) (hm : g.MeanExact) (hS : g'.Simple)
    (hsep : g.Separated (2 * g.pointTol)) (hsep' : g'.Separated (2 * g.pointTol)) :
    ∃ b, g.eq g' = .ok b ∧ (b = true ↔ ∃ σ, SameMesh g g' σ) := by
  set N := g'.points.length with hN
  have hlt' : ∀ v, v ∈ g'.vertices → v < N := fun v hv => by rw [W'.vertices] at hv; exact List.mem_range.1 hv
  unfold Grid.eq
  -- sizes
  by_cases hsz : g.points.length = N
  swap
  · refine ⟨false, ?_, ?_⟩
    · rw [if_pos]
      · rfl
      · rw [ne_eq, sortedNat_eq_iff, W.vertices, W'.vertices]
        intro h; exact hsz (by simpa using h.length_eq)
    · simp only [Bool.false_eq_true, false_iff]
      rintro ⟨σ, h⟩; exact hsz h.size.symm
  rw [if_neg (by simp [sortedNat_eq_iff, W.vertices, W'.vertices, hsz, ← hN]), if_neg (by simpa using hsz)]
  -- the renumbering
  have hcl : ∀ σ, SameMesh g g' σ → ∀ v < N, σ v < g.points.length ∧ dist2 (g'.xy v) (g.xy (σ v)) < g.pointTol := by
    intro σ h v hv
    have : σ v < g.points.length := h.bij.mapsTo hv
    exact ⟨this, h.close v _ _ (at_xy W' hv) (at_xy W this)⟩
  have huniq : ∀ z, ∀ v < g.points.length, ∀ w < g.points.length, dist2 z (g.xy v) < g.pointTol →
      dist2 z (g.xy w) < g.pointTol → v = w := by
    intro z v hv w hw h1 h2
    by_contra hne
    have := hsep v w _ _ (at_xy W hv) (at_xy W hw) hne
    have t := dist2_triangle (g.xy v) z (g.xy w)
    rw [dist2_comm (g.xy v) z] at t
    linarith
  set find : ℝ × ℝ → Option Vertex := fun z =>
    (List.range g.points.length).findIdx? fun v => decide (dist2 z (g.xy v) < g.pointTol) with hfind
  rw [points_xy W']
  rcases renumbering_spec (find := find) (pointToVertex_eq W hm) ((List.range N).map g'.xy) 0 PyDict.empty with
    ⟨h1, q, h2, h3⟩ | ⟨ren, h1, h2, h3, -⟩
  · rw [h1, bind_ok]
    refine ⟨false, rfl, ?_⟩
    simp only [Bool.false_eq_true, false_iff]
    rintro ⟨σ, h⟩
    obtain ⟨v, hv, rfl⟩ := List.mem_map.1 h2
    obtain ⟨h4, h5⟩ := hcl σ h v (List.mem_range.1 hv)
    have := findIdx?_range_none h3 _ h4
    simp [h5] at this
  rw [h1, bind_ok]
  simp only
  -- the renumbering as a function
  set σ : Vertex → Vertex := fun v => (find (g'.xy v)).getD 0 with hσ
  have hσ1 : ∀ v < N, find (g'.xy v) = some (σ v) := by
    intro v hv
    have := h2 _ (List.mem_map_of_mem (List.mem_range.2 hv))
    rw [hσ]
    cases h : find (g'.xy v)
    · exact absurd h this
    · simp [h]
  have hr : ∀ v < N, ren.get v = .ok (σ v) := by
    intro v hv
    apply PyDict.get_of_get?
    have := h3 v (by simpa using hv)
    simpa [hσ1 v hv] using this
  have hσ2 : ∀ v < N, σ v < g.points.length ∧ dist2 (g'.xy v) (g.xy (σ v)) < g.pointTol := by
    intro v hv
    obtain ⟨a, b, -⟩ := findIdx?_range (hσ1 v hv)
    exact ⟨a, by simpa using b⟩
  have hi : ∀ v < N, ∀ w < N, σ v = σ w → v = w := by
    intro v hv w hw h
    by_contra hne
    have := hsep' v w _ _ (at_xy W' hv) (at_xy W' hw) hne
    have t := dist2_triangle (g'.xy v) (g.xy (σ v)) (g'.xy w)
    have t1 := (hσ2 v hv).2
    have t2 := (hσ2 w hw).2
    rw [dist2_comm, ← h] at t2
    linarith
  have hbij : Set.BijOn σ {v | v < N} {v | v < g.points.length} := by
    have hmap : Set.MapsTo σ {v | v < N} {v | v < g.points.length} := fun v hv => (hσ2 v hv).1
    have hinj : Set.InjOn σ {v | v < N} := fun v hv w hw h => hi v hv w hw h
    refine ⟨hmap, hinj, ?_⟩
    have hfin : ({v | v < N} : Set ℕ).Finite := Set.finite_lt_nat N
    rw [hsz] at hmap ⊢
    intro w hw
    have := Set.eq_of_subset_of_ncard_le (Set.image_subset_iff.2 hmap) (by rw [Set.ncard_image_of_injOn hinj]) hfin
    rw [← this] at hw
    exact hw
  have hbase : ∀ τ, SameMesh g g' τ → ∀ v < N, τ v = σ v := by
    intro τ h v hv
    obtain ⟨a, b⟩ := hcl τ h v hv
    obtain ⟨c, d⟩ := hσ2 v hv
    exact huniq _ _ a _ c b d
  -- so existence is about σ
  have hex : (∃ τ, SameMesh g g' τ) ↔ ((g'.edges.map (Edge.rename σ)).Perm (g.edges.map Edge.undirected) ∧
      (g'.triangles.map (Tri.rename σ)).Perm (g.triangles.map Tri.cycle) ∧
      Boundary.Renames σ g.boundary g'.boundary ∧ Boundary.Renames σ g.dirichlet g'.dirichlet ∧
      Boundary.Renames σ g.neumann g'.neumann) := by
    constructor
    · rintro ⟨τ, h⟩
      have hE : ∀ es : List Edge, (∀ e ∈ es, e.1 < N ∧ e.2 < N) → es.map (Edge.rename τ) = es.map (Edge.rename σ) := by
        intro es hes
        apply List.map_congr_left
        intro e he
        obtain ⟨a, b⟩ := hes e he
        simp only [Edge.rename, hbase τ h _ a, hbase τ h _ b]
      have hge : ∀ e ∈ g'.edges, e.1 < N ∧ e.2 < N := fun e he =>
        ⟨hlt' _ (W'.edges e he).1, hlt' _ (W'.edges e he).2⟩
      have hB : ∀ b b' : Boundary, (∀ v ∈ b'.vertices, v ∈ g'.vertices) → (∀ e ∈ b'.edges, e ∈ g'.edges) →
          Boundary.Renames τ b b' → Boundary.Renames σ b b' := by
        rintro b b' c d ⟨h1, h2⟩
        refine ⟨?_, ?_⟩
        · rwa [List.map_congr_left (f := σ) (g := τ) fun v hv => (hbase τ h v (hlt' _ (c v hv))).symm]
        · rwa [← hE _ fun e he => hge e (d e he)]
      refine ⟨?_, ?_, hB _ _ W'.boundary.1 W'.boundary.2 h.boundary, hB _ _ W'.dirichlet.1 W'.dirichlet.2 h.dirichlet,
        hB _ _ W'.neumann.1 W'.neumann.2 h.neumann⟩
      · rw [← hE _ hge]; exact h.edges
      · have := h.triangles
        rwa [List.map_congr_left (f := Tri.rename τ) (g := Tri.rename σ) fun t ht => by
          obtain ⟨a, b, c⟩ := W'.triangles t ht
          simp only [Tri.rename, hbase τ h _ (hlt' _ a), hbase τ h _ (hlt' _ b), hbase τ h _ (hlt' _ c)]] at this
    · rintro ⟨a, b, c, d, e⟩
      refine ⟨σ, ⟨hsz.symm, hbij, ?_, a, b, c, d, e⟩⟩
      intro v q q' hq' hq
      rw [← xy_of_at hq', ← xy_of_at hq]
      exact (hσ2 v (at_lt hq')).2
  rw [hex]
  -- edges
  have hge : ∀ e ∈ g'.edges, e.1 < N ∧ e.2 < N := fun e he =>
    ⟨hlt' _ (W'.edges e he).1, hlt' _ (W'.edges e he).2⟩
  have hgt : ∀ t ∈ g'.triangles, t.1 < N ∧ t.2.1 < N ∧ t.2.2 < N := fun t ht =>
    ⟨hlt' _ (W'.triangles t ht).1, hlt' _ (W'.triangles t ht).2.1, hlt' _ (W'.triangles t ht).2.2⟩
  by_cases hel : g.edges.length = g'.edges.length
  swap
  · refine ⟨false, by rw [if_pos hel]; rfl, ?_⟩
    simp only [Bool.false_eq_true, false_iff]
    rintro ⟨h, -⟩; exact hel (by simpa using h.length_eq.symm)
  rw [if_neg (by simpa using hel)]
  rw [pyAnyNot_eq (fun e : Edge => g.containsEdge (σ e.1, σ e.2)) (by
    intro e he
    obtain ⟨a, b⟩ := hge e he
    simp only [hr _ a, hr _ b, bind_ok, pure_eq_ok]), bind_ok]
  have hE : (g'.edges.map (Edge.rename σ)).Perm (g.edges.map Edge.undirected) ↔
      (g'.edges.any fun e => !g.containsEdge (σ e.1, σ e.2)) = false := by
    rw [perm_iff_of_nodup (nodup_rename_edges hS.edges hge hi) (by simp [hel])]
    simp only [List.any_eq_false, List.mem_map, forall_exists_index, and_imp, forall_apply_eq_imp_iff₂,
      Bool.not_eq_true', Bool.not_eq_false]
    refine forall₂_congr fun e _ => ?_
    rw [containsEdge_iff, List.mem_map]; rfl
  cases hEb : (g'.edges.any fun e => !g.containsEdge (σ e.1, σ e.2))
  swap
  · refine ⟨false, rfl, ?_⟩
    rw [hE, hEb]; simp
  rw [hEb] at hE
  simp only [Bool.false_eq_true, if_false]
  -- triangles
  by_cases htl : g.triangles.length = g'.triangles.length
  swap
  · refine ⟨false, by rw [if_pos htl]; rfl, ?_⟩
    simp only [Bool.false_eq_true, false_iff]
    rintro ⟨-, h, -⟩; exact htl (by simpa using h.length_eq.symm)
  rw [if_neg (by simpa using htl)]
  rw [pyAnyNot_eq (fun t : Tri => g.containsTriangle (σ t.1, σ t.2.1, σ t.2.2)) (by
    intro t ht
    obtain ⟨a, b, c⟩ := hgt t ht
    simp only [hr _ a, hr _ b, hr _ c, bind_ok, pure_eq_ok]), bind_ok]
  have hT : (g'.triangles.map (Tri.rename σ)).Perm (g.triangles.map Tri.cycle) ↔
      (g'.triangles.any fun t => !g.containsTriangle (σ t.1, σ t.2.1, σ t.2.2)) = false := by
    rw [perm_iff_of_nodup (nodup_rename_tris hS.triangles hgt hi) (by simp [htl])]
    simp only [List.any_eq_false, List.mem_map, forall_exists_index, and_imp, forall_apply_eq_imp_iff₂,
      Bool.not_eq_true', Bool.not_eq_false]
    refine forall₂_congr fun e _ => ?_
    rw [containsTriangle_iff, List.mem_map]; rfl
  cases hTb : (g'.triangles.any fun t => !g.containsTriangle (σ t.1, σ t.2.1, σ t.2.2))
  swap
  · refine ⟨false, rfl, ?_⟩
    rw [hT, hTb]; simp
  rw [hTb] at hT
  simp only [Bool.false_eq_true, if_false]
  obtain ⟨b1, q1, r1⟩ := boundariesCoincide_spec (b := g.boundary) (b' := g'.boundary) hr hi
    (fun v hv => hlt' _ (W'.boundary.1 v hv)) (fun e he => hge e (W'.boundary.2 e he)) hS.boundary
  obtain ⟨b2, q2, r2⟩ := boundariesCoincide_spec (b := g.dirichlet) (b' := g'.dirichlet) hr hi
    (fun v hv => hlt' _ (W'.dirichlet.1 v hv)) (fun e he => hge e (W'.dirichlet.2 e he)) hS.dirichlet
  obtain ⟨b3, q3, r3⟩ := boundariesCoincide_spec (b := g.neumann) (b' := g'.neumann) hr hi
    (fun v hv => hlt' _ (W'.neumann.1 v hv)) (fun e he => hge e (W'.neumann.2 e he)) hS.neumann
  rw [hE, hT, ← r1, ← r2, ← r3, q1, bind_ok]
  cases b1 <;> simp [q2, q3]
  cases b2 <;> simp


end Tve
