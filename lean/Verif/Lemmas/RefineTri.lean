import Verif.Lemmas.RefineVert

/-! Refinement of one triangle, in lattice coordinates. -/

namespace Tve

/-! ### index arithmetic -/

/-- the lower lattice triangle of a cell -/
def lowT (i j : ℕ) : LP × LP × LP := ((i, j), (i + 1, j), (i + 1, j + 1))
/-- the upper lattice triangle of a cell -/
def uppT (i j : ℕ) : LP × LP × LP := ((i + 1, j + 1), (i, j + 1), (i, j))

theorem mp_low {n i j k l : ℕ} (h : k + l ≤ n) : mp n (lowT i j) (k, l) = (n * i + k + l, n * j + l) := by
  obtain ⟨m, rfl⟩ := Nat.exists_eq_add_of_le h
  have e : k + l + m - k - l = m := by omega
  simp only [mp, lowT, e, Prod.mk.injEq]
  constructor <;> ring

theorem mp_upp {n i j k l : ℕ} (h : k + l ≤ n) :
    mp n (uppT i j) (k, l) = (n * i + (n - k - l), n * j + (n - l)) := by
  obtain ⟨m, rfl⟩ := Nat.exists_eq_add_of_le h
  have e : k + l + m - k - l = m := by omega
  have e2 : k + l + m - l = k + m := by omega
  simp only [mp, uppT, e, e2, Prod.mk.injEq]
  constructor <;> ring

theorem latTri_cases {nx ny : ℕ} {t : LP × LP × LP} (ht : LatTri nx ny t) :
    ∃ i j, i < nx ∧ j < ny ∧ (t = lowT i j ∨ t = uppT i j) := ht

theorem mul_bound {n i nx : ℕ} (h : i < nx) : n * i + n ≤ n * nx := by
  calc n * i + n = n * (i + 1) := by ring
    _ ≤ n * nx := Nat.mul_le_mul_left _ h

/-! ### pieces of the refinement of one triangle -/

/-- index triples of the fine triangles -/
def lowerK (kl : ℕ × ℕ) : (ℕ × ℕ) × (ℕ × ℕ) × (ℕ × ℕ) := ((kl.1, kl.2), (kl.1 + 1, kl.2), (kl.1, kl.2 + 1))
def upperK (kl : ℕ × ℕ) : (ℕ × ℕ) × (ℕ × ℕ) × (ℕ × ℕ) := ((kl.1, kl.2 + 1), (kl.1 - 1, kl.2 + 1), (kl.1, kl.2))
def fineK (n : ℕ) : List ((ℕ × ℕ) × (ℕ × ℕ) × (ℕ × ℕ)) := (lowerIndices n).map lowerK ++ (upperIndices n).map upperK

/-- the fine triangle of an index triple -/
def mpT (n : ℕ) (t : LP × LP × LP) (K : (ℕ × ℕ) × (ℕ × ℕ) × (ℕ × ℕ)) : LP × LP × LP :=
  (mp n t K.1, mp n t K.2.1, mp n t K.2.2)

/-- the coordinates stored for an index triple -/
noncomputable def bary3 (n : ℕ) (K : (ℕ × ℕ) × (ℕ × ℕ) × (ℕ × ℕ)) : Bary ℝ × Bary ℝ × Bary ℝ :=
  (refBary n K.1.1 K.1.2, refBary n K.2.1.1 K.2.1.2, refBary n K.2.2.1 K.2.2.2)

def fineTris (n : ℕ) (t : LP × LP × LP) : List (LP × LP × LP) := (fineK n).map (mpT n t)

theorem fineK_bounds {n : ℕ} {K : (ℕ × ℕ) × (ℕ × ℕ) × (ℕ × ℕ)} (hK : K ∈ fineK n) :
    K.1.1 + K.1.2 ≤ n ∧ K.2.1.1 + K.2.1.2 ≤ n ∧ K.2.2.1 + K.2.2.2 ≤ n := by
  simp only [fineK, List.mem_append, List.mem_map] at hK
  rcases hK with ⟨kl, h, rfl⟩ | ⟨kl, h, rfl⟩
  · have := mem_lowerIndices.1 h; simp only [lowerK]; omega
  · have := mem_upperIndices.1 h; simp only [upperK]; omega

def orientL (c : Bool) (e : LP × LP) : LP × LP := if c then e else (e.2, e.1)

theorem labE_orientL (P : List LP) (c : Bool) (e : LP × LP) : orientPair c (labE P e) = labE P (orientL c e) := by
  cases c <;> rfl

/-- whether the triangle is a lower one -/
def upOf (t : LP × LP × LP) : Bool := decide (t.1.1 < t.2.1.1)
/-- whether the third side, from the third to the first vertex, has the orientation `dg` of the coarse diagonals -/
def dcOf (dg : Bool) (t : LP × LP × LP) : Bool := if upOf t then !dg else dg

def hside (t : LP × LP × LP) : LP × LP := orientL (upOf t) (t.1, t.2.1)
def vside (t : LP × LP × LP) : LP × LP := orientL (upOf t) (t.2.1, t.2.2)
def dside (dg : Bool) (t : LP × LP × LP) : LP × LP := orientL (dcOf dg t) (t.2.2, t.1)

/-- the three fine edges added for one index -/
def fineEdges1 (n : ℕ) (dg : Bool) (t : LP × LP × LP) (kl : ℕ × ℕ) : List (LP × LP) :=
  [orientL (upOf t) (mp n t (kl.1, kl.2), mp n t (kl.1 + 1, kl.2)),
    orientL (upOf t) (mp n t (kl.1 + 1, kl.2), mp n t (kl.1, kl.2 + 1)),
    orientL (dcOf dg t) (mp n t (kl.1, kl.2), mp n t (kl.1, kl.2 + 1))]

def fineEdges (n : ℕ) (dg : Bool) (t : LP × LP × LP) : List (LP × LP) := (lowerIndices n).flatMap (fineEdges1 n dg t)

/-- subdivision points of an edge -/
def subP (n : ℕ) (e : LP × LP) (s : ℕ) : LP :=
  ((n - s) * e.1.1 + s * e.2.1, (n - s) * e.1.2 + s * e.2.2)

/-- subdivision edges of an edge -/
def subE (n : ℕ) (e : LP × LP) (s : ℕ) : LP × LP := (subP n e s, subP n e (s + 1))

def subEdges (n : ℕ) (e : LP × LP) : List (LP × LP) := (List.range n).map (subE n e)
def subVerts (n : ℕ) (e : LP × LP) : List LP := (List.range (n - 1)).map fun s => subP n e (s + 1)

def fineBE (n : ℕ) (X : List (LP × LP)) (t : LP × LP × LP) : List (LP × LP) :=
  [hside t, vside t].flatMap fun e => if e ∈ X then subEdges n e else []
def fineBV (n : ℕ) (X : List (LP × LP)) (t : LP × LP × LP) : List LP :=
  [hside t, vside t].flatMap fun e => if e ∈ X then subVerts n e else []

/-- the assignments made in the coarse-edge dictionaries -/
def fineCE (n : ℕ) (dg : Bool) (t : LP × LP × LP) : List ((LP × LP) × ℕ) :=
  [hside t, vside t, dside dg t].flatMap fun e => (List.range n).map fun s => (e, s)

theorem subP_swap {n s : ℕ} (h : s ≤ n) (a b : LP) : subP n (a, b) (n - s) = subP n (b, a) s := by
  simp only [subP, Nat.sub_sub_self h, Prod.mk.injEq]
  constructor <;> ring

theorem mp_h {n i : ℕ} (t : LP × LP × LP) : mp n t (i, 0) = subP n (t.1, t.2.1) i := by
  simp [mp, subP]

theorem mp_v {n i : ℕ} (h : i ≤ n) (t : LP × LP × LP) : mp n t (n - i, i) = subP n (t.2.1, t.2.2) i := by
  have : n - (n - i) - i = 0 := by omega
  simp [mp, subP, this]

theorem mp_d {n i : ℕ} (h : i ≤ n) (t : LP × LP × LP) : mp n t (0, n - i) = subP n (t.2.2, t.1) i := by
  have : n - 0 - (n - i) = i := by omega
  simp only [mp, subP, this, Prod.mk.injEq]
  constructor <;> ring

theorem orientList_sub (n : ℕ) (P : List LP) (c : Bool) (e : LP × LP) :
    orientList c ((List.range (n + 1)).map fun i => lab P (subP n e i)) =
      (List.range (n + 1)).map fun i => lab P (subP n (orientL c e) i) := by
  cases c with
  | true => rfl
  | false =>
    simp only [orientList, orientL, Bool.false_eq_true, if_false]
    rw [← List.map_reverse]
    apply List.ext_getElem
    · simp
    · intro i h1 h2
      simp only [List.length_map, List.length_range] at h2
      simp only [List.getElem_map, List.getElem_reverse, List.getElem_range, List.length_range]
      rw [show n + 1 - 1 - i = n - i by omega, subP_swap (by omega)]

theorem refineBoundaryEdge_sub (n : ℕ) (P : List LP) (e : Edge) (b ib : Boundary) (f : LP × LP) :
    refineBoundaryEdge e ((List.range (n + 1)).map fun i => lab P (subP n f i)) b ib =
      if e ∉ b.edges then ib
      else ⟨ib.vertices ++ (subVerts n f).map (lab P), ib.edges ++ (subEdges n f).map (labE P)⟩ := by
  unfold refineBoundaryEdge
  split
  · rfl
  congr 2
  · apply List.ext_getElem
    · simp [subVerts]
    · intro i h1 h2
      simp [subVerts, List.getElem_dropLast]
  · apply List.ext_getElem
    · simp [subEdges]
    · intro i h1 h2
      simp [subEdges, List.getElem_dropLast, subE, labE]

/-! ### dictionaries that are filled in parallel -/

/-- The two dictionaries hold exactly the keys of `S`, with a pair of values assigned in `S`. -/
def Joint {κ α β : Type} [DecidableEq κ] (d1 : PyDict κ α) (d2 : PyDict κ β) (S : List (κ × α × β)) : Prop :=
  ∀ k, (d1.get? k = none ∧ d2.get? k = none ∧ ∀ a b, (k, a, b) ∉ S) ∨
    ∃ a b, d1.get? k = some a ∧ d2.get? k = some b ∧ (k, a, b) ∈ S

theorem Joint.empty {κ α β : Type} [DecidableEq κ] :
    Joint (PyDict.empty : PyDict κ α) (PyDict.empty : PyDict κ β) [] :=
  fun k => .inl ⟨rfl, rfl, by simp⟩

theorem Joint.set {κ α β : Type} [DecidableEq κ] {d1 : PyDict κ α} {d2 : PyDict κ β} {S : List (κ × α × β)}
    (J : Joint d1 d2 S) (k : κ) (a : α) (b : β) : Joint (d1.set k a) (d2.set k b) (S ++ [(k, a, b)]) := by
  intro k'
  simp only [PyDict.get?_set]
  by_cases h : k = k'
  · subst h; right; exact ⟨a, b, by simp⟩
  · simp only [h, if_false]
    rcases J k' with ⟨h1, h2, h3⟩ | ⟨a', b', h1, h2, h3⟩
    · left
      refine ⟨h1, h2, ?_⟩
      intro a' b' hm
      rcases List.mem_append.1 hm with hm | hm
      · exact h3 _ _ hm
      · simp only [List.mem_singleton, Prod.mk.injEq] at hm; exact h hm.1.symm
    · right; exact ⟨a', b', h1, h2, by simp [h3]⟩

theorem Joint.set' {κ α β : Type} [DecidableEq κ] {d1 : PyDict κ α} {d2 : PyDict κ β} {S : List (κ × α × β)}
    (J : Joint d1 d2 S) (x : κ × α × β) : Joint (d1.set x.1 x.2.1) (d2.set x.1 x.2.2) (S ++ [x]) :=
  J.set x.1 x.2.1 x.2.2

theorem Joint.congr {κ α β : Type} [DecidableEq κ] {d1 : PyDict κ α} {d2 : PyDict κ β} {S S' : List (κ × α × β)}
    (J : Joint d1 d2 S) (h : ∀ x, x ∈ S ↔ x ∈ S') : Joint d1 d2 S' := by
  intro k
  rcases J k with ⟨h1, h2, h3⟩ | ⟨a', b', h1, h2, h3⟩
  · exact .inl ⟨h1, h2, fun a b => by rw [← h]; exact h3 a b⟩
  · exact .inr ⟨a', b', h1, h2, (h _).1 h3⟩

/-! ### the triangle loops -/

theorem get_tv {n : ℕ} {t : LP × LP × LP} {Q : List LP} {tv : PyDict (ℕ × ℕ) Vertex}
    (htv : ∀ k l, k + l ≤ n → tv.get? (k, l) = some (lab Q (mp n t (k, l)))) {k l : ℕ} (h : k + l ≤ n) :
    tv.get (k, l) = .ok (lab Q (mp n t (k, l))) := PyDict.get_of_get? (htv k l h)

/-- the effect of adding one fine triangle -/
noncomputable def triStep (n : ℕ) (Q : List LP) (ct : Tri) (t : LP × LP × LP) (s : RefState ℝ)
    (K : (ℕ × ℕ) × (ℕ × ℕ) × (ℕ × ℕ)) : RefState ℝ :=
  { s with
    grid := { s.grid with triangles := s.grid.triangles ++ [labT Q (mpT n t K)] }
    coarseTriangle := s.coarseTriangle.set (labT Q (mpT n t K)) ct
    coarseBary := s.coarseBary.set (labT Q (mpT n t K)) (bary3 n K) }

theorem pyFor_eq_foldl {α σ : Type} {l : List α} {f : σ → α → PyM σ} {g : σ → α → σ} (I : σ → Prop)
    (h : ∀ s, I s → ∀ a ∈ l, f s a = .ok (g s a) ∧ I (g s a)) :
    ∀ {s : σ}, I s → pyFor l s f = .ok (l.foldl g s) := by
  induction l with
  | nil => intro s _; rfl
  | cons a t ih =>
    intro s hs
    obtain ⟨h1, h2⟩ := h s hs a (by simp)
    rw [pyFor_cons, h1]
    exact ih (fun s hs a ha => h s hs a (by simp [ha])) h2

theorem lowerLoop {n : ℕ} {h : ℝ} {t : LP × LP × LP} {Q : List LP} {tv : PyDict (ℕ × ℕ) Vertex}
    (htv : ∀ k l, k + l ≤ n → tv.get? (k, l) = some (lab Q (mp n t (k, l))))
    (hQ : ∀ k l, k + l ≤ n → mp n t (k, l) ∈ Q) (ct : Tri) {s : RefState ℝ}
    (hs : s.grid.points = Q.map fun a => vec2 (pos h a)) :
    pyFor (lowerIndices n) s (refineLower n ct tv) =
      .ok (((lowerIndices n).map lowerK).foldl (triStep n Q ct t) s) := by
  rw [List.foldl_map]
  refine pyFor_eq_foldl (fun s => s.grid.points = Q.map fun a => vec2 (pos h a)) ?_ hs
  rintro s hs ⟨k, l⟩ hkl
  have hkl := mem_lowerIndices.1 hkl
  simp only at hkl
  refine ⟨?_, hs⟩
  simp only [refineLower, get_tv htv (show k + l ≤ n by omega), get_tv htv (show k + 1 + l ≤ n by omega),
    get_tv htv (show k + (l + 1) ≤ n by omega), bind_ok, hs, pyGet_lab (hQ k l (by omega)),
    pyGet_lab (hQ (k + 1) l (by omega))]
  simp only [triStep, lowerK, mpT, labT, bary3, pure_eq_ok, hs]

theorem upperLoop {n : ℕ} {h : ℝ} {t : LP × LP × LP} {Q : List LP} {tv : PyDict (ℕ × ℕ) Vertex}
    (htv : ∀ k l, k + l ≤ n → tv.get? (k, l) = some (lab Q (mp n t (k, l)))) (ct : Tri) {s : RefState ℝ}
    (hs : s.grid.points = Q.map fun a => vec2 (pos h a)) :
    pyFor (upperIndices n) s (refineUpper n ct tv) =
      .ok (((upperIndices n).map upperK).foldl (triStep n Q ct t) s) := by
  rw [List.foldl_map]
  refine pyFor_eq_foldl (fun s => s.grid.points = Q.map fun a => vec2 (pos h a)) ?_ hs
  rintro s hs ⟨k, l⟩ hkl
  have hkl := mem_upperIndices.1 hkl
  simp only at hkl
  refine ⟨?_, hs⟩
  simp only [refineUpper, get_tv htv (show k + l ≤ n by omega), get_tv htv (show k - 1 + (l + 1) ≤ n by omega),
    get_tv htv (show k + (l + 1) ≤ n by omega), bind_ok]
  rfl

theorem triStep_fold {n : ℕ} {t : LP × LP × LP} {Q : List LP} (ct : Tri)
    (Ks : List ((ℕ × ℕ) × (ℕ × ℕ) × (ℕ × ℕ))) : ∀ {s : RefState ℝ} {S : List (Tri × Tri × Bary ℝ × Bary ℝ × Bary ℝ)},
    Joint s.coarseTriangle s.coarseBary S →
    ∃ d1 d2, Ks.foldl (triStep n Q ct t) s = { s with
        grid := { s.grid with triangles := s.grid.triangles ++ Ks.map fun K => labT Q (mpT n t K) }
        coarseTriangle := d1
        coarseBary := d2 } ∧
      Joint d1 d2 (S ++ Ks.map fun K => (labT Q (mpT n t K), ct, bary3 n K)) := by
  induction Ks with
  | nil => intro s S J; exact ⟨s.coarseTriangle, s.coarseBary, by simp, by simpa using J⟩
  | cons K Ks ih =>
    intro s S J
    have J1 := J.set (labT Q (mpT n t K)) ct (bary3 n K)
    obtain ⟨d1, d2, e, J2⟩ := ih (s := triStep n Q ct t s K) J1
    refine ⟨d1, d2, ?_, ?_⟩
    · rw [List.foldl_cons, e]; simp [triStep]
    · simpa using J2

/-! ### the edge loop -/

/-- the mean edge length kept by `append_edge` -/
noncomputable def meanOf (h : ℝ) (F : List (LP × LP)) : Option ℝ :=
  if F = [] then none else some ((F.map (lenL h)).sum / (F.length : ℝ))

theorem appendEdge_lat {g : Grid ℝ} {nx ny : ℕ} {dg : Bool} {h : ℝ} {Q : List LP} {F : List (LP × LP)}
    (hp : g.points = Q.map fun a => vec2 (pos h a)) (he : g.edges = F.map (labE Q))
    (hm : g.meanEdgeLength = meanOf h F) (hF : ∀ e ∈ F, LatEdge nx ny dg e) {e : LP × LP}
    (hl : LatEdge nx ny dg e) (hQ : e.1 ∈ Q ∧ e.2 ∈ Q) :
    g.appendEdge (labE Q e) = .ok { g with
      edges := (pySetUpdate F [e]).map (labE Q)
      meanEdgeLength := meanOf h (pySetUpdate F [e]) } := by
  have h1 : labE Q e ∈ g.edges ↔ e ∈ F := by
    rw [he]
    constructor
    · intro hh
      obtain ⟨e', he', h'⟩ := List.mem_map.1 hh
      rw [labE_inj hQ h'.symm]; exact he'
    · exact fun hh => List.mem_map_of_mem hh
  have h2 : ((labE Q e).2, (labE Q e).1) ∉ g.edges := by
    rw [he]
    intro hh
    obtain ⟨e', he', h'⟩ := List.mem_map.1 hh
    have : e' = (e.2, e.1) := (labE_inj (t := (e.2, e.1)) ⟨hQ.2, hQ.1⟩ h'.symm).symm
    subst this
    exact latEdge_not_swap hl (hF _ he')
  unfold Grid.appendEdge
  by_cases hin : e ∈ F
  · rw [if_neg (by rw [not_and_or]; left; simpa using h1.2 hin), pySetUpdate_of_subset (by simpa using hin), ← he, ← hm]
  · rw [if_pos ⟨fun hh => hin (h1.1 hh), h2⟩, hp, gridEdgeLength_lab hQ.1 hQ.2]
    have hF' : pySetUpdate F [e] = F ++ [e] := by rw [pySetUpdate_cons, if_neg hin, pySetUpdate_nil]
    simp only [bind_ok, pure_eq_ok, hF', he, hm, List.map_append, List.map_cons, List.map_nil, List.length_map]
    congr 2
    unfold meanOf
    by_cases h0 : F = []
    · subst h0; simp
    · rw [if_neg h0, if_neg (by simp)]
      have : (0 : ℝ) < F.length := by exact_mod_cast List.length_pos_iff.2 h0
      simp only [List.map_append, List.map_cons, List.map_nil, List.sum_append, List.sum_cons, List.sum_nil,
        List.length_append, List.length_cons, List.length_nil, Option.some.injEq]
      push_cast
      field_simp
      simp

theorem fineEdges1_lat {n nx ny : ℕ} {dg : Bool} {t : LP × LP × LP} (ht : LatTri nx ny t) {kl : ℕ × ℕ}
    (hkl : kl.1 + kl.2 < n) {e : LP × LP} (he : e ∈ fineEdges1 n dg t kl) : LatEdge (n * nx) (n * ny) (!dg) e := by
  obtain ⟨k, l⟩ := kl
  simp only at hkl
  obtain ⟨i, j, hi, hj, rfl | rfl⟩ := latTri_cases ht
  · have hu : upOf (lowT i j) = true := by simp [upOf, lowT]
    have hb1 := mul_bound (n := n) hi
    have hb2 := mul_bound (n := n) hj
    simp only [fineEdges1, dcOf, hu, orientL, if_true, mp_low (show k + l ≤ n by omega),
      mp_low (show k + 1 + l ≤ n by omega), mp_low (show k + (l + 1) ≤ n by omega), List.mem_cons,
      List.not_mem_nil, or_false] at he
    rcases he with rfl | rfl | rfl
    · refine ⟨n * i + k + l, n * j + l, .inl ⟨by omega, by omega, ?_⟩⟩
      refine Prod.ext (Prod.ext ?_ ?_) (Prod.ext ?_ ?_) <;> dsimp only <;> omega
    · refine ⟨n * i + k + l + 1, n * j + l, .inr (.inl ⟨by omega, by omega, ?_⟩)⟩
      refine Prod.ext (Prod.ext ?_ ?_) (Prod.ext ?_ ?_) <;> dsimp only <;> omega
    · refine ⟨n * i + k + l, n * j + l, .inr (.inr ⟨by omega, by omega, ?_⟩)⟩
      cases dg
      · simp only [Bool.not_false, if_true]; refine Prod.ext (Prod.ext ?_ ?_) (Prod.ext ?_ ?_) <;> dsimp only <;> omega
      · simp only [Bool.not_true, Bool.false_eq_true, if_false]; refine Prod.ext (Prod.ext ?_ ?_) (Prod.ext ?_ ?_) <;> dsimp only <;> omega
  · have hu : upOf (uppT i j) = false := by simp [upOf, uppT]
    have hb1 := mul_bound (n := n) hi
    have hb2 := mul_bound (n := n) hj
    simp only [fineEdges1, dcOf, hu, orientL, Bool.false_eq_true, if_false, mp_upp (show k + l ≤ n by omega),
      mp_upp (show k + 1 + l ≤ n by omega), mp_upp (show k + (l + 1) ≤ n by omega), List.mem_cons,
      List.not_mem_nil, or_false] at he
    rcases he with rfl | rfl | rfl
    · refine ⟨n * i + (n - k - l - 1), n * j + (n - l), .inl ⟨by omega, by omega, ?_⟩⟩
      refine Prod.ext (Prod.ext ?_ ?_) (Prod.ext ?_ ?_) <;> dsimp only <;> omega
    · refine ⟨n * i + (n - k - l - 1), n * j + (n - l - 1), .inr (.inl ⟨by omega, by omega, ?_⟩)⟩
      refine Prod.ext (Prod.ext ?_ ?_) (Prod.ext ?_ ?_) <;> dsimp only <;> omega
    · refine ⟨n * i + (n - k - l - 1), n * j + (n - l - 1), .inr (.inr ⟨by omega, by omega, ?_⟩)⟩
      cases dg
      · simp only [Bool.not_false, if_true, Bool.false_eq_true, if_false]; refine Prod.ext (Prod.ext ?_ ?_) (Prod.ext ?_ ?_) <;> dsimp only <;> omega
      · simp only [Bool.not_true, if_true, Bool.false_eq_true, if_false]; refine Prod.ext (Prod.ext ?_ ?_) (Prod.ext ?_ ?_) <;> dsimp only <;> omega

theorem edgeLoop {n nx ny : ℕ} {dg : Bool} {h : ℝ} {t : LP × LP × LP} {Q : List LP} {tv : PyDict (ℕ × ℕ) Vertex}
    (ht : LatTri nx ny t)
    (htv : ∀ k l, k + l ≤ n → tv.get? (k, l) = some (lab Q (mp n t (k, l))))
    (hQ : ∀ k l, k + l ≤ n → mp n t (k, l) ∈ Q) (ks : List (ℕ × ℕ)) (hks : ∀ kl ∈ ks, kl.1 + kl.2 < n) :
    ∀ {g : Grid ℝ} {F : List (LP × LP)}, g.points = Q.map (fun a => vec2 (pos h a)) → g.edges = F.map (labE Q) →
    g.meanEdgeLength = meanOf h F → (∀ e ∈ F, LatEdge (n * nx) (n * ny) (!dg) e) →
    pyFor ks g (refineEdges (upOf t) (upOf t) (dcOf dg t) tv) = .ok { g with
      edges := (pySetUpdate F (ks.flatMap (fineEdges1 n dg t))).map (labE Q)
      meanEdgeLength := meanOf h (pySetUpdate F (ks.flatMap (fineEdges1 n dg t))) } := by
  induction ks with
  | nil =>
    intro g F hp he hm hF
    simp only [pyFor_nil, List.flatMap_nil, pySetUpdate_nil, ← he, ← hm]
  | cons kl ks ih =>
    obtain ⟨k, l⟩ := kl
    intro g F hp he hm hF
    have hkl : k + l < n := hks (k, l) (by simp)
    have hlat := fun e => fineEdges1_lat (dg := dg) ht (kl := (k, l)) hkl (e := e)
    have q1 := hQ k l (by omega)
    have q2 := hQ (k + 1) l (by omega)
    have q3 := hQ k (l + 1) (by omega)
    have qo : ∀ c (a b : LP), a ∈ Q → b ∈ Q → (orientL c (a, b)).1 ∈ Q ∧ (orientL c (a, b)).2 ∈ Q := by
      intro c a b ha hb; cases c
      · exact ⟨hb, ha⟩
      · exact ⟨ha, hb⟩
    have hl1 := hlat _ (by unfold fineEdges1; exact List.mem_cons_self)
    have hl2 := hlat _ (by unfold fineEdges1; exact List.mem_cons_of_mem _ List.mem_cons_self)
    have hl3 := hlat _ (by unfold fineEdges1; exact List.mem_cons_of_mem _ (List.mem_cons_of_mem _ List.mem_cons_self))
    simp only at hl1 hl2 hl3
    have hF1 : ∀ e ∈ pySetUpdate F [orientL (upOf t) (mp n t (k, l), mp n t (k + 1, l))],
        LatEdge (n * nx) (n * ny) (!dg) e := by
      intro e he'
      rcases mem_pySetUpdate.1 he' with h' | h'
      · exact hF e h'
      · rw [List.mem_singleton.1 h']; exact hl1
    have hF2 : ∀ e ∈ pySetUpdate (pySetUpdate F [orientL (upOf t) (mp n t (k, l), mp n t (k + 1, l))])
        [orientL (upOf t) (mp n t (k + 1, l), mp n t (k, l + 1))],
        LatEdge (n * nx) (n * ny) (!dg) e := by
      intro e he'
      rcases mem_pySetUpdate.1 he' with h' | h'
      · exact hF1 e h'
      · rw [List.mem_singleton.1 h']; exact hl2
    have hF3 : ∀ e ∈ pySetUpdate (pySetUpdate (pySetUpdate F [orientL (upOf t) (mp n t (k, l), mp n t (k + 1, l))])
        [orientL (upOf t) (mp n t (k + 1, l), mp n t (k, l + 1))])
        [orientL (dcOf dg t) (mp n t (k, l), mp n t (k, l + 1))],
        LatEdge (n * nx) (n * ny) (!dg) e := by
      intro e he'
      rcases mem_pySetUpdate.1 he' with h' | h'
      · exact hF2 e h'
      · rw [List.mem_singleton.1 h']; exact hl3
    have step : refineEdges (upOf t) (upOf t) (dcOf dg t) tv g (k, l) = .ok { g with
        edges := (pySetUpdate F (fineEdges1 n dg t (k, l))).map (labE Q)
        meanEdgeLength := meanOf h (pySetUpdate F (fineEdges1 n dg t (k, l))) } := by
      simp only [refineEdges, get_tv htv (show k + l ≤ n by omega), get_tv htv (show k + 1 + l ≤ n by omega),
        get_tv htv (show k + (l + 1) ≤ n by omega), bind_ok]
      rw [show (lab Q (mp n t (k, l)), lab Q (mp n t (k + 1, l))) = labE Q (mp n t (k, l), mp n t (k + 1, l)) from rfl,
        show (lab Q (mp n t (k + 1, l)), lab Q (mp n t (k, l + 1))) =
          labE Q (mp n t (k + 1, l), mp n t (k, l + 1)) from rfl,
        show (lab Q (mp n t (k, l)), lab Q (mp n t (k, l + 1))) = labE Q (mp n t (k, l), mp n t (k, l + 1)) from rfl,
        labE_orientL, labE_orientL, labE_orientL]
      rw [appendEdge_lat hp he hm hF hl1 (qo _ _ _ q1 q2)]
      simp only [bind_ok]
      rw [appendEdge_lat (g := { g with
          edges := (pySetUpdate F [orientL (upOf t) (mp n t (k, l), mp n t (k + 1, l))]).map (labE Q)
          meanEdgeLength := meanOf h (pySetUpdate F [orientL (upOf t) (mp n t (k, l), mp n t (k + 1, l))]) })
        hp rfl rfl hF1 hl2 (qo _ _ _ q2 q3)]
      simp only [bind_ok]
      rw [appendEdge_lat (g := { g with
          edges := (pySetUpdate (pySetUpdate F [orientL (upOf t) (mp n t (k, l), mp n t (k + 1, l))])
            [orientL (upOf t) (mp n t (k + 1, l), mp n t (k, l + 1))]).map (labE Q)
          meanEdgeLength := meanOf h (pySetUpdate (pySetUpdate F
            [orientL (upOf t) (mp n t (k, l), mp n t (k + 1, l))])
            [orientL (upOf t) (mp n t (k + 1, l), mp n t (k, l + 1))]) })
        hp rfl rfl hF2 hl3 (qo _ _ _ q1 q3)]
      rfl
    rw [pyFor_cons, step]
    simp only [bind_ok]
    rw [ih (fun k hk => hks k (by simp [hk])) (g := { g with
        edges := (pySetUpdate F (fineEdges1 n dg t (k, l))).map (labE Q)
        meanEdgeLength := meanOf h (pySetUpdate F (fineEdges1 n dg t (k, l))) }) hp rfl rfl hF3]
    simp only [List.flatMap_cons, pySetUpdate_append]

/-! ### the coarse-edge loop -/

theorem orient_sub {n i : ℕ} (hi : i < n) (c : Bool) (e : LP × LP) :
    ∃ s < n, orientL c (subP n e i, subP n e (i + 1)) = subE n (orientL c e) s ∧
      (orientWeights c ((1 - (i : ℝ) / n, 1 - ((i + 1 : ℕ) : ℝ) / n) : ℝ × ℝ)) =
        (1 - (s : ℝ) / n, 1 - ((s + 1 : ℕ) : ℝ) / n) ∧ s = if c then i else n - 1 - i := by
  cases c with
  | true => exact ⟨i, hi, rfl, rfl, rfl⟩
  | false =>
    have hn : (n : ℝ) ≠ 0 := by exact_mod_cast (by omega : n ≠ 0)
    refine ⟨n - 1 - i, by omega, ?_, ?_, rfl⟩
    · obtain ⟨a, b⟩ := e
      simp only [orientL, Bool.false_eq_true, if_false, subE]
      rw [← subP_swap (show n - 1 - i ≤ n by omega) a b, ← subP_swap (show n - 1 - i + 1 ≤ n by omega) a b,
        show n - (n - 1 - i) = i + 1 by omega, show n - (n - 1 - i + 1) = i by omega]
    · have e1 : ((n - 1 - i : ℕ) : ℝ) = n - 1 - i := by
        rw [Nat.cast_sub (by omega), Nat.cast_sub (by omega)]; simp
      simp only [orientWeights, Bool.false_eq_true, if_false, Prod.mk.injEq]
      push_cast
      rw [e1]
      constructor <;> field_simp <;> ring

/-- an assignment of the coarse-edge dictionaries -/
noncomputable def ceEntry (n : ℕ) (P Q : List LP) (es : (LP × LP) × ℕ) : Edge × Edge × ℝ × ℝ :=
  (labE Q (subE n es.1 es.2), labE P es.1, (1 - (es.2 : ℝ) / n, 1 - ((es.2 + 1 : ℕ) : ℝ) / n))

theorem coarseEdgeLoop {n : ℕ} {dg : Bool} {t : LP × LP × LP} {P Q : List LP}
    {tv : PyDict (ℕ × ℕ) Vertex} (htv : ∀ k l, k + l ≤ n → tv.get? (k, l) = some (lab Q (mp n t (k, l))))
    (is : List ℕ) (his : ∀ i ∈ is, i < n) :
    ∀ {s : RefState ℝ} {S : List (Edge × Edge × ℝ × ℝ)}, Joint s.coarseEdge s.coarseEdgeCoords S →
    ∃ d1 d2 S', pyFor is s (refineCoarseEdges n (upOf t) (upOf t) (dcOf dg t) (labE P (hside t)) (labE P (vside t))
        (labE P (dside dg t)) tv) = .ok { s with coarseEdge := d1, coarseEdgeCoords := d2 } ∧
      Joint d1 d2 S' ∧ ∀ x, x ∈ S' ↔ x ∈ S ∨ ∃ i ∈ is, 
        x = ceEntry n P Q (hside t, if upOf t then i else n - 1 - i) ∨
        x = ceEntry n P Q (vside t, if upOf t then i else n - 1 - i) ∨
        x = ceEntry n P Q (dside dg t, if dcOf dg t then i else n - 1 - i) := by
  induction is with
  | nil => intro s S J; exact ⟨_, _, S, rfl, J, by simp⟩
  | cons i is ih =>
    intro s S J
    have hi : i < n := his i (by simp)
    obtain ⟨s1, -, e1, w1, rfl⟩ := orient_sub hi (upOf t) (t.1, t.2.1)
    obtain ⟨s2, -, e2, w2, rfl⟩ := orient_sub hi (upOf t) (t.2.1, t.2.2)
    obtain ⟨s3, -, e3, w3, rfl⟩ := orient_sub hi (dcOf dg t) (t.2.2, t.1)
    have step : refineCoarseEdges n (upOf t) (upOf t) (dcOf dg t) (labE P (hside t)) (labE P (vside t))
        (labE P (dside dg t)) tv s i = .ok { s with
          coarseEdge := ((s.coarseEdge.set (ceEntry n P Q (hside t, if upOf t then i else n - 1 - i)).1
              (ceEntry n P Q (hside t, if upOf t then i else n - 1 - i)).2.1).set
            (ceEntry n P Q (vside t, if upOf t then i else n - 1 - i)).1
              (ceEntry n P Q (vside t, if upOf t then i else n - 1 - i)).2.1).set
            (ceEntry n P Q (dside dg t, if dcOf dg t then i else n - 1 - i)).1
              (ceEntry n P Q (dside dg t, if dcOf dg t then i else n - 1 - i)).2.1
          coarseEdgeCoords := ((s.coarseEdgeCoords.set (ceEntry n P Q (hside t, if upOf t then i else n - 1 - i)).1
              (ceEntry n P Q (hside t, if upOf t then i else n - 1 - i)).2.2).set
            (ceEntry n P Q (vside t, if upOf t then i else n - 1 - i)).1
              (ceEntry n P Q (vside t, if upOf t then i else n - 1 - i)).2.2).set
            (ceEntry n P Q (dside dg t, if dcOf dg t then i else n - 1 - i)).1
              (ceEntry n P Q (dside dg t, if dcOf dg t then i else n - 1 - i)).2.2 } := by
      simp only [refineCoarseEdges, get_tv htv (show i + 0 ≤ n by omega), get_tv htv (show i + 1 + 0 ≤ n by omega),
        get_tv htv (show n - i + i ≤ n by omega), get_tv htv (show n - (i + 1) + (i + 1) ≤ n by omega),
        get_tv htv (show 0 + (n - i) ≤ n by omega), get_tv htv (show 0 + (n - (i + 1)) ≤ n by omega), bind_ok]
      rw [mp_h, mp_h, mp_v (by omega), mp_v (by omega), mp_d (by omega), mp_d (by omega)]
      rw [w1, w3]
      rw [show (lab Q (subP n (t.1, t.2.1) i), lab Q (subP n (t.1, t.2.1) (i + 1))) =
          labE Q (subP n (t.1, t.2.1) i, subP n (t.1, t.2.1) (i + 1)) from rfl,
        show (lab Q (subP n (t.2.1, t.2.2) i), lab Q (subP n (t.2.1, t.2.2) (i + 1))) =
          labE Q (subP n (t.2.1, t.2.2) i, subP n (t.2.1, t.2.2) (i + 1)) from rfl,
        show (lab Q (subP n (t.2.2, t.1) i), lab Q (subP n (t.2.2, t.1) (i + 1))) =
          labE Q (subP n (t.2.2, t.1) i, subP n (t.2.2, t.1) (i + 1)) from rfl,
        labE_orientL, labE_orientL, labE_orientL, e1, e2, e3]
      rfl
    have J' := ((J.set' (ceEntry n P Q (hside t, if upOf t then i else n - 1 - i))).set'
      (ceEntry n P Q (vside t, if upOf t then i else n - 1 - i))).set'
      (ceEntry n P Q (dside dg t, if dcOf dg t then i else n - 1 - i))
    obtain ⟨d1, d2, S', e, JJ, hm⟩ := ih (fun k hk => his k (by simp [hk])) (s := { s with
          coarseEdge := _, coarseEdgeCoords := _ }) J'
    refine ⟨d1, d2, S', ?_, JJ, ?_⟩
    · rw [pyFor_cons, step]; exact e
    · intro x
      rw [hm]
      simp only [List.mem_append, List.mem_cons, exists_eq_or_imp, or_assoc, List.not_mem_nil, false_or]

theorem mem_fineCE_iff {n : ℕ} {dg : Bool} {t : LP × LP × LP} {P Q : List LP} (x : Edge × Edge × ℝ × ℝ) :
    (∃ i ∈ List.range n, 
        x = ceEntry n P Q (hside t, if upOf t then i else n - 1 - i) ∨
        x = ceEntry n P Q (vside t, if upOf t then i else n - 1 - i) ∨
        x = ceEntry n P Q (dside dg t, if dcOf dg t then i else n - 1 - i)) ↔
      x ∈ (fineCE n dg t).map (ceEntry n P Q) := by
  have key : ∀ c : Bool, ∀ e : LP × LP, (∃ i < n, x = ceEntry n P Q (e, if c then i else n - 1 - i)) ↔
      ∃ s < n, x = ceEntry n P Q (e, s) := by
    intro c e
    cases c with
    | true => simp
    | false =>
      simp only [Bool.false_eq_true, if_false]
      constructor
      · rintro ⟨i, hi, h⟩; exact ⟨n - 1 - i, by omega, h⟩
      · rintro ⟨s, hs, h⟩; exact ⟨n - 1 - s, by omega, by rw [h, show n - 1 - (n - 1 - s) = s by omega]⟩
  have k1 := key (upOf t) (hside t)
  have k2 := key (upOf t) (vside t)
  have k3 := key (dcOf dg t) (dside dg t)
  simp only [fineCE, List.flatMap_cons, List.flatMap_nil, List.append_nil, List.map_append, List.mem_append,
    List.map_map, List.mem_map, List.mem_range, Function.comp]
  constructor
  · rintro ⟨i, hi, h | h | h⟩
    · obtain ⟨s, hs, h⟩ := k1.1 ⟨i, hi, h⟩; exact .inl ⟨s, hs, h.symm⟩
    · obtain ⟨s, hs, h⟩ := k2.1 ⟨i, hi, h⟩; exact .inr (.inl ⟨s, hs, h.symm⟩)
    · obtain ⟨s, hs, h⟩ := k3.1 ⟨i, hi, h⟩; exact .inr (.inr ⟨s, hs, h.symm⟩)
  · rintro (⟨s, hs, h⟩ | ⟨s, hs, h⟩ | ⟨s, hs, h⟩)
    · obtain ⟨i, hi, h⟩ := k1.2 ⟨s, hs, h.symm⟩; exact ⟨i, hi, .inl h⟩
    · obtain ⟨i, hi, h⟩ := k2.2 ⟨s, hs, h.symm⟩; exact ⟨i, hi, .inr (.inl h)⟩
    · obtain ⟨i, hi, h⟩ := k3.2 ⟨s, hs, h.symm⟩; exact ⟨i, hi, .inr (.inr h)⟩

end Tve
