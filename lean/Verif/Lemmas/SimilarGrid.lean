import Verif.Spec.Similar
import Verif.Lemmas.GridFix
import Verif.Lemmas.Library

/-!
# The grid of a rectangle and of its image under a similarity
-/

namespace Tve
open RectGrid

/-- neighbours in horizontal or vertical direction -/
def AdjL (a b : LP) : Prop :=
  (a.2 = b.2 ∧ (a.1 = b.1 + 1 ∨ b.1 = a.1 + 1)) ∨ (a.1 = b.1 ∧ (a.2 = b.2 + 1 ∨ b.2 = a.2 + 1))

theorem sideEdge_adj {nx ny : ℕ} {f : FixOption} {a b : LP} : SideEdge nx ny f (a, b) ∨ SideEdge nx ny f (b, a) ↔
    InBox nx ny a ∧ InBox nx ny b ∧ OnSideL nx ny f a ∧ OnSideL nx ny f b ∧ AdjL a b := by
  obtain ⟨a1, a2⟩ := a
  obtain ⟨b1, b2⟩ := b
  cases f <;> simp only [SideEdge, InBox, OnSideL, AdjL, Prod.mk.injEq, false_and, and_false, or_self]
  all_goals
    constructor
    · rintro (⟨i, h1, h2⟩ | ⟨i, h1, h2⟩) <;> omega
    · rintro ⟨h1, h2, h3, h4, h5 | h5⟩
      all_goals first
        | omega
        | (rcases h5 with ⟨h6, h7 | h7⟩
           all_goals first
             | exact .inl ⟨_, by omega, ⟨rfl, by omega⟩, by omega, by omega⟩
             | exact .inr ⟨_, by omega, ⟨rfl, by omega⟩, by omega, by omega⟩
             | exact .inl ⟨_, by omega, ⟨by omega, rfl⟩, by omega, by omega⟩
             | exact .inr ⟨_, by omega, ⟨by omega, rfl⟩, by omega, by omega⟩)

section
variable {g g' : Grid ℝ} {it it' : SetIter} {nx ny nx' ny' : ℕ} {h h' : ℝ} {fix fix' : Fix} {s s' : TagState}

/-- lattice coordinates of the vertices of the image -/
structure LatImage (nx ny nx' ny' : ℕ) (T : Similarity) (h h' : ℝ) (ρ : LP → LP) (φ : FixOption → FixOption) : Prop where
  inv : ∀ f, φ (φ f) = f
  count : (nx' + 1) * (ny' + 1) = (nx + 1) * (ny + 1)
  box : ∀ a, InBox nx ny a → InBox nx' ny' (ρ a)
  inj : ∀ a b, InBox nx ny a → InBox nx ny b → ρ a = ρ b → a = b
  pos : ∀ a, InBox nx ny a → pos h' (ρ a) = T.map (pos h a)
  tri : ∀ a b c, InBox nx ny a → InBox nx ny b → InBox nx ny c → (LatTri nx ny (a, b, c) ↔
    LatTri nx' ny' (if T.swap then (ρ c, ρ b, ρ a) else (ρ a, ρ b, ρ c)))
  adj : ∀ a b, InBox nx ny a → InBox nx ny b → (AdjL a b ↔ AdjL (ρ a) (ρ b))
  side : ∀ f a, InBox nx ny a → (OnSideL nx ny f a ↔ OnSideL nx' ny' (φ f) (ρ a))

local notation "PP" => rowMajor (nx + 1) (ny + 1)
local notation "PP'" => rowMajor (nx' + 1) (ny' + 1)

/-- the map of the vertices -/
def latMap (nx ny nx' ny' : ℕ) (ρ : LP → LP) (v : Vertex) : Vertex :=
  lab (rowMajor (nx' + 1) (ny' + 1)) (ρ (co (rowMajor (nx + 1) (ny + 1)) v))

theorem latMap_lab {ρ : LP → LP} {a : LP} (ha : InBox nx ny a) : latMap nx ny nx' ny' ρ (lab PP a) = lab PP' (ρ a) := by
  rw [latMap, co_lab ((mem_rowMajor a).2 ha)]

theorem RectSpec.vertex (R : RectSpec g it nx ny h fix s) {v : Vertex} (hv : v ∈ g.vertices) :
    ∃ a, InBox nx ny a ∧ v = lab PP a := by
  rw [R.vertices, List.mem_range] at hv
  have hv' : v < (rowMajor (nx + 1) (ny + 1)).length := by rwa [length_rowMajor]
  exact ⟨co PP v, (mem_rowMajor _).1 (co_mem hv'), (lab_co (nodup_rowMajor _ _) hv').symm⟩

theorem lab_inj' {a b : LP} (ha : InBox nx ny a) (hb : lab PP a = lab PP b) : a = b :=
  lab_inj ((mem_rowMajor a).2 ha) hb

theorem RectSpec.memT (R : RectSpec g it nx ny h fix s) {a b c : LP} (ha : InBox nx ny a) (hb : InBox nx ny b)
    (hc : InBox nx ny c) : (lab PP a, lab PP b, lab PP c) ∈ g.triangles ↔ LatTri nx ny (a, b, c) := by
  rw [R.triangles, List.mem_map]
  constructor
  · rintro ⟨⟨x, y, z⟩, ht, e⟩
    simp only [labT, Prod.mk.injEq] at e
    rw [← lab_inj' ha e.1.symm, ← lab_inj' hb e.2.1.symm, ← lab_inj' hc e.2.2.symm] at ht
    exact mem_T0.1 ht
  · intro ht
    exact ⟨_, mem_T0.2 ht, rfl⟩

theorem undirected_side {S : List Edge} {p : FixOption → Prop}
    (hS : ∀ e : Edge, e ∈ S ↔ ∃ f, p f ∧ ∃ a, SideEdge nx ny f a ∧ e = labE PP a) {a b : LP} (ha : InBox nx ny a)
    (hb : InBox nx ny b) :
    s(lab PP a, lab PP b) ∈ S.map Edge.undirected ↔ ∃ f, p f ∧ OnSideL nx ny f a ∧ OnSideL nx ny f b ∧ AdjL a b := by
  rw [List.mem_map]
  constructor
  · rintro ⟨e, he, hab⟩
    obtain ⟨f, hf, ⟨x, y⟩, hx, rfl⟩ := (hS e).1 he
    simp only [Edge.undirected, labE, Sym2.eq_iff] at hab
    refine ⟨f, hf, ?_⟩
    rcases hab with ⟨h1, h2⟩ | ⟨h1, h2⟩
    · rw [← lab_inj' ha h1.symm, ← lab_inj' hb h2.symm] at hx
      exact ((sideEdge_adj.1 (.inl hx)).2.2)
    · rw [← lab_inj' hb h1.symm, ← lab_inj' ha h2.symm] at hx
      exact ((sideEdge_adj.1 (.inr hx)).2.2)
  · rintro ⟨f, hf, h1, h2, h3⟩
    rcases sideEdge_adj.2 ⟨ha, hb, h1, h2, h3⟩ with h | h
    · exact ⟨_, (hS _).2 ⟨f, hf, _, h, rfl⟩, rfl⟩
    · exact ⟨_, (hS _).2 ⟨f, hf, _, h, rfl⟩, Sym2.eq_swap⟩

theorem RectSpec.side_undirected (R : RectSpec g it nx ny h fix s) {a b : LP} (ha : InBox nx ny a) (hb : InBox nx ny b) :
    (s(lab PP a, lab PP b) ∈ g.boundary.edges.map Edge.undirected ↔
      ∃ f, OnSideL nx ny f a ∧ OnSideL nx ny f b ∧ AdjL a b) ∧
    (s(lab PP a, lab PP b) ∈ g.dirichlet.edges.map Edge.undirected ↔
      ∃ f, f ∈ fix.options ∧ OnSideL nx ny f a ∧ OnSideL nx ny f b ∧ AdjL a b) ∧
    (s(lab PP a, lab PP b) ∈ g.neumann.edges.map Edge.undirected ↔
      (∃ f, OnSideL nx ny f a ∧ OnSideL nx ny f b ∧ AdjL a b) ∧
      ¬ ∃ f, f ∈ fix.options ∧ OnSideL nx ny f a ∧ OnSideL nx ny f b ∧ AdjL a b) := by
  have hB := fun {a b} ha hb => undirected_side (S := g.boundary.edges) (p := fun _ => True) (a := a) (b := b) (nx := nx) (ny := ny)
    (fun e => by rw [R.memBE]; simp) ha hb
  have hD := fun {a b} ha hb => undirected_side (S := g.dirichlet.edges) (p := fun f => f ∈ fix.options) (a := a) (b := b)
    (nx := nx) (ny := ny) (fun e => by rw [R.memDE]) ha hb
  refine ⟨by simpa using hB ha hb, hD ha hb, ?_⟩
  rw [← hD ha hb]
  have hB' := hB ha hb
  simp only [true_and] at hB'
  rw [← hB', List.mem_map, List.mem_map, List.mem_map]
  constructor
  · rintro ⟨e, he, hab⟩
    obtain ⟨h1, h2⟩ := (R.memNE e).1 he
    refine ⟨⟨e, h1, hab⟩, ?_⟩
    rintro ⟨e', h3, hab'⟩
    have : e' = e := by
      obtain ⟨f, x, hx, rfl⟩ := (R.memBE e).1 h1
      obtain ⟨f', hf', x', hx', rfl⟩ := (R.memDE e').1 h3
      rw [← hab] at hab'
      simp only [Edge.undirected, labE] at hab'
      have b1 := latEdge_mem (sideEdge_lat (dg := true) hx')
      rcases Sym2.eq_iff.1 hab' with ⟨e1, e2⟩ | ⟨e1, e2⟩
      · have := lab_inj' b1.1 e1
        have := lab_inj' b1.2 e2
        rw [Prod.ext_iff.2 ⟨‹x'.1 = x.1›, ‹x'.2 = x.2›⟩]
      · exfalso
        have q1 := lab_inj' b1.1 e1
        have q2 := lab_inj' b1.2 e2
        have l1 := sideEdge_lat (dg := true) hx
        have l2 := sideEdge_lat (dg := true) hx'
        obtain ⟨⟨x1, x2⟩, ⟨y1, y2⟩⟩ := x
        obtain ⟨⟨x1', x2'⟩, ⟨y1', y2'⟩⟩ := x'
        simp only [Prod.mk.injEq] at q1 q2
        obtain ⟨i, j, l1⟩ := l1
        obtain ⟨i', j', l2⟩ := l2
        simp only [if_true, Prod.mk.injEq] at l1 l2
        omega
    exact h2 (this ▸ h3)
  · rintro ⟨⟨e, he, hab⟩, hn⟩
    refine ⟨e, (R.memNE e).2 ⟨he, fun h3 => hn ⟨e, h3, hab⟩⟩, hab⟩

/-- the grid of the image is the image of the grid -/
theorem LatImage.image {T : Similarity} {ρ : LP → LP} {φ : FixOption → FixOption} (R : RectSpec g it nx ny h fix s)
    (R' : RectSpec g' it' nx' ny' h' fix' s') (L : LatImage nx ny nx' ny' T h h' ρ φ)
    (hφ : ∀ f, (∀ u, f ≠ .unknown u) → (f ∈ fix.options ↔ φ f ∈ fix'.options)) :
    Grid.Image T (latMap nx ny nx' ny' ρ) g g' := by
  have hS : ∀ a b, InBox nx ny a → InBox nx ny b → ∀ f, (OnSideL nx ny f a ∧ OnSideL nx ny f b ∧ AdjL a b ↔
      OnSideL nx' ny' (φ f) (ρ a) ∧ OnSideL nx' ny' (φ f) (ρ b) ∧ AdjL (ρ a) (ρ b)) := fun a b ha hb f => by
    rw [L.side f a ha, L.side f b hb, L.adj a b ha hb]
  have hB : ∀ a b, InBox nx ny a → InBox nx ny b → ((∃ f, OnSideL nx ny f a ∧ OnSideL nx ny f b ∧ AdjL a b) ↔
      ∃ f, OnSideL nx' ny' f (ρ a) ∧ OnSideL nx' ny' f (ρ b) ∧ AdjL (ρ a) (ρ b)) := fun a b ha hb =>
    ⟨fun ⟨f, hf⟩ => ⟨φ f, (hS a b ha hb f).1 hf⟩, fun ⟨f, hf⟩ => ⟨φ f, (hS a b ha hb _).2 (by rwa [L.inv])⟩⟩
  have hno : ∀ f a, OnSideL nx ny f a → ∀ u, f ≠ .unknown u := by
    rintro f a hf u rfl; exact hf
  have hno' : ∀ f a, InBox nx ny a → OnSideL nx' ny' f (ρ a) → ∀ u, φ f ≠ .unknown u := by
    intro f a ha hf
    refine hno _ a ((L.side _ a ha).2 ?_)
    rwa [L.inv]
  have hD : ∀ a b, InBox nx ny a → InBox nx ny b →
      ((∃ f, f ∈ fix.options ∧ OnSideL nx ny f a ∧ OnSideL nx ny f b ∧ AdjL a b) ↔
      ∃ f, f ∈ fix'.options ∧ OnSideL nx' ny' f (ρ a) ∧ OnSideL nx' ny' f (ρ b) ∧ AdjL (ρ a) (ρ b)) := fun a b ha hb =>
    ⟨fun ⟨f, hf, h2⟩ => ⟨φ f, (hφ f (hno f a h2.1)).1 hf, (hS a b ha hb f).1 h2⟩,
      fun ⟨f, hf, h2⟩ => ⟨φ f, (hφ _ (hno' f a ha h2.1)).2 (by rwa [L.inv]), (hS a b ha hb _).2 (by rwa [L.inv])⟩⟩
  refine ⟨⟨?_, ?_, ?_⟩, ?_, ?_, ?_, ?_, ?_⟩
  · rw [R.points, R'.points, List.length_map, List.length_map, length_rowMajor, length_rowMajor, L.count]
  · intro v q hv
    obtain ⟨a, ha, rfl, rfl⟩ := R.at_iff.1 hv
    rw [latMap_lab ha, ← L.pos a ha]
    exact R'.at_lab (L.box a ha)
  · intro u hu v hv w hw
    obtain ⟨a, ha, rfl⟩ := R.vertex hu
    obtain ⟨b, hb, rfl⟩ := R.vertex hv
    obtain ⟨c, hc, rfl⟩ := R.vertex hw
    rw [R.memT ha hb hc, L.tri a b c ha hb hc, Similarity.tri]
    cases T.swap
    · simp only [Bool.false_eq_true, if_false]
      rw [latMap_lab ha, latMap_lab hb, latMap_lab hc, R'.memT (L.box a ha) (L.box b hb) (L.box c hc)]
    · simp only [if_true]
      rw [latMap_lab ha, latMap_lab hb, latMap_lab hc, R'.memT (L.box c hc) (L.box b hb) (L.box a ha)]
  · intro v hv w hw
    obtain ⟨a, ha, rfl⟩ := R.vertex hv
    obtain ⟨b, hb, rfl⟩ := R.vertex hw
    rw [latMap_lab ha, latMap_lab hb, (R.side_undirected ha hb).1, (R'.side_undirected (L.box a ha) (L.box b hb)).1,
      hB a b ha hb]
  · intro v hv w hw
    obtain ⟨a, ha, rfl⟩ := R.vertex hv
    obtain ⟨b, hb, rfl⟩ := R.vertex hw
    rw [latMap_lab ha, latMap_lab hb, (R.side_undirected ha hb).2.1, (R'.side_undirected (L.box a ha) (L.box b hb)).2.1,
      hD a b ha hb]
  · intro v hv w hw
    obtain ⟨a, ha, rfl⟩ := R.vertex hv
    obtain ⟨b, hb, rfl⟩ := R.vertex hw
    rw [latMap_lab ha, latMap_lab hb, (R.side_undirected ha hb).2.2, (R'.side_undirected (L.box a ha) (L.box b hb)).2.2,
      hB a b ha hb, hD a b ha hb]
  · intro v hv
    obtain ⟨a, ha, rfl⟩ := R.vertex hv
    rw [latMap_lab ha, R.memNV ha, R'.memNV (L.box a ha)]
    have h1 : (∃ f, OnSideL nx ny f a) ↔ ∃ f, OnSideL nx' ny' f (ρ a) :=
      ⟨fun ⟨f, hf⟩ => ⟨φ f, (L.side f a ha).1 hf⟩, fun ⟨f, hf⟩ => ⟨φ f, (L.side _ a ha).2 (by rwa [L.inv])⟩⟩
    have h2 : (fixedSides nx' ny' fix' (ρ a)) = (fixedSides nx ny fix a).image φ := by
      classical
      ext f
      simp only [fixedSides, Finset.mem_filter, List.mem_toFinset, Finset.mem_image]
      constructor
      · rintro ⟨k1, k2⟩
        exact ⟨φ f, ⟨(hφ _ (hno' f a ha k2)).2 (by rwa [L.inv]), (L.side _ a ha).2 (by rwa [L.inv])⟩, L.inv f⟩
      · rintro ⟨f, ⟨k1, k2⟩, rfl⟩
        exact ⟨(hφ f (hno f a k2)).1 k1, (L.side f a ha).1 k2⟩
    rw [h1, h2, Finset.card_image_of_injective _ (Function.LeftInverse.injective L.inv)]
  · intro v hv
    obtain ⟨a, ha, rfl⟩ := R.vertex hv
    rw [latMap_lab ha, R.memDV, R'.memDV]
    constructor
    · rintro ⟨f, hf, b, hb, hs, e⟩
      rw [← lab_inj' ha e] at hs
      exact ⟨φ f, (hφ f (hno f a hs)).1 hf, ρ a, L.box a ha, (L.side f a ha).1 hs, rfl⟩
    · rintro ⟨f, hf, b, hb, hs, e⟩
      rw [← lab_inj' (L.box a ha) e] at hs
      exact ⟨φ f, (hφ _ (hno' f a ha hs)).2 (by rwa [L.inv]), a, ha, (L.side _ a ha).2 (by rwa [L.inv]), rfl⟩

/-! ### the three similarities -/

theorem latImage_magnify (nx ny : ℕ) (h κ : ℝ) :
    LatImage nx ny nx ny (Similarity.magnify κ) h (κ * h) id id where
  inv _ := rfl
  count := rfl
  box _ ha := ha
  inj _ _ _ _ hab := hab
  pos a _ := by simp [pos, Similarity.map, Similarity.magnify, Similarity.dir]; constructor <;> ring
  tri _ _ _ _ _ _ := by simp [Similarity.magnify]
  adj _ _ _ _ := Iff.rfl
  side _ _ _ := Iff.rfl

theorem latImage_turn (nx ny : ℕ) (h : ℝ) :
    LatImage nx ny nx ny (Similarity.turn (nx * h) (ny * h)) h h (fun a => (nx - a.1, ny - a.2)) FixOption.turned where
  inv f := by cases f <;> rfl
  count := rfl
  box a ha := by simp only [InBox] at *; omega
  inj a b ha hb hab := by
    obtain ⟨a1, a2⟩ := a; obtain ⟨b1, b2⟩ := b
    simp only [InBox, Prod.mk.injEq] at *; omega
  pos a ha := by
    simp only [InBox] at ha
    simp [pos, Similarity.map, Similarity.turn, Similarity.dir, Nat.cast_sub ha.1, Nat.cast_sub ha.2]; constructor <;> ring
  tri a b c ha hb hc := by
    obtain ⟨a1, a2⟩ := a; obtain ⟨b1, b2⟩ := b; obtain ⟨c1, c2⟩ := c
    simp only [InBox, LatTri, Similarity.turn, Prod.mk.injEq, Bool.false_eq_true, if_false] at *
    constructor
    · rintro ⟨i, j, hi, hj, h1⟩
      exact ⟨nx - 1 - i, ny - 1 - j, by omega, by omega, by omega⟩
    · rintro ⟨i, j, hi, hj, h1⟩
      exact ⟨nx - 1 - i, ny - 1 - j, by omega, by omega, by omega⟩
  adj a b ha hb := by simp only [InBox, AdjL] at *; omega
  side f a ha := by cases f <;> simp only [InBox, OnSideL, FixOption.turned] at * <;> omega

theorem latImage_exchange (nx ny : ℕ) (h : ℝ) :
    LatImage nx ny ny nx Similarity.exchange h h Prod.swap FixOption.exchanged where
  inv f := by cases f <;> rfl
  count := Nat.mul_comm _ _
  box a ha := by simp only [InBox, Prod.fst_swap, Prod.snd_swap] at *; omega
  inj a b ha hb hab := Prod.swap_injective hab
  pos a ha := by simp [pos, Similarity.map, Similarity.exchange, Similarity.dir]
  tri a b c ha hb hc := by
    obtain ⟨a1, a2⟩ := a; obtain ⟨b1, b2⟩ := b; obtain ⟨c1, c2⟩ := c
    simp only [LatTri, Similarity.exchange, Prod.mk.injEq, if_true, Prod.swap_prod_mk] at *
    constructor
    · rintro ⟨i, j, hi, hj, h1⟩; exact ⟨j, i, hj, hi, by omega⟩
    · rintro ⟨i, j, hi, hj, h1⟩; exact ⟨j, i, hj, hi, by omega⟩
  adj a b ha hb := by simp only [AdjL, Prod.fst_swap, Prod.snd_swap]; tauto
  side f a ha := by cases f <;> simp only [OnSideL, FixOption.exchanged, Prod.fst_swap, Prod.snd_swap]

end

end Tve
