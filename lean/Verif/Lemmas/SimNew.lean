import Verif.Lemmas.SimRun

/-!
# Helper lemmas about the creation of a simulation
-/

namespace Tve

/-! ### entries of interleaved lists -/

section
variable {α : Type}

theorem interleave_getElem? {a b : List α} (h : a.length = b.length) (i : ℕ) :
    (interleave a b)[2 * i]? = a[i]? ∧ (interleave a b)[2 * i + 1]? = b[i]? := by
  induction a generalizing b i with
  | nil => cases b with
    | nil => simp [interleave]
    | cons y b => simp at h
  | cons x a ih => cases b with
    | nil => simp at h
    | cons y b =>
      have e : interleave (x :: a) (y :: b) = x :: y :: interleave a b := rfl
      cases i with
      | zero => simp [e]
      | succ i =>
        have := ih (b := b) (by simpa using h) i
        rw [e, show 2 * (i + 1) = 2 * i + 1 + 1 by ring]
        simpa using this

theorem flatten_getElem? {a : List (List α)} {d : ℕ} (h : ∀ x ∈ a, x.length = d) (i : ℕ) {j : ℕ} (hj : j < d) :
    a.flatten[d * i + j]? = a[i]?.bind fun row => row[j]? := by
  induction a generalizing i with
  | nil => simp
  | cons x a ih =>
    have hx : x.length = d := h x (by simp)
    cases i with
    | zero =>
      rw [List.flatten_cons, List.getElem?_append_left (by omega)]; simp
    | succ i =>
      rw [List.flatten_cons, List.getElem?_append_right (by rw [hx, Nat.mul_succ]; omega), hx,
        show d * (i + 1) + j - d = d * i + j by rw [Nat.mul_succ]; omega, ih (fun y hy => h y (by simp [hy]))]
      simp

theorem mem_interleave {a b : List α} (h : a.length = b.length) {x : α} (hx : x ∈ interleave a b) : x ∈ a ∨ x ∈ b := by
  induction a generalizing b with
  | nil => simp [interleave] at hx
  | cons y a ih => cases b with
    | nil => simp at h
    | cons z b =>
      have e : interleave (y :: a) (z :: b) = y :: z :: interleave a b := rfl
      rw [e] at hx
      simp only [List.mem_cons] at hx ⊢
      rcases hx with rfl | rfl | hx
      · simp
      · simp
      · rcases ih (by simpa using h) hx with h | h <;> simp [h]

theorem interleave2_getElem? {a b : List (List α)} (h : a.length = b.length) (ha : ∀ x ∈ a, x.length = 6)
    (hb : ∀ x ∈ b, x.length = 6) (i : ℕ) {j : ℕ} (hj : j < 6) :
    (interleave a b).flatten[6 * (2 * i) + j]? = (a[i]?.bind fun row => row[j]?) ∧
    (interleave a b).flatten[6 * (2 * i + 1) + j]? = (b[i]?.bind fun row => row[j]?) := by
  have hr : ∀ x ∈ interleave a b, x.length = 6 := by
    intro x hx
    rcases mem_interleave h hx with h | h
    · exact ha x h
    · exact hb x h
  rw [flatten_getElem? hr _ hj, flatten_getElem? hr _ hj, (interleave_getElem? h i).1, (interleave_getElem? h i).2]
  exact ⟨rfl, rfl⟩

end

/-! ### mechanical steps after creation -/

section
variable {g : Grid ℝ} {n : ℕ}

theorem mechanicalStep_cases (U : g.Usable n) {params : MechParams} {refined : Option (RefinedGrid ℝ)}
    (F : ∀ r, refined = some r → ∃ k, r.toGrid.Usable k) {tr : Traction} {m : MechStep}
    (h : mechanicalStep g params refined tr = .ok m) :
    0 ≤ params.initialTemperature ∧
    ((params.regularization = none ∧ ∃ G1 G2 : Vertex → ℝ,
      (∀ v ∈ g.neumann.vertices, ∃ l, tr 0 (g.xy v).1 (g.xy v).2 = .ok l ∧ l[0]? = some (G1 v) ∧ l[1]? = some (G2 v)) ∧
      m = .p1 ⟨n, params.searchRadius,
        initialP1Mech g n params.initialTemperature params.searchRadius params.fps G1 G2, tr, g⟩) ∨
    ∃ reg f k, params.regularization = some reg ∧ refined = some f ∧ f.toGrid.Usable k ∧
      m = .reg ⟨n, params.searchRadius,
        initialRegMech g f n k params.initialTemperature params.searchRadius params.fps reg⟩) := by
  unfold mechanicalStep at h
  split at h
  · rename_i hreg
    obtain ⟨s, hs, h⟩ := bind_eq_ok.1 h
    cases h
    obtain ⟨h0, G1, G2, h1, rfl⟩ := P1Mech.of_new U hs
    exact ⟨h0, Or.inl ⟨hreg, G1, G2, h1, rfl⟩⟩
  · rename_i reg hreg
    split at h
    · cases h
    · rename_i f
      obtain ⟨k, hk⟩ := F f rfl
      obtain ⟨s, hs, h⟩ := bind_eq_ok.1 h
      cases h
      obtain ⟨h0, rfl⟩ := RegMech.of_new U hk hs
      exact ⟨h0, Or.inr ⟨reg, f, k, hreg, rfl, hk, rfl⟩⟩

theorem initialP1Mech_ready (U : g.Usable n) {T0 r fps : ℝ} {G1 G2 : Vertex → ℝ} {tr : Traction}
    (h : ∀ v ∈ g.neumann.vertices, ∃ l, tr 0 (g.xy v).1 (g.xy v).2 = .ok l ∧ l[0]? = some (G1 v) ∧ l[1]? = some (G2 v)) :
    MechReady (.p1 ⟨n, r, initialP1Mech g n T0 r fps G1 G2, tr, g⟩) (P1Mech.pairs (xsOf g n) (ysOf g n))
      (NdArray.of1 (List.replicate n T0)) 0 where
  prevY := rfl
  y := by
    simp only [MechStep.y, P1Mech.y, initialP1Mech, varValues_fixVertices (nodup_pySet _), varValues_centred]
  prevTheta := rfl
  around := by
    have key : ∀ l : List ℝ, List.Forall₂ (fun (v : VarData) x => v.Around x r)
        (fixVertices (pySet g.dirichlet.vertices) (l.map fun x => VarData.centred x r)) l := by
      intro l
      rw [List.forall₂_iff_get]
      refine ⟨by simp [length_fixVertices], fun i h1 h2 => ?_⟩
      have := fixVertices_getElem? (nodup_pySet g.dirichlet.vertices) (l.map fun x => VarData.centred x r) i
      rw [List.getElem?_eq_getElem h1, List.getElem?_map, List.getElem?_eq_getElem h2] at this
      simp only [List.get_eq_getElem]
      split at this
      · rw [Option.some.inj this]; exact ⟨rfl, rfl, rfl⟩
      · rw [Option.some.inj this]; exact ⟨rfl, rfl, rfl⟩
    rw [pairs_data]
    exact interleave_forall₂ (key _) (key _)
  traction := by
    intro f hf v hv
    cases hf
    obtain ⟨l, h1, h2, h3⟩ := h v hv
    refine ⟨g.xy v, l, G1 v, G2 v, at_xy U.wf (U.num.symm ▸ lt_of_neumann U (mem_pySet.2 hv)), h1, h2, h3, ?_⟩
    have e1 := getL_map_nat (pySet g.neumann.vertices) G1 (v := v) (mem_pySet.2 hv)
    have e2 := getL_map_nat (pySet g.neumann.vertices) G2 (v := v) (mem_pySet.2 hv)
    simp only [MechStep.tractionAt, initialP1Mech]
    rw [e1, e2]

theorem initialRegMech_ready (U : g.Usable n) {f : RefinedGrid ℝ} {k : ℕ} {T0 r fps reg : ℝ} :
    MechReady (.reg ⟨n, r, initialRegMech g f n k T0 r fps reg⟩) (RegMech.pairs (c1xs g n) (c1ys g n))
      (NdArray.of1 (List.replicate k T0)) 0 where
  prevY := rfl
  y := by
    simp only [MechStep.y, RegMech.y, initialRegMech, varValues2_fixValues U.nodupD, varValues2_centred]
  prevTheta := rfl
  around := by
    have key : ∀ l : List (List ℝ), List.Forall₂ (List.Forall₂ fun (v : VarData) x => v.Around x r)
        (fixValues g.dirichlet.vertices (l.map fun row => row.map fun x => VarData.centred x r)) l := by
      intro l
      have c : ∀ row : List ℝ, List.Forall₂ (fun (v : VarData) x => v.Around x r)
          (row.map fun x => VarData.centred x r) row := by
        intro row
        induction row with
        | nil => exact .nil
        | cons x row ih => exact .cons ⟨rfl, rfl, rfl⟩ ih
      rw [List.forall₂_iff_get]
      refine ⟨by simp [length_fixValues], fun i h1 h2 => ?_⟩
      have := fixValues_getElem? U.nodupD (l.map fun row => row.map fun x => VarData.centred x r) i
      rw [List.getElem?_eq_getElem h1, List.getElem?_map, List.getElem?_eq_getElem h2] at this
      simp only [List.get_eq_getElem]
      split at this
      · rw [Option.some.inj this]
        rcases l[i] with _ | ⟨x, row⟩
        · exact .nil
        · exact .cons ⟨rfl, rfl, rfl⟩ (c row)
      · rw [Option.some.inj this]; exact c _
    rw [pairs3_data]
    exact forall₂_flatten (interleave_forall₂ (key _) (key _))
  traction := by intro f hf; cases hf

/-! ### thermal steps after creation -/

theorem thermalStep_cases (U : g.Usable n) {params : ThermParams} {refined : Option (RefinedGrid ℝ)}
    (F : ∀ r, refined = some r → ∃ k, r.toGrid.Usable k) {a a' t : NdArray} (ha : a.Ok) (ha' : a'.Ok) (ht : t.Ok)
    {ext : ExtTemp} {m : ThermStep} (h : thermalStep g a a' t params ext refined = .ok m) :
    m.WF a.shape t.shape ∧ ThermReady m a a' t 0 ∧ m.searchRadius = params.searchRadius ∧ m.problem.grid = g ∧
    m.problem.fps = params.fps ∧
    (params.regularization = none → m.ext = some ext ∧ m.problem.refined = none) ∧
    (params.regularization ≠ none → m.ext = none ∧ m.problem.refined = refined) := by
  obtain ⟨h1, h2, h3, h4, h5, h6, h7, h8, -⟩ := thermalStep_WF U F ha ha' ht h
  rw [← h8] at h7
  unfold thermalStep at h
  split at h
  · rename_i hreg
    obtain ⟨s, hs, h⟩ := bind_eq_ok.1 h
    cases h
    obtain ⟨e, he, he0, A, B, A', B', T, -, -, -, -, -, -, -, -, -, rfl⟩ := P1Therm.of_new U ha ha' ht hs
    refine ⟨h1, ⟨h2, h3, h4, h5, h6, h7, ?_⟩, h8, rfl, rfl, fun _ => ⟨rfl, rfl⟩, fun h => absurd hreg h⟩
    intro f hf
    cases hf
    exact ⟨e, he0, he, rfl⟩
  · rename_i reg hreg
    split at h
    · cases h
    · rename_i f
      obtain ⟨k, hk⟩ := F f rfl
      obtain ⟨s, hs, h⟩ := bind_eq_ok.1 h
      cases h
      obtain ⟨A, B, A', B', T, -, -, -, -, -, -, -, -, -, -, -, -, -, rfl⟩ := RegTherm.of_new U hk ha ha' ht hs
      refine ⟨h1, ⟨h2, h3, h4, h5, h6, h7, ?_⟩, h8, rfl, rfl, fun h => (by rw [hreg] at h; cases h), fun _ => ⟨rfl, rfl⟩⟩
      intro f hf
      cases hf

theorem mechanicalStep_facts (U : g.Usable n) {params : MechParams} {refined : Option (RefinedGrid ℝ)}
    (F : ∀ r, refined = some r → ∃ k, r.toGrid.Usable k) {tr : Traction} {m : MechStep}
    (h : mechanicalStep g params refined tr = .ok m) :
    m.WF m.yShape m.thetaShape ∧ MechReady m m.prevY m.prevTheta 0 ∧ m.searchRadius = params.searchRadius ∧ m.grid = g ∧
    m.problem.fps = params.fps ∧
    (params.regularization = none → m.traction = some tr ∧ m.problem.refined = none ∧
      m.yShape = [n, 2] ∧ m.thetaShape = [n]) ∧
    (params.regularization ≠ none → m.traction = none ∧ m.problem.refined = refined ∧
      ∃ r k, refined = some r ∧ r.toGrid.Usable k ∧ m.yShape = [n, 2, 6] ∧ m.thetaShape = [k]) := by
  have W : m.WF m.yShape m.thetaShape := by
    obtain ⟨ys, ts, W⟩ := mechanicalStep_WF U F h
    obtain ⟨rfl, rfl⟩ := W.shapes
    exact W
  refine ⟨W, ?_⟩
  rcases (mechanicalStep_cases U F h).2 with ⟨h1, G1, G2, h2, rfl⟩ | ⟨reg, f, k, h1, h2, hk, rfl⟩
  · refine ⟨initialP1Mech_ready U h2, rfl, rfl, rfl, fun _ => ⟨rfl, rfl, ?_, ?_⟩, fun h => absurd h1 h⟩
    · simp [MechStep.yShape, initialP1Mech, U.length]
    · simp [MechStep.thetaShape, initialP1Mech, U.length]
  · refine ⟨initialRegMech_ready U, rfl, rfl, rfl, fun h => (by rw [h1] at h; cases h), fun _ => ⟨rfl, h2.symm, f, k, h2, hk, ?_⟩⟩
    simp [MechStep.yShape, MechStep.thetaShape, initialRegMech, U.length, hk.length]

end

/-! ### parameters and grids -/

theorem simParams_ok {a b c d : ℝ} {e : Option ℝ} {f : Option ℤ} {p : SimParams} (h : SimParams.new a b c d e f = .ok p) :
    0 ≤ a ∧ 0 < b ∧ 0 ≤ c ∧ 0 < d ∧ p.initialTemperature = a ∧ p.searchRadius = b ∧ p.fps = c ∧ p.scale = d ∧
    p.regularization = e ∧ (∀ x, e = some x → 0 ≤ x) ∧ (∀ n, f = some n → 0 < n) ∧
    (e = none → p.refinementFactor = none) ∧ (e ≠ none → p.refinementFactor = f ∧ f ≠ none) := by
  unfold SimParams.new at h
  split_ifs at h with h1 h2 h3 h4 h5 h6 h7 h8
  · cases h
    refine ⟨not_lt.1 h1, not_le.1 h2, not_lt.1 h3, not_le.1 h5, rfl, rfl, rfl, rfl, rfl, ?_, ?_, fun _ => rfl, ?_⟩
    · rintro x rfl; simpa using h4
    · rintro x rfl; simpa using h6
    · rintro he; rcases e with _ | e <;> simp at he h8
  · cases h
    refine ⟨not_lt.1 h1, not_le.1 h2, not_lt.1 h3, not_le.1 h5, rfl, rfl, rfl, rfl, rfl, ?_, ?_, ?_, ?_⟩
    · rintro x rfl; simpa using h4
    · rintro x rfl; simpa using h6
    · rintro rfl; rcases f with _ | f <;> simp at h8 ⊢
    · rintro he; rcases e with _ | e <;> rcases f with _ | f <;> simp at he h7 ⊢

namespace Setup
variable {domain : RectDomain ℝ} {params : SimParams}

theorem facts (S : Setup domain params) :
    0 ≤ params.initialTemperature ∧ 0 < params.searchRadius ∧ 0 ≤ params.fps ∧ 0 < params.scale ∧
    (params.regularization = none → params.refinementFactor = none) ∧
    (params.regularization ≠ none → ∃ n : ℕ, 1 ≤ n ∧ params.refinementFactor = some (n : ℤ)) := by
  obtain ⟨a, b, c, d, e, f, h⟩ := S.valid
  obtain ⟨h1, h2, h3, h4, rfl, rfl, rfl, rfl, rfl, h5, h6, h7, h8⟩ := simParams_ok h
  refine ⟨h1, h2, h3, h4, h7, fun hr => ?_⟩
  obtain ⟨h9, h10⟩ := h8 hr
  rcases f with _ | n
  · exact absurd rfl h10
  · have := h6 n rfl
    exact ⟨n.toNat, by omega, by rw [h9]; congr 1; omega⟩

theorem fine' (S : Setup domain params) {n : ℕ} (h : params.refinementFactor = some (n : ℤ)) :
    1 / 10 ^ 15 ≤ params.scale / n / 5 ∧ 1 / 10 ^ 15 ≤ params.scale / (n : ℝ) := by
  have h1 := S.fine n h
  have hs := S.facts.2.2.2.1
  simp only [Int.cast_natCast] at h1
  have : 0 ≤ params.scale / (n : ℝ) := by positivity
  exact ⟨h1, by linarith⟩

/-- the grid and the refined grid of a simulation -/
theorem grids (S : Setup domain params) {it : SetIter} {g : Grid ℝ} (hg : domain.grid it params.scale = .ok g)
    {refined : Option (RefinedGrid ℝ)} (hr : refineIf domain g params.refinementFactor = .ok refined) :
    LibraryGrid g (cells domain.width params.scale) (cells domain.height params.scale) params.scale ∧
    (params.regularization = none → refined = none) ∧
    (params.regularization ≠ none → ∃ (n : ℕ) (r p : RefinedGrid ℝ), 1 ≤ n ∧ params.refinementFactor = some (n : ℤ) ∧ refined = some r ∧
      domain.refine g n = .ok r ∧
      LibraryGrid r.toGrid (n * cells domain.width params.scale) (n * cells domain.height params.scale) (params.scale / n) ∧
      domain.refine r.toGrid plottingRefinementFactor = .ok p) := by
  have hs := S.facts.2.2.2.1
  have G := LibraryGrid.grid hs S.width S.height hg
  refine ⟨G, fun h => ?_, fun h => ?_⟩
  · rw [S.facts.2.2.2.2.1 h] at hr
    cases hr; rfl
  · obtain ⟨n, hn, hf⟩ := S.facts.2.2.2.2.2 h
    have hsm := S.fine' hf
    rw [hf] at hr
    simp only [refineIf] at hr
    obtain ⟨r, hr1, hr2⟩ := bind_eq_ok.1 hr
    cases hr2
    have R := LibraryGrid.refine G hn hsm.2 hr1
    obtain ⟨P, dg, E, T, BV, BE, DV, DE, NV, NE, hl⟩ := R.lgrid
    obtain ⟨p, hp, -⟩ := refine_ok (n := 5) (by norm_num) domain hl.lat (by push_cast; exact hsm.1) hl.pd hl.pn
    exact ⟨n, r, p, hn, hf, rfl, hr1, R, hp⟩

end Setup

end Tve
