import Verif.Model.FloatLocate
import Verif.Props.Rounding
import Mathlib.Tactic.Linarith
import Mathlib.Tactic.FieldSimp

/-!
# Error analysis of point location
-/

namespace Tve
open F64

/-- `x'` approximates `x`, a number of absolute value at most `B`, up to `e` -/
def Ap (x' x e B : ℚ) : Prop := |x' - x| ≤ e ∧ |x| ≤ B

theorem Ap.of {x B : ℚ} (h : |x| ≤ B) : Ap x x 0 B := ⟨by simp, h⟩

theorem Ap.mono {x' x e B e' B' : ℚ} (h : Ap x' x e B) (he : e ≤ e') (hB : B ≤ B') : Ap x' x e' B' :=
  ⟨h.1.trans he, h.2.trans hB⟩

theorem Ap.le {x' x e B : ℚ} (h : Ap x' x e B) : |x'| ≤ B + e := by
  have := abs_add_le (x' - x) x
  rw [sub_add_cancel] at this
  linarith [h.1, h.2]

theorem Ap.fl {x' x e B : ℚ} (h : Ap x' x e B) : Ap (fl x') x (e + (B + e) / 2 ^ 53) B := by
  refine ⟨?_, h.2⟩
  have h1 := fl_error x'
  have h2 : |x'| / 2 ^ 53 ≤ (B + e) / 2 ^ 53 := by gcongr; exact h.le
  have := abs_add_le (F64.fl x' - x') (x' - x)
  rw [sub_add_sub_cancel] at this
  linarith [h.1]

theorem Ap.add {x' x e B y' y f C : ℚ} (h : Ap x' x e B) (k : Ap y' y f C) : Ap (x' + y') (x + y) (e + f) (B + C) := by
  constructor
  · have := abs_add_le (x' - x) (y' - y)
    rw [show x' + y' - (x + y) = (x' - x) + (y' - y) by ring]
    linarith [h.1, k.1]
  · exact (abs_add_le _ _).trans (add_le_add h.2 k.2)

theorem Ap.neg {x' x e B : ℚ} (h : Ap x' x e B) : Ap (-x') (-x) e B :=
  ⟨by rw [show -x' - -x = -(x' - x) by ring, abs_neg]; exact h.1, by rw [abs_neg]; exact h.2⟩

theorem Ap.sub {x' x e B y' y f C : ℚ} (h : Ap x' x e B) (k : Ap y' y f C) : Ap (x' - y') (x - y) (e + f) (B + C) := by
  rw [sub_eq_add_neg, sub_eq_add_neg]; exact h.add k.neg

theorem Ap.mul {x' x e B y' y f C : ℚ} (h : Ap x' x e B) (k : Ap y' y f C) :
    Ap (x' * y') (x * y) (e * (C + f) + B * f) (B * C) := by
  have hB : 0 ≤ B := (abs_nonneg _).trans h.2
  have he : 0 ≤ e := (abs_nonneg _).trans h.1
  constructor
  · have := abs_add_le ((x' - x) * y') (x * (y' - y))
    rw [show x' * y' - x * y = (x' - x) * y' + x * (y' - y) by ring]
    rw [abs_mul, abs_mul] at this
    have h1 : |x' - x| * |y'| ≤ e * (C + f) := mul_le_mul h.1 k.le (abs_nonneg _) he
    have h2 : |x| * |y' - y| ≤ B * f := mul_le_mul h.2 k.1 (abs_nonneg _) hB
    linarith
  · rw [abs_mul]; exact mul_le_mul h.2 k.2 (abs_nonneg _) hB

/-- the exact value of `_sign` -/
def signExact (p1 p2 p3 : Point) : ℚ := (p1.1 - p3.1) * (p2.2 - p3.2) - (p2.1 - p3.1) * (p1.2 - p3.2)

/-- both coordinates are at most `M` in absolute value -/
def Point.Within (M : ℚ) (p : Point) : Prop := |p.1| ≤ M ∧ |p.2| ≤ M

theorem sub_within {x y M : ℚ} (hx : |x| ≤ M) (hy : |y| ≤ M) : |x - y| ≤ 2 * M :=
  (abs_sub _ _).trans (by linarith)

theorem sign_error {p1 p2 p3 : Point} {M : ℚ} (h1 : Point.Within M p1) (h2 : Point.Within M p2) (h3 : Point.Within M p3) :
    |F64.sign p1 p2 p3 - signExact p1 p2 p3| ≤ 33 / 2 ^ 53 * M ^ 2 := by
  have a := (Ap.of (sub_within h1.1 h3.1)).fl
  have b := (Ap.of (sub_within h2.2 h3.2)).fl
  have c := (Ap.of (sub_within h2.1 h3.1)).fl
  have d := (Ap.of (sub_within h1.2 h3.2)).fl
  have := ((a.mul b).fl.sub (c.mul d).fl).fl.1
  refine this.trans ?_
  have hM : 0 ≤ M ^ 2 := sq_nonneg M
  ring_nf
  nlinarith

/-- the tolerance of the test -/
theorem eps_bounds : 99 / 10 ^ 12 < eps ∧ eps < 101 / 10 ^ 12 := by
  have h := fl_error (1 / 10 ^ 10)
  rw [abs_of_pos (by positivity : (0 : ℚ) < 1 / 10 ^ 10)] at h
  have := abs_le.1 h
  unfold eps
  constructor <;> [have := this.1; have := this.2] <;> norm_num at * <;> linarith

theorem contains_of_sign {p1 p2 p3 p : Point} (h : (∀ d ∈ [F64.sign p p1 p2, F64.sign p p2 p3, F64.sign p p3 p1], -eps ≤ d) ∨
    ∀ d ∈ [F64.sign p p1 p2, F64.sign p p2 p3, F64.sign p p3 p1], d ≤ eps) : containsPoint p1 p2 p3 p = true := by
  simp only [List.mem_cons, List.not_mem_nil, or_false, forall_eq_or_imp, forall_eq] at h
  unfold containsPoint
  rcases h with ⟨a, b, c⟩ | ⟨a, b, c⟩
  · simp [not_lt.2 a, not_lt.2 b, not_lt.2 c]
  · simp [not_lt.2 a, not_lt.2 b, not_lt.2 c]

theorem sign_of_contains {p1 p2 p3 p : Point} (h : containsPoint p1 p2 p3 p = true) :
    (∀ d ∈ [F64.sign p p1 p2, F64.sign p p2 p3, F64.sign p p3 p1], -eps ≤ d) ∨
    ∀ d ∈ [F64.sign p p1 p2, F64.sign p p2 p3, F64.sign p p3 p1], d ≤ eps := by
  simp only [List.mem_cons, List.not_mem_nil, or_false, forall_eq_or_imp, forall_eq]
  unfold containsPoint at h
  simp only [Bool.not_eq_true', Bool.and_eq_false_iff, Bool.or_eq_false_iff, decide_eq_false_iff_not, not_lt] at h
  rcases h with ⟨⟨a, b⟩, c⟩ | ⟨⟨a, b⟩, c⟩
  · exact .inl ⟨a, b, c⟩
  · exact .inr ⟨a, b, c⟩

/-- the test succeeds if the exact signs agree up to `4 · 10⁻¹¹` -/
theorem contains_of_signExact {p1 p2 p3 p : Point} {M δ : ℚ} (h1 : Point.Within M p1) (h2 : Point.Within M p2)
    (h3 : Point.Within M p3) (h : Point.Within M p) (hδ : δ + 33 / 2 ^ 53 * M ^ 2 ≤ 99 / 10 ^ 12)
    (hs : (∀ d ∈ [signExact p p1 p2, signExact p p2 p3, signExact p p3 p1], -δ ≤ d) ∨
      ∀ d ∈ [signExact p p1 p2, signExact p p2 p3, signExact p p3 p1], d ≤ δ) : containsPoint p1 p2 p3 p = true := by
  have a := abs_le.1 (sign_error h h1 h2)
  have b := abs_le.1 (sign_error h h2 h3)
  have c := abs_le.1 (sign_error h h3 h1)
  have e := eps_bounds.1
  apply contains_of_sign
  simp only [List.mem_cons, List.not_mem_nil, or_false, forall_eq_or_imp, forall_eq] at *
  rcases hs with ⟨x, y, z⟩ | ⟨x, y, z⟩
  · left; exact ⟨by linarith [a.1], by linarith [b.1], by linarith [c.1]⟩
  · right; exact ⟨by linarith [a.2], by linarith [b.2], by linarith [c.2]⟩

/-- twice the signed area of a triangle -/
def area2 (p1 p2 p3 : Point) : ℚ := (p2.1 - p1.1) * (p3.2 - p1.2) - (p2.2 - p1.2) * (p3.1 - p1.1)

/-- the point with the given weights -/
def combo (p1 p2 p3 : Point) (c : Bary ℚ) : Point :=
  (c.l1 * p1.1 + c.l2 * p2.1 + c.l3 * p3.1, c.l1 * p1.2 + c.l2 * p2.2 + c.l3 * p3.2)

theorem signs_combo (p1 p2 p3 : Point) {c : Bary ℚ} (hc : c.l1 + c.l2 + c.l3 = 1) :
    signExact (combo p1 p2 p3 c) p1 p2 = c.l3 * area2 p1 p2 p3 ∧ signExact (combo p1 p2 p3 c) p2 p3 = c.l1 * area2 p1 p2 p3 ∧
      signExact (combo p1 p2 p3 c) p3 p1 = c.l2 * area2 p1 p2 p3 := by
  have h : c.l3 = 1 - c.l1 - c.l2 := by linarith
  simp only [signExact, combo, area2, h]
  refine ⟨by ring, by ring, by ring⟩

theorem within_combo {p1 p2 p3 : Point} {M : ℚ} (h1 : Point.Within M p1) (h2 : Point.Within M p2) (h3 : Point.Within M p3)
    {c : Bary ℚ} (hc : c.l1 + c.l2 + c.l3 = 1) (h0 : 0 ≤ c.l1 ∧ 0 ≤ c.l2 ∧ 0 ≤ c.l3) : Point.Within M (combo p1 p2 p3 c) := by
  obtain ⟨a, b, d⟩ := h0
  have key : ∀ x y z : ℚ, |x| ≤ M → |y| ≤ M → |z| ≤ M → |c.l1 * x + c.l2 * y + c.l3 * z| ≤ M := by
    intro x y z hx hy hz
    rw [abs_le] at *
    have e : M = c.l1 * M + c.l2 * M + c.l3 * M := by rw [← add_mul, ← add_mul, hc, one_mul]
    constructor
    · have := mul_le_mul_of_nonneg_left hx.1 a
      have := mul_le_mul_of_nonneg_left hy.1 b
      have := mul_le_mul_of_nonneg_left hz.1 d
      linarith
    · have := mul_le_mul_of_nonneg_left hx.2 a
      have := mul_le_mul_of_nonneg_left hy.2 b
      have := mul_le_mul_of_nonneg_left hz.2 d
      linarith
  exact ⟨key _ _ _ h1.1 h2.1 h3.1, key _ _ _ h1.2 h2.2 h3.2⟩

/-! ### soundness of the test -/

theorem weights_of_contains {p1 p2 p3 : Point} {c : Bary ℚ} (hc : c.l1 + c.l2 + c.l3 = 1) (h1 : Point.Within 100 p1)
    (h2 : Point.Within 100 p2) (h3 : Point.Within 100 p3) (h : Point.Within 100 (combo p1 p2 p3 c))
    (hD : 1 / 10 ^ 9 ≤ |area2 p1 p2 p3|) (hp : containsPoint p1 p2 p3 (combo p1 p2 p3 c) = true) :
    -(2 / 10 ^ 10) ≤ c.l1 * |area2 p1 p2 p3| ∧ -(2 / 10 ^ 10) ≤ c.l2 * |area2 p1 p2 p3| ∧
      -(2 / 10 ^ 10) ≤ c.l3 * |area2 p1 p2 p3| := by
  have a := abs_le.1 (sign_error h h1 h2)
  have b := abs_le.1 (sign_error h h2 h3)
  have d := abs_le.1 (sign_error h h3 h1)
  obtain ⟨s1, s2, s3⟩ := signs_combo p1 p2 p3 hc
  rw [s1] at a
  rw [s2] at b
  rw [s3] at d
  have e := eps_bounds.2
  have hs := sign_of_contains hp
  simp only [List.mem_cons, List.not_mem_nil, or_false, forall_eq_or_imp, forall_eq] at hs
  have hsum : c.l3 * area2 p1 p2 p3 + c.l1 * area2 p1 p2 p3 + c.l2 * area2 p1 p2 p3 = area2 p1 p2 p3 := by
    rw [← add_mul, ← add_mul, show c.l3 + c.l1 + c.l2 = 1 by linarith, one_mul]
  norm_num at a b d e hD
  rcases abs_cases (area2 p1 p2 p3) with ⟨hA, _⟩ | ⟨hA, _⟩ <;> rw [hA] at hD ⊢ <;> rcases hs with ⟨x, y, z⟩ | ⟨x, y, z⟩ <;>
    refine ⟨?_, ?_, ?_⟩ <;> norm_num <;> linarith [a.1, a.2, b.1, b.2, d.1, d.2]

/-! ### the computed coordinates -/

theorem dot_error {a b a' b' h k : ℚ} (ha : |a| ≤ h) (hb : |b| ≤ h) (ha' : |a'| ≤ k) (hb' : |b'| ≤ k) (hk : 0 ≤ k) :
    Ap (F64.dot (fl a, fl b) (fl a', fl b')) (a * a' + b * b') (9 / 2 ^ 53 * (h * k)) (2 * (h * k)) := by
  have hh : 0 ≤ h := (abs_nonneg _).trans ha
  have := (((Ap.of ha).fl.mul (Ap.of ha').fl).fl.add ((Ap.of hb).fl.mul (Ap.of hb').fl).fl).fl
  refine this.mono ?_ (by linarith)
  have : 0 ≤ h * k := by positivity
  ring_nf
  nlinarith

theorem quotient_error {N N' E E' l δ η m : ℚ} (hN : |N' - l * E| ≤ δ) (hE : |E' - E| ≤ η) (hl : |l| ≤ 5 / 4) (hm : 0 < m)
    (hm' : m ≤ E') : |N' / E' - l| ≤ (δ + 5 / 4 * η) / m := by
  have hE' : 0 < E' := hm.trans_le hm'
  rw [show N' / E' - l = (N' - l * E') / E' by field_simp, abs_div, abs_of_pos hE']
  have h1 : |N' - l * E'| ≤ δ + 5 / 4 * η := by
    rw [show N' - l * E' = (N' - l * E) - l * (E' - E) by ring]
    have := abs_sub (N' - l * E) (l * (E' - E))
    rw [abs_mul] at this
    have : |l| * |E' - E| ≤ 5 / 4 * η := mul_le_mul hl hE (abs_nonneg _) (by norm_num)
    linarith
  have h0 : 0 ≤ δ + 5 / 4 * η := (abs_nonneg _).trans h1
  calc |N' - l * E'| / E' ≤ (δ + 5 / 4 * η) / E' := by gcongr
    _ ≤ (δ + 5 / 4 * η) / m := by gcongr

theorem bary_error {p1 p2 p3 : Point} {c : Bary ℚ} {h : ℚ} (hc : c.l1 + c.l2 + c.l3 = 1) (hh : 0 < h)
    (hD : h ^ 2 ≤ 2 * |area2 p1 p2 p3|) (a1 : |p2.1 - p1.1| ≤ h) (a2 : |p2.2 - p1.2| ≤ h) (b1 : |p3.1 - p1.1| ≤ h)
    (b2 : |p3.2 - p1.2| ≤ h) (c1 : |(combo p1 p2 p3 c).1 - p1.1| ≤ 2 * h) (c2 : |(combo p1 p2 p3 c).2 - p1.2| ≤ 2 * h)
    (l2 : |c.l2| ≤ 5 / 4) (l3 : |c.l3| ≤ 5 / 4) :
    baryDenom p1 p2 p3 ≠ 0 ∧ |(bary p1 p2 p3 (combo p1 p2 p3 c)).l1 - c.l1| ≤ 1 / 10 ^ 12 ∧
      |(bary p1 p2 p3 (combo p1 p2 p3 c)).l2 - c.l2| ≤ 1 / 10 ^ 12 ∧
      |(bary p1 p2 p3 (combo p1 p2 p3 c)).l3 - c.l3| ≤ 1 / 10 ^ 12 := by
  have h4 : 0 < h ^ 4 := by positivity
  set D := area2 p1 p2 p3 with hDdef
  set p := combo p1 p2 p3 c with hp
  have d11 := dot_error a1 a2 a1 a2 hh.le
  have d12 := dot_error a1 a2 b1 b2 hh.le
  have d22 := dot_error b1 b2 b1 b2 hh.le
  have d31 := dot_error c1 c2 a1 a2 hh.le
  have d32 := dot_error c1 c2 b1 b2 hh.le
  have hE : Ap (baryDenom p1 p2 p3) (D ^ 2) (91 / 2 ^ 53 * h ^ 4) (8 * h ^ 4) := by
    have := ((d11.mul d22).fl.sub (d12.mul d12).fl).fl
    have e : D ^ 2 = ((p2.1 - p1.1) * (p2.1 - p1.1) + (p2.2 - p1.2) * (p2.2 - p1.2)) *
        ((p3.1 - p1.1) * (p3.1 - p1.1) + (p3.2 - p1.2) * (p3.2 - p1.2)) -
        ((p2.1 - p1.1) * (p3.1 - p1.1) + (p2.2 - p1.2) * (p3.2 - p1.2)) *
        ((p2.1 - p1.1) * (p3.1 - p1.1) + (p2.2 - p1.2) * (p3.2 - p1.2)) := by rw [hDdef, area2]; ring
    rw [e]
    refine this.mono ?_ (by ring_nf; linarith)
    ring_nf
    linarith
  have hp1 : p.1 - p1.1 = c.l2 * (p2.1 - p1.1) + c.l3 * (p3.1 - p1.1) := by
    rw [hp, combo, show c.l1 = 1 - c.l2 - c.l3 by linarith]; ring
  have hp2 : p.2 - p1.2 = c.l2 * (p2.2 - p1.2) + c.l3 * (p3.2 - p1.2) := by
    rw [hp, combo, show c.l1 = 1 - c.l2 - c.l3 by linarith]; ring
  have hV : Ap (fl (fl (F64.dot (sub p3 p1) (sub p3 p1) * F64.dot (sub p p1) (sub p2 p1)) -
      fl (F64.dot (sub p2 p1) (sub p3 p1) * F64.dot (sub p p1) (sub p3 p1)))) (c.l2 * D ^ 2) (179 / 2 ^ 53 * h ^ 4)
      (16 * h ^ 4) := by
    have := ((d22.mul d31).fl.sub (d12.mul d32).fl).fl
    have e : c.l2 * D ^ 2 = ((p3.1 - p1.1) * (p3.1 - p1.1) + (p3.2 - p1.2) * (p3.2 - p1.2)) *
        ((p.1 - p1.1) * (p2.1 - p1.1) + (p.2 - p1.2) * (p2.2 - p1.2)) -
        ((p2.1 - p1.1) * (p3.1 - p1.1) + (p2.2 - p1.2) * (p3.2 - p1.2)) *
        ((p.1 - p1.1) * (p3.1 - p1.1) + (p.2 - p1.2) * (p3.2 - p1.2)) := by rw [hp1, hp2, hDdef, area2]; ring
    rw [e]
    refine this.mono ?_ (by ring_nf; linarith)
    ring_nf
    linarith
  have hW : Ap (fl (fl (F64.dot (sub p2 p1) (sub p2 p1) * F64.dot (sub p p1) (sub p3 p1)) -
      fl (F64.dot (sub p2 p1) (sub p3 p1) * F64.dot (sub p p1) (sub p2 p1)))) (c.l3 * D ^ 2) (179 / 2 ^ 53 * h ^ 4)
      (16 * h ^ 4) := by
    have := ((d11.mul d32).fl.sub (d12.mul d31).fl).fl
    have e : c.l3 * D ^ 2 = ((p2.1 - p1.1) * (p2.1 - p1.1) + (p2.2 - p1.2) * (p2.2 - p1.2)) *
        ((p.1 - p1.1) * (p3.1 - p1.1) + (p.2 - p1.2) * (p3.2 - p1.2)) -
        ((p2.1 - p1.1) * (p3.1 - p1.1) + (p2.2 - p1.2) * (p3.2 - p1.2)) *
        ((p.1 - p1.1) * (p2.1 - p1.1) + (p.2 - p1.2) * (p2.2 - p1.2)) := by rw [hp1, hp2, hDdef, area2]; ring
    rw [e]
    refine this.mono ?_ (by ring_nf; linarith)
    ring_nf
    linarith
  have hD2 : h ^ 4 / 4 ≤ D ^ 2 := by
    rw [← sq_abs D]
    have h1 : (0 : ℚ) ≤ h ^ 2 := sq_nonneg h
    have h2 := mul_le_mul hD hD h1 (by positivity)
    nlinarith
  have hEl : h ^ 4 * (99 / 400) ≤ baryDenom p1 p2 p3 := by
    have := (abs_le.1 hE.1).1
    norm_num at this
    linarith
  have hm : 0 < h ^ 4 * (99 / 400) := by positivity
  have qV := quotient_error (N := 0) hV.1 hE.1 l2 hm hEl
  have qW := quotient_error (N := 0) hW.1 hE.1 l3 hm hEl
  have e0 : (179 / 2 ^ 53 * h ^ 4 + 5 / 4 * (91 / 2 ^ 53 * h ^ 4)) / (h ^ 4 * (99 / 400)) =
      (179 + 5 / 4 * 91) * 400 / 99 / 2 ^ 53 := by field_simp
  rw [e0] at qV qW
  have kV := (Ap.fl ⟨qV, l2⟩).mono (e' := 1200 / 2 ^ 53) (B' := 5 / 4) (by norm_num) le_rfl
  have kW := (Ap.fl ⟨qW, l3⟩).mono (e' := 1200 / 2 ^ 53) (B' := 5 / 4) (by norm_num) le_rfl
  have kU := (((Ap.of (x := 1) (B := 1) (by norm_num)).sub kV).fl.sub kW).fl
  have kT := (((Ap.of (x := 1) (B := 1) (by norm_num)).sub kU).fl.sub kV).fl
  refine ⟨(hm.trans_le hEl).ne', ?_, ?_, ?_⟩
  · rw [show c.l1 = 1 - c.l2 - c.l3 by linarith]
    exact kU.1.trans (by norm_num)
  · exact kV.1.trans (by norm_num)
  · rw [show c.l3 = 1 - (1 - c.l2 - c.l3) - c.l2 by ring]
    exact kT.1.trans (by norm_num)

end Tve
