import Verif.Model.Bell
import Verif.Lemmas.Sym
import Mathlib.GroupTheory.Perm.List

/-! The cyclic permutation of `bell_finite_element.py` is a renaming. -/

namespace Tve
namespace Sym

theorem rename_congr {ρ σ : Symb → Symb} {e : Sym} (h : ∀ s ∈ e.free, ρ s = σ s) : e.rename ρ = e.rename σ := by
  induction e with
  | num q => rfl
  | var s => simp [rename, h s (by simp [free])]
  | add a b iha ihb | sub a b iha ihb | mul a b iha ihb | div a b iha ihb =>
    simp only [rename, iha (fun s hs => h s (by simp [free, hs])), ihb (fun s hs => h s (by simp [free, hs]))]
  | neg a iha | exp a iha | log a iha | pow a _ iha =>
    simp only [rename, iha (fun s hs => h s (by simpa [free] using hs))]

theorem rename_rename (ρ σ : Symb → Symb) (e : Sym) : (e.rename ρ).rename σ = e.rename (σ ∘ ρ) := by
  induction e <;> simp_all [rename, c_add, c_sub, c_neg, c_mul, c_div, c_pow]

theorem rename_id (e : Sym) : e.rename id = e := by
  induction e <;> simp_all [rename, c_add, c_sub, c_neg, c_mul, c_div, c_pow]

/-- replacing one symbol by another, on symbols -/
def repl (x y : Symb) : Symb → Symb := fun t => if t = x then y else t

theorem subs1_var (x y : Symb) (e : Sym) : e.subs1 x (var y) = e.rename (repl x y) := by
  induction e with
  | var s => 
    simp only [subs1, rename, repl]; split <;> rfl
  | _ => simp_all [rename, subs1]

/-- a list of symbol replacements, on symbols -/
def replL (l : List (Symb × Symb)) : Symb → Symb := fun t => l.foldl (fun t p => repl p.1 p.2 t) t

theorem subs_var (l : List (Symb × Symb)) (e : Sym) :
    e.subs (l.map fun p => (p.1, var p.2)) = e.rename (replL l) := by
  induction l generalizing e with
  | nil => exact (rename_id e).symm
  | cons p l ih =>
    have : e.subs ((p :: l).map fun p => (p.1, var p.2)) =
        (e.subs1 p.1 (var p.2)).subs (l.map fun p => (p.1, var p.2)) := rfl
    rw [this, ih, subs1_var, rename_rename]
    rfl

end Sym

namespace Bell
open Tve.Sym

/-- the middle part of the replacements, on symbols -/
theorem replL_mids (vs : List Symb) (hn : vs.Nodup) (m : ℕ) (hm : m + 1 ≤ vs.length) (t : Symb) :
    (∀ k (hk : k < m), t = vs[k] → replL ((List.range m).reverse.map fun k => (vs.getD k "", vs.getD (k + 1) "")) t
      = vs[k + 1]) ∧
    ((∀ k (hk : k < m), t ≠ vs[k]) →
      replL ((List.range m).reverse.map fun k => (vs.getD k "", vs.getD (k + 1) "")) t = t) := by
  induction m generalizing t with
  | zero => exact ⟨by simp, fun _ => rfl⟩
  | succ m ih =>
    have hs : replL ((List.range (m + 1)).reverse.map fun k => (vs.getD k "", vs.getD (k + 1) "")) t =
        replL ((List.range m).reverse.map fun k => (vs.getD k "", vs.getD (k + 1) ""))
          (repl vs[m] vs[m + 1] t) := by
      rw [List.range_succ]
      simp [replL, List.getElem?_eq_getElem (by omega : m < vs.length),
        List.getElem?_eq_getElem (by omega : m + 1 < vs.length)]
    rw [hs]
    have hne : ∀ i j (hi : i < vs.length) (hj : j < vs.length), i ≠ j → vs[i] ≠ vs[j] := by
      intro i j hi hj hij he
      exact hij ((List.Nodup.getElem_inj_iff hn).mp he)
    constructor
    · intro k hk ht
      rcases Nat.lt_succ_iff_lt_or_eq.mp hk with hk' | rfl
      · have : t ≠ vs[m] := by rw [ht]; exact hne _ _ _ _ (by omega)
        rw [repl, if_neg this]
        exact (ih (by omega) t).1 k hk' ht
      · rw [repl, if_pos ht]
        exact (ih (by omega) _).2 (fun j hj => hne _ _ _ _ (by omega))
    · intro h
      rw [repl, if_neg (h m (by omega))]
      exact (ih (by omega) t).2 (fun k hk => h k (by omega))

theorem singleCyclic_eq (vs : List Symb) (hn : vs.Nodup) (hs : "s" ∉ vs) (e : Sym) (he : "s" ∉ e.free) :
    singleCyclicPermutation e vs = e.rename (List.formPerm vs) := by
  unfold singleCyclicPermutation
  split
  · rename_i h
    have : List.formPerm vs = 1 := by
      match vs, h with
      | [], _ => rfl
      | [a], _ => rfl
    rw [this]
    exact (rename_id e).symm
  · rename_i h
    push Not at h
    have hl : vs.getLastD "" = vs[vs.length - 1] := by
      rw [List.getLastD_eq_getLast?, List.getLast?_eq_getElem?, List.getElem?_eq_getElem (by omega)]; rfl
    have hh : vs.headD "" = vs[0] := by
      rw [List.headD_eq_head?_getD, List.head?_eq_getElem?, List.getElem?_eq_getElem (by omega)]; rfl
    have key : ([(vs.getLastD "", var "s")] ++ ((List.range (vs.length - 1)).reverse.map fun k =>
        (vs.getD k "", var (vs.getD (k + 1) ""))) ++ [("s", var (vs.headD ""))]) =
        ([(vs.getLastD "", "s")] ++ ((List.range (vs.length - 1)).reverse.map fun k =>
        (vs.getD k "", vs.getD (k + 1) "")) ++ [("s", vs.headD "")]).map fun p => (p.1, var p.2) := by
      simp
    simp only
    rw [key, subs_var]
    apply rename_congr
    intro t ht
    have hts : t ≠ "s" := fun h => he (h ▸ ht)
    have hfold : replL ([(vs.getLastD "", "s")] ++ ((List.range (vs.length - 1)).reverse.map fun k =>
        (vs.getD k "", vs.getD (k + 1) "")) ++ [("s", vs.headD "")]) t =
        repl "s" (vs.headD "") (replL ((List.range (vs.length - 1)).reverse.map fun k =>
        (vs.getD k "", vs.getD (k + 1) "")) (repl (vs.getLastD "") "s" t)) := by
      simp only [replL, List.foldl_append, List.foldl_cons, List.foldl_nil]
    rw [hfold, hl, hh]
    by_cases htv : t ∈ vs
    · obtain ⟨k, hk, rfl⟩ := List.mem_iff_getElem.mp htv
      rw [List.formPerm_apply_getElem _ hn]
      by_cases hkl : k = vs.length - 1
      · subst hkl
        have h1 : repl vs[vs.length - 1] "s" vs[vs.length - 1] = "s" := by simp [repl]
        rw [h1, (replL_mids vs hn (vs.length - 1) (by omega) "s").2
          (fun k hk h => hs (h ▸ List.getElem_mem _))]
        have : (vs.length - 1 + 1) % vs.length = 0 := by
          rw [Nat.sub_add_cancel (by omega), Nat.mod_self]
        simp [repl, this]
      · have h1 : repl vs[vs.length - 1] "s" vs[k] = vs[k] := by
          rw [repl, if_neg]
          intro he
          exact hkl ((List.Nodup.getElem_inj_iff hn).mp he)
        rw [h1, (replL_mids vs hn (vs.length - 1) (by omega) vs[k]).1 k (by omega) rfl]
        have h2 : (k + 1) % vs.length = k + 1 := Nat.mod_eq_of_lt (by omega)
        simp only [h2]
        rw [repl, if_neg]
        intro he
        exact hs (he ▸ List.getElem_mem _)
    · rw [List.formPerm_apply_of_notMem htv]
      have h1 : repl vs[vs.length - 1] "s" t = t := by
        rw [repl, if_neg]; intro he; exact htv (he ▸ List.getElem_mem _)
      rw [h1, (replL_mids vs hn (vs.length - 1) (by omega) t).2 (fun k hk h => htv (h ▸ List.getElem_mem _)), repl,
        if_neg hts]

end Bell
end Tve
