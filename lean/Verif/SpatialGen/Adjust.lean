import Verif.SpatialGen.Bandwidth
import Mathlib.Algebra.BigOperators.Ring.List

/-! Lemmas about `adjust_unrolling_factors`. -/

namespace Verif.SpatialGen

open Verif.SpatialMapping

/-- A whole number. -/
def IsNat (q : ℚ) : Prop := ∃ n : ℕ, q = n

theorem IsNat.nonneg {q : ℚ} (h : IsNat q) : 0 ≤ q := by
  obtain ⟨n, rfl⟩ := h
  exact Nat.cast_nonneg n

theorem IsNat.cases {q : ℚ} (h : IsNat q) : q = 0 ∨ 1 ≤ q := by
  obtain ⟨n, rfl⟩ := h
  rcases Nat.eq_zero_or_pos n with h | h
  · left; simp [h]
  · right; exact_mod_cast h

theorem IsNat.pred {q : ℚ} (h : IsNat q) (h1 : 1 ≤ q) : IsNat (q - 1) := by
  obtain ⟨n, rfl⟩ := h
  have : 1 ≤ n := by exact_mod_cast h1
  exact ⟨n - 1, by push_cast [Nat.cast_sub this]; ring⟩

theorem argMax_none {l : List ℚ} (h : argMax l = none) : l = [] := by
  cases l with
  | nil => rfl
  | cons x t =>
    unfold argMax at h
    cases ht : argMax t with
    | none => rw [ht] at h; cases h
    | some p =>
      rw [ht] at h
      obtain ⟨y, i⟩ := p
      simp only at h
      split_ifs at h

theorem argMax_spec : ∀ {l : List ℚ} {y : ℚ} {i : Nat}, argMax l = some (y, i) → l[i]? = some y ∧ ∀ x ∈ l, x ≤ y
  | [], y, i, h => by cases h
  | x :: t, y, i, h => by
    unfold argMax at h
    cases ht : argMax t with
    | none =>
      rw [ht] at h
      cases h
      have := argMax_none ht
      subst this
      simp
    | some p =>
      obtain ⟨z, j⟩ := p
      rw [ht] at h
      obtain ⟨h1, h2⟩ := argMax_spec ht
      simp only at h
      split_ifs at h with hc
      · cases h
        refine ⟨by simpa using h1, ?_⟩
        intro w hw
        rcases List.mem_cons.1 hw with rfl | hw
        · exact le_of_lt hc
        · exact h2 w hw
      · cases h
        refine ⟨rfl, ?_⟩
        intro w hw
        rcases List.mem_cons.1 hw with rfl | hw
        · exact le_refl _
        · exact le_trans (h2 w hw) (not_lt.1 hc)

/-- Pointwise lowered whole numbers. -/
def Lower (l r : List ℚ) : Prop := List.Forall₂ (fun x y => IsNat y ∧ y ≤ x) l r

theorem Lower.refl {l : List ℚ} (h : ∀ x ∈ l, IsNat x) : Lower l l := List.forall₂_same.2 (fun x hx => ⟨h x hx, le_refl _⟩)

theorem Lower.trans {a b c : List ℚ} (h : Lower a b) (h' : Lower b c) : Lower a c := by
  unfold Lower at *
  induction h generalizing c with
  | nil => cases h'; exact List.Forall₂.nil
  | cons hab _ ih =>
    cases h' with
    | cons hbc hr => exact List.Forall₂.cons ⟨hbc.1, hbc.2.trans hab.2⟩ (ih hr)

theorem Lower.set {l : List ℚ} (h : ∀ x ∈ l, IsNat x) {i : Nat} {y z : ℚ} (hy : l[i]? = some y) (hz : IsNat z) (hle : z ≤ y) : Lower l (l.set i z) := by
  unfold Lower
  induction l generalizing i with
  | nil => simp at hy
  | cons x t ih =>
    cases i with
    | zero =>
      simp at hy
      subst hy
      exact List.Forall₂.cons ⟨hz, hle⟩ (Lower.refl (fun w hw => h w (by simp [hw])))
    | succ i =>
      exact List.Forall₂.cons ⟨h x (by simp), le_refl _⟩ (ih (fun w hw => h w (by simp [hw])) (by simpa using hy))

theorem sum_set_lt (l : List ℚ) (i : Nat) (y : ℚ) (hy : l[i]? = some y) (hn : IsNat y) (h1 : 1 ≤ y) :
    ((l.set i (y - 1)).map (fun x => ⌈x⌉.toNat)).sum < (l.map (fun x => ⌈x⌉.toNat)).sum := by
  induction l generalizing i with
  | nil => simp at hy
  | cons x t ih =>
    cases i with
    | zero =>
      simp at hy
      subst hy
      simp only [List.set_cons_zero, List.map_cons, List.sum_cons]
      obtain ⟨n, rfl⟩ := hn
      have h1' : 1 ≤ n := by exact_mod_cast h1
      have e1 : ⌈((n : ℚ) - 1)⌉.toNat = n - 1 := by
        have : ((n : ℚ) - 1) = ((n - 1 : ℕ) : ℚ) := by push_cast [Nat.cast_sub h1']; ring
        rw [this]; simp
      have e2 : ⌈(n : ℚ)⌉.toNat = n := by simp
      rw [e1, e2]
      omega
    | succ i =>
      simp only [List.set_cons_succ, List.map_cons, List.sum_cons]
      have := ih i (by simpa using hy)
      omega

theorem lower_mem {l r : List ℚ} (h : Lower l r) : ∀ y ∈ r, IsNat y := by
  intro y hy
  obtain ⟨x, _, hx⟩ := forall₂_mem_right h hy
  exact hx.1

/-- The loop of `adjust_unrolling_factors`. -/
theorem adjust_spec (bound : ℚ) (hb : 0 ≤ bound) : ∀ (n : Nat) (l : List ℚ), (∀ x ∈ l, IsNat x) → (l = [] → 1 ≤ bound) →
    (l.map (fun x => ⌈x⌉.toNat)).sum < n →
    ∃ r, adjust bound n l = .ok r ∧ Lower l r ∧ r.prod ≤ bound ∧ (l.prod ≤ bound → r = l) ∧
      (bound < l.prod → ∃ i y, r[i]? = some y ∧ bound < (r.set i (y + 1)).prod)
  | 0, l, _, _, h => by omega
  | n + 1, l, hl, he, h => by
    unfold adjust
    by_cases hp : l.prod > bound
    · rw [if_pos hp]
      cases ha : argMax l with
      | none =>
        have := argMax_none ha
        subst this
        simp at hp
        have := he rfl
        linarith
      | some p =>
        obtain ⟨y, i⟩ := p
        obtain ⟨h1, h2⟩ := argMax_spec ha
        have hmem : y ∈ l := List.mem_of_getElem? h1
        have hy := hl y hmem
        have hy1 : 1 ≤ y := by
          rcases hy.cases with h0 | h0
          · exfalso
            have : l.prod = 0 := List.prod_eq_zero (h0 ▸ hmem)
            linarith
          · exact h0
        have hlow : Lower l (l.set i (y - 1)) := Lower.set hl h1 (hy.pred hy1) (by linarith)
        obtain ⟨r, r1, r2, r3, r4, r5⟩ := adjust_spec bound hb n (l.set i (y - 1)) (lower_mem hlow)
          (by
            intro hc
            have := congrArg List.length hc
            simp at this
            rw [this] at hmem
            simp at hmem)
          (by have := sum_set_lt l i y h1 hy hy1; omega)
        refine ⟨r, r1, hlow.trans r2, r3, fun hc => absurd hp (not_lt.2 hc), fun _ => ?_⟩
        by_cases hc : (l.set i (y - 1)).prod ≤ bound
        · have hr := r4 hc
          have hi : i < l.length := by
            by_contra hcc
            rw [List.getElem?_eq_none (by omega)] at h1
            cases h1
          refine ⟨i, y - 1, ?_, ?_⟩
          · rw [hr, List.getElem?_set_self hi]
          · rw [hr, List.set_set]
            have e : l.set i (y - 1 + 1) = l := by
              rw [sub_add_cancel]
              apply List.ext_getElem?
              intro j
              by_cases hj : i = j
              · subst hj; rw [List.getElem?_set_self hi, h1]
              · rw [List.getElem?_set_ne hj]
            rw [e]
            exact hp
        · exact r5 (not_le.1 hc)
    · rw [if_neg hp]
      exact ⟨l, rfl, Lower.refl hl, not_lt.1 hp, fun _ => rfl, fun hc => absurd hc hp⟩

/-- `adjust_unrolling_factors` on any non-empty list of whole factors: succeeds, only lowers factors, the product fits, factors that fit
are not touched and the result is not lowered further than needed. -/
theorem adjust_factors (bound : ℚ) (hb : 0 ≤ bound) (l : List ℚ) (hl : ∀ x ∈ l, IsNat x) (he : l ≠ []) :
    ∃ r, adjust bound (adjustFuel l) l = .ok r ∧ Lower l r ∧ r.prod ≤ bound ∧ (l.prod ≤ bound → r = l) ∧
      (bound < l.prod → ∃ i y, r[i]? = some y ∧ bound < (r.set i (y + 1)).prod) :=
  adjust_spec bound hb _ l hl (fun h => absurd h he) (by unfold adjustFuel; omega)

/-- Without any factor to lower the computation fails (`max()` of an empty list). -/
theorem adjust_empty (bound : ℚ) (h : bound < 1) : adjust bound (adjustFuel []) [] = .error .valueError := by
  unfold adjustFuel
  simp only [List.map_nil, List.sum_nil, Nat.zero_add]
  unfold adjust
  rw [if_pos (by simpa using h)]
  rfl

end Verif.SpatialGen
