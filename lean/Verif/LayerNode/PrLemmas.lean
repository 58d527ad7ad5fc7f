import Verif.LayerNode.Spec
import Mathlib.Tactic.Ring
import Mathlib.Order.Interval.Finset.Nat
import Mathlib.Tactic.Linarith

namespace Verif.LayerNode

/-- Representatives of the values: pairs that cannot be replaced by a pair with smaller first component. -/
private def canon (u a v b : Nat) : Finset (Nat × Nat) :=
  (Finset.range a ×ˢ Finset.range b).filter (fun p => p.1 < v ∨ b ≤ p.2 + u)

private theorem exists_canon (u a v b : Nat) : ∀ (n : Nat) (p : Nat × Nat), p.1 ≤ n → p.1 < a → p.2 < b → 1 ≤ v →
    ∃ q ∈ canon u a v b, u * q.1 + v * q.2 = u * p.1 + v * p.2 := by
  intro n
  induction n with
  | zero =>
    intro p h1 h2 h3 hv
    exact ⟨p, by simp [canon]; omega, rfl⟩
  | succ n ih =>
    intro p h1 h2 h3 hv
    by_cases hc : p.1 < v ∨ b ≤ p.2 + u
    · exact ⟨p, by simp [canon]; omega, rfl⟩
    · push Not at hc
      obtain ⟨q, hq, e⟩ := ih (p.1 - v, p.2 + u) (by simp; omega) (by simp; omega) (by simp; omega) hv
      refine ⟨q, hq, e.trans ?_⟩
      obtain ⟨k, hk⟩ := Nat.exists_eq_add_of_le hc.1
      simp only [hk, Nat.add_sub_cancel_left]
      ring

private theorem canon_inj_aux (u a v b : Nat) (hcop : Nat.Coprime u v) (p q : Nat × Nat) (hp : p ∈ canon u a v b)
    (hq : q ∈ canon u a v b) (h : u * p.1 + v * p.2 = u * q.1 + v * q.2) (hle : p.1 ≤ q.1) (hv : 1 ≤ v) : p = q := by
  obtain ⟨k, hk⟩ := Nat.exists_eq_add_of_le hle
  have h1 : u * k + v * q.2 = v * p.2 := by
    have : u * q.1 = u * p.1 + u * k := by rw [hk]; ring
    omega
  have hdv : v ∣ u * k := by
    have : v ∣ u * k + v * q.2 := h1 ▸ Dvd.intro _ rfl
    exact (Nat.dvd_add_left (Dvd.intro _ rfl)).1 this
  have hdk : v ∣ k := (Nat.Coprime.symm hcop).dvd_of_dvd_mul_left hdv
  obtain ⟨m, rfl⟩ := hdk
  have h2 : p.2 = q.2 + u * m := by
    have : v * (q.2 + u * m) = v * p.2 := by rw [← h1]; ring
    exact (Nat.eq_of_mul_eq_mul_left (by omega) this).symm
  simp only [canon, Finset.mem_filter, Finset.mem_product, Finset.mem_range] at hp hq
  by_cases hm : m = 0
  · subst hm
    apply Prod.ext <;> simp_all
  · exfalso
    have hm1 : 1 ≤ m := by omega
    have e1 : v ≤ v * m := Nat.le_mul_of_pos_right _ hm1
    have e2 : u ≤ u * m := Nat.le_mul_of_pos_right _ hm1
    rcases hq.2 with h3 | h3 <;> omega

private theorem card_canon (u a v b : Nat) : (canon u a v b).card + (a - v) * (b - u) = a * b := by
  have hsplit := Finset.card_filter_add_card_filter_not (s := Finset.range a ×ˢ Finset.range b)
    (fun p => p.1 < v ∨ b ≤ p.2 + u)
  rw [Finset.card_product, Finset.card_range, Finset.card_range] at hsplit
  rw [← hsplit]
  congr 1
  have : (Finset.range a ×ˢ Finset.range b).filter (fun p => ¬(p.1 < v ∨ b ≤ p.2 + u)) =
      Finset.Ico v a ×ˢ Finset.range (b - u) := by
    ext p
    simp only [Finset.mem_filter, Finset.mem_product, Finset.mem_range, Finset.mem_Ico]
    omega
  rw [this, Finset.card_product, Nat.card_Ico, Finset.card_range]

/-- Number of distinct values for coprime coefficients. -/
theorem distinct_coprime (u a v b : Nat) (hcop : Nat.Coprime u v) (hv : 1 ≤ v) :
    distinct u a v b + (a - v) * (b - u) = a * b := by
  rw [← card_canon u a v b]
  congr 1
  unfold distinct
  have him : (Finset.range a ×ˢ Finset.range b).image (fun p => u * p.1 + v * p.2) =
      (canon u a v b).image (fun p => u * p.1 + v * p.2) := by
    ext c
    simp only [Finset.mem_image]
    constructor
    · rintro ⟨p, hp, rfl⟩
      rw [Finset.mem_product, Finset.mem_range, Finset.mem_range] at hp
      exact exists_canon u a v b p.1 p le_rfl hp.1 hp.2 hv
    · rintro ⟨p, hp, rfl⟩
      exact ⟨p, Finset.mem_of_mem_filter _ hp, rfl⟩
  rw [him]
  apply Finset.card_image_of_injOn
  intro p hp q hq h
  rcases Nat.le_total p.1 q.1 with hle | hle
  · exact canon_inj_aux u a v b hcop p q hp hq h hle hv
  · exact (canon_inj_aux u a v b hcop q p hq hp h.symm hle hv).symm

theorem distinct_coprime' (u a v b : Nat) (hcop : Nat.Coprime u v) :
    distinct u a v b + (a - v) * (b - u) = a * b := by
  rcases Nat.eq_zero_or_pos v with rfl | hv
  · -- then u = 1
    have hu : u = 1 := by simpa using hcop
    subst hu
    have hsw : distinct 1 a 0 b = distinct 0 b 1 a := by
      unfold distinct
      congr 1
      ext c
      simp only [Finset.mem_image, Finset.mem_product, Finset.mem_range, Prod.exists]
      constructor
      · rintro ⟨i, j, h, rfl⟩; exact ⟨j, i, ⟨h.2, h.1⟩, by omega⟩
      · rintro ⟨i, j, h, rfl⟩; exact ⟨j, i, ⟨h.2, h.1⟩, by omega⟩
    have := distinct_coprime 0 b 1 a (by simp) le_rfl
    rw [hsw, Nat.mul_comm (a - 0), this, Nat.mul_comm]
  · exact distinct_coprime u a v b hcop hv

theorem distinct_scale (g u a v b : Nat) (hg : 1 ≤ g) : distinct (g * u) a (g * v) b = distinct u a v b := by
  unfold distinct
  have : (Finset.range a ×ˢ Finset.range b).image (fun p => g * u * p.1 + g * v * p.2) =
      ((Finset.range a ×ˢ Finset.range b).image (fun p => u * p.1 + v * p.2)).image (fun c => g * c) := by
    rw [Finset.image_image]
    congr 1
    funext p
    simp only [Function.comp]
    ring
  rw [this, Finset.card_image_of_injective]
  intro x y h
  exact Nat.eq_of_mul_eq_mul_left (by omega) h

/-- Number of distinct values in general. -/
theorem distinct_eq (sa a sb b : Nat) (h : sa ≠ 0 ∨ sb ≠ 0) :
    distinct sa a sb b + (a - sb / Nat.gcd sa sb) * (b - sa / Nat.gcd sa sb) = a * b := by
  have hg : 0 < Nat.gcd sa sb := by
    rcases h with h | h
    · exact Nat.gcd_pos_of_pos_left _ (by omega)
    · exact Nat.gcd_pos_of_pos_right _ (by omega)
  have h1 : distinct sa a sb b = distinct (sa / Nat.gcd sa sb) a (sb / Nat.gcd sa sb) b := by
    rw [← distinct_scale (Nat.gcd sa sb) (sa / Nat.gcd sa sb) a (sb / Nat.gcd sa sb) b hg, Nat.mul_div_cancel' (Nat.gcd_dvd_left _ _),
      Nat.mul_div_cancel' (Nat.gcd_dvd_right _ _)]
  rw [h1]
  exact distinct_coprime' _ a _ b (Nat.coprime_div_gcd_div_gcd hg)

/-- What the code computes, against the number of distinct values. -/
theorem calcPr_eq (sa a sb b : Nat) (h : sa ≠ 0 ∨ sb ≠ 0) :
    calcPr sa a sb b = .ok (distinct sa a sb b + (b - sa / Nat.gcd sa sb : Nat) * (sb / Nat.gcd sa sb - a : Nat) : ℤ) := by
  have hg : 0 < Nat.gcd sa sb := by
    rcases h with h | h
    · exact Nat.gcd_pos_of_pos_left _ (by omega)
    · exact Nat.gcd_pos_of_pos_right _ (by omega)
  have hd := distinct_eq sa a sb b h
  unfold calcPr
  simp only [Int.gcd_natCast_natCast]
  rw [if_neg (by omega)]
  congr 1
  rw [← Int.natCast_ediv, ← Int.natCast_ediv]
  generalize sa / Nat.gcd sa sb = u at hd ⊢
  generalize sb / Nat.gcd sa sb = v at hd ⊢
  have hd' : (distinct sa a sb b : ℤ) = a * b - ((a - v : Nat) : ℤ) * ((b - u : Nat) : ℤ) := by
    have : ((distinct sa a sb b + (a - v) * (b - u) : Nat) : ℤ) = ((a * b : Nat) : ℤ) := by rw [hd]
    push_cast at this
    linarith
  rw [hd']
  rcases Nat.le_total b u with h1 | h1 <;> rcases Nat.le_total a v with h2 | h2
  all_goals
    first
    | rw [max_eq_left (by omega : (b : ℤ) - u ≤ 0)]
    | rw [max_eq_right (by omega : (0 : ℤ) ≤ b - u)]
  · simp [Nat.sub_eq_zero_of_le h1, Nat.sub_eq_zero_of_le h2]
  · simp [Nat.sub_eq_zero_of_le h1, Nat.sub_eq_zero_of_le h2]
  · rw [Nat.sub_eq_zero_of_le h2, Nat.cast_sub h1, Nat.cast_sub h2]; push_cast; ring
  · rw [Nat.sub_eq_zero_of_le h2, Nat.cast_sub h1, Nat.cast_sub h2]; push_cast; ring

end Verif.LayerNode
