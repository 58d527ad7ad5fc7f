import Verif.MapInfo.Tables
import Mathlib.Algebra.BigOperators.Group.List.Lemmas
import Mathlib.Algebra.Order.BigOperators.Group.List

/-! Enlarging a tile multiplies the accessed elements by at most the number of iterations added. -/

namespace Verif.MapInfo

open LayerNode Decouple

variable {Dim : Type} [DecidableEq Dim]

theorem distinct_mul (sa a sb b m n : ℕ) : distinct sa (a * m) sb (b * n) ≤ distinct sa a sb b * (m * n) := by
  unfold distinct
  set D := (Finset.range a ×ˢ Finset.range b).image (fun p => sa * p.1 + sb * p.2) with hD
  have hsub : (Finset.range (a * m) ×ˢ Finset.range (b * n)).image (fun p => sa * p.1 + sb * p.2) ⊆
      (D ×ˢ (Finset.range m ×ˢ Finset.range n)).image (fun q => q.1 + (sa * (a * q.2.1) + sb * (b * q.2.2))) := by
    intro v hv
    rw [Finset.mem_image] at hv
    obtain ⟨⟨i, j⟩, hij, rfl⟩ := hv
    rw [Finset.mem_product, Finset.mem_range, Finset.mem_range] at hij
    simp only at hij ⊢
    have ha : 0 < a := by
      rcases Nat.eq_zero_or_pos a with h | h
      · rw [h] at hij; omega
      · exact h
    have hb : 0 < b := by
      rcases Nat.eq_zero_or_pos b with h | h
      · rw [h] at hij; omega
      · exact h
    rw [Finset.mem_image]
    refine ⟨(sa * (i % a) + sb * (j % b), (i / a, j / b)), ?_, ?_⟩
    · rw [Finset.mem_product, Finset.mem_product, Finset.mem_range, Finset.mem_range]
      refine ⟨?_, ?_, ?_⟩
      · rw [hD, Finset.mem_image]
        exact ⟨(i % a, j % b), by
          rw [Finset.mem_product, Finset.mem_range, Finset.mem_range]; exact ⟨Nat.mod_lt _ ha, Nat.mod_lt _ hb⟩, rfl⟩
      · exact Nat.div_lt_of_lt_mul hij.1
      · exact Nat.div_lt_of_lt_mul hij.2
    · simp only
      conv_rhs => rw [← Nat.mod_add_div i a, ← Nat.mod_add_div j b]
      ring
  calc _ ≤ _ := Finset.card_le_card hsub
    _ ≤ _ := Finset.card_image_le
    _ = _ := by rw [Finset.card_product, Finset.card_product, Finset.card_range, Finset.card_range]

theorem axisCard_mul (t s : Dim → ℕ) (hs : ∀ d, 1 ≤ s d) (ax : Axis Dim) :
    axisCard (fun d => t d * s d) ax ≤ axisCard t ax * (ax.vars.map s).prod := by
  cases ax with
  | dim d => simp [axisCard, Axis.vars]
  | lin sa x sb y =>
    simp only [axisCard, Axis.vars, List.map_cons, List.map_nil, List.prod_cons, List.prod_nil, mul_one]
    exact distinct_mul _ _ _ _ _ _

theorem elements_mul (rl : List Dim) (rels : List (Relation Dim)) (hv : ((rl.map (axisOf rels)).flatMap Axis.vars).Nodup) (t s : Dim → ℕ)
    (ht : ∀ d, 1 ≤ t d) (hs : ∀ d, 1 ≤ s d) :
    elements rl rels (fun d => t d * s d) ≤ elements rl rels t * (((rl.map (axisOf rels)).flatMap Axis.vars).map s).prod := by
  unfold elements
  rw [ncard_touched _ (fun d => Nat.one_le_iff_ne_zero.2 (Nat.mul_ne_zero (by have := ht d; omega) (by have := hs d; omega))) _ hv,
    ncard_touched _ ht _ hv]
  clear hv
  generalize rl.map (axisOf rels) = axes
  induction axes with
  | nil => simp
  | cons a axes ih =>
    simp only [List.map_cons, List.prod_cons, List.flatMap_cons, List.map_append, List.prod_append]
    calc _ ≤ (axisCard t a * (a.vars.map s).prod) * ((axes.map (axisCard t)).prod * ((axes.flatMap Axis.vars).map s).prod) :=
          Nat.mul_le_mul (axisCard_mul t s hs a) ih
      _ = _ := by ring

theorem elements_congr (rl : List Dim) (rels : List (Relation Dim)) {t t' : Dim → ℕ} (h : ∀ d, t d = t' d) :
    elements rl rels t = elements rl rels t' := by rw [funext h]

/-- The extents of some dimensions multiply to at most the iterations. -/
theorem prod_extent_le (ls : List (Dim × ℚ)) (h : ∀ l ∈ ls, 1 ≤ l.2) : ∀ (ds : List Dim), ds.Nodup →
    (ds.map (fun d => extent d ls)).prod ≤ iters ls := by
  intro ds hd
  -- extend by the dimensions of the loops
  set es := ((ls.map Prod.fst).dedup).filter (fun d => d ∉ ds) with hes
  have hnd : (ds ++ es).Nodup := by
    rw [List.nodup_append]
    refine ⟨hd, (List.nodup_dedup _).filter _, ?_⟩
    intro a ha b hb hab
    rw [hes, List.mem_filter] at hb
    have : b ∉ ds := by simpa using hb.2
    exact this (hab ▸ ha)
  have hall := iters_eq_extents ls (ds ++ es) hnd (by
    intro l hl
    rw [List.mem_append]
    by_cases hm : l.1 ∈ ds
    · exact Or.inl hm
    · right
      rw [hes, List.mem_filter]
      exact ⟨List.mem_dedup.2 (List.mem_map_of_mem hl), by simpa using hm⟩)
  rw [hall, List.map_append, List.prod_append]
  have h1 : ∀ (xs : List Dim), 1 ≤ (xs.map (fun d => extent d ls)).prod := by
    intro xs
    apply one_le_prod
    intro x hx
    obtain ⟨d, _, rfl⟩ := List.mem_map.1 hx
    exact extent_pos d ls h
  have := h1 ds
  have := h1 es
  nlinarith

/-- A tile and the elements of a larger tile. -/
theorem elements_le {rl : List Dim} {rels : List (Relation Dim)} (hv : ((rl.map (axisOf rels)).flatMap Axis.vars).Nodup)
    {small more : List (Dim × ℚ)} {t t' : Dim → ℕ} (ht : Tile small t) (ht' : Tile (small ++ more) t')
    (hp : ∀ l ∈ small ++ more, 1 ≤ l.2) {s : Dim → ℕ} (hs : Tile more s) :
    (elements rl rels t' : ℚ) ≤ elements rl rels t * iters more := by
  have h1 : ∀ d, 1 ≤ t d := by
    intro d
    have := extent_pos d small (fun l hl => hp l (List.mem_append_left _ hl))
    rw [ht d] at this; exact_mod_cast this
  have h2 : ∀ d, 1 ≤ s d := by
    intro d
    have := extent_pos d more (fun l hl => hp l (List.mem_append_right _ hl))
    rw [hs d] at this; exact_mod_cast this
  have h3 : ∀ d, t' d = t d * s d := by
    intro d
    have := ht' d
    rw [extent_append, ht d, hs d] at this
    exact_mod_cast this.symm
  rw [elements_congr rl rels h3]
  have h4 := elements_mul rl rels hv t s h1 h2
  have h5 : ((((rl.map (axisOf rels)).flatMap Axis.vars).map s).prod : ℚ) ≤ iters more := by
    have := prod_extent_le more (fun l hl => hp l (List.mem_append_right _ hl)) _ hv
    refine le_trans (le_of_eq ?_) this
    generalize (rl.map (axisOf rels)).flatMap Axis.vars = vs
    induction vs with
    | nil => simp
    | cons v vs ih => simp only [List.map_cons, List.prod_cons, Nat.cast_mul, ih, hs v]
  calc (elements rl rels (fun d => t d * s d) : ℚ) ≤ ((elements rl rels t * (((rl.map (axisOf rels)).flatMap Axis.vars).map s).prod : ℕ) : ℚ) := by
        exact_mod_cast h4
    _ = elements rl rels t * ((((rl.map (axisOf rels)).flatMap Axis.vars).map s).prod : ℕ) := by push_cast; ring
    _ ≤ _ := mul_le_mul_of_nonneg_left h5 (by positivity)

end Verif.MapInfo
