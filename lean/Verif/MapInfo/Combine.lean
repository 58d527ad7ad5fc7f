import Verif.MapInfo.Lemmas

/-! The combined mapping and the tables computed from it. -/

namespace Verif.MapInfo

open LayerNode Decouple
open SpatialInternal (pyRound pyDiv)

variable {Dim : Type} [DecidableEq Dim]

theorem pyGet_ok {α : Type} {l : List α} {i : Nat} {a : α} (h : l[i]? = some a) : pyGet l i = .ok a := by
  unfold pyGet; rw [h]

theorem pyGet_of {α : Type} {l : List α} {i : Nat} {a : α} (h : pyGet l i = .ok a) : l[i]? = some a := by
  unfold pyGet at h
  cases hh : l[i]? with
  | none => rw [hh] at h; cases h
  | some b => rw [hh] at h; cases h; rfl

theorem combineFrom_ok (tm : Lv Dim) : ∀ (su : Lv Dim) (lv : Nat), lv + su.length ≤ tm.length + 1 →
    combineFrom tm lv su = .ok (List.zipWith (· ++ ·) ((seed tm).drop lv) su, List.zipWith (· ++ ·) ((seed tm).drop (lv + 1)) su)
  | [], lv, _ => by simp [combineFrom]
  | s :: ss, lv, h => by
    have hlen : (seed tm).length = tm.length + 2 := by simp [seed]
    simp only [List.length_cons] at h
    have h1 : lv < (seed tm).length := by omega
    have h2 : lv + 1 < (seed tm).length := by omega
    have ih := combineFrom_ok tm ss (lv + 1) (by omega)
    unfold combineFrom
    rw [pyGet_ok (List.getElem?_eq_getElem h1), pyGet_ok (List.getElem?_eq_getElem h2), ih]
    simp only
    rw [List.drop_eq_getElem_cons h1, List.drop_eq_getElem_cons h2, List.zipWith_cons_cons, List.zipWith_cons_cons]

theorem seed_take (tm : Lv Dim) (n : Nat) (h : n ≤ tm.length) : (seed tm).take (n + 1) = [] :: tm.take n := by
  unfold seed
  rw [List.singleton_append, List.cons_append, List.take_succ_cons, List.take_append_of_le_length h]

theorem zip_flatten_perm {α : Type} : ∀ (x y : List (List α)), x.length = y.length →
    (List.zipWith (· ++ ·) x y).flatten.Perm (x.flatten ++ y.flatten)
  | [], [], _ => by simp
  | a :: x, b :: y, h => by
    have ih := zip_flatten_perm x y (by simpa using h)
    simp only [List.zipWith_cons_cons, List.flatten_cons]
    calc (a ++ b ++ (List.zipWith (· ++ ·) x y).flatten).Perm (a ++ b ++ (x.flatten ++ y.flatten)) := List.Perm.append_left _ ih
      _ |>.Perm (a ++ x.flatten ++ (b ++ y.flatten)) := by
        rw [List.append_assoc, List.append_assoc]
        apply List.Perm.append_left
        rw [← List.append_assoc, ← List.append_assoc]
        exact List.Perm.append_right _ List.perm_append_comm

/-- The combined levels, in terms of the loops inside and outside. -/
theorem combine_ok {su tm : Lv Dim} (h : su.length = tm.length + 1) :
    ∃ a b, combine su tm = .ok (a, b) ∧ a.length = su.length ∧ b.length = su.length + 1 ∧
      (∀ n, n ≤ tm.length → (a.take (n + 1)).flatten.Perm (inside su tm n (n + 1)) ∧ (b.take (n + 1)).flatten.Perm (inside su tm n n)) ∧
      (∀ n, n ≤ tm.length → (a.drop (n + 1)).flatten.Perm (outside su tm n (n + 1))) ∧
      a.flatten.Perm (tm.flatten ++ su.flatten) ∧ b.flatten.Perm (tm.flatten ++ su.flatten) := by
  have hlen : (seed tm).length = tm.length + 2 := by simp [seed]
  refine ⟨_, _, by unfold combine; rw [combineFrom_ok tm su 0 (by omega)], ?_, ?_, ?_, ?_, ?_, ?_⟩
  · simp [hlen]; omega
  · simp [hlen]; omega
  · intro n hn
    constructor
    · rw [List.drop_zero, List.take_zipWith, seed_take tm n hn]
      refine (zip_flatten_perm _ _ ?_).trans ?_
      · simp; omega
      · simp [inside]
    · simp only [List.take_succ_cons, List.flatten_cons, List.nil_append, List.take_zipWith]
      have : ((seed tm).drop (0 + 1)).take n = tm.take n := by
        unfold seed
        simp [List.take_append_of_le_length hn]
      rw [this]
      refine (zip_flatten_perm _ _ ?_).trans ?_
      · simp; omega
      · simp [inside]
  · intro n hn
    rw [List.drop_zero, List.drop_zipWith]
    have hd : (seed tm).drop (n + 1) = tm.drop n ++ [[]] := by
      unfold seed
      simp [List.drop_append_of_le_length hn]
    rw [hd]
    have hz : List.zipWith (· ++ ·) (tm.drop n ++ [[]]) (su.drop (n + 1)) = List.zipWith (· ++ ·) (tm.drop n) (su.drop (n + 1)) := by
      have hl : (su.drop (n + 1)).length = (tm.drop n).length := by simp; omega
      rw [← List.append_nil (su.drop (n + 1)), List.zipWith_append hl.symm]
      simp
    rw [hz]
    refine (zip_flatten_perm _ _ ?_).trans ?_
    · simp; omega
    · simp [outside]
  · rw [List.drop_zero]
    have hd : seed tm = ([] :: tm) ++ [[]] := rfl
    rw [hd]
    have hz : List.zipWith (· ++ ·) (([] :: tm) ++ [[]]) su = List.zipWith (· ++ ·) ([] :: tm) su := by
      have hl : su.length = ([] :: tm : Lv Dim).length := by simp [h]
      conv_lhs => rw [← List.append_nil su]
      rw [List.zipWith_append hl.symm]
      simp
    rw [hz]
    refine (zip_flatten_perm _ _ ?_).trans ?_
    · simp [h]
    · simp
  · simp only [List.flatten_cons, List.nil_append]
    have hd : (seed tm).drop (0 + 1) = tm ++ [[]] := by simp [seed]
    rw [hd]
    refine (zip_flatten_perm _ _ ?_).trans ?_
    · simp [h]
    · simp

/-! ### Per-level products -/

theorem cabl_get (l : List ℚ) (n : Nat) (h : n < l.length) : (cabl l)[n]? = some ((l.take (n + 1)).prod) := by
  unfold cabl
  rw [List.getElem?_map, List.getElem?_range h]; rfl

theorem cabl_length (l : List ℚ) : (cabl l).length = l.length := by simp [cabl]

theorem rawAccess_ok (total : ℚ) : ∀ (l : List ℚ), (∀ x ∈ l, x ≠ 0) → rawAccess total l = .ok (l.map (fun x => pyRound (total / x)))
  | [], _ => rfl
  | c :: cs, h => by
    have h0 := h c (by simp)
    unfold rawAccess pyDiv
    rw [if_neg h0, rawAccess_ok total cs (fun x hx => h x (by simp [hx]))]
    rfl

theorem rawAccess_get {total : ℚ} : ∀ {l : List ℚ} {r : List ℤ}, rawAccess total l = .ok r → ∀ (n : Nat) (x : ℚ), l[n]? = some x →
    r[n]? = some (pyRound (total / x)) ∧ x ≠ 0
  | [], r, _, n, x, hx => by simp at hx
  | c :: cs, r, h, n, x, hx => by
    unfold rawAccess pyDiv at h
    by_cases hc : c = 0
    · rw [if_pos hc] at h; cases h
    · rw [if_neg hc] at h
      cases hr : rawAccess total cs with
      | error e => rw [hr] at h; cases h
      | ok rs =>
        rw [hr] at h
        cases h
        cases n with
        | zero => cases hx; exact ⟨rfl, hc⟩
        | succ n => exact rawAccess_get hr n x hx

/-! ### Relevant and irrelevant parts multiply to the iterations -/

theorem selP_mul {p q : TDim Dim → Bool} (l : List (TDim Dim × ℚ))
    (h : ∀ x ∈ l, (p x.1 = true ∧ q x.1 = false) ∨ (p x.1 = false ∧ q x.1 = true) ∨ (p x.1 = false ∧ q x.1 = false ∧ x.2 = 1)) :
    selP p l * selP q l = (l.map Prod.snd).prod := by
  induction l with
  | nil => simp [selP]
  | cons x l ih =>
    rw [selP_cons, selP_cons, List.map_cons, List.prod_cons, ← ih (fun y hy => h y (by simp [hy]))]
    rcases h x (by simp) with ⟨h1, h2⟩ | ⟨h1, h2⟩ | ⟨h1, h2, h3⟩
    · simp [h1, h2]; ring
    · simp [h1, h2]; ring
    · simp [h1, h2, h3]

section valid
variable {c : Cfg Dim} {rl : List Dim} {rels : List (Relation Dim)} (hv : Valid c rl rels)
include hv

/-- A dimension of size one has only loops of size one. -/
theorem Valid.size_one : ∀ l ∈ c.tm.flatten ++ c.su.flatten, c.L.dimSizes.get? l.1 = some 1 → l.2 = 1 := by
  intro l hl h
  have hc := hv.cover l.1 1 h
  have h1 := (hv.loops l hl).2
  by_contra hne
  have hgt : 1 < l.2 := lt_of_le_of_ne h1 (Ne.symm hne)
  obtain ⟨a, b, hab⟩ := List.append_of_mem hl
  have hp : (c.tm.flatten ++ c.su.flatten).Perm (l :: (a ++ b)) := by
    rw [hab]; exact List.perm_middle
  rw [extent_perm l.1 hp, extent_cons, if_pos rfl] at hc
  have h2 : 1 ≤ extent l.1 (a ++ b) := extent_pos _ _ (fun x hx => (hv.loops x (hp.mem_iff.2 (by simp at hx ⊢; tauto))).2)
  nlinarith

/-- The layer has as many operations as the mapping has iterations. -/
theorem Valid.total : c.L.dimSizes.values.prod = iters (c.tm.flatten ++ c.su.flatten) := by
  rw [iters_eq_extents _ c.L.dimSizes.keys hv.wf (fun l hl => (hv.loops l hl).1)]
  unfold Dict.values Dict.keys
  rw [List.map_map]
  congr 1
  apply List.map_congr_left
  intro e he
  exact (hv.cover e.1 e.2 (Dict.get?_of_mem hv.wf he)).symm

/-- Names after splitting are relevant, irrelevant, or of size one. -/
theorem Valid.parts {m : Lv Dim} {out : Lv (TDim Dim)} (h : decouple (layerEnv c.L c.rel) m = .ok out)
    (hm : m.flatten.Perm (c.tm.flatten ++ c.su.flatten)) :
    ∀ x ∈ out.flatten, (isR c x.1 = true ∧ isIr c x.1 = false) ∨ (isR c x.1 = false ∧ isIr c x.1 = true) ∨
      (isR c x.1 = false ∧ isIr c x.1 = false ∧ x.2 = 1) := by
  have hsp := decouple_split hv.lutWF hv.uniq h
  intro x hx
  rcases split_names hsp x hx with ⟨d, e1, e2, e3⟩ | ⟨d, k, e1, e2, _⟩
  · have hd := hm.mem_iff.1 e3
    have hkey := (hv.loops _ hd).1
    rw [e1]
    simp only [isR, isIr, decide_eq_true_eq, decide_eq_false_iff_not]
    by_cases h1 : c.L.dimSizes.get? d = some 1
    · have hs := hv.size_one _ hd h1
      simp only at hs
      have hir : d ∉ c.rel.ir := by
        rcases hv.cases with ⟨_, _, _, g3⟩ | ⟨_, _, _, g3⟩ <;> rw [g3] <;> tauto
      by_cases hr : d ∈ c.rel.r
      · exact Or.inl ⟨hr, hir⟩
      · exact Or.inr (Or.inr ⟨hr, hir, hs⟩)
    · rcases hv.cases with ⟨hall, g1, g2, g3⟩ | ⟨g1, _, g2, g3⟩
      · have hnp : d ∉ (extractPr rels).prList := by
          intro hp
          obtain ⟨r, hr, hd'⟩ := (mem_prList rels hv.names d).1 hp
          rcases hd' with rfl | hd'
          · exact (hv.related r hr).2.2.1 hkey
          · have hmem : (r.dim1, (r.dim2, r.dim3)) ∈ (layerEnv c.L c.rel).lut := by
              change _ ∈ c.rel.pr
              rw [g1]; exact (mem_prLoop rels hv.names _).2 ⟨r, hr, rfl⟩
            have hne : c.rel.pr ≠ [] := by
              intro hc; change _ ∈ c.rel.pr at hmem; rw [hc] at hmem; cases hmem
            have := keyOf_of_mem hv.uniq (hv.other_false hr hne hd') hmem (by rcases hd' with rfl | rfl <;> simp)
            rw [e2] at this; cases this
        by_cases hrl : d ∈ rl
        · left
          rw [g2, g3]
          simp [hrl, hnp]
        · right; left
          rw [g2, g3]
          simp [hrl, hnp, hkey, h1]
      · by_cases hrl : d ∈ rl
        · left
          rw [g2, g3]
          simp [hrl, h1]
        · right; left
          rw [g2, g3]
          simp [hrl, hkey, h1]
  · have hk : k ∈ c.L.pi.prLoop.keys := by
      obtain ⟨_, xy, hmem, _⟩ := keyOf_some e2
      obtain ⟨_, r, hr, e, _⟩ := hv.lut_mem hmem
      rw [hv.pi, (extractPr_spec rels hv.names).1, e]
      exact List.mem_map.2 ⟨_, List.mem_map.2 ⟨r, hr, rfl⟩, rfl⟩
    rcases e1 with e1 | e1
    · left; rw [e1]; simp [isR, isIr, hk]
    · right; left; rw [e1]; simp [isR, isIr, hk]

/-- Splitting keeps the iterations of the first levels. -/
theorem Valid.split_iters {m : Lv Dim} {out : Lv (TDim Dim)} (h : decouple (layerEnv c.L c.rel) m = .ok out) (n : Nat) :
    (((out.take n).flatten).map Prod.snd).prod = iters (m.take n).flatten := by
  have hp := decouple_product hv.lutWF hv.uniq h
  have key : ∀ {N : Type} (x : Lv N), (x.flatten.map Prod.snd).prod = (x.map (fun l => (l.map Prod.snd).prod)).prod := by
    intro N x
    induction x with
    | nil => rfl
    | cons a x ih => rw [List.flatten_cons, List.map_append, List.prod_append, ih, List.map_cons, List.prod_cons]
  unfold iters
  rw [key, key, List.map_take, List.map_take, hp]

/-- The relevant and the irrelevant part of the first levels multiply to their iterations. -/
theorem Valid.prefix_mul {m : Lv Dim} {out : Lv (TDim Dim)} (h : decouple (layerEnv c.L c.rel) m = .ok out)
    (hm : m.flatten.Perm (c.tm.flatten ++ c.su.flatten)) (n : Nat) :
    selP (isR c) (out.take n).flatten * selP (isIr c) (out.take n).flatten = iters (m.take n).flatten := by
  rw [← hv.split_iters h n]
  apply selP_mul
  intro x hx
  obtain ⟨a, ha, hxa⟩ := List.mem_flatten.1 hx
  exact hv.parts h hm x (List.mem_flatten.2 ⟨a, List.mem_of_mem_take ha, hxa⟩)

end valid

end Verif.MapInfo
