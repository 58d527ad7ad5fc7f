import Verif.MapInfo.Combine

/-! The tables in terms of the loops inside and outside a level. -/

namespace Verif.MapInfo

open LayerNode Decouple
open SpatialInternal (pyRound pyDiv pyRound_int unitUnique bwBoost above)

variable {Dim : Type} [DecidableEq Dim]

theorem tables_unfold {c : Cfg Dim} {t : Tables Dim} (h : tables c = .ok t) :
    ∃ rs ab ra rb, decouple (layerEnv c.L c.rel) c.su = .ok rs ∧ bwBoost (isR c) rs = .ok t.boost ∧ combine c.su c.tm = .ok ab ∧
      decouple (layerEnv c.L c.rel) ab.1 = .ok ra ∧ decouple (layerEnv c.L c.rel) ab.2 = .ok rb ∧
      rawAccess c.L.dimSizes.values.prod (cabl (ra.map (selP (isIr c)))) = .ok t.raw ∧
      rawAccess c.L.dimSizes.values.prod (cabl ((rb.take c.su.length).map (selP (isIr c)))) = .ok t.raw2 ∧
      t.ra = ra ∧ t.unique = unitUnique (isR c) rs ∧
      t.unrolled = (cabl ((rb.take c.su.length).map (selP (isR c)))).map pyRound ∧
      t.elems = List.zipWith (fun (x : ℤ) u => pyRound (x * u)) t.unrolled t.unique ∧
      t.caal = above (ra.map (selP (isIr c))) ++ [1, 1] := by
  unfold tables at h
  cases h1 : decouple (layerEnv c.L c.rel) c.su with
  | error e => rw [h1] at h; cases h
  | ok rs =>
    rw [h1] at h
    cases h2 : bwBoost (isR c) rs with
    | error e => simp only [bind, Except.bind, h2] at h; cases h
    | ok boost =>
      cases h3 : combine c.su c.tm with
      | error e => simp only [bind, Except.bind, h2, h3] at h; cases h
      | ok ab =>
        cases h4 : decouple (layerEnv c.L c.rel) ab.1 with
        | error e => simp only [bind, Except.bind, h2, h3, h4] at h; cases h
        | ok ra =>
          cases h5 : decouple (layerEnv c.L c.rel) ab.2 with
          | error e => simp only [bind, Except.bind, h2, h3, h4, h5] at h; cases h
          | ok rb =>
            cases h6 : rawAccess c.L.dimSizes.values.prod (cabl (ra.map (selP (isIr c)))) with
            | error e => simp only [bind, Except.bind, h2, h3, h4, h5, h6] at h; cases h
            | ok raw =>
              cases h7 : rawAccess c.L.dimSizes.values.prod (cabl ((rb.take c.su.length).map (selP (isIr c)))) with
              | error e => simp only [bind, Except.bind, h2, h3, h4, h5, h6, h7] at h; cases h
              | ok raw2 =>
                simp only [bind, Except.bind, h2, h3, h4, h5, h6, h7, pure, Except.pure] at h
                cases h
                exact ⟨rs, ab, ra, rb, rfl, h2, rfl, h4, h5, h6, h7, rfl, rfl, rfl, rfl, rfl⟩

/-- Splitting keeps the number of levels. -/
theorem split_length {env : DEnv Dim} {levels : Lv Dim} {out : Lv (TDim Dim)}
    (h : List.Forall₂ (fun l o => ∃ blocks, List.Forall₂ (Split env) l blocks ∧ o = blocks.flatten) levels out) :
    out.length = levels.length := h.length_eq.symm

section valid
variable {c : Cfg Dim} {rl : List Dim} {rels : List (Relation Dim)} (hv : Valid c rl rels)
include hv

theorem Valid.loops_of {m : Lv Dim} (hm : m.flatten.Perm (c.tm.flatten ++ c.su.flatten)) :
    (∀ l ∈ m.flatten, l.1 ∈ c.L.dimSizes.keys ∧ 1 ≤ l.2) ∧ (∀ l ∈ m.flatten, c.L.dimSizes.get? l.1 = some 1 → l.2 = 1) :=
  ⟨fun l hl => hv.loops l (hm.mem_iff.1 hl), fun l hl => hv.size_one l (hm.mem_iff.1 hl)⟩

theorem Valid.split_all : (c.tm.flatten ++ c.su.flatten).Perm (inside c.su c.tm i j ++ outside c.su c.tm i j) := by
  clear hv
  have h1 : c.tm.flatten = (c.tm.take i).flatten ++ (c.tm.drop i).flatten := by
    rw [← List.flatten_append, List.take_append_drop]
  have h2 : c.su.flatten = (c.su.take j).flatten ++ (c.su.drop j).flatten := by
    rw [← List.flatten_append, List.take_append_drop]
  rw [h1, h2]
  unfold inside outside
  rw [List.append_assoc, List.append_assoc]
  apply List.Perm.append_left
  rw [← List.append_assoc, ← List.append_assoc]
  exact List.Perm.append_right _ List.perm_append_comm

theorem Valid.iters_split (i j : Nat) : iters (c.tm.flatten ++ c.su.flatten) = iters (inside c.su c.tm i j) * iters (outside c.su c.tm i j) := by
  rw [← iters_append]; exact iters_perm hv.split_all

theorem Valid.inside_pos (i j : Nat) : 1 ≤ iters (inside c.su c.tm i j) :=
  iters_pos _ (fun l hl => (hv.loops l ((hv.split_all (i := i) (j := j)).mem_iff.2 (List.mem_append_left _ hl))).2)

theorem Valid.outside_pos (i j : Nat) : 1 ≤ iters (outside c.su c.tm i j) :=
  iters_pos _ (fun l hl => (hv.loops l ((hv.split_all (i := i) (j := j)).mem_iff.2 (List.mem_append_right _ hl))).2)

/-- Sizes and access counts of the tables, in terms of tiles. -/
theorem Valid.tables_get {t : Tables Dim} (h : tables c = .ok t) {lv : Nat} (hlv : lv ≤ c.tm.length) :
    (∀ tl, Tile (inside c.su c.tm lv lv) tl → Exact c rl rels tl →
      t.unrolled[lv]? = some (elements rl rels tl : ℤ) ∧
      t.raw2[lv]? = some (pyRound (elements rl rels tl * iters (outside c.su c.tm lv lv)))) ∧
    (∀ tl, Tile (inside c.su c.tm lv (lv + 1)) tl → Exact c rl rels tl →
      t.raw[lv]? = some (pyRound (elements rl rels tl * iters (outside c.su c.tm lv (lv + 1))))) := by
  obtain ⟨rs, ab, ra, rb, h1, h2, h3, h4, h5, h6, h7, e1, e2, e3, e4, e5⟩ := tables_unfold h
  obtain ⟨a, b, hab, la, lb, hin, hout, pa, pb⟩ := combine_ok hv.levels
  rw [hab] at h3
  cases h3
  simp only at h4 h5
  have lra : ra.length = c.su.length := (split_length (decouple_split hv.lutWF hv.uniq h4)).trans la
  have lrb : rb.length = c.su.length + 1 := (split_length (decouple_split hv.lutWF hv.uniq h5)).trans lb
  have hlt : lv < c.su.length := by rw [hv.levels]; omega
  have key : ∀ (p : TDim Dim → Bool), (((rb.take c.su.length).map (selP p)).take (lv + 1)).prod = selP p (rb.take (lv + 1)).flatten := by
    intro p
    rw [selP_flatten, ← List.map_take, List.take_take, min_eq_left (by omega)]
  have keya : ∀ (p : TDim Dim → Bool), ((ra.map (selP p)).take (lv + 1)).prod = selP p (ra.take (lv + 1)).flatten := by
    intro p
    rw [selP_flatten, List.map_take]
  have main : ∀ (m : Lv Dim) (out : Lv (TDim Dim)) (i j : Nat) (tl : Dim → ℕ), decouple (layerEnv c.L c.rel) m = .ok out →
      m.flatten.Perm (c.tm.flatten ++ c.su.flatten) → (m.take (lv + 1)).flatten.Perm (inside c.su c.tm i j) →
      Tile (inside c.su c.tm i j) tl → Exact c rl rels tl → selP (isR c) (out.take (lv + 1)).flatten = elements rl rels tl ∧
      (selP (isIr c) (out.take (lv + 1)).flatten ≠ 0 → c.L.dimSizes.values.prod / selP (isIr c) (out.take (lv + 1)).flatten =
        elements rl rels tl * iters (outside c.su c.tm i j)) := by
    intro m out i j tl hd hm hp ht he
    obtain ⟨g1, g2⟩ := hv.loops_of hm
    have ht' : Tile (m.take (lv + 1)).flatten tl := fun d => by rw [extent_perm d hp]; exact ht d
    have hr := hv.tile_elements hd g1 g2 (lv + 1) ht' he
    refine ⟨hr, fun hne => ?_⟩
    have hmul := hv.prefix_mul hd hm (lv + 1)
    rw [hr, iters_perm hp] at hmul
    rw [hv.total, hv.iters_split i j, ← hmul, div_eq_iff hne]
    ring
  constructor
  · intro tl ht he
    obtain ⟨m1, m2⟩ := main b rb lv lv tl h5 pb (hin lv hlv).2 ht he
    have c1 := cabl_get ((rb.take c.su.length).map (selP (isR c))) lv (by simp [lrb]; omega)
    have c2 := cabl_get ((rb.take c.su.length).map (selP (isIr c))) lv (by simp [lrb]; omega)
    rw [key] at c1 c2
    constructor
    · rw [e3, List.getElem?_map, c1, m1]
      change some (pyRound ((elements rl rels tl : ℕ) : ℚ)) = _
      have := pyRound_int (elements rl rels tl : ℤ)
      push_cast at this
      rw [this]
    · obtain ⟨r1, r2⟩ := rawAccess_get h7 lv _ c2
      rw [r1, m2 r2]
  · intro tl ht he
    obtain ⟨m1, m2⟩ := main a ra lv (lv + 1) tl h4 pa (hin lv hlv).1 ht he
    have c2 := cabl_get (ra.map (selP (isIr c))) lv (by simp [lra]; omega)
    rw [keya] at c2
    obtain ⟨r1, r2⟩ := rawAccess_get h6 lv _ c2
    rw [r1, m2 r2]

end valid

end Verif.MapInfo
