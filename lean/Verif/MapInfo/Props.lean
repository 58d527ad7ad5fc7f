import Verif.MapInfo.Total

/-! Properties of the data sizes and data movements of a mapping (C87-C91). -/

namespace Verif.MapInfo

open LayerNode Decouple
open SpatialInternal (pyRound pyDiv pyRound_int unitUnique bwBoost above above_get selProd unrollR_eq bw_boost)
open Energy (trunc)
open Cme (FourWay Dir)

variable {Dim : Type} [DecidableEq Dim]

/-- Elements fetched in total when the loops inside (`i` temporal, `j` spatial levels) are fetched for every iteration outside. -/
noncomputable def fetches (c : Cfg Dim) (rl : List Dim) (rels : List (Relation Dim)) (i j : Nat) : ℚ :=
  elements rl rels (tileOf (inside c.su c.tm i j)) * iters (outside c.su c.tm i j)

/-- Number of elements of the operand the layer accesses. -/
noncomputable def full (c : Cfg Dim) (rl : List Dim) (rels : List (Relation Dim)) : ℕ := elements rl rels (tileOf (c.tm.flatten ++ c.su.flatten))

theorem tileOf_perm {a b : List (Dim × ℚ)} (h : a.Perm b) : tileOf a = tileOf b := by
  funext d; unfold tileOf; rw [extent_perm d h]

section valid
variable {c : Cfg Dim} {rl : List Dim} {rels : List (Relation Dim)} (hv : Valid c rl rels) (hw : Whole c)
include hv hw

/-- Moving loops from outside to inside does not increase the fetches. -/
theorem fetches_le {i j i' j' : Nat} {more : List (Dim × ℚ)} (h1 : (inside c.su c.tm i' j').Perm (inside c.su c.tm i j ++ more))
    (h2 : (outside c.su c.tm i j).Perm (more ++ outside c.su c.tm i' j')) : fetches c rl rels i' j' ≤ fetches c rl rels i j := by
  unfold fetches
  rw [iters_perm h2, iters_append, tileOf_perm h1]
  have hm : ∀ l ∈ more, ∃ n : ℕ, l.2 = n := fun l hl => hw l (outside_sub l (h2.mem_iff.2 (List.mem_append_left _ hl)))
  have hi : ∀ l ∈ inside c.su c.tm i j ++ more, l ∈ c.tm.flatten ++ c.su.flatten := fun l hl => inside_sub l (h1.mem_iff.2 hl)
  have := elements_le (rels := rels) hv.vars (hw.inside i j) (tile_of (fun l hl => hw l (hi l hl))) (fun l hl => (hv.loops l (hi l hl)).2) (tile_of hm)
  have hp := hv.outside_pos i' j'
  rw [← mul_assoc]
  exact mul_le_mul_of_nonneg_right this (by linarith)

theorem fetches_temporal {i : Nat} (j : Nat) (hi : i < c.tm.length) : fetches c rl rels (i + 1) j ≤ fetches c rl rels i j := by
  refine fetches_le hv hw (more := c.tm[i]) ?_ ?_
  · unfold inside
    rw [List.take_add_one, List.getElem?_eq_getElem hi, List.flatten_append]
    simp only [Option.toList, List.flatten_cons, List.flatten_nil, List.append_nil, List.append_assoc]
    exact List.Perm.append_left _ List.perm_append_comm
  · unfold outside
    rw [List.drop_eq_getElem_cons hi, List.flatten_cons, List.append_assoc]

theorem fetches_spatial (i : Nat) {j : Nat} (hj : j < c.su.length) : fetches c rl rels i (j + 1) ≤ fetches c rl rels i j := by
  refine fetches_le hv hw (more := c.su[j]) ?_ ?_
  · unfold inside
    rw [List.take_add_one, List.getElem?_eq_getElem hj, List.flatten_append]
    simp
  · unfold outside
    rw [List.drop_eq_getElem_cons hj, List.flatten_cons, ← List.append_assoc, ← List.append_assoc]
    exact List.Perm.append_right _ List.perm_append_comm

theorem fetches_full (i j : Nat) : (full c rl rels : ℚ) ≤ fetches c rl rels i j := by
  have h := fetches_le (rl := rl) (rels := rels) hv hw (i := i) (j := j) (i' := c.tm.length) (j' := c.su.length) (more := outside c.su c.tm i j) (by
      have := hv.split_all (i := i) (j := j)
      unfold inside at this ⊢
      rw [List.take_length, List.take_length]; exact this) (by unfold outside; simp)
  have e : fetches c rl rels c.tm.length c.su.length = full c rl rels := by
    unfold fetches inside outside full
    simp [iters]
  rw [← e]; exact h

/-! ### C87: data sizes -/

/-- C87: the data held for one unit at a memory level is the number of different operand elements the loops up to that level access.
`Exact` excludes the tiles of `LayerNode.pr_size_false` and padding. -/
theorem data_elements_partial {t : Tables Dim} (h : tables c = .ok t) {lv : Nat} (hlv : lv ≤ c.tm.length)
    (he : Exact c rl rels (tileOf (inside c.su c.tm lv lv))) :
    t.unrolled[lv]? = some (elements rl rels (tileOf (inside c.su c.tm lv lv)) : ℤ) := ((hv.tables_whole hw h hlv).1 he).1

/-! ### C88: access counts of the input operands -/

/-- C88: an input operand is read towards the level below once for every element of the tile below and every iteration outside it, and
written from above likewise; nothing moves upwards, and nothing is exchanged with the outside of the outermost memory. -/
theorem input_traffic_partial {ps : List Pattern} (h : inputMoves c = .ok ps) {lvl : Nat} (hl : lvl < c.tm.length)
    (h1 : Exact c rl rels (tileOf (inside c.su c.tm lvl (lvl + 1)))) (h2 : Exact c rl rels (tileOf (inside c.su c.tm (lvl + 1) (lvl + 1)))) :
    ∃ p, ps[lvl]? = some p ∧ p.moves.wrByLow = 0 ∧ p.moves.rdToHigh = 0 ∧
      p.moves.wrByHigh = (if lvl + 1 = c.tm.length then 0 else fetches c rl rels (lvl + 1) (lvl + 1)) ∧
      ((c.noAccess = false ∨ lvl ≠ 0) → p.moves.rdToLow = fetches c rl rels lvl (lvl + 1)) := by
  obtain ⟨_, t, ht, hp⟩ := inputMoves_get h
  obtain ⟨p, hpat, hget⟩ := hp lvl hl
  obtain ⟨lo, hi, i, hm, _⟩ := inputPattern_unfold hpat
  obtain ⟨nb, el, raw, wr, w, _, _, _, _, r1, r2, m1, m2, m3, m4⟩ := inputCounts_unfold hm
  obtain ⟨_, g1⟩ := hv.tables_whole hw ht (Nat.le_of_lt hl)
  obtain ⟨g2, _⟩ := hv.tables_whole hw ht (lv := lvl + 1) hl
  obtain ⟨z, z1, z2⟩ := g1 h1
  obtain ⟨_, y, y1, y2⟩ := g2 h2
  rw [r1] at z1; cases z1
  rw [r2] at y1; cases y1
  have hrd : (c.noAccess = false ∨ lvl ≠ 0) → p.moves.rdToLow = fetches c rl rels lvl (lvl + 1) := by
    intro hc
    rcases m4 with ⟨_, e⟩ | ⟨⟨e1, e2, _⟩, _⟩
    · rw [e, z2]; rfl
    · rcases hc with hc | hc
      · rw [e1] at hc; cases hc
      · exact absurd e2 hc
  refine ⟨_, hget, ?_⟩
  unfold topCut
  by_cases htop : lvl + 1 = c.tm.length
  · rw [if_pos htop, if_pos htop]
    exact ⟨m1, rfl, rfl, hrd⟩
  · rw [if_neg htop, if_neg htop]
    exact ⟨m1, m2, by rw [m3, y2]; rfl, hrd⟩

/-- C88: every element of the operand is read at every level, at least as often as the level is written (every word brought in is
used), and what a level delivers upwards-down is at most what the units below receive (one read can feed several units). -/
theorem input_chain_partial {ps : List Pattern} (h : inputMoves c = .ok ps) {lvl : Nat} (hl : lvl < c.tm.length)
    (hn : c.noAccess = false ∨ lvl ≠ 0) (h1 : Exact c rl rels (tileOf (inside c.su c.tm lvl (lvl + 1))))
    (h2 : Exact c rl rels (tileOf (inside c.su c.tm (lvl + 1) (lvl + 1)))) :
    ∃ p, ps[lvl]? = some p ∧ (full c rl rels : ℚ) ≤ p.moves.rdToLow ∧ p.moves.wrByHigh ≤ p.moves.rdToLow ∧
      (∀ q, ps[lvl + 1]? = some q → Exact c rl rels (tileOf (inside c.su c.tm (lvl + 1) (lvl + 2))) →
        Exact c rl rels (tileOf (inside c.su c.tm (lvl + 2) (lvl + 2))) → q.moves.rdToLow ≤ p.moves.wrByHigh) := by
  obtain ⟨p, hp, _, _, hwr, hrd⟩ := input_traffic_partial hv hw h hl h1 h2
  have hrd := hrd hn
  have hlen := (inputMoves_get h).1
  have hle := fetches_temporal (rl := rl) (rels := rels) hv hw (lvl + 1) hl
  have hfull := fetches_full (rl := rl) (rels := rels) hv hw lvl (lvl + 1)
  refine ⟨p, hp, by rw [hrd]; exact hfull, ?_, ?_⟩
  · rw [hwr, hrd]
    split_ifs
    · exact le_trans (Nat.cast_nonneg _) hfull
    · exact hle
  · intro q hq e1 e2
    have hlt : lvl + 1 < c.tm.length := by
      rw [← hlen]; exact (List.getElem?_eq_some_iff.1 hq).1
    obtain ⟨q', hq', _, _, _, hr'⟩ := input_traffic_partial hv hw h hlt e1 e2
    rw [hq] at hq'; cases hq'
    rw [hr' (Or.inr (by omega)), hwr, if_neg (by omega)]
    exact fetches_spatial hv hw (lvl + 1) (by rw [hv.levels]; omega)

/-! ### C89: access counts of the output operand -/

/-- C89: results are written into a level once for every element of the tile below and every iteration outside it; all but one write per
output element are partial sums that are read back, so every element is finalised exactly once; the partial sums a level gets back
from above are those the level above reads out. -/
theorem output_traffic_partial {ps : List Pattern} (h : outputMoves c = .ok ps) {lvl : Nat} (hl : lvl < c.tm.length)
    (h0 : Exact c rl rels (tileOf (c.tm.flatten ++ c.su.flatten)))
    (h1 : Exact c rl rels (tileOf (inside c.su c.tm lvl (lvl + 1)))) (h2 : Exact c rl rels (tileOf (inside c.su c.tm (lvl + 1) (lvl + 1)))) :
    ∃ p, ps[lvl]? = some p ∧ p.moves.wrByLow = fetches c rl rels lvl (lvl + 1) ∧
      p.moves.wrByLow - p.moves.rdToLow = full c rl rels ∧
      p.moves.rdToHigh = (if lvl + 1 = c.tm.length then 0 else fetches c rl rels (lvl + 1) (lvl + 1)) ∧
      (∀ q, ps[lvl + 1]? = some q → p.moves.wrByHigh = q.moves.rdToLow ∧
        (Exact c rl rels (tileOf (inside c.su c.tm (lvl + 1) (lvl + 2))) → Exact c rl rels (tileOf (inside c.su c.tm (lvl + 2) (lvl + 2))) →
          q.moves.wrByLow ≤ p.moves.rdToHigh)) ∧
      (lvl + 1 = c.tm.length → p.moves.wrByHigh = 0) := by
  obtain ⟨hlen, t, s, ht, hs, hp⟩ := outputMoves_get h
  have hs' := hv.size_elements hw h0 hs
  have counts : ∀ l, l < c.tm.length → ∃ p, outputPattern c t s l = .ok p ∧ ps[l]? = some (topCut c.tm.length l p) ∧
      ∃ (wl rh : ℤ) (c1 c2 : ℚ), t.raw[l]? = some wl ∧ t.raw2[l + 1]? = some rh ∧ t.caal[l + 1]? = some c1 ∧ t.caal[l + 2]? = some c2 ∧
      p.moves.wrByLow = wl ∧ p.moves.rdToHigh = rh ∧ p.moves.rdToLow = trunc (s * (c1 - 1)) ∧ p.moves.wrByHigh = trunc (s * (c2 - 1)) := by
    intro l hl'
    obtain ⟨p, hpat, hget⟩ := hp l hl'
    obtain ⟨_, _, _, _, _, _, hm, _⟩ := outputPattern_unfold hpat
    exact ⟨p, hpat, hget, outputCounts_unfold hm⟩
  have raws : ∀ l, l ≤ c.tm.length → Exact c rl rels (tileOf (inside c.su c.tm l (l + 1))) → ∀ wl, t.raw[l]? = some wl →
      (wl : ℚ) = fetches c rl rels l (l + 1) := by
    intro l hl' he wl hwl
    obtain ⟨z, z1, z2⟩ := (hv.tables_whole hw ht hl').2 he
    rw [hwl] at z1; cases z1
    exact z2
  obtain ⟨p, hpat, hget, wl, rh, c1, c2, r1, r2, r3, r4, m1, m2, m3, m4⟩ := counts lvl hl
  have hwl := raws lvl (Nat.le_of_lt hl) h1 wl r1
  obtain ⟨q, q1, _, q3⟩ := hv.caal_get hw ht (lv := lvl) (Nat.le_of_lt hl)
  rw [r3] at q1; cases q1
  have hmul := q3 h0 h1
  have hrd : p.moves.wrByLow - p.moves.rdToLow = full c rl rels := by
    have hx : s * (c1 - 1) = ((wl - (full c rl rels : ℤ) : ℤ) : ℚ) := by
      push_cast
      rw [hwl, mul_sub, mul_one, hs']
      unfold fetches full
      rw [hmul]
    rw [m1, m3, hx, trunc_int]
    push_cast; ring
  obtain ⟨_, y, y1, y2⟩ := (hv.tables_whole hw ht (lv := lvl + 1) hl).1 h2
  rw [r2] at y1; cases y1
  refine ⟨_, hget, ?_⟩
  unfold topCut
  by_cases htop : lvl + 1 = c.tm.length
  · rw [if_pos htop, if_pos htop]
    refine ⟨by rw [← hwl, ← m1]; rfl, hrd, rfl, fun q hq => ?_, fun _ => rfl⟩
    have := (List.getElem?_eq_some_iff.1 hq).1
    omega
  · rw [if_neg htop, if_neg htop]
    refine ⟨by rw [← hwl, m1], hrd, by rw [m2, y2]; rfl, fun q hq => ?_, fun hc => absurd hc htop⟩
    obtain ⟨p', _, hget', wl', _, c1', _, s1, _, s3, _, n1, _, n3, _⟩ := counts (lvl + 1) (by omega)
    rw [hq] at hget'
    rw [r4] at s3; cases s3
    have e1 : q.moves.rdToLow = p'.moves.rdToLow := by
      cases hget'; unfold topCut; split_ifs <;> rfl
    have e2 : q.moves.wrByLow = p'.moves.wrByLow := by
      cases hget'; unfold topCut; split_ifs <;> rfl
    refine ⟨by rw [e1, m4, n3], fun f1 f2 => ?_⟩
    rw [e2, n1, raws (lvl + 1) hl f1 wl' s1, m2, y2]
    exact fetches_spatial hv hw (lvl + 1) (by rw [hv.levels]; omega)

end valid

/-! ### C90: transfers per period -/

section transfer
variable {c : Cfg Dim} {rl : List Dim} {rels : List (Relation Dim)}

theorem cycles_get (c : Cfg Dim) (out : Bool) (lvl : Nat) (hl : lvl ≤ c.tm.length) (hc : c.noAccess = false ∨ out = true ∨ lvl ≠ 0) :
    (cycles c out)[lvl]? = some (iters (c.tm.take lvl).flatten) := by
  unfold cycles
  cases lvl with
  | zero =>
    have : ¬ (c.noAccess = true ∧ out = false) := by
      rintro ⟨h1, h2⟩
      rcases hc with h | h | h
      · rw [h1] at h; cases h
      · rw [h2] at h; cases h
      · exact h rfl
    rw [if_neg this]
    simp [iters]
  | succ n =>
    rw [List.getElem?_cons_succ]
    unfold TemporalMapping.cycleCabl
    rw [List.getElem?_map, List.getElem?_range (by omega), Option.map_some]
    congr 1
    unfold TemporalMapping.iterationEachLevel iters
    rw [← List.map_take]
    generalize c.tm.take (n + 1) = l
    induction l with
    | nil => rfl
    | cons a l ih => rw [List.map_cons, List.prod_cons, ih, List.flatten_cons, List.map_append, List.prod_append]

theorem iters_outside (su tm : Lv Dim) (i j : Nat) : iters (outside su tm i j) = iters (tm.drop i).flatten * iters (su.drop j).flatten := by
  unfold outside; rw [iters_append]

variable (hv : Valid c rl rels) (hw : Whole c)
include hv hw

theorem count_eq (hT : c.totalCycle = iters c.tm.flatten) (lvl : Nat) :
    ((⌊c.totalCycle / iters (c.tm.take lvl).flatten⌋ : ℤ) : ℚ) = iters (c.tm.drop lvl).flatten := by
  have hpos : 1 ≤ iters (c.tm.take lvl).flatten := iters_pos _ (fun l hl => (hv.loops l (by
    obtain ⟨a, ha, hla⟩ := List.mem_flatten.1 hl
    exact List.mem_append_left _ (List.mem_flatten.2 ⟨a, List.mem_of_mem_take ha, hla⟩))).2)
  have hsplit : c.totalCycle = iters (c.tm.take lvl).flatten * iters (c.tm.drop lvl).flatten := by
    rw [hT, ← iters_append, ← List.flatten_append, List.take_append_drop]
  obtain ⟨n, hn⟩ : ∃ n : ℕ, iters (c.tm.drop lvl).flatten = n := iters_nat (fun l hl => hw l (by
    obtain ⟨a, ha, hla⟩ := List.mem_flatten.1 hl
    exact List.mem_append_left _ (List.mem_flatten.2 ⟨a, List.mem_of_mem_drop ha, hla⟩)))
  rw [hsplit, mul_comm, mul_div_assoc, div_self (by linarith), mul_one, hn]
  simp

/-- Elements of a tile of an operand without partially relevant dimensions. -/
theorem plain_elements (hpr : c.rel.pr = []) {ls : List (Dim × ℚ)} (hs : ∀ l ∈ ls, l ∈ c.tm.flatten ++ c.su.flatten) :
    (elements rl rels (tileOf ls) : ℚ) = selP (fun d => decide (d ∈ rl)) ls := by
  obtain ⟨out, ho⟩ : ∃ out, decouple (layerEnv c.L c.rel) [ls] = .ok out := by
    refine decouple_layer_total hv.lutWF hv.uniq ?_ [ls] ?_
    · intro k x y hk; rw [hpr] at hk; cases hk
    · intro l hl; exact (hv.loops l (hs l (by simpa using hl))).2
  have h1 := hv.tile_elements ho (fun l hl => hv.loops l (hs l (by simpa using hl))) (fun l hl => hv.size_one l (hs l (by simpa using hl))) 1
    (t := tileOf ls) (by simpa using tile_of (fun l hl => hw l (hs l hl))) (exact_plain hv hpr _)
  rw [← h1, hv.plain hpr ho]
  simp only [List.map_cons, List.map_nil, List.take_succ_cons, List.take_nil, List.flatten_cons, List.flatten_nil, List.append_nil]
  rw [selP_orig]
  exact (hv.plain_sel hpr hs).1

/-- Data sent upwards or received from above per period. -/
theorem high_side {t : Tables Dim} (ht : tables c = .ok t) {prec : List ℚ} {out : Bool} {lvl : Nat} {s : Side} (hl : lvl < c.tm.length)
    (he : Exact c rl rels (tileOf (inside c.su c.tm (lvl + 1) (lvl + 1)))) (hT : c.totalCycle = iters c.tm.flatten)
    (h : highSide c t prec out lvl = .ok s) : s.amount = elements rl rels (tileOf (inside c.su c.tm (lvl + 1) (lvl + 1))) ∧
      s.amount * s.count * iters (c.su.drop (lvl + 1)).flatten = fetches c rl rels (lvl + 1) (lvl + 1) := by
  obtain ⟨pr, cy, d, _, h2, _, h4, _, _, h7, h8⟩ := highSide_unfold h
  rw [cycles_get c out (lvl + 1) hl (Or.inr (Or.inr (by omega)))] at h2
  cases h2
  have hu := data_elements_partial hv hw ht (lv := lvl + 1) hl he
  rw [h4] at hu; cases hu
  have ha : s.amount = elements rl rels (tileOf (inside c.su c.tm (lvl + 1) (lvl + 1))) := by rw [h8]; simp
  refine ⟨ha, ?_⟩
  rw [h7, count_eq hv hw hT (lvl + 1), ha]
  unfold fetches
  rw [iters_outside, mul_assoc]

/-- Data exchanged with the units below per period. -/
theorem low_side (hpr : c.rel.pr = []) {t : Tables Dim} (ht : tables c = .ok t) {prec : List ℚ} {out : Bool} {lvl : Nat} {s : Side}
    (hl : lvl < c.tm.length) (hT : c.totalCycle = iters c.tm.flatten) (hc : c.noAccess = false ∨ out = true ∨ lvl ≠ 0)
    (h : lowSide c t prec out lvl = .ok s) : s.amount = elements rl rels (tileOf (inside c.su c.tm lvl (lvl + 1))) ∧
      s.amount * s.count * iters (c.su.drop (lvl + 1)).flatten = fetches c rl rels lvl (lvl + 1) := by
  obtain ⟨pr, cy, f, d, _, h2, _, hf, h4, _, _, h7, h8⟩ := lowSide_unfold h
  rw [cycles_get c out lvl (Nat.le_of_lt hl) hc] at h2
  cases h2
  have hu := data_elements_partial hv hw ht (lv := lvl) (Nat.le_of_lt hl) (exact_plain hv hpr _)
  rw [h4] at hu; cases hu
  obtain ⟨rs, ab, ra, rb, hrs, hbo, _⟩ := tables_unfold ht
  have hlsu : lvl < c.su.length := by rw [hv.levels]; omega
  have hmem : ∀ l ∈ c.su[lvl], l ∈ c.tm.flatten ++ c.su.flatten := fun l hl' =>
    List.mem_append_right _ (List.mem_flatten.2 ⟨_, List.getElem_mem hlsu, hl'⟩)
  have hrs' := hv.plain hpr hrs
  have hlrs : rs.length = c.su.length := by rw [hrs']; simp
  have hsel : selProd (isR c) rs[lvl] = selP (fun d => decide (d ∈ rl)) c.su[lvl] := by
    have e : rs[lvl] = c.su[lvl].map (fun x => (TDim.orig x.1, x.2)) := by simp [hrs']
    rw [e]
    change selP (isR c) _ = _
    rw [selP_orig]
    exact (hv.plain_sel hpr hmem).1
  obtain ⟨n, hn⟩ := selP_nat (p := fun d => decide (d ∈ rl)) (fun l hl' => hw l (hmem l hl'))
  have hb := bw_boost (isR c) rs t.boost hbo lvl (by rw [hlrs, hv.levels]; omega) (n : ℤ) (by rw [hsel, hn]; simp)
  have hf' : f = n := by
    rw [List.getElem?_append_left ((List.getElem?_eq_some_iff.1 hb).1), hb] at hf
    cases hf; rfl
  have ha : s.amount = elements rl rels (tileOf (inside c.su c.tm lvl (lvl + 1))) := by
    rw [h8, hf', plain_elements hv hw hpr inside_sub]
    push_cast
    rw [plain_elements hv hw hpr inside_sub, ← hn, ← selP_append]
    unfold inside
    rw [List.take_add_one, List.getElem?_eq_getElem hlsu, List.flatten_append, List.append_assoc]
    simp
  refine ⟨ha, ?_⟩
  rw [h7, count_eq hv hw hT lvl, ha]
  unfold fetches
  rw [iters_outside, mul_assoc]

/-- C90: what the units of a memory level receive from above in all periods together is the total number of writes from above. -/
theorem fill_transfer_partial {ps : List Pattern} (h : inputMoves c = .ok ps) {lvl : Nat} (hl : lvl < c.tm.length)
    (hT : c.totalCycle = iters c.tm.flatten) (h1 : Exact c rl rels (tileOf (inside c.su c.tm lvl (lvl + 1))))
    (h2 : Exact c rl rels (tileOf (inside c.su c.tm (lvl + 1) (lvl + 1)))) :
    ∃ p, ps[lvl]? = some p ∧ p.amount.wrByHigh * p.periodCount.wrByHigh * iters (c.su.drop (lvl + 1)).flatten = p.moves.wrByHigh := by
  obtain ⟨p', hp', _, _, hwr, _⟩ := input_traffic_partial hv hw h hl h1 h2
  obtain ⟨_, t, ht, hp⟩ := inputMoves_get h
  obtain ⟨p, hpat, hget⟩ := hp lvl hl
  rw [hget] at hp'; cases hp'
  obtain ⟨lo, hi, i, _, _, hhi, _, _, _, _, _, e1, e2, _⟩ := inputPattern_unfold hpat
  refine ⟨_, hget, ?_⟩
  rw [hwr]
  unfold topCut
  by_cases htop : lvl + 1 = c.tm.length
  · rw [if_pos htop, if_pos htop]
    change (0 : ℚ) * _ * _ = 0
    ring
  · rw [if_neg htop, if_neg htop, e1, e2]
    exact (high_side hv hw ht hl h2 hT hhi).2

/-- C90: what an input memory sends to the units below in all periods together is its total number of reads, for operands without
partially relevant dimensions (see `transfer_false`). -/
theorem read_transfer_partial (hpr : c.rel.pr = []) {ps : List Pattern} (h : inputMoves c = .ok ps) {lvl : Nat} (hl : lvl < c.tm.length)
    (hT : c.totalCycle = iters c.tm.flatten) (hn : c.noAccess = false ∨ lvl ≠ 0) :
    ∃ p, ps[lvl]? = some p ∧ p.amount.rdToLow = elements rl rels (tileOf (inside c.su c.tm lvl (lvl + 1))) ∧
      p.amount.rdToLow * p.periodCount.rdToLow * iters (c.su.drop (lvl + 1)).flatten = p.moves.rdToLow := by
  obtain ⟨p', hp', _, _, _, hrd⟩ := input_traffic_partial hv hw h hl (exact_plain hv hpr _) (exact_plain hv hpr _)
  have hrd := hrd hn
  obtain ⟨_, t, ht, hp⟩ := inputMoves_get h
  obtain ⟨p, hpat, hget⟩ := hp lvl hl
  rw [hget] at hp'; cases hp'
  obtain ⟨lo, hi, i, _, hlo, _, _, _, _, _, _, e1, e2, _⟩ := inputPattern_unfold hpat
  have hs := low_side hv hw hpr ht hl hT (by rcases hn with h | h; exact Or.inl h; exact Or.inr (Or.inr h)) hlo
  have a1 : (topCut c.tm.length lvl p).amount.rdToLow = lo.amount := by
    unfold topCut; split_ifs
    · change p.amount.rdToLow = _; rw [e2]; rfl
    · rw [e2]; rfl
  have a2 : (topCut c.tm.length lvl p).periodCount.rdToLow = lo.count := by
    unfold topCut; split_ifs
    · change p.periodCount.rdToLow = _; rw [e1]; rfl
    · rw [e1]; rfl
  exact ⟨_, hget, by rw [a1]; exact hs.1, by rw [hrd, a1, a2]; exact hs.2⟩

/-- C90: likewise what the units below write into an output memory, and what an output memory sends upwards. -/
theorem write_transfer_partial (hpr : c.rel.pr = []) {ps : List Pattern} (h : outputMoves c = .ok ps) {lvl : Nat} (hl : lvl < c.tm.length)
    (hT : c.totalCycle = iters c.tm.flatten) :
    ∃ p, ps[lvl]? = some p ∧ p.amount.wrByLow * p.periodCount.wrByLow * iters (c.su.drop (lvl + 1)).flatten = p.moves.wrByLow ∧
      p.amount.rdToHigh * p.periodCount.rdToHigh * iters (c.su.drop (lvl + 1)).flatten = p.moves.rdToHigh := by
  have he := exact_plain hv hpr
  obtain ⟨p', hp', hwr, _, hrd, _⟩ := output_traffic_partial hv hw h hl (he _) (he _) (he _)
  obtain ⟨_, t, s, ht, _, hp⟩ := outputMoves_get h
  obtain ⟨p, hpat, hget⟩ := hp lvl hl
  rw [hget] at hp'; cases hp'
  obtain ⟨prec, lo, hi, pl, ph, i, _, _, hlo, hhi, _, _, _, _, _, _, _, e1, e2, _⟩ := outputPattern_unfold hpat
  have hs := low_side hv hw hpr ht hl hT (Or.inr (Or.inl rfl)) hlo
  have ht' : ((trunc lo.amount : ℤ) : ℚ) = lo.amount := by rw [hs.1, trunc_nat]; simp
  have a1 : (topCut c.tm.length lvl p).amount.wrByLow = lo.amount := by
    rw [← ht']
    unfold topCut; split_ifs
    · change p.amount.wrByLow = _; rw [e2]; rfl
    · rw [e2]; rfl
  have a2 : (topCut c.tm.length lvl p).periodCount.wrByLow = lo.count := by
    unfold topCut; split_ifs
    · change p.periodCount.wrByLow = _; rw [e1]; rfl
    · rw [e1]; rfl
  refine ⟨_, hget, by rw [hwr, a1, a2]; exact hs.2, ?_⟩
  rw [hrd]
  unfold topCut
  by_cases htop : lvl + 1 = c.tm.length
  · rw [if_pos htop, if_pos htop]
    change (0 : ℚ) * _ * _ = 0
    ring
  · rw [if_neg htop, if_neg htop, e1, e2]
    exact (high_side hv hw ht hl (he _) hT hhi).2

/-- C87: for an operand without partially relevant dimensions, the size reported for a level with all its units is the number of
different elements the units hold together; at the outermost level it is the size of the operand. -/
theorem data_all_units_partial (hpr : c.rel.pr = []) {t : Tables Dim} (ht : tables c = .ok t) {lv : Nat} (hlv : lv ≤ c.tm.length) :
    t.elems[lv]? = some (elements rl rels (tileOf ((c.tm.take lv).flatten ++ c.su.flatten)) : ℤ) := by
  have hu := data_elements_partial hv hw ht hlv (exact_plain hv hpr _)
  obtain ⟨rs, ab, ra, rb, hrs, _, _, _, _, _, _, _, e2, _, e4, _⟩ := tables_unfold ht
  have hrs' := hv.plain hpr hrs
  have hlen : rs.length = c.su.length := by rw [hrs']; simp
  have hg : t.unique[lv]? = some (selP (fun d => decide (d ∈ rl)) (c.su.drop lv).flatten) := by
    rw [e2]
    unfold unitUnique
    rw [above_get _ lv (by rw [unrollR_eq]; simp [hlen, hv.levels]; omega), unrollR_eq, hrs', List.map_map, ← List.map_drop]
    have hsub : ∀ l ∈ (c.su.drop lv).flatten, l ∈ c.tm.flatten ++ c.su.flatten := by
      intro l hl
      obtain ⟨a, ha, hla⟩ := List.mem_flatten.1 hl
      exact List.mem_append_right _ (List.mem_flatten.2 ⟨a, List.mem_of_mem_drop ha, hla⟩)
    rw [← (hv.plain_sel hpr hsub).1, selP_flatten]
    congr 2
    apply List.map_congr_left
    intro l _
    change selP (isR c) _ = _
    rw [selP_orig]
    rfl
  rw [e4, List.getElem?_zipWith, hu, hg]
  simp only [Int.cast_natCast]
  congr 1
  have hsub' : ∀ l ∈ (c.tm.take lv).flatten ++ c.su.flatten, l ∈ c.tm.flatten ++ c.su.flatten := by
    intro l hl
    rw [List.mem_append] at hl ⊢
    rcases hl with hl | hl
    · obtain ⟨a, ha, hla⟩ := List.mem_flatten.1 hl
      exact Or.inl (List.mem_flatten.2 ⟨a, List.mem_of_mem_take ha, hla⟩)
    · exact Or.inr hl
  rw [plain_elements hv hw hpr inside_sub, ← selP_append]
  have e : inside c.su c.tm lv lv ++ (c.su.drop lv).flatten = (c.tm.take lv).flatten ++ c.su.flatten := by
    unfold inside
    rw [List.append_assoc, ← List.flatten_append, List.take_append_drop]
  rw [e, ← plain_elements hv hw hpr hsub', pyRound_nat]

/-- C89: partial sums of an output level are kept exactly when a loop outside runs over a dimension the output does not have; then, and
only then, results are read back, with the partial sum precision, amount and bandwidth. -/
theorem output_psum_partial (hpr : c.rel.pr = []) {ps : List Pattern} (h : outputMoves c = .ok ps) {lvl : Nat} (hl : lvl < c.tm.length) :
    ∃ p, ps[lvl]? = some p ∧
      ((∃ l ∈ outside c.su c.tm lvl (lvl + 1), l.1 ∉ rl ∧ 1 < l.2) → 0 < p.moves.rdToLow ∧ p.precision.wrByLow = c.precision ∧
        p.precision.rdToLow = c.precision ∧ p.amount.rdToLow = p.amount.wrByLow ∧ p.bwAver.rdToLow = p.bwAver.wrByLow) ∧
      ((¬ ∃ l ∈ outside c.su c.tm lvl (lvl + 1), l.1 ∉ rl ∧ 1 < l.2) → p.moves.rdToLow = 0 ∧ p.precision.wrByLow = c.finalPrecision ∧
        p.precision.rdToLow = 0 ∧ p.amount.rdToLow = 0 ∧ p.bwAver.rdToLow = 0) := by
  have he := exact_plain hv hpr
  obtain ⟨p', hp', hwr, hdiff, _⟩ := output_traffic_partial hv hw h hl (he _) (he _) (he _)
  obtain ⟨_, t, s, ht, _, hp⟩ := outputMoves_get h
  obtain ⟨p, hpat, hget⟩ := hp lvl hl
  rw [hget] at hp'; cases hp'
  obtain ⟨prec, lo, hi, pl, ph, i, _, _, hlo, hhi, hpl, _, _, ep, eb, _, _, _, ea, _⟩ := outputPattern_unfold hpat
  -- the flag
  obtain ⟨rs, ab, ra, rb, _, _, h3, h4, _, _, _, e1, _⟩ := tables_unfold ht
  obtain ⟨a, b, hab, la, _, _, hout, pa, _⟩ := combine_ok hv.levels
  rw [hab] at h3; cases h3
  simp only at h4
  have hra := hv.plain hpr h4
  have lra : ra.length = c.su.length := by rw [hra]; simp [la]
  have hpl' := pyGet_of hpl
  rw [e1, psum_get _ _ _ (by rw [lra, hv.levels]; omega)] at hpl'
  have hperm := hout lvl (Nat.le_of_lt hl)
  have hirr : ∀ l ∈ outside c.su c.tm lvl (lvl + 1), 1 < l.2 → (l.1 ∈ c.rel.ir ↔ l.1 ∉ rl) := by
    intro l hl' h1
    have hm := outside_sub l hl'
    have := (hv.plain_sel hpr (ls := [l]) (by simpa using hm)).2
    rw [selP_cons, selP_cons] at this
    by_cases x1 : l.1 ∈ c.rel.ir <;> by_cases x2 : l.1 ∈ rl <;> simp [x1, x2, selP] at this ⊢ <;> linarith
  have hflag : pl = true ↔ ∃ l ∈ outside c.su c.tm lvl (lvl + 1), l.1 ∉ rl ∧ 1 < l.2 := by
    have hpl'' : ((ra.drop (lvl + 1)).flatten.any (fun x => isIr c x.1 && decide (1 < x.2))) = pl := by injection hpl'
    rw [← hpl'', List.any_eq_true, hra, ← List.map_drop, ← List.map_flatten]
    constructor
    · rintro ⟨x, hx, hxx⟩
      obtain ⟨l, hl', rfl⟩ := List.mem_map.1 hx
      have hlo' := hperm.mem_iff.1 hl'
      simp only [isIr, Bool.and_eq_true, decide_eq_true_eq] at hxx
      exact ⟨l, hlo', (hirr l hlo' hxx.2).1 hxx.1, hxx.2⟩
    · rintro ⟨l, hl', h1, h2⟩
      refine ⟨_, List.mem_map.2 ⟨l, hperm.mem_iff.2 hl', rfl⟩, ?_⟩
      simp only [isIr, Bool.and_eq_true, decide_eq_true_eq]
      exact ⟨(hirr l hl' h2).2 h1, h2⟩
  -- the count
  have hsame : (topCut c.tm.length lvl p).moves.rdToLow = p.moves.rdToLow := by unfold topCut; split_ifs <;> rfl
  have hw' : (topCut c.tm.length lvl p).moves.wrByLow = p.moves.wrByLow := by unfold topCut; split_ifs <;> rfl
  have hcount : p.moves.rdToLow = full c rl rels * (selP (fun d => decide (d ∉ rl)) (outside c.su c.tm lvl (lvl + 1)) - 1) := by
    have h1 : p.moves.rdToLow = fetches c rl rels lvl (lvl + 1) - full c rl rels := by
      rw [← hwr, ← hdiff, hsame]; ring
    rw [h1]
    obtain ⟨q, _, q2, q3⟩ := hv.caal_get hw ht (lv := lvl) (Nat.le_of_lt hl)
    have hm := q3 (he _) (he _)
    have hq : q = selP (fun d => decide (d ∉ rl)) (outside c.su c.tm lvl (lvl + 1)) := by
      rw [q2, e1, hra, ← List.map_drop, ← List.map_flatten, selP_orig, ← (hv.plain_sel hpr outside_sub).2]
      exact ((hperm.filter _).map _).prod_eq
    unfold fetches
    rw [← hm, hq]
    unfold full; ring
  have hfull : (1 : ℚ) ≤ full c rl rels := by
    unfold full
    rw [plain_elements hv hw hpr (fun l hl => hl)]
    apply one_le_prod
    intro x hx
    obtain ⟨l, hl', rfl⟩ := List.mem_map.1 hx
    exact (hv.loops l (List.mem_of_mem_filter hl')).2
  have hone : ∀ l ∈ outside c.su c.tm lvl (lvl + 1), 1 ≤ l.2 := fun l hl' => (hv.loops l (outside_sub l hl')).2
  have hpos : pl = true → 0 < p.moves.rdToLow := by
    intro hp1
    obtain ⟨l, hl', h1, h2⟩ := hflag.1 hp1
    obtain ⟨x, y, hxy⟩ := List.append_of_mem hl'
    have hgt : 1 < selP (fun d => decide (d ∉ rl)) (outside c.su c.tm lvl (lvl + 1)) := by
      have hx1 : 1 ≤ selP (fun d => decide (d ∉ rl)) (x ++ y) := by
        apply one_le_prod
        intro z hz
        obtain ⟨w, hw1, rfl⟩ := List.mem_map.1 hz
        refine hone w ?_
        rw [hxy]
        have := List.mem_of_mem_filter hw1
        simp only [List.mem_append, List.mem_cons] at this ⊢
        tauto
      rw [hxy]
      have hperm' : (x ++ l :: y).Perm (l :: (x ++ y)) := List.perm_middle
      have e : selP (fun d => decide (d ∉ rl)) (x ++ l :: y) = selP (fun d => decide (d ∉ rl)) (l :: (x ++ y)) :=
        ((hperm'.filter _).map _).prod_eq
      rw [e, selP_cons]
      simp only [h1, not_false_eq_true, decide_true, if_true]
      nlinarith
    rw [hcount]
    nlinarith
  have hzero : pl = false → p.moves.rdToLow = 0 := by
    intro hp0
    have hno : ¬ ∃ l ∈ outside c.su c.tm lvl (lvl + 1), l.1 ∉ rl ∧ 1 < l.2 := fun hx => by
      have := hflag.2 hx; rw [hp0] at this; cases this
    have hs1 : selP (fun d => decide (d ∉ rl)) (outside c.su c.tm lvl (lvl + 1)) = 1 := by
      apply List.prod_eq_one
      intro z hz
      obtain ⟨w, hw1, rfl⟩ := List.mem_map.1 hz
      rw [List.mem_filter] at hw1
      have h1 := hone w hw1.1
      by_contra hne
      exact hno ⟨w, hw1.1, by simpa using hw1.2, lt_of_le_of_ne h1 (Ne.symm hne)⟩
    rw [hcount, hs1]; ring
  have hprec : (topCut c.tm.length lvl p).precision.wrByLow = (outputPrec c p.moves).wrByLow ∧
      (topCut c.tm.length lvl p).precision.rdToLow = (outputPrec c p.moves).rdToLow := by
    rw [← ep]; unfold topCut; split_ifs <;> exact ⟨rfl, rfl⟩
  have ham : (topCut c.tm.length lvl p).amount.wrByLow = trunc lo.amount ∧
      (topCut c.tm.length lvl p).amount.rdToLow = if pl then ((trunc lo.amount : ℤ) : ℚ) else 0 := by
    have : p.amount.wrByLow = trunc lo.amount ∧ p.amount.rdToLow = if pl then ((trunc lo.amount : ℤ) : ℚ) else 0 := by rw [ea]; exact ⟨rfl, rfl⟩
    unfold topCut
    by_cases htop : lvl + 1 = c.tm.length
    · rw [if_pos htop]; exact this
    · rw [if_neg htop]; exact this
  have hbw : (topCut c.tm.length lvl p).bwAver.wrByLow = lo.bw ∧ (topCut c.tm.length lvl p).bwAver.rdToLow = if pl then lo.bw else 0 := by
    have : p.bwAver.wrByLow = lo.bw ∧ p.bwAver.rdToLow = if pl then lo.bw else 0 := by rw [eb]; exact ⟨rfl, rfl⟩
    unfold topCut
    by_cases htop : lvl + 1 = c.tm.length
    · rw [if_pos htop]; exact this
    · rw [if_neg htop]; exact this
  refine ⟨_, hget, fun hx => ?_, fun hx => ?_⟩
  · have hp1 := hflag.2 hx
    have h0 := hpos hp1
    rw [hsame, hprec.1, hprec.2, ham.1, ham.2, hbw.1, hbw.2, hp1]
    unfold outputPrec
    simp only [if_pos (ne_of_gt h0), if_true]
    exact ⟨h0, trivial, trivial, trivial, trivial⟩
  · have hp0 : pl = false := by
      cases hpl0 : pl with
      | false => rfl
      | true => exact absurd (hflag.1 hpl0) hx
    have h0 := hzero hp0
    rw [hsame, hprec.1, hprec.2, ham.2, hbw.2, hp0]
    unfold outputPrec
    simp [h0]

end transfer

/-! ### C90: bandwidths -/

theorem trunc_bounds {q : ℚ} (h : 0 ≤ q) : ((trunc q : ℤ) : ℚ) ≤ q ∧ q < (trunc q : ℤ) + 1 := by
  unfold trunc
  rw [if_pos h]
  exact ⟨Int.floor_le q, Int.lt_floor_add_one q⟩

theorem instant_unfold {c : Cfg Dim} {lvl : Nat} {bw pd : FourWay} {i : FourWay × FourWay} (h : instant c lvl bw pd = .ok i) :
    ∃ cur nxt, (TemporalMapping.topLoopSize (fun d => decide (d ∈ c.rel.ir)) c.tm)[lvl]? = some cur ∧
      (TemporalMapping.topLoopSize (fun d => decide (d ∈ c.rel.ir)) c.tm)[lvl + 1]? = some nxt ∧
      i.1.rdToLow = trunc (bw.rdToLow * (trunc cur : ℤ)) ∧ i.1.wrByHigh = trunc (bw.wrByHigh * (trunc nxt : ℤ)) ∧
      i.2.rdToLow = trunc (pd.rdToLow / (trunc cur : ℤ)) ∧ i.2.wrByHigh = trunc (pd.wrByHigh / (trunc nxt : ℤ)) := by
  unfold instant at h
  cases h1 : pyGet (TemporalMapping.topLoopSize (fun d => decide (d ∈ c.rel.ir)) c.tm) lvl with
  | error e => simp only [bind, Except.bind, h1] at h; cases h
  | ok cur =>
    cases h2 : pyGet (TemporalMapping.topLoopSize (fun d => decide (d ∈ c.rel.ir)) c.tm) (lvl + 1) with
    | error e => simp only [bind, Except.bind, h1, h2] at h; cases h
    | ok nxt =>
      simp only [bind, Except.bind, h1, h2, pyDiv] at h
      by_cases e1 : ((trunc cur : ℤ) : ℚ) = 0
      · rw [if_pos e1] at h; cases h
      · simp only [if_neg e1] at h
        by_cases e2 : ((trunc nxt : ℤ) : ℚ) = 0
        · rw [if_pos e2] at h; cases h
        · simp only [if_neg e2, pure, Except.pure] at h
          cases h
          exact ⟨cur, nxt, pyGet_of h1, pyGet_of h2, rfl, rfl, rfl, rfl⟩

/-- The outermost run of selected loops of a level divides the level. -/
theorem topScan_dvd (pred : Dim → Bool) : ∀ (ls : List (Dim × ℚ)) (acc : ℕ), (∀ l ∈ ls, ∃ n : ℕ, l.2 = n) →
    ∃ a k : ℕ, TemporalMapping.topScan pred ls acc = a ∧ acc * iters ls = a * k ∧ (acc ≠ 0 → (∀ l ∈ ls, 1 ≤ l.2) → a ≠ 0)
  | [], acc, _ => ⟨acc, 1, rfl, by simp [iters], fun h _ => h⟩
  | l :: ls, acc, h => by
    obtain ⟨n, hn⟩ := h l (by simp)
    unfold TemporalMapping.topScan
    by_cases hp : pred l.1 = true
    · rw [if_pos hp, hn, ← Nat.cast_mul]
      obtain ⟨a, k, h1, h2, h3⟩ := topScan_dvd pred ls (acc * n) (fun x hx => h x (by simp [hx]))
      refine ⟨a, k, h1, ?_, fun h0 h1' => h3 (Nat.mul_ne_zero h0 (fun hz => ?_)) (fun x hx => h1' x (by simp [hx]))⟩
      · rw [← h2]; unfold iters; rw [List.map_cons, List.prod_cons, hn]; push_cast; ring
      · have := h1' l (by simp)
        rw [hn, hz] at this
        norm_num at this
    · rw [if_neg hp]
      obtain ⟨k, hk⟩ := iters_nat (ls := l :: ls) h
      exact ⟨acc, k, rfl, by rw [hk], fun h0 _ => h0⟩

section bandwidth
variable {c : Cfg Dim} {rl : List Dim} {rels : List (Relation Dim)} (hv : Valid c rl rels) (hw : Whole c)
include hv hw

theorem take_nat (n : Nat) : ∃ k : ℕ, iters (c.tm.take n).flatten = k ∧ k ≠ 0 := by
  have hsub : ∀ l ∈ (c.tm.take n).flatten, l ∈ c.tm.flatten ++ c.su.flatten := by
    intro l hl
    obtain ⟨a, ha, hla⟩ := List.mem_flatten.1 hl
    exact List.mem_append_left _ (List.mem_flatten.2 ⟨a, List.mem_of_mem_take ha, hla⟩)
  obtain ⟨k, hk⟩ := iters_nat (fun l hl => hw l (hsub l hl))
  refine ⟨k, hk, fun h0 => ?_⟩
  have := iters_pos (c.tm.take n).flatten (fun l hl => (hv.loops l (hsub l hl)).2)
  rw [hk, h0] at this
  norm_num at this

/-- C90: the average bandwidth required from above, rounded down to whole bits per cycle, transfers at most the data of a period; one
more bit per cycle would transfer more (`bandwidth_false`: the rounded figure need not suffice). -/
theorem bandwidth_partial {ps : List Pattern} (h : inputMoves c = .ok ps) {lvl : Nat} (hl : lvl + 1 < c.tm.length) (h0 : 0 ≤ c.precision)
    (h2 : Exact c rl rels (tileOf (inside c.su c.tm (lvl + 1) (lvl + 1)))) :
    ∃ p, ps[lvl]? = some p ∧ p.period.wrByHigh = iters (c.tm.take (lvl + 1)).flatten ∧
      p.amount.wrByHigh = elements rl rels (tileOf (inside c.su c.tm (lvl + 1) (lvl + 1))) ∧ p.precision.wrByHigh = c.precision ∧
      p.bwAver.wrByHigh * p.period.wrByHigh ≤ p.amount.wrByHigh * p.precision.wrByHigh ∧
      p.amount.wrByHigh * p.precision.wrByHigh < (p.bwAver.wrByHigh + 1) * p.period.wrByHigh := by
  obtain ⟨_, t, ht, hp⟩ := inputMoves_get h
  obtain ⟨p, hpat, hget⟩ := hp lvl (by omega)
  obtain ⟨lo, hi, i, _, _, hhi, _, ep, eb, _, ed, _, ea, _⟩ := inputPattern_unfold hpat
  obtain ⟨pr, cy, d, g1, g2, _, g4, g5, g6, _, g8⟩ := highSide_unfold hhi
  rw [List.getElem?_replicate, if_pos (by omega)] at g1
  cases g1
  rw [cycles_get c false (lvl + 1) (by omega) (Or.inr (Or.inr (by omega)))] at g2
  cases g2
  have hu := data_elements_partial hv hw ht (lv := lvl + 1) (by omega) h2
  rw [g4] at hu; cases hu
  obtain ⟨k, hk, hk0⟩ := take_nat hv hw (lvl + 1)
  have hkpos : (0 : ℚ) < k := by exact_mod_cast Nat.pos_of_ne_zero hk0
  have hpd : p.period.wrByHigh = iters (c.tm.take (lvl + 1)).flatten := by
    rw [ed]; change hi.period = _; rw [g6, hk, trunc_nat]; simp
  have ham : p.amount.wrByHigh = elements rl rels (tileOf (inside c.su c.tm (lvl + 1) (lvl + 1))) := by
    rw [ea]; change hi.amount = _; rw [g8]; simp
  have hpc : p.precision.wrByHigh = c.precision := by rw [ep]; rfl
  have hbw : p.bwAver.wrByHigh = hi.bw := by rw [eb]; rfl
  have htop : topCut c.tm.length lvl p = p := by unfold topCut; rw [if_neg (by omega)]
  rw [htop] at hget
  have hb := trunc_bounds (q := ((elements rl rels (tileOf (inside c.su c.tm (lvl + 1) (lvl + 1))) : ℤ) : ℚ) * c.precision /
    iters (c.tm.take (lvl + 1)).flatten) (by rw [hk]; positivity)
  rw [← g5, hk] at hb
  refine ⟨p, hget, hpd, ham, hpc, ?_⟩
  rw [hpd, ham, hpc, hbw, hk]
  push_cast at hb
  exact ⟨(le_div_iff₀ hkpos).1 hb.1, (div_lt_iff₀ hkpos).1 hb.2⟩

/-- C90: the instantaneous bandwidth over the window in which new data are needed transfers what the average bandwidth transfers over
the whole period. -/
theorem instant_window {ps : List Pattern} (h : inputMoves c = .ok ps) {lvl : Nat} (hl : lvl + 1 < c.tm.length) :
    ∃ p, ps[lvl]? = some p ∧ p.bwInst.wrByHigh * p.window.wrByHigh = p.bwAver.wrByHigh * p.period.wrByHigh ∧
      |p.bwAver.wrByHigh| ≤ |p.bwInst.wrByHigh| := by
  obtain ⟨_, t, ht, hp⟩ := inputMoves_get h
  obtain ⟨p, hpat, hget⟩ := hp lvl (by omega)
  obtain ⟨lo, hi, i, _, _, hhi, hin, ep, eb, ei, ed, _, ea, ew⟩ := inputPattern_unfold hpat
  obtain ⟨pr, cy, d, g1, g2, _, g4, g5, g6, _, g8⟩ := highSide_unfold hhi
  rw [cycles_get c false (lvl + 1) (by omega) (Or.inr (Or.inr (by omega)))] at g2
  cases g2
  obtain ⟨cur, nxt, _, f2, _, f4, _, f6⟩ := instant_unfold hin
  obtain ⟨k, hk, hk0⟩ := take_nat hv hw (lvl + 1)
  have hlt : lvl < c.tm.length := by omega
  have hsub : ∀ l ∈ c.tm[lvl], l ∈ c.tm.flatten ++ c.su.flatten := fun l hl' =>
    List.mem_append_left _ (List.mem_flatten.2 ⟨_, List.getElem_mem hlt, hl'⟩)
  -- the outermost irrelevant loops divide the period
  obtain ⟨a, m, ha, ham, ha0⟩ : ∃ a m : ℕ, nxt = a ∧ iters c.tm[lvl] = a * m ∧ a ≠ 0 := by
    unfold TemporalMapping.topLoopSize at f2
    rw [List.getElem?_cons_succ, List.getElem?_map, List.getElem?_eq_getElem hlt, Option.map_some] at f2
    obtain ⟨a, m, h1, h2, h3⟩ := topScan_dvd (fun d => decide (d ∈ c.rel.ir)) c.tm[lvl].reverse 1
      (fun l hl' => hw l (hsub l (List.mem_reverse.1 hl')))
    have h1' : iters c.tm[lvl].reverse = iters c.tm[lvl] := iters_perm (List.reverse_perm _)
    rw [h1', Nat.cast_one, one_mul] at h2
    have ha0 := h3 one_ne_zero (fun l hl' => (hv.loops l (hsub l (List.mem_reverse.1 hl'))).2)
    by_cases hnil : c.tm[lvl] = []
    · rw [if_pos hnil] at f2
      injection f2 with f2
      exact ⟨1, 1, by rw [← f2]; simp, by rw [hnil]; simp [iters], one_ne_zero⟩
    · rw [if_neg hnil] at f2
      injection f2 with f2
      rw [Nat.cast_one] at h1
      exact ⟨a, m, by rw [← f2, h1], h2, ha0⟩
  obtain ⟨k', hk', _⟩ := take_nat hv hw lvl
  have hprod : (k : ℚ) = a * (k' * m) := by
    rw [← hk, List.take_add_one, List.getElem?_eq_getElem hlt, List.flatten_append, iters_append, hk']
    simp only [Option.toList, List.flatten_cons, List.flatten_nil, List.append_nil]
    rw [ham]; ring
  have haq : (a : ℚ) ≠ 0 := by exact_mod_cast ha0
  have hpd : p.period.wrByHigh = k := by
    rw [ed]; change hi.period = _; rw [g6, hk, trunc_nat]; simp
  have hbw : p.bwAver.wrByHigh = hi.bw := by rw [eb]; rfl
  have htop : topCut c.tm.length lvl p = p := by unfold topCut; rw [if_neg (by omega)]
  rw [htop] at hget
  have hta : ((trunc nxt : ℤ) : ℚ) = a := by rw [ha, trunc_nat]; simp
  have hinst : p.bwInst.wrByHigh = hi.bw * a := by
    rw [ei, f4, hta]
    change ((trunc (hi.bw * a) : ℤ) : ℚ) = _
    rw [g5, ← Int.cast_natCast, ← Int.cast_mul, trunc_int]
  have hwin : p.window.wrByHigh = k' * m := by
    rw [ew, f6, hta]
    change ((trunc (hi.period / a) : ℤ) : ℚ) = _
    have : hi.period = k := by rw [← hpd, ed]; rfl
    rw [this, hprod, mul_comm, mul_div_assoc, div_self haq, mul_one, ← Nat.cast_mul, trunc_nat]; push_cast; ring
  refine ⟨p, hget, by rw [hinst, hwin, hbw, hpd, hprod]; ring, ?_⟩
  rw [hinst, hbw, abs_mul]
  have h1 : (1 : ℚ) ≤ |(a : ℚ)| := by
    rw [abs_of_nonneg (Nat.cast_nonneg a)]
    exact_mod_cast Nat.one_le_iff_ne_zero.2 ha0
  nlinarith [abs_nonneg hi.bw]

/-- C88: with "same data is no access", the innermost memory of a wide enough input memory is read once per stationary period only: the
reads are those of the remaining iterations; in a memory whose port is narrower than the data of one cycle every access counts. -/
theorem input_stationary_partial (hpr : c.rel.pr = []) {ps : List Pattern} (h : inputMoves c = .ok ps) (hl : 0 < c.tm.length)
    (hn : c.noAccess = true) {q : ℕ} (hq : iters (outside c.su c.tm 0 1) = c.stationary * q) (hst : c.stationary ≠ 0) {w : ℚ} (hbw : c.bw 0 = some w) :
    ∃ p, ps[0]? = some p ∧
      ((elements rl rels (tileOf (inside c.su c.tm 0 1)) : ℚ) * c.precision < (⌊w⌋ : ℚ) + 1 →
        p.moves.rdToLow = (elements rl rels (tileOf (inside c.su c.tm 0 1)) : ℚ) * q) ∧
      ((⌊w⌋ : ℚ) + 1 ≤ (elements rl rels (tileOf (inside c.su c.tm 0 1)) : ℚ) * c.precision → p.moves.rdToLow = fetches c rl rels 0 1) := by
  obtain ⟨_, t, ht, hp⟩ := inputMoves_get h
  obtain ⟨p, hpat, hget⟩ := hp 0 hl
  obtain ⟨lo, hi, i, hm, _⟩ := inputPattern_unfold hpat
  obtain ⟨nb, el, raw, wr, w', u1, u2, u3, u4, r1, _, _, _, _, m4⟩ := inputCounts_unfold hm
  rw [hbw] at u4; cases u4
  have he := exact_plain hv hpr
  obtain ⟨z, z1, z2⟩ := (hv.tables_whole hw ht (Nat.zero_le _)).2 (he _)
  rw [r1] at z1; cases z1
  -- data per cycle
  have hall := data_all_units_partial hv hw hpr ht (lv := 0) (Nat.zero_le _)
  rw [u2] at hall; cases hall
  obtain ⟨rs, ab, ra, rb, hrs, _, _, _, _, _, _, _, e2, _⟩ := tables_unfold ht
  have hrs' := hv.plain hpr hrs
  have hlen : rs.length = c.su.length := by rw [hrs']; simp
  have hnb : nb = selP (fun d => decide (d ∈ rl)) (c.su.drop 1).flatten := by
    rw [e2] at u1
    unfold unitUnique at u1
    rw [above_get _ 1 (by rw [unrollR_eq]; simp [hlen, hv.levels]; omega), unrollR_eq, hrs', List.map_map, ← List.map_drop] at u1
    have hsub : ∀ l ∈ (c.su.drop 1).flatten, l ∈ c.tm.flatten ++ c.su.flatten := by
      intro l hl
      obtain ⟨a, ha, hla⟩ := List.mem_flatten.1 hl
      exact List.mem_append_right _ (List.mem_flatten.2 ⟨a, List.mem_of_mem_drop ha, hla⟩)
    rw [← (hv.plain_sel hpr hsub).1, selP_flatten]
    injection u1 with u1
    rw [← u1]
    congr 1
    apply List.map_congr_left
    intro l _
    change selP (isR c) _ = _
    rw [selP_orig]
    rfl
  have hel : ((elements rl rels (tileOf ((c.tm.take 0).flatten ++ c.su.flatten)) : ℤ) : ℚ) =
      elements rl rels (tileOf (inside c.su c.tm 0 1)) * nb := by
    have hs : ∀ l ∈ (c.tm.take 0).flatten ++ c.su.flatten, l ∈ c.tm.flatten ++ c.su.flatten := by
      intro l hl'
      simp only [List.take_zero, List.flatten_nil, List.nil_append] at hl'
      exact List.mem_append_right _ hl'
    push_cast
    rw [plain_elements hv hw hpr hs, plain_elements hv hw hpr inside_sub, hnb, ← selP_append]
    have hsu : c.su.flatten = (c.su.take 1).flatten ++ (c.su.drop 1).flatten := by rw [← List.flatten_append, List.take_append_drop]
    unfold inside
    rw [List.append_assoc, ← hsu]
  have hheld : (elements rl rels (tileOf ((c.tm.take 0).flatten ++ c.su.flatten)) : ℤ) * c.precision / nb =
      elements rl rels (tileOf (inside c.su c.tm 0 1)) * c.precision := by
    rw [hel]; field_simp
  rw [hheld] at m4
  have hraw : (raw : ℚ) = elements rl rels (tileOf (inside c.su c.tm 0 1)) * (c.stationary * q) := by rw [z2, hq]
  have hsame : (topCut c.tm.length 0 p).moves.rdToLow = p.moves.rdToLow := by unfold topCut; split_ifs <;> rfl
  refine ⟨_, hget, fun hle => ?_, fun hgt => ?_⟩
  · rw [hsame]
    rcases m4 with ⟨hc, _⟩ | ⟨_, _, e⟩
    · refine absurd ⟨hn, rfl, ?_⟩ hc
      have : ⌊(elements rl rels (tileOf (inside c.su c.tm 0 1)) : ℚ) * c.precision⌋ ≤ ⌊w⌋ := by
        have hlt : ⌊(elements rl rels (tileOf (inside c.su c.tm 0 1)) : ℚ) * c.precision⌋ < ⌊w⌋ + 1 := by
          rw [Int.floor_lt]; push_cast; exact hle
        omega
      exact le_trans (by exact_mod_cast this) (Int.floor_le w)
    · rw [e, hraw]
      have : (elements rl rels (tileOf (inside c.su c.tm 0 1)) : ℚ) * (c.stationary * q) / c.stationary =
          ((elements rl rels (tileOf (inside c.su c.tm 0 1)) * q : ℕ) : ℚ) := by
        push_cast; field_simp
      rw [this, trunc_nat]; push_cast; ring
  · rw [hsame]
    rcases m4 with ⟨_, e⟩ | ⟨⟨_, _, hc⟩, _⟩
    · rw [e, z2]; rfl
    · exfalso
      have h1 : ⌊w⌋ + 1 ≤ ⌊(elements rl rels (tileOf (inside c.su c.tm 0 1)) : ℚ) * c.precision⌋ := by
        rw [Int.le_floor]; push_cast; exact hgt
      have h2 : (⌊(elements rl rels (tileOf (inside c.su c.tm 0 1)) : ℚ) * c.precision⌋ : ℤ) ≤ ⌊w⌋ := by
        rw [Int.le_floor]; exact hc
      omega

end bandwidth

/-! ### C91: no traffic with the outside -/

/-- C91: the outermost memory exchanges nothing with the outside in any of the eight attributes; every other figure is unchanged. -/
theorem external_disabled (ps : List Pattern) : (disableExternal ps = .error .indexError ↔ ps = []) ∧
    ∀ qs, disableExternal ps = .ok qs → qs.length = ps.length ∧ ∀ (n : Nat) (p : Pattern), ps[n]? = some p → ∃ q, qs[n]? = some q ∧
      (n + 1 < ps.length → q = p) ∧ (n + 1 = ps.length →
        (∀ f ∈ [q.moves, q.precision, q.bwAver, q.bwInst, q.period, q.periodCount, q.amount, q.window], f.rdToHigh = 0 ∧ f.wrByHigh = 0) ∧
        List.Forall₂ (fun f g => f.rdToLow = g.rdToLow ∧ f.wrByLow = g.wrByLow)
          [q.moves, q.precision, q.bwAver, q.bwInst, q.period, q.periodCount, q.amount, q.window]
          [p.moves, p.precision, p.bwAver, p.bwInst, p.period, p.periodCount, p.amount, p.window]) := by
  constructor
  · unfold disableExternal
    by_cases h : ps = []
    · simp [h]
    · simp [h]
  · intro qs h
    obtain ⟨h1, _, h3⟩ := disable_get h
    refine ⟨h1, fun n p hp => ⟨_, h3 n p hp, ?_, ?_⟩⟩
    · intro hn; unfold topCut; rw [if_neg (by omega)]
    · intro hn
      unfold topCut
      rw [if_pos hn]
      constructor
      · intro f hf
        simp only [List.mem_cons, List.not_mem_nil, or_false] at hf
        rcases hf with rfl | rfl | rfl | rfl | rfl | rfl | rfl | rfl <;> exact ⟨rfl, rfl⟩
      · repeat' constructor

/-! ### No exception -/

theorem topLoopSize_get (c : Cfg Dim) (pred : Dim → Bool) (h : ∀ l ∈ c.tm.flatten, 1 ≤ l.2) (lvl : Nat) (hl : lvl ≤ c.tm.length) :
    ∃ q, (TemporalMapping.topLoopSize pred c.tm)[lvl]? = some q ∧ 1 ≤ q := by
  have scan : ∀ (ls : List (Dim × ℚ)) (acc : ℚ), (∀ l ∈ ls, 1 ≤ l.2) → 1 ≤ acc → 1 ≤ TemporalMapping.topScan pred ls acc := by
    intro ls
    induction ls with
    | nil => intro acc _ h; exact h
    | cons l ls ih =>
      intro acc h1 h2
      unfold TemporalMapping.topScan
      split_ifs
      · refine ih _ (fun x hx => h1 x (by simp [hx])) ?_
        have := h1 l (by simp)
        nlinarith
      · exact h2
  unfold TemporalMapping.topLoopSize
  cases lvl with
  | zero => exact ⟨1, rfl, le_refl _⟩
  | succ n =>
    have hlt : n < c.tm.length := by omega
    rw [List.getElem?_cons_succ, List.getElem?_map, List.getElem?_eq_getElem hlt, Option.map_some]
    refine ⟨_, rfl, ?_⟩
    split_ifs
    · exact le_refl _
    · exact scan _ _ (fun l hl' => h l (List.mem_flatten.2 ⟨_, List.getElem_mem hlt, List.mem_reverse.1 hl'⟩)) (le_refl _)

section total
variable {c : Cfg Dim} {rl : List Dim} {rels : List (Relation Dim)} (hv : Shape c rl rels)
  (hp : ∀ r ∈ rels, ∃ m, c.L.prSizes.get? r.dim1 = some m ∧ 0 < m)
include hv

theorem instant_ok {lvl : Nat} (hl : lvl < c.tm.length) (bw pd : FourWay) : ∃ i, instant c lvl bw pd = .ok i := by
  have h1 : ∀ l ∈ c.tm.flatten, 1 ≤ l.2 := fun l hl' => (hv.loops l (List.mem_append_left _ hl')).2
  obtain ⟨a, ha, ha1⟩ := topLoopSize_get c (fun d => decide (d ∈ c.rel.ir)) h1 lvl (Nat.le_of_lt hl)
  obtain ⟨b, hb, hb1⟩ := topLoopSize_get c (fun d => decide (d ∈ c.rel.ir)) h1 (lvl + 1) hl
  have hne : ∀ x : ℚ, 1 ≤ x → ((trunc x : ℤ) : ℚ) ≠ 0 := by
    intro x hx h0
    have := (trunc_bounds (q := x) (by linarith)).2
    rw [h0] at this; linarith
  unfold instant
  rw [pyGet_ok ha, pyGet_ok hb]
  simp only [bind, Except.bind, pyDiv, if_neg (hne a ha1), if_neg (hne b hb1)]
  exact ⟨_, rfl⟩

theorem cycles_ok (out : Bool) (hst : c.stationary ≠ 0) {lvl : Nat} (hl : lvl ≤ c.tm.length) :
    ∃ cy, (cycles c out)[lvl]? = some cy ∧ cy ≠ 0 := by
  by_cases hc : c.noAccess = false ∨ out = true ∨ lvl ≠ 0
  · refine ⟨_, cycles_get c out lvl hl hc, ?_⟩
    have := iters_pos (c.tm.take lvl).flatten (fun l hl' => (hv.loops l (by
      obtain ⟨a, ha, hla⟩ := List.mem_flatten.1 hl'
      exact List.mem_append_left _ (List.mem_flatten.2 ⟨a, List.mem_of_mem_take ha, hla⟩))).2)
    intro h0; rw [h0] at this; norm_num at this
  · push Not at hc
    obtain ⟨h1, h2, rfl⟩ := hc
    refine ⟨c.stationary, ?_, hst⟩
    unfold cycles
    rw [if_pos ⟨by simpa using h1, by simpa using h2⟩]; rfl

theorem sides_ok {t : Tables Dim} {prec : List ℚ} (out : Bool) (hst : c.stationary ≠ 0) {lvl : Nat} (hl : lvl < c.tm.length)
    (l1 : prec.length = c.tm.length + 1) (l2 : t.unrolled.length = c.su.length) (l3 : t.boost.length = c.tm.length) :
    (∃ s, lowSide c t prec out lvl = .ok s) ∧ ∃ s, highSide c t prec out lvl = .ok s := by
  have hlen := hv.levels
  have gu : ∀ i, i ≤ c.tm.length → ∃ d, pyGet t.unrolled i = .ok d := fun i hi => ⟨_, pyGet_ok (List.getElem?_eq_getElem (by omega))⟩
  have gp : ∀ i, i ≤ c.tm.length → ∃ d, pyGet prec i = .ok d := fun i hi => ⟨_, pyGet_ok (List.getElem?_eq_getElem (by omega))⟩
  constructor
  · obtain ⟨d, hd⟩ := gu lvl (by omega)
    obtain ⟨p, hp⟩ := gp lvl (by omega)
    obtain ⟨cy, h1, h2⟩ := cycles_ok hv out hst (lvl := lvl) (by omega)
    obtain ⟨f, hf⟩ : ∃ f, pyGet (t.boost ++ [1]) lvl = .ok f := ⟨_, pyGet_ok (List.getElem?_eq_getElem (by simp; omega))⟩
    unfold lowSide bwLow
    rw [hd, hp, pyGet_ok h1]
    simp only [bind, Except.bind, pyDiv, if_neg h2, hf, fdiv]
    exact ⟨_, rfl⟩
  · obtain ⟨d, hd⟩ := gu (lvl + 1) (by omega)
    obtain ⟨p, hp⟩ := gp (lvl + 1) (by omega)
    obtain ⟨cy, h1, h2⟩ := cycles_ok hv out hst (lvl := lvl + 1) (by omega)
    unfold highSide bwLow
    rw [hd, hp, pyGet_ok h1]
    simp only [bind, Except.bind, pyDiv, if_neg h2, fdiv]
    exact ⟨_, rfl⟩

include hp

/-- C88: for every valid mapping with at least one memory level, read ports, a positive stationary period and positive data sizes, the
data movements of an input operand are computed without exception. -/
theorem input_total (hl : 0 < c.tm.length) (hst : c.stationary ≠ 0) (hbw : ∀ lvl, lvl < c.tm.length → (c.bw lvl).isSome) :
    ∃ ps, inputMoves c = .ok ps ∧ ps.length = c.tm.length := by
  have hlen := hv.levels
  obtain ⟨t, ht, _, l2, l3, l4, l5, l6, l7, _, hun⟩ := hv.tables_ok hp
  have hpat : ∀ lvl ∈ List.range c.tm.length, ∃ p, inputPattern c t lvl = .ok p := by
    intro lvl hlv
    rw [List.mem_range] at hlv
    obtain ⟨m, hm⟩ : ∃ m, inputCounts c t lvl = .ok m := by
      obtain ⟨w, hw⟩ := Option.isSome_iff_exists.1 (hbw lvl hlv)
      have h1 : lvl + 1 < t.unique.length := by omega
      have h2 : lvl < t.elems.length := by omega
      have h3 : lvl < t.raw.length := by omega
      have h4 : lvl + 1 < t.raw2.length := by omega
      have hnb : t.unique[lvl + 1] ≠ 0 := hun _ (List.getElem_mem h1)
      unfold inputCounts
      rw [pyGet_ok (List.getElem?_eq_getElem h1), pyGet_ok (List.getElem?_eq_getElem h2), pyGet_ok (List.getElem?_eq_getElem h3),
        pyGet_ok (List.getElem?_eq_getElem h4)]
      simp only [bind, Except.bind, fdiv, if_neg hnb, hw, pyDiv, if_neg hst]
      split_ifs <;> exact ⟨_, rfl⟩
    obtain ⟨⟨lo, hlo⟩, hi, hhi⟩ := sides_ok hv (t := t) (prec := List.replicate (c.tm.length + 1) c.precision) false hst hlv (by simp) l4 l3
    obtain ⟨i, hi'⟩ := instant_ok hv hlv (inWay lo.bw hi.bw) (inWay lo.period hi.period)
    unfold inputPattern
    simp only [bind, Except.bind, hm, precisions, hlo, hhi, hi']
    exact ⟨_, rfl⟩
  obtain ⟨qs, hqs⟩ := mapM_of hpat
  have hql := (mapM_get hqs).1
  rw [List.length_range] at hql
  have hne : qs ≠ [] := by intro hc; rw [hc] at hql; simp at hql; omega
  unfold inputMoves
  rw [ht]
  simp only [bind, Except.bind, hqs, disableExternal, if_neg hne]
  exact ⟨_, rfl, by simp [hql]⟩

/-- C89: likewise for the output operand. -/
theorem output_total (hl : 0 < c.tm.length) (hst : c.stationary ≠ 0) {s : ℚ} (hs : operandSizeElem c.L c.rel = .ok s) :
    ∃ ps, outputMoves c = .ok ps ∧ ps.length = c.tm.length := by
  have hlen := hv.levels
  obtain ⟨t, ht, l1, l2, l3, l4, l5, l6, l7, l8, hun⟩ := hv.tables_ok hp
  have hfl := psum_length (isIr c) t.ra (by intro hc; rw [hc] at l1; simp at l1; omega)
  have hflag : ∀ i, i ≤ c.tm.length → ∃ b, pyGet (psumFlags (isIr c) t.ra) i = .ok b := fun i hi =>
    ⟨_, pyGet_ok (List.getElem?_eq_getElem (by omega))⟩
  obtain ⟨prec, hprec⟩ : ∃ prec, precisions c (some (psumFlags (isIr c) t.ra)) = .ok prec := by
    apply mapM_of
    intro i hi
    rw [List.mem_range] at hi
    obtain ⟨b, hb⟩ := hflag i (by omega)
    rw [hb]; exact ⟨_, rfl⟩
  have hpl : prec.length = c.tm.length + 1 := by
    have := (mapM_get hprec).1
    rwa [List.length_range] at this
  have hpat : ∀ lvl ∈ List.range c.tm.length, ∃ p, outputPattern c t s lvl = .ok p := by
    intro lvl hlv
    rw [List.mem_range] at hlv
    obtain ⟨m, hm⟩ : ∃ m, outputCounts t s lvl = .ok m := by
      have h1 : lvl < t.raw.length := by omega
      have h2 : lvl + 1 < t.caal.length := by omega
      have h3 : lvl + 1 < t.raw2.length := by omega
      have h4 : lvl + 2 < t.caal.length := by omega
      unfold outputCounts
      rw [pyGet_ok (List.getElem?_eq_getElem h1), pyGet_ok (List.getElem?_eq_getElem h2), pyGet_ok (List.getElem?_eq_getElem h3),
        pyGet_ok (List.getElem?_eq_getElem h4)]
      exact ⟨_, rfl⟩
    obtain ⟨⟨lo, hlo⟩, hi, hhi⟩ := sides_ok hv (t := t) (prec := prec) true hst hlv hpl l4 l3
    obtain ⟨pl, h5⟩ := hflag lvl (by omega)
    obtain ⟨ph, h6⟩ := hflag (lvl + 1) (by omega)
    obtain ⟨i, hi'⟩ := instant_ok hv hlv (outWay pl ph lo.bw hi.bw) (outWay pl ph lo.period hi.period)
    unfold outputPattern
    simp only [bind, Except.bind, hm, hprec, hlo, hhi, h5, h6, hi']
    exact ⟨_, rfl⟩
  obtain ⟨qs, hqs⟩ := mapM_of hpat
  have hql := (mapM_get hqs).1
  rw [List.length_range] at hql
  have hne : qs ≠ [] := by intro hc; rw [hc] at hql; simp at hql; omega
  unfold outputMoves
  rw [ht]
  simp only [bind, Except.bind, hs, hqs, disableExternal, if_neg hne]
  exact ⟨_, rfl, by simp [hql]⟩

end total

/-! ### Concrete mappings -/

/-- The relation `IX = OX + FX` (4 = 2 + 3). -/
def exRels : List (Relation Nat) := [⟨4, 2, 3, 1, 1⟩]

/-- A convolution with dimensions K, C, OX, FX of sizes 8, 4, 4, 3 and six input columns. -/
def exLayer : Layer Nat := ⟨[(0, 8), (1, 4), (2, 4), (3, 3)], extractPr exRels, [(4, 6)]⟩

/-- The input operand (index C, IX) under a mapping with two memory levels. -/
def exI : Cfg Nat :=
  { L := exLayer, rel := ⟨[1], [0], [(4, (2, 3))]⟩, su := [[(1, 2)], [(2, 2), (0, 4)], []], tm := [[(3, 3), (0, 2)], [(2, 2), (1, 2)]]
    stationary := 1, totalCycle := 24, precision := 8, finalPrecision := 8, noAccess := false, bw := fun _ => some 64 }

/-- The weights (index K, C, FX) under the same mapping. -/
def exW : Cfg Nat := { exI with rel := ⟨[0, 1, 3], [2], []⟩ }

/-- The output (index K, OX) under the same mapping. -/
def exO : Cfg Nat := { exI with rel := ⟨[0, 2], [1, 3], []⟩, precision := 16 }

theorem exCover : ∀ d s, exLayer.dimSizes.get? d = some s → extent d (exI.tm.flatten ++ exI.su.flatten) = s := by
  intro d s h
  have hm := Dict.mem_of_get? h
  simp only [exLayer, List.mem_cons, Prod.mk.injEq, List.not_mem_nil, or_false] at hm
  rcases hm with ⟨rfl, rfl⟩ | ⟨rfl, rfl⟩ | ⟨rfl, rfl⟩ | ⟨rfl, rfl⟩ <;> decide +kernel

theorem exI_valid : Valid exI [1, 4] exRels where
  names := by decide
  pi := rfl
  rel := rfl
  index := by decide
  mix := by decide
  vars := by decide
  wf := by unfold Dict.WF; decide
  related := by decide
  dims := by decide
  levels := rfl
  loops := by decide +kernel
  cover := exCover

theorem exW_valid : Valid exW [0, 1, 3] exRels where
  names := by decide
  pi := rfl
  rel := rfl
  index := by decide
  mix := by decide
  vars := by decide
  wf := by unfold Dict.WF; decide
  related := by decide
  dims := by decide
  levels := rfl
  loops := by decide +kernel
  cover := exCover

theorem exO_valid : Valid exO [0, 2] exRels where
  names := by decide
  pi := rfl
  rel := rfl
  index := by decide
  mix := by decide
  vars := by decide
  wf := by unfold Dict.WF; decide
  related := by decide
  dims := by decide
  levels := rfl
  loops := by decide +kernel
  cover := exCover

theorem exI_whole : Whole exI := by
  have h : ∀ l ∈ exI.tm.flatten ++ exI.su.flatten, l.2 = ((l.2.num.natAbs : ℕ) : ℚ) := by decide +kernel
  exact fun l hl => ⟨_, h l hl⟩

theorem exW_whole : Whole exW := exI_whole
theorem exO_whole : Whole exO := exI_whole

/-- Every tile with at least one iteration per loop that is not larger than the layer is exact here. -/
theorem exI_exact (t : Nat → ℕ) (h2 : 1 ≤ t 2 ∧ t 2 ≤ 4) (h3 : 1 ≤ t 3 ∧ t 3 ≤ 3) : Exact exI [1, 4] exRels t := by
  intro r hr _
  simp only [exRels, List.mem_singleton] at hr
  subst hr
  refine ⟨Or.inr (by simpa using h2.1), 6, rfl, ?_⟩
  have hd : ∀ a ≤ 4, ∀ b ≤ 3, 1 ≤ a → 1 ≤ b → distinct 1 a 1 b ≤ 6 := by decide +kernel
  exact_mod_cast hd _ h2.2 _ h3.2 h2.1 h3.1

example : Exact exI [1, 4] exRels (tileOf (inside exI.su exI.tm 1 2)) := by
  have e2 : extent 2 (inside exI.su exI.tm 1 2) = (2 : ℕ) := by decide +kernel
  have e3 : extent 3 (inside exI.su exI.tm 1 2) = (3 : ℕ) := by decide +kernel
  refine exI_exact _ ?_ ?_
  · unfold tileOf; rw [e2, Nat.floor_natCast]; omega
  · unfold tileOf; rw [e3, Nat.floor_natCast]; omega

/-- The patterns of the three operands. -/
def movesOf (r : Except PyErr (List Pattern)) : List (List ℚ) :=
  match r with
  | .ok ps => ps.map (fun p => [p.moves.rdToLow, p.moves.wrByLow, p.moves.rdToHigh, p.moves.wrByHigh])
  | .error _ => []

example : movesOf (inputMoves exI) = [[384, 0, 0, 192], [32, 0, 0, 0]] := by decide +kernel
example : movesOf (inputMoves exW) = [[384, 0, 0, 384], [192, 0, 0, 0]] := by decide +kernel
example : movesOf (outputMoves exO) = [[160, 192, 64, 32], [32, 64, 0, 0]] := by decide +kernel
example : 0 < exI.tm.length ∧ exI.stationary ≠ 0 ∧ exI.totalCycle = iters exI.tm.flatten ∧
    (∀ r ∈ exRels, ∃ m, exI.L.prSizes.get? r.dim1 = some m ∧ 0 < m) := by
  refine ⟨by decide, by decide, by decide +kernel, fun r hr => ?_⟩
  simp only [exRels, List.mem_singleton] at hr
  subst hr
  exact ⟨6, rfl, by norm_num⟩
/-- The output has an irrelevant loop (FX, C) outside its innermost level. -/
example : ∃ l ∈ outside exO.su exO.tm 0 1, l.1 ∉ [0, 2] ∧ 1 < l.2 := ⟨(3, 3), by decide +kernel⟩

/-- The weights of a mapping with stationary weights. -/
def exS : Cfg Nat :=
  { exW with tm := [[(2, 2), (3, 3), (0, 2)], [(1, 2)]], stationary := 2, noAccess := true }

example : exS.bw 0 = some 64 ∧ iters (outside exS.su exS.tm 0 1) = exS.stationary * (96 : ℕ) ∧
    movesOf (inputMoves exS) = [[192, 0, 0, 192], [96, 0, 0, 0]] := by decide +kernel

/-- What `transfer` claims, computably. -/
def transferHolds (r : Except PyErr (List Pattern)) (su : Lv Nat) (lvl : Nat) : Bool :=
  match r with
  | .ok ps => match ps[lvl]? with
    | some p => decide (p.amount.rdToLow * p.periodCount.rdToLow * iters (su.drop (lvl + 1)).flatten = p.moves.rdToLow)
    | none => true
  | .error _ => true

/-- C90: for an operand with a partially relevant dimension the data sent downwards per period, over all periods, need not be the
counted reads: OX is unrolled above the level and FX runs inside, so neighbouring units share input columns; the count of reads knows
that, the amount per period (data of one unit times the relevant unrolling) does not. -/
theorem transfer_false : ∃ (c : Cfg Nat) (rl : List Nat) (rels : List (Relation Nat)), Valid c rl rels ∧ Whole c ∧
    c.totalCycle = iters c.tm.flatten ∧ c.noAccess = false ∧ transferHolds (inputMoves c) c.su 1 = false :=
  ⟨exI, [1, 4], exRels, exI_valid, exI_whole, by decide +kernel, rfl, by decide +kernel⟩

/-- The weights with a port narrower than the data of one cycle. -/
def exN : Cfg Nat := { exS with bw := fun _ => some 4 }

/-- C90: with "same data is no access" and a narrow innermost port, the reads are counted for every cycle while the periods of the
transfer remain those of the stationary data: the two disagree. -/
theorem narrow_false : transferHolds (inputMoves exN) exN.su 0 = false ∧ exN.totalCycle = iters exN.tm.flatten ∧ exN.rel.pr = [] := by
  decide +kernel

/-- What `bandwidth` would claim if the rounded figure sufficed. -/
def bandwidthHolds (r : Except PyErr (List Pattern)) (lvl : Nat) : Bool :=
  match r with
  | .ok ps => match ps[lvl]? with
    | some p => decide (p.amount.wrByHigh * p.precision.wrByHigh ≤ p.bwAver.wrByHigh * p.period.wrByHigh)
    | none => true
  | .error _ => true

/-- The input operand with two output columns per period. -/
def exB : Cfg Nat := { exI with tm := [[(3, 3), (2, 2)], [(0, 2), (1, 2)]] }

theorem exB_valid : Valid exB [1, 4] exRels :=
  { exI_valid with
    levels := rfl
    loops := by decide +kernel
    cover := by
      intro d s h
      have hm := Dict.mem_of_get? h
      simp only [exB, exI, exLayer, List.mem_cons, Prod.mk.injEq, List.not_mem_nil, or_false] at hm
      rcases hm with ⟨rfl, rfl⟩ | ⟨rfl, rfl⟩ | ⟨rfl, rfl⟩ | ⟨rfl, rfl⟩ <;> decide +kernel }

theorem exB_whole : Whole exB := by
  have h : ∀ l ∈ exB.tm.flatten ++ exB.su.flatten, l.2 = ((l.2.num.natAbs : ℕ) : ℚ) := by decide +kernel
  exact fun l hl => ⟨_, h l hl⟩

/-- C90: the reported required bandwidth is rounded down and need not suffice for the data of a period (64 bits in 6 cycles). -/
theorem bandwidth_false : ∃ (c : Cfg Nat) (rl : List Nat) (rels : List (Relation Nat)), Valid c rl rels ∧ Whole c ∧
    bandwidthHolds (inputMoves c) 0 = false :=
  ⟨exB, [1, 4], exRels, exB_valid, exB_whole, by decide +kernel⟩

/-- C87: for an operand with a partially relevant dimension the size reported for a level with all its units counts the elements shared
by neighbouring units several times, and at the outermost level it can exceed the operand. -/
theorem data_all_units_false : ∃ (c : Cfg Nat) (rl : List Nat) (rels : List (Relation Nat)), Valid c rl rels ∧ Whole c ∧
    (match tables c with | .ok t => t.elems[1]? | .error _ => none) = some 12 ∧
    elements rl rels (tileOf ((c.tm.take 1).flatten ++ c.su.flatten)) = 8 := by
  refine ⟨exI, [1, 4], exRels, exI_valid, exI_whole, by decide +kernel, ?_⟩
  have hsub : ∀ l ∈ (exI.tm.take 1).flatten ++ exI.su.flatten, ∃ n : ℕ, l.2 = n := by
    intro l hl
    refine exI_whole l ?_
    rw [List.mem_append] at hl ⊢
    rcases hl with hl | hl
    · obtain ⟨a, ha, hla⟩ := List.mem_flatten.1 hl
      exact Or.inl (List.mem_flatten.2 ⟨a, List.mem_of_mem_take ha, hla⟩)
    · exact Or.inr hl
  have ht := tile_of hsub
  have hpos : ∀ d, 1 ≤ tileOf ((exI.tm.take 1).flatten ++ exI.su.flatten) d := by
    intro d
    have h1 : ∀ l ∈ (exI.tm.take 1).flatten ++ exI.su.flatten, 1 ≤ l.2 := by decide +kernel
    have := extent_pos d _ h1
    rw [ht d] at this
    exact_mod_cast this
  have e1 : tileOf ((exI.tm.take 1).flatten ++ exI.su.flatten) 1 = 2 := by
    have : extent 1 ((exI.tm.take 1).flatten ++ exI.su.flatten) = 2 := by decide +kernel
    rw [ht 1] at this; exact_mod_cast this
  have e2 : tileOf ((exI.tm.take 1).flatten ++ exI.su.flatten) 2 = 2 := by
    have : extent 2 ((exI.tm.take 1).flatten ++ exI.su.flatten) = 2 := by decide +kernel
    rw [ht 2] at this; exact_mod_cast this
  have e3 : tileOf ((exI.tm.take 1).flatten ++ exI.su.flatten) 3 = 3 := by
    have : extent 3 ((exI.tm.take 1).flatten ++ exI.su.flatten) = 3 := by decide +kernel
    rw [ht 3] at this; exact_mod_cast this
  unfold elements
  rw [ncard_touched _ hpos _ (by decide)]
  have hax : [1, 4].map (axisOf exRels) = [.dim 1, .lin 1 2 1 3] := rfl
  rw [hax]
  simp only [List.map_cons, List.map_nil, axisCard, e1, e2, e3]
  decide +kernel

/-- The relation `IX = OX + 2 FX` of a dilated convolution. -/
def exRels2 : List (Relation Nat) := [⟨4, 2, 3, 1, 2⟩]

/-- The input of a dilated convolution with one channel; the kernel loop is inside the innermost memory, the columns outside. -/
def exD : Cfg Nat :=
  { L := ⟨[(2, 4), (3, 3)], extractPr exRels2, [(4, 8)]⟩, rel := ⟨[], [], [(4, (2, 3))]⟩, su := [[], [], []], tm := [[(3, 3)], [(2, 4)]]
    stationary := 1, totalCycle := 12, precision := 8, finalPrecision := 8, noAccess := false, bw := fun _ => some 64 }

theorem exD_valid : Valid exD [4] exRels2 where
  names := by decide
  pi := rfl
  rel := rfl
  index := by decide
  mix := by decide
  vars := by decide
  wf := by unfold Dict.WF; decide
  related := by decide
  dims := by decide
  levels := rfl
  loops := by decide +kernel
  cover := by
    intro d s h
    have hm := Dict.mem_of_get? h
    simp only [exD, List.mem_cons, Prod.mk.injEq, List.not_mem_nil, or_false] at hm
    rcases hm with ⟨rfl, rfl⟩ | ⟨rfl, rfl⟩ <;> decide +kernel

theorem exD_whole : Whole exD := by
  have h : ∀ l ∈ exD.tm.flatten ++ exD.su.flatten, l.2 = ((l.2.num.natAbs : ℕ) : ℚ) := by decide +kernel
  exact fun l hl => ⟨_, h l hl⟩

/-- C88: the accesses of an input operand need not be those of the loop nest: a tile of one output column and a kernel of three with
dilation two has three input columns, which are fetched for each of four output columns; the code counts twenty writes instead of
twelve (the gaps between the columns are fetched as well, see `LayerNode.pr_size_false`). -/
theorem input_traffic_false : ∃ (c : Cfg Nat) (rl : List Nat) (rels : List (Relation Nat)), Valid c rl rels ∧ Whole c ∧
    (movesOf (inputMoves c)).head? = some [12, 0, 0, 20] ∧ fetches c rl rels 1 1 = 12 := by
  refine ⟨exD, [4], exRels2, exD_valid, exD_whole, by decide +kernel, ?_⟩
  have ht : Tile (inside exD.su exD.tm 1 1) (tileOf (inside exD.su exD.tm 1 1)) :=
    tile_of (fun l hl => exD_whole l (inside_sub l hl))
  have hpos : ∀ d, 1 ≤ tileOf (inside exD.su exD.tm 1 1) d := by
    intro d
    have h1 : ∀ l ∈ inside exD.su exD.tm 1 1, 1 ≤ l.2 := by decide +kernel
    have := extent_pos d _ h1
    rw [ht d] at this
    exact_mod_cast this
  have e2 : tileOf (inside exD.su exD.tm 1 1) 2 = 1 := by
    have : extent 2 (inside exD.su exD.tm 1 1) = 1 := by decide +kernel
    rw [ht 2] at this; exact_mod_cast this
  have e3 : tileOf (inside exD.su exD.tm 1 1) 3 = 3 := by
    have : extent 3 (inside exD.su exD.tm 1 1) = 3 := by decide +kernel
    rw [ht 3] at this; exact_mod_cast this
  have ho : iters (outside exD.su exD.tm 1 1) = 4 := by decide +kernel
  have he : elements [4] exRels2 (tileOf (inside exD.su exD.tm 1 1)) = 3 := by
    unfold elements
    rw [ncard_touched _ hpos _ (by decide)]
    have hax : [4].map (axisOf exRels2) = [.lin 1 2 2 3] := rfl
    rw [hax]
    simp only [List.map_cons, List.map_nil, axisCard, e2, e3]
    decide +kernel
  unfold fetches
  rw [ho, he]; norm_num

/-- The output of a product with two outputs of seven terms each; the terms are spread over two units above the second of three
memories, which the conversion of spatial mappings turns into an unrolling of 7/4 and four iterations. -/
def exF : Cfg Nat :=
  { L := ⟨[(0, 2), (1, 7)], extractPr [], []⟩, rel := ⟨[0], [1], []⟩, su := [[], [], [(1, 7 / 4)], []], tm := [[(0, 2), (1, 4)], [], []]
    stationary := 1, totalCycle := 8, precision := 16, finalPrecision := 8, noAccess := false, bw := fun _ => some 64 }

theorem exF_valid : Valid exF [0] [] where
  names := by decide
  pi := rfl
  rel := rfl
  index := by decide
  mix := by decide
  vars := by decide
  wf := by unfold Dict.WF; decide
  related := by decide
  dims := by decide
  levels := rfl
  loops := by decide +kernel
  cover := by
    intro d s h
    have hm := Dict.mem_of_get? h
    simp only [exF, List.mem_cons, Prod.mk.injEq, List.not_mem_nil, or_false] at hm
    rcases hm with ⟨rfl, rfl⟩ | ⟨rfl, rfl⟩ <;> decide +kernel

/-- C89: with a fractional unrolling (seven terms on two units are an unrolling of 7/4) the writes are rounded and the partial sums read
back are rounded down: the middle memory is written four times and read back once although there are two output elements, so an
element too many is finalised. -/
theorem output_traffic_false : ∃ (c : Cfg Nat) (rl : List Nat), Valid c rl [] ∧
    movesOf (outputMoves c) = [[12, 14, 4, 1], [1, 4, 4, 0], [0, 2, 0, 0]] ∧ full c rl [] = 2 := by
  refine ⟨exF, [0], exF_valid, by decide +kernel, ?_⟩
  have e0 : tileOf (exF.tm.flatten ++ exF.su.flatten) 0 = 2 := by
    have : extent 0 (exF.tm.flatten ++ exF.su.flatten) = 2 := by decide +kernel
    unfold tileOf; rw [this]; norm_num
  have hpos : ∀ d, 1 ≤ tileOf (exF.tm.flatten ++ exF.su.flatten) d := by
    intro d
    have h1 : ∀ l ∈ exF.tm.flatten ++ exF.su.flatten, 1 ≤ l.2 := by decide +kernel
    have := extent_pos d _ h1
    unfold tileOf
    exact Nat.le_floor (by exact_mod_cast this)
  unfold full elements
  rw [ncard_touched _ hpos _ (by decide)]
  have hax : [0].map (axisOf ([] : List (Relation Nat))) = [.dim 0] := rfl
  rw [hax]
  simp only [List.map_cons, List.map_nil, axisCard, e0]
  decide +kernel

end Verif.MapInfo
