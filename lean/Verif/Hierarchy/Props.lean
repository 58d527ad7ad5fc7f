import Verif.Hierarchy.Lemmas
import Verif.Buffer.Props
import Mathlib.Data.Nat.Find

/-! Properties of memory hierarchies: C38 (numbering of levels), C39 (levels listed inner to outer), C40 (number of instances),
C67 (innermost and outermost memories), C68 (sharing list). -/

namespace Verif.Hierarchy

variable {Op : Type} [DecidableEq Op]

/-- C38: whatever memories are added, the level recorded for an operand in the `k`-th memory is the number of earlier memories that store it; nothing is
recorded for other operands. -/
theorem level_numbering (mems : List (List Op)) (k : Nat) (ops : List Op) (hk : mems[k]? = some ops) (op : Op) :
    ∃ m, (build mems).nodes[k]? = some m ∧ m.id = k ∧ m.operands = ops ∧
      m.levels.get? op = if op ∈ ops then some ((mems.take k).filter fun l => decide (op ∈ l)).length else none := by
  have hops := operands_build mems
  have hi := inv_build mems
  have hl := length_build mems
  obtain ⟨hk1, hk2⟩ := List.getElem?_eq_some_iff.1 hk
  have hkn : k < (build mems).nodes.length := by omega
  refine ⟨(build mems).nodes[k], List.getElem?_eq_getElem hkn, hi.ids k _ (List.getElem?_eq_getElem hkn), ?_, ?_⟩
  · have : ((build mems).nodes.map Mem.operands)[k]? = some ops := by rw [hops]; exact hk
    rw [List.getElem?_map, List.getElem?_eq_getElem hkn] at this
    simpa using this
  · have ho : (build mems).nodes[k].operands = ops := by
      have : ((build mems).nodes.map Mem.operands)[k]? = some ops := by rw [hops]; exact hk
      rw [List.getElem?_map, List.getElem?_eq_getElem hkn] at this
      simpa using this
    rw [hi.lv k _ (List.getElem?_eq_getElem hkn) op, ho, storing_length, List.map_take, hops]

/-- C38: the recorded number of levels of an operand is the number of memories that store it (when no memory lists an operand twice). -/
theorem number_of_levels (mems : List (List Op)) (hn : ∀ l ∈ mems, l.Nodup) (op : Op) :
    (build mems).nb.get? op = if (∃ l ∈ mems, op ∈ l) then some (mems.filter fun l => decide (op ∈ l)).length else none := by
  rw [nb_build mems hn op, storing_length, operands_build]
  have hiff : storing (build mems).nodes op = [] ↔ ¬ ∃ l ∈ mems, op ∈ l := by
    rw [← List.length_eq_zero_iff, storing_length, operands_build, List.length_eq_zero_iff, List.filter_eq_nil_iff]
    push Not
    simp
  by_cases h : storing (build mems).nodes op = []
  · rw [if_pos h, if_neg (hiff.1 h)]
  · rw [if_neg h, if_pos (by by_contra hc; exact h (hiff.2 hc))]

/-- A memory that lists an operand twice is counted as two levels of that operand: `Nodup` above is needed. -/
theorem number_of_levels_false : (build [["I1", "I1"]]).nb.get? "I1" = some 2 := by decide +kernel

/-! ### C39 -/

/-- Except for its outermost memory, the memories of `op` have growing 'largest level over all operands'. -/
def Aligned (h : Hier Op) (op : Op) : Prop :=
  ∀ (i j l : Nat) (a b c : Mem Op), i < j → j < l → h.nodes[i]? = some a → h.nodes[j]? = some b → h.nodes[l]? = some c →
    op ∈ a.operands → op ∈ b.operands → op ∈ c.operands → a.maxLevel ≤ b.maxLevel

private def Stores (h : Hier Op) (op : Op) (i : Nat) : Prop := ∃ m, h.nodes[i]? = some m ∧ op ∈ m.operands

private def Before (order : List Nat) (u v : Nat) : Prop := ∀ pre post, order = pre ++ v :: post → u ∈ pre

private theorem Before.trans {order : List Nat} {u v w : Nat} (h1 : Before order u v) (h2 : Before order v w) : Before order u w := by
  intro pre post heq
  have hv := h2 pre post heq
  obtain ⟨p1, p2, rfl⟩ := List.append_of_mem hv
  have := h1 p1 (p2 ++ w :: post) (by rw [heq]; simp)
  exact List.mem_append_left _ this

private theorem chain {h : Hier Op} (hi : HInv h) {op : Op} (ha : Aligned h op) {order : List Nat}
    (ht : Topo.IsTopo (h.nodes.map Mem.id) h.edges order) (j : Nat) : ∀ i, i < j → Stores h op i → Stores h op j → Before order i j := by
  classical
  induction j using Nat.strong_induction_on with
  | _ j ih =>
    intro i hij hsi hsj
    obtain ⟨mj, hj, hjo⟩ := hsj
    set k := Nat.findGreatest (Stores h op) (j - 1) with hk
    have hks : Stores h op k := Nat.findGreatest_spec (P := Stores h op) (m := i) (by omega) hsi
    have hik : i ≤ k := Nat.le_findGreatest (by omega) hsi
    have hkj : k < j := by
      have := Nat.findGreatest_le (P := Stores h op) (j - 1)
      omega
    have hgr : ∀ l, k < l → l ≤ j - 1 → ¬ Stores h op l := fun l h1 h2 => Nat.findGreatest_is_greatest h1 h2
    obtain ⟨mk, hmk, hko⟩ := hks
    have hedge : (k, j) ∈ h.edges := by
      refine (hi.edges k j).2 ⟨mk, mj, hmk, hj, hkj, op, hjo, ?_⟩
      rw [mem_operatorTop]
      have hmem : mk ∈ h.nodes.take j := by
        apply List.mem_of_getElem? (i := k)
        rw [List.getElem?_take_of_lt hkj]; exact hmk
      refine ⟨mem_storing.2 ⟨hmem, hko⟩, fun m' hm' => ?_⟩
      obtain ⟨h1, h2⟩ := mem_storing.1 hm'
      obtain ⟨l, hl'⟩ := List.mem_iff_getElem?.1 h1
      have hl : l < j := by
        by_contra hc
        rw [List.getElem?_eq_none (by rw [List.length_take]; omega)] at hl'
        cases hl'
      rw [List.getElem?_take_of_lt hl] at hl'
      have hlk : l ≤ k := by
        by_contra hc
        exact hgr l (by omega) (by omega) ⟨m', hl', h2⟩
      rcases Nat.lt_or_ge l k with hlt | hge
      · exact ha l k j m' mk mj hlt hkj hl' hmk hj h2 hko hjo
      · have : l = k := by omega
        subst this
        rw [hmk] at hl'
        cases hl'
        exact le_rfl
    have hb : Before order k j := fun pre post heq => ht.2 pre j post heq k hedge
    rcases Nat.lt_or_ge i k with hlt | hge
    · exact (ih k hkj i hlt hsi ⟨mk, hmk, hko⟩).trans hb
    · have : i = k := by omega
      rw [this]; exact hb

private theorem range_filterMap (nodes : List (Mem Op)) : (List.range nodes.length).filterMap (fun i => nodes[i]?) = nodes := by
  induction nodes using List.reverseRecOn with
  | nil => rfl
  | append_singleton l x ih =>
    rw [List.length_append, List.length_singleton, List.range_succ, List.filterMap_append]
    have : (List.range l.length).filterMap (fun i => (l ++ [x])[i]?) = (List.range l.length).filterMap (fun i => l[i]?) := by
      apply List.filterMap_congr
      intro i hi
      exact List.getElem?_append_left (List.mem_range.1 hi)
    rw [this, ih]
    simp

private theorem filter_getElem? {α : Type} (p : α → Bool) (l : List α) (k : Nat) (m : α) (h : (l.filter p)[k]? = some m) :
    ∃ j, l[j]? = some m ∧ ((l.take j).filter p).length = k := by
  induction l generalizing k with
  | nil => simp at h
  | cons x l ih =>
    by_cases hx : p x = true
    · rw [List.filter_cons_of_pos hx] at h
      cases k with
      | zero => exact ⟨0, by simpa using h, by simp⟩
      | succ k =>
        obtain ⟨j, h1, h2⟩ := ih k (by simpa using h)
        exact ⟨j + 1, by simpa using h1, by rw [List.take_succ_cons, List.filter_cons_of_pos hx, List.length_cons, h2]⟩
    · rw [List.filter_cons_of_neg hx] at h
      obtain ⟨j, h1, h2⟩ := ih k h
      exact ⟨j + 1, by simpa using h1, by rw [List.take_succ_cons, List.filter_cons_of_neg hx, h2]⟩

/-- The `k`-th memory that stores the operand is at level `k` for it. -/
theorem storing_level {h : Hier Op} (hi : HInv h) (op : Op) (k : Nat) (m : Mem Op) (hm : (storing h.nodes op)[k]? = some m) :
    m.levels.get? op = some k := by
  obtain ⟨j, h1, h2⟩ := filter_getElem? _ _ _ _ hm
  have ho := (mem_storing.1 (List.mem_of_getElem? hm)).2
  rw [hi.lv j m h1 op, if_pos ho]
  exact congrArg some h2

/-- Whether memory `i` stores the operand. -/
private def storesB (h : Hier Op) (op : Op) (i : Nat) : Bool := ((h.nodes[i]?).map fun m => decide (op ∈ m.operands)).getD false

private theorem storesB_iff {h : Hier Op} {op : Op} {i : Nat} : storesB h op i = true ↔ Stores h op i := by
  unfold storesB Stores
  cases h.nodes[i]? with
  | none => simp
  | some m => simp

private theorem storing_filterMap (h : Hier Op) (op : Op) (l : List Nat) :
    storing (l.filterMap fun i => h.nodes[i]?) op = (l.filter (storesB h op)).filterMap fun i => h.nodes[i]? := by
  induction l with
  | nil => rfl
  | cons i l ih =>
    unfold storing at ih ⊢
    by_cases hs : storesB h op i = true
    · obtain ⟨m, hm, ho⟩ := storesB_iff.1 hs
      rw [List.filter_cons_of_pos hs, List.filterMap_cons_some hm, List.filterMap_cons_some hm, List.filter_cons_of_pos (by simpa using ho), ih]
    · rw [List.filter_cons_of_neg hs, ← ih]
      cases hm : h.nodes[i]? with
      | none => rw [List.filterMap_cons_none hm]
      | some m =>
        have : op ∉ m.operands := fun hc => hs (storesB_iff.2 ⟨m, hm, hc⟩)
        rw [List.filterMap_cons_some hm, List.filter_cons_of_neg (by simpa using this)]

/-- C39, partial: when the hierarchy is aligned for the operand, its memories are listed in the order of their levels: the `k`-th one in the list is at
level `k`, and all of them are listed.  Missing: hierarchies that are not aligned, for which the listing can be wrong (`levels_order_false`). -/
theorem levels_order_partial (mems : List (List Op)) (op : Op) (ha : Aligned (build mems) op) :
    ∃ l, memoryLevels (build mems) op = .ok l ∧ l.length = (mems.filter fun o => decide (op ∈ o)).length ∧
      ∀ (k : Nat) (m : Mem Op), l[k]? = some m → m ∈ (build mems).nodes ∧ m.levels.get? op = some k := by
  have hi := inv_build mems
  obtain ⟨order, ho, ht⟩ := topoSort_build mems
  have hperm := ht.1
  rw [ids_eq_range hi] at hperm
  have hnd : order.Nodup := hperm.nodup_iff.2 List.nodup_range
  have hsorted : (order.filter (storesB (build mems) op)).Pairwise (· < ·) := by
    rw [List.pairwise_filter, List.pairwise_iff_getElem]
    intro i j hil hjl hij h1 h2
    by_contra hc
    have hne : order[i] ≠ order[j] := fun he => by
      have := (List.Nodup.getElem_inj_iff hnd).1 he
      omega
    have hb := chain hi ha ht (order[i]) (order[j]) (by omega) (storesB_iff.1 h2) (storesB_iff.1 h1)
    have hm := hb (order.take i) (order.drop (i + 1)) (by simp)
    obtain ⟨k, hk, hk'⟩ := List.mem_iff_getElem.1 hm
    rw [List.getElem_take] at hk'
    rw [List.length_take] at hk
    have := (List.Nodup.getElem_inj_iff hnd).1 hk'
    omega
  have heq : order.filter (storesB (build mems) op) = (List.range (build mems).nodes.length).filter (storesB (build mems) op) := by
    refine List.Perm.eq_of_pairwise' (r := (· < ·)) hsorted (List.Pairwise.filter _ List.pairwise_lt_range) (hperm.filter _)
  have hl : storing (order.filterMap fun i => (build mems).nodes[i]?) op = storing (build mems).nodes op := by
    rw [storing_filterMap, heq, ← storing_filterMap, range_filterMap]
  refine ⟨storing (build mems).nodes op, ?_, ?_, ?_⟩
  · unfold memoryLevels
    rw [ho]
    simp only [hl]
  · rw [storing_length, operands_build]
  · intro k m hm
    exact ⟨(mem_storing.1 (List.mem_of_getElem? hm)).1, storing_level hi op k m hm⟩

/-- Operands with at most two levels are always listed in order. -/
theorem aligned_of_two (mems : List (List Op)) (op : Op) (h2 : (mems.filter fun o => decide (op ∈ o)).length ≤ 2) : Aligned (build mems) op := by
  intro i j l a b c hij hjl ha hb hc ho1 ho2 ho3
  exfalso
  have hi := inv_build mems
  have h1 := level_lt hi ha hb hij ho1
  have h3 := level_lt hi hb hc hjl ho2
  have h4 : (storing ((build mems).nodes.take l) op).length < (storing (build mems).nodes op).length := by
    obtain ⟨hl, hl'⟩ := List.getElem?_eq_some_iff.1 hc
    conv_rhs => rw [← List.take_append_drop l (build mems).nodes]
    unfold storing
    rw [List.filter_append, List.length_append]
    have : c ∈ ((build mems).nodes.drop l).filter fun m => decide (op ∈ m.operands) := by
      rw [List.mem_filter]
      refine ⟨List.mem_of_getElem? (i := 0) ?_, by simpa using ho3⟩
      rw [List.getElem?_drop]; simpa using hc
    have := List.length_pos_of_mem this
    omega
  rw [storing_length (build mems).nodes, operands_build] at h4
  omega

/-- Hierarchies in which every memory is at the same level for all its operands are aligned. -/
theorem aligned_of_uniform (mems : List (List Op)) (h : ∀ m ∈ (build mems).nodes, ∀ e ∈ m.levels, ∀ e' ∈ m.levels, e.2 = e'.2) (op : Op) :
    Aligned (build mems) op := by
  intro i j l a b c hij hjl ha hb hc ho1 ho2 ho3
  have hi := inv_build mems
  have hmax : ∀ (k : Nat) (m : Mem Op), (build mems).nodes[k]? = some m → op ∈ m.operands →
      m.maxLevel = (storing ((build mems).nodes.take k) op).length := by
    intro k m hm ho
    have hlv := hi.lv k m hm op
    rw [if_pos ho] at hlv
    have hmem := Dict.mem_of_get? hlv
    unfold Mem.maxLevel
    refine le_antisymm ?_ ((foldl_max_ge _ 0).2 _ (List.mem_map.2 ⟨_, hmem, rfl⟩))
    rcases foldl_max_mem (m.levels.map Prod.snd) 0 with h0 | h0
    · rw [h0]; exact Nat.zero_le _
    · obtain ⟨e, he, he'⟩ := List.mem_map.1 h0
      rw [← he', h m (List.mem_of_getElem? hm) e he _ hmem]
  rw [hmax i a ha ho1, hmax j b hb ho2]
  exact (level_lt hi ha hb hij ho1).le

/-- C39 is false in general: here the memory at level 2 of `I1` is listed before the one at level 1. -/
theorem levels_order_false : ∃ (mems : List (List String)) (l : List (Mem String)), (∀ o ∈ mems, o.Nodup ∧ o ≠ []) ∧
    memoryLevels (build mems) "I1" = .ok l ∧ l.map (fun m => m.levels.get? "I1") = [some 0, some 2, some 1] := by
  have h : (match memoryLevels (build [["I2"], ["I2"], ["I1", "I2"], ["I2"], ["O", "I2"], ["I1", "O"], ["I1"]]) "I1" with
      | .ok l => decide (l.map (fun m => m.levels.get? "I1") = [some 0, some 2, some 1]) | .error _ => false) = true := by decide +kernel
  cases hl : memoryLevels (build [["I2"], ["I2"], ["I1", "I2"], ["I2"], ["O", "I2"], ["I1", "O"], ["I1"]]) "I1" with
  | error e => rw [hl] at h; cases h
  | ok l =>
    rw [hl] at h
    exact ⟨_, l, by decide, hl, by simpa using h⟩

/-- C39: the outermost memory of an operand is found whatever the shape of the hierarchy. -/
theorem operand_top (mems : List (List Op)) (hn : ∀ l ∈ mems, l.Nodup) (op : Op) (ho : ∃ l ∈ mems, op ∈ l) :
    ∃ m, operandTop (build mems) op = .ok m ∧ (storing (build mems).nodes op).getLast? = some m := by
  have hi := inv_build mems
  have hs : storing (build mems).nodes op ≠ [] := by
    intro hc
    have := congrArg List.length hc
    rw [storing_length, operands_build, List.length_nil, List.length_eq_zero_iff, List.filter_eq_nil_iff] at this
    obtain ⟨l, h1, h2⟩ := ho
    exact this l h1 (by simpa using h2)
  set last := (storing (build mems).nodes op).getLast hs with hlast
  have hll : (storing (build mems).nodes op)[(storing (build mems).nodes op).length - 1]? = some last := by
    rw [← List.getLast?_eq_getElem?, List.getLast?_eq_getLast_of_ne_nil hs]
  have hlv := storing_level hi op _ _ hll
  refine ⟨last, ?_, List.getLast?_eq_getLast_of_ne_nil hs⟩
  unfold operandTop
  rw [nb_build mems hn op, if_neg hs]
  simp only
  have hfind : (build mems).nodes.reverse.find? (fun m => decide (m.levels.get? op = some ((storing (build mems).nodes op).length - 1))) = some last := by
    cases hf : (build mems).nodes.reverse.find? (fun m => decide (m.levels.get? op = some ((storing (build mems).nodes op).length - 1))) with
    | none =>
      rw [List.find?_eq_none] at hf
      have := hf last (List.mem_reverse.2 (mem_storing.1 (List.getLast_mem hs)).1)
      exact absurd (by simpa using hlv) this
    | some m =>
      have h1 := List.find?_some hf
      simp only [decide_eq_true_eq] at h1
      have h2 := List.mem_reverse.1 (List.mem_of_find?_eq_some hf)
      obtain ⟨i, hi', him⟩ := List.mem_iff_getElem.1 h2
      have hmo : op ∈ m.operands := by
        by_contra hc
        have := hi.lv i m (by rw [List.getElem?_eq_getElem hi', him]) op
        rw [if_neg hc, h1] at this
        cases this
      obtain ⟨k, hk, hkm⟩ := List.mem_iff_getElem.1 (mem_storing.2 ⟨h2, hmo⟩)
      have h3 := storing_level hi op k m (by rw [List.getElem?_eq_getElem hk, hkm])
      rw [h1] at h3
      have h4 : k = (storing (build mems).nodes op).length - 1 := by simpa using h3.symm
      rw [← hkm]
      congr 1
      rw [hlast, List.getLast_eq_getElem]
      congr 1
  rw [hfind]

/-! ### C40 -/

/-- C40: the number of instances of a memory times the array it serves is the whole array. -/
theorem unroll_total {Dim : Type} [DecidableEq Dim] (sizes : Dict Dim Nat) (served : List Dim) :
    unrollCount sizes served * ((sizes.filter fun d => decide (d.1 ∈ served)).map Prod.snd).prod = totalUnits sizes := by
  unfold unrollCount totalUnits
  induction sizes with
  | nil => rfl
  | cons d t ih =>
    by_cases hd : d.1 ∈ served
    · simp only [List.filter_cons, hd, not_true_eq_false, decide_false, decide_true, if_true, if_false, List.map_cons, List.prod_cons,
        Bool.false_eq_true]
      rw [← ih]; ring
    · simp only [List.filter_cons, hd, not_false_eq_true, decide_false, decide_true, if_true, if_false, List.map_cons, List.prod_cons,
        Bool.false_eq_true]
      rw [← ih]; ring

/-- C40: a memory that serves all array dimensions exists once, one that serves none exists once for each unit. -/
theorem unroll_extremes {Dim : Type} [DecidableEq Dim] (sizes : Dict Dim Nat) :
    unrollCount sizes sizes.keys = 1 ∧ unrollCount sizes [] = totalUnits sizes := by
  constructor
  · unfold unrollCount
    rw [List.filter_eq_nil_iff.2 ?_]
    · rfl
    · intro d hd
      have : d.1 ∈ Dict.keys sizes := List.mem_map.2 ⟨d, hd, rfl⟩
      simpa using this
  · simp [unrollCount, totalUnits]

/-! ### C67 -/

/-- C67, partial: a memory is reported as innermost exactly when it is at the lowest level for all the operands it stores.  Missing: the innermost memory
of one operand that is at a higher level for another one is not reported (`inner_memories_false`). -/
theorem inner_memories_partial (mems : List (List Op)) (k : Nat) (m : Mem Op) (hm : (build mems).nodes[k]? = some m) :
    m ∈ innerMemories (build mems) ↔ ∀ op ∈ m.operands, m.levels.get? op = some 0 := by
  have hi := inv_build mems
  have hid := hi.ids k m hm
  have hk := (List.getElem?_eq_some_iff.1 hm).1
  unfold innerMemories
  simp only [List.mem_filter, decide_eq_true_eq]
  constructor
  · rintro ⟨-, h⟩ op ho
    rw [hi.lv k m hm op, if_pos ho]
    by_contra hc
    have hs : storing ((build mems).nodes.take k) op ≠ [] := fun h0 => hc (by rw [h0]; rfl)
    obtain ⟨a, ha⟩ := List.exists_mem_of_ne_nil _ (operatorTop_ne_nil hs)
    obtain ⟨i, hi1⟩ := List.mem_iff_getElem?.1 (operatorTop_mem ha)
    have hik : i < k := by
      by_contra hc2
      rw [List.getElem?_eq_none (by rw [List.length_take]; omega)] at hi1
      cases hi1
    rw [List.getElem?_take_of_lt hik] at hi1
    have := (hi.edges i k).2 ⟨a, m, hi1, hm, hik, op, ho, ha⟩
    exact h _ this hid.symm
  · intro h
    refine ⟨List.mem_of_getElem? hm, fun e he hc => ?_⟩
    obtain ⟨a, b, h1, h2, h3, op, h4, h5⟩ := (hi.edges e.1 e.2).1 he
    rw [hc, hid] at h2 h5
    rw [hm] at h2
    cases h2
    have := h op h4
    rw [hi.lv k m hm op, if_pos h4] at this
    have h6 : storing ((build mems).nodes.take k) op = [] := List.length_eq_zero_iff.1 (by simpa using this)
    have := (mem_operatorTop.1 h5).1
    rw [h6] at this
    cases this

/-- C67 is false in general: the only memory of the outputs is not reported because it also holds the second level of another operand. -/
theorem inner_memories_false : ∃ mems : List (List String), (∃ o ∈ mems, "O" ∈ o) ∧ ∀ m ∈ innerMemories (build mems), "O" ∉ m.operands :=
  ⟨[["I1"], ["I1", "O"]], by decide, by decide +kernel⟩

/-- C67, outermost memories: the outermost memory of an operand can be missing, and a memory that is not the outermost one of any operand can be
reported. -/
theorem outer_memories_false :
    (∃ mems : List (List String), (∃ o ∈ mems, "O" ∈ o) ∧ ∀ m ∈ outerMemories (build mems), "O" ∉ m.operands) ∧
    (∃ mems : List (List String), ∃ m ∈ outerMemories (build mems), ∀ op ∈ m.operands, ∃ m' ∈ (build mems).nodes, m.id < m'.id ∧ op ∈ m'.operands) :=
  ⟨⟨[["I1", "O"], ["I1"]], by decide, by decide +kernel⟩,
   ⟨[["I2"], ["I2"], ["I1", "I2"], ["I2"], ["O", "I2"], ["I1"], ["I1"], ["O", "I1"]], by decide +kernel⟩⟩

/-! ### C68 -/

private theorem place_unique {h : Hier Op} (hi : HInv h) {m m' : Mem Op} (hm : m ∈ h.nodes) (hm' : m' ∈ h.nodes) {op : Op} {k : Nat}
    (h1 : m.levels.get? op = some k) (h2 : m'.levels.get? op = some k) : m = m' := by
  obtain ⟨i, hi1⟩ := List.mem_iff_getElem?.1 hm
  obtain ⟨j, hj1⟩ := List.mem_iff_getElem?.1 hm'
  have a1 := hi.lv i m hi1 op
  have a2 := hi.lv j m' hj1 op
  have o1 : op ∈ m.operands := by
    by_contra hc; rw [if_neg hc, h1] at a1; cases a1
  have o2 : op ∈ m'.operands := by
    by_contra hc; rw [if_neg hc, h2] at a2; cases a2
  rw [if_pos o1, h1] at a1
  rw [if_pos o2, h2] at a2
  simp only [Option.some.injEq] at a1 a2
  rcases Nat.lt_trichotomy i j with hc | hc | hc
  · have := level_lt hi hi1 hj1 hc o1; omega
  · subst hc; rw [hi1] at hj1; exact Option.some.inj hj1
  · have := level_lt hi hj1 hi1 hc o2; omega

private theorem share_fold {h : Hier Op} (hi : HInv h) (v : List (Mem Op)) (hv : ∀ m ∈ v, m ∈ h.nodes) (acc : List (Dict Op Nat))
    (ha : ∀ t ∈ acc, ∃ m ∈ h.nodes, t = m.levels ∧ 1 < t.length) (hd : Buffer.Disjoint acc) :
    Buffer.Disjoint (v.foldl shareStep acc) ∧ ∀ t, t ∈ v.foldl shareStep acc ↔ t ∈ acc ∨ ∃ m ∈ v, t = m.levels ∧ 1 < t.length := by
  induction v generalizing acc with
  | nil => simpa using hd
  | cons m v ih =>
    have hm := hv m (List.mem_cons_self ..)
    have hv' : ∀ m ∈ v, m ∈ h.nodes := fun m hm => hv m (List.mem_cons_of_mem _ hm)
    rw [List.foldl_cons]
    by_cases h1 : 1 < m.levels.length
    · by_cases h2 : acc.any (sameTable m.levels) = true
      · have hs : shareStep acc m = acc := by unfold shareStep; rw [if_neg (by rintro ⟨-, h⟩; exact h h2)]
        rw [hs]
        obtain ⟨d, e⟩ := ih hv' acc ha hd
        refine ⟨d, fun t => (e t).trans ?_⟩
        constructor
        · rintro (h | ⟨m', h, h'⟩)
          · exact .inl h
          · exact .inr ⟨m', List.mem_cons_of_mem _ h, h'⟩
        · rintro (h | ⟨m', h, h'⟩)
          · exact .inl h
          · rcases List.mem_cons.1 h with rfl | h
            · left
              obtain ⟨t', ht', hst⟩ := List.any_eq_true.1 h2
              obtain ⟨m2, hm2, rfl, -⟩ := ha t' ht'
              simp only [sameTable, decide_eq_true_eq] at hst
              obtain ⟨e0, he0⟩ := List.exists_mem_of_length_pos (l := m'.levels) (by omega)
              have := place_unique hi hm hm2 (Dict.get?_of_mem (hi.wf _ hm) he0) (hst.2 e0 he0)
              rw [h'.1, this]; exact ht'
            · exact .inr ⟨m', h, h'⟩
      · have hs : shareStep acc m = acc ++ [m.levels] := by unfold shareStep; rw [if_pos ⟨h1, h2⟩]
        rw [hs]
        have hdis : Buffer.Disjoint (acc ++ [m.levels]) := by
          unfold Buffer.Disjoint
          rw [List.pairwise_append]
          refine ⟨hd, List.pairwise_singleton _ _, ?_⟩
          intro t ht t' ht' p hp hp'
          rw [List.mem_singleton] at ht'
          subst ht'
          obtain ⟨m2, hm2, rfl, -⟩ := ha t ht
          have := place_unique hi hm2 hm (Dict.get?_of_mem (hi.wf _ hm2) hp) (Dict.get?_of_mem (hi.wf _ hm) hp')
          subst this
          apply h2
          refine List.any_eq_true.2 ⟨_, ht, ?_⟩
          simp only [sameTable, decide_eq_true_eq]
          exact ⟨trivial, fun e he => Dict.get?_of_mem (hi.wf _ hm) he⟩
        obtain ⟨d, e⟩ := ih hv' (acc ++ [m.levels]) (by
          intro t ht
          rcases List.mem_append.1 ht with ht | ht
          · exact ha t ht
          · rw [List.mem_singleton] at ht; subst ht; exact ⟨m, hm, rfl, h1⟩) hdis
        refine ⟨d, fun t => (e t).trans ?_⟩
        constructor
        · rintro (h | ⟨m', h, h'⟩)
          · rcases List.mem_append.1 h with h | h
            · exact .inl h
            · rw [List.mem_singleton] at h; subst h; exact .inr ⟨m, List.mem_cons_self .., rfl, h1⟩
          · exact .inr ⟨m', List.mem_cons_of_mem _ h, h'⟩
        · rintro (h | ⟨m', h, h'⟩)
          · exact .inl (List.mem_append_left _ h)
          · rcases List.mem_cons.1 h with rfl | h
            · left; rw [h'.1]; simp
            · exact .inr ⟨m', h, h'⟩
    · have hs : shareStep acc m = acc := by unfold shareStep; rw [if_neg (by rintro ⟨h, -⟩; exact h1 h)]
      rw [hs]
      obtain ⟨d, e⟩ := ih hv' acc ha hd
      refine ⟨d, fun t => (e t).trans ?_⟩
      constructor
      · rintro (h | ⟨m', h, h'⟩)
        · exact .inl h
        · exact .inr ⟨m', List.mem_cons_of_mem _ h, h'⟩
      · rintro (h | ⟨m', h, h'⟩)
        · exact .inl h
        · rcases List.mem_cons.1 h with rfl | h
          · exact absurd (h'.1 ▸ h'.2) h1
          · exact .inr ⟨m', h, h'⟩

/-- C68: the sharing list of an accelerator holds exactly the level tables of the memories that store several operands, and no (operand, level) pair is in
two of them, so the assumption on shared memories made in the stall computation (C62) always holds. -/
theorem sharing_list (mems : List (List Op)) (hn : ∀ l ∈ mems, l.Nodup) :
    ∃ L, sharingList (build mems) = .ok L ∧ Buffer.Disjoint L ∧ (∀ t ∈ L, t.Nodup) ∧
      ∀ t, t ∈ L ↔ ∃ m ∈ (build mems).nodes, t = m.levels ∧ 1 < t.length := by
  have hi := inv_build mems
  obtain ⟨order, ho, ht⟩ := topoSort_build mems
  have hperm := ht.1
  rw [ids_eq_range hi] at hperm
  have hmem : ∀ m, m ∈ order.filterMap (fun i => (build mems).nodes[i]?) ↔ m ∈ (build mems).nodes := by
    intro m
    rw [(hperm.filterMap _).mem_iff, range_filterMap]
  have hsub : ∀ m ∈ (build mems).nb.keys.flatMap (fun op => storing (order.filterMap fun i => (build mems).nodes[i]?) op), m ∈ (build mems).nodes := by
    intro m hm
    obtain ⟨op, -, h2⟩ := List.mem_flatMap.1 hm
    exact (hmem m).1 (mem_storing.1 h2).1
  obtain ⟨hd, he⟩ := share_fold hi _ hsub [] (by simp) List.Pairwise.nil
  have hall : ∀ t, t ∈ ((build mems).nb.keys.flatMap fun op => storing (order.filterMap fun i => (build mems).nodes[i]?) op).foldl shareStep [] ↔
      ∃ m ∈ (build mems).nodes, t = m.levels ∧ 1 < t.length := by
    intro t
    rw [he t]
    constructor
    · rintro (h | ⟨m, hm, h⟩)
      · cases h
      · exact ⟨m, hsub m hm, h⟩
    · rintro ⟨m, hm, h, hlen⟩
      right
      refine ⟨m, ?_, h, hlen⟩
      obtain ⟨e, hee⟩ := List.exists_mem_of_length_pos (l := m.levels) (by rw [← h]; omega)
      have hg := Dict.get?_of_mem (hi.wf _ hm) hee
      obtain ⟨i, hi1⟩ := List.mem_iff_getElem?.1 hm
      have hop : e.1 ∈ m.operands := by
        by_contra hc
        have := hi.lv i m hi1 e.1
        rw [if_neg hc, hg] at this
        cases this
      have hst : m ∈ storing (build mems).nodes e.1 := mem_storing.2 ⟨hm, hop⟩
      refine List.mem_flatMap.2 ⟨e.1, ?_, mem_storing.2 ⟨(hmem m).2 hm, hop⟩⟩
      have hnb := nb_build mems hn e.1
      rw [if_neg (List.ne_nil_of_mem hst)] at hnb
      exact List.mem_map.2 ⟨_, Dict.mem_of_get? hnb, rfl⟩
  refine ⟨_, ?_, hd, ?_, hall⟩
  · unfold sharingList
    rw [ho]
  · intro t ht
    obtain ⟨m, hm, h, -⟩ := (hall t).1 ht
    rw [h]
    exact List.Nodup.of_map _ (hi.wf m hm)

/-! ### Concrete cases -/

/-- A usual hierarchy: registers, a shared buffer for inputs and outputs, a weight buffer, a DRAM. -/
def exMems : List (List String) := [["I1"], ["I2"], ["O"], ["I1", "O"], ["I2"], ["I1", "I2", "O"]]

example : ∀ l ∈ exMems, l.Nodup := by decide

example : Aligned (build exMems) "I1" := by
  apply aligned_of_uniform
  decide +kernel

example : (build exMems).nb.get? "I1" = some 3 := by decide +kernel

example : ∃ L, sharingList (build exMems) = .ok L ∧ [("I1", 1), ("O", 1)] ∈ L ∧ [("I1", 2), ("I2", 2), ("O", 2)] ∈ L := by
  obtain ⟨L, h1, -, -, h2⟩ := sharing_list exMems (by decide)
  refine ⟨L, h1, (h2 _).2 ?_, (h2 _).2 ?_⟩ <;> decide +kernel

example : unrollCount [("D1", 4), ("D2", 3), ("D3", 5)] ["D2"] = 20 := by decide

end Verif.Hierarchy
