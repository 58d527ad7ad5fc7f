import Verif.Hierarchy.Model
import Mathlib.Data.List.Sort
import Mathlib.Data.List.Pairwise
import Mathlib.Tactic.Linarith

/-! Invariants of hierarchies built by adding memories. -/

namespace Verif.Hierarchy

variable {Op : Type} [DecidableEq Op]

theorem build_snoc (mems : List (List Op)) (m : List Op) : build (mems ++ [m]) = addMemory (build mems) m := by
  unfold build; rw [List.foldl_append]; rfl

/-! ### Folds over operands -/

theorem get?_foldl_set (f : Op → Nat) (ops : List Op) (d : Dict Op Nat) (k : Op) :
    Dict.get? (ops.foldl (fun d op => d.set op (f op)) d) k = if k ∈ ops then some (f k) else Dict.get? d k := by
  induction ops generalizing d with
  | nil => simp
  | cons o ops ih =>
    rw [List.foldl_cons, ih]
    by_cases hk : k ∈ ops
    · simp [hk]
    · by_cases ho : o = k
      · subst ho; simp [hk, Dict.get?_set]
      · simp [hk, Dict.get?_set, ho, Ne.symm ho]

theorem wf_foldl_set (f : Op → Nat) (ops : List Op) (d : Dict Op Nat) (h : d.WF) : Dict.WF (ops.foldl (fun d op => d.set op (f op)) d) := by
  induction ops generalizing d with
  | nil => exact h
  | cons o ops ih => exact ih _ (Dict.WF.set h _ _)

theorem get?_countLevel (d : Dict Op Nat) (o k : Op) :
    Dict.get? (countLevel d o) k = if o = k then some ((Dict.get? d k).getD 0 + 1) else Dict.get? d k := by
  unfold countLevel
  by_cases h : o = k
  · subst h
    cases hg : Dict.get? d o <;> simp [Dict.get?_set]
  · cases hg : Dict.get? d o <;> simp [Dict.get?_set, h]

theorem get?_foldl_count (ops : List Op) (hn : ops.Nodup) (d : Dict Op Nat) (k : Op) :
    Dict.get? (ops.foldl countLevel d) k = if k ∈ ops then some ((Dict.get? d k).getD 0 + 1) else Dict.get? d k := by
  induction ops generalizing d with
  | nil => simp
  | cons o ops ih =>
    obtain ⟨h1, h2⟩ := List.nodup_cons.1 hn
    rw [List.foldl_cons, ih h2, get?_countLevel]
    by_cases ho : o = k
    · subst ho; simp [h1]
    · simp [ho, Ne.symm ho]

/-! ### Largest levels -/

theorem foldl_max_ge (l : List Nat) (a : Nat) : a ≤ l.foldl max a ∧ ∀ x ∈ l, x ≤ l.foldl max a := by
  induction l generalizing a with
  | nil => simp
  | cons y l ih =>
    obtain ⟨h1, h2⟩ := ih (max a y)
    rw [List.foldl_cons]
    refine ⟨(le_max_left _ _).trans h1, fun x hx => ?_⟩
    rcases List.mem_cons.1 hx with rfl | hx
    · exact (le_max_right _ _).trans h1
    · exact h2 x hx

theorem foldl_max_mem (l : List Nat) (a : Nat) : l.foldl max a = a ∨ l.foldl max a ∈ l := by
  induction l generalizing a with
  | nil => simp
  | cons y l ih =>
    rw [List.foldl_cons]
    rcases ih (max a y) with h | h
    · rcases max_choice a y with hm | hm
      · left; rw [h, hm]
      · right; rw [h, hm]; simp
    · right; exact List.mem_cons_of_mem _ h

theorem mem_storing {nodes : List (Mem Op)} {op : Op} {m : Mem Op} : m ∈ storing nodes op ↔ m ∈ nodes ∧ op ∈ m.operands := by
  simp [storing]

/-- The top memories of an operand are those that store it and have the largest level among those. -/
theorem mem_operatorTop {nodes : List (Mem Op)} {op : Op} {m : Mem Op} :
    m ∈ operatorTop nodes op ↔ m ∈ storing nodes op ∧ ∀ m' ∈ storing nodes op, m'.maxLevel ≤ m.maxLevel := by
  unfold operatorTop
  simp only [List.mem_filter, decide_eq_true_eq]
  have hge := foldl_max_ge ((storing nodes op).map Mem.maxLevel) 0
  constructor
  · rintro ⟨h1, h2⟩
    refine ⟨h1, fun m' hm' => ?_⟩
    rw [h2]
    exact hge.2 _ (List.mem_map.2 ⟨m', hm', rfl⟩)
  · rintro ⟨h1, h2⟩
    refine ⟨h1, le_antisymm (hge.2 _ (List.mem_map.2 ⟨m, h1, rfl⟩)) ?_⟩
    rcases foldl_max_mem ((storing nodes op).map Mem.maxLevel) 0 with h | h
    · rw [h]; exact Nat.zero_le _
    · obtain ⟨m', hm', he⟩ := List.mem_map.1 h
      rw [← he]; exact h2 m' hm'

theorem operatorTop_ne_nil {nodes : List (Mem Op)} {op : Op} (h : storing nodes op ≠ []) : operatorTop nodes op ≠ [] := by
  unfold operatorTop
  simp only
  intro hc
  rw [List.filter_eq_nil_iff] at hc
  rcases foldl_max_mem ((storing nodes op).map Mem.maxLevel) 0 with h0 | h0
  · obtain ⟨m, hm⟩ := List.exists_mem_of_ne_nil _ h
    have := hc m hm
    simp only [decide_eq_true_eq] at this
    have hle := (foldl_max_ge ((storing nodes op).map Mem.maxLevel) 0).2 _ (List.mem_map.2 ⟨m, hm, rfl⟩)
    rw [h0] at this hle
    omega
  · obtain ⟨m, hm, he⟩ := List.mem_map.1 h0
    have := hc m hm
    simp only [decide_eq_true_eq] at this
    exact this he

/-! ### The invariant -/

structure HInv (h : Hier Op) : Prop where
  ids : ∀ (j : Nat) (m : Mem Op), h.nodes[j]? = some m → m.id = j
  lv : ∀ (j : Nat) (m : Mem Op), h.nodes[j]? = some m → ∀ op, m.levels.get? op = if op ∈ m.operands then some (storing (h.nodes.take j) op).length else none
  wf : ∀ m ∈ h.nodes, m.levels.WF
  edges : ∀ i j : Nat, (i, j) ∈ h.edges ↔ ∃ a b, h.nodes[i]? = some a ∧ h.nodes[j]? = some b ∧ i < j ∧ ∃ op ∈ b.operands, a ∈ operatorTop (h.nodes.take j) op
  nodup : h.edges.Nodup

theorem operatorTop_mem {nodes : List (Mem Op)} {op : Op} {m : Mem Op} (h : m ∈ operatorTop nodes op) : m ∈ nodes :=
  (mem_storing.1 (mem_operatorTop.1 h).1).1

theorem inv_add {h : Hier Op} (hi : HInv h) (ops : List Op) : HInv (addMemory h ops) := by
  have hget : ∀ (j : Nat) (m : Mem Op), (addMemory h ops).nodes[j]? = some m →
      (j < h.nodes.length ∧ h.nodes[j]? = some m) ∨ (j = h.nodes.length ∧
        m = ⟨h.nodes.length, ops, ops.foldl (fun d op => d.set op (storing h.nodes op).length) []⟩) := by
    intro j m hm
    unfold addMemory at hm
    simp only at hm
    rcases lt_or_ge j h.nodes.length with hj | hj
    · rw [List.getElem?_append_left hj] at hm; exact Or.inl ⟨hj, hm⟩
    · rw [List.getElem?_append_right hj] at hm
      right
      have : j - h.nodes.length = 0 := by
        by_contra hc
        rw [List.getElem?_eq_none (by simp; omega)] at hm
        cases hm
      refine ⟨by omega, ?_⟩
      rw [this] at hm
      simpa using hm.symm
  have htake : ∀ j ≤ h.nodes.length, (addMemory h ops).nodes.take j = h.nodes.take j := by
    intro j hj; unfold addMemory; simp only; rw [List.take_append_of_le_length hj]
  have hself : (addMemory h ops).nodes[h.nodes.length]?
      = some ⟨h.nodes.length, ops, ops.foldl (fun d op => d.set op (storing h.nodes op).length) []⟩ := by
    unfold addMemory; simp
  have hold : ∀ j, j < h.nodes.length → (addMemory h ops).nodes[j]? = h.nodes[j]? := by
    intro j hj; unfold addMemory; simp only; rw [List.getElem?_append_left hj]
  refine ⟨?_, ?_, ?_, ?_, ?_⟩
  · intro j m hm
    rcases hget j m hm with ⟨_, hm⟩ | ⟨rfl, rfl⟩
    · exact hi.ids j m hm
    · rfl
  · intro j m hm op
    rcases hget j m hm with ⟨hj, hm⟩ | ⟨rfl, rfl⟩
    · rw [htake j hj.le]; exact hi.lv j m hm op
    · simp only
      rw [get?_foldl_set, htake _ le_rfl, List.take_length]
      simp [Dict.get?]
  · intro m hm
    unfold addMemory at hm
    rcases List.mem_append.1 hm with hm | hm
    · exact hi.wf m hm
    · rw [List.mem_singleton.1 hm]
      exact wf_foldl_set _ _ _ List.nodup_nil
  · intro i j
    have he : (i, j) ∈ (addMemory h ops).edges ↔ (i, j) ∈ h.edges ∨ (j = h.nodes.length ∧ ∃ op ∈ ops, ∃ a ∈ operatorTop h.nodes op, a.id = i) := by
      unfold addMemory
      simp only [List.mem_append, List.mem_map, List.mem_dedup, List.mem_flatMap, Prod.mk.injEq]
      constructor
      · rintro (h1 | ⟨x, ⟨op, ho, a, ha, rfl⟩, rfl, rfl⟩)
        · exact Or.inl h1
        · exact Or.inr ⟨rfl, op, ho, a, ha, rfl⟩
      · rintro (h1 | ⟨rfl, op, ho, a, ha, rfl⟩)
        · exact Or.inl h1
        · exact Or.inr ⟨a.id, ⟨op, ho, a, ha, rfl⟩, rfl, rfl⟩
    rw [he]
    constructor
    · rintro (h1 | ⟨rfl, op, ho, a, ha, rfl⟩)
      · obtain ⟨a, b, h2, h3, h4, op, h5, h6⟩ := (hi.edges i j).1 h1
        have hj := (List.getElem?_eq_some_iff.1 h3).1
        exact ⟨a, b, by rw [hold i (by omega)]; exact h2, by rw [hold j hj]; exact h3, h4, op, h5, by rw [htake j hj.le]; exact h6⟩
      · obtain ⟨k, hk, rfl⟩ := List.mem_iff_getElem.1 (operatorTop_mem ha)
        have hid := hi.ids k _ (List.getElem?_eq_getElem hk)
        rw [hid]
        exact ⟨h.nodes[k], _, by rw [hold k hk, List.getElem?_eq_getElem hk], hself, hk, op, ho, by rw [htake _ le_rfl, List.take_length]; exact ha⟩
    · rintro ⟨a, b, h2, h3, h4, op, h5, h6⟩
      rcases hget j b h3 with ⟨hj, hb⟩ | ⟨rfl, rfl⟩
      · left
        rw [hold i (by omega)] at h2
        rw [htake j hj.le] at h6
        exact (hi.edges i j).2 ⟨a, b, h2, hb, h4, op, h5, h6⟩
      · right
        rw [hold i h4] at h2
        rw [htake _ le_rfl, List.take_length] at h6
        exact ⟨rfl, op, h5, a, h6, hi.ids i a h2⟩
  · unfold addMemory
    simp only
    rw [List.nodup_append]
    refine ⟨hi.nodup, ?_, ?_⟩
    · apply List.Nodup.map_on _ (List.nodup_dedup _)
      intro x _ y _ hxy
      exact (Prod.mk.inj hxy).1
    · rintro ⟨i, j⟩ h1 e h2 rfl
      obtain ⟨x, -, hx⟩ := List.mem_map.1 h2
      cases hx
      obtain ⟨a, b, -, h3, -⟩ := (hi.edges _ _).1 h1
      rw [List.getElem?_eq_none le_rfl] at h3
      cases h3

theorem inv_build (mems : List (List Op)) : HInv (build mems) := by
  induction mems using List.reverseRecOn with
  | nil => exact ⟨by simp [build, empty], by simp [build, empty], by simp [build, empty], by simp [build, empty], by simp [build, empty]⟩
  | append_singleton mems m ih => rw [build_snoc]; exact inv_add ih m

theorem operands_build (mems : List (List Op)) : (build mems).nodes.map Mem.operands = mems := by
  induction mems using List.reverseRecOn with
  | nil => rfl
  | append_singleton mems m ih => rw [build_snoc]; simp [addMemory, ih]

theorem length_build (mems : List (List Op)) : (build mems).nodes.length = mems.length := by
  have := congrArg List.length (operands_build mems)
  simpa using this

theorem storing_length (nodes : List (Mem Op)) (op : Op) :
    (storing nodes op).length = ((nodes.map Mem.operands).filter fun l => decide (op ∈ l)).length := by
  unfold storing
  rw [List.filter_map, List.length_map]
  rfl

theorem nb_build (mems : List (List Op)) (hn : ∀ l ∈ mems, l.Nodup) (op : Op) :
    (build mems).nb.get? op = if storing (build mems).nodes op = [] then none else some (storing (build mems).nodes op).length := by
  induction mems using List.reverseRecOn with
  | nil => simp [build, empty, storing, Dict.get?]
  | append_singleton mems m ih =>
    replace ih := ih fun l hl => hn l (List.mem_append_left _ hl)
    rw [build_snoc]
    have hm := hn m (by simp)
    unfold addMemory
    simp only
    rw [get?_foldl_count m hm, ih]
    unfold storing
    rw [List.filter_append]
    by_cases ho : op ∈ m
    · by_cases hs : List.filter (fun m => decide (op ∈ m.operands)) (build mems).nodes = []
      · simp [ho, hs]
      · simp [ho, hs]
    · simp [ho]

/-- The graph of a hierarchy. -/
theorem graph_of_inv {h : Hier Op} (hi : HInv h) : Topo.Graph (h.nodes.map Mem.id) h.edges := by
  have hids : h.nodes.map Mem.id = List.range h.nodes.length := by
    apply List.ext_getElem
    · simp
    · intro i h1 h2
      simp only [List.getElem_map, List.getElem_range]
      exact hi.ids i _ (List.getElem?_eq_getElem (by simpa using h1))
  refine ⟨?_, hi.nodup, ?_, ?_⟩
  · rw [hids]; exact List.nodup_range
  · intro e he
    obtain ⟨a, b, h1, h2, h3, -⟩ := (hi.edges e.1 e.2).1 he
    rw [hids, List.mem_range]
    exact (List.getElem?_eq_some_iff.1 h1).1
  · intro e he
    obtain ⟨a, b, h1, h2, h3, -⟩ := (hi.edges e.1 e.2).1 he
    rw [hids, List.mem_range]
    exact (List.getElem?_eq_some_iff.1 h2).1

theorem ids_eq_range {h : Hier Op} (hi : HInv h) : h.nodes.map Mem.id = List.range h.nodes.length := by
  apply List.ext_getElem
  · simp
  · intro i h1 h2
    simp only [List.getElem_map, List.getElem_range]
    exact hi.ids i _ (List.getElem?_eq_getElem (by simpa using h1))

/-- The order of insertion is a topological order. -/
theorem topo_of_inv {h : Hier Op} (hi : HInv h) : Topo.IsTopo (h.nodes.map Mem.id) h.edges (h.nodes.map Mem.id) := by
  refine ⟨List.Perm.refl _, ?_⟩
  intro pre v post heq u hu
  rw [ids_eq_range hi] at heq
  obtain ⟨a, b, -, h2, h3, -⟩ := (hi.edges u v).1 hu
  have hvl := (List.getElem?_eq_some_iff.1 h2).1
  have hv : v = pre.length := by
    have h4 : (List.range h.nodes.length)[pre.length]? = some v := by rw [heq]; simp
    rw [List.getElem?_eq_some_iff] at h4
    obtain ⟨h5, h6⟩ := h4
    simpa using h6.symm
  have h5 : (List.range h.nodes.length)[u]? = some u := by
    rw [List.getElem?_eq_getElem (by simp; omega)]; simp
  rw [heq, List.getElem?_append_left (by omega)] at h5
  exact List.mem_of_getElem? h5

theorem topoSort_build (mems : List (List Op)) : ∃ order, Topo.topoSort ((build mems).nodes.map Mem.id) (build mems).edges = .ok order ∧
    Topo.IsTopo ((build mems).nodes.map Mem.id) (build mems).edges order := by
  obtain ⟨o, ho⟩ := Topo.topoSort_complete (graph_of_inv (inv_build mems)) (topo_of_inv (inv_build mems))
  exact ⟨o, ho, Topo.topoSort_sound (graph_of_inv (inv_build mems)) ho⟩

/-! ### Levels -/

/-- Levels grow in the order of insertion. -/
theorem level_lt {h : Hier Op} (hi : HInv h) {i j : Nat} {a b : Mem Op} (ha : h.nodes[i]? = some a) (hb : h.nodes[j]? = some b) (hij : i < j) {op : Op}
    (hoa : op ∈ a.operands) : (storing (h.nodes.take i) op).length < (storing (h.nodes.take j) op).length := by
  have h1 : h.nodes.take j = h.nodes.take i ++ (h.nodes.take j).drop i := by
    conv_lhs => rw [← List.take_append_drop i (h.nodes.take j)]
    rw [List.take_take, min_eq_left hij.le]
  rw [h1]
  unfold storing
  rw [List.filter_append, List.length_append]
  have : a ∈ ((h.nodes.take j).drop i).filter fun m => decide (op ∈ m.operands) := by
    rw [List.mem_filter]
    refine ⟨?_, by simpa using hoa⟩
    have h2 : ((h.nodes.take j).drop i)[0]? = some a := by
      rw [List.getElem?_drop, List.getElem?_take_of_lt (by omega)]
      simpa using ha
    exact List.mem_of_getElem? h2
  have := List.length_pos_of_mem this
  omega

end Verif.Hierarchy
