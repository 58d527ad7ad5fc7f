import Verif.Reuse.Spec
import Verif.Hierarchy.Props

/-! The accelerators for single layers (`Reuse.pruned`) are accelerator files again. -/

namespace Verif.Reuse

open Latency (Operand)
open Net (FileOk NodeOk)
open Ports (MemD PortD)
open Whole (AccD AccOk MemOk meaning)
open Evaluate (needed)

/-! ### Lists -/

theorem filter_getElem? {α : Type} (p : α → Bool) (l : List α) (k : Nat) (m : α) (h : (l.filter p)[k]? = some m) :
    ∃ j, l[j]? = some m ∧ ((l.take j).filter p).length = k := by
  induction l generalizing k with
  | nil => simp at h
  | cons x l ih =>
    by_cases hx : p x = true
    · rw [List.filter_cons_of_pos hx] at h
      cases k with
      | zero => exact ⟨0, by simpa using h, by simp⟩
      | succ k =>
        obtain ⟨j, h1, h2⟩ := ih k (by simpa using h)
        exact ⟨j + 1, by simpa using h1, by rw [List.take_succ_cons, List.filter_cons_of_pos hx, List.length_cons, h2]⟩
    · rw [List.filter_cons_of_neg hx] at h
      obtain ⟨j, h1, h2⟩ := ih k h
      exact ⟨j + 1, by simpa using h1, by rw [List.take_succ_cons, List.filter_cons_of_neg hx, h2]⟩

theorem take_filter {α : Type} (p : α → Bool) (l : List α) (j : Nat) : (l.filter p).take ((l.take j).filter p).length = (l.take j).filter p := by
  conv_lhs => rw [← List.take_append_drop j l, List.filter_append]
  have : (List.take j (List.take j l ++ List.drop j l)) = l.take j := by rw [List.take_append_drop]
  rw [this, List.take_left]

theorem count_mono {α : Type} (p : α → Bool) (l : List α) {i j : Nat} (h : i ≤ j) : ((l.take i).filter p).length ≤ ((l.take j).filter p).length := by
  have : l.take i <+: l.take j := by
    rw [show l.take i = (l.take j).take i by rw [List.take_take, Nat.min_eq_left h]]
    exact List.take_prefix _ _
  exact (this.sublist.filter p).length_le

variable {OA : Type} [DecidableEq OA]

/-- What stays: `K op i` says whether the memory with number `i` keeps the operand. -/
structure Cut (K : Operand → Nat → Prop) (mems : List (MemD Operand OA)) (f : MemD Operand OA × Nat → MemD Operand OA) : Prop where
  down : ∀ op i j, i ≤ j → K op j → K op i
  ops : ∀ m i op, op ∈ (f (m, i)).operands ↔ op ∈ m.operands ∧ K op i

/-- The memories that stay. -/
def rest (mems : List (MemD Operand OA)) (f : MemD Operand OA × Nat → MemD Operand OA) : List (MemD Operand OA) :=
  (mems.zipIdx.map f).filter fun m => decide (m.operands ≠ [])

variable {K : Operand → Nat → Prop} {mems : List (MemD Operand OA)} {f : MemD Operand OA × Nat → MemD Operand OA}

/-- The memory that stays at place `k` was at a place `j`, with the same number of memories below it for every operand it keeps. -/
theorem place (C : Cut K mems f) {k : Nat} {m' : MemD Operand OA} (h : (rest mems f)[k]? = some m') :
    ∃ j m, mems[j]? = some m ∧ m' = f (m, j) ∧ (((mems.zipIdx.map f).take j).filter fun m => decide (m.operands ≠ [])).length = k ∧
      ∀ op, K op j → below (rest mems f) k op = below mems j op := by
  obtain ⟨j, h1, h2⟩ := filter_getElem? _ _ _ _ h
  rw [List.getElem?_map, Option.map_eq_some_iff] at h1
  obtain ⟨x, h3, h4⟩ := h1
  rw [List.getElem?_zipIdx, Option.map_eq_some_iff] at h3
  obtain ⟨m, h5, h6⟩ := h3
  simp only [Nat.zero_add] at h6
  refine ⟨j, m, h5, by rw [← h4, ← h6], h2, fun op hop => ?_⟩
  have h7 : (rest mems f).take k = ((mems.zipIdx.map f).take j).filter fun m => decide (m.operands ≠ []) := by
    rw [← h2]
    exact take_filter _ _ _
  unfold below
  rw [h7, List.filter_filter]
  rw [← List.map_take]
  have h9 : mems.take j = ((mems.zipIdx).take j).map Prod.fst := by rw [List.map_take, List.zipIdx_map_fst]
  rw [h9, List.filter_map, List.filter_map, List.length_map, List.length_map]
  congr 1
  apply List.filter_congr
  intro x hx
  have hx2 : x.2 < j := by
    obtain ⟨i, hi⟩ := List.mem_iff_getElem?.1 hx
    rw [List.getElem?_take] at hi
    split_ifs at hi with hij
    rw [List.getElem?_zipIdx, Option.map_eq_some_iff] at hi
    obtain ⟨y, -, hy⟩ := hi
    simp only [Nat.zero_add] at hy
    rw [← hy]
    exact hij
  have hk := C.ops x.1 x.2 op
  have hd := C.down op x.2 j (by omega) hop
  simp only [Function.comp]
  by_cases ho : op ∈ x.1.operands
  · have : op ∈ (f x).operands := hk.2 ⟨ho, hd⟩
    have hne : (f x).operands ≠ [] := List.ne_nil_of_mem this
    simp [this, hne, ho]
  · have : op ∉ (f x).operands := fun hc => ho (hk.1 hc).1
    simp [this, ho]

/-- A memory of the file with an operand for which it stays is among the memories that stay. -/
theorem stays (C : Cut K mems f) {j : Nat} {m : MemD Operand OA} (h : mems[j]? = some m) {op : Operand} (ho : op ∈ m.operands) (hk : K op j) :
    f (m, j) ∈ rest mems f := by
  have h1 : op ∈ (f (m, j)).operands := (C.ops m j op).2 ⟨ho, hk⟩
  refine List.mem_filter.2 ⟨List.mem_map.2 ⟨(m, j), ?_, rfl⟩, by simpa using List.ne_nil_of_mem h1⟩
  exact List.mem_zipIdx_iff_getElem?.2 h

theorem from_file {m' : MemD Operand OA} (h : m' ∈ rest mems f) : ∃ j m, mems[j]? = some m ∧ m' = f (m, j) := by
  obtain ⟨⟨m, j⟩, h1, h2⟩ := List.mem_map.1 (List.mem_filter.1 h).1
  exact ⟨j, m, List.mem_zipIdx_iff_getElem?.1 h1, h2.symm⟩

theorem stacked_rest (C : Cut K mems f) (S : Stacked mems) : Stacked (rest mems f) := by
  intro i j l a b c hij hjl ha hb hc op oa ob oc o ho
  obtain ⟨i', a', e1, rfl, e2, e3⟩ := place C ha
  obtain ⟨j', b', d1, rfl, d2, d3⟩ := place C hb
  obtain ⟨l', c', f1, rfl, f2, -⟩ := place C hc
  obtain ⟨pa, ka⟩ := (C.ops _ _ _).1 oa
  obtain ⟨pb, kb⟩ := (C.ops _ _ _).1 ob
  obtain ⟨pc, kc⟩ := (C.ops _ _ _).1 oc
  obtain ⟨po, ko⟩ := (C.ops _ _ _).1 ho
  rw [e3 o ko, d3 op kb]
  refine S i' j' l' a' b' c' ?_ ?_ e1 d1 f1 op pa pb pc o po
  · by_contra hcon
    have := count_mono (fun m : MemD Operand OA => decide (m.operands ≠ [])) (mems.zipIdx.map f) (Nat.le_of_not_lt hcon)
    omega
  · by_contra hcon
    have := count_mono (fun m : MemD Operand OA => decide (m.operands ≠ [])) (mems.zipIdx.map f) (Nat.le_of_not_lt hcon)
    omega

theorem foldl_max_le {l : List Nat} {a b : Nat} (h : ∀ x ∈ l, x ≤ b) (ha : a ≤ b) : l.foldl max a ≤ b := by
  induction l generalizing a with
  | nil => exact ha
  | cons x t ih => exact ih (fun y hy => h y (by simp [hy])) (by have := h x (by simp); omega)

theorem le_foldl_max {l : List Nat} {a x : Nat} (h : x ∈ l ∨ x ≤ a) : x ≤ l.foldl max a := by
  induction l generalizing a with
  | nil => simpa using h
  | cons y t ih =>
    refine ih ?_
    rcases h with h | h
    · rcases List.mem_cons.1 h with h | h
      · right; omega
      · exact .inl h
    · right; omega

/-- Such a list has the levels in topological order. -/
theorem aligned_of_stacked (S : Stacked mems) (op : Operand) : Hierarchy.Aligned (Hierarchy.build (mems.map MemD.operands)) op := by
  intro i j l a b c hij hjl ha hb hc oa ob oc
  have key : ∀ k x, (Hierarchy.build (mems.map MemD.operands)).nodes[k]? = some x → ∃ m, mems[k]? = some m ∧ x.operands = m.operands ∧
      ∀ o, x.levels.get? o = if o ∈ m.operands then some (below mems k o) else none := by
    intro k x hx
    have hlen : k < mems.length := by
      have h1 := (List.getElem?_eq_some_iff.1 hx).1
      have h2 := Hierarchy.length_build (mems.map MemD.operands)
      rw [List.length_map] at h2
      omega
    obtain ⟨m, hm⟩ : ∃ m, mems[k]? = some m := ⟨_, List.getElem?_eq_getElem hlen⟩
    refine ⟨m, hm, ?_, fun o => ?_⟩
    · obtain ⟨y, y1, -, y2, -⟩ := Hierarchy.level_numbering (mems.map MemD.operands) k m.operands (by rw [List.getElem?_map, hm]; rfl) op
      rw [hx] at y1
      cases y1
      exact y2
    · obtain ⟨y, y1, -, -, y3⟩ := Hierarchy.level_numbering (mems.map MemD.operands) k m.operands (by rw [List.getElem?_map, hm]; rfl) o
      rw [hx] at y1
      cases y1
      rw [y3]
      split_ifs
      · unfold below
        rw [← List.map_take, List.filter_map, List.length_map]
        rfl
      · rfl
  obtain ⟨ma, a1, a2, a3⟩ := key i a ha
  obtain ⟨mb, b1, b2, b3⟩ := key j b hb
  obtain ⟨mc, c1, c2, c3⟩ := key l c hc
  rw [a2] at oa
  rw [b2] at ob
  rw [c2] at oc
  have hle : below mems j op ≤ b.maxLevel := by
    refine le_foldl_max (.inl ?_)
    have := b3 op
    rw [if_pos ob] at this
    exact List.mem_map.2 ⟨_, Dict.mem_of_get? this, rfl⟩
  refine foldl_max_le (fun x hx => ?_) (Nat.zero_le _)
  obtain ⟨e, he, rfl⟩ := List.mem_map.1 hx
  have hg := Dict.get?_of_mem ((Hierarchy.inv_build (mems.map MemD.operands)).wf a (List.mem_of_getElem? ha)) he
  have h3 := a3 e.1
  rw [hg] at h3
  split_ifs at h3 with ho
  rw [Option.some.injEq] at h3
  rw [h3]
  exact (S i j l ma mb mc hij hjl a1 b1 c1 op oa ob oc e.1 ho).trans hle

/-! ### The file for a layer -/

/-- Whether the memory with number `i` keeps the operand. -/
def Keeps (l : Locality.Layer Operand) (t : Int × Int × Int) (op : Operand) (i : Nat) : Prop :=
  (op = l.act ∧ (i : Int) ≤ t.1) ∨ (op = l.weight ∧ (i : Int) ≤ t.2.1) ∨ (op = l.out ∧ (i : Int) ≤ t.2.2)

theorem mem_pruneOps (l : Locality.Layer Operand) (t : Int × Int × Int) (ops : List Operand) (i : Nat) (op : Operand) :
    op ∈ Locality.pruneOps ops l t.1 t.2.1 t.2.2 i ↔ op ∈ ops ∧ Keeps l t op i := by
  unfold Locality.pruneOps Keeps
  have key : ∀ (a : Operand) (c : Prop) [Decidable c], op ∈ (if c then [a] else []) ↔ c ∧ op = a := by
    intro a c _
    split_ifs with hc <;> simp [hc]
  rw [List.mem_append, List.mem_append, key, key, key]
  constructor
  · rintro ((⟨⟨h1, h2⟩, rfl⟩ | ⟨⟨h1, h2⟩, rfl⟩) | ⟨⟨h1, h2⟩, rfl⟩)
    · exact ⟨h1, .inl ⟨rfl, h2⟩⟩
    · exact ⟨h1, .inr (.inl ⟨rfl, h2⟩)⟩
    · exact ⟨h1, .inr (.inr ⟨rfl, h2⟩)⟩
  · rintro ⟨h1, ⟨rfl, h2⟩ | ⟨rfl, h2⟩ | ⟨rfl, h2⟩⟩
    · exact .inl (.inl ⟨⟨h1, h2⟩, rfl⟩)
    · exact .inl (.inr ⟨⟨h1, h2⟩, rfl⟩)
    · exact .inr ⟨⟨h1, h2⟩, rfl⟩

variable {cacti : MemD Operand OA → ℚ × ℚ} {a : AccD OA}

/-- The memory for a layer. -/
def keep (cacti : MemD Operand OA → ℚ × ℚ) (l : Locality.Layer Operand) (t : Int × Int × Int) (x : MemD Operand OA × Nat) : MemD Operand OA :=
  restrict cacti (Locality.pruneOps x.1.operands l t.1 t.2.1 t.2.2 x.2) x.1

theorem pruned_mems (l : Locality.Layer Operand) (t : Int × Int × Int) : (pruned cacti a l t).mems = rest a.mems (keep cacti l t) := rfl

theorem cut (l : Locality.Layer Operand) (t : Int × Int × Int) : Cut (Keeps l t) a.mems (keep cacti l t) where
  down op i j hij := by
    rintro (⟨h1, h2⟩ | ⟨h1, h2⟩ | ⟨h1, h2⟩)
    · exact .inl ⟨h1, by omega⟩
    · exact .inr (.inl ⟨h1, by omega⟩)
    · exact .inr (.inr ⟨h1, by omega⟩)
  ops m i op := mem_pruneOps l t m.operands i op

theorem restrict_ok {m : MemD Operand OA} (h : MemOk m) (ops : List Operand) : MemOk (restrict cacti ops m) where
  names := by
    have : ((restrict cacti ops m).ports.map PortD.name) = m.ports.map PortD.name := by
      unfold restrict
      rw [List.map_map]
      rfl
    rw [this]
    exact h.names
  only p hp x hx := by
    obtain ⟨q, hq, rfl⟩ := List.mem_map.1 hp
    exact of_decide_eq_true (List.mem_filter.1 hx).2
  unique p hp q hq x hxp hxq := by
    obtain ⟨p', hp', rfl⟩ := List.mem_map.1 hp
    obtain ⟨q', hq', rfl⟩ := List.mem_map.1 hq
    rw [h.unique p' hp' q' hq' x (List.mem_filter.1 hxp).1 (List.mem_filter.1 hxq).1]
  bw p hp := by
    obtain ⟨p', hp', rfl⟩ := List.mem_map.1 hp
    exact h.bw p' hp'
  size := h.size
  readable hc := by cases hc

theorem needed_top {op : Operand} {b : Bool} {d : Cme.Dir} (h : d ∈ needed op true) : d ∈ needed op b := by
  unfold needed at h ⊢
  simp only [if_true, List.append_nil] at h
  exact List.mem_append_left _ h

/-- C165: the accelerator for a layer is an accelerator file whose levels are listed in their order and which declares all movements. -/
theorem pruned_file (F : FileOk a) (S : Stacked a.mems) (l : Locality.Layer Operand) (t : Int × Int × Int) : FileOk (pruned cacti a l t) where
  acc :=
    { mems := fun m' hm => by
        obtain ⟨j, m, h1, rfl⟩ := from_file hm
        exact restrict_ok (F.acc.mems m (List.mem_of_getElem? h1)) _
      aligned := fun op => aligned_of_stacked (stacked_rest (cut l t) S) op
      declared := fun pre m' post he op hop d hd => by
        have hk : (rest a.mems (keep cacti l t))[pre.length]? = some m' := by
          rw [← pruned_mems, he]; simp
        obtain ⟨j, m, h1, rfl, h3, -⟩ := place (cut l t) hk
        obtain ⟨ho, hkeep⟩ := ((cut (cacti := cacti) (a := a) l t).ops m j op).1 hop
        have hsplit : a.mems = a.mems.take j ++ m :: a.mems.drop (j + 1) := by
          obtain ⟨hj, rfl⟩ := List.getElem?_eq_some_iff.1 h1
          rw [← List.drop_eq_getElem_cons hj, List.take_append_drop]
        generalize hup : a.mems.drop (j + 1) = up at hsplit
        have hd' : d ∈ needed op (decide (∀ m' ∈ up, op ∉ m'.operands)) := by
          by_cases hp : ∀ x ∈ post, op ∉ x.operands
          · rw [decide_eq_true hp] at hd
            exact needed_top hd
          · rw [decide_eq_false hp] at hd
            push Not at hp
            obtain ⟨x, hx, hxo⟩ := hp
            obtain ⟨q, hq⟩ := List.mem_iff_getElem?.1 hx
            have hk2 : (rest a.mems (keep cacti l t))[pre.length + 1 + q]? = some x := by
              rw [← pruned_mems, he, List.getElem?_append_right (by omega)]
              rw [show pre.length + 1 + q - pre.length = q + 1 by omega, List.getElem?_cons_succ]
              exact hq
            obtain ⟨j2, m2, g1, rfl, g3, -⟩ := place (cut l t) hk2
            have hlt : j < j2 := by
              by_contra hcon
              have := count_mono (fun m : MemD Operand OA => decide (m.operands ≠ [])) (a.mems.zipIdx.map (keep cacti l t)) (Nat.le_of_not_lt hcon)
              omega
            have hm2 : m2 ∈ up := by
              rw [← hup]
              refine List.mem_iff_getElem?.2 ⟨j2 - (j + 1), ?_⟩
              rw [List.getElem?_drop, show j + 1 + (j2 - (j + 1)) = j2 by omega]
              exact g1
            rw [decide_eq_false]
            · exact hd
            · intro hc
              exact hc m2 hm2 (((cut (cacti := cacti) (a := a) l t).ops m2 j2 op).1 hxo).1
        obtain ⟨p, hp, x, hx, e1, e2⟩ := F.acc.declared _ m _ hsplit op ho d hd'
        refine ⟨_, List.mem_map.2 ⟨p, hp, rfl⟩, x, List.mem_filter.2 ⟨hx, ?_⟩, e1, e2⟩
        rw [e1]
        exact decide_eq_true hop
      units := F.acc.units
      dims := F.acc.dims }
  served m' hm := by
    obtain ⟨j, m, h1, rfl⟩ := from_file hm
    exact F.served m (List.mem_of_getElem? h1)

end Verif.Reuse
