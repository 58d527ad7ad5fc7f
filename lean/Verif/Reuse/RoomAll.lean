import Verif.Reuse.Room

/-! C165: room for the data that stay in lower memories, also for layers without constants. -/

namespace Verif.Reuse

open Latency (Operand)
open LayerNode (Relation)
open Net (NodeOk)
open Ports (MemD)
open Whole (AccD LayerIn)

variable {OA : Type} [DecidableEq OA] {D : Type} [LinearOrder D]
variable {a : AccD OA} {g : Graph OA D} {nodes : List (LNode OA D)} {A W : Operand}

/-- The bits that a memory must have room for: for a layer without constants all its inputs and its results; for other layers the inputs, if it stores them, the results,
and the weights of all layers with constants, if it stores the weights of this one. -/
def needed (nodes : List (LNode OA D)) (bits : LNode OA D → Operand → ℕ) (n : LNode OA D) (m : MemD Operand OA) : ℕ :=
  if n.adder then (n.node.layer.inputs.map (bits n)).sum + bits n .out
  else (if n.act ∈ m.operands then bits n n.act else 0) + bits n .out +
    (if n.weight ∈ m.operands then ((nodes.filter fun v => !v.dummy && !v.adder).map fun v => bits v v.weight).sum else 0)

/-- Room in the memory, with all its copies. -/
def RoomFor (a : AccD OA) (nodes : List (LNode OA D)) (bits : LNode OA D → Operand → ℕ) (n : LNode OA D) (m : MemD Operand OA) : Prop :=
  needed nodes bits n m ≤ m.size.toNat * ((a.sizes.filter fun d => decide (d.1 ∉ m.served)).map Prod.snd).prod

/-- The operand as which the results are used: that of the input of the layer itself for the last layer, otherwise of the first layer that uses the results. -/
def UsedAs (g : Graph OA D) (nodes : List (LNode OA D)) (n : LNode OA D) (b : Operand) : Prop :=
  (((nodes.filter fun v => !v.dummy).map LNode.id).getLast? = some n.id ∧ b = n.act) ∨
  (((nodes.filter fun v => !v.dummy).map LNode.id).getLast? ≠ some n.id ∧ ∃ v ∈ nodes, v.dummy = false ∧ (g.succ n.id).head? = some v.id ∧ b = v.act)

theorem bitsAll_exact {l : LayerIn D} {rl : Operand → List D} {rels : List (Relation D)} (L : Whole.LayerOk l rl rels) : ∀ {ops : List Operand}, (∀ op ∈ ops, op ∈ l.ops) →
    (∀ op ∈ ops, Compact l rl rels op) → ∀ {k : ℕ}, bitsAll l ops = .ok k → k = (ops.map (data l rl rels)).sum
  | [], _, _, k, h => by cases h; rfl
  | op :: t, ho, hc, k, h => by
    unfold bitsAll at h
    cases h1 : bits l op with
    | error e => rw [h1] at h; cases h
    | ok x =>
      rw [h1] at h
      simp only at h
      cases h2 : bitsAll l t with
      | error e => rw [h2] at h; cases h
      | ok y =>
        rw [h2] at h
        cases h
        rw [List.map_cons, List.sum_cons, ← bits_exact L (ho op List.mem_cons_self) (hc op List.mem_cons_self) h1,
          ← bitsAll_exact L (fun o h => ho o (List.mem_cons_of_mem _ h)) (fun o h => hc o (List.mem_cons_of_mem _ h)) h2]

theorem layerOf_added {n : LNode OA D} {l : Locality.Layer Operand} (h : layerOf n = .ok l) (ha : n.adder = true) :
    bitsAll n.node.layer n.node.layer.inputs = .ok l.actSize ∧ bits n.node.layer .out = .ok l.outSize := by
  unfold layerOf at h
  simp only [ha, bind, Except.bind, pure, Except.pure, if_true] at h
  repeat' split at h
  all_goals first | (cases h; done) | skip
  rename_i h1 _ _ h3
  cases h
  exact ⟨h1, h3⟩

/-- C165: the results of a layer of any kind that is no start or end of a branch stay in the lowest memory for the results and for the input as which they are used that has
room for the data of the layer. -/
theorem kept_room_all (U : Fits a g nodes A W) {s : Locality.St Operand} (hp : plan a g nodes = .ok s) {rl : LNode OA D → Operand → List D}
    {rels : LNode OA D → List (Relation D)}
    (hl : ∀ n ∈ nodes, n.dummy = false → NodeOk a n.node (rl n) (rels n) ∧ ∀ op ∈ n.node.layer.ops, Compact n.node.layer (rl n) (rels n) op)
    {u : LNode OA D} (hu : u ∈ nodes) (du : u.dummy = false) (h1 : (g.succ u.id).length ≤ 1) (h2 : ∀ v ∈ g.succ u.id, (g.pred v).length ≤ 1) :
    ∃ (b : Operand) (i : Nat) (m : MemD Operand OA), UsedAs g nodes u b ∧ a.mems[i]? = some m ∧ levelFor s u .out = some (i : Int) ∧ b ∈ m.operands ∧ .out ∈ m.operands ∧
      RoomFor a nodes (fun v op => data v.node.layer (rl v) (rels v) op) u m ∧
      ∀ (j : Nat) (m' : MemD Operand OA), j < i → a.mems[j]? = some m' → b ∈ m'.operands → .out ∈ m'.operands →
        ¬ RoomFor a nodes (fun v op => data v.node.layer (rl v) (rels v) op) u m' := by
  obtain ⟨net, h, hs⟩ := plan_cases hp
  obtain ⟨k1, k2, k3, k4, -, -, -⟩ := stage_cases h
  have hw := net_wf U h
  obtain ⟨d1, d2, d3⟩ := U.distinct
  obtain ⟨mt, mt1, mtA, mtW, mtO⟩ := U.top
  have hroles : ∀ n ∈ nodes, n.dummy = false → n.act ≠ n.weight ∧ n.act ≠ .out ∧ n.weight ≠ .out ∧ n.act ∈ mt.operands ∧ n.weight ∈ mt.operands := by
    intro n hn hd
    rcases U.names n hn hd with ⟨e1, e2⟩ | ⟨e1, e2⟩ <;> rw [e1, e2]
    · exact ⟨d1, d2, d3, mtA, mtW⟩
    · exact ⟨d1.symm, d3, d2, mtW, mtA⟩
  have hout : ∀ n ∈ nodes, n.dummy = false → ∀ l, layerOf n = .ok l → l.outSize = data n.node.layer (rl n) (rels n) .out ∧
      (n.adder = true → l.actSize = (n.node.layer.inputs.map (data n.node.layer (rl n) (rels n))).sum) ∧
      (n.adder = false → l.actSize = data n.node.layer (rl n) (rels n) n.act ∧ l.weightSize = data n.node.layer (rl n) (rels n) n.weight) := by
    intro n hn hd l hlo
    obtain ⟨n1, n2⟩ := hl n hn hd
    obtain ⟨-, -, -, u4, u5⟩ := hroles n hn hd
    have hlk := n1.linked mt (List.mem_of_getLast? mt1)
    cases ha : n.adder with
    | true =>
      obtain ⟨b1, b3⟩ := layerOf_added hlo ha
      have hin := n1.layer.inputs.2
      exact ⟨bits_exact n1.layer (hlk _ mtO) (n2 _ (hlk _ mtO)) b3, fun _ => bitsAll_exact n1.layer (fun op h => (hin op h).1) (fun op h => n2 op (hin op h).1) b1, by simp⟩
    | false =>
      obtain ⟨b1, b2, b3⟩ := layerOf_sizes hlo ha
      exact ⟨bits_exact n1.layer (hlk _ mtO) (n2 _ (hlk _ mtO)) b3, by simp, fun _ => ⟨bits_exact n1.layer (hlk _ u4) (n2 _ (hlk _ u4)) b1,
        bits_exact n1.layer (hlk _ u5) (n2 _ (hlk _ u5)) b2⟩⟩
  obtain ⟨l, hlu⟩ : ∃ l, layerOf u = .ok l := by
    obtain ⟨i, hi⟩ := List.mem_iff_getElem?.1 (List.mem_filter.2 ⟨hu, by simp [du]⟩ : u ∈ nodes.filter fun n => !n.dummy)
    obtain ⟨b, hb, -⟩ := (MapInfo.mapM_get k1).2 i u hi
    exact ⟨b, hb⟩
  obtain ⟨e0, e1, e2, e3, e4⟩ := layerOf_fields hlu
  obtain ⟨r1, r2, r3, -, -⟩ := hroles u hu du
  obtain ⟨s1, s2, s3⟩ := hout u hu du l hlu
  have hlo := in_order k1 hu du hlu
  have hget : ∀ (i : Nat) (x : Locality.Mem Operand), (memsOf a)[i]? = some x → ∃ y, a.mems[i]? = some y ∧ x.ops = y.operands ∧
      x.avail = y.size.toNat * ((a.sizes.filter fun d => decide (d.1 ∉ y.served)).map Prod.snd).prod := by
    intro i x hx
    unfold memsOf at hx
    rw [List.getElem?_map, Option.map_eq_some_iff] at hx
    obtain ⟨y, y1, rfl⟩ := hx
    exact ⟨y, y1, rfl, rfl⟩
  have hb : Locality.isBranch net l = false := by
    unfold Locality.isBranch
    rw [k2, k3, e0]
    rw [Bool.or_eq_false_iff]
    refine ⟨by simpa using h1, ?_⟩
    split
    · rename_i v hv
      have := h2 v (by rw [hv]; simp)
      simpa using this
    · rfl
  have hids : net.order.map Locality.Layer.id = (nodes.filter fun v => !v.dummy).map LNode.id := ids_eq (mapM_forall2 k1)
  have hlast : l.id = Locality.lastId net ↔ ((nodes.filter fun v => !v.dummy).map LNode.id).getLast? = some u.id := by
    unfold Locality.lastId
    rw [← hids, e0, List.getLast?_map]
    cases hz : net.order.getLast? with
    | none =>
      rw [List.getLast?_eq_none_iff] at hz
      rw [hz] at hlo
      cases hlo
    | some z =>
      simp only [Option.map_some, Option.getD_some, Option.some.injEq]
      exact eq_comm
  have hnext : ∀ b, Locality.nextAct net l (decide (l.id = Locality.lastId net)) = some b → UsedAs g nodes u b := by
    intro b hb
    unfold Locality.nextAct at hb
    split_ifs at hb with hf
    · cases hb
      exact .inl ⟨hlast.1 (of_decide_eq_true hf), e1⟩
    · refine .inr ⟨fun hc => hf (decide_eq_true (hlast.2 hc)), ?_⟩
      cases hsu : net.succ l.id with
      | nil => rw [hsu] at hb; cases hb
      | cons v r =>
        rw [hsu] at hb
        simp only [Option.map_eq_some_iff] at hb
        obtain ⟨z, z1, z2⟩ := hb
        have hz : z ∈ net.order := List.mem_of_find?_eq_some z1
        have hzid := List.find?_some z1
        simp only [decide_eq_true_eq] at hzid
        obtain ⟨n', n1', n2', n3'⟩ := order_from k1 hz
        obtain ⟨q0, q1, -⟩ := layerOf_fields n3'
        refine ⟨n', n1', n2', ?_, by rw [← z2, q1]⟩
        rw [← k2, ← e0, hsu, List.head?_cons, ← hzid, q0]
  have hweights : Locality.storedWeights net = ((nodes.filter fun v => !v.dummy && !v.adder).map fun v => data v.node.layer (rl v) (rels v) v.weight).sum := by
    unfold Locality.storedWeights
    have hsplit : (nodes.filter fun v => !v.dummy && !v.adder) = (nodes.filter fun v => !v.dummy).filter fun v => !v.adder := by
      rw [List.filter_filter]
      refine List.filter_congr fun v _ => ?_
      rw [Bool.and_comm]
    rw [hsplit]
    have hf := mapM_forall2 k1
    have hin : ∀ v ∈ nodes.filter fun v => !v.dummy, v ∈ nodes ∧ v.dummy = false := by
      intro v hv
      obtain ⟨v1, v2⟩ := List.mem_filter.1 hv
      exact ⟨v1, by simpa using v2⟩
    revert hf hin
    generalize (nodes.filter fun v => !v.dummy) = vs
    generalize net.order = ls
    intro hf hin
    induction hf with
    | nil => rfl
    | @cons v l' vs' ls' hv _ ih =>
      obtain ⟨v1, v2⟩ := hin v List.mem_cons_self
      have hadd : l'.adder = v.adder := (layerOf_fields hv).2.2.2.2
      have ih' := ih fun x hx => hin x (List.mem_cons_of_mem _ hx)
      cases hva : v.adder with
      | true => rw [List.filter_cons, if_neg (by simp [hadd, hva]), List.filter_cons, if_neg (by simp [hva]), ih']
      | false =>
        rw [List.filter_cons, if_pos (by simp [hadd, hva]), List.filter_cons, if_pos (by simp [hva]), List.map_cons, List.sum_cons, List.map_cons, List.sum_cons,
          ((hout v v1 v2 l' hv).2.2 hva).2, ih']
  have hholds : ∀ (x : Locality.Mem Operand) (y : MemD Operand OA), x.ops = y.operands →
      x.avail = y.size.toNat * ((a.sizes.filter fun d => decide (d.1 ∉ y.served)).map Prod.snd).prod →
      ((if l.adder = true then l.outSize + l.actSize
        else (if l.act ∈ x.ops then l.actSize else 0) + l.outSize + (if l.weight ∈ x.ops then Locality.storedWeights net else 0)) ≤ x.avail ↔
      RoomFor a nodes (fun v op => data v.node.layer (rl v) (rels v) op) u y) := by
    intro x y x1 x2
    unfold RoomFor needed
    rw [e4, x2]
    cases ha : u.adder with
    | true =>
      rw [if_pos rfl, if_pos rfl, s1, s2 ha, add_comm]
    | false =>
      rw [if_neg Bool.false_ne_true, if_neg Bool.false_ne_true, e1, e2, x1, (s3 ha).1, s1, hweights]
  obtain ⟨i, x, i1, i2, ⟨i3, ⟨b, i4, i5⟩, i6⟩, i7⟩ := Locality.out_lowest net hw s hs l hlo hb (by rw [e1, e2]; exact r1)
    (by rw [e1, e3]; exact r2) (by rw [e2, e3]; exact r3) (by
      intro x hx
      rw [k4] at hx
      obtain ⟨k, hk⟩ := List.mem_iff_getElem?.1 hx
      obtain ⟨y, y1, y2, -⟩ := hget k x hk
      obtain ⟨m1, m2⟩ := U.memories y (List.mem_of_getElem? y1)
      rw [y2, e1, e2, e3]
      refine ⟨m1, fun op hop => ?_⟩
      rcases U.names u hu du with ⟨q1, q2⟩ | ⟨q1, q2⟩ <;> rw [q1, q2] <;> rcases m2 op hop with h | h | h <;> simp [h])
  rw [k4] at i2
  obtain ⟨y, y1, y2, y3⟩ := hget i x i2
  refine ⟨b, i, y, hnext b i4, y1, ?_, by rw [← y2]; exact i5, by rw [← y2, ← e3]; exact i3, (hholds x y y2 y3).1 i6, fun j m' hj hm' hA hO hR => ?_⟩
  · unfold levelFor
    rw [if_neg (fun h => r2 h.symm), if_pos rfl]
    rw [e0, e3] at i1
    exact i1
  · have hx' : (memsOf a)[j]? = some ⟨m'.operands, m'.size.toNat * Hierarchy.unrollCount a.sizes m'.served, decide (m'.served.length = a.sizes.length)⟩ := by
      unfold memsOf
      rw [List.getElem?_map, hm']
      rfl
    exact i7 j _ hj (by rw [k4]; exact hx') ⟨by rw [e3]; exact hO, ⟨b, i4, hA⟩, (hholds _ m' rfl rfl).2 hR⟩

end Verif.Reuse
