import Verif.Reuse.Props
import Verif.MapInfo.Spec

/-! C165: data stay in the lowest memory that has room for them, counted in elements of the layers. -/

namespace Verif.Reuse

open Latency (Operand)
open LayerNode (Relation distinct axisOf touched)
open MapInfo (elements)
open Net (NodeOk)
open Ports (MemD)
open Whole (AccD LayerIn)

section
variable {D : Type} [DecidableEq D]

/-- The size of a loop of the layer. -/
def extent (l : LayerIn D) (d : D) : ℕ := ((l.L.dimSizes.get? d).getD 1).num.toNat

/-- The bits of an operand: its elements that the loops of the layer access, times its precision. -/
noncomputable def data (l : LayerIn D) (rl : Operand → List D) (rels : List (Relation D)) (op : Operand) : ℕ := elements (rl op) rels (extent l) * l.precision op

/-- The sizes of the related indices are exact (see C17): nothing is skipped between the elements, or the kernel has no more elements than the stride; and no
element is in the padding. -/
def Compact (l : LayerIn D) (rl : Operand → List D) (rels : List (Relation D)) (op : Operand) : Prop :=
  ∀ r ∈ rels, r.dim1 ∈ rl op → (extent l r.dim3 ≤ r.coef2 / Nat.gcd r.coef2 r.coef3 ∨ r.coef3 / Nat.gcd r.coef2 r.coef3 ≤ extent l r.dim2) ∧
    ∃ m, l.L.prSizes.get? r.dim1 = some m ∧ (distinct r.coef2 (extent l r.dim2) r.coef3 (extent l r.dim3) : ℚ) ≤ m

/-- What is recorded for an operand is its number of bits. -/
theorem bits_exact {l : LayerIn D} {rl : Operand → List D} {rels : List (Relation D)} (L : Whole.LayerOk l rl rels) {op : Operand} (ho : op ∈ l.ops) (C : Compact l rl rels op)
    {k : ℕ} (h : bits l op = .ok k) : k = data l rl rels op := by
  unfold bits at h
  cases hs : LayerNode.operandSizeElem l.L (l.rel op) with
  | error e => rw [hs] at h; cases h
  | ok s =>
    rw [hs] at h
    cases h
    have hsome : ∀ d, d ∈ l.L.dimSizes.keys → (l.L.dimSizes.get? d).isSome := by
      intro d hd
      rw [Option.isSome_iff_ne_none]
      intro hc
      exact ((Dict.get?_eq_none_iff _ _).1 hc) hd
    have hext : ∀ d, (l.L.dimSizes.get? d = some (extent l d : ℚ) ∨ l.L.dimSizes.get? d = none ∧ extent l d = 1) ∧ 1 ≤ extent l d := by
      intro d
      unfold extent
      cases hd : l.L.dimSizes.get? d with
      | none => exact ⟨Or.inr ⟨rfl, by simp⟩, by simp⟩
      | some x =>
        obtain ⟨n, hn, hx⟩ := L.whole (d, x) (Dict.mem_of_get? hd)
        simp only at hx
        subst hx
        simp only [Option.getD_some, Rat.num_natCast, Int.toNat_natCast]
        exact ⟨Or.inl trivial, hn⟩
    have := LayerNode.tensor_size_partial (L := l.L) (t := extent l) (sizes := l.L.dimSizes) L.names L.pi (L.rel op ho) (L.index op ho) (L.mix op ho) (L.vars op ho)
      (by intro r hr; rw [Dict.get?_eq_none_iff]; exact (L.related r hr).2.2.1)
      (fun d hd hno => hsome d (L.dims op ho d hd hno))
      (fun d => (hext d).1)
      (fun r hr => ⟨hsome _ (L.related r hr).1, hsome _ (L.related r hr).2.1⟩)
      (by
        intro d hd
        rcases (hext d).1 with h | ⟨h, -⟩
        · rw [h] at hd
          have := Option.some.inj hd
          exact_mod_cast this
        · rw [h] at hd; cases hd)
      (fun d => (hext d).2) (fun r hr => (L.related r hr).2.2.2) (fun r hr hm => (C r hr hm).1) (fun r hr hm => (C r hr hm).2)
    rw [LayerNode.operand_size_full hs] at this
    cases this
    unfold data elements
    rw [← Nat.cast_mul, Int.floor_natCast, Int.toNat_natCast]

end

variable {OA : Type} [DecidableEq OA] {D : Type} [LinearOrder D]
variable {a : AccD OA} {g : Graph OA D} {nodes : List (LNode OA D)} {A W : Operand}

/-- Room in the memory, with all its copies, for the inputs and results of a layer, and for the weights of all layers if it stores weights. -/
def Room (a : AccD OA) (nodes : List (LNode OA D)) (W : Operand) (bits : LNode OA D → Operand → ℕ) (n : LNode OA D) (A : Operand) (m : MemD Operand OA) : Prop :=
  bits n A + bits n .out + (if W ∈ m.operands then ((nodes.filter fun v => !v.dummy).map fun v => bits v W).sum else 0) ≤
    m.size.toNat * ((a.sizes.filter fun d => decide (d.1 ∉ m.served)).map Prod.snd).prod

theorem layerOf_sizes {n : LNode OA D} {l : Locality.Layer Operand} (h : layerOf n = .ok l) (ha : n.adder = false) :
    bits n.node.layer n.act = .ok l.actSize ∧ bits n.node.layer n.weight = .ok l.weightSize ∧ bits n.node.layer .out = .ok l.outSize := by
  unfold layerOf at h
  simp only [ha, bind, Except.bind, pure, Except.pure, Bool.false_eq_true, if_false] at h
  repeat' split at h
  all_goals first | (cases h; done) | skip
  rename_i h1 _ _ h2 _ _ h3
  cases h
  exact ⟨h1, h2, h3⟩

/-- C165: the results of a layer that is no start or end of a branch stay in the lowest memory for inputs and results which has room for the inputs and results of the
layer, and for the weights of the whole network if it stores weights too. -/
theorem kept_room (U : Uniform a g nodes A W) {s : Locality.St Operand} (hp : plan a g nodes = .ok s) {rl : LNode OA D → Operand → List D}
    {rels : LNode OA D → List (Relation D)}
    (hl : ∀ n ∈ nodes, n.dummy = false → NodeOk a n.node (rl n) (rels n) ∧ ∀ op ∈ n.node.layer.ops, Compact n.node.layer (rl n) (rels n) op)
    {u : LNode OA D} (hu : u ∈ nodes) (du : u.dummy = false) (h1 : (g.succ u.id).length ≤ 1) (h2 : ∀ v ∈ g.succ u.id, (g.pred v).length ≤ 1) :
    ∃ (i : Nat) (m : MemD Operand OA), a.mems[i]? = some m ∧ levelFor s u .out = some (i : Int) ∧ A ∈ m.operands ∧ .out ∈ m.operands ∧
      Room a nodes W (fun v op => data v.node.layer (rl v) (rels v) op) u A m ∧
      ∀ (j : Nat) (m' : MemD Operand OA), j < i → a.mems[j]? = some m' → A ∈ m'.operands → .out ∈ m'.operands →
        ¬ Room a nodes W (fun v op => data v.node.layer (rl v) (rels v) op) u A m' := by
  obtain ⟨net, h, hs⟩ := plan_cases hp
  obtain ⟨k1, k2, k3, k4, -, -, -⟩ := stage_cases h
  have hw := net_wf U.fits h
  obtain ⟨d1, d2, d3⟩ := U.distinct
  obtain ⟨mt, mt1, mtA, mtW, mtO⟩ := U.top
  have hall : ∀ n ∈ nodes, n.dummy = false → ∀ l, layerOf n = .ok l → l.actSize = data n.node.layer (rl n) (rels n) A ∧
      l.weightSize = data n.node.layer (rl n) (rels n) W ∧ l.outSize = data n.node.layer (rl n) (rels n) .out := by
    intro n hn hd l hlo
    obtain ⟨n1, n2⟩ := hl n hn hd
    obtain ⟨u1, u2, u3⟩ := U.names n hn hd
    obtain ⟨b1, b2, b3⟩ := layerOf_sizes hlo u3
    have hlk := n1.linked mt (List.mem_of_getLast? mt1)
    rw [u1] at b1
    rw [u2] at b2
    exact ⟨bits_exact n1.layer (hlk _ mtA) (n2 _ (hlk _ mtA)) b1, bits_exact n1.layer (hlk _ mtW) (n2 _ (hlk _ mtW)) b2,
      bits_exact n1.layer (hlk _ mtO) (n2 _ (hlk _ mtO)) b3⟩
  obtain ⟨l, hlu⟩ : ∃ l, layerOf u = .ok l := by
    obtain ⟨i, hi⟩ := List.mem_iff_getElem?.1 (List.mem_filter.2 ⟨hu, by simp [du]⟩ : u ∈ nodes.filter fun n => !n.dummy)
    obtain ⟨b, hb, -⟩ := (MapInfo.mapM_get k1).2 i u hi
    exact ⟨b, hb⟩
  obtain ⟨e0, e1, e2, e3, e4⟩ := layerOf_fields hlu
  obtain ⟨u1, u2, u3⟩ := U.names u hu du
  obtain ⟨s1, s2, s3⟩ := hall u hu du l hlu
  have hlo := in_order k1 hu du hlu
  have hget : ∀ (i : Nat) (x : Locality.Mem Operand), (memsOf a)[i]? = some x → ∃ y, a.mems[i]? = some y ∧ x.ops = y.operands ∧
      x.avail = y.size.toNat * ((a.sizes.filter fun d => decide (d.1 ∉ y.served)).map Prod.snd).prod := by
    intro i x hx
    unfold memsOf at hx
    rw [List.getElem?_map, Option.map_eq_some_iff] at hx
    obtain ⟨y, y1, rfl⟩ := hx
    exact ⟨y, y1, rfl, rfl⟩
  have hb : Locality.isBranch net l = false := by
    unfold Locality.isBranch
    rw [k2, k3, e0]
    rw [Bool.or_eq_false_iff]
    refine ⟨by simpa using h1, ?_⟩
    split
    · rename_i v hv
      have := h2 v (by rw [hv]; simp)
      simpa using this
    · rfl
  have hnext : ∀ f b, Locality.nextAct net l f = some b → b = A := by
    intro f b hb
    unfold Locality.nextAct at hb
    split_ifs at hb with hf
    · cases hb
      rw [e1, u1]
    · cases hsu : net.succ l.id with
      | nil => rw [hsu] at hb; cases hb
      | cons v r =>
        rw [hsu] at hb
        simp only [Option.map_eq_some_iff] at hb
        obtain ⟨z, z1, z2⟩ := hb
        have hz : z ∈ net.order := List.mem_of_find?_eq_some z1
        obtain ⟨n', n1', n2', n3'⟩ := order_from k1 hz
        rw [← z2, (layerOf_fields n3').2.1, (U.names n' n1' n2').1]
  have hweights : Locality.storedWeights net = ((nodes.filter fun v => !v.dummy).map fun v => data v.node.layer (rl v) (rels v) W).sum := by
    unfold Locality.storedWeights
    have hf := mapM_forall2 k1
    have hin : ∀ v ∈ nodes.filter fun v => !v.dummy, v ∈ nodes ∧ v.dummy = false := by
      intro v hv
      obtain ⟨v1, v2⟩ := List.mem_filter.1 hv
      exact ⟨v1, by simpa using v2⟩
    revert hf hin
    generalize (nodes.filter fun v => !v.dummy) = vs
    generalize net.order = ls
    intro hf hin
    induction hf with
    | nil => rfl
    | @cons v l' vs' ls' hv _ ih =>
      obtain ⟨v1, v2⟩ := hin v List.mem_cons_self
      have hadd : l'.adder = false := by rw [(layerOf_fields hv).2.2.2.2, (U.names v v1 v2).2.2]
      rw [List.filter_cons, if_pos (by simp [hadd]), List.map_cons, List.sum_cons, List.map_cons, List.sum_cons, (hall v v1 v2 l' hv).2.1,
        ih fun x hx => hin x (List.mem_cons_of_mem _ hx)]
  have hholds : ∀ (f : Bool) (x : Locality.Mem Operand) (y : MemD Operand OA), x.ops = y.operands →
      x.avail = y.size.toNat * ((a.sizes.filter fun d => decide (d.1 ∉ y.served)).map Prod.snd).prod → A ∈ y.operands →
      ((if l.adder = true then l.outSize + l.actSize
        else (if l.act ∈ x.ops then l.actSize else 0) + l.outSize + (if l.weight ∈ x.ops then Locality.storedWeights net else 0)) ≤ x.avail ↔
      Room a nodes W (fun v op => data v.node.layer (rl v) (rels v) op) u A y) := by
    intro f x y x1 x2 hA
    unfold Room
    rw [e4, u3, if_neg (by simp), e1, u1, e2, u2, x1, x2, if_pos hA, s1, s3, hweights]
  obtain ⟨i, x, i1, i2, ⟨i3, ⟨b, i4, i5⟩, i6⟩, i7⟩ := Locality.out_lowest net hw s hs l hlo hb (by rw [e1, e2, u1, u2]; exact d1)
    (by rw [e1, e3, u1]; exact d2) (by rw [e2, e3, u2]; exact d3) (by
      intro x hx
      rw [k4] at hx
      obtain ⟨k, hk⟩ := List.mem_iff_getElem?.1 hx
      obtain ⟨y, y1, y2, -⟩ := hget k x hk
      rw [y2, e1, e2, e3, u1, u2]
      exact U.memories y (List.mem_of_getElem? y1))
  rw [k4] at i2
  obtain ⟨y, y1, y2, y3⟩ := hget i x i2
  have hbA := hnext _ b i4
  subst hbA
  rw [y2] at i5
  refine ⟨i, y, y1, ?_, i5, by rw [← y2, ← e3]; exact i3, (hholds true x y y2 y3 i5).1 i6, fun j m' hj hm' hA hO hR => ?_⟩
  · unfold levelFor
    rw [if_neg (by rw [u1]; exact fun h => d2 h.symm), if_pos rfl]
    rw [e0, e3] at i1
    exact i1
  · have hx' : (memsOf a)[j]? = some ⟨m'.operands, m'.size.toNat * Hierarchy.unrollCount a.sizes m'.served, decide (m'.served.length = a.sizes.length)⟩ := by
      unfold memsOf
      rw [List.getElem?_map, hm']
      rfl
    refine i7 j _ hj (by rw [k4]; exact hx') ⟨by rw [e3]; exact hO, ⟨b, i4, hA⟩, ?_⟩
    exact (hholds true _ m' rfl rfl hA).2 hR

end Verif.Reuse
