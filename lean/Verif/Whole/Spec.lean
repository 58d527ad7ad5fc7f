import Verif.Whole.Model
import Verif.Search.Spec
import Verif.Hierarchy.Props
import Verif.Conversion.Props
import Verif.Ordering.Follow

/-! What the files of the user have to satisfy, independent of how they are processed. -/

namespace Verif.Whole

open Evaluate (needed)
open LayerNode (Relation extractPr extractRel axisOf Axis)
open Latency (Operand)
open Ports (MemD PortD)
open SpatialMapping (SM)

variable {OA : Type} [DecidableEq OA] {Dim : Type} [DecidableEq Dim]

/-- An entry for a memory: ports with different names and positive bandwidths, for movements of stored operands only, no movement declared for two ports; a
port for reading if the costs are to be extracted. -/
structure MemOk (m : MemD Operand OA) : Prop where
  names : (m.ports.map PortD.name).Nodup
  only : ∀ p ∈ m.ports, ∀ a ∈ p.alloc, a.1 ∈ m.operands
  unique : ∀ p ∈ m.ports, ∀ q ∈ m.ports, ∀ a, a ∈ p.alloc → a ∈ q.alloc → p = q
  bw : ∀ p ∈ m.ports, 1 ≤ p.bwMin ∧ 1 ≤ p.bwMax
  size : 1 ≤ m.size
  readable : m.auto = true → ∃ p ∈ m.ports, p.type ≠ .write

/-- The movements that the four directions of an accelerator file stand for (/repo/zigzag/hardware/architecture/memory_port.py lines 15-19): reading for the lower level,
writing from the lower level, reading for the higher level and writing from the higher level. -/
def meaning : Ports.Dir → Cme.Dir
  | .rdLow => .rdToLow
  | .wrLow => .wrByLow
  | .rdHigh => .rdToHigh
  | .wrHigh => .wrByHigh

/-- A memory of the accelerator is one of the file: size, prices unless they are to be extracted, and the ports with their bandwidths and movements. -/
structure IsEntry (m : MemD Operand OA) (x : Evaluate.Mem) : Prop where
  size : (x.size : Int) = m.size
  price : m.auto = false → x.readEnergy = m.rCost.getD 0 ∧ x.writeEnergy = m.wCost.getD 0
  ports : ∀ p ∈ x.ports, ∃ q ∈ m.ports, (p.bwMax : Int) = q.bwMax ∧ (p.bwMin : Int) = q.bwMin ∧
    ∀ k ∈ p.served, ∃ y ∈ q.alloc, y.1 = k.1 ∧ meaning y.2 = k.2.2

/-- The entries of the file with an operand, in the order of the file. -/
def storing (a : AccD OA) (op : Operand) : List (MemD Operand OA) := a.mems.filter fun m => decide (op ∈ m.operands)

/-- An accelerator file: the memories are listed so that their topological order is that of the levels (C39), and every movement that is needed is declared;
the last memory of the list with an operand has no memory above it. -/
structure AccOk (a : AccD OA) : Prop where
  mems : ∀ m ∈ a.mems, MemOk m
  aligned : ∀ op, Hierarchy.Aligned (Hierarchy.build (a.mems.map MemD.operands)) op
  declared : ∀ pre m post, a.mems = pre ++ m :: post → ∀ op ∈ m.operands, ∀ d ∈ needed op (decide (∀ m' ∈ post, op ∉ m'.operands)),
    ∃ p ∈ m.ports, ∃ x ∈ p.alloc, x.1 = op ∧ meaning x.2 = d
  units : ∀ e ∈ a.sizes, 1 ≤ e.2
  dims : a.sizes.WF

/-- A layer: `rl` are the indices of the operands and `rels` the relations between dimensions. -/
structure LayerOk (l : LayerIn Dim) (rl : Operand → List Dim) (rels : List (Relation Dim)) : Prop where
  ops : l.ops.Nodup
  out : Operand.out ∈ l.ops
  inputs : l.inputs ≠ [] ∧ ∀ op ∈ l.inputs, op ∈ l.ops ∧ op ≠ .out
  names : (rels.map Relation.dim1).Nodup
  pi : l.L.pi = extractPr rels
  wf : l.L.dimSizes.WF
  some : l.L.dimSizes ≠ []
  whole : ∀ e ∈ l.L.dimSizes, ∃ n : ℕ, 1 ≤ n ∧ e.2 = n
  related : ∀ r ∈ rels, r.dim2 ∈ l.L.dimSizes.keys ∧ r.dim3 ∈ l.L.dimSizes.keys ∧ r.dim1 ∉ l.L.dimSizes.keys ∧ 1 ≤ r.coef2
  sizes : ∀ r ∈ rels, ∃ m : ℕ, l.L.prSizes.get? r.dim1 = Option.some (m : ℚ) ∧ 1 ≤ m
  rel : ∀ op ∈ l.ops, extractRel (rl op) l.L.dimSizes (extractPr rels) = .ok (l.rel op)
  index : ∀ op ∈ l.ops, (rl op).Nodup
  mix : ∀ op ∈ l.ops, (∀ r ∈ rels, r.dim1 ∈ rl op) ∨ (∀ r ∈ rels, r.dim1 ∉ rl op)
  vars : ∀ op ∈ l.ops, (((rl op).map (axisOf rels)).flatMap Axis.vars).Nodup
  dims : ∀ op ∈ l.ops, ∀ d ∈ rl op, (∀ r ∈ rels, r.dim1 ≠ d) → d ∈ l.L.dimSizes.keys
  cycles : 0 < l.cyclesPerOp

/-- Accelerator, layer and spatial mapping of the user fit together: the operands of the layer are those that the memories store, and the mapping has whole
unrollings which the array and the layer are large enough for (what `SpatialMapping.is_valid` checks, C21). -/
structure InputOk (a : AccD OA) (l : LayerIn Dim) (user : SM OA Dim) (rl : Operand → List Dim) (rels : List (Relation Dim)) : Prop where
  acc : AccOk a
  layer : LayerOk l rl rels
  stored : ∀ op ∈ l.ops, ∃ m ∈ a.mems, op ∈ m.operands
  linked : ∀ m ∈ a.mems, ∀ op ∈ m.operands, op ∈ l.ops
  mapping : Conversion.Good a.sizes l.sizes user
  array : ∀ e ∈ user, ∀ s, a.sizes.get? e.1 = Option.some s → (e.2.map Prod.snd).prod ≤ s

/-- The ordering of the user is one that is followed (`Ordering.Followed`): there is none, it only says which dimensions come first, or it lists exactly the
temporal loops that are needed with the spatial mapping. -/
def Follows {D : Type} [LinearOrder D] (cacti : MemD Operand OA → ℚ × ℚ) (a : AccD OA) (l : LayerIn D) (user : SM OA D) : Prop :=
  (∀ e ∈ l.order, e.2 = none) ∨ ∃ c t loops, accelerator cacti a = .ok c ∧ task a c l user = .ok t ∧
    TemporalLoops.lomaTemporalLoops (l.sizes.map fun e => (e.1, (e.2 : Int))) (spatialLoops t) = .ok loops ∧ Ordering.Complete l.order loops

theorem Follows.task {D : Type} [LinearOrder D] {cacti : MemD Operand OA → ℚ × ℚ} {a : AccD OA} {l : LayerIn D} {user : SM OA D} (h : Follows cacti a l user)
    {c : Acc OA} (hc : accelerator cacti a = .ok c) {t : Search.Task D} (ht : Whole.task a c l user = .ok t) :
    Ordering.Followed (l.sizes.map fun e => (e.1, (e.2 : Int))) (spatialLoops t) l.order := by
  rcases h with h | ⟨c', t', loops, h1, h2, h3, h4⟩
  · exact Or.inl h
  · rw [hc] at h1
    cases h1
    rw [ht] at h2
    cases h2
    exact Or.inr ⟨loops, h3, h4⟩

end Verif.Whole
