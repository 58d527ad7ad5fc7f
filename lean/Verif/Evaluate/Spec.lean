import Verif.Evaluate.Model
import Verif.Transfer.Props

/-! What an accelerator, a layer and a mapping have to satisfy for an evaluation, independent of how it is computed. -/

namespace Verif.Evaluate

open Cme (Dir)
open LayerNode (Relation)
open MapInfo (Shape iters)
open Transfer (WholeLoops)
open Latency (Operand Key)

variable {Dim : Type} [DecidableEq Dim]

/-- An accelerator as it is built: the levels of the operands are the memories, numbered from below, a memory is one level of an operand, every
movement is served by one port, and no bandwidth, size or number of units is zero. -/
structure Built (h : Hw) : Prop where
  inside : ∀ op, ∀ m ∈ h.levels op, m ∈ h.mems
  numbered : ∀ m ∈ h.mems, ∀ p ∈ m.holds, (h.levels p.1)[p.2]? = some m
  single : ∀ m ∈ h.mems, (m.holds.map Prod.fst).Nodup
  served : ∀ m ∈ h.mems, ∀ p ∈ m.ports, ∀ k ∈ p.served, (k.1, k.2.1) ∈ m.holds
  once : (h.ports.flatMap Port.served).Nodup
  bw : ∀ p ∈ h.ports, p.bwMax ≠ 0 ∧ p.bwMin ≠ 0
  size : ∀ m ∈ h.mems, m.size ≠ 0
  units : h.units ≠ 0

/-- The directions in which an operand moves through a memory, which may be the outermost one. -/
def needed (op : Operand) (top : Bool) : List Dir :=
  (if op = .out then [.wrByLow, .rdToLow] else [.rdToLow]) ++ (if top then [] else if op = .out then [.rdToHigh, .wrByHigh] else [.wrByHigh])

/-- A layer whose operands, with the indices `rl` and the relations `rels` between dimensions, are mapped to the accelerator; the temporal loops,
innermost first, are `loops`, and all operands have the same product of spatial loops after truncation, that of `array`. -/
structure Mapped (h : Hw) (j : Job Dim) (rl : Operand → List Dim) (rels : List (Relation Dim)) (loops array : List (Dim × ℚ)) : Prop where
  built : Built h
  ops : j.ops.Nodup
  out : Operand.out ∈ j.ops
  inputs : j.inputs ≠ [] ∧ ∀ op ∈ j.inputs, op ∈ j.ops ∧ op ≠ .out
  shape : ∀ int, ∀ op ∈ j.ops, Shape (cfg h j int op) (rl op) rels
  sizes : ∀ r ∈ rels, ∃ m, j.L.prSizes.get? r.dim1 = some m ∧ 0 < m
  whole : WholeLoops loops
  tm : ∀ op ∈ j.ops, (j.tm op).flatten = loops ∧ (j.tm op).length = (h.levels op).length ∧ 0 < (h.levels op).length
  stationary : ∀ op ∈ j.ops, ∃ k, j.stationary op = iters (loops.take k)
  total : j.totalCycle = iters loops
  array : ∀ op ∈ j.ops, iters (j.suInt op).flatten = iters array
  serves : ∀ op ∈ j.ops, ∀ lv m, (h.levels op)[lv]? = some m → ∀ d ∈ needed op (decide (lv + 1 = (h.levels op).length)),
    ∃ p ∈ m.ports, (op, lv, d) ∈ p.served
  cycles : 0 < j.cyclesPerOp

/-- Moreover every memory operand of the accelerator is an operand of the layer. -/
structure Ready (h : Hw) (j : Job Dim) (rl : Operand → List Dim) (rels : List (Relation Dim)) (loops array : List (Dim × ℚ)) : Prop
    extends Mapped h j rl rels loops array where
  linked : ∀ p ∈ h.ports, ∀ k ∈ p.served, k.1 ∈ j.ops

/-- The memory with other maximal bandwidths of its ports. -/
def Mem.widen (f : Port → Nat) (m : Mem) : Mem := { m with ports := m.ports.map fun p => { p with bwMax := f p } }

/-- The accelerator with other maximal bandwidths of its ports (ports that serve something differ in what they serve). -/
def Hw.widen (f : Port → Nat) (h : Hw) : Hw := { h with mems := h.mems.map (Mem.widen f), levels := fun op => (h.levels op).map (Mem.widen f) }

/-- The memory with another size. -/
def Mem.resize (f : Mem → Nat) (m : Mem) : Mem := { m with size := f m }

/-- The accelerator with other sizes of its memories. -/
def Hw.resize (f : Mem → Nat) (h : Hw) : Hw := { h with mems := h.mems.map (Mem.resize f), levels := fun op => (h.levels op).map (Mem.resize f) }

/-- The memory with other prices of reading and writing. -/
def Mem.price (g : Mem → ℚ × ℚ) (m : Mem) : Mem := { m with readEnergy := (g m).1, writeEnergy := (g m).2 }

/-- The accelerator with other prices of accesses and of a multiplication. -/
def Hw.price (g : Mem → ℚ × ℚ) (mac : ℚ) (h : Hw) : Hw :=
  { h with mems := h.mems.map (Mem.price g), levels := fun op => (h.levels op).map (Mem.price g), macEnergy := mac }

end Verif.Evaluate
