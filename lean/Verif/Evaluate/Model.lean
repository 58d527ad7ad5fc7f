import Verif.Transfer.Model
import Verif.Latency.Model
import Verif.Buffer.Model

/-! The whole evaluation of a mapping: `CostModelEvaluation.__init__` and `run` (/repo/zigzag/cost_model/cost_model.py lines 316-376), put together from
the models of its parts: `MapInfo` (mapping.py), `Energy` (lines 483-605), `Buffer` (lines 437-481 and 631-663), `Transfer` and `Window` (lines
665-803) and `Latency` (lines 805-1113).

A layer operand is identified with its memory operand (`MemoryOperandLinks` is a bijection); the output of the layer is linked to `O`.
Memories are given as they are after their ports have been allocated (`Ports`) and their levels numbered (`Hierarchy`).  Python floats are exact
rationals, `cycles_per_op` is a whole number.  The subclass for in-memory computing is not modelled here (`Imc`). -/

namespace Verif.Evaluate

open Cme (Dir FourWay)
open MapInfo (Cfg Lv Pattern tables precisions psumFlags isR isIr effective inputMoves outputMoves)
open Decouple (TDim decouple layerEnv pyGet)
open LayerNode (Layer Rel)
open Latency (Operand Key)

variable {Dim : Type} [DecidableEq Dim]

/-- `MemoryPort` (/repo/zigzag/hardware/architecture/memory_port.py lines 26-62). -/
structure Port where
  bwMax : Nat
  bwMin : Nat
  served : List Key
  deriving DecidableEq

/-- `MemoryLevel` (/repo/zigzag/hardware/architecture/memory_level.py lines 47-92); `holds` is `mem_level_of_operands`. -/
structure Mem where
  size : Nat
  readEnergy : ℚ
  writeEnergy : ℚ
  holds : List (Operand × Nat)
  ports : List Port
  deriving DecidableEq

/-- The accelerator: `memory_hierarchy.mem_level_list`, `get_memory_levels(op)`, `operational_array.total_unit_count` and `unit.energy_cost`. -/
structure Hw where
  mems : List Mem
  levels : Operand → List Mem
  units : Nat
  macEnergy : ℚ

/-- `bandwidths_max[op][dir]`, `bandwidths_min[op][dir]` (memory_level.py lines 94-125): the port to which the direction is allocated. -/
def Mem.bw (f : Port → Nat) (m : Mem) (op : Operand) (d : Dir) : Option Nat :=
  (m.ports.find? fun p => p.served.any fun k => decide (k.1 = op ∧ k.2.2 = d)).map f

/-- `accelerator.get_memory_level(op, lv).get_max_bandwidth(op, dir)` or `get_min_bandwidth`. -/
def Hw.bw (f : Port → Nat) (h : Hw) (op : Operand) (lv : Nat) (d : Dir) : Option Nat := ((h.levels op)[lv]?).bind fun m => m.bw f op d

/-- All ports, memory by memory. -/
def Hw.ports (h : Hw) : List Port := h.mems.flatMap Mem.ports

/-- What the evaluation gets besides the accelerator (cost_model.py lines 316-327). -/
structure Job (Dim : Type) where
  /-- `layer.layer_operands` -/
  ops : List Operand
  /-- `layer.input_operands` -/
  inputs : List Operand
  L : Layer Dim
  rel : Operand → Rel Dim
  precision : Operand → Nat
  finalPrecision : Nat
  /-- `spatial_mapping.mapping_dict_origin` and `spatial_mapping_int.mapping_dict_origin` -/
  su : Operand → Lv Dim
  suInt : Operand → Lv Dim
  /-- `temporal_mapping.mapping_dic_stationary`, `mac_level_data_stationary_cycle` and `total_cycle` -/
  tm : Operand → Lv Dim
  stationary : Operand → ℚ
  totalCycle : ℚ
  noAccess : Bool
  cyclesPerOp : Nat

/-- The constructor of `Mapping` for one operand (lines 348-361): with the fractional or with the integer spatial mapping. -/
def cfg (h : Hw) (j : Job Dim) (int : Bool) (op : Operand) : Cfg Dim where
  L := j.L
  rel := j.rel op
  su := if int then j.suInt op else j.su op
  tm := j.tm op
  stationary := j.stationary op
  totalCycle := j.totalCycle
  precision := j.precision op
  finalPrecision := j.finalPrecision
  noAccess := j.noAccess
  bw := fun lv => (h.bw Port.bwMax op lv .rdToLow).map (Nat.cast : Nat → ℚ)

/-- The tables of `Mapping` that are used by the evaluation, for one operand. -/
structure OpInfo (Dim : Type) where
  /-- `spatial_mapping.mapping_dict_reform[op]` -/
  reform : Lv (TDim Dim)
  /-- `unit_mem_data_movement[op]` -/
  moves : List Pattern
  /-- `data_bit_per_level_unrolled[op]` -/
  bits : List ℚ
  /-- `effective_data_bit[op]` -/
  effBits : List ℤ

/-- /repo/zigzag/mapping/mapping.py lines 41-84 for one operand, with `SpatialMappingInternal` (spatial_mapping_internal.py lines 15-41). -/
def opInfo (c : Cfg Dim) (out : Bool) : Except PyErr (OpInfo Dim) := do
  let rs ← decouple (layerEnv c.L c.rel) c.su
  let _ ← SpatialInternal.serveScope (isR c) rs
  let t ← tables c
  let prec ← precisions c (if out then some (psumFlags (isIr c) t.ra) else none)
  let bits ← t.unrolled.zipIdx.mapM (fun x => do
    let p ← pyGet prec x.2
    return (x.1 : ℚ) * p)
  let _ ← effective c (t.unrolled.map fun (n : ℤ) => (n : ℚ))
  let eff ← effective c bits
  let ps ← if out then outputMoves c else inputMoves c
  return { reform := rs, moves := ps, bits := bits, effBits := eff }

/-- All operands of the layer. -/
def mapping (h : Hw) (j : Job Dim) (int : Bool) : Except PyErr (Dict Operand (OpInfo Dim)) :=
  j.ops.mapM fun op => do
    let i ← opInfo (cfg h j int op) (decide (op = .out))
    return (op, i)

/-- Operand and level (lines 447-448). -/
def places (j : Job Dim) : List (Operand × Nat) := j.ops.flatMap fun op => (List.range (j.tm op).length).map fun lv => (op, lv)

/-- `mem_sharing_tuple` without memory operands that are not linked (lines 460-475): the memories that hold several operands (C68). -/
def groups (h : Hw) (j : Job Dim) : List (List (Operand × Nat)) :=
  (h.mems.filter fun m => decide (1 < m.holds.length)).map fun m => m.holds.filter fun p => decide (p.1 ∈ j.ops)

/-- `mem_size_dict[op][lv]`. -/
def sizeOf (h : Hw) (p : Operand × Nat) : ℚ := (((h.levels p.1)[p.2]?).map fun m => (m.size : ℚ)).getD 0

/-- A table entry for a memory level; the first entry of the table is the array. -/
def bitsAt (l : Option (List ℚ)) (lv : Nat) : ℚ := ((l.getD [])[lv + 1]?).getD 0

/-- `effective_mem_utilization["individual"]` (lines 452-455). -/
def effUtil (h : Hw) (m : Dict Operand (OpInfo Dim)) : Operand × Nat → ℚ :=
  Buffer.individual (fun p => bitsAt ((m.get? p.1).map fun i => i.effBits.map fun (n : ℤ) => (n : ℚ)) p.2) (sizeOf h)

/-- `mem_utilization["individual"]` (lines 449-451). -/
def util (h : Hw) (m : Dict Operand (OpInfo Dim)) : Operand × Nat → ℚ :=
  Buffer.individual (fun p => bitsAt ((m.get? p.1).map OpInfo.bits) p.2) (sizeOf h)

/-- Lines 447-475: a missing memory or a level outside the mapping raises `IndexError`, a memory of size zero `ZeroDivisionError`. -/
def checkUtil (h : Hw) (j : Job Dim) : Except PyErr Unit :=
  if (places j).any fun p => decide ((h.levels p.1).length ≤ p.2) then .error .indexError
  else if (places j).any fun p => decide (sizeOf h p = 0) then .error .zeroDivision
  else if (groups h j).any fun g => g.any fun p => decide ((j.tm p.1).length ≤ p.2) then .error .indexError
  else .ok ()

/-- `double_buffer_true[op]` (lines 631-663). -/
def flags (h : Hw) (j : Job Dim) (m : Dict Operand (OpInfo Dim)) (op : Operand) : List Bool :=
  false :: (List.range (j.tm op).length).map fun lv => Buffer.flags (groups h j) (effUtil h m) (places j) (op, lv)

/-- What `calc_memory_word_access` and `calc_memory_energy_cost` read for one operand (lines 483-605). -/
def opData (h : Hw) (op : Operand) (i : OpInfo Dim) : Energy.OpData where
  moves := i.moves.map fun p => { amount := p.amount, precision := p.precision, count := p.periodCount }
  levels := (h.levels op).map fun m =>
    { readEnergy := m.readEnergy, writeEnergy := m.writeEnergy, bwMax := m.bw Port.bwMax op, bwMin := m.bw Port.bwMin op }
  units := (SpatialInternal.unitCount i.reform).map fun (n : ℤ) => (n : ℚ)

/-- `layer.total_mac_count` (/repo/zigzag/workload/layer_node.py). -/
def macs (j : Job Dim) : Nat := ⌊j.L.dimSizes.values.prod⌋₊

/-- `unit_mem_data_movement[op][lv]`. -/
def pattern (m : Dict Operand (OpInfo Dim)) (op : Operand) (lv : Nat) : Option Pattern := (m.get? op).bind fun i => i.moves[lv]?

/-- Lines 733-760: the movements of one port; memory operands that are not linked are left out. -/
def duties (h : Hw) (j : Job Dim) (it : Dict Operand (OpInfo Dim)) (fl : Operand → List Bool) : List Key → Except PyErr (List (Window.Duty Key))
  | [] => .ok []
  | k :: ks =>
    if k.1 ∈ j.ops then
      match pattern it k.1 k.2.1 with
      | none => .error .indexError
      | some p => do
        let d ← Transfer.duty k (h.bw Port.bwMax k.1 k.2.1) (fl k.1) k.2.1 p k.2.2
        let rest ← duties h j it fl ks
        return d :: rest
    else duties h j it fl ks

/-- Lines 727-803: the movements of every port and the combined stall. -/
def stall (h : Hw) (j : Job Dim) (it : Dict Operand (OpInfo Dim)) (fl : Operand → List Bool) : Except PyErr Int := do
  let ds ← h.ports.mapM fun p => duties h j it fl p.served
  Window.stallComb (ds.map (Window.activities (· * j.cyclesPerOp)))

/-- What the loading computation reads (lines 805-961). -/
def info (h : Hw) (j : Job Dim) (it : Dict Operand (OpInfo Dim)) (st : Int) : Latency.Info where
  count k := ((pattern it k.1 k.2.1).map fun p => ⌊p.periodCount.get k.2.2⌋.toNat).getD 0
  real k := ((pattern it k.1 k.2.1).map fun p => (Transfer.realCycles (h.bw Port.bwMax k.1 k.2.1) p k.2.2).toNat).getD 0
  reqBw k := ((pattern it k.1 k.2.1).map fun p => ⌈p.bwAver.get k.2.2 / j.cyclesPerOp⌉.toNat).getD 0
  bits op := ⌊bitsAt ((it.get? op).map OpInfo.bits) 0⌋.toNat
  compute := j.totalCycle * j.cyclesPerOp + st

/-- Line 939: `mem_to_layer_op` of a memory operand that is not linked raises `KeyError`, whatever the layer needs from the port. -/
def checkLinks (h : Hw) (j : Job Dim) : Except PyErr Unit :=
  if h.ports.any fun p => p.served.any fun k => decide (k.1 ∉ j.ops) then .error .keyError else .ok ()

/-- What is reported. -/
structure Result where
  /-- `mem_utili_individual` and `mem_utili_shared` -/
  util : Operand × Nat → ℚ
  utilShared : Operand × Nat → ℚ
  energy : Energy.Energies Operand
  flags : Operand → List Bool
  stall : Int
  overall : Latency.Overall

/-- `CostModelEvaluation(...)` (lines 316-376). -/
def evaluate (h : Hw) (j : Job Dim) : Except PyErr Result := do
  let fr ← mapping h j false
  let it ← mapping h j true
  let _ ← SpatialInternal.checkBottom (it.map fun e => e.2.reform)
  checkUtil h j
  let en ← Energy.energy (fr.map fun e => (e.1, opData h e.1 e.2)) h.macEnergy (macs j)
  let fl := flags h j fr
  let st ← stall h j it fl
  checkLinks h j
  let ov ← Latency.latency (info h j it st) (h.ports.map fun p => ⟨p.bwMax, p.served⟩) (j.inputs.map fun op => (op, (j.tm op).length - 1))
    ((j.tm .out).length - 1) (macs j) h.units ⌊j.totalCycle⌋₊ j.cyclesPerOp st
  return { util := util h fr, utilShared := Buffer.shared (groups h j) (util h fr), energy := en, flags := fl, stall := st, overall := ov }

end Verif.Evaluate
