import Verif.Hierarchy.Model
import Verif.Ports.Model
import Verif.Conversion.Model
import Verif.Search.Model

/-! From the files of the user to evaluated mappings.  The memories of an accelerator file are numbered (`Hierarchy`), their ports are allocated (`Ports`) and the
result is what the search and the evaluation use; the spatial mapping of the user is converted (`Conversion`) and the search (`Search`) is run with it.

The schema checks of the files are assumed to have succeeded.  A layer operand is identified with its memory operand.  The prices of memories whose costs are
extracted automatically are a parameter (`cacti`).  The served dimensions of a memory are listed in the order in which the set is traversed. -/

namespace Verif.Whole

open Evaluate (Hw Mem Port Job Result)
open LayerNode (Layer Rel)
open MapInfo (Lv)
open Latency (Operand)
open Ports (MemD buildMem)
open SpatialMapping (SM)

/-- The accelerator file: `memories` and `operational_array` (/repo/zigzag/parser/accelerator_validator.py lines 14-131). -/
structure AccD (OA : Type) where
  mems : List (MemD Operand OA)
  sizes : Dict OA Nat
  macEnergy : ℚ

/-- The names of the four directions in the two models of `DataDirection`. -/
def dirOf : Ports.Dir → Cme.Dir
  | .rdLow => .rdToLow
  | .wrLow => .wrByLow
  | .rdHigh => .rdToHigh
  | .wrHigh => .wrByHigh

section
variable {OA : Type} [DecidableEq OA]

/-- `MemoryInstance.__init__` (/repo/zigzag/hardware/architecture/memory_instance.py lines 27-92): the prices of reading and writing. -/
def prices (cacti : MemD Operand OA → ℚ × ℚ) (m : MemD Operand OA) : ℚ × ℚ := if m.auto then cacti m else (m.rCost.getD 0, m.wCost.getD 0)

/-- `MemoryLevel.__init__` (/repo/zigzag/hardware/architecture/memory_level.py lines 47-117) for an entry of the file (`add_memory_to_graph`,
/repo/zigzag/parser/accelerator_factory.py lines 155-196): unused ports are removed.  The automatic extraction of costs needs a port for reading
(memory_instance.py lines 61-68). -/
def memOf (cacti : MemD Operand OA → ℚ × ℚ) (m : MemD Operand OA) (levels : Dict Operand Nat) : Except PyErr Mem :=
  if m.auto ∧ ∀ p ∈ m.ports, p.type = .write then .error .valueError
  else match buildMem m levels with
  | .error e => .error e
  | .ok st => .ok
    { size := m.size.toNat, readEnergy := (prices cacti m).1, writeEnergy := (prices cacti m).2, holds := levels
      ports := (m.ports.zipIdx.filter fun p => st.used p.2).map fun p =>
        { bwMax := p.1.bwMax.toNat, bwMin := p.1.bwMin.toNat, served := (st.served p.2).map fun k => (k.1, k.2.1, dirOf k.2.2) } }

/-- The memories one after the other (accelerator_factory.py lines 57-61). -/
def memsOf (cacti : MemD Operand OA → ℚ × ℚ) : List (MemD Operand OA) → List (Hierarchy.Mem Operand) → Except PyErr (List Mem)
  | m :: ms, n :: ns =>
    match memOf cacti m n.levels with
    | .error e => .error e
    | .ok x =>
      match memsOf cacti ms ns with
      | .error e => .error e
      | .ok xs => .ok (x :: xs)
  | _, _ => .ok []

/-- An accelerator with its memories in topological order and the array dimensions served by the levels of an operand. -/
structure Acc (OA : Type) where
  hw : Hw
  topo : List Mem
  served : Operand → List (List OA)

/-- `AcceleratorFactory.create` (accelerator_factory.py lines 46-69) and `Accelerator.__init__` (/repo/zigzag/hardware/architecture/accelerator.py lines 29-74):
`get_memory_levels` lists the memories of an operand in topological order. -/
def accelerator (cacti : MemD Operand OA → ℚ × ℚ) (a : AccD OA) : Except PyErr (Acc OA) :=
  let g := Hierarchy.build (a.mems.map MemD.operands)
  match memsOf cacti a.mems g.nodes with
  | .error e => .error e
  | .ok ms =>
    match Topo.topoSort (g.nodes.map Hierarchy.Mem.id) g.edges with
    | .error e => .error e
    | .ok order =>
      let topo := order.filterMap fun i => ms[i]?
      .ok
        { hw := ⟨ms, fun op => topo.filter fun m => decide (op ∈ m.holds.map Prod.fst), Hierarchy.totalUnits a.sizes, a.macEnergy⟩
          topo := topo
          served := fun op => ((order.filterMap fun i => a.mems[i]?).filter fun m => decide (op ∈ m.operands)).map MemD.served }

variable {Dim : Type} [DecidableEq Dim]

/-- The layer and the options, without the spatial mapping. -/
structure LayerIn (Dim : Type) where
  ops : List Operand
  inputs : List Operand
  L : Layer Dim
  rel : Operand → Rel Dim
  precision : Operand → Nat
  finalPrecision : Nat
  noAccess : Bool
  cyclesPerOp : Nat
  even : Bool
  /-- `layer.temporal_ordering` (/repo/zigzag/workload/layer_node.py line 174), from which the dimensions that the layer does not have were removed -/
  order : List (Ordering.Entry Dim) := []

/-- The sizes of the layer as whole numbers. -/
def LayerIn.sizes (l : LayerIn Dim) : Dict Dim Nat := l.L.dimSizes.map fun e => (e.1, e.2.num.toNat)

/-- Which decoupled loops are relevant for an operand; only the layer matters. -/
def isR (L : Layer Dim) (rel : Rel Dim) : Decouple.TDim Dim → Bool
  | .orig d => d ∈ rel.r
  | .r k => k ∈ L.pi.prLoop.keys
  | .ir _ => false

/-- `SpatialMappingInternal.__init__` (/repo/zigzag/mapping/spatial_mapping_internal.py lines 15-41): what can raise an exception. -/
def internal (l : LayerIn Dim) (su : Operand → Lv Dim) : Except PyErr Unit := do
  let ms ← l.ops.mapM fun op => Decouple.decouple (Decouple.layerEnv l.L (l.rel op)) (su op)
  let _ ← SpatialInternal.checkBottom ms
  let _ ← (l.ops.zip ms).mapM fun p => SpatialInternal.serveScope (isR l.L (l.rel p.1)) p.2
  let _ ← (l.ops.zip ms).mapM fun p => SpatialInternal.bwBoost (isR l.L (l.rel p.1)) p.2
  return ()

/-- `convert_user_spatial_mapping` (/repo/zigzag/stages/mapping/spatial_mapping_conversion.py lines 65-133) for all operands. -/
def task (a : AccD OA) (c : Acc OA) (l : LayerIn Dim) (user : SM OA Dim) : Except PyErr (Search.Task Dim) := do
  let lims ← Conversion.convert a.sizes l.sizes user
  let su := fun op => Conversion.perMemLvl (c.served op) lims.1
  let suInt := fun op => Conversion.perMemLvl (c.served op) lims.2
  internal l su
  internal l suInt
  return { ops := l.ops, inputs := l.inputs, L := l.L, rel := l.rel, precision := l.precision, finalPrecision := l.finalPrecision
           su := su, suInt := suInt, noAccess := l.noAccess, cyclesPerOp := l.cyclesPerOp, even := l.even }

/-- `save_spatial_loop_dim_size` (spatial_mapping_internal.py lines 175-184): the loops of the first input operand. -/
def spatialLoops (t : Search.Task Dim) : List (Dim × ℚ) :=
  match t.inputs with
  | [] => []
  | op :: _ => (t.su op).flatten

end

variable {OA : Type} [DecidableEq OA] {D : Type} [LinearOrder D]

/-- From the files to the evaluated mappings (accelerator parser, `SpatialMappingConversionStage`, `TemporalMappingGeneratorStage`, `CostModelStage`); `none` if
`fuel` was not enough for the enumeration of orders.  The first component are the mappings that are yielded with their evaluation, the second one the
exception at the end. -/
def run (cacti : MemD Operand OA → ℚ × ℚ) (fact : Nat → List (Nat × Nat)) (a : AccD OA) (l : LayerIn D) (user : SM OA D) (limit : Option Nat) (fuel : Nat) :
    Option (List (Job D × Result) × Option PyErr) :=
  match accelerator cacti a with
  | .error e => some ([], some e)
  | .ok c =>
    match task a c l user with
    | .error e => some ([], some e)
    | .ok t =>
      match Search.mappings fact c.hw c.topo t (l.sizes.map fun e => (e.1, (e.2 : Int))) (spatialLoops t) limit l.order fuel with
      | none => none
      | some r => some (Search.evaluations c.hw r.1 r.2)

end Verif.Whole
