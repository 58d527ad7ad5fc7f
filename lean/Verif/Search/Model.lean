import Verif.Evaluate.Model
import Verif.Alloc.Model
import Verif.Ordering.Model
import Verif.TemporalMapping.Model

/-! From a spatial mapping to evaluated mappings: `TemporalMappingGeneratorStage.run` (/repo/zigzag/stages/mapping/temporal_mapping_generator_stage.py lines
40-82) and `CostModelStage.run` (/repo/zigzag/stages/evaluation/cost_model_evaluation.py lines 40-61), put together from the models of the engine
(`Engine`), the allocator (`Alloc`), the temporal mapping (`TemporalMapping`) and the evaluation (`Evaluate`).

The array is not one for in-memory computing. -/

namespace Verif.Search

open Evaluate (Hw Mem Job Result evaluate)
open LayerNode (Layer Rel lookup calcPr pyInt)
open MapInfo (Lv)
open Latency (Operand)

section
variable {Dim : Type} [DecidableEq Dim]

/-- What the two stages get: layer, spatial mapping and options. -/
structure Task (Dim : Type) where
  /-- `layer.layer_operands` -/
  ops : List Operand
  /-- `layer.input_operands` -/
  inputs : List Operand
  L : Layer Dim
  rel : Operand → Rel Dim
  precision : Operand → Nat
  finalPrecision : Nat
  /-- `spatial_mapping.mapping_dict_origin` and `spatial_mapping_int.mapping_dict_origin` -/
  su : Operand → Lv Dim
  suInt : Operand → Lv Dim
  noAccess : Bool
  cyclesPerOp : Nat
  /-- `temporal_mapping_type` is `EVEN` -/
  even : Bool

/-- `calc_tensor_dim` (/repo/zigzag/workload/layer_node.py lines 273-290) on the sizes of `calc_loops_size` (memory_allocator.py lines 229-233), a
`defaultdict` in which every dimension that is missing has size one. -/
def tensorDim (L : Layer Dim) (sizes : Dict Dim ℚ) (d : Dim) : Except PyErr ℚ :=
  match sizes.get? d with
  | some s => .ok s
  | none =>
    match L.pi.prLoop.get? d with
    | some (x, y) => do
      let (ca, cb) ← lookup L.pi.scaling d
      let p ← calcPr ca (pyInt ((sizes.get? x).getD 1)) cb (pyInt ((sizes.get? y).getD 1))
      let mx ← lookup L.prSizes d
      return min mx p
    | none => if (L.dimSizes.get? d).isSome then .ok 1 else .error .valueError

/-- `calc_tensor_size` (layer_node.py lines 267-271) on these sizes. -/
def tensorSize (L : Layer Dim) (rel : Rel Dim) (sizes : Dict Dim ℚ) : Except PyErr ℚ := do
  let l ← (rel.r ++ rel.pr.keys).mapM (tensorDim L sizes)
  return l.prod

/-- `MemoryAllocator.__init__` (memory_allocator.py lines 34-79).  `tensorSize` raises no exception for a layer that is well-formed (`tensor_ok`). -/
def allocEnv (t : Task Dim) : Alloc.Env Operand Dim where
  memOps := t.ops
  isOut op := decide (op = .out)
  prec op := t.precision op
  finalPrec := t.finalPrecision
  irDims op := (t.rel op).ir
  spatial := t.su
  tensor op sizes := ((tensorSize t.L (t.rel op) sizes).toOption).getD 0
  even := t.even

/-- A memory as the allocator sees it; `get_operand_top_level` (memory_hierarchy.py lines 149-156) is the memory whose level of the operand is the
last one. -/
def node (h : Hw) (m : Mem) : Alloc.Node Operand where
  ops := m.holds.map Prod.fst
  cap := m.size
  isTop op := decide ((op, (h.levels op).length - 1) ∈ m.holds)

/-- `MemoryAllocator.run` (memory_allocator.py lines 81-92); `topo` is `topological_sort()`. -/
def allocate (h : Hw) (topo : List Mem) (t : Task Dim) (order : List (Dim × ℚ)) : Except PyErr (Operand → Lv Dim) :=
  Alloc.run (allocEnv t) order (topo.map (node h))

/-- A number of passes after which the merge-down has ended (`passes_enough`). -/
def passes (ms : Dict Operand (Lv Dim)) : Nat := (ms.map fun p => p.2.length * p.2.flatten.length).sum + 1

/-- `TemporalMapping.__init__` (/repo/zigzag/mapping/temporal_mapping.py lines 22-42) and what is passed on to `CostModelEvaluation`. -/
def finish (t : Task Dim) (tm : Operand → Lv Dim) : Except PyErr (Job Dim) :=
  let ms := t.ops.map fun op => (op, tm op)
  match TemporalMapping.mergeLoop (fun op d => decide (d ∈ (t.rel op).ir)) (passes ms) ms with
  | none => .error .stopIteration
  | some out => do
    let total ← TemporalMapping.totalCycle (out.map fun q => (q.1, q.2.1))
    return {
      ops := t.ops, inputs := t.inputs, L := t.L, rel := t.rel, precision := t.precision, finalPrecision := t.finalPrecision
      su := t.su, suInt := t.suInt, tm := fun op => ((out.get? op).map Prod.fst).getD []
      stationary := fun op => ((out.get? op).map Prod.snd).getD 1, totalCycle := total, noAccess := t.noAccess, cyclesPerOp := t.cyclesPerOp }

/-- `MemoryAllocator.run` (memory_allocator.py lines 81-97) for one order of the loops: a complete one that the user gives
(temporal_mapping_generator_stage.py lines 60-74) or one of the engine (engine.py lines 100-109). -/
def mapOrder (h : Hw) (topo : List Mem) (t : Task Dim) (order : List (Dim × ℚ)) : Except PyErr (Job Dim) := do
  let tm ← allocate h topo t order
  finish t tm

end

/-! ### All orders -/

variable {D : Type} [LinearOrder D]

/-- `generate_temporal_mappings` (temporal_mapping_generator_stage.py lines 51-82) with this allocator: the mappings that are yielded and the exception at
the end.  `sizes` are the sizes of the layer, `spatial` is `spatial_loop_dim_size` and `data` the ordering of the user, from which the dimensions that the layer
does not have were removed (`remove_invalid_layer_dims`); no dimension of a layer is called `*`.  `none` if `fuel` was not enough for the enumeration. -/
def mappings (fact : Nat → List (Nat × Nat)) (h : Hw) (topo : List Mem) (t : Task D) (sizes : Dict D Int) (spatial : List (D × ℚ)) (limit : Option Nat)
    (data : List (Ordering.Entry D)) (fuel : Nat) : Option (List (Job D) × Option PyErr) :=
  Ordering.generate none fact sizes.keys sizes spatial limit data (fun o => mapOrder h topo t (Engine.toAlloc o)) fuel

/-- What the stages yield: one evaluation per mapping, until one raises an exception. -/
def evaluations (h : Hw) : List (Job D) → Option PyErr → List (Job D × Result) × Option PyErr
  | [], e => ([], e)
  | j :: js, e =>
    match evaluate h j with
    | .error x => ([], some x)
    | .ok r => ((j, r) :: (evaluations h js e).1, (evaluations h js e).2)

end Verif.Search
