import Verif.Net.Model
import Verif.Locality.Model

/-! Whole calls in which data stay in lower memories between layers (`exploit_data_locality`, `enable_mix_spatial_mapping`, `in_memory_compute`): the two stages of
`Locality` (/repo/zigzag/stages/exploit_data_locality_stages.py) put in their places in /repo/zigzag/api.py (lines 88-125) around the stages of `Net`.

The graph without dummy nodes (`get_copy_no_dummy`, C61) is given by its neighbours.  All outputs are called `O`. -/

namespace Verif.Reuse

open Evaluate (Job Result)
open Latency (Operand)
open Net (Node Options)
open Ports (MemD)
open SpatialMapping (SM)
open Whole (AccD Acc LayerIn)

/-- A node of the workload with what the two stages read: the id, the operands for activations and weights (`get_act_layer_op` and `get_weight_layer_op`,
/repo/zigzag/workload/layer_node.py lines 202-230), whether no operand is constant, and whether it is a dummy node. -/
structure LNode (OA D : Type) where
  node : Node OA D
  dummy : Bool
  id : Nat
  act : Operand
  weight : Operand
  adder : Bool

/-- The graph without dummy nodes; `root` is the first node of its list of nodes (exploit_data_locality_stages.py line 51). -/
structure Graph (OA D : Type) where
  succ : Nat → List Nat
  pred : Nat → List Nat
  root : LNode OA D

section
variable {OA : Type} [DecidableEq OA] {D : Type} [DecidableEq D]

/-- `operand_size_bit` (layer_node.py lines 330-336). -/
def bits (l : LayerIn D) (op : Operand) : Except PyErr Nat :=
  match LayerNode.operandSizeElem l.L (l.rel op) with
  | .error e => .error e
  | .ok s => .ok ⌊s * l.precision op⌋.toNat

/-- The sizes of several operands. -/
def bitsAll (l : LayerIn D) : List Operand → Except PyErr Nat
  | [] => .ok 0
  | op :: t =>
    match bits l op with
    | .error e => .error e
    | .ok k =>
      match bitsAll l t with
      | .error e => .error e
      | .ok r => .ok (k + r)

/-- What `__calc_sizes_per_layer` records for a layer (exploit_data_locality_stages.py lines 82-110). -/
def layerOf (n : LNode OA D) : Except PyErr (Locality.Layer Operand) := do
  let ia ← if n.adder then bitsAll n.node.layer n.node.layer.inputs else bits n.node.layer n.act
  let iw ← if n.adder then .ok 0 else bits n.node.layer n.weight
  let io ← bits n.node.layer .out
  return { id := n.id, act := n.act, weight := n.weight, out := .out, adder := n.adder, actSize := ia, weightSize := iw, outSize := io }

/-- The memories as the stage sees them: operands, `size * unroll_count` and whether all dimensions are served (lines 173-175, 226-231). -/
def memsOf (a : AccD OA) : List (Locality.Mem Operand) :=
  a.mems.map fun m => ⟨m.operands, m.size.toNat * Hierarchy.unrollCount a.sizes m.served, decide (m.served.length = a.sizes.length)⟩

/-- `SearchInterLayerDataLocalityStage.__init__` (lines 27-69). -/
def stage (a : AccD OA) (g : Graph OA D) (nodes : List (LNode OA D)) : Except PyErr (Locality.Net Operand) :=
  match (nodes.filter fun n => !n.dummy).mapM layerOf with
  | .error e => .error e
  | .ok order =>
    if order = [] then .error .indexError
    else .ok
      { order := order, succ := g.succ, pred := g.pred, mems := memsOf a
        topAct := Locality.topLevel (memsOf a) g.root.act, topOut := Locality.topLevel (memsOf a) .out, topWeight := Locality.topLevel (memsOf a) g.root.weight }

/-- `SearchInterLayerDataLocalityStage.run` up to the next stage (lines 112-130); `StopIteration` in a generator is a `RuntimeError`. -/
def plan (a : AccD OA) (g : Graph OA D) (nodes : List (LNode OA D)) : Except PyErr (Locality.St Operand) :=
  match stage a g nodes with
  | .error e => .error e
  | .ok net =>
    match Locality.run net false with
    | .error .stopIteration => .error .runtimeError
    | .error e => .error e
    | .ok s => .ok s

/-- A memory that is added to the new hierarchy (lines 343-371): a copy of the memory with its prices, for fewer operands, whose ports are allocated as before. -/
def restrict (cacti : MemD Operand OA → ℚ × ℚ) (ops : List Operand) (m : MemD Operand OA) : MemD Operand OA :=
  { m with
    auto := false, rCost := some (Whole.prices cacti m).1, wCost := some (Whole.prices cacti m).2, operands := ops
    ports := m.ports.map fun p => { p with alloc := p.alloc.filter fun x => decide (x.1 ∈ ops) } }

/-- `generate_accelerator_with_removing_unused_memory` (lines 300-385) for given levels, written as an accelerator file. -/
def pruned (cacti : MemD Operand OA → ℚ × ℚ) (a : AccD OA) (l : Locality.Layer Operand) (t : Int × Int × Int) : AccD OA :=
  { a with
    mems := (a.mems.zipIdx.map fun m => restrict cacti (Locality.pruneOps m.1.operands l t.1 t.2.1 t.2.2 m.2) m.1).filter fun m => decide (m.operands ≠ []) }

/-- The accelerator for a layer (lines 300-333). -/
def reduced (cacti : MemD Operand OA → ℚ × ℚ) (a : AccD OA) (s : Locality.St Operand) (n : LNode OA D) : Except PyErr (AccD OA) :=
  match layerOf n with
  | .error e => .error e
  | .ok l =>
    match Locality.targets s l with
    | .error e => .error e
    | .ok t => .ok (pruned cacti a l t)

/-- The accelerator for a layer, as a file and built. -/
def built (cacti : MemD Operand OA → ℚ × ℚ) (a : AccD OA) (s : Locality.St Operand) (n : LNode OA D) : Except PyErr (AccD OA × Acc OA) :=
  match reduced cacti a s n with
  | .error e => .error e
  | .ok b =>
    match Whole.accelerator cacti b with
    | .error e => .error e
    | .ok c => .ok (b, c)

end

variable {OA : Type} [DecidableEq OA] {D : Type} [LinearOrder D]

/-- The stages below `WorkloadStage`: `ExploitInterLayerDataLocalityStage` passes the accelerator for the layer to the stages of `Net.env` (lines 288-298). -/
def env (cacti : MemD Operand OA → ℚ × ℚ) (fact : Nat → List (Nat × Nat)) (a : AccD OA) (s : Locality.St Operand) (o : Options OA D) (fuel : Nat) :
    Pipeline.Env (LNode OA D) (SM OA D) (Job D) (Job D × Result) where
  skip n := n.node.skip
  spatial n :=
    match built cacti a s n with
    | .error e => .error e
    | .ok b => (Net.env fact b.1 b.2 o fuel).spatial n.node
  temporal n sm :=
    match built cacti a s n with
    | .error e => ([], some e)
    | .ok b => (Net.env fact b.1 b.2 o fuel).temporal n.node sm
  cost n sm j :=
    match built cacti a s n with
    | .error e => .error e
    | .ok b => (Net.env fact b.1 b.2 o fuel).cost n.node sm j

/-- What the call returns. -/
abbrev Reply (OA D : Type) := Pipeline.Answer (Job D × Result) (LNode OA D × Pipeline.Info (Job D × Result) (SM OA D) (Job D))

/-- `get_hardware_performance_zigzag` with the stages for locality (api.py lines 26-159). -/
def network (cacti : MemD Operand OA → ℚ × ℚ) (fact : Nat → List (Nat × Nat)) (a : AccD OA) (o : Options OA D) (opt : String) (g : Graph OA D)
    (nodes : List (LNode OA D)) (fuel : Nat) : Except PyErr (Reply OA D) :=
  match Whole.accelerator cacti a with
  | .error e => .error e
  | .ok _ =>
    match plan a g nodes with
    | .error e => .error e
    | .ok s => Pipeline.api opt false (env cacti fact a s o fuel) nodes

end Verif.Reuse
