import Verif.Whole.Model
import Verif.Hints.Model
import Verif.Pipeline.Model

/-! A whole call of the API on an accelerator file and the layers of a workload: the spatial mappings are generated from the accelerator file (`SpatialGen`, with the
hints of `Hints`), every one is converted and searched (`Whole`, `Search`), and the stages reduce and add up the results (`Pipeline`).

The layers are given (`LayerBuild`, `Onnx` and `LayerNode` are about where they come from), in topological order.  The diagonal mapping option is off.  (With `mix` the API also adds
the stages that look for locality between layers, /repo/zigzag/api.py lines 88-113; these are not part of this composition.) -/

namespace Verif.Net

open Evaluate (Job Result)
open Latency (Operand)
open Ports (MemD buildMem LvState)
open SpatialMapping (SM)
open SpatialGen (MemOp)
open Whole (AccD Acc LayerIn)

/-- A node of the workload with its entry of the mapping file (/repo/zigzag/workload/layer_node.py lines 36-60); `skip`: the node is not a `LayerNode`, or is
one for which only data is moved (/repo/zigzag/stages/workload_iterator.py lines 33-42). -/
structure Node (OA D : Type) where
  skip : Bool
  layer : LayerIn D
  mapping : SM OA D
  hints : Hints.Hint OA D

/-- The options of the call (/repo/zigzag/api.py lines 26-38) and the orders in which sets are traversed. -/
structure Options (OA D : Type) where
  mix : Bool
  nb : Nat
  limit : Option Nat
  order : SpatialMapping.Order OA D
  capOrder : List D → List D
  setOrder : List D → List D

variable {OA : Type} [DecidableEq OA] {D : Type} [DecidableEq D]

/-- Lines 197-205 and 266-275 of /repo/zigzag/stages/mapping/spatial_mapping_generation.py for one operand of a memory: the bandwidth is that of writing outputs
or of reading inputs.  It is `None` if no port does that; dividing it by the precision raises an exception (which the code only does if the precision is
positive and a served dimension has a relevant unrolling). -/
def memOp (l : LayerIn D) (m : MemD Operand OA) (st : LvState Operand) (op : Operand) : Except PyErr (MemOp OA D) :=
  match st.bw op (if op = .out then .wrLow else .rdLow) with
  | none => .error .typeError
  | some bw => .ok
    { bandwidth := bw.2.toNat, capacity := m.size.toNat, precision := l.precision op, irrelevant := (l.rel op).ir, served := m.served }

/-- All operands of a memory. -/
def opsOf (l : LayerIn D) (m : MemD Operand OA) (st : LvState Operand) : List Operand → Except PyErr (List (MemOp OA D))
  | [] => .ok []
  | op :: t =>
    match memOp l m st op with
    | .error e => .error e
    | .ok x =>
      match opsOf l m st t with
      | .error e => .error e
      | .ok r => .ok (x :: r)

/-- All innermost memories. -/
def innerOps (l : LayerIn D) : List (MemD Operand OA × Hierarchy.Mem Operand) → Except PyErr (List (MemOp OA D))
  | [] => .ok []
  | (m, n) :: t =>
    match buildMem m n.levels with
    | .error e => .error e
    | .ok st =>
      match opsOf l m st m.operands with
      | .error e => .error e
      | .ok x =>
        match innerOps l t with
        | .error e => .error e
        | .ok r => .ok (x ++ r)

/-- What `get_max_unrolling` and `limit_unrolling_to_mem_capacity` read (lines 196-205, 266-275), for the memories of `get_inner_memories`. -/
def memOps (a : AccD OA) (l : LayerIn D) : Except PyErr (List (MemOp OA D)) :=
  let g := Hierarchy.build (a.mems.map MemD.operands)
  innerOps l ((Hierarchy.innerMemories g).filterMap fun n => a.mems[n.id]?.map fun m => (m, n))

/-- `SpatialMappingGeneratorStage.__init__` and the list of generated mappings (lines 44-89). -/
def spatialMappings (o : Options OA D) (a : AccD OA) (n : Node OA D) : Except PyErr (List (SM OA D)) :=
  if o.nb = 0 then .error .assertion
  else match memOps a n.layer with
  | .error e => .error e
  | .ok ms =>
    let acc : Hints.Acc OA D := ⟨ms, a.sizes, o.mix, o.nb, o.order, o.capOrder⟩
    let st := Hints.fresh n.mapping n.hints
    Hints.generateChecked n.layer.sizes acc { st with hints := Hints.construct o.setOrder n.layer.sizes.keys a.sizes.keys st.hints }

variable {D : Type} [LinearOrder D]

/-- The stages around the generated mappings: the conversion and the search yield mappings, of which the evaluation reports the total energy and the latency with
loading (/repo/zigzag/stages/results/reduce_stages.py lines 30-129); an enumeration for which `fuel` is not enough yields nothing. -/
def env (fact : Nat → List (Nat × Nat)) (a : AccD OA) (c : Acc OA) (o : Options OA D) (fuel : Nat) :
    Pipeline.Env (Node OA D) (SM OA D) (Job D) (Job D × Result) where
  skip n := n.skip
  spatial n := spatialMappings o a n
  temporal n sm :=
    match Whole.task a c n.layer sm with
    | .error e => ([], some e)
    | .ok t =>
      match Search.mappings fact c.hw c.topo t (n.layer.sizes.map fun e => (e.1, (e.2 : Int))) (Whole.spatialLoops t) o.limit n.layer.order fuel with
      | none => ([], some .runtimeError)
      | some r => r
  cost _ _ j :=
    match Evaluate.evaluate c.hw j with
    | .error e => .error e
    | .ok r => .ok ⟨⟨r.energy.total, r.overall.latency2, true⟩, (j, r)⟩

/-- What the call returns. -/
abbrev Reply (OA D : Type) := Pipeline.Answer (Job D × Result) (Node OA D × Pipeline.Info (Job D × Result) (SM OA D) (Job D))

/-- `get_hardware_performance_zigzag` (api.py lines 26-159): the accelerator is built before the workload is processed. -/
def network (cacti : MemD Operand OA → ℚ × ℚ) (fact : Nat → List (Nat × Nat)) (a : AccD OA) (o : Options OA D) (opt : String) (nodes : List (Node OA D))
    (fuel : Nat) : Except PyErr (Reply OA D) :=
  match Whole.accelerator cacti a with
  | .error e => .error e
  | .ok c => Pipeline.api opt false (env fact a c o fuel) nodes

end Verif.Net
