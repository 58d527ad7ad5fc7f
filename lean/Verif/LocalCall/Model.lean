import Verif.Call.Model
import Verif.Reuse.Model
import Verif.Roles.Model

/-! A whole call on the contents of the three files in which data stay in lower memories between layers (`exploit_data_locality`, or `enable_mix_spatial_mapping`):
`Call` with the stages of `Reuse`.  A layer is known by its place in the workload file.

Outside of this model, marked by `notImplemented`: what is outside of `Call`, and layers with the same id (the stages record levels by id,
/repo/zigzag/stages/exploit_data_locality_stages.py lines 44-46). -/

namespace Verif.LocalCall

open Call (LayerOptions nodeName linkOf nodesOf entryOf)
open Equation (Text)
open Files (Doc MapR)
open Latency (Operand)
open LayerBuild (LayerD)
open Net (Node)
open Reuse (LNode Graph)

/-- An entry of the workload file: name, type and layer. -/
abbrev Entry := Option String × String × LayerD

/-- The memory operands of activations and weights (exploit_data_locality_stages.py lines 84-88, 143-148), and whether no operand is constant (line 94); `getAct` and
`getWeight` are /repo/zigzag/workload/layer_node.py lines 197-239. -/
def roleOf (ms : List MapR) (y : Entry) : Except PyErr (Operand × Operand × Bool) :=
  match LayerBuild.build y.2.2 with
  | .error e => .error e
  | .ok b =>
    match Links.choose (nodeName y.1 y.2.2.id) y.2.1 (ms.map fun m => (m.name, m)) with
    | .error e => .error e
    | .ok (_, m) =>
      match Files.mapAttr m with
      | .error e => .error e
      | .ok attr =>
        match Roles.getAct (Roles.view y.2.2 b) with
        | .error e => .error e
        | .ok act =>
          match Roles.getWeight (Roles.view y.2.2 b) with
          | .error e => .error e
          | .ok weight =>
            match linkOf attr.links act with
            | .error e => .error e
            | .ok oa =>
              match linkOf attr.links weight with
              | .error e => .error e
              | .ok ow => .ok (oa, ow, (LayerBuild.constants y.2.2).isEmpty)

/-- A layer as the stages see it, for every layer of the file. `adapt` is what the kind of array changes of a layer. -/
def lnodesOf (adapt : Entry → Node String Text → Node String Text) (ms : List MapR) : List (Entry × Node String Text) → Nat → Except PyErr (List (LNode String Text))
  | [], _ => .ok []
  | x :: t, k =>
    match roleOf ms x.1 with
    | .error e => .error e
    | .ok r =>
      match lnodesOf adapt ms t (k + 1) with
      | .error e => .error e
      | .ok l => .ok (⟨adapt x.1 x.2, false, k, r.1, r.2.1, r.2.2⟩ :: l)

/-- Successors and predecessors in the order in which the edges were added (`DNNWorkload`, /repo/zigzag/workload/dnn_workload.py lines 20-38: there are no dummy
nodes, so the copy without them is the graph itself); the first node is the first layer of the file. -/
def graphOf (g : Workload.Graph) (root : LNode String Text) : Graph String Text where
  succ u := (g.edges.filter fun e => decide (e.1 = u)).map Prod.snd
  pred v := (g.edges.filter fun e => decide (e.2 = v)).map Prod.fst
  root := root

/-- What `WorkloadParserStage` makes of the files: the layers and their nodes, the graph and the order of the layers (/repo/zigzag/stages/parser/workload_parser.py
lines 37-69, /repo/zigzag/stages/workload_iterator.py lines 30-42). -/
structure Parsed where
  entries : List Entry
  maps : List MapR
  nodes : List (Node String Text)
  graph : Workload.Graph
  order : List Nat

/-- The workload as in `Call.workload`. -/
def workload (eqn : List Char → Bool) (rel : List Char → Option LayerBuild.RelD) (o : LayerOptions) (dw dm : Doc) : Except PyErr Parsed :=
  match Files.parseLayers eqn rel dw with
  | .error e => .error e
  | .ok ys =>
    match Files.parseMapping dm with
    | .error e => .error e
    | .ok ms =>
      match nodesOf o ms ys with
      | .error e => .error e
      | .ok ns =>
        match Workload.dnn (ys.map fun y => entryOf y.2.2) with
        | .error e => .error e
        | .ok g =>
          match Workload.schedule g (fun _ => false) (fun _ => false) with
          | .error e => .error e
          | .ok order => .ok ⟨ys, ms, ns, g, order⟩

/-- The graph and the layers in order for the stages for locality (exploit_data_locality_stages.py lines 38-69). -/
def prepare (adapt : Entry → Node String Text → Node String Text) (p : Parsed) : Except PyErr (Graph String Text × List (LNode String Text)) :=
  if ¬ (p.entries.map fun y => y.2.2.id).Nodup then .error .notImplemented
  else
    match lnodesOf adapt p.maps (p.entries.zip p.nodes) 0 with
    | .error e => .error e
    | .ok [] => .error .indexError
    | .ok (root :: l) => .ok (graphOf p.graph root, p.order.filterMap fun i => (root :: l)[i]?)

/-- `get_hardware_performance_zigzag` with the stages for locality (/repo/zigzag/api.py lines 26-159) on the contents of the files. -/
def call (cacti : String → String → Int → Int → Except PyErr (ℚ × ℚ × ℚ)) (eqn : List Char → Bool) (rel : List Char → Option LayerBuild.RelD)
    (fact : Nat → List (Nat × Nat)) (lo : LayerOptions) (o : Net.Options String Text) (opt : String) (da dw dm : Doc) (fuel : Nat) :
    Except PyErr (Reuse.Reply String Text) :=
  match Pipeline.Opt.parse opt with
  | .error e => .error e
  | .ok _ =>
    match workload eqn rel lo dw dm with
    | .error e => .error e
    | .ok p =>
      match Call.accelerator cacti da with
      | .error e => .error e
      | .ok a =>
        match Whole.accelerator (fun _ => (0, 0)) a with
        | .error e => .error e
        | .ok _ =>
          match prepare (fun _ n => n) p with
          | .error e => .error e
          | .ok x => Reuse.network (fun _ => (0, 0)) fact a o opt x.1 x.2 fuel

end Verif.LocalCall
