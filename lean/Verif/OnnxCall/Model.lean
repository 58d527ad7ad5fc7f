import Verif.Call.Model
import Verif.OnnxModel.Model

/-! A whole call of the API on an ONNX model, an accelerator file and a mapping file: the nodes of the model are parsed one after the other (`Onnx`), layers get
their entries of the mapping file (`Call.nodeOf`), the graph is built and sorted (`Workload`); then the stages of `Net` run.

The ONNX model is given with the shapes of the tensors that are stored in it (/repo/zigzag/parser/onnx/utils.py lines 15-16; nothing is inferred).  Outside of this model, marked by `notImplemented`: operators `If` (`OnnxModel.dynamic`) and what `Call` leaves out. -/

namespace Verif.OnnxCall

open Call (LayerOptions nodeOf)
open Equation (Text)
open Files (Doc MapR)
open LayerBuild (LayerD)
open Net (Node)
open Onnx (OModel)
open OnnxModel (OpNode Parser parserOf nameOf)
open Workload (ONode)

/-- `get_layer_node_user_format` of the parser of a node (/repo/zigzag/parser/onnx/onnx_model_parser.py lines 84-99); `none`: the node is no layer. -/
def dataOf (m : OModel) (nodes : List OpNode) (k : Nat) (n : OpNode) : Option (Except PyErr LayerD) :=
  let preds := Workload.predecessors (nodes.map OnnxModel.ONode.ofOp) k
  match parserOf n.op with
  | .conv => some (Onnx.conv ⟨k, n.input, n.output, n.attrs⟩ preds m)
  | .gemm => some (Onnx.gemm ⟨k, n.input, n.output, n.attrs⟩ preds m)
  | .dummy => none

/-- `parser.run()` (line 99): `none` for a `DummyNode`. -/
def parseNode (lo : LayerOptions) (ms : List MapR) (m : OModel) (nodes : List OpNode) (k : Nat) (n : OpNode) : Except PyErr (Option (Node String Text)) :=
  match dataOf m nodes k n with
  | none => .ok none
  | some (.error e) => .error e
  | some (.ok d) =>
    match nodeOf lo ms (some (nameOf k n), n.op, d) with
    | .error e => .error e
    | .ok x => .ok (some x)

/-- The loop over the nodes (lines 84-101).  The edges are added in the loop as well; that raises no other exception than parsing the node does
(`Workload.onnx_ok_iff`), so that all nodes can be parsed first. -/
def parseNodes (lo : LayerOptions) (ms : List MapR) (m : OModel) (nodes : List OpNode) : Nat → List OpNode → Except PyErr (List (Option (Node String Text)))
  | _, [] => .ok []
  | k, n :: t =>
    match parseNode lo ms m nodes k n with
    | .error e => .error e
    | .ok x =>
      match parseNodes lo ms m nodes (k + 1) t with
      | .error e => .error e
      | .ok xs => .ok (x :: xs)

/-- `ONNXModelParser.run` (lines 45-52, 84-110) and the order of `WorkloadStage` (/repo/zigzag/stages/workload_iterator.py lines 30-36): nodes that are no layers are
skipped. -/
def workload (lo : LayerOptions) (m : OModel) (nodes : List OpNode) (dm : Doc) : Except PyErr (List (Node String Text)) :=
  if (nodes.map OpNode.op).contains "If" then .error .notImplemented
  else match Files.parseMapping dm with
  | .error e => .error e
  | .ok ms =>
    match parseNodes lo ms m nodes 0 nodes with
    | .error e => .error e
    | .ok ns =>
      match Workload.onnx (nodes.map OnnxModel.ONode.ofOp) with
      | .error e => .error e
      | .ok g =>
        match Workload.schedule g (fun i => (ns[i]?.bind id).isNone) (fun _ => false) with
        | .error e => .error e
        | .ok order => .ok (order.filterMap fun i => ns[i]?.bind id)

/-- `get_hardware_performance_zigzag` (/repo/zigzag/api.py lines 26-159) with a workload that is an ONNX model (lines 77-82). -/
def call (cacti : String → String → Int → Int → Except PyErr (ℚ × ℚ × ℚ)) (fact : Nat → List (Nat × Nat)) (lo : LayerOptions) (o : Net.Options String Text) (opt : String)
    (da : Doc) (m : OModel) (nodes : List OpNode) (dm : Doc) (fuel : Nat) : Except PyErr (Net.Reply String Text) :=
  match Pipeline.Opt.parse opt with
  | .error e => .error e
  | .ok _ =>
    match workload lo m nodes dm with
    | .error e => .error e
    | .ok ns =>
      match Call.accelerator cacti da with
      | .error e => .error e
      | .ok a => Net.network (fun _ => (0, 0)) fact a o opt ns fuel

end Verif.OnnxCall
