import Verif.Onnx.Model
import Verif.Workload.Model

/-!
From an ONNX model to a workload: the loop over the nodes (/repo/zigzag/parser/onnx/onnx_model_parser.py lines 25-110), the choice of the parser, dummy nodes
(/repo/zigzag/parser/onnx/default_node_parser.py, /repo/zigzag/workload/dummy_node.py lines 23-42) and the flattening of `If` operators
(/repo/zigzag/parser/onnx/utils.py lines 26-82).

The layers are those of `Verif.Onnx`, the graph is that of `Verif.Workload`.  The mapping of a layer (`create_mapping_attr`, workload_factory.py lines 88-111) is a
parameter that may raise.  `onnx.compose.merge_graphs` is a parameter.
-/

namespace Verif.OnnxModel

open Verif.Onnx Verif.LayerBuild Verif.Workload

/-- A node of the model: operator, name (empty if it has none), tensors and attributes. -/
structure OpNode where
  op : String
  name : String
  input : List String
  output : List String
  attrs : List (String × AttrVal)

/-- The classes in `PARSER_MAPPING` (onnx_model_parser.py lines 25-30) and the default (lines 53-57). -/
inductive Parser where
  | conv
  | gemm
  | dummy
deriving DecidableEq, Repr

/-- `get_parser_class` (lines 53-57); `MatMulParser` is `GemmParser` (matmul_parser.py). -/
def parserOf (op : String) : Parser :=
  if op = "QLinearConv" ∨ op = "Conv" then .conv else if op = "MatMul" ∨ op = "Gemm" then .gemm else .dummy

/-- The part of a node that the graph depends on. -/
def ONode.ofOp (n : OpNode) : ONode := ⟨decide (parserOf n.op ≠ .dummy), n.input, n.output⟩

/-- What a node of the model becomes: a `LayerNode` with its description, or a `DummyNode` with its sources (dummy_node.py lines 23-42). -/
inductive Parsed where
  | layer (name type : String) (data : LayerD) (built : Built)
  | dummy (name type : String) (sources : List (String × Nat))

/-- `self.node.name` (onnx_operator_parser.py lines 31-32). -/
def nameOf (k : Nat) (n : OpNode) : String := if n.name = "" then "Op" ++ toString k else n.name

/-- `DummyNode.__init__` (dummy_node.py lines 23-35). -/
def dummySources : List Nat → List (String × Nat)
  | [] => []
  | [p] => [("I", p)]
  | p :: q :: _ => [("I", p), ("W", q)]

/-- `op_type.lower()` (default_node_parser.py line 19); names of operators are ASCII. -/
def lower (s : String) : String := String.ofList (s.toList.map Char.toLower)

/-- `parser.run()` (onnx_model_parser.py line 99): `LayerNodeFactory.create` builds the attributes, then the mapping, then the layer (workload_factory.py lines 60-68). -/
def parseNode (mapping : String → String → Except PyErr Unit) (m : OModel) (nodes : List OpNode) (k : Nat) (n : OpNode) : Except PyErr Parsed :=
  let preds := predecessors (nodes.map ONode.ofOp) k
  let finish (r : Except PyErr LayerD) : Except PyErr Parsed :=
    match r with
    | .error e => .error e
    | .ok d =>
      match mapping (nameOf k n) n.op with
      | .error e => .error e
      | .ok _ =>
        match build d with
        | .error e => .error e
        | .ok b => .ok (.layer (nameOf k n) n.op d b)
  match parserOf n.op with
  | .conv => finish (conv ⟨k, n.input, n.output, n.attrs⟩ preds m)
  | .gemm => finish (gemm ⟨k, n.input, n.output, n.attrs⟩ preds m)
  | .dummy => .ok (.dummy (nameOf k n) (lower n.op) (dummySources preds))

/-- `parse_workload_from_onnx_model_and_mapping` (onnx_model_parser.py lines 80-101) for the remaining nodes. -/
def loop (mapping : String → String → Except PyErr Unit) (m : OModel) (nodes : List OpNode) (k : Nat) (b : Builder) : List OpNode → Except PyErr (List Parsed × Builder)
  | [] => .ok ([], b)
  | n :: ns =>
    match parseNode mapping m nodes k n with
    | .error e => .error e
    | .ok p =>
      match sources (decide (parserOf n.op ≠ .dummy)) k (predecessors (nodes.map ONode.ofOp) k) with
      | .error e => .error e
      | .ok ss =>
        match addLayer .keyError b k k ss with
        | .error e => .error e
        | .ok b' =>
          match loop mapping m nodes (k + 1) b' ns with
          | .error e => .error e
          | .ok (ps, b'') => .ok (p :: ps, b'')

/-- The whole model: parsed nodes and graph. -/
def parse (mapping : String → String → Except PyErr Unit) (m : OModel) (nodes : List OpNode) : Except PyErr (List Parsed × Graph) :=
  match loop mapping m nodes 0 emptyBuilder nodes with
  | .error e => .error e
  | .ok (ps, b) => .ok (ps, b.graph)

/-! ### Conditional branches -/

mutual

/-- A graph: nodes, names of its inputs, outputs and of the tensors in `value_info`. -/
inductive G where
  | mk (nodes : List GN) (inputs outputs infos : List String)

/-- A node: operator, inputs, outputs and the graphs of its first attributes (the branches of an `If`). -/
inductive GN where
  | mk (op : String) (input output : List String) (graphs : List G)

end

def G.nodes : G → List GN
  | .mk ns _ _ _ => ns

def G.inputs : G → List String
  | .mk _ i _ _ => i

def G.outputs : G → List String
  | .mk _ _ o _ => o

def G.infos : G → List String
  | .mk _ _ _ v => v

def GN.op : GN → String
  | .mk o _ _ _ => o

def GN.input : GN → List String
  | .mk _ i _ _ => i

def GN.graphs : GN → List G
  | .mk _ _ _ g => g

/-- Lines 50-62 of onnx/utils.py for the unrolled larger branch: `graph.results` is no field of a `GraphProto`, so that line 56 raises `AttributeError`. -/
def attach (merge : G → G → String → Except PyErr G) (graph g0 : G) : Except PyErr G :=
  match g0.nodes with
  | [] => .error .indexError
  | source :: _ =>
    match source.input with
    | [] => .error .indexError
    | name :: _ =>
      if name ∉ graph.infos then .error .stopIteration
      else if name ∉ graph.outputs then .error .attributeError
      else if name ∈ g0.inputs then merge graph g0 name
      else merge graph (.mk g0.nodes (g0.inputs ++ [name]) g0.outputs g0.infos) name

mutual

/-- `unroll_branches` (lines 36-63): the loop ends at the first `If`. -/
def unroll (merge : G → G → String → Except PyErr G) : G → Except PyErr G
  | .mk nodes i o v => unrollNodes merge (.mk nodes i o v) nodes

/-- The loop over the nodes (lines 39-62). -/
def unrollNodes (merge : G → G → String → Except PyErr G) (graph : G) : List GN → Except PyErr G
  | [] => .ok graph
  | .mk op _ _ graphs :: rest => if op = "If" then unrollIf merge graph graphs else unrollNodes merge graph rest

/-- Lines 44-62: the larger of the first two graphs.  If there is only one, the attribute added by `add_branch_attribute` (line 28) is taken for the second and its graph
is empty; if there is none, `node.attribute[1]` does not exist. -/
def unrollIf (merge : G → G → String → Except PyErr G) (graph : G) : List G → Except PyErr G
  | [] => .error .indexError
  | [g0] =>
    match unroll merge g0 with
    | .error e => .error e
    | .ok g => attach merge graph g
  | g0 :: g1 :: _ =>
    if g1.nodes.length > g0.nodes.length then
      match unroll merge g1 with
      | .error e => .error e
      | .ok g => attach merge graph g
    else
      match unroll merge g0 with
      | .error e => .error e
      | .ok g => attach merge graph g

end

/-- `parse_dynamic_onnx_model` (lines 70-82); the added attribute `branch` is not read by any parser. -/
def dynamic (merge : G → G → String → Except PyErr G) (g : G) : Except PyErr G :=
  if (g.nodes.map GN.op).contains "If" then unroll merge g else .ok g

end Verif.OnnxModel
