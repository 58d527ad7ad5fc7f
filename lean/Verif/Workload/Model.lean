import Verif.Base.Topo

/-! Workload graphs: /repo/zigzag/workload/dnn_workload.py, onnx_workload.py, dummy_node.py, the graph part of parser/workload_factory.py and of
parser/onnx/onnx_operator_parser.py and onnx_model_parser.py, and stages/workload_iterator.py.  A node object is known by its position in the list it
comes from (objects are compared by identity).  Attributes of layers that do not concern the graph are not modelled. -/

namespace Verif.Workload

/-- A networkx graph: nodes in insertion order, every edge once. -/
structure Graph where
  nodes : List Nat
  edges : List (Nat × Nat)
deriving Repr, DecidableEq

/-- `add_edge`: adding an edge again changes nothing. -/
def Graph.addEdge (g : Graph) (e : Nat × Nat) : Graph := if e ∈ g.edges then g else { g with edges := g.edges ++ [e] }

def Graph.addNode (g : Graph) (v : Nat) : Graph := if v ∈ g.nodes then g else { g with nodes := g.nodes ++ [v] }

/-- The part of a validated layer entry that matters here: `id` and the values of `operand_source`. -/
structure Entry where
  id : Nat
  source : List Nat
deriving Repr, DecidableEq

/-- `create_operand_source` (workload_factory.py lines 156-162): a layer that names itself as a source has a constant operand there. -/
def Entry.inputs (e : Entry) : List Nat := e.source.filter fun s => decide (s ≠ e.id)

/-- The state of the constructor loop of `DNNWorkload` (dnn_workload.py lines 20-33): table from id to object, graph. -/
structure Builder where
  table : Dict Nat Nat
  graph : Graph

/-- Lines 26-30: one source of a layer.  The table gives the object with this id. -/
def lookup (table : Dict Nat Nat) (missing : PyErr) : List Nat → Except PyErr (List Nat)
  | [] => .ok []
  | s :: ss =>
    match table.get? s with
    | none => .error missing
    | some p =>
      match lookup table missing ss with
      | .error e => .error e
      | .ok ps => .ok (p :: ps)

/-- Body of both constructors (dnn_workload.py lines 20-33, onnx_workload.py lines 21-33): register the node, look up its sources, add the edges.
A source that is not registered is an assertion error in the first and a key error in the second. -/
def addLayer (missing : PyErr) (b : Builder) (obj id : Nat) (sources : List Nat) : Except PyErr Builder :=
  let table := b.table.set id obj
  match lookup table missing sources with
  | .error e => .error e
  | .ok ps => .ok ⟨table, (ps.map fun p => (p, obj)).foldl Graph.addEdge (b.graph.addNode obj)⟩

def emptyBuilder : Builder := ⟨[], ⟨[], []⟩⟩

/-- `WorkloadFactory.create` and `DNNWorkload.__init__` for the remaining entries; `k` is the number of entries done. -/
def dnnLoop (k : Nat) (b : Builder) : List Entry → Except PyErr Builder
  | [] => .ok b
  | e :: es =>
    match addLayer .assertion b k e.id e.inputs with
    | .error err => .error err
    | .ok b' => dnnLoop (k + 1) b' es

def dnn (es : List Entry) : Except PyErr Graph :=
  match dnnLoop 0 emptyBuilder es with
  | .error e => .error e
  | .ok b => .ok b.graph

/-! ### ONNX models -/

/-- An ONNX node: whether it becomes a layer (`PARSER_MAPPING`, onnx_model_parser.py lines 25-30) or a dummy node, and its tensor names. -/
structure ONode where
  layer : Bool
  input : List String
  output : List String
deriving Repr, DecidableEq

/-- `get_node_predecessors` (onnx_operator_parser.py lines 68-75) for node `k`; the outputs of the node itself are already in the table
(onnx_model_parser.py line 86). -/
def predecessors (nodes : List ONode) (k : Nat) : List Nat :=
  match nodes[k]? with
  | none => []
  | some n => n.input.flatMap fun t => (List.range (k + 1)).filter fun i => ((nodes[i]?).map fun m => decide (t ∈ m.output)).getD false

/-- The values of `input_operand_source` of the parsed node: `DummyNode.__init__` (dummy_node.py lines 23-33) or
`get_operand_source_user_format` (onnx_operator_parser.py lines 77-91) followed by `create_operand_source`. -/
def sources (layer : Bool) (k : Nat) (preds : List Nat) : Except PyErr (List Nat) :=
  if layer then
    match preds with
    | [] => .ok (Entry.inputs ⟨k, [k, k]⟩)
    | [p] => .ok (Entry.inputs ⟨k, [k, p]⟩)
    | [p, q] => .ok (Entry.inputs ⟨k, [q, p]⟩)
    | _ => .error .valueError
  else
    match preds with
    | [] => .ok []
    | [p] => .ok [p]
    | p :: q :: _ => .ok [p, q]

/-- `parse_workload_from_onnx_model_and_mapping` (onnx_model_parser.py lines 84-104) for the remaining nodes. -/
def onnxLoop (nodes : List ONode) (k : Nat) (b : Builder) : List ONode → Except PyErr Builder
  | [] => .ok b
  | n :: ns =>
    match sources n.layer k (predecessors nodes k) with
    | .error e => .error e
    | .ok ss =>
      match addLayer .keyError b k k ss with
      | .error e => .error e
      | .ok b' => onnxLoop nodes (k + 1) b' ns

def onnx (nodes : List ONode) : Except PyErr Graph :=
  match onnxLoop nodes 0 emptyBuilder nodes with
  | .error e => .error e
  | .ok b => .ok b.graph

/-! ### Dummy nodes -/

def preds (g : Graph) (v : Nat) : List Nat := (g.edges.filter fun e => decide (e.2 = v)).map Prod.fst

def succs (g : Graph) (v : Nat) : List Nat := (g.edges.filter fun e => decide (e.1 = v)).map Prod.snd

/-- Body of the loop over dummy nodes (onnx_workload.py lines 44-47).  The edges added do not change the neighbours of the dummy node. -/
def bypass (g : Graph) (d : Nat) : Graph := ((succs g d).flatMap fun s => (preds g d).map fun p => (p, s)).foldl Graph.addEdge g

/-- `remove_nodes_from` -/
def Graph.remove (g : Graph) (ds : List Nat) : Graph :=
  ⟨g.nodes.filter fun v => decide (v ∉ ds), g.edges.filter fun e => decide (e.1 ∉ ds ∧ e.2 ∉ ds)⟩

/-- `get_copy_no_dummy` (onnx_workload.py lines 36-52) -/
def noDummy (g : Graph) (isDummy : Nat → Bool) : Graph :=
  let ds := g.nodes.filter isDummy
  (ds.foldl bypass g).remove ds

/-- `WorkloadStage.run` (workload_iterator.py lines 32-55): the layers handed to the next stages, in order.  `skip` is true for pooling and addition
layers on an in-memory-computing array. -/
def schedule (g : Graph) (isDummy skip : Nat → Bool) : Except PyErr (List Nat) :=
  match Topo.topoSort g.nodes g.edges with
  | .error e => .error e
  | .ok order => .ok (order.filter fun v => !isDummy v && !skip v)

end Verif.Workload
