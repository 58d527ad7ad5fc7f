import Verif.OnnxCall.Model
import Verif.Call.Spec
import Verif.Onnx.Spec
import Verif.Workload.Props

/-! What an ONNX model says, and when it fits an accelerator and a mapping file. -/

namespace Verif.OnnxCall

open Call (LayerOptions opName nodeName)
open Equation (Text)
open Files (Doc MapR MapAttr)
open Latency (Operand)
open LayerNode (Relation extractPr extractRel)
open Net (Node Innermost)
open Onnx (OModel AttrVal ConvOp Precisions)
open OnnxModel (OpNode)
open Whole (AccD)

/-- The value of an attribute of a node. -/
def attr (n : OpNode) (name : String) : Option AttrVal := (n.attrs.find? fun a => a.1 == name).map Prod.snd

/-- An attribute with its value, or its default if it is left out. -/
def Attr (n : OpNode) (name : String) (v dflt : AttrVal) : Prop := attr n name = some v ∨ attr n name = none ∧ v = dflt

/-- The shape of a tensor of the model. -/
def Shape (m : OModel) (t : Option String) (s : List Nat) : Prop :=
  ∃ x, t = some x ∧ ((m.inputs ++ m.outputs ++ m.hidden ++ m.inits).find? fun y => y.1 == x) = some (x, s)

/-- What a layer of the model computes: a convolution, or a product of matrices `D × C` and `C × K` with leading dimensions. -/
inductive Op where
  | conv (c : ConvOp)
  | product (lead : List Nat) (D C K : Nat)

/-- A size that is not known counts as one. -/
def size (n : Nat) : Nat := if n = 0 then 1 else n

/-- The number of multiplications. -/
def Op.macs : Op → Nat
  | .conv c => c.macs
  | .product lead D C K => (lead.map size).prod * D * C * K

/-- The node is a convolution with the attributes and shapes of `c`. -/
structure IsConv (m : OModel) (n : OpNode) (c : ConvOp) : Prop where
  op : n.op = "Conv" ∨ n.op = "QLinearConv"
  valid : c.Valid
  kernel : attr n "kernel_shape" = some (.ints c.kernel)
  strides : Attr n "strides" (.ints c.strides) (.ints [1, 1])
  dilations : Attr n "dilations" (.ints c.dilations) (.ints [1, 1])
  group : Attr n "group" (.int c.g) (.int 1)
  pads : Attr n "pads" (.ints c.pads) (.ints [0, 0, 0, 0])
  input : Shape m n.input[0]? c.ia
  output : Shape m n.output[0]? c.oa

/-- The node is a product of matrices with up to two leading dimensions; the first matrix may be stored transposed. -/
structure IsProduct (m : OModel) (n : OpNode) (lead : List Nat) (D C K : Nat) : Prop where
  op : n.op = "MatMul" ∨ n.op = "Gemm"
  pos : 0 < D ∧ 0 < C ∧ 0 < K
  rank : lead.length ≤ 2
  input : (Attr n "transA" (.int 0) (.int 0) ∧ Shape m n.input[0]? (lead ++ [D, C])) ∨
    (∃ t, t ≠ 0 ∧ attr n "transA" = some (.int t) ∧ lead = [] ∧ Shape m n.input[0]? [C, D])
  output : Shape m n.output[0]? (lead ++ [D, K])

/-- The precisions of a node: those written as attributes, else 8 bits, and twice the bits of the activations for partial sums. -/
structure Precise (n : OpNode) (p : Precisions) : Prop where
  act : Attr n "act_size" (.int p.act) (.int 8)
  weight : Attr n "weight_size" (.int p.weight) (.int 8)
  inter : Attr n "output_size" (.int p.inter) (.int (2 * p.act))

/-- A layer of the model with its entry of the mapping file. -/
structure Layer where
  op : Op
  bits : Precisions
  entry : MapR
  attr : MapAttr
  link : Text → Operand

/-- Number of inputs of node `k` that are computed by nodes of the model. -/
def computed (nodes : List OpNode) (k : Nat) : Nat := (Workload.predecessors (nodes.map OnnxModel.ONode.ofOp) k).length

/-- The operands of a layer with their bits; the second operand of a product of two computed tensors has the bits of activations. -/
def operands (l : Layer) (computed : Nat) : List (Text × Nat) :=
  let w := match l.op with
    | .conv _ => l.bits.weight
    | .product _ _ _ _ => if computed < 2 then l.bits.weight else l.bits.act
  [("O".toList, l.bits.inter), ("W".toList, w), ("I".toList, l.bits.act)]

/-- The loops of a layer with their sizes.  The kernel of a convolution is taken with its height along the width of the image (see C53). -/
def loops : Op → List (Text × Nat)
  | .conv c => [("B".toList, c.batch), ("K".toList, c.m / c.g), ("G".toList, c.g), ("OX".toList, c.ow), ("OY".toList, c.oh), ("C".toList, c.cin / c.g),
      ("FX".toList, c.kh), ("FY".toList, c.kw)]
  | .product lead D C K => [("C".toList, C), ("D".toList, D), ("K".toList, K)] ++
      match lead with
      | [] => []
      | [b] => [("B".toList, size b)]
      | b :: h :: _ => ("B".toList, size b) :: if h = 0 then [] else [("H".toList, h)]

/-- The leading dimensions of a product. -/
def leadNames : List Nat → List Text
  | [] => []
  | [_] => ["B".toList]
  | _ :: h :: _ => "B".toList :: if h = 0 then [] else ["H".toList]

/-- The dimensions of an operand of a layer. -/
def dims (o : Op) (computed : Nat) (t : Text) : List Text :=
  match o with
  | .conv _ => if t = "O".toList then ["B".toList, "G".toList, "K".toList, "OY".toList, "OX".toList]
      else if t = "W".toList then ["G".toList, "K".toList, "C".toList, "FY".toList, "FX".toList] else ["B".toList, "G".toList, "C".toList, "IY".toList, "IX".toList]
  | .product lead _ _ _ =>
      if t = "O".toList then leadNames lead ++ ["D".toList, "K".toList]
      else if t = "W".toList then (if computed < 2 then [] else leadNames lead) ++ ["C".toList, "K".toList] else leadNames lead ++ ["D".toList, "C".toList]

/-- The relations between coordinates of the input, of the output and of the kernel. -/
def relations : Op → List (Relation Text)
  | .conv c => [⟨"IX".toList, "OX".toList, "FX".toList, c.sh, c.dh⟩, ⟨"IY".toList, "OY".toList, "FY".toList, c.sw, c.dw⟩]
  | .product _ _ _ _ => []

/-- Node `k` of the model is this layer. -/
structure NodeIs (m : OModel) (ms : List MapR) (k : Nat) (n : OpNode) (l : Layer) : Prop where
  op : match l.op with
    | .conv c => IsConv m n c
    | .product lead D C K => IsProduct m n lead D C K
  precise : Precise n l.bits
  entry : Call.Chosen ms (if n.name = "" then "Op" ++ toString k else n.name) n.op l.entry

/-- The layer fits the accelerator: the operands of layer and memories are linked, the innermost memories can deliver and hold an element; the unrollings that are
fixed are for dimensions of the array; an ordering of the temporal loops only says which dimensions come first. -/
structure Fits (A : AccD String) (l : Layer) (computed : Nat) : Prop where
  sources : computed ≤ 2
  attr : Files.mapAttr l.entry = .ok l.attr
  link : ∀ t ∈ operands l computed, l.attr.links.data.get? (String.ofList t.1) = some (opName (l.link t.1))
  out : l.link "O".toList = .out
  stored : ∀ t ∈ operands l computed, ∃ m ∈ A.mems, l.link t.1 ∈ m.operands
  linked : ∀ m ∈ A.mems, ∀ op ∈ m.operands, ∃ t ∈ operands l computed, l.link t.1 = op
  delivers : ∀ m, Innermost A m → ∀ t ∈ operands l computed, l.link t.1 ∈ m.operands → ∀ p ∈ m.ports,
    (l.link t.1, if t.1 = "O".toList then Ports.Dir.wrLow else .rdLow) ∈ p.alloc → (t.2 : Int) ≤ p.bwMax
  holds : ∀ m, Innermost A m → ∀ t ∈ operands l computed, l.link t.1 ∈ m.operands → (t.2 : Int) ≤ m.size
  user : ∀ e ∈ l.attr.spatial, e.1 ∈ A.sizes.keys ∧ ∀ x ∈ e.2, 1 ≤ x.2
  order : ∀ e ∈ l.attr.order, e.1.toList ∈ (loops l.op).map Prod.fst → e.1 ≠ "*" ∧ e.2 = none

/-- The layer that the stages get is the one of the model. -/
structure LayerIs (lo : LayerOptions) (l : Layer) (computed : Nat) (n : Node String Text) : Prop where
  skip : n.skip = false
  ops : n.layer.ops.Perm ((operands l computed).map fun t => l.link t.1)
  inputs : n.layer.inputs.Perm (((operands l computed).drop 1).map fun t => l.link t.1)
  sizes : n.layer.L.dimSizes = (loops l.op).map fun x => (x.1, (x.2 : ℚ))
  pi : n.layer.L.pi = extractPr (relations l.op)
  rel : ∀ t ∈ operands l computed, extractRel (dims l.op computed t.1) n.layer.L.dimSizes (extractPr (relations l.op)) = .ok (n.layer.rel (l.link t.1))
  precision : ∀ t ∈ operands l computed, n.layer.precision (l.link t.1) = t.2
  final : n.layer.finalPrecision = l.bits.act
  noAccess : n.layer.noAccess = lo.noAccess
  even : n.layer.even = lo.even
  cycles : n.layer.cyclesPerOp = 1
  mapping : n.mapping = l.attr.spatial.map fun e => (e.1, e.2.map fun x => (x.1.toList, (x.2 : ℚ)))
  hints : n.hints = l.attr.hint.map fun e => (e.1, e.2.map String.toList)
  order : n.layer.order = (l.attr.order.filter fun e => decide (e.1.toList ∈ (loops l.op).map Prod.fst)).map fun e => (e.1.toList, e.2.map Int.toNat)

/-- A node that is no layer. -/
def Other (n : OpNode) : Prop := n.op ∉ ["Conv", "QLinearConv", "MatMul", "Gemm", "If"]

/-- Node `k` is a convolution or a matrix product, and `x` is what parsing it gives: its parser has described it as a layer, which has been built with an entry of the
mapping file. -/
def Made (lo : Call.LayerOptions) (m : OModel) (nodes : List OpNode) (ms : List MapR) (k : Nat) (n : OpNode) (x : Node String Text) : Prop :=
  ∃ d : LayerBuild.LayerD, Call.nodeOf lo ms (some (if n.name = "" then "Op" ++ toString k else n.name), n.op, d) = .ok x ∧
    ((n.op ∈ ["Conv", "QLinearConv"] ∧ Onnx.conv ⟨k, n.input, n.output, n.attrs⟩ (Workload.predecessors (nodes.map OnnxModel.ONode.ofOp) k) m = .ok d) ∨
      (n.op ∈ ["MatMul", "Gemm"] ∧ Onnx.gemm ⟨k, n.input, n.output, n.attrs⟩ (Workload.predecessors (nodes.map OnnxModel.ONode.ofOp) k) m = .ok d))

/-- The nodes of the model are these layers, or no layers (`none`). -/
structure ModelIs (A : AccD String) (m : OModel) (nodes : List OpNode) (dm : Doc) (ls : List (Option Layer)) : Prop where
  length : ls.length = nodes.length
  entries : ∃ ms, Files.parseMapping dm = .ok ms ∧ ∀ (k : Nat) n l, nodes[k]? = some n → ls[k]? = some (some l) → NodeIs m ms k n l ∧ Fits A l (computed nodes k)
  others : ∀ (k : Nat) n, nodes[k]? = some n → ls[k]? = some none → Other n
  forward : ∀ i j, Workload.Feeds (nodes.map OnnxModel.ONode.ofOp) i j → i < j

/-- An order of all nodes in which every node comes after the nodes that compute its inputs (if there are at most two, as there are for layers; see C69). -/
def Sorted (nodes : List OpNode) (order : List Nat) : Prop :=
  order.Perm (List.range nodes.length) ∧ ∀ pre j post, order = pre ++ j :: post → computed nodes j ≤ 2 →
    ∀ i, Workload.Feeds (nodes.map OnnxModel.ONode.ofOp) i j → i ∈ pre

/-- The layers of the model in an order of the nodes, with the numbers of their nodes. -/
def layersIn (ls : List (Option Layer)) (order : List Nat) : List (Nat × Layer) := order.filterMap fun k => (ls[k]?.bind id).map fun l => (k, l)

/-- The multiplications of all layers of the model. -/
def operations (ls : List (Option Layer)) : Nat := (ls.map fun l => match l with
  | none => 0
  | some l => l.op.macs).sum

end Verif.OnnxCall
