import Verif.LayerBuild.Model
import Verif.Onnx.Model

/-!
Which input of a layer is the activation and which the weights: `LayerNode.get_act_layer_op` and `get_weight_layer_op` (/repo/zigzag/workload/layer_node.py lines 197-239),
`SpatialMappingGeneratorStage.identify_layer_operand_representation` and `modify_innermost_input_mem_size`
(/repo/zigzag/stages/mapping/spatial_mapping_generation.py lines 622-739), and attributes taken out of a layer to build it again (layer_node.py lines 354-369).
-/

namespace Verif.Roles

open Verif.Equation Verif.LayerBuild Verif.LayerNode

/-- What the functions read of a layer.  The operands have different names. -/
structure View where
  /-- `layer_operands`: the output, then the inputs -/
  operands : List Text
  /-- `equation.get_r_layer_dims` of every operand -/
  rDims : List (Text × List Text)
  /-- the keys of `pr_loop` -/
  prKeys : List Text
  /-- `constant_operands` -/
  constants : List Text
  /-- `loop_relevancy_info` of every operand -/
  rel : List (Text × Rel Text)

/-- `input_operands` (layer_node.py line 179). -/
def View.inputs (v : View) : List Text := v.operands.drop 1

/-- The view of a layer built from a description. -/
def view (d : LayerD) (b : Built) : View where
  operands := b.operands.map fun x => x.1
  rDims := b.operands.map fun x => (x.1, match rDims (parse d.equation) x.1 with | .ok l => l | .error _ => [])
  prKeys := b.layer.pi.prLoop.keys
  constants := constants d
  rel := b.operands.map fun x => (x.1, x.2.1)

/-- `l.pop()` -/
def pop (l : List Text) : Except PyErr Text :=
  match l.getLast? with
  | none => .error .indexError
  | some x => .ok x

/-- `l[i]` -/
def nth (l : List Text) (i : Nat) : Except PyErr Text :=
  match l[i]? with
  | none => .error .indexError
  | some x => .ok x

/-- `get_act_layer_op` (layer_node.py lines 197-222). -/
def getAct (v : View) : Except PyErr Text :=
  match v.constants with
  | [w] => pop (v.inputs.filter fun x => decide (x ≠ w))
  | [] => nth v.inputs 1
  | _ =>
    match v.prKeys with
    | [] => nth v.inputs 0
    | k :: _ => pop ((v.rDims.filter fun x => decide (k ∈ x.2)).map Prod.fst)

/-- `get_weight_layer_op` (layer_node.py lines 224-239). -/
def getWeight (v : View) : Except PyErr Text :=
  match v.constants with
  | [w] => .ok w
  | [] => nth v.inputs 0
  | cs =>
    match getAct v with
    | .error e => .error e
    | .ok a => pop (cs.filter fun x => decide (x ≠ a))

/-- `identify_layer_operand_representation` (spatial_mapping_generation.py lines 622-650): activation, weights. -/
def identify (v : View) : Option Text × Option Text :=
  let pool := (v.rel.filter fun x => decide (0 < x.2.pr.length)).map Prod.fst
  match pool.getLast? with
  | none =>
    let c := ((v.rel.filter fun x => decide (x.2.ir.length = 0)).map Prod.fst).getLast?
    ((v.inputs.filter fun x => decide (some x ≠ c)).getLast?, c)
  | some a => (some a, (v.inputs.filter fun x => decide (x ≠ a)).getLast?)

/-- An innermost memory: memory operands and served dimensions. -/
structure Level where
  operands : List Text
  served : List String

/-- Lines 672-678: the served dimensions of the last innermost memory of the activation. -/
def servedDims (links : Dict Text Text) (act : Text) : List Level → List String → Except PyErr (List String)
  | [], s => .ok s
  | l :: ls, s =>
    match links.get? act with
    | none => .error .keyError
    | some m => servedDims links act ls (if m ∈ l.operands then l.served else s)

/-- `locals()` in line 682. -/
def bound (inner : List Level) : List String :=
  ["self", "user_spatial_mapping", "innermost_levels", "const_operand", "act_operand", "weight_ir_layer_dims", "act_innermost_mem_level", "act_served_oa_dims"] ++
    (if inner.isEmpty then [] else ["memory_level", "mem_ops"])

/-- `modify_innermost_input_mem_size` (lines 652-739); `acc` is the given accelerator, `rest` the result of lines 685-739. -/
def modify {A : Type} (v : View) (links : Dict Text Text) (inner : List Level) (acc : A) (rest : Except PyErr A) : Except PyErr A :=
  match v.constants with
  | [c] =>
    match v.inputs.filter fun x => decide (x ≠ c) with
    | [] => .error .indexError
    | act :: _ =>
      match v.rel.find? fun x => decide (x.1 = c) with
      | none => .error .keyError
      | some _ =>
        match servedDims links act inner [] with
        | .error e => .error e
        | .ok s => if "act_served_oa_dim" ∉ bound inner ∨ s.length ≠ 1 then .ok acc else rest
  | _ => .ok acc

/-- The accelerator that is used to evaluate a mapping (lines 101-107). -/
def evaluated {A : Type} (diagonal : Bool) (v : View) (links : Dict Text Text) (inner : List Level) (acc : A) (rest : Except PyErr A) : Except PyErr A :=
  if diagonal then modify v links inner acc rest else .ok acc

/-! ### Taking a layer apart -/

/-- `LayerNodeAttributes` (layer_node.py lines 103-115); names of types and constant operands are only stored. -/
structure Attr where
  equation : List Text
  sizes : Dict Text ℚ
  precision : Dict Text Int
  relations : List (Relation Text)
  padding : Dict Text (Int × Int)
  constants : List Text
  prSizes : Option (Dict Text ℚ)

/-- A layer keeps the attributes it was built from (layer_node.py lines 160-168, 183-187); `Built` is what is computed from them. -/
structure Node where
  attr : Attr
  built : Built

/-- `LayerNode.__init__` (layer_node.py lines 149-195). -/
def initNode (a : Attr) : Except PyErr Node :=
  match operands a.equation with
  | .error e => .error e
  | .ok ops =>
    let pi := extractPr a.relations
    match prSizes a.prSizes a.sizes pi a.padding with
    | .error e => .error e
    | .ok ps =>
      let L : Layer Text := ⟨a.sizes, pi, ps⟩
      match mapE (operandInfo a.equation L a.precision) ops with
      | .error e => .error e
      | .ok infos => .ok ⟨{ a with prSizes := some ps }, ⟨L, infos, totalSize a.sizes⟩⟩

/-- `create_node_attr` (workload_factory.py lines 70-92). -/
def createAttr (d : LayerD) : Except PyErr Attr :=
  match mapE mkRel d.relations with
  | .error e => .error e
  | .ok rels =>
    match padding d with
    | .error e => .error e
    | .ok p => .ok ⟨parse d.equation, dimSizes d, d.precision, rels, p, constants d, prSizesFile d⟩

/-- `extract_node_attr` (layer_node.py lines 354-369). -/
def extract (n : Node) : Attr := ⟨n.attr.equation, n.attr.sizes, n.attr.precision, n.attr.relations, n.attr.padding, n.attr.constants, some n.built.layer.prSizes⟩

end Verif.Roles
