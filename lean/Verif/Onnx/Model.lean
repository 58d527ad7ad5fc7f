import Verif.LayerBuild.Model
import Mathlib.Data.Nat.Digits.Defs

/-!
Model of the ONNX operator parsers: attribute and tensor lookup (/repo/zigzag/parser/onnx/utils.py:85-110, 138-186), operand sources and precisions
(/repo/zigzag/parser/onnx/onnx_operator_parser.py:76-125), convolutions (/repo/zigzag/parser/onnx/conv_parser.py:34-132) and matrix products
(/repo/zigzag/parser/onnx/gemm_parser.py:19-131, matmul_parser.py).  The result is the layer description of `Verif.LayerBuild`, from which `LayerNodeFactory` builds the layer.

Simplifications: numbers of attributes and shapes are natural numbers; a tensor attribute is given by its numbers; an attribute of the wrong kind (a number where a list
is used, or the reverse) is a type error at once; a relation such as `ix=2*ox+1*fx` is given by the groups that the regular expression finds in it again.
-/

namespace Verif.Onnx

open Verif.Equation Verif.LayerBuild

/-- Value of an attribute: `INT`, `INTS` (or the numbers of a `TENSOR`), any other type. -/
inductive AttrVal where
  | int (n : Nat)
  | ints (l : List Nat)
  | other
deriving DecidableEq, Repr

/-- `get_attribute_ints_with_name` (onnx/utils.py:85-110). -/
def getAttr (name : String) (attrs : List (String × AttrVal)) (dflt : Option AttrVal) : Except PyErr AttrVal :=
  match attrs.find? fun a => a.1 == name with
  | some (_, .other) => .error .notImplemented
  | some (_, v) => .ok v
  | none =>
    match dflt with
    | some d => .ok d
    | none => .error .valueError

/-- Use of an attribute as a list of numbers. -/
def asInts : Except PyErr AttrVal → Except PyErr (List Nat)
  | .ok (.ints l) => .ok l
  | .ok _ => .error .typeError
  | .error e => .error e

/-- Use of an attribute as a number. -/
def asInt : Except PyErr AttrVal → Except PyErr Nat
  | .ok (.int n) => .ok n
  | .ok _ => .error .typeError
  | .error e => .error e

/-- Named shapes of a model: `graph.input`, `graph.output`, `graph.value_info`, `graph.initializer`.  A dimension with a symbolic size has `dim_value` 0. -/
structure OModel where
  inputs : List (String × List Nat)
  outputs : List (String × List Nat)
  hidden : List (String × List Nat)
  inits : List (String × List Nat)

/-- `get_onnx_tensor_type(name, model).shape` (onnx/utils.py:152-175). -/
def shape (m : OModel) (name : String) : Except PyErr (List Nat) :=
  match (m.inputs ++ m.outputs ++ m.hidden ++ m.inits).find? fun t => t.1 == name with
  | some t => .ok t.2
  | none => .error .keyError

/-- A node of the model. -/
structure Node where
  id : Nat
  input : List String
  output : List String
  attrs : List (String × AttrVal)

/-- `l[i]` -/
def at! (l : List Nat) (i : Nat) : Except PyErr Nat :=
  match l[i]? with
  | some n => .ok n
  | none => .error .indexError

/-- `l[i]` of names -/
def name! (l : List String) (i : Nat) : Except PyErr String :=
  match l[i]? with
  | some n => .ok n
  | none => .error .indexError

/-- `get_node_input_output_dimension_shapes` (onnx/utils.py:178-186). -/
def ioShapes (n : Node) (m : OModel) : Except PyErr (List Nat × List Nat) := do
  let i ← name! n.input 0
  let si ← shape m i
  let o ← name! n.output 0
  let so ← shape m o
  return (si, so)

/-- `get_operand_source_user_format` (onnx_operator_parser.py:76-89). -/
def operandSource (id : Nat) : List Nat → Except PyErr (Dict Text Int)
  | [] => .ok [(['W'], (id : Int)), (['I'], (id : Int))]
  | [p] => .ok [(['W'], (id : Int)), (['I'], (p : Int))]
  | [p, q] => .ok [(['W'], (q : Int)), (['I'], (p : Int))]
  | _ => .error .valueError

/-- `get_weight_precision` and `get_activation_precision` (onnx_operator_parser.py:91-113): another type of attribute is a value error. -/
def precisionAttr (name : String) (attrs : List (String × AttrVal)) (dflt : Nat) : Except PyErr Nat :=
  match asInt (getAttr name attrs (some (.int dflt))) with
  | .error .notImplemented => .error .valueError
  | r => r

/-- The three precisions (onnx_operator_parser.py:91-125): activations, weights, intermediate outputs. -/
structure Precisions where
  act : Nat
  weight : Nat
  inter : Nat

/-- The precisions of a node; the default of the intermediate outputs is twice the activation precision. -/
def precisions (attrs : List (String × AttrVal)) : Except PyErr Precisions := do
  let a ← precisionAttr "act_size" attrs 8
  let w ← precisionAttr "weight_size" attrs 8
  let o ← precisionAttr "output_size" attrs (2 * a)
  return ⟨a, w, o⟩

/-- Decimal text of a number (`f"{n}"`). -/
def decText (n : Nat) : Text := if n = 0 then ['0'] else ((Nat.digits 10 n).reverse.map Nat.digitChar)

/-- `math.ceil(a / b)` -/
def ceilDiv (a b : Nat) : Except PyErr Nat := if b = 0 then .error .zeroDivision else .ok ((a + b - 1) / b)

/-- `data["equation"]` (conv_parser.py:60). -/
def convEquation : Text := "O[b][g][k][oy][ox]+=W[g][k][c][fy][fx]*I[b][g][c][iy][ix]".toList

/-- `data["operand_precision"]` (conv_parser.py:91-96). -/
def precisionDict (act weight inter : Nat) : Dict Text Int :=
  [("W".toList, (weight : Int)), ("I".toList, (act : Int)), ("O_final".toList, (act : Int)), ("O".toList, (inter : Int))]

/-- The dictionary built in lines 53-104 from numbers that are already looked up. -/
def convRecord (id : Nat) (src : Dict Text Int) (p : Precisions) (b k g ox oy c fx fy s0 s1 d0 d1 ix iy p0 p1 p2 p3 : Nat) : LayerD where
  id := id
  equation := convEquation
  relations := [⟨"ix".toList, some (decText s0), "ox".toList, some (decText d0), "fx".toList⟩,
                ⟨"iy".toList, some (decText s1), "oy".toList, some (decText d1), "fy".toList⟩]
  loopDims := ["B".toList, "K".toList, "G".toList, "OX".toList, "OY".toList, "C".toList, "FX".toList, "FY".toList]
  loopSizes := [(b : Int), k, g, ox, oy, c, fx, fy]
  precision := precisionDict p.act p.weight p.inter
  sources := src
  prDims := some ["IX".toList, "IY".toList]
  prSizes := some [(ix : Int), iy]
  padding := some [((p0 : Int), (p2 : Int)), ((p1 : Int), (p3 : Int))]

/-- `get_layer_node_user_format` of convolutions (conv_parser.py:34-106). -/
def convData (id : Nat) (preds : List Nat) (p : Precisions) (kernel strides dilations : List Nat) (group : Nat) (pads ia oa : List Nat) : Except PyErr LayerD := do
  let src ← operandSource id preds
  let ia0 ← at! ia 0
  let oa0 ← at! oa 0
  if ia0 ≠ oa0 then throw .assertion
  let oa1 ← at! oa 1
  let k ← ceilDiv oa1 group
  let ox ← at! oa 3
  let oy ← at! oa 2
  let ia1 ← at! ia 1
  let c ← ceilDiv ia1 group
  let ix ← at! ia 3
  let iy ← at! ia 2
  let fx ← at! kernel 0
  let fy ← at! kernel 1
  let s0 ← at! strides 0
  let d0 ← at! dilations 0
  let s1 ← at! strides 1
  let d1 ← at! dilations 1
  let p0 ← at! pads 0
  let p2 ← at! pads 2
  let p1 ← at! pads 1
  let p3 ← at! pads 3
  return convRecord id src p (if 0 < oa0 then oa0 else 1) k group ox oy c fx fy s0 s1 d0 d1 ix iy p0 p1 p2 p3

/-- `generate_layer_node_for_conv` (conv_parser.py:108-132) up to the call of the factory. -/
def conv (n : Node) (preds : List Nat) (m : OModel) : Except PyErr LayerD := do
  let kernel ← asInts (getAttr "kernel_shape" n.attrs none)
  let strides ← asInts (getAttr "strides" n.attrs (some (.ints [1, 1])))
  let dilations ← asInts (getAttr "dilations" n.attrs (some (.ints [1, 1])))
  let group ← asInt (getAttr "group" n.attrs (some (.int 1)))
  let pads ← asInts (getAttr "pads" n.attrs (some (.ints [0, 0, 0, 0])))
  let (ia, oa) ← ioShapes n m
  let p ← precisions n.attrs
  convData n.id preds p kernel strides dilations group pads ia oa

/-! ### Matrix products -/

/-- `"[b]"` and `"[h]"` if the sizes are not zero (gemm_parser.py:77). -/
def bhText (b h : Nat) : Text := (if b ≠ 0 then "[b]".toList else []) ++ (if h ≠ 0 then "[h]".toList else [])

/-- `data["equation"]` (gemm_parser.py:76-82). -/
def gemmEquation (b h : Nat) (const : Bool) : Text :=
  "O".toList ++ bhText b h ++ "[d][k]".toList ++ "+=".toList ++ "I".toList ++ bhText b h ++ "[d][c]".toList ++ "*".toList ++ "W".toList ++ (if const then [] else bhText b h) ++ "[c][k]".toList

/-- The dictionary built in lines 36-82. -/
def gemmRecord (id : Nat) (src : Dict Text Int) (p : Precisions) (const : Bool) (c d k b h : Nat) : LayerD where
  id := id
  equation := gemmEquation b h const
  relations := []
  loopDims := ["C".toList, "D".toList, "K".toList] ++ ((if b ≠ 0 then ["B".toList] else []) ++ (if h ≠ 0 then ["H".toList] else []))
  loopSizes := [(c : Int), d, k] ++ ((if b ≠ 0 then [(b : Int)] else []) ++ (if h ≠ 0 then [(h : Int)] else []))
  precision := precisionDict p.act (if const then p.weight else p.act) p.inter
  sources := src
  prDims := none
  prSizes := none
  padding := none

/-- The cases of `match len(input_shape)` (gemm_parser.py:56-68): batch size and number of heads. -/
def batchHeads : List Nat → List Nat → Except PyErr (Nat × Nat)
  | [_, _], _ => .ok (0, 0)
  | [i0, _, _], o => do
    let o0 ← at! o 0
    if i0 ≠ o0 then throw .assertion
    return (if i0 = 0 then 1 else i0, 0)
  | [i0, i1, _, _], o => do
    let o0 ← at! o 0
    if i0 ≠ o0 then throw .assertion
    let o1 ← at! o 1
    if i1 ≠ o1 then throw .assertion
    return (if i0 = 0 then 1 else i0, i1)
  | _, _ => .error .valueError

/-- `l[-i]` for `i ≥ 1`. -/
def fromEnd (l : List Nat) (i : Nat) : Except PyErr Nat := if i ≤ l.length then at! l (l.length - i) else .error .indexError

/-- `get_layer_node_user_format` of matrix products (gemm_parser.py:19-84). -/
def gemmData (id : Nat) (preds : List Nat) (p : Precisions) (input output : List Nat) : Except PyErr LayerD := do
  let src ← operandSource id preds
  let i2 ← fromEnd input 2
  let o2 ← fromEnd output 2
  if i2 ≠ o2 then throw .assertion
  let c ← fromEnd input 1
  let k ← fromEnd output 1
  let (b, h) ← batchHeads input output
  return gemmRecord id src p (decide (preds.length < 2)) c i2 k b h

/-- `infer_input_activation_shape` (gemm_parser.py:109-131). -/
def inferInput (n : Node) (m : OModel) (output : List Nat) : Except PyErr (List Nat) := do
  let w ← name! n.input 1
  let dims ← match m.inits.find? fun t => t.1 == w with
    | some t => pure t.2
    | none => throw .valueError
  if dims.length ≠ 2 then throw .assertion
  let tb ← asInt (getAttr "transB" n.attrs (some (.int 0)))
  let d0 ← at! dims (if tb ≠ 0 then 1 else 0)
  if output.length ≠ 2 then throw .assertion
  let b ← at! output 0
  return [b, d0]

/-- Transposition of the first input (gemm_parser.py:90-93). -/
def transposed (n : Node) (input : List Nat) : Except PyErr (List Nat) := do
  let ta ← asInt (getAttr "transA" n.attrs (some (.int 0)))
  if ta = 0 then return input
  if input.length ≠ 2 then throw .assertion
  let a ← at! input 1
  let b ← at! input 0
  return [a, b]

/-- Use of the weights if the shape of the input is unknown (gemm_parser.py:95-97). -/
def knownInput (n : Node) (m : OModel) (input output : List Nat) : Except PyErr (List Nat) := if input = [] then inferInput n m output else .ok input

/-- `generate_layer_node` (gemm_parser.py:86-107) up to the call of the factory. -/
def gemm (n : Node) (preds : List Nat) (m : OModel) : Except PyErr LayerD := do
  let (si, so) ← ioShapes n m
  if si.length ≠ so.length then throw .assertion
  let i1 ← transposed n si
  let input ← knownInput n m i1 so
  let p ← precisions n.attrs
  gemmData n.id preds p input so

end Verif.Onnx
