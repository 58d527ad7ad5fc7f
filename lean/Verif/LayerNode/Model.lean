import Verif.Base.Dict
import Mathlib.Algebra.Order.Field.Rat
import Mathlib.Algebra.BigOperators.Group.List.Basic
import Mathlib.Data.Rat.Floor

/-!
Model of `/repo/zigzag/workload/layer_node.py` (relevancy information, tensor sizes) and of
`LayerDimRelation.extract_pr_loop_info` in `/repo/zigzag/workload/layer_attributes.py`.

Simplifications: sizes are exact rationals; `set(a).difference(b)` is a filter (its order is not observable through membership and
products); coefficients are natural numbers (the parsers only build non-negative ones).
-/

namespace Verif.LayerNode

variable {Dim : Type} [DecidableEq Dim]

/-- `LayerDimRelation` (layer_attributes.py:147-165): `dim1 = coef2 * dim2 + coef3 * dim3`. -/
structure Relation (Dim : Type) where
  dim1 : Dim
  dim2 : Dim
  dim3 : Dim
  coef2 : Nat
  coef3 : Nat
  deriving DecidableEq

/-- The three results of `extract_pr_loop_info`. -/
structure PrInfo (Dim : Type) where
  prLoop : Dict Dim (Dim × Dim)
  prList : List Dim
  scaling : Dict Dim (Nat × Nat)

/-- `LayerDimRelation.extract_pr_loop_info` (layer_attributes.py:167-188).  The scaling factors are kept without the repeated
dimension names. -/
def extractPr (rels : List (Relation Dim)) : PrInfo Dim :=
  rels.foldl (fun st r =>
    { prLoop := st.prLoop.set r.dim1 (r.dim2, r.dim3)
      prList := st.prList ++ [r.dim1, r.dim2, r.dim3]
      scaling := st.scaling.set r.dim1 (r.coef2, r.coef3) }) ⟨[], [], []⟩

/-- The loop relevancy of one operand (`r_dims[op]`, `ir_dims[op]`, `pr_dims[op]`). -/
structure Rel (Dim : Type) where
  r : List Dim
  ir : List Dim
  pr : Dict Dim (Dim × Dim)

/-- `d[k]`, raising `KeyError`. -/
def lookup {V : Type} (d : Dict Dim V) (k : Dim) : Except PyErr V :=
  match d.get? k with
  | some v => .ok v
  | none => .error .keyError

/-- `[dim for dim in l if sizes[dim] != 1]` -/
def filterSize (sizes : Dict Dim ℚ) : List Dim → Except PyErr (List Dim)
  | [] => .ok []
  | d :: t => do
    let s ← lookup sizes d
    let rest ← filterSize sizes t
    return if s ≠ 1 then d :: rest else rest

/-- Loop body of `LoopRelevancyInfo.extract_relevancy_info` for one operand (layer_node.py:82-98); `rl` is
`equation.get_r_layer_dims(layer_op)`. -/
def extractRel (rl : List Dim) (sizes : Dict Dim ℚ) (pi : PrInfo Dim) : Except PyErr (Rel Dim) :=
  let irl := sizes.keys.filter (fun d => d ∉ rl)
  if rl.any (fun d => (pi.prLoop.get? d).isSome) then do
    let ir ← filterSize sizes (irl.filter (fun d => d ∉ pi.prList))
    return ⟨rl.filter (fun d => d ∉ pi.prList), ir, pi.prLoop⟩
  else do
    let r ← filterSize sizes rl
    let ir ← filterSize sizes irl
    return ⟨r, ir, []⟩

/-- `LayerNode.calc_pr_dimension_size` (layer_node.py:315-322). -/
def calcPr (sa a sb b : ℤ) : Except PyErr ℤ :=
  let g : ℤ := Int.gcd sa sb
  if g = 0 then .error .zeroDivision else .ok (a * b - max 0 (b - sa / g) * (a - sb / g))

/-- Python's `int(x)` on a number: truncation towards zero. -/
def pyInt (q : ℚ) : ℤ := if 0 ≤ q then ⌊q⌋ else ⌈q⌉

/-- The parts of a layer used by the tensor size computation. -/
structure Layer (Dim : Type) where
  dimSizes : Dict Dim ℚ
  pi : PrInfo Dim
  /-- `self.pr_layer_dim_sizes` -/
  prSizes : Dict Dim ℚ

/-- `LayerNode.calc_tensor_dim` (layer_node.py:273-290). -/
def calcTensorDim (L : Layer Dim) (sizes : Dict Dim ℚ) (d : Dim) : Except PyErr ℚ :=
  match sizes.get? d with
  | some s => .ok s
  | none =>
    match L.pi.prLoop.get? d with
    | some (x, y) => do
      let sx ← lookup sizes x
      let sy ← lookup sizes y
      let (ca, cb) ← lookup L.pi.scaling d
      let p ← calcPr ca (pyInt sx) cb (pyInt sy)
      let mx ← lookup L.prSizes d
      return min mx p
    | none => if (L.dimSizes.get? d).isSome then .ok 1 else .error .valueError

/-- `LayerNode.calc_tensor_size` (layer_node.py:267-271): all dimensions are `r_dims + pr_dims.keys()` (line 51). -/
def calcTensorSize (L : Layer Dim) (rel : Rel Dim) (sizes : Dict Dim ℚ) : Except PyErr ℚ := do
  let l ← (rel.r ++ rel.pr.keys).mapM (calcTensorDim L sizes)
  return l.prod

/-- `LayerNode.calc_pr_dimension_size_total` (layer_node.py:299-313); `padding` is the sum of the padding entries. -/
def calcPrTotal (dimSizes : Dict Dim ℚ) (pi : PrInfo Dim) (padding : ℤ) (d : Dim) : Except PyErr ℤ := do
  let (x, y) ← lookup pi.prLoop d
  let sx ← lookup dimSizes x
  let sy ← lookup dimSizes y
  let (ca, cb) ← lookup pi.scaling d
  let p ← calcPr ca (pyInt sx) cb (pyInt sy)
  return p - padding

/-- `operand_size_elem[layer_op]` in `LayerNode.extract_layer_info` (layer_node.py:330-335). -/
def operandSizeElem (L : Layer Dim) (rel : Rel Dim) : Except PyErr ℚ := do
  let rs ← rel.r.mapM (lookup L.dimSizes)
  let ps ← rel.pr.keys.mapM (fun d => calcTensorDim L L.dimSizes d)
  return rs.prod * ps.prod

end Verif.LayerNode
