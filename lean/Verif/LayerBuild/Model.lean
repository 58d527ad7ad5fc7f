import Verif.Equation.Model
import Verif.LayerNode.Model

/-!
Model of the way from one layer of a workload file to a `LayerNode`: the extra checks of `WorkloadValidator`
(/repo/zigzag/parser/workload_validator.py:125-139), `LayerNodeFactory.create_node_attr` (/repo/zigzag/parser/workload_factory.py:70-92, 113-187) and the part
of `LayerNode.__init__` that uses it (/repo/zigzag/workload/layer_node.py:150-195, 324-348).

Simplifications: the schema check of the library is assumed to have succeeded, so fields have their declared types; a dimension relation is given by the groups
that the regular expression finds in it; `int(text)` accepts digits only (Python also allows underscores between digits); sizes are integers, in rationals for the
functions of `Verif.LayerNode`.  The mapping attributes are not part of this model.
-/

namespace Verif.LayerBuild

open Verif.Equation Verif.LayerNode

/-- Groups of `LAYER_DIM_RELATION_REGEX` (workload_validator.py:14). -/
structure RelD where
  d1 : Text
  c2 : Option Text
  d2 : Text
  c3 : Option Text
  d3 : Text

/-- One layer of a normalized workload file. -/
structure LayerD where
  id : Int
  equation : Text
  relations : List RelD
  loopDims : List Text
  loopSizes : List Int
  precision : Dict Text Int
  sources : Dict Text Int
  prDims : Option (List Text)
  prSizes : Option (List Int)
  padding : Option (List (Int × Int))

/-- `len(layer_data[a]) != len(layer_data["pr_loop_dims"])` for a field that is present; `len(None)` raises. -/
def sameLength {α : Type} (field : Option (List α)) (prDims : Option (List Text)) : Except PyErr Bool :=
  match field with
  | none => .ok true
  | some f =>
    match prDims with
    | none => .error .typeError
    | some ds => .ok (f.length == ds.length)

/-- `__validate_single_layer` (workload_validator.py:125-139); after normalization `pr_loop_dims` is always a key. -/
def validate (d : LayerD) : Except PyErr Bool :=
  match sameLength d.padding d.prDims with
  | .error e => .error e
  | .ok a =>
    match sameLength d.prSizes d.prDims with
    | .error e => .error e
    | .ok b => .ok (a && b)

/-- Value of a digit. -/
def digit (c : Char) : Nat := c.toNat - '0'.toNat

/-- `int(text)` -/
def pyIntText (t : Text) : Except PyErr Nat :=
  if t ≠ [] ∧ t.all Char.isDigit then .ok (t.foldl (fun n c => 10 * n + digit c) 0) else .error .valueError

/-- `int(coef) if coef is not None else 1` -/
def coef : Option Text → Except PyErr Nat
  | none => .ok 1
  | some t => pyIntText t

/-- Body of `create_layer_dim_relations` (workload_factory.py:134-149). -/
def mkRel (r : RelD) : Except PyErr (Relation Text) :=
  match coef r.c2 with
  | .error e => .error e
  | .ok a =>
    match coef r.c3 with
    | .error e => .error e
    | .ok b => .ok ⟨upper r.d1, upper r.d2, upper r.d3, a, b⟩

/-- `f` on all elements, stopping at the first exception. -/
def mapE {α β : Type} (f : α → Except PyErr β) : List α → Except PyErr (List β)
  | [] => .ok []
  | a :: t =>
    match f a with
    | .error e => .error e
    | .ok b =>
      match mapE f t with
      | .error e => .error e
      | .ok bs => .ok (b :: bs)

/-- `{dim: size for dim, size in zip(dims, sizes)}` -/
def zipDict {V : Type} (ks : List Text) (vs : List V) : Dict Text V := (ks.zip vs).foldl (fun d e => d.set e.1 e.2) []

/-- `create_layer_dim_sizes` (workload_factory.py:122-127). -/
def dimSizes (d : LayerD) : Dict Text ℚ := zipDict (d.loopDims.map upper) (d.loopSizes.map fun n : Int => (n : ℚ))

/-- `create_padding` (workload_factory.py:164-176): `padding_data[i]` raises for missing entries. -/
def padding (d : LayerD) : Except PyErr (Dict Text (Int × Int)) :=
  match d.prDims, d.padding with
  | some ds, some ps => if ds.length ≤ ps.length then .ok (zipDict (ds.map upper) ps) else .error .indexError
  | _, _ => .ok []

/-- `create_pr_layer_dim_sizes` (workload_factory.py:178-187). -/
def prSizesFile (d : LayerD) : Option (Dict Text ℚ) :=
  match d.prDims, d.prSizes with
  | some ds, some ss => some (zipDict (ds.map upper) (ss.map fun n : Int => (n : ℚ)))
  | _, _ => none

/-- `sum(padding)` of `LayerPadding.DEFAULT if dim not in self.padding else self.padding[dim]` (layer_node.py:311-312). -/
def padSum (p : Dict Text (Int × Int)) (dim : Text) : Int :=
  match p.get? dim with
  | none => 0
  | some (a, b) => a + b

/-- `{dim: self.calc_pr_dimension_size_total(dim) for dim in self.pr_loop}` (layer_node.py:184). -/
def prSizesComputed (sizes : Dict Text ℚ) (pi : PrInfo Text) (p : Dict Text (Int × Int)) : List Text → Except PyErr (Dict Text ℚ)
  | [] => .ok []
  | dim :: t =>
    match calcPrTotal sizes pi (padSum p dim) dim with
    | .error e => .error e
    | .ok n =>
      match prSizesComputed sizes pi p t with
      | .error e => .error e
      | .ok r => .ok ((dim, (n : ℚ)) :: r)

/-- The choice between given and computed sizes (layer_node.py:183-187). -/
def prSizes (given : Option (Dict Text ℚ)) (sizes : Dict Text ℚ) (pi : PrInfo Text) (p : Dict Text (Int × Int)) : Except PyErr (Dict Text ℚ) :=
  match given with
  | some g => if g = [] then prSizesComputed sizes pi p pi.prLoop.keys else .ok g
  | none => prSizesComputed sizes pi p pi.prLoop.keys

/-- One operand: relevancy (layer_node.py:81-98), size in elements and bits and reuse (layer_node.py:329-349). -/
def operandInfo (toks : List Text) (L : Layer Text) (precision : Dict Text Int) (op : Text) : Except PyErr (Text × Rel Text × ℚ) :=
  match rDims toks op with
  | .error e => .error e
  | .ok rl =>
    match extractRel rl L.dimSizes L.pi with
    | .error e => .error e
    | .ok rel =>
      match operandSizeElem L rel with
      | .error e => .error e
      | .ok n =>
        match precision.get? op with
        | none => .error .keyError
        | some _ => if n = 0 then .error .zeroDivision else .ok (op, rel, n)

/-- The finished layer: its sizes, operands with relevancy and number of elements, number of operations. -/
structure Built where
  layer : Layer Text
  operands : List (Text × Rel Text × ℚ)
  macs : ℚ

/-- `prod(self.data.values())` (layer_attributes.py:73-74). -/
def totalSize (sizes : Dict Text ℚ) : ℚ := (sizes.map Prod.snd).prod

/-- `LayerNodeFactory.create_node_attr` and `LayerNode.__init__`.  The exceptions of the per-operand loops are those of the first operand that fails; the code
first computes the relevancy of all operands, so the kind of the exception can differ when several operands fail. -/
def build (d : LayerD) : Except PyErr Built :=
  let toks := parse d.equation
  let sizes := dimSizes d
  match mapE mkRel d.relations with
  | .error e => .error e
  | .ok rels =>
    match padding d with
    | .error e => .error e
    | .ok p =>
      match operands toks with
      | .error e => .error e
      | .ok ops =>
        let pi := extractPr rels
        match prSizes (prSizesFile d) sizes pi p with
        | .error e => .error e
        | .ok ps =>
          let L : Layer Text := ⟨sizes, pi, ps⟩
          match mapE (operandInfo toks L d.precision) ops with
          | .error e => .error e
          | .ok infos => .ok ⟨L, infos, totalSize sizes⟩

/-- `constant_operands` (workload_factory.py:152-155). -/
def constants (d : LayerD) : List Text := (d.sources.filter fun e => decide (e.2 = d.id)).map Prod.fst

/-- `input_operand_source` (workload_factory.py:157-163). -/
def sources (d : LayerD) : Dict Text Int := d.sources.filter fun e => decide (e.2 ≠ d.id)

end Verif.LayerBuild
