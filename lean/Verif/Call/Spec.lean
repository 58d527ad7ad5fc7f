import Verif.Call.Model
import Verif.Net.Spec
import Verif.LayerBuild.Props
import Verif.Files.Written

/-! What the contents of the three files say, and when they fit together. -/

namespace Verif.Call

open Equation (Text Eqn Term upper)
open Files (Doc AccR MemR PortR MapR MapAttr)
open Latency (Operand)
open LayerBuild (LayerD Good GivenPr ComputedPr)
open LayerNode (Relation Axis axisOf extractRel extractPr)
open Net (Node Innermost)
open Ports (MemD PortD)
open Whole (AccD)

/-- How a memory operand is written. -/
def opName : Operand → String
  | .in1 => "I1"
  | .in2 => "I2"
  | .out => "O"

/-! ### The accelerator -/

/-- A port as written. -/
structure PortSays (p : PortR) (q : PortD Operand) : Prop where
  name : q.name = p.name
  type : q.type = p.type
  bwMin : q.bwMin = p.bwMin
  bwMax : q.bwMax = p.bwMax
  alloc : p.alloc = q.alloc.map fun a => Files.movement (opName a.1) a.2

/-- A memory as written, with the costs that are written or extracted. -/
structure MemSays (cacti : String → String → Int → Int → Except PyErr (ℚ × ℚ × ℚ)) (name : String) (m : MemR) (d : MemD Operand String) : Prop where
  size : d.size = m.size
  operands : m.operands = d.operands.map opName
  ports : List.Forall₂ PortSays m.ports d.ports
  served : d.served = m.served
  given : m.auto = false → d.rCost = m.rCost ∧ d.wCost = m.wCost ∧ d.area = m.area
  extracted : m.auto = true → ∃ p c, Files.ReadPort m.ports p ∧ cacti name m.type m.size p.bwMax = .ok c ∧ d.rCost = some c.1 ∧ d.wCost = some c.2.1 ∧ d.area = some c.2.2
  auto : d.auto = false

/-- An accelerator file that is accepted and describes an accelerator. -/
structure AccSays (cacti : String → String → Int → Int → Except PyErr (ℚ × ℚ × ℚ)) (d : Doc) (A : AccD String) : Prop where
  accepted : Files.accepts Files.accRule (Files.normalize Files.accRule d) = true
  read : ∃ a, Files.readAcc (Files.normalize Files.accRule d) = some a ∧ Files.checkAcc a = .ok true ∧ a.arr.imc = false ∧
    a.arr.energy = some A.macEnergy ∧ a.arr.area ≠ none ∧ A.sizes.map (fun e => (e.1, (e.2 : Int))) = a.arr.dims.zip a.arr.sizes ∧
    List.Forall₂ (fun e m => MemSays cacti e.1 e.2 m) a.mems A.mems

/-! ### The layers -/

/-- The dimensions written for an operand. -/
def dimsOf (t : Term) : List Text := (t.dims.filter fun x => decide (x ≠ [])).map upper

/-- A layer as the user describes it: the layer of the workload file, its equation and relations, the entry of the mapping file that is used for it, and the memory
operand of every operand. -/
structure Written where
  name : Option String
  operator : String
  layer : LayerD
  eqn : Eqn
  rels : List (Relation Text)
  entry : MapR
  attr : MapAttr
  link : Text → Operand

/-- The written precision of an operand. -/
def Written.precision (w : Written) (t : Text) : Int := (w.layer.precision.get? t).getD 0

/-- The number of multiplications of the layer. -/
def Written.operations (w : Written) : Nat := (w.layer.loopSizes.map Int.toNat).prod

/-- A consistent layer, on an accelerator: an equation and relations over the dimensions of the layer with positive sizes; all operands are linked to the operands of the
memories, which can deliver and hold an element; the unrollings that are fixed are for dimensions of the array; an ordering of the temporal loops only says which dimensions come first. -/
structure LayerFits (A : AccD String) (w : Written) : Prop where
  good : Good w.layer w.eqn w.rels
  pr : GivenPr w.layer w.rels ∨ ComputedPr w.layer
  some : w.layer.loopDims ≠ []
  inputs : w.eqn.rest ≠ []
  names : (w.eqn.terms.map Term.name).Nodup
  fresh : ∀ r ∈ w.rels, r.dim1 ∉ w.layer.loopDims.map upper ∧ 1 ≤ r.coef2
  index : ∀ t ∈ w.eqn.terms, (dimsOf t).Nodup
  mix : ∀ t ∈ w.eqn.terms, (∀ r ∈ w.rels, r.dim1 ∈ dimsOf t) ∨ ∀ r ∈ w.rels, r.dim1 ∉ dimsOf t
  vars : ∀ t ∈ w.eqn.terms, (((dimsOf t).map (axisOf w.rels)).flatMap Axis.vars).Nodup
  precise : ∀ e ∈ w.layer.precision, 0 ≤ e.2
  attr : Files.mapAttr w.entry = .ok w.attr
  link : ∀ t ∈ w.eqn.terms, w.attr.links.data.get? (String.ofList t.name) = Option.some (opName (w.link t.name))
  out : w.link w.eqn.out.name = .out
  stored : ∀ t ∈ w.eqn.terms, ∃ m ∈ A.mems, w.link t.name ∈ m.operands
  linked : ∀ m ∈ A.mems, ∀ op ∈ m.operands, ∃ t ∈ w.eqn.terms, w.link t.name = op
  delivers : ∀ m, Innermost A m → ∀ t ∈ w.eqn.terms, w.link t.name ∈ m.operands → ∀ p ∈ m.ports,
    (w.link t.name, if t.name = w.eqn.out.name then Ports.Dir.wrLow else .rdLow) ∈ p.alloc → w.precision t.name ≤ p.bwMax
  holds : ∀ m, Innermost A m → ∀ t ∈ w.eqn.terms, w.link t.name ∈ m.operands → w.precision t.name ≤ m.size
  user : ∀ e ∈ w.attr.spatial, e.1 ∈ A.sizes.keys ∧ ∀ x ∈ e.2, 1 ≤ x.2
  order : ∀ e ∈ w.attr.order, e.1.toList ∈ w.layer.loopDims.map upper → e.1 ≠ "*" ∧ e.2 = Option.none

/-- The layer that the stages get is the one that is written. -/
structure NodeSays (o : LayerOptions) (w : Written) (n : Node String Text) : Prop where
  skip : n.skip = false
  ops : n.layer.ops = w.eqn.terms.map fun t => w.link t.name
  inputs : n.layer.inputs = w.eqn.rest.map fun r => w.link r.term.name
  sizes : n.layer.L.dimSizes = (w.layer.loopDims.map upper).zip (w.layer.loopSizes.map fun k : Int => (k : ℚ))
  pi : n.layer.L.pi = extractPr w.rels
  rel : ∀ t ∈ w.eqn.terms, extractRel (dimsOf t) n.layer.L.dimSizes (extractPr w.rels) = .ok (n.layer.rel (w.link t.name))
  precision : ∀ t ∈ w.eqn.terms, (n.layer.precision (w.link t.name) : Int) = w.precision t.name
  final : (n.layer.finalPrecision : Int) = w.precision "O_final".toList
  noAccess : n.layer.noAccess = o.noAccess
  even : n.layer.even = o.even
  cycles : n.layer.cyclesPerOp = 1
  mapping : n.mapping = w.attr.spatial.map fun e => (e.1, e.2.map fun x => (x.1.toList, (x.2 : ℚ)))
  hints : n.hints = w.attr.hint.map fun e => (e.1, e.2.map String.toList)
  order : n.layer.order = (w.attr.order.filter fun e => decide (e.1.toList ∈ w.layer.loopDims.map upper)).map fun e => (e.1.toList, e.2.map Int.toNat)

/-- The first entry of a mapping file with a name. -/
def First (ms : List MapR) (name : String) (e : MapR) : Prop := ∃ pre post, ms = pre ++ e :: post ∧ e.name = name ∧ ∀ x ∈ pre, x.name ≠ name

/-- The entry for a layer: the first one with its name, else the first one with its type, else the first one with the name `default`. -/
def Chosen (ms : List MapR) (name type : String) (e : MapR) : Prop :=
  First ms name e ∨ ((∀ x ∈ ms, x.name ≠ name) ∧ First ms type e) ∨ ((∀ x ∈ ms, x.name ≠ name ∧ x.name ≠ type) ∧ First ms "default" e)

/-- The workload file and the mapping file describe these layers; a layer without a name is called `Layer` followed by its number. -/
structure FilesSay (eqn : List Char → Bool) (rel : List Char → Option LayerBuild.RelD) (dw dm : Doc) (ws : List Written) : Prop where
  layers : Files.parseLayers eqn rel dw = .ok (ws.map fun w => (w.name, w.operator, w.layer))
  entries : ∃ ms, Files.parseMapping dm = .ok ms ∧ ∀ w ∈ ws, Chosen ms (w.name.getD ("Layer" ++ toString w.layer.id)) w.operator w.entry

/-- Every source of a layer is a layer listed before it (a layer that names itself has a constant operand). -/
def SourcesKnown (ws : List Written) : Prop :=
  ∀ (j : Nat) (w : Written), ws[j]? = some w → ∀ s ∈ w.layer.sources, s.2 = w.layer.id ∨ ∃ i < j, ∃ v, ws[i]? = some v ∧ v.layer.id = s.2

/-- `i` is the last layer before `j` with this id. -/
def Bearer (ws : List Written) (j : Nat) (s : Int) (i : Nat) : Prop :=
  i < j ∧ (∃ v, ws[i]? = some v ∧ v.layer.id = s) ∧ ∀ k, i < k → k < j → ∀ v, ws[k]? = some v → v.layer.id ≠ s

/-- The layers `ws'` are all layers `ws`, each after the layers that its operands come from. -/
def InOrder (ws ws' : List Written) : Prop :=
  ∃ order : List Nat, order.Perm (List.range ws.length) ∧ ws'.map some = order.map (fun i => ws[i]?) ∧
    ∀ pre j post, order = pre ++ j :: post → ∀ w, ws[j]? = some w → ∀ s ∈ w.layer.sources, s.2 ≠ w.layer.id → ∃ i ∈ pre, Bearer ws j s.2 i

end Verif.Call
