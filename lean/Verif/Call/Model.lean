import Mathlib.Data.Char
import Mathlib.Data.List.Lex
import Verif.Net.Model
import Verif.Files.Model
import Verif.Workload.Model

/-! A whole call of the API on the contents of the three files: accelerator, workload and mapping.  The files are checked and read (`Files`), the layers are built
(`LayerBuild`), get their entries of the mapping file (`Links`) and are sorted (`Workload`); then the stages of `Net` run.

Outside of this model, marked by `notImplemented`: arrays for in-memory computing, temporal orderings with negative numbers of iterations or for a dimension that is called `*`, operands that do not have the names `I1`,
`I2` and `O` (names with a line feed at the end are accepted by the schema), and links of the output to another memory operand than `O`. -/

namespace Verif.Call

open Equation (Text)
open Files (Doc AccR MemR MapR MapAttr)
open Latency (Operand)
open LayerBuild (LayerD Built)
open LayerNode (Rel)
open Net (Node)
open Ports (MemD PortD)
open Whole (AccD LayerIn)

/-- The order of texts, with the usual decision of equality. -/
instance textOrder : LinearOrder Text := { (inferInstance : LinearOrder (List Char)) with
  toDecidableEq := instDecidableEqList
  compare_eq_compareOfLessAndEq := fun a b => by
    rw [LinearOrder.compare_eq_compareOfLessAndEq]
    congr }

/-! ### The accelerator -/

/-- The memory operands by name (/repo/zigzag/datatypes.py lines 43-66). -/
def opOf (s : String) : Option Operand := if s = "I1" then some .in1 else if s = "I2" then some .in2 else if s = "O" then some .out else none

/-- `f` on all elements. -/
def mapO {α β : Type} (f : α → Option β) : List α → Option (List β)
  | [] => some []
  | x :: t =>
    match f x with
    | none => none
    | some y =>
      match mapO f t with
      | none => none
      | some ys => some (y :: ys)

/-- The movements of a port. -/
def portOf (p : PortD String) : Option (PortD Operand) :=
  (mapO (fun a : String × Ports.Dir => (opOf a.1).map fun o => (o, a.2)) p.alloc).map fun as => ⟨p.name, p.type, p.bwMin, p.bwMax, as⟩

/-- A memory with the costs that it has got when it was built (/repo/zigzag/parser/accelerator_factory.py lines 155-196), given or extracted. -/
def memOf (m : MemR) (costs : Option ℚ × Option ℚ × Option ℚ) : Except PyErr (MemD Operand String) :=
  match Files.memD m with
  | .error e => .error e
  | .ok d =>
    match mapO opOf d.operands, mapO portOf d.ports with
    | some ops, some ports => .ok ⟨d.size, false, costs.1, costs.2.1, costs.2.2, ops, ports, d.served⟩
    | _, _ => .error .notImplemented

/-- All memories. -/
def memsOf : List (String × MemR) → List Files.Level → Except PyErr (List (MemD Operand String))
  | e :: t, l :: ls =>
    match memOf e.2 l.costs with
    | .error x => .error x
    | .ok m =>
      match memsOf t ls with
      | .error x => .error x
      | .ok ms => .ok (m :: ms)
  | _, _ => .ok []

/-- `AcceleratorParserStage` (/repo/zigzag/stages/parser/accelerator_parser.py lines 21-38): the accelerator that is built from the file. -/
def accelerator (cacti : String → String → Int → Int → Except PyErr (ℚ × ℚ × ℚ)) (d : Doc) : Except PyErr (AccD String) :=
  match Files.parseAcc cacti (fun _ => .error .notImplemented) d with
  | .error e => .error e
  | .ok acc =>
    match Files.readAcc (Files.normalize Files.accRule d), acc.unit with
    | some a, some (energy, _) =>
      match memsOf a.mems acc.levels with
      | .error e => .error e
      | .ok ms => .ok ⟨ms, acc.sizes.map fun e => (e.1, e.2.toNat), energy⟩
    | _, _ => .error .notImplemented

/-! ### The workload -/

/-- Options of the call that the layers carry here: the type of temporal mapping and `access_same_data_considered_as_no_access` (/repo/zigzag/api.py lines
130-148). -/
structure LayerOptions where
  even : Bool
  noAccess : Bool

/-- `node_name` (/repo/zigzag/parser/workload_factory.py line 58). -/
def nodeName (name : Option String) (id : Int) : String :=
  match name with
  | some s => s
  | none => "Layer" ++ toString id

/-- The memory operand of a layer operand (`layer_to_mem_op`, /repo/zigzag/workload/layer_attributes.py lines 124-125); the code looks operands up when they are used. -/
def linkOf (t : Links.Links String String) (op : Text) : Except PyErr Operand :=
  match t.toMem (String.ofList op) with
  | .error e => .error e
  | .ok s =>
    match opOf s with
    | none => .error .notImplemented
    | some o => .ok o

/-- The operands of the layer with their memory operands. -/
def linked (t : Links.Links String String) : List (Text × Rel Text × ℚ) → Except PyErr (Dict Operand (Text × Rel Text))
  | [] => .ok []
  | x :: l =>
    match linkOf t x.1 with
    | .error e => .error e
    | .ok o =>
      match linked t l with
      | .error e => .error e
      | .ok r => .ok ((o, x.1, x.2.1) :: r)

/-- The precision of an operand of the layer (workload_factory.py lines 128-132, /repo/zigzag/workload/layer_attributes.py lines 92-107). -/
def precisionOf (d : LayerD) (t : Text) : Nat := ((d.precision.get? t).getD 0).toNat

/-- `LayerNode.__init__` (/repo/zigzag/workload/layer_node.py lines 165-195) in the form of `Whole`: the operands of the equation, the first one being the output. -/
def layerOf (o : LayerOptions) (d : LayerD) (b : Built) (ops : Dict Operand (Text × Rel Text)) (order : List (String × Option Int)) : LayerIn Text where
  ops := ops.map Prod.fst
  inputs := (ops.map Prod.fst).drop 1
  L := b.layer
  rel op := ((ops.get? op).map fun x => x.2).getD ⟨[], [], []⟩
  precision op := ((ops.get? op).map fun x => precisionOf d x.1).getD 0
  finalPrecision := precisionOf d "O_final".toList
  noAccess := o.noAccess
  cyclesPerOp := 1
  even := o.even
  -- `remove_invalid_layer_dims` (workload_factory.py line 104)
  order := Ordering.removeInvalid b.layer.dimSizes.keys (order.map fun e => (e.1.toList, e.2.map Int.toNat))

/-- `LayerNodeFactory.create` (workload_factory.py lines 60-111) with the entry of the mapping file for the name, else for the type of the layer. -/
def nodeOf (o : LayerOptions) (ms : List MapR) (y : Option String × String × LayerD) : Except PyErr (Node String Text) :=
  match LayerBuild.build y.2.2 with
  | .error e => .error e
  | .ok b =>
    match Links.choose (nodeName y.1 y.2.2.id) y.2.1 (ms.map fun m => (m.name, m)) with
    | .error e => .error e
    | .ok (_, m) =>
      match Files.mapAttr m with
      | .error e => .error e
      | .ok attr =>
        match linked attr.links b.operands with
        | .error e => .error e
        | .ok ops =>
          if (ops.map Prod.fst).head? = some .out ∧ Operand.out ∉ (ops.map Prod.fst).drop 1 ∧
              ∀ e ∈ attr.order, e.1.toList ∈ b.layer.dimSizes.keys → e.1 ≠ "*" ∧ ∀ f, e.2 = some f → 0 ≤ f then
            .ok ⟨false, layerOf o y.2.2 b ops attr.order, attr.spatial.map fun e => (e.1, e.2.map fun x => (x.1.toList, (x.2 : ℚ))),
              attr.hint.map fun e => (e.1, e.2.map String.toList)⟩
          else .error .notImplemented

/-- All layers in the order of the file (workload_factory.py lines 35-43). -/
def nodesOf (o : LayerOptions) (ms : List MapR) : List (Option String × String × LayerD) → Except PyErr (List (Node String Text))
  | [] => .ok []
  | y :: t =>
    match nodeOf o ms y with
    | .error e => .error e
    | .ok n =>
      match nodesOf o ms t with
      | .error e => .error e
      | .ok ns => .ok (n :: ns)

/-- Different numbers for different ids. -/
def idCode (i : Int) : Nat := if 0 ≤ i then 2 * i.toNat else 2 * (-i).toNat + 1

/-- What the graph of the workload is built from. -/
def entryOf (d : LayerD) : Workload.Entry := ⟨idCode d.id, d.sources.map fun e => idCode e.2⟩

/-- `WorkloadParserStage.parse_workload` (/repo/zigzag/stages/parser/workload_parser.py lines 37-69) and the order of `WorkloadStage`
(/repo/zigzag/stages/workload_iterator.py lines 30-42): no layer is skipped on an array that is not for in-memory computing. -/
def workload (eqn : List Char → Bool) (rel : List Char → Option LayerBuild.RelD) (o : LayerOptions) (dw dm : Doc) : Except PyErr (List (Node String Text)) :=
  match Files.parseLayers eqn rel dw with
  | .error e => .error e
  | .ok ys =>
    match Files.parseMapping dm with
    | .error e => .error e
    | .ok ms =>
      match nodesOf o ms ys with
      | .error e => .error e
      | .ok ns =>
        match Workload.dnn (ys.map fun y => entryOf y.2.2) with
        | .error e => .error e
        | .ok g =>
          match Workload.schedule g (fun _ => false) (fun _ => false) with
          | .error e => .error e
          | .ok order => .ok (order.filterMap fun i => ns[i]?)

/-- `get_hardware_performance_zigzag` (/repo/zigzag/api.py lines 26-159) on the contents of the files. -/
def call (cacti : String → String → Int → Int → Except PyErr (ℚ × ℚ × ℚ)) (eqn : List Char → Bool) (rel : List Char → Option LayerBuild.RelD)
    (fact : Nat → List (Nat × Nat)) (lo : LayerOptions) (o : Net.Options String Text) (opt : String) (da dw dm : Doc) (fuel : Nat) :
    Except PyErr (Net.Reply String Text) :=
  match Pipeline.Opt.parse opt with
  | .error e => .error e
  | .ok _ =>
    match workload eqn rel lo dw dm with
    | .error e => .error e
    | .ok nodes =>
      match accelerator cacti da with
      | .error e => .error e
      | .ok a => Net.network (fun _ => (0, 0)) fact a o opt nodes fuel

end Verif.Call
