import Verif.Cme.Model

/-! Saving results as JSON: `json_repr_handler` (/repo/zigzag/utils.py lines 45-69), the representations of the results
(/repo/zigzag/cost_model/cost_model.py lines 204-249, /repo/zigzag/cost_model/cost_model_imc.py lines 105-173) and `json.dump` as it is
called in /repo/zigzag/stages/results/save.py lines 57-60 and 104-111.

Numbers are exact rationals.  The file is represented by the tree of what is written; the text form of a JSON tree is that of Python's
`json` module. -/

namespace Verif.Json

/-- Values that `json_repr_handler` hands on as they are (utils.py lines 50-53). -/
inductive Leaf where
  | none
  | bool (b : Bool)
  | int (i : Int)
  | num (q : ℚ)
  | str (s : List Char)
  deriving DecidableEq

/-- Python objects as seen by `json_repr_handler`.  `obj full simple` is an object whose methods `__jsonrepr__` and `__simplejsonrepr__` return the
representation of `full` and of `simple` (every such method in the code returns a text, a dictionary of plain values or the result of
`json_repr_handler`); `other` stands for a missing method and for an object without methods; `raise e` for an object (or method or attribute)
whose evaluation raises `e`; `npInt` is a numpy integer; the elements of a set are listed in the order of traversal. -/
inductive Val where
  | leaf (l : Leaf)
  | npInt (i : Int)
  | obj (full simple : Val)
  | dict (es : List (Val × Val))
  | set (l : List Val)
  | list (l : List Val)
  | tuple (l : List Val)
  | raise (e : PyErr)
  | other

/-- What `json_repr_handler` returns. -/
inductive Rep where
  | leaf (l : Leaf)
  | list (l : List Rep)
  | tuple (l : List Rep)
  | dict (es : List (Leaf × Rep))

/-- Value of a number or truth value (`True == 1`). -/
def Leaf.val? : Leaf → Option ℚ
  | .none => Option.none
  | .bool b => some (if b then 1 else 0)
  | .int i => some i
  | .num q => some q
  | .str _ => Option.none

/-- Equality of keys in Python: `1`, `1.0` and `True` are the same key. -/
def Leaf.same (a b : Leaf) : Bool := decide (a = b) || (a.val?.isSome && decide (a.val? = b.val?))

/-- Assignment to a key of a dictionary: an equal key keeps its place and its form. -/
def put (k : Leaf) (v : Rep) : List (Leaf × Rep) → List (Leaf × Rep)
  | [] => [(k, v)]
  | e :: t => if e.1.same k = true then (e.1, v) :: t else e :: put k v t

mutual

/-- `json_repr_handler` (utils.py lines 45-69); `s` is the argument `simple`. -/
def handler (s : Bool) : Val → Except PyErr Rep
  | .leaf l => .ok (.leaf l)
  | .npInt i => .ok (.leaf (.int i))
  | .obj f g =>
    match s with
    | true => handler true g
    | false => handler false f
  | .dict es =>
    match handlerE s [] es with
    | .error e => .error e
    | .ok l => .ok (.dict l)
  | .set l =>
    match handlerL s l with
    | .error e => .error e
    | .ok l => .ok (.list l)
  | .list l =>
    match handlerL s l with
    | .error e => .error e
    | .ok l => .ok (.list l)
  | .tuple l =>
    match handlerL s l with
    | .error e => .error e
    | .ok l => .ok (.tuple l)
  | .raise e => .error e
  | .other => .error .typeError

/-- Lines 63-67: the elements of a list, tuple or set. -/
def handlerL (s : Bool) : List Val → Except PyErr (List Rep)
  | [] => .ok []
  | v :: t =>
    match handler s v with
    | .error e => .error e
    | .ok r =>
      match handlerL s t with
      | .error e => .error e
      | .ok l => .ok (r :: l)

/-- Line 61: one key and its value.  A list or dictionary cannot be a key, and a tuple as key is refused by `json.dump`: both are `TypeError`. -/
def handlerP (s : Bool) : Val × Val → Except PyErr (Leaf × Rep)
  | (k, v) =>
    match handler s k with
    | .error e => .error e
    | .ok rk =>
      match handler s v with
      | .error e => .error e
      | .ok r =>
        match rk with
        | .leaf l => .ok (l, r)
        | .list _ => .error .typeError
        | .tuple _ => .error .typeError
        | .dict _ => .error .typeError

/-- Line 61: the dictionary comprehension; keys with equal representations are merged. -/
def handlerE (s : Bool) (acc : List (Leaf × Rep)) : List (Val × Val) → Except PyErr (List (Leaf × Rep))
  | [] => .ok acc
  | p :: t =>
    match handlerP s p with
    | .error e => .error e
    | .ok r => handlerE s (put r.1 r.2 acc) t

end

/-- Contents of a file. -/
inductive Json where
  | null
  | bool (b : Bool)
  | num (q : ℚ)
  | str (s : List Char)
  | arr (l : List Json)
  | obj (es : List (List Char × Json))

/-- `json.dump` of a plain value. -/
def dumpLeaf : Leaf → Json
  | .none => .null
  | .bool b => .bool b
  | .int i => .num i
  | .num q => .num q
  | .str s => .str s

/-- `json.dump` of a key: other keys than texts are turned into texts.  (The text of a number is simplified: results have no such keys.) -/
def dumpKey : Leaf → List Char
  | .none => "null".toList
  | .bool true => "true".toList
  | .bool false => "false".toList
  | .int i => (toString i).toList
  | .num q => (toString q).toList
  | .str s => s

mutual

/-- `json.dump` (tuples are written as lists). -/
def dump : Rep → Json
  | .leaf l => dumpLeaf l
  | .list l => .arr (dumpL l)
  | .tuple l => .arr (dumpL l)
  | .dict es => .obj (dumpE es)

def dumpL : List Rep → List Json
  | [] => []
  | r :: t => dump r :: dumpL t

def dumpP : Leaf × Rep → List Char × Json
  | (k, r) => (dumpKey k, dump r)

def dumpE : List (Leaf × Rep) → List (List Char × Json)
  | [] => []
  | p :: t => dumpP p :: dumpE t

end

/-- `save_to_json` (save.py lines 57-60 and 104-111): `json.dump` asks the handler for the representation of the result. -/
def save (simple : Bool) (v : Val) : Except PyErr Json :=
  match handler simple v with
  | .error e => .error e
  | .ok r => .ok (dump r)

/-! ### Results -/

/-- A dictionary with texts as keys. -/
def tdict (l : List (String × Val)) : Val := .dict (l.map (fun e => (.leaf (.str e.1.toList), e.2)))

/-- A number. -/
def num (q : ℚ) : Val := .leaf (.num q)

/-- `OperandABC` (/repo/zigzag/datatypes.py lines 42-43): represented by its name. -/
def named (s : List Char) : Val := .obj (.leaf (.str s)) .other

/-- `DataDirection` values (memory_port.py lines 15-19). -/
def dirName : Cme.Dir → List Char
  | .rdToLow => "rd_out_to_low".toList
  | .wrByLow => "wr_in_by_low".toList
  | .rdToHigh => "rd_out_to_high".toList
  | .wrByHigh => "wr_in_by_high".toList

/-- `FourWayDataMoving.__jsonrepr__` (/repo/zigzag/mapping/data_movement.py lines 50-52). -/
def fourVal (f : Cme.FourWay) : Val :=
  .obj (.dict ([Cme.Dir.rdToLow, .wrByLow, .rdToHigh, .wrByHigh].map (fun d => (.leaf (.str (dirName d)), num (f.get d))))) .other

variable {Op : Type}

/-- A table with a row for each operand. -/
def table {V : Type} (name : Op → List Char) (f : V → Val) (t : Dict Op (List V)) : Val :=
  .dict (t.map (fun e => (named (name e.1), .list (e.2.map f))))

/-- A dictionary from texts to numbers. -/
def numbers (t : Dict (List Char) ℚ) : Val := .dict (t.map (fun e => (.leaf (.str e.1), num e.2)))

/-- What the in-memory-computing cost model adds to a result (cost_model_imc.py lines 64-95, 101-109). -/
structure ImcPart where
  macBreakdown : Dict (List Char) ℚ
  stall : ℚ
  tclk : ℚ
  tclkBreakdown : Dict (List Char) ℚ
  area : ℚ
  imcArea : ℚ
  memArea : ℚ
  imcAreaBreakdown : Dict (List Char) ℚ
  memAreaBreakdown : Dict (List Char) ℚ

/-- What a result for one layer holds besides the figures: utilization of the memories, layer, integer spatial mapping, temporal mapping. -/
structure LayerPart (Op : Type) where
  memUtil : Dict Op (List ℚ)
  layer : Val
  spatial : Val
  temporal : Val
  imc : Option ImcPart

/-- A result: the figures, the accelerator, and the parts that only a result for one layer has. -/
structure Result (Op : Type) where
  cme : Cme.Cme Op
  accelerator : Val
  part : Option (LayerPart Op)

/-- Utilization figures: attributes that a `CumulativeCME` does not have before the first addition (cost_model.py lines 255-276). -/
def utilVal (u : Option Cme.Util) : Val :=
  match u with
  | some u => tdict [("mac_utilization", tdict [("ideal", num u.spatial), ("stalls", num u.util0),
      ("stalls_onloading", num u.util1), ("stalls_onloading_offloading", num u.util2)])]
  | none => .raise .attributeError

/-- "memory" of both representations (cost_model.py lines 213-216, cost_model_imc.py lines 115-118). -/
def memoryVal (name : Op → List Char) (c : Cme.Cme Op) (p : Option (LayerPart Op)) : Val :=
  tdict [("utilization", match p with | some p => table name num p.memUtil | none => .leaf .none),
    ("word_accesses", table name fourVal c.access)]

/-- `CostModelEvaluationABC.__jsonrepr__` (cost_model.py lines 208-249). -/
def fullVal (name : Op → List Char) (r : Result Op) : Val :=
  tdict [
    ("outputs", tdict [
      ("memory", memoryVal name r.cme r.part),
      ("energy", tdict [
        ("energy_total", num r.cme.totals.energyTotal),
        ("operational_energy", num r.cme.totals.macEnergy),
        ("memory_energy", num r.cme.totals.memEnergy),
        ("memory_energy_breakdown_per_level", table name num r.cme.energy),
        ("memory_energy_breakdown_per_level_per_operand", table name fourVal r.cme.energyDir)]),
      ("latency", tdict [
        ("data_onloading", num (r.cme.totals.latency1 - r.cme.totals.latency0)),
        ("computation", num r.cme.totals.latency0),
        ("data_offloading", num (r.cme.totals.latency2 - r.cme.totals.latency1))]),
      ("spatial", utilVal r.cme.util)]),
    ("inputs", tdict [
      ("accelerator", r.accelerator),
      ("layer", match r.part with | some p => p.layer | none => .list (r.cme.layerIds.map (fun (i : Nat) => Val.leaf (.int i)))),
      ("spatial_mapping", match r.part with | some p => p.spatial | none => .leaf .none),
      ("temporal_mapping", match r.part with | some p => p.temporal | none => .leaf .none)])]

/-- `CostModelEvaluationForIMC.__jsonrepr__` (cost_model_imc.py lines 105-164). -/
def fullValImc (name : Op → List Char) (c : Cme.Cme Op) (accelerator : Val) (p : LayerPart Op) (m : ImcPart) : Val :=
  tdict [
    ("outputs", tdict [
      ("memory", memoryVal name c (some p)),
      ("energy", tdict [
        ("energy_total", num c.totals.energyTotal),
        ("operational_energy", num c.totals.macEnergy),
        ("operational_energy_breakdown", numbers m.macBreakdown),
        ("memory_energy", num c.totals.memEnergy),
        ("memory_energy_breakdown_per_level", table name num c.energy),
        ("memory_energy_breakdown_per_level_per_operand", table name fourVal c.energyDir)]),
      ("latency", tdict [
        ("data_onloading", num (c.totals.latency1 - c.totals.latency0)),
        ("computation", num c.totals.latency0),
        ("data_offloading", num (c.totals.latency2 - c.totals.latency1)),
        ("computation_breakdown", tdict [
          ("mac_computation", num c.totals.idealTemporal),
          ("memory_stalling", num m.stall)])]),
      ("clock", tdict [
        ("tclk (ns)", num m.tclk),
        ("tclk_breakdown (ns)", numbers m.tclkBreakdown)]),
      ("area (mm^2)", tdict [
        ("total_area", num m.area),
        ("total_area_breakdown:", tdict [
          ("imc_area", num m.imcArea),
          ("mem_area", num m.memArea)]),
        ("total_area_breakdown_further", tdict [
          ("imc_area_breakdown", numbers m.imcAreaBreakdown),
          ("mem_area_breakdown", numbers m.memAreaBreakdown)])]),
      ("spatial", utilVal c.util)]),
    ("inputs", tdict [
      ("accelerator", accelerator),
      ("layer", p.layer),
      ("spatial_mapping", p.spatial),
      ("temporal_mapping", p.temporal)])]

/-- `__simplejsonrepr__` (cost_model.py lines 204-206, cost_model_imc.py lines 166-173). -/
def simpleVal (r : Result Op) : Val :=
  match r.part.bind (fun p => p.imc) with
  | none => tdict [("energy", num r.cme.totals.energyTotal), ("latency", num r.cme.totals.latency2)]
  | some m => tdict [("energy", num r.cme.totals.energyTotal), ("latency", num r.cme.totals.latency2),
      ("tclk (ns)", num m.tclk), ("area", num m.area)]

/-- A result as an object. -/
def resultVal (name : Op → List Char) (r : Result Op) : Val :=
  .obj (match r.part with
    | none => fullVal name r
    | some p => match p.imc with
      | none => fullVal name r
      | some m => fullValImc name r.cme r.accelerator p m) (simpleVal r)

/-- `__mul__` (cost_model.py lines 161-202) of a result: a copy in which only the figures are scaled. -/
def mulResult (r : Result Op) (n : ℚ) : Except PyErr (Result Op) :=
  match Cme.mul r.cme n with
  | .error e => .error e
  | .ok c => .ok { r with cme := c }

/-! ### Mappings, layers, accelerators -/

/-- `str((layer_dim, size))` -/
def pairText (e : List Char × ℕ) : List Char := '(' :: e.1 ++ ", ".toList ++ Nat.toDigits 10 e.2 ++ [')']

/-- `TemporalMapping.__jsonrepr__` (/repo/zigzag/mapping/temporal_mapping.py lines 50-57) and `SpatialMappingInternal.__jsonrepr__`
(/repo/zigzag/mapping/spatial_mapping_internal.py lines 48-55): the loops of each operand and memory level as texts. -/
def loopsVal (name : Op → List Char) (m : Dict Op (List (List (List Char × ℕ)))) : Val :=
  .obj (table name (fun l => .list (l.map (fun e => .leaf (.str (pairText e))))) m) .other

/-- `LayerNode.__jsonrepr__` (/repo/zigzag/workload/layer_node.py lines 252-265); sizes, precisions and links are dictionaries with named keys. -/
def layerVal (layerName type equation : List Char) (relations : List (List Char)) (sizes precision : Dict (List Char) ℕ) (mapping : Val)
    (links : Dict (List Char) (List Char)) : Val :=
  .obj (tdict [("name", .leaf (.str layerName)), ("type", .leaf (.str type)), ("equation", .obj (.leaf (.str equation)) .other),
    ("equation_relations", .list (relations.map (fun s => .obj (.leaf (.str s)) .other))),
    ("loop_dimensions", .obj (.dict (sizes.map (fun e => (named e.1, .leaf (.int e.2))))) .other),
    ("operand_precision", .obj (.dict (precision.map (fun e => (named e.1, .leaf (.int e.2))))) .other),
    ("user_spatial_mapping", mapping),
    ("memory_operand_links", .obj (.dict (links.map (fun e => (named e.1, named e.2)))) .other)]) .other

/-- `Accelerator.__jsonrepr__` (/repo/zigzag/hardware/architecture/accelerator.py lines 104-105): the attributes of the object in the order in which
the constructor (lines 30-46) and lines 58-90 create them.  Memory levels are texts (memory_level.py lines 134-136, memory_hierarchy.py lines
158-160), the array is `operational_array.py` lines 36-37 or `imc_array.py` lines 605-606. -/
def acceleratorVal (name : Op → List Char) (id : Nat) (acc : List Char) (array : Val) (levels : List (List Char)) (perOp : Dict Op (List (List Char)))
    (dataflows : Val) (sizes : Dict Op (List ℕ)) (sharing : List (Dict Op ℕ)) : Val :=
  .obj (tdict [("id", .leaf (.int id)), ("name", .leaf (.str acc)), ("operational_array", array),
    ("memory_hierarchy", .obj (.list (levels.map named)) .other), ("mem_hierarchy_dict", table name named perOp), ("dataflows", dataflows),
    ("mem_size_dict", table name (fun (n : ℕ) => Val.leaf (.int n)) sizes), ("mem_r_bw_dict", tdict []), ("mem_w_bw_dict", tdict []), ("mem_r_bw_min_dict", tdict []),
    ("mem_w_bw_min_dict", tdict []), ("mem_sharing_list", .list (sharing.map (fun d => .dict (d.map (fun e => (named (name e.1), Val.leaf (.int e.2)))))))]) .other

/-- `OperationalArray.__jsonrepr__` (operational_array.py lines 36-37) with the unit of `operational_unit.py` lines 19-21. -/
def arrayVal (energy area : ℚ) (dims : Dict (List Char) ℕ) : Val :=
  .obj (tdict [("operational_unit", .obj (tdict [("energy_cost", num energy), ("area", num area)]) .other),
    ("dimensions", .dict (dims.map (fun e => (named e.1, Val.leaf (.int e.2)))))]) .other

/-- `ImcArray.__jsonrepr__` (imc_array.py lines 605-606): one odd key. -/
def imcArrayVal (dims : Dict (List Char) ℕ) : Val :=
  .obj (tdict [("operational_unit: ImcArray, dimensions", .dict (dims.map (fun e => (named e.1, Val.leaf (.int e.2)))))]) .other

/-- `SpatialMapping.__jsonrepr__` (layer_attribute.py lines 32-33) with `MappingSingleOADim.__jsonrepr__` (/repo/zigzag/mapping/spatial_mapping.py lines 64-65). -/
def mappingVal (m : Dict (List Char) (Dict (List Char) ℚ)) : Val :=
  .obj (.dict (m.map (fun e => (named e.1, Val.obj (.dict (e.2.map (fun x => (named x.1, num x.2)))) .other)))) .other

end Verif.Json
