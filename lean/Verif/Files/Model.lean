import Verif.Ports.Model
import Verif.Hierarchy.Model
import Verif.LayerBuild.Model
import Verif.Links.Model

/-! Input files: the schemas and checks of /repo/zigzag/parser/accelerator_validator.py, mapping_validator.py, workload_validator.py and
upgraded_validator.py, and what /repo/zigzag/parser/accelerator_factory.py, mapping_factory.py and workload_factory.py read from the checked data.

The schemas are interpreted by the library `cerberus`; the part of the library that they use is modelled here from its documentation (rules `type`,
`required`, `nullable`, `default`, `regex`, `allowed`, `min`, `minlength`, `maxlength`, `schema`, `items`, `oneof`, `valuesrules`; fields that are not in a
schema are errors).  Simplifications: keys of mappings are texts, `\d` stands for the ASCII digits, texts are stripped of blanks and newlines only. -/

namespace Verif.Files

open Verif.Ports (Dir PType PortD MemD)

/-- A value read from a YAML file (/repo/zigzag/utils.py lines 39-42). -/
inductive Doc where
  | null
  | bool (b : Bool)
  | int (i : Int)
  | num (q : ℚ)
  | str (s : String)
  | list (l : List Doc)
  | dict (es : List (String × Doc))

/-- Names of types in a schema. -/
inductive Ty where
  | string | integer | float | boolean | list | dict
  deriving DecidableEq

/-- The rule `type`: truth values are no integers but they are floats. -/
def Doc.hasTy : Doc → Ty → Bool
  | .str _, .string => true
  | .int _, .integer => true
  | .int _, .float => true
  | .num _, .float => true
  | .bool _, .float => true
  | .bool _, .boolean => true
  | .list _, .list => true
  | .dict _, .dict => true
  | _, _ => false

mutual

/-- The rules for one value. -/
inductive Rule where
  /-- a plain value; `check` collects `regex`, `allowed` and `min` -/
  | leaf (ty : Ty) (nullable : Bool) (check : Doc → Bool)
  /-- a list whose elements follow a rule; `len` collects `minlength` and `maxlength` -/
  | listOf (nullable : Bool) (len : Nat → Bool) (r : Rule)
  /-- a list of two values (`items`) -/
  | pair (a b : Rule)
  /-- `oneof` with two alternatives -/
  | oneOf (a b : Rule)
  /-- a mapping whose values follow a rule (`valuesrules`) -/
  | values (r : Rule)
  /-- a mapping with given fields -/
  | record (nullable : Bool) (fs : Fields)

/-- The fields of a mapping: name, `required`, `default` and rule. -/
inductive Fields where
  | nil
  | cons (name : String) (required : Bool) (default : Option Doc) (r : Rule) (t : Fields)

end

/-- Names of the fields. -/
def Fields.names : Fields → List String
  | .nil => []
  | .cons n _ _ _ t => n :: t.names

mutual

/-- `Validator.validate` for one value: no rule is violated. -/
def accepts : Rule → Doc → Bool
  | .leaf ty n c => fun d =>
    match d with
    | .null => n
    | d => d.hasTy ty && c d
  | .listOf n len r => fun d =>
    match d with
    | .null => n
    | .list l => len l.length && l.all (accepts r)
    | _ => false
  | .pair a b => fun d =>
    match d with
    | .list [x, y] => accepts a x && accepts b y
    | _ => false
  | .oneOf a b => fun d => (accepts a d).xor (accepts b d)
  | .values r => fun d =>
    match d with
    | .dict es => es.all (fun e => accepts r e.2)
    | _ => false
  | .record n fs => fun d =>
    match d with
    | .null => n
    | .dict es => es.all (fun e => decide (e.1 ∈ fs.names)) && acceptsF fs es
    | _ => false

/-- The fields: present ones follow their rule, required ones are present.  (Keys of a mapping are distinct, so at most one entry is checked.) -/
def acceptsF : Fields → List (String × Doc) → Bool
  | .nil => fun _ => true
  | .cons name req _ r t => fun es =>
    (!req || (Dict.get? es name).isSome) && es.all (fun e => !decide (e.1 = name) || accepts r e.2) && acceptsF t es

end

/-- Whether `null` is allowed. -/
def Rule.nullable : Rule → Bool
  | .leaf _ n _ => n
  | .listOf n _ _ => n
  | .record n _ => n
  | _ => false

/-- Type given in the rule. -/
def Rule.ty : Rule → Option Ty
  | .leaf t _ _ => some t
  | .listOf _ _ _ => some .list
  | .pair _ _ => some .list
  | .oneOf _ _ => none
  | .values _ => some .dict
  | .record _ _ => some .dict

/-- `Validator.normalized`: defaults of missing fields, and of `null` where it is not allowed. -/
def fill : Fields → List (String × Doc) → List (String × Doc)
  | .nil => fun es => es
  | .cons name _ dflt r t => fun es =>
    match dflt with
    | none => fill t es
    | some v =>
      match Dict.get? es name with
      | none => fill t (Dict.set es name v)
      | some .null => if r.nullable then fill t es else fill t (Dict.set es name v)
      | some _ => fill t es

mutual

/-- `Validator.normalized` (accelerator_validator.py line 174): first the defaults, then the values in lists and mappings. -/
def normalize : Rule → Doc → Doc
  | .leaf _ _ _ => fun d => d
  | .listOf _ _ r => fun d =>
    match d with
    | .list l => .list (l.map (normalize r))
    | d => d
  | .pair _ _ => fun d => d
  | .oneOf _ _ => fun d => d
  | .values r => fun d =>
    match d with
    | .dict es => .dict (es.map (fun e => (e.1, normalize r e.2)))
    | d => d
  | .record _ fs => fun d =>
    match d with
    | .dict es => .dict (normalizeF fs (fill fs es))
    | d => d

def normalizeF : Fields → List (String × Doc) → List (String × Doc)
  | .nil => fun es => es
  | .cons name _ _ r t => fun es =>
    match Dict.get? es name with
    | none => normalizeF t es
    | some v => normalizeF t (Dict.set es name (normalize r v))

end

/-- `get_type_default` (upgraded_validator.py lines 63-71). -/
def typeDefault : Option Ty → Doc
  | some .integer => .int 0
  | some .list => .list []
  | some .dict => .dict []
  | some .string => .str ""
  | _ => .null

/-- `get_default` (upgraded_validator.py lines 73-80). -/
def getDefault (dflt : Option Doc) (r : Rule) : Doc :=
  match dflt with
  | some v => v
  | none => if r.nullable then .null else typeDefault r.ty

/-- `add_defaults_to_doc` (upgraded_validator.py lines 82-88): every missing field of the entry, required or not. -/
def addDefaults : Fields → List (String × Doc) → List (String × Doc)
  | .nil => fun es => es
  | .cons name _ dflt r t => fun es =>
    match Dict.get? es name with
    | none => addDefaults t (Dict.set es name (getDefault dflt r))
    | some _ => addDefaults t es

/-- One entry of `normalize_list` (upgraded_validator.py lines 90-102). -/
def entryDefaults (fs : Fields) (e : Doc) : Option (List (String × Doc)) :=
  match e with
  | .dict es => some (addDefaults fs es)
  | _ => none

/-- `normalize_list` (upgraded_validator.py lines 90-102) for a file that is a list of mappings; `none`: the assertion fails or an entry cannot be
completed, an exception. -/
def normalizeList (fs : Fields) (d : Doc) : Option (List (List (String × Doc))) :=
  match d with
  | .list l => l.mapM (entryDefaults fs)
  | _ => none

/-! ### Texts -/

/-- `$` of a regular expression also matches before a newline at the end. -/
def lineEnd (p : List Char → Bool) (t : List Char) : Bool := p t || (decide (t.getLast? = some '\n') && p t.dropLast)

def isAZ (c : Char) : Bool := decide ('A' ≤ c ∧ c ≤ 'Z')

/-- `\d+` -/
def digits (t : List Char) : Bool := !t.isEmpty && t.all Char.isDigit

/-- `OPERAND_REGEX` (accelerator_validator.py line 14). -/
def operandText (t : List Char) : Bool := lineEnd (fun t => decide (t ∈ [['I', '1'], ['I', '2'], ['O']])) t

/-- `DIMENSION_REGEX` (line 15) -/
def dimCore : List Char → Bool
  | ['D', c] => c.isDigit
  | _ => false

def dimText (t : List Char) : Bool := lineEnd dimCore t

def portTail : List Char → Bool
  | '_' :: 'p' :: 'o' :: 'r' :: 't' :: '_' :: t => digits t
  | _ => false

/-- `PORT_REGEX` (line 16) -/
def portCore (t : List Char) : Bool :=
  let t := match t with | 'r' :: t => t | t => t
  let t := match t with | 'w' :: t => t | t => t
  portTail t

def portText (t : List Char) : Bool := lineEnd portCore t

/-- Texts of the directions in a port allocation. -/
def dirOf : List Char → Option Dir
  | ['f', 'h'] => some .wrHigh
  | ['f', 'l'] => some .wrLow
  | ['t', 'h'] => some .rdHigh
  | ['t', 'l'] => some .rdLow
  | _ => none

def allocTail : List Char → Bool
  | ',' :: ' ' :: t => (dirOf t).isSome
  | _ => false

/-- `ALLOCATION_REGEX` (line 17) -/
def allocCore : List Char → Bool
  | 'I' :: '1' :: t => allocTail t
  | 'I' :: '2' :: t => allocTail t
  | 'O' :: t => allocTail t
  | _ => false

def allocText (t : List Char) : Bool := lineEnd allocCore t

def itemTail : List Char → Bool
  | ',' :: ' ' :: t => digits t
  | _ => false

/-- `^[A-Z]+, [0-9]+$` (accelerator_validator.py lines 145-160). -/
def flowCore (t : List Char) : Bool := !(t.takeWhile isAZ).isEmpty && itemTail (t.dropWhile isAZ)

/-- `^[A-Z]+\d*, \d+$` (mapping_validator.py lines 19-34). -/
def itemCore (t : List Char) : Bool := !(t.takeWhile isAZ).isEmpty && itemTail ((t.dropWhile isAZ).dropWhile Char.isDigit)

/-- `^[A-Z]+\d*`, completed by `$` (mapping_validator.py lines 54-69). -/
def hintCore (t : List Char) : Bool := !(t.takeWhile isAZ).isEmpty && ((t.dropWhile isAZ).dropWhile Char.isDigit).isEmpty

/-- A check of texts as a check of values. -/
def onText (p : List Char → Bool) : Doc → Bool
  | .str s => p s.toList
  | _ => true

/-- The rule `allowed`. -/
def among (l : List String) : Doc → Bool
  | .str s => decide (s ∈ l)
  | _ => true

/-! ### Schemas -/

def anyDoc (_ : Doc) : Bool := true
def anyLen (_ : Nat) : Bool := true
def two (n : Nat) : Bool := decide (n = 2)

/-- `min: 0` -/
def natural : Doc → Bool
  | .int i => decide (0 ≤ i)
  | _ => true

def tInt : Rule := .leaf .integer false anyDoc
def tStr : Rule := .leaf .string false anyDoc
def tFloat (nullable : Bool) : Rule := .leaf .float nullable anyDoc
def tBool : Rule := .leaf .boolean false anyDoc
def tText (p : List Char → Bool) : Rule := .leaf .string false (onText p)
def texts (p : List Char → Bool) : Rule := .listOf false anyLen (tText p)

/-- One port (accelerator_validator.py lines 59-75). -/
def portRule : Rule := .record false (
  .cons "name" true none (tText portText) <|
  .cons "type" true none (.leaf .string false (among ["read", "write", "read_write"])) <|
  .cons "bandwidth_min" true none tInt <|
  .cons "bandwidth_max" true none tInt <|
  .cons "allocation" true none (texts allocText) .nil)

/-- One memory (accelerator_validator.py lines 24-88). -/
def memFields : Fields :=
  .cons "size" true none tInt <|
  .cons "r_cost" false (some .null) (tFloat true) <|
  .cons "w_cost" false (some .null) (tFloat true) <|
  .cons "area" false (some .null) (tFloat true) <|
  .cons "latency" true none tInt <|
  .cons "mem_type" false (some (.str "sram")) tStr <|
  .cons "auto_cost_extraction" false (some (.bool false)) tBool <|
  .cons "operands" true none (texts operandText) <|
  .cons "ports" true none (.listOf false anyLen portRule) <|
  .cons "served_dimensions" true none (texts dimText) <|
  .cons "force_double_buffering" false (some (.bool false)) tBool .nil

def memRule : Rule := .record false memFields

/-- The array (accelerator_validator.py lines 91-139). -/
def arrayFields : Fields :=
  .cons "dimensions" true none (texts dimText) <|
  .cons "is_imc" false (some (.bool false)) tBool <|
  .cons "sizes" true none (.listOf false anyLen (.leaf .integer false natural)) <|
  .cons "input_precision" false none (.listOf false two tInt) <|
  .cons "unit_energy" false none (tFloat false) <|
  .cons "unit_area" false none (tFloat false) <|
  .cons "imc_type" false (some .null) (.leaf .string true (among ["analog", "digital"])) <|
  .cons "adc_resolution" false (some (.int 0)) (tFloat true) <|
  .cons "bit_serial_precision" true (some .null) (tFloat true) .nil

def arrayRule : Rule := .record false arrayFields

/-- Preferred unrollings (accelerator_validator.py lines 140-166). -/
def flowFields : Fields :=
  .cons "D1" true none (texts (lineEnd flowCore)) <|
  .cons "D2" false none (texts (lineEnd flowCore)) <|
  .cons "D3" false none (texts (lineEnd flowCore)) <|
  .cons "D4" false none (texts (lineEnd flowCore)) .nil

def flowsRule : Rule := .record false flowFields

/-- `AcceleratorValidator.SCHEMA` (accelerator_validator.py lines 19-168). -/
def accFields : Fields :=
  .cons "name" true none tStr <|
  .cons "memories" true none (.values memRule) <|
  .cons "operational_array" true none arrayRule <|
  .cons "dataflows" false none flowsRule .nil

def accRule : Rule := .record false accFields

def dimFields (p : List Char → Bool) : Fields :=
  .cons "D1" false none (texts p) <| .cons "D2" false none (texts p) <| .cons "D3" false none (texts p) <| .cons "D4" false none (texts p) .nil

def perDim (nullable : Bool) (p : List Char → Bool) : Rule := .record nullable (dimFields p)

def defaultLinks : Doc := .dict [("O", .str "O"), ("I", .str "I1"), ("W", .str "I2")]

/-- `MappingValidator.SCHEMA_SINGLE` (mapping_validator.py lines 13-85). -/
def mapFields : Fields :=
  .cons "name" true none tStr <|
  .cons "spatial_mapping" false none (perDim true (lineEnd itemCore)) <|
  .cons "memory_operand_links" false (some defaultLinks) (.record false (.cons "O" true none tStr <| .cons "W" true none tStr <| .cons "I" true none tStr .nil)) <|
  .cons "spatial_mapping_hint" false none (perDim false (lineEnd hintCore)) <|
  .cons "temporal_ordering" false none (.listOf false anyLen (.pair tStr (.oneOf tInt (.leaf .string false (among ["*"]))))) .nil

def operators : List String :=
  ["Max", "Conv", "Pooling", "Add", "Conv_downsample", "Gemm", "Pool", "MaxPool", "AveragePool", "GlobalAveragePool"]

/-- `WorkloadValidator.LAYER_SCHEMA` (workload_validator.py lines 29-87); `eqn` and `rel` are the regular expressions of lines 13 and 14. -/
def layerFields (eqn rel : List Char → Bool) : Fields :=
  .cons "id" true none tInt <|
  .cons "name" false (some .null) (.leaf .string true anyDoc) <|
  .cons "operator_type" true none (.leaf .string false (among operators)) <|
  .cons "equation" true none (tText eqn) <|
  .cons "dimension_relations" false none (texts rel) <|
  .cons "loop_dims" true none (.listOf false anyLen tStr) <|
  .cons "loop_sizes" true none (.listOf false anyLen tInt) <|
  .cons "operand_precision" true none (.record false (
    .cons "I" false none tInt <| .cons "W" false none tInt <| .cons "O" true none tInt <| .cons "O_final" true none tInt .nil)) <|
  .cons "operand_source" false none (.record false (.cons "W" false none tInt <| .cons "I" false none tInt .nil)) <|
  .cons "pr_loop_dims" false (some .null) (.listOf true anyLen tStr) <|
  .cons "pr_loop_sizes" false (some .null) (.listOf true anyLen tInt) <|
  .cons "padding" false (some .null) (.listOf true anyLen (.listOf false two tInt)) .nil

/-! ### Reading checked data -/

/-- `d[k]` -/
def Doc.item (d : Doc) (k : String) : Option Doc :=
  match d with
  | .dict es => Dict.get? es k
  | _ => none

def Doc.int? : Doc → Option Int
  | .int i => some i
  | _ => none

/-- A float field: integers and truth values are numbers. -/
def Doc.num? : Doc → Option ℚ
  | .int i => some i
  | .num q => some q
  | .bool b => some (if b then 1 else 0)
  | _ => none

def Doc.str? : Doc → Option String
  | .str s => some s
  | _ => none

def Doc.bool? : Doc → Option Bool
  | .bool b => some b
  | _ => none

def Doc.list? {α : Type} (f : Doc → Option α) : Doc → Option (List α)
  | .list l => l.mapM f
  | _ => none

/-- A field that may be `null`. -/
def Doc.orNull {α : Type} (f : Doc → Option α) : Doc → Option (Option α)
  | .null => some none
  | d => (f d).map some

/-- `d[k]` with the expected form; `none`: the key is missing or the value has another form. -/
def Doc.field {α : Type} (d : Doc) (k : String) (f : Doc → Option α) : Option α := (d.item k).bind f

/-- A field that may be missing. -/
def Doc.field? {α : Type} (d : Doc) (k : String) (f : Doc → Option α) : Option (Option α) :=
  match d.item k with
  | none => some none
  | some v => (f v).map some

/-- One port as written; an allocation is still a text. -/
structure PortR where
  name : String
  type : PType
  bwMin : Int
  bwMax : Int
  alloc : List String

def Doc.ptype? : Doc → Option PType
  | .str s => if s = "read" then some .read else if s = "write" then some .write else if s = "read_write" then some .readWrite else none
  | _ => none

/-- Lines 158-162 and 209-210 of accelerator_factory.py: the fields read. -/
def readPort (d : Doc) : Option PortR := do
  let name ← d.field "name" Doc.str?
  let type ← d.field "type" Doc.ptype?
  let lo ← d.field "bandwidth_min" Doc.int?
  let hi ← d.field "bandwidth_max" Doc.int?
  let alloc ← d.field "allocation" (Doc.list? Doc.str?)
  return ⟨name, type, lo, hi, alloc⟩

/-- One memory as written. -/
structure MemR where
  size : Int
  rCost : Option ℚ
  wCost : Option ℚ
  area : Option ℚ
  latency : Int
  type : String
  auto : Bool
  operands : List String
  ports : List PortR
  served : List String
  double : Bool

/-- `MemoryFactory` (accelerator_factory.py lines 155-215): the fields read. -/
def readMem (d : Doc) : Option MemR := do
  let size ← d.field "size" Doc.int?
  let r ← d.field "r_cost" (Doc.orNull Doc.num?)
  let w ← d.field "w_cost" (Doc.orNull Doc.num?)
  let a ← d.field "area" (Doc.orNull Doc.num?)
  let lat ← d.field "latency" Doc.int?
  let type ← d.field "mem_type" Doc.str?
  let auto ← d.field "auto_cost_extraction" Doc.bool?
  let ops ← d.field "operands" (Doc.list? Doc.str?)
  let ports ← d.field "ports" (Doc.list? readPort)
  let served ← d.field "served_dimensions" (Doc.list? Doc.str?)
  let dbl ← d.field "force_double_buffering" Doc.bool?
  return ⟨size, r, w, a, lat, type, auto, ops, ports, served, dbl⟩

/-- The array as written. -/
structure ArrR where
  dims : List String
  imc : Bool
  sizes : List Int
  prec : Option (List Int)
  energy : Option ℚ
  area : Option ℚ
  type : Option String
  adc : Option ℚ
  bitSerial : Option ℚ

def readArr (d : Doc) : Option ArrR := do
  let dims ← d.field "dimensions" (Doc.list? Doc.str?)
  let imc ← d.field "is_imc" Doc.bool?
  let sizes ← d.field "sizes" (Doc.list? Doc.int?)
  let prec ← d.field? "input_precision" (Doc.list? Doc.int?)
  let en ← d.field? "unit_energy" Doc.num?
  let ar ← d.field? "unit_area" Doc.num?
  let type ← d.field "imc_type" (Doc.orNull Doc.str?)
  let adc ← d.field "adc_resolution" (Doc.orNull Doc.num?)
  let bs ← d.field "bit_serial_precision" (Doc.orNull Doc.num?)
  return ⟨dims, imc, sizes, prec, en, ar, type, adc, bs⟩

/-- A mapping with values of a given form. -/
def Doc.table {α : Type} (f : Doc → Option α) : Doc → Option (List (String × α))
  | .dict es => es.mapM (fun e => (f e.2).map (fun v => (e.1, v)))
  | _ => none

/-- An accelerator as written. -/
structure AccR where
  name : String
  mems : List (String × MemR)
  arr : ArrR
  flows : Option (List (String × List String))

def readAcc (d : Doc) : Option AccR := do
  let name ← d.field "name" Doc.str?
  let mems ← d.field "memories" (Doc.table readMem)
  let arr ← d.field "operational_array" readArr
  let flows ← d.field? "dataflows" (Doc.table (Doc.list? Doc.str?))
  return ⟨name, mems, arr, flows⟩

/-! ### Checks outside of the schema -/

/-- `text.split(", ")` -/
def splitCS : List Char → List (List Char)
  | [] => [[]]
  | ',' :: ' ' :: t => [] :: splitCS t
  | c :: t =>
    match splitCS t with
    | [] => [[c]]
    | h :: r => (c :: h) :: r

/-- Lines 226-231 of accelerator_validator.py for one allocation; unpacking another number of parts raises, which cannot happen for texts that follow the schema. -/
def dirOk (type : PType) (s : String) : Bool :=
  match splitCS s.toList with
  | [_, d] =>
    !(decide (d ∈ [['f', 'h'], ['f', 'l']]) && decide (type = .read)) && !(decide (d ∈ [['t', 'h'], ['t', 'l']]) && decide (type = .write))
  | _ => false

/-- `validate_single_memory` (accelerator_validator.py lines 202-238). -/
def checkMem (dims : List String) (m : MemR) : Bool :=
  (if m.auto then decide (m.size % 8 = 0) else m.rCost.isSome && m.wCost.isSome && m.area.isSome) &&
    m.served.all (fun d => decide (d ∈ dims)) &&
    m.ports.all (fun p => p.alloc.all (dirOk p.type)) &&
    m.ports.all (fun p => !decide (p.bwMin > p.bwMax))

/-- `validate_operational_array_non_imc` (lines 285-294). -/
def checkPlain (a : ArrR) : Bool := a.type.isNone && decide (a.adc = some 0) && a.bitSerial.isNone

/-- `validate_operational_array_imc` (lines 268-283); a resolution of `null` differs from zero. -/
def checkImc (a : ArrR) : Except PyErr Bool :=
  match a.prec with
  | some [p, q] => Ports.validateImc ⟨a.bitSerial, some ((p : ℚ), (q : ℚ)), decide (a.type = some "digital"), a.adc.getD 1⟩
  | _ => Ports.validateImc ⟨a.bitSerial, none, decide (a.type = some "digital"), a.adc.getD 1⟩

/-- `validate_cells_imc` (lines 240-253). -/
def checkCells (a : AccR) : Except PyErr Bool :=
  match Dict.get? a.mems "cells" with
  | none => .error .keyError
  | some c =>
    match a.arr.prec with
    | some [_, q] =>
      if q = 0 then .error .zeroDivision else .ok (decide (c.operands = ["I2"]) && c.served.isEmpty && decide (c.size % q = 0))
    | _ => .error .keyError

/-- `validate` after the schema (lines 189-200). -/
def checkAcc (a : AccR) : Except PyErr Bool :=
  match (if a.arr.imc then checkImc a.arr else .ok (checkPlain a.arr)) with
  | .error e => .error e
  | .ok b =>
    match (if a.arr.imc then checkCells a else .ok true) with
    | .error e => .error e
    | .ok c => .ok (decide (a.arr.dims.length = a.arr.sizes.length) && b && a.mems.all (fun m => checkMem a.arr.dims m.2) && c)

/-! ### Building -/

/-- `operand, data_dir = alloc.split(", ")` and `translate_to_data_direction` (accelerator_factory.py lines 211-213, 235-246). -/
def parseAlloc (s : String) : Except PyErr (String × Dir) :=
  match splitCS s.toList with
  | [o, d] =>
    match dirOf d with
    | some x => .ok (String.ofList o, x)
    | none => .error .valueError
  | _ => .error .valueError

/-- `f` on all elements, stopping at the first exception. -/
def mapE {α β : Type} (f : α → Except PyErr β) : List α → Except PyErr (List β)
  | [] => .ok []
  | a :: t =>
    match f a with
    | .error e => .error e
    | .ok b =>
      match mapE f t with
      | .error e => .error e
      | .ok bs => .ok (b :: bs)

/-- A port with its allocations taken apart.  (The code takes an allocation apart just before using it, so the kind of the exception can differ.) -/
def portD (p : PortR) : Except PyErr (PortD String) :=
  match mapE parseAlloc p.alloc with
  | .error e => .error e
  | .ok as => .ok ⟨p.name, p.type, p.bwMin, p.bwMax, as⟩

/-- The entry in the form of `Verif.Ports`. -/
def memD (m : MemR) : Except PyErr (MemD String String) :=
  match mapE portD m.ports with
  | .error e => .error e
  | .ok ps => .ok ⟨m.size, m.auto, m.rCost, m.wCost, m.area, m.operands, ps, m.served⟩

/-- Costs of a memory: those of the file, or extracted with the width of the first read port, else of the first read-write port
(/repo/zigzag/hardware/architecture/memory_instance.py lines 58-85).  `cacti name type size width` is the extraction. -/
def memCosts (cacti : String → String → Int → Int → Except PyErr (ℚ × ℚ × ℚ)) (name : String) (m : MemR) : Except PyErr (Option ℚ × Option ℚ × Option ℚ) :=
  if m.auto then
    match (m.ports.find? (fun p => decide (p.type = .read))).or (m.ports.find? (fun p => decide (p.type = .readWrite))) with
    | none => .error .valueError
    | some p =>
      match cacti name m.type m.size p.bwMax with
      | .error e => .error e
      | .ok (r, w, a) => .ok (some r, some w, some a)
  else .ok (m.rCost, m.wCost, m.area)

/-- A memory of the accelerator. -/
structure Level where
  name : String
  size : Int
  costs : Option ℚ × Option ℚ × Option ℚ
  latency : Int
  double : Bool
  served : List String
  levels : Dict String Nat
  ports : Ports.LvState String

/-- Levels of the operands of a new memory (memory_hierarchy.py lines 75-79). -/
def newLevels (h : Hierarchy.Hier String) (operands : List String) : Dict String Nat :=
  operands.foldl (fun d op => d.set op (Hierarchy.storing h.nodes op).length) []

/-- `OADimension(name)` (datatypes.py line 90) -/
def oaDim (s : String) : Except PyErr String := if dimText s.toList then .ok s else .error .assertion

/-- `add_memory_to_graph` (accelerator_factory.py lines 183-200) for all memories in the order of the file (lines 57-61). -/
def buildMems (cacti : String → String → Int → Int → Except PyErr (ℚ × ℚ × ℚ)) (h : Hierarchy.Hier String) :
    List (String × MemR) → Except PyErr (Hierarchy.Hier String × List Level)
  | [] => .ok (h, [])
  | e :: t =>
    match memCosts cacti e.1 e.2 with
    | .error x => .error x
    | .ok c =>
      match memD e.2 with
      | .error x => .error x
      | .ok m =>
        match mapE oaDim e.2.served with
        | .error x => .error x
        | .ok served =>
          match Ports.buildMem m (newLevels h e.2.operands) with
          | .error x => .error x
          | .ok st =>
            match buildMems cacti (Hierarchy.addMemory h e.2.operands) t with
            | .error x => .error x
            | .ok (h', ls) => .ok (h', ⟨e.1, e.2.size, c, e.2.latency, e.2.double, served, newLevels h e.2.operands, st⟩ :: ls)

/-- `text.split(",")[0]` -/
def beforeComma (t : List Char) : List Char := t.takeWhile (fun c => decide (c ≠ ','))

/-- `text.split(",")[-1]` -/
def afterComma (t : List Char) : List Char := (t.reverse.takeWhile (fun c => decide (c ≠ ','))).reverse

def blank (c : Char) : Bool := decide (c = ' ' ∨ c = '\n')

/-- `int(text)` -/
def toInt (t : List Char) : Except PyErr Nat := LayerBuild.pyIntText (((t.dropWhile blank).reverse.dropWhile blank).reverse)

/-- One unrolling such as `K, 4` (mapping_factory.py lines 69-71, accelerator_factory.py lines 138-140); dimensions are in upper case (datatypes.py line 71). -/
def parseItem (s : String) : Except PyErr (String × Nat) :=
  match toInt (afterComma s.toList) with
  | .error e => .error e
  | .ok n => .ok (String.ofList (Equation.upper (beforeComma s.toList)), n)

/-- `create_mapping_single_oa_dim` (mapping_factory.py lines 65-74), `__create_dataflow_single_oa_dim` (accelerator_factory.py lines 134-143). -/
def singleDim (l : List String) : Except PyErr (Dict String Nat) :=
  match mapE parseItem l with
  | .error e => .error e
  | .ok ps => .ok (ps.foldl (fun d e => d.set e.1 e.2) [])

/-- One array dimension with its unrollings (mapping_factory.py lines 58-61, accelerator_factory.py lines 127-130). -/
def spatialEntry (e : String × List String) : Except PyErr (String × Dict String Nat) :=
  match oaDim e.1 with
  | .error x => .error x
  | .ok k =>
    match singleDim e.2 with
    | .error x => .error x
    | .ok v => .ok (k, v)

/-- `create_spatial_mapping` (mapping_factory.py lines 51-63) and `create_dataflows` (accelerator_factory.py lines 124-132) for the given entries. -/
def spatialOf (l : List (String × List String)) : Except PyErr (Dict String (Dict String Nat)) :=
  match mapE spatialEntry l with
  | .error e => .error e
  | .ok ps => .ok (ps.foldl (fun d e => d.set e.1 e.2) [])

/-- Sizes of the array dimensions (accelerator_factory.py lines 82-85, 96-99). -/
def dimSizes (a : ArrR) : Except PyErr (Dict String Int) :=
  match mapE oaDim a.dims with
  | .error e => .error e
  | .ok ds => if ds.length ≤ a.sizes.length then .ok ((ds.zip a.sizes).foldl (fun d e => d.set e.1 e.2) []) else .error .indexError

/-- An accelerator. -/
structure Acc where
  name : String
  /-- energy and area of a multiplier; `none` for an in-memory array -/
  unit : Option (ℚ × ℚ)
  sizes : Dict String Int
  hier : Hierarchy.Hier String
  levels : List Level
  flows : Option (Dict String (Dict String Nat))

/-- `create_dataflows` (accelerator_factory.py lines 118-132). -/
def flowsOf (f : Option (List (String × List String))) : Except PyErr (Option (Dict String (Dict String Nat))) :=
  match f with
  | none => .ok none
  | some l =>
    match spatialOf l with
    | .error x => .error x
    | .ok s => .ok (some s)

/-- Energy and area of a multiplier (accelerator_factory.py lines 78-81). -/
def unitOf (a : ArrR) : Except PyErr (Option (ℚ × ℚ)) :=
  if a.imc then .ok none else
    match a.energy, a.area with
    | some e, some s => .ok (some (e, s))
    | _, _ => .error .keyError

/-- `AcceleratorFactory.create` (accelerator_factory.py lines 46-132); `imc` is the constructor of in-memory arrays (imc_array.py lines 18-45). -/
def buildAcc (cacti : String → String → Int → Int → Except PyErr (ℚ × ℚ × ℚ)) (imc : AccR → Except PyErr Unit) (a : AccR) : Except PyErr Acc :=
  match unitOf a.arr with
  | .error x => .error x
  | .ok unit =>
    match dimSizes a.arr with
    | .error x => .error x
    | .ok sizes =>
      match (if a.arr.imc then imc a else .ok ()) with
      | .error x => .error x
      | .ok _ =>
        match flowsOf a.flows with
        | .error x => .error x
        | .ok flows =>
          match buildMems cacti Hierarchy.empty a.mems with
          | .error x => .error x
          | .ok (h, ls) => .ok ⟨a.name, unit, sizes, h, ls, flows⟩

/-- `parse_accelerator` (/repo/zigzag/stages/parser/accelerator_parser.py lines 27-38).  A file that violates the schema is refused with `ValueError` or with the
exception that the checks after the schema meet (the kind is not modelled). -/
def parseAcc (cacti : String → String → Int → Int → Except PyErr (ℚ × ℚ × ℚ)) (imc : AccR → Except PyErr Unit) (d : Doc) : Except PyErr Acc :=
  if accepts accRule (normalize accRule d) then
    match readAcc (normalize accRule d) with
    | none => .error .keyError
    | some a =>
      match checkAcc a with
      | .error e => .error e
      | .ok false => .error .valueError
      | .ok true => buildAcc cacti imc a
  else .error .valueError

/-! ### Mappings -/

/-- One entry of a mapping file as written. -/
structure MapR where
  name : String
  spatial : Option (List (String × List String))
  links : List (String × String)
  hint : List (String × List String)
  order : List (String × Option Int)

/-- One loop of an ordering (layer_attributes.py line 197): sizes that are not integers mean "any size". -/
def orderItem : Doc → Option (String × Option Int)
  | .list [.str s, .int i] => some (s, some i)
  | .list [.str s, .str _] => some (s, none)
  | _ => none

def readMap (d : Doc) : Option MapR := do
  let name ← d.field "name" Doc.str?
  let sp ← d.field "spatial_mapping" (Doc.orNull (Doc.table (Doc.list? Doc.str?)))
  let links ← d.field "memory_operand_links" (Doc.table Doc.str?)
  let hint ← d.field "spatial_mapping_hint" (Doc.table (Doc.list? Doc.str?))
  let order ← d.field "temporal_ordering" (Doc.list? orderItem)
  return ⟨name, sp, links, hint, order⟩

/-- The mapping attributes of a layer. -/
structure MapAttr where
  spatial : Dict String (Dict String Nat)
  hint : Dict String (List String)
  links : Links.Links String String
  order : List (String × Option Int)

/-- One array dimension of a hint (mapping_factory.py lines 81-84); sets are lists without repetition. -/
def hintEntry (e : String × List String) : Except PyErr (String × List String) :=
  match oaDim e.1 with
  | .error x => .error x
  | .ok k => .ok (k, (e.2.map (fun s => String.ofList (Equation.upper s.toList))).dedup)

/-- `create_spatial_mapping_hint` (mapping_factory.py lines 76-85). -/
def hintOf (l : List (String × List String)) : Except PyErr (Dict String (List String)) :=
  match mapE hintEntry l with
  | .error e => .error e
  | .ok ps => .ok (ps.foldl (fun d e => d.set e.1 e.2) [])

/-- `create_memory_operand_links` (mapping_factory.py lines 87-92). -/
def linksOf (l : List (String × String)) : Except PyErr (Links.Links String String) := Links.mk (l.foldl (fun d e => d.set e.1 e.2) [])

/-- `MappingFactory.create_*` (mapping_factory.py lines 51-101) as called in workload_factory.py lines 99-103. -/
def mapAttr (m : MapR) : Except PyErr MapAttr :=
  match (match m.spatial with | none => .ok [] | some l => spatialOf l : Except PyErr (Dict String (Dict String Nat))) with
  | .error e => .error e
  | .ok sp =>
    match hintOf m.hint with
    | .error e => .error e
    | .ok hint =>
      match linksOf m.links with
      | .error e => .error e
      | .ok links => .ok ⟨sp, hint, links, m.order.map (fun e => (String.ofList (Equation.upper e.1.toList), e.2))⟩

/-- `MappingValidator` (mapping_validator.py lines 87-121) and `parse_mapping_data` (/repo/zigzag/stages/parser/workload_parser.py lines 59-69): the entries that are
handed on. -/
def parseMapping (d : Doc) : Except PyErr (List MapR) :=
  match normalizeList mapFields d with
  | none => .error .assertion
  | some l =>
    if l.all (fun es => accepts (.record false mapFields) (.dict es)) then
      match l.mapM (fun es => readMap (.dict es)) with
      | none => .error .keyError
      | some ms => if "default" ∈ ms.map MapR.name then .ok ms else .error .valueError
    else .error .valueError

/-! ### Layers -/

/-- A list of two numbers. -/
def pairInt? : Doc → Option (Int × Int)
  | .list [.int a, .int b] => some (a, b)
  | _ => none

/-- The fields of a layer that workload_factory.py lines 46-92 and 113-187 read; `rel` gives the groups of a relation. -/
def readLayer (rel : List Char → Option LayerBuild.RelD) (d : Doc) : Option (Option String × String × LayerBuild.LayerD) := do
  let id ← d.field "id" Doc.int?
  let name ← d.field "name" (Doc.orNull Doc.str?)
  let op ← d.field "operator_type" Doc.str?
  let eqn ← d.field "equation" Doc.str?
  let rels ← d.field "dimension_relations" (Doc.list? (fun e => e.str?.bind (fun s => rel s.toList)))
  let dims ← d.field "loop_dims" (Doc.list? Doc.str?)
  let sizes ← d.field "loop_sizes" (Doc.list? Doc.int?)
  let prec ← d.field "operand_precision" (Doc.table Doc.int?)
  let src ← d.field "operand_source" (Doc.table Doc.int?)
  let prd ← d.field "pr_loop_dims" (Doc.orNull (Doc.list? Doc.str?))
  let prs ← d.field "pr_loop_sizes" (Doc.orNull (Doc.list? Doc.int?))
  let pad ← d.field "padding" (Doc.orNull (Doc.list? pairInt?))
  return (name, op, ⟨id, eqn.toList, rels, dims.map String.toList, sizes, prec.map (fun e => (e.1.toList, e.2)), src.map (fun e => (e.1.toList, e.2)),
    prd.map (List.map String.toList), prs, pad⟩)

/-- `WorkloadValidator` (workload_validator.py lines 89-139) and `_parse_workload_data` (workload_parser.py lines 43-54): the layers that are handed on. -/
def parseLayers (eqn : List Char → Bool) (rel : List Char → Option LayerBuild.RelD) (d : Doc) : Except PyErr (List (Option String × String × LayerBuild.LayerD)) :=
  match normalizeList (layerFields eqn (fun t => (rel t).isSome)) d with
  | none => .error .assertion
  | some l =>
    if l.all (fun es => accepts (.record false (layerFields eqn (fun t => (rel t).isSome))) (.dict es)) then
      match l.mapM (fun es => readLayer rel (.dict es)) with
      | none => .error .keyError
      | some ls =>
        match mapE (fun e => LayerBuild.validate e.2.2) ls with
        | .error e => .error e
        | .ok bs => if bs.all id then .ok ls else .error .valueError
    else .error .valueError

end Verif.Files
