import Verif.Base.Dict
import Mathlib.Algebra.Order.Field.Rat

/-! Memory ports: the memory part of /repo/zigzag/parser/accelerator_validator.py, `MemoryFactory` in /repo/zigzag/parser/accelerator_factory.py and the port
allocation of `MemoryLevel` in /repo/zigzag/hardware/architecture/memory_level.py.

Simplifications: the schema of the validator (types of the fields, regular expressions for names) is assumed to be satisfied; an allocation string such as
`I1, fh` is the pair it is split into.  Lists indexed by the place of a port are functions of that place. -/

namespace Verif.Ports

/-- `DataDirection` (memory_port.py lines 15-19) -/
inductive Dir where
  | rdLow | wrLow | rdHigh | wrHigh
  deriving DecidableEq, Repr

/-- `MemoryPortType` (memory_port.py lines 9-12) -/
inductive PType where
  | read | write | readWrite
  deriving DecidableEq, Repr

/-- One entry of `ports` in the file (accelerator_validator.py lines 57-75). -/
structure PortD (Op : Type) where
  name : String
  type : PType
  bwMin : Int
  bwMax : Int
  alloc : List (Op × Dir)
  deriving DecidableEq

/-- One entry of `memories` in the file (accelerator_validator.py lines 21-88). -/
structure MemD (Op Dim : Type) where
  size : Int
  auto : Bool
  rCost : Option Rat
  wCost : Option Rat
  area : Option Rat
  operands : List Op
  ports : List (PortD Op)
  served : List Dim

variable {Op Dim : Type} [DecidableEq Op] [DecidableEq Dim]

def Dir.isWrite : Dir → Bool
  | .wrLow | .wrHigh => true
  | _ => false

/-- `validate_single_memory` (accelerator_validator.py lines 202-238) -/
def validateMem (dims : List Dim) (m : MemD Op Dim) : Bool :=
  let cost := if m.auto then decide (m.size % 8 = 0) else m.rCost.isSome && m.wCost.isSome && m.area.isSome
  let served := m.served.all fun d => decide (d ∈ dims)
  let dirs := m.ports.all fun p => p.alloc.all fun a =>
    !(a.2.isWrite && decide (p.type = .read)) && !(!a.2.isWrite && decide (p.type = .write))
  let bws := m.ports.all fun p => !decide (p.bwMin > p.bwMax)
  cost && served && dirs && bws

/-- One allocation in `create_port_allocation` (accelerator_factory.py lines 210-214). -/
def allocStep (name : String) (t : Except PyErr (Dict Op (Dict Dir String))) (a : Op × Dir) : Except PyErr (Dict Op (Dict Dir String)) :=
  match t with
  | .error e => .error e
  | .ok d =>
    match d.get? a.1 with
    | none => .error .keyError
    | some x => .ok (d.set a.1 (x.set a.2 name))

def allocPort (t : Except PyErr (Dict Op (Dict Dir String))) (p : PortD Op) : Except PyErr (Dict Op (Dict Dir String)) :=
  p.alloc.foldl (allocStep p.name) t

/-- Line 207: an empty table per operand. -/
def emptyAlloc (operands : List Op) : Dict Op (Dict Dir String) := operands.foldl (fun d o => d.set o []) []

/-- `create_port_allocation` (accelerator_factory.py lines 202-215) -/
def createAlloc (operands : List Op) (ports : List (PortD Op)) : Except PyErr (Dict Op (Dict Dir String)) :=
  ports.foldl allocPort (.ok (emptyAlloc operands))

/-- Tables filled by `__allocate_ports` (memory_level.py lines 98-117): what every port serves, whether it is used, minimal and maximal bandwidth. -/
structure LvState (Op : Type) where
  served : Nat → List (Op × Nat × Dir)
  used : Nat → Bool
  bw : Op → Dir → Option (Int × Int)

def LvState.init : LvState Op := ⟨fun _ => [], fun _ => false, fun _ _ => none⟩

/-- Lines 107-115 for one direction. -/
def portStep (ports : List (PortD Op)) (op : Op) (l : Nat) (st : LvState Op) (e : Dir × String) : Except PyErr (LvState Op) :=
  match ports.findIdx? fun p => decide (p.name = e.2) with
  | none => .error .valueError
  | some i =>
    match ports[i]? with
    | none => .error .indexError
    | some p => .ok
      { served := fun j => if j = i then st.served j ++ [(op, l, e.1)] else st.served j
        used := fun j => if j = i then true else st.used j
        bw := fun o d => if o = op ∧ d = e.1 then some (p.bwMin, p.bwMax) else st.bw o d }

def portLoop (ports : List (PortD Op)) (op : Op) (l : Nat) : LvState Op → List (Dir × String) → Except PyErr (LvState Op)
  | st, [] => .ok st
  | st, e :: es =>
    match portStep ports op l st e with
    | .error x => .error x
    | .ok st' => portLoop ports op l st' es

/-- `__allocate_ports` (lines 98-115); `levels` is `mem_level_of_operands`. -/
def allocatePorts (ports : List (PortD Op)) (alloc : Dict Op (Dict Dir String)) : LvState Op → List (Op × Nat) → Except PyErr (LvState Op)
  | st, [] => .ok st
  | st, (op, l) :: r =>
    match alloc.get? op with
    | none => .error .keyError
    | some t =>
      match portLoop ports op l st t with
      | .error x => .error x
      | .ok st' => allocatePorts ports alloc st' r

/-- Line 117: unused ports are removed. -/
def remaining (ports : List (PortD Op)) (st : LvState Op) : List (PortD Op) :=
  (ports.zipIdx.filter fun p => st.used p.2).map Prod.fst

/-- The ports of a memory created from the file (`add_memory_to_graph`, accelerator_factory.py lines 183-196, then memory_level.py lines 86-89). -/
def buildMem (m : MemD Op Dim) (levels : Dict Op Nat) : Except PyErr (LvState Op) :=
  match createAlloc m.operands m.ports with
  | .error e => .error e
  | .ok a => allocatePorts m.ports a LvState.init levels

/-! ### Checks for in-memory arrays -/

/-- `math.log2(x) % 1 == 0` for positive `x`: powers of two, also those below one.  `math.log2` raises for other numbers. -/
def isPow2 (x : Rat) : Bool := decide (x.num.toNat = 2 ^ Nat.log2 x.num.toNat) && decide (x.den = 2 ^ Nat.log2 x.den)

def log2Check (x : Rat) : Except PyErr Bool := if x ≤ 0 then .error .valueError else .ok (isPow2 x)

/-- The `operational_array` entry of an in-memory array; `none`: not given (`bit_serial_precision` defaults to `None`, `input_precision` is left out). -/
structure ImcD where
  bitSerial : Option Rat
  inPrec : Option (Rat × Rat)
  digital : Bool
  adc : Rat

/-- `validate_operational_array_imc` (accelerator_validator.py lines 268-283) -/
def validateImc (d : ImcD) : Except PyErr Bool :=
  match d.inPrec with
  | none => .error .keyError
  | some ip =>
    match d.bitSerial with
    | none => .error .typeError
    | some bs =>
      match log2Check bs with
      | .error e => .error e
      | .ok b1 =>
        match log2Check ip.1 with
        | .error e => .error e
        | .ok b2 =>
          match log2Check ip.2 with
          | .error e => .error e
          | .ok b3 => .ok (!decide (bs > ip.1) && b1 && b2 && b3 && !(d.digital && decide (d.adc ≠ 0)))

/-- `validate_cells_imc` (lines 240-253): operands, served dimensions and size of the memory named `cells`. -/
def validateCells (weightOp : Op) (weightPrec : Int) (cells : Option (MemD Op Dim)) : Except PyErr Bool :=
  match cells with
  | none => .error .keyError
  | some c =>
    if weightPrec = 0 then .error .zeroDivision
    else .ok (decide (c.operands = [weightOp]) && c.served.isEmpty && decide (c.size % weightPrec = 0))

end Verif.Ports
