import Verif.Hierarchy.Model
import Verif.Ports.Model

/-! Equality, hashes and `has_same_performance` of hardware descriptions: memory_port.py, memory_instance.py, memory_level.py,
memory_hierarchy.py and accelerator.py in /repo/zigzag/hardware/architecture.

The levels of the operands come from the model of `add_memory` (Verif.Hierarchy), the allocation of ports to data movements from the model of
`__allocate_ports` (Verif.Ports).  Costs are rationals.  Equality of operational arrays is a parameter (its own properties are those of C74). -/

namespace Verif.HwEq

open Verif.Ports (Dir PType LvState)
open Verif.Hierarchy (sameTable)

variable {Op Dim : Type} [DecidableEq Op] [DecidableEq Dim]

/-- `MemoryPort` (memory_port.py lines 28-59). -/
structure Port where
  name : String
  type : PType
  bwMin : Int
  bwMax : Int
  id : Nat
  deriving DecidableEq

/-- `MemoryPort.__eq__` (lines 75-81): name and identifier are not compared. -/
def portEq (p q : Port) : Bool := decide (p.bwMax = q.bwMax) && decide (p.bwMin = q.bwMin) && decide (p.type = q.type)

/-- `MemoryPort.__hash__` (lines 83-84). -/
def portHash (p : Port) : Nat := p.id

/-- Equality of tuples of ports: same length, equal at every place. -/
def portsEq : List Port → List Port → Bool
  | [], [] => true
  | p :: ps, q :: qs => portEq p q && portsEq ps qs
  | _, _ => false

/-- `MemoryInstance` (memory_instance.py lines 77-85). -/
structure Inst where
  name : String
  size : Nat
  rCost : ℚ
  wCost : ℚ
  area : ℚ
  latency : Nat
  ports : List Port
  double : Bool
  group : Int
  deriving DecidableEq

/-- `MemoryInstance.__eq__` (lines 96-97): all attributes. -/
def instEq (a b : Inst) : Bool :=
  decide (a.name = b.name) && decide (a.size = b.size) && decide (a.rCost = b.rCost) && decide (a.wCost = b.wCost) && decide (a.area = b.area) &&
  decide (a.latency = b.latency) && portsEq a.ports b.ports && decide (a.double = b.double) && decide (a.group = b.group)

/-- `MemoryInstance.has_same_performance` (lines 99-109). -/
def instSame (a b : Inst) : Bool :=
  decide (a.size = b.size) && decide (a.rCost = b.rCost) && decide (a.wCost = b.wCost) && decide (a.latency = b.latency) && portsEq a.ports b.ports &&
  decide (a.double = b.double)

/-- `MemoryLevel` (memory_level.py lines 78-96): `bw` are the bandwidth tables, `ports` the ports in use. -/
structure Level (Op Dim : Type) where
  id : Nat
  inst : Inst
  operands : List Op
  levels : Dict Op Nat
  served : List Dim
  ports : List Port
  bw : Op → Dir → Option (Int × Int)

/-- `ServedMemDimensions.__eq__` (lines 27-32). -/
def servedEq (a b : List Dim) : Bool := decide (a.length = b.length) && a.all fun x => decide (x ∈ b)

/-- `MemoryLevel.__eq__` (lines 155-163). -/
def levelEq (a b : Level Op Dim) : Bool :=
  instEq a.inst b.inst && decide (a.operands = b.operands) && sameTable a.levels b.levels && portsEq a.ports b.ports && servedEq a.served b.served

/-- `MemoryLevel.has_same_performance` (lines 165-172). -/
def levelSame (a b : Level Op Dim) : Bool :=
  instSame a.inst b.inst && decide (a.operands = b.operands) && sameTable a.levels b.levels && portsEq a.ports b.ports && servedEq a.served b.served

/-- `MemoryLevel.__hash__` (lines 174-175): the hash of the identifier, `h` is `hash_sha512`. -/
def levelHash (h : Nat → Nat) (a : Level Op Dim) : Nat := h a.id

/-- A memory as it is given to `add_memory` (memory_hierarchy.py lines 47-53). -/
structure Spec (Op Dim : Type) where
  inst : Inst
  operands : List Op
  alloc : Dict Op (Dict Dir String)
  served : List Dim

/-- The ports of an instance in the form in which the allocation looks at them. -/
def asPortD (p : Port) : Ports.PortD Op := ⟨p.name, p.type, p.bwMin, p.bwMax, []⟩

/-- `MemoryLevel.__init__` (memory_level.py lines 64-96) with `__allocate_ports` (98-117). -/
def mkLevel (s : Spec Op Dim) (m : Hierarchy.Mem Op) : Except PyErr (Level Op Dim) :=
  match Ports.allocatePorts (s.inst.ports.map asPortD) s.alloc LvState.init m.levels with
  | .error e => .error e
  | .ok st => .ok
    { id := m.id, inst := s.inst, operands := s.operands, levels := m.levels, served := s.served,
      ports := (s.inst.ports.zipIdx.filter fun p => st.used p.2).map Prod.fst, bw := st.bw }

def mkLevels : List (Spec Op Dim) → List (Hierarchy.Mem Op) → Except PyErr (List (Level Op Dim))
  | s :: ss, m :: ms =>
    match mkLevel s m with
    | .error e => .error e
    | .ok l =>
      match mkLevels ss ms with
      | .error e => .error e
      | .ok ls => .ok (l :: ls)
  | _, _ => .ok []

/-- `MemoryHierarchy` (memory_hierarchy.py): `nb_levels` and `node_list`. -/
structure Hier (Op Dim : Type) where
  nb : Dict Op Nat
  nodes : List (Level Op Dim)

/-- The hierarchy after adding memories one after the other (`add_memory`, lines 47-105). -/
def build (specs : List (Spec Op Dim)) : Except PyErr (Hier Op Dim) :=
  let h := Hierarchy.build (specs.map Spec.operands)
  match mkLevels specs h.nodes with
  | .error e => .error e
  | .ok ls => .ok ⟨h.nb, ls⟩

/-- `all([… for a, b in zip(x, y)])`: pairs up to the shorter list. -/
def allZip {A : Type} (f : A → A → Bool) (x y : List A) : Bool := (x.zip y).all fun p => f p.1 p.2

/-- `MemoryHierarchy.__eq__` (lines 162-167). -/
def hierEq (a b : Hier Op Dim) : Bool := sameTable a.nb b.nb && allZip levelEq a.nodes b.nodes

/-- `MemoryHierarchy.has_same_performance` (lines 169-172). -/
def hierSame (a b : Hier Op Dim) : Bool := sameTable a.nb b.nb && allZip levelSame a.nodes b.nodes

/-- `Accelerator` (accelerator.py lines 30-45). -/
structure Acc (Arr Op Dim : Type) where
  id : Nat
  array : Arr
  mem : Hier Op Dim

/-- `Accelerator.__eq__` (lines 110-116). -/
def accEq {Arr : Type} (arrEq : Arr → Arr → Bool) (a b : Acc Arr Op Dim) : Bool := decide (a.id = b.id) && arrEq a.array b.array && hierEq a.mem b.mem

/-- `Accelerator.has_same_performance` (lines 118-121). -/
def accSame {Arr : Type} (arrEq : Arr → Arr → Bool) (a b : Acc Arr Op Dim) : Bool := arrEq a.array b.array && hierSame a.mem b.mem

/-- `Accelerator.__hash__` (lines 107-108). -/
def accHash {Arr : Type} (a : Acc Arr Op Dim) : Nat := a.id

/-! ### Port identifiers -/

/-- `port_id_counter` handling of `MemoryPort.__init__` (memory_port.py lines 53-59): counter → requested identifier → identifier and counter. -/
def newPortId (counter : Nat) : Option Nat → Nat × Nat
  | none => (counter, counter + 1)
  | some i => (i, i + 1)

/-- Identifiers of ports created one after the other. -/
def portIds : Nat → List (Option Nat) → List Nat
  | _, [] => []
  | c, r :: rs => (newPortId c r).1 :: portIds (newPortId c r).2 rs

/-- Lookup in a python dictionary: a key is found if its hash and the key itself are equal to the one looked for. -/
def pyLookup {K V : Type} (hash : K → Nat) (eq : K → K → Bool) (k : K) : List (K × V) → Option V
  | [] => none
  | e :: t => if hash e.1 = hash k ∧ eq e.1 k = true then some e.2 else pyLookup hash eq k t

/-! ### Spatial mappings (/repo/zigzag/mapping/spatial_mapping.py) -/

/-- `MappingSingleOADim.__eq__` (lines 67-74). -/
def dimEq (a b : Dict Dim ℚ) : Bool :=
  a.keys.all (fun d => decide (d ∈ b.keys)) && b.keys.all (fun d => decide (d ∈ a.keys)) && a.keys.all fun d => decide (a.get? d = b.get? d)

/-- Comparison of two entries that are present in both mappings. -/
def entryEq : Option (Dict Dim ℚ) → Option (Dict Dim ℚ) → Bool
  | some x, some y => dimEq x y
  | _, _ => false

/-- `SpatialMapping.__eq__` (lines 299-306). -/
def mappingEq {OA : Type} [DecidableEq OA] (a b : Dict OA (Dict Dim ℚ)) : Bool :=
  a.keys.all (fun d => decide (d ∈ b.keys)) && b.keys.all (fun d => decide (d ∈ a.keys)) && a.keys.all fun d => entryEq (a.get? d) (b.get? d)

/-- `SpatialMapping.__hash__` (lines 308-309): every entry is pickled, which keeps the order of its dictionary, and hashed (`h1`); the set of pairs is hashed by `h2`,
`ord` is the order in which the set is pickled. -/
def mappingHash {OA : Type} (h1 : List (Dim × ℚ) → Nat) (h2 : List (OA × Nat) → Nat) (ord : List (OA × Nat) → List (OA × Nat)) (a : Dict OA (Dict Dim ℚ)) : Nat :=
  h2 (ord (a.map fun e => (e.1, h1 e.2)))

end Verif.HwEq
