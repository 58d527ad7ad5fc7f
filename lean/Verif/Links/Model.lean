import Verif.Base.Dict

/-! `MemoryOperandLinks` (/repo/zigzag/workload/layer_attributes.py) and the selection of a mapping in /repo/zigzag/parser/mapping_factory.py. -/

namespace Verif.Links

variable {L M : Type} [DecidableEq L] [DecidableEq M]

/-- `MemoryOperandLinks`: the table and its inverse (layer_attributes.py lines 116-122). -/
structure Links (L M : Type) where
  data : Dict L M
  inverse : Dict M L

/-- The comprehension of line 121. -/
def invert (data : Dict L M) : Dict M L := data.foldl (fun d e => d.set e.2 e.1) []

/-- `__init__` (lines 116-122) -/
def mk (data : Dict L M) : Except PyErr (Links L M) :=
  if (invert data).length = data.length then .ok ⟨data, invert data⟩ else .error .assertion

/-- `layer_to_mem_op` (lines 124-125) -/
def Links.toMem (t : Links L M) (l : L) : Except PyErr M :=
  match t.data.get? l with
  | none => .error .keyError
  | some m => .ok m

/-- `mem_to_layer_op` (lines 127-129) -/
def Links.toLayer (t : Links L M) (m : M) : Except PyErr L :=
  match t.inverse.get? m with
  | none => .error .keyError
  | some l => .ok l

/-- `contains_layer_op`, `contains_mem_op` (lines 134-138) -/
def Links.hasLayer (t : Links L M) (l : L) : Bool := decide (l ∈ t.data.map Prod.fst)
def Links.hasMem (t : Links L M) (m : M) : Bool := decide (m ∈ t.data.map Prod.snd)

/-- `next(filter(lambda x: x["name"] == name, data))` -/
def nextNamed {α : Type} (data : List (String × α)) (name : String) : Except PyErr (String × α) :=
  match data.find? fun e => decide (e.1 = name) with
  | none => .error .stopIteration
  | some e => .ok e

/-- `MappingFactory.__init__` (mapping_factory.py lines 34-49): the entry used for a layer.  Entries are pairs of name and content. -/
def choose {α : Type} (layer operation : String) (data : List (String × α)) : Except PyErr (String × α) :=
  if layer ∈ data.map Prod.fst then nextNamed data layer
  else if operation ∈ data.map Prod.fst then nextNamed data operation
  else nextNamed data "default"

/-- The check outside of the schema in `MappingValidator.validate` (mapping_validator.py lines 104-105). -/
def hasDefault {α : Type} (data : List (String × α)) : Bool := decide ("default" ∈ data.map Prod.fst)

end Verif.Links
