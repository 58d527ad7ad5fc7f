import Verif.Base.Topo

/-! Memory hierarchies: /repo/zigzag/hardware/architecture/memory_hierarchy.py, the parts of memory_level.py and accelerator.py that describe the
structure of a hierarchy.  A memory is known by its identifier (its hash, memory_level.py lines 174-175; two different memories are never equal unless
they store nothing).  The physical memory instance is not modelled here. -/

namespace Verif.Hierarchy

variable {Op : Type} [DecidableEq Op]

/-- `MemoryLevel`: identifier, `operands` and `mem_level_of_operands` (memory_level.py lines 68-92). -/
structure Mem (Op : Type) where
  id : Nat
  operands : List Op
  levels : Dict Op Nat

/-- `MemoryHierarchy` (memory_hierarchy.py lines 40-45).  `nodes` is both `mem_level_list` and the node list of the graph (nodes are only added);
`nb` is `nb_levels`, whose keys are the set `operands`. -/
structure Hier (Op : Type) where
  nb : Dict Op Nat
  nodes : List (Mem Op)
  edges : List (Nat × Nat)

def empty : Hier Op := ⟨[], [], []⟩

/-- 'The' level of a memory: `max(node.mem_level_of_operands.values())` (lines 132, 145). -/
def Mem.maxLevel (m : Mem Op) : Nat := (m.levels.map Prod.snd).foldl max 0

/-- The memories that store an operand, in the order they were added. -/
def storing (nodes : List (Mem Op)) (op : Op) : List (Mem Op) := nodes.filter fun m => decide (op ∈ m.operands)

/-- `get_operator_top_level` (lines 137-147): memories that store the operand with the largest level among those. -/
def operatorTop (nodes : List (Mem Op)) (op : Op) : List (Mem Op) :=
  let c := storing nodes op
  let top := (c.map Mem.maxLevel).foldl max 0
  c.filter fun m => decide (m.maxLevel = top)

/-- Lines 67-73: count a new level for one operand. -/
def countLevel (nb : Dict Op Nat) (op : Op) : Dict Op Nat :=
  match nb.get? op with
  | none => nb.set op 1
  | some n => nb.set op (n + 1)

/-- `add_memory` (lines 47-105).  `to_edge_from` is a set: an edge is added once. -/
def addMemory (h : Hier Op) (operands : List Op) : Hier Op :=
  let id := h.nodes.length
  let levels : Dict Op Nat := operands.foldl (fun d op => d.set op (storing h.nodes op).length) []
  { nb := operands.foldl countLevel h.nb
    nodes := h.nodes ++ [⟨id, operands, levels⟩]
    edges := h.edges ++ ((operands.flatMap fun op => (operatorTop h.nodes op).map Mem.id).dedup.map fun i => (i, id)) }

/-- The hierarchy after adding memories with these operand lists one after the other. -/
def build (mems : List (List Op)) : Hier Op := mems.foldl addMemory empty

/-- `get_memory_levels` (lines 107-112), also `mem_hierarchy_dict` (accelerator.py lines 65-68): the memories storing the operand in topological order. -/
def memoryLevels (h : Hier Op) (op : Op) : Except PyErr (List (Mem Op)) :=
  match Topo.topoSort (h.nodes.map Mem.id) h.edges with
  | .error e => .error e
  | .ok order => .ok (storing (order.filterMap fun i => h.nodes[i]?) op)

/-- `Accelerator.get_memory_level` (accelerator.py lines 47-51) for a level number. -/
def memoryLevel (h : Hier Op) (op : Op) (lv : Nat) : Except PyErr (Mem Op) :=
  match memoryLevels h op with
  | .error e => .error e
  | .ok l =>
    match l[lv]? with
    | none => .error .indexError
    | some m => .ok m

/-- `get_operand_top_level` (lines 149-156) -/
def operandTop (h : Hier Op) (op : Op) : Except PyErr (Mem Op) :=
  match h.nb.get? op with
  | none => .error .keyError
  | some n =>
    match h.nodes.reverse.find? fun m => decide (m.levels.get? op = some (n - 1)) with
    | none => .error .valueError
    | some m => .ok m

/-- `get_inner_memories` (lines 118-120): memories without incoming edge. -/
def innerMemories (h : Hier Op) : List (Mem Op) := h.nodes.filter fun m => decide (∀ e ∈ h.edges, e.2 ≠ m.id)

/-- `get_outer_memories` (lines 122-124): memories without outgoing edge. -/
def outerMemories (h : Hier Op) : List (Mem Op) := h.nodes.filter fun m => decide (∀ e ∈ h.edges, e.1 ≠ m.id)

/-- `__generate_mem_sharing_list` (accelerator.py lines 75-83): the level tables of the memories with several operands, in the order in which the levels
of all operands are visited.  Equality of dictionaries ignores their order. -/
def sameTable (a b : Dict Op Nat) : Bool := decide (a.length = b.length ∧ ∀ e ∈ a, b.get? e.1 = some e.2)

def shareStep (acc : List (Dict Op Nat)) (m : Mem Op) : List (Dict Op Nat) :=
  if 1 < m.levels.length ∧ ¬ acc.any (sameTable m.levels) then acc ++ [m.levels] else acc

def sharingList (h : Hier Op) : Except PyErr (List (Dict Op Nat)) :=
  match Topo.topoSort (h.nodes.map Mem.id) h.edges with
  | .error e => .error e
  | .ok order =>
    .ok ((h.nb.keys.flatMap fun op => storing (order.filterMap fun i => h.nodes[i]?) op).foldl shareStep [])

/-- `unroll_count` (memory_level.py lines 127-132) -/
def unrollCount {Dim : Type} [DecidableEq Dim] (sizes : Dict Dim Nat) (served : List Dim) : Nat :=
  ((sizes.filter fun d => decide (d.1 ∉ served)).map Prod.snd).prod

/-- `total_unit_count` (operational_array.py line 36) -/
def totalUnits {Dim : Type} (sizes : Dict Dim Nat) : Nat := (sizes.map Prod.snd).prod

end Verif.Hierarchy
