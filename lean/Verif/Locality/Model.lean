import Verif.Base.Dict
import Mathlib.Algebra.BigOperators.Group.List.Basic

/-! Inter-layer data locality: /repo/zigzag/stages/exploit_data_locality_stages.py.

Simplifications: a layer is described by its id, the memory operands linked to its activation, weight and output operand (lines 84-88, 143-148), whether
it has no constant operand (`adder`), and the sizes of its operands in bits.  Layers are compared by id.  The graph without dummy nodes is given by its successor and predecessor
lists and a topological order of the layers.  A memory is described by the operands it serves, `size * unroll_count` and whether it serves all array
dimensions.  `StopIteration` raised by `next` becomes a `RuntimeError` at the generator `run` (python's PEP 479); here it is kept as it is. -/

namespace Verif.Locality

structure Layer (Op : Type) where
  id : Nat
  act : Op
  weight : Op
  out : Op
  adder : Bool
  actSize : Nat
  weightSize : Nat
  outSize : Nat

structure Mem (Op : Type) where
  ops : List Op
  avail : Nat
  allDims : Bool

/-- The network: layers in topological order and neighbours (ids) in the order of the graph; `topAct`, `topOut`, `topWeight` are lines 51-64. -/
structure Net (Op : Type) where
  order : List (Layer Op)
  succ : Nat → List Nat
  pred : Nat → List Nat
  mems : List (Mem Op)
  topAct : Int
  topOut : Int
  topWeight : Int

variable {Op : Type} [DecidableEq Op]

/-- `__get_top_mem_level_for_op` (lines 71-80) -/
def topLevel (mems : List (Mem Op)) (op : Op) : Int :=
  mems.zipIdx.reverse.foldl (fun top m => if op ∈ m.1.ops then max (m.2 : Int) top else top) (-1)

/-- `mem_update_list` and `mem_update_weight`. -/
structure St (Op : Type) where
  upd : Dict Nat (Dict Op Int)
  weight : Int

/-- The level recorded for an operand of a layer. -/
def St.lv (s : St Op) (id : Nat) (op : Op) : Option Int :=
  match s.upd.get? id with
  | none => none
  | some t => t.get? op

/-- New value of one record in `update_io_mem_level` (lines 262-264). -/
def lower (target v : Int) : Int := if v = -1 ∨ v > target then target else v

/-- `update_io_mem_level` (lines 258-264): the value of the operand is changed while iterating over the table. -/
def updateIo (s : St Op) (id : Nat) (op : Op) (target : Int) : Except PyErr (St Op) :=
  match s.upd.get? id with
  | none => .error .keyError
  | some t => .ok { s with upd := s.upd.set id (t.map fun e => if e.1 = op then (e.1, lower target e.2) else e) }

/-- Line 91: initial records. -/
def initUpd (order : List (Layer Op)) : Dict Nat (Dict Op Int) :=
  order.foldl (fun d l => d.set l.id (Dict.set [(l.act, -1)] l.out (-1))) []

/-- Line 110: the size of all weights. -/
def allWeights (order : List (Layer Op)) : Nat := (order.map fun l => if l.adder then 0 else l.weightSize).sum

/-- Lines 93-109: sizes of the activations of a layer by operand.  (For layers without constants `actSize` is the size of all inputs, line 95.) -/
def ioSize (l : Layer Op) (op : Op) : Except PyErr Nat :=
  match Dict.get? (Dict.set [(l.act, l.actSize)] l.out l.outSize) op with
  | none => .error .keyError
  | some n => .ok n

/-- Lines 198-204: the sum over the served operands. -/
def sumIo (l : Layer Op) : List Op → Except PyErr Nat
  | [] => .ok 0
  | o :: r =>
    if o ≠ l.weight then
      match ioSize l o with
      | .error e => .error e
      | .ok n =>
        match sumIo l r with
        | .error e => .error e
        | .ok k => .ok (n + k)
    else sumIo l r

def byId (net : Net Op) (id : Nat) : Option (Layer Op) := net.order.find? fun l => decide (l.id = id)

/-- Lines 175-185: whether the memory serves the input of the next layer. -/
def servesNext (net : Net Op) (l : Layer Op) (final : Bool) (m : Mem Op) : Except PyErr Bool :=
  if final then .ok (decide (l.act ∈ m.ops))
  else
    match net.succ l.id with
    | [] => .error .stopIteration
    | n :: _ =>
      match byId net n with
      | none => .error .keyError
      | some nl => .ok (decide (nl.act ∈ m.ops))

/-- Lines 205-207: the weights of the whole network. -/
def weightNeed (net : Net Op) (l : Layer Op) (served : List Op) : Nat := if l.weight ∈ served then allWeights net.order else 0

/-- Lines 211-214, also 168-170: record a level for the output and, for the first layer, the input. -/
def record (s : St Op) (l : Layer Op) (first : Bool) (va vo : Int) : Except PyErr (St Op) :=
  match (if first then updateIo s l.id l.act va else .ok s) with
  | .error e => .error e
  | .ok s1 => updateIo s1 l.id l.out vo

/-- Lines 172-219 for one memory. -/
def memStep (net : Net Op) (l : Layer Op) (first final : Bool) (s : St Op) (m : Mem Op × Nat) : Except PyErr (St Op) :=
  match servesNext net l final m.1 with
  | .error e => .error e
  | .ok sn =>
    let both := sn && decide (l.out ∈ m.1.ops)
    let serveW := decide (l.weight ∈ m.1.ops)
    let served := if l.adder && both then [l.out, l.act] else m.1.ops
    if both || serveW then
      match sumIo l served with
      | .error e => .error e
      | .ok io =>
        if io + weightNeed net l served ≤ m.1.avail then
          match (if both then record s l first m.2 m.2 else .ok s) with
          | .error e => .error e
          | .ok s2 => .ok (if (m.2 : Int) < s2.weight ∧ m.1.allDims = true ∧ serveW = true then { s2 with weight := m.2 } else s2)
        else .ok s
    else .ok s

def memLoop (net : Net Op) (l : Layer Op) (first final : Bool) : St Op → List (Mem Op × Nat) → Except PyErr (St Op)
  | s, [] => .ok s
  | s, m :: r =>
    match memStep net l first final s m with
    | .error e => .error e
    | .ok s' => memLoop net l first final s' r

/-- Lines 150-153: start or end of a branch. -/
def isBranch (net : Net Op) (l : Layer Op) : Bool :=
  decide ((net.succ l.id).length > 1) ||
  (match net.succ l.id with
    | [n] => decide ((net.pred n).length > 1)
    | _ => false)

/-- Lines 155-164: the input level is the output level of the first predecessor. -/
def propagate (net : Net Op) (l : Layer Op) (s : St Op) : Except PyErr (St Op) :=
  match net.pred l.id with
  | [] => .error .stopIteration
  | p :: _ =>
    match byId net p with
    | none => .error .keyError
    | some pl =>
      match s.lv pl.id pl.out with
      | none => .error .keyError
      | some v => updateIo s l.id l.act v

/-- Lines 139-219 for one layer. -/
def layerStep (net : Net Op) (firstId lastId : Nat) (s : St Op) (l : Layer Op) : Except PyErr (St Op) :=
  let first := decide (l.id = firstId)
  let final := decide (l.id = lastId)
  match (if first then .ok s else propagate net l s) with
  | .error e => .error e
  | .ok s1 =>
    if isBranch net l then record s1 l first net.topAct net.topOut
    else memLoop net l first final s1 net.mems.zipIdx.reverse

def layerLoop (net : Net Op) (firstId lastId : Nat) : St Op → List (Layer Op) → Except PyErr (St Op)
  | s, [] => .ok s
  | s, l :: r =>
    match layerStep net firstId lastId s l with
    | .error e => .error e
    | .ok s' => layerLoop net firstId lastId s' r

def firstId (net : Net Op) : Nat := (net.order.head?.map Layer.id).getD 0
def lastId (net : Net Op) : Nat := (net.order.getLast?.map Layer.id).getD 0

/-- `update_top_mem_level` (lines 132-224) on the state of `__init__`; the final assertion is lines 221-224. -/
def search (net : Net Op) : Except PyErr (St Op) :=
  match layerLoop net (firstId net) (lastId net) ⟨initUpd net.order, net.topWeight⟩ net.order with
  | .error e => .error e
  | .ok s => if s.upd.all fun t => t.2.all fun e => decide (0 ≤ e.2) then .ok s else .error .assertion

/-- One layer in `update_mem_level_for_loading_data` (lines 243-256). -/
def loadStep (net : Net Op) (s : St Op) (l : Layer Op) : Except PyErr (St Op) :=
  match (if l.id = firstId net then updateIo s l.id l.act net.topAct else .ok s) with
  | .error e => .error e
  | .ok s1 => if l.id = lastId net then updateIo s1 l.id l.out net.topOut else .ok s1

def loadLoop (net : Net Op) : St Op → List (Layer Op) → Except PyErr (St Op)
  | s, [] => .ok s
  | s, l :: r =>
    match loadStep net s l with
    | .error e => .error e
    | .ok s' => loadLoop net s' r

/-- `run` up to the creation of the next stage (lines 112-120). -/
def run (net : Net Op) (fromTop : Bool) : Except PyErr (St Op) :=
  match search net with
  | .error e => .error e
  | .ok s => if fromTop then loadLoop net s net.order else .ok s

/-- `generate_accelerator_with_removing_unused_memory` (lines 335-371): the memories kept (by place) and the operands each keeps. -/
def pruneOps (ops : List Op) (l : Layer Op) (ta tw tu : Int) (i : Nat) : List Op :=
  (if l.act ∈ ops ∧ (i : Int) ≤ ta then [l.act] else []) ++ (if l.weight ∈ ops ∧ (i : Int) ≤ tw then [l.weight] else []) ++
    (if l.out ∈ ops ∧ (i : Int) ≤ tu then [l.out] else [])

def prune (mems : List (Mem Op)) (l : Layer Op) (ta tw tu : Int) : List (Nat × List Op) :=
  (mems.zipIdx.map fun m => (m.2, pruneOps m.1.ops l ta tw tu m.2)).filter fun e => decide (e.2 ≠ [])

/-- Lines 313-333: the levels used for a layer. -/
def targets (s : St Op) (l : Layer Op) : Except PyErr (Int × Int × Int) :=
  match s.lv l.id l.act with
  | none => .error .indexError
  | some ta =>
    match s.lv l.id l.out with
    | none => .error .indexError
    | some tu => .ok (ta, if l.adder then ta else s.weight, tu)

end Verif.Locality
