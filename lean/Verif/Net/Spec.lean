import Verif.Net.Model
import Verif.Whole.Spec
import Verif.SpatialGen.Total

/-! What the files of a whole call have to satisfy. -/

namespace Verif.Net

open Latency (Operand)
open LayerNode (Relation)
open Ports (MemD PortD)
open SpatialMapping (SM SMWF)
open Whole (AccD AccOk LayerOk)

variable {OA : Type} [DecidableEq OA] {D : Type} [DecidableEq D]

/-- The memories of the file that are innermost for all of their operands: no operand is stored in a memory listed before. -/
def Innermost (a : AccD OA) (m : MemD Operand OA) : Prop :=
  ∃ pre post, a.mems = pre ++ m :: post ∧ ∀ m' ∈ pre, ∀ op ∈ m.operands, op ∉ m'.operands

/-- The accelerator file: the memories serve dimensions of the array. -/
structure FileOk (a : AccD OA) : Prop where
  acc : AccOk a
  served : ∀ m ∈ a.mems, m.served.Nodup ∧ ∀ oa ∈ m.served, oa ∈ a.sizes.keys

/-- A layer with its entry of the mapping file, for an accelerator: the innermost memories deliver and hold one element of their operands; the
unrollings that the user fixes are whole numbers for dimensions of the array, and an ordering of the temporal loops only says which dimensions come first. -/
structure NodeOk (a : AccD OA) (n : Node OA D) (rl : Operand → List D) (rels : List (Relation D)) : Prop where
  layer : LayerOk n.layer rl rels
  stored : ∀ op ∈ n.layer.ops, ∃ m ∈ a.mems, op ∈ m.operands
  linked : ∀ m ∈ a.mems, ∀ op ∈ m.operands, op ∈ n.layer.ops
  delivers : ∀ m, Innermost a m → ∀ op ∈ m.operands, ∀ p ∈ m.ports, (op, if op = .out then Ports.Dir.wrLow else .rdLow) ∈ p.alloc →
    (n.layer.precision op : Int) ≤ p.bwMax
  holds : ∀ m, Innermost a m → ∀ op ∈ m.operands, (n.layer.precision op : Int) ≤ m.size
  user : SMWF n.mapping
  whole : ∀ e ∈ n.mapping, ∀ x ∈ e.2, ∃ k : ℕ, 1 ≤ k ∧ x.2 = k
  known : ∀ oa ∈ n.mapping.keys, oa ∈ a.sizes.keys
  hints : n.hints.WF ∧ ∀ oa h, n.hints.get? oa = some h → h.Nodup
  order : ∀ e ∈ n.layer.order, e.2 = none

/-- The options: at least one mapping is asked for, and the orders of sets list their elements. -/
structure OptionsOk (o : Options OA D) : Prop where
  nb : 1 ≤ o.nb
  limit : ∀ k, o.limit = some k → 1 ≤ k
  order : o.order.Ok
  capOrder : ∀ l, (o.capOrder l).Perm l
  setOrder : ∀ l, (o.setOrder l).Perm l

/-- The exceptions of a call: no loop order fits, a division by zero; nothing has to be ordered and that does not fit; an ordering lists more loops than there are. -/
def Stopped (nodes : List (Node OA D)) (e : PyErr) : Prop :=
  e = .noValidOrdering ∨ e = .zeroDivision ∨ ((e = .memoryHierarchyTooSmall ∨ e = .memoryTooSmall) ∧ ∃ n ∈ nodes, n.skip = false ∧ n.layer.order = []) ∨
    (e = .indexError ∧ ∃ n ∈ nodes, n.skip = false ∧ n.layer.order ≠ [])

/-- A criterion of the API. -/
def Known (opt : String) : Prop := opt = "energy" ∨ opt = "latency" ∨ opt = "EDP"

end Verif.Net
