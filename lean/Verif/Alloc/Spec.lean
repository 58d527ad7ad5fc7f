import Verif.Alloc.Model

/-!
Specification of a memory allocation: it only talks about the ordering that was given to the allocator, the per-level
temporal mapping `tm` that came out, and the memory nodes.
-/

namespace Verif.Alloc

variable {Op Dim : Type} [DecidableEq Op] [DecidableEq Dim]

/-- How many of the nodes store the operand: the level index the operand reaches. -/
def lvl (nodes : List (Node Op)) (op : Op) : Nat := (nodes.filter (fun n => decide (op ∈ n.ops))).length

/-- The number of loops of the ordering that are allocated below level `l`. -/
def pos (tm : List (List (Dim × ℚ))) (l : Nat) : Nat := ((tm.take l).flatten).length

/-- Loops whose data a level-`l` memory already holds because of the levels below it: the spatial loops of levels `0..l` and the
temporal loops of levels `0..l-1`. -/
def resident (sp : List (List (Dim × ℚ))) (tm : List (List (Dim × ℚ))) (l : Nat) : List (Loop Dim) :=
  spLoops (sp.getD 0 []) ++ (List.range l).flatMap (fun k => tmLoops (tm.getD k []) ++ spLoops (sp.getD (k + 1) []))

/-- Precision with which level `l` stores the operand: outputs are stored with their final precision iff no loop above the
level accumulates any more (is irrelevant for the output). -/
def precAt (env : Env Op Dim) (ordering : List (Dim × ℚ)) (tm : List (List (Dim × ℚ))) (op : Op) (l : Nat) : ℚ :=
  if env.isOut op = true ∧ ∀ x ∈ ((env.spatial op).drop (l + 1)).flatten ++ ordering.drop (pos tm l), x.1 ∉ env.irDims op then
    env.finalPrec
  else env.prec op

/-- Bits of `op` in its level-`l` memory if the next `n` loops of the ordering are allocated to that memory. -/
def heldBits (env : Env Op Dim) (ordering : List (Dim × ℚ)) (tm : List (List (Dim × ℚ))) (op : Op) (l n : Nat) : ℚ :=
  env.tensor op (dimSizes (resident (env.spatial op) tm l ++ tmLoops ((ordering.drop (pos tm l)).take n))) *
    precAt env ordering tm op l

/-- Accesses to the memory above caused by that choice: the held data is fetched once per iteration of the loops that remain.
No memory is above a top level. -/
def fetchBits (env : Env Op Dim) (ordering : List (Dim × ℚ)) (tm : List (List (Dim × ℚ))) (isTop : Bool) (op : Op) (l n : Nat) : ℚ :=
  if isTop then 0
  else (((ordering.drop (pos tm l)).drop n).map Prod.snd).prod * heldBits env ordering tm op l n

/-- The operands the layer stores in a node. -/
def storedOps (env : Env Op Dim) (node : Node Op) : List Op := node.ops.filter (fun op => decide (op ∈ env.memOps))

/-- An even choice: a loop that is allocated for some operand in this node is not left above the node for another one. -/
def EvenChoice (ops : List Op) (tm : Op → List (List (Dim × ℚ))) (l : Op → Nat) (ws : Op → Nat) : Prop :=
  ∀ a ∈ ops, ∀ b ∈ ops, 0 < ws a → pos (tm a) (l a) + ws a ≤ pos (tm b) (l b) + ws b

end Verif.Alloc
