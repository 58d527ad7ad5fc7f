import Verif.Reuse.Model
import Verif.Net.Spec

/-! What the files of the user have to satisfy for calls in which data stay in lower memories. -/

namespace Verif.Reuse

open Latency (Operand)
open LayerNode (Relation)
open Net (NodeOk)
open Ports (MemD)
open Whole (AccD)

variable {OA : Type} [DecidableEq OA]

/-- How many of the first `k` memories store the operand: the level of memory `k` for this operand. -/
def below (mems : List (MemD Operand OA)) (k : Nat) (op : Operand) : Nat := ((mems.take k).filter fun m => decide (op ∈ m.operands)).length

/-- Memories are listed so that a memory below another one, both not outermost for an operand, has for no operand a larger level. -/
def Stacked (mems : List (MemD Operand OA)) : Prop :=
  ∀ (i j l : Nat) (a b c : MemD Operand OA), i < j → j < l → mems[i]? = some a → mems[j]? = some b → mems[l]? = some c →
    ∀ op, op ∈ a.operands → op ∈ b.operands → op ∈ c.operands → ∀ o ∈ a.operands, below mems i o ≤ below mems j op

variable {D : Type} [LinearOrder D]

/-- A layer whose elements every memory can hold and deliver, because every memory may become the innermost one. -/
structure LayerOk (a : AccD OA) (n : LNode OA D) (rl : Operand → List D) (rels : List (Relation D)) : Prop where
  node : NodeOk a n.node rl rels
  delivers : ∀ m ∈ a.mems, ∀ op ∈ m.operands, ∀ p ∈ m.ports, (op, if op = .out then Ports.Dir.wrLow else .rdLow) ∈ p.alloc →
    (n.node.layer.precision op : Int) ≤ p.bwMax
  holds : ∀ m ∈ a.mems, ∀ op ∈ m.operands, (n.node.layer.precision op : Int) ≤ m.size

/-- A network of layers with constant weights: activations are in the operand `A` and weights in the operand `W` for every layer, the last memory stores
everything; the nodes are listed after those they depend on and have different ids. -/
structure Uniform (a : AccD OA) (g : Graph OA D) (nodes : List (LNode OA D)) (A W : Operand) : Prop where
  names : ∀ n ∈ nodes, n.dummy = false → n.act = A ∧ n.weight = W ∧ n.adder = false
  root : g.root.act = A ∧ g.root.weight = W
  distinct : A ≠ W ∧ A ≠ .out ∧ W ≠ .out
  memories : ∀ m ∈ a.mems, m.operands.Nodup ∧ ∀ op ∈ m.operands, op = A ∨ op = W ∨ op = .out
  top : ∃ m, a.mems.getLast? = some m ∧ A ∈ m.operands ∧ W ∈ m.operands ∧ .out ∈ m.operands
  ids : ((nodes.filter fun n => !n.dummy).map LNode.id).Nodup
  topo : ∀ pre n post, (nodes.filter fun n => !n.dummy) = pre ++ n :: post → ∀ p ∈ g.pred n.id, ∃ x ∈ pre, x.id = p
  symm : ∀ u v, v ∈ g.succ u ↔ u ∈ g.pred v
  dummies : ∀ n ∈ nodes, n.node.skip = false → n.dummy = false
  operands : ∀ n ∈ nodes, n.dummy = false → ∀ op ∈ n.node.layer.ops, op = A ∨ op = W ∨ op = .out

/-- No memory is too early in the list: up to a memory for the whole array there is one for the weights of every layer with constants, and up to one for outputs and an
input there is one for each input. -/
def Early (a : AccD OA) (nodes : List (LNode OA D)) (A W : Operand) : Prop :=
  ∀ (i : Nat) (m : MemD Operand OA), a.mems[i]? = some m → ∀ op, op = A ∨ op = W →
    ((m.served.length = a.sizes.length ∧ ∃ n ∈ nodes, n.dummy = false ∧ n.adder = false ∧ n.weight = op) ∨ (.out ∈ m.operands ∧ (A ∈ m.operands ∨ W ∈ m.operands))) →
      ∃ (j : Nat) (m' : MemD Operand OA), j ≤ i ∧ a.mems[j]? = some m' ∧ op ∈ m'.operands

/-- A network of layers of any kind, also such without constants (additions, products of computed tensors), whose activations may be in either of the two operands for
inputs: the memories are listed from the array outwards, or all layers have constant weights. -/
structure Fits (a : AccD OA) (g : Graph OA D) (nodes : List (LNode OA D)) (A W : Operand) : Prop where
  names : ∀ n ∈ nodes, n.dummy = false → (n.act = A ∧ n.weight = W) ∨ (n.act = W ∧ n.weight = A)
  root : (g.root.act = A ∨ g.root.act = W) ∧ (g.root.weight = A ∨ g.root.weight = W)
  early : (∀ n ∈ nodes, n.dummy = false → n.act = A ∧ n.weight = W ∧ n.adder = false) ∨ Early a nodes A W
  distinct : A ≠ W ∧ A ≠ .out ∧ W ≠ .out
  memories : ∀ m ∈ a.mems, m.operands.Nodup ∧ ∀ op ∈ m.operands, op = A ∨ op = W ∨ op = .out
  top : ∃ m, a.mems.getLast? = some m ∧ A ∈ m.operands ∧ W ∈ m.operands ∧ .out ∈ m.operands
  ids : ((nodes.filter fun n => !n.dummy).map LNode.id).Nodup
  topo : ∀ pre n post, (nodes.filter fun n => !n.dummy) = pre ++ n :: post → ∀ p ∈ g.pred n.id, ∃ x ∈ pre, x.id = p
  symm : ∀ u v, v ∈ g.succ u ↔ u ∈ g.pred v
  dummies : ∀ n ∈ nodes, n.node.skip = false → n.dummy = false
  operands : ∀ n ∈ nodes, n.dummy = false → ∀ op ∈ n.node.layer.ops, op = A ∨ op = W ∨ op = .out

theorem Uniform.fits {a : AccD OA} {g : Graph OA D} {nodes : List (LNode OA D)} {A W : Operand} (U : Uniform a g nodes A W) : Fits a g nodes A W where
  names n hn hd := .inl ⟨(U.names n hn hd).1, (U.names n hn hd).2.1⟩
  root := ⟨.inl U.root.1, .inr U.root.2⟩
  early := .inl U.names
  distinct := U.distinct
  memories := U.memories
  top := U.top
  ids := U.ids
  topo := U.topo
  symm := U.symm
  dummies := U.dummies
  operands := U.operands

end Verif.Reuse
