import Verif.LocalCall.Model
import Verif.Call.Spec
import Verif.Reuse.Spec

/-! What the files have to say for calls in which data stay in lower memories, and what the stages for locality get. -/

namespace Verif.LocalCall

open Call (Written NodeSays dimsOf LayerOptions)
open Equation (Text)
open Latency (Operand)
open LayerBuild (LayerD)
open Net (Node)
open Ports (MemD)
open Reuse (LNode Graph)
open Whole (AccD)

/-- One of the memories up to this one stores the operand. -/
def Before (A : AccD String) (i : Nat) (op : Operand) : Prop := ∃ (j : Nat) (m : MemD Operand String), j ≤ i ∧ A.mems[j]? = some m ∧ op ∈ m.operands

/-- An accelerator whose memories are listed from the array outwards, the last one for all operands: up to a memory for outputs and an input there is one for each
input, and up to a memory for the whole array there is one for the second input. -/
structure AccFits (A : AccD String) : Prop where
  stacked : Reuse.Stacked A.mems
  inputs : ∀ (i : Nat) (m : MemD Operand String), A.mems[i]? = some m → .out ∈ m.operands → (.in1 ∈ m.operands ∨ .in2 ∈ m.operands) → Before A i .in1 ∧ Before A i .in2
  weights : ∀ (i : Nat) (m : MemD Operand String), A.mems[i]? = some m → m.served.length = A.sizes.length → Before A i .in2
  distinct : ∀ m ∈ A.mems, m.operands.Nodup
  top : ∃ m, A.mems.getLast? = some m ∧ ∀ op, op ∈ m.operands

/-- `c` is a constant operand of the layer. -/
def Constant (d : LayerD) (c : Text) : Prop := (c, d.id) ∈ d.sources

/-- `a` is the activation and `b` the weights: the only constant operand is the weights; without constant operands the activation is the second input; with two constant
operands it is the input with the first dimension given by a relation, without relations the first input. -/
structure Told (w : Written) (a b : Text) : Prop where
  both : ∃ x y, w.eqn.rest.map (fun r => r.term.name) = [x, y] ∧ ((a = x ∧ b = y) ∨ (a = y ∧ b = x))
  one : ∀ c, Constant w.layer c → (∀ x, Constant w.layer x → x = c) → b = c
  none : (∀ c, ¬ Constant w.layer c) → ∃ x, w.eqn.rest.map (fun r => r.term.name) = [x, a]
  all : (∀ r ∈ w.eqn.rest, Constant w.layer r.term.name) →
    (w.rels = [] → ∃ y, w.eqn.rest.map (fun r => r.term.name) = [a, y]) ∧
    ∀ r rs, w.rels = r :: rs → ∀ t ∈ w.eqn.rest, (∀ u ∈ w.eqn.rest, r.dim1 ∈ dimsOf u.term ↔ u.term.name = t.term.name) → a = t.term.name

/-- A layer with two inputs; the constant operands are inputs; dimensions that are given by a relation belong to inputs only; every memory delivers and holds an element of
its operands; weights are in the second operand for inputs, or up to a memory for the whole array there is one for the first one as well. -/
structure Both (A : AccD String) (w : Written) : Prop where
  two : w.eqn.rest.length = 2
  once : (w.layer.sources.map Prod.fst).Nodup
  inputs : ∀ s ∈ w.layer.sources, s.2 = w.layer.id → ∃ r ∈ w.eqn.rest, r.term.name = s.1
  shared : ∀ r ∈ w.rels, r.dim1 ∉ dimsOf w.eqn.out ∧ ∃ t ∈ w.eqn.rest, r.dim1 ∈ dimsOf t.term
  delivers : ∀ m ∈ A.mems, ∀ t ∈ w.eqn.terms, w.link t.name ∈ m.operands → ∀ p ∈ m.ports,
    (w.link t.name, if t.name = w.eqn.out.name then Ports.Dir.wrLow else .rdLow) ∈ p.alloc → w.precision t.name ≤ p.bwMax
  holds : ∀ m ∈ A.mems, ∀ t ∈ w.eqn.terms, w.link t.name ∈ m.operands → w.precision t.name ≤ m.size
  weights : (∀ (i : Nat) (m : MemD Operand String), A.mems[i]? = some m → m.served.length = A.sizes.length → Before A i .in1) ∨
    ∀ a b, Told w a b → (∃ c, Constant w.layer c) → w.link b = .in2

/-- The layer at a place of the workload file as the stages for locality get it; `adapt` is what the kind of array changes of a layer. -/
structure Seen (lo : LayerOptions) (adapt : Entry → Node String Text → Node String Text) (ws : List Written) (n : LNode String Text) : Prop where
  dummy : n.dummy = false
  layer : ∃ w m, ws[n.id]? = some w ∧ NodeSays lo w m ∧ n.node = adapt (w.name, w.operator, w.layer) m ∧
    (∃ a b, Told w a b ∧ n.act = w.link a ∧ n.weight = w.link b) ∧ (n.adder = true ↔ ∀ c, ¬ Constant w.layer c)

/-- The layer at `i` gives an operand of the layer at `j`. -/
def Feeds (ws : List Written) (i j : Nat) : Prop :=
  ∃ v w, ws[i]? = some v ∧ ws[j]? = some w ∧ i ≠ j ∧ ∃ s ∈ w.layer.sources, s.2 = v.layer.id

/-- The graph and the layers in order are those of the files: all layers, each after the layers that its operands come from. -/
structure NetSays (lo : LayerOptions) (adapt : Entry → Node String Text → Node String Text) (ws : List Written) (g : Graph String Text) (nodes : List (LNode String Text)) : Prop where
  all : (nodes.map LNode.id).Perm (List.range ws.length)
  seen : ∀ n ∈ nodes, Seen lo adapt ws n
  root : Seen lo adapt ws g.root ∧ g.root.id = 0
  pred : ∀ u v, u ∈ g.pred v ↔ Feeds ws u v
  succ : ∀ u v, v ∈ g.succ u ↔ Feeds ws u v
  after : ∀ pre n post, nodes = pre ++ n :: post → ∀ u, Feeds ws u n.id → ∃ x ∈ pre, x.id = u

end Verif.LocalCall
