import Verif.Search.Model
import Verif.Evaluate.Spec

/-! What has to be given for a search, independent of how it works. -/

namespace Verif.Search

open Cme (Dir)
open Evaluate (Hw Mem Job Built needed)
open LayerNode (Relation extractPr extractRel axisOf Axis)
open MapInfo (iters)
open Transfer (WholeLoops)
open Latency (Operand)

variable {Dim : Type} [DecidableEq Dim]

/-- An accelerator, whose memories in bottom-up order are `topo`, and a layer that is mapped to its array.  `rl` are the indices of the operands, `rels` the
relations between dimensions, and `array` are spatial loops with the product that all operands have after truncation. -/
structure Prepared (h : Hw) (topo : List Mem) (t : Task Dim) (rl : Operand → List Dim) (rels : List (Relation Dim)) (array : List (Dim × ℚ)) : Prop where
  built : Built h
  sorted : topo.Perm h.mems
  levels : ∀ op, h.levels op = topo.filter fun m => decide (op ∈ m.holds.map Prod.fst)
  ops : t.ops.Nodup
  out : Operand.out ∈ t.ops
  inputs : t.inputs ≠ [] ∧ ∀ op ∈ t.inputs, op ∈ t.ops ∧ op ≠ .out
  stored : ∀ op ∈ t.ops, h.levels op ≠ []
  serves : ∀ op ∈ t.ops, ∀ lv m, (h.levels op)[lv]? = some m → ∀ d ∈ needed op (decide (lv + 1 = (h.levels op).length)),
    ∃ p ∈ m.ports, (op, lv, d) ∈ p.served
  names : (rels.map Relation.dim1).Nodup
  pi : t.L.pi = extractPr rels
  wf : t.L.dimSizes.WF
  related : ∀ r ∈ rels, r.dim2 ∈ t.L.dimSizes.keys ∧ r.dim3 ∈ t.L.dimSizes.keys ∧ r.dim1 ∉ t.L.dimSizes.keys ∧ 1 ≤ r.coef2
  sizes : ∀ r ∈ rels, ∃ m : ℕ, t.L.prSizes.get? r.dim1 = some (m : ℚ) ∧ 1 ≤ m
  rel : ∀ op ∈ t.ops, extractRel (rl op) t.L.dimSizes (extractPr rels) = .ok (t.rel op)
  index : ∀ op ∈ t.ops, (rl op).Nodup
  mix : ∀ op ∈ t.ops, (∀ r ∈ rels, r.dim1 ∈ rl op) ∨ (∀ r ∈ rels, r.dim1 ∉ rl op)
  vars : ∀ op ∈ t.ops, (((rl op).map (axisOf rels)).flatMap Axis.vars).Nodup
  dims : ∀ op ∈ t.ops, ∀ d ∈ rl op, (∀ r ∈ rels, r.dim1 ≠ d) → d ∈ t.L.dimSizes.keys
  su : ∀ op ∈ t.ops, (t.su op).length = (h.levels op).length + 1 ∧ (t.suInt op).length = (h.levels op).length + 1
  unrolled : ∀ op ∈ t.ops, ∀ l ∈ (t.su op).flatten ++ (t.suInt op).flatten, l.1 ∈ t.L.dimSizes.keys ∧ 1 ≤ l.2
  array : ∀ op ∈ t.ops, iters (t.suInt op).flatten = iters array
  cycles : 0 < t.cyclesPerOp

/-- An order of loops over dimensions of the layer, innermost first. -/
structure Order (t : Task Dim) (order : List (Dim × ℚ)) : Prop where
  whole : WholeLoops order
  dims : ∀ l ∈ order, l.1 ∈ t.L.dimSizes.keys

end Verif.Search
