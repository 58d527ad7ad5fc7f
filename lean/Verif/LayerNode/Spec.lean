import Verif.LayerNode.Model
import Mathlib.Data.Finset.Card
import Mathlib.Data.Finset.Prod
import Mathlib.Data.Set.Card

/-! What the sizes and the relevancy of a layer mean, independent of the code. -/

namespace Verif.LayerNode

variable {Dim : Type} [DecidableEq Dim]

/-- Number of distinct values of `sa * i + sb * j` for `i < a`, `j < b`. -/
def distinct (sa a sb b : Nat) : Nat :=
  ((Finset.range a ×ˢ Finset.range b).image (fun p => sa * p.1 + sb * p.2)).card

/-- One index of an operand: a loop dimension or a linear combination of two. -/
inductive Axis (Dim : Type) where
  | dim (d : Dim)
  | lin (sa : Nat) (x : Dim) (sb : Nat) (y : Dim)

/-- Loop dimensions an index depends on. -/
def Axis.vars : Axis Dim → List Dim
  | .dim d => [d]
  | .lin _ x _ y => [x, y]

/-- Value of an index in iteration `p`. -/
def Axis.val (p : Dim → Nat) : Axis Dim → Nat
  | .dim d => p d
  | .lin sa x sb y => sa * p x + sb * p y

/-- Element of the operand accessed in iteration `p`. -/
def address (axes : List (Axis Dim)) (p : Dim → Nat) : List Nat := axes.map (Axis.val p)

/-- Elements accessed in a tile of the loop nest. -/
def touched (axes : List (Axis Dim)) (tile : Dim → Nat) : Set (List Nat) :=
  {v | ∃ p : Dim → Nat, (∀ d, p d < tile d) ∧ v = address axes p}

/-- The index that a name in the equation stands for. -/
def axisOf (rels : List (Relation Dim)) (d : Dim) : Axis Dim :=
  match rels.find? (fun r => r.dim1 = d) with
  | some r => .lin r.coef2 r.dim2 r.coef3 r.dim3
  | none => .dim d

end Verif.LayerNode
