import Verif.MapInfo.Model
import Verif.LayerNode.Props

/-! What the data sizes and access counts of a mapping mean, independent of how the code computes them: the loops inside a memory
level form a tile of the loop nest, its data are the operand elements the tile accesses, and they are fetched again for every
iteration of the loops outside. -/

namespace Verif.MapInfo

open LayerNode

variable {Dim : Type} [DecidableEq Dim]

/-- Number of iterations over dimension `d` in a list of loops. -/
def extent (d : Dim) (loops : List (Dim × ℚ)) : ℚ := ((loops.filter (fun l => l.1 = d)).map Prod.snd).prod

/-- Number of iterations of a list of loops. -/
def iters (loops : List (Dim × ℚ)) : ℚ := (loops.map Prod.snd).prod

/-- Temporal loops of the innermost `i` memory levels and spatial loops of the innermost `j` levels. -/
def inside (su tm : Lv Dim) (i j : Nat) : List (Dim × ℚ) := (tm.take i).flatten ++ (su.take j).flatten

/-- The remaining loops. -/
def outside (su tm : Lv Dim) (i j : Nat) : List (Dim × ℚ) := (tm.drop i).flatten ++ (su.drop j).flatten

/-- The tile of a list of loops has the whole-number extents `t`. -/
def Tile (loops : List (Dim × ℚ)) (t : Dim → ℕ) : Prop := ∀ d, extent d loops = t d

/-- The whole-number extents of a list of loops. -/
def tileOf (loops : List (Dim × ℚ)) (d : Dim) : ℕ := ⌊extent d loops⌋₊

/-- All loops have a whole number of iterations. -/
def Whole (c : Cfg Dim) : Prop := ∀ l ∈ c.tm.flatten ++ c.su.flatten, ∃ n : ℕ, l.2 = n

/-- An operand with index names `rl` of a layer with dimension relations `rels`, and a mapping on it: one spatial level more than memory
levels, loops over dimensions of the layer with at least one iteration. -/
structure Shape (c : Cfg Dim) (rl : List Dim) (rels : List (Relation Dim)) : Prop where
  names : (rels.map Relation.dim1).Nodup
  pi : c.L.pi = extractPr rels
  rel : extractRel rl c.L.dimSizes (extractPr rels) = .ok c.rel
  index : rl.Nodup
  mix : (∀ r ∈ rels, r.dim1 ∈ rl) ∨ (∀ r ∈ rels, r.dim1 ∉ rl)
  vars : ((rl.map (axisOf rels)).flatMap Axis.vars).Nodup
  wf : c.L.dimSizes.WF
  related : ∀ r ∈ rels, r.dim2 ∈ c.L.dimSizes.keys ∧ r.dim3 ∈ c.L.dimSizes.keys ∧ r.dim1 ∉ c.L.dimSizes.keys ∧ 1 ≤ r.coef2
  dims : ∀ d ∈ rl, (∀ r ∈ rels, r.dim1 ≠ d) → d ∈ c.L.dimSizes.keys
  levels : c.su.length = c.tm.length + 1
  loops : ∀ l ∈ c.tm.flatten ++ c.su.flatten, l.1 ∈ c.L.dimSizes.keys ∧ 1 ≤ l.2

/-- The loops together cover every dimension of the layer. -/
structure Valid (c : Cfg Dim) (rl : List Dim) (rels : List (Relation Dim)) : Prop extends Shape c rl rels where
  cover : ∀ d s, c.L.dimSizes.get? d = some s → extent d (c.tm.flatten ++ c.su.flatten) = s

/-- The sizes of the partially relevant dimensions of the operand in the tile are computed exactly (`LayerNode.pr_size_exact_iff`)
and not clipped. -/
def Exact (c : Cfg Dim) (rl : List Dim) (rels : List (Relation Dim)) (t : Dim → ℕ) : Prop :=
  ∀ r ∈ rels, r.dim1 ∈ rl → (t r.dim3 ≤ r.coef2 / Nat.gcd r.coef2 r.coef3 ∨ r.coef3 / Nat.gcd r.coef2 r.coef3 ≤ t r.dim2) ∧
    ∃ m, c.L.prSizes.get? r.dim1 = some m ∧ (distinct r.coef2 (t r.dim2) r.coef3 (t r.dim3) : ℚ) ≤ m

/-- Number of elements of the operand accessed in a tile with extents `t`. -/
noncomputable def elements (rl : List Dim) (rels : List (Relation Dim)) (t : Dim → ℕ) : ℕ := (touched (rl.map (axisOf rels)) t).ncard

end Verif.MapInfo
