import Verif.Base.Dict
import Mathlib.Data.List.Sort
import Mathlib.Algebra.Order.Ring.Rat

/-! Balanced reduction of loading cycles: `CostModelEvaluation.reduce_balanced`
(/repo/zigzag/cost_model/cost_model.py lines 1174-1209).  Python floats are exact rationals here. -/

namespace Verif.Balance

/-- Line 1183: indices by descending value, equal values in their original order (Python's sort is stable, also with `reverse=True`). -/
def order (c : List ℚ) : List Nat :=
  (List.range c.length).insertionSort fun i j => c.getD j 0 ≤ c.getD i 0

/-- The variables of the loop in lines 1188-1203. -/
structure St where
  /-- `c_sorted` -/
  cs : List ℚ
  /-- `reductions` -/
  reds : List ℚ
  /-- `s` -/
  s : ℚ

/-- Lines 1192-1193 and 1198-1199: `c_sorted[j] -= reduction` for the first `k` positions. -/
def subFirst (k : Nat) (r : ℚ) (cs : List ℚ) : List ℚ :=
  cs.mapIdx fun j x => if j < k then x - r else x

/-- Lines 1192, 1194 and 1198, 1200: `reductions[indices[j]] += reduction` for each given index. -/
def addAt (r : ℚ) (reds : List ℚ) (idx : List Nat) : List ℚ :=
  idx.foldl (fun l i => l.set i (l.getD i 0 + r)) reds

/-- Lines 1188-1203: the loop over the positions still to visit. -/
def loop (idx : List Nat) (ms : List ℚ) : List Nat → St → St
  | [], st => st
  | i :: rest, st =>
    let maxReducible := (st.cs.getD i 0 - ms.getD i 0) * (i + 1)
    if st.s ≥ maxReducible then
      let reduction := st.cs.getD i 0 - ms.getD i 0
      loop idx ms rest
        { cs := subFirst (i + 1) reduction st.cs, reds := addAt reduction st.reds (idx.take (i + 1)), s := st.s - maxReducible }
    else
      let reduction := st.s / (i + 1)
      { cs := subFirst (i + 1) reduction st.cs, reds := addAt reduction st.reds (idx.take (i + 1)), s := 0 }

/-- Lines 1206-1207: put the values back in the original order. -/
def unsort (c : List ℚ) (idx : List Nat) (cs : List ℚ) : List ℚ :=
  (idx.zip cs).foldl (fun l e => l.set e.1 e.2) c

/-- `reduce_balanced(c_list, m_list, s)`: the remaining values and the reductions.  A minimum list that is too short raises `IndexError` (line 1185). -/
def reduceBalanced (c m : List ℚ) (s : ℚ) : Except PyErr (List ℚ × List ℚ) :=
  if s ≤ 0 ∨ c = [] then .ok (c, List.replicate c.length 0)
  else if m.length < c.length then .error .indexError
  else
    let idx := order c
    let st := loop idx (idx.map fun i => m.getD i 0) (List.range c.length)
      { cs := idx.map fun i => c.getD i 0, reds := List.replicate c.length 0, s := s }
    .ok (unsort c idx st.cs, st.reds)

end Verif.Balance
