import Verif.Base.Dict
import Mathlib.Algebra.Order.Field.Rat
import Mathlib.Algebra.BigOperators.Group.List.Basic

/-!
Model of `/repo/zigzag/mapping/temporal_mapping.py`.

The dictionaries are indexed by layer operand; `operand_list` (the operands of the layer) and the keys of
`temporal_mapping_dict` are the same operands, as for every dictionary built by the allocator.  Loop sizes are rationals.
-/

namespace Verif.TemporalMapping

variable {Op Dim : Type} [DecidableEq Op] [DecidableEq Dim]

/-- A temporal loop `(LayerDim, size)`. -/
abbrev TLoop (Dim : Type) := Dim × ℚ

/-- Per-level loops of one operand. -/
abbrev Levels (Dim : Type) := List (List (TLoop Dim))

/-- The loop over `current_level_loops` (temporal_mapping.py:76-87).  `cur` is `mapping_current[operand][level]`, `st` is
`mapping_st[operand]`, `mac` is `mac_level_st[operand]`; `.remove` deletes the first equal tuple. -/
def scan (ir : Dim → Bool) (level : Nat) : List (TLoop Dim) → List (TLoop Dim) → Levels Dim → ℚ → Levels Dim × ℚ
  | [], _, st, mac => (st, mac)
  | l :: ls, cur, st, mac =>
    if ir l.1 then
      if level = 0 then scan ir level ls (cur.erase l) (st.modify 0 (fun x => x ++ [l])) (mac * l.2)
      else scan ir level ls (cur.erase l) (st.modify (level - 1) (fun x => x ++ [l])) mac
    else (st.modify level (fun x => x ++ cur), mac)

/-- The loop over the levels of one operand (temporal_mapping.py:72-87). -/
def levelLoop (ir : Dim → Bool) : Levels Dim → Nat → Levels Dim → ℚ → Levels Dim × ℚ
  | [], _, st, mac => (st, mac)
  | loops :: rest, level, st, mac =>
    if loops = [] then levelLoop ir rest (level + 1) (st.set level []) mac
    else
      let r := scan ir level loops loops st mac
      levelLoop ir rest (level + 1) r.1 r.2

/-- One pass for one operand (temporal_mapping.py:69-87). -/
def pass (ir : Dim → Bool) (prev : Levels Dim) : Levels Dim × ℚ :=
  levelLoop ir prev 0 (List.replicate prev.length []) 1

/-- The `while` loop over all operands (temporal_mapping.py:68-93): `none` if it has not finished after `fuel` passes. -/
def mergeLoop (ir : Op → Dim → Bool) : Nat → Dict Op (Levels Dim) → Option (Dict Op (Levels Dim × ℚ))
  | 0, _ => none
  | fuel + 1, prev =>
    let st : Dict Op (Levels Dim × ℚ) := prev.map (fun p => (p.1, pass (ir p.1) p.2))
    let stm : Dict Op (Levels Dim) := st.map (fun p => (p.1, p.2.1))
    if stm ≠ prev then mergeLoop ir fuel stm else some st

/-- `iteration_each_level` (temporal_mapping.py:101-107). -/
def iterationEachLevel (m : Levels Dim) : List ℚ := m.map (fun lv => (lv.map Prod.snd).prod)

/-- `cycle_cabl_level` (temporal_mapping.py:109-112). -/
def cycleCabl (m : Levels Dim) : List ℚ := (List.range m.length).map (fun lv => ((iterationEachLevel m).take (lv + 1)).prod)

/-- `total_cycle` and its check (temporal_mapping.py:114-121). -/
def totalCycle (ms : Dict Op (Levels Dim)) : Except PyErr ℚ :=
  match ms.mapM (fun p => (cycleCabl p.2).getLast?) with
  | none => .error .indexError
  | some [] => .error .indexError
  | some (t :: ts) => if (t :: ts).all (fun x => decide (x = t)) then .ok t else .error .assertion

/-- `for loop in reversed(loops): if pred: acc *= size else: break` (temporal_mapping.py:143-152). -/
def topScan (pred : Dim → Bool) : List (TLoop Dim) → ℚ → ℚ
  | [], acc => acc
  | l :: ls, acc => if pred l.1 then topScan pred ls (acc * l.2) else acc

/-- `top_r_loop_size` / `top_ir_loop_size` of one operand (temporal_mapping.py:123-155): a placeholder one for the array level,
then one entry per level. -/
def topLoopSize (pred : Dim → Bool) (m : Levels Dim) : List ℚ :=
  1 :: m.map (fun loops => if loops = [] then 1 else topScan pred loops.reverse 1)

end Verif.TemporalMapping
