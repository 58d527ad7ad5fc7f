import Verif.LayerNode.Model
import Mathlib.Logic.Function.Basic

/-!
Model of `/repo/zigzag/mapping/mapping_assist_funcs.py` for one operand (the loop `for operand in pr_operand_list`, lines 45-107;
operands without partially relevant dimensions are copied unchanged).

Simplifications: the dictionaries `cabl_pr_data_size` and `cabl_pr_data_reuse` (lists per dimension and level) are kept as one list
of events per level and read back with a filter; the size of a data dimension is the parameter `tdim` (`calc_tensor_dim`, modelled
in `Verif.LayerNode`).
-/

namespace Verif.Decouple

open LayerNode (lookup)

variable {Dim : Type} [DecidableEq Dim]

/-- Names of loops in the reformed mapping: `create_r_version`, `create_ir_version` (datatypes.py:73-83) give new names. -/
inductive TDim (Dim : Type) where
  | orig (d : Dim)
  | r (k : Dim)
  | ir (k : Dim)
  deriving DecidableEq

/-- What is known about the operand. -/
structure DEnv (Dim : Type) where
  /-- membership in `r_ir_operand_loop_lut[operand]` -/
  other : Dim → Bool
  /-- `pr_operand_loop_lut[operand]` -/
  lut : Dict Dim (Dim × Dim)
  /-- `layer_node.calc_tensor_dim(pr_data_dim, sizes)` -/
  tdim : Dim → Dict Dim ℚ → Except PyErr ℚ

/-- `cabl_pr_lp_size` (lines 47-50). -/
abbrev Sizes (Dim : Type) := Dict Dim (Dict Dim ℚ)

/-- One append to `cabl_pr_data_size` and `cabl_pr_data_reuse`. -/
abbrev Ev (Dim : Type) := Dim × ℚ × ℚ

/-- `{pr_loop_dim: 1 for pr_loop_dim in ...}` for every data dimension (lines 47-50). -/
def initSizes (lut : Dict Dim (Dim × Dim)) : Sizes Dim :=
  lut.map (fun e => (e.1, (Dict.set [] e.2.1 1).set e.2.2 1))

/-- Body of `for pr_data_dim in ...` (lines 77-89). -/
def stepKey (env : DEnv Dim) (loop : Dim × ℚ) (acc : Sizes Dim × List (Ev Dim)) (e : Dim × Dim × Dim) :
    Except PyErr (Sizes Dim × List (Ev Dim)) :=
  if e.2.1 = loop.1 ∨ e.2.2 = loop.1 then do
    let s ← lookup acc.1 e.1
    let v ← lookup s loop.1
    let s' := s.set loop.1 (v * loop.2)
    let r ← env.tdim e.1 s'
    if r = 0 then .error .zeroDivision
    else return (acc.1.set e.1 s', acc.2 ++ [(e.1, r, s'.values.prod / r)])
  else return acc

/-- Body of `for loop_type, loop_size in loop_list` (lines 74-89). -/
def stepLoop (env : DEnv Dim) (acc : Sizes Dim × List (Ev Dim)) (loop : Dim × ℚ) :
    Except PyErr (Sizes Dim × List (Ev Dim)) :=
  if env.other loop.1 then return acc else env.lut.foldlM (stepKey env loop) acc

/-- `for level, loop_list in enumerate(...)` (lines 73-89). -/
def allEvents (env : DEnv Dim) : Sizes Dim → List (List (Dim × ℚ)) → Except PyErr (List (List (Ev Dim)))
  | _, [] => return []
  | st, l :: ls => do
    let (st', ev) ← l.foldlM (stepLoop env) (st, [])
    let rest ← allEvents env st' ls
    return ev :: rest

/-- Inner loop of the division by the previous value (lines 98-107). -/
def ratioLvl : ℚ → List ℚ → Except PyErr (List ℚ × ℚ)
  | p, [] => return ([], p)
  | p, v :: t => if p = 0 then .error .zeroDivision else do
    let (l, q) ← ratioLvl v t
    return (v / p :: l, q)

/-- Outer loop of the division by the previous value (lines 97-107). -/
def ratios : ℚ → List (List ℚ) → Except PyErr (List (List ℚ))
  | _, [] => return []
  | p, l :: ls => do
    let (a, q) ← ratioLvl p l
    let rest ← ratios q ls
    return a :: rest

/-- `cabl_pr_data_size[operand][k]` and `cabl_pr_data_reuse[operand][k]`. -/
def cabl (f : Ev Dim → ℚ) (k : Dim) (evs : List (List (Ev Dim))) : List (List ℚ) :=
  evs.map (fun ev => (ev.filter (fun e => e.1 = k)).map f)

/-- `per_pr_data_size[operand]`, `per_pr_data_reuse[operand]` (lines 91-107). -/
def perDict (f : Ev Dim → ℚ) (keys : List Dim) (evs : List (List (Ev Dim))) : Except PyErr (Dict Dim (List (List ℚ))) :=
  keys.mapM (fun k => do
    let l ← ratios 1 (cabl f k evs)
    return (k, l))

/-- `l[i]` on a python list for `i ≥ 0`. -/
def pyGet {α : Type} (l : List α) (i : Nat) : Except PyErr α :=
  match l[i]? with
  | some a => .ok a
  | none => .error .indexError

/-- State of the replacement in one level: new loops, `cl_pr_lp_idx_local`, `cl_pr_lp_idx_global`. -/
abbrev RSt (Dim : Type) := List (TDim Dim × ℚ) × Dict Dim Nat × Nat

/-- Body of `for pr_data_dim in ...` in `replace_pr_loop_in_mapping` (lines 135-158). -/
def replKey (perS perR : Dict Dim (List (List ℚ))) (level idx : Nat) (d : Dim) (acc : RSt Dim) (e : Dim × Dim × Dim) :
    Except PyErr (RSt Dim) :=
  if e.2.1 = d ∨ e.2.2 = d then do
    let loc ← lookup acc.2.1 e.1
    let ls ← lookup perS e.1
    let lv ← pyGet ls level
    let a ← pyGet lv loc
    let lr ← lookup perR e.1
    let lw ← pyGet lr level
    let b ← pyGet lw loc
    if idx + acc.2.2 < acc.1.length then
      return ((acc.1.set (idx + acc.2.2) (.r e.1, a)).insertIdx (idx + acc.2.2 + 1) (.ir e.1, b),
        acc.2.1.set e.1 (loc + 1), acc.2.2 + 1)
    else .error .indexError
  else return acc

/-- Body of `for idx, (loop_type, _) in enumerate(loop_list)` (lines 132-158). -/
def replLoop (env : DEnv Dim) (perS perR : Dict Dim (List (List ℚ))) (level idx : Nat) (d : Dim) (acc : RSt Dim) :
    Except PyErr (RSt Dim) :=
  if env.other d then .ok acc else env.lut.foldlM (replKey perS perR level idx d) acc

/-- `for idx, (loop_type, _) in enumerate(loop_list)` (lines 132-158). -/
def replLoops (env : DEnv Dim) (perS perR : Dict Dim (List (List ℚ))) (level : Nat) :
    Nat → List (Dim × ℚ) → RSt Dim → Except PyErr (RSt Dim)
  | _, [], acc => return acc
  | idx, l :: ls, acc => do
    let acc' ← replLoop env perS perR level idx l.1 acc
    replLoops env perS perR level (idx + 1) ls acc'

/-- `replace_pr_loop_in_mapping` (lines 118-160) from level `level` on. -/
def replLevels (env : DEnv Dim) (perS perR : Dict Dim (List (List ℚ))) :
    Nat → List (List (Dim × ℚ)) → Except PyErr (List (List (TDim Dim × ℚ)))
  | _, [] => return []
  | level, l :: ls => do
    let st ← replLoops env perS perR level 0 l (l.map (fun x => (.orig x.1, x.2)), env.lut.map (fun e => (e.1, 0)), 0)
    let rest ← replLevels env perS perR (level + 1) ls
    return st.1 :: rest

/-- `decouple_pr_loop` for one operand (lines 42-113). -/
def decouple (env : DEnv Dim) (levels : List (List (Dim × ℚ))) : Except PyErr (List (List (TDim Dim × ℚ))) := do
  let evs ← allEvents env (initSizes env.lut) levels
  let perS ← perDict (fun e => e.2.1) env.lut.keys evs
  let perR ← perDict (fun e => e.2.2) env.lut.keys evs
  replLevels env perS perR 0 levels

end Verif.Decouple
