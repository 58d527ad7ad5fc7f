import Verif.SpatialMapping.Props

/-! `SpatialMappingGeneratorStage.add_input_pr_spatial_loop` (/repo/zigzag/stages/mapping/spatial_mapping_generation.py lines 370-615), the
option `enable_weight_diagonal_mapping`.  Lines 370-481 are modelled branch by branch up to and including the first round of the loop over
the target dimensions (lines 477-493); everything after line 493 is an arbitrary continuation `rest`, so nothing is assumed about it. -/

namespace Verif.Diagonal

open Verif.SpatialMapping

variable {OA Dim : Type} [DecidableEq OA] [DecidableEq Dim]

/-- What the function reads. -/
structure Inputs (OA Dim : Type) where
  /-- `len(self.layer.constant_operands)` -/
  nbConst : Nat
  sizes : Dict Dim ℚ
  sm : SM OA Dim
  /-- both operands were identified (line 387-390) -/
  identified : Bool
  /-- `get_ir_layer_dims(const_operand)` -/
  irDims : List Dim
  /-- the dimension served by the inner memories of the activation that serve one dimension (lines 398-402) -/
  actServed : List OA
  /-- same for the output (lines 403-407) -/
  outServed : List OA
  hints : Dict OA (List Dim)
  oaSizes : Dict OA ℚ
  /-- keys of `get_pr_layer_dims(act_operand)`: the names of the activation's own dimensions such as `IX`, `IY` -/
  prKeys : List Dim

/-- Lines 379-383: floor division of the sizes by the unrollings. -/
def remainder (sm : SM OA Dim) : List Dim → Dict Dim ℚ → Except PyErr (Dict Dim ℚ)
  | [], d => .ok d
  | x :: t, d =>
    match d.get? x with
    | none => .error .keyError
    | some v => if total sm x = 0 then .error .zeroDivision else remainder sm t (d.set x ((⌊v / total sm x⌋ : ℤ) : ℚ))

/-- The tables of lines 446-448. -/
structure Tables (Dim : Type) where
  weightR : Dict Dim (Dict Dim ℚ)
  kernelDims : List Dim
  link : Dict Dim Dim

/-- Lines 450-464: unpacking the dictionary yields its two keys; any other number of keys raises `ValueError`. -/
def buildTables (pr : List Dim) : List Dim → Tables Dim → Except PyErr (Tables Dim)
  | [], t => .ok t
  | x :: xs, t =>
    match pr with
    | [d1, d2] =>
      if x = d1 ∨ x = d2 then .ok t
      else if d1 = x then
        buildTables pr xs { weightR := t.weightR.set d1 [(d2, 1)], kernelDims := t.kernelDims ++ [d2], link := t.link.set d2 d1 }
      else
        buildTables pr xs { weightR := t.weightR.set d2 [(d1, 1)], kernelDims := t.kernelDims ++ [d1], link := t.link.set d1 d2 }
    | _ => .error .valueError

/-- Lines 467-474. -/
def scan (t : Tables Dim) : List (Dim × ℚ) → Dict Dim (Dict Dim ℚ) → ℚ → Except PyErr (Dict Dim (Dict Dim ℚ) × ℚ)
  | [], w, s => .ok (w, s)
  | x :: xs, w, s =>
    if x.1 ∈ t.kernelDims then
      match t.link.get? x.1 with
      | none => .error .keyError
      | some p =>
        match w.get? p with
        | none => .error .keyError
        | some inner =>
          match inner.get? x.1 with
          | none => .error .keyError
          | some v => scan t xs (w.set p (inner.set x.1 (v * x.2))) s
    else scan t xs w (s * x.2)

/-- Lines 485-503 for the first target dimension: the two lookups in `weight_r_loop`. -/
def firstTarget (i : Inputs OA Dim) (actOaSize exist : ℚ) (d : Dim) (w : Dict Dim (Dict Dim ℚ)) (rest : Except PyErr (SM OA Dim)) : Except PyErr (SM OA Dim) :=
  match i.sizes.get? d with
  | none => .error .keyError
  | some _ =>
    if exist = 0 then .error .zeroDivision
    else
      let _max := ⌊actOaSize / exist⌋
      match w.get? d with
      | none => .error .keyError
      | some _ =>
        match w.keys.filter (fun k => decide (k ≠ d)) with
        | [] => .error .stopIteration
        | _ :: _ => rest

/-- Lines 436-503, after the last early return. -/
def afterChecks (i : Inputs OA Dim) (outOa : OA) (actOaSize exist : ℚ) (target : List Dim) (rest : Except PyErr (SM OA Dim)) : Except PyErr (SM OA Dim) :=
  match buildTables i.prKeys i.irDims { weightR := [], kernelDims := [], link := [] } with
  | .error e => .error e
  | .ok t =>
    match i.sm.get? outOa with
    | none => .error .keyError
    | some l =>
      match scan t l t.weightR 1 with
      | .error e => .error e
      | .ok (w, _) =>
        match target with
        | [] => rest
        | d :: _ => firstTarget i actOaSize exist d w rest

/-- Lines 417-434: the hints and the room on the array dimension. -/
def checks (i : Inputs OA Dim) (actOa outOa : OA) (rest : Except PyErr (SM OA Dim)) : Except PyErr (SM OA Dim) :=
  match i.hints.get? actOa with
  | none => if i.irDims = [] then .ok i.sm else .error .keyError
  | some h =>
    let target := i.irDims.filter (fun x => decide (x ∈ h))
    if target = [] then .ok i.sm
    else
      let exist := ((i.sm.get? actOa).map util).getD 1
      match i.oaSizes.get? actOa with
      | none => .error .keyError
      | some s => if exist * 2 > s then .ok i.sm else afterChecks i outOa s exist target rest

/-- `add_input_pr_spatial_loop` (lines 370-615). -/
def addInputPr (i : Inputs OA Dim) (rest : Except PyErr (SM OA Dim)) : Except PyErr (SM OA Dim) :=
  if i.nbConst > 1 then .ok i.sm
  else
    match remainder i.sm (allDims i.sm) i.sizes with
    | .error e => .error e
    | .ok _ =>
      if i.identified = false then .ok i.sm
      else
        match i.actServed.getLast?, i.outServed.getLast? with
        | some a, some o => checks i a o rest
        | _, _ => .ok i.sm

end Verif.Diagonal
