import Verif.SpatialMapping.Model

/-! `SpatialMappingConversionStage` (/repo/zigzag/stages/mapping/spatial_mapping_conversion.py).  Numbers are exact rationals (the code
uses ints and floats). -/

namespace Verif.Conversion

open Verif.SpatialMapping

variable {OA Dim : Type} [DecidableEq OA] [DecidableEq Dim]

/-- `check_if_oa_dim_mapping_is_first_max` (lines 248-273). -/
def firstMax (user : SM OA Dim) (oa : OA) (d : Dim) : Except PyErr Bool :=
  match pyMax (user.map (fun e => (e.2.get? d).getD 0)) with
  | .error e => .error e
  | .ok mx =>
    if mx > 0 then
      match user.find? (fun e => decide (e.2.get? d = some mx)) with
      | none => .error .stopIteration
      | some e => .ok (decide (oa = e.1))
    else .error .assertion

/-- `calc_unrolled_loop_size_on_early_oa_dims` (lines 275-291): the inner loop meets the layer dimension at most once. -/
def early (oa : OA) (d : Dim) : SM OA Dim → ℚ
  | [] => 1
  | e :: t => if oa = e.1 then 1 else (e.2.get? d).getD 1 * early oa d t

/-- Lines 173-185: the adjusted unrolling; `int(math.ceil(..))`, division by zero raises. -/
def adjusted (size u e : ℚ) (dec : Bool) : Except PyErr ℚ :=
  if u * e = 0 then .error .zeroDivision
  else
    let t : ℤ := ⌈size / (u * e)⌉
    if t = 0 then .error .zeroDivision
    else if e = 0 then .error .zeroDivision
    else
      let r := size / t / e
      .ok (if dec then r else ((pyTrunc r : ℤ) : ℚ))

/-- `generate_limited_user_spatial_mapping` (lines 135-190). -/
def limited (oaSizes : Dict OA Nat) (sizes : Dict Dim Nat) (user : SM OA Dim) (oa : OA) (x : Dim × ℚ) (lim : SM OA Dim) (dec : Bool) :
    Except PyErr (Option (Dim × ℚ)) :=
  match sizes.get? x.1 with
  | none => .ok none
  | some size =>
    match oaSizes.get? oa with
    | none => .error .keyError
    | some s =>
      let u : ℚ := if x.2 > s then s else x.2
      if u ≤ size then
        match firstMax user oa x.1 with
        | .error e => .error e
        | .ok false => .ok (some (x.1, u))
        | .ok true =>
          match adjusted size u (early oa x.1 lim) dec with
          | .error e => .error e
          | .ok v => .ok (some (x.1, v))
      else .error .assertion

/-- Lines 88-113: the loops of one array dimension, in both versions. -/
def convertOa (oaSizes : Dict OA Nat) (sizes : Dict Dim Nat) (user : SM OA Dim) (oa : OA) (lim limI : SM OA Dim) :
    List (Dim × ℚ) → Except PyErr (List (Dim × ℚ) × List (Dim × ℚ))
  | [] => .ok ([], [])
  | x :: t =>
    match limited oaSizes sizes user oa x lim true with
    | .error e => .error e
    | .ok a =>
      match limited oaSizes sizes user oa x limI false with
      | .error e => .error e
      | .ok b =>
        match convertOa oaSizes sizes user oa lim limI t with
        | .error e => .error e
        | .ok (r, rI) =>
          match a, b with
          | some y, some z => .ok (y :: r, z :: rI)
          | _, _ => .ok (r, rI)

/-- Lines 115-124: a new dictionary filled element by element, only if there is an element. -/
def addOa (lim : SM OA Dim) (oa : OA) (l : List (Dim × ℚ)) : SM OA Dim :=
  if l.length ≠ 0 then lim.set oa (l.foldl (fun d x => Dict.set d x.1 x.2) []) else lim

/-- Lines 83-124 of `convert_user_spatial_mapping`: the loop over the array dimensions. -/
def convertLoop (oaSizes : Dict OA Nat) (sizes : Dict Dim Nat) (user : SM OA Dim) : SM OA Dim → SM OA Dim → SM OA Dim → Except PyErr (SM OA Dim × SM OA Dim)
  | [], lim, limI => .ok (lim, limI)
  | e :: t, lim, limI =>
    match convertOa oaSizes sizes user e.1 lim limI e.2 with
    | .error x => .error x
    | .ok (l, lI) => convertLoop oaSizes sizes user t (addOa lim e.1 l) (addOa limI e.1 lI)

/-- `limited_usm`, `limited_usm_int` of `convert_user_spatial_mapping` (lines 65-124). -/
def convert (oaSizes : Dict OA Nat) (sizes : Dict Dim Nat) (user : SM OA Dim) : Except PyErr (SM OA Dim × SM OA Dim) :=
  convertLoop oaSizes sizes user user [] []

/-- Lines 212-217, 235-240: multiply an unrolling into the dictionary of a level. -/
def mulIn (d : Dict Dim ℚ) (x : Dim × ℚ) : Dict Dim ℚ :=
  match d.get? x.1 with
  | none => d.set x.1 x.2
  | some v => d.set x.1 (v * x.2)

/-- Lines 206-222: one memory level takes the dimensions it serves out of the remaining mapping; `served` is the traversal order of the
served dimensions. -/
def level : List OA → SM OA Dim → Dict Dim ℚ → SM OA Dim × Dict Dim ℚ
  | [], rem, d => (rem, d)
  | oa :: t, rem, d =>
    match rem.get? oa with
    | none => level t rem d
    | some l => level t (rem.del oa) (l.foldl mulIn d)

/-- Lines 205-226: all memory levels from the innermost. -/
def levels : List (List OA) → SM OA Dim → SM OA Dim × List (Dict Dim ℚ)
  | [], rem => (rem, [])
  | s :: t, rem =>
    let p := level s rem []
    let q := levels t p.1
    (q.1, p.2 :: q.2)

/-- Lines 199-245 for one operand: levels, then what is left on top. -/
def perMemLvl (served : List (List OA)) (m : SM OA Dim) : List (List (Dim × ℚ)) :=
  let q := levels served m
  q.2 ++ [(q.1.flatMap (fun e => e.2)).foldl mulIn []]

end Verif.Conversion
