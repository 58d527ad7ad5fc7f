import Verif.Base.Dict
import Mathlib.Data.Rat.Floor
import Mathlib.Algebra.BigOperators.Group.List.Basic
import Mathlib.Data.List.Dedup

/-!
Model of `/repo/zigzag/mapping/spatial_mapping.py`: `SpatialMapping.is_valid`, `check_and_reduce` and
`get_performance_indicator`.

The code iterates over python sets and removes "arbitrary" members; the order in which a set is traversed is a parameter
`ord` (any permutation, possibly a different one for every state of the mapping).  Log messages are left out.
-/

namespace Verif.SpatialMapping

variable {OA Dim : Type} [DecidableEq OA] [DecidableEq Dim]

/-- `SpatialMapping.data` (line 83): array dimension → (layer dimension → unrolling). -/
abbrev SM (OA Dim : Type) := Dict OA (Dict Dim ℚ)

/-- Traversal order of python sets, depending on the state of the mapping. -/
structure Order (OA Dim : Type) where
  dims : SM OA Dim → List Dim → List Dim
  oas : SM OA Dim → List OA → List OA
  inner : Dict Dim ℚ → List Dim → List Dim

/-- Sets can be traversed in any order, but completely. -/
def Order.Ok (o : Order OA Dim) : Prop :=
  (∀ m l, (o.dims m l).Perm l) ∧ (∀ m l, (o.oas m l).Perm l) ∧ (∀ m l, (o.inner m l).Perm l)

/-- `MappingSingleOADim.utilization` (lines 21-24). -/
def util (l : Dict Dim ℚ) : ℚ := (l.map Prod.snd).prod

/-- `flatten_unrollings` (lines 251-258). -/
def flat (m : SM OA Dim) : List (Dim × ℚ) := m.flatMap Prod.snd

/-- `all_contained_layer_dims` (lines 223-226). -/
def allDims (m : SM OA Dim) : List Dim := ((flat m).map Prod.fst).dedup

/-- `get_total_unrolling_of_layer_dim` (lines 228-230). -/
def total (m : SM OA Dim) (d : Dim) : ℚ := (((flat m).filter (fun x => x.1 = d)).map Prod.snd).prod

/-- Checks 4) and 5) of `is_valid` for the entries of one array dimension (lines 123-130). -/
def validEntries (maxU : Dict OA (Dict Dim ℚ)) (oa : OA) : List (Dim × ℚ) → Except PyErr Bool
  | [] => .ok true
  | x :: t =>
    match maxU.get? oa with
    | none => .error .keyError
    | some mx =>
      match mx.get? x.1 with
      | none => .ok false
      | some b => if x.2 > b then .ok false else validEntries maxU oa t

/-- Check 6) (lines 131-133). -/
def validUtil (oaSizes : Dict OA ℚ) (oa : OA) (l : Dict Dim ℚ) : Except PyErr Bool :=
  match oaSizes.get? oa with
  | none => .error .keyError
  | some s => .ok (decide (¬ util l > s))

/-- The loop over the array dimensions (lines 122-133).  The code traverses a set; the result only depends on the order when
`max_unrollings` misses an array dimension. -/
def validOas (oaSizes : Dict OA ℚ) (maxU : Dict OA (Dict Dim ℚ)) : SM OA Dim → Except PyErr Bool
  | [] => .ok true
  | e :: t =>
    match validEntries maxU e.1 e.2 with
    | .error x => .error x
    | .ok false => .ok false
    | .ok true =>
      match validUtil oaSizes e.1 e.2 with
      | .error x => .error x
      | .ok false => .ok false
      | .ok true => validOas oaSizes maxU t

/-- Checks 7) and 8) (lines 135-143). -/
def validDims (sizes : Dict Dim ℚ) (m : SM OA Dim) : Bool :=
  (allDims m).all (fun d => decide (d ∈ sizes.keys)) && sizes.all (fun e => decide (total m e.1 ≤ e.2))

/-- `is_valid` (lines 97-145); `oaSizes = none` when `initialize_oa_dims` was not called. -/
def isValid (oaSizes : Option (Dict OA ℚ)) (maxU : Dict OA (Dict Dim ℚ)) (sizes : Dict Dim ℚ) (m : SM OA Dim) : Except PyErr Bool :=
  match oaSizes with
  | none => .error .assertion
  | some oaSizes =>
    if m.keys.all (fun k => decide (k ∈ oaSizes.keys)) then
      if oaSizes.keys.all (fun k => decide (k ∈ m.keys)) then
        match validOas oaSizes maxU m with
        | .error x => .error x
        | .ok false => .ok false
        | .ok true => .ok (validDims sizes m)
      else .error .assertion
    else .error .assertion

/-- `delete_layer_dim` (lines 260-264). -/
def deleteDim (m : SM OA Dim) (d : Dim) : Except PyErr (SM OA Dim) :=
  if d ∈ allDims m then .ok (m.map (fun e => (e.1, e.2.del d))) else .error .assertion

/-- Lines 161-169: layer dimensions that are not part of the layer are removed. -/
def dropUnknown (sizes : Dict Dim ℚ) : List Dim → SM OA Dim → Except PyErr (SM OA Dim)
  | [], m => .ok m
  | d :: ds, m =>
    if d ∈ sizes.keys then dropUnknown sizes ds m
    else
      match deleteDim m d with
      | .error x => .error x
      | .ok m' => dropUnknown sizes ds m'

/-- Lines 173-186: clip every unrolling of one array dimension. -/
def clip (maxU : Dict OA (Dict Dim ℚ)) (oa : OA) : List (Dim × ℚ) → Except PyErr (List (Dim × ℚ))
  | [] => .ok []
  | x :: t =>
    match maxU.get? oa with
    | none => .error .keyError
    | some mx =>
      match mx.get? x.1 with
      | none => .error .keyError
      | some b =>
        match clip maxU oa t with
        | .error e => .error e
        | .ok r => .ok ((x.1, if x.2 > b then b else x.2) :: r)

/-- Lines 196-199: `while` loop removing arbitrary layer dimensions of one array dimension; `next(iter(..))` of an empty set raises
`StopIteration`.  Every round removes a key, so `length + 1` rounds suffice (`runtimeError` is never returned, see
`Lemmas.shrink_fuel`). -/
def shrink (o : Order OA Dim) (size : ℚ) : Nat → Dict Dim ℚ → Except PyErr (Dict Dim ℚ)
  | 0, _ => .error .runtimeError
  | n + 1, l =>
    if util l > size then
      match (o.inner l l.keys).head? with
      | none => .error .stopIteration
      | some d => shrink o size n (l.del d)
    else .ok l

/-- Lines 188-199 with the lookup `self.oa_dim_sizes[oa_dim]`. -/
def shrinkOa (o : Order OA Dim) (oaSizes : Dict OA ℚ) (oa : OA) (l : Dict Dim ℚ) : Except PyErr (Dict Dim ℚ) :=
  match oaSizes.get? oa with
  | none => .error .keyError
  | some s => shrink o s (l.length + 1) l

/-- Lines 171-199: every array dimension separately. -/
def reduceOas (o : Order OA Dim) (oaSizes : Dict OA ℚ) (maxU : Dict OA (Dict Dim ℚ)) : SM OA Dim → Except PyErr (SM OA Dim)
  | [] => .ok []
  | e :: t =>
    match clip maxU e.1 e.2 with
    | .error x => .error x
    | .ok l =>
      match shrinkOa o oaSizes e.1 l with
      | .error x => .error x
      | .ok l' =>
        match reduceOas o oaSizes maxU t with
        | .error x => .error x
        | .ok t' => .ok ((e.1, l') :: t')

/-- Array dimensions that unroll `d` (lines 213-215). -/
def holders (m : SM OA Dim) (d : Dim) : List OA := (m.filter (fun e => decide (d ∈ e.2.keys))).map Prod.fst

/-- Line 216: `del self[some_oa_dim][layer_dim]`. -/
def delAt (m : SM OA Dim) (oa : OA) (d : Dim) : SM OA Dim := m.map (fun e => if e.1 = oa then (e.1, e.2.del d) else e)

/-- Lines 212-216: `while` loop over one layer dimension; `set().pop()` raises `KeyError`. -/
def cut (o : Order OA Dim) (size : ℚ) (d : Dim) : Nat → SM OA Dim → Except PyErr (SM OA Dim)
  | 0, _ => .error .runtimeError
  | n + 1, m =>
    if total m d > size then
      match (o.oas m (holders m d)).head? with
      | none => .error .keyError
      | some oa => cut o size d n (delAt m oa d)
    else .ok m

/-- Lines 201-216. -/
def cutDims (o : Order OA Dim) (sizes : Dict Dim ℚ) : List Dim → SM OA Dim → Except PyErr (SM OA Dim)
  | [], m => .ok m
  | d :: ds, m =>
    match sizes.get? d with
    | none => .error .keyError
    | some s =>
      match cut o s d ((holders m d).length + 1) m with
      | .error x => .error x
      | .ok m' => cutDims o sizes ds m'

/-- `check_and_reduce` (lines 147-216). -/
def checkAndReduce (o : Order OA Dim) (oaSizes : Option (Dict OA ℚ)) (maxU : Dict OA (Dict Dim ℚ)) (sizes : Dict Dim ℚ)
    (m : SM OA Dim) : Except PyErr (SM OA Dim) :=
  match oaSizes with
  | none => .error .assertion
  | some oaSizes =>
    match dropUnknown sizes (o.dims m (allDims m)) m with
    | .error x => .error x
    | .ok m1 =>
      match reduceOas o oaSizes maxU m1 with
      | .error x => .error x
      | .ok m2 => cutDims o sizes (o.dims m2 (allDims m2)) m2

/-- Python's `int(x)`: truncation towards zero. -/
def pyTrunc (q : ℚ) : ℤ := if q < 0 then ⌈q⌉ else ⌊q⌋

/-- `hw_utilization` (lines 218-221). -/
def hwUtil (m : SM OA Dim) : ℤ := pyTrunc ((m.map (fun e => util e.2)).prod)

/-- Python's `max` of a list of numbers. -/
def pyMax : List ℚ → Except PyErr ℚ
  | [] => .error .valueError
  | x :: t => .ok (t.foldl (fun a b => if b > a then b else a) x)

/-- Lines 247-249 given the largest total unrolling. -/
def indicatorOf (hw mx : ℚ) : Except PyErr ℚ :=
  if mx = 0 then .error .zeroDivision
  else if hw / mx - 1 < hw then .ok (hw + (hw / mx - 1)) else .error .assertion

/-- `get_performance_indicator` (lines 232-249). -/
def indicator (m : SM OA Dim) : Except PyErr ℚ :=
  match pyMax ((allDims m).map (total m)) with
  | .error x => .error x
  | .ok mx => indicatorOf (hwUtil m) mx

end Verif.SpatialMapping
