import Verif.SpatialMapping.Model
import Mathlib.Data.List.Sort
import Mathlib.Data.List.Sublists

/-!
Model of `/repo/zigzag/stages/mapping/spatial_mapping_generation.py` (`SpatialMappingGeneratorStage`), without the diagonal mapping
option (`enable_weight_diagonal_mapping = False`, the default; see `Verif.Diagonal` for that option).

`memory_hierarchy.get_inner_memories()` with the two nested loops over memories and their operands is a list of `MemOp` records, one
for every pair visited by the loops.  Sets are lists in arbitrary order.  Logging is left out.
-/

namespace Verif.SpatialGen

open Verif.SpatialMapping

variable {OA Dim : Type} [DecidableEq OA] [DecidableEq Dim]

/-- What the loops of lines 196-203 and 259-266 read for one innermost memory and one of its operands. -/
structure MemOp (OA Dim : Type) where
  /-- `mem_level.get_max_bandwidth(mem_op, data_dir)` -/
  bandwidth : Nat
  /-- `mem_level.memory_instance.size` -/
  capacity : Nat
  /-- `layer.operand_precision[layer_op]` -/
  precision : Nat
  /-- `layer.get_operand_irrelevant_layer_dims(layer_op)` -/
  irrelevant : List Dim
  /-- `mem_level.served_dimensions` -/
  served : List OA

/-- Lines 208-221 for one entry: the number of elements the memory can deliver per cycle. -/
def bwBound (mo : MemOp OA Dim) (d : Dim) (v : Nat) : Nat :=
  if d ∈ mo.irrelevant then v
  else
    let q := if mo.precision > 0 then mo.bandwidth / mo.precision else v
    if q < v then q else v

/-- Lines 205-221 for one served array dimension; `mapping[oa_dim]` raises `KeyError`. -/
def bwOa (mo : MemOp OA Dim) (oa : OA) (m : Dict OA (Dict Dim Nat)) : Except PyErr (Dict OA (Dict Dim Nat)) :=
  match m.get? oa with
  | none => .error .keyError
  | some l => .ok (m.set oa (l.map (fun x => (x.1, bwBound mo x.1 x.2))))

/-- Lines 205-221. -/
def bwOas (mo : MemOp OA Dim) : List OA → Dict OA (Dict Dim Nat) → Except PyErr (Dict OA (Dict Dim Nat))
  | [], m => .ok m
  | oa :: t, m =>
    match bwOa mo oa m with
    | .error e => .error e
    | .ok m' => bwOas mo t m'

/-- `limit_unrolling_to_mem_bandwidth` (lines 180-223). -/
def limitBandwidth : List (MemOp OA Dim) → Dict OA (Dict Dim Nat) → Except PyErr (Dict OA (Dict Dim Nat))
  | [], m => .ok m
  | mo :: t, m =>
    match bwOas mo mo.served m with
    | .error e => .error e
    | .ok m' => limitBandwidth t m'

/-- The table of lines 304-310. -/
def initMax (oaSizes : Dict OA Nat) (sizes : Dict Dim Nat) : Dict OA (Dict Dim Nat) :=
  oaSizes.map (fun e => (e.1, sizes.map (fun x => (x.1, min x.2 e.2))))

/-- `get_max_unrolling` (lines 298-313). -/
def getMaxUnrolling (mems : List (MemOp OA Dim)) (oaSizes : Dict OA Nat) (sizes : Dict Dim Nat) : Except PyErr (Dict OA (Dict Dim Nat)) :=
  limitBandwidth mems (initMax oaSizes sizes)

/-- Python's `max(list)` together with `list.index` (lines 234-235): the largest factor and its first position. -/
def argMax : List ℚ → Option (ℚ × Nat)
  | [] => none
  | x :: t =>
    match argMax t with
    | none => some (x, 0)
    | some (y, i) => if y > x then some (y, i + 1) else some (x, 0)

/-- `adjust_unrolling_factors` (lines 231-238).  `max` of an empty list raises `ValueError`.  Every round lowers a factor by one; the
fuel is shown to suffice for whole factors (`runtimeError` is not returned). -/
def adjust (bound : ℚ) : Nat → List ℚ → Except PyErr (List ℚ)
  | 0, _ => .error .runtimeError
  | n + 1, l =>
    if l.prod > bound then
      match argMax l with
      | none => .error .valueError
      | some (y, i) => adjust bound n (l.set i (y - 1))
    else .ok l

/-- Number of rounds of `adjust` that always suffices for whole factors. -/
def adjustFuel (l : List ℚ) : Nat := (l.map (fun x => ⌈x⌉.toNat)).sum + 1

/-- Line 250: `{old: new for old, new in zip(..)}`, later pairs win. -/
def factorMap (old new : List ℚ) : Dict ℚ ℚ := (old.zip new).foldl (fun d p => d.set p.1 p.2) []

/-- Lines 240-246: the unrolling factors of the limited dimensions. -/
def factorsOf (m : SM OA Dim) (served : List OA) (dims : List Dim) : List ℚ :=
  dims.flatMap (fun d => served.filterMap (fun oa => (m.get? oa).bind (fun l => l.get? d)))

/-- Lines 256-261 for one array dimension. -/
def applyMap (fm : Dict ℚ ℚ) (dims : List Dim) : List (Dim × ℚ) → Except PyErr (List (Dim × ℚ))
  | [] => .ok []
  | x :: t =>
    match applyMap fm dims t with
    | .error e => .error e
    | .ok r =>
      if x.1 ∈ dims then
        match fm.get? x.2 with
        | none => .error .keyError
        | some y => .ok ((x.1, y) :: r)
      else .ok (x :: r)

/-- Lines 251-264 and 294-295: the limited factors are written back for every served array dimension. -/
def writeBack (fm : Dict ℚ ℚ) (dims : List Dim) : List OA → SM OA Dim → Except PyErr (SM OA Dim)
  | [], m => .ok m
  | oa :: t, m =>
    match m.get? oa with
    | none => .error .keyError
    | some l =>
      match applyMap fm dims l with
      | .error e => .error e
      | .ok l' => writeBack fm dims t (m.set oa l')

/-- `limit_loop_unrolling` (lines 228-264). -/
def limitLoops (m : SM OA Dim) (served : List OA) (dims : List Dim) (bound : ℚ) : Except PyErr (SM OA Dim) :=
  let fs := factorsOf m served dims
  match adjust bound (adjustFuel fs) fs with
  | .error e => .error e
  | .ok new => writeBack (factorMap fs new) dims served m

/-- Entries of the served array dimensions that are not irrelevant (lines 275-283); `mapping[oa_dim]` raises `KeyError`. -/
def servedEntries (m : SM OA Dim) (irrelevant : List Dim) : List OA → Except PyErr (List (Dim × ℚ))
  | [] => .ok []
  | oa :: t =>
    match m.get? oa with
    | none => .error .keyError
    | some l =>
      match servedEntries m irrelevant t with
      | .error e => .error e
      | .ok r => .ok (l.filter (fun x => decide (x.1 ∉ irrelevant)) ++ r)

/-- The body of the loops of `limit_unrolling_to_mem_capacity` (lines 266-295); `ord` is the traversal order of the set
`non_irrelevant_dimensions`. -/
def capStep (ord : List Dim → List Dim) (mo : MemOp OA Dim) (m : SM OA Dim) : Except PyErr (SM OA Dim) :=
  match servedEntries m mo.irrelevant mo.served with
  | .error e => .error e
  | .ok es =>
    if mo.precision > 0 ∧ (mo.capacity : ℚ) / mo.precision < (es.map Prod.snd).prod then
      limitLoops m mo.served (ord ((es.map Prod.fst).dedup)) ((mo.capacity : ℚ) / mo.precision)
    else .ok m

/-- `limit_unrolling_to_mem_capacity` (lines 225-296). -/
def limitCapacity (ord : List Dim → List Dim) : List (MemOp OA Dim) → SM OA Dim → Except PyErr (SM OA Dim)
  | [], m => .ok m
  | mo :: t, m =>
    match capStep ord mo m with
    | .error e => .error e
    | .ok m' => limitCapacity ord t m'

/-- `sympy.divisors(n)`: the positive divisors in increasing order, none for zero. -/
def divisors (n : Nat) : List Nat := (List.range (n + 1)).filter (fun k => decide (0 < k ∧ k ∣ n))

/-- Lines 326-331: a single layer dimension over the array dimension. -/
def singles (hints : List Dim) (mx : Dict Dim Nat) : List (Dict Dim ℚ) :=
  hints.flatMap (fun d =>
    match mx.get? d with
    | none => []
    | some n => (divisors n).reverse.map (fun f : Nat => [(d, (f : ℚ))]))

/-- `non_trivial_divisors` (lines 617-620). -/
def nonTrivial (n : Nat) : List Nat := (divisors n).filter (fun x => decide (1 < x ∧ x ≤ n))

/-- The factor pool of lines 348-355. -/
def pool (mx : Dict Dim Nat) (d : Dim) : List Nat :=
  match mx.get? d with
  | none => [0]
  | some n => nonTrivial n

/-- `itertools.product(*lists)` (lines 153, 364). -/
def pyProduct {α : Type} : List (List α) → List (List α)
  | [] => [[]]
  | l :: t => l.flatMap (fun x => (pyProduct t).map (fun r => x :: r))

/-- `itertools.combinations(l, k)` (line 360): sublists of length `k` in order of positions. -/
def combinations {α : Type} : Nat → List α → List (List α)
  | 0, _ => [[]]
  | _ + 1, [] => []
  | k + 1, x :: t => (combinations k t).map (fun r => x :: r) ++ combinations (k + 1) t

/-- `generate_mapping_single_oa_dim_mixed` (lines 337-368). -/
def mixed (hints : List Dim) (mx : Dict Dim Nat) : List (Dict Dim ℚ) :=
  (List.range' 2 (hints.length - 1)).flatMap (fun k =>
    (combinations k hints).flatMap (fun mix =>
      (pyProduct (mix.map (pool mx))).map (fun fs => mix.zip (fs.map (fun f : Nat => (f : ℚ))))))

/-- `generate_spatial_mapping_single_oa_dim` (lines 315-335). -/
def singleOa (mix : Bool) (hints : List Dim) (mx : Dict Dim Nat) (oaSize : Nat) : List (Dict Dim ℚ) :=
  singles hints mx ++ (if mix then (mixed hints mx).filter (fun l => decide (util l ≤ oaSize)) else [])

/-- The inputs of the generator. -/
structure Inputs (OA Dim : Type) where
  mems : List (MemOp OA Dim)
  oaSizes : Dict OA Nat
  sizes : Dict Dim Nat
  provided : SM OA Dim
  hints : Dict OA (List Dim)
  mix : Bool
  nbMappings : Nat
  order : Order OA Dim
  capOrder : List Dim → List Dim

/-- Tables of naturals used where `SpatialMapping` expects numbers. -/
def castTable (m : Dict OA (Dict Dim Nat)) : Dict OA (Dict Dim ℚ) := m.map (fun e => (e.1, e.2.map (fun x => (x.1, (x.2 : ℚ)))))

/-- Same for one-level tables. -/
def castDict {K : Type} (d : Dict K Nat) : Dict K ℚ := d.map (fun x => (x.1, (x.2 : ℚ)))

/-- Lines 144-151: candidates per array dimension that is still to be filled. -/
def perOa (i : Inputs OA Dim) (maxU : Dict OA (Dict Dim Nat)) : List OA → Except PyErr (List (List (Dict Dim ℚ)))
  | [] => .ok []
  | oa :: t =>
    match i.hints.get? oa with
    | none => .error .keyError
    | some h =>
      match maxU.get? oa with
      | none => .error .keyError
      | some mx =>
        match i.oaSizes.get? oa with
        | none => .error .keyError
        | some s =>
          match perOa i maxU t with
          | .error e => .error e
          | .ok r => .ok (singleOa i.mix h mx s :: r)

/-- A candidate of lines 152-157.  The user part is a private copy (`mapping_template.copy()`), but the objects taken from the
generators are shared between all candidates that use them, so they are references (position in `oa_dims_to_fill`, number in the
generator) into `heap`. -/
structure Cand (OA Dim : Type) where
  own : SM OA Dim
  choice : List Nat

/-- The objects a candidate refers to. -/
def picks (heap : List (List (Dict Dim ℚ))) (choice : List Nat) : List (Dict Dim ℚ) :=
  List.zipWith (fun l k => (l[k]?).getD []) heap choice

/-- The mapping a candidate stands for in a given heap (lines 154-157). -/
def resolve (fill : List OA) (heap : List (List (Dict Dim ℚ))) (c : Cand OA Dim) : SM OA Dim :=
  (fill.zip (picks heap c.choice)).foldl (fun m p => m.set p.1 p.2) c.own

/-- Updating a mapping in place changes the shared objects. -/
def store (m : SM OA Dim) : List OA → List (List (Dict Dim ℚ)) → List Nat → List (List (Dict Dim ℚ))
  | oa :: f, l :: h, k :: c => l.set k ((m.get? oa).getD []) :: store m f h c
  | _, h, _ => h

/-- Updating a mapping in place changes the private part. -/
def storeOwn (m own : SM OA Dim) : SM OA Dim := own.map (fun e => (e.1, (m.get? e.1).getD []))

/-- Lines 152-160: the candidates that pass the validity check. -/
def keepValid {α : Type} (check : α → Except PyErr Bool) : List α → Except PyErr (List α)
  | [] => .ok []
  | c :: t =>
    match check c with
    | .error e => .error e
    | .ok b =>
      match keepValid check t with
      | .error e => .error e
      | .ok r => .ok (if b then c :: r else r)

/-- The sort keys of lines 166-170; an exception of `get_performance_indicator` propagates. -/
def withKeys {α : Type} (key : α → Except PyErr ℚ) : List α → Except PyErr (List (ℚ × α))
  | [] => .ok []
  | c :: t =>
    match key c with
    | .error e => .error e
    | .ok k =>
      match withKeys key t with
      | .error e => .error e
      | .ok r => .ok ((k, c) :: r)

/-- Insertion into a list sorted by decreasing key, before equal keys. -/
def insertDesc {α : Type} (x : ℚ × α) : List (ℚ × α) → List (ℚ × α)
  | [] => [x]
  | y :: t => if y.1 ≤ x.1 then x :: y :: t else y :: insertDesc x t

/-- `sorted(.., reverse=True)` (lines 166-170): decreasing keys, equal keys keep their order. -/
def sortDesc {α : Type} : List (ℚ × α) → List (ℚ × α)
  | [] => []
  | x :: t => insertDesc x (sortDesc t)

/-- Lines 172-178: `limit_unrolling_to_mem_capacity` on every yielded candidate, in place. -/
def limitAll (i : Inputs OA Dim) (fill : List OA) : List (Cand OA Dim) → List (List (Dict Dim ℚ)) →
    Except PyErr (List (Cand OA Dim) × List (List (Dict Dim ℚ)))
  | [], heap => .ok ([], heap)
  | c :: t, heap =>
    match limitCapacity i.capOrder i.mems (resolve fill heap c) with
    | .error e => .error e
    | .ok m =>
      match limitAll i fill t (store m fill heap c.choice) with
      | .error e => .error e
      | .ok (r, heap') => .ok ({ own := storeOwn m c.own, choice := c.choice } :: r, heap')

/-- Lines 136-141: the user defined everything. -/
def genComplete (i : Inputs OA Dim) (maxU : Dict OA (Dict Dim Nat)) (template : SM OA Dim) : Except PyErr (List (SM OA Dim)) :=
  match isValid (some (castDict i.oaSizes)) (castTable maxU) (castDict i.sizes) template with
  | .error e => .error e
  | .ok false => .error .assertion
  | .ok true =>
    match limitCapacity i.capOrder i.mems template with
    | .error e => .error e
    | .ok m => .ok [m]

/-- All candidates (lines 152-157): `itertools.product` over the generators. -/
def allCands (template : SM OA Dim) (heap : List (List (Dict Dim ℚ))) : List (Cand OA Dim) :=
  (pyProduct (heap.map (fun l => List.range l.length))).map (fun ch => { own := template, choice := ch })

/-- Lines 152-170: all valid candidates in ranking order. -/
def ranked (i : Inputs OA Dim) (maxU : Dict OA (Dict Dim Nat)) (template : SM OA Dim) (fill : List OA) (heap : List (List (Dict Dim ℚ))) :
    Except PyErr (List (ℚ × Cand OA Dim)) :=
  match keepValid (fun c => isValid (some (castDict i.oaSizes)) (castTable maxU) (castDict i.sizes) (resolve fill heap c))
      (allCands template heap) with
  | .error e => .error e
  | .ok [] => .error .assertion
  | .ok cs =>
    match withKeys (fun c => indicator (resolve fill heap c)) cs with
    | .error e => .error e
    | .ok ks => .ok (sortDesc ks)

/-- Lines 143-178, fully consumed as in line 87 (`list(self.generate_spatial_mappings())`): all in-place updates have happened when the
mappings are used. -/
def genFill (i : Inputs OA Dim) (maxU : Dict OA (Dict Dim Nat)) (template : SM OA Dim) (fill : List OA) : Except PyErr (List (SM OA Dim)) :=
  match perOa i maxU fill with
  | .error e => .error e
  | .ok heap =>
    match ranked i maxU template fill heap with
    | .error e => .error e
    | .ok ks =>
      match limitAll i fill ((ks.map Prod.snd).take i.nbMappings) heap with
      | .error e => .error e
      | .ok (cs, heap') => .ok (cs.map (resolve fill heap'))

/-- Line 133: the array dimensions the user left open. -/
def toFill (i : Inputs OA Dim) (template : SM OA Dim) : List OA := i.oaSizes.keys.filter (fun oa => decide (oa ∉ template.keys))

/-- Lines 127-131: the maximal unrollings and the reduced user mapping. -/
def template (i : Inputs OA Dim) : Except PyErr (Dict OA (Dict Dim Nat) × SM OA Dim) :=
  match getMaxUnrolling i.mems i.oaSizes i.sizes with
  | .error e => .error e
  | .ok maxU =>
    match checkAndReduce i.order (some (castDict i.oaSizes)) (castTable maxU) (castDict i.sizes) i.provided with
    | .error e => .error e
    | .ok t => .ok (maxU, t)

/-- `generate_spatial_mappings` (lines 123-178): the list of yielded mappings. -/
def generate (i : Inputs OA Dim) : Except PyErr (List (SM OA Dim)) :=
  match template i with
  | .error e => .error e
  | .ok (maxU, t) => if (toFill i t).length = 0 then genComplete i maxU t else genFill i maxU t (toFill i t)

end Verif.SpatialGen
