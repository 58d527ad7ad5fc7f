import Verif.Base.Dict
import Mathlib.Algebra.Order.Field.Rat
import Mathlib.Algebra.BigOperators.Group.List.Basic
import Mathlib.Logic.Function.Basic

/-!
Model of `/repo/zigzag/opt/loma/memory_allocator.py` (and `loop.py`).

Simplifications:
* per-operand dictionaries (`unallocated`, `allocated`, `mem_level`, `temporal_mapping_dict`) are one function from memory
  operand to `OpSt`; layer operands and memory operands are identified (`mem_to_layer_op` is a bijection, see C48);
* sizes are exact rationals (Python ints or floats);
* `calc_tensor_size` of the layer is the parameter `Env.tensor`;
* `db_support` of `calc_size_slices` is never passed (line 115), so it is `False`;
* `node == top_levels[mem_op]` is the node attribute `isTop`.
-/

namespace Verif.Alloc

variable {Op Dim : Type} [DecidableEq Op] [DecidableEq Dim]

/-- `Loop` (loop.py:4-22); `temporal` is `loop_type == "temporal"`. -/
structure Loop (Dim : Type) where
  dim : Dim
  size : ℚ
  temporal : Bool
  deriving DecidableEq

/-- What the allocator knows about layer, spatial mapping and mapping type (memory_allocator.py:34-79). -/
structure Env (Op Dim : Type) where
  /-- `self.mem_ops` -/
  memOps : List Op
  /-- `mem_op == Constants.OUTPUT_MEM_OP` -/
  isOut : Op → Bool
  /-- `self.precision[mem_op]` -/
  prec : Op → ℚ
  /-- `self.precision[Constants.FINAL_OUTPUT_MEM_OP]` -/
  finalPrec : ℚ
  /-- `get_ir_layer_dims` -/
  irDims : Op → List Dim
  /-- spatial mapping of the operand per architecture level -/
  spatial : Op → List (List (Dim × ℚ))
  /-- `layer.calc_tensor_size` -/
  tensor : Op → Dict Dim ℚ → ℚ
  /-- `mapping_type == EVEN` -/
  even : Bool

/-- A memory level of the hierarchy. -/
structure Node (Op : Type) where
  ops : List Op
  cap : ℚ
  isTop : Op → Bool

/-- Allocator state of one operand. -/
structure OpSt (Dim : Type) where
  allocated : List (Loop Dim)
  unallocated : List (Loop Dim)
  level : Nat
  tm : List (List (Dim × ℚ))

abbrev AllocSt (Op Dim : Type) := Op → OpSt Dim

/-- Spatial loops of a level as `Loop`s. -/
def spLoops (l : List (Dim × ℚ)) : List (Loop Dim) := l.map (fun p => ⟨p.1, p.2, false⟩)

/-- Temporal loops as `Loop`s. -/
def tmLoops (l : List (Dim × ℚ)) : List (Loop Dim) := l.map (fun p => ⟨p.1, p.2, true⟩)

/-- Initial state (memory_allocator.py:59-77); an operand without any level raises IndexError in `get_unrolling`. -/
def initState (env : Env Op Dim) (ordering : List (Dim × ℚ)) : Except PyErr (AllocSt Op Dim) :=
  if env.memOps.all (fun op => !(env.spatial op).isEmpty) then
    .ok (fun op => { allocated := spLoops ((env.spatial op).headD []), unallocated := tmLoops ordering, level := 1, tm := [] })
  else .error .indexError

/-- `get_precision` (memory_allocator.py:153-175). -/
def getPrecision (env : Env Op Dim) (op : Op) (s : OpSt Dim) : ℚ :=
  if env.isOut op then
    let dims := (((env.spatial op).drop s.level).flatten.map Prod.fst) ++ s.unallocated.map (fun l => l.dim)
    if dims.any (fun d => decide (d ∈ env.irDims op)) then env.prec op else env.finalPrec
  else env.prec op

/-- The `all_dim_sizes` dictionary of `calc_loops_size` (memory_allocator.py:229-231). -/
def dimSizes (loops : List (Loop Dim)) : Dict Dim ℚ :=
  loops.foldl (fun d l => d.set l.dim ((d.get? l.dim).getD 1 * l.size)) []

/-- `calc_loops_size` (memory_allocator.py:216-235). -/
def calcLoopsSize (env : Env Op Dim) (op : Op) (loops : List (Loop Dim)) (precision : ℚ) : ℚ :=
  env.tensor op (dimSizes loops) * precision

/-- The loop of `calc_size_slices` (memory_allocator.py:197-213); `k` iterations remain, the next index is `i`. -/
def sliceLoop (size : Nat → ℚ) (cap : ℚ) : Nat → Nat → Except PyErr (List ℚ)
  | 0, _ => .ok []
  | k + 1, i =>
    if size i ≤ cap then
      match sliceLoop size cap k (i + 1) with
      | .error e => .error e
      | .ok l => .ok (size i :: l)
    else if i = 0 then .error .memoryTooSmall
    else .ok []

/-- `calc_size_slices` (memory_allocator.py:177-214). -/
def calcSizeSlices (env : Env Op Dim) (op : Op) (s : OpSt Dim) (cap : ℚ) : Except PyErr (List ℚ) :=
  sliceLoop (fun i => calcLoopsSize env op (s.allocated ++ s.unallocated.take i) (getPrecision env op s)) cap
    (s.unallocated.length + 1) 0

/-- Candidate table of one operand: index offset, sizes and accesses (memory_allocator.py:256-284). -/
structure Cand where
  offset : Nat
  sizes : List ℚ
  acc : List ℚ

/-- memory_allocator.py:259-284 for one operand. -/
def mkCand (isTop : Bool) (s : OpSt Dim) (sizes : List ℚ) : Cand :=
  let offset := if isTop then sizes.length - 1 else 0
  let sizes' := if isTop then [sizes.getLastD 0] else sizes
  { offset := offset, sizes := sizes',
    acc := sizes'.mapIdx (fun i size =>
      if isTop then 0 else ((s.unallocated.drop (i + offset)).map (fun l => l.size)).prod * size) }

/-- `current_loop_idx` of every operand for combination number `i` (memory_allocator.py:294-296). -/
def decode : List Nat → Nat → List Nat
  | [], _ => []
  | n :: rest, i => (i / rest.prod) % n :: decode rest i

/-- Sum of the table entries selected by an index vector. -/
def pick (tables : List (List ℚ)) (idx : List Nat) : ℚ := ((tables.zip idx).map (fun p => p.1.getD p.2 0)).sum

/-- The search of `find_best_loop_combination` (memory_allocator.py:286-309); `valid` is the mapping-type check on the
index vector with offsets.  The state is `(best_loop_idxs, best_accesses)`, `none` is infinity. -/
def search (cands : List Cand) (cap : ℚ) (valid : List Nat → Bool) :
    List Nat → List Nat × Option ℚ → Except PyErr (List Nat × Option ℚ)
  | [], best => .ok best
  | i :: is, best =>
    let cur := decode (cands.map (fun c => c.sizes.length)) i
    let idxs := List.zipWith (· + ·) cur (cands.map (fun c => c.offset))
    let size := pick (cands.map (fun c => c.sizes)) cur
    let acc := pick (cands.map (fun c => c.acc)) cur
    if cap < size then
      if i = 0 then .error .memoryTooSmall else search cands cap valid is best
    else if (match best.2 with | none => true | some b => decide (acc ≤ b)) && valid idxs then
      search cands cap valid is (idxs, some acc)
    else search cands cap valid is best

/-- `find_best_loop_combination` after the tables have been built. -/
def findBest (cands : List Cand) (cap : ℚ) (valid : List Nat → Bool) : Except PyErr (List Nat) :=
  match search cands cap valid (List.range (cands.map (fun c => c.sizes.length)).prod) (cands.map (fun _ => 0), none) with
  | .error e => .error e
  | .ok b => .ok b.1

/-- `is_valid_idx_combination_for_even_mapping_type` (memory_allocator.py:320-339). -/
def evenValid (st : AllocSt Op Dim) (ops : List Op) (idx : List Nat) : Bool :=
  let off := fun op => ((st op).allocated.filter (fun l => l.temporal)).length
  let toBe := (ops.zip idx).flatMap (fun p => (((st p.1).unallocated.take p.2).mapIdx (fun i l => (i + off p.1, l))))
  let remain := (ops.zip idx).flatMap (fun p =>
    (((st p.1).unallocated.drop p.2).mapIdx (fun i l => (i + p.2 + off p.1, l))))
  !(toBe.any (fun x => decide (x ∈ remain)))

/-- `is_valid_idx_combination_for_mapping_type` (memory_allocator.py:311-318). -/
def validComb (env : Env Op Dim) (st : AllocSt Op Dim) (ops : List Op) (idx : List Nat) : Bool :=
  if env.even then evenValid st ops idx else true

/-- `{mem_op: self.calc_size_slices(...)}` for all operands (memory_allocator.py:115). -/
def allSizes (env : Env Op Dim) (st : AllocSt Op Dim) (cap : ℚ) : List Op → Except PyErr (List (List ℚ))
  | [] => .ok []
  | op :: ops =>
    match calcSizeSlices env op (st op) cap with
    | .error e => .error e
    | .ok s => match allSizes env st cap ops with
      | .error e => .error e
      | .ok l => .ok (s :: l)

/-- Body of the loop memory_allocator.py:121-151 for one operand. -/
def allocOp (env : Env Op Dim) (node : Node Op) (st : AllocSt Op Dim) (op : Op) (idx : Nat) :
    Except PyErr (AllocSt Op Dim) :=
  let s := st op
  let loops := s.unallocated.take idx
  match (env.spatial op)[s.level]? with
  | none => .error .indexError
  | some sp =>
    let s' : OpSt Dim := { allocated := s.allocated ++ loops ++ spLoops sp, unallocated := s.unallocated.drop idx, level := s.level + 1, tm := s.tm ++ [loops.map (fun l => (l.dim, l.size))] }
    if node.isTop op && !s'.unallocated.isEmpty then .error .memoryHierarchyTooSmall
    else .ok (Function.update st op s')

/-- memory_allocator.py:121-151. -/
def allocOps (env : Env Op Dim) (node : Node Op) : AllocSt Op Dim → List (Op × Nat) → Except PyErr (AllocSt Op Dim)
  | st, [] => .ok st
  | st, (op, idx) :: rest =>
    match allocOp env node st op idx with
    | .error e => .error e
    | .ok st' => allocOps env node st' rest

/-- `allocate_node` (memory_allocator.py:99-151). -/
def allocateNode (env : Env Op Dim) (st : AllocSt Op Dim) (node : Node Op) : Except PyErr (AllocSt Op Dim) :=
  let ops := node.ops.filter (fun op => decide (op ∈ env.memOps))
  match allSizes env st node.cap ops with
  | .error e => .error e
  | .ok sizes =>
    let cands := List.zipWith (fun op s => mkCand (node.isTop op) (st op) s) ops sizes
    match findBest cands node.cap (validComb env st ops) with
    | .error e => .error e
    | .ok best => allocOps env node st (ops.zip best)

/-- The node loop of `run` (memory_allocator.py:91-92). -/
def allocNodes (env : Env Op Dim) : AllocSt Op Dim → List (Node Op) → Except PyErr (AllocSt Op Dim)
  | st, [] => .ok st
  | st, n :: ns =>
    match allocateNode env st n with
    | .error e => .error e
    | .ok st' => allocNodes env st' ns

/-- `run` (memory_allocator.py:81-97): the dictionary given to `TemporalMapping`. -/
def run (env : Env Op Dim) (ordering : List (Dim × ℚ)) (nodes : List (Node Op)) :
    Except PyErr (Op → List (List (Dim × ℚ))) :=
  match initState env ordering with
  | .error e => .error e
  | .ok st => match allocNodes env st nodes with
    | .error e => .error e
    | .ok st' => .ok (fun op => (st' op).tm)

end Verif.Alloc
