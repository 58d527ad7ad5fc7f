import Verif.Base.Dict
import Mathlib.Algebra.Order.Field.Rat

/-!
Model of `/repo/zigzag/mapping/utils.py` (the loops of an evaluation with the memories that hold them) and of
`/repo/zigzag/visualization/results/print_mapping.py` (the text written for every layer).

A printed row is the tuple of the values in the text; column widths and rulers are left out, except that the computation of the
widths raises for an empty nest.  Operands, dimensions and memory names are arbitrary types.
-/

namespace Verif.Print

variable {Op Dim Mem : Type} [DecidableEq Op] [DecidableEq Dim]

/-- A loop `(LayerDim, size)`. -/
abbrev Loop (Dim : Type) := Dim × ℚ

/-- Loops of one operand per memory level. -/
abbrev Levels (Dim : Type) := List (List (Loop Dim))

/-- An entry of the result of `get_temporal_loops` (the constant lower bound `0` left out). -/
structure Entry (Dim Mem : Type) where
  dim : Dim
  size : ℚ
  mems : List Mem
deriving DecidableEq

/-- The body for one operand (mapping/utils.py:29-38): level of the first level that contains the loop, and the levels with its
first occurrence there removed. -/
def takeOut (tl : Loop Dim) (levels : Levels Dim) : Except PyErr (Nat × Levels Dim) :=
  match levels.findIdx? (fun lv => decide (tl ∈ lv)) with
  | none => .error .valueError
  | some k => .ok (k, levels.modify k (fun lv => lv.erase tl))

/-- `for layer_op in operand_links.layer_operands` (mapping/utils.py:27-40).  `name op level` is the lookup of the memory name
(accelerator.py:47-51). -/
def opLoop (name : Op → Nat → Except PyErr Mem) (tl : Loop Dim) :
    List Op → Dict Op (Levels Dim) → Except PyErr (List Mem × Dict Op (Levels Dim))
  | [], tm => .ok ([], tm)
  | op :: ops, tm =>
    match tm.get? op with
    | none => .error .keyError
    | some levels =>
      match takeOut tl levels with
      | .error e => .error e
      | .ok (k, levels') =>
        match name op k with
        | .error e => .error e
        | .ok m =>
          match opLoop name tl ops (tm.set op levels') with
          | .error e => .error e
          | .ok (ms, tm') => .ok (m :: ms, tm')

/-- `for tl in tls` (mapping/utils.py:25-42). -/
def loopLoop (name : Op → Nat → Except PyErr Mem) (ops : List Op) :
    List (Loop Dim) → Dict Op (Levels Dim) → Except PyErr (List (Entry Dim Mem))
  | [], _ => .ok []
  | tl :: tls, tm =>
    match opLoop name tl ops tm with
    | .error e => .error e
    | .ok (ms, tm') =>
      match loopLoop name ops tls tm' with
      | .error e => .error e
      | .ok es => .ok (⟨tl.1, tl.2, ms⟩ :: es)

/-- `get_temporal_loops` (mapping/utils.py:19-43).  `out` is the output operand. -/
def getTemporalLoops (name : Op → Nat → Except PyErr Mem) (ops : List Op) (out : Op) (tm : Dict Op (Levels Dim)) :
    Except PyErr (List (Entry Dim Mem)) :=
  match tm.get? out with
  | none => .error .keyError
  | some levels => loopLoop name ops levels.flatten tm

/-- `get_spatial_loops` (mapping/utils.py:10-17): the spatial loops of the output, outermost first; `blank` is the empty name. -/
def getSpatialLoops (blank : Mem) (sm : Levels Dim) : List (Entry Dim Mem) :=
  (sm.flatten.map fun sl => ⟨sl.1, sl.2, [blank, blank, blank]⟩).reverse

/-- A printed loop: indentation, `for` or `parfor`, loop and the three memory columns. -/
structure Row (Dim Mem : Type) where
  indent : Nat
  parallel : Bool
  dim : Dim
  size : ℚ
  mems : Mem × Mem × Mem
deriving DecidableEq

/-- `recursive_print` (print_mapping.py:51-69): rows and the final offset. -/
def recursivePrint (parallel : Bool) (step : Nat) : List (Entry Dim Mem) → Nat → Except PyErr (List (Row Dim Mem) × Nat)
  | [], offset => .ok ([], offset)
  | e :: es, offset =>
    match e.mems with
    | a :: b :: c :: _ =>
      match recursivePrint parallel step es (offset + step) with
      | .error x => .error x
      | .ok (rows, n) => .ok (⟨offset, parallel, e.dim, e.size, (a, b, c)⟩ :: rows, n)
    | _ => .error .indexError

/-- `print_mapping` (print_mapping.py:10-89).  The maximum over no loops raises `ValueError` (line 29), the header asserts three
operands (line 72); spatial loops are not indented further. -/
def printMapping (blank : Mem) (name : Op → Nat → Except PyErr Mem) (offsets : Nat) (ops : List Op) (out : Op)
    (tm : Dict Op (Levels Dim)) (sm : Levels Dim) : Except PyErr (List (Row Dim Mem)) :=
  match getTemporalLoops name ops out tm with
  | .error e => .error e
  | .ok tls =>
    if tls.isEmpty then .error .valueError
    else if ops.isEmpty then .error .valueError
    else if ops.length ≠ 3 then .error .assertion
    else
      match recursivePrint false offsets tls.reverse 0 with
      | .error e => .error e
      | .ok (rows, indent) =>
        match recursivePrint true 0 (getSpatialLoops blank sm) indent with
        | .error e => .error e
        | .ok (srows, _) => .ok (rows ++ srows)

end Verif.Print
