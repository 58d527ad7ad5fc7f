import Verif.Base.Dict
import Mathlib.Order.Defs.LinearOrder
import Mathlib.Logic.Function.Basic
import Mathlib.Data.List.Sort

/-!
Model of `/repo/zigzag/opt/loma/multipermute.py`.

The singly linked list is modelled with its pointers: a node is a natural number, `val` gives the (never changed)
`value` field and `next` the mutable `next_elem` field.  `none` is Python's `None`.  Reading an attribute of `None`
(AttributeError in Python) is the outcome `crash`.  Generators are modelled by the list of everything they yield.
-/

namespace Verif.Multiperm

variable {α : Type} [LinearOrder α]

/-- The local variables of the generator (multipermute.py:120-157): the `next_elem` fields and the pointers `h`, `i`, `j`
(`j` may become `None`). -/
structure St where
  next : Nat → Option Nat
  h : Nat
  i : Nat
  j : Option Nat

/-- `ListElement.nth` (multipermute.py:49-55); a negative `n` behaves like `0`, as does truncated subtraction. -/
def nth (next : Nat → Option Nat) (o : Nat) : Nat → Nat
  | 0 => o
  | n + 1 => match next o with
    | none => o
    | some o' => nth next o' n

/-- `init` (multipermute.py:102-107) on an already sorted list of length `n`: node `k` holds `multiset[k]` and points to
node `k - 1`; the head is the last node created. -/
def initSt (n : Nat) : St :=
  let next := fun k => if k = 0 then none else some (k - 1)
  let h := n - 1
  { next := next, h := h, i := nth next h (n - 2), j := some (nth next h (n - 1)) }

/-- `visit` (multipermute.py:110-117); `fuel` bounds the walk (the number of nodes is enough, the list is acyclic). -/
def visit (val : Nat → α) (next : Nat → Option Nat) : Nat → Option Nat → List α
  | 0, _ => []
  | _ + 1, none => []
  | fuel + 1, some o => val o :: visit val next fuel (next o)

/-- Outcome of one pass through the `while` loop. -/
inductive Step where
  | stop
  | crash
  | next (s : St)

/-- `s = j` or `s = i` (multipermute.py:126-129 and 146-149). -/
def pickS (val : Nat → α) (s : St) (j : Nat) : Nat :=
  match s.next j with
  | some jn => if val jn ≤ val s.i then j else s.i
  | none => s.i

/-- One evaluation of the loop condition and body (multipermute.py:125-138 and 145-157). -/
def step (val : Nat → α) (s : St) : Step :=
  match s.j with
  | none => Step.crash
  | some j =>
    if (s.next j).isSome ∨ val j < val s.h then
      let sn := pickS val s j
      match s.next sn with
      | none => Step.crash
      | some t =>
        let next1 := Function.update s.next sn (s.next t)
        let next2 := Function.update next1 t (some s.h)
        let i' := if val t < val s.h then t else s.i
        Step.next { next := next2, h := t, i := i', j := next2 i' }
    else Step.stop

/-- The `while` loop of `permutations` (multipermute.py:145-157): everything yielded, `none` if the loop crashes or does
not end within `fuel` passes.  `n` is the number of nodes. -/
def loop (val : Nat → α) (n : Nat) : Nat → St → Option (List (List α))
  | 0, _ => none
  | fuel + 1, s =>
    match step val s with
    | Step.stop => some []
    | Step.crash => none
    | Step.next s' => (loop val n fuel s').map (fun ys => visit val s'.next (n + 1) (some s'.h) :: ys)

/-- Sorted copy of the argument, `multiset.sort()` (multipermute.py:103). -/
def sorted (ms : List α) : List α := ms.insertionSort (fun a b => a ≤ b)

/-- `value` field of the nodes. -/
def valOf (d : α) (srt : List α) : Nat → α := fun k => srt.getD k d

/-- `permutations` (multipermute.py:141-157).  The empty multiset raises IndexError (line 104). -/
def permutations (fuel : Nat) (ms : List α) : Except PyErr (Option (List (List α))) :=
  match sorted ms with
  | [] => .error .indexError
  | d :: srt =>
    let n := (d :: srt).length
    let s := initSt n
    let val := valOf d (d :: srt)
    .ok ((loop val n fuel s).map (fun ys => visit val s.next (n + 1) (some s.h) :: ys))

/-- A `PermutationConstraint.is_valid` method: may raise. -/
abbrev Constr (α : Type) := List α → Except PyErr Bool

/-- `all(constr.is_valid(p) for constr in constraints)` (multipermute.py:123, 137). -/
def allValid (cs : List (Constr α)) (p : List α) : Except PyErr Bool :=
  match cs with
  | [] => .ok true
  | c :: cs => match c p with
    | .error e => .error e
    | .ok false => .ok false
    | .ok true => allValid cs p

/-- What a generator has yielded when it ends, and the exception that ended it, if any. -/
abbrev GenOut (α : Type) := List (List α) × Option PyErr

/-- Yield `p` if it is valid, then continue with `rest` (multipermute.py:123-124, 137-138). -/
def emit (cs : List (Constr α)) (p : List α) (rest : Option (GenOut α)) : Option (GenOut α) :=
  match allValid cs p with
  | .error e => some ([], some e)
  | .ok true => rest.map (fun o => (p :: o.1, o.2))
  | .ok false => rest

/-- The `while` loop of `constrainded_permutations` (multipermute.py:125-138). -/
def loopC (cs : List (Constr α)) (val : Nat → α) (n : Nat) : Nat → St → Option (GenOut α)
  | 0, _ => none
  | fuel + 1, s =>
    match step val s with
    | Step.stop => some ([], none)
    | Step.crash => none
    | Step.next s' => emit cs (visit val s'.next (n + 1) (some s'.h)) (loopC cs val n fuel s')

/-- `constrainded_permutations` (multipermute.py:120-138). -/
def constrainedPermutations (fuel : Nat) (ms : List α) (cs : List (Constr α)) : Except PyErr (Option (GenOut α)) :=
  match sorted ms with
  | [] => .error .indexError
  | d :: srt =>
    let n := (d :: srt).length
    let s := initSt n
    let val := valOf d (d :: srt)
    .ok (emit cs (visit val s.next (n + 1) (some s.h)) (loopC cs val n fuel s))

/-- Python's `l[p]` with a possibly negative index. -/
def pyIdx {β : Type} (l : List β) (p : Int) : Except PyErr β :=
  let q : Int := if p < 0 then p + l.length else p
  if q < 0 then .error .indexError
  else match l[q.toNat]? with
    | some x => .ok x
    | none => .error .indexError

/-- `StaticPositionsConstraint.is_valid` (multipermute.py:76-77); `dim p` is `p[0]` of a loop `p`. -/
def staticPositions {D : Type} [DecidableEq D] (dim : α → D) (d : Dict Int D) : Constr α := fun p =>
  match d with
  | [] => .ok true
  | (pos, item) :: d => match pyIdx p pos with
    | .error e => .error e
    | .ok x => if dim x = item then staticPositions dim d p else .ok false

/-- `StaticPositionsAndSizesConstraint.is_valid` (multipermute.py:92-96); `size p` is `p[1]`. -/
def staticPositionsAndSizes {D : Type} [DecidableEq D] (dim : α → D) (size : α → Nat) (d : Dict Int (D × Nat)) : Constr α := fun p =>
  match d with
  | [] => .ok true
  | (pos, item) :: d => match pyIdx p pos with
    | .error e => .error e
    | .ok x => if dim x = item.1 ∧ size x = item.2 then staticPositionsAndSizes dim size d p else .ok false

end Verif.Multiperm
