import Verif.TemporalLoops.Model
import Verif.Lpf.Model
import Verif.Multiperm.Model
import Verif.Alloc.Model
import Mathlib.Data.Prod.Lex

/-!
Model of `LomaEngine.run`, `/repo/zigzag/opt/loma/engine.py:87-131`, put together from the models of its parts.

Simplifications: the progress bar (lines 97, 117-121) is left out; the generator is the list of everything it yields together
with the exception that ends it; without user constraints (`has_constraints` false).
-/

namespace Verif.Engine

/-- The loop over the loop orders and the final check (engine.py:99-131).  `yielded` is the local variable of the same name. -/
def orderLoop {O T : Type} (alloc : O → Except PyErr T) : List O → Bool → List T × Option PyErr
  | [], yielded => ([], if yielded then none else some .noValidOrdering)
  | o :: os, yielded =>
    match alloc o with
    | .ok t => let r := orderLoop alloc os true; (t :: r.1, r.2)
    | .error .memoryHierarchyTooSmall => orderLoop alloc os yielded
    | .error .memoryTooSmall => orderLoop alloc os yielded
    | .error e => ([], some e)

variable {D : Type} [LinearOrder D]

/-- Orders are lists of `(LayerDim, int)` tuples, which Python compares lexicographically. -/
abbrev Order (D : Type) := List (D ×ₗ Nat)

/-- A loop of the enumerator as seen by the allocator. -/
def toAlloc (o : Order D) : List (D × ℚ) := o.map (fun l => ((ofLex l).1, ((ofLex l).2 : ℚ)))

/-- `LomaEngine.run` without constraints (engine.py:87-131): temporal loops, prime factors, enumeration, allocation.
`none` means that `fuel` was not enough for the enumeration. -/
def run {T : Type} (fact : Nat → List (Nat × Nat)) (layerDims : List D) (sizes : Dict D Int) (spatial : List (D × Rat))
    (limit : Option Nat) (alloc : Order D → Except PyErr T) (fuel : Nat) : Option (List T × Option PyErr) :=
  match TemporalLoops.lomaTemporalLoops sizes spatial with
  | .error e => some ([], some e)
  | .ok t =>
    match Lpf.getPrimeFactors fact layerDims (t.map (fun p => (p.1, p.2.toNat))) none limit with
    | .error e => some ([], some e)
    | .ok st =>
      match Multiperm.permutations fuel ((Lpf.lpfsOf st).map (fun l => (toLex l : D ×ₗ Nat))) with
      | .error e => some ([], some e)
      | .ok none => none
      | .ok (some L) => some (orderLoop alloc L false)

end Verif.Engine
