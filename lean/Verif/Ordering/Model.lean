import Verif.Engine.Model
import Mathlib.Data.String.Basic

/-! User-defined temporal orderings: `LayerTemporalOrdering` in /repo/zigzag/workload/layer_attributes.py lines 191-256 and the stage that uses it,
/repo/zigzag/stages/mapping/temporal_mapping_generator_stage.py lines 51-82.  Layer dimensions are known by their (upper case) name; factors are natural
numbers.  The dimensions are of any type `D`; `star` is the dimension that is written `*` (`Constants.UNKNOWN_DIM_OPERATOR`, /repo/zigzag/datatypes.py line
107), or `none` if no dimension is. -/

namespace Verif.Ordering

variable {D : Type} [LinearOrder D] (star : Option D)

/-- An entry of `data` (line 199): dimension and factor, `none` for a factor written as `*`. -/
abbrev Entry (D : Type) := D × Option Nat

/-- The wildcard entry (line 241). -/
def isStar (e : Entry D) : Bool := decide (star = some e.1 ∧ e.2 = none)

/-- Lines 210-215 on the entries that have a factor. -/
def mulEntry (d : Dict D Nat) (e : Entry D) : Dict D Nat := d.set e.1 ((d.get? e.1).getD 1 * e.2.getD 1)

/-- Equality of dictionaries (line 221). -/
def sameDict (a b : Dict D Nat) : Bool := decide (a.length = b.length ∧ ∀ e ∈ a, b.get? e.1 = some e.2)

/-- `is_complete` (lines 208-221).  Removing an entry while iterating (lines 217-219) makes the next step of the iteration raise. -/
def isComplete (data : List (Entry D)) (sizes : Dict D Nat) : Except PyErr Bool :=
  if data.any fun e => e.2.isNone then .ok false
  else
    let all : Dict D Nat := data.foldl mulEntry []
    if all.any fun e => decide (e.2 = 1) then .error .runtimeError else .ok (sameDict all sizes)

/-- `remove_invalid_layer_dims` (lines 223-231) -/
def removeInvalid (dims : List D) (data : List (Entry D)) : List (Entry D) := data.filter fun e => decide (e.1 ∈ dims)

/-- Loop state of `get_constraints` (lines 237-255): the two tables and `outer_loop`. -/
structure CState (D : Type) where
  pos : Dict Int D
  sized : Dict Int (D × Nat)
  outer : Bool

/-- One entry (lines 240-252); `n` is the number of entries, `count` the index. -/
def cStep (n : Nat) (s : CState D) (count : Nat) (e : Entry D) : CState D :=
  let key : Int := if s.outer then (count : Int) - n else count
  if isStar star e then { s with outer := true }
  else
    match e.2 with
    | none => { s with pos := s.pos.set key e.1 }
    | some f => { s with sized := s.sized.set key (e.1, f) }

def cLoop (n : Nat) : CState D → Nat → List (Entry D) → CState D
  | s, _, [] => s
  | s, count, e :: es => cLoop n (cStep star n s count e) (count + 1) es

/-- `get_constraints` -/
def constraints (data : List (Entry D)) : CState D := cLoop star data.length ⟨[], [], false⟩ 0 data

/-- `all(constr.is_valid(...))` for the two constraints. -/
def accepts (c : CState D) (o : Engine.Order D) : Except PyErr Bool :=
  Multiperm.allValid [Multiperm.staticPositions (fun l => (ofLex l).1) c.pos,
    Multiperm.staticPositionsAndSizes (fun l => (ofLex l).1) (fun l => (ofLex l).2) c.sized] o

/-- The constraints as used by the enumeration. -/
def asConstr (c : CState D) : List (Multiperm.Constr (D ×ₗ Nat)) :=
  [Multiperm.staticPositions (fun l => (ofLex l).1) c.pos,
    Multiperm.staticPositionsAndSizes (fun l => (ofLex l).1) (fun l => (ofLex l).2) c.sized]

/-- `LomaEngine.run` with constraints set (engine.py lines 87-131 and 351-357). -/
def runC {T : Type} (fact : Nat → List (Nat × Nat)) (layerDims : List D) (sizes : Dict D Int) (spatial : List (D × Rat))
    (limit : Option Nat) (c : CState D) (alloc : Engine.Order D → Except PyErr T) (fuel : Nat) : Option (List T × Option PyErr) :=
  match TemporalLoops.lomaTemporalLoops sizes spatial with
  | .error e => some ([], some e)
  | .ok t =>
    match Lpf.getPrimeFactors fact layerDims (t.map (fun p => (p.1, p.2.toNat))) (some (c.sized.map Prod.snd)) limit with
    | .error e => some ([], some e)
    | .ok st =>
      match Multiperm.constrainedPermutations fuel ((Lpf.lpfsOf st).map (fun l => (toLex l : D ×ₗ Nat))) (asConstr c) with
      | .error e => some ([], some e)
      | .ok none => none
      | .ok (some (l, none)) => some (Engine.orderLoop alloc l false)
      | .ok (some (l, some e)) =>
        -- the generator raises after the orders in `l`
        let r := Engine.orderLoop alloc l true
        some (r.1, some (r.2.getD e))

/-- The order given by the user, as the allocator gets it (temporal_mapping_generator_stage.py lines 64-71). -/
def userOrder (data : List (Entry D)) : Engine.Order D := data.map fun e => toLex (e.1, e.2.getD 1)

/-- `generate_temporal_mappings` (temporal_mapping_generator_stage.py lines 51-82): everything yielded and the exception that ends it. -/
def generate {T : Type} (fact : Nat → List (Nat × Nat)) (layerDims : List D) (sizes : Dict D Int) (spatial : List (D × Rat))
    (limit : Option Nat) (data : List (Entry D)) (alloc : Engine.Order D → Except PyErr T) (fuel : Nat) : Option (List T × Option PyErr) :=
  match TemporalLoops.lomaTemporalLoops sizes spatial with
  | .error e => some ([], some e)
  | .ok t =>
    match isComplete data (t.map (fun p => (p.1, p.2.toNat))) with
    | .error e => some ([], some e)
    | .ok true =>
      match alloc (userOrder data) with
      | .error e => some ([], some e)
      | .ok m => some ([m], none)
    | .ok false =>
      let c := constraints star data
      if c.pos = [] ∧ c.sized = [] then Engine.run fact layerDims sizes spatial limit alloc fuel
      else runC fact layerDims sizes spatial limit c alloc fuel

end Verif.Ordering
