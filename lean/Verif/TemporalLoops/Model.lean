import Verif.Base.Dict
import Mathlib.Data.Rat.Floor
import Mathlib.Algebra.Order.Floor.Ring

/-!
Model of `get_temporal_loops` of the two temporal mapping engines.

* `/repo/zigzag/opt/loma/engine.py:133-157`
* `/repo/zigzag/opt/salsa/engine.py:157-184`

Simplification: python floats are exact rationals, `int(np.ceil(x))` is `⌈x⌉`.
-/

namespace Verif.TemporalLoops

variable {D : Type} [DecidableEq D]

/-- Body of the `for` loop of `/repo/zigzag/opt/loma/engine.py:138-153`.
`layer_dim_sizes[dim]` raising `KeyError` is caught and the entry is skipped; division by zero is not caught. -/
def lomaStep (d : Dict D Int) (l : D × Rat) : Except PyErr (Dict D Int) :=
  match d.get? l.1 with
  | none => .ok d
  | some s =>
    if l.2 = 0 then .error .zeroDivision
    else
      let q : Int := ⌈(s : Rat) / l.2⌉
      if q = 1 then .ok (d.del l.1) else .ok (d.set l.1 q)

/-- The whole loop, `/repo/zigzag/opt/loma/engine.py:137-153`. -/
def lomaLoop (d : Dict D Int) : List (D × Rat) → Except PyErr (Dict D Int)
  | [] => .ok d
  | l :: ls => match lomaStep d l with
    | .error e => .error e
    | .ok d' => lomaLoop d' ls

/-- `/repo/zigzag/opt/loma/engine.py:156`: drop the entries that are not larger than one. -/
def drop1 (d : Dict D Int) : Dict D Int := List.filter (fun p => decide (1 < p.2)) d

/-- `LomaEngine.get_temporal_loops`, `/repo/zigzag/opt/loma/engine.py:133-157`. -/
def lomaTemporalLoops (sizes : Dict D Int) (spatial : List (D × Rat)) : Except PyErr (Dict D Int) :=
  match lomaLoop sizes spatial with
  | .error e => .error e
  | .ok d => .ok (drop1 d)

/-- Body of the `for` loop of `/repo/zigzag/opt/salsa/engine.py:166-178`: same as loma but without `try/except`. -/
def salsaStep (d : Dict D Int) (l : D × Rat) : Except PyErr (Dict D Int) :=
  match d.get? l.1 with
  | none => .error .keyError
  | some s =>
    if l.2 = 0 then .error .zeroDivision
    else
      let q : Int := ⌈(s : Rat) / l.2⌉
      if q = 1 then .ok (d.del l.1) else .ok (d.set l.1 q)

/-- The whole loop, `/repo/zigzag/opt/salsa/engine.py:164-178`. -/
def salsaLoop (d : Dict D Int) : List (D × Rat) → Except PyErr (Dict D Int)
  | [] => .ok d
  | l :: ls => match salsaStep d l with
    | .error e => .error e
    | .ok d' => salsaLoop d' ls

/-- `SalsaEngine.get_temporal_loops`, `/repo/zigzag/opt/salsa/engine.py:157-184`. -/
def salsaTemporalLoops (sizes : Dict D Int) (spatial : List (D × Rat)) : Except PyErr (Dict D Int) :=
  match salsaLoop sizes spatial with
  | .error e => .error e
  | .ok d => .ok (drop1 d)

end Verif.TemporalLoops
