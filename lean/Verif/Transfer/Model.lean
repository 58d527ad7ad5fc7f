import Verif.MapInfo.Model
import Verif.Window.Model

/-! How long a transfer takes and how long it may take: `calculate_real_data_transfer_cycles`, `calculate_allowed_transfer_cycles` and the port
activities of `combine_data_transfer_rate_per_physical_port` (/repo/zigzag/cost_model/cost_model.py lines 665-760), on top of the data movement
patterns of `MapInfo`.  Python floats are exact rationals. -/

namespace Verif.Transfer

open Cme (Dir FourWay)
open MapInfo (Pattern)
open Decouple (pyGet)

/-- `calculate_real_data_transfer_cycles` (lines 688-706) for one direction; `bw` is `get_max_bandwidth`. -/
def realCycles (bw : Dir → Option Nat) (p : Pattern) (d : Dir) : ℤ :=
  match bw d with
  | none => 0
  | some w => if w = 0 then 0 else ⌈p.amount.get d * p.precision.get d / w⌉

/-- The attribute used in `calculate_allowed_transfer_cycles` (lines 708-725).  `flags` is `double_buffer_true[layer_op]`, whose first entry is
the array. -/
def allowedTime (flags : List Bool) (lv : Nat) (p : Pattern) (d : Dir) : Except PyErr ℚ := do
  let cur ← pyGet flags lv
  let nxt ← pyGet flags (lv + 1)
  let buffered := if d = .rdToHigh ∨ d = .wrByHigh then nxt else cur
  return (if buffered then p.period else p.window).get d

/-- Line 724: the attribute scaled by the cycles of an operation. -/
def allowedCycles (flags : List Bool) (lv : Nat) (cyclesPerOp : ℚ) (p : Pattern) (d : Dir) : Except PyErr ℤ := do
  let a ← allowedTime flags lv p d
  return ⌈a * cyclesPerOp⌉

/-- What `PortActivity` gets in lines 740-757, before scaling (`Window.activities` scales).  Cycle counts are natural numbers. -/
def duty {K : Type} (key : K) (bw : Dir → Option Nat) (flags : List Bool) (lv : Nat) (p : Pattern) (d : Dir) : Except PyErr (Window.Duty K) := do
  let a ← allowedTime flags lv p d
  return { key := key, real := (realCycles bw p d).toNat, allowed := ⌊a⌋.toNat, period := ⌊p.period.get d⌋.toNat
           count := ⌊p.periodCount.get d⌋.toNat }

end Verif.Transfer
