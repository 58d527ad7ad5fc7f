import Verif.Base.Dict
import Mathlib.Data.Nat.Count

/-! Sharing of a memory port: `CostModelEvaluation.__calc_mem_updating_window_union` and
`combine_data_transfer_rate_per_physical_port` (/repo/zigzag/cost_model/cost_model.py lines 392-435 and 727-803) and `PortActivity`
(/repo/zigzag/cost_model/port_activity.py lines 6-55).  Cycle counts are natural numbers, stalls are integers. -/

namespace Verif.Window

variable {K : Type} [DecidableEq K]

/-- `PortActivity` (port_activity.py lines 6-55).  `key` is `served_op_lv_dir`. -/
structure Duty (K : Type) where
  key : K
  real : Nat
  allowed : Nat
  period : Nat
  count : Nat
  deriving DecidableEq, Repr

/-- `stall_or_slack` (port_activity.py line 44) -/
def Duty.stall (d : Duty K) : Int := ((d.real : Int) - d.allowed) * ((d.count : Int) - 1)

/-- `mem_updating_window` (port_activity.py line 46) -/
def Duty.window (d : Duty K) : Int := (d.allowed : Int) * ((d.count : Int) - 1)

/-- Lines 405-416: the early answer of the first duty that may use its whole period, or the table of the duties. -/
def collect : List (Duty K) → Dict K (Duty K) → Nat ⊕ Dict K (Duty K)
  | [], t => .inr t
  | d :: ds, t => if d.period = d.allowed then .inl (d.period * d.count) else collect ds (t.set d.key d)

/-- Lines 420-423: one step of the search for the largest period. -/
def maxStep (best : Nat × Option (Duty K)) (d : Duty K) : Nat × Option (Duty K) :=
  if d.period > best.1 then (d.period, some d) else best

/-- Lines 418-423: the largest period and the first entry that has it. -/
def maxPeriod (ds : List (Duty K)) : Nat × Option (Duty K) := ds.foldl maxStep (0, none)

/-- Lines 426-430: cycle `t` is used by duty `d` (numpy clips a slice that is longer than the period). -/
def Duty.uses (d : Duty K) (t : Nat) : Bool := decide (t % d.period < d.allowed)

/-- `__calc_mem_updating_window_union` (lines 392-435).  The reshape in line 428 raises `ValueError` unless the period divides the largest period. -/
def windowUnion (ds : List (Duty K)) : Except PyErr Nat :=
  match collect ds [] with
  | .inl n => .ok n
  | .inr table =>
    let entries := table.map Prod.snd
    let best := maxPeriod entries
    if entries.all fun d => d.period != 0 && best.1 % d.period == 0 then
      match best.2 with
      | none => .error .keyError
      | some b => .ok (Nat.count (fun t => entries.any fun d => d.uses t) best.1 * b.count)
    else .error .valueError

/-- Lines 783-788: sum of the positive stalls, sum of the others, and sum of the windows. -/
def sums (ds : List (Duty K)) : Int × Int × Int :=
  ds.foldl (fun a d => (if d.stall > 0 then a.1 + d.stall else a.1, if d.stall > 0 then a.2.1 else a.2.1 + d.stall, a.2.2 + d.window)) (0, 0, 0)

/-- Lines 771-797: the stall of one port; `none` for a port without activity. -/
def portStall (ds : List (Duty K)) : Except PyErr (Option Int) :=
  match ds with
  | [] => .ok none
  | [d] => .ok (some d.stall)
  | _ =>
    match windowUnion ds with
    | .error e => .error e
    | .ok u =>
      let s := sums ds
      .ok (some (s.1 + max 0 (s.2.1 + s.2.2 - u)))

/-- Lines 765-803: `stall_slack_comb`, the largest stall of all ports, at least zero (line 765). -/
def stallComb : List (List (Duty K)) → Except PyErr Int
  | [] => .ok 0
  | p :: ps =>
    match portStall p with
    | .error e => .error e
    | .ok s =>
      match stallComb ps with
      | .error e => .error e
      | .ok r => .ok (max (s.getD 0) r)

/-- Lines 733-760: the activities of a port: movements that never happen are left out, and the cycles are scaled by `cycles_per_op`
(lines 724 and 748). -/
def activities (scale : Nat → Nat) (raw : List (Duty K)) : List (Duty K) :=
  (raw.filter fun d => d.count != 0).map fun d => { d with period := scale d.period, allowed := scale d.allowed }

end Verif.Window
