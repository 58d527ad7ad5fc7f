import Verif.Base.Dict
import Mathlib.Data.Rat.Defs
import Mathlib.Algebra.Order.Ring.Rat

/-! The reducing stages (/repo/zigzag/stages/results/reduce_stages.py) and the multiprocessing gather stage
(/repo/zigzag/stages/run_opt_stages.py).  A stage is a function from the list of results its sub-stage yields to the list it yields. -/

namespace Verif.Stages

/-- The part of a cost result the reducing stages look at.  `single` is `isinstance(cme, CostModelEvaluation)`. -/
structure Res where
  energy : ℚ
  latency : ℚ
  single : Bool
  deriving DecidableEq, Repr

/-- Comparison of `MinimalEnergyStage` (lines 41-45). -/
def energyBetter (c b : Res) : Bool := decide (c.energy < b.energy) || (decide (c.energy = b.energy) && decide (c.latency < b.latency))

/-- Comparison of `MinimalLatencyStage` (lines 80-84). -/
def latencyBetter (c b : Res) : Bool := decide (c.latency < b.latency) || (decide (c.latency = b.latency) && decide (c.energy < b.energy))

/-- Comparison of `MinimalEDPStage` (lines 119-122). -/
def edpBetter (c b : Res) : Bool := decide (c.latency * c.energy < b.latency * b.energy)

/-- The loop of the three stages (lines 36-47, 76-87, 116-126). -/
def minLoop {Info : Type} (better : Res → Res → Bool) (keep : Bool) :
    List (Res × Info) → Option Res → List (Res × Info) → Except PyErr (Option Res × List (Res × Info))
  | [], best, others => .ok (best, others)
  | s :: t, best, others =>
    if s.1.single then
      let best' := match best with
        | none => s.1
        | some b => if better s.1 b then s.1 else b
      minLoop better keep t (some best') (if keep then others ++ [s] else others)
    else .error .assertion

/-- `run` of the three stages: exactly one yielded pair. -/
def minRun {Info : Type} (better : Res → Res → Bool) (keep : Bool) (subs : List (Res × Info)) : Except PyErr (List (Res × List (Res × Info))) :=
  match minLoop better keep subs none [] with
  | .error e => .error e
  | .ok (none, _) => .error .assertion
  | .ok (some b, others) => .ok [(b, others)]

/-! ### Gathering results of worker processes -/

/-- Main process: waiting for answers, finished, or stopped by `ZeroDivisionError`. -/
inductive Status where
  | running | finished | crashed
  deriving DecidableEq, Repr

/-- State of `MultiProcessingGatherStage.run` after all jobs were handed to the pool (lines 164-181).  A job is the list of results its
sub-stage yields, `none` if it raises. -/
structure GState (R : Type) where
  /-- jobs handed to a worker that have not answered -/
  jobs : List (Option (List R))
  /-- answers put in the queue by `_callback` (line 161) -/
  queue : List (List R)
  count : Nat
  /-- answers yielded so far, one list per answer -/
  yielded : List (List R)
  status : Status

/-- One step of the workers or of the main loop, in any interleaving.  `n` is `count_to_get`. -/
inductive Step {R : Type} (n : Nat) : GState R → GState R → Prop
  /-- a worker finishes; its answer is put in the queue -/
  | answer (s : GState R) (a : List R) (pre post : List (Option (List R))) (h : s.jobs = pre ++ some a :: post) :
      Step n s { s with jobs := pre ++ post, queue := s.queue ++ [a] }
  /-- a worker raises: `raise_exception` (lines 99-101) terminates the pool, only jobs of a later pool go on -/
  | fail (s : GState R) (pre post keep : List (Option (List R))) (h : s.jobs = pre ++ none :: post) (hk : keep.Sublist (pre ++ post)) :
      Step n s { s with jobs := keep }
  /-- lines 175-179: take an answer, yield its results, count, then `count % (count_to_get // 10)` -/
  | get (s : GState R) (a : List R) (q : List (List R)) (hs : s.status = .running) (hc : s.count < n) (hq : s.queue = a :: q) :
      Step n s { s with queue := q, yielded := s.yielded ++ [a], count := s.count + 1, status := if n / 10 = 0 then .crashed else .running }
  /-- lines 174, 181: all answers received -/
  | finish (s : GState R) (hs : s.status = .running) (hc : ¬ s.count < n) : Step n s { s with status := .finished }

/-- The state after spawning (`count_to_get` is the number of jobs spawned, lines 169-173). -/
def start {R : Type} (jobs : List (Option (List R))) : GState R := { jobs, queue := [], count := 0, yielded := [], status := .running }

/-- Reachable states. -/
inductive Reach {R : Type} (n : Nat) (s0 : GState R) : GState R → Prop
  | init : Reach n s0 s0
  | step {s s' : GState R} : Reach n s0 s → Step n s s' → Reach n s0 s'

end Verif.Stages
