import Verif.Net.Model
import Verif.Salsa.Model

/-! Whole calls with `temporal_mapping_search_engine="salsa"` (/repo/zigzag/api.py lines 26-159): the stages around the annealing engine, put together from the models of
the engine (`Salsa`), the allocator and the evaluation (`Search`, `Evaluate`), the conversion (`Whole`) and the stages (`Net`, `Pipeline`).

The call sets none of the options of the engine (api.py lines 127-144): there is one worker, and it minimises energy.  The random numbers and `np.exp` are parameters.
A worker that raises an exception puts nothing in its queue and the main process waits for ever (C65); here such a call has the exception of the worker as its
result. -/

namespace Verif.Anneal

open Evaluate (Hw Mem Job Result evaluate)
open Latency (Operand)
open Net (Node Options Reply spatialMappings)
open Ports (MemD)
open SpatialMapping (SM)
open Whole (AccD Acc)

section
variable {D : Type} [DecidableEq D]

/-- What a state of the engine is evaluated with (/repo/zigzag/opt/salsa/state.py lines 63-69): the spatial mapping also stands for the one with whole numbers, and
the other arguments are those that `CostModelEvaluation` has by default (/repo/zigzag/cost_model/cost_model.py lines 315-325). -/
def guess (t : Search.Task D) : Search.Task D := { t with suInt := t.su, noAccess := true, cyclesPerOp := 1 }

/-- `SalsaState.__init__` (state.py lines 43-77): allocation and evaluation of an order of loops. -/
def assess (h : Hw) (topo : List Mem) (t : Search.Task D) (o : List (D × Nat)) : Except PyErr (Job D × Result) := do
  let j ← Search.mapOrder h topo (guess t) (o.map fun l => (l.1, (l.2 : ℚ)))
  let r ← evaluate h j
  return (j, r)

/-- What `CostModelStage` gets (/repo/zigzag/stages/mapping/salsa.py lines 125-131): the temporal mapping of the best state with the two spatial mappings and the
options of the call. -/
def keep (t : Search.Task D) (j : Job D) : Job D := { j with suInt := t.suInt, noAccess := t.noAccess, cyclesPerOp := t.cyclesPerOp }

/-- The random numbers of one run of the engine: `random.shuffle` and what is drawn in the iterations (/repo/zigzag/opt/salsa/engine.py lines 106, 137-144); the call
has a thousand iterations (line 87). -/
structure Luck (D : Type) where
  shuffle : List (D × Nat) → List (D × Nat)
  draws : List Salsa.Draw

/-- `SalsaStage.run` with one worker (salsa.py lines 83-135): the mappings that are passed on, one if the worker ends. -/
def search (fact : Nat → List (Nat × Nat)) (ex : ℚ → ℚ) (h : Hw) (topo : List Mem) (t : Search.Task D) (sizes : Dict D Int) (spatial : List (D × ℚ)) (k : Luck D) :
    List (Job D) × Option PyErr :=
  match Salsa.run fact (assess h topo t) (fun x => x.2.energy.total) ex (5 / 100) k.shuffle sizes spatial k.draws with
  | .error e => ([], some e)
  | .ok r => ([keep t r.best.cme.1], none)

end

variable {OA : Type} [DecidableEq OA] {D : Type} [LinearOrder D]

/-- The stages of the call, as in `Net.env` with the other engine (api.py lines 92 and 122); `luck` are the random numbers for the spatial mappings of the layers. -/
def env (fact : Nat → List (Nat × Nat)) (ex : ℚ → ℚ) (a : AccD OA) (c : Acc OA) (o : Options OA D) (luck : Node OA D → SM OA D → Luck D) :
    Pipeline.Env (Node OA D) (SM OA D) (Job D) (Job D × Result) where
  skip n := n.skip
  spatial n := spatialMappings o a n
  temporal n sm :=
    match Whole.task a c n.layer sm with
    | .error e => ([], some e)
    | .ok t => search fact ex c.hw c.topo t (n.layer.sizes.map fun e => (e.1, (e.2 : Int))) (Whole.spatialLoops t) (luck n sm)
  cost _ _ j :=
    match evaluate c.hw j with
    | .error e => .error e
    | .ok r => .ok ⟨⟨r.energy.total, r.overall.latency2, true⟩, (j, r)⟩

/-- `get_hardware_performance_zigzag` with this engine (api.py lines 26-159). -/
def network (cacti : MemD Operand OA → ℚ × ℚ) (fact : Nat → List (Nat × Nat)) (ex : ℚ → ℚ) (a : AccD OA) (o : Options OA D) (opt : String) (nodes : List (Node OA D))
    (luck : Node OA D → SM OA D → Luck D) : Except PyErr (Reply OA D) :=
  match Whole.accelerator cacti a with
  | .error e => .error e
  | .ok c => Pipeline.api opt false (env fact ex a c o luck) nodes

end Verif.Anneal
