import Verif.Stages.Model

/-!
The pipeline that `get_hardware_performance_zigzag` builds (/repo/zigzag/api.py:70-159): workload iterator, the two reducing stages around
the spatial mapping generator, the temporal mapping engine and the cost model, the sum.

A generator is the list of what it yields together with the exception it ends with.  The parsers are left out (the workload is given as its
list of nodes, in topological order), the save and visualisation stages pass everything on (C97, C98) and are left out, the locality stages
choose the accelerator of every layer and are part of the parameters.
-/

namespace Verif.Pipeline

open Stages

/-- What a generator yields, and the exception it ends with. -/
abbrev Gen (A : Type) := List A × Option PyErr

/-- `for a in g: for b in f(a): yield b`. -/
def forEach {A B : Type} (f : A → Gen B) (g : Gen A) : Gen B := go g.1
where
  /-- the loop over what is yielded -/
  go : List A → Gen B
    | [] => ([], g.2)
    | a :: t =>
      match f a with
      | (ys, some e') => (ys, some e')
      | (ys, none) => (ys ++ (go t).1, (go t).2)

/-- A cost result: what the reducing stages look at, and everything else (layer, mappings, breakdowns). -/
structure Cme (P : Type) where
  res : Res
  tag : P
  deriving DecidableEq

variable {P I Ly SM TM : Type}

/-- Loop of the three reducing stages (reduce_stages.py:35-47, 76-87, 116-126). -/
def minLoop (better : Res → Res → Bool) (keep : Bool) :
    List (Cme P × I) → Option (Cme P) → List (Cme P × I) → Except PyErr (Option (Cme P) × List (Cme P × I))
  | [], best, others => .ok (best, others)
  | s :: t, best, others =>
    if s.1.res.single then
      let best' := match best with
        | none => s.1
        | some b => if better s.1.res b.res then s.1 else b
      minLoop better keep t (some best') (if keep then others ++ [s] else others)
    else .error .assertion

/-- `run` of the three reducing stages (reduce_stages.py:30-50, 71-90, 111-129). -/
def minStage (better : Res → Res → Bool) (keep : Bool) (g : Gen (Cme P × I)) : Gen (Cme P × List (Cme P × I)) :=
  match minLoop better keep g.1 none [] with
  | .error e => ([], some e)
  | .ok (best, others) =>
    match g.2, best with
    | some e, _ => ([], some e)
    | none, none => ([], some .assertion)
    | none, some b => ([(b, others)], none)

/-- Everything the pipeline calls: which nodes are skipped (workload_iterator.py:33-42), the generated spatial mappings of a layer
(spatial_mapping_generation.py:87-89), the temporal mappings of a layer and spatial mapping (temporal_mapping_generator_stage.py:51-82,
including the conversion of the spatial mapping), the evaluation (cost_model_evaluation.py:40-61). -/
structure Env (Ly SM TM P : Type) where
  skip : Ly → Bool
  spatial : Ly → Except PyErr (List SM)
  temporal : Ly → SM → Gen TM
  cost : Ly → SM → TM → Except PyErr (Cme P)

/-- `CostModelStage.run` (cost_model_evaluation.py:40-61). -/
def costStage (E : Env Ly SM TM P) (l : Ly) (sm : SM) (tm : TM) : Gen (Cme P × Unit) :=
  match E.cost l sm tm with
  | .error e => ([], some e)
  | .ok c => ([(c, ())], none)

/-- `TemporalMappingGeneratorStage.run` (temporal_mapping_generator_stage.py:40-49). -/
def temporalStage (E : Env Ly SM TM P) (l : Ly) (sm : SM) : Gen (Cme P × (TM × Unit)) :=
  forEach (fun tm => let r := costStage E l sm tm; (r.1.map (fun x => (x.1, (tm, x.2))), r.2)) (E.temporal l sm)

/-- `SpatialMappingGeneratorStage.run` (spatial_mapping_generation.py:84-121) around the inner reducing stage. -/
def spatialStage (better : Res → Res → Bool) (E : Env Ly SM TM P) (l : Ly) :
    Gen (Cme P × (SM × List (Cme P × (TM × Unit)))) :=
  match E.spatial l with
  | .error e => ([], some e)
  | .ok sms =>
    if sms.length > 0 then
      forEach (fun sm => let r := minStage better false (temporalStage E l sm); (r.1.map (fun x => (x.1, (sm, x.2))), r.2)) (sms, none)
    else ([], some .assertion)

/-- What the outer reducing stage reports with the best result. -/
abbrev Info (P SM TM : Type) := List (Cme P × (SM × List (Cme P × (TM × Unit))))

/-- `WorkloadStage.run` (workload_iterator.py:31-52) around the outer reducing stage. -/
def workloadStage (better : Res → Res → Bool) (keep : Bool) (E : Env Ly SM TM P) (layers : List Ly) : Gen (Cme P × (Ly × Info P SM TM)) :=
  forEach (fun l =>
    if E.skip l then ([], none)
    else let r := minStage better keep (spatialStage better E l); (r.1.map (fun x => (x.1, (l, x.2))), r.2)) (layers, none)

/-- `SumStage.run` (reduce_stages.py:137-146); of the sum, energy and latency are kept. -/
def sumLoop {J : Type} : List (Cme P × J) → Res → List (Cme P × J) → Except PyErr (Res × List (Cme P × J))
  | [], tot, all => .ok (tot, all)
  | s :: t, tot, all =>
    if s.1.res.single then sumLoop t ⟨tot.energy + s.1.res.energy, tot.latency + s.1.res.latency, false⟩ (all ++ [s])
    else .error .assertion

/-- The yield of `SumStage.run`. -/
def sumStage {J : Type} (g : Gen (Cme P × J)) : Gen (Res × List (Cme P × J)) :=
  match sumLoop g.1 ⟨0, 0, false⟩ [] with
  | .error e => ([], some e)
  | .ok r =>
    match g.2 with
    | some e => ([], some e)
    | none => ([r], none)

/-- `MainStage.run` (main.py:16-20): the exception is raised again. -/
def mainStage {A : Type} (g : Gen A) : Except PyErr (List A) :=
  match g.2 with
  | some e => .error e
  | none => .ok g.1

/-- The option `opt` (api.py:70-78). -/
inductive Opt | energy | latency | edp
  deriving DecidableEq

/-- `match opt` (api.py:70-78). -/
def Opt.parse (s : String) : Except PyErr Opt :=
  if s = "energy" then .ok .energy
  else if s = "latency" then .ok .latency
  else if s = "EDP" then .ok .edp
  else .error .notImplemented

/-- The stage of an option. -/
def Opt.better : Opt → Res → Res → Bool
  | .energy => energyBetter
  | .latency => latencyBetter
  | .edp => edpBetter

/-- What the API returns: total energy, total latency, with `in_memory_compute` also the clock and area of the first result. -/
structure Answer (P J : Type) where
  energy : ℚ
  latency : ℚ
  first : Option P
  cmes : List (Res × List (Cme P × J))

/-- `get_hardware_performance_zigzag` after parsing (api.py:70-78, 130-159); `cmes[0]`, with `imc` also `cmes[0][1][0][0]`. -/
def api (opt : String) (imc : Bool) (E : Env Ly SM TM P) (layers : List Ly) : Except PyErr (Answer P (Ly × Info P SM TM)) :=
  match Opt.parse opt with
  | .error e => .error e
  | .ok o =>
    match mainStage (sumStage (workloadStage o.better false E layers)) with
    | .error e => .error e
    | .ok cmes =>
      match cmes[0]? with
      | none => .error .indexError
      | some r =>
        if imc then
          match r.2[0]? with
          | none => .error .indexError
          | some c => .ok ⟨r.1.energy, r.1.latency, some c.1.tag, cmes⟩
        else .ok ⟨r.1.energy, r.1.latency, none, cmes⟩

end Verif.Pipeline
