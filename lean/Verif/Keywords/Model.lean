import Verif.Base.Dict

/-!
How keyword arguments travel through a pipeline of stages (/repo/zigzag/stages): every stage is constructed from the stages below it and a
dictionary of keywords, binds some of them to its own parameters and hands the others on, together with new ones.

One path through the pipeline is followed: a stage that constructs its substage several times does so with other values of the same
keywords.  Checks on the values (file names, types) are left out.
-/

namespace Verif.Keywords

/-- The keywords that occur in the parameter lists of the stages, and any others. -/
inductive Key
  | accelerator | workload | mapping | onnxModel | dumpFolder | pickleFilename | plotFilenamePattern | layer
  | memUpdateList | memUpdateWeight | keepOthers | mixSpatial | weightDiagonal | nbMappings | spatialMapping | spatialMappingInt
  | temporalMappingType | temporalMapping | mappingType | accessSame | mpCallback | mpThreads
  /-- `loma_lpf_limit`, `loma_show_progress_bar`, `salsa_opt_criterion`: only looked up by the engines in their `**kwargs`
  (loma/engine.py:54, 81, salsa/engine.py:87-90, salsa.py:73-74) -/
  | lpfLimit | progressBar | salsaCriterion
  /-- the names the command line uses (__main__.py:40-42) -/
  | acceleratorPath | onnxModelPath | mappingPath
  /-- all other names -/
  | other (name : Nat)
  deriving DecidableEq

/-- Where a stage takes a value from that it hands on: its own parameter of that name, or a new value. -/
inductive Src
  | own | new
  deriving DecidableEq

/-- What the constructor and `run` of a stage do with keywords. -/
structure Sig where
  /-- keyword-only parameters without default -/
  required : List Key
  /-- keyword-only parameters with default -/
  optional : List Key := []
  /-- names passed beside `**self.kwargs` to helper objects; python refuses a repeated keyword -/
  helper : List Key := []
  /-- keywords passed beside `**self.kwargs` to the substage; python refuses a repeated keyword -/
  gives : List (Key × Src) := []
  /-- `kwargs[name] = value` before the call `**kwargs` -/
  sets : List (Key × Src) := []
  /-- `is_leaf()` -/
  leaf : Bool := false

variable {V : Type}

/-- A stage in a pipeline, with the values it makes on the path that is followed. -/
structure St (V : Type) where
  sig : Sig
  made : Key → V

/-- The keywords a stage binds, and those left in `**kwargs`. -/
structure Got (V : Type) where
  own : Dict Key V
  rest : Dict Key V

/-- Binding of keywords to the parameters of a constructor (python), then `Stage.__init__` (stage.py:12-33). -/
def construct (s : Sig) (below : List (St V)) (kw : Dict Key V) : Except PyErr (Got V) :=
  if s.required.any (fun k => decide (kw.get? k = none)) then .error .typeError
  else if s.leaf && !below.isEmpty then .error .valueError
  else if below.isEmpty && !s.leaf then .error .valueError
  else .ok ⟨kw.filter (fun p => decide (p.1 ∈ s.required ++ s.optional)), kw.filter (fun p => !decide (p.1 ∈ s.required ++ s.optional))⟩

/-- The value handed on under a name. -/
def value (made : Key → V) (own : Dict Key V) (k : Key) : Src → V
  | .new => made k
  | .own => (own.get? k).getD (made k)

/-- The keywords of the call of the substage. -/
def handOn (s : St V) (g : Got V) : Except PyErr (Dict Key V) :=
  if s.sig.helper.any (fun k => !decide (g.rest.get? k = none)) then .error .typeError
  else
    let kw := s.sig.sets.foldl (fun d p => d.set p.1 (value s.made g.own p.1 p.2)) g.rest
    if s.sig.gives.any (fun p => !decide (kw.get? p.1 = none)) then .error .typeError
    else .ok (s.sig.gives.map (fun p => (p.1, value s.made g.own p.1 p.2)) ++ kw)

/-- `MainStage.run` (main.py:16-20) and the calls of the substages: what every stage got. -/
def run : List (St V) → Dict Key V → Except PyErr (List (Got V))
  | [], _ => .error .indexError
  | s :: t, kw =>
    match construct s.sig t kw with
    | .error e => .error e
    | .ok g =>
      if s.sig.leaf then .ok [g]
      else
        match handOn s g with
        | .error e => .error e
        | .ok kw' =>
          match run t kw' with
          | .error e => .error e
          | .ok r => .ok (g :: r)

/-! ### The stages -/

/-- `ONNXModelParserStage` (onnx_model_parser.py:13-35). -/
def onnxParser : Sig := { required := [.workload, .mapping], gives := [(.onnxModel, .new), (.workload, .new)] }

/-- `WorkloadParserStage` (workload_parser.py:17-36). -/
def workloadParser : Sig := { required := [.workload, .mapping], gives := [(.workload, .new)] }

/-- `AcceleratorParserStage` (accelerator_parser.py:16-25). -/
def acceleratorParser : Sig := { required := [.accelerator], gives := [(.accelerator, .new)] }

/-- `SimpleSaveStage`, `CompleteSaveStage` (save.py:69-82, 23-35), `VisualizationStage` (visualization.py:18-31). -/
def saveStage : Sig := { required := [.dumpFolder], sets := [(.dumpFolder, .own)] }

/-- `PickleSaveStage` (save.py:117-140). -/
def pickleSave : Sig := { required := [.pickleFilename] }

/-- `PlotTemporalMappingsStage` (plot_temporal_mapping.py:14-40). -/
def plotMappings : Sig := { required := [.plotFilenamePattern] }

/-- `SumStage` (reduce_stages.py:132-146). -/
def sumStage : Sig := { required := [] }

/-- `RemoveExtraInfoStage`, `CacheBeforeYieldStage` (run_opt_stages.py:12-51). -/
def plainStage : Sig := { required := [] }

/-- `SkipIfDumpExistsStage` (run_opt_stages.py:54-73). -/
def skipStage : Sig := { required := [.dumpFolder], gives := [(.dumpFolder, .own)] }

/-- `MultiProcessingGatherStage` (run_opt_stages.py:150-181). -/
def gatherStage : Sig := { required := [], sets := [(.mpCallback, .new)] }

/-- `MultiProcessingSpawnStage` (run_opt_stages.py:121-147). -/
def spawnStage : Sig := { required := [.mpCallback], optional := [.mpThreads] }

/-- `SearchInterLayerDataLocalityStage` (exploit_data_locality_stages.py:27-35, 112-130). -/
def searchLocality : Sig :=
  { required := [.accelerator, .workload]
    gives := [(.accelerator, .own), (.workload, .own), (.memUpdateList, .new), (.memUpdateWeight, .new)] }

/-- `WorkloadStage` (workload_iterator.py:16-52). -/
def workloadStage : Sig := { required := [.workload, .accelerator], sets := [(.layer, .new), (.accelerator, .own)] }

/-- `ExploitInterLayerDataLocalityStage` (exploit_data_locality_stages.py:272-297). -/
def exploitLocality : Sig :=
  { required := [.accelerator, .layer, .memUpdateList, .memUpdateWeight], gives := [(.accelerator, .new), (.layer, .own)] }

/-- `MinimalEnergyStage`, `MinimalLatencyStage`, `MinimalEDPStage` (reduce_stages.py:15-33, 58-74, 98-114). -/
def minStage : Sig := { required := [], optional := [.keepOthers] }

/-- `SpatialMappingGeneratorStage` up to the construction of its own conversion stage (spatial_mapping_generation.py:46-121). -/
def spatialGenerator : Sig :=
  { required := [.accelerator, .layer], optional := [.mixSpatial, .weightDiagonal, .nbMappings]
    gives := [(.accelerator, .new), (.layer, .new)] }

/-- `SpatialMappingConversionStage` (spatial_mapping_conversion.py:30-63). -/
def spatialConversion : Sig :=
  { required := [.accelerator, .layer]
    sets := [(.spatialMapping, .new), (.spatialMappingInt, .new), (.accelerator, .own), (.layer, .own)] }

/-- `TemporalMappingGeneratorStage` with `LomaEngine(accelerator=…, layer=…, spatial_mapping=…, mapping_type=…, **self.kwargs)`
(temporal_mapping_generator_stage.py:21-58), `SalsaStage` with `SalsaEngine` (salsa.py:49-135). -/
def temporalEngine : Sig :=
  { required := [.accelerator, .layer, .spatialMapping, .temporalMappingType]
    helper := [.accelerator, .layer, .spatialMapping, .mappingType]
    sets := [(.accelerator, .own), (.layer, .own), (.spatialMapping, .own), (.temporalMapping, .new)] }

/-- `CostModelStage` (cost_model_evaluation.py:19-64). -/
def costModel : Sig :=
  { required := [.accelerator, .layer, .spatialMapping, .spatialMappingInt, .temporalMapping], optional := [.accessSame], leaf := true }

/-! ### The pipelines -/

/-- The choices of `get_hardware_performance_zigzag` (api.py:29-43). -/
structure Options where
  onnx : Bool
  inMemory : Bool
  locality : Bool
  mix : Bool

/-- api.py:88. -/
def Options.exploit (o : Options) : Bool := o.inMemory || o.locality || o.mix

/-- `stages` (api.py:95-128); the generator of spatial mappings constructs its conversion stage itself.  Positions: `made i`. -/
def apiStages (o : Options) (made : Nat → Key → V) : List (St V) :=
  [⟨if o.onnx then onnxParser else workloadParser, made 0⟩, ⟨acceleratorParser, made 1⟩, ⟨saveStage, made 2⟩, ⟨pickleSave, made 3⟩,
    ⟨sumStage, made 4⟩] ++
  (if o.exploit then [⟨searchLocality, made 5⟩] else []) ++
  [⟨workloadStage, made 6⟩, ⟨saveStage, made 7⟩] ++
  (if o.exploit then [⟨exploitLocality, made 8⟩] else []) ++
  [⟨saveStage, made 9⟩, ⟨minStage, made 10⟩, ⟨spatialGenerator, made 11⟩, ⟨spatialConversion, made 12⟩, ⟨minStage, made 13⟩,
    ⟨temporalEngine, made 14⟩, ⟨costModel, made 15⟩]

/-- The values given to `get_hardware_performance_zigzag`. -/
structure Args (V : Type) where
  accelerator : V
  workload : V
  mapping : V
  dumpFolder : V
  pickleFilename : V
  lpfLimit : V
  progressBar : V
  nbMappings : V
  mixSpatial : V
  accessSame : V
  temporalMappingType : V

/-- The keywords of `MainStage(…)` (api.py:131-147). -/
def apiKw (a : Args V) : Dict Key V :=
  [(.accelerator, a.accelerator), (.workload, a.workload), (.mapping, a.mapping), (.dumpFolder, a.dumpFolder),
    (.pickleFilename, a.pickleFilename), (.lpfLimit, a.lpfLimit), (.progressBar, a.progressBar), (.nbMappings, a.nbMappings),
    (.mixSpatial, a.mixSpatial), (.accessSame, a.accessSame), (.temporalMappingType, a.temporalMappingType)]

/-- The pipeline of the command line (__main__.py:29-38). -/
def cliStages (made : Nat → Key → V) : List (St V) :=
  [⟨onnxParser, made 0⟩, ⟨acceleratorParser, made 1⟩, ⟨saveStage, made 2⟩, ⟨workloadStage, made 3⟩, ⟨spatialConversion, made 4⟩,
    ⟨minStage, made 5⟩, ⟨temporalEngine, made 6⟩, ⟨costModel, made 7⟩]

/-- The keywords of the command line (__main__.py:39-44). -/
def cliKw (accelerator model mapping folder limit bar : V) : Dict Key V :=
  [(.acceleratorPath, accelerator), (.onnxModelPath, model), (.mappingPath, mapping), (.dumpFolder, folder),
    (.lpfLimit, limit), (.progressBar, bar)]

/-- The criterion the annealing stage uses: `kwargs.get("salsa_opt_criterion", "energy")` (salsa.py:73, salsa/engine.py:89). -/
def salsaUses (rest : Dict Key String) : String := (rest.get? .salsaCriterion).getD "energy"

/-- `dump_folder: str = f"outputs/{datetime.now()}"` (api.py:36): a python default value is computed when the function is defined. -/
def folderOf (importTime : Nat) (given : Option String) (_callTime : Nat) : String :=
  given.getD s!"outputs/{importTime}"

end Verif.Keywords
