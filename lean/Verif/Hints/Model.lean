import Verif.SpatialGen.Model

/-!
Model of the spatial mapping hints of a layer and of what evaluating a layer leaves behind in it:
`/repo/zigzag/parser/mapping_factory.py` (`create_spatial_mapping_hint`), `/repo/zigzag/mapping/spatial_mapping.py` (`SpatialMappingHint`,
`SpatialMapping.initialize_oa_dims`) and `/repo/zigzag/stages/mapping/spatial_mapping_generation.py` (`__init__` and `run`).

A python set of layer dimensions is the list of its members in the order in which it is traversed; the order of a new set is given by a
parameter `ord`.  The diagonal mapping option is off.  What the stages after the generator do is left out, except for where they stop.
-/

namespace Verif.Hints

open Verif.SpatialMapping Verif.SpatialGen

variable {OA Dim : Type} [DecidableEq OA] [DecidableEq Dim]

/-- `SpatialMappingHint.data` (spatial_mapping.py line 319). -/
abbrev Hint (OA Dim : Type) := Dict OA (List Dim)

/-- Lines 76-86 of mapping_factory.py: the hints of the user, `name` being the constructor of `LayerDim`.  `none`: no hints are given. -/
def create {Str : Type} (ord : List Dim → List Dim) (name : Str → Dim) : Option (Dict OA (List Str)) → Hint OA Dim
  | none => []
  | some d => d.map (fun e => (e.1, ord ((e.2.map name).dedup)))

/-- Lines 326-337 of spatial_mapping.py: array dimensions without a single hint that is a dimension of the layer. -/
def invalid (valid : List Dim) (h : Hint OA Dim) : List OA :=
  (h.filter (fun e => !(e.2.any (fun d => decide (d ∈ valid))))).map Prod.fst

/-- `clear_invalid_hits` (lines 322-340 of spatial_mapping.py). -/
def clearInvalid (valid : List Dim) (h : Hint OA Dim) : Hint OA Dim := (invalid valid h).foldl (fun h oa => h.del oa) h

/-- `complete_with_defaults` (lines 342-346 of spatial_mapping.py); `filter` is lazy, so each test sees the entries added before. -/
def complete (ord : List Dim → List Dim) (dims : List Dim) : List OA → Hint OA Dim → Hint OA Dim
  | [], h => h
  | oa :: t, h => complete ord dims t (if oa ∈ h.keys then h else h.set oa (ord dims.dedup))

/-- Lines 80-82 of spatial_mapping_generation.py: constructing the stage changes the hints stored in the layer. -/
def construct (ord : List Dim → List Dim) (dims : List Dim) (oas : List OA) (h : Hint OA Dim) : Hint OA Dim :=
  complete ord dims oas (clearInvalid dims h)

/-- The hints of a layer after stages have been constructed for it on several accelerators, given by their array dimensions. -/
def constructAll (ord : List Dim → List Dim) (dims : List Dim) (hist : List (List OA)) (h : Hint OA Dim) : Hint OA Dim :=
  hist.foldl (fun h oas => construct ord dims oas h) h

/-- What the generator changes in a layer: `spatial_mapping` (with `oa_dim_sizes` set or not, lines 83-84 of spatial_mapping.py) and
`spatial_mapping_hint`. -/
structure LayerSt (OA Dim : Type) where
  mapping : SM OA Dim
  initialized : Bool
  hints : Hint OA Dim

/-- An accelerator and the options of a run, as the generator sees them. -/
structure Acc (OA Dim : Type) where
  mems : List (MemOp OA Dim)
  oaSizes : Dict OA Nat
  mix : Bool
  nbMappings : Nat
  order : Order OA Dim
  capOrder : List Dim → List Dim

/-- The inputs of the generator (lines 66-80 of spatial_mapping_generation.py). -/
def inputsOf (sizes : Dict Dim Nat) (a : Acc OA Dim) (st : LayerSt OA Dim) : Inputs OA Dim :=
  { mems := a.mems, oaSizes := a.oaSizes, sizes := sizes, provided := st.mapping, hints := st.hints, mix := a.mix,
    nbMappings := a.nbMappings, order := a.order, capOrder := a.capOrder }

/-- `generate_spatial_mappings` with the assertion of `initialize_oa_dims` (lines 127-131 of spatial_mapping_generation.py, lines 87-96 of
spatial_mapping.py): the copy of the mapping of the layer keeps the array sizes it was initialized with. -/
def generateChecked (sizes : Dict Dim Nat) (a : Acc OA Dim) (st : LayerSt OA Dim) : Except PyErr (List (SM OA Dim)) :=
  match getMaxUnrolling a.mems a.oaSizes sizes with
  | .error e => .error e
  | .ok _ => if st.initialized then .error .assertion else generate (inputsOf sizes a st)

/-- Construction and `run` (lines 66-121 of spatial_mapping_generation.py): the mappings that are launched, and the layer afterwards.
`k` says how many mappings are launched before the run stops (because of an error, or because all of them are done). Every launched mapping
is stored in the layer (lines 92, 116), with its array sizes set. -/
def evaluate (ord : List Dim → List Dim) (sizes : Dict Dim Nat) (a : Acc OA Dim) (k : Nat) (st : LayerSt OA Dim) :
    Except PyErr (List (SM OA Dim)) × LayerSt OA Dim :=
  let st := { st with hints := construct ord sizes.keys a.oaSizes.keys st.hints }
  match generateChecked sizes a st with
  | .error e => (.error e, st)
  | .ok [] => (.error .assertion, st)
  | .ok ys =>
    match (ys.take k).getLast? with
    | none => (.ok [], st)
    | some y => (.ok (ys.take k), { st with mapping := y, initialized := true })

/-- A layer after several evaluations. -/
def evaluateAll (ord : List Dim → List Dim) (sizes : Dict Dim Nat) (hist : List (Acc OA Dim × Nat)) (st : LayerSt OA Dim) : LayerSt OA Dim :=
  hist.foldl (fun st x => (evaluate ord sizes x.1 x.2 st).2) st

/-- A layer as the parser creates it (workload_factory.py lines 99-101). -/
def fresh (m : SM OA Dim) (h : Hint OA Dim) : LayerSt OA Dim := ⟨m, false, h⟩

end Verif.Hints
