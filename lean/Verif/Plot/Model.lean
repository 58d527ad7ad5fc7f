import Verif.Cme.Model
import Mathlib.Data.List.Dedup
import Mathlib.Data.List.Sort

/-!
Model of the plots of results: `/repo/zigzag/visualization/results/plot_cme.py` (bars of energy and latency per layer) and
`/repo/zigzag/visualization/graph/memory_hierarchy.py` (drawing of the memory levels).

The drawing calls of matplotlib are recorded as values: positions, bottoms, heights and texts.  Colours, hatches, legends and the
limits of the axes are left out.  The arrays of numpy hold one row per result; here the calls of one result are listed together.
Energies and cycles are exact rationals.
-/

namespace Verif.Plot

open Cme (FourWay Dir)

variable {Op MOp Mem : Type} [DecidableEq Op] [DecidableEq MOp] [DecidableEq Mem]

/-- What the plot reads of a `CostModelEvaluation`: layer number and name, operands of the layer, memory operands (dictionary of
`memory_operand_links`, datatypes of the layer), `mem_energy_breakdown_further`, `mac_energy`, the cycle counts, and of its
accelerator the memory instances (`mem_level_list`) and the memories of an operand from inner to outer (`get_memory_levels`).
Equality of memories is that of all their data (hardware/architecture/memory_instance.py:93-94). -/
structure Res (Op MOp Mem : Type) where
  id : Nat
  name : List Char
  ops : List Op
  links : Dict Op MOp
  energy : Dict Op (List FourWay)
  mac : ℚ
  ideal : ℚ
  idealTemporal : ℚ
  lat0 : ℚ
  lat1 : ℚ
  lat2 : ℚ
  mems : List Mem
  levels : MOp → List Mem

/-- `name.split("/")` (plot_cme.py:37): the parts between slashes. -/
def splitSlash : List Char → List (List Char)
  | [] => [[]]
  | c :: cs =>
    if c = '/' then [] :: splitSlash cs
    else match splitSlash cs with
      | [] => [[c]]
      | p :: ps => (c :: p) :: ps

/-- `"/".join(parts)` (line 38). -/
def joinSlash : List (List Char) → List Char
  | [] => []
  | [p] => p
  | p :: q :: ps => p ++ '/' :: joinSlash (q :: ps)

/-- `shorten_onnx_layer_name` (lines 33-40): the last two parts; `[-2:]` never raises. -/
def shorten (name : List Char) : List Char :=
  let parts := splitSlash name
  joinSlash (parts.drop (parts.length - 2))

/-- A `defaultdict` of `defaultdict(AccessEnergy)` (lines 56-58). -/
abbrev Table (Op Mem : Type) := Dict Op (Dict Mem FourWay)

/-- `access_energy[cme_idx][op][mem]`, zero by default (line 71). -/
def look (t : Table Op Mem) (op : Op) (mem : Mem) : FourWay := (((t.get? op).getD []).get? mem).getD 0

/-- `access_energy[cme_idx][operand][mem] += breakdown_this_mem` (line 66). -/
def addAt (t : Table Op Mem) (op : Op) (mem : Mem) (x : FourWay) : Table Op Mem :=
  t.set op (((t.get? op).getD []).set mem (look t op mem + x))

/-- `for mem_idx, breakdown_this_mem in enumerate(breakdown_per_mem)` (lines 64-66), `i` is the index. -/
def memLoop (levels : List Mem) (op : Op) : Nat → List FourWay → Table Op Mem → Except PyErr (Table Op Mem)
  | _, [], t => .ok t
  | i, x :: xs, t =>
    match levels[i]? with
    | none => .error .indexError
    | some m => memLoop levels op (i + 1) xs (addAt t op m x)

/-- `for operand, breakdown_per_mem in cme.mem_energy_breakdown_further.items()` (lines 61-66); `levels` is that of the first result's
accelerator. -/
def opLoop (levels : MOp → List Mem) (links : Dict Op MOp) : Dict Op (List FourWay) → Table Op Mem → Except PyErr (Table Op Mem)
  | [], t => .ok t
  | (op, es) :: rest, t =>
    match links.get? op with
    | none => .error .keyError
    | some mo =>
      match memLoop (levels mo) op 0 es t with
      | .error e => .error e
      | .ok t' => opLoop levels links rest t'

/-- `for cme_idx, cme in enumerate(cmes)` (lines 60-66). -/
def tables (levels : MOp → List Mem) : List (Res Op MOp Mem) → Except PyErr (List (Table Op Mem))
  | [] => .ok []
  | r :: rs =>
    match opLoop levels r.links r.energy [] with
    | .error e => .error e
    | .ok t =>
      match tables levels rs with
      | .error e => .error e
      | .ok ts => .ok (t :: ts)

/-- The row of the operations: everything zero except the first entry (lines 78-79). -/
def macRow (ops : List Op) (mac : ℚ) : List (List ℚ) :=
  match ops with
  | [] => []
  | _ :: rest => (mac :: [0, 0, 0]) :: rest.map (fun _ => [0, 0, 0, 0])

/-- The row of one memory (lines 71-72). -/
def memRow (t : Table Op Mem) (ops : List Op) (mem : Mem) : List (List ℚ) := ops.map (fun op => Dir.all.map (look t op mem).get)

/-- `get_energy_array` (lines 47-82): indices are result, bar (operations, then memories), operand, direction.  Without operands the
assignment in line 79 raises, without memories the arrays cannot be joined. -/
def energyArray (first : Res Op MOp Mem) (rs : List (Res Op MOp Mem)) (ops : List Op) (mems : List Mem) :
    Except PyErr (List (List (List (List ℚ)))) :=
  match tables first.levels rs with
  | .error e => .error e
  | .ok ts =>
    if ops = [] then .error .indexError
    else if mems = [] then .error .valueError
    else .ok (List.zipWith (fun r t => macRow ops r.mac :: mems.map (memRow t ops)) rs ts)

/-- `get_latency_array` (lines 85-98). -/
def latencyRow (r : Res Op MOp Mem) : List ℚ :=
  [r.ideal, r.idealTemporal - r.ideal, r.lat0 - r.idealTemporal, r.lat1 - r.lat0, r.lat2 - r.lat1]

/-- A rectangle of a bar: its lower end and height. -/
structure Seg where
  bottom : ℚ
  height : ℚ
  deriving DecidableEq, Repr

/-- The rectangles of one bar (lines 146-162 and 197-209): every height is drawn on top of `bottom`, which then grows by it. -/
def stack : ℚ → List ℚ → List Seg
  | _, [] => []
  | b, h :: hs => ⟨b, h⟩ :: stack (b + h) hs

/-- `indices` (line 142) for bars of width one without space between them and one between the groups (lines 28-30). -/
def groupPos (nbars g : Nat) : ℚ := (g : ℚ) * ((nbars : ℚ) * (1 + 0) + 1)

/-- `positions` (line 148) and `xticks_positions` (lines 178-180). -/
def barPos (nbars g i : Nat) : ℚ := groupPos nbars g + (i : ℚ) * (1 + 0)

/-- `indices_midpoints` (line 143). -/
def midPos (nbars g : Nat) : ℚ := groupPos nbars g + (nbars : ℚ) * (1 + 0) / 2

/-- What is drawn for one result. -/
structure Group (Mem : Type) where
  /-- text below the latency bar (line 110) -/
  label : List Char
  /-- energy bars: name (`none` for "MAC", line 111), position, rectangles -/
  bars : List (Option Mem × ℚ × List Seg)
  /-- text `tot:` above the energy bars (lines 165-175) -/
  energyText : ℚ
  /-- position and rectangles of the latency bar (lines 195-209) -/
  latency : ℚ × List Seg
  /-- text `tot:` above the latency bar (lines 212-221) -/
  latencyText : ℚ

/-- The drawing of result `g` from its rows. -/
def group (mems : List Mem) (g : Nat) (r : Res Op MOp Mem) (rows : List (List (List ℚ))) : Group Mem :=
  let nbars := mems.length + 1
  { label := (toString r.id).toList ++ ':' :: ' ' :: shorten r.name
    bars := List.zipWith (fun (i, nm) row => (nm, barPos nbars g i, stack 0 row.flatten))
      (List.zip (List.range nbars) (none :: mems.map some)) rows
    energyText := (rows.map (fun row => row.flatten.sum)).sum
    latency := (midPos nbars g, stack 0 (latencyRow r))
    latencyText := (latencyRow r).sum }

/-- `all_ops` (line 107): `ord` is the order in which the set is listed. -/
def allOps (ord : List Op → List Op) (rs : List (Res Op MOp Mem)) : List Op := ord (rs.flatMap Res.ops).dedup

/-- `all_mems` (lines 104-106): `sorted` with the size as key is stable. -/
def allMems (size : Mem → Nat) (first : Res Op MOp Mem) : List Mem := first.mems.insertionSort (fun a b => size a ≤ size b)

/-- `bar_plot_cost_model_evaluations_breakdown` (lines 101-235).  The list holds `none` for results that are no `CostModelEvaluation`
(sums over layers), which line 103 leaves out. -/
def plot (ord : List Op → List Op) (size : Mem → Nat) (cmes : List (Option (Res Op MOp Mem))) : Except PyErr (List (Group Mem)) :=
  match cmes.filterMap id with
  | [] => .error .indexError
  | first :: rest =>
    match energyArray first (first :: rest) (allOps ord (first :: rest)) (allMems size first) with
    | .error e => .error e
    | .ok rows => .ok (List.zipWith (fun (g, r) row => group (allMems size first) g r row) (List.zip (List.range (rest.length + 1)) (first :: rest)) rows)

/-! ### Drawing of the memory levels -/

/-- Position of node `i` of generation `g` (memory_hierarchy.py:14-28): `n` is its number of nodes and `m` the largest number. -/
def nodePos (m n g i : Nat) : ℚ × ℚ :=
  (if n = m then (i : ℚ) else ((i : ℚ) + 1) * ((m : ℚ) - 1) / ((n : ℚ) + 1), (g : ℚ))

/-- `visualize_memory_hierarchy_graph` (lines 8-39) for the given topological generations: `max` of no generation raises. -/
def drawLevels {N : Type} (gens : List (List N)) : Except PyErr (List (N × ℚ × ℚ)) :=
  match (gens.map List.length).max? with
  | none => .error .valueError
  | some m => .ok (gens.zipIdx.flatMap (fun (gen, g) => gen.zipIdx.map (fun (nd, i) => (nd, nodePos m gen.length g i))))

end Verif.Plot
