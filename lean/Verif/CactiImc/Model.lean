import Mathlib.Algebra.Order.Ring.Rat
import Verif.Base.Dict

/-! Costs of the cell array of an in-memory-computing macro extracted with CACTI: /repo/zigzag/hardware/architecture/get_cacti_cost.py
lines 460-574 and imc_unit.py lines 131-162.  Numbers are rationals; `round(area, 7)` is a parameter.  CACTI is a parameter: the lines it
appends to the output file.  The writer of these lines (cacti_master/io.cc lines 2269-2465) is modelled as far as it concerns which cells are
numbers. -/
namespace Verif.CactiImc

/-- A cell of the output file: `float(cell)` either gives a number or raises ValueError. -/
inductive Cell where
  | num (v : ℚ)
  | text (s : String)
  deriving DecidableEq, Repr

/-- What CACTI is asked for (lines 522-530). -/
structure Cfg where
  tech : ℚ
  sizeByte : ℚ
  lineSize : ℕ
  width : ℕ
  mainMemory : Bool
  deriving DecidableEq, Repr

/-- How a call can fail: FileNotFoundError (line 489), ValueError, ZeroDivisionError, KeyError, IndexError, or `exit()` (line 540). -/
inductive Err | noDir | value | zeroDivision | key | index | exit
  deriving DecidableEq, Repr

/-- The adjusted technology and the factor for it (lines 492-497). -/
def adjust (tech : ℚ) : ℚ × ℚ := if tech = 28 / 1000 then (32 / 1000, 9 / 10 * (9 / 10)) else (tech, 1)

/-- The configuration (lines 498-516); the number of rows is computed in both cases. -/
def cfgOf (tech : ℚ) (memType : String) (size : ℚ) (bw : ℕ) : Except Err Cfg :=
  if memType = "dram" ∨ memType = "sram" then
    if bw = 0 then .error .zeroDivision
    else if bw > 32 then .ok ⟨(adjust tech).1, size * 8 / bw * 32 / 8, 32 / 8, 32, memType = "dram"⟩
    else .ok ⟨(adjust tech).1, size, bw / 8, bw, memType = "dram"⟩
  else .error .value

/-- The output file: the names of the first line and the cells of the other ones. -/
structure Out where
  header : List String
  rows : List (List Cell)
  deriving DecidableEq, Repr

/-- The table after the first line (lines 545-548). -/
def start (header : List String) : Dict String (List ℚ) := header.foldl (fun d a => d.set a []) []

/-- One cell (lines 550-554): a cell without a name is ignored (IndexError), a cell that is no number raises ValueError. -/
def addCell (header : List String) (d : Dict String (List ℚ)) (j : ℕ) (c : Cell) : Except Err (Dict String (List ℚ)) :=
  match header[j]? with
  | none => .ok d
  | some a =>
    match c with
    | .text _ => .error .value
    | .num v => .ok (d.set a ((d.get? a).getD [] ++ [v]))

/-- One line. -/
def addRow (header : List String) : Dict String (List ℚ) → ℕ → List Cell → Except Err (Dict String (List ℚ))
  | d, _, [] => .ok d
  | d, j, c :: cs => do addRow header (← addCell header d j c) (j + 1) cs

/-- All lines (lines 544-554). -/
def addRows (header : List String) : Dict String (List ℚ) → List (List Cell) → Except Err (Dict String (List ℚ))
  | d, [] => .ok d
  | d, r :: rs => do addRows header (← addRow header d 0 r) rs

/-- `result[name][-1]` (lines 556-564). -/
def column (d : Dict String (List ℚ)) (name : String) : Except Err ℚ :=
  match d.get? name with
  | none => .error .key
  | some l =>
    match l.getLast? with
    | none => .error .index
    | some v => .ok v

/-- Access time, area, read energy and write energy (lines 541-574). -/
def readOut (round7 : ℚ → ℚ) (tech : ℚ) (bw : ℕ) (o : Out) : Except Err (ℚ × ℚ × ℚ × ℚ) := do
  let d ← addRows o.header (start o.header) o.rows
  let f := (adjust tech).2
  let t ← column d " Access time (ns)"
  let a ← column d " Area (mm2)"
  let r ← column d " Dynamic read energy (nJ)"
  let w ← column d " Dynamic write energy (nJ)"
  if bw > 32 then return (f * t, round7 (f * a * 2 * bw / 32), f * r * bw / 32 * 1000, f * w * bw / 32 * 1000)
  else return (f * t, round7 (f * a * 2), f * r * 1000, f * w * 1000)

/-- What outlives a call: the working directory (`inside` when it is the directory of CACTI) and the output file, which is never removed. -/
structure World where
  inside : Bool
  out : Option Out
  deriving DecidableEq, Repr

/-- CACTI: how it changes the output file; unchanged when it does not accept the configuration. -/
abbrev Sim := Cfg → Option Out → Option Out

/-- `get_cacti_cost` (lines 460-574). The path of CACTI is relative to the directory of the project (imc_unit.py line 154): it does not exist seen from the
directory of CACTI. -/
def getCost (round7 : ℚ → ℚ) (sim : Sim) (w : World) (tech : ℚ) (memType : String) (size : ℚ) (bw : ℕ) :
    World × Except Err (ℚ × ℚ × ℚ × ℚ) :=
  -- line 489
  if w.inside then (w, .error .noDir) else
  let w1 : World := { w with inside := true }
  match cfgOf tech memType size bw with
  | .error e => (w1, .error e)
  | .ok c =>
    let w2 : World := { w1 with out := sim c w.out }
    match w2.out with
    -- lines 533-540
    | none => (w2, .error .exit)
    | some o =>
      match readOut round7 tech bw o with
      | .error e => (w2, .error e)
      -- line 567
      | .ok v => ({ w2 with inside := false }, .ok v)

/-- A call. -/
structure Call where
  tech : ℚ
  memType : String
  size : ℚ
  bw : ℕ
  deriving DecidableEq, Repr

/-- Answers of calls one after the other in one process; a later call is reached when the caller catches the exception. -/
def history (round7 : ℚ → ℚ) (sim : Sim) : World → List Call → List (Except Err (ℚ × ℚ × ℚ × ℚ))
  | _, [] => []
  | w, c :: cs =>
    let r := getCost round7 sim w c.tech c.memType c.size c.bw
    r.2 :: history round7 sim r.1 cs

/-- `get_single_cell_array_cost_from_cacti` (imc_unit.py lines 131-162). -/
def cellArrayCost (round7 : ℚ → ℚ) (sim : Sim) (w : World) (tech : ℚ) (wl bl cells : ℕ) (prec : ℕ) : World × Except Err (ℚ × ℚ × ℚ × ℚ) :=
  getCost round7 sim w tech "sram" ((wl : ℚ) * bl * cells / 8) (wl * prec)

/-! ### The writer in CACTI -/

/-- The first line that CACTI writes, split at the commas (io.cc lines 2279-2348): every name is followed by a comma, so that the end of the line is
a name of its own. -/
def cactiHeader : List String :=
  ["Tech node (nm)", " Capacity (bytes)", " Number of banks", " Associativity", " Output width (bits)", " Access time (ns)",
   " Random cycle time (ns)", " Dynamic search energy (nJ)", " Dynamic read energy (nJ)", " Dynamic write energy (nJ)",
   " Standby leakage per bank(mW)", " Area (mm2)", " Ndwl", " Ndbl", " Nspd", " Ndcm", " Ndsam_level_1", " Ndsam_level_2",
   " Data arrary area efficiency %", " Ntwl", " Ntbl", " Ntspd", " Ntcm", " Ntsam_level_1", " Ntsam_level_2",
   " Tag arrary area efficiency %", " \n"]

/-- The values that CACTI writes. -/
structure Values where
  /-- technology … random cycle time -/
  first : Fin 7 → ℚ
  /-- the search energy, only for fully associative caches (io.cc lines 2374-2379) -/
  search : Option ℚ
  /-- read energy, write energy, leakage, area and the seven parameters of the data array -/
  data : Fin 11 → ℚ
  /-- the seven parameters of the tag array, only for caches (io.cc lines 2417-2440) -/
  tags : Option (Fin 7 → ℚ)

/-- `N/A`. -/
def na : Cell := .text " N/A"

/-- A line that CACTI writes: every value is followed by a comma. -/
def cactiRow (v : Values) : List Cell :=
  (List.ofFn v.first).map .num ++ [(v.search.map Cell.num).getD na] ++ (List.ofFn v.data).map .num ++
    ((v.tags.map fun t => (List.ofFn t).map Cell.num).getD (List.replicate 7 na)) ++ [.text " \n"]

/-- The output file after a run (io.cc lines 2269-2278): the header only if there was no file, then one more line. -/
def cactiAppend (v : Values) : Option Out → Option Out
  | none => some ⟨cactiHeader, [cactiRow v]⟩
  | some o => some { o with rows := o.rows ++ [cactiRow v] }

end Verif.CactiImc
