import Mathlib.Algebra.Order.Ring.Rat
import Mathlib.Tactic.Linarith
import Verif.Base.Dict

/-! Costs of memories extracted with CACTI: cacti_parser.py, cacti_master/cacti_top.py, memory_instance.py lines 58-76,
accelerator_factory.py lines 155-181.  The external CACTI binary is the parameter `sim`.  The pool file is modelled as the
list of the top level YAML entries in the order in which they stand in the file. -/
namespace Verif.Cacti

/-- The ways a request can fail: a field of a pool record is missing (KeyError, or TypeError for an empty record), no record
of the pool matches (ModuleNotFoundError, cacti_parser.py line 220), the child process failed (ChildProcessError, line 110). -/
inductive Err | malformed | noMatch | child
  deriving DecidableEq, Repr

/-- The arguments of `CactiParser.get_item` that matter (cacti_parser.py lines 112-126). Sizes are in bits. -/
structure Req where
  memType : String
  size : ℕ
  bw : ℕ
  rPort : ℕ
  wPort : ℕ
  rwPort : ℕ
  bank : ℕ
  tech : ℚ
  deriving DecidableEq, Repr

/-- One record of the pool file, as written by cacti_top.py lines 143-155, in the (sorted) order in which `yaml.dump` writes
the lines. Every field is optional: old records have no technology, and an interrupted write leaves only the first lines. -/
structure Rec where
  ioBus : Option ℕ
  area : Option ℚ
  bank : Option ℕ
  rd : Option ℚ
  wr : Option ℚ
  exRd : Option ℕ
  exWr : Option ℕ
  memType : Option String
  rdWr : Option ℕ
  sizeBit : Option ℕ
  sizeByte : Option ℕ
  tech : Option ℚ
  deriving DecidableEq, Repr

/-- The names of the records. `made` is the name put together in cacti_top.py lines 125-139, which contains neither the memory
type nor the costs; `given` is any other name found in the file. -/
inductive Key where
  | given (name : String)
  | made (sizeByte bw rd wr rw bank : ℕ) (tech : ℚ)
  deriving DecidableEq, Repr

/-- The text of the pool file: the appended records, oldest first. -/
abbrev File := List (Key × Rec)

/-- `yaml.full_load` of the pool (cacti_parser.py lines 40-41 and 183-184): a name that occurs again keeps its place and gets
the later value. -/
def load (f : File) : Dict Key Rec := f.foldl (fun d p => d.set p.1 p.2) []

/-- What the CACTI binary is asked for (cacti_top.py lines 49-83). -/
structure Cfg where
  mainMemory : Bool
  sizeByte : ℕ
  bw : ℕ
  rd : ℕ
  wr : ℕ
  rw : ℕ
  bank : ℕ
  tech : ℚ
  deriving DecidableEq, Repr

/-- One row of the CSV file that CACTI appends to (cacti_top.py lines 113-118). -/
structure Row where
  sizeByte : ℕ
  width : ℕ
  area : ℚ
  rd : ℚ
  wr : ℚ
  deriving DecidableEq, Repr

/-- The CACTI binary: no row when it does not accept the configuration. -/
abbrev Sim := Cfg → Option Row

/-- Energy per read and per write (pJ) and area. -/
abbrev Cost := ℚ × ℚ × ℚ

/-- The change made for register files (cacti_parser.py lines 142-158). -/
def normalise (r : Req) : Req :=
  if r.memType = "rf" then { r with memType := "sram", size := r.size * 128 } else r

/-- A field that must be there. -/
def need {α : Type} : Option α → Except Err α
  | some a => .ok a
  | none => .error .malformed

/-- The test of one record in `item_exists` (cacti_parser.py lines 45-61): the memory type is not looked at. -/
def shapeTest (e : Rec) (r : Req) : Except Err Bool := do
  let io ← need e.ioBus
  let rd ← need e.exRd
  let wr ← need e.exWr
  let rw ← need e.rdWr
  let size ← need e.sizeBit
  let bank : ℤ := (e.bank.map Int.ofNat).getD (-1)
  let tech : ℚ := e.tech.getD (-1)
  return decide (r.size = size ∧ io = r.bw ∧ r.rPort = rd ∧ r.wPort = wr ∧ r.rwPort = rw ∧ bank = (r.bank : ℤ) ∧
    tech = r.tech)

/-- `CactiParser.item_exists` (cacti_parser.py lines 25-64) on the loaded pool. -/
def itemExists : Dict Key Rec → Req → Except Err Bool
  | [], _ => .ok false
  | p :: t, r => do
    if ← shapeTest p.2 r then return true
    itemExists t r

/-- The test of one record in `get_item` and the costs it returns (cacti_parser.py lines 188-217). -/
def fullTest (e : Rec) (r : Req) : Except Err (Option Cost) := do
  let io ← need e.ioBus
  let area ← need e.area
  let bank ← need e.bank
  let read ← need e.rd
  let write ← need e.wr
  let rd ← need e.exRd
  let wr ← need e.exWr
  let rw ← need e.rdWr
  let size ← need e.sizeBit
  let ty ← need e.memType
  let tech : ℚ := e.tech.getD (-1)
  return if r.memType = ty ∧ r.size = size ∧ io = r.bw ∧ r.rPort = rd ∧ r.wPort = wr ∧ r.rwPort = rw ∧ tech = r.tech ∧
      bank = r.bank then some (read * 1000, write * 1000, area) else none

/-- The second pass over the pool (cacti_parser.py lines 183-222). -/
def lookup : Dict Key Rec → Req → Except Err Cost
  | [], _ => .error .noMatch
  | p :: t, r => do
    match ← fullTest p.2 r with
    | some c => return c
    | none => lookup t r

/-- The configuration that `run_cacti` writes (cacti_parser.py lines 84-107, cacti_top.py lines 49-83). Any type other than
`"sram"` is simulated as main memory. `int(size / 8)` is taken exactly. -/
def cfgOf (r : Req) : Cfg :=
  ⟨!(r.memType == "sram"), r.size / 8, r.bw, r.rPort, r.wPort, r.rwPort, r.bank, r.tech⟩

/-- The record made of one row of the CSV file (cacti_top.py lines 113-155): sizes, width and costs come from the row, the
ports, the banks and the technology from the arguments. -/
def mkRecord (r : Req) (label : String) (w : Row) : Key × Rec :=
  (.made w.sizeByte w.width r.rPort r.wPort r.rwPort r.bank r.tech,
   { ioBus := some w.width, area := some w.area, bank := some r.bank, rd := some w.rd, wr := some w.wr,
     exRd := some r.rPort, exWr := some r.wPort, memType := some label, rdWr := some r.rwPort,
     sizeBit := some (w.sizeByte * 8), sizeByte := some w.sizeByte, tech := some r.tech })

/-- The loop over the rows (cacti_top.py lines 113-159). After the first row the variable `mem_type` is no longer `"ram"` in
quotes, so that all later rows are recorded as `"dram"` (lines 120-123). -/
def mkRecords (r : Req) : List Row → File
  | [] => []
  | w :: ws => mkRecord r (if r.memType = "sram" then "sram" else "dram") w :: ws.map (mkRecord r "dram")

/-- `create_item` for a process that runs alone (cacti_parser.py lines 66-110, cacti_top.py): the directory is emptied, one
configuration is written, and the CSV file has at most one row. -/
def createItem (sim : Sim) (f : File) (r : Req) : Except Err File :=
  match sim (cfgOf r) with
  | none => .error .child
  | some w => .ok (f ++ mkRecords r [w])

/-- `CactiParser.get_item` (cacti_parser.py lines 112-222): the pool file afterwards and the answer. -/
def getItem (sim : Sim) (f : File) (r0 : Req) : File × Except Err Cost :=
  let r := normalise r0
  match itemExists (load f) r with
  | .error e => (f, .error e)
  | .ok true => (f, lookup (load f) r)
  | .ok false =>
    match createItem sim f r with
    | .error e => (f, .error e)
    | .ok f' => (f', lookup (load f') r)

/-- A history of requests, one after the other. -/
def history (sim : Sim) : File → List Req → File × List (Except Err Cost)
  | f, [] => (f, [])
  | f, r :: rs =>
    let a := getItem sim f r
    let b := history sim a.1 rs
    (b.1, a.2 :: b.2)

/-! ### The request made for a memory of an accelerator description -/

/-- Types of ports (memory_port.py). -/
inductive PortType | read | write | readWrite
  deriving DecidableEq, Repr

/-- A port of the description: its type and `bandwidth_max` (accelerator_factory.py lines 155-165). -/
structure Port where
  type : PortType
  bwMax : ℕ
  deriving DecidableEq, Repr

/-- The bandwidth handed to CACTI (memory_instance.py lines 59-65): the first read port, otherwise the first read-write port,
otherwise ValueError. -/
def readBw (ports : List Port) : Option ℕ :=
  match ports.find? (fun p => p.type = .read) with
  | some p => some p.bwMax
  | none => (ports.find? (fun p => p.type = .readWrite)).map Port.bwMax

/-- The request made while a memory of a description is built. `MemoryFactory.create_memory_instance`
(accelerator_factory.py lines 167-181) does not hand on `r_port`, `w_port` and `rw_port`, so that the defaults 1, 1, 0 of
memory_instance.py lines 33-35 apply; bank 1 and technology 0.022 are fixed (memory_instance.py line 75, cacti_parser.py line 123). -/
def requestOf (memType : String) (size : ℕ) (ports : List Port) : Option Req :=
  (readBw ports).map fun bw => ⟨memType, size, bw, 1, 1, 0, 1, 22 / 1000⟩

/-! ### Several processes that use the same pool and the same `self_gen` directory, and crashes -/

/-- Where a process stands in `get_item`. -/
inductive Phase where
  | start
  | clear
  | write
  | simulate
  | running (c : Cfg)
  | collect
  | append (recs : File)
  | look
  | done (a : Except Err Cost)
  | dead

/-- A process: its (already normalised) request and its phase. -/
structure Proc where
  req : Req
  phase : Phase

/-- The files that the processes share (`self_gen/cache.cfg`, `self_gen/cache.cfg.out`, the pool) and the processes. -/
structure St where
  cfg : Option Cfg
  out : Option (List Row)
  file : File
  procs : List Proc

/-- What is left of a record when the write stops after `n` lines. -/
def torn : ℕ → Rec → Rec
  | n, e =>
    { ioBus := if 0 < n then e.ioBus else none
      area := if 1 < n then e.area else none
      bank := if 2 < n then e.bank else none
      rd := if 3 < n then e.rd else none
      wr := if 4 < n then e.wr else none
      exRd := if 5 < n then e.exRd else none
      exWr := if 6 < n then e.exWr else none
      memType := if 7 < n then e.memType else none
      rdWr := if 8 < n then e.rdWr else none
      sizeBit := if 9 < n then e.sizeBit else none
      sizeByte := if 10 < n then e.sizeByte else none
      tech := if 11 < n then e.tech else none }

/-- One step of process `p`: the shared files afterwards and the process afterwards. The file accesses of a phase are one
step, except that CACTI reads its configuration in one step and appends its row in another one. -/
def stepProc (sim : Sim) (s : St) (p : Proc) : St × Proc :=
  match p.phase with
  | .start =>
    match itemExists (load s.file) p.req with
    | .error e => (s, { p with phase := .done (.error e) })
    | .ok true => (s, { p with phase := .look })
    | .ok false => (s, { p with phase := .clear })
  | .clear => ({ s with cfg := none, out := none }, { p with phase := .write })
  | .write => ({ s with cfg := some (cfgOf p.req) }, { p with phase := .simulate })
  | .simulate =>
    match s.cfg with
    | none => (s, { p with phase := .collect })
    | some c => (s, { p with phase := .running c })
  | .running c =>
    match sim c with
    | none => (s, { p with phase := .collect })
    | some w => ({ s with out := some (s.out.getD [] ++ [w]) }, { p with phase := .collect })
  | .collect =>
    match s.out with
    | none => (s, { p with phase := .done (.error .child) })
    | some ws => (s, { p with phase := .append (mkRecords p.req ws) })
  | .append [] => (s, { p with phase := .look })
  | .append (e :: es) => ({ s with file := s.file ++ [e] }, { p with phase := .append es })
  | .look => (s, { p with phase := .done (lookup (load s.file) p.req) })
  | .done _ => (s, p)
  | .dead => (s, p)

/-- Process number `i` makes a step. -/
def act (sim : Sim) (i : ℕ) (s : St) : St :=
  match s.procs[i]? with
  | none => s
  | some p => let r := stepProc sim s p; { r.1 with procs := s.procs.set i r.2 }

/-- Process number `i` is killed; if it was about to append a record, the first `n` lines of it may have reached the file. -/
def kill (i : ℕ) (n : Option ℕ) (s : St) : St :=
  match s.procs[i]? with
  | none => s
  | some p =>
    let f := match p.phase, n with
      | .append (e :: _), some n => s.file ++ [(e.1, torn n e.2)]
      | _, _ => s.file
    { s with file := f, procs := s.procs.set i { p with phase := .dead } }

/-- All schedules with all crashes. -/
inductive Reach (sim : Sim) (s0 : St) : St → Prop
  | refl : Reach sim s0 s0
  | act {s : St} (i : ℕ) (h : Reach sim s0 s) : Reach sim s0 (act sim i s)
  | kill {s : St} (i : ℕ) (n : Option ℕ) (h : Reach sim s0 s) : Reach sim s0 (kill i n s)

/-- A request that is interrupted (a process running alone is killed): nothing of the pool has changed, or `n` lines of the new
record have reached the file. -/
def crashed (sim : Sim) (f : File) (r0 : Req) (n : Option ℕ) : File :=
  match itemExists (load f) (normalise r0), createItem sim [] (normalise r0), n with
  | .ok false, .ok (e :: _), some n => f ++ [(e.1, torn n e.2)]
  | _, _, _ => f

/-- A history in which some requests are interrupted. -/
def crashHistory (sim : Sim) : File → List (Req × Option (Option ℕ)) → File × List (Option (Except Err Cost))
  | f, [] => (f, [])
  | f, (r, none) :: rs =>
    let a := getItem sim f r
    let b := crashHistory sim a.1 rs
    (b.1, some a.2 :: b.2)
  | f, (r, some n) :: rs =>
    let b := crashHistory sim (crashed sim f r n) rs
    (b.1, none :: b.2)

/-- The start: whatever is left in the directory, a pool and one process per request. -/
def initial (cfg : Option Cfg) (out : Option (List Row)) (f : File) (reqs : List Req) : St :=
  ⟨cfg, out, f, reqs.map fun r => ⟨normalise r, .start⟩⟩

end Verif.Cacti
