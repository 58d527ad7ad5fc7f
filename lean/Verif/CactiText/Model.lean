import Verif.Base.Dict
import Verif.CactiText.Baseline
import Mathlib.Algebra.Order.Field.Rat

/-!
What is written for the CACTI binary and what is read back: `/repo/zigzag/cacti/cacti_master/cacti_config_creator.py` and
`/repo/zigzag/cacti/cacti_master/cacti_top.py` (`Verif.Cacti` treats both as given).

Values are texts, as they arrive from the command line (cacti_top.py lines 164-185); the numbers in the table of options are written as
`str` writes them.  Of the C++ program only the choice of the reader of a line is modelled (`parse_cfg` in io.cc).  The lines of the CSV file are lists of fields
(`each_line.split(",")`), and `float` is a parameter.
-/

namespace Verif.CactiText

/-- An entry of `config_options` (cacti_config_creator.py lines 283-373): name, `string`, `option` and `default`. -/
structure Opt where
  key : String
  text : String
  values : List String
  dflt : String
  deriving DecidableEq, Repr

/-- `config_options` (lines 283-373) in the order of insertion. -/
def options : List Opt := [
  ⟨"cache_size", "-size (bytes) ", ["64", "128", "256", "512", "1024", "2048", "4096", "8192", "16384", "32768", "65536", "131072", "262144", "524288", "1048576", "2097152", "4194304", "8388608", "16777216", "33554432", "134217728", "67108864", "1073741824"], "64"⟩,
  ⟨"line_size", "-block size (bytes) ", ["8", "16", "24"], "64"⟩,
  ⟨"IO_bus_width", "-output/input bus width ", ["4", "8", "16", "24", "32", "64", "128"], "128"⟩,
  ⟨"associativity", "-associativity ", ["0", "1", "2", "4"], "1"⟩,
  ⟨"rd_wr_port", "-read-write port ", ["0", "1", "2", "3", "4"], "0"⟩,
  ⟨"ex_rd_port", "-exclusive read port ", ["0", "1", "2", "3", "4"], "2"⟩,
  ⟨"ex_wr_port", "-exclusive write port ", ["0", "1", "2", "3", "4"], "2"⟩,
  ⟨"single_rd_port", "-single ended read ports ", ["0", "1", "2", "3", "4"], "0"⟩,
  ⟨"bank_count", "-UCA bank count ", ["1", "2", "4", "8", "16"], "1"⟩,
  ⟨"technology", "-technology (u) ", ["0.022", "0.028", "0.04", "0.032", "0.065", "0.09"], "0.09"⟩,
  ⟨"mem_type", "-cache type ", ["\"cache\"", "\"ram\"", "\"main memory\""], "\"ram\""⟩]

/-- `value["string"] + str(v) + "\\n"` (for example line 418). -/
def line (o : Opt) (v : String) : String := o.text ++ v ++ "\n"

/-- `cacti_auto(["default"])` (lines 416-420). -/
def byDefault (opts : List Opt) : List String := opts.map (fun o => line o o.dflt)

/-- `cacti_auto(["single", [names, values]])` (lines 422-430): the first place of the name counts; a missing value raises. -/
def single (names values : List String) : List Opt → Except PyErr (List String)
  | [] => .ok []
  | o :: os =>
    if o.key ∈ names then
      match values[names.idxOf o.key]? with
      | none => .error .indexError
      | some v =>
        match single names values os with
        | .error e => .error e
        | .ok ls => .ok (line o v :: ls)
    else
      match single names values os with
      | .error e => .error e
      | .ok ls => .ok (line o o.dflt :: ls)

/-- The entry with a name; a dictionary raises for an unknown one. -/
def find (opts : List Opt) (name : String) : Except PyErr Opt :=
  match opts.find? (fun o => decide (o.key = name)) with
  | none => .error .keyError
  | some o => .ok o

/-- Lines 439-441: one list per value of every swept option. -/
def sweepLines (opts : List Opt) : List String → Except PyErr (List (List String))
  | [] => .ok []
  | n :: ns =>
    match find opts n with
    | .error e => .error e
    | .ok o =>
      match sweepLines opts ns with
      | .error e => .error e
      | .ok ls => .ok (o.values.map (fun v => [line o v]) ++ ls)

/-- `cacti_auto(["sweep", names])` (lines 432-448): the configurations that are written one after the other. -/
def sweep (opts : List Opt) (names : List String) : Except PyErr (List (List String)) :=
  let common := (opts.filter (fun o => decide (o.key ∉ names))).map (fun o => line o o.dflt)
  match sweepLines opts names with
  | .error e => .error e
  | .ok ls => .ok (ls.map (fun l => l ++ common))

/-- `change_default_value` (lines 377-379). -/
def changeDefault (opts : List Opt) : List (String × String) → Except PyErr (List Opt)
  | [] => .ok opts
  | (n, v) :: r =>
    match find opts n with
    | .error e => .error e
    | .ok _ => changeDefault (opts.map (fun o => if o.key = n then { o with dflt := v } else o)) r

/-- The lines of the file (`write_config`, lines 381-385). -/
def file (user : List String) : List String := baseline ++ user

/-- What `run_cacti` asks for (cacti_top.py lines 49-86); texts from the command line. -/
structure Ask where
  memType : String
  size : String
  bus : String
  exRd : String
  exWr : String
  rdWr : String
  bank : String
  tech : String

def askNames : List String :=
  ["mem_type", "cache_size", "IO_bus_width", "ex_rd_port", "ex_wr_port", "rd_wr_port", "bank_count", "technology", "line_size"]

/-- Lines 49-52: the type in the words of CACTI. -/
def cactiType (t : String) : String := if t = "sram" then "\"ram\"" else "\"main memory\""

/-- Lines 57-86; `block_size` is the bus width (line 55). -/
def asked (a : Ask) : Except PyErr (List String) :=
  single askNames [cactiType a.memType, a.size, a.bus, a.exRd, a.exWr, a.rdWr, a.bank, a.tech, a.bus] options

/-! ### Reading by CACTI -/

/-- The beginnings of lines which `parse_cfg` distinguishes, in the order of its tests (/repo/zigzag/cacti/cacti_master/io.cc lines 74-872). -/
def readers : List String := [
  "-size", "-page size", "-burst length", "-internal prefetch width", "-block", "-associativity",
  "-read-write", "-exclusive rea", "-exclusive write", "-single ended", "-search", "-UCA bank",
  "-technology", "-output/input", "-operating temperature", "-cache type", "-print option", "-burst depth",
  "-IO width", "-system frequency", "-stacked die", "-partitioning granularity", "-TSV projection", "-tag size",
  "-access mode", "-Data array cell type", "-Data array peripheral type", "-Tag array cell type", "-Tag array peripheral type", "-design",
  "-deviate", "-Optimize", "-NUCAdesign", "-NUCAdeviate", "-Cache model", "-NUCA bank",
  "-Wire inside mat", "-Wire outside mat", "-Interconnect projection", "-Wire signaling", "-Core", "-Cache level",
  "-Print level", "-Add ECC", "-CLDriver vertical", "-Array Power Gating", "-Bitline floating", "-WL Power Gating",
  "-CL Power Gating", "-Interconnect Power Gating", "-Power Gating Performance Loss", "-Print input parameters", "-Force cache config", "-Ndbl",
  "-Ndwl", "-Nspd", "-Ndsam1", "-Ndsam2", "-Ndcm", "-dram type",
  "-io state", "-addr_timing", "-dram ecc", "-dram dimm", "-bus_bw", "-duty_cycle",
  "-mem_density", "-activity_dq", "-activity_ca", "-bus_freq", "-num_dq", "-num_dqs",
  "-num_ca", "-num_clk", "-num_mem_dq", "-mem_data_width", "-num_bobs", "-capacity",
  "-num_channels_per_bob", "-first metric", "-second metric", "-third metric", "-DIMM model", "-Low Power Permitted",
  "-load", "-row_buffer_hit_rate", "-rd_2_wr_ratio", "-same_bw_in_bob", "-mirror_in_bob", "-total_power",
  "-verbose"]

/-- The reader of a line: the first test that succeeds (lines 72-884; every reader of an option written here ends with `continue`). -/
def readerOf (l : String) : Option String := readers.find? (fun k => k.toList.isPrefixOf l.toList)

/-- The line that counts for a reader: later lines overwrite the values of earlier ones. -/
def lastFor (k : String) (ls : List String) : Option String := (ls.filter (fun l => decide (readerOf l = some k))).getLast?

/-! ### The place of the configuration -/

/-- Paths as lists of names, for absolute paths without `.` and `..`; `os.path.commonpath` of two of them. -/
def commonPath : List String → List String → List String
  | a :: as, b :: bs => if a = b then a :: commonPath as bs else []
  | _, _ => []

/-- The text of a path. -/
def pathText (p : List String) : List Char := if p = [] then ['/'] else p.flatMap (fun n => '/' :: n.toList)

/-- The test of `call_cacti` (lines 394-396): `true` if it raises `NotImplementedError`. -/
def refused (master cfg : List String) : Bool :=
  let common := commonPath master cfg
  decide (common ≠ master) && !decide (pathText common <:+: pathText master)

/-! ### Reading the results -/

/-- Lines 98-101: an empty list for every name in the header. -/
def header (hs : List String) : Dict String (List (Option ℚ)) := hs.foldl (fun d h => d.set h []) []

/-- Lines 103-111: fields beyond the header are dropped; a text that is no number is kept as the class `str` (`none`). -/
def addRow (num : String → Option ℚ) : List String → List String → Dict String (List (Option ℚ)) → Dict String (List (Option ℚ))
  | h :: hs, v :: vs, d => addRow num hs vs (d.set h (((d.get? h).getD []) ++ [num v]))
  | _, _, d => d

/-- Lines 93-111 on the lines of the file. -/
def table (num : String → Option ℚ) : List (List String) → Dict String (List (Option ℚ))
  | [] => []
  | hs :: rows => rows.foldl (fun d r => addRow num hs r d) (header hs)

/-- What is kept of a row (lines 141-156). -/
structure Out where
  size : ℚ
  bits : ℚ
  area : Option ℚ
  read : Option ℚ
  write : Option ℚ
  bw : ℚ
  type : String
  deriving DecidableEq

/-- `int(x)` of a number or of the class `str` (lines 126-128). -/
def int? : Option ℚ → Except PyErr ℚ
  | none => .error .typeError
  | some x => .ok (x.num.tdiv x.den)

/-- `result[name][i]` (lines 114-118). -/
def cell (d : Dict String (List (Option ℚ))) (name : String) (i : Nat) : Except PyErr (Option ℚ) :=
  match d.get? name with
  | none => .error .keyError
  | some l =>
    match l[i]? with
    | none => .error .indexError
    | some v => .ok v

/-- One record (lines 113-156); `type` is the variable `mem_type` (lines 120-123). -/
def out (d : Dict String (List (Option ℚ))) (i : Nat) (type : String) : Except PyErr Out := do
  let size ← cell d " Capacity (bytes)" i
  let area ← cell d " Area (mm2)" i
  let rd ← cell d " Dynamic read energy (nJ)" i
  let wr ← cell d " Dynamic write energy (nJ)" i
  let bw ← cell d " Output width (bits)" i
  let s ← int? size
  let b ← int? bw
  let bits ← int? (size.map (· * 8))
  pure ⟨s, bits, area, rd, wr, b, type⟩

/-- The loop over the rows (lines 113-159): after the first row `mem_type` is `sram` or `dram`, which is not `"ram"`. -/
def outs (d : Dict String (List (Option ℚ))) : Nat → Nat → String → Except PyErr (List Out)
  | 0, _, _ => .ok []
  | n + 1, i, t =>
    let t' := if t = "\"ram\"" then "sram" else "dram"
    match out d i t' with
    | .error e => .error e
    | .ok o =>
      match outs d n (i + 1) t' with
      | .error e => .error e
      | .ok os => .ok (o :: os)

/-- Lines 93-159: the records that are appended to the pool. -/
def results (num : String → Option ℚ) (memType : String) (csv : List (List String)) : Except PyErr (List Out) :=
  match (table num csv).get? " Capacity (bytes)" with
  | none => .error .keyError
  | some l => outs (table num csv) l.length 0 (cactiType memType)

end Verif.CactiText
