import Verif.Base.Dict
import Mathlib.Algebra.Order.Field.Rat
import Mathlib.Data.Rat.Floor
import Mathlib.Data.Nat.Log

/-! In-memory-computing arrays: `ImcUnit` in /repo/zigzag/hardware/architecture/imc_unit.py and `ImcArray` in
/repo/zigzag/hardware/architecture/imc_array.py, and `collect_area_data` in /repo/zigzag/cost_model/cost_model_imc.py.

Simplifications: numbers are exact rationals; the cost of a converter (`get_adc_cost`, imc_array.py lines 64-90, which uses real powers) is a parameter,
so are the cell area (lines 108-126) and the layer dependent read count of the precharge energy. -/

namespace Verif.Imc

/-! ### Adder trees -/

/-- Number of one bit adders of a tree (imc_unit.py lines 384-386, imc_array.py lines 164-166). -/
def treeAdders (n p depth : Nat) : Int := (n : Int) * (p + 1) - (p + depth + 1)

/-- The loop of `get_regular_adder_trees_energy` (imc_unit.py lines 413-437).  At entry the baseline is `2 ^ k`; the loop is entered with
`left_input ≠ 0`.  `none`: the baseline would drop below one (shown to be unreachable). -/
def activeLoop (p : Nat) : Nat → Nat → Int → Int → Option (Int × Int)
  | 0, left, full, half => if left = 0 then some (full, half) else none
  | k + 1, left, full, half =>
    if left = 0 then some (full, half)
    else
      -- baseline is `2 ^ k` now, `activated_depth` is `k`
      if left ≤ 1 ∧ 2 ^ k = 1 then some (full, half + p)
      else if left > 2 ^ k then
        activeLoop p k (left - 2 ^ k) (full + (((2 ^ k : Nat) : Int) * (p + 1) - (p + k + 1) + (p + k))) half
      else if left < 2 ^ k then activeLoop p k left full (half + (p + k))
      else some (full + (((2 ^ k : Nat) : Int) * (p + 1) - (p + k + 1)), half + (p + k))

/-- Technology numbers (imc_unit.py lines 15-28). -/
structure Tech where
  vdd : Rat
  nd2Cap : Rat
  wlCap : Rat
  blCap : Rat
  xor2Cap : Rat
  dffCap : Rat
  nd2Area : Rat
  xor2Area : Rat
  dffArea : Rat
  nd2Dly : Rat
  xor2Dly : Rat

/-- `TECH_PARAM_28NM` -/
def tech28 : Tech where
  vdd := 9 / 10
  nd2Cap := 7 / 10000
  wlCap := 35 / 100000
  blCap := 35 / 100000
  xor2Cap := 105 / 100000
  dffCap := 21 / 10000
  nd2Area := 614 / 1000000000
  xor2Area := 14736 / 10000000000
  dffArea := 3684 / 1000000000
  nd2Dly := 478 / 10000
  xor2Dly := 11472 / 100000

/-- imc_unit.py lines 74-78 -/
def adderE (t : Tech) : Rat := (3 * t.nd2Cap + 2 * t.xor2Cap) * t.vdd ^ 2

/-- imc_unit.py lines 80-83 -/
def adderHalfE (t : Tech) : Rat := (2 * t.xor2Cap) * t.vdd ^ 2

/-- imc_unit.py lines 85-89 -/
def multE (t : Tech) : Rat := (1 / 2) * t.nd2Cap * t.vdd ^ 2

/-- imc_unit.py lines 91-93 -/
def regE (t : Tech) : Rat := t.dffCap * t.vdd ^ 2

/-- imc_unit.py lines 95-99 -/
def adderA (t : Tech) : Rat := 3 * t.nd2Area + 2 * t.xor2Area

/-- imc_unit.py lines 111-114, 116-119, 121-124 -/
def in2sum (t : Tech) : Rat := 2 * t.xor2Dly
def in2cout (t : Tech) : Rat := t.xor2Dly + 2 * t.nd2Dly
def cin2cout (t : Tech) : Rat := 2 * t.nd2Dly

/-- `get_regular_adder_trees_energy` (imc_unit.py lines 371-445) for a tree with `2 ^ depth` inputs, `active` of them in use. -/
def treeEnergy (t : Tech) (p active depth : Nat) : Option Rat :=
  if active ≥ 1 then
    if active ≥ 2 ^ depth then some ((treeAdders (2 ^ depth) p depth : Rat) * adderE t + 0 * adderHalfE t)
    else
      match activeLoop p depth active 0 0 with
      | none => none
      | some r => some ((r.1 : Rat) * adderE t + (r.2 : Rat) * adderHalfE t)
  else some 0

/-- Adders of a tree with place values (imc_array.py lines 178-188); `n` inputs of precision `p`. -/
def pvAdders (n p : Nat) : Rat := if n = 1 then 0 else (p : Rat) * ((n : Rat) - 1) + (n : Rat) * ((Nat.log 2 n : Rat) - 1 / 2)

/-! ### Array -/

/-- What the array is made from (imc_unit.py lines 30-72); `adc` is (area, delay, energy) of one converter, `cells` the area of all cells. -/
structure Arr where
  tech : Tech
  aimc : Bool
  bs : Nat
  act : Nat
  wp : Nat
  adcRes : Nat
  wl : Nat
  bl : Nat
  banks : Nat
  cells : Rat
  adc : Rat × Rat × Rat

/-- Energy of one DAC (imc_array.py lines 92-104; area and delay are zero). -/
def dacE (a : Arr) : Rat := if a.bs = 1 then 0 else 5 / 100 * a.bs * a.tech.vdd ^ 2

/-- `math.log2(n) % 1 == 0` for a positive whole number. -/
def pow2 (n : Nat) : Bool := decide (n = 2 ^ Nat.log 2 n)

/-- Output precision of the regular adder tree (imc_array.py lines 156, 163, 245, 255). -/
def outPrec (a : Arr) : Nat := if a.aimc then 0 else a.wp + Nat.log 2 a.bl

/-- Inputs and input precision of the place value tree (lines 171-176). -/
def pvIn (a : Arr) : Nat := if a.aimc then a.wp else a.bs
def pvPrec (a : Arr) : Nat := if a.aimc then a.adcRes else outPrec a

/-- Output precision of the accumulator (lines 196-203). -/
def accPrec (a : Arr) : Nat := if a.aimc then a.act + a.adcRes + a.wp else a.act + Nat.log 2 a.bl + a.wp

/-- Number of one bit multipliers (lines 140-151). -/
def nMults (a : Arr) : Nat := if a.aimc then a.wp * a.wl * a.bl * a.banks else a.bs * a.wp * a.wl * a.bl * a.banks

/-- `get_area` (imc_array.py lines 106-222): the breakdown, or the assertion that fails. -/
def getArea (a : Arr) : Except PyErr (List (String × Rat)) :=
  let dacs : Rat := 0
  let adcs : Rat := if a.aimc then a.adc.1 * a.wp * a.wl * a.banks else 0
  let mults : Rat := a.tech.nd2Area * nMults a
  if a.aimc = false ∧ pow2 a.bl = false then .error .assertion
  else
    let regular : Rat := if a.aimc then 0 else adderA a.tech * (treeAdders a.bl a.wp (Nat.log 2 a.bl) : Rat) * ((a.bs * a.wl * a.banks : Nat) : Rat)
    if pvIn a ≠ 1 ∧ pow2 (pvIn a) = false then .error .assertion
    else
      let pv : Rat := adderA a.tech * pvAdders (pvIn a) (pvPrec a) * ((a.wl * a.banks : Nat) : Rat)
      let acc : Rat := if a.bs = a.act then 0
        else adderA a.tech * ((accPrec a * a.wl * a.banks : Nat) : Rat) + a.tech.dffArea * ((accPrec a * a.wl * a.banks : Nat) : Rat)
      .ok [("cells", a.cells), ("dacs", dacs), ("adcs", adcs), ("mults", mults), ("adders_regular", regular), ("adders_pv", pv), ("accumulators", acc)]

/-- Output precision of the place value tree (lines 275, 280). -/
def pvOut (a : Arr) : Nat := if pvIn a = 1 then pvPrec a else pvIn a + pvPrec a

/-- `get_tclk` (imc_array.py lines 224-318) -/
def getTclk (a : Arr) : Except PyErr (List (String × Rat)) :=
  let adcs : Rat := if a.aimc then a.adc.2.1 else 0
  let mults : Rat := a.tech.nd2Dly
  if a.aimc = false ∧ pow2 a.bl = false then .error .assertion
  else
    let regular : Rat := if a.aimc then 0
      else ((Nat.log 2 a.bl : Rat) - 1) * in2sum a.tech + in2cout a.tech + ((outPrec a : Rat) - 1 - 1) * cin2cout a.tech
    let pv : Rat := if pvIn a = 1 then 0
      else ((Nat.log 2 (pvIn a) : Rat) - 1) * in2sum a.tech + in2cout a.tech + ((pvOut a : Rat) - pvPrec a - 1) * cin2cout a.tech
    if a.bs = a.act then
      .ok [("cells", 0), ("dacs", 0), ("adcs", adcs), ("mults", mults), ("adders_regular", regular), ("adders_pv", pv), ("accumulators", 0)]
    else if pvOut a < accPrec a then
      .ok [("cells", 0), ("dacs", 0), ("adcs", adcs), ("mults", mults), ("adders_regular", regular), ("adders_pv", pv),
        ("accumulators", in2cout a.tech + ((accPrec a : Rat) - pvOut a - 1) * cin2cout a.tech)]
    else .error .assertion

/-- `get_peak_energy_single_cycle` (imc_array.py lines 320-430) -/
def peakEnergy (a : Arr) : List (String × Rat) :=
  [("local_bl_precharging", 0),
   ("dacs", if a.aimc then dacE a * a.bl * a.banks else 0),
   ("adcs", if a.aimc then a.adc.2.2 * a.wp * a.wl * a.banks else 0),
   ("mults", multE a.tech * nMults a),
   ("analog_bl_addition", if a.aimc then (a.tech.blCap * a.tech.vdd ^ 2 * a.wp) * a.wl * a.bl * a.banks else 0),
   ("adders_regular", if a.aimc then 0
      else adderE a.tech * (treeAdders a.bl a.wp (Nat.log 2 a.bl) : Rat) * ((a.bs * a.wl * a.banks : Nat) : Rat)),
   ("adders_pv", adderE a.tech * pvAdders (pvIn a) (pvPrec a) * ((a.wl * a.banks : Nat) : Rat)),
   ("accumulators", if a.bs = a.act then 0
      else adderE a.tech * ((accPrec a * a.wl * a.banks : Nat) : Rat) + regE a.tech * ((accPrec a * a.wl * a.banks : Nat) : Rat))]

/-- `get_energy_for_a_layer` (imc_array.py lines 457-603).  `rows`, `cols`, `times` are what `get_mapped_oa_dim` returns, `pre` the precharge energy.
`none` when the adder loop does not end. -/
def layerEnergy (a : Arr) (rows : Nat) (cols times pre : Rat) : Option (List (String × Rat)) :=
  let ser : Rat := (a.act : Rat) / a.bs
  match (if a.aimc then some 0 else treeEnergy a.tech a.wp rows (Nat.log 2 a.bl)) with
  | none => none
  | some tree => some
    [("local_bl_precharging", pre),
     ("dacs", if a.aimc then dacE a * rows * ser * times else 0),
     ("adcs", if a.aimc then a.adc.2.2 * a.wp * cols * ser * times else 0),
     ("mults", multE a.tech * ((if a.aimc then a.wp * a.wl * rows else a.bs * a.wp * a.wl * a.bl : Nat) : Rat) * ser * times),
     ("analog_bl_addition", if a.aimc then (a.tech.blCap * a.tech.vdd ^ 2 * a.wp) * cols * a.bl * ser * times else 0),
     ("adders_regular", if a.aimc then 0 else tree * (a.bs * cols) * ser * times),
     ("adders_pv", adderE a.tech * pvAdders (pvIn a) (pvPrec a) * cols * ser * times),
     ("accumulators", if a.bs = a.act then 0 else (adderE a.tech + regE a.tech) * accPrec a * cols * ser * times)]

/-! ### Mapped rows -/

variable {D : Type} [DecidableEq D]

/-- Lines 261-275: the tables of partially relevant pairs. -/
def prStep (ir : List D) (s : Dict D (Dict D Rat) × Dict D D) (p : D × D) : Dict D (Dict D Rat) × Dict D D :=
  if p.1 ∈ ir then (s.1.set p.2 [(p.1, 1)], s.2.set p.1 p.2) else (s.1.set p.1 [(p.2, 1)], s.2.set p.2 p.1)

/-- Lines 277-288 for one weight-irrelevant dimension: its unrolling on the wordlines is recorded. -/
def wlStep (link : Dict D D) (wl : Dict D Rat) (prSm : Dict D (Dict D Rat)) (w : D) : Except PyErr (Dict D (Dict D Rat)) :=
  match link.get? w with
  | none => .error .keyError
  | some key =>
    match wl.get? w with
    | none => .ok prSm
    | some f =>
      match prSm.get? key with
      | none => .error .keyError
      | some t =>
        if wl.length = 1 then .ok (prSm.set key (t.set w f))
        else
          match t.get? w with
          | none => .error .keyError
          | some v => .ok (prSm.set key (t.set w (v * f)))

def wlLoop (link : Dict D D) (wl : Dict D Rat) : Dict D (Dict D Rat) → List D → Except PyErr (Dict D (Dict D Rat))
  | prSm, [] => .ok prSm
  | prSm, w :: ws =>
    match wlStep link wl prSm w with
    | .error e => .error e
    | .ok prSm' => wlLoop link wl prSm' ws

/-- Additional rows of a dimension (lines 298-301, 313-316). -/
def extra (prSm : Dict D (Dict D Rat)) (d : D) : Except PyErr Rat :=
  match prSm.get? d with
  | none => .ok 0
  | some t =>
    match t with
    | [] => .error .indexError
    | e :: _ => .ok (e.2 - 1)

/-- Lines 310-318: dimensions (in the order of a set) are paired with sizes (in the order of the table) by position. -/
def rowsLoop (prSm : Dict D (Dict D Rat)) : List (D × Rat) → Rat → Rat → Except PyErr (Rat × Rat)
  | [], total, adder => .ok (total, adder)
  | (d, s) :: r, total, adder =>
    match extra prSm d with
    | .error e => .error e
    | .ok x => rowsLoop prSm r (total * (s + x)) (adder * s)

/-- `calculate_mapped_rows_when_diagonal_mapping_found` (imc_unit.py lines 248-322).  `blDims` are the dimensions of `bl` in the order in which the set of
dimensions is traversed.  With a single dimension line 296 takes the second of one size. -/
def mappedRows (ir : List D) (pairs : List (D × D)) (wl bl : Dict D Rat) (blDims : List D) : Except PyErr (Int × Int) :=
  let s := pairs.foldl (prStep ir) ([], [])
  match wlLoop s.2 wl s.1 ir with
  | .error e => .error e
  | .ok prSm =>
    match blDims with
    | [d] =>
      match (bl.map Prod.snd)[1]? with
      | none => .error .indexError
      | some size =>
        match extra prSm d with
        | .error e => .error e
        | .ok x => .ok (⌈size + x⌉, ⌈size⌉)
    | ds =>
      match rowsLoop prSm (ds.zip (bl.map Prod.snd)) 1 1 with
      | .error e => .error e
      | .ok r => .ok (⌈r.1⌉, ⌈r.2⌉)

/-- The row and column part of `get_mapped_oa_dim` (imc_unit.py lines 180-246): rows in total, rows for the adders, columns.  `wl`, `bl`: the unrolling on the two
dimensions, `none` when the dimension is not in the mapping; `math.prod` of no factors is one. -/
def mappedDims (ir : List D) (pairs : List (D × D)) (wl bl : Option (Dict D Rat)) (blDims : List D) : Except PyErr (Int × Int × Rat) :=
  let cols : Rat := match wl with
    | none => 1
    | some w => (w.map Prod.snd).prod
  let diag : Bool := match wl with
    | none => false
    | some w => w.any fun e => decide (e.1 ∈ ir)
  match bl with
  | none => .ok (1, 1, cols)
  | some b =>
    let total : Int := ⌈(b.map Prod.snd).prod⌉
    if diag = false ∨ total = 1 then .ok (total, total, cols)
    else
      match mappedRows ir pairs (wl.getD []) b blDims with
      | .error e => .error e
      | .ok r => .ok (r.1, r.2, cols)

/-! ### Equality and areas -/

/-- State of an array object that takes part in `__eq__` (imc_array.py lines 47-61): the arguments it was made from and the breakdowns; `energy` is `none` until a
layer has been evaluated (imc_unit.py line 67, imc_array.py line 591). -/
structure ArrObj where
  cfg : Arr
  area : List (String × Rat)
  tclk : List (String × Rat)
  energy : Option (List (String × Rat))

/-- Effect of evaluating a layer on the object (line 591). -/
def ArrObj.evalLayer (o : ArrObj) (e : List (String × Rat)) : ArrObj := { o with energy := some e }

/-- `__eq__` given whether the arguments are equal. -/
def ArrObj.eq (o p : ArrObj) (sameArgs : Bool) : Bool :=
  decide (o.area = p.area) && decide (o.tclk = p.tclk) && decide (o.energy = p.energy) && sameArgs

/-- One memory in `collect_area_data` (cost_model_imc.py lines 71-75): total and breakdown by name. -/
def areaStep (s : Rat × Dict String Rat) (m : String × Rat) : Rat × Dict String Rat := (s.1 + m.2, s.2.set m.1 m.2)

/-- `collect_area_data` (cost_model_imc.py lines 64-77): memory area, breakdown, total area. -/
def collectArea (imc : Rat) (mems : List (String × Rat)) : Rat × Dict String Rat × Rat :=
  let s := mems.foldl areaStep (0, [])
  (s.1, s.2, imc + s.1)

end Verif.Imc
