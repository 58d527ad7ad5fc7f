import Verif.Base.Dict
import Mathlib.Data.Rat.Defs
import Mathlib.Algebra.Order.Ring.Rat

/-! Cost results and their sum: /repo/zigzag/cost_model/cost_model.py lines 33-283 and /repo/zigzag/mapping/data_movement.py.
Python floats are exact rationals here. -/

namespace Verif.Cme

/-- `DataDirection` (/repo/zigzag/hardware/architecture/memory_port.py lines 15-19). -/
inductive Dir where
  | rdToHigh | wrByHigh | rdToLow | wrByLow
  deriving DecidableEq, Repr

def Dir.all : List Dir := [.rdToHigh, .wrByHigh, .rdToLow, .wrByLow]

/-- `FourWayDataMoving` (data_movement.py lines 10-40): one value for each direction. -/
@[ext] structure FourWay where
  rdToHigh : ℚ
  wrByHigh : ℚ
  rdToLow : ℚ
  wrByLow : ℚ
  deriving DecidableEq, Repr

namespace FourWay

/-- `get` (lines 25-27) -/
def get (f : FourWay) : Dir → ℚ
  | .rdToHigh => f.rdToHigh
  | .wrByHigh => f.wrByHigh
  | .rdToLow => f.rdToLow
  | .wrByLow => f.wrByLow

/-- `set` (lines 29-31) -/
def set (f : FourWay) (d : Dir) (v : ℚ) : FourWay :=
  match d with
  | .rdToHigh => { f with rdToHigh := v }
  | .wrByHigh => { f with wrByHigh := v }
  | .rdToLow => { f with rdToLow := v }
  | .wrByLow => { f with wrByLow := v }

/-- Constructor with a dictionary (lines 13-23): a missing direction raises `ValueError`. -/
def ofDict (d : Dict Dir ℚ) : Except PyErr FourWay :=
  match d.get? .rdToHigh, d.get? .wrByHigh, d.get? .rdToLow, d.get? .wrByLow with
  | some a, some b, some c, some e => .ok ⟨a, b, c, e⟩
  | _, _, _, _ => .error .valueError

/-- Constructor without argument (lines 15-17): all zero. -/
instance : Zero FourWay := ⟨⟨0, 0, 0, 0⟩⟩

/-- `__add__` (lines 33-35, 61-63, 73-75) -/
instance : Add FourWay := ⟨fun a b => ⟨a.rdToHigh + b.rdToHigh, a.wrByHigh + b.wrByHigh, a.rdToLow + b.rdToLow, a.wrByLow + b.wrByLow⟩⟩

/-- `__mul__` (lines 37-39, 65-67, 77-79) -/
def scale (f : FourWay) (s : ℚ) : FourWay := ⟨f.rdToHigh * s, f.wrByHigh * s, f.rdToLow * s, f.wrByLow * s⟩

end FourWay

/-- The accumulated numbers of a cost result (cost_model.py lines 38-57, 258-269). -/
@[ext] structure Totals where
  macEnergy : ℚ
  memEnergy : ℚ
  energyTotal : ℚ
  onloading : ℚ
  offloading : ℚ
  ideal : ℚ
  idealTemporal : ℚ
  latency0 : ℚ
  latency1 : ℚ
  latency2 : ℚ
  deriving DecidableEq, Repr

/-- The MAC utilization numbers. -/
structure Util where
  spatial : ℚ
  util0 : ℚ
  util1 : ℚ
  util2 : ℚ
  deriving DecidableEq, Repr

/-- A cost result: `CostModelEvaluation` (`cumulative = false`, one layer) or `CumulativeCME`.  The accelerator is represented by its name. -/
structure Cme (Op : Type) where
  totals : Totals
  /-- `mem_energy_breakdown` -/
  energy : Dict Op (List ℚ)
  /-- `mem_energy_breakdown_further` -/
  energyDir : Dict Op (List FourWay)
  /-- `memory_word_access` -/
  access : Dict Op (List FourWay)
  util : Option Util
  cumulative : Bool
  layerIds : List Nat
  accelerator : Option (List Char)
  deriving DecidableEq

/-- `CumulativeCME()` (lines 255-280) -/
def empty (Op : Type) : Cme Op :=
  { totals := ⟨0, 0, 0, 0, 0, 0, 0, 0, 0, 0⟩, energy := [], energyDir := [], access := [], util := none, cumulative := true, layerIds := [], accelerator := none }

/-- Lines 65-71 and 122-129: sums of the accumulated numbers. -/
def Totals.add (a b : Totals) : Totals :=
  { macEnergy := a.macEnergy + b.macEnergy, memEnergy := a.memEnergy + b.memEnergy, energyTotal := a.energyTotal + b.energyTotal
    onloading := a.onloading + b.onloading, offloading := a.offloading + b.offloading, ideal := a.ideal + b.ideal
    idealTemporal := a.idealTemporal + b.idealTemporal, latency0 := a.latency0 + b.latency0, latency1 := a.latency1 + b.latency1
    latency2 := a.latency2 + b.latency2 }

/-- Lines 76-83: element-wise over the common length, then the rest of either list. -/
def addLists {V : Type} [Add V] (x y : List V) : List V :=
  let n := min x.length y.length
  List.zipWith (· + ·) (x.take n) (y.take n) ++ x.drop n ++ y.drop n

variable {Op : Type} [DecidableEq Op]

/-- Lines 74-83: one operand, if it is in the other table too. -/
def commonStep {V : Type} [Add V] (y r : Dict Op (List V)) (e : Op × List V) : Dict Op (List V) :=
  match y.get? e.1 with
  | some l => r.set e.1 (addLists e.2 l)
  | none => r

/-- Lines 73-83 (also 85-94 and 108-117): the operands in both tables. -/
def addCommon {V : Type} [Add V] (x y : Dict Op (List V)) : Dict Op (List V) := x.foldl (commonStep y) []

/-- Lines 99-104 and 119-122: copy the listed operands from a table; a missing operand raises `KeyError`. -/
def copyOps {V : Type} (src : Dict Op (List V)) : List Op → Dict Op (List V) → Except PyErr (Dict Op (List V))
  | [], r => .ok r
  | op :: t, r =>
    match src.get? op with
    | none => .error .keyError
    | some l => copyOps src t (r.set op l)

/-- One table: common operands, then the ones only in `self`, then the ones only in `other`. -/
def addTable {V : Type} [Add V] (x y : Dict Op (List V)) (onlyX onlyY : List Op) : Except PyErr (Dict Op (List V)) :=
  match copyOps x onlyX (addCommon x y) with
  | .error e => .error e
  | .ok r => copyOps y onlyY r

/-- Lines 132-135 and 196-199: division by zero raises. -/
def mkUtil (t : Totals) : Except PyErr Util :=
  if t.idealTemporal = 0 ∨ t.latency0 = 0 ∨ t.latency1 = 0 ∨ t.latency2 = 0 then .error .zeroDivision
  else .ok ⟨t.ideal / t.idealTemporal, t.ideal / t.latency0, t.ideal / t.latency1, t.ideal / t.latency2⟩

/-- Lines 143-157: the accelerator of the sum. -/
def pickAccelerator (a b : Cme Op) : Except PyErr (Option (List Char)) :=
  if a.cumulative = true ∧ a.accelerator = none then
    if b.accelerator = none then .error .assertion else .ok b.accelerator
  else if b.cumulative = true ∧ b.accelerator = none then
    if a.accelerator = none then .error .assertion else .ok a.accelerator
  else
    match a.accelerator, b.accelerator with
    | some x, some y =>
      if y.isPrefixOf x then .ok (some y)
      else if x.isPrefixOf y then .ok (some x)
      else .error .valueError
    | _, _ => .ok none

/-- `__add__` (lines 65-159); `ord` is the traversal order of the sets of operands `op_diff_self`, `op_diff_other`. -/
def add (ord : List Op → List Op) (a b : Cme Op) : Except PyErr (Cme Op) :=
  let onlyA := ord (a.energy.keys.filter (fun k => decide (k ∉ (addCommon a.energy b.energy).keys)))
  let onlyB := ord (b.energy.keys.filter (fun k => decide (k ∉ (addCommon a.energy b.energy).keys)))
  match addTable a.energy b.energy onlyA onlyB with
  | .error e => .error e
  | .ok energy =>
    match addTable a.energyDir b.energyDir onlyA onlyB with
    | .error e => .error e
    | .ok energyDir =>
      match addTable a.access b.access onlyA onlyB with
      | .error e => .error e
      | .ok access =>
        let totals := a.totals.add b.totals
        match mkUtil totals with
        | .error e => .error e
        | .ok u =>
          match pickAccelerator a b with
          | .error e => .error e
          | .ok acc =>
            .ok { totals, energy, energyDir, access, util := some u, cumulative := true, layerIds := a.layerIds ++ b.layerIds, accelerator := acc }

/-- Totals times a number (lines 164-168, 187-194). -/
def Totals.scale (t : Totals) (n : ℚ) : Totals :=
  { macEnergy := t.macEnergy * n, memEnergy := t.memEnergy * n, energyTotal := t.energyTotal * n
    onloading := t.onloading * n, offloading := t.offloading * n, ideal := t.ideal * n, idealTemporal := t.idealTemporal * n
    latency0 := t.latency0 * n, latency1 := t.latency1 * n, latency2 := t.latency2 * n }

/-- `__mul__` (lines 161-202) -/
def mul (a : Cme Op) (n : ℚ) : Except PyErr (Cme Op) :=
  let totals := a.totals.scale n
  match mkUtil totals with
  | .error e => .error e
  | .ok u =>
    .ok { a with totals, util := some u
                 energy := a.energy.map (fun e => (e.1, e.2.map (· * n)))
                 energyDir := a.energyDir.map (fun e => (e.1, e.2.map (fun f => f.scale n)))
                 access := a.access.map (fun e => (e.1, e.2.map (fun f => f.scale n))) }

/-- `SumStage.run` (/repo/zigzag/stages/results/reduce_stages.py lines 137-146). -/
def sumStage (ord : List Op → List Op) : List (Cme Op) → Cme Op → Except PyErr (Cme Op)
  | [], t => .ok t
  | c :: rest, t =>
    if c.cumulative = true then .error .assertion
    else match add ord t c with
      | .error e => .error e
      | .ok t' => sumStage ord rest t'

/-- The result of the sum stage: one total, and the list of all sub-results (lines 139-146). -/
def sumRun {Info : Type} (ord : List Op → List Op) (subs : List (Cme Op × Info)) : Except PyErr (Cme Op × List (Cme Op × Info)) :=
  match sumStage ord (subs.map Prod.fst) (empty Op) with
  | .error e => .error e
  | .ok t => .ok (t, subs)

end Verif.Cme
