import Verif.Cme.Model
import Mathlib.Data.Rat.Floor

/-! Memory accesses and energy of one evaluation: `calc_memory_word_access`, `_calc_memory_access`, `calc_mac_energy_cost` and
`calc_memory_energy_cost` (/repo/zigzag/cost_model/cost_model.py lines 483-605).  Python floats are exact rationals here. -/

namespace Verif.Energy

open Verif.Cme

/-- One memory level as seen by one operand: access energies and the bandwidths of `get_max_bandwidth`/`get_min_bandwidth`
(/repo/zigzag/hardware/architecture/memory_level.py lines 98-125; `None` when no port is allocated). -/
structure Level where
  readEnergy : ℚ
  writeEnergy : ℚ
  bwMax : Dir → Option Nat
  bwMin : Dir → Option Nat

/-- The three attributes of a `DataMovePattern` that are used (lines 491-493). -/
structure Move where
  amount : FourWay
  precision : FourWay
  count : FourWay

/-- What the evaluation needs for one layer operand: data movement for each memory level in use, the levels of its memory operand and
`unit_count` for each architecture level. -/
structure OpData where
  moves : List Move
  levels : List Level
  units : List ℚ

/-- Python's `int`: truncation towards zero. -/
def trunc (q : ℚ) : Int := if 0 ≤ q then ⌊q⌋ else ⌈q⌉

/-- `_calc_memory_access` (lines 519-537) -/
def memAccess (amount precision count : ℚ) (bwMax bwMin : Nat) (units : ℚ) : Int :=
  if amount = 0 ∨ precision = 0 then 0
  else trunc ((⌈amount * precision / bwMin⌉ : ℚ) * ((bwMin : ℚ) / bwMax) * count * units)

/-- Lines 496-515: the accesses in one direction. -/
def dirAccess (m : Move) (lv : Level) (units : ℚ) (d : Dir) : Except PyErr Int :=
  match lv.bwMax d, lv.bwMin d with
  | none, none => if m.amount.get d = 0 then .ok 0 else .error .valueError
  | some mx, some mn =>
    if mx ≠ 0 ∧ mn ≠ 0 then .ok (memAccess (m.amount.get d) (m.precision.get d) (m.count.get d) mx mn units) else .error .assertion
  | _, _ => .error .assertion

/-- Lines 494-516: all four directions.  Every failure is the failure of some direction. -/
def levelAccess (m : Move) (lv : Level) (units : ℚ) : Except PyErr FourWay :=
  match dirAccess m lv units .rdToLow with
  | .error e => .error e
  | .ok a =>
    match dirAccess m lv units .wrByLow with
    | .error e => .error e
    | .ok b =>
      match dirAccess m lv units .rdToHigh with
      | .error e => .error e
      | .ok c =>
        match dirAccess m lv units .wrByHigh with
        | .error e => .error e
        | .ok d => .ok { rdToHigh := c, wrByHigh := d, rdToLow := a, wrByLow := b }

/-- Lines 488-516: the levels of one operand from level `i` on. -/
def opAccess (o : OpData) : Nat → List Move → Except PyErr (List FourWay)
  | _, [] => .ok []
  | i, m :: ms =>
    match o.levels[i]?, o.units[i + 1]? with
    | some lv, some u =>
      match levelAccess m lv u with
      | .error e => .error e
      | .ok a =>
        match opAccess o (i + 1) ms with
        | .error e => .error e
        | .ok rest => .ok (a :: rest)
    | _, _ => .error .indexError

variable {Op : Type} [DecidableEq Op]

/-- `calc_memory_word_access` (lines 483-517) -/
def wordAccess : List (Op × OpData) → Except PyErr (Dict Op (List FourWay))
  | [] => .ok []
  | (k, o) :: rest =>
    match opAccess o 0 o.moves with
    | .error e => .error e
    | .ok a =>
      match wordAccess rest with
      | .error e => .error e
      | .ok t => .ok ((k, a) :: t)

/-- Lines 576-579: energy in the four directions. -/
def dirEnergy (a : FourWay) (lv : Level) : FourWay :=
  { rdToHigh := a.rdToHigh * lv.readEnergy, wrByHigh := a.wrByHigh * lv.writeEnergy
    rdToLow := a.rdToLow * lv.readEnergy, wrByLow := a.wrByLow * lv.writeEnergy }

/-- Lines 580-582 -/
def levelEnergy (a : FourWay) (lv : Level) : ℚ :=
  let e := dirEnergy a lv
  (e.rdToHigh + e.rdToLow) + (e.wrByHigh + e.wrByLow)

/-- The tables built in lines 561-599. -/
structure EnergySt (Op : Type) where
  breakdown : Dict Op (List ℚ)
  further : Dict Op (List FourWay)
  total : ℚ

/-- Lines 567-599: one operand.  `zip` stops at the shorter list. -/
def energyStep (levels : Op → List Level) (st : EnergySt Op) (e : Op × List FourWay) : EnergySt Op :=
  let rows := e.2.zip (levels e.1)
  { breakdown := st.breakdown.set e.1 (rows.map fun r => levelEnergy r.1 r.2)
    further := st.further.set e.1 (rows.map fun r => dirEnergy r.1 r.2)
    total := rows.foldl (fun t r => t + levelEnergy r.1 r.2) st.total }

/-- `calc_memory_energy_cost` (lines 555-605) -/
def memEnergy (levels : Op → List Level) (access : Dict Op (List FourWay)) : EnergySt Op :=
  access.foldl (energyStep levels) ⟨[], [], 0⟩

/-- The levels of an operand. -/
def levelsOf (ops : List (Op × OpData)) (k : Op) : List Level := ((Dict.get? ops k).map OpData.levels).getD []

/-- `calc_energy` (lines 539-553) after `calc_memory_word_access`: tables, memory energy, MAC energy and total. -/
structure Energies (Op : Type) where
  access : Dict Op (List FourWay)
  breakdown : Dict Op (List ℚ)
  further : Dict Op (List FourWay)
  mem : ℚ
  mac : ℚ
  total : ℚ

def energy (ops : List (Op × OpData)) (macEnergy : ℚ) (macCount : Nat) : Except PyErr (Energies Op) :=
  match wordAccess ops with
  | .error e => .error e
  | .ok a =>
    let st := memEnergy (levelsOf ops) a
    let mac := macEnergy * macCount
    .ok { access := a, breakdown := st.breakdown, further := st.further, mem := st.total, mac := mac, total := st.total + mac }

end Verif.Energy
