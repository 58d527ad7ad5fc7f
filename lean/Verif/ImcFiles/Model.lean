import Verif.ImcCall.Model
import Verif.LocalCall.Model

/-! A whole call for an in-memory-computing array on the contents of the three files (`get_hardware_performance_zigzag_imc` of /repo/zigzag/api.py): `ImcCall` with
the array that the accelerator file describes and the layers of the workload file.

Outside of this model, marked by `notImplemented`: what is outside of `LocalCall`, cells whose area is extracted by CACTI, precisions or resolutions that are not whole
numbers, and accelerator files without in-memory-computing array (the code raises an exception when the first layer is evaluated). The area of a converter is a power with
a real exponent and therefore a parameter. -/

namespace Verif.ImcFiles

open Call (LayerOptions)
open Equation (Text)
open Files (Doc AccR)
open ImcCall (Chip)
open LocalCall (Entry)
open Net (Node)
open Whole (AccD)

/-- A number that is a natural number. -/
def natOf (q : ℚ) : Option Nat := if q.den = 1 ∧ 0 ≤ q.num then some q.num.toNat else none

/-- `get_adc_cost` (/repo/zigzag/hardware/architecture/imc_array.py lines 64-90): area, delay and energy of a converter; `adcArea` stands for line 74. -/
def adcOf (adcArea : Nat → ℚ) (t : Imc.Tech) (res bl : Nat) : ℚ × ℚ × ℚ :=
  (if res = 0 then 0 else if res = 1 then 0 else adcArea res,
   if res = 0 then 0 else res * (653 / 100000 * bl + 640 / 1000),
   if res = 0 then 0 else (100 * res + 1 / 1000 * 4 ^ res) * t.vdd ^ 2 / 1000)

/-- `create_imc_array` (/repo/zigzag/parser/accelerator_factory.py lines 91-118) and `ImcUnit.__init__` (/repo/zigzag/hardware/architecture/imc_unit.py lines 30-72);
the area of the cells is that of `get_area` (imc_array.py lines 124-131). -/
def chipOf (adcArea : Nat → ℚ) (a : AccR) (sizes : Dict String Nat) : Except PyErr (Chip String) :=
  match Dict.get? a.mems "cells" with
  | none => .error .keyError
  | some cells =>
    if cells.auto then .error .notImplemented
    else
      match a.arr.prec, a.arr.bitSerial.bind natOf, (if a.arr.type = some "analog" then a.arr.adc.bind natOf else some 0) with
      | some [act, wp], some bs, some res =>
        if act < 0 ∨ wp < 0 ∨ cells.size < 0 then .error .notImplemented
        else
          match sizes.keys.insertionSort (· ≤ ·) with
          | wl :: bl :: rest =>
            match cells.area with
            | none => .error .assertion
            | some area =>
              let size := fun d => (sizes.get? d).getD 0
              .ok ⟨⟨Imc.tech28, decide (a.arr.type = some "analog"), bs, act.toNat, wp.toNat, res, size wl, size bl, (rest.map size).prod,
                (sizes.map Prod.snd).prod * area, adcOf adcArea Imc.tech28 res (size bl)⟩, wl, bl, cells.size.toNat⟩
          | _ => .error .indexError
      | _, _, _ => .error .notImplemented

/-- `get_macro_level_peak_performance` (imc_array.py lines 432-455): operations per second, per second and power, and per second and area. -/
def peak (k : Imc.Arr) (area clock : ℚ) : Except PyErr (ℚ × ℚ × ℚ) :=
  if k.bs = 0 ∨ k.act = 0 then .error .zeroDivision
  else
    let macs : ℚ := (k.wl * k.bl : ℚ) / (k.act / k.bs) * k.banks
    let energy := ImcCall.total (Imc.peakEnergy k)
    if clock = 0 ∨ energy = 0 ∨ area = 0 then .error .zeroDivision
    else .ok (macs * 2 / clock / 1000, macs * 2 / energy, macs * 2 / clock / 1000 / area)

/-- `ImcArray.__init__` (imc_array.py lines 18-45). -/
def construct (adcArea : Nat → ℚ) (a : AccR) (sizes : Dict String Nat) : Except PyErr (Chip String) :=
  match chipOf adcArea a sizes with
  | .error e => .error e
  | .ok K =>
    match Imc.getArea K.arr with
    | .error e => .error e
    | .ok area =>
      match Imc.getTclk K.arr with
      | .error e => .error e
      | .ok clock =>
        match peak K.arr (ImcCall.total area) (ImcCall.total clock) with
        | .error e => .error e
        | .ok _ => .ok K

/-- Sizes that are not negative. -/
def natSizes (sizes : Dict String Int) : Dict String Nat := sizes.map fun e => (e.1, e.2.toNat)

/-- The constructor as `Files.parseAcc` calls it. -/
def constructor (adcArea : Nat → ℚ) (a : AccR) : Except PyErr Unit :=
  match Files.dimSizes a.arr with
  | .error e => .error e
  | .ok sizes =>
    match construct adcArea a (natSizes sizes) with
    | .error e => .error e
    | .ok _ => .ok ()

/-- `AcceleratorParserStage` (/repo/zigzag/stages/parser/accelerator_parser.py lines 21-38): the accelerator and its array.  The array has no energy of a multiplier. -/
def accelerator (cacti : String → String → Int → Int → Except PyErr (ℚ × ℚ × ℚ)) (adcArea : Nat → ℚ) (d : Doc) : Except PyErr (AccD String × Chip String) :=
  match Files.parseAcc cacti (constructor adcArea) d with
  | .error e => .error e
  | .ok acc =>
    match Files.readAcc (Files.normalize Files.accRule d) with
    | none => .error .notImplemented
    | some a =>
      if a.arr.imc = false then .error .notImplemented
      else
        match construct adcArea a (natSizes acc.sizes) with
        | .error e => .error e
        | .ok K =>
          match Call.memsOf a.mems acc.levels with
          | .error e => .error e
          | .ok ms => .ok (⟨ms, natSizes acc.sizes, 0⟩, K)

/-- What an in-memory-computing array changes of a layer: `Pooling` and `Add` layers are skipped (/repo/zigzag/stages/workload_iterator.py lines 38-44), and an operation
takes `activation_precision / bit_serial_precision` cycles (/repo/zigzag/cost_model/cost_model_imc.py line 53), which are powers of two in accepted files. -/
def adapt (K : Chip String) (y : Entry) (n : Node String Text) : Node String Text :=
  { n with skip := decide (y.2.1 = "Pooling" ∨ y.2.1 = "Add"), layer := { n.layer with cyclesPerOp := K.arr.act / K.arr.bs } }

/-- `get_hardware_performance_zigzag_imc` (/repo/zigzag/api.py lines 28-159, 162-194) on the contents of the files. -/
def call (cacti : String → String → Int → Int → Except PyErr (ℚ × ℚ × ℚ)) (adcArea : Nat → ℚ) (eqn : List Char → Bool) (rel : List Char → Option LayerBuild.RelD)
    (fact : Nat → List (Nat × Nat)) (lo : LayerOptions) (o : Net.Options String Text) (opt : String) (da dw dm : Doc) (fuel : Nat) :
    Except PyErr (ImcCall.Reply String Text) :=
  match Pipeline.Opt.parse opt with
  | .error e => .error e
  | .ok _ =>
    match LocalCall.workload eqn rel lo dw dm with
    | .error e => .error e
    | .ok p =>
      match accelerator cacti adcArea da with
      | .error e => .error e
      | .ok (a, K) =>
        match Whole.accelerator (fun _ => (0, 0)) a with
        | .error e => .error e
        | .ok _ =>
          match LocalCall.prepare (adapt K) p with
          | .error e => .error e
          | .ok x => ImcCall.network (fun _ => (0, 0)) fact K a o opt x.1 x.2 fuel

end Verif.ImcFiles
