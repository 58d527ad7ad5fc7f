import Verif.Balance.Model
import Verif.Cme.Model
import Mathlib.Data.Rat.Floor

/-! Loading, off-loading and overall latency: /repo/zigzag/cost_model/cost_model.py lines 805-1113.  A layer operand is identified with its memory
operand (`MemoryOperandLinks` is a bijection).  Python floats are exact rationals, `cycles_per_op` is a whole number
(the validator only accepts powers of two with `bit_serial_precision ≤ input_precision`,
/repo/zigzag/parser/accelerator_validator.py lines 268-280; it is 1 without in-memory computing). -/

namespace Verif.Latency

open Verif.Cme (Dir)

/-- Memory operands (`Constants.MEM_OP_1`, `MEM_OP_2`, `OUTPUT_MEM_OP`, /repo/zigzag/datatypes.py). -/
inductive Operand where
  | in1 | in2 | out
  deriving DecidableEq, Repr

/-- `(mem_op, mem_lv, mov_dir)`: a movement served by a port. -/
abbrev Key := Operand × Nat × Dir

/-- `MemoryPort` (/repo/zigzag/hardware/architecture/memory_port.py lines 26-85) -/
structure Port where
  bw : Nat
  served : List Key

/-- `port_is_shared_by_two_input_operands` (memory_port.py lines 64-67) -/
def Port.shared (p : Port) : Bool :=
  p.served.any (fun k => k.1 == .in1) && p.served.any (fun k => k.1 == .in2)

/-- What the loading computation reads: period counts, real transfer cycles, average bandwidth (already divided by the cycles for one operation and
rounded up, line 953), bits in the lowest level and `total_computation_cycles` (line 829). -/
structure Info where
  count : Key → Nat
  real : Key → Nat
  reqBw : Key → Nat
  bits : Operand → Nat
  compute : ℚ

/-- `data_loading_cc_per_op` and `data_offloading_cc_per_op` in one table. -/
abbrev Table := Dict Key (ℚ × Bool)

/-- Lines 929-946: movements of a port that matter, without partial sums of the output and without movements that never happen. -/
def relevant (info : Info) (k : Key) : Bool :=
  !(k.1 == .out && (k.2.2 == .rdToLow || k.2.2 == .wrByHigh)) && info.count k != 0

def once (info : Info) (p : Port) : List Key := p.served.filter fun k => relevant info k && info.count k == 1
def often (info : Info) (p : Port) : List Key := p.served.filter fun k => relevant info k && info.count k != 1

/-- Lines 832-834: cycles in which the port is free during the computation. -/
def surplus (info : Info) (p : Port) : ℚ :=
  max 0 (((p.bw : ℚ) - (((often info p).map info.reqBw).sum : Nat)) / p.bw * info.compute)

/-- Lines 817-824: minimal cycles of a movement. -/
def minCycles (info : Info) (p : Port) (k : Key) : ℚ := (⌈((info.bits k.1 : ℚ)) / p.bw⌉ : ℚ)

/-- `calc_loading_single_port` (lines 805-961): the table after one port.  A port without bandwidth divides by zero. -/
def loadPort (info : Info) (p : Port) (t : Table) : Except PyErr Table :=
  if p.bw = 0 then .error .zeroDivision
  else
    match Balance.reduceBalanced ((once info p).map fun k => (info.real k : ℚ)) ((once info p).map (minCycles info p)) (surplus info p) with
    | .error e => .error e
    | .ok (remaining, _) =>
      let t1 := ((once info p).zip remaining).foldl (fun t e => t.set e.1 (e.2, p.shared)) t
      .ok ((often info p).foldl (fun t k => t.set k (((info.real k : Nat) : ℚ), p.shared)) t1)

/-- Lines 1060-1062: all ports. -/
def loadPorts (info : Info) : List Port → Table → Except PyErr Table
  | [], t => .ok t
  | p :: ps, t =>
    match loadPort info p t with
    | .error e => .error e
    | .ok t' => loadPorts info ps t'

/-- The three parts collected for one operand (lines 969-971). -/
structure Parts where
  individual : ℚ
  half : ℚ
  shared : ℚ
  deriving DecidableEq

/-- Lines 985-994: one link between two levels.  The half-shared part is overwritten, not added (line 994). -/
def addLink (p : Parts) (a b : ℚ × Bool) : Parts :=
  let longest := max a.1 b.1
  if !a.2 && !b.2 then { p with individual := p.individual + longest }
  else if a.2 && b.2 then { p with shared := p.shared + longest }
  else { p with half := longest }

/-- Lines 973-994: the links from level `lv` on; a missing entry raises `KeyError`. -/
def parts (t : Table) (op : Operand) : Nat → Nat → Parts → Except PyErr Parts
  | _, 0, p => .ok p
  | lv, n + 1, p =>
    match t.get? (op, lv, .wrByHigh), t.get? (op, lv + 1, .rdToLow) with
    | some a, some b => parts t op (lv + 1) n (addLink p a b)
    | _, _ => .error .keyError

/-- Lines 998-1008 -/
def combine (p1 p2 : Parts) : ℚ :=
  min (p1.shared + max (p2.shared + p2.half + p2.individual) (p1.half + p1.individual))
    (p2.shared + max (p1.shared + p1.half + p1.individual) (p2.half + p2.individual))

/-- `calc_onloading_combined` (lines 963-1015) for the input operands of the layer, each with its number of links (`active_mem_level - 1`). -/
def onloading (t : Table) : List (Operand × Nat) → Except PyErr ℚ
  | [] => .error .indexError
  | [(a, n)] =>
    match parts t a 0 n ⟨0, 0, 0⟩ with
    | .error e => .error e
    | .ok p => .ok p.individual
  | (a, n) :: (b, m) :: _ =>
    match parts t a 0 n ⟨0, 0, 0⟩ with
    | .error e => .error e
    | .ok p =>
      match parts t b 0 m ⟨0, 0, 0⟩ with
      | .error e => .error e
      | .ok q => .ok (combine p q)

/-- `calc_offloading_combined` (lines 1017-1035) -/
def offloading (t : Table) : Nat → Nat → Except PyErr ℚ
  | _, 0 => .ok 0
  | lv, n + 1 =>
    match t.get? (.out, lv, .rdToHigh), t.get? (.out, lv + 1, .wrByLow) with
    | some a, some b =>
      match offloading t (lv + 1) n with
      | .error e => .error e
      | .ok r => .ok (max a.1 b.1 + r)
    | _, _ => .error .keyError

/-- The results of `calc_overall_latency` (lines 1077-1113). -/
structure Overall where
  ideal : ℚ
  idealTemporal : ℚ
  latency0 : ℚ
  latency1 : ℚ
  latency2 : ℚ
  spatialUtil : ℚ
  util0 : ℚ
  util1 : ℚ
  util2 : ℚ

/-- `calc_overall_latency` (lines 1077-1113) -/
def overall (macs units totalCycle cyclesPerOp : Nat) (stall onload offload : ℚ) : Except PyErr Overall :=
  if units = 0 then .error .zeroDivision
  else
    let ideal : ℚ := ((⌈(macs : ℚ) / units⌉ : ℚ)) * cyclesPerOp
    let idealTemporal : ℚ := (totalCycle : ℚ) * cyclesPerOp
    let l0 := idealTemporal + stall
    let l1 := idealTemporal + stall + onload
    let l2 := idealTemporal + stall + onload + offload
    if idealTemporal = 0 ∨ l0 = 0 ∨ l1 = 0 ∨ l2 = 0 then .error .zeroDivision
    else .ok { ideal := ideal, idealTemporal := idealTemporal, latency0 := l0, latency1 := l1, latency2 := l2
               spatialUtil := ideal / idealTemporal, util0 := ideal / l0, util1 := ideal / l1, util2 := ideal / l2 }

/-- `calc_data_loading_latency` and `calc_overall_latency` together (lines 1044-1113): `inputs` with their numbers of links, `outLinks` links of the
output. -/
def latency (info : Info) (ports : List Port) (inputs : List (Operand × Nat)) (outLinks macs units totalCycle cyclesPerOp : Nat) (stall : ℚ) :
    Except PyErr Overall :=
  match loadPorts info ports [] with
  | .error e => .error e
  | .ok t =>
    match onloading t inputs with
    | .error e => .error e
    | .ok on =>
      match offloading t 0 outLinks with
      | .error e => .error e
      | .ok off => overall macs units totalCycle cyclesPerOp stall on off

end Verif.Latency
