import Verif.Reuse.Model
import Verif.Imc.Model

/-! Whole calls for in-memory-computing arrays (`get_hardware_performance_zigzag_imc` and `in_memory_compute` of /repo/zigzag/api.py): the stages for
locality are always there (lines 88-89), every mapping is evaluated by `CostModelEvaluationForIMC` (/repo/zigzag/cost_model/cost_model_imc.py), in which the
energy of the operations is that of the array for the layer, and clock and area of the first result are returned (lines 153-156).

Simplifications: an operation takes a whole number of cycles (`Whole.LayerIn.cyclesPerOp` stands for activation precision over bit serial precision); memories state
their area; energy of the array and everything else that is evaluated are computed one after the other (an exception of either is one of the evaluation). -/

namespace Verif.ImcCall

open Evaluate (Job Result)
open Latency (Operand)
open Net (Options)
open Pipeline (Env Cme)
open Ports (MemD)
open Reuse (LNode Graph)
open SpatialMapping (SM)
open Whole (AccD Acc)

/-- The array of the accelerator file: `Imc.Arr` (/repo/zigzag/hardware/architecture/imc_unit.py lines 30-72), the first two dimensions in alphabetical order
(lines 55-60) and `cells_size`. -/
structure Chip (OA : Type) where
  arr : Imc.Arr
  wlDim : OA
  blDim : OA
  cellsSize : Nat

section
variable {D : Type} [DecidableEq D]

/-- `precharge_interval` (imc_unit.py lines 340-350): the product of the loops before the first one that is relevant for the weights.  Loops have sizes of at least
one. -/
def interval (ir : List D) : List (D × ℚ) → ℚ
  | [] => 1
  | x :: t => if x.1 ∈ ir then x.2 * interval ir t else 1

/-- `mapped_group_depth` (lines 361-365): the product of the loops that are relevant for the weights. -/
def mappedDepth (r : List D) (loops : List (D × ℚ)) : ℚ := ((loops.filter fun x => decide (x.1 ∈ r)).map Prod.snd).prod

/-- `get_precharge_energy` (lines 324-369): `loops` are the loops of the lowest memory of the weights, `reads` the elements that it gives to the array. -/
def precharge (a : Imc.Arr) (cellsSize : Nat) (r ir : List D) (loops : List (D × ℚ)) (reads : ℚ) : ℚ × ℚ :=
  let depth : ℚ := (cellsSize : ℚ) / a.wp
  if depth > 1 then
    (((a.tech.wlCap * a.tech.vdd ^ 2) + (a.tech.blCap * a.tech.vdd ^ 2 * depth)) * a.wp * (reads / interval ir loops), mappedDepth r loops)
  else (0, 1)

variable {OA : Type} [DecidableEq OA]

/-- The loops of the lowest memory of an operand before loops are merged down (`mapping_dic_origin[op][0]`,
/repo/zigzag/mapping/temporal_mapping.py lines 22-26): the allocation of the order of the loops, which is that of the mapping (`Search.mapOrder_ok`). -/
def lowest (a : AccD OA) (c : Acc OA) (n : LNode OA D) (sm : SM OA D) (j : Job D) (op : Operand) : Except PyErr (List (D × ℚ)) := do
  let t ← Whole.task a c n.node.layer sm
  let tm ← Search.allocate c.hw c.topo t (j.tm op).flatten
  match (tm op)[0]? with
  | none => .error .indexError
  | some l => .ok l

/-- `unit_mem_data_movement[op][0].data_elem_move_count.rd_out_to_low` (imc_unit.py lines 352-355). -/
def reads (c : Acc OA) (j : Job D) (op : Operand) : Except PyErr ℚ := do
  let m ← Evaluate.mapping c.hw j false
  match Evaluate.pattern m op 0 with
  | none => .error .keyError
  | some p => .ok p.moves.rdToLow

/-- `spatial_mapping_size_in_macro` (imc_unit.py lines 184-189). -/
def inMacro (K : Chip OA) (sm : SM OA D) : ℚ :=
  ((sm.filter fun e => decide (e.1 = K.wlDim ∨ e.1 = K.blDim)).map fun e => (e.2.map Prod.snd).prod).prod

/-- `get_energy_for_a_layer` (/repo/zigzag/hardware/architecture/imc_array.py lines 457-603) with `get_mapped_oa_dim` (imc_unit.py lines 164-246) on the generated
spatial mapping; `ord` is the order in which a set of dimensions is traversed. -/
def arrayEnergy (K : Chip OA) (ord : List D → List D) (a : AccD OA) (c : Acc OA) (n : LNode OA D) (sm : SM OA D) (j : Job D) :
    Except PyErr (List (String × ℚ)) := do
  let w := n.node.layer.rel n.weight
  let d ← Imc.mappedDims w.ir (n.node.layer.rel n.act).pr.values (sm.get? K.wlDim) (sm.get? K.blDim) (ord ((sm.get? K.blDim).getD []).keys)
  if inMacro K sm = 0 then .error .zeroDivision
  else
    let times : ℚ := (Evaluate.macs j : ℚ) / inMacro K sm
    let loops ← lowest a c n sm j n.weight
    let rd ← reads c j n.weight
    match Imc.layerEnergy K.arr d.1.toNat d.2.2 times (precharge K.arr K.cellsSize w.r w.ir loops rd).1 with
    | none => .error .runtimeError
    | some e => .ok e

/-- What an evaluation reports besides energy and latency: `mac_energy_breakdown`, `tclk` and `area_total` (cost_model_imc.py lines 64-104). -/
structure Report (D : Type) where
  job : Job D
  result : Result
  parts : List (String × ℚ)
  clock : ℚ
  area : ℚ

/-- The sum of a breakdown. -/
def total (l : List (String × ℚ)) : ℚ := (l.map Prod.snd).sum

/-- `collect_area_data` (cost_model_imc.py lines 64-77) for the memories of the accelerator of the layer. -/
def areaOf (array : ℚ) (b : AccD OA) : ℚ := (Imc.collectArea array (b.mems.map fun m => ("", m.area.getD 0))).2.2

end

/-- Results of an evaluation are turned into others. -/
def wrap {Ly SM TM P Q : Type} (E : Env Ly SM TM P) (f : Ly → SM → P → Except PyErr (Cme Q)) : Env Ly SM TM Q where
  skip := E.skip
  spatial := E.spatial
  temporal := E.temporal
  cost l sm tm :=
    match E.cost l sm tm with
    | .error e => .error e
    | .ok c => f l sm c.tag

variable {OA : Type} [DecidableEq OA] {D : Type} [LinearOrder D]

/-- `CostModelEvaluationForIMC.run` (cost_model_imc.py lines 56-62): `calc_energy` adds the energy of the array to that of the memories
(/repo/zigzag/cost_model/cost_model.py lines 539-544, 603-604). -/
def price (cacti : MemD Operand OA → ℚ × ℚ) (K : Chip OA) (clock array : ℚ) (ord : List D → List D) (a : AccD OA) (s : Locality.St Operand) (n : LNode OA D)
    (sm : SM OA D) (e : Job D × Result) : Except PyErr (Cme (Report D)) :=
  match Reuse.built cacti a s n with
  | .error x => .error x
  | .ok b =>
    match arrayEnergy K ord b.1 b.2 n sm e.1 with
    | .error x => .error x
    | .ok p => .ok ⟨⟨e.2.energy.mem + total p, e.2.overall.latency2, true⟩, ⟨e.1, e.2, p, clock, areaOf array b.1⟩⟩

/-- The stages of a call for an in-memory-computing array. -/
def env (cacti : MemD Operand OA → ℚ × ℚ) (fact : Nat → List (Nat × Nat)) (K : Chip OA) (clock array : ℚ) (a : AccD OA) (s : Locality.St Operand)
    (o : Options OA D) (fuel : Nat) : Env (LNode OA D) (SM OA D) (Job D) (Report D) :=
  wrap (Reuse.env cacti fact a s o fuel) (price cacti K clock array o.setOrder a s)

/-- What the call returns; `first` is the report of which clock and area are returned. -/
abbrev Reply (OA D : Type) := Pipeline.Answer (Report D) (LNode OA D × Pipeline.Info (Report D) (SM OA D) (Job D))

/-- `get_hardware_performance_zigzag_imc` (api.py lines 26-166): the array is made when the accelerator is parsed (imc_array.py lines 40-45). -/
def network (cacti : MemD Operand OA → ℚ × ℚ) (fact : Nat → List (Nat × Nat)) (K : Chip OA) (a : AccD OA) (o : Options OA D) (opt : String) (g : Graph OA D)
    (nodes : List (LNode OA D)) (fuel : Nat) : Except PyErr (Reply OA D) :=
  match Imc.getArea K.arr with
  | .error e => .error e
  | .ok area =>
    match Imc.getTclk K.arr with
    | .error e => .error e
    | .ok clock =>
      match Whole.accelerator cacti a with
      | .error e => .error e
      | .ok _ =>
        match Reuse.plan a g nodes with
        | .error e => .error e
        | .ok s => Pipeline.api opt true (env cacti fact K (total clock) (total area) a s o fuel) nodes

end Verif.ImcCall
