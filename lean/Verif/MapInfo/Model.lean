import Verif.Decouple.Props
import Verif.SpatialInternal.Model
import Verif.TemporalMapping.Model
import Verif.Energy.Model

/-! Model of `/repo/zigzag/mapping/mapping.py` (`Mapping`) for one layer operand, on top of the models of the spatial mapping
(`SpatialInternal`), the temporal mapping (`TemporalMapping`) and the splitting of partially relevant loops (`Decouple`).

Simplifications: numbers are exact rationals; the tables of the class, indexed by operand, are computed for one operand at a time;
comprehensions `[... for lv in range(arch_level)]` over a table of that length are maps over the table. -/

namespace Verif.MapInfo

open Decouple (DEnv TDim decouple layerEnv pyGet)
open LayerNode (Layer Rel)
open SpatialInternal (pyRound pyDiv)
open Energy (trunc)
open Cme (FourWay Dir)

variable {Dim : Type} [DecidableEq Dim]

/-- Loops for each level. -/
abbrev Lv (N : Type) := List (List (N × ℚ))

/-- What the constructor of `Mapping` gets for one operand (mapping.py lines 21-41). -/
structure Cfg (Dim : Type) where
  L : Layer Dim
  rel : Rel Dim
  /-- `spatial_mapping.mapping_dict_origin[op]` -/
  su : Lv Dim
  /-- `temporal_mapping.mapping_dic_stationary[op]` -/
  tm : Lv Dim
  /-- `temporal_mapping.mac_level_data_stationary_cycle[op]` -/
  stationary : ℚ
  /-- `temporal_mapping.total_cycle` -/
  totalCycle : ℚ
  /-- `layer_node.operand_precision[op]` -/
  precision : ℚ
  /-- `layer_node.operand_precision["O_final"]` -/
  finalPrecision : ℚ
  /-- `access_same_data_considered_as_no_access` -/
  noAccess : Bool
  /-- `get_max_bandwidth(mem_op, RD_OUT_TO_LOW)` for each memory level (`None` without port) -/
  bw : Nat → Option ℚ

/-- `layer_dim in pr_decoupled_relevancy_info.get_r_layer_dims(op)` (layer_node.py lines 55-66). -/
def isR (c : Cfg Dim) : TDim Dim → Bool
  | .orig d => d ∈ c.rel.r
  | .r k => k ∈ c.L.pi.prLoop.keys
  | .ir _ => false

/-- `layer_dim in pr_decoupled_relevancy_info.get_ir_layer_dims(op)` (layer_node.py lines 55-66). -/
def isIr (c : Cfg Dim) : TDim Dim → Bool
  | .orig d => d ∈ c.rel.ir
  | .r _ => false
  | .ir k => k ∈ c.L.pi.prLoop.keys

/-- `tm_dict_seed[op]` (mapping.py lines 106-109): an empty innermost and an empty outermost level. -/
def seed (tm : Lv Dim) : Lv Dim := [[]] ++ tm ++ [[]]

/-- Lines 112-118, from spatial level `level` on: the levels of `combined_mapping_dict_1s1t` and, without the first,
of `combined_mapping_dict_1s2t`. -/
def combineFrom (tm : Lv Dim) : Nat → Lv Dim → Except PyErr (Lv Dim × Lv Dim)
  | _, [] => .ok ([], [])
  | level, s :: ss =>
    match pyGet (seed tm) level, pyGet (seed tm) (level + 1), combineFrom tm (level + 1) ss with
    | .ok cur, .ok abv, .ok rest => .ok ((cur ++ s) :: rest.1, (abv ++ s) :: rest.2)
    | _, _, _ => .error .indexError

/-- `combine_spatial_temporal_mapping_dict` (lines 86-120). -/
def combine (su tm : Lv Dim) : Except PyErr (Lv Dim × Lv Dim) :=
  match combineFrom tm 0 su with
  | .ok c => .ok (c.1, [] :: c.2)
  | .error e => .error e

/-- `math.prod([lp_dim for lp_type, lp_dim in level if lp_type in ...])` (lines 174-184). -/
def selP {N : Type} (p : N → Bool) (l : List (N × ℚ)) : ℚ := ((l.filter (fun x => p x.1)).map Prod.snd).prod

/-- Products of the first `lv + 1` entries, for every `lv` (lines 221-247). -/
def cabl (l : List ℚ) : List ℚ := (List.range l.length).map (fun lv => (l.take (lv + 1)).prod)

/-- `get_psum_flags` (lines 122-147) on `combined_mapping_dict_1s1t_reform[output_operand]`. -/
def psumFlags (ir : TDim Dim → Bool) (m : Lv (TDim Dim)) : List Bool :=
  let flag := m.map (fun l => l.any (fun x => ir x.1 && decide (1 < x.2)))
  let h2l := (List.range flag.length).reverse.map (fun lv => (flag.drop lv).any id)
  h2l.reverse.drop 1 ++ [false]

/-- The tables of `gen_r_ir_loop_list`, `calc_data_size` and `calc_data_access` for one operand. -/
structure Tables (Dim : Type) where
  /-- `combined_mapping_dict_1s1t_reform[op]` -/
  ra : Lv (TDim Dim)
  /-- `spatial_mapping.unit_unique[op]` -/
  unique : List ℚ
  /-- `spatial_mapping.mem_bw_boost[op]` -/
  boost : List ℤ
  /-- `data_elem_per_level_unrolled[op]` (= `r_loop_size_cabl2[op]`) -/
  unrolled : List ℤ
  /-- `data_elem_per_level[op]` -/
  elems : List ℤ
  /-- `data_access_raw[op]` -/
  raw : List ℤ
  /-- `data_access_raw2[op]` -/
  raw2 : List ℤ
  /-- `output_ir_loop_size_caal` -/
  caal : List ℚ

/-- `round(total_mac_count / ir_loop_size)` for every level (lines 342-356). -/
def rawAccess (total : ℚ) : List ℚ → Except PyErr (List ℤ)
  | [] => .ok []
  | c :: cs =>
    match pyDiv total c, rawAccess total cs with
    | .ok q, .ok r => .ok (pyRound q :: r)
    | .error e, _ => .error e
    | _, .error e => .error e

/-- Lines 48-76 and 335-356: combination of the mappings, splitting, products per level, sizes and raw access counts. -/
def tables (c : Cfg Dim) : Except PyErr (Tables Dim) := do
  let rs ← decouple (layerEnv c.L c.rel) c.su
  let boost ← SpatialInternal.bwBoost (isR c) rs
  let ab ← combine c.su c.tm
  let ra ← decouple (layerEnv c.L c.rel) ab.1
  let rb ← decouple (layerEnv c.L c.rel) ab.2
  let unique := SpatialInternal.unitUnique (isR c) rs
  let irA := ra.map (selP (isIr c))
  let rB := (rb.take c.su.length).map (selP (isR c))
  let irB := (rb.take c.su.length).map (selP (isIr c))
  let raw ← rawAccess c.L.dimSizes.values.prod (cabl irA)
  let raw2 ← rawAccess c.L.dimSizes.values.prod (cabl irB)
  let unrolled := (cabl rB).map pyRound
  return { ra := ra, unique := unique, boost := boost, unrolled := unrolled
           elems := List.zipWith (fun (x : ℤ) u => pyRound (x * u)) unrolled unique
           raw := raw, raw2 := raw2, caal := SpatialInternal.above irA ++ [1, 1] }

/-- `gen_data_precision_dict` (lines 146-161); `flags` is `psum_flag` for the output operand and `none` for an input operand. -/
def precisions (c : Cfg Dim) (flags : Option (List Bool)) : Except PyErr (List ℚ) :=
  match flags with
  | none => .ok (List.replicate (c.tm.length + 1) c.precision)
  | some f => (List.range (c.tm.length + 1)).mapM (fun i => do
      let b ← pyGet f i
      return if b then c.precision else c.finalPrecision)

/-- `a // b` on numbers. -/
def fdiv (a b : ℚ) : Except PyErr ℤ := if b = 0 then .error .zeroDivision else .ok ⌊a / b⌋

/-- `effective_data_elem[op]` and `effective_data_bit[op]` (lines 312-329): `sizes` are `data_elem_per_level_unrolled` or
`data_bit_per_level_unrolled`. -/
def effective (c : Cfg Dim) (sizes : List ℚ) : Except PyErr (List ℤ) :=
  sizes.zipIdx.mapM (fun x => do
    let r ← pyGet (TemporalMapping.topLoopSize (fun d => d ∈ c.rel.r) c.tm) x.2
    fdiv x.1 r)

/-- Counts of an input operand at memory level `lvl` (lines 363-393). -/
def inputCounts (c : Cfg Dim) (t : Tables Dim) (lvl : Nat) : Except PyErr FourWay := do
  let nb ← pyGet t.unique (lvl + 1)
  let el ← pyGet t.elems lvl
  let held ← fdiv (el * c.precision) nb
  match c.bw lvl with
  | none => .error .typeError
  | some w => do
    let raw ← pyGet t.raw lvl
    let rd ← if c.noAccess ∧ lvl = 0 ∧ (held : ℚ) ≤ w then do
        let q ← pyDiv raw c.stationary
        pure (trunc q)
      else pure raw
    let wr ← pyGet t.raw2 (lvl + 1)
    return { rdToLow := rd, wrByLow := 0, wrByHigh := wr, rdToHigh := 0 }

/-- Precisions of an input operand (lines 396-402). -/
def inputPrec (c : Cfg Dim) : FourWay := { rdToLow := c.precision, wrByLow := 0, wrByHigh := c.precision, rdToHigh := 0 }

/-- Counts of the output operand at memory level `lvl` (lines 415-431); `size` is `operand_size_elem[output_operand]`. -/
def outputCounts (t : Tables Dim) (size : ℚ) (lvl : Nat) : Except PyErr FourWay := do
  let wl ← pyGet t.raw lvl
  let c1 ← pyGet t.caal (lvl + 1)
  let rh ← pyGet t.raw2 (lvl + 1)
  let c2 ← pyGet t.caal (lvl + 2)
  return { wrByLow := wl, rdToLow := trunc (size * (c1 - 1)), rdToHigh := rh, wrByHigh := trunc (size * (c2 - 1)) }

/-- Precisions of the output operand (lines 434-453). -/
def outputPrec (c : Cfg Dim) (m : FourWay) : FourWay :=
  { wrByLow := if m.rdToLow ≠ 0 then c.precision else c.finalPrecision
    rdToLow := if m.rdToLow ≠ 0 then c.precision else 0
    wrByHigh := if m.wrByHigh ≠ 0 then c.precision else 0
    rdToHigh := if m.wrByHigh ≠ 0 then c.precision else c.finalPrecision }

/-- `cycle_each_level[op]` (lines 460-474). -/
def cycles (c : Cfg Dim) (out : Bool) : List ℚ :=
  (if c.noAccess ∧ out = false then c.stationary else 1) :: TemporalMapping.cycleCabl c.tm

/-- `req_mem_bw_low_raw[op][lv]` (lines 486-492). -/
def bwLow (c : Cfg Dim) (t : Tables Dim) (prec : List ℚ) (out : Bool) (lv : Nat) : Except PyErr ℚ := do
  let d ← pyGet t.unrolled lv
  let p ← pyGet prec lv
  let cy ← pyGet (cycles c out) lv
  pyDiv (d * p) cy

/-- What `calc_req_mem_bw_and_data_transfer_rate` computes for one side of a memory level before directions are assigned: average
bandwidth, period, number of periods and amount per period. -/
structure Side where
  bw : ℚ
  period : ℚ
  count : ℚ
  amount : ℚ
  deriving DecidableEq

/-- The side towards the level below (lines 508-514, 524, 537, 550-552, 567-577). -/
def lowSide (c : Cfg Dim) (t : Tables Dim) (prec : List ℚ) (out : Bool) (lvl : Nat) : Except PyErr Side := do
  let b ← bwLow c t prec out lvl
  let f : ℤ ← pyGet (t.boost ++ [1]) lvl
  let cy ← pyGet (cycles c out) lvl
  let n ← fdiv c.totalCycle cy
  let d ← pyGet t.unrolled lvl
  return { bw := trunc (b * f), period := trunc cy, count := n, amount := d * f }

/-- The side towards the level above (lines 511, 527, 540, 555, 568-578). -/
def highSide (c : Cfg Dim) (t : Tables Dim) (prec : List ℚ) (out : Bool) (lvl : Nat) : Except PyErr Side := do
  let b ← bwLow c t prec out (lvl + 1)
  let cy ← pyGet (cycles c out) (lvl + 1)
  let n ← fdiv c.totalCycle cy
  let d ← pyGet t.unrolled (lvl + 1)
  return { bw := trunc b, period := trunc cy, count := n, amount := d }

/-- `DataMovePattern` (/repo/zigzag/mapping/data_movement.py lines 91-118): the eight attributes. -/
@[ext] structure Pattern where
  moves : FourWay
  precision : FourWay
  bwAver : FourWay
  bwInst : FourWay
  period : FourWay
  periodCount : FourWay
  amount : FourWay
  window : FourWay
  deriving DecidableEq

/-- Lines 633-668: instant bandwidth and window from the average ones; `cur`, `nxt` are the `int`s of `top_ir_loop_size`. -/
def instant (c : Cfg Dim) (lvl : Nat) (bw period : FourWay) : Except PyErr (FourWay × FourWay) := do
  let cur ← pyGet (TemporalMapping.topLoopSize (fun d => d ∈ c.rel.ir) c.tm) lvl
  let nxt ← pyGet (TemporalMapping.topLoopSize (fun d => d ∈ c.rel.ir) c.tm) (lvl + 1)
  let a : ℤ := trunc cur
  let b : ℤ := trunc nxt
  let w1 ← pyDiv period.rdToLow a
  let w2 ← pyDiv period.wrByLow a
  let w3 ← pyDiv period.rdToHigh b
  let w4 ← pyDiv period.wrByHigh b
  return ({ rdToLow := trunc (bw.rdToLow * a), wrByLow := trunc (bw.wrByLow * a)
            rdToHigh := trunc (bw.rdToHigh * b), wrByHigh := trunc (bw.wrByHigh * b) },
          { rdToLow := trunc w1, wrByLow := trunc w2, rdToHigh := trunc w3, wrByHigh := trunc w4 })

/-- An attribute of an input operand: read towards the level below, written by the level above (lines 509-563). -/
def inWay (lo hi : ℚ) : FourWay := { rdToLow := lo, wrByLow := 0, rdToHigh := 0, wrByHigh := hi }

/-- An attribute of the output operand (lines 565-600): written by the level below, read towards the level above, and in the other
directions if partial sums are held. -/
def outWay (pl ph : Bool) (lo hi : ℚ) : FourWay :=
  { wrByLow := lo, rdToHigh := hi, rdToLow := if pl then lo else 0, wrByHigh := if ph then hi else 0 }

/-- One level of an input operand. -/
def inputPattern (c : Cfg Dim) (t : Tables Dim) (lvl : Nat) : Except PyErr Pattern := do
  let m ← inputCounts c t lvl
  let prec ← precisions c none
  let lo ← lowSide c t prec false lvl
  let hi ← highSide c t prec false lvl
  let bw := inWay lo.bw hi.bw
  let pd := inWay lo.period hi.period
  let i ← instant c lvl bw pd
  return { moves := m, precision := inputPrec c, bwAver := bw, bwInst := i.1, period := pd
           periodCount := inWay lo.count hi.count, amount := inWay lo.amount hi.amount, window := i.2 }

/-- One level of the output operand. -/
def outputPattern (c : Cfg Dim) (t : Tables Dim) (size : ℚ) (lvl : Nat) : Except PyErr Pattern := do
  let m ← outputCounts t size lvl
  let flags := psumFlags (isIr c) t.ra
  let prec ← precisions c (some flags)
  let lo ← lowSide c t prec true lvl
  let hi ← highSide c t prec true lvl
  let pl ← pyGet flags lvl
  let ph ← pyGet flags (lvl + 1)
  let bw := outWay pl ph lo.bw hi.bw
  let pd := outWay pl ph lo.period hi.period
  let i ← instant c lvl bw pd
  return { moves := m, precision := outputPrec c m, bwAver := bw, bwInst := i.1, period := pd
           periodCount := outWay pl ph lo.count hi.count, amount := outWay pl ph (trunc lo.amount) hi.amount, window := i.2 }

/-- `update_single_dir_data` (data_movement.py lines 110-113). -/
def Pattern.update (p : Pattern) (d : Dir) (v : ℚ) : Pattern :=
  { moves := p.moves.set d v, precision := p.precision.set d v, bwAver := p.bwAver.set d v, bwInst := p.bwInst.set d v
    period := p.period.set d v, periodCount := p.periodCount.set d v, amount := p.amount.set d v, window := p.window.set d v }

/-- `disable_data_traffic_external` (mapping.py lines 670-678): index `mem_level - 1`. -/
def disableExternal (ps : List Pattern) : Except PyErr (List Pattern) :=
  if ps = [] then .error .indexError
  else .ok (ps.modify (ps.length - 1) (fun p => (p.update .rdToHigh 0).update .wrByHigh 0))

/-- `unit_mem_data_movement[op]` of an input operand. -/
def inputMoves (c : Cfg Dim) : Except PyErr (List Pattern) := do
  let t ← tables c
  let ps ← (List.range c.tm.length).mapM (inputPattern c t)
  disableExternal ps

/-- `unit_mem_data_movement[op]` of the output operand. -/
def outputMoves (c : Cfg Dim) : Except PyErr (List Pattern) := do
  let t ← tables c
  let size ← LayerNode.operandSizeElem c.L c.rel
  let ps ← (List.range c.tm.length).mapM (outputPattern c t size)
  disableExternal ps

end Verif.MapInfo
