import Verif.Call.Props
import Verif.Net.Example

/-! Concrete files for C153: an array of two units with three memories, a product of matrices whose result is the input of a convolution, and a mapping file with one
entry for the convolution and one for all other layers. -/

namespace Verif.Call

open Equation (Text Eqn Term)
open Evaluate.Ex (rel)
open Files (Doc AccR MemR PortR ArrR MapR MapAttr)
open Latency (Operand)
open LayerBuild (LayerD tx Good)
open LayerNode (Relation)
open Net (FileOk OptionsOk)
open Ports (MemD PortD)
open Whole (AccD)

deriving instance DecidableEq for PortR, MemR, ArrR, AccR, MapR

namespace Ex

/-! ### The accelerator -/

def portDoc (name type : String) (alloc : List String) : Doc :=
  .dict [("name", .str name), ("type", .str type), ("bandwidth_min", .int 8), ("bandwidth_max", .int 64), ("allocation", .list (alloc.map .str))]

def memDoc (size : Int) (costs : List (String × Doc)) (operands : List String) (ports : List Doc) (served : List String) : Doc :=
  .dict ([("size", .int size), ("latency", .int 1), ("operands", .list (operands.map .str)), ("ports", .list ports), ("served_dimensions", .list (served.map .str))] ++ costs)

def accDoc : Doc :=
  .dict [("name", .str "small"),
    ("memories", .dict [
      ("inputs", memDoc 40 [("r_cost", .int 1), ("w_cost", .int 1), ("area", .int 0)] ["I1", "I2"]
        [portDoc "r_port_1" "read" ["I1, tl", "I2, tl"], portDoc "w_port_1" "write" ["I1, fh"], portDoc "w_port_2" "write" ["I2, fh"]] []),
      ("outputs", memDoc 64 [("r_cost", .int 1), ("w_cost", .int 1), ("area", .int 0)] ["O"]
        [portDoc "r_port_1" "read" ["O, tl"], portDoc "r_port_2" "read" ["O, th"], portDoc "w_port_1" "write" ["O, fl"], portDoc "w_port_2" "write" ["O, fh"]] []),
      ("main", memDoc 100000 [("auto_cost_extraction", .bool true)] ["I1", "I2", "O"]
        [portDoc "rw_port_1" "read_write" ["I1, tl", "I1, fh"], portDoc "rw_port_2" "read_write" ["I2, tl", "I2, fh"], portDoc "rw_port_3" "read_write" ["O, tl", "O, th", "O, fl", "O, fh"]]
        ["D1"])]),
    ("operational_array", .dict [("dimensions", .list [.str "D1"]), ("sizes", .list [.int 2]), ("input_precision", .list [.int 8, .int 8]),
      ("unit_energy", .num (1 / 2)), ("unit_area", .int 1)])]

def cacti (_ _ : String) (_ _ : Int) : Except PyErr (ℚ × ℚ × ℚ) := .ok (10, 20, 5)

def inputsMem : MemD Operand String :=
  { size := 40, auto := false, rCost := some 1, wCost := some 1, area := some 0, operands := [.in1, .in2], served := []
    ports := [⟨"r_port_1", .read, 8, 64, [(.in1, .rdLow), (.in2, .rdLow)]⟩, ⟨"w_port_1", .write, 8, 64, [(.in1, .wrHigh)]⟩, ⟨"w_port_2", .write, 8, 64, [(.in2, .wrHigh)]⟩] }
def outReg : MemD Operand String :=
  { size := 64, auto := false, rCost := some 1, wCost := some 1, area := some 0, operands := [.out], served := []
    ports := [⟨"r_port_1", .read, 8, 64, [(.out, .rdLow)]⟩, ⟨"r_port_2", .read, 8, 64, [(.out, .rdHigh)]⟩, ⟨"w_port_1", .write, 8, 64, [(.out, .wrLow)]⟩,
      ⟨"w_port_2", .write, 8, 64, [(.out, .wrHigh)]⟩] }
def mainMem : MemD Operand String :=
  { size := 100000, auto := false, rCost := some 10, wCost := some 20, area := some 5, operands := [.in1, .in2, .out], served := ["D1"]
    ports := [⟨"rw_port_1", .readWrite, 8, 64, [(.in1, .rdLow), (.in1, .wrHigh)]⟩, ⟨"rw_port_2", .readWrite, 8, 64, [(.in2, .rdLow), (.in2, .wrHigh)]⟩,
      ⟨"rw_port_3", .readWrite, 8, 64, [(.out, .rdLow), (.out, .rdHigh), (.out, .wrLow), (.out, .wrHigh)]⟩] }

def acc : AccD String := ⟨[inputsMem, outReg, mainMem], [("D1", 2)], 1 / 2⟩

def read : AccR :=
  ⟨"small", [
    ("inputs", ⟨40, some 1, some 1, some 0, 1, "sram", false, ["I1", "I2"],
      [⟨"r_port_1", .read, 8, 64, ["I1, tl", "I2, tl"]⟩, ⟨"w_port_1", .write, 8, 64, ["I1, fh"]⟩, ⟨"w_port_2", .write, 8, 64, ["I2, fh"]⟩], [], false⟩),
    ("outputs", ⟨64, some 1, some 1, some 0, 1, "sram", false, ["O"],
      [⟨"r_port_1", .read, 8, 64, ["O, tl"]⟩, ⟨"r_port_2", .read, 8, 64, ["O, th"]⟩, ⟨"w_port_1", .write, 8, 64, ["O, fl"]⟩, ⟨"w_port_2", .write, 8, 64, ["O, fh"]⟩], [], false⟩),
    ("main", ⟨100000, none, none, none, 1, "sram", true, ["I1", "I2", "O"],
      [⟨"rw_port_1", .readWrite, 8, 64, ["I1, tl", "I1, fh"]⟩, ⟨"rw_port_2", .readWrite, 8, 64, ["I2, tl", "I2, fh"]⟩, ⟨"rw_port_3", .readWrite, 8, 64, ["O, tl", "O, th", "O, fl", "O, fh"]⟩],
      ["D1"], false⟩)],
    ⟨["D1"], false, [2], some [8, 8], some (1 / 2), some 1, none, some 0, none⟩, none⟩

theorem ports_say {l : List PortR} {m : List (PortD Operand)} (hl : l.length = m.length)
    (h : ∀ x ∈ l.zip m, x.2.name = x.1.name ∧ x.2.type = x.1.type ∧ x.2.bwMin = x.1.bwMin ∧ x.2.bwMax = x.1.bwMax ∧
      x.1.alloc = x.2.alloc.map fun a => Files.movement (opName a.1) a.2) : List.Forall₂ PortSays l m := by
  rw [List.forall₂_iff_zip]
  refine ⟨hl, fun {a b} hab => ?_⟩
  obtain ⟨h1, h2, h3, h4, h5⟩ := h _ hab
  exact ⟨h1, h2, h3, h4, h5⟩

theorem accSays : AccSays cacti accDoc acc where
  accepted := by decide +kernel
  read := by
    refine ⟨read, by decide +kernel, ?_, rfl, rfl, by decide, by decide +kernel, ?_⟩
    · have : (Files.checkAcc read).toOption = some true := by decide +kernel
      cases h : Files.checkAcc read with
      | error e => rw [h] at this; cases this
      | ok b => rw [h] at this; cases this; rfl
    · refine .cons ?_ (.cons ?_ (.cons ?_ .nil))
      · exact ⟨rfl, rfl, ports_say rfl (by decide +kernel), rfl, fun _ => ⟨rfl, rfl, rfl⟩, (by intro h; cases h), rfl⟩
      · exact ⟨rfl, rfl, ports_say rfl (by decide +kernel), rfl, fun _ => ⟨rfl, rfl, rfl⟩, (by intro h; cases h), rfl⟩
      · exact ⟨rfl, rfl, ports_say rfl (by decide +kernel), rfl, (by intro h; cases h),
          fun _ => ⟨⟨"rw_port_1", .readWrite, 8, 64, ["I1, tl", "I1, fh"]⟩, (10, 20, 5), ⟨[], _, rfl, .inr ⟨rfl, by decide, by simp⟩⟩, rfl, rfl, rfl, rfl⟩, rfl⟩

theorem memOk : ∀ m ∈ acc.mems, Whole.MemOk m := by
  intro m hm
  simp only [acc, List.mem_cons, List.not_mem_nil, or_false] at hm
  rcases hm with rfl | rfl | rfl
  · exact ⟨by decide +kernel, by decide +kernel, by
      have h : ∀ p ∈ inputsMem.ports, ∀ q ∈ inputsMem.ports, ∀ a ∈ p.alloc, a ∈ q.alloc → p = q := by decide +kernel
      exact fun p hp q hq a ha => h p hp q hq a ha, by decide +kernel, by decide +kernel, by decide +kernel⟩
  · exact ⟨by decide +kernel, by decide +kernel, by
      have h : ∀ p ∈ outReg.ports, ∀ q ∈ outReg.ports, ∀ a ∈ p.alloc, a ∈ q.alloc → p = q := by decide +kernel
      exact fun p hp q hq a ha => h p hp q hq a ha, by decide +kernel, by decide +kernel, by decide +kernel⟩
  · exact ⟨by decide +kernel, by decide +kernel, by
      have h : ∀ p ∈ mainMem.ports, ∀ q ∈ mainMem.ports, ∀ a ∈ p.alloc, a ∈ q.alloc → p = q := by decide +kernel
      exact fun p hp q hq a ha => h p hp q hq a ha, by decide +kernel, by decide +kernel, by decide +kernel⟩

theorem fileOk : FileOk acc where
  acc :=
    { mems := memOk
      aligned := fun op => Hierarchy.aligned_of_two _ _ (by cases op <;> decide +kernel)
      declared := by
        intro pre m post h
        have hl : pre.length < 3 := by
          have := congrArg List.length h
          simp [acc] at this
          omega
        rcases pre with _ | ⟨x, _ | ⟨y, _ | ⟨z, pre⟩⟩⟩
        · cases h
          decide +kernel
        · cases h
          decide +kernel
        · cases h
          decide +kernel
        · simp only [List.length_cons] at hl
          omega
      units := by decide +kernel
      dims := by unfold Dict.WF; decide }
  served := by decide +kernel

/-! ### The layers -/

def gemmDoc : Doc :=
  .dict [("id", .int 0), ("name", .str "first"), ("operator_type", .str "Gemm"), ("equation", .str "O[k][b]+=W[k][c]*I[c][b]"),
    ("loop_dims", .list [.str "K", .str "C", .str "B"]), ("loop_sizes", .list [.int 2, .int 2, .int 4]),
    ("operand_precision", .dict [("O", .int 16), ("W", .int 4), ("I", .int 16), ("O_final", .int 8)]), ("operand_source", .dict [("W", .int 0)])]

def convDoc : Doc :=
  .dict [("id", .int 1), ("operator_type", .str "Conv"), ("equation", .str "O[k][ox]+=W[k][fx]*I[ix]"), ("dimension_relations", .list [.str "ix=1*ox+1*fx"]),
    ("loop_dims", .list [.str "K", .str "OX", .str "FX"]), ("loop_sizes", .list [.int 2, .int 4, .int 2]),
    ("operand_precision", .dict [("O", .int 16), ("W", .int 4), ("I", .int 8), ("O_final", .int 8)]), ("operand_source", .dict [("W", .int 1), ("I", .int 0)])]

def workDoc : Doc := .list [gemmDoc, convDoc]

def mapDoc : Doc :=
  .list [.dict [("name", .str "default"), ("spatial_mapping_hint", .dict [("D1", .list [.str "K", .str "B"])]),
      ("temporal_ordering", .list [.list [.str "B", .str "*"], .list [.str "FX", .int 3]])],
    .dict [("name", .str "Conv"), ("spatial_mapping", .dict [("D1", .list [.str "K, 2"])]),
      ("memory_operand_links", .dict [("O", .str "O"), ("W", .str "I1"), ("I", .str "I2")])]]

def eqn (t : List Char) : Bool := !t.isEmpty

def relOf (t : List Char) : Option LayerBuild.RelD :=
  if t = "ix=1*ox+1*fx".toList then some ⟨tx "ix", some (tx "1"), tx "ox", some (tx "1"), tx "fx"⟩ else none

def gemmD : LayerD where
  id := 0
  equation := tx "O[k][b]+=W[k][c]*I[c][b]"
  relations := []
  loopDims := [tx "K", tx "C", tx "B"]
  loopSizes := [2, 2, 4]
  precision := [(tx "O", 16), (tx "W", 4), (tx "I", 16), (tx "O_final", 8)]
  sources := [(tx "W", 0)]
  prDims := none
  prSizes := none
  padding := none

def convD : LayerD where
  id := 1
  equation := tx "O[k][ox]+=W[k][fx]*I[ix]"
  relations := [⟨tx "ix", some (tx "1"), tx "ox", some (tx "1"), tx "fx"⟩]
  loopDims := [tx "K", tx "OX", tx "FX"]
  loopSizes := [2, 4, 2]
  precision := [(tx "O", 16), (tx "W", 4), (tx "I", 8), (tx "O_final", 8)]
  sources := [(tx "W", 1), (tx "I", 0)]
  prDims := none
  prSizes := none
  padding := none

def gemmEntry : MapR := ⟨"default", none, [("O", "O"), ("I", "I1"), ("W", "I2")], [("D1", ["K", "B"])], [("B", none), ("FX", some 3)]⟩
def convEntry : MapR := ⟨"Conv", some [("D1", ["K, 2"])], [("O", "O"), ("W", "I1"), ("I", "I2")], [], []⟩

def gemmAttr : MapAttr := ⟨[], [("D1", ["K", "B"])], ⟨[("O", "O"), ("I", "I1"), ("W", "I2")], [("O", "O"), ("I1", "I"), ("I2", "W")]⟩, [("B", none), ("FX", some 3)]⟩
def convAttr : MapAttr := ⟨[("D1", [("K", 2)])], [], ⟨[("O", "O"), ("W", "I1"), ("I", "I2")], [("O", "O"), ("I1", "W"), ("I2", "I")]⟩, []⟩

/-- The product of matrices. -/
def gemm : Written where
  name := some "first"
  operator := "Gemm"
  layer := gemmD
  eqn := ⟨⟨tx "O", [tx "k", tx "b"]⟩, [⟨[], .accum, [], ⟨tx "W", [tx "k", tx "c"]⟩⟩, ⟨[], .times, [], ⟨tx "I", [tx "c", tx "b"]⟩⟩], []⟩
  rels := []
  entry := gemmEntry
  attr := gemmAttr
  link t := if t = tx "O" then .out else if t = tx "W" then .in2 else .in1

/-- The convolution; its weights take the way of the first input. -/
def conv : Written where
  name := none
  operator := "Conv"
  layer := convD
  eqn := ⟨⟨tx "O", [tx "k", tx "ox"]⟩, [⟨[], .accum, [], ⟨tx "W", [tx "k", tx "fx"]⟩⟩, ⟨[], .times, [], ⟨tx "I", [tx "ix"]⟩⟩], []⟩
  rels := [⟨tx "IX", tx "OX", tx "FX", 1, 1⟩]
  entry := convEntry
  attr := convAttr
  link t := if t = tx "O" then .out else if t = tx "W" then .in1 else .in2

deriving instance DecidableEq for Links.Links, MapAttr, LayerBuild.RelD, LayerD

theorem of_toOption {α : Type} {x : Except PyErr α} {y : α} (h : x.toOption = some y) : x = .ok y := by
  cases x with
  | error e => cases h
  | ok b => cases h; rfl

theorem filesSay : FilesSay eqn relOf workDoc mapDoc [gemm, conv] where
  layers := of_toOption (by decide +kernel)
  entries := by
    refine ⟨[gemmEntry, convEntry], of_toOption (by decide +kernel), ?_⟩
    intro w hw
    simp only [List.mem_cons, List.not_mem_nil, or_false] at hw
    rcases hw with rfl | rfl
    · exact chosen_iff.2 (of_toOption (by decide +kernel))
    · exact chosen_iff.2 (of_toOption (by decide +kernel))

theorem sourcesKnown : SourcesKnown [gemm, conv] := by
  intro j w hw s hs
  rcases j with _ | _ | j
  · cases hw
    left
    revert s
    decide
  · cases hw
    have : s = (tx "W", 1) ∨ s = (tx "I", 0) := by simpa [conv, convD] using hs
    rcases this with rfl | rfl
    · exact Or.inl rfl
    · exact Or.inr ⟨0, by omega, gemm, rfl, rfl⟩
  · cases hw

theorem gemm_good : Good gemm.layer gemm.eqn gemm.rels := by
  refine ⟨by decide, ?_, .nil, by decide, by decide, by decide, by decide, by decide +kernel, by decide +kernel, by decide +kernel⟩
  refine ⟨?_, by decide, by decide⟩
  intro t ht
  simp only [Eqn.terms, gemm, List.map_cons, List.map_nil, List.mem_cons, List.not_mem_nil, or_false] at ht
  rcases ht with rfl | rfl | rfl <;> exact ⟨by decide, by decide, by decide⟩

theorem conv_good : Good conv.layer conv.eqn conv.rels := by
  refine ⟨by decide, ?_, .cons (by decide +kernel) .nil, by decide, by decide, by decide, by decide, by decide +kernel, by decide +kernel, by decide +kernel⟩
  refine ⟨?_, by decide, by decide⟩
  intro t ht
  simp only [Eqn.terms, conv, List.map_cons, List.map_nil, List.mem_cons, List.not_mem_nil, or_false] at ht
  rcases ht with rfl | rfl | rfl <;> exact ⟨by decide, by decide, by decide⟩

theorem innermost_mem {m : MemD Operand String} (h : Net.Innermost acc m) : m ∈ acc.mems := by
  obtain ⟨pre, post, h, -⟩ := h
  rw [h]
  simp

theorem wide (w : Written) (hw : w = gemm ∨ w = conv) : ∀ m ∈ acc.mems, ∀ t ∈ w.eqn.terms, (∀ p ∈ m.ports, w.precision t.name ≤ p.bwMax) ∧ w.precision t.name ≤ m.size := by
  rcases hw with rfl | rfl <;> decide +kernel

theorem gemmFits : LayerFits acc gemm where
  good := gemm_good
  pr := .inr ⟨rfl, rfl⟩
  some := by decide
  inputs := by simp [gemm]
  names := by decide
  fresh := by decide
  index := by decide +kernel
  mix := by decide +kernel
  vars := by decide +kernel
  precise := by decide
  attr := of_toOption (by decide +kernel)
  link := by decide +kernel
  out := rfl
  stored := by decide +kernel
  linked := by decide +kernel
  delivers m hm t ht _ p hp _ := (wide gemm (.inl rfl) m (innermost_mem hm) t ht).1 p hp
  holds m hm t ht _ := (wide gemm (.inl rfl) m (innermost_mem hm) t ht).2
  user := by decide +kernel
  order := by decide +kernel

theorem convFits : LayerFits acc conv where
  good := conv_good
  pr := .inr ⟨rfl, rfl⟩
  some := by decide
  inputs := by simp [conv]
  names := by decide
  fresh := by decide +kernel
  index := by decide +kernel
  mix := by decide +kernel
  vars := by decide +kernel
  precise := by decide
  attr := of_toOption (by decide +kernel)
  link := by decide +kernel
  out := rfl
  stored := by decide +kernel
  linked := by decide +kernel
  delivers m hm t ht _ p hp _ := (wide conv (.inr rfl) m (innermost_mem hm) t ht).1 p hp
  holds m hm t ht _ := (wide conv (.inr rfl) m (innermost_mem hm) t ht).2
  user := by decide +kernel
  order := by decide +kernel

theorem allFit : ∀ w ∈ [gemm, conv], LayerFits acc w := by
  intro w hw
  simp only [List.mem_cons, List.not_mem_nil, or_false] at hw
  rcases hw with rfl | rfl
  · exact gemmFits
  · exact convFits

def options : Net.Options String Text := ⟨false, 3, none, ⟨fun _ l => l, fun _ l => l, fun _ l => l⟩, id, id⟩

theorem optionsOk : OptionsOk options where
  nb := by decide
  limit k h := by cases h
  order := ⟨fun _ l => List.Perm.refl l, fun _ l => List.Perm.refl l, fun _ l => List.Perm.refl l⟩
  capOrder l := List.Perm.refl l
  setOrder l := List.Perm.refl l

/-- Energy, latency and number of results. -/
def report (r : Except PyErr (Net.Reply String Text)) : Option (ℚ × ℚ × Nat) :=
  match r with
  | .ok a => some (a.energy, a.latency, (a.cmes.map fun x => x.2.length).sum)
  | .error _ => none

end Ex

open Ex

/-! ### Cases that meet the hypotheses -/

/-- Both layers are evaluated. -/
example : report (call cacti eqn relOf Net.Ex.few ⟨false, false⟩ options "energy" accDoc workDoc mapDoc 40) = some (107, 32, 2) := by decide +kernel

/-- The order of the layers is that of the file. -/
example : ∃ nodes, workload eqn relOf ⟨false, false⟩ workDoc mapDoc = .ok nodes ∧ nodes.length = 2 := by
  obtain ⟨nodes, h, ws', ho, hf⟩ := workload_written filesSay sourcesKnown allFit ⟨false, false⟩
  exact ⟨nodes, h, by rw [← hf.length_eq, (inOrder_perm ho).length_eq]; rfl⟩

/-- The call on the files ends. -/
example : ∃ N, ∀ fuel, N ≤ fuel → ∀ opt, Net.Known opt →
    (∃ ans, call cacti eqn relOf Whole.Ex.fact ⟨false, false⟩ options opt accDoc workDoc mapDoc fuel = .ok ans) ∨
      ∃ e, call cacti eqn relOf Whole.Ex.fact ⟨false, false⟩ options opt accDoc workDoc mapDoc fuel = .error e ∧ e ∈ [PyErr.noValidOrdering, .zeroDivision, .memoryHierarchyTooSmall, .memoryTooSmall, .indexError] := by
  obtain ⟨_, _, N, _, _, h⟩ := call_partial accSays fileOk filesSay sourcesKnown allFit optionsOk rfl Lpf.factContract_primeFactorsList ⟨false, false⟩
  exact ⟨N, fun fuel hf opt ho => (h fuel hf opt ho).1.imp_right fun ⟨e, he, hs⟩ => ⟨e, he, by rcases hs with rfl | rfl | ⟨rfl | rfl, -⟩ | ⟨rfl, -⟩ <;> simp⟩⟩

/-- The energy is at least that of the 32 multiplications that the workload file asks for. -/
example : ∃ N, ∀ fuel, N ≤ fuel → ∀ opt ans, call cacti eqn relOf Whole.Ex.fact ⟨false, false⟩ options opt accDoc workDoc mapDoc fuel = .ok ans → 16 ≤ ans.energy := by
  obtain ⟨N, h⟩ := call_bounds accSays fileOk filesSay sourcesKnown allFit optionsOk rfl Lpf.factContract_primeFactorsList ⟨false, false⟩
  refine ⟨N, fun fuel hf opt ans ha => ?_⟩
  have := (h fuel hf opt ans ha).2 (by decide +kernel)
  rw [show ([gemm, conv].map Written.operations).sum = 32 by decide +kernel, show acc.macEnergy = 1 / 2 from rfl] at this
  norm_num at this
  exact this

example : call cacti eqn relOf Whole.Ex.fact ⟨false, false⟩ options "area" accDoc workDoc mapDoc 0 = .error .notImplemented :=
  criterion_refused _ _ _ _ _ _ _ _ _ _ _ (by unfold Net.Known; decide +kernel)

end Verif.Call
