import Verif.Base.Dict
import Verif.Stages.Model

/-! Model of `HardwareOptimizerStage` (/repo/zigzag/stages/hardware_opt_stages.py).

The accelerator description is the parsed yaml file: the fields the stage overwrites are explicit, everything else is `rest`.  One
description object is shared by all configurations: `accel_yaml.copy()` (line 94) copies only the outermost dictionary, the memories, ports
and array sizes behind it are changed in place.  The model therefore threads the description through the loop.  The remaining stages are a
function from the content of the file they are pointed to and the spatial mapping of the layer to the results they yield; they are run
between two steps of the generator (line 105), as python does.  Names of array dimensions are `D` followed by a number.  The plot
(lines 167-198) and the log are left out; the output folder is taken to exist. -/

namespace Verif.HwOpt

open Verif.Stages (Res latencyBetter)

/-- A port of the memory `l1` in the yaml file: its name and `bandwidth_max`. -/
structure Port where
  name : String
  bandwidth : Nat
  deriving DecidableEq, Repr

/-- The memory `l1` in the yaml file. -/
structure L1 where
  size : Nat
  readCost : ℚ
  writeCost : ℚ
  ports : List Port
  deriving DecidableEq, Repr

/-- The yaml file. -/
structure Yaml (R : Type) where
  l1 : L1
  sizes : List Nat
  rest : R
  deriving DecidableEq, Repr

/-- A hardware configuration: size of `l1` in KiB and the three array sizes. -/
structure Config where
  l1 : Nat
  a : Nat
  b : Nat
  c : Nat
  deriving DecidableEq, Repr

/-- Line 38. -/
def l1Sizes : List Nat := [32, 64, 128, 256, 512]

/-- Lines 39-45. -/
def readCosts : Dict Nat ℚ := [(32, 95), (64, 104), (128, 118), (256, 132), (512, 147)]

/-- Line 47. -/
def arraySizes : List Nat := [8, 16]

/-- The two loops of lines 91-92; `product(…, repeat=3)` of line 48 varies the last component fastest. -/
def configs : List Config :=
  l1Sizes.flatMap fun l => arraySizes.flatMap fun x => arraySizes.flatMap fun y => arraySizes.map fun z => ⟨l, x, y, z⟩

variable {R : Type}

/-- `_update_l1_size_in_yaml` (lines 107-116), floats as rationals: `int(l1_size * 1024 * 8 * 0.8)`. -/
def setL1 (y : Yaml R) (l : Nat) : Except PyErr (Yaml R) :=
  match readCosts.get? l with
  | none => .error .keyError
  | some r => .ok { y with l1 := { y.l1 with size := l * 1024 * 8 * 8 / 10, readCost := r, writeCost := 6 / 5 * r } }

/-- `_update_gemmx_array_size_in_yaml` (lines 118-123). -/
def setArray (y : Yaml R) (c : Config) : Yaml R := { y with sizes := [c.a, c.b, c.c] }

/-- One port of `_update_bandwidths_in_yaml` (lines 130-133, 136-139, 142-145). -/
def setPort (y : Yaml R) (i : Nat) (name : String) (bw : Nat) : Except PyErr (Yaml R) :=
  match y.l1.ports[i]? with
  | none => .error .indexError
  | some p => if p.name = name then .ok { y with l1 := { y.l1 with ports := y.l1.ports.set i { p with bandwidth := bw } } } else .error .assertion

/-- `_update_bandwidths_in_yaml` (lines 125-147). -/
def setBandwidths (y : Yaml R) (c : Config) : Except PyErr (Yaml R) :=
  match setPort y 0 "rw_port_1" (c.a * c.b * 8) with
  | .error e => .error e
  | .ok y =>
    match setPort y 1 "rw_port_2" (c.b * c.c * 8) with
    | .error e => .error e
    | .ok y => setPort y 2 "rw_port_3" (c.a * c.c * 32)

/-- First digit of a number: `oa_dim.name[1]` (line 156) of the dimension `D<k>`. -/
def lead (k : Nat) : Nat := if k < 10 then k else lead (k / 10)

/-- `array_size[int(oa_dim.name[1]) - 1]` (line 156); the index -1 is the last element. -/
def sizeAt (c : Config) (k : Nat) : Except PyErr Nat :=
  match lead k with
  | 0 => .ok c.c
  | 1 => .ok c.a
  | 2 => .ok c.b
  | 3 => .ok c.c
  | _ => .error .indexError

/-- Spatial mapping of the layer: array dimension `D<k>` → layer dimension → unrolling. -/
abbrev SM (Dim : Type) := Dict Nat (Dict Dim Nat)

variable {Dim : Type} [DecidableEq Dim]

/-- The loop of `_update_workload_spatial_mapping` (lines 155-164).  `next(iter(…))` on an empty unrolling raises `StopIteration` inside the
generator of line 78, which python turns into `RuntimeError`. -/
def remap (sizes : Dict Dim Nat) (c : Config) : List (Nat × Dict Dim Nat) → SM Dim → Except PyErr (SM Dim)
  | [], m => .ok m
  | e :: t, m =>
    match sizeAt c e.1 with
    | .error x => .error x
    | .ok s =>
      match e.2 with
      | [] => .error .runtimeError
      | (d, _) :: _ =>
        match sizes.get? d with
        | none => .error .keyError
        | some n => if n % s = 0 then remap sizes c t (m.set e.1 [(d, s)]) else .error .valueError

/-- `_update_workload_spatial_mapping` (lines 149-165): starts from a deep copy of the original mapping. -/
def newMapping (sizes : Dict Dim Nat) (orig : SM Dim) (c : Config) : Except PyErr (SM Dim) := remap sizes c orig orig

/-- What persists between configurations. -/
structure St (R Dim : Type) where
  /-- the shared yaml description -/
  yaml : Yaml R
  /-- `layer.spatial_mapping` -/
  mapping : SM Dim
  /-- the files `gemm_l1_l3_<i>.yaml` in the output folder -/
  files : Dict Nat (Yaml R)
  best : Option Res
  all : List Res

/-- Lines 64-72: compare with the best result so far. -/
def consider (b : Option Res) (r : Res) : Option Res :=
  match b with
  | none => some r
  | some x => if latencyBetter r x then some r else some x

/-- One configuration (lines 93-105 and 56-72): update description and mapping, write the file, run the other stages on it. -/
def tryConfig (sub : Yaml R → SM Dim → Except PyErr (List Res)) (sizes : Dict Dim Nat) (orig : SM Dim) (i : Nat) (c : Config) (s : St R Dim) :
    Except PyErr (St R Dim) :=
  match setL1 s.yaml c.l1 with
  | .error e => .error e
  | .ok y =>
    match setBandwidths (setArray y c) c with
    | .error e => .error e
    | .ok y =>
      match newMapping sizes orig c with
      | .error e => .error e
      | .ok m =>
        let files := s.files.set i y
        match files.get? i with
        | none => .error .keyError
        | some f =>
          match sub f m with
          | .error e => .error e
          | .ok rs => .ok { yaml := y, mapping := m, files := files, best := rs.foldl consider s.best, all := s.all ++ rs }

/-- The loop of lines 55-72 over the generator of lines 78-105. -/
def loop (sub : Yaml R → SM Dim → Except PyErr (List Res)) (sizes : Dict Dim Nat) (orig : SM Dim) :
    List Config → Nat → St R Dim → Except PyErr (St R Dim)
  | [], _, s => .ok s
  | c :: t, i, s =>
    match tryConfig sub sizes orig i c s with
    | .error e => .error e
    | .ok s' => loop sub sizes orig t (i + 1) s'

/-- A layer of the workload: its type, sizes of its dimensions and spatial mapping. -/
structure Layer (Dim : Type) where
  type : String
  sizes : Dict Dim Nat
  mapping : SM Dim

/-- `run` (lines 50-76): the yielded result and the state that is left. -/
def run (sub : Yaml R → SM Dim → Except PyErr (List Res)) (path : Bool) (y : Yaml R) (layers : List (Layer Dim)) (files : Dict Nat (Yaml R)) :
    Except PyErr (Res × St R Dim) :=
  -- line 81: `path` says whether the path contains `gemm_l1_l3`
  if path then
    match layers with
    | [l] =>
      -- line 88
      if l.type = "Gemm" then
        match loop sub l.sizes l.mapping configs 0 { yaml := y, mapping := l.mapping, files := files, best := none, all := [] } with
        | .error e => .error e
        | .ok s =>
          -- line 75
          match s.best with
          | none => .error .assertion
          | some b => .ok (b, s)
      else .error .assertion
    | _ => .error .assertion
  else .error .assertion

end Verif.HwOpt
