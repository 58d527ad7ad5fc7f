import Verif.Call.Spec

/-! The input files that come with the tool (/repo/zigzag/inputs), as values: the nine accelerators that are not for in-memory computing, all mapping files and the two
workloads that are not in ONNX format.  The texts were converted by a script; comments are left out.  In tpu_like.yaml one memory has its ports listed twice under the same key; the last
list is the one that the YAML library keeps. -/

namespace Verif.Shipped

open Files (Doc)
open Latency (Operand)
open Whole (AccD)

/-- A port as it is written in these files. -/
def port (name type : String) (lo hi : Int) (alloc : List String) : Doc :=
  .dict [("name", .str name), ("type", .str type), ("bandwidth_min", .int lo), ("bandwidth_max", .int hi), ("allocation", .list (alloc.map .str))]

/-! ### Accelerators -/

/-- /repo/zigzag/inputs/hardware/ascend_like.yaml lines 1-204. -/
def ascendLikeDoc : Doc :=
  .dict [
    ("name", .str "ascend_like"),
    ("memories", .dict [
      ("rf_1B", .dict [("size", .int 8), ("r_cost", .num (1 / 100)), ("w_cost", .num (1 / 100)), ("area", .int 0), ("latency", .int 1), ("operands", .list [.str
        "I2"]), ("ports", .list [port "r_port_1" "read" 8 8 ["I2, tl"], port "w_port_1" "write" 8 8 ["I2, fh"]]), ("served_dimensions", .list [.str "D3", .str
        "D4"])]),
      ("rf_2B", .dict [("size", .int 16), ("r_cost", .num (1 / 50)), ("w_cost", .num (1 / 50)), ("area", .int 0), ("latency", .int 1), ("operands", .list [.str
        "O"]), ("ports", .list [port "r_port_1" "read" 16 16 ["O, tl"], port "r_port_2" "read" 16 16 ["O, th"], port "w_port_1" "write" 16 16 ["O, fh"], port
        "w_port_2" "write" 16 16 ["O, fl"]]), ("served_dimensions", .list [.str "D2"])]),
      ("rf_64KB_I", .dict [("size", .int 65536), ("r_cost", .num (664 / 25)), ("w_cost", .num (768 / 25)), ("area", .int 0), ("latency", .int 1), ("operands", .list
        [.str "I1"]), ("ports", .list [port "r_port_1" "read" 64 512 ["I1, tl"], port "w_port_1" "write" 64 512 ["I1, fh"]]), ("served_dimensions", .list [.str "D1",
        .str "D2", .str "D3", .str "D4"])]),
      ("rf_64KB_W", .dict [("size", .int 65536), ("r_cost", .num (1254 / 25)), ("w_cost", .num 108), ("area", .int 0), ("latency", .int 1), ("operands", .list [.str
        "I2"]), ("ports", .list [port "r_port_1" "read" 64 2048 ["I2, tl"], port "w_port_1" "write" 64 2048 ["I2, fh"]]), ("served_dimensions", .list [.str "D1",
        .str "D2", .str "D3", .str "D4"])]),
      ("sram_256KB_O", .dict [("size", .int 2097152), ("r_cost", .num (616 / 5)), ("w_cost", .num (1064 / 5)), ("area", .int 0), ("latency", .int 1), ("operands",
        .list [.str "O"]), ("ports", .list [port "r_port_1" "read" 64 2048 ["O, tl", "O, th"], port "w_port_1" "write" 64 2048 ["O, fh", "O, fl"]]),
        ("served_dimensions", .list [.str "D1", .str "D2", .str "D3", .str "D4"])]),
      ("sram_1MB_A", .dict [("size", .int 8388608), ("r_cost", .num (2328 / 5)), ("w_cost", .num (4128 / 5)), ("area", .int 0), ("latency", .int 1), ("operands",
        .list [.str "I1", .str "O"]), ("ports", .list [port "r_port_1" "read" 64 4096 ["I1, tl", "O, tl", "O, th"], port "w_port_1" "write" 64 4096 ["I1, fh",
        "O, fh", "O, fl"]]), ("served_dimensions", .list [.str "D1", .str "D2", .str "D3", .str "D4"])]),
      ("sram_1MB_W", .dict [("size", .int 8388608), ("r_cost", .num (2328 / 5)), ("w_cost", .num (4128 / 5)), ("area", .int 0), ("latency", .int 1), ("operands",
        .list [.str "I2"]), ("ports", .list [port "r_port_1" "read" 64 4096 ["I2, tl"], port "w_port_1" "write" 64 4096 ["I2, fh"]]), ("served_dimensions", .list
        [.str "D1", .str "D2", .str "D3", .str "D4"])]),
      ("dram", .dict [("size", .int 10000000000), ("r_cost", .int 700), ("w_cost", .int 750), ("area", .int 0), ("latency", .int 1), ("operands", .list [.str "I1",
        .str "I2", .str "O"]), ("ports", .list [port "rw_port_1" "read_write" 64 64 ["I1, fh", "I1, tl", "I2, fh", "I2, tl", "O, fh", "O, tl", "O, fl", "O, th"]]),
        ("served_dimensions", .list [.str "D1", .str "D2"])])]),
    ("operational_array", .dict [("input_precision", .list [.int 8, .int 8]), ("unit_energy", .num (1 / 25)), ("unit_area", .int 1), ("dimensions", .list [.str "D1",
      .str "D2", .str "D3", .str "D4"]), ("sizes", .list [.int 16, .int 16, .int 2, .int 2])])]

/-- The accelerator of this file. -/
def ascendLike : AccD String :=
  ⟨[
    ⟨8, false, some (1 / 100), some (1 / 100), some 0, [.in2], [⟨"r_port_1", .read, 8, 8, [(.in2, .rdLow)]⟩, ⟨"w_port_1", .write, 8, 8, [(.in2, .wrHigh)]⟩], ["D3",
      "D4"]⟩,
    ⟨16, false, some (1 / 50), some (1 / 50), some 0, [.out], [⟨"r_port_1", .read, 16, 16, [(.out, .rdLow)]⟩, ⟨"r_port_2", .read, 16, 16, [(.out, .rdHigh)]⟩,
      ⟨"w_port_1", .write, 16, 16, [(.out, .wrHigh)]⟩, ⟨"w_port_2", .write, 16, 16, [(.out, .wrLow)]⟩], ["D2"]⟩,
    ⟨65536, false, some (664 / 25), some (768 / 25), some 0, [.in1], [⟨"r_port_1", .read, 64, 512, [(.in1, .rdLow)]⟩, ⟨"w_port_1", .write, 64, 512, [(.in1,
      .wrHigh)]⟩], ["D1", "D2", "D3", "D4"]⟩,
    ⟨65536, false, some (1254 / 25), some 108, some 0, [.in2], [⟨"r_port_1", .read, 64, 2048, [(.in2, .rdLow)]⟩, ⟨"w_port_1", .write, 64, 2048, [(.in2, .wrHigh)]⟩],
      ["D1", "D2", "D3", "D4"]⟩,
    ⟨2097152, false, some (616 / 5), some (1064 / 5), some 0, [.out], [⟨"r_port_1", .read, 64, 2048, [(.out, .rdLow), (.out, .rdHigh)]⟩, ⟨"w_port_1", .write, 64,
      2048, [(.out, .wrHigh), (.out, .wrLow)]⟩], ["D1", "D2", "D3", "D4"]⟩,
    ⟨8388608, false, some (2328 / 5), some (4128 / 5), some 0, [.in1, .out], [⟨"r_port_1", .read, 64, 4096, [(.in1, .rdLow), (.out, .rdLow), (.out, .rdHigh)]⟩,
      ⟨"w_port_1", .write, 64, 4096, [(.in1, .wrHigh), (.out, .wrHigh), (.out, .wrLow)]⟩], ["D1", "D2", "D3", "D4"]⟩,
    ⟨8388608, false, some (2328 / 5), some (4128 / 5), some 0, [.in2], [⟨"r_port_1", .read, 64, 4096, [(.in2, .rdLow)]⟩, ⟨"w_port_1", .write, 64, 4096, [(.in2,
      .wrHigh)]⟩], ["D1", "D2", "D3", "D4"]⟩,
    ⟨10000000000, false, some 700, some 750, some 0, [.in1, .in2, .out], [⟨"rw_port_1", .readWrite, 64, 64, [(.in1, .wrHigh), (.in1, .rdLow), (.in2, .wrHigh), (.in2,
      .rdLow), (.out, .wrHigh), (.out, .rdLow), (.out, .wrLow), (.out, .rdHigh)]⟩], ["D1", "D2"]⟩],
    [("D1", 16), ("D2", 16), ("D3", 2), ("D4", 2)], (1 / 25)⟩

/-- /repo/zigzag/inputs/hardware/edge_tpu_like.yaml lines 1-135. -/
def edgeTpuLikeDoc : Doc :=
  .dict [
    ("name", .str "edge_tpu_like"),
    ("memories", .dict [
      ("rf_1B", .dict [("size", .int 8), ("r_cost", .num (1 / 100)), ("w_cost", .num (1 / 100)), ("area", .int 0), ("latency", .int 1), ("operands", .list [.str
        "I2"]), ("ports", .list [port "r_port_1" "read" 8 8 ["I2, tl"], port "w_port_1" "write" 8 8 ["I2, fh"]]), ("served_dimensions", .list [.str "D3", .str
        "D4"])]),
      ("rf_2B", .dict [("size", .int 16), ("r_cost", .num (1 / 50)), ("w_cost", .num (1 / 50)), ("area", .int 0), ("latency", .int 1), ("operands", .list [.str
        "O"]), ("ports", .list [port "r_port_1" "read" 16 16 ["O, tl"], port "r_port_2" "read" 16 16 ["O, th"], port "w_port_1" "write" 16 16 ["O, fh"], port
        "w_port_2" "write" 16 16 ["O, fl"]]), ("served_dimensions", .list [.str "D2"])]),
      ("sram_32KB", .dict [("size", .int 262144), ("r_cost", .num (229 / 10)), ("w_cost", .num (5201 / 100)), ("area", .int 0), ("latency", .int 1), ("operands",
        .list [.str "I2"]), ("ports", .list [port "r_port_1" "read" 64 512 ["I2, tl"], port "w_port_1" "write" 64 512 ["I2, fh"]]), ("served_dimensions", .list [.str
        "D1", .str "D2", .str "D3", .str "D4"])]),
      ("sram_2MB", .dict [("size", .int 16777216), ("r_cost", .num (10404 / 25)), ("w_cost", .num (1892 / 5)), ("area", .int 0), ("latency", .int 1), ("operands",
        .list [.str "I1", .str "O"]), ("ports", .list [port "r_port_1" "read" 64 2048 ["I1, tl", "O, tl", "O, th"], port "w_port_1" "write" 64 2048 ["I1, fh",
        "O, fh", "O, fl"]]), ("served_dimensions", .list [.str "D1", .str "D2", .str "D3", .str "D4"])]),
      ("dram", .dict [("size", .int 10000000000), ("r_cost", .int 700), ("w_cost", .int 750), ("area", .int 0), ("latency", .int 1), ("operands", .list [.str "I1",
        .str "I2", .str "O"]), ("ports", .list [port "rw_port_1" "read_write" 64 64 ["I1, fh", "I1, tl", "I2, fh", "I2, tl", "O, fh", "O, tl", "O, fl", "O, th"]]),
        ("served_dimensions", .list [.str "D1", .str "D2", .str "D3", .str "D4"])])]),
    ("operational_array", .dict [("unit_energy", .num (1 / 25)), ("unit_area", .int 1), ("dimensions", .list [.str "D1", .str "D2", .str "D3", .str "D4"]), ("sizes",
      .list [.int 8, .int 8, .int 4, .int 4])])]

/-- The accelerator of this file. -/
def edgeTpuLike : AccD String :=
  ⟨[
    ⟨8, false, some (1 / 100), some (1 / 100), some 0, [.in2], [⟨"r_port_1", .read, 8, 8, [(.in2, .rdLow)]⟩, ⟨"w_port_1", .write, 8, 8, [(.in2, .wrHigh)]⟩], ["D3",
      "D4"]⟩,
    ⟨16, false, some (1 / 50), some (1 / 50), some 0, [.out], [⟨"r_port_1", .read, 16, 16, [(.out, .rdLow)]⟩, ⟨"r_port_2", .read, 16, 16, [(.out, .rdHigh)]⟩,
      ⟨"w_port_1", .write, 16, 16, [(.out, .wrHigh)]⟩, ⟨"w_port_2", .write, 16, 16, [(.out, .wrLow)]⟩], ["D2"]⟩,
    ⟨262144, false, some (229 / 10), some (5201 / 100), some 0, [.in2], [⟨"r_port_1", .read, 64, 512, [(.in2, .rdLow)]⟩, ⟨"w_port_1", .write, 64, 512, [(.in2,
      .wrHigh)]⟩], ["D1", "D2", "D3", "D4"]⟩,
    ⟨16777216, false, some (10404 / 25), some (1892 / 5), some 0, [.in1, .out], [⟨"r_port_1", .read, 64, 2048, [(.in1, .rdLow), (.out, .rdLow), (.out, .rdHigh)]⟩,
      ⟨"w_port_1", .write, 64, 2048, [(.in1, .wrHigh), (.out, .wrHigh), (.out, .wrLow)]⟩], ["D1", "D2", "D3", "D4"]⟩,
    ⟨10000000000, false, some 700, some 750, some 0, [.in1, .in2, .out], [⟨"rw_port_1", .readWrite, 64, 64, [(.in1, .wrHigh), (.in1, .rdLow), (.in2, .wrHigh), (.in2,
      .rdLow), (.out, .wrHigh), (.out, .rdLow), (.out, .wrLow), (.out, .rdHigh)]⟩], ["D1", "D2", "D3", "D4"]⟩],
    [("D1", 8), ("D2", 8), ("D3", 4), ("D4", 4)], (1 / 25)⟩

/-- /repo/zigzag/inputs/hardware/eyeriss_like.yaml lines 1-161. -/
def eyerissLikeDoc : Doc :=
  .dict [
    ("name", .str "eyeriss_like"),
    ("memories", .dict [
      ("rf_64B_A", .dict [("size", .int 512), ("r_cost", .num 1), ("w_cost", .num (3 / 2)), ("area", .num (3 / 10)), ("latency", .int 1), ("operands", .list [.str
        "I1"]), ("ports", .list [port "r_port_1" "read" 8 8 ["I1, tl"], port "w_port_1" "write" 8 8 ["I1, fh"]]), ("served_dimensions", .list [])]),
      ("rf_64B_W", .dict [("size", .int 512), ("r_cost", .num 1), ("w_cost", .num (3 / 2)), ("area", .num (3 / 10)), ("latency", .int 1), ("operands", .list [.str
        "I2"]), ("ports", .list [port "r_port_1" "read" 8 8 ["I2, tl"], port "w_port_1" "write" 8 8 ["I2, fh"]]), ("served_dimensions", .list [])]),
      ("rf_16B", .dict [("size", .int 128), ("r_cost", .num (3 / 2)), ("w_cost", .num 2), ("area", .num (19 / 20)), ("latency", .int 1), ("operands", .list [.str
        "O"]), ("ports", .list [port "r_port_1" "read" 24 24 ["O, tl", "O, th"], port "w_port_1" "write" 24 24 ["O, fh", "O, fl"]]), ("served_dimensions", .list
        [])]),
      ("sram_8KB", .dict [("size", .int 65536), ("r_cost", .num 10), ("w_cost", .num 15), ("area", .int 3), ("latency", .int 1), ("operands", .list [.str "O"]),
        ("ports", .list [port "rw_port_1" "read_write" 128 128 ["O, fh", "O, tl", "O, fl", "O, th"]]), ("served_dimensions", .list [.str "D1", .str "D2"])]),
      ("sram_64KB", .dict [("size", .int 524288), ("r_cost", .int 20), ("w_cost", .int 25), ("area", .int 6), ("latency", .int 1), ("operands", .list [.str "I2"]),
        ("ports", .list [port "r_port_1" "read" 128 128 ["I2, tl"], port "w_port_1" "write" 128 128 ["I2, fh"]]), ("served_dimensions", .list [.str "D1", .str
        "D2"])]),
      ("sram_1M", .dict [("size", .int 8388608), ("r_cost", .int 100), ("w_cost", .int 130), ("area", .int 25), ("latency", .int 1), ("operands", .list [.str "I1",
        .str "O"]), ("ports", .list [port "rw_port_1" "read_write" 384 384 ["I1, fh", "I1, tl", "O, fh", "O, tl", "O, fl", "O, th"]]), ("served_dimensions", .list
        [.str "D1", .str "D2"])]),
      ("dram", .dict [("size", .int 10000000000), ("r_cost", .int 1000), ("w_cost", .int 1000), ("area", .int 0), ("latency", .int 1), ("operands", .list [.str "I1",
        .str "I2", .str "O"]), ("ports", .list [port "rw_port_1" "read_write" 64 64 ["I1, fh", "I1, tl", "I2, fh", "I2, tl", "O, fh", "O, tl", "O, fl", "O, th"]]),
        ("served_dimensions", .list [.str "D1", .str "D2"])])]),
    ("operational_array", .dict [("unit_energy", .num (1 / 2)), ("unit_area", .num (1 / 10)), ("dimensions", .list [.str "D1", .str "D2"]), ("sizes", .list [.int 14,
      .int 12])])]

/-- The accelerator of this file. -/
def eyerissLike : AccD String :=
  ⟨[
    ⟨512, false, some 1, some (3 / 2), some (3 / 10), [.in1], [⟨"r_port_1", .read, 8, 8, [(.in1, .rdLow)]⟩, ⟨"w_port_1", .write, 8, 8, [(.in1, .wrHigh)]⟩], []⟩,
    ⟨512, false, some 1, some (3 / 2), some (3 / 10), [.in2], [⟨"r_port_1", .read, 8, 8, [(.in2, .rdLow)]⟩, ⟨"w_port_1", .write, 8, 8, [(.in2, .wrHigh)]⟩], []⟩,
    ⟨128, false, some (3 / 2), some 2, some (19 / 20), [.out], [⟨"r_port_1", .read, 24, 24, [(.out, .rdLow), (.out, .rdHigh)]⟩, ⟨"w_port_1", .write, 24, 24, [(.out,
      .wrHigh), (.out, .wrLow)]⟩], []⟩,
    ⟨65536, false, some 10, some 15, some 3, [.out], [⟨"rw_port_1", .readWrite, 128, 128, [(.out, .wrHigh), (.out, .rdLow), (.out, .wrLow), (.out, .rdHigh)]⟩],
      ["D1", "D2"]⟩,
    ⟨524288, false, some 20, some 25, some 6, [.in2], [⟨"r_port_1", .read, 128, 128, [(.in2, .rdLow)]⟩, ⟨"w_port_1", .write, 128, 128, [(.in2, .wrHigh)]⟩], ["D1",
      "D2"]⟩,
    ⟨8388608, false, some 100, some 130, some 25, [.in1, .out], [⟨"rw_port_1", .readWrite, 384, 384, [(.in1, .wrHigh), (.in1, .rdLow), (.out, .wrHigh), (.out,
      .rdLow), (.out, .wrLow), (.out, .rdHigh)]⟩], ["D1", "D2"]⟩,
    ⟨10000000000, false, some 1000, some 1000, some 0, [.in1, .in2, .out], [⟨"rw_port_1", .readWrite, 64, 64, [(.in1, .wrHigh), (.in1, .rdLow), (.in2, .wrHigh),
      (.in2, .rdLow), (.out, .wrHigh), (.out, .rdLow), (.out, .wrLow), (.out, .rdHigh)]⟩], ["D1", "D2"]⟩],
    [("D1", 14), ("D2", 12)], (1 / 2)⟩

/-- /repo/zigzag/inputs/hardware/gemm_l1.yaml lines 1-73. -/
def gemmL1Doc : Doc :=
  .dict [
    ("name", .str "gemm_l1"),
    ("memories", .dict [
      ("reg_O", .dict [("size", .int 32), ("r_cost", .num (1 / 50)), ("w_cost", .num (1 / 50)), ("area", .int 0), ("latency", .int 1), ("auto_cost_extraction", .bool
        false), ("operands", .list [.str "O"]), ("ports", .list [port "w_port_1" "write" 32 32 ["O, fh"], port "r_port_1" "read" 32 32 ["O, tl"], port "w_port_2"
        "write" 32 32 ["O, fl"], port "r_port_2" "read" 32 32 ["O, th"]]), ("served_dimensions", .list [.str "D2"])]),
      ("l1", .dict [("size", .int 4194304), ("r_cost", .num (229 / 10)), ("w_cost", .num (5201 / 100)), ("area", .int 0), ("latency", .int 1), ("operands", .list
        [.str "I1", .str "I2", .str "O"]), ("ports", .list [port "rw_port_1" "read_write" 64 512 ["I1, tl"], port "rw_port_2" "read_write" 64 512 ["I2, tl"], port
        "rw_port_3" "read_write" 64 2048 ["O, tl", "O, fl"]]), ("served_dimensions", .list [.str "D1", .str "D2", .str "D3"])])]),
    ("operational_array", .dict [("input_precision", .list [.int 8, .int 8]), ("unit_energy", .num (1 / 25)), ("unit_area", .int 1), ("dimensions", .list [.str "D1",
      .str "D2", .str "D3"]), ("sizes", .list [.int 8, .int 8, .int 8])])]

/-- The accelerator of this file. -/
def gemmL1 : AccD String :=
  ⟨[
    ⟨32, false, some (1 / 50), some (1 / 50), some 0, [.out], [⟨"w_port_1", .write, 32, 32, [(.out, .wrHigh)]⟩, ⟨"r_port_1", .read, 32, 32, [(.out, .rdLow)]⟩,
      ⟨"w_port_2", .write, 32, 32, [(.out, .wrLow)]⟩, ⟨"r_port_2", .read, 32, 32, [(.out, .rdHigh)]⟩], ["D2"]⟩,
    ⟨4194304, false, some (229 / 10), some (5201 / 100), some 0, [.in1, .in2, .out], [⟨"rw_port_1", .readWrite, 64, 512, [(.in1, .rdLow)]⟩, ⟨"rw_port_2", .readWrite,
      64, 512, [(.in2, .rdLow)]⟩, ⟨"rw_port_3", .readWrite, 64, 2048, [(.out, .rdLow), (.out, .wrLow)]⟩], ["D1", "D2", "D3"]⟩],
    [("D1", 8), ("D2", 8), ("D3", 8)], (1 / 25)⟩

/-- /repo/zigzag/inputs/hardware/gemm_l1_l3.yaml lines 1-106. -/
def gemmL1L3Doc : Doc :=
  .dict [
    ("name", .str "gemm_l1_l3"),
    ("memories", .dict [
      ("reg_O", .dict [("size", .int 32), ("r_cost", .int 3), ("w_cost", .int 4), ("area", .int 0), ("latency", .int 1), ("auto_cost_extraction", .bool false),
        ("operands", .list [.str "O"]), ("ports", .list [port "r_port_1" "read" 32 32 ["O, tl"], port "r_port_2" "read" 32 32 ["O, th"], port "w_port_1" "write" 32
        32 ["O, fh"], port "w_port_2" "write" 32 32 ["O, fl"]]), ("served_dimensions", .list [.str "D2"])]),
      ("l1", .dict [("size", .int 943718), ("r_cost", .int 118), ("w_cost", .num (708 / 5)), ("area", .int 0), ("latency", .int 1), ("operands", .list [.str "I1",
        .str "I2", .str "O"]), ("ports", .list [port "rw_port_1" "read_write" 64 512 ["I1, tl"], port "rw_port_2" "read_write" 64 512 ["I2, tl"], port "rw_port_3"
        "read_write" 64 2048 ["O, tl", "O, fl"], port "rw_port_4" "read_write" 64 512 ["I1, fh", "I2, fh", "O, fh", "O, th"]]), ("served_dimensions", .list [.str
        "D1", .str "D2", .str "D3"]), ("force_double_buffering", .bool true)]),
      ("l3", .dict [("size", .int 10000000000), ("r_cost", .int 16000), ("w_cost", .int 24000), ("area", .int 0), ("latency", .int 1), ("operands", .list [.str "I1",
        .str "I2", .str "O"]), ("ports", .list [port "rw_port_1" "read_write" 512 512 ["I1, fh", "I1, tl", "I2, fh", "I2, tl", "O, fh", "O, tl", "O, fl", "O, th"]]),
        ("served_dimensions", .list [.str "D1", .str "D2", .str "D3"])])]),
    ("operational_array", .dict [("input_precision", .list [.int 8, .int 8]), ("unit_energy", .num (1 / 25)), ("unit_area", .int 1), ("dimensions", .list [.str "D1",
      .str "D2", .str "D3"]), ("sizes", .list [.int 8, .int 8, .int 8])])]

/-- The accelerator of this file. -/
def gemmL1L3 : AccD String :=
  ⟨[
    ⟨32, false, some 3, some 4, some 0, [.out], [⟨"r_port_1", .read, 32, 32, [(.out, .rdLow)]⟩, ⟨"r_port_2", .read, 32, 32, [(.out, .rdHigh)]⟩, ⟨"w_port_1", .write,
      32, 32, [(.out, .wrHigh)]⟩, ⟨"w_port_2", .write, 32, 32, [(.out, .wrLow)]⟩], ["D2"]⟩,
    ⟨943718, false, some 118, some (708 / 5), some 0, [.in1, .in2, .out], [⟨"rw_port_1", .readWrite, 64, 512, [(.in1, .rdLow)]⟩, ⟨"rw_port_2", .readWrite, 64, 512,
      [(.in2, .rdLow)]⟩, ⟨"rw_port_3", .readWrite, 64, 2048, [(.out, .rdLow), (.out, .wrLow)]⟩, ⟨"rw_port_4", .readWrite, 64, 512, [(.in1, .wrHigh), (.in2, .wrHigh),
      (.out, .wrHigh), (.out, .rdHigh)]⟩], ["D1", "D2", "D3"]⟩,
    ⟨10000000000, false, some 16000, some 24000, some 0, [.in1, .in2, .out], [⟨"rw_port_1", .readWrite, 512, 512, [(.in1, .wrHigh), (.in1, .rdLow), (.in2, .wrHigh),
      (.in2, .rdLow), (.out, .wrHigh), (.out, .rdLow), (.out, .wrLow), (.out, .rdHigh)]⟩], ["D1", "D2", "D3"]⟩],
    [("D1", 8), ("D2", 8), ("D3", 8)], (1 / 25)⟩

/-- /repo/zigzag/inputs/hardware/generic_array_cacti.yaml lines 1-158. -/
def genericArrayCactiDoc : Doc :=
  .dict [
    ("name", .str "generic_array"),
    ("memories", .dict [
      ("rf_I", .dict [("size", .int 1024), ("r_cost", .num (19 / 200)), ("w_cost", .num (19 / 200)), ("area", .int 0), ("latency", .int 1), ("operands", .list [.str
        "I1"]), ("ports", .list [port "r_port_1" "read" 16 16 ["I1, tl"], port "w_port_1" "write" 16 16 ["I1, fh"]]), ("served_dimensions", .list [])]),
      ("rf_W", .dict [("size", .int 1024), ("r_cost", .num (19 / 200)), ("w_cost", .num (19 / 200)), ("area", .int 0), ("latency", .int 1), ("operands", .list [.str
        "I2"]), ("ports", .list [port "r_port_1" "read" 16 16 ["I2, tl"], port "w_port_1" "write" 16 16 ["I2, fh"]]), ("served_dimensions", .list [])]),
      ("rf_O", .dict [("size", .int 1024), ("r_cost", .num (19 / 200)), ("w_cost", .num (19 / 200)), ("area", .int 0), ("latency", .int 1), ("operands", .list [.str
        "O"]), ("ports", .list [port "r_port_1" "read" 32 32 ["O, tl"], port "r_port_2" "read" 32 32 ["O, th"], port "w_port_1" "write" 32 32 ["O, fh"], port
        "w_port_2" "write" 32 32 ["O, fl"]]), ("served_dimensions", .list [])]),
      ("sram_32MB", .dict [("size", .int 268435456), ("r_cost", .num (10404 / 25)), ("w_cost", .num (1892 / 5)), ("area", .int 0), ("latency", .int 1), ("operands",
        .list [.str "I1", .str "I2", .str "O"]), ("ports", .list [port "r_port_1" "read" 64 16384 ["I1, tl", "O, tl", "O, th"], port "r_port_2" "read" 64 16384
        ["I2, tl", "O, tl", "O, th"], port "w_port_1" "write" 64 16384 ["I1, fh", "O, fh", "O, fl"], port "w_port_2" "write" 64 16384 ["I2, fh", "O, fh", "O, fl"]]),
        ("served_dimensions", .list [.str "D1", .str "D2"])]),
      ("dram", .dict [("size", .int 10000000000), ("r_cost", .int 700), ("w_cost", .int 750), ("area", .int 0), ("latency", .int 10), ("operands", .list [.str "I1",
        .str "I2", .str "O"]), ("ports", .list [port "rw_port_1" "read_write" 64 2048 ["I1, fh", "I1, tl", "I2, fh", "I2, tl", "O, fh", "O, tl", "O, fl", "O, th"]]),
        ("served_dimensions", .list [.str "D1", .str "D2"])])]),
    ("operational_array", .dict [("unit_energy", .num (1 / 25)), ("unit_area", .int 1), ("dimensions", .list [.str "D1", .str "D2"]), ("sizes", .list [.int 256, .int
      256])])]

/-- The accelerator of this file. -/
def genericArrayCacti : AccD String :=
  ⟨[
    ⟨1024, false, some (19 / 200), some (19 / 200), some 0, [.in1], [⟨"r_port_1", .read, 16, 16, [(.in1, .rdLow)]⟩, ⟨"w_port_1", .write, 16, 16, [(.in1, .wrHigh)]⟩],
      []⟩,
    ⟨1024, false, some (19 / 200), some (19 / 200), some 0, [.in2], [⟨"r_port_1", .read, 16, 16, [(.in2, .rdLow)]⟩, ⟨"w_port_1", .write, 16, 16, [(.in2, .wrHigh)]⟩],
      []⟩,
    ⟨1024, false, some (19 / 200), some (19 / 200), some 0, [.out], [⟨"r_port_1", .read, 32, 32, [(.out, .rdLow)]⟩, ⟨"r_port_2", .read, 32, 32, [(.out, .rdHigh)]⟩,
      ⟨"w_port_1", .write, 32, 32, [(.out, .wrHigh)]⟩, ⟨"w_port_2", .write, 32, 32, [(.out, .wrLow)]⟩], []⟩,
    ⟨268435456, false, some (10404 / 25), some (1892 / 5), some 0, [.in1, .in2, .out], [⟨"r_port_1", .read, 64, 16384, [(.in1, .rdLow), (.out, .rdLow), (.out,
      .rdHigh)]⟩, ⟨"r_port_2", .read, 64, 16384, [(.in2, .rdLow), (.out, .rdLow), (.out, .rdHigh)]⟩, ⟨"w_port_1", .write, 64, 16384, [(.in1, .wrHigh), (.out,
      .wrHigh), (.out, .wrLow)]⟩, ⟨"w_port_2", .write, 64, 16384, [(.in2, .wrHigh), (.out, .wrHigh), (.out, .wrLow)]⟩], ["D1", "D2"]⟩,
    ⟨10000000000, false, some 700, some 750, some 0, [.in1, .in2, .out], [⟨"rw_port_1", .readWrite, 64, 2048, [(.in1, .wrHigh), (.in1, .rdLow), (.in2, .wrHigh),
      (.in2, .rdLow), (.out, .wrHigh), (.out, .rdLow), (.out, .wrLow), (.out, .rdHigh)]⟩], ["D1", "D2"]⟩],
    [("D1", 256), ("D2", 256)], (1 / 25)⟩

/-- /repo/zigzag/inputs/hardware/meta_prototype.yaml lines 1-179. -/
def metaPrototypeDoc : Doc :=
  .dict [
    ("name", .str "meta_prototype"),
    ("memories", .dict [
      ("rf_1B", .dict [("size", .int 8), ("r_cost", .num (1 / 100)), ("w_cost", .num (1 / 100)), ("area", .int 0), ("latency", .int 1), ("operands", .list [.str
        "I2"]), ("ports", .list [port "r_port_1" "read" 8 8 ["I2, tl"], port "w_port_1" "write" 8 8 ["I2, fh"]]), ("served_dimensions", .list [.str "D3", .str
        "D4"])]),
      ("rf_2B", .dict [("size", .int 16), ("r_cost", .num (1 / 50)), ("w_cost", .num (1 / 50)), ("area", .int 0), ("latency", .int 1), ("operands", .list [.str
        "O"]), ("ports", .list [port "r_port_1" "read" 16 16 ["O, tl"], port "r_port_2" "read" 16 16 ["O, th"], port "w_port_1" "write" 16 16 ["O, fh"], port
        "w_port_2" "write" 16 16 ["O, fl"]]), ("served_dimensions", .list [.str "D2"])]),
      ("sram_64KB", .dict [("size", .int 524288), ("r_cost", .num (664 / 25)), ("w_cost", .num (154 / 5)), ("area", .int 0), ("latency", .int 1), ("operands", .list
        [.str "I2"]), ("ports", .list [port "r_port_1" "read" 64 512 ["I2, tl"], port "w_port_1" "write" 64 512 ["I2, fh"]]), ("served_dimensions", .list [.str "D1",
        .str "D2", .str "D3", .str "D4"])]),
      ("sram_32KB", .dict [("size", .int 262144), ("r_cost", .num (332 / 25)), ("w_cost", .num (77 / 5)), ("area", .int 0), ("latency", .int 1), ("operands", .list
        [.str "I1"]), ("ports", .list [port "r_port_1" "read" 64 256 ["I1, tl"], port "w_port_1" "write" 64 256 ["I1, fh"]]), ("served_dimensions", .list [.str "D1",
        .str "D2", .str "D3", .str "D4"])]),
      ("sram_1MB_A", .dict [("size", .int 8388608), ("r_cost", .num (5202 / 25)), ("w_cost", .num (946 / 5)), ("area", .int 0), ("latency", .int 1), ("operands",
        .list [.str "I1", .str "O"]), ("ports", .list [port "r_port_1" "read" 64 1024 ["I1, tl", "O, tl", "O, th"], port "w_port_1" "write" 64 1024 ["I1, fh",
        "O, fh", "O, fl"]]), ("served_dimensions", .list [.str "D1", .str "D2", .str "D3", .str "D4"])]),
      ("sram_1MB_W", .dict [("size", .int 8388608), ("r_cost", .num (5202 / 25)), ("w_cost", .num (946 / 5)), ("area", .int 0), ("latency", .int 1), ("operands",
        .list [.str "I2"]), ("ports", .list [port "r_port_1" "read" 64 1024 ["I2, tl"], port "w_port_1" "write" 64 1024 ["I2, fh"]]), ("served_dimensions", .list
        [.str "D1", .str "D2", .str "D3", .str "D4"])]),
      ("dram", .dict [("size", .int 10000000000), ("r_cost", .int 700), ("w_cost", .int 750), ("area", .int 0), ("latency", .int 1), ("operands", .list [.str "I1",
        .str "I2", .str "O"]), ("ports", .list [port "rw_port_1" "read_write" 64 64 ["I1, fh", "I1, tl", "I2, fh", "I2, tl", "O, fh", "O, tl", "O, fl", "O, th"]]),
        ("served_dimensions", .list [.str "D1", .str "D2", .str "D3", .str "D4"])])]),
    ("operational_array", .dict [("unit_energy", .num (1 / 25)), ("unit_area", .int 1), ("dimensions", .list [.str "D1", .str "D2", .str "D3", .str "D4"]), ("sizes",
      .list [.int 32, .int 2, .int 4, .int 4])])]

/-- The accelerator of this file. -/
def metaPrototype : AccD String :=
  ⟨[
    ⟨8, false, some (1 / 100), some (1 / 100), some 0, [.in2], [⟨"r_port_1", .read, 8, 8, [(.in2, .rdLow)]⟩, ⟨"w_port_1", .write, 8, 8, [(.in2, .wrHigh)]⟩], ["D3",
      "D4"]⟩,
    ⟨16, false, some (1 / 50), some (1 / 50), some 0, [.out], [⟨"r_port_1", .read, 16, 16, [(.out, .rdLow)]⟩, ⟨"r_port_2", .read, 16, 16, [(.out, .rdHigh)]⟩,
      ⟨"w_port_1", .write, 16, 16, [(.out, .wrHigh)]⟩, ⟨"w_port_2", .write, 16, 16, [(.out, .wrLow)]⟩], ["D2"]⟩,
    ⟨524288, false, some (664 / 25), some (154 / 5), some 0, [.in2], [⟨"r_port_1", .read, 64, 512, [(.in2, .rdLow)]⟩, ⟨"w_port_1", .write, 64, 512, [(.in2,
      .wrHigh)]⟩], ["D1", "D2", "D3", "D4"]⟩,
    ⟨262144, false, some (332 / 25), some (77 / 5), some 0, [.in1], [⟨"r_port_1", .read, 64, 256, [(.in1, .rdLow)]⟩, ⟨"w_port_1", .write, 64, 256, [(.in1,
      .wrHigh)]⟩], ["D1", "D2", "D3", "D4"]⟩,
    ⟨8388608, false, some (5202 / 25), some (946 / 5), some 0, [.in1, .out], [⟨"r_port_1", .read, 64, 1024, [(.in1, .rdLow), (.out, .rdLow), (.out, .rdHigh)]⟩,
      ⟨"w_port_1", .write, 64, 1024, [(.in1, .wrHigh), (.out, .wrHigh), (.out, .wrLow)]⟩], ["D1", "D2", "D3", "D4"]⟩,
    ⟨8388608, false, some (5202 / 25), some (946 / 5), some 0, [.in2], [⟨"r_port_1", .read, 64, 1024, [(.in2, .rdLow)]⟩, ⟨"w_port_1", .write, 64, 1024, [(.in2,
      .wrHigh)]⟩], ["D1", "D2", "D3", "D4"]⟩,
    ⟨10000000000, false, some 700, some 750, some 0, [.in1, .in2, .out], [⟨"rw_port_1", .readWrite, 64, 64, [(.in1, .wrHigh), (.in1, .rdLow), (.in2, .wrHigh), (.in2,
      .rdLow), (.out, .wrHigh), (.out, .rdLow), (.out, .wrLow), (.out, .rdHigh)]⟩], ["D1", "D2", "D3", "D4"]⟩],
    [("D1", 32), ("D2", 2), ("D3", 4), ("D4", 4)], (1 / 25)⟩

/-- /repo/zigzag/inputs/hardware/tesla_npu_like.yaml lines 1-179. -/
def teslaNpuLikeDoc : Doc :=
  .dict [
    ("name", .str "npu_like"),
    ("memories", .dict [
      ("rf_1B", .dict [("size", .int 8), ("r_cost", .num (1 / 100)), ("w_cost", .num (1 / 100)), ("area", .int 0), ("latency", .int 1), ("operands", .list [.str
        "I2"]), ("ports", .list [port "r_port_1" "read" 8 8 ["I2, tl"], port "w_port_1" "write" 8 8 ["I2, fh"]]), ("served_dimensions", .list [.str "D2", .str
        "D3"])]),
      ("rf_4B", .dict [("size", .int 32), ("r_cost", .num (11 / 500)), ("w_cost", .num (11 / 500)), ("area", .int 0), ("latency", .int 1), ("operands", .list [.str
        "O"]), ("ports", .list [port "r_port_1" "read" 16 16 ["O, tl"], port "r_port_2" "read" 16 16 ["O, th"], port "w_port_1" "write" 16 16 ["O, fh"], port
        "w_port_2" "write" 16 16 ["O, fl"]]), ("served_dimensions", .list [])]),
      ("sram_1KB_I", .dict [("size", .int 8192), ("r_cost", .num (239 / 50)), ("w_cost", .num (559 / 100)), ("area", .int 0), ("latency", .int 1), ("operands", .list
        [.str "I1"]), ("ports", .list [port "r_port_1" "read" 64 256 ["I1, tl"], port "w_port_1" "write" 64 256 ["I1, fh"]]), ("served_dimensions", .list [.str "D1",
        .str "D2", .str "D3"])]),
      ("sram_1KB_W", .dict [("size", .int 8192), ("r_cost", .num (239 / 50)), ("w_cost", .num (559 / 100)), ("area", .int 0), ("latency", .int 1), ("operands", .list
        [.str "I2"]), ("ports", .list [port "r_port_1" "read" 64 256 ["I2, tl"], port "w_port_1" "write" 64 256 ["I2, fh"]]), ("served_dimensions", .list [.str "D1",
        .str "D2", .str "D3"])]),
      ("sram_1MB_A", .dict [("size", .int 8388608), ("r_cost", .num (5202 / 25)), ("w_cost", .num (946 / 5)), ("area", .int 0), ("latency", .int 1), ("operands",
        .list [.str "I1", .str "O"]), ("ports", .list [port "r_port_1" "read" 64 1024 ["I1, tl", "O, tl", "O, th"], port "w_port_1" "write" 64 1024 ["I1, fh",
        "O, fh", "O, fl"]]), ("served_dimensions", .list [.str "D1", .str "D2", .str "D3"])]),
      ("sram_1MB_W", .dict [("size", .int 8388608), ("r_cost", .num (5202 / 25)), ("w_cost", .num (946 / 5)), ("area", .int 0), ("latency", .int 1), ("operands",
        .list [.str "I2"]), ("ports", .list [port "r_port_1" "read" 64 1024 ["I2, tl"], port "w_port_1" "write" 64 1024 ["I2, fh"]]), ("served_dimensions", .list
        [.str "D1", .str "D2", .str "D3"])]),
      ("dram", .dict [("size", .int 10000000000), ("r_cost", .int 700), ("w_cost", .int 750), ("area", .int 0), ("latency", .int 1), ("operands", .list [.str "I1",
        .str "I2", .str "O"]), ("ports", .list [port "rw_port_1" "read_write" 64 64 ["I1, fh", "I1, tl", "I2, fh", "I2, tl", "O, fh", "O, tl", "O, fl", "O, th"]]),
        ("served_dimensions", .list [.str "D1", .str "D2", .str "D3"])])]),
    ("operational_array", .dict [("unit_energy", .num (1 / 25)), ("unit_area", .int 1), ("dimensions", .list [.str "D1", .str "D2", .str "D3"]), ("sizes", .list
      [.int 32, .int 32, .int 4])])]

/-- The accelerator of this file. -/
def teslaNpuLike : AccD String :=
  ⟨[
    ⟨8, false, some (1 / 100), some (1 / 100), some 0, [.in2], [⟨"r_port_1", .read, 8, 8, [(.in2, .rdLow)]⟩, ⟨"w_port_1", .write, 8, 8, [(.in2, .wrHigh)]⟩], ["D2",
      "D3"]⟩,
    ⟨32, false, some (11 / 500), some (11 / 500), some 0, [.out], [⟨"r_port_1", .read, 16, 16, [(.out, .rdLow)]⟩, ⟨"r_port_2", .read, 16, 16, [(.out, .rdHigh)]⟩,
      ⟨"w_port_1", .write, 16, 16, [(.out, .wrHigh)]⟩, ⟨"w_port_2", .write, 16, 16, [(.out, .wrLow)]⟩], []⟩,
    ⟨8192, false, some (239 / 50), some (559 / 100), some 0, [.in1], [⟨"r_port_1", .read, 64, 256, [(.in1, .rdLow)]⟩, ⟨"w_port_1", .write, 64, 256, [(.in1,
      .wrHigh)]⟩], ["D1", "D2", "D3"]⟩,
    ⟨8192, false, some (239 / 50), some (559 / 100), some 0, [.in2], [⟨"r_port_1", .read, 64, 256, [(.in2, .rdLow)]⟩, ⟨"w_port_1", .write, 64, 256, [(.in2,
      .wrHigh)]⟩], ["D1", "D2", "D3"]⟩,
    ⟨8388608, false, some (5202 / 25), some (946 / 5), some 0, [.in1, .out], [⟨"r_port_1", .read, 64, 1024, [(.in1, .rdLow), (.out, .rdLow), (.out, .rdHigh)]⟩,
      ⟨"w_port_1", .write, 64, 1024, [(.in1, .wrHigh), (.out, .wrHigh), (.out, .wrLow)]⟩], ["D1", "D2", "D3"]⟩,
    ⟨8388608, false, some (5202 / 25), some (946 / 5), some 0, [.in2], [⟨"r_port_1", .read, 64, 1024, [(.in2, .rdLow)]⟩, ⟨"w_port_1", .write, 64, 1024, [(.in2,
      .wrHigh)]⟩], ["D1", "D2", "D3"]⟩,
    ⟨10000000000, false, some 700, some 750, some 0, [.in1, .in2, .out], [⟨"rw_port_1", .readWrite, 64, 64, [(.in1, .wrHigh), (.in1, .rdLow), (.in2, .wrHigh), (.in2,
      .rdLow), (.out, .wrHigh), (.out, .rdLow), (.out, .wrLow), (.out, .rdHigh)]⟩], ["D1", "D2", "D3"]⟩],
    [("D1", 32), ("D2", 32), ("D3", 4)], (1 / 25)⟩

/-- /repo/zigzag/inputs/hardware/tpu_like.yaml lines 1-120. -/
def tpuLikeDoc : Doc :=
  .dict [
    ("name", .str "tpu_like"),
    ("memories", .dict [
      ("rf_128B", .dict [("size", .int 1024), ("r_cost", .num (19 / 200)), ("w_cost", .num (19 / 200)), ("area", .int 0), ("latency", .int 1), ("operands", .list
        [.str "I2"]), ("ports", .list [port "r_port_1" "read" 8 8 ["I2, tl"], port "w_port_1" "write" 8 8 ["I2, fh"]]), ("served_dimensions", .list [])]),
      ("rf_2B", .dict [("size", .int 16), ("r_cost", .num (21 / 1000)), ("w_cost", .num (21 / 1000)), ("area", .int 0), ("latency", .int 1), ("operands", .list [.str
        "O"]), ("ports", .list [port "r_port_1" "read" 16 16 ["O, tl"], port "r_port_2" "read" 16 16 ["O, th"], port "w_port_1" "write" 16 16 ["O, fh"], port
        "w_port_2" "write" 16 16 ["O, fl"]]), ("served_dimensions", .list [])]),
      ("sram_2MB", .dict [("size", .int 16777216), ("r_cost", .num (10404 / 25)), ("w_cost", .num (1892 / 5)), ("area", .int 0), ("latency", .int 1), ("operands",
        .list [.str "I1", .str "O"]), ("ports", .list [port "r_port_1" "read" 64 2048 ["I1, tl", "O, tl", "O, th"], port "w_port_1" "write" 64 2048 ["I1, fh",
        "O, fh", "O, fl"]]), ("served_dimensions", .list [.str "D1", .str "D2"])]),
      ("dram", .dict [("size", .int 10000000000), ("r_cost", .int 700), ("w_cost", .int 750), ("area", .int 0), ("latency", .int 1), ("operands", .list [.str "I1",
        .str "I2", .str "O"]), ("ports", .list [port "rw_port_1" "read_write" 64 64 ["I1, fh", "I1, tl", "I2, fh", "I2, tl", "O, fh", "O, tl", "O, fl", "O, th"]]),
        ("served_dimensions", .list [.str "D1", .str "D2"])])]),
    ("operational_array", .dict [("unit_energy", .num (1 / 25)), ("unit_area", .int 1), ("dimensions", .list [.str "D1", .str "D2"]), ("sizes", .list [.int 32, .int
      32])])]

/-- The accelerator of this file. -/
def tpuLike : AccD String :=
  ⟨[
    ⟨1024, false, some (19 / 200), some (19 / 200), some 0, [.in2], [⟨"r_port_1", .read, 8, 8, [(.in2, .rdLow)]⟩, ⟨"w_port_1", .write, 8, 8, [(.in2, .wrHigh)]⟩], []⟩,
    ⟨16, false, some (21 / 1000), some (21 / 1000), some 0, [.out], [⟨"r_port_1", .read, 16, 16, [(.out, .rdLow)]⟩, ⟨"r_port_2", .read, 16, 16, [(.out, .rdHigh)]⟩,
      ⟨"w_port_1", .write, 16, 16, [(.out, .wrHigh)]⟩, ⟨"w_port_2", .write, 16, 16, [(.out, .wrLow)]⟩], []⟩,
    ⟨16777216, false, some (10404 / 25), some (1892 / 5), some 0, [.in1, .out], [⟨"r_port_1", .read, 64, 2048, [(.in1, .rdLow), (.out, .rdLow), (.out, .rdHigh)]⟩,
      ⟨"w_port_1", .write, 64, 2048, [(.in1, .wrHigh), (.out, .wrHigh), (.out, .wrLow)]⟩], ["D1", "D2"]⟩,
    ⟨10000000000, false, some 700, some 750, some 0, [.in1, .in2, .out], [⟨"rw_port_1", .readWrite, 64, 64, [(.in1, .wrHigh), (.in1, .rdLow), (.in2, .wrHigh), (.in2,
      .rdLow), (.out, .wrHigh), (.out, .rdLow), (.out, .wrLow), (.out, .rdHigh)]⟩], ["D1", "D2"]⟩],
    [("D1", 32), ("D2", 32)], (1 / 25)⟩

/-! ### Mappings -/

/-- /repo/zigzag/inputs/mapping/ascend_like.yaml lines 1-29. -/
def ascendLikeMap : Doc :=
  .list [
    .dict [("name", .str "default"), ("spatial_mapping", .dict [("D1", .list [.str "K, 16"]), ("D2", .list [.str "C, 16"]), ("D3", .list [.str "OX, 2"]), ("D4",
      .list [.str "OY, 2"])]), ("memory_operand_links", .dict [("O", .str "O"), ("W", .str "I2"), ("I", .str "I1")])],
    .dict [("name", .str "Add"), ("spatial_mapping", .dict [("D1", .list [.str "G, 16"]), ("D2", .list [.str "C, 1"]), ("D3", .list [.str "OX, 1"]), ("D4", .list
      [.str "OY, 1"])]), ("memory_operand_links", .dict [("O", .str "O"), ("W", .str "I2"), ("I", .str "I1")])]]

/-- /repo/zigzag/inputs/mapping/ascend_like_mixed.yaml lines 1-30. -/
def ascendLikeMixedMap : Doc :=
  .list [
    .dict [("name", .str "default"), ("spatial_mapping", .dict [("D1", .list [.str "K, 16"]), ("D2", .list [.str "C, 4", .str "FX, 3"]), ("D3", .list [.str
      "OX, 2"]), ("D4", .list [.str "OY, 2"])]), ("memory_operand_links", .dict [("O", .str "O"), ("W", .str "I2"), ("I", .str "I1")])],
    .dict [("name", .str "Add"), ("spatial_mapping", .dict [("D1", .list [.str "G, 16"]), ("D2", .list [.str "C, 1"]), ("D3", .list [.str "OX, 1"]), ("D4", .list
      [.str "OY, 1"])]), ("memory_operand_links", .dict [("O", .str "O"), ("W", .str "I2"), ("I", .str "I1")])]]

/-- /repo/zigzag/inputs/mapping/default.yaml lines 1-10. -/
def defaultMap : Doc :=
  .list [
    .dict [("name", .str "default"), ("spatial_mapping", .dict [("D1", .list [.str "K, 32"]), ("D2", .list [.str "C, 32"])]), ("memory_operand_links", .dict [("O",
      .str "O"), ("W", .str "I2"), ("I", .str "I1")])]]

/-- /repo/zigzag/inputs/mapping/default_imc.yaml lines 1-23. -/
def defaultImcMap : Doc :=
  .list [
    .dict [("name", .str "default"), ("memory_operand_links", .dict [("O", .str "O"), ("W", .str "I2"), ("I", .str "I1")]), ("spatial_mapping_hint", .dict [("D1",
      .list [.str "K"]), ("D2", .list [.str "C", .str "FX", .str "FY"])])],
    .dict [("name", .str "Add"), ("memory_operand_links", .dict [("O", .str "O"), ("W", .str "I2"), ("I", .str "I1")]), ("spatial_mapping_hint", .dict [("D1", .list
      [.str "G"]), ("D2", .list [.str "C"])])]]

/-- /repo/zigzag/inputs/mapping/edge_tpu_like.yaml lines 1-44. -/
def edgeTpuLikeMap : Doc :=
  .list [
    .dict [("name", .str "default"), ("spatial_mapping", .dict [("D1", .list [.str "K, 8"]), ("D2", .list [.str "C, 8"]), ("D3", .list [.str "OX, 4"]), ("D4", .list
      [.str "OY, 4"])]), ("memory_operand_links", .dict [("O", .str "O"), ("W", .str "I2"), ("I", .str "I1")])],
    .dict [("name", .str "Add"), ("spatial_mapping", .dict [("D1", .list [.str "G, 8"]), ("D2", .list [.str "C, 1"]), ("D3", .list [.str "OX, 1"]), ("D4", .list
      [.str "OY, 1"])]), ("memory_operand_links", .dict [("O", .str "O"), ("W", .str "I2"), ("I", .str "I1")])],
    .dict [("name", .str "Pooling"), ("spatial_mapping", .dict [("D1", .list [.str "G, 8"]), ("D2", .list [.str "C, 1"]), ("D3", .list [.str "OX, 1"]), ("D4", .list
      [.str "OY, 1"])]), ("memory_operand_links", .dict [("O", .str "O"), ("W", .str "I2"), ("I", .str "I1")])]]

/-- /repo/zigzag/inputs/mapping/edge_tpu_like_mixed.yaml lines 1-53. -/
def edgeTpuLikeMixedMap : Doc :=
  .list [
    .dict [("name", .str "default"), ("spatial_mapping", .dict [("D1", .list [.str "K, 8"]), ("D2", .list [.str "C, 2", .str "FX, 2", .str "FY, 2"]), ("D3", .list
      [.str "OX, 2", .str "OY, 2"]), ("D4", .list [.str "OX, 2", .str "OY, 2"])]), ("spatial_mapping_hint", .dict [("D1", .list [.str "K"]), ("D2", .list [.str "C",
      .str "FX", .str "FY"]), ("D3", .list [.str "OX", .str "OY"]), ("D4", .list [.str "OX", .str "OY"])]), ("memory_operand_links", .dict [("O", .str "O"), ("W",
      .str "I2"), ("I", .str "I1")])],
    .dict [("name", .str "Add"), ("spatial_mapping", .dict [("D1", .list [.str "G, 8"]), ("D2", .list [.str "C, 1"]), ("D3", .list [.str "OX, 1"]), ("D4", .list
      [.str "OY, 1"])]), ("memory_operand_links", .dict [("O", .str "O"), ("W", .str "I2"), ("I", .str "I1")])],
    .dict [("name", .str "Pooling"), ("spatial_mapping", .dict [("D1", .list [.str "G, 8"]), ("D2", .list [.str "C, 1"]), ("D3", .list [.str "OX, 1"]), ("D4", .list
      [.str "OY, 1"])]), ("memory_operand_links", .dict [("O", .str "O"), ("W", .str "I2"), ("I", .str "I1")])]]

/-- /repo/zigzag/inputs/mapping/gemm_l1.yaml lines 1-16. -/
def gemmL1Map : Doc :=
  .list [
    .dict [("name", .str "default"), ("spatial_mapping", .dict [("D1", .list [.str "D0, 8"]), ("D2", .list [.str "D2, 8"]), ("D3", .list [.str "D1, 8"])]),
      ("temporal_ordering", .list [.list [.str "D1", .str "*"], .list [.str "D2", .str "*"], .list [.str "D0", .str "*"]]), ("memory_operand_links", .dict [("O",
      .str "O"), ("W", .str "I2"), ("I", .str "I1")])]]

/-- /repo/zigzag/inputs/mapping/gemm_l1_l3.yaml lines 1-17. -/
def gemmL1L3Map : Doc :=
  .list [
    .dict [("name", .str "default"), ("spatial_mapping", .dict [("D1", .list [.str "D0, 8"]), ("D2", .list [.str "D2, 8"]), ("D3", .list [.str "D1, 8"])]),
      ("temporal_ordering", .list [.list [.str "D1", .str "*"], .list [.str "D2", .str "*"], .list [.str "D0", .str "*"]]), ("memory_operand_links", .dict [("O",
      .str "O"), ("W", .str "I2"), ("I", .str "I1")])]]

/-- /repo/zigzag/inputs/mapping/meta_prototype_like.yaml lines 1-29. -/
def metaPrototypeLikeMap : Doc :=
  .list [
    .dict [("name", .str "default"), ("spatial_mapping", .dict [("D1", .list [.str "K, 32"]), ("D2", .list [.str "C, 2"]), ("D3", .list [.str "OX, 4"]), ("D4", .list
      [.str "OY, 4"])]), ("memory_operand_links", .dict [("O", .str "O"), ("W", .str "I2"), ("I", .str "I1")])],
    .dict [("name", .str "Add"), ("spatial_mapping", .dict [("D1", .list [.str "G, 32"]), ("D2", .list [.str "C, 1"]), ("D3", .list [.str "OX, 1"]), ("D4", .list
      [.str "OY, 1"])]), ("memory_operand_links", .dict [("O", .str "O"), ("W", .str "I2"), ("I", .str "I1")])]]

/-- /repo/zigzag/inputs/mapping/meta_prototype_like_mixed.yaml lines 1-31. -/
def metaPrototypeLikeMixedMap : Doc :=
  .list [
    .dict [("name", .str "default"), ("spatial_mapping", .dict [("D1", .list [.str "K, 32"]), ("D3", .list [.str "OX, 2", .str "OY, 2"]), ("D4", .list [.str "OX, 2",
      .str "OY, 2"])]), ("spatial_mapping_hint", .dict [("D2", .list [.str "C"])]), ("memory_operand_links", .dict [("O", .str "O"), ("W", .str "I2"), ("I", .str
      "I1")])],
    .dict [("name", .str "Add"), ("spatial_mapping", .dict [("D1", .list [.str "G, 32"]), ("D2", .list [.str "C, 1"]), ("D3", .list [.str "OX, 1"]), ("D4", .list
      [.str "OY, 1"])]), ("memory_operand_links", .dict [("O", .str "O"), ("W", .str "I2"), ("I", .str "I1")])]]

/-- /repo/zigzag/inputs/mapping/tesla_npu_like.yaml lines 1-38. -/
def teslaNpuLikeMap : Doc :=
  .list [
    .dict [("name", .str "default"), ("spatial_mapping", .dict [("D1", .list [.str "K, 32"]), ("D2", .list [.str "OX, 8"]), ("D3", .list [.str "OY, 4"])]),
      ("memory_operand_links", .dict [("O", .str "O"), ("W", .str "I2"), ("I", .str "I1")])],
    .dict [("name", .str "Add"), ("spatial_mapping", .dict [("D1", .list [.str "G, 32"]), ("D2", .list [.str "OX, 1"]), ("D3", .list [.str "OY, 1"])]),
      ("memory_operand_links", .dict [("O", .str "O"), ("W", .str "I2"), ("I", .str "I1")])],
    .dict [("name", .str "Pooling"), ("spatial_mapping", .dict [("D1", .list [.str "G, 32"]), ("D2", .list [.str "OX, 1"]), ("D3", .list [.str "OY, 1"])]),
      ("memory_operand_links", .dict [("O", .str "O"), ("W", .str "I2"), ("I", .str "I1")])]]

/-- /repo/zigzag/inputs/mapping/tesla_npu_like_mixed.yaml lines 1-34. -/
def teslaNpuLikeMixedMap : Doc :=
  .list [
    .dict [("name", .str "default"), ("spatial_mapping_hint", .dict [("D1", .list [.str "K"]), ("D2", .list [.str "OX", .str "OY"])]), ("memory_operand_links", .dict
      [("O", .str "O"), ("W", .str "I2"), ("I", .str "I1")])],
    .dict [("name", .str "Add"), ("spatial_mapping", .dict [("D1", .list [.str "G, 32"]), ("D2", .list [.str "OX, 1"]), ("D3", .list [.str "OY, 1"])]),
      ("memory_operand_links", .dict [("O", .str "O"), ("W", .str "I2"), ("I", .str "I1")])],
    .dict [("name", .str "Pooling"), ("spatial_mapping", .dict [("D1", .list [.str "G, 32"]), ("D2", .list [.str "OX, 1"]), ("D3", .list [.str "OY, 1"])]),
      ("memory_operand_links", .dict [("O", .str "O"), ("W", .str "I2"), ("I", .str "I1")])]]

/-- /repo/zigzag/inputs/mapping/tpu_like.yaml lines 1-49. -/
def tpuLikeMap : Doc :=
  .list [
    .dict [("name", .str "default"), ("spatial_mapping", .dict [("D1", .list [.str "K, 32"]), ("D2", .list [.str "C, 32"])]), ("memory_operand_links", .dict [("O",
      .str "O"), ("W", .str "I2"), ("I", .str "I1")])],
    .dict [("name", .str "Add"), ("spatial_mapping", .dict [("D1", .list [.str "G, 32"]), ("D2", .list [.str "C, 1"])]), ("memory_operand_links", .dict [("O", .str
      "O"), ("W", .str "I2"), ("I", .str "I1")])],
    .dict [("name", .str "Pooling"), ("spatial_mapping", .dict [("D1", .list [.str "G, 32"]), ("D2", .list [.str "C, 1"])]), ("memory_operand_links", .dict [("O",
      .str "O"), ("W", .str "I2"), ("I", .str "I1")])],
    .dict [("name", .str "example_name_of_layer0"), ("spatial_mapping", .dict [("D1", .list [.str "C, 32"]), ("D2", .list [.str "K, 32"])]), ("temporal_ordering",
      .list [.list [.str "OX", .int 112], .list [.str "OY", .int 112], .list [.str "FX", .int 7], .list [.str "FY", .int 7], .list [.str "K", .int 2]]),
      ("memory_operand_links", .dict [("O", .str "O"), ("W", .str "I2"), ("I", .str "I1")])]]

/-- /repo/zigzag/inputs/mapping/tpu_like_mixed.yaml lines 1-39. -/
def tpuLikeMixedMap : Doc :=
  .list [
    .dict [("name", .str "default"), ("spatial_mapping", .dict [("D1", .list [.str "K, 32"]), ("D2", .list [.str "C, 2", .str "FX, 3", .str "FY, 3"])]),
      ("spatial_mapping_hint", .dict [("D1", .list [.str "K"]), ("D2", .list [.str "C", .str "FX", .str "FY"]), ("D3", .list [.str "K", .str "OX"]), ("D4", .list
      [.str "OX", .str "OY"])]), ("memory_operand_links", .dict [("O", .str "O"), ("W", .str "I2"), ("I", .str "I1")])],
    .dict [("name", .str "Add"), ("spatial_mapping", .dict [("D1", .list [.str "G, 32"]), ("D2", .list [.str "C, 1"])]), ("memory_operand_links", .dict [("O", .str
      "O"), ("W", .str "I2"), ("I", .str "I1")])],
    .dict [("name", .str "Pooling"), ("spatial_mapping", .dict [("D1", .list [.str "G, 32"]), ("D2", .list [.str "C, 1"])]), ("memory_operand_links", .dict [("O",
      .str "O"), ("W", .str "I2"), ("I", .str "I1")])]]

/-! ### Workloads -/

/-- /repo/zigzag/inputs/workload/gemm_layer.yaml lines 1-15. -/
def gemmLayerDoc : Doc :=
  .list [
    .dict [("id", .int 0), ("operator_type", .str "Gemm"), ("equation", .str "O[d0][d1]+=I[d0][d2]*W[d2][d1]"), ("dimension_relations", .list []), ("loop_dims",
      .list [.str "D0", .str "D1", .str "D2"]), ("loop_sizes", .list [.int 128, .int 128, .int 128]), ("operand_precision", .dict [("W", .int 8), ("I", .int 8),
      ("O", .int 32), ("O_final", .int 8)]), ("operand_source", .dict [("I", .int 0), ("W", .int 0)])]]

/-- /repo/zigzag/inputs/workload/resnet18.yaml lines 1-457. -/
def resnet18Doc : Doc :=
  .list [
    .dict [("id", .int 0), ("name", .str "example_name_of_layer0"), ("operator_type", .str "Conv"), ("equation", .str
      "O[b][k][oy][ox]+=W[k][c][fy][fx]*I[b][c][iy][ix]"), ("dimension_relations", .list [.str "ix=2*ox+1*fx", .str "iy=2*oy+1*fy"]), ("loop_dims", .list [.str "B",
      .str "K", .str "C", .str "OY", .str "OX", .str "FY", .str "FX"]), ("loop_sizes", .list [.int 1, .int 64, .int 3, .int 112, .int 112, .int 7, .int 7]),
      ("operand_precision", .dict [("W", .int 8), ("I", .int 8), ("O", .int 16), ("O_final", .int 8)]), ("operand_source", .dict [("I", .int 0), ("W", .int 0)])],
    .dict [("id", .int 1), ("operator_type", .str "Pooling"), ("equation", .str "O[b][g][oy][ox]+=W[fx][fy]*I[b][g][iy][ix]"), ("dimension_relations", .list [.str
      "ix=2*ox+1*fx", .str "iy=2*oy+1*fy"]), ("loop_dims", .list [.str "B", .str "G", .str "OY", .str "OX", .str "FX", .str "FY"]), ("loop_sizes", .list [.int 1,
      .int 64, .int 56, .int 56, .int 3, .int 3]), ("operand_precision", .dict [("I", .int 8), ("W", .int 0), ("O", .int 16), ("O_final", .int 8)]),
      ("operand_source", .dict [("I", .int 0), ("W", .int 1)])],
    .dict [("id", .int 2), ("operator_type", .str "Conv"), ("equation", .str "O[b][k][oy][ox]+=W[k][c][fy][fx]*I[b][c][iy][ix]"), ("dimension_relations", .list [.str
      "ix=1*ox+1*fx", .str "iy=1*oy+1*fy"]), ("loop_dims", .list [.str "B", .str "K", .str "C", .str "OY", .str "OX", .str "FY", .str "FX"]), ("loop_sizes", .list
      [.int 1, .int 64, .int 64, .int 56, .int 56, .int 3, .int 3]), ("operand_precision", .dict [("W", .int 8), ("I", .int 8), ("O", .int 16), ("O_final", .int
      8)]), ("operand_source", .dict [("I", .int 1), ("W", .int 2)])],
    .dict [("id", .int 3), ("operator_type", .str "Conv"), ("equation", .str "O[b][k][oy][ox]+=W[k][c][fy][fx]*I[b][c][iy][ix]"), ("dimension_relations", .list [.str
      "ix=1*ox+1*fx", .str "iy=1*oy+1*fy"]), ("loop_dims", .list [.str "B", .str "K", .str "C", .str "OY", .str "OX", .str "FY", .str "FX"]), ("loop_sizes", .list
      [.int 1, .int 64, .int 64, .int 56, .int 56, .int 3, .int 3]), ("operand_precision", .dict [("W", .int 8), ("I", .int 8), ("O", .int 16), ("O_final", .int
      8)]), ("operand_source", .dict [("I", .int 2), ("W", .int 3)])],
    .dict [("id", .int 4), ("operator_type", .str "Add"), ("equation", .str "O[b][g][oy][ox]=W[b][g][oy][ox]+I[b][g][oy][ox]"), ("loop_dims", .list [.str "B", .str
      "G", .str "OY", .str "OX"]), ("loop_sizes", .list [.int 1, .int 64, .int 56, .int 56]), ("operand_precision", .dict [("W", .int 8), ("I", .int 8), ("O", .int
      16), ("O_final", .int 8)]), ("operand_source", .dict [("W", .int 1), ("I", .int 3)])],
    .dict [("id", .int 5), ("operator_type", .str "Conv"), ("equation", .str "O[b][k][oy][ox]+=W[k][c][fy][fx]*I[b][c][iy][ix]"), ("dimension_relations", .list [.str
      "ix=1*ox+1*fx", .str "iy=1*oy+1*fy"]), ("loop_dims", .list [.str "B", .str "K", .str "C", .str "OY", .str "OX", .str "FY", .str "FX"]), ("loop_sizes", .list
      [.int 1, .int 64, .int 64, .int 56, .int 56, .int 3, .int 3]), ("operand_precision", .dict [("W", .int 8), ("I", .int 8), ("O", .int 16), ("O_final", .int
      8)]), ("operand_source", .dict [("I", .int 4), ("W", .int 5)])],
    .dict [("id", .int 6), ("operator_type", .str "Conv"), ("equation", .str "O[b][k][oy][ox]+=W[k][c][fy][fx]*I[b][c][iy][ix]"), ("dimension_relations", .list [.str
      "ix=1*ox+1*fx", .str "iy=1*oy+1*fy"]), ("loop_dims", .list [.str "B", .str "K", .str "C", .str "OY", .str "OX", .str "FY", .str "FX"]), ("loop_sizes", .list
      [.int 1, .int 64, .int 64, .int 56, .int 56, .int 3, .int 3]), ("operand_precision", .dict [("W", .int 8), ("I", .int 8), ("O", .int 16), ("O_final", .int
      8)]), ("operand_source", .dict [("I", .int 5), ("W", .int 6)])],
    .dict [("id", .int 7), ("operator_type", .str "Add"), ("equation", .str "O[b][g][oy][ox]=W[b][g][oy][ox]+I[b][g][oy][ox]"), ("loop_dims", .list [.str "B", .str
      "G", .str "OY", .str "OX"]), ("loop_sizes", .list [.int 1, .int 64, .int 56, .int 56]), ("operand_precision", .dict [("W", .int 8), ("I", .int 8), ("O", .int
      16), ("O_final", .int 8)]), ("operand_source", .dict [("W", .int 4), ("I", .int 6)])],
    .dict [("id", .int 8), ("operator_type", .str "Conv"), ("equation", .str "O[b][k][oy][ox]+=W[k][c][fy][fx]*I[b][c][iy][ix]"), ("dimension_relations", .list [.str
      "ix=2*ox+1*fx", .str "iy=2*oy+1*fy"]), ("loop_dims", .list [.str "B", .str "K", .str "C", .str "OY", .str "OX", .str "FY", .str "FX"]), ("loop_sizes", .list
      [.int 1, .int 128, .int 64, .int 28, .int 28, .int 3, .int 3]), ("operand_precision", .dict [("W", .int 8), ("I", .int 8), ("O", .int 16), ("O_final", .int
      8)]), ("operand_source", .dict [("I", .int 7), ("W", .int 8)])],
    .dict [("id", .int 9), ("operator_type", .str "Conv"), ("equation", .str "O[b][k][oy][ox]+=W[k][c][fy][fx]*I[b][c][iy][ix]"), ("dimension_relations", .list [.str
      "ix=1*ox+1*fx", .str "iy=1*oy+1*fy"]), ("loop_dims", .list [.str "B", .str "K", .str "C", .str "OY", .str "OX", .str "FY", .str "FX"]), ("loop_sizes", .list
      [.int 1, .int 128, .int 128, .int 28, .int 28, .int 3, .int 3]), ("operand_precision", .dict [("W", .int 8), ("I", .int 8), ("O", .int 16), ("O_final", .int
      8)]), ("operand_source", .dict [("I", .int 8), ("W", .int 9)])],
    .dict [("id", .int 10), ("operator_type", .str "Conv_downsample"), ("equation", .str "O[b][k][oy][ox]+=W[k][c][fy][fx]*I[b][c][iy][ix]"), ("dimension_relations",
      .list [.str "ix=2*ox+1*fx", .str "iy=2*oy+1*fy"]), ("loop_dims", .list [.str "B", .str "K", .str "C", .str "OY", .str "OX", .str "FY", .str "FX"]),
      ("loop_sizes", .list [.int 1, .int 128, .int 64, .int 28, .int 28, .int 3, .int 3]), ("operand_precision", .dict [("W", .int 8), ("I", .int 8), ("O", .int 16),
      ("O_final", .int 8)]), ("operand_source", .dict [("I", .int 7), ("W", .int 10)])],
    .dict [("id", .int 11), ("operator_type", .str "Add"), ("equation", .str "O[b][g][oy][ox]=W[b][g][oy][ox]+I[b][g][oy][ox]"), ("loop_dims", .list [.str "B", .str
      "G", .str "OY", .str "OX"]), ("loop_sizes", .list [.int 1, .int 128, .int 28, .int 28]), ("operand_precision", .dict [("W", .int 8), ("I", .int 8), ("O", .int
      16), ("O_final", .int 8)]), ("operand_source", .dict [("W", .int 10), ("I", .int 9)])],
    .dict [("id", .int 12), ("operator_type", .str "Conv"), ("equation", .str "O[b][k][oy][ox]+=W[k][c][fy][fx]*I[b][c][iy][ix]"), ("dimension_relations", .list
      [.str "ix=1*ox+1*fx", .str "iy=1*oy+1*fy"]), ("loop_dims", .list [.str "B", .str "K", .str "C", .str "OY", .str "OX", .str "FY", .str "FX"]), ("loop_sizes",
      .list [.int 1, .int 128, .int 128, .int 28, .int 28, .int 3, .int 3]), ("operand_precision", .dict [("W", .int 8), ("I", .int 8), ("O", .int 16), ("O_final",
      .int 8)]), ("operand_source", .dict [("I", .int 11), ("W", .int 12)])],
    .dict [("id", .int 13), ("operator_type", .str "Conv"), ("equation", .str "O[b][k][oy][ox]+=W[k][c][fy][fx]*I[b][c][iy][ix]"), ("dimension_relations", .list
      [.str "ix=1*ox+1*fx", .str "iy=1*oy+1*fy"]), ("loop_dims", .list [.str "B", .str "K", .str "C", .str "OY", .str "OX", .str "FY", .str "FX"]), ("loop_sizes",
      .list [.int 1, .int 128, .int 128, .int 28, .int 28, .int 3, .int 3]), ("operand_precision", .dict [("W", .int 8), ("I", .int 8), ("O", .int 16), ("O_final",
      .int 8)]), ("operand_source", .dict [("I", .int 12), ("W", .int 13)])],
    .dict [("id", .int 14), ("operator_type", .str "Add"), ("equation", .str "O[b][g][oy][ox]=W[b][g][oy][ox]+I[b][g][oy][ox]"), ("loop_dims", .list [.str "B", .str
      "G", .str "OY", .str "OX"]), ("loop_sizes", .list [.int 1, .int 128, .int 28, .int 28]), ("operand_precision", .dict [("W", .int 8), ("I", .int 8), ("O", .int
      16), ("O_final", .int 8)]), ("operand_source", .dict [("W", .int 11), ("I", .int 13)])],
    .dict [("id", .int 15), ("operator_type", .str "Conv"), ("equation", .str "O[b][k][oy][ox]+=W[k][c][fy][fx]*I[b][c][iy][ix]"), ("dimension_relations", .list
      [.str "ix=2*ox+1*fx", .str "iy=2*oy+1*fy"]), ("loop_dims", .list [.str "B", .str "K", .str "C", .str "OY", .str "OX", .str "FY", .str "FX"]), ("loop_sizes",
      .list [.int 1, .int 256, .int 128, .int 14, .int 14, .int 3, .int 3]), ("operand_precision", .dict [("W", .int 8), ("I", .int 8), ("O", .int 16), ("O_final",
      .int 8)]), ("operand_source", .dict [("I", .int 14), ("W", .int 15)])],
    .dict [("id", .int 16), ("operator_type", .str "Conv"), ("equation", .str "O[b][k][oy][ox]+=W[k][c][fy][fx]*I[b][c][iy][ix]"), ("dimension_relations", .list
      [.str "ix=1*ox+1*fx", .str "iy=1*oy+1*fy"]), ("loop_dims", .list [.str "B", .str "K", .str "C", .str "OY", .str "OX", .str "FY", .str "FX"]), ("loop_sizes",
      .list [.int 1, .int 256, .int 256, .int 14, .int 14, .int 3, .int 3]), ("operand_precision", .dict [("W", .int 8), ("I", .int 8), ("O", .int 16), ("O_final",
      .int 8)]), ("operand_source", .dict [("I", .int 15), ("W", .int 16)])],
    .dict [("id", .int 17), ("operator_type", .str "Conv_downsample"), ("equation", .str "O[b][k][oy][ox]+=W[k][c][fy][fx]*I[b][c][iy][ix]"), ("dimension_relations",
      .list [.str "ix=2*ox+1*fx", .str "iy=2*oy+1*fy"]), ("loop_dims", .list [.str "B", .str "K", .str "C", .str "OY", .str "OX", .str "FY", .str "FX"]),
      ("loop_sizes", .list [.int 1, .int 256, .int 128, .int 14, .int 14, .int 3, .int 3]), ("operand_precision", .dict [("W", .int 8), ("I", .int 8), ("O", .int
      16), ("O_final", .int 8)]), ("operand_source", .dict [("I", .int 14), ("W", .int 17)])],
    .dict [("id", .int 18), ("operator_type", .str "Add"), ("equation", .str "O[b][g][oy][ox]=W[b][g][oy][ox]+I[b][g][oy][ox]"), ("loop_dims", .list [.str "B", .str
      "G", .str "OY", .str "OX"]), ("loop_sizes", .list [.int 1, .int 256, .int 14, .int 14]), ("operand_precision", .dict [("W", .int 8), ("I", .int 8), ("O", .int
      16), ("O_final", .int 8)]), ("operand_source", .dict [("W", .int 17), ("I", .int 16)])],
    .dict [("id", .int 19), ("operator_type", .str "Conv"), ("equation", .str "O[b][k][oy][ox]+=W[k][c][fy][fx]*I[b][c][iy][ix]"), ("dimension_relations", .list
      [.str "ix=1*ox+1*fx", .str "iy=1*oy+1*fy"]), ("loop_dims", .list [.str "B", .str "K", .str "C", .str "OY", .str "OX", .str "FY", .str "FX"]), ("loop_sizes",
      .list [.int 1, .int 256, .int 256, .int 14, .int 14, .int 3, .int 3]), ("operand_precision", .dict [("W", .int 8), ("I", .int 8), ("O", .int 16), ("O_final",
      .int 8)]), ("operand_source", .dict [("I", .int 18), ("W", .int 19)])],
    .dict [("id", .int 20), ("operator_type", .str "Conv"), ("equation", .str "O[b][k][oy][ox]+=W[k][c][fy][fx]*I[b][c][iy][ix]"), ("dimension_relations", .list
      [.str "ix=1*ox+1*fx", .str "iy=1*oy+1*fy"]), ("loop_dims", .list [.str "B", .str "K", .str "C", .str "OY", .str "OX", .str "FY", .str "FX"]), ("loop_sizes",
      .list [.int 1, .int 256, .int 256, .int 14, .int 14, .int 3, .int 3]), ("operand_precision", .dict [("W", .int 8), ("I", .int 8), ("O", .int 16), ("O_final",
      .int 8)]), ("operand_source", .dict [("I", .int 19), ("W", .int 20)])],
    .dict [("id", .int 21), ("operator_type", .str "Add"), ("equation", .str "O[b][g][oy][ox]=W[b][g][oy][ox]+I[b][g][oy][ox]"), ("loop_dims", .list [.str "B", .str
      "G", .str "OY", .str "OX"]), ("loop_sizes", .list [.int 1, .int 256, .int 14, .int 14]), ("operand_precision", .dict [("W", .int 8), ("I", .int 8), ("O", .int
      16), ("O_final", .int 8)]), ("operand_source", .dict [("W", .int 18), ("I", .int 20)])],
    .dict [("id", .int 22), ("operator_type", .str "Conv"), ("equation", .str "O[b][k][oy][ox]+=W[k][c][fy][fx]*I[b][c][iy][ix]"), ("dimension_relations", .list
      [.str "ix=2*ox+1*fx", .str "iy=2*oy+1*fy"]), ("loop_dims", .list [.str "B", .str "K", .str "C", .str "OY", .str "OX", .str "FY", .str "FX"]), ("loop_sizes",
      .list [.int 1, .int 512, .int 256, .int 7, .int 7, .int 3, .int 3]), ("operand_precision", .dict [("W", .int 8), ("I", .int 8), ("O", .int 16), ("O_final",
      .int 8)]), ("operand_source", .dict [("I", .int 21), ("W", .int 22)])],
    .dict [("id", .int 23), ("operator_type", .str "Conv"), ("equation", .str "O[b][k][oy][ox]+=W[k][c][fy][fx]*I[b][c][iy][ix]"), ("dimension_relations", .list
      [.str "ix=1*ox+1*fx", .str "iy=1*oy+1*fy"]), ("loop_dims", .list [.str "B", .str "K", .str "C", .str "OY", .str "OX", .str "FY", .str "FX"]), ("loop_sizes",
      .list [.int 1, .int 512, .int 512, .int 7, .int 7, .int 3, .int 3]), ("operand_precision", .dict [("W", .int 8), ("I", .int 8), ("O", .int 16), ("O_final",
      .int 8)]), ("operand_source", .dict [("I", .int 22), ("W", .int 23)])],
    .dict [("id", .int 24), ("operator_type", .str "Conv_downsample"), ("equation", .str "O[b][k][oy][ox]+=W[k][c][fy][fx]*I[b][c][iy][ix]"), ("dimension_relations",
      .list [.str "ix=2*ox+1*fx", .str "iy=2*oy+1*fy"]), ("loop_dims", .list [.str "B", .str "K", .str "C", .str "OY", .str "OX", .str "FY", .str "FX"]),
      ("loop_sizes", .list [.int 1, .int 512, .int 256, .int 7, .int 7, .int 3, .int 3]), ("operand_precision", .dict [("W", .int 8), ("I", .int 8), ("O", .int 16),
      ("O_final", .int 8)]), ("operand_source", .dict [("I", .int 21), ("W", .int 24)])],
    .dict [("id", .int 25), ("operator_type", .str "Add"), ("equation", .str "O[b][g][oy][ox]=W[b][g][oy][ox]+I[b][g][oy][ox]"), ("loop_dims", .list [.str "B", .str
      "G", .str "OY", .str "OX"]), ("loop_sizes", .list [.int 1, .int 512, .int 7, .int 7]), ("operand_precision", .dict [("W", .int 8), ("I", .int 8), ("O", .int
      16), ("O_final", .int 8)]), ("operand_source", .dict [("W", .int 24), ("I", .int 23)])],
    .dict [("id", .int 26), ("operator_type", .str "Conv"), ("equation", .str "O[b][k][oy][ox]+=W[k][c][fy][fx]*I[b][c][iy][ix]"), ("dimension_relations", .list
      [.str "ix=1*ox+1*fx", .str "iy=1*oy+1*fy"]), ("loop_dims", .list [.str "B", .str "K", .str "C", .str "OY", .str "OX", .str "FY", .str "FX"]), ("loop_sizes",
      .list [.int 1, .int 512, .int 512, .int 7, .int 7, .int 3, .int 3]), ("operand_precision", .dict [("W", .int 8), ("I", .int 8), ("O", .int 16), ("O_final",
      .int 8)]), ("operand_source", .dict [("I", .int 25), ("W", .int 26)])],
    .dict [("id", .int 27), ("operator_type", .str "Conv"), ("equation", .str "O[b][k][oy][ox]+=W[k][c][fy][fx]*I[b][c][iy][ix]"), ("dimension_relations", .list
      [.str "ix=1*ox+1*fx", .str "iy=1*oy+1*fy"]), ("loop_dims", .list [.str "B", .str "K", .str "C", .str "OY", .str "OX", .str "FY", .str "FX"]), ("loop_sizes",
      .list [.int 1, .int 512, .int 512, .int 7, .int 7, .int 3, .int 3]), ("operand_precision", .dict [("W", .int 8), ("I", .int 8), ("O", .int 16), ("O_final",
      .int 8)]), ("operand_source", .dict [("I", .int 26), ("W", .int 27)])],
    .dict [("id", .int 28), ("operator_type", .str "Add"), ("equation", .str "O[b][g][oy][ox]=W[b][g][oy][ox]+I[b][g][oy][ox]"), ("loop_dims", .list [.str "B", .str
      "G", .str "OY", .str "OX"]), ("loop_sizes", .list [.int 1, .int 512, .int 7, .int 7]), ("operand_precision", .dict [("W", .int 8), ("I", .int 8), ("O", .int
      16), ("O_final", .int 8)]), ("operand_source", .dict [("W", .int 25), ("I", .int 27)])],
    .dict [("id", .int 29), ("operator_type", .str "Pooling"), ("equation", .str "O[b][g][oy][ox]+=W[fx][fy]*I[b][g][iy][ix]"), ("dimension_relations", .list [.str
      "ix=1*ox+1*fx", .str "iy=1*oy+1*fy"]), ("loop_dims", .list [.str "B", .str "G", .str "OY", .str "OX", .str "FX", .str "FY"]), ("loop_sizes", .list [.int 1,
      .int 512, .int 1, .int 1, .int 7, .int 7]), ("operand_precision", .dict [("I", .int 8), ("W", .int 0), ("O", .int 16), ("O_final", .int 8)]),
      ("operand_source", .dict [("I", .int 28), ("W", .int 29)])],
    .dict [("id", .int 30), ("operator_type", .str "Conv"), ("equation", .str "O[b][k][oy][ox]+=W[k][c][fy][fx]*I[b][c][iy][ix]"), ("dimension_relations", .list
      [.str "ix=1*ox+1*fx", .str "iy=1*oy+1*fy"]), ("loop_dims", .list [.str "B", .str "K", .str "C", .str "OY", .str "OX", .str "FY", .str "FX"]), ("loop_sizes",
      .list [.int 1, .int 1000, .int 512, .int 1, .int 1, .int 1, .int 1]), ("operand_precision", .dict [("W", .int 8), ("I", .int 8), ("O", .int 16), ("O_final",
      .int 8)]), ("operand_source", .dict [("I", .int 29), ("W", .int 30)])]]

end Verif.Shipped
