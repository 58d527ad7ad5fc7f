import Verif.Shipped.Docs
import Verif.ImcFiles.Spec

/-! The two accelerators with in-memory-computing arrays that come with the tool (/repo/zigzag/inputs/hardware), as values. -/

namespace Verif.ImcFiles

open Files (Doc)
open ImcCall (Chip)
open Shipped (port)
open Whole (AccD)

/-- The memories of both files (/repo/zigzag/inputs/hardware/dimc.yaml lines 3-124, aimc.yaml lines 3-124). -/
def memoriesDoc : Doc :=
  .dict [
    ("cells", .dict [("size", .int 8), ("r_cost", .int 0), ("w_cost", .num (19 / 200)), ("area", .int 0), ("latency", .int 0), ("operands", .list [.str "I2"]),
      ("ports", .list [port "rw_port_1" "read_write" 8 8 ["I2, fh", "I2, tl"]]), ("served_dimensions", .list [])]),
    ("rf_1B", .dict [("size", .int 8), ("r_cost", .num (21 / 1000)), ("w_cost", .num (21 / 1000)), ("area", .int 0), ("latency", .int 1), ("operands", .list [.str "I1"]),
      ("ports", .list [port "r_port_1" "read" 8 8 ["I1, tl"], port "w_port_1" "write" 8 8 ["I1, fh"]]), ("served_dimensions", .list [.str "D1"])]),
    ("rf_2B", .dict [("size", .int 16), ("r_cost", .num (21 / 1000)), ("w_cost", .num (21 / 1000)), ("area", .int 0), ("latency", .int 1), ("operands", .list [.str "O"]),
      ("ports", .list [port "r_port_1" "read" 16 16 ["O, tl"], port "r_port_2" "read" 16 16 ["O, th"], port "w_port_1" "write" 16 16 ["O, fh"],
        port "w_port_2" "write" 16 16 ["O, fl"]]), ("served_dimensions", .list [.str "D2"])]),
    ("sram_256KB", .dict [("size", .int 262144), ("r_cost", .num (10404 / 25)), ("w_cost", .num (1892 / 5)), ("area", .int 0), ("latency", .int 1),
      ("operands", .list [.str "I1", .str "O"]), ("ports", .list [port "r_port_1" "read" 64 512 ["I1, tl", "O, tl", "O, th"],
        port "w_port_1" "write" 64 512 ["I1, fh", "O, fh", "O, fl"]]), ("served_dimensions", .list [.str "D1", .str "D2"])]),
    ("dram", .dict [("size", .int 10000000000), ("r_cost", .int 700), ("w_cost", .int 750), ("area", .int 0), ("latency", .int 1),
      ("operands", .list [.str "I1", .str "I2", .str "O"]), ("ports", .list [port "rw_port_1" "read_write" 64 64 ["I1, fh", "I1, tl", "I2, fh", "I2, tl", "O, fh", "O, tl", "O, fl",
        "O, th"]]), ("served_dimensions", .list [.str "D1", .str "D2"])])]

/-- /repo/zigzag/inputs/hardware/dimc.yaml lines 1-132. -/
def dimcDoc : Doc :=
  .dict [("name", .str "dimc"), ("memories", memoriesDoc),
    ("operational_array", .dict [("is_imc", .bool true), ("imc_type", .str "digital"), ("input_precision", .list [.int 8, .int 8]), ("bit_serial_precision", .int 1),
      ("dimensions", .list [.str "D1", .str "D2"]), ("sizes", .list [.int 128, .int 128])])]

/-- /repo/zigzag/inputs/hardware/aimc.yaml lines 1-133. -/
def aimcDoc : Doc :=
  .dict [("name", .str "aimc"), ("memories", memoriesDoc),
    ("operational_array", .dict [("is_imc", .bool true), ("imc_type", .str "analog"), ("input_precision", .list [.int 8, .int 8]), ("bit_serial_precision", .int 2),
      ("adc_resolution", .int 8), ("dimensions", .list [.str "D1", .str "D2"]), ("sizes", .list [.int 128, .int 128])])]

/-- Memories and sizes of both. -/
def macros : AccD String :=
  ⟨[
    ⟨8, false, some 0, some (19 / 200), some 0, [.in2], [⟨"rw_port_1", .readWrite, 8, 8, [(.in2, .wrHigh), (.in2, .rdLow)]⟩], []⟩,
    ⟨8, false, some (21 / 1000), some (21 / 1000), some 0, [.in1], [⟨"r_port_1", .read, 8, 8, [(.in1, .rdLow)]⟩, ⟨"w_port_1", .write, 8, 8, [(.in1, .wrHigh)]⟩], ["D1"]⟩,
    ⟨16, false, some (21 / 1000), some (21 / 1000), some 0, [.out], [⟨"r_port_1", .read, 16, 16, [(.out, .rdLow)]⟩, ⟨"r_port_2", .read, 16, 16, [(.out, .rdHigh)]⟩,
      ⟨"w_port_1", .write, 16, 16, [(.out, .wrHigh)]⟩, ⟨"w_port_2", .write, 16, 16, [(.out, .wrLow)]⟩], ["D2"]⟩,
    ⟨262144, false, some (10404 / 25), some (1892 / 5), some 0, [.in1, .out], [⟨"r_port_1", .read, 64, 512, [(.in1, .rdLow), (.out, .rdLow), (.out, .rdHigh)]⟩,
      ⟨"w_port_1", .write, 64, 512, [(.in1, .wrHigh), (.out, .wrHigh), (.out, .wrLow)]⟩], ["D1", "D2"]⟩,
    ⟨10000000000, false, some 700, some 750, some 0, [.in1, .in2, .out], [⟨"rw_port_1", .readWrite, 64, 64, [(.in1, .wrHigh), (.in1, .rdLow), (.in2, .wrHigh), (.in2,
      .rdLow), (.out, .wrHigh), (.out, .rdLow), (.out, .wrLow), (.out, .rdHigh)]⟩], ["D1", "D2"]⟩],
    [("D1", 128), ("D2", 128)], 0⟩

/-- The array of dimc.yaml. -/
def dimcChip : Chip String := ⟨⟨Imc.tech28, false, 1, 8, 8, 0, 128, 128, 1, 0, (0, 0, 0)⟩, "D1", "D2", 8⟩

/-- The array of aimc.yaml, with converters of eight bits. -/
def aimcChip (adcArea : Nat → ℚ) : Chip String :=
  ⟨⟨Imc.tech28, true, 2, 8, 8, 8, 128, 128, 1, 0, (adcArea 8, 11.80672, 0.70108416)⟩, "D1", "D2", 8⟩

/-- The two files, with the accelerator and the array that they describe. -/
def imcFiles (adcArea : Nat → ℚ) : List (Doc × Chip String) := [(dimcDoc, dimcChip), (aimcDoc, aimcChip adcArea)]

end Verif.ImcFiles
