import Mathlib.Data.Int.Log
import Mathlib.Algebra.Order.Ring.Rat
import Mathlib.Data.Rat.Floor
import Mathlib.Data.Nat.Factorial.Basic

/-! Python numbers: the quotient `a / b` of two ints is the exact quotient rounded to a binary64 number (CPython rounds correctly, ties to even).
The exponent is not bounded: for the positive operands below 2^53 of the theorems the quotient is a normal number. -/
namespace Verif.Float

/-- Nearest integer, ties to even. -/
def roundEven (q : ℚ) : ℤ :=
  if q - ⌊q⌋ < 1 / 2 then ⌊q⌋ else if 1 / 2 < q - ⌊q⌋ then ⌊q⌋ + 1 else if ⌊q⌋ % 2 = 0 then ⌊q⌋ else ⌊q⌋ + 1

/-- Rounding to 53 binary digits. -/
def fl (q : ℚ) : ℚ :=
  if q = 0 then 0 else roundEven (q / 2 ^ (Int.log 2 |q| - 52)) * 2 ^ (Int.log 2 |q| - 52)

/-- `a / b` on ints. -/
def divI (a b : ℤ) : ℚ := fl ((a : ℚ) / b)

/-- `ceil(a / b)`: /repo/zigzag/cost_model/cost_model.py lines 533, 703, 820, 1084; opt/loma/engine.py line 145; opt/salsa/engine.py line 164;
stages/mapping/spatial_mapping_conversion.py line 182; parser/onnx/conv_parser.py lines 66 and 69. -/
def ceilDiv (a b : ℤ) : ℤ := ⌈divI a b⌉

/-- `math.floor(a / b)`: stages/mapping/spatial_mapping_generation.py lines 493-495. -/
def floorDiv (a b : ℤ) : ℤ := ⌊divI a b⌋

/-- `int(x)` of a number that is not negative. -/
def toInt (x : ℚ) : ℤ := ⌊x⌋

/-- `compute_nb_permutations` (opt/loma/engine.py lines 220-226) on the numbers of equal loops: `n / c!` is rounded, then truncated. -/
def nbPermutations (n : ℕ) (counts : List ℕ) : ℤ :=
  counts.foldl (fun acc c => toInt (divI acc c.factorial)) n.factorial

/-- Number of accesses of a port (cost_model.py lines 520-538): whole words of `minBw` bits, in units of `maxBw` bits; `*` on floats rounds. -/
def accesses (amount precision minBw maxBw periods units : ℤ) : ℤ :=
  if amount = 0 ∨ precision = 0 then 0
  else toInt (fl (fl (fl (ceilDiv (amount * precision) minBw * divI minBw maxBw) * periods) * units))

end Verif.Float
