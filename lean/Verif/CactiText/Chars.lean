import Verif.CactiText.Model

/-! The constant texts of `Verif.CactiText.Model` and `Verif.CactiText.Baseline` as lists of characters, for the evaluation in proofs; the theorems state that they are the same texts. -/

namespace Verif.CactiText

/-- The characters of `readers`. -/
def readersC : List (List Char) := [
  ['-', 's', 'i', 'z', 'e'],
  ['-', 'p', 'a', 'g', 'e', ' ', 's', 'i', 'z', 'e'],
  ['-', 'b', 'u', 'r', 's', 't', ' ', 'l', 'e', 'n', 'g', 't', 'h'],
  ['-', 'i', 'n', 't', 'e', 'r', 'n', 'a', 'l', ' ', 'p', 'r', 'e', 'f', 'e', 't', 'c', 'h', ' ', 'w', 'i', 'd', 't', 'h'],
  ['-', 'b', 'l', 'o', 'c', 'k'],
  ['-', 'a', 's', 's', 'o', 'c', 'i', 'a', 't', 'i', 'v', 'i', 't', 'y'],
  ['-', 'r', 'e', 'a', 'd', '-', 'w', 'r', 'i', 't', 'e'],
  ['-', 'e', 'x', 'c', 'l', 'u', 's', 'i', 'v', 'e', ' ', 'r', 'e', 'a'],
  ['-', 'e', 'x', 'c', 'l', 'u', 's', 'i', 'v', 'e', ' ', 'w', 'r', 'i', 't', 'e'],
  ['-', 's', 'i', 'n', 'g', 'l', 'e', ' ', 'e', 'n', 'd', 'e', 'd'],
  ['-', 's', 'e', 'a', 'r', 'c', 'h'],
  ['-', 'U', 'C', 'A', ' ', 'b', 'a', 'n', 'k'],
  ['-', 't', 'e', 'c', 'h', 'n', 'o', 'l', 'o', 'g', 'y'],
  ['-', 'o', 'u', 't', 'p', 'u', 't', '/', 'i', 'n', 'p', 'u', 't'],
  ['-', 'o', 'p', 'e', 'r', 'a', 't', 'i', 'n', 'g', ' ', 't', 'e', 'm', 'p', 'e', 'r', 'a', 't', 'u', 'r', 'e'],
  ['-', 'c', 'a', 'c', 'h', 'e', ' ', 't', 'y', 'p', 'e'],
  ['-', 'p', 'r', 'i', 'n', 't', ' ', 'o', 'p', 't', 'i', 'o', 'n'],
  ['-', 'b', 'u', 'r', 's', 't', ' ', 'd', 'e', 'p', 't', 'h'],
  ['-', 'I', 'O', ' ', 'w', 'i', 'd', 't', 'h'],
  ['-', 's', 'y', 's', 't', 'e', 'm', ' ', 'f', 'r', 'e', 'q', 'u', 'e', 'n', 'c', 'y'],
  ['-', 's', 't', 'a', 'c', 'k', 'e', 'd', ' ', 'd', 'i', 'e'],
  ['-', 'p', 'a', 'r', 't', 'i', 't', 'i', 'o', 'n', 'i', 'n', 'g', ' ', 'g', 'r', 'a', 'n', 'u', 'l', 'a', 'r', 'i', 't', 'y'],
  ['-', 'T', 'S', 'V', ' ', 'p', 'r', 'o', 'j', 'e', 'c', 't', 'i', 'o', 'n'],
  ['-', 't', 'a', 'g', ' ', 's', 'i', 'z', 'e'],
  ['-', 'a', 'c', 'c', 'e', 's', 's', ' ', 'm', 'o', 'd', 'e'],
  ['-', 'D', 'a', 't', 'a', ' ', 'a', 'r', 'r', 'a', 'y', ' ', 'c', 'e', 'l', 'l', ' ', 't', 'y', 'p', 'e'],
  ['-', 'D', 'a', 't', 'a', ' ', 'a', 'r', 'r', 'a', 'y', ' ', 'p', 'e', 'r', 'i', 'p', 'h', 'e', 'r', 'a', 'l', ' ', 't', 'y', 'p', 'e'],
  ['-', 'T', 'a', 'g', ' ', 'a', 'r', 'r', 'a', 'y', ' ', 'c', 'e', 'l', 'l', ' ', 't', 'y', 'p', 'e'],
  ['-', 'T', 'a', 'g', ' ', 'a', 'r', 'r', 'a', 'y', ' ', 'p', 'e', 'r', 'i', 'p', 'h', 'e', 'r', 'a', 'l', ' ', 't', 'y', 'p', 'e'],
  ['-', 'd', 'e', 's', 'i', 'g', 'n'],
  ['-', 'd', 'e', 'v', 'i', 'a', 't', 'e'],
  ['-', 'O', 'p', 't', 'i', 'm', 'i', 'z', 'e'],
  ['-', 'N', 'U', 'C', 'A', 'd', 'e', 's', 'i', 'g', 'n'],
  ['-', 'N', 'U', 'C', 'A', 'd', 'e', 'v', 'i', 'a', 't', 'e'],
  ['-', 'C', 'a', 'c', 'h', 'e', ' ', 'm', 'o', 'd', 'e', 'l'],
  ['-', 'N', 'U', 'C', 'A', ' ', 'b', 'a', 'n', 'k'],
  ['-', 'W', 'i', 'r', 'e', ' ', 'i', 'n', 's', 'i', 'd', 'e', ' ', 'm', 'a', 't'],
  ['-', 'W', 'i', 'r', 'e', ' ', 'o', 'u', 't', 's', 'i', 'd', 'e', ' ', 'm', 'a', 't'],
  ['-', 'I', 'n', 't', 'e', 'r', 'c', 'o', 'n', 'n', 'e', 'c', 't', ' ', 'p', 'r', 'o', 'j', 'e', 'c', 't', 'i', 'o', 'n'],
  ['-', 'W', 'i', 'r', 'e', ' ', 's', 'i', 'g', 'n', 'a', 'l', 'i', 'n', 'g'],
  ['-', 'C', 'o', 'r', 'e'],
  ['-', 'C', 'a', 'c', 'h', 'e', ' ', 'l', 'e', 'v', 'e', 'l'],
  ['-', 'P', 'r', 'i', 'n', 't', ' ', 'l', 'e', 'v', 'e', 'l'],
  ['-', 'A', 'd', 'd', ' ', 'E', 'C', 'C'],
  ['-', 'C', 'L', 'D', 'r', 'i', 'v', 'e', 'r', ' ', 'v', 'e', 'r', 't', 'i', 'c', 'a', 'l'],
  ['-', 'A', 'r', 'r', 'a', 'y', ' ', 'P', 'o', 'w', 'e', 'r', ' ', 'G', 'a', 't', 'i', 'n', 'g'],
  ['-', 'B', 'i', 't', 'l', 'i', 'n', 'e', ' ', 'f', 'l', 'o', 'a', 't', 'i', 'n', 'g'],
  ['-', 'W', 'L', ' ', 'P', 'o', 'w', 'e', 'r', ' ', 'G', 'a', 't', 'i', 'n', 'g'],
  ['-', 'C', 'L', ' ', 'P', 'o', 'w', 'e', 'r', ' ', 'G', 'a', 't', 'i', 'n', 'g'],
  ['-', 'I', 'n', 't', 'e', 'r', 'c', 'o', 'n', 'n', 'e', 'c', 't', ' ', 'P', 'o', 'w', 'e', 'r', ' ', 'G', 'a', 't', 'i', 'n', 'g'],
  ['-', 'P', 'o', 'w', 'e', 'r', ' ', 'G', 'a', 't', 'i', 'n', 'g', ' ', 'P', 'e', 'r', 'f', 'o', 'r', 'm', 'a', 'n', 'c', 'e', ' ', 'L', 'o', 's', 's'],
  ['-', 'P', 'r', 'i', 'n', 't', ' ', 'i', 'n', 'p', 'u', 't', ' ', 'p', 'a', 'r', 'a', 'm', 'e', 't', 'e', 'r', 's'],
  ['-', 'F', 'o', 'r', 'c', 'e', ' ', 'c', 'a', 'c', 'h', 'e', ' ', 'c', 'o', 'n', 'f', 'i', 'g'],
  ['-', 'N', 'd', 'b', 'l'],
  ['-', 'N', 'd', 'w', 'l'],
  ['-', 'N', 's', 'p', 'd'],
  ['-', 'N', 'd', 's', 'a', 'm', '1'],
  ['-', 'N', 'd', 's', 'a', 'm', '2'],
  ['-', 'N', 'd', 'c', 'm'],
  ['-', 'd', 'r', 'a', 'm', ' ', 't', 'y', 'p', 'e'],
  ['-', 'i', 'o', ' ', 's', 't', 'a', 't', 'e'],
  ['-', 'a', 'd', 'd', 'r', '_', 't', 'i', 'm', 'i', 'n', 'g'],
  ['-', 'd', 'r', 'a', 'm', ' ', 'e', 'c', 'c'],
  ['-', 'd', 'r', 'a', 'm', ' ', 'd', 'i', 'm', 'm'],
  ['-', 'b', 'u', 's', '_', 'b', 'w'],
  ['-', 'd', 'u', 't', 'y', '_', 'c', 'y', 'c', 'l', 'e'],
  ['-', 'm', 'e', 'm', '_', 'd', 'e', 'n', 's', 'i', 't', 'y'],
  ['-', 'a', 'c', 't', 'i', 'v', 'i', 't', 'y', '_', 'd', 'q'],
  ['-', 'a', 'c', 't', 'i', 'v', 'i', 't', 'y', '_', 'c', 'a'],
  ['-', 'b', 'u', 's', '_', 'f', 'r', 'e', 'q'],
  ['-', 'n', 'u', 'm', '_', 'd', 'q'],
  ['-', 'n', 'u', 'm', '_', 'd', 'q', 's'],
  ['-', 'n', 'u', 'm', '_', 'c', 'a'],
  ['-', 'n', 'u', 'm', '_', 'c', 'l', 'k'],
  ['-', 'n', 'u', 'm', '_', 'm', 'e', 'm', '_', 'd', 'q'],
  ['-', 'm', 'e', 'm', '_', 'd', 'a', 't', 'a', '_', 'w', 'i', 'd', 't', 'h'],
  ['-', 'n', 'u', 'm', '_', 'b', 'o', 'b', 's'],
  ['-', 'c', 'a', 'p', 'a', 'c', 'i', 't', 'y'],
  ['-', 'n', 'u', 'm', '_', 'c', 'h', 'a', 'n', 'n', 'e', 'l', 's', '_', 'p', 'e', 'r', '_', 'b', 'o', 'b'],
  ['-', 'f', 'i', 'r', 's', 't', ' ', 'm', 'e', 't', 'r', 'i', 'c'],
  ['-', 's', 'e', 'c', 'o', 'n', 'd', ' ', 'm', 'e', 't', 'r', 'i', 'c'],
  ['-', 't', 'h', 'i', 'r', 'd', ' ', 'm', 'e', 't', 'r', 'i', 'c'],
  ['-', 'D', 'I', 'M', 'M', ' ', 'm', 'o', 'd', 'e', 'l'],
  ['-', 'L', 'o', 'w', ' ', 'P', 'o', 'w', 'e', 'r', ' ', 'P', 'e', 'r', 'm', 'i', 't', 't', 'e', 'd'],
  ['-', 'l', 'o', 'a', 'd'],
  ['-', 'r', 'o', 'w', '_', 'b', 'u', 'f', 'f', 'e', 'r', '_', 'h', 'i', 't', '_', 'r', 'a', 't', 'e'],
  ['-', 'r', 'd', '_', '2', '_', 'w', 'r', '_', 'r', 'a', 't', 'i', 'o'],
  ['-', 's', 'a', 'm', 'e', '_', 'b', 'w', '_', 'i', 'n', '_', 'b', 'o', 'b'],
  ['-', 'm', 'i', 'r', 'r', 'o', 'r', '_', 'i', 'n', '_', 'b', 'o', 'b'],
  ['-', 't', 'o', 't', 'a', 'l', '_', 'p', 'o', 'w', 'e', 'r'],
  ['-', 'v', 'e', 'r', 'b', 'o', 's', 'e']]

/-- The characters of the texts of `options`. -/
def optionsC : List (List Char) := [
  ['-', 's', 'i', 'z', 'e', ' ', '(', 'b', 'y', 't', 'e', 's', ')', ' '],
  ['-', 'b', 'l', 'o', 'c', 'k', ' ', 's', 'i', 'z', 'e', ' ', '(', 'b', 'y', 't', 'e', 's', ')', ' '],
  ['-', 'o', 'u', 't', 'p', 'u', 't', '/', 'i', 'n', 'p', 'u', 't', ' ', 'b', 'u', 's', ' ', 'w', 'i', 'd', 't', 'h', ' '],
  ['-', 'a', 's', 's', 'o', 'c', 'i', 'a', 't', 'i', 'v', 'i', 't', 'y', ' '],
  ['-', 'r', 'e', 'a', 'd', '-', 'w', 'r', 'i', 't', 'e', ' ', 'p', 'o', 'r', 't', ' '],
  ['-', 'e', 'x', 'c', 'l', 'u', 's', 'i', 'v', 'e', ' ', 'r', 'e', 'a', 'd', ' ', 'p', 'o', 'r', 't', ' '],
  ['-', 'e', 'x', 'c', 'l', 'u', 's', 'i', 'v', 'e', ' ', 'w', 'r', 'i', 't', 'e', ' ', 'p', 'o', 'r', 't', ' '],
  ['-', 's', 'i', 'n', 'g', 'l', 'e', ' ', 'e', 'n', 'd', 'e', 'd', ' ', 'r', 'e', 'a', 'd', ' ', 'p', 'o', 'r', 't', 's', ' '],
  ['-', 'U', 'C', 'A', ' ', 'b', 'a', 'n', 'k', ' ', 'c', 'o', 'u', 'n', 't', ' '],
  ['-', 't', 'e', 'c', 'h', 'n', 'o', 'l', 'o', 'g', 'y', ' ', '(', 'u', ')', ' '],
  ['-', 'c', 'a', 'c', 'h', 'e', ' ', 't', 'y', 'p', 'e', ' ']]

set_option maxRecDepth 20000 in
/-- The characters of `baseline`. -/
def baselineC : List (List Char) := [
  ['#', ' ', 'p', 'o', 'w', 'e', 'r', ' ', 'g', 'a', 't', 'i', 'n', 'g', '\n'],
  ['-', 'A', 'r', 'r', 'a', 'y', ' ', 'P', 'o', 'w', 'e', 'r', ' ', 'G', 'a', 't', 'i', 'n', 'g', ' ', '-', ' ', '"', 'f', 'a', 'l', 's', 'e', '"', '\n'],
  ['-', 'W', 'L', ' ', 'P', 'o', 'w', 'e', 'r', ' ', 'G', 'a', 't', 'i', 'n', 'g', ' ', '-', ' ', '"', 'f', 'a', 'l', 's', 'e', '"', '\n'],
  ['-', 'C', 'L', ' ', 'P', 'o', 'w', 'e', 'r', ' ', 'G', 'a', 't', 'i', 'n', 'g', ' ', '-', ' ', '"', 'f', 'a', 'l', 's', 'e', '"', '\n'],
  ['-', 'B', 'i', 't', 'l', 'i', 'n', 'e', ' ', 'f', 'l', 'o', 'a', 't', 'i', 'n', 'g', ' ', '-', ' ', '"', 'f', 'a', 'l', 's', 'e', '"', '\n'],
  ['-', 'I', 'n', 't', 'e', 'r', 'c', 'o', 'n', 'n', 'e', 'c', 't', ' ', 'P', 'o', 'w', 'e', 'r', ' ', 'G', 'a', 't', 'i', 'n', 'g', ' ', '-', ' ', '"', 'f', 'a', 'l', 's', 'e', '"', '\n'],
  ['-', 'P', 'o', 'w', 'e', 'r', ' ', 'G', 'a', 't', 'i', 'n', 'g', ' ', 'P', 'e', 'r', 'f', 'o', 'r', 'm', 'a', 'n', 'c', 'e', ' ', 'L', 'o', 's', 's', ' ', '0', '.', '0', '1', '\n'],
  ['\n'],
  ['#', ' ', 'f', 'o', 'l', 'l', 'o', 'w', 'i', 'n', 'g', ' ', 't', 'h', 'r', 'e', 'e', ' ', 'p', 'a', 'r', 'a', 'm', 'e', 't', 'e', 'r', 's', ' ', 'a', 'r', 'e', ' ', 'm', 'e', 'a', 'n', 'i', 'n', 'g', 'f', 'u', 'l', ' ', 'o', 'n', 'l', 'y', ' ', 'f', 'o', 'r', ' ', 'm', 'a', 'i', 'n', ' ', 'm', 'e', 'm', 'o', 'r', 'i', 'e', 's', '\n'],
  ['-', 'p', 'a', 'g', 'e', ' ', 's', 'i', 'z', 'e', ' ', '(', 'b', 'i', 't', 's', ')', ' ', '8', '1', '9', '2', ' ', '\n'],
  ['-', 'b', 'u', 'r', 's', 't', ' ', 'l', 'e', 'n', 'g', 't', 'h', ' ', '8', '\n'],
  ['-', 'i', 'n', 't', 'e', 'r', 'n', 'a', 'l', ' ', 'p', 'r', 'e', 'f', 'e', 't', 'c', 'h', ' ', 'w', 'i', 'd', 't', 'h', ' ', '8', '\n'],
  ['\n'],
  ['#', ' ', 'f', 'o', 'l', 'l', 'o', 'w', 'i', 'n', 'g', ' ', 'p', 'a', 'r', 'a', 'm', 'e', 't', 'e', 'r', ' ', 'c', 'a', 'n', ' ', 'h', 'a', 'v', 'e', ' ', 'o', 'n', 'e', ' ', 'o', 'f', ' ', 'f', 'i', 'v', 'e', ' ', 'v', 'a', 'l', 'u', 'e', 's', ' ', '-', '-', ' ', '(', 'i', 't', 'r', 's', '-', 'h', 'p', ',', ' ', 'i', 't', 'r', 's', '-', 'l', 's', 't', 'p', ',', ' ', 'i', 't', 'r', 's', '-', 'l', 'o', 'p', ',', ' ', 'l', 'p', '-', 'd', 'r', 'a', 'm', ',', ' ', 'c', 'o', 'm', 'm', '-', 'd', 'r', 'a', 'm', ')', '\n'],
  ['-', 'D', 'a', 't', 'a', ' ', 'a', 'r', 'r', 'a', 'y', ' ', 'c', 'e', 'l', 'l', ' ', 't', 'y', 'p', 'e', ' ', '-', ' ', '"', 'i', 't', 'r', 's', '-', 'h', 'p', '"', '\n'],
  ['/', '/', '-', 'D', 'a', 't', 'a', ' ', 'a', 'r', 'r', 'a', 'y', ' ', 'c', 'e', 'l', 'l', ' ', 't', 'y', 'p', 'e', ' ', '-', ' ', '"', 'i', 't', 'r', 's', '-', 'l', 's', 't', 'p', '"', '\n'],
  ['/', '/', '-', 'D', 'a', 't', 'a', ' ', 'a', 'r', 'r', 'a', 'y', ' ', 'c', 'e', 'l', 'l', ' ', 't', 'y', 'p', 'e', ' ', '-', ' ', '"', 'i', 't', 'r', 's', '-', 'l', 'o', 'p', '"', '\n'],
  ['\n'],
  ['#', ' ', 'f', 'o', 'l', 'l', 'o', 'w', 'i', 'n', 'g', ' ', 'p', 'a', 'r', 'a', 'm', 'e', 't', 'e', 'r', ' ', 'c', 'a', 'n', ' ', 'h', 'a', 'v', 'e', ' ', 'o', 'n', 'e', ' ', 'o', 'f', ' ', 't', 'h', 'r', 'e', 'e', ' ', 'v', 'a', 'l', 'u', 'e', 's', ' ', '-', '-', ' ', '(', 'i', 't', 'r', 's', '-', 'h', 'p', ',', ' ', 'i', 't', 'r', 's', '-', 'l', 's', 't', 'p', ',', ' ', 'i', 't', 'r', 's', '-', 'l', 'o', 'p', ')', '\n'],
  ['-', 'D', 'a', 't', 'a', ' ', 'a', 'r', 'r', 'a', 'y', ' ', 'p', 'e', 'r', 'i', 'p', 'h', 'e', 'r', 'a', 'l', ' ', 't', 'y', 'p', 'e', ' ', '-', ' ', '"', 'i', 't', 'r', 's', '-', 'h', 'p', '"', '\n'],
  ['/', '/', '-', 'D', 'a', 't', 'a', ' ', 'a', 'r', 'r', 'a', 'y', ' ', 'p', 'e', 'r', 'i', 'p', 'h', 'e', 'r', 'a', 'l', ' ', 't', 'y', 'p', 'e', ' ', '-', ' ', '"', 'i', 't', 'r', 's', '-', 'l', 's', 't', 'p', '"', '\n'],
  ['/', '/', '-', 'D', 'a', 't', 'a', ' ', 'a', 'r', 'r', 'a', 'y', ' ', 'p', 'e', 'r', 'i', 'p', 'h', 'e', 'r', 'a', 'l', ' ', 't', 'y', 'p', 'e', ' ', '-', ' ', '"', 'i', 't', 'r', 's', '-', 'l', 'o', 'p', '"', '\n'],
  ['\n'],
  ['#', ' ', 'f', 'o', 'l', 'l', 'o', 'w', 'i', 'n', 'g', ' ', 'p', 'a', 'r', 'a', 'm', 'e', 't', 'e', 'r', ' ', 'c', 'a', 'n', ' ', 'h', 'a', 'v', 'e', ' ', 'o', 'n', 'e', ' ', 'o', 'f', ' ', 'f', 'i', 'v', 'e', ' ', 'v', 'a', 'l', 'u', 'e', 's', ' ', '-', '-', ' ', '(', 'i', 't', 'r', 's', '-', 'h', 'p', ',', ' ', 'i', 't', 'r', 's', '-', 'l', 's', 't', 'p', ',', ' ', 'i', 't', 'r', 's', '-', 'l', 'o', 'p', ',', ' ', 'l', 'p', '-', 'd', 'r', 'a', 'm', ',', ' ', 'c', 'o', 'm', 'm', '-', 'd', 'r', 'a', 'm', ')', '\n'],
  ['-', 'T', 'a', 'g', ' ', 'a', 'r', 'r', 'a', 'y', ' ', 'c', 'e', 'l', 'l', ' ', 't', 'y', 'p', 'e', ' ', '-', ' ', '"', 'i', 't', 'r', 's', '-', 'h', 'p', '"', '\n'],
  ['/', '/', '-', 'T', 'a', 'g', ' ', 'a', 'r', 'r', 'a', 'y', ' ', 'c', 'e', 'l', 'l', ' ', 't', 'y', 'p', 'e', ' ', '-', ' ', '"', 'i', 't', 'r', 's', '-', 'l', 's', 't', 'p', '"', '\n'],
  ['/', '/', '-', 'T', 'a', 'g', ' ', 'a', 'r', 'r', 'a', 'y', ' ', 'c', 'e', 'l', 'l', ' ', 't', 'y', 'p', 'e', ' ', '-', ' ', '"', 'i', 't', 'r', 's', '-', 'l', 'o', 'p', '"', '\n'],
  ['\n'],
  ['#', ' ', 'f', 'o', 'l', 'l', 'o', 'w', 'i', 'n', 'g', ' ', 'p', 'a', 'r', 'a', 'm', 'e', 't', 'e', 'r', ' ', 'c', 'a', 'n', ' ', 'h', 'a', 'v', 'e', ' ', 'o', 'n', 'e', ' ', 'o', 'f', ' ', 't', 'h', 'r', 'e', 'e', ' ', 'v', 'a', 'l', 'u', 'e', 's', ' ', '-', '-', ' ', '(', 'i', 't', 'r', 's', '-', 'h', 'p', ',', ' ', 'i', 't', 'r', 's', '-', 'l', 's', 't', 'p', ',', ' ', 'i', 't', 'r', 's', '-', 'l', 'o', 'p', ')', '\n'],
  ['-', 'T', 'a', 'g', ' ', 'a', 'r', 'r', 'a', 'y', ' ', 'p', 'e', 'r', 'i', 'p', 'h', 'e', 'r', 'a', 'l', ' ', 't', 'y', 'p', 'e', ' ', '-', ' ', '"', 'i', 't', 'r', 's', '-', 'h', 'p', '"', '\n'],
  ['/', '/', '-', 'T', 'a', 'g', ' ', 'a', 'r', 'r', 'a', 'y', ' ', 'p', 'e', 'r', 'i', 'p', 'h', 'e', 'r', 'a', 'l', ' ', 't', 'y', 'p', 'e', ' ', '-', ' ', '"', 'i', 't', 'r', 's', '-', 'l', 's', 't', 'p', '"', '\n'],
  ['/', '/', '-', 'T', 'a', 'g', ' ', 'a', 'r', 'r', 'a', 'y', ' ', 'p', 'e', 'r', 'i', 'p', 'h', 'e', 'r', 'a', 'l', ' ', 't', 'y', 'p', 'e', ' ', '-', ' ', '"', 'i', 't', 'r', 's', '-', 'l', 'o', 'p', '\n'],
  ['\n'],
  ['\n'],
  ['/', '/', ' ', '3', '0', '0', '-', '4', '0', '0', ' ', 'i', 'n', ' ', 's', 't', 'e', 'p', 's', ' ', 'o', 'f', ' ', '1', '0', '\n'],
  ['-', 'o', 'p', 'e', 'r', 'a', 't', 'i', 'n', 'g', ' ', 't', 'e', 'm', 'p', 'e', 'r', 'a', 't', 'u', 'r', 'e', ' ', '(', 'K', ')', ' ', '3', '6', '0', '\n'],
  ['\n'],
  ['#', ' ', 't', 'o', ' ', 'm', 'o', 'd', 'e', 'l', ' ', 's', 'p', 'e', 'c', 'i', 'a', 'l', ' ', 's', 't', 'r', 'u', 'c', 't', 'u', 'r', 'e', ' ', 'l', 'i', 'k', 'e', ' ', 'b', 'r', 'a', 'n', 'c', 'h', ' ', 't', 'a', 'r', 'g', 'e', 't', ' ', 'b', 'u', 'f', 'f', 'e', 'r', 's', ',', ' ', 'd', 'i', 'r', 'e', 'c', 't', 'o', 'r', 'y', ',', ' ', 'e', 't', 'c', '.', ' ', '\n'],
  ['#', ' ', 'c', 'h', 'a', 'n', 'g', 'e', ' ', 't', 'h', 'e', ' ', 't', 'a', 'g', ' ', 's', 'i', 'z', 'e', ' ', 'p', 'a', 'r', 'a', 'm', 'e', 't', 'e', 'r', '\n'],
  ['#', ' ', 'i', 'f', ' ', 'y', 'o', 'u', ' ', 'w', 'a', 'n', 't', ' ', 'c', 'a', 'c', 't', 'i', ' ', 't', 'o', ' ', 'c', 'a', 'l', 'c', 'u', 'l', 'a', 't', 'e', ' ', 't', 'h', 'e', ' ', 't', 'a', 'g', 'b', 'i', 't', 's', ',', ' ', 's', 'e', 't', ' ', 't', 'h', 'e', ' ', 't', 'a', 'g', ' ', 's', 'i', 'z', 'e', ' ', 't', 'o', ' ', '"', 'd', 'e', 'f', 'a', 'u', 'l', 't', '"', '\n'],
  ['-', 't', 'a', 'g', ' ', 's', 'i', 'z', 'e', ' ', '(', 'b', ')', ' ', '"', 'd', 'e', 'f', 'a', 'u', 'l', 't', '"', '\n'],
  ['/', '/', '-', 't', 'a', 'g', ' ', 's', 'i', 'z', 'e', ' ', '(', 'b', ')', ' ', '2', '2', '\n'],
  ['\n'],
  ['#', ' ', 'f', 'a', 's', 't', ' ', '-', ' ', 'd', 'a', 't', 'a', ' ', 'a', 'n', 'd', ' ', 't', 'a', 'g', ' ', 'a', 'c', 'c', 'e', 's', 's', ' ', 'h', 'a', 'p', 'p', 'e', 'n', ' ', 'i', 'n', ' ', 'p', 'a', 'r', 'a', 'l', 'l', 'e', 'l', '\n'],
  ['#', ' ', 's', 'e', 'q', 'u', 'e', 'n', 't', 'i', 'a', 'l', ' ', '-', ' ', 'd', 'a', 't', 'a', ' ', 'a', 'r', 'r', 'a', 'y', ' ', 'i', 's', ' ', 'a', 'c', 'c', 'e', 's', 's', 'e', 'd', ' ', 'a', 'f', 't', 'e', 'r', ' ', 'a', 'c', 'c', 'e', 's', 's', 'i', 'n', 'g', ' ', 't', 'h', 'e', ' ', 't', 'a', 'g', ' ', 'a', 'r', 'r', 'a', 'y', '\n'],
  ['#', ' ', 'n', 'o', 'r', 'm', 'a', 'l', ' ', '-', ' ', 'd', 'a', 't', 'a', ' ', 'a', 'r', 'r', 'a', 'y', ' ', 'l', 'o', 'o', 'k', 'u', 'p', ' ', 'a', 'n', 'd', ' ', 't', 'a', 'g', ' ', 'a', 'c', 'c', 'e', 's', 's', ' ', 'h', 'a', 'p', 'p', 'e', 'n', ' ', 'i', 'n', ' ', 'p', 'a', 'r', 'a', 'l', 'l', 'e', 'l', '\n'],
  ['#', ' ', ' ', ' ', ' ', ' ', ' ', ' ', ' ', ' ', ' ', 'f', 'i', 'n', 'a', 'l', ' ', 'd', 'a', 't', 'a', ' ', 'b', 'l', 'o', 'c', 'k', ' ', 'i', 's', ' ', 'b', 'r', 'o', 'a', 'd', 'c', 'a', 's', 't', 'e', 'd', ' ', 'i', 'n', ' ', 'd', 'a', 't', 'a', ' ', 'a', 'r', 'r', 'a', 'y', ' ', 'h', '-', 't', 'r', 'e', 'e', ' ', '\n'],
  ['#', ' ', ' ', ' ', ' ', ' ', ' ', ' ', ' ', ' ', ' ', 'a', 'f', 't', 'e', 'r', ' ', 'g', 'e', 't', 't', 'i', 'n', 'g', ' ', 't', 'h', 'e', ' ', 's', 'i', 'g', 'n', 'a', 'l', ' ', 'f', 'r', 'o', 'm', ' ', 't', 'h', 'e', ' ', 't', 'a', 'g', ' ', 'a', 'r', 'r', 'a', 'y', '\n'],
  ['/', '/', '-', 'a', 'c', 'c', 'e', 's', 's', ' ', 'm', 'o', 'd', 'e', ' ', '(', 'n', 'o', 'r', 'm', 'a', 'l', ',', ' ', 's', 'e', 'q', 'u', 'e', 'n', 't', 'i', 'a', 'l', ',', ' ', 'f', 'a', 's', 't', ')', ' ', '-', ' ', '"', 'f', 'a', 's', 't', '"', '\n'],
  ['-', 'a', 'c', 'c', 'e', 's', 's', ' ', 'm', 'o', 'd', 'e', ' ', '(', 'n', 'o', 'r', 'm', 'a', 'l', ',', ' ', 's', 'e', 'q', 'u', 'e', 'n', 't', 'i', 'a', 'l', ',', ' ', 'f', 'a', 's', 't', ')', ' ', '-', ' ', '"', 'n', 'o', 'r', 'm', 'a', 'l', '"', '\n'],
  ['/', '/', '-', 'a', 'c', 'c', 'e', 's', 's', ' ', 'm', 'o', 'd', 'e', ' ', '(', 'n', 'o', 'r', 'm', 'a', 'l', ',', ' ', 's', 'e', 'q', 'u', 'e', 'n', 't', 'i', 'a', 'l', ',', ' ', 'f', 'a', 's', 't', ')', ' ', '-', ' ', '"', 's', 'e', 'q', 'u', 'e', 'n', 't', 'i', 'a', 'l', '"', '\n'],
  ['\n'],
  ['\n'],
  ['#', ' ', 'D', 'E', 'S', 'I', 'G', 'N', ' ', 'O', 'B', 'J', 'E', 'C', 'T', 'I', 'V', 'E', ' ', 'f', 'o', 'r', ' ', 'U', 'C', 'A', ' ', '(', 'o', 'r', ' ', 'b', 'a', 'n', 'k', 's', ' ', 'i', 'n', ' ', 'N', 'U', 'C', 'A', ')', '\n'],
  ['-', 'd', 'e', 's', 'i', 'g', 'n', ' ', 'o', 'b', 'j', 'e', 'c', 't', 'i', 'v', 'e', ' ', '(', 'w', 'e', 'i', 'g', 'h', 't', ' ', 'd', 'e', 'l', 'a', 'y', ',', ' ', 'd', 'y', 'n', 'a', 'm', 'i', 'c', ' ', 'p', 'o', 'w', 'e', 'r', ',', ' ', 'l', 'e', 'a', 'k', 'a', 'g', 'e', ' ', 'p', 'o', 'w', 'e', 'r', ',', ' ', 'c', 'y', 'c', 'l', 'e', ' ', 't', 'i', 'm', 'e', ',', ' ', 'a', 'r', 'e', 'a', ')', ' ', '0', ':', '0', ':', '0', ':', '1', '0', '0', ':', '0', '\n'],
  ['\n'],
  ['#', ' ', 'P', 'e', 'r', 'c', 'e', 'n', 't', 'a', 'g', 'e', ' ', 'd', 'e', 'v', 'i', 'a', 't', 'i', 'o', 'n', ' ', 'f', 'r', 'o', 'm', ' ', 't', 'h', 'e', ' ', 'm', 'i', 'n', 'i', 'm', 'u', 'm', ' ', 'v', 'a', 'l', 'u', 'e', ' ', '\n'],
  ['#', ' ', 'E', 'x', ':', ' ', 'A', ' ', 'd', 'e', 'v', 'i', 'a', 't', 'i', 'o', 'n', ' ', 'v', 'a', 'l', 'u', 'e', ' ', 'o', 'f', ' ', '1', '0', ':', '1', '0', '0', '0', ':', '1', '0', '0', '0', ':', '1', '0', '0', '0', ':', '1', '0', '0', '0', ' ', 'w', 'i', 'l', 'l', ' ', 't', 'r', 'y', ' ', 't', 'o', ' ', 'f', 'i', 'n', 'd', ' ', 'a', 'n', ' ', 'o', 'r', 'g', 'a', 'n', 'i', 'z', 'a', 't', 'i', 'o', 'n', '\n'],
  ['#', ' ', 't', 'h', 'a', 't', ' ', 'c', 'o', 'm', 'p', 'r', 'o', 'm', 'i', 's', 'e', 's', ' ', 'a', 't', ' ', 'm', 'o', 's', 't', ' ', '1', '0', '%', ' ', 'd', 'e', 'l', 'a', 'y', '.', ' ', '\n'],
  ['#', ' ', 'N', 'O', 'T', 'E', ':', ' ', 'T', 'r', 'y', ' ', 'r', 'e', 'a', 's', 'o', 'n', 'a', 'b', 'l', 'e', ' ', 'v', 'a', 'l', 'u', 'e', 's', ' ', 'f', 'o', 'r', ' ', '%', ' ', 'd', 'e', 'v', 'i', 'a', 't', 'i', 'o', 'n', '.', ' ', 'I', 'n', 'c', 'o', 'n', 's', 'i', 's', 't', 'e', 'n', 't', ' ', 'd', 'e', 'v', 'i', 'a', 't', 'i', 'o', 'n', '\n'],
  ['#', ' ', 'p', 'e', 'r', 'c', 'e', 'n', 't', 'a', 'g', 'e', ' ', 'v', 'a', 'l', 'u', 'e', 's', ' ', 'w', 'i', 'l', 'l', ' ', 'n', 'o', 't', ' ', 'p', 'r', 'o', 'd', 'u', 'c', 'e', ' ', 'a', 'n', 'y', ' ', 'v', 'a', 'l', 'i', 'd', ' ', 'o', 'r', 'g', 'a', 'n', 'i', 'z', 'a', 't', 'i', 'o', 'n', 's', '.', ' ', 'F', 'o', 'r', ' ', 'e', 'x', 'a', 'm', 'p', 'l', 'e', ',', '\n'],
  ['#', ' ', '0', ':', '0', ':', '1', '0', '0', ':', '1', '0', '0', ':', '1', '0', '0', ' ', 'w', 'i', 'l', 'l', ' ', 't', 'r', 'y', ' ', 't', 'o', ' ', 'i', 'd', 'e', 'n', 't', 'i', 'f', 'y', ' ', 'a', 'n', ' ', 'o', 'r', 'g', 'a', 'n', 'i', 'z', 'a', 't', 'i', 'o', 'n', ' ', 't', 'h', 'a', 't', ' ', 'h', 'a', 's', ' ', 'b', 'o', 't', 'h', '\n'],
  ['#', ' ', 'l', 'e', 'a', 's', 't', ' ', 'd', 'e', 'l', 'a', 'y', ' ', 'a', 'n', 'd', ' ', 'd', 'y', 'n', 'a', 'm', 'i', 'c', ' ', 'p', 'o', 'w', 'e', 'r', '.', ' ', 'S', 'i', 'n', 'c', 'e', ' ', 's', 'u', 'c', 'h', ' ', 'a', 'n', ' ', 'o', 'r', 'g', 'a', 'n', 'i', 'z', 'a', 't', 'i', 'o', 'n', ' ', 'i', 's', ' ', 'n', 'o', 't', ' ', 'p', 'o', 's', 's', 'i', 'b', 'l', 'e', ',', ' ', 'C', 'A', 'C', 'T', 'I', ' ', 'w', 'i', 'l', 'l', '\n'],
  ['#', ' ', 't', 'h', 'r', 'o', 'w', ' ', 'a', 'n', ' ', 'e', 'r', 'r', 'o', 'r', '.', ' ', 'R', 'e', 'f', 'e', 'r', ' ', 'C', 'A', 'C', 'T', 'I', '-', '6', ' ', 'T', 'e', 'c', 'h', 'n', 'i', 'c', 'a', 'l', ' ', 'r', 'e', 'p', 'o', 'r', 't', ' ', 'f', 'o', 'r', ' ', 'm', 'o', 'r', 'e', ' ', 'd', 'e', 't', 'a', 'i', 'l', 's', '\n'],
  ['-', 'd', 'e', 'v', 'i', 'a', 't', 'e', ' ', '(', 'd', 'e', 'l', 'a', 'y', ',', ' ', 'd', 'y', 'n', 'a', 'm', 'i', 'c', ' ', 'p', 'o', 'w', 'e', 'r', ',', ' ', 'l', 'e', 'a', 'k', 'a', 'g', 'e', ' ', 'p', 'o', 'w', 'e', 'r', ',', ' ', 'c', 'y', 'c', 'l', 'e', ' ', 't', 'i', 'm', 'e', ',', ' ', 'a', 'r', 'e', 'a', ')', ' ', '2', '0', ':', '1', '0', '0', '0', '0', '0', ':', '1', '0', '0', '0', '0', '0', ':', '1', '0', '0', '0', '0', '0', ':', '1', '0', '0', '0', '0', '0', '\n'],
  ['\n'],
  ['#', ' ', 'O', 'b', 'j', 'e', 'c', 't', 'i', 'v', 'e', ' ', 'f', 'o', 'r', ' ', 'N', 'U', 'C', 'A', '\n'],
  ['-', 'N', 'U', 'C', 'A', 'd', 'e', 's', 'i', 'g', 'n', ' ', 'o', 'b', 'j', 'e', 'c', 't', 'i', 'v', 'e', ' ', '(', 'w', 'e', 'i', 'g', 'h', 't', ' ', 'd', 'e', 'l', 'a', 'y', ',', ' ', 'd', 'y', 'n', 'a', 'm', 'i', 'c', ' ', 'p', 'o', 'w', 'e', 'r', ',', ' ', 'l', 'e', 'a', 'k', 'a', 'g', 'e', ' ', 'p', 'o', 'w', 'e', 'r', ',', ' ', 'c', 'y', 'c', 'l', 'e', ' ', 't', 'i', 'm', 'e', ',', ' ', 'a', 'r', 'e', 'a', ')', ' ', '1', '0', '0', ':', '1', '0', '0', ':', '0', ':', '0', ':', '1', '0', '0', '\n'],
  ['-', 'N', 'U', 'C', 'A', 'd', 'e', 'v', 'i', 'a', 't', 'e', ' ', '(', 'd', 'e', 'l', 'a', 'y', ',', ' ', 'd', 'y', 'n', 'a', 'm', 'i', 'c', ' ', 'p', 'o', 'w', 'e', 'r', ',', ' ', 'l', 'e', 'a', 'k', 'a', 'g', 'e', ' ', 'p', 'o', 'w', 'e', 'r', ',', ' ', 'c', 'y', 'c', 'l', 'e', ' ', 't', 'i', 'm', 'e', ',', ' ', 'a', 'r', 'e', 'a', ')', ' ', '1', '0', ':', '1', '0', '0', '0', '0', ':', '1', '0', '0', '0', '0', ':', '1', '0', '0', '0', '0', ':', '1', '0', '0', '0', '0', '\n'],
  ['\n'],
  ['#', ' ', 'S', 'e', 't', ' ', 'o', 'p', 't', 'i', 'm', 'i', 'z', 'e', ' ', 't', 'a', 'g', ' ', 't', 'o', ' ', 'E', 'D', ' ', 'o', 'r', ' ', 'E', 'D', '^', '2', ' ', 't', 'o', ' ', 'o', 'b', 't', 'a', 'i', 'n', ' ', 'a', ' ', 'c', 'a', 'c', 'h', 'e', ' ', 'c', 'o', 'n', 'f', 'i', 'g', 'u', 'r', 'a', 't', 'i', 'o', 'n', ' ', 'o', 'p', 't', 'i', 'm', 'i', 'z', 'e', 'd', ' ', 'f', 'o', 'r', '\n'],
  ['#', ' ', 'e', 'n', 'e', 'r', 'g', 'y', '-', 'd', 'e', 'l', 'a', 'y', ' ', 'o', 'r', ' ', 'e', 'n', 'e', 'r', 'g', 'y', '-', 'd', 'e', 'l', 'a', 'y', ' ', 's', 'q', '.', ' ', 'p', 'r', 'o', 'd', 'u', 'c', 't', '\n'],
  ['#', ' ', 'N', 'o', 't', 'e', ':', ' ', 'O', 'p', 't', 'i', 'm', 'i', 'z', 'e', ' ', 't', 'a', 'g', ' ', 'w', 'i', 'l', 'l', ' ', 'd', 'i', 's', 'a', 'b', 'l', 'e', ' ', 'w', 'e', 'i', 'g', 'h', 't', ' ', 'o', 'r', ' ', 'd', 'e', 'v', 'i', 'a', 't', 'e', ' ', 'v', 'a', 'l', 'u', 'e', 's', ' ', 'm', 'e', 'n', 't', 'i', 'o', 'n', 'e', 'd', ' ', 'a', 'b', 'o', 'v', 'e', '\n'],
  ['#', ' ', 'S', 'e', 't', ' ', 'i', 't', ' ', 't', 'o', ' ', 'N', 'O', 'N', 'E', ' ', 't', 'o', ' ', 'l', 'e', 't', ' ', 'w', 'e', 'i', 'g', 'h', 't', ' ', 'a', 'n', 'd', ' ', 'd', 'e', 'v', 'i', 'a', 't', 'e', ' ', 'v', 'a', 'l', 'u', 'e', 's', ' ', 'd', 'e', 't', 'e', 'r', 'm', 'i', 'n', 'e', ' ', 't', 'h', 'e', ' ', '\n'],
  ['#', ' ', 'a', 'p', 'p', 'r', 'o', 'p', 'r', 'i', 'a', 't', 'e', ' ', 'c', 'a', 'c', 'h', 'e', ' ', 'c', 'o', 'n', 'f', 'i', 'g', 'u', 'r', 'a', 't', 'i', 'o', 'n', '\n'],
  ['/', '/', '-', 'O', 'p', 't', 'i', 'm', 'i', 'z', 'e', ' ', 'E', 'D', ' ', 'o', 'r', ' ', 'E', 'D', '^', '2', ' ', '(', 'E', 'D', ',', ' ', 'E', 'D', '^', '2', ',', ' ', 'N', 'O', 'N', 'E', ')', ':', ' ', '"', 'E', 'D', '"', '\n'],
  ['-', 'O', 'p', 't', 'i', 'm', 'i', 'z', 'e', ' ', 'E', 'D', ' ', 'o', 'r', ' ', 'E', 'D', '^', '2', ' ', '(', 'E', 'D', ',', ' ', 'E', 'D', '^', '2', ',', ' ', 'N', 'O', 'N', 'E', ')', ':', ' ', '"', 'E', 'D', '^', '2', '"', '\n'],
  ['/', '/', '-', 'O', 'p', 't', 'i', 'm', 'i', 'z', 'e', ' ', 'E', 'D', ' ', 'o', 'r', ' ', 'E', 'D', '^', '2', ' ', '(', 'E', 'D', ',', ' ', 'E', 'D', '^', '2', ',', ' ', 'N', 'O', 'N', 'E', ')', ':', ' ', '"', 'N', 'O', 'N', 'E', '"', '\n'],
  ['\n'],
  ['-', 'C', 'a', 'c', 'h', 'e', ' ', 'm', 'o', 'd', 'e', 'l', ' ', '(', 'N', 'U', 'C', 'A', ',', ' ', 'U', 'C', 'A', ')', ' ', ' ', '-', ' ', '"', 'U', 'C', 'A', '"', '\n'],
  ['/', '/', '-', 'C', 'a', 'c', 'h', 'e', ' ', 'm', 'o', 'd', 'e', 'l', ' ', '(', 'N', 'U', 'C', 'A', ',', ' ', 'U', 'C', 'A', ')', ' ', ' ', '-', ' ', '"', 'N', 'U', 'C', 'A', '"', '\n'],
  ['\n'],
  ['#', ' ', 'I', 'n', ' ', 'o', 'r', 'd', 'e', 'r', ' ', 'f', 'o', 'r', ' ', 'C', 'A', 'C', 'T', 'I', ' ', 't', 'o', ' ', 'f', 'i', 'n', 'd', ' ', 't', 'h', 'e', ' ', 'o', 'p', 't', 'i', 'm', 'a', 'l', ' ', 'N', 'U', 'C', 'A', ' ', 'b', 'a', 'n', 'k', ' ', 'v', 'a', 'l', 'u', 'e', ' ', 't', 'h', 'e', ' ', 'f', 'o', 'l', 'l', 'o', 'w', 'i', 'n', 'g', '\n'],
  ['#', ' ', 'v', 'a', 'r', 'i', 'a', 'b', 'l', 'e', ' ', 's', 'h', 'o', 'u', 'l', 'd', ' ', 'b', 'e', ' ', 'a', 's', 's', 'i', 'g', 'n', 'e', 'd', ' ', '0', '.', '\n'],
  ['-', 'N', 'U', 'C', 'A', ' ', 'b', 'a', 'n', 'k', ' ', 'c', 'o', 'u', 'n', 't', ' ', '0', '\n'],
  ['\n'],
  ['#', ' ', 'N', 'O', 'T', 'E', ':', ' ', 'f', 'o', 'r', ' ', 'n', 'u', 'c', 'a', ' ', 'n', 'e', 't', 'w', 'o', 'r', 'k', ' ', 'f', 'r', 'e', 'q', 'u', 'e', 'n', 'c', 'y', ' ', 'i', 's', ' ', 's', 'e', 't', ' ', 't', 'o', ' ', 'a', ' ', 'd', 'e', 'f', 'a', 'u', 'l', 't', ' ', 'v', 'a', 'l', 'u', 'e', ' ', 'o', 'f', ' ', '\n'],
  ['#', ' ', '5', 'G', 'H', 'z', ' ', 'i', 'n', ' ', 't', 'i', 'm', 'e', '.', 'c', '.', ' ', 'C', 'A', 'C', 'T', 'I', ' ', 'a', 'u', 't', 'o', 'm', 'a', 't', 'i', 'c', 'a', 'l', 'l', 'y', '\n'],
  ['#', ' ', 'c', 'a', 'l', 'c', 'u', 'l', 'a', 't', 'e', 's', ' ', 't', 'h', 'e', ' ', 'm', 'a', 'x', 'i', 'm', 'u', 'm', ' ', 'p', 'o', 's', 's', 'i', 'b', 'l', 'e', ' ', 'f', 'r', 'e', 'q', 'u', 'e', 'n', 'c', 'y', ' ', 'a', 'n', 'd', ' ', 'd', 'o', 'w', 'n', 'g', 'r', 'a', 'd', 'e', 's', ' ', 't', 'h', 'i', 's', ' ', 'v', 'a', 'l', 'u', 'e', ' ', 'i', 'f', ' ', 'n', 'e', 'c', 'e', 's', 's', 'a', 'r', 'y', '\n'],
  ['\n'],
  ['#', ' ', 'B', 'y', ' ', 'd', 'e', 'f', 'a', 'u', 'l', 't', ' ', 'C', 'A', 'C', 'T', 'I', ' ', 'c', 'o', 'n', 's', 'i', 'd', 'e', 'r', 's', ' ', 'b', 'o', 't', 'h', ' ', 'f', 'u', 'l', 'l', '-', 's', 'w', 'i', 'n', 'g', ' ', 'a', 'n', 'd', ' ', 'l', 'o', 'w', '-', 's', 'w', 'i', 'n', 'g', ' ', '\n'],
  ['#', ' ', 'w', 'i', 'r', 'e', 's', ' ', 't', 'o', ' ', 'f', 'i', 'n', 'd', ' ', 'a', 'n', ' ', 'o', 'p', 't', 'i', 'm', 'a', 'l', ' ', 'c', 'o', 'n', 'f', 'i', 'g', 'u', 'r', 'a', 't', 'i', 'o', 'n', '.', ' ', 'H', 'o', 'w', 'e', 'v', 'e', 'r', ',', ' ', 'i', 't', ' ', 'i', 's', ' ', 'p', 'o', 's', 's', 'i', 'b', 'l', 'e', ' ', 't', 'o', ' ', '\n'],
  ['#', ' ', 'r', 'e', 's', 't', 'r', 'i', 'c', 't', ' ', 't', 'h', 'e', ' ', 's', 'e', 'a', 'r', 'c', 'h', ' ', 's', 'p', 'a', 'c', 'e', ' ', 'b', 'y', ' ', 'c', 'h', 'a', 'n', 'g', 'i', 'n', 'g', ' ', 't', 'h', 'e', ' ', 's', 'i', 'g', 'n', 'a', 'l', 'i', 'n', 'g', ' ', 'f', 'r', 'o', 'm', ' ', '"', 'd', 'e', 'f', 'a', 'u', 'l', 't', '"', ' ', 't', 'o', ' ', '\n'],
  ['#', ' ', '"', 'f', 'u', 'l', 'l', 's', 'w', 'i', 'n', 'g', '"', ' ', 'o', 'r', ' ', '"', 'l', 'o', 'w', 's', 'w', 'i', 'n', 'g', '"', ' ', 't', 'y', 'p', 'e', '.', '\n'],
  ['-', 'W', 'i', 'r', 'e', ' ', 's', 'i', 'g', 'n', 'a', 'l', 'i', 'n', 'g', ' ', '(', 'f', 'u', 'l', 'l', 's', 'w', 'i', 'n', 'g', ',', ' ', 'l', 'o', 'w', 's', 'w', 'i', 'n', 'g', ',', ' ', 'd', 'e', 'f', 'a', 'u', 'l', 't', ')', ' ', '-', ' ', '"', 'G', 'l', 'o', 'b', 'a', 'l', '_', '3', '0', '"', '\n'],
  ['/', '/', '-', 'W', 'i', 'r', 'e', ' ', 's', 'i', 'g', 'n', 'a', 'l', 'i', 'n', 'g', ' ', '(', 'f', 'u', 'l', 'l', 's', 'w', 'i', 'n', 'g', ',', ' ', 'l', 'o', 'w', 's', 'w', 'i', 'n', 'g', ',', ' ', 'd', 'e', 'f', 'a', 'u', 'l', 't', ')', ' ', '-', ' ', '"', 'd', 'e', 'f', 'a', 'u', 'l', 't', '"', '\n'],
  ['/', '/', '-', 'W', 'i', 'r', 'e', ' ', 's', 'i', 'g', 'n', 'a', 'l', 'i', 'n', 'g', ' ', '(', 'f', 'u', 'l', 'l', 's', 'w', 'i', 'n', 'g', ',', ' ', 'l', 'o', 'w', 's', 'w', 'i', 'n', 'g', ',', ' ', 'd', 'e', 'f', 'a', 'u', 'l', 't', ')', ' ', '-', ' ', '"', 'l', 'o', 'w', 's', 'w', 'i', 'n', 'g', '"', '\n'],
  ['\n'],
  ['/', '/', '-', 'W', 'i', 'r', 'e', ' ', 'i', 'n', 's', 'i', 'd', 'e', ' ', 'm', 'a', 't', ' ', '-', ' ', '"', 'g', 'l', 'o', 'b', 'a', 'l', '"', '\n'],
  ['-', 'W', 'i', 'r', 'e', ' ', 'i', 'n', 's', 'i', 'd', 'e', ' ', 'm', 'a', 't', ' ', '-', ' ', '"', 's', 'e', 'm', 'i', '-', 'g', 'l', 'o', 'b', 'a', 'l', '"', '\n'],
  ['/', '/', '-', 'W', 'i', 'r', 'e', ' ', 'o', 'u', 't', 's', 'i', 'd', 'e', ' ', 'm', 'a', 't', ' ', '-', ' ', '"', 'g', 'l', 'o', 'b', 'a', 'l', '"', '\n'],
  ['-', 'W', 'i', 'r', 'e', ' ', 'o', 'u', 't', 's', 'i', 'd', 'e', ' ', 'm', 'a', 't', ' ', '-', ' ', '"', 's', 'e', 'm', 'i', '-', 'g', 'l', 'o', 'b', 'a', 'l', '"', '\n'],
  ['\n'],
  ['-', 'I', 'n', 't', 'e', 'r', 'c', 'o', 'n', 'n', 'e', 'c', 't', ' ', 'p', 'r', 'o', 'j', 'e', 'c', 't', 'i', 'o', 'n', ' ', '-', ' ', '"', 'c', 'o', 'n', 's', 'e', 'r', 'v', 'a', 't', 'i', 'v', 'e', '"', '\n'],
  ['/', '/', '-', 'I', 'n', 't', 'e', 'r', 'c', 'o', 'n', 'n', 'e', 'c', 't', ' ', 'p', 'r', 'o', 'j', 'e', 'c', 't', 'i', 'o', 'n', ' ', '-', ' ', '"', 'a', 'g', 'g', 'r', 'e', 's', 's', 'i', 'v', 'e', '"', '\n'],
  ['\n'],
  ['#', ' ', 'C', 'o', 'n', 't', 'e', 'n', 't', 'i', 'o', 'n', ' ', 'i', 'n', ' ', 'n', 'e', 't', 'w', 'o', 'r', 'k', ' ', '(', 'w', 'h', 'i', 'c', 'h', ' ', 'i', 's', ' ', 'a', ' ', 'f', 'u', 'n', 'c', 't', 'i', 'o', 'n', ' ', 'o', 'f', ' ', 'c', 'o', 'r', 'e', ' ', 'c', 'o', 'u', 'n', 't', ' ', 'a', 'n', 'd', ' ', 'c', 'a', 'c', 'h', 'e', ' ', 'l', 'e', 'v', 'e', 'l', ')', ' ', 'i', 's', ' ', 'o', 'n', 'e', ' ', 'o', 'f', '\n'],
  ['#', ' ', 't', 'h', 'e', ' ', 'c', 'r', 'i', 't', 'i', 'c', 'a', 'l', ' ', 'f', 'a', 'c', 't', 'o', 'r', ' ', 'u', 's', 'e', 'd', ' ', 'f', 'o', 'r', ' ', 'd', 'e', 'c', 'i', 'd', 'i', 'n', 'g', ' ', 't', 'h', 'e', ' ', 'o', 'p', 't', 'i', 'm', 'a', 'l', ' ', 'b', 'a', 'n', 'k', ' ', 'c', 'o', 'u', 'n', 't', ' ', 'v', 'a', 'l', 'u', 'e', '\n'],
  ['#', ' ', 'c', 'o', 'r', 'e', ' ', 'c', 'o', 'u', 'n', 't', ' ', 'c', 'a', 'n', ' ', 'b', 'e', ' ', '4', ',', ' ', '8', ',', ' ', 'o', 'r', ' ', '1', '6', '\n'],
  ['/', '/', '-', 'C', 'o', 'r', 'e', ' ', 'c', 'o', 'u', 'n', 't', ' ', '4', '\n'],
  ['-', 'C', 'o', 'r', 'e', ' ', 'c', 'o', 'u', 'n', 't', ' ', '8', '\n'],
  ['/', '/', '-', 'C', 'o', 'r', 'e', ' ', 'c', 'o', 'u', 'n', 't', ' ', '1', '6', '\n'],
  ['-', 'C', 'a', 'c', 'h', 'e', ' ', 'l', 'e', 'v', 'e', 'l', ' ', '(', 'L', '2', '/', 'L', '3', ')', ' ', '-', ' ', '"', 'L', '3', '"', '\n'],
  ['\n'],
  ['-', 'A', 'd', 'd', ' ', 'E', 'C', 'C', ' ', '-', ' ', '"', 't', 'r', 'u', 'e', '"', '\n'],
  ['\n'],
  ['/', '/', '-', 'P', 'r', 'i', 'n', 't', ' ', 'l', 'e', 'v', 'e', 'l', ' ', '(', 'D', 'E', 'T', 'A', 'I', 'L', 'E', 'D', ',', ' ', 'C', 'O', 'N', 'C', 'I', 'S', 'E', ')', ' ', '-', ' ', '"', 'C', 'O', 'N', 'C', 'I', 'S', 'E', '"', '\n'],
  ['-', 'P', 'r', 'i', 'n', 't', ' ', 'l', 'e', 'v', 'e', 'l', ' ', '(', 'D', 'E', 'T', 'A', 'I', 'L', 'E', 'D', ',', ' ', 'C', 'O', 'N', 'C', 'I', 'S', 'E', ')', ' ', '-', ' ', '"', 'D', 'E', 'T', 'A', 'I', 'L', 'E', 'D', '"', '\n'],
  ['\n'],
  ['#', ' ', 'f', 'o', 'r', ' ', 'd', 'e', 'b', 'u', 'g', 'g', 'i', 'n', 'g', '\n'],
  ['-', 'P', 'r', 'i', 'n', 't', ' ', 'i', 'n', 'p', 'u', 't', ' ', 'p', 'a', 'r', 'a', 'm', 'e', 't', 'e', 'r', 's', ' ', '-', ' ', '"', 't', 'r', 'u', 'e', '"', '\n'],
  ['/', '/', '-', 'P', 'r', 'i', 'n', 't', ' ', 'i', 'n', 'p', 'u', 't', ' ', 'p', 'a', 'r', 'a', 'm', 'e', 't', 'e', 'r', 's', ' ', '-', ' ', '"', 'f', 'a', 'l', 's', 'e', '"', '\n'],
  ['#', ' ', 'f', 'o', 'r', 'c', 'e', ' ', 'C', 'A', 'C', 'T', 'I', ' ', 't', 'o', ' ', 'm', 'o', 'd', 'e', 'l', ' ', 't', 'h', 'e', ' ', 'c', 'a', 'c', 'h', 'e', ' ', 'w', 'i', 't', 'h', ' ', 't', 'h', 'e', ' ', '\n'],
  ['#', ' ', 'f', 'o', 'l', 'l', 'o', 'w', 'i', 'n', 'g', ' ', 'N', 'd', 'b', 'l', ',', ' ', 'N', 'd', 'w', 'l', ',', ' ', 'N', 's', 'p', 'd', ',', ' ', 'N', 'd', 's', 'a', 'm', ',', '\n'],
  ['#', ' ', 'a', 'n', 'd', ' ', 'N', 'd', 'c', 'm', ' ', 'v', 'a', 'l', 'u', 'e', 's', '\n'],
  ['/', '/', '-', 'F', 'o', 'r', 'c', 'e', ' ', 'c', 'a', 'c', 'h', 'e', ' ', 'c', 'o', 'n', 'f', 'i', 'g', ' ', '-', ' ', '"', 't', 'r', 'u', 'e', '"', '\n'],
  ['-', 'F', 'o', 'r', 'c', 'e', ' ', 'c', 'a', 'c', 'h', 'e', ' ', 'c', 'o', 'n', 'f', 'i', 'g', ' ', '-', ' ', '"', 'f', 'a', 'l', 's', 'e', '"', '\n'],
  ['-', 'N', 'd', 'w', 'l', ' ', '1', '\n'],
  ['-', 'N', 'd', 'b', 'l', ' ', '1', '\n'],
  ['-', 'N', 's', 'p', 'd', ' ', '0', '\n'],
  ['-', 'N', 'd', 'c', 'm', ' ', '1', '\n'],
  ['-', 'N', 'd', 's', 'a', 'm', '1', ' ', '0', '\n'],
  ['-', 'N', 'd', 's', 'a', 'm', '2', ' ', '0', '\n'],
  ['\n'],
  ['\n'],
  ['\n'],
  ['#', '#', '#', '#', ' ', 'D', 'e', 'f', 'a', 'u', 'l', 't', ' ', 'C', 'O', 'N', 'F', 'I', 'G', 'U', 'R', 'A', 'T', 'I', 'O', 'N', ' ', 'v', 'a', 'l', 'u', 'e', 's', ' ', 'f', 'o', 'r', ' ', 'b', 'a', 's', 'e', 'l', 'i', 'n', 'e', ' ', 'e', 'x', 't', 'e', 'r', 'n', 'a', 'l', ' ', 'I', 'O', ' ', 'p', 'a', 'r', 'a', 'm', 'e', 't', 'e', 'r', 's', ' ', 't', 'o', ' ', 'D', 'R', 'A', 'M', '.', ' ', 'M', 'o', 'r', 'e', ' ', 'd', 'e', 't', 'a', 'i', 'l', 's', ' ', 'c', 'a', 'n', ' ', 'b', 'e', ' ', 'f', 'o', 'u', 'n', 'd', ' ', 'i', 'n', ' ', 't', 'h', 'e', ' ', 'C', 'A', 'C', 'T', 'I', '-', 'I', 'O', ' ', 't', 'e', 'c', 'h', 'n', 'i', 'c', 'a', 'l', ' ', 'r', 'e', 'p', 'o', 'r', 't', ' ', '(', ')', ',', ' ', 'e', 's', 'p', 'e', 'c', 'i', 'a', 'l', 'l', 'y', ' ', 'C', 'h', 'a', 'p', 't', 'e', 'r', 's', ' ', '2', ' ', 'a', 'n', 'd', ' ', '3', '.', '\n'],
  ['\n'],
  ['#', ' ', 'M', 'e', 'm', 'o', 'r', 'y', ' ', 'T', 'y', 'p', 'e', ' ', '(', 'D', '3', '=', 'D', 'D', 'R', '3', ',', ' ', 'D', '4', '=', 'D', 'D', 'R', '4', ',', ' ', 'L', '=', 'L', 'P', 'D', 'D', 'R', '2', ',', ' ', 'W', '=', 'W', 'i', 'd', 'e', 'I', 'O', ',', ' ', 'S', '=', 'S', 'e', 'r', 'i', 'a', 'l', ')', '.', ' ', 'A', 'd', 'd', 'i', 't', 'i', 'o', 'n', 'a', 'l', ' ', 'm', 'e', 'm', 'o', 'r', 'y', ' ', 't', 'y', 'p', 'e', 's', ' ', 'c', 'a', 'n', ' ', 'b', 'e', ' ', 'd', 'e', 'f', 'i', 'n', 'e', 'd', ' ', 'b', 'y', ' ', 't', 'h', 'e', ' ', 'u', 's', 'e', 'r', ' ', 'i', 'n', ' ', 'e', 'x', 't', 'i', 'o', '_', 't', 'e', 'c', 'h', 'n', 'o', 'l', 'o', 'g', 'y', '.', 'c', 'c', ',', ' ', 'a', 'l', 'o', 'n', 'g', ' ', 'w', 'i', 't', 'h', ' ', 't', 'h', 'e', 'i', 'r', ' ', 't', 'e', 'c', 'h', 'n', 'o', 'l', 'o', 'g', 'y', ' ', 'a', 'n', 'd', ' ', 'c', 'o', 'n', 'f', 'i', 'g', 'u', 'r', 'a', 't', 'i', 'o', 'n', ' ', 'p', 'a', 'r', 'a', 'm', 'e', 't', 'e', 'r', 's', '.', '\n'],
  ['\n'],
  ['-', 'd', 'r', 'a', 'm', '_', 't', 'y', 'p', 'e', ' ', '"', 'D', 'D', 'R', '3', '"', '\n'],
  ['/', '/', '-', 'd', 'r', 'a', 'm', '_', 't', 'y', 'p', 'e', ' ', '"', 'D', 'D', 'R', '4', '"', '\n'],
  ['/', '/', '-', 'd', 'r', 'a', 'm', '_', 't', 'y', 'p', 'e', ' ', '"', 'L', 'P', 'D', 'D', 'R', '2', '"', '\n'],
  ['/', '/', '-', 'd', 'r', 'a', 'm', '_', 't', 'y', 'p', 'e', ' ', '"', 'W', 'i', 'd', 'e', 'I', 'O', '"', '\n'],
  ['/', '/', '-', 'd', 'r', 'a', 'm', '_', 't', 'y', 'p', 'e', ' ', '"', 'S', 'e', 'r', 'i', 'a', 'l', '"', '\n'],
  ['\n'],
  ['#', ' ', 'M', 'e', 'm', 'o', 'r', 'y', ' ', 'S', 't', 'a', 't', 'e', ' ', '(', 'R', '=', 'R', 'e', 'a', 'd', ',', ' ', 'W', '=', 'W', 'r', 'i', 't', 'e', ',', ' ', 'I', '=', 'I', 'd', 'l', 'e', ' ', ' ', 'o', 'r', ' ', 'S', '=', 'S', 'l', 'e', 'e', 'p', ')', ' ', '\n'],
  ['\n'],
  ['/', '/', '-', 'i', 'o', ' ', 's', 't', 'a', 't', 'e', ' ', ' ', '"', 'R', 'E', 'A', 'D', '"', '\n'],
  ['-', 'i', 'o', ' ', 's', 't', 'a', 't', 'e', ' ', '"', 'W', 'R', 'I', 'T', 'E', '"', '\n'],
  ['/', '/', '-', 'i', 'o', ' ', 's', 't', 'a', 't', 'e', ' ', '"', 'I', 'D', 'L', 'E', '"', '\n'],
  ['/', '/', '-', 'i', 'o', ' ', 's', 't', 'a', 't', 'e', ' ', '"', 'S', 'L', 'E', 'E', 'P', '"', '\n'],
  ['\n'],
  ['#', 'A', 'd', 'd', 'r', 'e', 's', 's', ' ', 'b', 'u', 's', ' ', 't', 'i', 'm', 'i', 'n', 'g', '.', ' ', 'T', 'o', ' ', 'a', 'l', 'l', 'e', 'v', 'i', 'a', 't', 'e', ' ', 't', 'h', 'e', ' ', 't', 'i', 'm', 'i', 'n', 'g', ' ', 'o', 'n', ' ', 't', 'h', 'e', ' ', 'c', 'o', 'm', 'm', 'a', 'n', 'd', ' ', 'a', 'n', 'd', ' ', 'a', 'd', 'd', 'r', 'e', 's', 's', ' ', 'b', 'u', 's', ' ', 'd', 'u', 'e', ' ', 't', 'o', ' ', 'h', 'i', 'g', 'h', ' ', 'l', 'o', 'a', 'd', 'i', 'n', 'g', ' ', '(', 's', 'h', 'a', 'r', 'e', 'd', ' ', 'a', 'c', 'r', 'o', 's', 's', ' ', 'a', 'l', 'l', ' ', 'm', 'e', 'm', 'o', 'r', 'i', 'e', 's', ' ', 'o', 'n', ' ', 't', 'h', 'e', ' ', 'c', 'h', 'a', 'n', 'n', 'e', 'l', ')', ',', ' ', 't', 'h', 'e', ' ', 'i', 'n', 't', 'e', 'r', 'f', 'a', 'c', 'e', ' ', 'a', 'l', 'l', 'o', 'w', 's', ' ', 'f', 'o', 'r', ' ', 'm', 'u', 'l', 't', 'i', '-', 'c', 'y', 'c', 'l', 'e', ' ', 't', 'i', 'm', 'i', 'n', 'g', ' ', 'o', 'p', 't', 'i', 'o', 'n', 's', '.', ' ', '\n'],
  ['\n'],
  ['/', '/', '-', 'a', 'd', 'd', 'r', '_', 't', 'i', 'm', 'i', 'n', 'g', ' ', '0', '.', '5', ' ', '/', '/', 'D', 'D', 'R', '\n'],
  ['-', 'a', 'd', 'd', 'r', '_', 't', 'i', 'm', 'i', 'n', 'g', ' ', '1', '.', '0', ' ', '/', '/', 'S', 'D', 'R', ' ', '(', 'h', 'a', 'l', 'f', ' ', 'o', 'f', ' ', 'D', 'Q', ' ', 'r', 'a', 't', 'e', ')', '\n'],
  ['/', '/', '-', 'a', 'd', 'd', 'r', '_', 't', 'i', 'm', 'i', 'n', 'g', ' ', '2', '.', '0', ' ', '/', '/', '2', 'T', ' ', 't', 'i', 'm', 'i', 'n', 'g', ' ', '(', 'O', 'n', 'e', ' ', 'f', 'o', 'u', 'r', 't', 'h', ' ', 'o', 'f', ' ', 'D', 'Q', ' ', 'r', 'a', 't', 'e', ')', '\n'],
  ['/', '/', '-', 'a', 'd', 'd', 'r', '_', 't', 'i', 'm', 'i', 'n', 'g', ' ', '3', '.', '0', ' ', '/', '/', ' ', '3', 'T', ' ', 't', 'i', 'm', 'i', 'n', 'g', ' ', '(', 'O', 'n', 'e', ' ', 's', 'i', 'x', 't', 'h', ' ', 'o', 'f', ' ', 'D', 'Q', ' ', 'r', 'a', 't', 'e', ')', '\n'],
  ['\n'],
  ['#', ' ', 'M', 'e', 'm', 'o', 'r', 'y', ' ', 'D', 'e', 'n', 's', 'i', 't', 'y', ' ', '(', 'G', 'b', 'i', 't', ' ', 'p', 'e', 'r', ' ', 'm', 'e', 'm', 'o', 'r', 'y', '/', 'D', 'R', 'A', 'M', ' ', 'd', 'i', 'e', ')', '\n'],
  ['\n'],
  ['-', 'm', 'e', 'm', '_', 'd', 'e', 'n', 's', 'i', 't', 'y', ' ', '4', ' ', 'G', 'b', ' ', '/', '/', 'V', 'a', 'l', 'i', 'd', ' ', 'v', 'a', 'l', 'u', 'e', 's', ' ', '2', '^', 'n', ' ', 'G', 'b', '\n'],
  ['\n'],
  ['#', ' ', 'I', 'O', ' ', 'f', 'r', 'e', 'q', 'u', 'e', 'n', 'c', 'y', ' ', '(', 'M', 'H', 'z', ')', ' ', '(', 'f', 'r', 'e', 'q', 'u', 'e', 'n', 'c', 'y', ' ', 'o', 'f', ' ', 't', 'h', 'e', ' ', 'e', 'x', 't', 'e', 'r', 'n', 'a', 'l', ' ', 'm', 'e', 'm', 'o', 'r', 'y', ' ', 'i', 'n', 't', 'e', 'r', 'f', 'a', 'c', 'e', ')', '.', '\n'],
  ['\n'],
  ['-', 'b', 'u', 's', '_', 'f', 'r', 'e', 'q', ' ', '8', '0', '0', ' ', 'M', 'H', 'z', ' ', '/', '/', 'A', 's', ' ', 'o', 'f', ' ', 'c', 'u', 'r', 'r', 'e', 'n', 't', ' ', 'm', 'e', 'm', 'o', 'r', 'y', ' ', 's', 't', 'a', 'n', 'd', 'a', 'r', 'd', 's', ' ', '(', '2', '0', '1', '3', ')', ',', ' ', 'v', 'a', 'l', 'i', 'd', ' ', 'r', 'a', 'n', 'g', 'e', ' ', '0', ' ', 't', 'o', ' ', '1', '.', '5', ' ', 'G', 'H', 'z', ' ', 'f', 'o', 'r', ' ', 'D', 'D', 'R', '3', ',', ' ', '0', ' ', 't', 'o', ' ', '5', '3', '3', ' ', 'M', 'H', 'z', ' ', 'f', 'o', 'r', ' ', 'L', 'P', 'D', 'D', 'R', '2', ',', ' ', '0', ' ', '-', ' ', '8', '0', '0', ' ', 'M', 'H', 'z', ' ', 'f', 'o', 'r', ' ', 'W', 'i', 'd', 'e', 'I', 'O', ' ', 'a', 'n', 'd', ' ', '0', ' ', '-', ' ', '3', ' ', 'G', 'H', 'z', ' ', 'f', 'o', 'r', ' ', 'L', 'o', 'w', '-', 's', 'w', 'i', 'n', 'g', ' ', 'd', 'i', 'f', 'f', 'e', 'r', 'e', 'n', 't', 'i', 'a', 'l', '.', ' ', 'H', 'o', 'w', 'e', 'v', 'e', 'r', ' ', 't', 'h', 'i', 's', ' ', 'c', 'a', 'n', ' ', 'c', 'h', 'a', 'n', 'g', 'e', ',', ' ', 'a', 'n', 'd', ' ', 't', 'h', 'e', ' ', 'u', 's', 'e', 'r', ' ', 'i', 's', ' ', 'f', 'r', 'e', 'e', ' ', 't', 'o', ' ', 'd', 'e', 'f', 'i', 'n', 'e', ' ', 'v', 'a', 'l', 'i', 'd', ' ', 'r', 'a', 'n', 'g', 'e', 's', ' ', 'b', 'a', 's', 'e', 'd', ' ', 'o', 'n', ' ', 'n', 'e', 'w', ' ', 'm', 'e', 'm', 'o', 'r', 'y', ' ', 't', 'y', 'p', 'e', 's', ' ', 'o', 'r', ' ', 'e', 'x', 't', 'e', 'n', 'd', 'i', 'n', 'g', ' ', 'b', 'e', 'y', 'o', 'n', 'd', ' ', 'e', 'x', 'i', 's', 't', 'i', 'n', 'g', ' ', 's', 't', 'a', 'n', 'd', 'a', 'r', 'd', 's', ' ', 'f', 'o', 'r', ' ', 'e', 'x', 'i', 's', 't', 'i', 'n', 'g', ' ', 'd', 'r', 'a', 'm', ' ', 't', 'y', 'p', 'e', 's', '.', '\n'],
  ['\n'],
  ['#', ' ', 'D', 'u', 't', 'y', ' ', 'C', 'y', 'c', 'l', 'e', ' ', '(', 'f', 'r', 'a', 'c', 't', 'i', 'o', 'n', ' ', 'o', 'f', ' ', 't', 'i', 'm', 'e', ' ', 'i', 'n', ' ', 't', 'h', 'e', ' ', 'M', 'e', 'm', 'o', 'r', 'y', ' ', 'S', 't', 'a', 't', 'e', ' ', 'd', 'e', 'f', 'i', 'n', 'e', 'd', ' ', 'a', 'b', 'o', 'v', 'e', ')', '\n'],
  ['\n'],
  ['-', 'd', 'u', 't', 'y', '_', 'c', 'y', 'c', 'l', 'e', ' ', '1', '.', '0', ' ', '/', '/', 'V', 'a', 'l', 'i', 'd', ' ', 'r', 'a', 'n', 'g', 'e', ' ', '0', ' ', 't', 'o', ' ', '1', '.', '0', '\n'],
  ['\n'],
  ['#', ' ', 'A', 'c', 't', 'i', 'v', 'i', 't', 'y', ' ', 'f', 'a', 'c', 't', 'o', 'r', ' ', 'f', 'o', 'r', ' ', 'D', 'a', 't', 'a', ' ', '(', '0', '-', '>', '1', ' ', 't', 'r', 'a', 'n', 's', 'i', 't', 'i', 'o', 'n', 's', ')', ' ', 'p', 'e', 'r', ' ', 'c', 'y', 'c', 'l', 'e', ' ', '(', 'f', 'o', 'r', ' ', 'D', 'D', 'R', ',', ' ', 'n', 'e', 'e', 'd', ' ', 't', 'o', ' ', 'a', 'c', 'c', 'o', 'u', 'n', 't', ' ', 'f', 'o', 'r', ' ', 't', 'h', 'e', ' ', 'h', 'i', 'g', 'h', 'e', 'r', ' ', 'a', 'c', 't', 'i', 'v', 'i', 't', 'y', ' ', 'i', 'n', ' ', 't', 'h', 'i', 's', ' ', 'p', 'a', 'r', 'a', 'm', 'e', 't', 'e', 'r', '.', ' ', 'E', '.', 'g', '.', ' ', 'm', 'a', 'x', '.', ' ', 'a', 'c', 't', 'i', 'v', 'i', 't', 'y', ' ', 'f', 'a', 'c', 't', 'o', 'r', ' ', 'f', 'o', 'r', ' ', 'D', 'D', 'R', ' ', 'i', 's', ' ', '1', '.', '0', ',', ' ', 'f', 'o', 'r', ' ', 'S', 'D', 'R', ' ', 'i', 's', ' ', '0', '.', '5', ')', '\n'],
  [' ', '\n'],
  ['-', 'a', 'c', 't', 'i', 'v', 'i', 't', 'y', '_', 'd', 'q', ' ', '1', '.', '0', ' ', '/', '/', 'V', 'a', 'l', 'i', 'd', ' ', 'r', 'a', 'n', 'g', 'e', ' ', '0', ' ', 't', 'o', ' ', '1', '.', '0', ' ', 'f', 'o', 'r', ' ', 'D', 'D', 'R', ',', ' ', '0', ' ', 't', 'o', ' ', '0', '.', '5', ' ', 'f', 'o', 'r', ' ', 'S', 'D', 'R', '\n'],
  ['\n'],
  ['#', ' ', 'A', 'c', 't', 'i', 'v', 'i', 't', 'y', ' ', 'f', 'a', 'c', 't', 'o', 'r', ' ', 'f', 'o', 'r', ' ', 'C', 'o', 'n', 't', 'r', 'o', 'l', '/', 'A', 'd', 'd', 'r', 'e', 's', 's', ' ', '(', '0', '-', '>', '1', ' ', 't', 'r', 'a', 'n', 's', 'i', 't', 'i', 'o', 'n', 's', ')', ' ', 'p', 'e', 'r', ' ', 'c', 'y', 'c', 'l', 'e', ' ', '(', 'f', 'o', 'r', ' ', 'D', 'D', 'R', ',', ' ', 'n', 'e', 'e', 'd', ' ', 't', 'o', ' ', 'a', 'c', 'c', 'o', 'u', 'n', 't', ' ', 'f', 'o', 'r', ' ', 't', 'h', 'e', ' ', 'h', 'i', 'g', 'h', 'e', 'r', ' ', 'a', 'c', 't', 'i', 'v', 'i', 't', 'y', ' ', 'i', 'n', ' ', 't', 'h', 'i', 's', ' ', 'p', 'a', 'r', 'a', 'm', 'e', 't', 'e', 'r', '.', ' ', 'E', '.', 'g', '.', ' ', 'm', 'a', 'x', '.', ' ', 'a', 'c', 't', 'i', 'v', 'i', 't', 'y', ' ', 'f', 'a', 'c', 't', 'o', 'r', ' ', 'f', 'o', 'r', ' ', 'D', 'D', 'R', ' ', 'i', 's', ' ', '1', '.', '0', ',', ' ', 'f', 'o', 'r', ' ', 'S', 'D', 'R', ' ', 'i', 's', ' ', '0', '.', '5', ')', '\n'],
  ['\n'],
  ['-', 'a', 'c', 't', 'i', 'v', 'i', 't', 'y', '_', 'c', 'a', ' ', '0', '.', '5', ' ', '/', '/', 'V', 'a', 'l', 'i', 'd', ' ', 'r', 'a', 'n', 'g', 'e', ' ', '0', ' ', 't', 'o', ' ', '1', '.', '0', ' ', 'f', 'o', 'r', ' ', 'D', 'D', 'R', ',', ' ', '0', ' ', 't', 'o', ' ', '0', '.', '5', ' ', 'f', 'o', 'r', ' ', 'S', 'D', 'R', ',', ' ', '0', ' ', 't', 'o', ' ', '0', '.', '2', '5', ' ', 'f', 'o', 'r', ' ', '2', 'T', ',', ' ', 'a', 'n', 'd', ' ', '0', ' ', 't', 'o', ' ', '0', '.', '1', '7', ' ', 'f', 'o', 'r', ' ', '3', 'T', '\n'],
  ['\n'],
  ['#', ' ', 'N', 'u', 'm', 'b', 'e', 'r', ' ', 'o', 'f', ' ', 'D', 'Q', ' ', 'p', 'i', 'n', 's', ' ', '\n'],
  ['\n'],
  ['-', 'n', 'u', 'm', '_', 'd', 'q', ' ', '7', '2', ' ', '/', '/', 'N', 'u', 'm', 'b', 'e', 'r', ' ', 'o', 'f', ' ', 'D', 'Q', ' ', 'p', 'i', 'n', 's', '.', ' ', 'I', 'n', 'c', 'l', 'u', 'd', 'e', 's', ' ', 'E', 'C', 'C', ' ', 'p', 'i', 'n', 's', '.', '\n'],
  ['\n'],
  ['#', ' ', 'N', 'u', 'm', 'b', 'e', 'r', ' ', 'o', 'f', ' ', 'D', 'Q', 'S', ' ', 'p', 'i', 'n', 's', '.', ' ', 'D', 'Q', 'S', ' ', 'i', 's', ' ', 'a', ' ', 'd', 'a', 't', 'a', ' ', 's', 't', 'r', 'o', 'b', 'e', ' ', 't', 'h', 'a', 't', ' ', 'i', 's', ' ', 's', 'e', 'n', 't', ' ', 'a', 'l', 'o', 'n', 'g', ' ', 'w', 'i', 't', 'h', ' ', 'a', ' ', 's', 'm', 'a', 'l', 'l', ' ', 'n', 'u', 'm', 'b', 'e', 'r', ' ', 'o', 'f', ' ', 'd', 'a', 't', 'a', '-', 'l', 'a', 'n', 'e', 's', ' ', 's', 'o', ' ', 't', 'h', 'e', ' ', 's', 'o', 'u', 'r', 'c', 'e', ' ', 's', 'y', 'n', 'c', 'h', 'r', 'o', 'n', 'o', 'u', 's', ' ', 't', 'i', 'm', 'i', 'n', 'g', ' ', 'i', 's', ' ', 'l', 'o', 'c', 'a', 'l', ' ', 't', 'o', ' ', 't', 'h', 'e', 's', 'e', ' ', 'D', 'Q', ' ', 'b', 'i', 't', 's', '.', ' ', 'T', 'y', 'p', 'i', 'c', 'a', 'l', 'l', 'y', ',', ' ', '1', ' ', 'D', 'Q', 'S', ' ', 'p', 'e', 'r', ' ', 'b', 'y', 't', 'e', ' ', '(', '8', ' ', 'D', 'Q', ' ', 'b', 'i', 't', 's', ')', ' ', 'i', 's', ' ', 'u', 's', 'e', 'd', '.', ' ', 'T', 'h', 'e', ' ', 'D', 'Q', 'S', ' ', 'i', 's', ' ', 'a', 'l', 's', 'o', ' ', 't', 'y', 'p', 'u', 'c', 'a', 'l', 'l', 'y', ' ', 'd', 'i', 'f', 'f', 'e', 'r', 'e', 'n', 't', 'i', 'a', 'l', ',', ' ', 'j', 'u', 's', 't', ' ', 'l', 'i', 'k', 'e', ' ', 't', 'h', 'e', ' ', 'C', 'L', 'K', ' ', 'p', 'i', 'n', '.', ' ', '\n'],
  ['\n'],
  ['-', 'n', 'u', 'm', '_', 'd', 'q', 's', ' ', '1', '8', ' ', '/', '/', '2', ' ', 'x', ' ', 'd', 'i', 'f', 'f', 'e', 'r', 'e', 'n', 't', 'i', 'a', 'l', ' ', 'p', 'a', 'i', 'r', 's', '.', ' ', 'I', 'n', 'c', 'l', 'u', 'd', 'e', ' ', 'E', 'C', 'C', ' ', 'p', 'i', 'n', 's', ' ', 'a', 's', ' ', 'w', 'e', 'l', 'l', '.', ' ', 'V', 'a', 'l', 'i', 'd', ' ', 'r', 'a', 'n', 'g', 'e', ' ', '0', ' ', 't', 'o', ' ', '1', '8', '.', ' ', 'F', 'o', 'r', ' ', 'x', '4', ' ', 'm', 'e', 'm', 'o', 'r', 'i', 'e', 's', ',', ' ', 'c', 'o', 'u', 'l', 'd', ' ', 'h', 'a', 'v', 'e', ' ', '3', '6', ' ', 'D', 'Q', 'S', ' ', 'p', 'i', 'n', 's', '.', '\n'],
  ['\n'],
  ['#', ' ', 'N', 'u', 'm', 'b', 'e', 'r', ' ', 'o', 'f', ' ', 'C', 'A', ' ', 'p', 'i', 'n', 's', ' ', '\n'],
  ['\n'],
  ['-', 'n', 'u', 'm', '_', 'c', 'a', ' ', '2', '5', ' ', '/', '/', 'V', 'a', 'l', 'i', 'd', ' ', 'r', 'a', 'n', 'g', 'e', ' ', '0', ' ', 't', 'o', ' ', '3', '5', ' ', 'p', 'i', 'n', 's', '.', '\n'],
  ['\n'],
  ['#', ' ', 'N', 'u', 'm', 'b', 'e', 'r', ' ', 'o', 'f', ' ', 'C', 'L', 'K', ' ', 'p', 'i', 'n', 's', '.', ' ', 'C', 'L', 'K', ' ', 'i', 's', ' ', 't', 'y', 'p', 'i', 'c', 'a', 'l', 'l', 'y', ' ', 'a', ' ', 'd', 'i', 'f', 'f', 'e', 'r', 'e', 'n', 't', 'i', 'a', 'l', ' ', 'p', 'a', 'i', 'r', '.', ' ', 'I', 'n', ' ', 's', 'o', 'm', 'e', ' ', 'c', 'a', 's', 'e', 's', ' ', 'a', 'd', 'd', 'i', 't', 'i', 'o', 'n', 'a', 'l', ' ', 'C', 'L', 'K', ' ', 'p', 'a', 'i', 'r', 's', ' ', 'm', 'a', 'y', ' ', 'b', 'e', ' ', 'u', 's', 'e', 'd', ' ', 't', 'o', ' ', 'l', 'i', 'm', 'i', 't', ' ', 't', 'h', 'e', ' ', 'l', 'o', 'a', 'd', 'i', 'n', 'g', ' ', 'o', 'n', ' ', 't', 'h', 'e', ' ', 'C', 'L', 'K', ' ', 'p', 'i', 'n', '.', ' ', '\n'],
  ['\n'],
  ['-', 'n', 'u', 'm', '_', 'c', 'l', 'k', ' ', ' ', '2', ' ', '/', '/', '2', ' ', 'x', ' ', 'd', 'i', 'f', 'f', 'e', 'r', 'e', 'n', 't', 'i', 'a', 'l', ' ', 'p', 'a', 'i', 'r', '.', ' ', 'V', 'a', 'l', 'i', 'd', ' ', 'v', 'a', 'l', 'u', 'e', 's', ':', ' ', '0', '/', '2', '/', '4', '.', '\n'],
  ['\n'],
  ['#', ' ', 'N', 'u', 'm', 'b', 'e', 'r', ' ', 'o', 'f', ' ', 'P', 'h', 'y', 's', 'i', 'c', 'a', 'l', ' ', 'R', 'a', 'n', 'k', 's', '\n'],
  ['\n'],
  ['-', 'n', 'u', 'm', '_', 'm', 'e', 'm', '_', 'd', 'q', ' ', '2', ' ', '/', '/', 'N', 'u', 'm', 'b', 'e', 'r', ' ', 'o', 'f', ' ', 'r', 'a', 'n', 'k', 's', ' ', '(', 'l', 'o', 'a', 'd', 's', ' ', 'o', 'n', ' ', 'D', 'Q', ' ', 'a', 'n', 'd', ' ', 'D', 'Q', 'S', ')', ' ', 'p', 'e', 'r', ' ', 'b', 'u', 'f', 'f', 'e', 'r', '/', 'r', 'e', 'g', 'i', 's', 't', 'e', 'r', '.', ' ', 'I', 'f', ' ', 'm', 'u', 'l', 't', 'i', 'p', 'l', 'e', ' ', 'L', 'R', 'D', 'I', 'M', 'M', 's', ' ', 'o', 'r', ' ', 'b', 'u', 'f', 'f', 'e', 'r', ' ', 'c', 'h', 'i', 'p', 's', ' ', 'e', 'x', 'i', 's', 't', ',', ' ', 't', 'h', 'e', ' ', 'a', 'n', 'a', 'l', 'y', 's', 'i', 's', ' ', 'f', 'o', 'r', ' ', 'c', 'a', 'p', 'a', 'c', 'i', 't', 'y', ' ', 'a', 'n', 'd', ' ', 'p', 'o', 'w', 'e', 'r', ' ', 'i', 's', ' ', 'r', 'e', 'p', 'o', 'r', 't', 'e', 'd', ' ', 'p', 'e', 'r', ' ', 'b', 'u', 'f', 'f', 'e', 'r', '/', 'r', 'e', 'g', 'i', 's', 't', 'e', 'r', '.', ' ', '\n'],
  ['\n'],
  ['#', ' ', 'W', 'i', 'd', 't', 'h', ' ', 'o', 'f', ' ', 't', 'h', 'e', ' ', 'M', 'e', 'm', 'o', 'r', 'y', ' ', 'D', 'a', 't', 'a', ' ', 'B', 'u', 's', '\n'],
  ['\n'],
  ['-', 'm', 'e', 'm', '_', 'd', 'a', 't', 'a', '_', 'w', 'i', 'd', 't', 'h', ' ', '8', ' ', '/', '/', 'x', '4', ' ', 'o', 'r', ' ', 'x', '8', ' ', 'o', 'r', ' ', 'x', '1', '6', ' ', 'o', 'r', ' ', 'x', '3', '2', ' ', 'm', 'e', 'm', 'o', 'r', 'i', 'e', 's', '.', ' ', 'F', 'o', 'r', ' ', 'W', 'i', 'd', 'e', 'I', 'O', ' ', 'u', 'p', 't', 'o', ' ', 'x', '1', '2', '8', '.', '\n'],
  ['\n'],
  ['#', ' ', 'R', 'T', 'T', ' ', 'T', 'e', 'r', 'm', 'i', 'n', 'a', 't', 'i', 'o', 'n', ' ', 'R', 'e', 's', 'i', 's', 't', 'a', 'n', 'c', 'e', '\n'],
  ['\n'],
  ['-', 'r', 't', 't', '_', 'v', 'a', 'l', 'u', 'e', ' ', '1', '0', '0', '0', '0', '\n'],
  ['\n'],
  ['#', ' ', 'R', 'O', 'N', ' ', 'T', 'e', 'r', 'm', 'i', 'n', 'a', 't', 'i', 'o', 'n', ' ', 'R', 'e', 's', 'i', 's', 't', 'a', 'n', 'c', 'e', '\n'],
  ['\n'],
  ['-', 'r', 'o', 'n', '_', 'v', 'a', 'l', 'u', 'e', ' ', '3', '4', '\n'],
  ['\n'],
  ['#', ' ', 'T', 'i', 'm', 'e', ' ', 'o', 'f', ' ', 'f', 'l', 'i', 'g', 'h', 't', ' ', 'f', 'o', 'r', ' ', 'D', 'Q', '\n'],
  ['\n'],
  ['-', 't', 'f', 'l', 'i', 'g', 'h', 't', '_', 'v', 'a', 'l', 'u', 'e', '\n'],
  ['\n'],
  ['#', ' ', 'P', 'a', 'r', 'a', 'm', 'e', 't', 'e', 'r', ' ', 'r', 'e', 'l', 'a', 't', 'e', 'd', ' ', 't', 'o', ' ', 'M', 'e', 'm', 'C', 'A', 'D', '\n'],
  ['\n'],
  ['#', ' ', 'N', 'u', 'm', 'b', 'e', 'r', ' ', 'o', 'f', ' ', 'B', 'o', 'B', 's', ':', ' ', '1', ',', '2', ',', '3', ',', '4', ',', '5', ',', '6', ',', '\n'],
  ['-', 'n', 'u', 'm', '_', 'b', 'o', 'b', 's', ' ', '1', '\n'],
  ['\t', '\n'],
  ['#', ' ', 'M', 'e', 'm', 'o', 'r', 'y', ' ', 'S', 'y', 's', 't', 'e', 'm', ' ', 'C', 'a', 'p', 'a', 'c', 'i', 't', 'y', ' ', 'i', 'n', ' ', 'G', 'B', '\n'],
  ['-', 'c', 'a', 'p', 'a', 'c', 'i', 't', 'y', ' ', '8', '0', '\t', '\n'],
  ['\t', '\n'],
  ['#', ' ', 'N', 'u', 'm', 'b', 'e', 'r', ' ', 'o', 'f', ' ', 'C', 'h', 'a', 'n', 'n', 'e', 'l', ' ', 'p', 'e', 'r', ' ', 'B', 'o', 'B', ':', ' ', '1', ',', '2', '.', ' ', '\n'],
  ['-', 'n', 'u', 'm', '_', 'c', 'h', 'a', 'n', 'n', 'e', 'l', 's', '_', 'p', 'e', 'r', '_', 'b', 'o', 'b', ' ', '1', '\t', '\n'],
  ['\n'],
  ['#', ' ', 'F', 'i', 'r', 's', 't', ' ', 'M', 'e', 't', 'r', 'i', 'c', ' ', 'f', 'o', 'r', ' ', 'o', 'r', 'd', 'e', 'r', 'i', 'n', 'g', ' ', 'd', 'i', 'f', 'f', 'e', 'r', 'e', 'n', 't', ' ', 'd', 'e', 's', 'i', 'g', 'n', ' ', 'p', 'o', 'i', 'n', 't', 's', '\t', '\n'],
  ['-', 'f', 'i', 'r', 's', 't', ' ', 'm', 'e', 't', 'r', 'i', 'c', ' ', '"', 'C', 'o', 's', 't', '"', '\n'],
  ['#', '-', 'f', 'i', 'r', 's', 't', ' ', 'm', 'e', 't', 'r', 'i', 'c', ' ', '"', 'B', 'a', 'n', 'd', 'w', 'i', 'd', 't', 'h', '"', '\n'],
  ['#', '-', 'f', 'i', 'r', 's', 't', ' ', 'm', 'e', 't', 'r', 'i', 'c', ' ', '"', 'E', 'n', 'e', 'r', 'g', 'y', '"', '\n'],
  ['\t', '\n'],
  ['#', ' ', 'S', 'e', 'c', 'o', 'n', 'd', ' ', 'M', 'e', 't', 'r', 'i', 'c', ' ', 'f', 'o', 'r', ' ', 'o', 'r', 'd', 'e', 'r', 'i', 'n', 'g', ' ', 'd', 'i', 'f', 'f', 'e', 'r', 'e', 'n', 't', ' ', 'd', 'e', 's', 'i', 'g', 'n', ' ', 'p', 'o', 'i', 'n', 't', 's', '\t', '\n'],
  ['#', '-', 's', 'e', 'c', 'o', 'n', 'd', ' ', 'm', 'e', 't', 'r', 'i', 'c', ' ', '"', 'C', 'o', 's', 't', '"', '\n'],
  ['-', 's', 'e', 'c', 'o', 'n', 'd', ' ', 'm', 'e', 't', 'r', 'i', 'c', ' ', '"', 'B', 'a', 'n', 'd', 'w', 'i', 'd', 't', 'h', '"', '\n'],
  ['#', '-', 's', 'e', 'c', 'o', 'n', 'd', ' ', 'm', 'e', 't', 'r', 'i', 'c', ' ', '"', 'E', 'n', 'e', 'r', 'g', 'y', '"', '\n'],
  ['\n'],
  ['#', ' ', 'T', 'h', 'i', 'r', 'd', ' ', 'M', 'e', 't', 'r', 'i', 'c', ' ', 'f', 'o', 'r', ' ', 'o', 'r', 'd', 'e', 'r', 'i', 'n', 'g', ' ', 'd', 'i', 'f', 'f', 'e', 'r', 'e', 'n', 't', ' ', 'd', 'e', 's', 'i', 'g', 'n', ' ', 'p', 'o', 'i', 'n', 't', 's', '\t', '\n'],
  ['#', '-', 't', 'h', 'i', 'r', 'd', ' ', 'm', 'e', 't', 'r', 'i', 'c', ' ', '"', 'C', 'o', 's', 't', '"', '\n'],
  ['#', '-', 't', 'h', 'i', 'r', 'd', ' ', 'm', 'e', 't', 'r', 'i', 'c', ' ', '"', 'B', 'a', 'n', 'd', 'w', 'i', 'd', 't', 'h', '"', '\n'],
  ['-', 't', 'h', 'i', 'r', 'd', ' ', 'm', 'e', 't', 'r', 'i', 'c', ' ', '"', 'E', 'n', 'e', 'r', 'g', 'y', '"', '\t', '\n'],
  ['\t', '\n'],
  ['\t', '\n'],
  ['#', ' ', 'P', 'o', 's', 's', 'i', 'b', 'l', 'e', ' ', 'D', 'I', 'M', 'M', ' ', 'o', 'p', 't', 'i', 'o', 'n', ' ', 't', 'o', ' ', 'c', 'o', 'n', 's', 'i', 'd', 'e', 'r', '\n'],
  ['#', '-', 'D', 'I', 'M', 'M', ' ', 'm', 'o', 'd', 'e', 'l', ' ', '"', 'J', 'U', 'S', 'T', '_', 'U', 'D', 'I', 'M', 'M', '"', '\n'],
  ['#', '-', 'D', 'I', 'M', 'M', ' ', 'm', 'o', 'd', 'e', 'l', ' ', '"', 'J', 'U', 'S', 'T', '_', 'R', 'D', 'I', 'M', 'M', '"', '\n'],
  ['#', '-', 'D', 'I', 'M', 'M', ' ', 'm', 'o', 'd', 'e', 'l', ' ', '"', 'J', 'U', 'S', 'T', '_', 'L', 'R', 'D', 'I', 'M', 'M', '"', '\n'],
  ['-', 'D', 'I', 'M', 'M', ' ', 'm', 'o', 'd', 'e', 'l', ' ', '"', 'A', 'L', 'L', '"', '\n'],
  ['\n'],
  ['#', 'i', 'f', ' ', 'c', 'h', 'a', 'n', 'n', 'e', 'l', 's', ' ', 'o', 'f', ' ', 'e', 'a', 'c', 'h', ' ', 'b', 'o', 'b', ' ', 'h', 'a', 'v', 'e', ' ', 't', 'h', 'e', ' ', 's', 'a', 'm', 'e', ' ', 'c', 'o', 'n', 'f', 'i', 'g', 'u', 'r', 'a', 't', 'i', 'o', 'n', 's', '\n'],
  ['#', '-', 'm', 'i', 'r', 'r', 'o', 'r', '_', 'i', 'n', '_', 'b', 'o', 'b', ' ', '"', 'T', '"', '\n'],
  ['-', 'm', 'i', 'r', 'r', 'o', 'r', '_', 'i', 'n', '_', 'b', 'o', 'b', ' ', '"', 'F', '"', '\n'],
  ['\n'],
  ['#', 'i', 'f', ' ', 'w', 'e', ' ', 'w', 'a', 'n', 't', ' ', 't', 'o', ' ', 's', 'e', 'e', ' ', 'a', 'l', 'l', ' ', 'c', 'h', 'a', 'n', 'n', 'e', 'l', 's', '/', 'b', 'o', 'b', 's', '/', 'm', 'e', 'm', 'o', 'r', 'y', ' ', 'c', 'o', 'n', 'f', 'i', 'g', 'u', 'r', 'a', 't', 'i', 'o', 'n', 's', ' ', 'e', 'x', 'p', 'l', 'o', 'r', 'e', 'd', '\t', '\n'],
  ['#', '-', 'v', 'e', 'r', 'b', 'o', 's', 'e', ' ', '"', 'T', '"', '\n'],
  ['#', '-', 'v', 'e', 'r', 'b', 'o', 's', 'e', ' ', '"', 'F', '"', '\n'],
  ['\n'],
  ['=', '=', '=', '=', '=', '=', '=', 'U', 'S', 'E', 'R', ' ', 'D', 'E', 'F', 'I', 'N', 'E', '=', '=', '=', '=', '=', '=', '=', ' ', '\n']]

theorem readers_chars : readers = readersC.map String.ofList := rfl

theorem options_chars : options.map Opt.text = optionsC.map String.ofList := rfl

set_option maxRecDepth 20000 in
theorem baseline_chars : baseline = baselineC.map String.ofList := rfl

end Verif.CactiText
