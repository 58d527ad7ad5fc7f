import Verif.Decouple.Model

/-!
Model of `/repo/zigzag/mapping/spatial_mapping_internal.py` (`SpatialMappingInternal`), given the reformed mapping produced by
`decouple_pr_loop` (modelled in `Verif.Decouple`).
-/

namespace Verif.SpatialInternal

variable {Name : Type}

/-- Python's `round(x)`: to the nearest integer, ties to even. -/
def pyRound (q : ℚ) : ℤ :=
  let f := ⌊q⌋
  let d := q - f
  if d < 1 / 2 then f else if d > 1 / 2 then f + 1 else if f % 2 = 0 then f else f + 1

/-- Python's `round(x, 3)`. -/
def pyRound3 (q : ℚ) : ℚ := pyRound (q * 1000) / 1000

/-- `unroll_size_r[op]` (lines 79-106): per level the product of the loops relevant to the operand. -/
def unrollR (isR : Name → Bool) (m : List (List (Name × ℚ))) : List ℚ :=
  m.map (fun l => l.foldl (fun acc x => if isR x.1 then acc * x.2 else acc) 1)

/-- `unroll_size_ir[op]` (lines 79-106). -/
def unrollIr (isR : Name → Bool) (m : List (List (Name × ℚ))) : List ℚ :=
  m.map (fun l => l.foldl (fun acc x => if isR x.1 then acc else acc * x.2) 1)

/-- `unroll_size_total[op]` (lines 79-106). -/
def unrollTotal (m : List (List (Name × ℚ))) : List ℚ :=
  m.map (fun l => l.foldl (fun acc x => acc * x.2) 1)

/-- `prod(sizes[lv : arch_level])` for every level (lines 108-141). -/
def above (sizes : List ℚ) : List ℚ := (List.range sizes.length).map (fun lv => (sizes.drop lv).prod)

/-- `unit_count[op]` (lines 112-118). -/
def unitCount (m : List (List (Name × ℚ))) : List ℤ :=
  (above (unrollTotal m)).map (fun q => pyRound (pyRound3 q))

/-- `unit_unique[op]` (lines 128-131). -/
def unitUnique (isR : Name → Bool) (m : List (List (Name × ℚ))) : List ℚ := above (unrollR isR m)

/-- `unit_duplicate[op]` (lines 134-137). -/
def unitDuplicate (isR : Name → Bool) (m : List (List (Name × ℚ))) : List ℚ := above (unrollIr isR m)

/-- `a / b` raising `ZeroDivisionError`. -/
def pyDiv (a b : ℚ) : Except PyErr ℚ := if b = 0 then .error .zeroDivision else .ok (a / b)

/-- `[l[lv] / l[lv + 1] for lv in range(len(l) - 1)]`. -/
def stepRatios : List ℚ → Except PyErr (List ℚ)
  | a :: b :: t => do
    let q ← pyDiv a b
    let rest ← stepRatios (b :: t)
    return q :: rest
  | _ => return []

/-- `data_serve_scope[op]` (lines 143-157). -/
def serveScope (isR : Name → Bool) (m : List (List (Name × ℚ))) : Except PyErr (List ℚ) := stepRatios (unitDuplicate isR m)

/-- `mem_bw_boost[op]` (lines 159-173). -/
def bwBoost (isR : Name → Bool) (m : List (List (Name × ℚ))) : Except PyErr (List ℤ) := do
  let l ← stepRatios (unitUnique isR m)
  return l.map pyRound

/-- The assertion on the bottom level (lines 120-125), over the reformed mappings of all operands. -/
def checkBottom (ms : List (List (List (Name × ℚ)))) : Except PyErr ℤ :=
  match ms.mapM (fun m => (unitCount m)[0]?) with
  | none => .error .indexError
  | some [] => .error .indexError
  | some (c :: cs) => if (c :: cs).all (fun x => x = c) then .ok c else .error .assertion

end Verif.SpatialInternal
