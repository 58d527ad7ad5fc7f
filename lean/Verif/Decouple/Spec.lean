import Verif.Decouple.Model

/-! What splitting partially relevant loops means, independent of how the code does it. -/

namespace Verif.Decouple

variable {Dim : Type} [DecidableEq Dim]

/-- The data dimension a loop contributes to. -/
def keyOf (env : DEnv Dim) (d : Dim) : Option Dim :=
  if env.other d then none else (env.lut.find? (fun e => e.2.1 = d ∨ e.2.2 = d)).map Prod.fst

/-- No loop contributes to two data dimensions. -/
def Uniq (env : DEnv Dim) : Prop :=
  ∀ d, env.other d = false → ∀ e ∈ env.lut, ∀ e' ∈ env.lut, (e.2.1 = d ∨ e.2.2 = d) → (e'.2.1 = d ∨ e'.2.2 = d) → e = e'

/-- What one loop is replaced by: itself, or a relevant and an irrelevant loop of the data dimension with the same product. -/
def Split (env : DEnv Dim) (loop : Dim × ℚ) (b : List (TDim Dim × ℚ)) : Prop :=
  match keyOf env loop.1 with
  | none => b = [(.orig loop.1, loop.2)]
  | some k => ∃ x y, b = [(.r k, x), (.ir k, y)] ∧ x * y = loop.2

/-- Product of the sizes of the loops of dimension `d` that contribute to a data dimension. -/
def dimProd (env : DEnv Dim) (d : Dim) (loops : List (Dim × ℚ)) : ℚ :=
  ((loops.filter (fun l => l.1 = d ∧ env.other l.1 = false)).map Prod.snd).prod

/-- Sizes of the two loop dimensions of a data dimension after `loops`. -/
def accSizes (env : DEnv Dim) (xy : Dim × Dim) (loops : List (Dim × ℚ)) : Dict Dim ℚ :=
  (Dict.set [] xy.1 (dimProd env xy.1 loops)).set xy.2 (dimProd env xy.2 loops)

/-- Product of the sizes of all loops called `n`. -/
def nameProd (n : TDim Dim) (loops : List (TDim Dim × ℚ)) : ℚ := ((loops.filter (fun l => l.1 = n)).map Prod.snd).prod

end Verif.Decouple
