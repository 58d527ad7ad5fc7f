import Verif.SpatialMapping.Model

/-! Independent description of valid spatial mappings (docstring of `is_valid`, lines 102-110 of spatial_mapping.py). -/

namespace Verif.SpatialMapping

variable {OA Dim : Type} [DecidableEq OA] [DecidableEq Dim]

/-- Unrolling of `d` along one array dimension; one when it is not unrolled there. -/
def factor (l : Dict Dim ℚ) (d : Dim) : ℚ := (l.get? d).getD 1

/-- A mapping value as python guarantees it: keys occur once. -/
def SMWF (m : SM OA Dim) : Prop := m.WF ∧ ∀ e ∈ m, e.2.WF

/-- Documented conditions 4) to 8). -/
structure Valid (oaSizes : Dict OA ℚ) (maxU : Dict OA (Dict Dim ℚ)) (sizes : Dict Dim ℚ) (m : SM OA Dim) : Prop where
  /-- 4) and 5): every unrolling has a bound and does not exceed it -/
  bounded : ∀ oa l, m.get? oa = some l → ∀ d u, l.get? d = some u → ∃ mx b, maxU.get? oa = some mx ∧ mx.get? d = some b ∧ u ≤ b
  /-- 6): the array dimension is large enough for the product of its unrollings -/
  fits : ∀ oa l, m.get? oa = some l → ∃ s, oaSizes.get? oa = some s ∧ (l.map Prod.snd).prod ≤ s
  /-- 7) -/
  known : ∀ oa l, m.get? oa = some l → ∀ d ∈ l.keys, d ∈ sizes.keys
  /-- 8): the unrollings of a layer dimension over all array dimensions do not exceed its size -/
  covers : ∀ d s, sizes.get? d = some s → (m.map (fun e => factor e.2 d)).prod ≤ s

/-- Conditions 2) and 3): the array dimensions of the mapping are those of the hardware. -/
def SameOas (oaSizes : Dict OA ℚ) (m : SM OA Dim) : Prop := ∀ k, k ∈ m.keys ↔ k ∈ oaSizes.keys

/-- `m'` only removes unrollings of `m` or lowers them to the bound. -/
def LoweredTo (maxU : Dict OA (Dict Dim ℚ)) (m m' : SM OA Dim) : Prop :=
  m'.keys = m.keys ∧ ∀ oa l', m'.get? oa = some l' → ∃ l, m.get? oa = some l ∧
    ∀ d u', l'.get? d = some u' → ∃ u mx b, l.get? d = some u ∧ maxU.get? oa = some mx ∧ mx.get? d = some b ∧ u' = min u b

end Verif.SpatialMapping
