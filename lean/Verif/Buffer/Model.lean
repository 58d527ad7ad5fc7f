import Mathlib.Algebra.Order.Ring.Rat
import Mathlib.Algebra.BigOperators.Group.List.Basic

/-! Memory utilization and double buffering: `calc_memory_utilization`, `__get_shared_mem_list` and `calc_double_buffer_flag`
(/repo/zigzag/cost_model/cost_model.py lines 437-481, 378-390 and 631-663).  A place is a pair of operand and memory level; tables of lists indexed
by operand and level are functions of the place.  A group lists the places in one physical memory that holds several operands
(`mem_sharing_tuple`, memory operands without a layer operand left out).  Python floats are exact rationals. -/

namespace Verif.Buffer

variable {P : Type} [DecidableEq P]

/-- Lines 447-455: part of the memory in use by one operand. -/
def individual (bits size : P → ℚ) (p : P) : ℚ := bits p / size p

/-- Assign one value to all places of a list (lines 471-475). -/
def assign (v : ℚ) (ps : List P) (t : P → ℚ) : P → ℚ := fun p => if p ∈ ps then v else t p

/-- Lines 457-475: the utilization of a shared memory is the sum over its operands. -/
def shared (groups : List (List P)) (ind : P → ℚ) : P → ℚ :=
  groups.foldl (fun t g => assign ((g.map ind).sum) g t) ind

/-- `__get_shared_mem_list` (lines 378-390) -/
def groupOf (groups : List (List P)) (p : P) : Option (List P) := groups.find? fun g => decide (p ∈ g)

/-- Lines 654-659: add the second copy of one operand to the utilization of its memory (a memory holds each operand once, so every place is in the
group once). -/
def bump (g : Option (List P)) (v : ℚ) (t : P → ℚ) : P → ℚ :=
  match g with
  | none => t
  | some ps => fun p => if p ∈ ps then t p + v else t p

/-- Lines 641-661: one place. -/
def step (groups : List (List P)) (ind : P → ℚ) (st : (P → ℚ) × (P → Bool)) (p : P) : (P → ℚ) × (P → Bool) :=
  if st.1 p ≤ 1 / 2 then (st.1, fun q => if q = p then true else st.2 q)
  else if ind p ≤ 1 - st.1 p then (bump (groupOf groups p) (ind p) st.1, fun q => if q = p then true else st.2 q)
  else (st.1, fun q => if q = p then false else st.2 q)

/-- `calc_double_buffer_flag` (lines 631-663): the flags after visiting the places in the given order. -/
def flags (groups : List (List P)) (ind : P → ℚ) (places : List P) : P → Bool :=
  (places.foldl (step groups ind) (shared groups ind, fun _ => false)).2

end Verif.Buffer
