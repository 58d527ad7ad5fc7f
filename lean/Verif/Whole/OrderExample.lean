import Verif.Whole.Order
import Verif.Whole.Example

/-! Cases of C162. -/

namespace Verif.Whole.Ex

open Evaluate.Ex (rl layer)
open Latency (Operand)

/-- The product of two matrices of this size, with an ordering of the temporal loops. -/
def ordered (m n k : ℚ) (order : List (Nat × Option Nat)) : LayerIn Nat := { layerIn with L := layer m n k, order := order }

/-- The factorizations that are asked for. -/
def few (n : Nat) : List (Nat × Nat) := if n = 2 then [(2, 1)] else if n = 3 then [(3, 1)] else if n = 4 then [(2, 2)] else if n = 6 then [(2, 1), (3, 1)] else if n = 16 then [(2, 4)] else []

/-- Of an evaluation: the loops of the first operand over its memories, the number of cycles without stalls and the energy. -/
structure Seen where
  loops : List (List (Nat × ℚ))
  cycles : ℚ
  energy : ℚ
deriving DecidableEq

def loopsOf (r : Option (List (Evaluate.Job Nat × Evaluate.Result) × Option PyErr)) : Option (Option PyErr × List Seen) :=
  r.map fun r => (r.2, r.1.map fun e => ⟨e.1.tm .in1, e.1.totalCycle, e.2.energy.total⟩)

theorem orderedOk (order : List (Nat × Option Nat)) : InputOk file (ordered 2 4 2 order) user rl [] :=
  ⟨accOk, { layerOk with }, inputOk.stored, inputOk.linked, inputOk.mapping, inputOk.array⟩

/-- C162, positive cases: without an ordering there are six mappings; two of them begin with the dimension that is asked for; a complete ordering gives one mapping. -/
example : ((run (fun _ => (10, 20)) few file (ordered 2 4 2 []) user none 30).map fun r => (r.1.length, r.2)) = some (6, none) ∧
    loopsOf (run (fun _ => (10, 20)) few file (ordered 2 4 2 [(1, none)]) user none 30) =
      some (none, [⟨[[(1, 2)], [(2, 2), (0, 2)]], 8, 55⟩, ⟨[[(1, 2), (0, 2)], [(2, 2)]], 8, 55⟩]) ∧
    loopsOf (run (fun _ => (10, 20)) few file (ordered 2 4 2 [(0, some 2), (1, some 2), (2, some 2)]) user none 30) =
      some (none, [⟨[[(0, 2), (1, 2)], [(2, 2)]], 8, 55⟩]) := by decide +kernel

example : ∃ N, ∀ fuel, N ≤ fuel → ∀ evals err, run (fun _ => (10, 20)) fact file (ordered 2 4 2 [(1, none)]) user none fuel = some (evals, err) →
    ∀ e ∈ evals, ∃ x rest, (e.1.tm .in1).flatten = (1, x) :: rest := by
  obtain ⟨N, h⟩ := run_obeys (cacti := fun _ => (10, 20)) (orderedOk [(1, none)]) fact Lpf.factContract_primeFactorsList none (by simp) (Or.inl (by decide))
  refine ⟨N, fun fuel hf evals err hr e he => ?_⟩
  obtain ⟨c, loops, -, hm, hb⟩ := h fuel hf evals err hr e he
  obtain ⟨x, hx, -⟩ := hb 0 1 none rfl
  rw [hm.1 .in1 (by decide)]
  cases loops with
  | nil => cases hx
  | cons y rest =>
    cases hx
    exact ⟨x, rest, rfl⟩

/-- The complete ordering of the case above. -/
def listed : LayerIn Nat := ordered 2 4 2 [(0, some 2), (1, some 2), (2, some 2)]

theorem listed_complete : Ordering.Complete listed.order ([(0, 2), (1, 2), (2, 2)] : Dict Nat Int) where
  sized := by decide
  more := by decide +kernel
  exact d := by
    match d with
    | 0 => decide +kernel
    | 1 => decide +kernel
    | 2 => decide +kernel
    | n + 3 => simp [Ordering.given, listed, ordered, Dict.get?]

/-- It is the only mapping that is evaluated, with any limit on the number of loops. -/
example (limit : Option Nat) (fuel : Nat) (evals : List (Evaluate.Job Nat × Evaluate.Result)) (err : Option PyErr)
    (hr : run (fun _ => (10, 20)) fact file listed user limit fuel = some (evals, err)) :
    evals.length ≤ 1 ∧ ∀ e ∈ evals, (e.1.tm .in1).flatten = [(0, 2), (1, 2), (2, 2)] := by
  have I : InputOk file listed user rl [] := orderedOk _
  obtain ⟨c, hc, C⟩ := accelerator_ok (cacti := fun _ => (10, 20)) I.acc
  obtain ⟨lim, limI, t, -, ht, -⟩ := task_ok I C
  have hk : ((accelerator (fun _ => (10, 20)) file).toOption.bind fun c => (task file c listed user).toOption.map spatialLoops) = some [(1, 2)] := by decide +kernel
  rw [hc] at hk
  have hs : spatialLoops t = [(1, 2)] := by
    simp only [Except.toOption, Option.bind_some, ht, Option.map_some, Option.some.injEq] at hk
    exact hk
  have hl : TemporalLoops.lomaTemporalLoops (listed.sizes.map fun e => (e.1, (e.2 : Int))) (spatialLoops t) = .ok [(0, 2), (1, 2), (2, 2)] := by
    rw [hs]
    have h : (TemporalLoops.lomaTemporalLoops (listed.sizes.map fun e => (e.1, (e.2 : Int))) [(1, 2)]).toOption = some [(0, 2), (1, 2), (2, 2)] := by decide +kernel
    cases hx : TemporalLoops.lomaTemporalLoops (listed.sizes.map fun e => (e.1, (e.2 : Int))) [(1, 2)] with
    | error e =>
      rw [hx] at h
      cases h
    | ok x =>
      rw [hx] at h
      cases h
      rfl
  rcases run_complete I fact limit hc ht hl listed_complete fuel with ⟨j, r, h1, h2, -⟩ | ⟨j, h1, -⟩ | ⟨e, h1, -⟩
  · rw [h1] at hr
    cases hr
    refine ⟨le_refl _, fun e he => ?_⟩
    rw [List.mem_singleton.1 he, h2.1 .in1 (by decide)]
    rfl
  · rw [h1] at hr
    cases hr
    exact ⟨by decide, fun e he => by cases he⟩
  · rw [h1] at hr
    cases hr
    exact ⟨by decide, fun e he => by cases he⟩

/-- C162 is false for orderings with numbers of iterations that do not list all loops: the layer has 2 × 6 × 2 operations, the ordering asks for all six iterations of a
dimension and then for another dimension; the only mappings that are evaluated have 18 iterations of the first dimension, so that 72 cycles and an energy of 706 are
reported for 24 operations. -/
theorem sized_ordering_false : operations (ordered 2 6 2 [(1, some 6), (0, none)]) = 24 ∧
    loopsOf (run (fun _ => (10, 20)) few file (ordered 2 6 2 [(1, some 6), (0, none)]) [] none 300) =
      some (none, [⟨[[(1, 6)], [(0, 2), (2, 2), (1, 3)]], 72, 706⟩, ⟨[[(1, 6)], [(0, 2), (1, 3), (2, 2)]], 72, 706⟩]) := by decide +kernel

/-- C162: an ordering that can be satisfied but is refused. With 16 = 4 · 4 iterations of a dimension, the ordering "4 of this dimension, 4 of this dimension, then another
dimension" ends with `NoValidLoopOrderingFoundException`: the factors are taken apart for one loop of four iterations only. The same loops are evaluated if all of them are listed. -/
theorem repeated_ordering_crash :
    loopsOf (run (fun _ => (10, 20)) few file (ordered 2 16 1 [(1, some 4), (1, some 4), (0, none)]) [] none 300) = some (some .noValidOrdering, []) ∧
    ((loopsOf (run (fun _ => (10, 20)) few file (ordered 2 16 1 [(1, some 4), (1, some 4), (0, some 2)]) [] none 300)).map fun r => (r.1, r.2.map fun e => e.loops.flatten)) =
      some (none, [[(1, 4), (1, 4), (0, 2)]]) := by decide +kernel

/-- C162: an ordering makes a call end with an exception although there is nothing to order: all iterations of the layer are unrolled over the array, and the run without
an ordering has a mapping. -/
theorem nothing_ordered_crash : loopsOf (run (fun _ => (10, 20)) few file (ordered 1 2 1 [(1, none)]) user none 30) = some (some .noValidOrdering, []) ∧
    loopsOf (run (fun _ => (10, 20)) few file (ordered 1 2 1 []) user none 30) = some (none, [⟨[[], []], 1, 1⟩]) := by decide +kernel

/-- C162: the exception for memories that are too small depends on the ordering: a complete ordering ends with the exception of the allocator, any other
ordering with the message that there is no valid loop ordering. -/
theorem small_memory_crash : ∃ a : AccD Nat,
    loopsOf (run (fun _ => (10, 20)) few a (ordered 2 4 2 [(1, some 4), (0, some 2), (2, some 2)]) [] none 300) = some (some .memoryTooSmall, []) ∧
    loopsOf (run (fun _ => (10, 20)) few a (ordered 2 4 2 [(1, some 4), (0, some 2)]) [] none 300) = some (some .noValidOrdering, []) :=
  ⟨{ file with mems := [{ inputsMem with size := 16 }, outReg, mainMem] }, by decide +kernel⟩

/-- C162: a loop of one iteration in an ordering ends the call. -/
theorem single_ordering_crash : loopsOf (run (fun _ => (10, 20)) few file (ordered 2 4 2 [(1, some 1), (2, some 2)]) user none 30) = some (some .runtimeError, []) ∧
    loopsOf (run (fun _ => (10, 20)) few file (ordered 2 4 2 [(1, none), (2, none), (0, none), (0, none)]) user none 30) = some (some .indexError, []) := by
  decide +kernel

end Verif.Whole.Ex
