import Mathlib.Tactic.IntervalCases
import Verif.Search.Props
import Verif.Evaluate.Example
import Verif.Lpf.Props

/-! Concrete searches for C145 and C146. -/

namespace Verif.Search

open Evaluate (Hw Mem Job Built Result evaluate Separate Ready)
open Evaluate.Ex (rl rel layer both acc main hw2 built2 hw4 built4)
open LayerNode (Relation)
open Latency (Operand)

namespace Ex

def topo2 : List Mem := [both 64, acc, main]

/-- A product of a 2 x 2 and a 2 x 4 matrix. -/
def task2 : Search.Task Nat :=
  { ops := [.out, .in1, .in2], inputs := [.in1, .in2], L := layer 2 4 2, rel := rel, precision := fun o => if o = .in2 then 4 else 16
    finalPrecision := 8, su := fun _ => [[], [], []], suInt := fun _ => [[], [], []], noAccess := false, cyclesPerOp := 1, even := false }

theorem prepared2 : Prepared hw2 topo2 task2 rl [] [] where
  built := built2
  sorted := .refl _
  levels op := by cases op <;> decide +kernel
  ops := by decide
  out := by decide
  inputs := by decide
  stored op ho := by cases op <;> decide +kernel
  serves op ho lv m hm := by
    have h3 : lv < 2 := by
      have := (List.getElem?_eq_some_iff.1 hm).1
      cases op <;> exact this
    interval_cases lv <;> cases op <;> cases hm <;> decide +kernel
  names := by decide
  pi := rfl
  wf := by unfold Dict.WF; decide +kernel
  related := by simp
  sizes := by simp
  rel op ho := by cases op <;> rfl
  index op ho := by cases op <;> decide
  mix op ho := by cases op <;> decide
  vars op ho := by cases op <;> decide
  dims op ho := by cases op <;> decide +kernel
  su op ho := by cases op <;> exact ⟨rfl, rfl⟩
  unrolled op ho := by cases op <;> decide +kernel
  array op ho := by cases op <;> rfl
  cycles := by decide

theorem order2 : Order task2 [(2, 2), (1, 2), (0, 2), (1, 2)] where
  whole := by
    have h : ∀ l ∈ ([(2, 2), (1, 2), (0, 2), (1, 2)] : List (Nat × ℚ)), l.2 = ((l.2.num.natAbs : ℕ) : ℚ) ∧ 1 ≤ l.2.num.natAbs := by
      decide +kernel
    exact fun l hl => ⟨_, h l hl⟩
  dims := by decide +kernel

/-- A register of the outputs for one partial sum. -/
def acc16 : Mem :=
  ⟨16, 1, 1, [(.out, 0)],
    [⟨64, 8, [(.out, 0, .rdToLow)]⟩, ⟨64, 8, [(.out, 0, .wrByLow)]⟩, ⟨64, 8, [(.out, 0, .rdToHigh)]⟩, ⟨64, 8, [(.out, 0, .wrByHigh)]⟩]⟩
def topoA : List Mem := [both 64, acc16, main]
def hwA : Hw := ⟨topoA, fun o => if o = .out then [acc16, main] else [both 64, main], 1, 1 / 2⟩

/-- The final outputs have twice as many bits as the partial sums. -/
def taskA : Search.Task Nat := { task2 with finalPrecision := 32 }

theorem builtA : Built hwA where
  inside op := by cases op <;> decide +kernel
  numbered := by decide +kernel
  single := by decide +kernel
  served := by decide +kernel
  once := by decide +kernel
  bw := by decide +kernel
  size := by decide +kernel
  units := by decide +kernel

theorem preparedA : Prepared hwA topoA taskA rl [] [] where
  built := builtA
  sorted := .refl _
  levels op := by cases op <;> decide +kernel
  ops := by decide
  out := by decide
  inputs := by decide
  stored op ho := by cases op <;> decide +kernel
  serves op ho lv m hm := by
    have h3 : lv < 2 := by
      have := (List.getElem?_eq_some_iff.1 hm).1
      cases op <;> exact this
    interval_cases lv <;> cases op <;> cases hm <;> decide +kernel
  names := by decide
  pi := rfl
  wf := by unfold Dict.WF; decide +kernel
  related := by simp
  sizes := by simp
  rel op ho := by cases op <;> rfl
  index op ho := by cases op <;> decide
  mix op ho := by cases op <;> decide
  vars op ho := by cases op <;> decide
  dims op ho := by cases op <;> decide +kernel
  su op ho := by cases op <;> exact ⟨rfl, rfl⟩
  unrolled op ho := by cases op <;> decide +kernel
  array op ho := by cases op <;> rfl
  cycles := by decide

theorem orderA : Order taskA [(2, 2), (1, 2), (0, 2), (1, 2)] where
  whole := order2.whole
  dims := by decide +kernel

def topoB : List Mem := [both 36, acc, main]
def hwB : Hw := ⟨topoB, fun o => if o = .out then [acc, main] else [both 36, main], 4, 1 / 2⟩

/-- A product of a 2 x 2 and a 2 x 7 matrix; the dimension of size seven is unrolled over four units in two steps. -/
def taskB : Search.Task Nat :=
  { ops := [.out, .in1, .in2], inputs := [.in1, .in2], L := layer 2 7 2, rel := rel, precision := fun _ => 8, finalPrecision := 8
    su := fun o => if o = .in1 then [[], [(1, 7 / 2)], []] else [[(1, 7 / 2)], [], []]
    suInt := fun o => if o = .in1 then [[], [(1, 3)], []] else [[(1, 3)], [], []], noAccess := false, cyclesPerOp := 1, even := false }

theorem builtB : Built hwB where
  inside op := by cases op <;> decide +kernel
  numbered := by decide +kernel
  single := by decide +kernel
  served := by decide +kernel
  once := by decide +kernel
  bw := by decide +kernel
  size := by decide +kernel
  units := by decide +kernel

theorem preparedB : Prepared hwB topoB taskB rl [] [(1, 3)] where
  built := builtB
  sorted := .refl _
  levels op := by cases op <;> decide +kernel
  ops := by decide
  out := by decide
  inputs := by decide
  stored op ho := by cases op <;> decide +kernel
  serves op ho lv m hm := by
    have h3 : lv < 2 := by
      have := (List.getElem?_eq_some_iff.1 hm).1
      cases op <;> exact this
    interval_cases lv <;> cases op <;> cases hm <;> decide +kernel
  names := by decide
  pi := rfl
  wf := by unfold Dict.WF; decide +kernel
  related := by simp
  sizes := by simp
  rel op ho := by cases op <;> rfl
  index op ho := by cases op <;> decide
  mix op ho := by cases op <;> decide
  vars op ho := by cases op <;> decide
  dims op ho := by cases op <;> decide +kernel
  su op ho := by cases op <;> exact ⟨rfl, rfl⟩
  unrolled op ho := by cases op <;> decide +kernel
  array op ho := by cases op <;> rfl
  cycles := by decide

theorem orderB : Order taskB [(1, 2), (0, 2), (2, 2)] where
  whole := by
    have h : ∀ l ∈ ([(1, 2), (0, 2), (2, 2)] : List (Nat × ℚ)), l.2 = ((l.2.num.natAbs : ℕ) : ℚ) ∧ 1 ≤ l.2.num.natAbs := by
      decide +kernel
    exact fun l hl => ⟨_, h l hl⟩
  dims := by decide +kernel

/-- A product of a 3 x 6 and a 6 x 3 matrix. -/
def task4 : Search.Task Nat :=
  { ops := [.out, .in1, .in2], inputs := [.in1, .in2], L := layer 3 3 6, rel := rel, precision := fun _ => 8, finalPrecision := 8
    su := fun _ => List.replicate 7 [], suInt := fun _ => List.replicate 7 [], noAccess := false, cyclesPerOp := 1, even := false }

theorem prepared4 : Prepared hw4 hw4.mems task4 rl [] [] where
  built := built4
  sorted := .refl _
  levels op := by cases op <;> decide +kernel
  ops := by decide
  out := by decide
  inputs := by decide
  stored op ho := by cases op <;> decide +kernel
  serves op ho lv m hm := by
    have h3 : lv < 6 := by
      have := (List.getElem?_eq_some_iff.1 hm).1
      cases op <;> exact this
    interval_cases lv <;> cases op <;> cases hm <;> decide +kernel
  names := by decide
  pi := rfl
  wf := by unfold Dict.WF; decide +kernel
  related := by simp
  sizes := by simp
  rel op ho := by cases op <;> rfl
  index op ho := by cases op <;> decide
  mix op ho := by cases op <;> decide
  vars op ho := by cases op <;> decide
  dims op ho := by cases op <;> decide +kernel
  su op ho := by cases op <;> exact ⟨rfl, rfl⟩
  unrolled op ho := by cases op <;> decide +kernel
  array op ho := by cases op <;> rfl
  cycles := by decide

/-- The factors of the sizes of this layer. -/
def fact4 (n : Nat) : List (Nat × Nat) := if n = 3 then [(3, 1)] else if n = 6 then [(2, 1), (3, 1)] else []

/-- The number of mappings that are found, of those that are evaluated, and the exception at the end. -/
def ending (h : Hw) (r : Option (List (Job Nat) × Option PyErr)) : Option (Nat × Nat × Option PyErr) :=
  r.map fun r => (r.1.length, (evaluations h r.1 r.2).1.length, (evaluations h r.1 r.2).2)

/-- The utilization of a memory in the evaluation of the mapping for an order. -/
def used (h : Hw) (topo : List Mem) (t : Search.Task Nat) (order : List (Nat × ℚ)) (k : Operand × Nat) : Option ℚ :=
  match mapOrder h topo t order with
  | .error _ => none
  | .ok j => match evaluate h j with
    | .error _ => none
    | .ok r => some (r.utilShared k)

theorem used_some {h : Hw} {topo : List Mem} {t : Search.Task Nat} {order : List (Nat × ℚ)} {k : Operand × Nat} {u : ℚ} (hu : used h topo t order k = some u) :
    ∃ j r, mapOrder h topo t order = .ok j ∧ evaluate h j = .ok r ∧ r.utilShared k = u := by
  unfold used at hu
  split at hu
  · cases hu
  · rename_i j hj
    split at hu
    · cases hu
    · rename_i r hr
      cases hu
      exact ⟨j, r, hj, hr, rfl⟩

end Ex

open Ex

/-- C146: false without the condition on the precisions.  The allocator reserves room for partial sums in a memory in which the last sum is completed, and the
cost model counts final outputs there: with final outputs of 32 bits and partial sums of 16 bits, a register of 16 bits is 200 % full. -/
theorem final_overfull_false : ¬ ∀ (h : Hw) (topo : List Mem) (t : Search.Task Nat) (rl : Operand → List Nat) (order array : List (Nat × ℚ)) (j : Job Nat)
    (r : Result), Prepared h topo t rl [] array → Order t order → (t.rel .out).pr = [] → (∀ op ∈ t.ops, ∀ l ∈ (t.su op).flatten, ∃ n : ℕ, l.2 = n) →
    mapOrder h topo t order = .ok j → evaluate h j = .ok r → ∀ op ∈ t.ops, ∀ lv < (h.levels op).length, r.utilShared (op, lv) ≤ 1 := by
  intro hall
  obtain ⟨j, r, hj, hr, hu⟩ := used_some (show used hwA topoA taskA [(2, 2), (1, 2), (0, 2), (1, 2)] (.out, 0) = some 2 by decide +kernel)
  have := hall hwA topoA taskA rl _ _ j r preparedA orderA rfl (by intro op ho; cases op <;> simp [taskA, task2]) hj hr .out (by decide) 0 (by decide)
  rw [hu] at this
  norm_num at this

/-- C146: false without the condition on the spatial loops.  The allocator reserves room for 7/2 weights of 8 bits, and the cost model counts four of them: a
memory of 36 bits is 111 % full. -/
theorem fraction_overfull_false : ¬ ∀ (h : Hw) (topo : List Mem) (t : Search.Task Nat) (rl : Operand → List Nat) (order array : List (Nat × ℚ)) (j : Job Nat)
    (r : Result), Prepared h topo t rl [] array → Order t order → t.finalPrecision ≤ t.precision .out → (t.rel .out).pr = [] →
    mapOrder h topo t order = .ok j → evaluate h j = .ok r → ∀ op ∈ t.ops, ∀ lv < (h.levels op).length, r.utilShared (op, lv) ≤ 1 := by
  intro hall
  obtain ⟨j, r, hj, hr, hu⟩ := used_some (show used hwB topoB taskB [(1, 2), (0, 2), (2, 2)] (.in1, 0) = some (10 / 9) by decide +kernel)
  have := hall hwB topoB taskB rl _ _ j r preparedB orderB (by decide) rfl hj hr .in1 (by decide) 0 (by decide)
  rw [hu] at this
  norm_num at this

/-- C145: false without the condition on the ports.  All loop orders of a product of a 3 x 6 and a 6 x 3 matrix fit, but the evaluation of the first one divides by
zero, which ends the search before any mapping is evaluated. -/
theorem search_crash : ∃ (h : Hw) (t : Search.Task Nat) (rl : Operand → List Nat) (fuel : Nat) (jobs : List (Job Nat)), Prepared h h.mems t rl [] [] ∧
    (∀ p ∈ h.ports, ∀ k ∈ p.served, k.1 ∈ t.ops) ∧ mappings fact4 h h.mems t [(0, 3), (1, 3), (2, 6)] [] (some 3) [] fuel = some (jobs, none) ∧
    (evaluations h jobs none).1.length < jobs.length ∧ (evaluations h jobs none).2 = some .zeroDivision := by
  have h : ending hw4 (mappings fact4 hw4 hw4.mems task4 [(0, 3), (1, 3), (2, 6)] [] (some 3) [] 30) = some (6, 0, some .zeroDivision) ∧
      ((mappings fact4 hw4 hw4.mems task4 [(0, 3), (1, 3), (2, 6)] [] (some 3) [] 30).map Prod.snd) = some none := by decide +kernel
  cases hm : mappings fact4 hw4 hw4.mems task4 [(0, 3), (1, 3), (2, 6)] [] (some 3) [] 30 with
  | none => rw [hm] at h; simp [ending] at h
  | some r =>
    obtain ⟨jobs, e⟩ := r
    rw [hm] at h
    simp only [ending, Option.map_some, Option.some.injEq, Prod.mk.injEq] at h
    obtain ⟨⟨h1, h2, h3⟩, rfl⟩ := h
    exact ⟨hw4, task4, rl, 30, jobs, prepared4, by decide +kernel, hm, by omega, h3⟩

/-! ### Cases that meet the hypotheses -/

/-- Both memories below the main memory are full, or at least half full. -/
example : used hw2 topo2 task2 [(2, 2), (1, 2), (0, 2), (1, 2)] (.in1, 0) = some 1 ∧ used hw2 topo2 task2 [(2, 2), (1, 2), (0, 2), (1, 2)] (.out, 0) = some (1 / 2) := by
  decide +kernel

example {j : Job Nat} (hj : mapOrder hw2 topo2 task2 [(2, 2), (1, 2), (0, 2), (1, 2)] = .ok j) {r : Result} (hr : evaluate hw2 j = .ok r) :
    r.utilShared (.in1, 0) ≤ 1 :=
  found_fits prepared2 order2 (by decide) rfl (by intro op ho; cases op <;> simp [task2]) hj hr (by decide) (m := both 64) rfl

/-- The bound with fractions is met with a factor that is not whole. -/
example {j : Job Nat} (hj : mapOrder hwB topoB taskB [(1, 2), (0, 2), (2, 2)] = .ok j) {r : Result} (hr : evaluate hwB j = .ok r) :
    r.utilShared (.in1, 0) * (36 : Nat) ≤ (36 : Nat) + (((both 36).holding j).map fun p => (taskB.precision p.1 : ℚ) / 2).sum :=
  found_partial preparedB orderB (by decide) rfl hj hr (by decide) (m := both 36) rfl

/-- A factorization that is enough for the sizes below. -/
def Ex.fact (n : Nat) : List (Nat × Nat) := n.primeFactorsList.dedup.map (fun p => (p, n.primeFactorsList.count p))

/-- Twelve orders, all of which fit. -/
example : (mappings (fun n => if n = 4 then [(2, 2)] else if n = 2 then [(2, 1)] else []) hw2 topo2 task2 [(0, 2), (1, 4), (2, 2)] [] none [] 30).map
    (fun r => (r.1.length, r.2)) = some (12, none) := by decide +kernel

/-- A memory of one bit: no order fits. -/
example : (mappings (fun n => if n = 4 then [(2, 2)] else if n = 2 then [(2, 1)] else []) (hw2.resize fun m => if m.size = 64 then 1 else m.size)
    (topo2.map (Mem.resize fun m => if m.size = 64 then 1 else m.size)) task2 [(0, 2), (1, 4), (2, 2)] [] none [] 30).map
    (fun r => (r.1.length, r.2)) = some (0, some .noValidOrdering) := by decide +kernel

example : ∃ N, ∃ c : ℚ, 16 ≤ c ∧ ∀ fuel, N ≤ fuel → ∃ jobs err, mappings Ex.fact hw2 topo2 task2 [(0, 2), (1, 4), (2, 2)] [] none [] fuel = some (jobs, err) ∧
    ∀ e ∈ (evaluations hw2 jobs err).1, e.2.overall.idealTemporal = c ∧ c ≤ e.2.overall.latency0 := by
  obtain ⟨N, c, h1, h2⟩ := search_cycles prepared2 (by decide +kernel) Ex.fact Lpf.factContract_primeFactorsList [(0, 2), (1, 4), (2, 2)] (by unfold Dict.WF; decide)
    (by intro k v hk; have := Dict.mem_of_get? hk; simp at this; omega) (by simp) (by decide) [] (by simp) none (by simp) [] (Or.inl (by simp))
  refine ⟨N, c, ?_, h2⟩
  norm_num [task2] at h1
  exact h1

end Verif.Search
