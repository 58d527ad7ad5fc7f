import Verif.Evaluate.TrafficExample
import Verif.Evaluate.Fit

/-! Cases for C143 and C144. -/

namespace Verif.Evaluate

open MapInfo
open Latency (Operand Key)

namespace Ex

/-- The second accelerator with a memory of the inputs that the second mapping fills. -/
def hw5 : Hw := hw2.resize fun m => if m = both 64 then 80 else m.size

theorem ready5 : Ready hw5 job2 rl [] [(2, 2), (1, 2), (0, 2), (1, 2)] [] := ready2.resize (by decide +kernel)

/-- Reported utilizations and what is double buffered. -/
def filled (j : Job Nat) (r : Except PyErr Result) : Option (List (List (ℚ × ℚ × Option Bool))) :=
  match r with
  | .ok r => some (j.ops.map fun o => (List.range (j.tm o).length).map fun l => (r.util (o, l), r.utilShared (o, l), (r.flags o)[l + 1]?))
  | .error _ => none

theorem filled5 : filled job2 (evaluate hw5 job2) = some [[(1 / 2, 1 / 2, some true), (2 / 3125, 1 / 625, some true)],
    [(4 / 5, 1, some true), (2 / 3125, 1 / 625, some true)], [(1 / 5, 1, some false), (1 / 3125, 1 / 625, some true)]] := by decide +kernel

end Ex

open Ex

/-- The part of the shared memory that the first input takes. -/
example : ∃ r, evaluate hw job = .ok r ∧ r.util (.in1, 1) =
    elements [0, 2] [] (tileOf (inside (job.su .in1) (job.tm .in1) 2 2)) * 8 / 100000 := by
  obtain ⟨r, hr, -⟩ := outcome_ok (show outcome (evaluate hw job) = some (17, 33, 29, 32) by decide +kernel)
  exact ⟨r, hr, input_utilization_partial ready.toMapped hr (by decide) (by decide) (valid .in1) (whole .in1) (m := buf) rfl
    (exact_plain (valid .in1) rfl _)⟩

open Classical in
/-- The register of the outputs keeps results that are final. -/
example : ∃ r, evaluate hw job = .ok r ∧ r.util (.out, 0) = elements [0, 1] [] (tileOf (inside (job.su .out) (job.tm .out) 1 1)) *
    (if Accumulates (cfg hw job false .out) (rl .out) 1 then 16 else 8 : ℕ) / 16 := by
  obtain ⟨r, hr, -⟩ := outcome_ok (show outcome (evaluate hw job) = some (17, 33, 29, 32) by decide +kernel)
  exact ⟨r, hr, output_utilization_partial ready.toMapped hr (valid .out) (whole .out) rfl (m := reg .out) rfl⟩

/-- The memory of the inputs is full; there is room for a second copy of the first input, and then not for one of the second. -/
example : ∃ r, evaluate hw5 job2 = .ok r ∧ (∀ op ∈ job2.ops, ∀ lv, lv < (hw5.levels op).length → r.utilShared (op, lv) ≤ 1) ∧
    ((both 80).holding job2 = [(.in1, 0), (.in2, 0)]) ∧ copies r.flags (.in1, 0) = 2 ∧ copies r.flags (.in2, 0) = 1 := by
  have h := filled5
  cases hr : evaluate hw5 job2 with
  | error e => rw [hr] at h; cases h
  | ok r =>
    rw [hr] at h
    have h' := Option.some.inj h
    simp only [job2, List.map_cons, List.map_nil, List.cons.injEq, List.range, List.range.loop, if_true, List.length_cons, List.length_nil,
      Prod.mk.injEq, and_true] at h'
    obtain ⟨⟨⟨-, a1, -⟩, -, a2, -⟩, ⟨⟨-, b1, b3⟩, -, b2, -⟩, ⟨-, c1, c3⟩, -, c2, -⟩ := h'
    refine ⟨r, rfl, ?_, by decide, by unfold copies; rw [if_pos b3], by unfold copies; rw [if_neg (by rw [c3]; simp)]⟩
    intro op _ lv hl
    have hl2 : lv < 2 := by cases op <;> exact hl
    interval_cases lv <;> cases op <;> simp only [a1, a2, b1, b2, c1, c2] <;> norm_num

end Verif.Evaluate
