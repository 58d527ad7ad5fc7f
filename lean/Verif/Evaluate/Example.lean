import Mathlib.Tactic.IntervalCases
import Verif.Evaluate.Roofline

/-! Concrete accelerators and layers for C135 to C140. -/

namespace Verif.Evaluate

open Cme (Dir FourWay)
open MapInfo (iters Shape)
open LayerNode (Relation Rel Layer)
open Latency (Operand Key)
open Transfer (WholeLoops)

namespace Ex

def inKeys (op : Operand) (lv : Nat) : List Key := [(op, lv, .rdToLow), (op, lv, .wrByHigh)]
def outKeys (lv : Nat) : List Key := [(.out, lv, .rdToLow), (.out, lv, .wrByHigh), (.out, lv, .wrByLow), (.out, lv, .rdToHigh)]

/-- Indices of a product of matrices, `out[0, 1] += in1[0, 2] * in2[1, 2]`. -/
def rl : Operand → List Nat
  | .in1 => [0, 2]
  | .in2 => [1, 2]
  | .out => [0, 1]

def rel : Operand → Rel Nat
  | .in1 => ⟨[0, 2], [1], []⟩
  | .in2 => ⟨[1, 2], [0], []⟩
  | .out => ⟨[0, 1], [2], []⟩

def layer (b k c : ℚ) : Layer Nat := ⟨[(0, b), (1, k), (2, c)], LayerNode.extractPr [], []⟩

/-! ### Registers, a shared memory with one read and one write port, and a main memory -/

def reg (op : Operand) : Mem := ⟨16, 1, 1, [(op, 0)], [⟨32, 32, if op = .out then outKeys 0 else inKeys op 0⟩]⟩
def buf : Mem :=
  ⟨100000, 10, 20, [(.in1, 1), (.in2, 1), (.out, 1)],
    [⟨16, 8, [(.in1, 1, .rdToLow), (.in2, 1, .rdToLow), (.out, 1, .rdToLow), (.out, 1, .rdToHigh)]⟩,
      ⟨8, 8, [(.in1, 1, .wrByHigh), (.in2, 1, .wrByHigh), (.out, 1, .wrByHigh), (.out, 1, .wrByLow)]⟩]⟩
def dram : Mem := ⟨10000000, 10, 20, [(.in1, 2), (.in2, 2), (.out, 2)], [⟨8, 8, inKeys .in1 2 ++ inKeys .in2 2 ++ outKeys 2⟩]⟩
def hw : Hw := ⟨[reg .in1, reg .in2, reg .out, buf, dram], fun o => [reg o, buf, dram], 1, 1 / 2⟩

/-- A product of a 2 x 4 and a 4 x 2 matrix. -/
def job : Job Nat :=
  { ops := [.out, .in1, .in2], inputs := [.in1, .in2], L := layer 2 2 4, rel := rel, precision := fun o => if o = .out then 16 else 8
    finalPrecision := 8, su := fun _ => [[], [], [], []], suInt := fun _ => [[], [], [], []]
    tm := fun o => if o = .out then [[(2, 4)], [(0, 2), (1, 2)], []] else [[], [(2, 4), (0, 2), (1, 2)], []], stationary := fun _ => 1
    totalCycle := 16, noAccess := false, cyclesPerOp := 1 }

/-! ### A memory shared by the inputs, next to a register of the outputs -/

def both (s : Nat) : Mem := ⟨s, 1, 1, [(.in1, 0), (.in2, 0)], [⟨64, 8, inKeys .in1 0⟩, ⟨64, 8, inKeys .in2 0⟩]⟩
def acc : Mem :=
  ⟨64, 1, 1, [(.out, 0)],
    [⟨64, 8, [(.out, 0, .rdToLow)]⟩, ⟨64, 8, [(.out, 0, .wrByLow)]⟩, ⟨64, 8, [(.out, 0, .rdToHigh)]⟩, ⟨64, 8, [(.out, 0, .wrByHigh)]⟩]⟩
def main : Mem :=
  ⟨100000, 10, 20, [(.in1, 1), (.in2, 1), (.out, 1)], [⟨64, 4, inKeys .in1 1⟩, ⟨2, 2, inKeys .in2 1⟩, ⟨64, 8, outKeys 1⟩]⟩
def hw2 : Hw := ⟨[both 64, acc, main], fun o => if o = .out then [acc, main] else [both 64, main], 1, 1 / 2⟩

/-- A product of a 2 x 2 and a 2 x 4 matrix. -/
def job2 : Job Nat :=
  { ops := [.out, .in1, .in2], inputs := [.in1, .in2], L := layer 2 4 2, rel := rel, precision := fun o => if o = .in2 then 4 else 16
    finalPrecision := 8, su := fun _ => [[], [], []], suInt := fun _ => [[], [], []]
    tm := fun _ => [[(2, 2), (1, 2), (0, 2)], [(1, 2)]], stationary := fun _ => 1, totalCycle := 16, noAccess := false, cyclesPerOp := 1 }

/-- The same with another order of the loops. -/
def job3 : Job Nat := { job2 with tm := fun _ => [[(0, 2), (1, 2), (2, 2)], [(1, 2)]] }

/-- A smaller register of the outputs that is read through a narrow port. -/
def acc3 : Mem :=
  ⟨32, 1, 1, [(.out, 0)],
    [⟨64, 8, [(.out, 0, .rdToLow)]⟩, ⟨64, 8, [(.out, 0, .wrByLow)]⟩, ⟨4, 4, [(.out, 0, .rdToHigh)]⟩, ⟨64, 8, [(.out, 0, .wrByHigh)]⟩]⟩
def hw3 : Hw := ⟨[both 64, acc3, main], fun o => if o = .out then [acc3, main] else [both 64, main], 1, 1 / 2⟩

/-! ### Six levels, where both inputs share the ports of the upper ones -/

def wide (op : Operand) : Mem := ⟨32, 1, 1, [(op, 0)], (if op = .out then outKeys 0 else inKeys op 0).map fun k => ⟨64, 8, [k]⟩⟩
def first : Mem :=
  ⟨100000, 10, 20, [(.in1, 1), (.in2, 1), (.out, 1)],
    [⟨64, 8, [(.in1, 1, .rdToLow)]⟩, ⟨64, 8, [(.in2, 1, .rdToLow)]⟩, ⟨8, 8, [(.in1, 1, .wrByHigh), (.in2, 1, .wrByHigh)]⟩, ⟨64, 8, outKeys 1⟩]⟩
def upper (i : Nat) : Mem :=
  ⟨100000, 10, 20, [(.in1, i), (.in2, i), (.out, i)],
    [⟨8, 8, [(.in1, i, .rdToLow), (.in2, i, .rdToLow)]⟩, ⟨8, 8, [(.in1, i, .wrByHigh), (.in2, i, .wrByHigh)]⟩, ⟨64, 8, outKeys i⟩]⟩
def tops : List Mem := [first, upper 2, upper 3, upper 4, upper 5]
def hw4 : Hw := ⟨[wide .in1, wide .in2, wide .out] ++ tops, fun o => wide o :: tops, 1, 1 / 2⟩

/-- A product of a 3 x c and a c x 3 matrix. -/
def job4 (c : ℚ) : Job Nat :=
  { ops := [.out, .in1, .in2], inputs := [.in1, .in2], L := layer 3 3 c, rel := rel, precision := fun _ => 8
    finalPrecision := 8, su := fun _ => List.replicate 7 [], suInt := fun _ => List.replicate 7 []
    tm := fun o => if o = .out then [[(2, c)], [(0, 3), (1, 3)], [], [], [], []] else [[], [(2, c), (0, 3), (1, 3)], [], [], [], []]
    stationary := fun _ => 1, totalCycle := 9 * c, noAccess := false, cyclesPerOp := 1 }

/-! ### A layer with one input on the first accelerator -/

/-- Sums over the last index of a 2 x 4 matrix; the only input is linked to the first memory operand. -/
def job1 : Job Nat :=
  { ops := [.out, .in1], inputs := [.in1], L := ⟨[(0, 2), (2, 4)], LayerNode.extractPr [], []⟩
    rel := fun o => if o = .out then ⟨[0], [2], []⟩ else ⟨[0, 2], [], []⟩, precision := fun o => if o = .out then 16 else 8
    finalPrecision := 8, su := fun _ => [[], [], [], []], suInt := fun _ => [[], [], [], []]
    tm := fun o => if o = .out then [[(2, 4)], [(0, 2)], []] else [[], [(2, 4), (0, 2)], []], stationary := fun _ => 1
    totalCycle := 8, noAccess := false, cyclesPerOp := 1 }

theorem built : Built hw where
  inside op := by cases op <;> decide +kernel
  numbered := by decide +kernel
  single := by decide +kernel
  served := by decide +kernel
  once := by decide +kernel
  bw := by decide +kernel
  size := by decide +kernel
  units := by decide +kernel

theorem ready : Ready hw job rl [] [(2, 4), (0, 2), (1, 2)] [] where
  built := built
  ops := by decide
  out := by decide
  inputs := by decide
  shape int op ho := by
    cases int <;> cases op <;>
      exact { names := by decide, pi := rfl, rel := rfl, index := by decide, mix := by decide, vars := by decide
              wf := by unfold Dict.WF; decide +kernel, related := by simp, dims := by decide +kernel, levels := rfl, loops := by decide +kernel }
  sizes := by simp
  whole := by
    have h : ∀ l ∈ ([(2, 4), (0, 2), (1, 2)] : List (Nat × ℚ)), l.2 = ((l.2.num.natAbs : ℕ) : ℚ) ∧ 1 ≤ l.2.num.natAbs := by decide +kernel
    exact fun l hl => ⟨_, h l hl⟩
  tm op ho := by cases op <;> decide +kernel
  stationary op ho := ⟨0, rfl⟩
  total := by decide +kernel
  array op ho := by cases op <;> rfl
  serves op ho lv m hm := by
    have h3 : lv < 3 := by
      have := (List.getElem?_eq_some_iff.1 hm).1
      cases op <;> exact this
    interval_cases lv <;> cases op <;> cases hm <;> decide +kernel
  cycles := by decide
  linked := by decide +kernel

theorem built2 : Built hw2 where
  inside op := by cases op <;> decide +kernel
  numbered := by decide +kernel
  single := by decide +kernel
  served := by decide +kernel
  once := by decide +kernel
  bw := by decide +kernel
  size := by decide +kernel
  units := by decide +kernel

theorem ready2 : Ready hw2 job2 rl [] [(2, 2), (1, 2), (0, 2), (1, 2)] [] where
  built := built2
  ops := by decide
  out := by decide
  inputs := by decide
  shape int op ho := by
    cases int <;> cases op <;>
      exact { names := by decide, pi := rfl, rel := rfl, index := by decide, mix := by decide, vars := by decide
              wf := by unfold Dict.WF; decide +kernel, related := by simp, dims := by decide +kernel, levels := rfl, loops := by decide +kernel }
  sizes := by simp
  whole := by
    have h : ∀ l ∈ ([(2, 2), (1, 2), (0, 2), (1, 2)] : List (Nat × ℚ)), l.2 = ((l.2.num.natAbs : ℕ) : ℚ) ∧ 1 ≤ l.2.num.natAbs := by
      decide +kernel
    exact fun l hl => ⟨_, h l hl⟩
  tm op ho := by cases op <;> decide +kernel
  stationary op ho := ⟨0, rfl⟩
  total := by decide +kernel
  array op ho := by cases op <;> rfl
  serves op ho lv m hm := by
    have h3 : lv < 2 := by
      have := (List.getElem?_eq_some_iff.1 hm).1
      cases op <;> exact this
    interval_cases lv <;> cases op <;> cases hm <;> decide +kernel
  cycles := by decide
  linked := by decide +kernel

theorem built3 : Built hw3 where
  inside op := by cases op <;> decide +kernel
  numbered := by decide +kernel
  single := by decide +kernel
  served := by decide +kernel
  once := by decide +kernel
  bw := by decide +kernel
  size := by decide +kernel
  units := by decide +kernel

theorem ready3 : Ready hw3 job3 rl [] [(0, 2), (1, 2), (2, 2), (1, 2)] [] where
  built := built3
  ops := by decide
  out := by decide
  inputs := by decide
  shape int op ho := by
    cases int <;> cases op <;>
      exact { names := by decide, pi := rfl, rel := rfl, index := by decide, mix := by decide, vars := by decide
              wf := by unfold Dict.WF; decide +kernel, related := by simp, dims := by decide +kernel, levels := rfl, loops := by decide +kernel }
  sizes := by simp
  whole := by
    have h : ∀ l ∈ ([(0, 2), (1, 2), (2, 2), (1, 2)] : List (Nat × ℚ)), l.2 = ((l.2.num.natAbs : ℕ) : ℚ) ∧ 1 ≤ l.2.num.natAbs := by
      decide +kernel
    exact fun l hl => ⟨_, h l hl⟩
  tm op ho := by cases op <;> decide +kernel
  stationary op ho := ⟨0, rfl⟩
  total := by decide +kernel
  array op ho := by cases op <;> rfl
  serves op ho lv m hm := by
    have h3 : lv < 2 := by
      have := (List.getElem?_eq_some_iff.1 hm).1
      cases op <;> exact this
    interval_cases lv <;> cases op <;> cases hm <;> decide +kernel
  cycles := by decide
  linked := by decide +kernel

theorem built4 : Built hw4 where
  inside op := by cases op <;> decide +kernel
  numbered := by decide +kernel
  single := by decide +kernel
  served := by decide +kernel
  once := by decide +kernel
  bw := by decide +kernel
  size := by decide +kernel
  units := by decide +kernel

theorem ready6 : Ready hw4 (job4 6) rl [] [(2, 6), (0, 3), (1, 3)] [] where
  built := built4
  ops := by decide
  out := by decide
  inputs := by decide
  shape int op ho := by
    cases int <;> cases op <;>
      exact { names := by decide, pi := rfl, rel := rfl, index := by decide, mix := by decide, vars := by decide
              wf := by unfold Dict.WF; decide +kernel, related := by simp, dims := by decide +kernel, levels := rfl, loops := by decide +kernel }
  sizes := by simp
  whole := by
    have h : ∀ l ∈ ([(2, 6), (0, 3), (1, 3)] : List (Nat × ℚ)), l.2 = ((l.2.num.natAbs : ℕ) : ℚ) ∧ 1 ≤ l.2.num.natAbs := by
      decide +kernel
    exact fun l hl => ⟨_, h l hl⟩
  tm op ho := by cases op <;> decide +kernel
  stationary op ho := ⟨0, rfl⟩
  total := by decide +kernel
  array op ho := by cases op <;> rfl
  serves op ho lv m hm := by
    have h3 : lv < 6 := by
      have := (List.getElem?_eq_some_iff.1 hm).1
      cases op <;> exact this
    interval_cases lv <;> cases op <;> cases hm <;> decide +kernel
  cycles := by decide
  linked := by decide +kernel

theorem ready8 : Ready hw4 (job4 8) rl [] [(2, 8), (0, 3), (1, 3)] [] where
  built := built4
  ops := by decide
  out := by decide
  inputs := by decide
  shape int op ho := by
    cases int <;> cases op <;>
      exact { names := by decide, pi := rfl, rel := rfl, index := by decide, mix := by decide, vars := by decide
              wf := by unfold Dict.WF; decide +kernel, related := by simp, dims := by decide +kernel, levels := rfl, loops := by decide +kernel }
  sizes := by simp
  whole := by
    have h : ∀ l ∈ ([(2, 8), (0, 3), (1, 3)] : List (Nat × ℚ)), l.2 = ((l.2.num.natAbs : ℕ) : ℚ) ∧ 1 ≤ l.2.num.natAbs := by
      decide +kernel
    exact fun l hl => ⟨_, h l hl⟩
  tm op ho := by cases op <;> decide +kernel
  stationary op ho := ⟨0, rfl⟩
  total := by decide +kernel
  array op ho := by cases op <;> rfl
  serves op ho lv m hm := by
    have h3 : lv < 6 := by
      have := (List.getElem?_eq_some_iff.1 hm).1
      cases op <;> exact this
    interval_cases lv <;> cases op <;> cases hm <;> decide +kernel
  cycles := by decide
  linked := by decide +kernel

theorem mapped1 : Mapped hw job1 (fun o => if o = .out then [0] else [0, 2]) [] [(2, 4), (0, 2)] [] where
  built := built
  ops := by decide
  out := by decide
  inputs := by decide
  shape int op ho := by
    rcases (by simpa [job1] using ho : op = .out ∨ op = .in1) with rfl | rfl <;> cases int <;>
      exact { names := by decide, pi := rfl, rel := rfl, index := by decide, mix := by decide, vars := by decide
              wf := by unfold Dict.WF; decide +kernel, related := by simp, dims := by decide +kernel, levels := rfl, loops := by decide +kernel }
  sizes := by simp
  whole := by
    have h : ∀ l ∈ ([(2, 4), (0, 2)] : List (Nat × ℚ)), l.2 = ((l.2.num.natAbs : ℕ) : ℚ) ∧ 1 ≤ l.2.num.natAbs := by decide +kernel
    exact fun l hl => ⟨_, h l hl⟩
  tm op ho := by cases op <;> decide +kernel
  stationary op ho := ⟨0, rfl⟩
  total := by decide +kernel
  array op ho := by cases op <;> rfl
  serves op ho := ready.serves op (by cases op <;> decide)
  cycles := by decide

end Ex
open Ex

/-- What is reported, as numbers: stall and the three latencies. -/
def outcome (r : Except PyErr Result) : Option (ℤ × ℚ × ℚ × ℚ) :=
  match r with
  | .ok r => some (r.stall, r.overall.latency0, r.overall.latency1, r.overall.latency2)
  | .error _ => none

theorem outcome_ok {x : Except PyErr Result} {a : ℤ} {b c d : ℚ} (h : outcome x = some (a, b, c, d)) : ∃ r, x = .ok r ∧ r.stall = a ∧
    r.overall.latency0 = b ∧ r.overall.latency1 = c ∧ r.overall.latency2 = d := by
  cases x with
  | error e => cases h
  | ok r =>
    simp only [outcome, Option.some.injEq, Prod.mk.injEq] at h
    exact ⟨r, rfl, h⟩

/-- The write port of the shared memory gets 16 bits instead of 8. -/
def wider (p : Port) : Nat := if p.served = (buf.ports.getLast (by decide)).served then 16 else p.bwMax

/-- C136 does not hold for the whole latency: with a wider write port of a memory that all operands share, an evaluation reports 36 cycles instead
of 32, because the loading of both inputs is taken to overlap less. -/
theorem bandwidth_false : ∃ (h : Hw) (j : Job Nat) (rl : Operand → List Nat) (loops : List (Nat × ℚ)) (f : Port → Nat) (r r' : Result),
    Ready h j rl [] loops [] ∧ (∀ p ∈ h.ports, p.bwMax ≤ f p) ∧ evaluate h j = .ok r ∧ evaluate (h.widen f) j = .ok r' ∧
    r.overall.latency2 < r'.overall.latency2 := by
  obtain ⟨r, hr, -, -, -, h1⟩ := outcome_ok (show outcome (evaluate hw job) = some (17, 33, 29, 32) by decide +kernel)
  obtain ⟨r', hr', -, -, -, h2⟩ := outcome_ok (show outcome (evaluate (hw.widen wider) job) = some (17, 33, 33, 36) by decide +kernel)
  exact ⟨hw, job, rl, _, wider, r, r', ready, by decide +kernel, hr, hr', by rw [h1, h2]; norm_num⟩

/-- C138 does not hold in general: the latency with the loading of the inputs (29 cycles) is below the latency without it (33 cycles), since the
loading of two inputs through one port is reported as a negative number of cycles. -/
theorem ordered_false : ∃ (h : Hw) (j : Job Nat) (rl : Operand → List Nat) (loops : List (Nat × ℚ)) (r : Result),
    Ready h j rl [] loops [] ∧ evaluate h j = .ok r ∧ r.overall.latency1 < r.overall.latency0 := by
  obtain ⟨r, hr, -, h0, h1, -⟩ := outcome_ok (show outcome (evaluate hw job) = some (17, 33, 29, 32) by decide +kernel)
  exact ⟨hw, job, rl, _, r, ready, hr, by rw [h0, h1]; norm_num⟩

/-- C138: the reported latency may even be negative: a product of a 3 x 8 and an 8 x 3 matrix on an accelerator with six levels, which takes 72
cycles of computation, is reported to take -6 cycles altogether. -/
theorem latency_negative_false : ∃ (h : Hw) (j : Job Nat) (rl : Operand → List Nat) (loops : List (Nat × ℚ)) (r : Result),
    Ready h j rl [] loops [] ∧ evaluate h j = .ok r ∧ r.overall.latency0 = 72 ∧ r.overall.latency2 < 0 := by
  obtain ⟨r, hr, -, h0, -, h2⟩ := outcome_ok (show outcome (evaluate hw4 (job4 8)) = some (0, 72, -11, -6) by decide +kernel)
  exact ⟨hw4, job4 8, rl, _, r, ready8, hr, h0, by rw [h2]; norm_num⟩

/-- C135: with 6 instead of 8 the negative loading cancels the computation exactly, and the evaluation raises `ZeroDivisionError`. -/
theorem cancelled_crash : ∃ (h : Hw) (j : Job Nat) (rl : Operand → List Nat) (loops : List (Nat × ℚ)),
    Ready h j rl [] loops [] ∧ evaluate h j = .error .zeroDivision := by
  refine ⟨hw4, job4 6, rl, _, ready6, ?_⟩
  have h : (match evaluate hw4 (job4 6) with
      | .error e => decide (e = .zeroDivision)
      | .ok _ => false) = true := by decide +kernel
  cases he : evaluate hw4 (job4 6) with
  | ok r => rw [he] at h; cases h
  | error e => rw [he] at h; simp only [decide_eq_true_eq] at h; rw [h]

/-- The memory of the inputs gets 80 bits instead of 64. -/
def larger (m : Mem) : Nat := if m = both 64 then 80 else m.size

/-- C137 does not hold for a memory that is shared: with 80 instead of 64 bits an evaluation reports 4 stall cycles instead of none and 29 cycles
instead of 25.  The first operand of the list is double buffered in the additional room, and the second, which was double buffered before, no
longer is. -/
theorem size_false : ∃ (h : Hw) (j : Job Nat) (rl : Operand → List Nat) (loops : List (Nat × ℚ)) (f : Mem → Nat) (r r' : Result),
    Ready h j rl [] loops [] ∧ (∀ m ∈ h.mems, m.size ≤ f m) ∧ evaluate h j = .ok r ∧ evaluate (h.resize f) j = .ok r' ∧
    r.stall < r'.stall ∧ r.overall.latency2 < r'.overall.latency2 := by
  obtain ⟨r, hr, s1, -, -, h1⟩ := outcome_ok (show outcome (evaluate hw2 job2) = some (0, 16, 24, 25) by decide +kernel)
  obtain ⟨r', hr', s2, -, -, h2⟩ := outcome_ok (show outcome (evaluate (hw2.resize larger) job2) = some (4, 20, 28, 29) by decide +kernel)
  exact ⟨hw2, job2, rl, _, larger, r, r', ready2, by decide +kernel, hr, hr', by rw [s1, s2]; norm_num, by rw [h1, h2]; norm_num⟩


/-! ### Cases that meet the hypotheses -/

example : ∃ p ∈ hw.ports, ∃ k ∈ p.served, k.1 ∉ job1.ops := by decide +kernel

/-- A layer with one input, mapped to the first accelerator, is not evaluated. -/
example : evaluate hw job1 = .error .keyError :=
  missing_operand_crash mapped1 (p := ⟨32, 32, inKeys .in2 0⟩) (k := (.in2, 0, .rdToLow)) (by decide +kernel) (by decide +kernel) (by decide)

theorem Ex.separate2 : Separate hw2 job2 := by
  intro it hit
  have h : (match mapping hw2 job2 true with
      | .ok it => decide (∀ p ∈ hw2.ports, (Latency.once (info hw2 job2 it 0) ⟨p.bwMax, p.served⟩).length ≤ 1)
      | .error _ => false) = true := by decide +kernel
  rw [hit] at h
  simpa using h

example : ∃ r, evaluate hw2 job2 = .ok r ∧ r.overall.latency0 ≤ r.overall.latency1 := by
  obtain ⟨r, hr, -, -, -, h, -⟩ := ordered_partial ready2 separate2
  exact ⟨r, hr, h⟩

/-- A wider port of the main memory for the second input. -/
def Ex.wide2 (p : Port) : Nat := if p.bwMax = 2 then 4 else p.bwMax

example : outcome (evaluate (hw2.resize larger) job2) = some (4, 20, 28, 29) ∧
    outcome (evaluate ((hw2.resize larger).widen wide2) job2) = some (0, 16, 20, 21) := by decide +kernel
example : Ready (hw2.resize larger) job2 rl [] [(2, 2), (1, 2), (0, 2), (1, 2)] [] ∧ ∀ p ∈ (hw2.resize larger).ports, p.bwMax ≤ wide2 p :=
  ⟨ready2.resize (by decide +kernel), by decide +kernel⟩

/-- Memory energy and total energy as they are reported. -/
def energies (r : Except PyErr Result) : Option (ℚ × ℚ) :=
  match r with
  | .ok r => some (r.energy.mem, r.energy.total)
  | .error _ => none

example : (hw2.resize larger).Priced := by unfold Hw.Priced; decide +kernel
example : energies (evaluate (hw2.resize larger) job2) = some (217, 225) := by decide +kernel
example : energies (evaluate ((hw2.resize larger).widen wide2) job2) = some (137, 145) := by decide +kernel
example : energies (evaluate (hw2.price (fun m => (3 * m.readEnergy, 3 * m.writeEnergy)) (3 * hw2.macEnergy)) job2) = some (651, 675) := by decide +kernel

/-- The cycles that the ports need for their transfers. -/
def Ex.portTimes (h : Hw) (j : Job Nat) : Option (List ℚ) :=
  match mapping h j true with
  | .ok it => some (h.ports.map (portTime it))
  | .error _ => none

/-- The second accelerator with ports of one bit. -/
def Ex.narrow : Hw := hw2.widen fun _ => 1

theorem Ex.builtNarrow : Built narrow where
  inside op := by cases op <;> decide +kernel
  numbered := by decide +kernel
  single := by decide +kernel
  served := by decide +kernel
  once := by decide +kernel
  bw := by decide +kernel
  size := by decide +kernel
  units := by decide +kernel

theorem Ex.readyNarrow : Ready narrow job2 rl [] [(2, 2), (1, 2), (0, 2), (1, 2)] [] where
  built := builtNarrow
  ops := by decide
  out := by decide
  inputs := by decide
  shape int op ho := by
    cases int <;> cases op <;>
      exact { names := by decide, pi := rfl, rel := rfl, index := by decide, mix := by decide, vars := by decide
              wf := by unfold Dict.WF; decide +kernel, related := by simp, dims := by decide +kernel, levels := rfl, loops := by decide +kernel }
  sizes := by simp
  whole := by
    have h : ∀ l ∈ ([(2, 2), (1, 2), (0, 2), (1, 2)] : List (Nat × ℚ)), l.2 = ((l.2.num.natAbs : ℕ) : ℚ) ∧ 1 ≤ l.2.num.natAbs := by
      decide +kernel
    exact fun l hl => ⟨_, h l hl⟩
  tm op ho := by cases op <;> decide +kernel
  stationary op ho := ⟨0, rfl⟩
  total := by decide +kernel
  array op ho := by cases op <;> rfl
  serves op ho lv m hm := by
    have h3 : lv < 2 := by
      have := (List.getElem?_eq_some_iff.1 hm).1
      cases op <;> exact this
    interval_cases lv <;> cases op <;> cases hm <;> decide +kernel
  cycles := by decide
  linked := by decide +kernel

/-- The busiest port needs 304 cycles, which is the latency, where the computation takes 16; with the wider ports it needs 16 of the 20 cycles. -/
example : portTimes narrow job2 = some [304, 76, 240, 240, 32, 0, 64, 16, 32] ∧ outcome (evaluate narrow job2) = some (288, 304, 368, 400) ∧
    portTimes (hw2.resize larger) job2 = some [16, 16, 15, 15, 1, 0, 1, 8, 1] ∧
    outcome (evaluate (hw2.resize larger) job2) = some (4, 20, 28, 29) := by decide +kernel

example : ∃ r it, evaluate narrow job2 = .ok r ∧ mapping narrow job2 true = .ok it ∧ ∀ p ∈ narrow.ports, portTime it p ≤ r.overall.latency0 := by
  obtain ⟨r, hr, -⟩ := outcome_ok (show outcome (evaluate narrow job2) = some (288, 304, 368, 400) by decide +kernel)
  obtain ⟨it, hit, h1, -⟩ := roofline readyNarrow hr
  exact ⟨r, it, hr, hit, h1⟩

/-- A larger register of the outputs. -/
def Ex.dbl (m : Mem) : Nat := if m.holds = [(.out, 0)] then 64 else m.size

example : outcome (evaluate hw3 job3) = some (4, 20, 28, 36) ∧ outcome (evaluate (hw3.resize dbl) job3) = some (0, 16, 24, 32) := by
  decide +kernel
example : (∀ m ∈ hw3.mems, m.size ≤ dbl m) ∧ ∀ m ∈ hw3.mems, dbl m ≠ m.size → m.holds.length ≤ 1 := by decide +kernel

end Verif.Evaluate
