import Mathlib.Tactic.IntervalCases
import Verif.Whole.Fit
import Verif.Whole.Energy
import Verif.Search.Example

/-! Concrete files for C147 to C149. -/

namespace Verif.Whole

open Conversion (Divides)
open Evaluate (Separate)
open Evaluate.Ex (rl rel layer)
open Latency (Operand)
open Ports (MemD PortD)
open SpatialMapping (SM)
open Search (mapOrder)

namespace Ex

/-- A memory of every unit for inputs, a register of every unit for outputs, and a main memory for the whole array. -/
def inputsMem : MemD Operand Nat :=
  { size := 40, auto := false, rCost := some 1, wCost := some 1, area := some 0, operands := [.in1, .in2], served := []
    ports := [⟨"r1", .read, 8, 64, [(.in1, .rdLow), (.in2, .rdLow)]⟩, ⟨"w1", .write, 8, 64, [(.in1, .wrHigh)]⟩, ⟨"w2", .write, 8, 64, [(.in2, .wrHigh)]⟩,
      ⟨"w3", .write, 8, 64, []⟩] }
def outReg : MemD Operand Nat :=
  { size := 64, auto := false, rCost := some 1, wCost := some 1, area := some 0, operands := [.out], served := []
    ports := [⟨"r1", .read, 8, 64, [(.out, .rdLow)]⟩, ⟨"r2", .read, 8, 64, [(.out, .rdHigh)]⟩, ⟨"w1", .write, 8, 64, [(.out, .wrLow)]⟩,
      ⟨"w2", .write, 8, 64, [(.out, .wrHigh)]⟩] }
def mainMem : MemD Operand Nat :=
  { size := 100000, auto := false, rCost := some 10, wCost := some 20, area := none, operands := [.in1, .in2, .out], served := [0]
    ports := [⟨"rw1", .readWrite, 8, 64, [(.in1, .rdLow), (.in1, .wrHigh)]⟩, ⟨"rw2", .readWrite, 8, 64, [(.in2, .rdLow), (.in2, .wrHigh)]⟩,
      ⟨"rw3", .readWrite, 8, 64, [(.out, .rdLow), (.out, .rdHigh), (.out, .wrLow), (.out, .wrHigh)]⟩] }

def file : AccD Nat := ⟨[inputsMem, outReg, mainMem], [(0, 2)], 1 / 2⟩

theorem memOk : ∀ m ∈ file.mems, MemOk m := by
  intro m hm
  simp only [file, List.mem_cons, List.not_mem_nil, or_false] at hm
  rcases hm with rfl | rfl | rfl
  · exact ⟨by decide +kernel, by decide +kernel, by
      have h : ∀ p ∈ inputsMem.ports, ∀ q ∈ inputsMem.ports, ∀ a ∈ p.alloc, a ∈ q.alloc → p = q := by decide +kernel
      exact fun p hp q hq a ha => h p hp q hq a ha, by decide +kernel, by decide +kernel, by decide +kernel⟩
  · exact ⟨by decide +kernel, by decide +kernel, by
      have h : ∀ p ∈ outReg.ports, ∀ q ∈ outReg.ports, ∀ a ∈ p.alloc, a ∈ q.alloc → p = q := by decide +kernel
      exact fun p hp q hq a ha => h p hp q hq a ha, by decide +kernel, by decide +kernel, by decide +kernel⟩
  · exact ⟨by decide +kernel, by decide +kernel, by
      have h : ∀ p ∈ mainMem.ports, ∀ q ∈ mainMem.ports, ∀ a ∈ p.alloc, a ∈ q.alloc → p = q := by decide +kernel
      exact fun p hp q hq a ha => h p hp q hq a ha, by decide +kernel, by decide +kernel, by decide +kernel⟩

theorem accOk : AccOk file where
  mems := memOk
  aligned op := Hierarchy.aligned_of_two _ _ (by cases op <;> decide +kernel)
  declared := by
    intro pre m post h
    have hl : pre.length < 3 := by
      have := congrArg List.length h
      simp [file] at this
      omega
    rcases pre with _ | ⟨x, _ | ⟨y, _ | ⟨z, pre⟩⟩⟩
    · cases h
      decide +kernel
    · cases h
      decide +kernel
    · cases h
      decide +kernel
    · simp only [List.length_cons] at hl
      omega
  units := by decide
  dims := by unfold Dict.WF; decide

/-- A product of a 2 x 2 and a 2 x 4 matrix. -/
def layerIn : LayerIn Nat :=
  { ops := [.out, .in1, .in2], inputs := [.in1, .in2], L := layer 2 4 2, rel := rel, precision := fun o => if o = .in2 then 4 else 16
    finalPrecision := 8, noAccess := false, cyclesPerOp := 1, even := false }

theorem layerOk : LayerOk layerIn rl [] where
  ops := by decide
  out := by decide
  inputs := by decide
  names := by decide
  pi := rfl
  wf := by unfold Dict.WF; decide +kernel
  some := by simp [layerIn, layer]
  whole := by
    have h : ∀ e ∈ layerIn.L.dimSizes, e.2 = ((e.2.num.natAbs : ℕ) : ℚ) ∧ 1 ≤ e.2.num.natAbs := by decide +kernel
    exact fun e he => ⟨_, (h e he).2, (h e he).1⟩
  related := by simp
  sizes := by simp
  rel op ho := by cases op <;> rfl
  index op ho := by cases op <;> decide
  mix op ho := by cases op <;> decide
  vars op ho := by cases op <;> decide
  dims op ho := by cases op <;> decide +kernel
  cycles := by decide

/-- The columns of the second matrix over two units. -/
def user : SM Nat Nat := [(0, [(1, 2)])]

theorem inputOk : InputOk file layerIn user rl [] where
  acc := accOk
  layer := layerOk
  stored op ho := by cases op <;> decide +kernel
  linked := by decide +kernel
  mapping :=
    { wf := ⟨by unfold Dict.WF; decide, by unfold Dict.WF; decide +kernel⟩
      whole := by
        have h : ∀ e ∈ user, ∀ x ∈ e.2, x.2 = ((x.2.num.natAbs : ℕ) : ℚ) ∧ 1 ≤ x.2.num.natAbs := by decide +kernel
        exact fun e he x hx => ⟨_, (h e he x hx).2, (h e he x hx).1⟩
      fits := by
        intro e he
        simp only [user, List.mem_singleton] at he
        subst he
        exact ⟨2, by decide +kernel, by decide +kernel⟩
      covers := by
        have h : ∀ x ∈ layerIn.sizes, (user.map fun e => SpatialMapping.factor e.2 x.1).prod ≤ (x.2 : ℚ) := by decide +kernel
        exact fun d L hd => h _ (Dict.mem_of_get? hd) }
  array := by
    intro e he s hs
    simp only [user, List.mem_singleton] at he
    subst he
    cases (show Dict.get? file.sizes 0 = some 2 by decide +kernel).symm.trans hs
    decide +kernel

theorem divides : Divides layerIn.sizes user := by
  have h : ∀ x ∈ layerIn.sizes, (user.map fun e => SpatialMapping.factor e.2 x.1).prod *
      (((x.2 : ℚ) / (user.map fun e => SpatialMapping.factor e.2 x.1).prod).num.natAbs : ℕ) = (x.2 : ℚ) := by decide +kernel
  exact fun d L hd => ⟨_, h _ (Dict.mem_of_get? hd)⟩

def fact (n : Nat) : List (Nat × Nat) := n.primeFactorsList.dedup.map (fun p => (p, n.primeFactorsList.count p))

/-- The number of evaluations, the exception at the end, and for every evaluation the latency, the utilization of the units and of a memory. -/
def report (r : Option (List (Evaluate.Job Nat × Evaluate.Result) × Option PyErr)) : Option (Nat × Option PyErr × List (ℚ × ℚ × ℚ)) :=
  r.map fun r => (r.1.length, r.2, r.1.map fun e => (e.2.overall.latency2, e.2.overall.spatialUtil, e.2.utilShared (.in1, 0)))

end Ex

open Ex

/-- C147: a file that the validator accepts but for which no accelerator is built: costs are to be extracted automatically for a memory that is only written,
and the extraction needs the width of a port for reading. -/
theorem write_only_crash : ∃ a : AccD Nat, (∀ m ∈ a.mems, Ports.validateMem (a.sizes.map Prod.fst) m = true) ∧
    ∀ cacti, accelerator cacti a = .error .valueError :=
  ⟨⟨[inputsMem, { outReg with auto := true, ports := [⟨"w1", .write, 8, 64, [(.out, .wrLow)]⟩] }], [(0, 2)], 1⟩, by decide +kernel, fun _ => by rfl⟩

/-! ### Cases that meet the hypotheses -/

/-- All six orders of the loops are evaluated; both units work in every cycle, and in five of them the memory of the inputs is full. -/
example : report (run (fun _ => (10, 20)) (fun n => if n = 2 then [(2, 1)] else []) file layerIn user none 30) = 
    some (6, none, [(16, 1, 1), (16, 1, 1), (16, 1, 1), (16, 1, 4 / 5), (16, 1, 1), (16, 1, 1)]) := by
  decide +kernel

example : ∃ c N, accelerator (fun _ => (10, 20)) file = .ok c ∧ ∀ fuel, N ≤ fuel → ∃ evals err,
    run (fun _ => (10, 20)) fact file layerIn user none fuel = some (evals, err) ∧ ∀ e ∈ evals,
      (∀ op ∈ layerIn.ops, ∀ lv, lv < (file.mems.filter fun m => decide (op ∈ m.operands)).length → e.2.utilShared (op, lv) ≤ 1) ∧
      ∀ m ∈ c.hw.mems, ((m.holding e.1).map fun p => Evaluate.copies e.2.flags p * Evaluate.inUse e.1 e.2.util m.size p).sum ≤ 1 :=
  run_fits inputOk divides (by decide) rfl fact Lpf.factContract_primeFactorsList none (by simp) (Or.inl (by decide))

example : ∃ c N, accelerator (fun _ => (10, 20)) file = .ok c ∧ ∀ fuel, N ≤ fuel → ∃ evals err,
    run (fun _ => (10, 20)) fact file layerIn user none fuel = some (evals, err) ∧ ∀ e ∈ evals, (16 : ℚ) ≤ 2 * e.2.overall.latency0 := by
  obtain ⟨c, N, h1, h2⟩ := run_utilization (cacti := fun _ => (10, 20)) inputOk fact Lpf.factContract_primeFactorsList none (by simp) (Or.inl (by decide))
  refine ⟨c, N, h1, fun fuel hf => ?_⟩
  obtain ⟨evals, err, h3, h4⟩ := h2 fuel hf
  refine ⟨evals, err, h3, fun e he => ?_⟩
  have h := (h4 e he).1
  rw [show operations layerIn = 16 by decide +kernel, show Hierarchy.totalUnits file.sizes = 2 by decide +kernel,
    show layerIn.cyclesPerOp = 1 from rfl] at h
  norm_num at h ⊢
  exact h

/-- The energy is that of the 16 multiplications and of the words that are moved: of a word written to the register of the outputs at 1, of a word read from the main memory
at 10. -/
example : ∃ N, ∀ fuel, N ≤ fuel → ∃ evals err, run (fun _ => (10, 20)) fact file layerIn user none fuel = some (evals, err) ∧ ∀ e ∈ evals,
    e.2.energy.total = 1 / 2 * 16 + (e.2.energy.access.map fun x => bill (storing file x.1) x.2).sum := by
  obtain ⟨N, h⟩ := run_paid (cacti := fun _ => (10, 20)) inputOk (by decide) fact Lpf.factContract_primeFactorsList none (by simp) (Or.inl (by decide))
  refine ⟨N, fun fuel hf => ?_⟩
  obtain ⟨evals, err, h1, h2⟩ := h fuel hf
  refine ⟨evals, err, h1, fun e he => ?_⟩
  rw [(h2 e he).2, show operations layerIn = 16 by decide +kernel]
  rfl

example : bill (storing file .out) [⟨0, 0, 3, 2⟩, ⟨1, 0, 0, 2⟩] = 5 + 50 := by decide +kernel

/-- The unrolling is kept. -/
example : Conversion.convert file.sizes layerIn.sizes user = .ok (user, user) :=
  (Conversion.convert_kept inputOk.mapping divides).trans (by rw [show Conversion.clean layerIn.sizes user = user by decide +kernel])

end Verif.Whole
