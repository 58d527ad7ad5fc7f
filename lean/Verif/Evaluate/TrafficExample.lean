import Verif.Evaluate.Example
import Verif.Evaluate.Traffic

/-! Cases for C142. -/

namespace Verif.Evaluate

open Cme (Dir FourWay)
open MapInfo
open Latency (Operand Key)

namespace Ex

theorem valid (op : Operand) : Valid (cfg hw job false op) (rl op) [] where
  toShape := ready.shape false op (by cases op <;> decide)
  cover d s hs := by
    have h : ∀ e ∈ ([(0, 2), (1, 2), (2, 4)] : List (Nat × ℚ)), ∀ o ∈ [Operand.in1, .in2, .out],
        extent e.1 ((job.tm o).flatten ++ (job.su o).flatten) = e.2 := by decide +kernel
    exact h (d, s) (Dict.mem_of_get? hs) op (by cases op <;> decide)

theorem whole (op : Operand) : Whole (cfg hw job false op) := by
  have h : ∀ o ∈ [Operand.in1, .in2, .out], ∀ l ∈ (job.tm o).flatten ++ (job.su o).flatten, l.2 = ((l.2.num.natAbs : ℕ) : ℚ) := by decide +kernel
  exact fun l hl => ⟨_, h op (by cases op <;> decide) l hl⟩

/-- The accesses that are reported, for reading to and writing by the level below, reading to and writing by the level above. -/
def accesses (r : Except PyErr Result) : Option (List (List (ℚ × ℚ × ℚ × ℚ))) :=
  match r with
  | .ok r => some (r.energy.access.map fun e => e.2.map fun a => (a.rdToLow, a.wrByLow, a.rdToHigh, a.wrByHigh))
  | .error _ => none

end Ex

open Ex

/-- C142 does not hold for partial sums that are read back: a register of which each access holds one result gets 16 results, of which 4 are the
first of an output element; 12 are read back, as the data movement of the mapping says, but the evaluation counts, and charges the energy of, 16
reads. -/
theorem psum_reads_false : ∃ (h : Hw) (j : Job Nat) (rl : Operand → List Nat) (loops : List (Nat × ℚ)) (r : Result) (acc : List FourWay) (a : FourWay)
    (i : OpInfo Nat) (q : Pattern) (m : Mem) (p : Port), Ready h j rl [] loops [] ∧ evaluate h j = .ok r ∧
    r.energy.access.get? Operand.out = some acc ∧ acc[0]? = some a ∧ opInfo (cfg h j false .out) true = .ok i ∧ i.moves[0]? = some q ∧
    (h.levels .out)[0]? = some m ∧ p ∈ m.ports ∧ (Operand.out, 0, Dir.rdToLow) ∈ p.served ∧
    q.moves.rdToLow = 12 ∧ words p (j.precision .out) q.moves.rdToLow = 12 ∧ a.rdToLow = 16 := by
  have h2 : (match evaluate hw job with
      | .ok r => match r.energy.access.get? Operand.out with
        | some acc => acc[0]?.map FourWay.rdToLow
        | none => none
      | .error _ => none) = some 16 := by decide +kernel
  have h3 : (match opInfo (cfg hw job false .out) true with
      | .ok i => i.moves[0]?.map fun q => q.moves.rdToLow
      | .error _ => none) = some 12 := by decide +kernel
  cases hr : evaluate hw job with
  | error e => rw [hr] at h2; cases h2
  | ok r =>
    rw [hr] at h2
    simp only at h2
    cases ha : r.energy.access.get? Operand.out with
    | none => rw [ha] at h2; cases h2
    | some acc =>
      rw [ha] at h2
      obtain ⟨a, ha1, ha2⟩ := Option.map_eq_some_iff.1 h2
      cases hi : opInfo (cfg hw job false .out) true with
      | error e => rw [hi] at h3; cases h3
      | ok i =>
        rw [hi] at h3
        obtain ⟨q, hq1, hq2⟩ := Option.map_eq_some_iff.1 h3
        refine ⟨hw, job, rl, _, r, acc, a, i, q, reg .out, ⟨32, 32, outKeys 0⟩, ready, hr, ha, ha1, hi, hq1, rfl, ?_, ?_, hq2, ?_, ha2⟩
        · exact List.mem_singleton.2 rfl
        · decide
        · rw [hq2]; decide +kernel

/-! ### Cases that meet the hypotheses -/

example : accesses (evaluate hw job) = some [[(16, 16, 4, 0), (0, 4, 2, 0), (0, 4, 0, 0)], [(16, 0, 0, 16), (8, 0, 0, 8), (8, 0, 0, 0)],
    [(16, 0, 0, 16), (8, 0, 0, 8), (8, 0, 0, 0)]] := by decide +kernel

/-- Results are accumulated outside the register, and not outside the memories. -/
example : Accumulates (cfg hw job false .out) (rl .out) 0 ∧ ¬ Accumulates (cfg hw job false .out) (rl .out) 1 := by
  constructor
  · have : ∃ l ∈ outside (job.su .out) (job.tm .out) 0 1, l.1 ∉ rl .out ∧ 1 < l.2 := by decide +kernel
    exact this
  · rintro ⟨l, hl, h1, h2⟩
    have : ∀ l ∈ outside (job.su .out) (job.tm .out) 1 2, ¬ (l.1 ∉ rl .out ∧ 1 < l.2) := by decide +kernel
    exact this l hl ⟨h1, h2⟩

example : ∃ r acc row a, evaluate hw job = .ok r ∧ r.energy.access.get? Operand.in1 = some acc ∧ r.energy.breakdown.get? Operand.in1 = some row ∧
    acc[1]? = some a ∧ row[1]? = some ((a.rdToLow + a.rdToHigh) * 10 + (a.wrByLow + a.wrByHigh) * 20) := by
  obtain ⟨r, hr, -⟩ := outcome_ok (show outcome (evaluate hw job) = some (17, 33, 29, 32) by decide +kernel)
  obtain ⟨acc, row, a, h1, h2, h3, h4, -⟩ := input_accesses_partial ready.toMapped hr (op := .in1) (by decide) (by decide) (valid _) (whole _) rfl
    (lv := 1) (m := buf) rfl (Or.inl rfl)
  exact ⟨r, acc, row, a, hr, h1, h2, h3, h4⟩

example : ∃ r acc a, evaluate hw job = .ok r ∧ r.energy.access.get? Operand.out = some acc ∧ acc[2]? = some a ∧ a.rdToHigh = 0 ∧ a.wrByHigh = 0 := by
  obtain ⟨r, hr, -⟩ := outcome_ok (show outcome (evaluate hw job) = some (17, 33, 29, 32) by decide +kernel)
  obtain ⟨acc, row, a, h1, -, h3, -, -, -, -, h, -⟩ := output_accesses_partial ready.toMapped hr (valid _) (whole _) rfl (lv := 2) (m := dram) rfl
  exact ⟨r, acc, a, hr, h1, h3, h rfl⟩

end Verif.Evaluate
