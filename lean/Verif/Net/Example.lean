import Verif.Net.Props
import Verif.Whole.Example

/-! Concrete files for C151 and C152. -/

namespace Verif.Net

open Evaluate.Ex (rl)
open Latency (Operand)
open Whole.Ex (file layerIn user fact)

namespace Ex

theorem fileOk : FileOk file := ⟨Whole.Ex.accOk, by decide +kernel⟩

/-- The user leaves the array open, with hints for two dimensions. -/
def open' : Node Nat Nat := ⟨false, layerIn, [], [(0, [1, 2])]⟩
/-- The user fixes the unrolling. -/
def fixed : Node Nat Nat := ⟨false, { layerIn with finalPrecision := 16 }, user, []⟩
/-- A node of another kind. -/
def other : Node Nat Nat := ⟨true, layerIn, [], []⟩

theorem deliversAll (op : Operand) : ∀ m ∈ file.mems, (∀ p ∈ m.ports, (layerIn.precision op : Int) ≤ p.bwMax) ∧ (layerIn.precision op : Int) ≤ m.size := by
  cases op <;> decide +kernel

theorem innermost_mem {m : Ports.MemD Operand Nat} (h : Innermost file m) : m ∈ file.mems := by
  obtain ⟨pre, post, e, -⟩ := h
  rw [e]
  simp

theorem openOk : NodeOk file open' rl [] where
  layer := Whole.Ex.layerOk
  stored := Whole.Ex.inputOk.stored
  linked := Whole.Ex.inputOk.linked
  delivers := fun m hm op _ p hp _ => (deliversAll op m (innermost_mem hm)).1 p hp
  holds := fun m hm op _ => (deliversAll op m (innermost_mem hm)).2
  user := ⟨by unfold Dict.WF; decide, by simp [open']⟩
  whole := by simp [open']
  known := by simp [open', Dict.keys]
  order := by decide
  hints := ⟨by unfold Dict.WF; decide, by
    intro oa h hh
    have h1 := Dict.mem_of_get? hh
    simp only [open', List.mem_singleton, Prod.mk.injEq] at h1
    rw [h1.2]
    decide⟩

theorem fixedOk : NodeOk file fixed rl [] where
  layer := { Whole.Ex.layerOk with }
  stored := Whole.Ex.inputOk.stored
  linked := Whole.Ex.inputOk.linked
  delivers := fun m hm op _ p hp _ => (deliversAll op m (innermost_mem hm)).1 p hp
  holds := fun m hm op _ => (deliversAll op m (innermost_mem hm)).2
  user := Whole.Ex.inputOk.mapping.wf
  whole := Whole.Ex.inputOk.mapping.whole
  known := by decide +kernel
  order := by decide
  hints := ⟨by unfold Dict.WF; decide, by intro oa h hh; cases hh⟩

def options : Options Nat Nat := ⟨false, 3, none, ⟨fun _ l => l, fun _ l => l, fun _ l => l⟩, id, id⟩

theorem optionsOk : OptionsOk options where
  nb := by decide
  limit := by simp [options]
  order := ⟨fun _ _ => .refl _, fun _ _ => .refl _, fun _ _ => .refl _⟩
  capOrder := fun _ => .refl _
  setOrder := fun _ => .refl _

def nodes : List (Node Nat Nat) := [open', other, fixed]

theorem nodesOk : ∀ n ∈ nodes, n.skip = false → ∃ rl rels, NodeOk file n rl rels := by
  intro n hn hs
  simp only [nodes, List.mem_cons, List.not_mem_nil, or_false] at hn
  rcases hn with rfl | rfl | rfl
  · exact ⟨_, _, openOk⟩
  · cases hs
  · exact ⟨_, _, fixedOk⟩

/-- Energy, latency and number of results. -/
def report (r : Except PyErr (Reply Nat Nat)) : Option (ℚ × ℚ × Nat) :=
  match r with
  | .ok a => some (a.energy, a.latency, (a.cmes.map fun x => x.2.length).sum)
  | .error _ => none

/-- The factorizations that are asked for. -/
def few (n : Nat) : List (Nat × Nat) := if n = 2 then [(2, 1)] else if n = 4 then [(2, 2)] else []

end Ex

open Ex

/-! ### Cases that meet the hypotheses -/

/-- Three spatial mappings are generated for the first layer. -/
example : (spatialMappings options file open').toOption = some [[(0, [(1, 2)])], [(0, [(2, 2)])], [(0, [(1, 1)])]] := by decide +kernel

/-- Two of the three nodes are evaluated; the cycles are twice the bound, because half of them are for loading. -/
example : report (network (fun _ => (10, 20)) few file options "energy" nodes 30) = some (131, 32, 2) := by decide +kernel

example : ∃ N, ∀ fuel, N ≤ fuel → ∀ opt, Known opt →
    (∃ ans, network (fun _ => (10, 20)) fact file options opt nodes fuel = .ok ans) ∨
      ∃ e, network (fun _ => (10, 20)) fact file options opt nodes fuel = .error e ∧ Stopped nodes e := by
  obtain ⟨N, h⟩ := network_partial (cacti := fun _ => (10, 20)) fileOk optionsOk Lpf.factContract_primeFactorsList nodesOk
  exact ⟨N, fun fuel hf opt ho => (h fuel hf opt ho).1⟩

/-- The energy is at least that of the 32 multiplications of the two layers. -/
example : ∃ N, ∀ fuel, N ≤ fuel → ∀ opt ans, network (fun _ => (10, 20)) fact file options opt nodes fuel = .ok ans → 16 ≤ ans.energy := by
  obtain ⟨N, h⟩ := network_bounds (cacti := fun _ => (10, 20)) fileOk optionsOk Lpf.factContract_primeFactorsList nodesOk
  refine ⟨N, fun fuel hf opt ans ha => ?_⟩
  have := (h fuel hf opt ans ha).2 (by decide +kernel)
  rw [show ((nodes.filter fun n => !n.skip).map fun n => file.macEnergy * (Whole.operations n.layer : ℚ)).sum = 16 by decide +kernel] at this
  exact this

end Verif.Net
