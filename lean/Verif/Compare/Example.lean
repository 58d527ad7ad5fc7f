import Verif.Compare.Layers
import Verif.Compare.Files

/-! Calls whose answers do not compare as one would expect (C156 to C160). -/

namespace Verif.Compare.Ex

open Evaluate.Ex (rl)
open Net (Node Options FileOk NodeOk OptionsOk)
open Whole (AccD)

/-- The files of a call fit together. -/
structure Sound (a : AccD Nat) (o : Options Nat Nat) (nodes : List (Node Nat Nat)) : Prop where
  file : FileOk a
  options : OptionsOk o
  nodes : ∀ n ∈ nodes, NodeOk a n rl []
  factors : Lpf.FactContract quick

theorem sound {a : AccD Nat} {nb : Nat} {limit : Option Nat} {setOrder : List Nat → List Nat} {nodes : List (Node Nat Nat)} (h1 : FileC a) (h2 : 1 ≤ nb)
    (h3 : ∀ k, limit = some k → 1 ≤ k) (h4 : ∀ l, (setOrder l).Perm l) (h5 : ∀ n ∈ nodes, NodeOk a n rl []) : Sound a (opts nb limit setOrder) nodes :=
  ⟨fileC h1, optsOk h2 h3 h4, h5, quickOk⟩

/-- A layer of 2 × 2 × 4 with numbers of 4 and 16 bits. -/
def wide : Node Nat Nat := node (2, 2, 4) mixedP 8 [] []
/-- The same layer with numbers of 1 bit. -/
def thin : Node Nat Nat := node (2, 2, 4) bit 1 [] []

/-- C156: optimizing the product of energy and latency of every layer does not optimize the product of the totals. For these three layers the call
with `EDP` answers energy 224 and latency 48 (product 10752), the call with `energy` answers energy 218 and latency 49 (product 10682). -/
theorem edp_network_false : Sound (units 24 32 16 16) (opts 3 none id) [wide, thin, thin] ∧
    (∃ r, call (units 24 32 16 16) (opts 3 none id) "EDP" [wide, thin, thin] 40 = .ok r ∧ r.energy = 224 ∧ r.latency = 48) ∧
    (∃ r, call (units 24 32 16 16) (opts 3 none id) "energy" [wide, thin, thin] 40 = .ok r ∧ r.energy = 218 ∧ r.latency = 49) := by
  refine ⟨sound (by decide +kernel) (by decide) (fun k h => by cases h) (fun l => .refl _) fun n hn => ?_,
    answer_ok (show answer _ = some (_, _) by decide +kernel), answer_ok (show answer _ = some (_, _) by decide +kernel)⟩
  simp only [List.mem_cons, List.not_mem_nil, or_false] at hn
  rcases hn with rfl | rfl | rfl
  · exact nodeC (by decide +kernel)
  · exact nodeC (by decide +kernel)
  · exact nodeC (by decide +kernel)

/-- A layer of 2 × 4 × 2. -/
def long : Node Nat Nat := node (2, 4, 2) mixedP 8 [] []

/-- C157: the answer of a call depends on the order in which python traverses a set. The layer has no hints for the array, so its hints become a set of
dimensions; in one order the answer is energy 272 and latency 20, in another one energy 274 and latency 19. -/
theorem set_order_false : Sound (units 40 16 16 8) (opts 1 none id) [long] ∧ Sound (units 40 16 16 8) (opts 1 none List.reverse) [long] ∧
    (∃ r, call (units 40 16 16 8) (opts 1 none id) "energy" [long] 40 = .ok r ∧ r.energy = 272 ∧ r.latency = 20) ∧
    (∃ r, call (units 40 16 16 8) (opts 1 none List.reverse) "energy" [long] 40 = .ok r ∧ r.energy = 274 ∧ r.latency = 19) ∧
    (∃ r, call (units 40 16 16 8) (opts 1 none id) "latency" [long] 40 = .ok r ∧ r.energy = 272 ∧ r.latency = 20) ∧
    (∃ r, call (units 40 16 16 8) (opts 1 none List.reverse) "latency" [long] 40 = .ok r ∧ r.energy = 274 ∧ r.latency = 19) := by
  have hn : ∀ n ∈ [long], NodeOk (units 40 16 16 8) n rl [] := fun n hn => by
    rw [List.mem_singleton.1 hn]
    exact nodeC (by decide +kernel)
  refine ⟨sound (by decide +kernel) (by decide) (fun k h => by cases h) (fun l => .refl _) hn,
    sound (by decide +kernel) (by decide) (fun k h => by cases h) (fun l => List.reverse_perm l) hn, ?_, ?_, ?_, ?_⟩ <;>
    exact answer_ok (show answer _ = some (_, _) by decide +kernel)

/-- A layer of 2 × 4 × 4 with hints. -/
def hinted : Node Nat Nat := node (2, 4, 4) eight 8 [] [(0, [2]), (1, [0, 1])]
/-- An array of 4 × 2 units. -/
def grid : AccD Nat := split 64 32 64 64 64 64 64 ([0, 1], [0, 1], [0, 1]) [(0, 4), (1, 2)]

/-- C158: asking for two spatial mappings instead of one may give a worse answer. Limiting the second mapping to the size of the memory also changes the
first one. Energy 67 and latency 6 with one mapping, energy 70 and latency 10 with two. -/
theorem more_mappings_false : Sound grid (opts 1 none id) [hinted] ∧ Sound grid (opts 2 none id) [hinted] ∧
    (∃ r, call grid (opts 1 none id) "energy" [hinted] 40 = .ok r ∧ r.energy = 67 ∧ r.latency = 6) ∧
    (∃ r, call grid (opts 2 none id) "energy" [hinted] 40 = .ok r ∧ r.energy = 70 ∧ r.latency = 10) ∧
    (∃ r, call grid (opts 1 none id) "latency" [hinted] 40 = .ok r ∧ r.energy = 67 ∧ r.latency = 6) ∧
    (∃ r, call grid (opts 2 none id) "latency" [hinted] 40 = .ok r ∧ r.energy = 70 ∧ r.latency = 10) := by
  have hn : ∀ n ∈ [hinted], NodeOk grid n rl [] := fun n hn => by
    rw [List.mem_singleton.1 hn]
    exact nodeC (by decide +kernel)
  refine ⟨sound (by decide +kernel) (by decide) (fun k h => by cases h) (fun l => .refl _) hn,
    sound (by decide +kernel) (by decide) (fun k h => by cases h) (fun l => .refl _) hn, ?_, ?_, ?_, ?_⟩ <;>
    exact answer_ok (show answer _ = some (_, _) by decide +kernel)

/-- A layer of 2 × 2 × 2 with hints. -/
def cube : Node Nat Nat := node (2, 2, 2) eight 8 [] [(0, [1]), (1, [0, 2])]
/-- An array of 2 × 2 units with small memories. -/
def tight : AccD Nat := split 16 16 32 64 64 64 64 ([0, 1], [0, 1], [0, 1]) [(0, 2), (1, 2)]

theorem cube_ok : ∀ n ∈ [cube], NodeOk tight n rl [] := fun n hn => by
  rw [List.mem_singleton.1 hn]
  exact nodeC (by decide +kernel)

/-- C158: a call that answers with one spatial mapping may fail with two of them. -/
theorem more_mappings_crash : Sound tight (opts 1 none id) [cube] ∧ Sound tight (opts 2 none id) [cube] ∧
    (∃ r, call tight (opts 1 none id) "energy" [cube] 40 = .ok r ∧ r.energy = 6 ∧ r.latency = 4) ∧ answer (call tight (opts 2 none id) "energy" [cube] 200) = none := by
  refine ⟨sound (by decide +kernel) (by decide) (fun k h => by cases h) (fun l => .refl _) cube_ok,
    sound (by decide +kernel) (by decide) (fun k h => by cases h) (fun l => .refl _) cube_ok, ?_, ?_⟩
  · exact answer_ok (show answer _ = some (_, _) by decide +kernel)
  · decide +kernel

/-- C159: a larger limit on the number of loops may give a worse answer. Latency 20 with at most two loops, latency 22 with at most three. -/
theorem larger_limit_false : Sound (units 40 32 16 8) (opts 1 (some 2) id) [long] ∧ Sound (units 40 32 16 8) (opts 1 (some 3) id) [long] ∧
    (∃ r, call (units 40 32 16 8) (opts 1 (some 2) id) "latency" [long] 40 = .ok r ∧ r.energy = 272 ∧ r.latency = 20) ∧
    (∃ r, call (units 40 32 16 8) (opts 1 (some 3) id) "latency" [long] 40 = .ok r ∧ r.energy = 272 ∧ r.latency = 22) := by
  have hn : ∀ n ∈ [long], NodeOk (units 40 32 16 8) n rl [] := fun n hn => by
    rw [List.mem_singleton.1 hn]
    exact nodeC (by decide +kernel)
  refine ⟨sound (by decide +kernel) (by decide) (fun k h => by cases h; decide) (fun l => .refl _) hn,
    sound (by decide +kernel) (by decide) (fun k h => by cases h; decide) (fun l => .refl _) hn, ?_, ?_⟩ <;>
    exact answer_ok (show answer _ = some (_, _) by decide +kernel)

/-- C160: a larger memory may give a worse answer. With outputs in 16 bits the best latency is 20, with outputs in 32 bits it is 22. -/
theorem larger_memory_false : Sound (units 40 16 16 8) (opts 1 none id) [long] ∧ Sound (units 40 32 16 8) (opts 1 none id) [long] ∧
    (∃ r, call (units 40 16 16 8) (opts 1 none id) "latency" [long] 40 = .ok r ∧ r.energy = 272 ∧ r.latency = 20) ∧
    (∃ r, call (units 40 32 16 8) (opts 1 none id) "latency" [long] 40 = .ok r ∧ r.energy = 272 ∧ r.latency = 22) := by
  refine ⟨sound (by decide +kernel) (by decide) (fun k h => by cases h) (fun l => .refl _) fun n hn => ?_,
    sound (by decide +kernel) (by decide) (fun k h => by cases h) (fun l => .refl _) fun n hn => ?_, ?_, ?_⟩
  · rw [List.mem_singleton.1 hn]
    exact nodeC (by decide +kernel)
  · rw [List.mem_singleton.1 hn]
    exact nodeC (by decide +kernel)
  all_goals exact answer_ok (show answer _ = some (_, _) by decide +kernel)

/-- A layer of 4 × 2 × 4 with hints. -/
def tall : Node Nat Nat := node (4, 2, 4) eight 8 [] [(0, [2, 1, 0])]
/-- Two units; the second memory serves both, and a port of it moves this many bits in a cycle. -/
def pair (bw : Int) : AccD Nat := split 16 16 16 8 bw 8 8 ([], [0], []) [(0, 2)]

/-- C160: a larger bandwidth may give a worse answer. With ports of 8 bits the best energy is 568 and the best latency is 26, with ports of 16 bits the best energy is 736
and the best latency is 34: the larger bandwidth allows larger unrollings, and the mapping with the largest unrolling is chosen. -/
theorem larger_bandwidth_false : Sound (pair 8) (opts 1 none id) [tall] ∧ Sound (pair 16) (opts 1 none id) [tall] ∧
    (∃ r, call (pair 8) (opts 1 none id) "energy" [tall] 40 = .ok r ∧ r.energy = 568 ∧ r.latency = 26) ∧
    (∃ r, call (pair 16) (opts 1 none id) "energy" [tall] 40 = .ok r ∧ r.energy = 736 ∧ r.latency = 37) ∧
    (∃ r, call (pair 8) (opts 1 none id) "latency" [tall] 40 = .ok r ∧ r.energy = 568 ∧ r.latency = 26) ∧
    (∃ r, call (pair 16) (opts 1 none id) "latency" [tall] 40 = .ok r ∧ r.energy = 856 ∧ r.latency = 34) := by
  refine ⟨sound (by decide +kernel) (by decide) (fun k h => by cases h) (fun l => .refl _) fun n hn => ?_,
    sound (by decide +kernel) (by decide) (fun k h => by cases h) (fun l => .refl _) fun n hn => ?_, ?_, ?_, ?_, ?_⟩
  · rw [List.mem_singleton.1 hn]
    exact nodeC (by decide +kernel)
  · rw [List.mem_singleton.1 hn]
    exact nodeC (by decide +kernel)
  all_goals exact answer_ok (show answer _ = some (_, _) by decide +kernel)

end Verif.Compare.Ex
