import Verif.Anneal.Props
import Verif.Compare.Cases

/-! Concrete calls with the annealing engine (C164). -/

namespace Verif.Anneal.Ex

open Compare.Ex
open Evaluate.Ex (rl)
open Net (Node Options NodeOk)
open Whole (AccD)

/-- In place of `np.exp`: states that are no worse are accepted. -/
def accept (y : ℚ) : ℚ := if 0 ≤ y then 2 else 0

/-- A call, with the same random numbers for all spatial mappings. -/
def anneal (a : AccD Nat) (o : Options Nat Nat) (opt : String) (nodes : List (Node Nat Nat)) (luck : Luck Nat) : Except PyErr (Net.Reply Nat Nat) :=
  network (fun _ => (0, 0)) quick accept a o opt nodes fun _ _ => luck

/-- An iteration that exchanges two loops. -/
def swap (i j : Nat) : Salsa.Draw := ⟨i, j, 1 / 2⟩

/-- The layer of 2 × 4 × 2 on the array, from the reversed order on. -/
example : ∃ r, anneal (units 40 16 16 8) (opts 1 none id) "energy" [long] ⟨List.reverse, [swap 0 1, swap 1 2]⟩ = .ok r ∧ r.energy = 272 ∧ r.latency = 20 :=
  answer_ok (show answer _ = some (_, _) by decide +kernel)

/-- Non-trivial case of C164: the evaluation that is answered is one that the exhaustive engine makes if the user lists the loops in the same order, and the energy is
at least that of the multiplications. -/
example (opt : String) (draws : List Salsa.Draw) (ans : Net.Reply Nat Nat) (h : anneal (units 40 16 16 8) (opts 1 none id) opt [long] ⟨List.reverse, draws⟩ = .ok ans) :
    (∃ sm e, Found (fun _ => (0, 0)) quick (units 40 16 16 8) long.layer sm e ∧ ans.energy = e.2.energy.total) ∧
      (units 40 16 16 8).macEnergy * Whole.operations long.layer ≤ ans.energy := by
  obtain ⟨S, -⟩ := set_order_false
  have hn : ∀ n ∈ [long], n.skip = false → ∃ (rl : _) (rels : _), NodeOk (units 40 16 16 8) n rl rels := fun n hn _ => ⟨rl, [], S.nodes n hn⟩
  have hk : ∀ (n : Node Nat Nat) (sm : SpatialMapping.SM Nat Nat) l, (((fun _ _ => ⟨List.reverse, draws⟩ : Node Nat Nat → SpatialMapping.SM Nat Nat → Luck Nat) n sm).shuffle l).Perm l :=
    fun _ _ l => List.reverse_perm l
  obtain ⟨best, b1, b2, -, b4⟩ := annealed_answer S.file S.options S.factors hn hk h
  have hb := (annealed_bounds S.file S.options S.factors hn hk h).2 (by
    intro m hm
    simp only [units, List.mem_cons, List.not_mem_nil, or_false] at hm
    rcases hm with rfl | rfl | rfl <;> norm_num [Whole.prices])
  refine ⟨?_, by simpa [long, node] using hb⟩
  cases best with
  | nil => simp [long, node] at b1
  | cons x t =>
    have ht : t = [] := by
      cases t with
      | nil => rfl
      | cons y t => simp [long, node] at b1
    subst ht
    have hx : x.1 = long := by
      have := congrArg List.head? b1
      simpa [long, node] using this
    obtain ⟨-, -, ⟨sm, -, hf⟩, -⟩ := b4 x (by simp)
    rw [hx] at hf
    exact ⟨sm, x.2, hf, by simpa using b2⟩

/-- Non-trivial case of the comparison: no draws give a better answer than energy 272. -/
example (draws : List Salsa.Draw) : ∃ M, ∀ fuel, M ≤ fuel → ∀ ans, anneal (units 40 16 16 8) (opts 1 (some 2) id) "energy" [first] ⟨List.reverse, draws⟩ = .ok ans →
    (∃ ans', call (units 40 16 16 8) (opts 1 none id) "energy" [long] fuel = .ok ans' ∧ ans'.energy ≤ ans.energy) ∨
      call (units 40 16 16 8) (opts 1 none id) "energy" [long] fuel = .error .zeroDivision := by
  obtain ⟨S, -⟩ := set_order_false
  have K : NodeOk (units 40 16 16 8) long rl [] := S.nodes long (by simp)
  obtain ⟨M, h⟩ := exhaustive_partial (cacti := fun _ => (0, 0)) (ex := accept) (o := opts 1 (some 2) id) (nodes := [first]) (luck := fun _ _ => ⟨List.reverse, draws⟩) S.file
    (optsOk (by decide) (fun k h => by cases h; decide) fun l => .refl _) S.factors (fun n hn _ => by
      rw [List.mem_singleton.1 hn]
      exact ⟨rl, [], ⟨{ K.layer with }, K.stored, K.linked, K.delivers, K.holds, K.user, K.whole, K.known, K.hints, by decide⟩⟩) fun _ _ l => List.reverse_perm l
  refine ⟨M, fun fuel hf ans ha => ?_⟩
  rcases h fuel hf "energy" ans ha with ⟨ans', h1, h2, -⟩ | h1
  · exact Or.inl ⟨ans', h1, h2 rfl⟩
  · exact Or.inr h1

/-- C164: with the annealing engine a call for the least latency minimises energy inside of a spatial mapping. After one iteration the answer has latency 34, after
another one it has latency 37, because that order has less energy. -/
theorem latency_false : Sound (pair 16) (opts 1 none id) [tall] ∧
    (∃ r, anneal (pair 16) (opts 1 none id) "latency" [tall] ⟨id, [swap 1 2]⟩ = .ok r ∧ r.energy = 856 ∧ r.latency = 34) ∧
    (∃ r, anneal (pair 16) (opts 1 none id) "latency" [tall] ⟨id, [swap 1 2, swap 0 3]⟩ = .ok r ∧ r.energy = 736 ∧ r.latency = 37) := by
  obtain ⟨-, S, -⟩ := larger_bandwidth_false
  exact ⟨S, answer_ok (show answer _ = some (_, _) by decide +kernel), answer_ok (show answer _ = some (_, _) by decide +kernel)⟩

/-- C164: the annealing engine does not obey the temporal ordering of the user. Only orders with the second dimension innermost are allowed, and these have energy 860 and
latency 64; the answer has energy 272 and latency 20. -/
theorem ordering_false : (∃ r, call (units 40 16 16 8) (opts 1 none id) "energy" [first] 40 = .ok r ∧ r.energy = 860 ∧ r.latency = 64) ∧
    (∃ r, anneal (units 40 16 16 8) (opts 1 none id) "energy" [first] ⟨List.reverse, []⟩ = .ok r ∧ r.energy = 272 ∧ r.latency = 20) :=
  ⟨answer_ok (show answer _ = some (_, _) by decide +kernel), answer_ok (show answer _ = some (_, _) by decide +kernel)⟩

/-- A layer of 8 × 2 × 2. -/
def deep : Node Nat Nat := node (8, 2, 2) eight 8 [] [(0, [2, 1, 0])]

/-- C164: the limit on the number of loops (`lpf_limit`) has no effect on the annealing engine. With at most two loops the least energy is 714, the answer of the engine for
this limit is 664. -/
theorem limit_false : Sound (pair 16) (opts 1 (some 2) id) [deep] ∧
    (∃ r, call (pair 16) (opts 1 (some 2) id) "energy" [deep] 40 = .ok r ∧ r.energy = 714) ∧
    (∃ r, anneal (pair 16) (opts 1 (some 2) id) "energy" [deep] ⟨List.reverse, [swap 0 1]⟩ = .ok r ∧ r.energy = 664) := by
  refine ⟨sound (by decide +kernel) (by decide) (fun k h => by cases h; decide) (fun l => .refl _) fun n hn => ?_, ?_, ?_⟩
  · rw [List.mem_singleton.1 hn]
    exact nodeC (by decide +kernel)
  · obtain ⟨r, h, h1, -⟩ := answer_ok (show answer (call (pair 16) (opts 1 (some 2) id) "energy" [deep] 40) = some (714, 34) by decide +kernel)
    exact ⟨r, h, h1⟩
  · obtain ⟨r, h, h1, -⟩ := answer_ok (show answer (anneal (pair 16) (opts 1 (some 2) id) "energy" [deep] ⟨List.reverse, [swap 0 1]⟩) = some (664, 29) by decide +kernel)
    exact ⟨r, h, h1⟩

/-- A layer of 2 × 2 × 2 that the user unrolls completely. -/
def unrolled : Node Nat Nat := node (2, 2, 2) eight 8 [(0, [(0, 2), (1, 2)]), (1, [(2, 2)])] []

/-- C164: a layer without temporal loops has an answer with the exhaustive engine; the annealing engine draws
from an empty range. This happens in a worker process, whose result the caller waits for, so that the call does not even end. -/
theorem unrolled_crash : Sound grid (opts 1 none id) [unrolled] ∧ (∃ r, call grid (opts 1 none id) "energy" [unrolled] 40 = .ok r ∧ r.energy = 4 ∧ r.latency = 3) ∧
    (match anneal grid (opts 1 none id) "energy" [unrolled] ⟨id, [swap 0 0]⟩ with | .error .valueError => true | _ => false) = true := by
  refine ⟨sound (by decide +kernel) (by decide) (fun k h => by cases h) (fun l => .refl _) fun n hn => ?_, answer_ok (show answer _ = some (_, _) by decide +kernel), by decide +kernel⟩
  rw [List.mem_singleton.1 hn]
  exact nodeC (by decide +kernel)

end Verif.Anneal.Ex
