import Verif.Compare.Example
import Verif.Compare.Limit
import Verif.Compare.Ordered
import Verif.Compare.Prices

/-! Cases of C155 to C161 and C163. -/

namespace Verif.Compare.Ex

open Evaluate.Ex (rl)
open Net (Node Innermost NodeOk)
open Whole (AccD prices)

/-- Non-trivial case of C155: three layers, each of them alone, and in another order. -/
example : (∃ each : List (Net.Reply Nat Nat), List.Forall₂ (fun n r => call (units 24 32 16 16) (opts 3 none id) "energy" [n] 40 = .ok r) [wide, thin, thin] each ∧
      218 = (each.map fun r => r.energy).sum ∧ 49 = (each.map fun r => r.latency).sum) ∧
    (∃ r, call (units 24 32 16 16) (opts 3 none id) "energy" [thin, wide, thin] 40 = .ok r ∧ r.energy = 218 ∧ r.latency = 49) := by
  obtain ⟨-, -, r, h, h1, h2⟩ := edp_network_false
  refine ⟨?_, ?_⟩
  · have := layers_alone "energy" _ h
    rwa [h1, h2] at this
  · have := layers_order "energy" (List.Perm.swap wide thin [thin]) h
    rwa [h1, h2] at this

/-- Non-trivial case of C156: the call with `energy` has less energy than the call with `EDP`. -/
example : (218 : ℚ) ≤ 224 ∧ ∃ r, call (units 24 32 16 16) (opts 3 none id) "latency" [wide, thin, thin] 40 = .ok r ∧ r.latency ≤ 48 := by
  obtain ⟨-, ⟨q, g, g1, g2⟩, r, h, h1, h2⟩ := edp_network_false
  refine ⟨by have := (criterion_best g).1 h; rwa [g1, h1] at this, ?_⟩
  obtain ⟨s, hs⟩ := criterion_answer (opt := "EDP") (opt' := "latency") (by simp [Net.Known]) (by simp [Net.Known]) ⟨q, g⟩
  refine ⟨s, hs, ?_⟩
  have := (criterion_best g).2.1 hs
  rwa [g2] at this

/-- The innermost memories of these accelerators belong to single units. -/
theorem units_inner {x y z w : Int} {m : Ports.MemD Latency.Operand Nat} (h : Innermost (units x y z w) m) : m.served = [] := by
  obtain ⟨pre, post, e, he⟩ := h
  obtain ⟨e1, e2, e3, -⟩ := split_index e
  have h3 : pre.length < 3 := by simpa [units] using e1
  rcases pre with _ | ⟨p, _ | ⟨q, _ | ⟨r, t⟩⟩⟩
  · simp [units] at e2
    rw [← e2]
  · simp [units] at e2
    rw [← e2]
  · simp only [units, List.cons_append, List.nil_append, List.cons.injEq] at e
    obtain ⟨rfl, -, rfl, -⟩ := e
    have := he _ List.mem_cons_self .in1 (by simp)
    simp at this
  · simp at h3
    omega

/-- The layer of 2 × 4 × 2 with an unrolling of the user. -/
def fixed : Node Nat Nat := node (2, 4, 2) mixedP 8 [(0, [(1, 2)])] []

/-- Non-trivial case of C157: a layer with a complete mapping, in any order of sets and with any number of mappings. -/
example (nb : Nat) (hnb : 1 ≤ nb) (opt : String) (fuel : Nat) :
    call (units 40 16 16 8) (opts nb none List.reverse) opt [fixed] fuel = call (units 40 16 16 8) (opts 1 none id) opt [fixed] fuel := by
  have K : NodeOk (units 40 16 16 8) fixed rl [] := nodeC (by decide +kernel)
  refine complete_orders_partial (fileC (by decide +kernel)) (optsOk (by decide) (fun k h => by cases h) fun l => .refl _)
    (optsOk hnb (fun k h => by cases h) fun l => List.reverse_perm l) rfl (fun n hn _ => ?_) opt fuel
  rw [List.mem_singleton.1 hn]
  refine ⟨⟨by decide, by decide +kernel, by decide +kernel, ?_, ?_, ?_⟩, rl, [], K⟩
  · intro d s hs
    have h := Dict.mem_of_get? hs
    have hd : ∀ e ∈ fixed.layer.L.dimSizes, (fixed.mapping.map fun x => SpatialMapping.factor x.2 e.1).prod ≤ e.2 := by decide +kernel
    exact hd _ h
  · intro m hm op ho p hp hpa e he hse
    rw [units_inner hm] at hse
    cases hse
  · intro m hm op ho
    rw [units_inner hm]
    simpa using show ((fixed.layer.precision op : ℤ) : ℚ) ≤ (m.size : ℚ) by exact_mod_cast K.holds m hm op ho

/-- Non-trivial case of C158: one mapping instead of three. -/
example : ∃ ans', call (units 24 32 16 16) (opts 1 none id) "energy" [wide, thin, thin] 40 = .ok ans' ∧ 218 ≤ ans'.energy := by
  obtain ⟨S, -, r, h, h1, -⟩ := edp_network_false
  obtain ⟨ans', g, g1, -⟩ := more_mappings_partial (o := opts 1 none id) (nb := 3) S.file (optsOk (by decide) (fun k h => by cases h) fun l => .refl _) (fun n hn _ =>
    ⟨fun m hm op ho => by
      rw [units_inner hm]
      simpa using (S.nodes n hn).holds m hm op ho, rl, [], S.nodes n hn⟩) (by decide) h
  refine ⟨ans', g, ?_⟩
  have := g1 rfl
  rwa [h1] at this

/-- Non-trivial case of C159: a limit of four loops is enough for a layer of 2 × 4 × 2. -/
example : ∃ r, call (units 40 16 16 8) (opts 1 (some 4) id) "energy" [long] 40 = .ok r ∧ r.energy = 272 ∧ r.latency = 20 := by
  obtain ⟨S, -, ⟨r, h, h1⟩, -⟩ := set_order_false
  refine ⟨r, ?_, h1⟩
  rw [← h]
  refine large_limit_partial (o := opts 1 none id) S.factors S.file S.options (by decide) (fun n hn _ => ⟨?_, rl, [], S.nodes n hn⟩) "energy" 40
  rw [List.mem_singleton.1 hn]
  decide +kernel

/-- The accelerator with these factors for the prices of reading, writing and multiplying. -/
def rated (r w k : ℚ) (a : AccD Nat) : AccD Nat :=
  { a with mems := a.mems.map fun m => { m with rCost := m.rCost.map fun x => r * x, wCost := m.wCost.map fun x => w * x }, macEnergy := k * a.macEnergy }

/-- Non-trivial case of C160: reading costs a third, writing ten times as much; a call still has an answer, with the same latency if that is minimised. -/
example : ∃ r, call (rated (1 / 3) 10 1 (units 40 16 16 8)) (opts 1 none id) "latency" [long] 40 = .ok r ∧ r.latency = 20 := by
  obtain ⟨S, -, -, -, ⟨r, h, -, h2⟩, -⟩ := set_order_false
  have H : Repriced (fun _ => (0, 0)) (fun _ _ => True) (units 40 16 16 8) (rated (1 / 3) 10 1 (units 40 16 16 8)) :=
    ⟨rfl, .cons ⟨rfl, trivial⟩ (.cons ⟨rfl, trivial⟩ (.cons ⟨rfl, trivial⟩ .nil))⟩
  obtain ⟨g1, g2⟩ := prices_latency (fact := quick) (o := opts 1 none id) (nodes := [long]) H S.file (fileC (by decide +kernel)) "latency" 40
  obtain ⟨r', h'⟩ := g1.2 ⟨r, h⟩
  exact ⟨r', h', by rw [g2 r r' h h', h2]⟩

/-- Non-trivial case of C160: reading and multiplying cost a third. -/
example : ∃ M, ∀ fuel, M ≤ fuel → ∀ ans, call (units 40 16 16 8) (opts 1 none id) "energy" [long] fuel = .ok ans →
    ∃ ans', call (rated (1 / 3) 1 (1 / 3) (units 40 16 16 8)) (opts 1 none id) "energy" [long] fuel = .ok ans' ∧ ans'.energy ≤ ans.energy := by
  obtain ⟨S, -⟩ := set_order_false
  refine prices_energy ⟨rfl, .cons ⟨rfl, ?_⟩ (.cons ⟨rfl, ?_⟩ (.cons ⟨rfl, ?_⟩ .nil))⟩ (by norm_num [rated, units]) ?_ S.file (fileC (by decide +kernel)) S.options
    S.factors fun n hn _ => ⟨rl, [], S.nodes n hn⟩
  · norm_num [prices, rated, units]
  · norm_num [prices, rated, units]
  · norm_num [prices, rated, units]
  · intro m hm
    simp only [units, List.mem_cons, List.not_mem_nil, or_false] at hm
    rcases hm with rfl | rfl | rfl <;> norm_num [prices]

/-- Non-trivial case of C161: prices in thousandths. -/
example : ∃ M, ∀ fuel, M ≤ fuel → ∀ opt ans, call (units 24 32 16 16) (opts 3 none id) opt [wide, thin, thin] fuel = .ok ans →
    ∃ ans', call (rated 1000 1000 1000 (units 24 32 16 16)) (opts 3 none id) opt [wide, thin, thin] fuel = .ok ans' ∧ ans'.energy = 1000 * ans.energy ∧
      ans'.latency = ans.latency := by
  obtain ⟨S, -⟩ := edp_network_false
  refine prices_unit (by norm_num) ⟨rfl, .cons ⟨rfl, ?_⟩ (.cons ⟨rfl, ?_⟩ (.cons ⟨rfl, ?_⟩ .nil))⟩ rfl S.file (fileC (by decide +kernel)) S.options S.factors
    fun n hn _ => ⟨rl, [], S.nodes n hn⟩
  · norm_num [prices, units]
  · norm_num [prices, units]
  · norm_num [prices, units]

/-- The layer with an ordering: the second dimension comes first. -/
def first : Node Nat Nat := { long with layer := { long.layer with order := [(1, none)] } }

/-- Non-trivial case of C163: with the ordering the answer is energy 860 and latency 64, without it is energy 272 and latency 20. -/
example : (∃ r, call (units 40 16 16 8) (opts 1 none id) "energy" [first] 40 = .ok r ∧ r.energy = 860 ∧ r.latency = 64) ∧
    ∃ M, ∀ fuel, M ≤ fuel → ∀ ans, call (units 40 16 16 8) (opts 1 none id) "energy" [first] fuel = .ok ans →
      (∃ ans', call (units 40 16 16 8) (opts 1 none id) "energy" [long] fuel = .ok ans' ∧ ans'.energy ≤ ans.energy) ∨
        call (units 40 16 16 8) (opts 1 none id) "energy" [long] fuel = .error .zeroDivision := by
  refine ⟨answer_ok (show answer _ = some (_, _) by decide +kernel), ?_⟩
  obtain ⟨S, -⟩ := set_order_false
  have K : NodeOk (units 40 16 16 8) long rl [] := S.nodes long (by simp)
  obtain ⟨M, h⟩ := ordering_partial (cacti := fun _ => (0, 0)) (nodes := [first]) S.factors S.file S.options fun n hn _ => by
    rw [List.mem_singleton.1 hn]
    exact ⟨by decide +kernel, rl, [], ⟨{ K.layer with }, K.stored, K.linked, K.delivers, K.holds, K.user, K.whole, K.known, K.hints, by decide⟩⟩
  refine ⟨M, fun fuel hf ans ha => ?_⟩
  rcases h fuel hf "energy" ans ha with ⟨ans', h1, h2, -⟩ | h1
  · exact Or.inl ⟨ans', h1, h2 rfl⟩
  · exact Or.inr h1

end Verif.Compare.Ex
