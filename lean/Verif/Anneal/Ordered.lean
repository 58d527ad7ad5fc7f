import Verif.Anneal.Exhaustive
import Verif.Compare.Ordered

/-! C163: orderings of the user never make the answer better, without divisions by zero under a condition on ports. -/

namespace Verif.Anneal

open Compare (freed)
open Evaluate (Hw Mem Job Result Separate evaluate)
open Latency (Operand)
open LayerNode (Relation)
open Net (Node Options Reply FileOk NodeOk OptionsOk Known spatialMappings)
open Ports (MemD)
open SpatialMapping (SM)
open Whole (AccD Acc InputOk LayerIn)

variable {OA : Type} [DecidableEq OA] {D : Type} [LinearOrder D]
variable {a : AccD OA} {o : Options OA D} {nodes : List (Node OA D)} {cacti : MemD Operand OA → ℚ × ℚ} {fact : Nat → List (Nat × Nat)} {ex : ℚ → ℚ}
  {luck : Node OA D → SM OA D → Luck D}

/-- A call without limit on loops and without orderings does not divide by zero if no order of the loops gives a mapping with two movements of a port that happen exactly once. -/
theorem free_calm (F : FileOk a) (O : OptionsOk o) (hf : Lpf.FactContract fact) (hn : ∀ n ∈ nodes, n.skip = false → ∃ rl rels, NodeOk a n rl rels)
    (hs : ∀ n ∈ nodes, n.skip = false → ∀ sms c, spatialMappings o a n = .ok sms → Whole.accelerator cacti a = .ok c → ∀ sm ∈ sms, ∀ t, Whole.task a c n.layer sm = .ok t →
      Apart fact c n.layer t) :
    ∃ M, ∀ fuel, M ≤ fuel → ∀ opt, Known opt → Net.network cacti fact a { o with limit := none } opt (nodes.map freed) fuel ≠ .error .zeroDivision := by
  obtain ⟨c, hc, C⟩ := Whole.accelerator_ok (cacti := cacti) F.acc
  have O' : OptionsOk ({ o with limit := none } : Options OA D) := { O with limit := by simp }
  have hfree : ∀ n ∈ nodes.map freed, n.skip = false → ∃ (rl : Operand → List D) (rels : List (Relation D)), NodeOk a n rl rels := by
    intro n hmem hs
    obtain ⟨m, hm, rfl⟩ := List.mem_map.1 hmem
    obtain ⟨rl, rels, K⟩ := hn m hm hs
    exact ⟨rl, rels, ⟨{ K.layer with }, K.stored, K.linked, K.delivers, K.holds, K.user, K.whole, K.known, K.hints, by intro e he; cases he⟩⟩
  obtain ⟨M1, hM1⟩ := Net.all_runs (cacti := cacti) (nodes := nodes.map freed) F O' hf hfree
  obtain ⟨M2, hM2⟩ := Net.bound_all (P := fun n fuel => n.skip = false → ∀ sms, Net.spatialMappings o a n = .ok sms → ∀ sm ∈ sms,
      ∀ j ∈ ((Net.env fact a c { o with limit := none } fuel).temporal (freed n) sm).1, ∃ r, evaluate c.hw j = .ok r) nodes fun n hm => by
    by_cases hsk : n.skip = false
    · obtain ⟨rl, rels, K⟩ := hn n hm hsk
      obtain ⟨sms, h1, -, h3⟩ := Net.generated (o := o) F K O
      obtain ⟨M, hM⟩ := Net.bound_all (P := fun sm fuel => ∀ j ∈ ((Net.env fact a c { o with limit := none } fuel).temporal (freed n) sm).1, ∃ r, evaluate c.hw j = .ok r) sms
        fun sm hsm => by
          obtain ⟨N, hN⟩ := temporal_orders (o := o) hf (h3 sm hsm).1 hc
          refine ⟨N, fun fuel hfu j hj => ?_⟩
          obtain ⟨t, p, ht, hl, hm'⟩ := hN fuel hfu j hj
          exact apart_evaluates hf (h3 sm hsm).1 hc ht (hs n hm hsk sms c h1 hc sm hsm t ht) hl hm'
      refine ⟨M, fun fuel hfu _ sms' h' sm hsm => ?_⟩
      rw [h1] at h'
      cases h'
      exact hM fuel hfu sm hsm
    · exact ⟨0, fun _ _ h => absurd h hsk⟩
  refine ⟨max M1 M2, fun fuel hfu opt hopt h => ?_⟩
  rw [Compare.network_pipeline hc] at h
  have hr := Pipeline.api_raises (Net.single (fact := fact) (a := a) (o := ({ o with limit := none } : Options OA D)) c fuel) (Q := fun e => e ≠ .zeroDivision) opt hopt
    (nodes.map freed) fun n hmem hsk => by
      obtain ⟨sms, h1, R⟩ := hM1 fuel (le_of_max_le_left hfu) n hmem hsk
      obtain ⟨m, hm, rfl⟩ := List.mem_map.1 hmem
      have h1' : Net.spatialMappings o a m = .ok sms := by
        rw [← Compare.spatial_freed]
        exact h1
      refine ⟨sms, h1, R.some, fun sm hsm => ?_⟩
      obtain ⟨k1, -⟩ := R.search c hc sm hsm
      refine ⟨fun e he => ?_, fun h0 => ?_, fun j hj e he => ?_⟩
      · rcases k1 with ⟨k1, -⟩ | ⟨x, k1, k2⟩
        · rw [k1] at he
          cases he
        · rw [k1] at he
          cases he
          exact k2.ne
      · rcases k1 with ⟨-, k1⟩ | ⟨x, k1, -⟩
        · exact k1
        · rw [h0] at k1
          cases k1
      · obtain ⟨r, hr⟩ := hM2 fuel (le_of_max_le_right hfu) m hm hsk sms h1' sm hsm j hj
        have he' : (match Evaluate.evaluate c.hw j with
            | .error e => .error e
            | .ok r => .ok ⟨⟨r.energy.total, r.overall.latency2, true⟩, (j, r)⟩ : Except PyErr (Pipeline.Cme (Job D × Result))) = .error e := he
        rw [hr] at he'
        cases he'
  rcases hr with ⟨ans', ha⟩ | ⟨e, he, hne⟩
  · rw [ha] at h
    cases h
  · rw [he] at h
    cases h
    exact hne rfl

/-- C163: for layers with more operations than the array has units, if no order of the loops gives a mapping with two movements of a port that happen exactly once and there is no
limit on loops: whenever a call with orderings that only say which dimensions come first has an answer, the call without the orderings has one that is no worse. -/
theorem ordering_best (hf : Lpf.FactContract fact) (F : FileOk a) (O : OptionsOk o) (hl : o.limit = none)
    (N : ∀ n ∈ nodes, n.skip = false → Hierarchy.totalUnits a.sizes < Whole.operations n.layer ∧ ∃ (rl : Operand → List D) (rels : List (Relation D)), NodeOk a n rl rels)
    (hs : ∀ n ∈ nodes, n.skip = false → ∀ sms c, spatialMappings o a n = .ok sms → Whole.accelerator cacti a = .ok c → ∀ sm ∈ sms, ∀ t, Whole.task a c n.layer sm = .ok t →
      Apart fact c n.layer t) :
    ∃ M, ∀ fuel, M ≤ fuel → ∀ opt ans, Net.network cacti fact a o opt nodes fuel = .ok ans →
      ∃ ans', Net.network cacti fact a o opt (nodes.map freed) fuel = .ok ans' ∧ Compare.NoWorse opt nodes ans' ans := by
  obtain ⟨M1, h1⟩ := Compare.ordering_partial (cacti := cacti) hf F O N
  obtain ⟨M2, h2⟩ := free_calm (cacti := cacti) F O hf (fun n hm hsk => (N n hm hsk).2) hs
  refine ⟨max M1 M2, fun fuel hfu opt ans hans => ?_⟩
  rcases h1 fuel (le_of_max_le_left hfu) opt ans hans with h | h
  · exact h
  have ho : ({ o with limit := none } : Options OA D) = o := by
    rw [← hl]
  obtain ⟨c, hc, -⟩ := Whole.accelerator_ok (cacti := cacti) F.acc
  rw [Compare.network_pipeline hc] at hans
  have hk := ((Pipeline.api_ok_iff (Net.single c fuel) opt nodes).1 ⟨ans, hans⟩).1
  have := h2 fuel (le_of_max_le_right hfu) opt hk
  rw [ho] at this
  exact absurd h this

end Verif.Anneal
