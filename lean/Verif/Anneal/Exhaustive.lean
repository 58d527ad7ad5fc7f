import Verif.Anneal.Outcome

/-! C164: comparison with the exhaustive engine if no order of the loops makes the cost model divide by zero. -/

namespace Verif.Anneal

open Compare (freed)
open Evaluate (Hw Mem Job Result Separate evaluate)
open Latency (Operand)
open LayerNode (Relation)
open Net (Node Options Reply FileOk NodeOk OptionsOk Known spatialMappings)
open Ports (MemD)
open SpatialMapping (SM)
open Whole (AccD Acc InputOk LayerIn)

variable {OA : Type} [DecidableEq OA] {D : Type} [LinearOrder D]
variable {a : AccD OA} {o : Options OA D} {nodes : List (Node OA D)} {cacti : MemD Operand OA → ℚ × ℚ} {fact : Nat → List (Nat × Nat)} {ex : ℚ → ℚ}
  {luck : Node OA D → SM OA D → Luck D}

/-- Without a limit and without an ordering of the user, all mappings of the exhaustive engine are those of orders of the loops that are left. -/
theorem temporal_orders (hf : Lpf.FactContract fact) {n : Node OA D} {rl : Operand → List D} {rels : List (Relation D)} {sm : SM OA D} (I : InputOk a n.layer sm rl rels)
    {c : Acc OA} (hc : Whole.accelerator cacti a = .ok c) :
    ∃ N, ∀ fuel, N ≤ fuel → ∀ j ∈ ((Net.env fact a c { o with limit := none } fuel).temporal (freed n) sm).1,
      ∃ t p, Whole.task a c n.layer sm = .ok t ∧ Left fact n.layer t p ∧ Search.mapOrder c.hw c.topo t (p.map fun l => (l.1, (l.2 : ℚ))) = .ok j := by
  obtain ⟨c', hc', C⟩ := Whole.accelerator_ok (cacti := cacti) I.acc
  rw [hc] at hc'
  cases hc'
  obtain ⟨lim, limI, t, -, ht, P, -⟩ := Whole.task_ok I C
  obtain ⟨s1, s2, s3, s4, -, -⟩ := Whole.engine_sizes I.layer
  set sizes : Dict D Int := n.layer.sizes.map fun e => (e.1, (e.2 : Int)) with hsz
  obtain ⟨ld, lds, hk⟩ : ∃ ld lds, sizes.keys = ld :: lds := by
    clear_value sizes
    cases sizes with
    | nil => exact absurd rfl s3
    | cons p s => exact ⟨p.1, Dict.keys s, rfl⟩
  obtain ⟨-, -, loops, -, -, -, -, -, -, hloops, -⟩ := Ordering.parts fact lds sizes (Whole.spatialLoops t) none hf ld s1 s2 (fun x hx => (Whole.spatialLoops_mem P x hx).1) (by simp)
  obtain ⟨N, hN⟩ := generate_all hf ld lds (fun x => Search.mapOrder c.hw c.topo t (Engine.toAlloc x)) s1 s2 (fun x hx => (Whole.spatialLoops_mem P x hx).1)
    (fun x e he => Search.mapOrder_error P he) hloops
  refine ⟨N, fun fuel hfu j hj => ?_⟩
  obtain ⟨l, err, g1, -, g3⟩ := hN fuel hfu
  have ht' : Whole.task a c (freed n).layer sm = .ok t := ht
  have h2 : (Net.env fact a c { o with limit := none } fuel).temporal (freed n) sm = (l, err) := by
    unfold Net.env
    simp only [ht', Search.mappings]
    have : ((freed n).layer.sizes.map fun e => (e.1, (e.2 : Int))) = sizes := rfl
    rw [this, hk]
    have he : (freed n).layer.order = [] := rfl
    rw [he, g1]
  rw [h2] at hj
  obtain ⟨p, hp, hm⟩ := g3 j hj
  refine ⟨t, p, ht, ⟨loops, hloops, hp⟩, ?_⟩
  rw [← hm]
  congr 1
  unfold Engine.toAlloc
  rw [List.map_map]
  rfl

/-- No order of the loops that are left gives a mapping with two movements of a port that happen exactly once. -/
def Apart (fact : Nat → List (Nat × Nat)) (c : Acc OA) (l : LayerIn D) (t : Search.Task D) : Prop :=
  ∀ p, Left fact l t p → ∀ j, Search.mapOrder c.hw c.topo t (p.map fun l => (l.1, (l.2 : ℚ))) = .ok j → Separate c.hw j

theorem Smooth.calm {c : Acc OA} {l : LayerIn D} {t : Search.Task D} (h : Smooth fact c l t) : Apart fact c l t :=
  fun p hp j hj => h.apart p hp j (Or.inr hj)

/-- The cost model does not divide by zero for the mapping of such an order. -/
theorem apart_evaluates (hf : Lpf.FactContract fact) {l : LayerIn D} {sm : SM OA D} {rl : Operand → List D} {rels : List (Relation D)} (I : InputOk a l sm rl rels)
    {c : Acc OA} (hc : Whole.accelerator cacti a = .ok c) {t : Search.Task D} (ht : Whole.task a c l sm = .ok t) (S : Apart fact c l t) {p : List (D × Nat)}
    (hl : Left fact l t p) {j : Job D} (hj : Search.mapOrder c.hw c.topo t (p.map fun l => (l.1, (l.2 : ℚ))) = .ok j) : ∃ r, evaluate c.hw j = .ok r := by
  obtain ⟨t', array, array', ht', P, -, eops, eL⟩ := guess_prepared (cacti := cacti) I hc
  rw [ht] at ht'
  cases ht'
  obtain ⟨c', hc', C⟩ := Whole.accelerator_ok (cacti := cacti) I.acc
  rw [hc] at hc'
  cases hc'
  have hlk : ∀ p ∈ c.hw.ports, ∀ k ∈ p.served, k.1 ∈ t.ops := fun p hp k hk => by
    obtain ⟨m, hm, hmk⟩ := C.linked p hp k hk
    rw [eops]
    exact I.linked m hm _ hmk
  obtain ⟨tm, -, e1, -⟩ := Search.mapOrder_ok P hj
  obtain ⟨r, hr, -⟩ := Evaluate.ordered_partial (R := { toMapped := Search.mapped P (left_order hf I eL hl) hj, linked := by rw [e1]; exact hlk }) (S p hl j hj)
  exact ⟨r, hr⟩

/-- C164: whatever is drawn, the annealing engine never gives a better answer than the exhaustive one without limit and without orderings of the user, which has an answer whenever
the annealing engine has one, if no order of the loops gives a mapping with two movements of a port that happen exactly once. -/
theorem exhaustive_best (F : FileOk a) (O : OptionsOk o) (hf : Lpf.FactContract fact) (hn : ∀ n ∈ nodes, n.skip = false → ∃ rl rels, NodeOk a n rl rels)
    (hk : ∀ n sm l, ((luck n sm).shuffle l).Perm l)
    (hs : ∀ n ∈ nodes, n.skip = false → ∀ sms c, spatialMappings o a n = .ok sms → Whole.accelerator cacti a = .ok c → ∀ sm ∈ sms, ∀ t, Whole.task a c n.layer sm = .ok t →
      Apart fact c n.layer t) :
    ∃ M, ∀ fuel, M ≤ fuel → ∀ opt ans, network cacti fact ex a o opt nodes luck = .ok ans →
      ∃ ans', Net.network cacti fact a { o with limit := none } opt (nodes.map freed) fuel = .ok ans' ∧ Compare.NoWorse opt nodes ans' ans := by
  obtain ⟨M, hM⟩ := exhaustive_partial (cacti := cacti) (ex := ex) F O hf hn hk
  obtain ⟨c, hc, C⟩ := Whole.accelerator_ok (cacti := cacti) F.acc
  have O' : OptionsOk ({ o with limit := none } : Options OA D) := { O with limit := by simp }
  have hfree : ∀ n ∈ nodes.map freed, n.skip = false → ∃ (rl : Operand → List D) (rels : List (Relation D)), NodeOk a n rl rels := by
    intro n hmem hs
    obtain ⟨m, hm, rfl⟩ := List.mem_map.1 hmem
    obtain ⟨rl, rels, K⟩ := hn m hm hs
    exact ⟨rl, rels, ⟨{ K.layer with }, K.stored, K.linked, K.delivers, K.holds, K.user, K.whole, K.known, K.hints, by intro e he; cases he⟩⟩
  obtain ⟨M1, hM1⟩ := Net.all_runs (cacti := cacti) (nodes := nodes.map freed) F O' hf hfree
  obtain ⟨M2, hM2⟩ := Net.bound_all (P := fun n fuel => n.skip = false → ∀ sms, Net.spatialMappings o a n = .ok sms → ∀ sm ∈ sms,
      ∀ j ∈ ((Net.env fact a c { o with limit := none } fuel).temporal (freed n) sm).1, ∃ r, evaluate c.hw j = .ok r) nodes fun n hm => by
    by_cases hsk : n.skip = false
    · obtain ⟨rl, rels, K⟩ := hn n hm hsk
      obtain ⟨sms, h1, -, h3⟩ := Net.generated (o := o) F K O
      obtain ⟨M, hM⟩ := Net.bound_all (P := fun sm fuel => ∀ j ∈ ((Net.env fact a c { o with limit := none } fuel).temporal (freed n) sm).1, ∃ r, evaluate c.hw j = .ok r) sms
        fun sm hsm => by
          obtain ⟨N, hN⟩ := temporal_orders (o := o) hf (h3 sm hsm).1 hc
          refine ⟨N, fun fuel hfu j hj => ?_⟩
          obtain ⟨t, p, ht, hl, hm'⟩ := hN fuel hfu j hj
          exact apart_evaluates hf (h3 sm hsm).1 hc ht (hs n hm hsk sms c h1 hc sm hsm t ht) hl hm'
      refine ⟨M, fun fuel hfu _ sms' h' sm hsm => ?_⟩
      rw [h1] at h'
      cases h'
      exact hM fuel hfu sm hsm
    · exact ⟨0, fun _ _ h => absurd h hsk⟩
  refine ⟨max M (max M1 M2), fun fuel hfu opt ans hans => ?_⟩
  rcases hM fuel (le_of_max_le_left hfu) opt ans hans with h | h
  · exact h
  exfalso
  have hfu' := le_of_max_le_right hfu
  rw [network_pipeline hc] at hans
  rw [Compare.network_pipeline hc] at h
  obtain ⟨hopt, -⟩ := (Pipeline.api_ok_iff (single c) opt nodes).1 ⟨ans, hans⟩
  have hr := Pipeline.api_raises (Net.single (fact := fact) (a := a) (o := ({ o with limit := none } : Options OA D)) c fuel) (Q := fun e => e ≠ .zeroDivision) opt hopt
    (nodes.map freed) fun n hmem hsk => by
      obtain ⟨sms, h1, R⟩ := hM1 fuel (le_of_max_le_left hfu') n hmem hsk
      obtain ⟨m, hm, rfl⟩ := List.mem_map.1 hmem
      have h1' : Net.spatialMappings o a m = .ok sms := by
        rw [← Compare.spatial_freed]
        exact h1
      refine ⟨sms, h1, R.some, fun sm hsm => ?_⟩
      obtain ⟨k1, -⟩ := R.search c hc sm hsm
      refine ⟨fun e he => ?_, fun h0 => ?_, fun j hj e he => ?_⟩
      · rcases k1 with ⟨k1, -⟩ | ⟨x, k1, k2⟩
        · rw [k1] at he
          cases he
        · rw [k1] at he
          cases he
          exact k2.ne
      · rcases k1 with ⟨-, k1⟩ | ⟨x, k1, -⟩
        · exact k1
        · rw [h0] at k1
          cases k1
      · obtain ⟨r, hr⟩ := hM2 fuel (le_of_max_le_right hfu') m hm hsk sms h1' sm hsm j hj
        have he' : (match Evaluate.evaluate c.hw j with
            | .error e => .error e
            | .ok r => .ok ⟨⟨r.energy.total, r.overall.latency2, true⟩, (j, r)⟩ : Except PyErr (Pipeline.Cme (Job D × Result))) = .error e := he
        rw [hr] at he'
        cases he'
  rcases hr with ⟨ans', ha⟩ | ⟨e, he, hne⟩
  · rw [ha] at h
    cases h
  · rw [he] at h
    cases h
    exact hne rfl

end Verif.Anneal
