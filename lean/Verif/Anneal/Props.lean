import Verif.Anneal.Lemmas
import Verif.Compare.Ordered

/-! C164: calls with the annealing engine. -/

namespace Verif.Anneal

open Evaluate (Job Result Separate evaluate)
open Latency (Operand)
open LayerNode (Relation)
open Net (Node Options Reply FileOk NodeOk OptionsOk spatialMappings)
open Ports (MemD)
open SpatialMapping (SM)
open Whole (AccD Acc InputOk Follows LayerIn prices operations)
open Compare (freed)

variable {OA : Type} [DecidableEq OA] {D : Type} [LinearOrder D]
variable {a : AccD OA} {o : Options OA D} {nodes : List (Node OA D)} {cacti : MemD Operand OA → ℚ × ℚ} {fact : Nat → List (Nat × Nat)} {ex : ℚ → ℚ}
  {luck : Node OA D → SM OA D → Luck D}

/-- The layer with an ordering of the user. -/
def ordered (l : LayerIn D) (d : List (Ordering.Entry D)) : LayerIn D := { l with order := d }

theorem ordered_ok {l : LayerIn D} {sm : SM OA D} {rl : Operand → List D} {rels : List (Relation D)} (I : InputOk a l sm rl rels) (d : List (Ordering.Entry D)) :
    InputOk a (ordered l d) sm rl rels := ⟨I.acc, { I.layer with }, I.stored, I.linked, I.mapping, I.array⟩

/-- The evaluation of an order of all temporal loops that the spatial mapping leaves, with prime numbers of iterations: what the exhaustive engine evaluates if the user
lists this order. -/
def Found (cacti : MemD Operand OA → ℚ × ℚ) (fact : Nat → List (Nat × Nat)) (a : AccD OA) (l : LayerIn D) (sm : SM OA D) (e : Job D × Result) : Prop :=
  ∃ o : List (D × Nat), (∀ x ∈ o, x.2.Prime) ∧ Follows cacti a (ordered l (asData o)) sm ∧
    ∀ limit fuel, Whole.run cacti fact a (ordered l (asData o)) sm limit fuel = some ([e], none)

theorem single (c : Acc OA) : Pipeline.Single (env fact ex a c o luck) := by
  intro l sm tm x h
  unfold env at h
  simp only at h
  split at h
  · cases h
  · cases h
    rfl

theorem network_pipeline {c : Acc OA} (hc : Whole.accelerator cacti a = .ok c) (opt : String) (nodes : List (Node OA D)) :
    network cacti fact ex a o opt nodes luck = Pipeline.api opt false (env fact ex a c o luck) nodes := by
  unfold network
  rw [hc]

theorem primes {fact : Nat → List (Nat × Nat)} (hf : Lpf.FactContract fact) {t : Dict D Int} (ht : ∀ e ∈ t, 1 ≤ e.2) : ∀ x ∈ Salsa.primeFactors fact t, x.2.Prime := by
  intro x hx
  obtain ⟨p, hp, hx⟩ := List.mem_flatMap.1 hx
  obtain ⟨y, hy, hx⟩ := List.mem_flatMap.1 hx
  rw [List.eq_of_mem_replicate hx]
  have := ht p hp
  exact ((hf p.2.toNat (by omega)).2.1 y hy).1

/-- What the stage of the engine passes on. -/
theorem temporal_spec (hf : Lpf.FactContract fact) {n : Node OA D} {rl : Operand → List D} {rels : List (Relation D)} {sm : SM OA D} (I : InputOk a n.layer sm rl rels)
    {c : Acc OA} (hc : Whole.accelerator cacti a = .ok c) (hk : ∀ l, ((luck n sm).shuffle l).Perm l) :
    (((env fact ex a c o luck).temporal n sm).1 = [] ∧ ∃ e, ((env fact ex a c o luck).temporal n sm).2 = some e) ∨
      ∃ (t : Search.Task D) (loops : Dict D Int) (p : List (D × Nat)) (j : Job D), (env fact ex a c o luck).temporal n sm = ([j], none) ∧
        Whole.task a c n.layer sm = .ok t ∧ TemporalLoops.lomaTemporalLoops (n.layer.sizes.map fun e => (e.1, (e.2 : Int))) (Whole.spatialLoops t) = .ok loops ∧
        p.Perm (Salsa.primeFactors fact loops) ∧ Search.mapOrder c.hw c.topo t (p.map fun l => (l.1, (l.2 : ℚ))) = .ok j := by
  obtain ⟨c', hc', C⟩ := Whole.accelerator_ok (cacti := cacti) I.acc
  rw [hc] at hc'
  cases hc'
  obtain ⟨lim, limI, t, -, ht, -⟩ := Whole.task_ok I C
  have he : (env fact ex a c o luck).temporal n sm = search fact ex c.hw c.topo t (n.layer.sizes.map fun e => (e.1, (e.2 : Int))) (Whole.spatialLoops t) (luck n sm) := by
    unfold env
    simp only [ht]
  rcases search_spec (js := ((env fact ex a c o luck).temporal n sm).1) (err := ((env fact ex a c o luck).temporal n sm).2) hk he.symm with h | ⟨loops, p, j, h1, h2, h3, h4, h5⟩
  · exact Or.inl h
  · exact Or.inr ⟨t, loops, p, j, Prod.ext h1 h2, ht, h3, h4, h5⟩

/-- Its evaluation is that of an order which the user could have listed. -/
theorem found (hf : Lpf.FactContract fact) {l : LayerIn D} {rl : Operand → List D} {rels : List (Relation D)} {sm : SM OA D} (I : InputOk a l sm rl rels)
    {c : Acc OA} (hc : Whole.accelerator cacti a = .ok c) {t : Search.Task D} {loops : Dict D Int} {p : List (D × Nat)} {j : Job D} (ht : Whole.task a c l sm = .ok t)
    (hl : TemporalLoops.lomaTemporalLoops (l.sizes.map fun e => (e.1, (e.2 : Int))) (Whole.spatialLoops t) = .ok loops) (hp : p.Perm (Salsa.primeFactors fact loops))
    (hj : Search.mapOrder c.hw c.topo t (p.map fun l => (l.1, (l.2 : ℚ))) = .ok j) {r : Result} (hr : evaluate c.hw j = .ok r) : Found cacti fact a l sm (j, r) := by
  obtain ⟨s1, s2, s3, -, -, -⟩ := Whole.engine_sizes I.layer
  have hcomp := perm_complete hf s1 hl hp
  obtain ⟨hnk, hgt⟩ := TemporalLoops.loma_nontrivial _ _ s1 loops hl
  refine ⟨p, fun x hx => primes hf (fun e he => ?_) x (hp.mem_iff.1 hx), Or.inr ⟨c, t, loops, hc, ht, hl, hcomp⟩, fun limit fuel => ?_⟩
  · have := (hgt e.1 e.2 he).1
    omega
  have hd : ((ordered l (asData p)).order.map fun e => (e.1, ((e.2.getD 1 : Nat) : ℚ))) = p.map fun l => (l.1, (l.2 : ℚ)) := by
    unfold ordered asData
    rw [List.map_map]
    rfl
  have ht' : Whole.task a c (ordered l (asData p)) sm = .ok t := ht
  have hj' : Search.mapOrder c.hw c.topo t (Engine.toAlloc (Ordering.userOrder (ordered l (asData p)).order)) = .ok j := by
    have : Engine.toAlloc (Ordering.userOrder (ordered l (asData p)).order) = p.map fun l => (l.1, (l.2 : ℚ)) := by
      rw [← hd]
      unfold Engine.toAlloc Ordering.userOrder
      rw [List.map_map]
      rfl
    rw [this]
    exact hj
  obtain ⟨c', hc', C⟩ := Whole.accelerator_ok (cacti := cacti) I.acc
  rw [hc] at hc'
  cases hc'
  obtain ⟨lim, limI, t', -, ht'', P, -⟩ := Whole.task_ok I C
  rw [ht] at ht''
  cases ht''
  obtain ⟨h1, -⟩ := Ordering.complete_order none fact (Dict.keys (l.sizes.map fun e => (e.1, (e.2 : Int)))) _ _ limit (ordered l (asData p)).order
    (fun o => Search.mapOrder c.hw c.topo t (Engine.toAlloc o)) s1 s2 (fun x hx => (Whole.spatialLoops_mem P x hx).1) loops hl hcomp.sized hcomp.more hcomp.exact fuel
  have hm : Search.mappings fact c.hw c.topo t ((ordered l (asData p)).sizes.map fun e => (e.1, (e.2 : Int))) (Whole.spatialLoops t) limit (ordered l (asData p)).order fuel =
      some ([j], none) := h1 j hj'
  unfold Whole.run
  rw [hc]
  simp only [ht', hm, Search.evaluations, hr]

/-- C164: a call with the annealing engine that has an answer has, for every layer that is not skipped, in order, the evaluation of an order of all temporal loops left
by one of the generated spatial mappings, which is no worse than the evaluation that was found for any other of these mappings; the reported energy and latency are
the sums.  This holds for all random numbers, and the ordering of the user and the limit on loops have no influence on which orders are tried. -/
theorem annealed_answer (F : FileOk a) (O : OptionsOk o) (hf : Lpf.FactContract fact) (hn : ∀ n ∈ nodes, n.skip = false → ∃ rl rels, NodeOk a n rl rels)
    (hk : ∀ n sm l, ((luck n sm).shuffle l).Perm l) {opt : String} {ans : Reply OA D} (hans : network cacti fact ex a o opt nodes luck = .ok ans) :
    ∃ best : List (Node OA D × (Job D × Result)), best.map Prod.fst = nodes.filter (fun n => !n.skip) ∧
      ans.energy = (best.map fun x => x.2.2.energy.total).sum ∧ ans.latency = (best.map fun x => x.2.2.overall.latency2).sum ∧
      ∀ x ∈ best, ∃ sms, spatialMappings o a x.1 = .ok sms ∧ (∃ sm ∈ sms, Found cacti fact a x.1.layer sm x.2) ∧
        ∀ sm ∈ sms, ∃ e, Found cacti fact a x.1.layer sm e ∧ Net.NoWorse opt x.2.2 e.2 := by
  obtain ⟨c, hc, C⟩ := Whole.accelerator_ok (cacti := cacti) F.acc
  rw [network_pipeline hc] at hans
  obtain ⟨-, hw⟩ := (Pipeline.api_ok_iff (single c) opt nodes).1 ⟨ans, hans⟩
  obtain ⟨op, ho, best, b1, b2, b3, b4, -⟩ := Pipeline.api_answer (single c) opt false nodes hans
  have hb : ∀ x ∈ best, ∃ sms, spatialMappings o a x.1 = .ok sms ∧ (∃ e, Net.cme e = x.2 ∧ ∃ sm ∈ sms, Found cacti fact a x.1.layer sm e) ∧
      ∀ sm ∈ sms, ∃ e, Found cacti fact a x.1.layer sm e ∧ op.key x.2 ≤ op.key (Net.cme e) := by
    intro x hx
    have hm : x.1 ∈ nodes.filter fun n => !n.skip := by
      have : x.1 ∈ best.map Prod.fst := List.mem_map.2 ⟨x, hx, rfl⟩
      rw [b1] at this
      exact this
    obtain ⟨m1, m2⟩ := List.mem_filter.1 hm
    have hs : x.1.skip = false := by simpa using m2
    obtain ⟨rl, rels, K⟩ := hn x.1 m1 hs
    obtain ⟨sms, h1, -, h3⟩ := Net.generated F K O
    obtain ⟨sms', w1, -, w3⟩ := hw x.1 m1 hs
    have w1' : spatialMappings o a x.1 = .ok sms' := w1
    rw [h1] at w1'
    cases w1'
    have each : ∀ sm ∈ sms, ∃ e, Found cacti fact a x.1.layer sm e ∧
        ((env fact ex a c o luck).temporal x.1 sm).1.filterMap (fun tm => ((env fact ex a c o luck).cost x.1 sm tm).toOption) = [Net.cme e] := by
      intro sm hsm
      obtain ⟨k1, k2, k3⟩ := w3 sm hsm
      rcases temporal_spec hf (h3 sm hsm).1 hc (hk x.1 sm) with ⟨hnil, -⟩ | ⟨t, loops, p, j, e1, e2, e3, e4, e5⟩
      · exact absurd hnil k2
      · rw [e1] at k3 ⊢
        obtain ⟨y, hy⟩ := k3 j (List.mem_singleton_self j)
        have hy' : (match evaluate c.hw j with
            | .error e => .error e
            | .ok r => .ok ⟨⟨r.energy.total, r.overall.latency2, true⟩, (j, r)⟩ : Except PyErr (Pipeline.Cme (Job D × Result))) = .ok y := hy
        cases hr : evaluate c.hw j with
        | error e => rw [hr] at hy'; cases hy'
        | ok r =>
          rw [hr] at hy'
          cases hy'
          refine ⟨(j, r), found hf (h3 sm hsm).1 hc e2 e3 e4 e5 hr, ?_⟩
          rw [List.filterMap_cons, hy]
          rfl
    obtain ⟨pre, post, q1, q2, q3⟩ := b2 x hx
    have hcands : ∀ y, y ∈ Pipeline.cands (env fact ex a c o luck) x.1 ↔ ∃ sm ∈ sms, y ∈ ((env fact ex a c o luck).temporal x.1 sm).1.filterMap
        (fun tm => ((env fact ex a c o luck).cost x.1 sm tm).toOption) := by
      intro y
      unfold Pipeline.cands
      have : (env fact ex a c o luck).spatial x.1 = .ok sms := h1
      rw [this]
      simp only [List.mem_flatMap]
    have hin : x.2 ∈ Pipeline.cands (env fact ex a c o luck) x.1 := by rw [q1]; simp
    refine ⟨sms, h1, ?_, fun sm hsm => ?_⟩
    · obtain ⟨sm, hsm, hy⟩ := (hcands _).1 hin
      obtain ⟨e, f1, f2⟩ := each sm hsm
      rw [f2] at hy
      exact ⟨e, (List.mem_singleton.1 hy).symm, sm, hsm, f1⟩
    · obtain ⟨e, f1, f2⟩ := each sm hsm
      refine ⟨e, f1, ?_⟩
      have hin' := (hcands (Net.cme e)).2 ⟨sm, hsm, by rw [f2]; exact List.mem_singleton_self _⟩
      rw [q1] at hin'
      rcases List.mem_append.1 hin' with h | h
      · exact (q2 _ h).le
      · rcases List.mem_cons.1 h with h | h
        · rw [h]
        · exact not_lt.1 (q3 _ h)
  have hres : ∀ x ∈ best, x.2.res.energy = x.2.tag.2.energy.total ∧ x.2.res.latency = x.2.tag.2.overall.latency2 := by
    intro x hx
    obtain ⟨-, -, ⟨e, hce, -⟩, -⟩ := hb x hx
    rw [← hce]
    exact ⟨rfl, rfl⟩
  refine ⟨best.map fun x => (x.1, x.2.tag), ?_, ?_, ?_, ?_⟩
  · rw [List.map_map]
    exact b1
  · rw [b3, List.map_map]
    exact congrArg List.sum (List.map_congr_left fun x hx => (hres x hx).1)
  · rw [b4, List.map_map]
    exact congrArg List.sum (List.map_congr_left fun x hx => (hres x hx).2)
  · intro y hy
    obtain ⟨x, hx, rfl⟩ := List.mem_map.1 hy
    obtain ⟨sms, h1, ⟨e, hce, sm, hsm, hfe⟩, h2⟩ := hb x hx
    refine ⟨sms, h1, ⟨sm, hsm, ?_⟩, fun sm' hsm' => ?_⟩
    · rw [← hce]
      exact hfe
    · obtain ⟨e', f1, f2⟩ := h2 sm' hsm'
      refine ⟨e', f1, ?_⟩
      rw [← hce] at f2 ⊢
      unfold Pipeline.Opt.parse at ho
      split_ifs at ho with p1 p2 p3
      · cases ho
        have := Prod.Lex.toLex_le_toLex.1 f2
        refine ⟨fun _ => ?_, fun h => absurd (p1.symm.trans h) (by decide), fun h => absurd (p1.symm.trans h) (by decide)⟩
        rcases this with h | h
        · exact le_of_lt h
        · exact le_of_eq h.1
      · cases ho
        have := Prod.Lex.toLex_le_toLex.1 f2
        refine ⟨fun h => absurd h p1, fun _ => ?_, fun h => absurd (p2.symm.trans h) (by decide)⟩
        rcases this with h | h
        · exact le_of_lt h
        · exact le_of_eq h.1
      · cases ho
        have := Prod.Lex.toLex_le_toLex.1 f2
        refine ⟨fun h => absurd h p1, fun h => absurd h p2, fun _ => ?_⟩
        rcases this with h | h
        · exact le_of_lt h
        · exact le_of_eq h.1

/-- The bounds for an evaluation that was found. -/
theorem found_bounds (hf : Lpf.FactContract fact) {l : LayerIn D} {rl : Operand → List D} {rels : List (Relation D)} {sm : SM OA D} (I : InputOk a l sm rl rels)
    {c : Acc OA} (hc : Whole.accelerator cacti a = .ok c) {e : Job D × Result} (h : Found cacti fact a l sm e) :
    (Separate c.hw e.1 → (operations l * l.cyclesPerOp : ℚ) ≤ Hierarchy.totalUnits a.sizes * e.2.overall.latency2) ∧
      ((∀ m ∈ a.mems, 0 ≤ (prices cacti m).1 ∧ 0 ≤ (prices cacti m).2) → a.macEnergy * operations l ≤ e.2.energy.total) := by
  obtain ⟨p, -, hfo, hrun⟩ := h
  have I' := ordered_ok I (asData p)
  refine ⟨fun hsep => ?_, fun hp => ?_⟩
  · obtain ⟨c', N, hc', hu⟩ := Whole.run_utilization (cacti := cacti) I' fact hf none (by simp) hfo
    rw [hc] at hc'
    cases hc'
    obtain ⟨evals, err, hr, hall⟩ := hu N le_rfl
    rw [hrun] at hr
    cases hr
    obtain ⟨u1, -, -, -, -, -, u7⟩ := hall e (List.mem_singleton_self e)
    obtain ⟨-, -, -, l1, l2⟩ := u7 hsep
    exact u1.trans (mul_le_mul_of_nonneg_left (l1.trans l2) (Nat.cast_nonneg _))
  · obtain ⟨N, hu⟩ := Whole.run_energy I' hp fact hf none (by simp) hfo
    obtain ⟨evals, err, hr, hall⟩ := hu N le_rfl
    rw [hrun] at hr
    cases hr
    obtain ⟨w1, w2⟩ := hall e (List.mem_singleton_self e)
    have w1' : e.2.energy.total = a.macEnergy * operations l + e.2.energy.mem := w1
    rw [w1']
    linarith

/-- C164: the bounds of C152 for calls with the annealing engine: the reported latency times the units of the array is at least the cycles for all operations, if no two
movements of a port happen exactly once in the evaluations that are found, and if no price is negative the reported energy is at least that of all
multiplications. -/
theorem annealed_bounds (F : FileOk a) (O : OptionsOk o) (hf : Lpf.FactContract fact) (hn : ∀ n ∈ nodes, n.skip = false → ∃ rl rels, NodeOk a n rl rels)
    (hk : ∀ n sm l, ((luck n sm).shuffle l).Perm l) {opt : String} {ans : Reply OA D} (hans : network cacti fact ex a o opt nodes luck = .ok ans) :
    ((∀ c, Whole.accelerator cacti a = .ok c → ∀ n ∈ nodes, n.skip = false → ∀ sms, spatialMappings o a n = .ok sms → ∀ sm ∈ sms, ∀ e,
        Found cacti fact a n.layer sm e → Separate c.hw e.1) →
      (((nodes.filter fun n => !n.skip).map fun n => (operations n.layer * n.layer.cyclesPerOp : ℚ)).sum ≤ Hierarchy.totalUnits a.sizes * ans.latency)) ∧
    ((∀ m ∈ a.mems, 0 ≤ (prices cacti m).1 ∧ 0 ≤ (prices cacti m).2) →
      ((nodes.filter fun n => !n.skip).map fun n => a.macEnergy * operations n.layer).sum ≤ ans.energy) := by
  obtain ⟨c, hc, C⟩ := Whole.accelerator_ok (cacti := cacti) F.acc
  obtain ⟨best, b1, b2, b3, b4⟩ := annealed_answer F O hf hn hk hans
  have hbest : ∀ x ∈ best, ∃ sms sm rl rels, spatialMappings o a x.1 = .ok sms ∧ x.1 ∈ nodes ∧ x.1.skip = false ∧ sm ∈ sms ∧ InputOk a x.1.layer sm rl rels ∧
      Found cacti fact a x.1.layer sm x.2 := by
    intro x hx
    have hm : x.1 ∈ nodes.filter fun n => !n.skip := by rw [← b1]; exact List.mem_map.2 ⟨x, hx, rfl⟩
    obtain ⟨m1, m2⟩ := List.mem_filter.1 hm
    have hs : x.1.skip = false := by simpa using m2
    obtain ⟨rl, rels, K⟩ := hn x.1 m1 hs
    obtain ⟨sms, h1, -, h3⟩ := Net.generated F K O
    obtain ⟨sms', h1', ⟨sm, hsm, hfd⟩, -⟩ := b4 x hx
    rw [h1] at h1'
    cases h1'
    exact ⟨sms, sm, rl, rels, h1, m1, hs, hsm, (h3 sm hsm).1, hfd⟩
  constructor
  · intro hsep
    rw [← b1, List.map_map, b3, ← List.sum_map_mul_left]
    refine List.sum_le_sum fun x hx => ?_
    obtain ⟨sms, sm, rl, rels, h1, m1, m2, hsm, I, hfd⟩ := hbest x hx
    exact (found_bounds hf I hc hfd).1 (hsep c hc x.1 m1 m2 sms h1 sm hsm x.2 hfd)
  · intro hp
    rw [← b1, List.map_map, b2]
    refine List.sum_le_sum fun x hx => ?_
    obtain ⟨sms, sm, rl, rels, h1, m1, m2, hsm, I, hfd⟩ := hbest x hx
    exact (found_bounds hf I hc hfd).2 hp

/-- The mapping that is found is one of the exhaustive engine. -/
theorem temporal_less (hf : Lpf.FactContract fact) {n : Node OA D} {rl : Operand → List D} {rels : List (Relation D)} {sm : SM OA D} (I : InputOk a n.layer sm rl rels)
    {c : Acc OA} (hc : Whole.accelerator cacti a = .ok c) (hk : ∀ l, ((luck n sm).shuffle l).Perm l) :
    ∃ N, ∀ fuel, N ≤ fuel → ((env fact ex a c o luck).temporal n sm).1 ⊆ ((Net.env fact a c { o with limit := none } fuel).temporal (freed n) sm).1 ∧
      (((env fact ex a c o luck).temporal n sm).2 = none → ((Net.env fact a c { o with limit := none } fuel).temporal (freed n) sm).2 = none) := by
  rcases temporal_spec (o := o) (ex := ex) hf I hc hk with ⟨h1, e, h2⟩ | ⟨t, loops, p, j, e1, e2, e3, e4, e5⟩
  · refine ⟨0, fun fuel _ => ⟨?_, fun h => ?_⟩⟩
    · rw [h1]
      exact List.nil_subset _
    · rw [h2] at h
      cases h
  · obtain ⟨c', hc', C⟩ := Whole.accelerator_ok (cacti := cacti) I.acc
    rw [hc] at hc'
    cases hc'
    obtain ⟨lim, limI, t', -, ht', P, -⟩ := Whole.task_ok I C
    rw [e2] at ht'
    cases ht'
    obtain ⟨s1, s2, s3, s4, -, -⟩ := Whole.engine_sizes I.layer
    set sizes : Dict D Int := n.layer.sizes.map fun e => (e.1, (e.2 : Int)) with hsz
    obtain ⟨ld, lds, hk⟩ : ∃ ld lds, sizes.keys = ld :: lds := by
      clear_value sizes
      cases sizes with
      | nil => exact absurd rfl s3
      | cons p s => exact ⟨p.1, Dict.keys s, rfl⟩
    obtain ⟨N, hN⟩ := generate_all hf ld lds (fun x => Search.mapOrder c.hw c.topo t (Engine.toAlloc x)) s1 s2 (fun x hx => (Whole.spatialLoops_mem P x hx).1)
      (fun x e he => Search.mapOrder_error P he) e3
    refine ⟨N, fun fuel hfu => ?_⟩
    obtain ⟨l, err, g1, g2, -⟩ := hN fuel hfu
    have ht' : Whole.task a c (freed n).layer sm = .ok t := e2
    have h2 : (Net.env fact a c { o with limit := none } fuel).temporal (freed n) sm = (l, err) := by
      unfold Net.env
      simp only [ht', Search.mappings]
      have : ((freed n).layer.sizes.map fun e => (e.1, (e.2 : Int))) = sizes := rfl
      rw [this, hk]
      have he : (freed n).layer.order = [] := rfl
      rw [he, g1]
    have hto : Engine.toAlloc (p.map fun l => (toLex l : D ×ₗ Nat)) = p.map fun l => (l.1, (l.2 : ℚ)) := by
      unfold Engine.toAlloc
      rw [List.map_map]
      rfl
    obtain ⟨k1, k2⟩ := g2 p j e4 (by rw [hto]; exact e5)
    rw [h2, e1]
    refine ⟨fun x hx => ?_, fun _ => k2⟩
    rw [List.mem_singleton.1 hx]
    exact k1

/-- C164 (partial): whatever the random numbers, the annealing engine never gives a better answer than the exhaustive one without limit on loops and without orderings of
the user: if the call with the annealing engine has an answer, the other call has one that is no worse, or one of its evaluations divides by zero.  Missing: answers
with a limit on loops, which the annealing engine can improve. -/
theorem exhaustive_partial (F : FileOk a) (O : OptionsOk o) (hf : Lpf.FactContract fact) (hn : ∀ n ∈ nodes, n.skip = false → ∃ rl rels, NodeOk a n rl rels)
    (hk : ∀ n sm l, ((luck n sm).shuffle l).Perm l) :
    ∃ M, ∀ fuel, M ≤ fuel → ∀ opt ans, network cacti fact ex a o opt nodes luck = .ok ans →
      (∃ ans', Net.network cacti fact a { o with limit := none } opt (nodes.map freed) fuel = .ok ans' ∧ Compare.NoWorse opt nodes ans' ans) ∨
        Net.network cacti fact a { o with limit := none } opt (nodes.map freed) fuel = .error .zeroDivision := by
  obtain ⟨c, hc, C⟩ := Whole.accelerator_ok (cacti := cacti) F.acc
  have O' : OptionsOk ({ o with limit := none } : Options OA D) := { O with limit := by simp }
  have hfree : ∀ n ∈ nodes.map freed, n.skip = false → ∃ (rl : Operand → List D) (rels : List (Relation D)), NodeOk a n rl rels := by
    intro n hmem hs
    obtain ⟨m, hm, rfl⟩ := List.mem_map.1 hmem
    obtain ⟨rl, rels, K⟩ := hn m hm hs
    exact ⟨rl, rels, ⟨{ K.layer with }, K.stored, K.linked, K.delivers, K.holds, K.user, K.whole, K.known, K.hints, by intro e he; cases he⟩⟩
  obtain ⟨M1, hM1⟩ := Net.all_runs (cacti := cacti) (nodes := nodes.map freed) F O' hf hfree
  obtain ⟨M2, hM2⟩ := Net.bound_all (P := fun n fuel => n.skip = false → ∀ sms, Net.spatialMappings o a n = .ok sms → ∀ sm ∈ sms,
      ((env fact ex a c o luck).temporal n sm).1 ⊆ ((Net.env fact a c { o with limit := none } fuel).temporal (freed n) sm).1 ∧
      (((env fact ex a c o luck).temporal n sm).2 = none → ((Net.env fact a c { o with limit := none } fuel).temporal (freed n) sm).2 = none)) nodes fun n hm => by
    by_cases hs : n.skip = false
    · obtain ⟨rl, rels, K⟩ := hn n hm hs
      obtain ⟨sms, h1, -, h3⟩ := Net.generated (o := o) F K O
      obtain ⟨M, hM⟩ := Net.bound_all (P := fun sm fuel => ((env fact ex a c o luck).temporal n sm).1 ⊆ ((Net.env fact a c { o with limit := none } fuel).temporal (freed n) sm).1 ∧
        (((env fact ex a c o luck).temporal n sm).2 = none → ((Net.env fact a c { o with limit := none } fuel).temporal (freed n) sm).2 = none)) sms
        fun sm hsm => temporal_less hf (h3 sm hsm).1 hc (hk n sm)
      refine ⟨M, fun fuel hfu _ sms' h' sm hsm => ?_⟩
      rw [h1] at h'
      cases h'
      exact hM fuel hfu sm hsm
    · exact ⟨0, fun _ _ h => absurd h hs⟩
  refine ⟨max M1 M2, fun fuel hfu opt ans hans => ?_⟩
  rw [network_pipeline hc] at hans
  rw [Compare.network_pipeline hc]
  have hless := hM2 fuel (le_of_max_le_right hfu)
  obtain ⟨hopt, hw⟩ := (Pipeline.api_ok_iff (single c) opt nodes).1 ⟨ans, hans⟩
  have hr := Pipeline.api_raises (Net.single (fact := fact) (a := a) (o := ({ o with limit := none } : Options OA D)) c fuel) (Q := fun e => e = .zeroDivision) opt hopt
    (nodes.map freed) fun n hmem hs => by
      obtain ⟨sms, h1, R⟩ := hM1 fuel (le_of_max_le_left hfu) n hmem hs
      obtain ⟨m, hm, rfl⟩ := List.mem_map.1 hmem
      refine ⟨sms, h1, R.some, fun sm hsm => ?_⟩
      obtain ⟨k1, k2⟩ := R.search c hc sm hsm
      have hs' : m.skip = false := hs
      have h1' : Net.spatialMappings o a m = .ok sms := by
        rw [← Compare.spatial_freed]
        exact h1
      obtain ⟨sms', w1, -, w3⟩ := hw m hm hs'
      have w1' : Net.spatialMappings o a m = .ok sms' := w1
      rw [h1'] at w1'
      cases w1'
      have hnone := (hless m hm hs' sms h1' sm hsm).2 (w3 sm hsm).1
      refine ⟨fun e he => ?_, fun h0 => ?_, fun j hj e he => ?_⟩
      · rw [hnone] at he
        cases he
      · rcases k1 with ⟨-, k1⟩ | ⟨x, k1, -⟩
        · exact k1
        · rw [hnone] at k1
          cases k1
      · have he' : (match Evaluate.evaluate c.hw j with
            | .error e => .error e
            | .ok r => .ok ⟨⟨r.energy.total, r.overall.latency2, true⟩, (j, r)⟩ : Except PyErr (Pipeline.Cme (Job D × Result))) = .error e := he
        rcases k2 j hj with h | ⟨r, h⟩
        · rw [h] at he'
          cases he'
          rfl
        · rw [h] at he'
          cases he'
  rcases hr with ⟨ans', ha⟩ | ⟨e, he, rfl⟩
  · refine Or.inl ⟨ans', ha, Compare.answers_compare_env (Net.single c fuel) (fun _ => rfl) (single c) (fun _ => rfl) freed (fun _ => rfl) ha hans
      fun op _ n hm hs y hy => ⟨y, ?_, le_refl _⟩⟩
    obtain ⟨sms, w1, -, -⟩ := hw n hm hs
    unfold Pipeline.cands at hy ⊢
    rw [w1] at hy
    have w1' : (Net.env fact a c { o with limit := none } fuel).spatial (freed n) = .ok sms := (Compare.spatial_freed o a n).trans w1
    rw [w1']
    simp only [List.mem_flatMap] at hy ⊢
    obtain ⟨sm, hsm, hx⟩ := hy
    obtain ⟨j, hj, hjx⟩ := List.mem_filterMap.1 hx
    exact ⟨sm, hsm, List.mem_filterMap.2 ⟨j, (hless n hm hs sms w1 sm hsm).1 hj, hjx⟩⟩
  · exact Or.inr he

end Verif.Anneal
