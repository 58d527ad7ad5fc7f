import Verif.Net.Gen
import Verif.Pipeline.Errors
import Verif.Whole.Energy

/-! C151, C152: what a whole call returns. -/

namespace Verif.Net

open Evaluate (Job Result Separate)
open Latency (Operand)
open LayerNode (Relation)
open Ports (MemD)
open SpatialMapping (SM)
open Whole (AccD Acc AccOk InputOk LayerIn run operations prices)

variable {OA : Type} [DecidableEq OA] {D : Type} [LinearOrder D]
variable {a : AccD OA} {o : Options OA D} {nodes : List (Node OA D)} {cacti : MemD Operand OA → ℚ × ℚ} {fact : Nat → List (Nat × Nat)}

theorem bound_all {α : Type} {P : α → Nat → Prop} : ∀ l : List α, (∀ x ∈ l, ∃ N, ∀ f, N ≤ f → P x f) → ∃ N, ∀ f, N ≤ f → ∀ x ∈ l, P x f
  | [], _ => ⟨0, by simp⟩
  | x :: t, h => by
    obtain ⟨N, hN⟩ := bound_all t fun y hy => h y (List.mem_cons_of_mem _ hy)
    obtain ⟨M, hM⟩ := h x List.mem_cons_self
    refine ⟨max N M, fun f hf y hy => ?_⟩
    rcases List.mem_cons.1 hy with rfl | hy
    · exact hM f (le_of_max_le_right hf)
    · exact hN f (le_of_max_le_left hf) y hy

theorem single (c : Acc OA) (fuel : Nat) : Pipeline.Single (env fact a c o fuel) := by
  intro l sm tm x h
  unfold env at h
  simp only at h
  split at h
  · cases h
  · cases h
    rfl

/-- A run is the evaluation of what the search yields. -/
theorem run_temporal {c : Acc OA} (hc : Whole.accelerator cacti a = .ok c) (n : Node OA D) (sm : SM OA D) {fuel : Nat} {r : List (Job D × Result) × Option PyErr}
    (h : run cacti fact a n.layer sm o.limit fuel = some r) :
    r = Search.evaluations c.hw ((env fact a c o fuel).temporal n sm).1 ((env fact a c o fuel).temporal n sm).2 := by
  unfold run at h
  rw [hc] at h
  simp only at h
  show r = Search.evaluations c.hw (match Whole.task a c n.layer sm with | .error e => _ | .ok t => _ : Pipeline.Gen (Job D)).1 _
  unfold env
  simp only
  cases ht : Whole.task a c n.layer sm with
  | error e =>
    rw [ht] at h
    cases h
    rfl
  | ok t =>
    rw [ht] at h
    simp only at h ⊢
    cases hm : Search.mappings fact c.hw c.topo t (n.layer.sizes.map fun e => (e.1, (e.2 : Int))) (Whole.spatialLoops t) o.limit n.layer.order fuel with
    | none => rw [hm] at h; cases h
    | some x =>
      rw [hm] at h
      cases h
      rfl

/-- The result of an evaluation as the stages see it. -/
def cme (e : Job D × Result) : Pipeline.Cme (Job D × Result) := ⟨⟨e.2.energy.total, e.2.overall.latency2, true⟩, e⟩

theorem evaluations_done {h : Evaluate.Hw} : ∀ {jobs : List (Job D)} {err : Option PyErr}, (Search.evaluations h jobs err).2 = none ↔
    err = none ∧ ∀ j ∈ jobs, ∃ r, Evaluate.evaluate h j = .ok r
  | [], err => by simp [Search.evaluations]
  | j :: js, err => by
    unfold Search.evaluations
    cases hj : Evaluate.evaluate h j with
    | error x => simp [hj]
    | ok r =>
      simp only
      rw [evaluations_done]
      simp [hj]

theorem evaluations_list {c : Acc OA} {fuel : Nat} (n : Node OA D) (sm : SM OA D) : ∀ {jobs : List (Job D)} {err : Option PyErr},
    (∀ j ∈ jobs, ∃ r, Evaluate.evaluate c.hw j = .ok r) →
    jobs.filterMap (fun j => ((env fact a c o fuel).cost n sm j).toOption) = (Search.evaluations c.hw jobs err).1.map cme
  | [], _, _ => rfl
  | j :: js, err, h => by
    obtain ⟨r, hr⟩ := h j List.mem_cons_self
    have ih := evaluations_list (fuel := fuel) (c := c) n sm (jobs := js) (err := err) fun x hx => h x (List.mem_cons_of_mem _ hx)
    have hcost : (env fact a c o fuel).cost n sm j = .ok (cme (j, r)) := by
      unfold env
      simp only [hr]
      rfl
    unfold Search.evaluations
    rw [List.filterMap_cons_some (by rw [hcost]; rfl), ih, hr]
    rfl

/-- What is known of the search for a spatial mapping. -/
def Searched (fact : Nat → List (Nat × Nat)) (a : AccD OA) (o : Options OA D) (c : Acc OA) (n : Node OA D) (fuel : Nat) (sm : SM OA D) : Prop :=
  (((env fact a c o fuel).temporal n sm).2 = none ∧ ((env fact a c o fuel).temporal n sm).1 ≠ [] ∨
    ∃ e, ((env fact a c o fuel).temporal n sm).2 = some e ∧ Ordering.Refusal n.layer.order e) ∧
  ∀ j ∈ ((env fact a c o fuel).temporal n sm).1, Evaluate.evaluate c.hw j = .error .zeroDivision ∨ ∃ r, Evaluate.evaluate c.hw j = .ok r

theorem searched {rl : Operand → List D} {rels : List (Relation D)} {n : Node OA D} {sm : SM OA D} (I : InputOk a n.layer sm rl rels) (O : OptionsOk o)
    (hf : Lpf.FactContract fact) (hor : ∀ e ∈ n.layer.order, e.2 = none) {c : Acc OA} (hc : Whole.accelerator cacti a = .ok c) : ∃ N, ∀ fuel, N ≤ fuel → Searched fact a o c n fuel sm := by
  obtain ⟨c', hc', C⟩ := Whole.accelerator_ok (cacti := cacti) I.acc
  rw [hc] at hc'
  cases hc'
  obtain ⟨lim, limI, t, -, ht, P, e1, e2, e3, -⟩ := Whole.task_ok I C
  obtain ⟨s1, s2, s3, s4, -, -⟩ := Whole.engine_sizes I.layer
  have hlk : ∀ p ∈ c.hw.ports, ∀ k ∈ p.served, k.1 ∈ t.ops := fun p hp k hk => by
    obtain ⟨m, hm, hmk⟩ := C.linked p hp k hk
    rw [e1]
    exact I.linked m hm _ hmk
  obtain ⟨N, o₀, L, -, -, -, -, -, q6⟩ := Search.search_partial P hlk fact hf _ s1 s2 s3 (by rw [e3]; exact s4) (Whole.spatialLoops t)
    (fun x hx => (Whole.spatialLoops_mem P x hx).1) o.limit O.limit _ (Or.inl hor)
  refine ⟨N, fun fuel hfu => ?_⟩
  obtain ⟨jobs, err, g1, -, g3, g4, -⟩ := q6 fuel hfu
  have hT : (env fact a c o fuel).temporal n sm = (jobs, err) := by
    unfold env
    simp only [ht, g1]
  unfold Searched
  rw [hT]
  refine ⟨?_, fun j hj => ?_⟩
  · rcases g3 with h | h
    · exact Or.inl h
    · exact Or.inr h.1
  · obtain ⟨o, -, -, R⟩ := g4 j hj
    obtain ⟨st, on, off, -, h | ⟨r, h, -⟩⟩ := Evaluate.evaluated_partial R
    · exact Or.inl h.1
    · exact Or.inr ⟨r, h⟩

/-- What is known of every run of a layer that is not skipped. -/
structure Runs (cacti : MemD Operand OA → ℚ × ℚ) (fact : Nat → List (Nat × Nat)) (a : AccD OA) (o : Options OA D) (n : Node OA D) (fuel : Nat)
    (sms : List (SM OA D)) : Prop where
  some : sms ≠ []
  runs : ∀ sm ∈ sms, ∃ evals err, run cacti fact a n.layer sm o.limit fuel = Option.some (evals, err) ∧
    (err = none ∧ evals ≠ [] ∨ err = Option.some .zeroDivision ∨ ∃ e, err = Option.some e ∧ Ordering.Refusal n.layer.order e)
  search : ∀ c, Whole.accelerator cacti a = .ok c → ∀ sm ∈ sms, Searched fact a o c n fuel sm

theorem all_runs (F : FileOk a) (O : OptionsOk o) (hf : Lpf.FactContract fact) (hn : ∀ n ∈ nodes, n.skip = false → ∃ rl rels, NodeOk a n rl rels) :
    ∃ N, ∀ fuel, N ≤ fuel → ∀ n ∈ nodes, n.skip = false → ∃ sms, spatialMappings o a n = .ok sms ∧ Runs cacti fact a o n fuel sms := by
  refine bound_all (P := fun n fuel => n.skip = false → ∃ sms, spatialMappings o a n = .ok sms ∧ Runs cacti fact a o n fuel sms) nodes fun n hmem => ?_
  by_cases hs : n.skip = false
  · obtain ⟨rl, rels, hNode⟩ := hn n hmem hs
    obtain ⟨sms, h1, h2, h3⟩ := generated F hNode O
    obtain ⟨N, hN⟩ := bound_all (P := fun sm fuel => ∃ evals err, run cacti fact a n.layer sm o.limit fuel = some (evals, err) ∧
        (err = none ∧ evals ≠ [] ∨ err = some .zeroDivision ∨ ∃ e, err = some e ∧ Ordering.Refusal n.layer.order e)) sms fun sm hsm => by
      obtain ⟨c, t, -, -, N, o₀, L, -, -, -, h⟩ := Whole.run_partial (cacti := cacti) (h3 sm hsm).1 fact hf o.limit O.limit (Or.inl hNode.order)
      refine ⟨N, fun f hf => ?_⟩
      obtain ⟨evals, err, r1, -, r3, -⟩ := h f hf
      refine ⟨evals, err, r1, ?_⟩
      rcases r3 with h | h | h
      · exact Or.inl h
      · exact Or.inr (Or.inl h)
      · exact Or.inr (Or.inr h.1)
    obtain ⟨c, hc, -⟩ := Whole.accelerator_ok (cacti := cacti) F.acc
    obtain ⟨M, hM⟩ := bound_all (P := fun sm fuel => Searched fact a o c n fuel sm) sms fun sm hsm => searched (h3 sm hsm).1 O hf hNode.order hc
    refine ⟨max N M, fun f hf _ => ⟨sms, h1, h2, hN f (le_of_max_le_left hf), fun c' hc' => ?_⟩⟩
    rw [hc] at hc'
    cases hc'
    exact hM f (le_of_max_le_right hf)
  · exact ⟨0, fun f _ h => absurd h hs⟩

theorem works_iff {c : Acc OA} (hc : Whole.accelerator cacti a = .ok c) {n : Node OA D} {fuel : Nat} {sms : List (SM OA D)} (h1 : spatialMappings o a n = .ok sms)
    (R : Runs cacti fact a o n fuel sms) :
    Pipeline.Works (env fact a c o fuel) n ↔ ∀ sm ∈ sms, ∃ evals, run cacti fact a n.layer sm o.limit fuel = some (evals, none) := by
  have hcost : ∀ sm j, (∃ x, (env fact a c o fuel).cost n sm j = .ok x) ↔ ∃ r, Evaluate.evaluate c.hw j = .ok r := by
    intro sm j
    unfold env
    simp only
    cases Evaluate.evaluate c.hw j with
    | error e => simp
    | ok r => simp
  constructor
  · rintro ⟨sms', w1, -, w3⟩ sm hsm
    have w1' : spatialMappings o a n = .ok sms' := w1
    rw [h1] at w1'
    cases w1'
    obtain ⟨evals, err, r1, -⟩ := R.runs sm hsm
    obtain ⟨t1, -, t3⟩ := w3 sm hsm
    have := run_temporal hc n sm r1
    have hd := (evaluations_done (h := c.hw) (jobs := ((env fact a c o fuel).temporal n sm).1)).2 ⟨t1, fun j hj => (hcost sm j).1 (t3 j hj)⟩
    rw [← this] at hd
    simp only at hd
    subst hd
    exact ⟨evals, r1⟩
  · intro h
    refine ⟨sms, h1, R.some, fun sm hsm => ?_⟩
    obtain ⟨evals, r1⟩ := h sm hsm
    have := run_temporal hc n sm r1
    have hd := (evaluations_done (h := c.hw) (jobs := ((env fact a c o fuel).temporal n sm).1)).1 (by rw [← this])
    refine ⟨hd.1, fun hnil => ?_, fun j hj => (hcost sm j).2 (hd.2 j hj)⟩
    rw [hnil, hd.1] at this
    obtain ⟨evals', err', r1', r2⟩ := R.runs sm hsm
    rw [r1] at r1'
    cases r1'
    rcases r2 with ⟨-, h⟩ | h | h
    · cases this
      exact h rfl
    · cases h
    · obtain ⟨_, h, -⟩ := h
      cases h

theorem cands_eq {c : Acc OA} (hc : Whole.accelerator cacti a = .ok c) {n : Node OA D} {fuel : Nat} {sms : List (SM OA D)} (h1 : spatialMappings o a n = .ok sms)
    (h : ∀ sm ∈ sms, ∃ evals, run cacti fact a n.layer sm o.limit fuel = some (evals, none)) (x : Pipeline.Cme (Job D × Result)) :
    x ∈ Pipeline.cands (env fact a c o fuel) n ↔ ∃ sm ∈ sms, ∃ evals, run cacti fact a n.layer sm o.limit fuel = some (evals, none) ∧ ∃ e ∈ evals, cme e = x := by
  have hcl : ∀ sm ∈ sms, ∀ evals, run cacti fact a n.layer sm o.limit fuel = some (evals, none) →
      ((env fact a c o fuel).temporal n sm).1.filterMap (fun j => ((env fact a c o fuel).cost n sm j).toOption) = evals.map cme := by
    intro sm hsm evals hr
    have := run_temporal hc n sm hr
    have hd := (evaluations_done (h := c.hw) (jobs := ((env fact a c o fuel).temporal n sm).1)).1 (by rw [← this])
    rw [evaluations_list n sm (err := ((env fact a c o fuel).temporal n sm).2) hd.2, ← this]
  have hs : (env fact a c o fuel).spatial n = .ok sms := h1
  unfold Pipeline.cands
  rw [hs]
  simp only [List.mem_flatMap]
  constructor
  · rintro ⟨sm, hsm, hx⟩
    obtain ⟨evals, hr⟩ := h sm hsm
    rw [hcl sm hsm evals hr] at hx
    obtain ⟨e, he, rfl⟩ := List.mem_map.1 hx
    exact ⟨sm, hsm, evals, hr, e, he, rfl⟩
  · rintro ⟨sm, hsm, evals, hr, e, he, rfl⟩
    exact ⟨sm, hsm, by rw [hcl sm hsm evals hr]; exact List.mem_map.2 ⟨e, he, rfl⟩⟩

/-- C151: a call on files that fit together ends; it returns a result exactly if for every layer that is not skipped the run of every generated spatial mapping
ends without exception (`Whole.run_partial` says when), and the only exceptions are those of `Stopped`: the division by zero, and that there is no loop order that fits and obeys the ordering of the user. -/
theorem network_partial (F : FileOk a) (O : OptionsOk o) (hf : Lpf.FactContract fact) (hn : ∀ n ∈ nodes, n.skip = false → ∃ rl rels, NodeOk a n rl rels) :
    ∃ N, ∀ fuel, N ≤ fuel → ∀ opt, Known opt →
      ((∃ ans, network cacti fact a o opt nodes fuel = .ok ans) ∨ ∃ e, network cacti fact a o opt nodes fuel = .error e ∧ Stopped nodes e) ∧
      ((∃ ans, network cacti fact a o opt nodes fuel = .ok ans) ↔ ∀ n ∈ nodes, n.skip = false → ∀ sms, spatialMappings o a n = .ok sms → ∀ sm ∈ sms,
        ∃ evals, run cacti fact a n.layer sm o.limit fuel = some (evals, none)) := by
  obtain ⟨c, hc, C⟩ := Whole.accelerator_ok (cacti := cacti) F.acc
  obtain ⟨N, hN⟩ := all_runs (cacti := cacti) F O hf hn
  refine ⟨N, fun fuel hfu opt hopt => ?_⟩
  have hnet : network cacti fact a o opt nodes fuel = Pipeline.api opt false (env fact a c o fuel) nodes := by unfold network; rw [hc]
  rw [hnet]
  constructor
  · have := Pipeline.api_raises (single (fact := fact) (a := a) (o := o) c fuel) (Q := Stopped nodes) opt hopt nodes
      fun n hmem hs => by
        obtain ⟨sms, h1, R⟩ := hN fuel hfu n hmem hs
        refine ⟨sms, h1, R.some, fun sm hsm => ?_⟩
        obtain ⟨k1, k2⟩ := R.search c hc sm hsm
        refine ⟨fun e he => ?_, fun h0 => ?_, fun j hj e he => ?_⟩
        · rcases k1 with ⟨k1, -⟩ | ⟨x, k1, k3⟩
          · rw [k1] at he; cases he
          · rw [k1] at he
            cases he
            obtain ⟨rl, rels, hNode⟩ := hn n hmem hs
            rcases k3 with _ | ⟨k3, k4⟩ | k3
            · exact Or.inl rfl
            · refine Or.inr (Or.inr (Or.inl ⟨k3, n, hmem, hs, List.eq_nil_iff_forall_not_mem.2 fun x hx => k4 x hx (hNode.order x hx)⟩))
            · obtain ⟨x, hx, -⟩ := k3
              exact Or.inr (Or.inr (Or.inr ⟨rfl, n, hmem, hs, List.ne_nil_of_mem hx⟩))
        · rcases k1 with ⟨-, k1⟩ | ⟨x, k1, -⟩
          · exact k1
          · rw [k1] at h0; cases h0
        · have he' : (match Evaluate.evaluate c.hw j with
              | .error e => .error e
              | .ok r => .ok ⟨⟨r.energy.total, r.overall.latency2, true⟩, (j, r)⟩ : Except PyErr (Pipeline.Cme (Job D × Result))) = .error e := he
          rcases k2 j hj with h | ⟨r, h⟩
          · rw [h] at he'
            cases he'
            exact Or.inr (Or.inl rfl)
          · rw [h] at he'
            cases he'
    exact this
  · rw [Pipeline.api_ok_iff (single c fuel)]
    constructor
    · rintro ⟨-, h⟩ n hmem hs sms h1 sm hsm
      obtain ⟨sms', h1', R⟩ := hN fuel hfu n hmem hs
      rw [h1] at h1'
      cases h1'
      exact (works_iff hc h1 R).1 (h n hmem hs) sm hsm
    · intro h
      refine ⟨hopt, fun n hmem hs => ?_⟩
      obtain ⟨sms, h1, R⟩ := hN fuel hfu n hmem hs
      exact (works_iff hc h1 R).2 (h n hmem hs sms h1)

/-- What a criterion compares. -/
def NoWorse (opt : String) (x e : Result) : Prop :=
  (opt = "energy" → x.energy.total ≤ e.energy.total) ∧ (opt = "latency" → x.overall.latency2 ≤ e.overall.latency2) ∧
    (opt = "EDP" → x.overall.latency2 * x.energy.total ≤ e.overall.latency2 * e.energy.total)

/-- C151: the answer of a call: for every layer that is not skipped, in order, one evaluation out of the runs of its generated mappings which is no worse than any
evaluation of any of these runs, and the reported energy and latency are the sums. -/
theorem network_answer (F : FileOk a) (O : OptionsOk o) (hf : Lpf.FactContract fact) (hn : ∀ n ∈ nodes, n.skip = false → ∃ rl rels, NodeOk a n rl rels) :
    ∃ N, ∀ fuel, N ≤ fuel → ∀ opt ans, network cacti fact a o opt nodes fuel = .ok ans →
      ∃ best : List (Node OA D × (Job D × Result)), best.map Prod.fst = nodes.filter (fun n => !n.skip) ∧
        ans.energy = (best.map fun x => x.2.2.energy.total).sum ∧ ans.latency = (best.map fun x => x.2.2.overall.latency2).sum ∧
        ∀ x ∈ best, ∃ sms, spatialMappings o a x.1 = .ok sms ∧
          (∃ sm ∈ sms, ∃ evals, run cacti fact a x.1.layer sm o.limit fuel = some (evals, none) ∧ x.2 ∈ evals) ∧
          ∀ sm ∈ sms, ∃ evals, run cacti fact a x.1.layer sm o.limit fuel = some (evals, none) ∧ ∀ e ∈ evals, NoWorse opt x.2.2 e.2 := by
  obtain ⟨c, hc, C⟩ := Whole.accelerator_ok (cacti := cacti) F.acc
  obtain ⟨N, hN⟩ := all_runs (cacti := cacti) F O hf hn
  refine ⟨N, fun fuel hfu opt ans hans => ?_⟩
  have hnet : network cacti fact a o opt nodes fuel = Pipeline.api opt false (env fact a c o fuel) nodes := by unfold network; rw [hc]
  rw [hnet] at hans
  obtain ⟨-, hw⟩ := (Pipeline.api_ok_iff (single c fuel) opt nodes).1 ⟨ans, hans⟩
  obtain ⟨op, ho, best, b1, b2, b3, b4, -⟩ := Pipeline.api_answer (single c fuel) opt false nodes hans
  have hb : ∀ x ∈ best, ∃ sms, spatialMappings o a x.1 = .ok sms ∧ (∀ sm ∈ sms, ∃ evals, run cacti fact a x.1.layer sm o.limit fuel = some (evals, none)) ∧
      (∃ e, cme e = x.2 ∧ ∃ sm ∈ sms, ∃ evals, run cacti fact a x.1.layer sm o.limit fuel = some (evals, none) ∧ e ∈ evals) ∧
      ∀ sm ∈ sms, ∀ evals, run cacti fact a x.1.layer sm o.limit fuel = some (evals, none) → ∀ e ∈ evals, op.key x.2 ≤ op.key (cme e) := by
    intro x hx
    have hm : x.1 ∈ nodes.filter fun n => !n.skip := by
      have : x.1 ∈ best.map Prod.fst := List.mem_map.2 ⟨x, hx, rfl⟩
      rw [b1] at this
      exact this
    obtain ⟨m1, m2⟩ := List.mem_filter.1 hm
    have hs : x.1.skip = false := by simpa using m2
    obtain ⟨sms, h1, R⟩ := hN fuel hfu x.1 m1 hs
    have hall := (works_iff hc h1 R).1 (hw x.1 m1 hs)
    obtain ⟨pre, post, q1, q2, q3⟩ := b2 x hx
    have hin : x.2 ∈ Pipeline.cands (env fact a c o fuel) x.1 := by rw [q1]; simp
    obtain ⟨sm, hsm, evals, hr, e, he, hce⟩ := (cands_eq hc h1 hall x.2).1 hin
    refine ⟨sms, h1, hall, ⟨e, hce, sm, hsm, evals, hr, he⟩, fun sm' hsm' evals' hr' e' he' => ?_⟩
    have hin' := (cands_eq hc h1 hall (cme e')).2 ⟨sm', hsm', evals', hr', e', he', rfl⟩
    rw [q1] at hin'
    rcases List.mem_append.1 hin' with h | h
    · exact (q2 _ h).le
    · rcases List.mem_cons.1 h with h | h
      · rw [h]
      · exact not_lt.1 (q3 _ h)
  have hres : ∀ x ∈ best, x.2.res.energy = x.2.tag.2.energy.total ∧ x.2.res.latency = x.2.tag.2.overall.latency2 := by
    intro x hx
    obtain ⟨-, -, -, ⟨e, hce, -⟩, -⟩ := hb x hx
    rw [← hce]
    exact ⟨rfl, rfl⟩
  refine ⟨best.map fun x => (x.1, x.2.tag), ?_, ?_, ?_, fun y hy => ?_⟩
  · rw [List.map_map]
    exact b1
  · rw [b3, List.map_map]
    exact congrArg List.sum (List.map_congr_left fun x hx => (hres x hx).1)
  · rw [b4, List.map_map]
    exact congrArg List.sum (List.map_congr_left fun x hx => (hres x hx).2)
  · obtain ⟨x, hx, rfl⟩ := List.mem_map.1 hy
    obtain ⟨sms, h1, h2, ⟨e, hce, sm, hsm, evals, hr, he⟩, h4⟩ := hb x hx
    have htag : x.2.tag = e := by rw [← hce]; rfl
    refine ⟨sms, h1, ⟨sm, hsm, evals, hr, by rw [htag]; exact he⟩, fun sm' hsm' => ?_⟩
    obtain ⟨evals', hr'⟩ := h2 sm' hsm'
    refine ⟨evals', hr', fun e' he' => ?_⟩
    have hk := h4 sm' hsm' evals' hr' e' he'
    rw [← hce] at hk
    simp only [htag]
    unfold Pipeline.Opt.parse at ho
    split_ifs at ho with p1 p2 p3
    · cases ho
      have := Prod.Lex.toLex_le_toLex.1 hk
      refine ⟨fun _ => ?_, fun h => absurd (p1.symm.trans h) (by decide), fun h => absurd (p1.symm.trans h) (by decide)⟩
      rcases this with h | h
      · exact le_of_lt h
      · exact le_of_eq h.1
    · cases ho
      have := Prod.Lex.toLex_le_toLex.1 hk
      refine ⟨fun h => absurd h p1, fun _ => ?_, fun h => absurd (p2.symm.trans h) (by decide)⟩
      rcases this with h | h
      · exact le_of_lt h
      · exact le_of_eq h.1
    · cases ho
      have := Prod.Lex.toLex_le_toLex.1 hk
      refine ⟨fun h => absurd h p1, fun h => absurd h p2, fun _ => ?_⟩
      rcases this with h | h
      · exact le_of_lt h
      · exact le_of_eq h.1

/-- C152: bounds for the answer of a call: the reported latency times the units of the array is at least the cycles for all operations of all layers that are not
skipped, if no two movements of a port happen exactly once in the evaluations; and if no price is negative the reported energy is at least that of all
multiplications. -/
theorem network_bounds (F : FileOk a) (O : OptionsOk o) (hf : Lpf.FactContract fact) (hn : ∀ n ∈ nodes, n.skip = false → ∃ rl rels, NodeOk a n rl rels) :
    ∃ N, ∀ fuel, N ≤ fuel → ∀ opt ans, network cacti fact a o opt nodes fuel = .ok ans →
      ((∀ c, Whole.accelerator cacti a = .ok c → ∀ n ∈ nodes, n.skip = false → ∀ sms, spatialMappings o a n = .ok sms → ∀ sm ∈ sms, ∀ evals err,
          run cacti fact a n.layer sm o.limit fuel = some (evals, err) → ∀ e ∈ evals, Separate c.hw e.1) →
        (((nodes.filter fun n => !n.skip).map fun n => (operations n.layer * n.layer.cyclesPerOp : ℚ)).sum ≤ Hierarchy.totalUnits a.sizes * ans.latency)) ∧
      ((∀ m ∈ a.mems, 0 ≤ (prices cacti m).1 ∧ 0 ≤ (prices cacti m).2) →
        ((nodes.filter fun n => !n.skip).map fun n => a.macEnergy * operations n.layer).sum ≤ ans.energy) := by
  obtain ⟨c, hc, C⟩ := Whole.accelerator_ok (cacti := cacti) F.acc
  obtain ⟨N1, hN1⟩ := network_answer (cacti := cacti) F O hf hn
  have hper : ∀ n ∈ nodes, ∃ N, ∀ fuel, N ≤ fuel → n.skip = false → ∀ sms, spatialMappings o a n = .ok sms → ∀ sm ∈ sms, ∀ evals err,
      run cacti fact a n.layer sm o.limit fuel = some (evals, err) → ∀ e ∈ evals,
        (Separate c.hw e.1 → (operations n.layer * n.layer.cyclesPerOp : ℚ) ≤ Hierarchy.totalUnits a.sizes * e.2.overall.latency2) ∧
        ((∀ m ∈ a.mems, 0 ≤ (prices cacti m).1 ∧ 0 ≤ (prices cacti m).2) → a.macEnergy * operations n.layer ≤ e.2.energy.total) := by
    intro n hmem
    by_cases hs : n.skip = false
    · obtain ⟨rl, rels, hNode⟩ := hn n hmem hs
      obtain ⟨sms, h1, -, h3⟩ := generated F hNode O
      obtain ⟨M, hM⟩ := bound_all (P := fun sm fuel => ∀ evals err, run cacti fact a n.layer sm o.limit fuel = some (evals, err) → ∀ e ∈ evals,
          (Separate c.hw e.1 → (operations n.layer * n.layer.cyclesPerOp : ℚ) ≤ Hierarchy.totalUnits a.sizes * e.2.overall.latency2) ∧
          ((∀ m ∈ a.mems, 0 ≤ (prices cacti m).1 ∧ 0 ≤ (prices cacti m).2) → a.macEnergy * operations n.layer ≤ e.2.energy.total)) sms fun sm hsm => by
        have I := (h3 sm hsm).1
        obtain ⟨c', Mu, hc', hu⟩ := Whole.run_utilization (cacti := cacti) I fact hf o.limit O.limit (Or.inl hNode.order)
        rw [hc] at hc'
        cases hc'
        have hen : ∃ Me, ∀ fuel, Me ≤ fuel → (∀ m ∈ a.mems, 0 ≤ (prices cacti m).1 ∧ 0 ≤ (prices cacti m).2) → ∃ evals err,
            run cacti fact a n.layer sm o.limit fuel = some (evals, err) ∧ ∀ e ∈ evals,
              e.2.energy.total = a.macEnergy * operations n.layer + e.2.energy.mem ∧ 0 ≤ e.2.energy.mem := by
          by_cases hp : ∀ m ∈ a.mems, 0 ≤ (prices cacti m).1 ∧ 0 ≤ (prices cacti m).2
          · obtain ⟨Me, h⟩ := Whole.run_energy I hp fact hf o.limit O.limit (Or.inl hNode.order)
            exact ⟨Me, fun f hf _ => h f hf⟩
          · exact ⟨0, fun f _ h => absurd h hp⟩
        obtain ⟨Me, hen⟩ := hen
        refine ⟨max Mu Me, fun fuel hfu evals err hr e he => ⟨fun hsep => ?_, fun hp => ?_⟩⟩
        · obtain ⟨evals', err', hr', hall⟩ := hu fuel (le_of_max_le_left hfu)
          rw [hr] at hr'
          cases hr'
          obtain ⟨u1, -, -, -, -, -, u7⟩ := hall e he
          obtain ⟨-, -, -, l1, l2⟩ := u7 hsep
          exact u1.trans (mul_le_mul_of_nonneg_left (l1.trans l2) (Nat.cast_nonneg _))
        · obtain ⟨evals', err', hr', hall⟩ := hen fuel (le_of_max_le_right hfu) hp
          rw [hr] at hr'
          cases hr'
          obtain ⟨w1, w2⟩ := hall e he
          rw [w1]
          linarith
      refine ⟨M, fun fuel hfu _ sms' h1' => ?_⟩
      rw [h1] at h1'
      cases h1'
      exact hM fuel hfu
    · exact ⟨0, fun f _ h => absurd h hs⟩
  obtain ⟨N2, hN2⟩ := bound_all nodes hper
  refine ⟨max N1 N2, fun fuel hfu opt ans hans => ?_⟩
  obtain ⟨best, b1, b2, b3, b4⟩ := hN1 fuel (le_of_max_le_left hfu) opt ans hans
  have hbest : ∀ x ∈ best, ∃ sms, spatialMappings o a x.1 = .ok sms ∧ x.1 ∈ nodes ∧ x.1.skip = false ∧
      ∃ sm ∈ sms, ∃ evals, run cacti fact a x.1.layer sm o.limit fuel = some (evals, none) ∧ x.2 ∈ evals := by
    intro x hx
    have hm : x.1 ∈ nodes.filter fun n => !n.skip := by rw [← b1]; exact List.mem_map.2 ⟨x, hx, rfl⟩
    obtain ⟨m1, m2⟩ := List.mem_filter.1 hm
    obtain ⟨sms, h1, h2, -⟩ := b4 x hx
    exact ⟨sms, h1, m1, by simpa using m2, h2⟩
  constructor
  · intro hsep
    rw [← b1, List.map_map, b3, ← List.sum_map_mul_left]
    refine List.sum_le_sum fun x hx => ?_
    obtain ⟨sms, h1, m1, m2, sm, hsm, evals, hr, he⟩ := hbest x hx
    exact (hN2 fuel (le_of_max_le_right hfu) x.1 m1 m2 sms h1 sm hsm evals none hr x.2 he).1 (hsep c hc x.1 m1 m2 sms h1 sm hsm evals none hr x.2 he)
  · intro hp
    rw [← b1, List.map_map, b2]
    refine List.sum_le_sum fun x hx => ?_
    obtain ⟨sms, h1, m1, m2, sm, hsm, evals, hr, he⟩ := hbest x hx
    exact (hN2 fuel (le_of_max_le_right hfu) x.1 m1 m2 sms h1 sm hsm evals none hr x.2 he).2 hp

end Verif.Net
