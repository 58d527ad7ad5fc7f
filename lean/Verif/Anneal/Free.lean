import Verif.Anneal.Exhaustive

/-! C151, C153, C154: exactly when a call without limit on loops and without orderings of the user has an answer, if no order of the loops makes the cost model divide by zero. -/

namespace Verif.Anneal

open Compare (freed)
open Evaluate (Hw Mem Job Result Separate evaluate)
open Latency (Operand)
open LayerNode (Relation)
open Net (Node Options Reply FileOk NodeOk OptionsOk Known spatialMappings)
open Ports (MemD)
open SpatialMapping (SM)
open Whole (AccD Acc InputOk LayerIn)

variable {OA : Type} [DecidableEq OA] {D : Type} [LinearOrder D]
variable {a : AccD OA} {o : Options OA D} {nodes : List (Node OA D)} {cacti : MemD Operand OA → ℚ × ℚ} {fact : Nat → List (Nat × Nat)} {ex : ℚ → ℚ}
  {luck : Node OA D → SM OA D → Luck D}

/-- The loops that are left have an order. -/
theorem left_some (hf : Lpf.FactContract fact) {l : LayerIn D} {rl : Operand → List D} {rels : List (Relation D)} {sm : SM OA D} (I : InputOk a l sm rl rels)
    {c : Acc OA} (hc : Whole.accelerator cacti a = .ok c) {t : Search.Task D} (ht : Whole.task a c l sm = .ok t) : ∃ p, Left fact l t p := by
  obtain ⟨c', hc', C⟩ := Whole.accelerator_ok (cacti := cacti) I.acc
  rw [hc] at hc'
  cases hc'
  obtain ⟨lim, limI, t', -, ht', P, -⟩ := Whole.task_ok I C
  rw [ht] at ht'
  cases ht'
  obtain ⟨s1, s2, s3, s4, -, -⟩ := Whole.engine_sizes I.layer
  set sizes : Dict D Int := l.sizes.map fun e => (e.1, (e.2 : Int)) with hsz
  obtain ⟨ld, lds, hk⟩ : ∃ ld lds, sizes.keys = ld :: lds := by
    clear_value sizes
    cases sizes with
    | nil => exact absurd rfl s3
    | cons p s => exact ⟨p.1, Dict.keys s, rfl⟩
  obtain ⟨-, -, loops, -, -, -, -, -, -, hloops, -⟩ := Ordering.parts fact lds sizes (Whole.spatialLoops t) none hf ld s1 s2 (fun x hx => (Whole.spatialLoops_mem P x hx).1) (by simp)
  exact ⟨_, loops, hloops, List.Perm.refl _⟩

/-- Without a limit and without an ordering of the user, the exhaustive engine ends with an answer if and only if an order of the loops that are left fits. -/
theorem temporal_fits (hf : Lpf.FactContract fact) {n : Node OA D} {rl : Operand → List D} {rels : List (Relation D)} {sm : SM OA D} (I : InputOk a n.layer sm rl rels)
    {c : Acc OA} (hc : Whole.accelerator cacti a = .ok c) {t : Search.Task D} (ht : Whole.task a c n.layer sm = .ok t) :
    ∃ N, ∀ fuel, N ≤ fuel → ∀ p j, Left fact n.layer t p → Search.mapOrder c.hw c.topo t (p.map fun l => (l.1, (l.2 : ℚ))) = .ok j →
      j ∈ ((Net.env fact a c { o with limit := none } fuel).temporal (freed n) sm).1 ∧ ((Net.env fact a c { o with limit := none } fuel).temporal (freed n) sm).2 = none := by
  obtain ⟨c', hc', C⟩ := Whole.accelerator_ok (cacti := cacti) I.acc
  rw [hc] at hc'
  cases hc'
  obtain ⟨lim, limI, t', -, ht', P, -⟩ := Whole.task_ok I C
  rw [ht] at ht'
  cases ht'
  obtain ⟨s1, s2, s3, s4, -, -⟩ := Whole.engine_sizes I.layer
  set sizes : Dict D Int := n.layer.sizes.map fun e => (e.1, (e.2 : Int)) with hsz
  obtain ⟨ld, lds, hk⟩ : ∃ ld lds, sizes.keys = ld :: lds := by
    clear_value sizes
    cases sizes with
    | nil => exact absurd rfl s3
    | cons p s => exact ⟨p.1, Dict.keys s, rfl⟩
  obtain ⟨-, -, loops, -, -, -, -, -, -, hloops, -⟩ := Ordering.parts fact lds sizes (Whole.spatialLoops t) none hf ld s1 s2 (fun x hx => (Whole.spatialLoops_mem P x hx).1) (by simp)
  obtain ⟨N, hN⟩ := generate_all hf ld lds (fun x => Search.mapOrder c.hw c.topo t (Engine.toAlloc x)) s1 s2 (fun x hx => (Whole.spatialLoops_mem P x hx).1)
    (fun x e he => Search.mapOrder_error P he) hloops
  refine ⟨N, fun fuel hfu p j ⟨loops', hl', hp⟩ hj => ?_⟩
  rw [hloops] at hl'
  cases hl'
  obtain ⟨l, err, g1, g2, -⟩ := hN fuel hfu
  have ht' : Whole.task a c (freed n).layer sm = .ok t := ht
  have h2 : (Net.env fact a c { o with limit := none } fuel).temporal (freed n) sm = (l, err) := by
    unfold Net.env
    simp only [ht', Search.mappings]
    have : ((freed n).layer.sizes.map fun e => (e.1, (e.2 : Int))) = sizes := rfl
    rw [this, hk]
    have he : (freed n).layer.order = [] := rfl
    rw [he, g1]
  rw [h2]
  refine g2 p j hp ?_
  rw [← hj]
  congr 1
  unfold Engine.toAlloc
  rw [List.map_map]
  rfl

/-- C151: if no order of the loops gives a mapping with two movements of a port that happen exactly once, a call without limit on loops and without orderings has an answer if and only
if its criterion is known and every spatial mapping of every layer has an order of its loops that fits the memories. -/
theorem free_answer_iff (F : FileOk a) (O : OptionsOk o) (hf : Lpf.FactContract fact) (hn : ∀ n ∈ nodes, n.skip = false → ∃ rl rels, NodeOk a n rl rels)
    (hs : ∀ n ∈ nodes, n.skip = false → ∀ sms c, spatialMappings o a n = .ok sms → Whole.accelerator cacti a = .ok c → ∀ sm ∈ sms, ∀ t, Whole.task a c n.layer sm = .ok t →
      Apart fact c n.layer t) :
    ∃ M, ∀ fuel, M ≤ fuel → ∀ opt, (∃ ans, Net.network cacti fact a { o with limit := none } opt (nodes.map freed) fuel = .ok ans) ↔
      Known opt ∧ ∀ n ∈ nodes, n.skip = false → ∀ sms c, spatialMappings o a n = .ok sms → Whole.accelerator cacti a = .ok c → ∀ sm ∈ sms, ∀ t,
        Whole.task a c n.layer sm = .ok t → ∃ p j, Left fact n.layer t p ∧ Search.mapOrder c.hw c.topo t (p.map fun l => (l.1, (l.2 : ℚ))) = .ok j := by
  obtain ⟨c, hc, C⟩ := Whole.accelerator_ok (cacti := cacti) F.acc
  obtain ⟨M, hM⟩ := Net.bound_all (P := fun n fuel => n.skip = false → ∃ sms, Net.spatialMappings o a n = .ok sms ∧ sms ≠ [] ∧ ∀ sm ∈ sms, ∃ t, Whole.task a c n.layer sm = .ok t ∧
      (∀ p j, Left fact n.layer t p → Search.mapOrder c.hw c.topo t (p.map fun l => (l.1, (l.2 : ℚ))) = .ok j →
        j ∈ ((Net.env fact a c { o with limit := none } fuel).temporal (freed n) sm).1 ∧ ((Net.env fact a c { o with limit := none } fuel).temporal (freed n) sm).2 = none) ∧
      ∀ j ∈ ((Net.env fact a c { o with limit := none } fuel).temporal (freed n) sm).1, (∃ r, evaluate c.hw j = .ok r) ∧
        ∃ p, Left fact n.layer t p ∧ Search.mapOrder c.hw c.topo t (p.map fun l => (l.1, (l.2 : ℚ))) = .ok j) nodes fun n hm => by
    by_cases hsk : n.skip = false
    · obtain ⟨rl, rels, K⟩ := hn n hm hsk
      obtain ⟨sms, h1, h2, h3⟩ := Net.generated (o := o) F K O
      obtain ⟨M, hM⟩ := Net.bound_all (P := fun sm fuel => ∃ t, Whole.task a c n.layer sm = .ok t ∧
        (∀ p j, Left fact n.layer t p → Search.mapOrder c.hw c.topo t (p.map fun l => (l.1, (l.2 : ℚ))) = .ok j →
          j ∈ ((Net.env fact a c { o with limit := none } fuel).temporal (freed n) sm).1 ∧ ((Net.env fact a c { o with limit := none } fuel).temporal (freed n) sm).2 = none) ∧
        ∀ j ∈ ((Net.env fact a c { o with limit := none } fuel).temporal (freed n) sm).1, (∃ r, evaluate c.hw j = .ok r) ∧
          ∃ p, Left fact n.layer t p ∧ Search.mapOrder c.hw c.topo t (p.map fun l => (l.1, (l.2 : ℚ))) = .ok j) sms
        fun sm hsm => by
          obtain ⟨t, -, -, ht, -⟩ := guess_prepared (cacti := cacti) (h3 sm hsm).1 hc
          obtain ⟨N, hN⟩ := temporal_orders (o := o) hf (h3 sm hsm).1 hc
          obtain ⟨N', hN'⟩ := temporal_fits (o := o) hf (h3 sm hsm).1 hc ht
          refine ⟨max N N', fun fuel hfu => ⟨t, ht, hN' fuel (le_of_max_le_right hfu), fun j hj => ?_⟩⟩
          obtain ⟨t', p, ht', hl, hm'⟩ := hN fuel (le_of_max_le_left hfu) j hj
          rw [ht] at ht'
          cases ht'
          exact ⟨apart_evaluates hf (h3 sm hsm).1 hc ht (hs n hm hsk sms c h1 hc sm hsm t ht) hl hm', p, hl, hm'⟩
      exact ⟨M, fun fuel hfu _ => ⟨sms, h1, h2, hM fuel hfu⟩⟩
    · exact ⟨0, fun _ _ h => absurd h hsk⟩
  refine ⟨M, fun fuel hfu opt => ?_⟩
  rw [Compare.network_pipeline hc, Pipeline.api_ok_iff (Net.single c fuel)]
  refine and_congr_right fun _ => ⟨fun h n hm hsk sms c' hsms hc' sm hsm t ht => ?_, fun h n hmem hsk => ?_⟩
  · rw [hc] at hc'
    cases hc'
    obtain ⟨sms', w1, -, w3⟩ := h (freed n) (List.mem_map_of_mem hm) hsk
    have w1' : Net.spatialMappings o a n = .ok sms' := (Compare.spatial_freed o a n).symm.trans w1
    rw [hsms] at w1'
    cases w1'
    obtain ⟨sms', k1, -, k3⟩ := hM fuel hfu n hm hsk
    rw [hsms] at k1
    cases k1
    obtain ⟨t', ht', -, k4⟩ := k3 sm hsm
    rw [ht] at ht'
    cases ht'
    obtain ⟨j, hj⟩ := List.exists_mem_of_ne_nil _ (w3 sm hsm).2.1
    obtain ⟨-, p, hl, hp⟩ := k4 j hj
    exact ⟨p, j, hl, hp⟩
  · obtain ⟨m, hm, rfl⟩ := List.mem_map.1 hmem
    obtain ⟨sms, k1, k2, k3⟩ := hM fuel hfu m hm hsk
    refine ⟨sms, (Compare.spatial_freed o a m).trans k1, k2, fun sm hsm => ?_⟩
    obtain ⟨t, ht, k4, k5⟩ := k3 sm hsm
    obtain ⟨p, j, hl, hp⟩ := h m hm hsk sms c k1 hc sm hsm t ht
    obtain ⟨q1, q2⟩ := k4 p j hl hp
    refine ⟨q2, List.ne_nil_of_mem q1, fun x hx => ?_⟩
    obtain ⟨⟨r, hr⟩, -⟩ := k5 x hx
    refine ⟨⟨⟨r.energy.total, r.overall.latency2, true⟩, (x, r)⟩, ?_⟩
    show (match Evaluate.evaluate c.hw x with
      | .error e => .error e
      | .ok r => .ok ⟨⟨r.energy.total, r.overall.latency2, true⟩, (x, r)⟩ : Except PyErr (Pipeline.Cme (Job D × Result))) = _
    rw [hr]

end Verif.Anneal
