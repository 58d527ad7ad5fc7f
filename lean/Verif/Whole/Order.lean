import Verif.Whole.Energy

/-! C162: orderings of the temporal loops that the user gives. -/

namespace Verif.Whole

open SpatialMapping (SM)
open Latency (Operand)
open LayerNode (Relation)
open Ports (MemD)
open Evaluate (Job Result Ready evaluate)
open Search (mapOrder)

variable {OA : Type} [DecidableEq OA] {D : Type} [LinearOrder D] {cacti : MemD Operand OA → ℚ × ℚ} {a : AccD OA} {l : LayerIn D} {user : SM OA D}
  {rl : Operand → List D} {rels : List (Relation D)}

/-- The loops begin with these dimensions, innermost first, with the listed numbers of iterations. -/
def Begins (data : List (D × Option Nat)) (loops : List (D × ℚ)) : Prop :=
  ∀ (i : Nat) (d : D) (f : Option Nat), data[i]? = some (d, f) → ∃ x : ℚ, loops[i]? = some (d, x) ∧ ∀ n, f = some n → x = n

/-- The evaluation is one of the mapping with these temporal loops: they are the loops of every operand over the levels of its memories, and the loops that the
cycles are counted with. -/
def Mapped (c : Acc OA) (l : LayerIn D) (loops : List (D × ℚ)) (j : Job D) : Prop :=
  (∀ op ∈ l.ops, (j.tm op).flatten = loops) ∧ j.totalCycle = (loops.map Prod.snd).prod ∧ ∀ op ∈ l.ops, (j.tm op).length = (c.hw.levels op).length

theorem mapped_of {c : Acc OA} {j : Job D} {loops array : List (D × ℚ)} (hops : j.ops = l.ops) (R : Evaluate.Mapped c.hw j rl rels loops array) : Mapped c l loops j :=
  ⟨fun op ho => (R.tm op (hops ▸ ho)).1, R.total, fun op ho => (R.tm op (hops ▸ ho)).2.1⟩

/-- C162: the mappings that a run evaluates obey the ordering of the user: the loops of every operand begin with the loops that are listed. -/
theorem run_obeys (I : InputOk a l user rl rels) (fact : Nat → List (Nat × Nat)) (hf : Lpf.FactContract fact) (limit : Option Nat)
    (hlim : ∀ n, limit = some n → 1 ≤ n) (hfo : Follows cacti a l user) : ∃ N, ∀ fuel, N ≤ fuel → ∀ evals err, run cacti fact a l user limit fuel = some (evals, err) →
      ∀ e ∈ evals, ∃ c loops, accelerator cacti a = .ok c ∧ Mapped c l loops e.1 ∧ Begins l.order loops := by
  obtain ⟨c, hc, C⟩ := accelerator_ok (cacti := cacti) I.acc
  obtain ⟨lim, limI, t, -, ht, P, e1, -⟩ := task_ok I C
  obtain ⟨c', t', hc', ht', N, o₀, L, q1, q2, q3, q4⟩ := run_partial (cacti := cacti) I fact hf limit hlim hfo
  rw [hc] at hc'
  cases hc'
  rw [ht] at ht'
  cases ht'
  refine ⟨N, fun fuel hfu evals err hr e he => ?_⟩
  obtain ⟨evals', err', g1, g2, -⟩ := q4 fuel hfu
  rw [hr] at g1
  cases g1
  obtain ⟨o, ho, hm, -⟩ := g2 e he
  obtain ⟨tm, -, e2, -⟩ := Search.mapOrder_ok P hm
  refine ⟨c, _, hc, mapped_of (e2.trans e1) (Search.mapped P (q3 o ho).1 hm), fun i d f hi => ?_⟩
  obtain ⟨x, h1, h2, h3⟩ := ((q2 o).1 ho).2 i (d, f) hi
  refine ⟨((ofLex x).2 : Nat), ?_, fun n hn => ?_⟩
  · unfold Engine.toAlloc
    rw [List.getElem?_map, h1]
    simp only [Option.map_some, h2]
  · exact_mod_cast h3 n hn

/-- C162: if the user lists all temporal loops that are left by the spatial mapping, with their numbers of iterations, then exactly this order is evaluated, with any
limit on the number of loops; if it does not fit the memories, the call ends with the exception of the allocator. -/
theorem run_complete (I : InputOk a l user rl rels) (fact : Nat → List (Nat × Nat)) (limit : Option Nat) {c : Acc OA} {t : Search.Task D} {loops : Dict D Int}
    (hc : accelerator cacti a = .ok c) (ht : task a c l user = .ok t)
    (hl : TemporalLoops.lomaTemporalLoops (l.sizes.map fun e => (e.1, (e.2 : Int))) (spatialLoops t) = .ok loops) (hcomp : Ordering.Complete l.order loops) (fuel : Nat) :
    (∃ j r, run cacti fact a l user limit fuel = some ([(j, r)], none) ∧ Mapped c l (l.order.map fun e => (e.1, ((e.2.getD 1 : Nat) : ℚ))) j ∧ evaluate c.hw j = .ok r) ∨
    (∃ j, run cacti fact a l user limit fuel = some ([], some .zeroDivision) ∧ Mapped c l (l.order.map fun e => (e.1, ((e.2.getD 1 : Nat) : ℚ))) j ∧
      evaluate c.hw j = .error .zeroDivision) ∨
    ∃ e, run cacti fact a l user limit fuel = some ([], some e) ∧ Engine.TooSmall e ∧
      mapOrder c.hw c.topo t (l.order.map fun e => (e.1, ((e.2.getD 1 : Nat) : ℚ))) = .error e := by
  obtain ⟨c', hc', C⟩ := accelerator_ok (cacti := cacti) I.acc
  rw [hc] at hc'
  cases hc'
  obtain ⟨lim, limI, t', -, ht', P, e1, e2, e3, -⟩ := task_ok I C
  rw [ht] at ht'
  cases ht'
  obtain ⟨s1, s2, s3, s4, -, -⟩ := engine_sizes I.layer
  have hlk : ∀ p ∈ c.hw.ports, ∀ k ∈ p.served, k.1 ∈ t.ops := fun p hp k hk => by
    obtain ⟨m, hm, hmk⟩ := C.linked p hp k hk
    rw [e1]
    exact I.linked m hm _ hmk
  have hua : Engine.toAlloc (Ordering.userOrder l.order) = l.order.map fun e => (e.1, ((e.2.getD 1 : Nat) : ℚ)) := by
    unfold Engine.toAlloc Ordering.userOrder
    rw [List.map_map]
    rfl
  have hgen := Ordering.complete_order none fact (Dict.keys (l.sizes.map fun e => (e.1, (e.2 : Int)))) _ (spatialLoops t) limit l.order
    (fun o => mapOrder c.hw c.topo t (Engine.toAlloc o)) s1 s2 (fun x hx => (spatialLoops_mem P x hx).1) loops hl hcomp.sized hcomp.more hcomp.exact fuel
  rw [hua] at hgen
  have hO : Search.Order t (l.order.map fun e => (e.1, ((e.2.getD 1 : Nat) : ℚ))) := by
    obtain ⟨h1, h2⟩ := Ordering.complete_loops s1 (by exact hl) hcomp
    constructor
    · intro x hx
      obtain ⟨e, he, rfl⟩ := List.mem_map.1 hx
      exact ⟨_, rfl, h2 e he⟩
    · intro x hx
      obtain ⟨e, he, rfl⟩ := List.mem_map.1 hx
      have := h1 e he
      rw [e3, s4]
      exact this
  cases hm : mapOrder c.hw c.topo t (l.order.map fun e => (e.1, ((e.2.getD 1 : Nat) : ℚ))) with
  | error e =>
    refine Or.inr (Or.inr ⟨e, ?_, Search.mapOrder_error P hm, rfl⟩)
    have := hgen.2.1 e hm
    simp only [run, hc, ht, Search.mappings, this]
    rfl
  | ok j =>
    have hrun : run cacti fact a l user limit fuel = some (Search.evaluations c.hw [j] none) := by
      have := hgen.1 j hm
      simp only [run, hc, ht, Search.mappings, this]
    obtain ⟨tm, -, e4, -⟩ := Search.mapOrder_ok P hm
    have M := Search.mapped P hO hm
    have R : Ready c.hw j rl rels _ _ := { toMapped := M, linked := by rw [e4]; exact hlk }
    obtain ⟨st, on, off, -, h | ⟨r, h, -⟩⟩ := Evaluate.evaluated_partial R
    · refine Or.inr (Or.inl ⟨j, ?_, mapped_of (e4.trans e1) M, h.1⟩)
      rw [hrun]
      simp only [Search.evaluations, h.1]
    · refine Or.inl ⟨j, r, ?_, mapped_of (e4.trans e1) M, h⟩
      rw [hrun]
      simp only [Search.evaluations, h]

/-- If a layer has more operations than the array has units then temporal loops are left. -/
theorem loops_left (I : InputOk a l user rl rels) {c : Acc OA} {t : Search.Task D} (hc : accelerator cacti a = .ok c) (ht : task a c l user = .ok t)
    (hbig : Hierarchy.totalUnits a.sizes < operations l) {loops : Dict D Int}
    (hl : TemporalLoops.lomaTemporalLoops (l.sizes.map fun e => (e.1, (e.2 : Int))) (spatialLoops t) = .ok loops) : loops ≠ [] := by
  rintro rfl
  obtain ⟨c', hc', C⟩ := accelerator_ok (cacti := cacti) I.acc
  rw [hc] at hc'
  cases hc'
  obtain ⟨lim, limI, t', -, ht', P, -, -, e3, -, -, -, -, -, hu⟩ := task_ok I C
  rw [ht] at ht'
  cases ht'
  obtain ⟨s1, s2, s3, s4, s5, -⟩ := engine_sizes I.layer
  obtain ⟨res, h1, h2⟩ := TemporalLoops.loma_covers _ (spatialLoops t) s1 s2 (fun x hx => (spatialLoops_mem P x hx).1)
  rw [hl] at h1
  cases h1
  set sizes : Dict D Int := l.sizes.map fun e => (e.1, (e.2 : Int)) with hsz
  clear_value sizes
  have e1 : (((sizes.map Prod.snd).prod : Int) : ℚ) = (sizes.keys.map fun d => (((sizes.get? d).getD 1 : Int) : ℚ)).prod := by
    have : sizes.map Prod.snd = sizes.keys.map fun d => ((sizes.get? d).getD 1 : Int) := by
      unfold Dict.keys
      rw [List.map_map]
      refine List.map_congr_left fun p hp => ?_
      simp only [Function.comp]
      rw [Dict.get?_of_mem s1 (v := p.2) (by exact hp)]
      rfl
    rw [this]
    generalize sizes.keys = ks
    induction ks with
    | nil => simp
    | cons k ks ih => simp [ih]
  have e2 := Search.prod_le_prod (f := fun d => (((sizes.get? d).getD 1 : Int) : ℚ))
    (g := fun d => (((spatialLoops t).filter (fun l => l.1 = d)).map Prod.snd).prod) sizes.keys (by
      intro d hk
      cases hg : sizes.get? d with
      | none => exact absurd hk ((Dict.get?_eq_none_iff _ _).1 hg)
      | some v =>
        have h3 := s2 d v hg
        have h4 := h2 d v hg
        simp only [Dict.get?_nil, Option.getD_none, Int.cast_one, mul_one] at h4
        refine ⟨?_, h4⟩
        simp only [Option.getD_some]
        exact_mod_cast (by omega : (0 : Int) ≤ v))
  rw [Search.prod_by_key s1 (spatialLoops t) (fun x hx => by rw [← s4, ← e3]; exact (spatialLoops_mem P x hx).2), ← e1, s5] at e2
  have := e2.2.trans hu
  rw [C.units] at this
  have : operations l ≤ Hierarchy.totalUnits a.sizes := by exact_mod_cast this
  omega

end Verif.Whole
