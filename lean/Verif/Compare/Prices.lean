import Verif.Compare.More
import Verif.Evaluate.Kin
import Verif.Call.Layer

/-! C160, C161: accelerators that differ in prices only. -/

namespace Verif.Compare

open Latency (Operand)
open LayerNode (Relation)
open Evaluate (Mem Hw Job Result Kin)
open Net (Node Options Reply network env FileOk NodeOk OptionsOk)
open Pipeline (Cme Opt IsFirst)
open Ports (MemD)
open Whole (AccD Acc prices)

variable {OA : Type} [DecidableEq OA] {D : Type} [LinearOrder D]

/-- The entry of a memory without its prices and its area. -/
def bare (m : MemD Operand OA) : MemD Operand OA := { m with auto := false, rCost := none, wCost := none, area := none }

/-- The same accelerator with other prices of accesses, related by `Q`; the price of a multiplication may differ as well. -/
structure Repriced (cacti : MemD Operand OA → ℚ × ℚ) (Q : ℚ × ℚ → ℚ × ℚ → Prop) (a b : AccD OA) : Prop where
  sizes : b.sizes = a.sizes
  mems : List.Forall₂ (fun m m' => bare m' = bare m ∧ Q (prices cacti m) (prices cacti m')) a.mems b.mems

variable {cacti : MemD Operand OA → ℚ × ℚ} {fact : Nat → List (Nat × Nat)} {Q : ℚ × ℚ → ℚ × ℚ → Prop} {a b : AccD OA} {o : Options OA D} {nodes : List (Node OA D)}

/-! ### The accelerator -/

theorem bare_fields {m m' : MemD Operand OA} (h : bare m' = bare m) : m'.size = m.size ∧ m'.operands = m.operands ∧ m'.ports = m.ports ∧ m'.served = m.served := by
  unfold bare at h
  simp only [MemD.mk.injEq, true_and] at h
  exact ⟨h.1, h.2.1, h.2.2.1, h.2.2.2⟩

theorem buildMem_bare {m m' : MemD Operand OA} (h : bare m' = bare m) (levels : Dict Operand Nat) : Ports.buildMem m' levels = Ports.buildMem m levels := by
  obtain ⟨-, h2, h3, -⟩ := bare_fields h
  unfold Ports.buildMem
  rw [h2, h3]

theorem memOf_repriced {m m' : MemD Operand OA} (h : bare m' = bare m ∧ Q (prices cacti m) (prices cacti m')) {levels : Dict Operand Nat} {x x' : Mem}
    (hx : Whole.memOf cacti m levels = .ok x) (hx' : Whole.memOf cacti m' levels = .ok x') : Evaluate.Repriced Q x x' := by
  obtain ⟨h1, h2, h3, h4⟩ := bare_fields h.1
  unfold Whole.memOf at hx hx'
  rw [buildMem_bare h.1] at hx'
  split_ifs at hx hx'
  cases hb : Ports.buildMem m levels with
  | error e =>
    rw [hb] at hx
    cases hx
  | ok st =>
    rw [hb] at hx hx'
    cases hx
    cases hx'
    refine ⟨?_, h.2⟩
    unfold Mem.bare Mem.price
    simp only [h1, h3]

theorem memsOf_repriced {ms ms' : List (MemD Operand OA)} (h : List.Forall₂ (fun m m' => bare m' = bare m ∧ Q (prices cacti m) (prices cacti m')) ms ms') :
    ∀ {ns : List (Hierarchy.Mem Operand)} {xs xs' : List Mem}, Whole.memsOf cacti ms ns = .ok xs → Whole.memsOf cacti ms' ns = .ok xs' →
      List.Forall₂ (Evaluate.Repriced Q) xs xs' := by
  induction h with
  | nil =>
    intro ns xs xs' h h'
    cases h
    cases h'
    exact .nil
  | @cons m m' ms ms' hm _ ih =>
    intro ns xs xs' h h'
    cases ns with
    | nil =>
      cases h
      cases h'
      exact .nil
    | cons n ns =>
      unfold Whole.memsOf at h h'
      cases e1 : Whole.memOf cacti m n.levels with
      | error e =>
        rw [e1] at h
        cases h
      | ok x =>
        cases e2 : Whole.memOf cacti m' n.levels with
        | error e =>
          rw [e2] at h'
          cases h'
        | ok x' =>
          rw [e1] at h
          rw [e2] at h'
          simp only at h h'
          cases e3 : Whole.memsOf cacti ms ns with
          | error e =>
            rw [e3] at h
            cases h
          | ok ys =>
            cases e4 : Whole.memsOf cacti ms' ns with
            | error e =>
              rw [e4] at h'
              cases h'
            | ok ys' =>
              rw [e3] at h
              rw [e4] at h'
              cases h
              cases h'
              exact .cons (memOf_repriced hm e1 e2) (ih e3 e4)

theorem forall2_get {A B : Type} {R : A → B → Prop} {l : List A} {l' : List B} (h : List.Forall₂ R l l') (i : Nat) : Option.Rel R l[i]? l'[i]? := by
  induction h generalizing i with
  | nil => exact .none
  | cons h _ ih =>
    cases i with
    | zero => exact .some h
    | succ i => exact ih i

theorem forall2_pick {A B : Type} {R : A → B → Prop} {l : List A} {l' : List B} (h : List.Forall₂ R l l') :
    ∀ is : List Nat, List.Forall₂ R (is.filterMap fun i => l[i]?) (is.filterMap fun i => l'[i]?)
  | [] => .nil
  | i :: is => by
    rw [List.filterMap_cons, List.filterMap_cons]
    have := forall2_get h i
    revert this
    generalize l[i]? = x
    generalize l'[i]? = y
    intro this
    cases this with
    | none => exact forall2_pick h is
    | some hr => exact .cons hr (forall2_pick h is)

theorem forall2_filter {A B : Type} {R : A → B → Prop} {p : A → Bool} {q : B → Bool} (hpq : ∀ x y, R x y → q y = p x) {l : List A} {l' : List B} (h : List.Forall₂ R l l') :
    List.Forall₂ R (l.filter p) (l'.filter q) := by
  induction h with
  | nil => exact .nil
  | @cons x y l l' hr _ ih =>
    rw [List.filter_cons, List.filter_cons, hpq x y hr]
    split_ifs
    · exact .cons hr ih
    · exact ih

theorem operands_repriced (H : Repriced cacti Q a b) : b.mems.map MemD.operands = a.mems.map MemD.operands := by
  have := H.mems
  revert this
  generalize a.mems = l
  generalize b.mems = l'
  intro h
  induction h with
  | nil => rfl
  | cons h _ ih => rw [List.map_cons, List.map_cons, ih, (bare_fields h.1).2.1]

theorem accelerator_repriced (H : Repriced cacti Q a b) {c c' : Acc OA} (hc : Whole.accelerator cacti a = .ok c) (hc' : Whole.accelerator cacti b = .ok c') :
    Kin Q c.hw c'.hw ∧ List.Forall₂ (Evaluate.Repriced Q) c.topo c'.topo ∧ c'.served = c.served ∧ c.hw.macEnergy = a.macEnergy ∧ c'.hw.macEnergy = b.macEnergy := by
  unfold Whole.accelerator at hc hc'
  rw [operands_repriced H] at hc'
  simp only at hc hc'
  cases e1 : Whole.memsOf cacti a.mems (Hierarchy.build (a.mems.map MemD.operands)).nodes with
  | error e =>
    rw [e1] at hc
    cases hc
  | ok ms =>
    cases e2 : Whole.memsOf cacti b.mems (Hierarchy.build (a.mems.map MemD.operands)).nodes with
    | error e =>
      rw [e2] at hc'
      cases hc'
    | ok ms' =>
      rw [e1] at hc
      rw [e2] at hc'
      simp only at hc hc'
      cases e3 : Topo.topoSort ((Hierarchy.build (a.mems.map MemD.operands)).nodes.map Hierarchy.Mem.id) (Hierarchy.build (a.mems.map MemD.operands)).edges with
      | error e =>
        rw [e3] at hc
        cases hc
      | ok order =>
        rw [e3] at hc hc'
        cases hc
        cases hc'
        have hms := memsOf_repriced H.mems e1 e2
        have htopo := forall2_pick hms order
        refine ⟨⟨hms, fun op => ?_, by simp only [H.sizes]⟩, htopo, ?_, rfl, rfl⟩
        · refine forall2_filter (fun x y h => ?_) htopo
          rw [(Evaluate.repriced_fields h).2.1]
        · funext op
          simp only
          have h1 := forall2_filter (p := fun m : MemD Operand OA => decide (op ∈ m.operands)) (q := fun m : MemD Operand OA => decide (op ∈ m.operands))
            (fun x y h => by rw [(bare_fields h.1).2.1]) (forall2_pick H.mems order)
          revert h1
          generalize List.filter (fun m : MemD Operand OA => decide (op ∈ m.operands)) (order.filterMap fun i => a.mems[i]?) = l
          generalize List.filter (fun m : MemD Operand OA => decide (op ∈ m.operands)) (order.filterMap fun i => b.mems[i]?) = l'
          intro h1
          induction h1 with
          | nil => rfl
          | cons h _ ih => rw [List.map_cons, List.map_cons, ih, (bare_fields h.1).2.2.2]

/-! ### The mappings -/

theorem memOps_repriced (H : Repriced cacti Q a b) (l : Whole.LayerIn D) : Net.memOps b l = Net.memOps a l := by
  unfold Net.memOps
  rw [operands_repriced H]
  simp only
  generalize Hierarchy.innerMemories (Hierarchy.build (a.mems.map MemD.operands)) = ns
  have key : ∀ (ps ps' : List (MemD Operand OA × Hierarchy.Mem Operand)), List.Forall₂ (fun p p' => bare p'.1 = bare p.1 ∧ p'.2 = p.2) ps ps' →
      Net.innerOps l ps' = Net.innerOps l ps := by
    intro ps ps' h
    induction h with
    | nil => rfl
    | @cons p p' ps ps' hp _ ih =>
      obtain ⟨m, n⟩ := p
      obtain ⟨m', n'⟩ := p'
      obtain ⟨h1, rfl⟩ := hp
      simp only at h1
      obtain ⟨f1, f2, f3, f4⟩ := bare_fields h1
      have hops : ∀ (st : Ports.LvState Operand) (ops : List Operand), Net.opsOf l m' st ops = Net.opsOf l m st ops := by
        intro st ops
        induction ops with
        | nil => rfl
        | cons op t iht =>
          unfold Net.opsOf
          rw [iht]
          have : Net.memOp l m' st op = Net.memOp l m st op := by
            unfold Net.memOp
            rw [f1, f4]
          rw [this]
      unfold Net.innerOps
      simp only [buildMem_bare h1, hops, f2, ih]
  apply key
  induction ns with
  | nil => exact .nil
  | cons n ns ih =>
    rw [List.filterMap_cons, List.filterMap_cons]
    have := forall2_get H.mems n.id
    revert this
    generalize a.mems[n.id]? = x
    generalize b.mems[n.id]? = y
    intro this
    cases this with
    | none => exact ih
    | some hr => exact .cons ⟨hr.1, rfl⟩ ih

theorem spatial_repriced (H : Repriced cacti Q a b) (n : Node OA D) : Net.spatialMappings o b n = Net.spatialMappings o a n := by
  unfold Net.spatialMappings
  rw [memOps_repriced H, H.sizes]

theorem temporal_repriced (H : Repriced cacti Q a b) {c c' : Acc OA} (hc : Whole.accelerator cacti a = .ok c) (hc' : Whole.accelerator cacti b = .ok c') (fuel : Nat)
    (n : Node OA D) (sm : SpatialMapping.SM OA D) : (env fact b c' o fuel).temporal n sm = (env fact a c o fuel).temporal n sm := by
  obtain ⟨h1, h2, h3, -⟩ := accelerator_repriced H hc hc'
  have ht : Whole.task b c' n.layer sm = Whole.task a c n.layer sm := by
    unfold Whole.task
    rw [H.sizes, h3]
  have hnode : c'.topo.map (Search.node c'.hw) = c.topo.map (Search.node c.hw) := by
    have hlen : ∀ op, (c'.hw.levels op).length = (c.hw.levels op).length := fun op => (h1.levels op).length_eq.symm
    revert h2
    generalize c.topo = l
    generalize c'.topo = l'
    intro h2
    induction h2 with
    | nil => rfl
    | cons h _ ih =>
      rw [List.map_cons, List.map_cons, ih]
      congr 1
      obtain ⟨f1, f2, -⟩ := Evaluate.repriced_fields h
      unfold Search.node
      simp only [f1, f2, hlen]
  have hm : ∀ t : Search.Task D, Search.mappings fact c'.hw c'.topo t (n.layer.sizes.map fun e => (e.1, (e.2 : Int))) (Whole.spatialLoops t) o.limit n.layer.order fuel =
      Search.mappings fact c.hw c.topo t (n.layer.sizes.map fun e => (e.1, (e.2 : Int))) (Whole.spatialLoops t) o.limit n.layer.order fuel := by
    intro t
    unfold Search.mappings Search.mapOrder Search.allocate
    rw [hnode]
  unfold env
  simp only [ht, hm]

/-! ### The evaluations -/

theorem evaluations_related {E E' : Pipeline.Env (Node OA D) (SpatialMapping.SM OA D) (Job D) (Job D × Result)} {n : Node OA D} (R : Cme (Job D × Result) → Cme (Job D × Result) → Prop)
    (hs : E'.spatial n = E.spatial n) (ht : ∀ sm, E'.temporal n sm = E.temporal n sm)
    (hc : ∀ sms, E.spatial n = .ok sms → ∀ sm ∈ sms, ∀ j ∈ (E.temporal n sm).1, (∃ e, E.cost n sm j = .error e ∧ E'.cost n sm j = .error e) ∨
      ∃ x y, E.cost n sm j = .ok x ∧ E'.cost n sm j = .ok y ∧ R x y) :
    List.Forall₂ R (Pipeline.cands E n) (Pipeline.cands E' n) ∧ (Pipeline.Works E' n ↔ Pipeline.Works E n) := by
  constructor
  · unfold Pipeline.cands
    rw [hs]
    cases hsp : E.spatial n with
    | error e => exact .nil
    | ok sms =>
      simp only [ht]
      have := hc sms hsp
      clear hsp
      induction sms with
      | nil => exact .nil
      | cons sm sms ih =>
        rw [List.flatMap_cons, List.flatMap_cons]
        refine List.rel_append ?_ (ih fun s hs => this s (List.mem_cons_of_mem _ hs))
        have hj := this sm List.mem_cons_self
        revert hj
        generalize (E.temporal n sm).1 = js
        intro hj
        induction js with
        | nil => exact .nil
        | cons j js ihj =>
          rw [List.filterMap_cons, List.filterMap_cons]
          have := ihj fun k hk => hj k (List.mem_cons_of_mem _ hk)
          rcases hj j List.mem_cons_self with ⟨e, h1, h2⟩ | ⟨x, y, h1, h2, h3⟩
          · rw [h1, h2]
            exact this
          · rw [h1, h2]
            exact .cons h3 this
  · unfold Pipeline.Works
    rw [hs]
    simp only [ht]
    constructor
    · rintro ⟨sms, h1, h2, h3⟩
      refine ⟨sms, h1, h2, fun sm hsm => ⟨(h3 sm hsm).1, (h3 sm hsm).2.1, fun j hj => ?_⟩⟩
      obtain ⟨y, hy⟩ := (h3 sm hsm).2.2 j hj
      rcases hc sms h1 sm hsm j hj with ⟨e, g1, g2⟩ | ⟨x, y', g1, g2, -⟩
      · rw [g2] at hy
        cases hy
      · exact ⟨x, g1⟩
    · rintro ⟨sms, h1, h2, h3⟩
      refine ⟨sms, h1, h2, fun sm hsm => ⟨(h3 sm hsm).1, (h3 sm hsm).2.1, fun j hj => ?_⟩⟩
      obtain ⟨y, hy⟩ := (h3 sm hsm).2.2 j hj
      rcases hc sms h1 sm hsm j hj with ⟨e, g1, g2⟩ | ⟨x, y', g1, g2, -⟩
      · rw [g1] at hy
        cases hy
      · exact ⟨y', g2⟩

theorem api_cost (c : Acc OA) (fuel : Nat) (n : Node OA D) (sm : SpatialMapping.SM OA D) (j : Job D) : (env fact a c o fuel).cost n sm j =
    match Evaluate.evaluate c.hw j with
    | .error e => .error e
    | .ok r => .ok ⟨⟨r.energy.total, r.overall.latency2, true⟩, (j, r)⟩ := rfl

/-- With other prices the evaluations have the same latencies, and their energies are related by `R`. -/
theorem repriced_related (H : Repriced cacti Q a b) {c c' : Acc OA} (hc : Whole.accelerator cacti a = .ok c) (hc' : Whole.accelerator cacti b = .ok c') (fuel : Nat) (n : Node OA D)
    (R : ℚ → ℚ → Prop) (hR : ∀ sms, Net.spatialMappings o a n = .ok sms → ∀ sm ∈ sms, ∀ j ∈ ((env fact a c o fuel).temporal n sm).1, ∀ r r', Evaluate.evaluate c.hw j = .ok r →
      Evaluate.evaluate c'.hw j = .ok r' → R r.energy.total r'.energy.total) :
    List.Forall₂ (fun x y => y.res.latency = x.res.latency ∧ R x.res.energy y.res.energy) (Pipeline.cands (env fact a c o fuel) n) (Pipeline.cands (env fact b c' o fuel) n) ∧
      (Pipeline.Works (env fact b c' o fuel) n ↔ Pipeline.Works (env fact a c o fuel) n) := by
  refine evaluations_related _ (spatial_repriced H n) (temporal_repriced H hc hc' fuel n) fun sms hs sm hsm j hj => ?_
  rw [api_cost, api_cost]
  rcases Evaluate.kin_evaluate (accelerator_repriced H hc hc').1 j with ⟨e, h1, h2⟩ | ⟨r, r', h1, h2, -, -, -, -, -, h8⟩
  · exact Or.inl ⟨e, by rw [h1], by rw [h2]⟩
  · refine Or.inr ⟨_, _, by rw [h1], by rw [h2], ?_, hR sms hs sm hsm j hj r r' h1 h2⟩
    simp only [h8]

theorem works_repriced (H : Repriced cacti Q a b) {c c' : Acc OA} (hc : Whole.accelerator cacti a = .ok c) (hc' : Whole.accelerator cacti b = .ok c') (opt : String) (fuel : Nat) :
    (∃ ans, Pipeline.api opt false (env fact b c' o fuel) nodes = .ok ans) ↔ ∃ ans, Pipeline.api opt false (env fact a c o fuel) nodes = .ok ans := by
  have : ∀ n, Pipeline.Works (env fact b c' o fuel) n ↔ Pipeline.Works (env fact a c o fuel) n := fun n =>
    (repriced_related H hc hc' fuel n (fun _ _ => True) fun _ _ _ _ _ _ _ _ _ _ => trivial).2
  rw [Pipeline.api_ok_iff (Net.single c' fuel), Pipeline.api_ok_iff (Net.single c fuel)]
  refine and_congr_right fun _ => forall_congr' fun n => forall_congr' fun _ => forall_congr' fun _ => this n

/-- What the search yields is mapped. -/
theorem jobs_mapped (F : FileOk a) (O : OptionsOk o) (hf : Lpf.FactContract fact) {c : Acc OA} (hc : Whole.accelerator cacti a = .ok c)
    (N : ∀ n ∈ nodes, n.skip = false → ∃ (rl : Operand → List D) (rels : List (Relation D)), NodeOk a n rl rels) :
    ∃ M, ∀ fuel, M ≤ fuel → ∀ n ∈ nodes, n.skip = false → ∀ sms, Net.spatialMappings o a n = .ok sms → ∀ sm ∈ sms, ∀ j ∈ ((env fact a c o fuel).temporal n sm).1,
      ∃ rl rels loops array, Evaluate.Mapped c.hw j rl rels loops array := by
  refine Net.bound_all nodes fun n hn => ?_
  by_cases hs : n.skip = false
  · obtain ⟨rl, rels, K⟩ := N n hn hs
    obtain ⟨sms, h2, -, h4⟩ := Net.generated (o := o) F K O
    obtain ⟨M, hM⟩ := Net.bound_all (P := fun sm fuel => ∀ j ∈ ((env fact a c o fuel).temporal n sm).1, ∃ rl rels loops array, Evaluate.Mapped c.hw j rl rels loops array) sms
      fun sm hsm => by
        have I := (h4 sm hsm).1
        obtain ⟨c', hc', C⟩ := Whole.accelerator_ok (cacti := cacti) I.acc
        rw [hc] at hc'
        cases hc'
        obtain ⟨lim, limI, t, -, ht, P, e1, e2, e3, -⟩ := Whole.task_ok I C
        obtain ⟨s1, s2, s3, s4, -, -⟩ := Whole.engine_sizes I.layer
        have hlk : ∀ p ∈ c.hw.ports, ∀ k ∈ p.served, k.1 ∈ t.ops := fun p hp k hk => by
          obtain ⟨m, hm, hmk⟩ := C.linked p hp k hk
          rw [e1]
          exact I.linked m hm _ hmk
        obtain ⟨N, o₀, L, -, -, -, -, -, q6⟩ := Search.search_partial P hlk fact hf _ s1 s2 s3 (by rw [e3]; exact s4) (Whole.spatialLoops t)
          (fun x hx => (Whole.spatialLoops_mem P x hx).1) o.limit O.limit _ (Or.inl K.order)
        refine ⟨N, fun fuel hfu => ?_⟩
        obtain ⟨jobs, err, g1, -, -, g4, -⟩ := q6 fuel hfu
        have hT : (env fact a c o fuel).temporal n sm = (jobs, err) := by
          unfold env
          simp only [ht, g1]
        rw [hT]
        intro j hj
        obtain ⟨o', -, -, R⟩ := g4 j hj
        exact ⟨_, _, _, _, R.toMapped⟩
    refine ⟨M, fun fuel hfu _ sms' h1' => ?_⟩
    rw [h2] at h1'
    cases h1'
    exact hM fuel hfu
  · exact ⟨0, fun f _ h => absurd h hs⟩

/-! ### C160 -/

/-- C160: prices have no influence on whether a call has an answer, nor on the latency of a call that minimises it. -/
theorem prices_latency (H : Repriced cacti (fun _ _ => True) a b) (F : FileOk a) (F' : FileOk b) (opt : String) (fuel : Nat) :
    ((∃ ans, network cacti fact b o opt nodes fuel = .ok ans) ↔ ∃ ans, network cacti fact a o opt nodes fuel = .ok ans) ∧
      ∀ ans ans', network cacti fact a o "latency" nodes fuel = .ok ans → network cacti fact b o "latency" nodes fuel = .ok ans' → ans'.latency = ans.latency := by
  obtain ⟨c, hc, -⟩ := Whole.accelerator_ok (cacti := cacti) F.acc
  obtain ⟨c', hc', -⟩ := Whole.accelerator_ok (cacti := cacti) F'.acc
  rw [network_pipeline hc, network_pipeline hc', network_pipeline hc, network_pipeline hc']
  refine ⟨works_repriced H hc hc' opt fuel, fun ans ans' h h' => ?_⟩
  have hrel := fun n : Node OA D => (repriced_related (fact := fact) (o := o) H hc hc' fuel n (fun _ _ => True) fun _ _ _ _ _ _ _ _ _ _ => trivial).1
  refine le_antisymm ((answers_compare h' h fun op hop n _ _ y hy => ?_).2.1 rfl) ((answers_compare h h' fun op hop n _ _ y hy => ?_).2.1 rfl)
  · cases hop
    obtain ⟨x, hx, h1, -⟩ := Call.forall₂_index (hrel n) hy
    exact ⟨x, hx, h1.le⟩
  · cases hop
    obtain ⟨x, hx, h1, -⟩ := Call.forall₂_index (hrel n).flip hy
    exact ⟨x, hx, h1.ge⟩

/-- C160: with lower prices, a call that minimises the energy never answers with more energy. -/
theorem prices_energy (H : Repriced cacti (fun p p' => p'.1 ≤ p.1 ∧ p'.2 ≤ p.2) a b) (hm : b.macEnergy ≤ a.macEnergy)
    (hp : ∀ m ∈ a.mems, 0 ≤ (prices cacti m).1 ∧ 0 ≤ (prices cacti m).2) (F : FileOk a) (F' : FileOk b) (O : OptionsOk o) (hf : Lpf.FactContract fact)
    (N : ∀ n ∈ nodes, n.skip = false → ∃ (rl : Operand → List D) (rels : List (Relation D)), NodeOk a n rl rels) :
    ∃ M, ∀ fuel, M ≤ fuel → ∀ ans, network cacti fact a o "energy" nodes fuel = .ok ans →
      ∃ ans', network cacti fact b o "energy" nodes fuel = .ok ans' ∧ ans'.energy ≤ ans.energy := by
  obtain ⟨c, hc, C⟩ := Whole.accelerator_ok (cacti := cacti) F.acc
  obtain ⟨c', hc', -⟩ := Whole.accelerator_ok (cacti := cacti) F'.acc
  obtain ⟨M, hM⟩ := jobs_mapped (fact := fact) F O hf hc N
  obtain ⟨k1, -, -, k4, k5⟩ := accelerator_repriced H hc hc'
  have hpr : c.hw.Priced := by
    intro x hx
    obtain ⟨m, hm, hq⟩ := (Whole.accelerator_prices hc).2 x hx
    have := hp m hm
    rw [← hq] at this
    exact this
  refine ⟨M, fun fuel hfu ans h => ?_⟩
  rw [network_pipeline hc] at h
  rw [network_pipeline hc']
  obtain ⟨ans', h'⟩ := (works_repriced H hc hc' "energy" fuel).2 ⟨ans, h⟩
  refine ⟨ans', h', (answers_compare h' h fun op hop n hn hs y hy => ?_).1 rfl⟩
  cases hop
  obtain ⟨x, hx, -, h2⟩ := Call.forall₂_index (repriced_related (fact := fact) (o := o) H hc hc' fuel n (fun e e' => e' ≤ e) fun sms hsm sm hmem j hj r r' hr hr' => by
    obtain ⟨rl, rels, loops, array, R⟩ := hM fuel hfu n hn hs sms hsm sm hmem j hj
    exact (Evaluate.kin_cheaper k1 (by rw [k4, k5]; exact hm) R hpr hr hr').2).1 hy
  exact ⟨x, hx, h2⟩

/-! ### C161 -/

theorem first_related {A B K L : Type} [LT K] [LT L] {R : A → B → Prop} {f : A → K} {g : B → L} {l : List A} {l' : List B} (h : List.Forall₂ R l l')
    (hfg : ∀ x y x' y', R x y → R x' y' → (g y < g y' ↔ f x < f x')) {x : A} (hx : IsFirst f l x) : ∃ y, IsFirst g l' y ∧ R x y := by
  obtain ⟨p, q, rfl, h2, h3⟩ := hx
  obtain ⟨p', r, hp, hr, rfl⟩ : ∃ p' r, List.Forall₂ R p p' ∧ List.Forall₂ R (x :: q) r ∧ l' = p' ++ r := by
    clear h2 h3
    induction p generalizing l' with
    | nil => exact ⟨[], l', .nil, h, rfl⟩
    | cons z p ih =>
      cases h with
      | cons hz h =>
        obtain ⟨p', r, h1, h2, rfl⟩ := ih h
        exact ⟨_ :: p', r, .cons hz h1, h2, rfl⟩
  cases hr with
  | @cons _ y _ q' hxy hq =>
    refine ⟨y, ⟨p', q', rfl, fun z hz => ?_, fun z hz => ?_⟩, hxy⟩
    · obtain ⟨w, hw, hwz⟩ := Call.forall₂_index hp.flip hz
      exact (hfg _ _ _ _ hxy hwz).2 (h2 w hw)
    · obtain ⟨w, hw, hwz⟩ := Call.forall₂_index hq.flip hz
      exact fun hlt => h3 w hw ((hfg _ _ _ _ hwz hxy).1 hlt)

/-- C161: if all prices are given in another unit, the answer is the same in that unit, whatever the call minimises. -/
theorem prices_unit {k : ℚ} (hk : 0 < k) (H : Repriced cacti (fun p p' => p'.1 = k * p.1 ∧ p'.2 = k * p.2) a b) (hm : b.macEnergy = k * a.macEnergy)
    (F : FileOk a) (F' : FileOk b) (O : OptionsOk o) (hf : Lpf.FactContract fact)
    (N : ∀ n ∈ nodes, n.skip = false → ∃ (rl : Operand → List D) (rels : List (Relation D)), NodeOk a n rl rels) :
    ∃ M, ∀ fuel, M ≤ fuel → ∀ opt ans, network cacti fact a o opt nodes fuel = .ok ans →
      ∃ ans', network cacti fact b o opt nodes fuel = .ok ans' ∧ ans'.energy = k * ans.energy ∧ ans'.latency = ans.latency := by
  obtain ⟨c, hc, C⟩ := Whole.accelerator_ok (cacti := cacti) F.acc
  obtain ⟨c', hc', -⟩ := Whole.accelerator_ok (cacti := cacti) F'.acc
  obtain ⟨M, hM⟩ := jobs_mapped (fact := fact) F O hf hc N
  obtain ⟨k1, -, -, k4, k5⟩ := accelerator_repriced H hc hc'
  refine ⟨M, fun fuel hfu opt ans h => ?_⟩
  rw [network_pipeline hc] at h
  rw [network_pipeline hc']
  obtain ⟨ans', h'⟩ := (works_repriced H hc hc' opt fuel).2 ⟨ans, h⟩
  refine ⟨ans', h', ?_⟩
  obtain ⟨op, hop, best, b1, b2, b3⟩ := answer_best h
  obtain ⟨op', hop', best', c1, c2, c3⟩ := answer_best h'
  rw [hop] at hop'
  cases hop'
  have key : ∀ {l : List (Node OA D)} {bs bs' : List (Cme (Job D × Result))}, (∀ n ∈ l, n ∈ nodes ∧ n.skip = false) → List.Forall₂ (BestOf (env fact a c o fuel) op) l bs →
      List.Forall₂ (BestOf (env fact b c' o fuel) op) l bs' →
      List.Forall₂ (fun x y => y.res.latency = x.res.latency ∧ y.res.energy = k * x.res.energy) bs bs' := by
    intro l bs bs' hl hb hb'
    induction hb generalizing bs' with
    | nil =>
      cases hb'
      exact .nil
    | @cons n x _ _ k1' _ ih =>
      cases hb' with
      | cons m1 m2 =>
        refine .cons ?_ (ih (fun n hn => hl n (List.mem_cons_of_mem _ hn)) m2)
        obtain ⟨hn, hs⟩ := hl n List.mem_cons_self
        obtain ⟨y, hy, hxy⟩ := first_related (repriced_related (fact := fact) (o := o) H hc hc' fuel n (fun e e' => e' = k * e) fun sms hsm sm hmem j hj r r' hr hr' => by
          obtain ⟨rl, rels, loops, array, R⟩ := hM fuel hfu n hn hs sms hsm sm hmem j hj
          exact (Evaluate.kin_scale k1 (by rw [k4, k5]; exact hm) R hr hr').2).1 (g := op.key) (fun x y x' y' e e' => by
            cases op with
            | energy =>
              simp only [Opt.key, Prod.Lex.toLex_lt_toLex, e.1, e.2, e'.1, e'.2]
              rw [mul_lt_mul_iff_right₀ hk, mul_right_inj' hk.ne']
            | latency =>
              simp only [Opt.key, Prod.Lex.toLex_lt_toLex, e.1, e.2, e'.1, e'.2]
              rw [mul_lt_mul_iff_right₀ hk]
            | edp =>
              simp only [Opt.key, Prod.Lex.toLex_lt_toLex, e.1, e.2, e'.1, e'.2]
              rw [mul_left_comm, mul_left_comm x'.res.latency, mul_lt_mul_iff_right₀ hk, mul_right_inj' hk.ne']) k1'
        rw [← first_unique hy m1]
        exact hxy
  have hall := key (fun n hn => by simpa using List.mem_filter.1 hn) b1 c1
  rw [b2, b3, c2, c3]
  clear b1 b2 b3 c1 c2 c3 key
  induction hall with
  | nil => simp
  | cons hx _ ih =>
    simp only [List.map_cons, List.sum_cons]
    rw [ih.1, ih.2, hx.1, hx.2]
    exact ⟨by ring, rfl⟩

end Verif.Compare
