import Verif.Whole.Acc
import Verif.Whole.Map
import Verif.Search.Props

/-! C147, C148: from the files of the user to evaluated mappings. -/

namespace Verif.Whole

open Conversion (Good Converted Step clean known convert perMemLvl)
open SpatialMapping (SM SMWF factor)
open MapInfo (iters Lv)
open Latency (Operand)
open LayerNode (Relation)
open Ports (MemD)
open Evaluate (Hw Mem Job Result Separate Ready evaluate macs)
open Search (Prepared Order mappings evaluations mapOrder)

section
variable {OA : Type} [DecidableEq OA] {Dim : Type} [DecidableEq Dim]
variable {a : AccD OA} {c : Acc OA} {l : LayerIn Dim} {user : SM OA Dim} {rl : Operand → List Dim} {rels : List (Relation Dim)}

theorem sizes_keys (l : LayerIn Dim) : l.sizes.keys = l.L.dimSizes.keys := by
  unfold LayerIn.sizes Dict.keys
  rw [List.map_map]
  rfl

/-- The spatial mapping of the user is accepted. -/
theorem task_ok (I : InputOk a l user rl rels) (C : AccSpec a c) : ∃ lim limI t, convert a.sizes l.sizes user = .ok (lim, limI) ∧ task a c l user = .ok t ∧
    Prepared c.hw c.topo t rl rels (limI.flatMap Prod.snd) ∧ t.ops = l.ops ∧ t.inputs = l.inputs ∧ t.L = l.L ∧ t.rel = l.rel ∧ t.precision = l.precision ∧
    t.finalPrecision = l.finalPrecision ∧ t.cyclesPerOp = l.cyclesPerOp ∧ (∀ op, t.su op = perMemLvl (c.served op) lim) ∧
    ((spatialLoops t).map Prod.snd).prod ≤ c.hw.units := by
  obtain ⟨lim, limI, h1, h2, h3⟩ := Conversion.convert_exact I.mapping
  obtain ⟨w, f⟩ := converted_facts I.mapping h2
  obtain ⟨wI, fI⟩ := converted_facts I.mapping h3
  have hS : ∀ e ∈ lim, ∀ x ∈ e.2, x.1 ∈ l.L.dimSizes.keys ∧ 1 ≤ x.2 := fun e he x hx => by
    rw [← sizes_keys]
    exact (f e he).2 x hx
  have hSI : ∀ e ∈ limI, ∀ x ∈ e.2, x.1 ∈ l.L.dimSizes.keys ∧ 1 ≤ x.2 := fun e he x hx => by
    rw [← sizes_keys]
    exact (fI e he).2 x hx
  have hflat : ∀ m : SM OA Dim, (m.map (fun e => (e.2.map Prod.snd).prod)).prod = iters (m.flatMap Prod.snd) := by
    intro m
    unfold iters
    induction m with
    | nil => simp
    | cons e t ih => simp [ih]
  have hit : ∀ (s : List (List OA)) (m : SM OA Dim), SMWF m → iters (perMemLvl s m).flatten = iters (m.flatMap Prod.snd) := fun s m hm => by
    rw [← hflat]
    exact Conversion.per_level_product s m hm
  have hlen : ∀ op (m : SM OA Dim), SMWF m → (perMemLvl (c.served op) m).length = (c.hw.levels op).length + 1 := fun op m hm => by
    rw [(Conversion.per_level_placement _ m hm).1, C.served]
  have hnil : ∀ op (m : SM OA Dim), SMWF m → perMemLvl (c.served op) m ≠ [] := fun op m hm hc => by
    have := hlen op m hm
    rw [hc] at this
    simp at this
  have i1 : internal l (fun op => perMemLvl (c.served op) lim) = .ok () :=
    internal_ok I.layer (fun op _ => hnil op lim w) (fun op _ x hx => perMemLvl_loops _ w hS x hx) (z := lim.flatMap Prod.snd) (fun op _ => hit _ _ w)
  have i2 : internal l (fun op => perMemLvl (c.served op) limI) = .ok () :=
    internal_ok I.layer (fun op _ => hnil op limI wI) (fun op _ x hx => perMemLvl_loops _ wI hSI x hx) (z := limI.flatMap Prod.snd) (fun op _ => hit _ _ wI)
  have O := I.layer
  refine ⟨lim, limI, _, h1, by simp only [task, h1, bind, Except.bind, i1, i2]; rfl, ?_, rfl, rfl, rfl, rfl, rfl, rfl, rfl, fun _ => rfl, ?_⟩
  · exact
      { built := C.built
        sorted := C.sorted
        levels := C.levels
        ops := O.ops
        out := O.out
        inputs := O.inputs
        stored := fun op ho hc => by
          obtain ⟨m, hm, hmo⟩ := I.stored op ho
          have := C.count op
          rw [hc] at this
          have h0 := List.length_eq_zero_iff.1 this.symm
          have h9 : m ∈ a.mems.filter fun m => decide (op ∈ m.operands) := List.mem_filter.2 ⟨hm, by simpa using hmo⟩
          rw [h0] at h9
          simp at h9
        serves := fun op _ => C.serves op
        names := O.names
        pi := O.pi
        wf := O.wf
        related := O.related
        sizes := O.sizes
        rel := O.rel
        index := O.index
        mix := O.mix
        vars := O.vars
        dims := O.dims
        su := fun op _ => ⟨hlen op lim w, hlen op limI wI⟩
        unrolled := fun op _ x hx => by
          rcases List.mem_append.1 hx with hx | hx
          · exact perMemLvl_loops _ w hS x hx
          · exact perMemLvl_loops _ wI hSI x hx
        array := fun op _ => hit _ _ wI
        cycles := O.cycles }
  · rw [C.units]
    have hu := prod_units (lim.map fun e => (e.1, (e.2.map Prod.snd).prod)) I.acc.dims I.acc.units
      (by rw [List.map_map]; exact w.1) (fun e he => by
        obtain ⟨e', he', rfl⟩ := List.mem_map.1 he
        obtain ⟨u, hu, hk, h0, hle⟩ := (f e' he').1
        refine ⟨h0, ?_⟩
        obtain ⟨s, hs, -⟩ := I.mapping.fits u hu
        exact ⟨s, by rw [hk]; exact hs, hle.trans (I.array u hu s hs)⟩)
    rw [List.map_map] at hu
    unfold spatialLoops
    split
    · simp only [List.map_nil, List.prod_nil]
      have h1 : 1 ≤ Hierarchy.totalUnits a.sizes := List.one_le_prod fun x hx => by
        obtain ⟨e, he, rfl⟩ := List.mem_map.1 hx
        exact I.acc.units e he
      exact_mod_cast h1
    · rw [Conversion.per_level_product _ _ w]
      exact hu.2

theorem spatialLoops_mem {h : Hw} {topo : List Mem} {t : Search.Task Dim} {array : List (Dim × ℚ)} (P : Prepared h topo t rl rels array) :
    ∀ x ∈ spatialLoops t, 1 ≤ x.2 ∧ x.1 ∈ t.L.dimSizes.keys := by
  intro x hx
  obtain ⟨-, hi⟩ := P.inputs
  revert hx
  unfold spatialLoops
  cases h : t.inputs with
  | nil => intro hx; simp at hx
  | cons op ops =>
    intro hx
    have := P.unrolled op (hi op (by rw [h]; exact List.mem_cons_self)).1 x (List.mem_append_left _ hx)
    exact ⟨this.2, this.1⟩

/-- The figures of an evaluation in terms of the operations of the layer. -/
theorem figures {h : Hw} {j : Job Dim} {loops array : List (Dim × ℚ)} (R : Ready h j rl rels loops array) {r : Result} (hr : evaluate h j = .ok r) :
    r.overall.ideal = (⌈(macs j : ℚ) / h.units⌉ : ℚ) * j.cyclesPerOp ∧ r.overall.idealTemporal = iters loops * j.cyclesPerOp ∧ 0 < r.overall.idealTemporal ∧
    r.overall.idealTemporal ≤ r.overall.latency0 ∧ r.overall.spatialUtil = r.overall.ideal / r.overall.idealTemporal ∧
    r.overall.util0 = r.overall.ideal / r.overall.latency0 ∧ r.overall.util1 = r.overall.ideal / r.overall.latency1 ∧
    r.overall.util2 = r.overall.ideal / r.overall.latency2 := by
  obtain ⟨fr, it, en, st, -, -, -, -, h0, hg, he⟩ := Evaluate.before_loading R.toMapped
  obtain ⟨t, on, off, ht, hon, hoff⟩ := Evaluate.loading_ok R.toMapped hg st
  obtain ⟨n, hn, hn1⟩ := R.whole.iters
  have hT : ((⌊j.totalCycle⌋₊ : ℕ) : ℚ) = iters loops := by rw [R.total, hn, Nat.floor_natCast]
  have h1 : (0 : ℚ) < iters loops := by rw [hn]; exact_mod_cast hn1
  have h2 : (0 : ℚ) < j.cyclesPerOp := by exact_mod_cast R.cycles
  have h3 : (0 : ℚ) ≤ st := by exact_mod_cast h0
  have h4 := mul_pos h1 h2
  rw [he] at hr
  cases hl : Evaluate.checkLinks h j with
  | error x => rw [hl] at hr; cases hr
  | ok _ =>
    rw [hl] at hr
    simp only [bind, Except.bind, Latency.latency, ht, hon, hoff, Latency.overall, if_neg R.built.units, hT] at hr
    split at hr
    · cases hr
    · rename_i v hv
      split at hv
      · cases hv
      · cases hv
        cases hr
        exact ⟨rfl, rfl, h4, by simpa using h3, rfl, rfl, rfl, rfl⟩

end

variable {OA : Type} [DecidableEq OA] {D : Type} [LinearOrder D]
variable {a : AccD OA} {l : LayerIn D} {user : SM OA D} {rl : Operand → List D} {rels : List (Relation D)} {cacti : MemD Operand OA → ℚ × ℚ}

/-- The number of operations of a layer. -/
def operations (l : LayerIn D) : Nat := (l.sizes.map Prod.snd).prod

theorem engine_sizes (O : LayerOk l rl rels) : Dict.WF (l.sizes.map fun e => (e.1, (e.2 : Int))) ∧
    (∀ k v, Dict.get? (l.sizes.map fun e => (e.1, (e.2 : Int))) k = some v → 1 ≤ v) ∧ (l.sizes.map fun e => (e.1, (e.2 : Int))) ≠ [] ∧
    l.L.dimSizes.keys = Dict.keys (l.sizes.map fun e => (e.1, (e.2 : Int))) ∧
    ((((l.sizes.map fun e => (e.1, (e.2 : Int))).map Prod.snd).prod : Int) : ℚ) = operations l ∧ ⌊l.L.dimSizes.values.prod⌋₊ = operations l := by
  have hk : l.L.dimSizes.keys = Dict.keys (l.sizes.map fun e => (e.1, (e.2 : Int))) := by
    rw [← sizes_keys]
    unfold Dict.keys
    rw [List.map_map]
    rfl
  refine ⟨?_, ?_, ?_, hk, ?_, ?_⟩
  · unfold Dict.WF
    rw [← hk]
    exact O.wf
  · intro k v hv
    obtain ⟨e, he, hev⟩ := List.mem_map.1 (Dict.mem_of_get? hv)
    obtain ⟨x, hx, rfl⟩ := List.mem_map.1 he
    obtain ⟨n, hn, hxn⟩ := O.whole x hx
    cases hev
    rw [hxn]
    simp
    omega
  · intro hc
    apply O.some
    have := congrArg List.length hc
    unfold LayerIn.sizes at this
    simp at this
    exact this
  · unfold operations
    generalize l.sizes = s
    induction s with
    | nil => simp
    | cons e t ih =>
      simp only [List.map_cons, List.prod_cons, Int.cast_mul, Nat.cast_mul, ih]
      simp
  · have : l.L.dimSizes.values.prod = (operations l : ℚ) := by
      unfold operations LayerIn.sizes Dict.values
      have hw := O.whole
      generalize l.L.dimSizes = s at hw
      induction s with
      | nil => simp
      | cons e t ih =>
        obtain ⟨n, -, hn⟩ := hw e List.mem_cons_self
        simp only [List.map_cons, List.prod_cons, Nat.cast_mul]
        rw [ih fun x hx => hw x (List.mem_cons_of_mem _ hx), hn]
        simp
    rw [this, Nat.floor_natCast]

theorem cast_get? {K : Type} [DecidableEq K] (d : Dict K Nat) (k : K) : Dict.get? (d.map fun e => (e.1, (e.2 : Int))) k = (d.get? k).map fun n : ℕ => (n : Int) := by
  induction d with
  | nil => rfl
  | cons e t ih =>
    rw [List.map_cons, Dict.get?_cons, Dict.get?_cons]
    split_ifs
    · rfl
    · exact ih

theorem evaluations_cases {h : Hw} : ∀ {jobs : List (Job D)} {err : Option PyErr}, (∀ j ∈ jobs, evaluate h j = .error .zeroDivision ∨ ∃ r, evaluate h j = .ok r) →
    (evaluations h jobs err).2 = some .zeroDivision ∨ (evaluations h jobs err).2 = err ∧ (evaluations h jobs err).1.map Prod.fst = jobs
  | [], _, _ => Or.inr ⟨rfl, rfl⟩
  | j :: js, err, hz => by
    unfold evaluations
    rcases hz j List.mem_cons_self with hj | ⟨r, hj⟩
    · rw [hj]
      exact Or.inl rfl
    · rw [hj]
      rcases evaluations_cases (err := err) fun x hx => hz x (List.mem_cons_of_mem _ hx) with h | ⟨h1, h2⟩
      · exact Or.inl h
      · exact Or.inr ⟨h1, by simp [h2]⟩

/-- C147: an accelerator file, a layer and a spatial mapping of the user that fit together are processed: enough steps end the run, the mappings that are
evaluated are those of the orders of certain temporal loops that obey the ordering of the user and for which the loops fit into the memories (each order once; the
loops are enough for the layer), and the exceptions are that there is no such order and a division by zero in an evaluation.  If no two movements of a port happen exactly once there is no division by zero and all of them are
yielded with their evaluation. -/
theorem run_partial (I : InputOk a l user rl rels) (fact : Nat → List (Nat × Nat)) (hf : Lpf.FactContract fact) (limit : Option Nat)
    (hlim : ∀ n, limit = some n → 1 ≤ n) (hfo : Follows cacti a l user) : ∃ c t, accelerator cacti a = .ok c ∧ task a c l user = .ok t ∧ ∃ (N : Nat) (o₀ : Engine.Order D) (L : List (Engine.Order D)), L.Nodup ∧
      (∀ o, o ∈ L ↔ o.Perm o₀ ∧ Ordering.Obeys l.order o) ∧
      (∀ o ∈ L, Order t (Engine.toAlloc o) ∧ ∀ d s, l.sizes.get? d = some s →
        (s : ℚ) ≤ (((spatialLoops t).filter fun x => x.1 = d).map Prod.snd).prod * (((Engine.toAlloc o).filter fun x => x.1 = d).map Prod.snd).prod) ∧
      ∀ fuel, N ≤ fuel → ∃ evals err, run cacti fact a l user limit fuel = some (evals, err) ∧
        (∀ e ∈ evals, ∃ o ∈ L, mapOrder c.hw c.topo t (Engine.toAlloc o) = .ok e.1 ∧ evaluate c.hw e.1 = .ok e.2) ∧
        (err = none ∧ evals ≠ [] ∨ err = some .zeroDivision ∨
          (∃ e, err = some e ∧ Ordering.Refusal l.order e) ∧ evals = [] ∧ ∀ o ∈ L, (mapOrder c.hw c.topo t (Engine.toAlloc o)).toOption = none) ∧
        (err ≠ some .zeroDivision → evals.map Prod.fst = L.filterMap fun o => (mapOrder c.hw c.topo t (Engine.toAlloc o)).toOption) ∧
        ((∀ o ∈ L, ∀ j, mapOrder c.hw c.topo t (Engine.toAlloc o) = .ok j → Separate c.hw j) → err ≠ some .zeroDivision) := by
  obtain ⟨c, hc, C⟩ := accelerator_ok (cacti := cacti) I.acc
  obtain ⟨lim, limI, t, -, ht, P, e1, e2, e3, -⟩ := task_ok I C
  obtain ⟨s1, s2, s3, s4, -, -⟩ := engine_sizes I.layer
  have hlk : ∀ p ∈ c.hw.ports, ∀ k ∈ p.served, k.1 ∈ t.ops := fun p hp k hk => by
    obtain ⟨m, hm, hmk⟩ := C.linked p hp k hk
    rw [e1]
    exact I.linked m hm _ hmk
  obtain ⟨N, o₀, L, q1, q2, q4, q5, q50, q6⟩ := Search.search_partial P hlk fact hf _ s1 s2 s3 (by rw [e3]; exact s4) (spatialLoops t)
    (fun x hx => (spatialLoops_mem P x hx).1) limit hlim _ (hfo.task hc ht)
  refine ⟨c, t, hc, ht, N, o₀, L, q1, q2, fun o ho => ⟨q4 o ho, fun d s hs => ?_⟩, fun fuel hfu => ?_⟩
  · have := q5 d s (by rw [cast_get?, hs]; rfl)
    have hp : (Engine.toAlloc o).Perm (Engine.toAlloc o₀) := ((q2 o).1 ho).1.map _
    rw [((hp.filter _).map _).prod_eq]
    simpa [Engine.iterQ] using this
  obtain ⟨jobs, err, g1, g2, g3, g4, g5, g6⟩ := q6 fuel hfu
  have hcase := evaluations_cases (h := c.hw) (jobs := jobs) (err := err) fun j hj => by
    obtain ⟨o, -, -, R⟩ := g4 j hj
    obtain ⟨st, on, off, -, h | ⟨r, h, -⟩⟩ := Evaluate.evaluated_partial R
    · exact Or.inl h.1
    · exact Or.inr ⟨r, h⟩
  refine ⟨_, _, by simp only [run, hc, ht, g1]; rfl, ?_, ?_, ?_, ?_⟩
  · intro e he
    obtain ⟨hj, hr⟩ := Search.evaluations_mem he
    obtain ⟨o, ho, hm, -⟩ := g4 _ hj
    exact ⟨o, ho, hm, hr⟩
  · rcases hcase with h | ⟨h1, h2⟩
    · exact Or.inr (Or.inl h)
    · rcases g3 with ⟨h3, h4⟩ | ⟨h3, h4⟩
      · refine Or.inl ⟨h1.trans h3, fun hc => h4 ?_⟩
        rw [← h2, hc]
        rfl
      · refine Or.inr (Or.inr ⟨by rw [h1]; exact h3, ?_, ?_⟩)
        · exact List.map_eq_nil_iff.1 (h2.trans h4)
        · rw [h4] at g2
          exact List.filterMap_eq_nil_iff.1 g2.symm
  · intro hne
    rcases hcase with h | ⟨-, h2⟩
    · exact absurd h hne
    · rw [h2, g2]
  · intro hs hz
    have := (g6 fun j hj => by
      obtain ⟨o, ho, hm, -⟩ := g4 j hj
      exact hs o ho j hm).1
    rw [this] at hz
    rcases g3 with ⟨h3, -⟩ | ⟨⟨e, h3, h4⟩, -⟩
    · rw [h3] at hz; cases hz
    · rw [h3] at hz; exact h4.ne (Option.some.inj hz)

/-- C148: a run never reports more than one operation per unit of the array and `cyclesPerOp` cycles: the cycles of every yielded evaluation suffice for all
operations of the layer, the ideal cycles are at most those of the temporal loops, and the spatial utilization and the utilization without loading are
in (0, 1].  If no two movements of a port happen exactly once the utilizations with loading are ordered too (otherwise `Evaluate.ordered_false`). -/
theorem run_utilization (I : InputOk a l user rl rels) (fact : Nat → List (Nat × Nat)) (hf : Lpf.FactContract fact) (limit : Option Nat)
    (hlim : ∀ n, limit = some n → 1 ≤ n) (hfo : Follows cacti a l user) : ∃ c N, accelerator cacti a = .ok c ∧ ∀ fuel, N ≤ fuel → ∃ evals err,
      run cacti fact a l user limit fuel = some (evals, err) ∧ ∀ e ∈ evals,
        (operations l * l.cyclesPerOp : ℚ) ≤ Hierarchy.totalUnits a.sizes * e.2.overall.latency0 ∧
        e.2.overall.ideal ≤ e.2.overall.idealTemporal ∧ e.2.overall.idealTemporal ≤ e.2.overall.latency0 ∧
        0 < e.2.overall.util0 ∧ e.2.overall.util0 ≤ e.2.overall.spatialUtil ∧ e.2.overall.spatialUtil ≤ 1 ∧
        (Separate c.hw e.1 → 0 < e.2.overall.util2 ∧ e.2.overall.util2 ≤ e.2.overall.util1 ∧ e.2.overall.util1 ≤ e.2.overall.util0 ∧
          e.2.overall.latency0 ≤ e.2.overall.latency1 ∧ e.2.overall.latency1 ≤ e.2.overall.latency2) := by
  obtain ⟨c, hc, C⟩ := accelerator_ok (cacti := cacti) I.acc
  obtain ⟨lim, limI, t, -, ht, P, e1, e2, e3, -, -, -, e8, -, hu⟩ := task_ok I C
  obtain ⟨s1, s2, s3, s4, s5, s6⟩ := engine_sizes I.layer
  have hlk : ∀ p ∈ c.hw.ports, ∀ k ∈ p.served, k.1 ∈ t.ops := fun p hp k hk => by
    obtain ⟨m, hm, hmk⟩ := C.linked p hp k hk
    rw [e1]
    exact I.linked m hm _ hmk
  obtain ⟨N, o₀, L, -, -, -, -, -, q6⟩ := Search.search_partial P hlk fact hf _ s1 s2 s3 (by rw [e3]; exact s4) (spatialLoops t)
    (fun x hx => (spatialLoops_mem P x hx).1) limit hlim _ (hfo.task hc ht)
  obtain ⟨N', cyc, k1, k2⟩ := Search.search_cycles P hlk fact hf _ s1 s2 s3 (by rw [e3]; exact s4) (spatialLoops t)
    (fun x hx => by rw [← s4, ← e3]; exact spatialLoops_mem P x hx) limit hlim _ (hfo.task hc ht)
  refine ⟨c, max N N', hc, fun fuel hfu => ?_⟩
  obtain ⟨jobs, err, g1, -, -, g4, -⟩ := q6 fuel (le_of_max_le_left hfu)
  obtain ⟨jobs', err', g1', g2'⟩ := k2 fuel (le_of_max_le_right hfu)
  rw [g1] at g1'
  cases g1'
  refine ⟨_, _, by simp only [run, hc, ht, g1]; rfl, fun e he => ?_⟩
  obtain ⟨hj, hr⟩ := Search.evaluations_mem he
  obtain ⟨o, ho, hm, R⟩ := g4 _ hj
  obtain ⟨f1, f2⟩ := g2' e he
  obtain ⟨tm, -, -, -, eL, -, -, -, -, -, -, ec, -⟩ := Search.mapOrder_ok P hm
  obtain ⟨v1, v2, v3, v4, v5, v6, v7, v8⟩ := figures R hr
  have hmac : macs e.1 = operations l := by
    unfold macs
    rw [eL, e3]
    exact s6
  obtain ⟨n, hn, hn1⟩ := R.whole.iters
  have hcy : (0 : ℚ) < l.cyclesPerOp := by exact_mod_cast I.layer.cycles
  have hU : (0 : ℚ) < c.hw.units := by exact_mod_cast Nat.pos_of_ne_zero C.built.units
  rw [s5, e8] at k1
  have hcyc : cyc = n * l.cyclesPerOp := by
    rw [← f1, v2, ec, e8, hn]
  have hcyc0 : 0 ≤ cyc := by rw [hcyc]; positivity
  have k3 : (operations l * l.cyclesPerOp : ℚ) ≤ c.hw.units * cyc := k1.trans (mul_le_mul_of_nonneg_right hu hcyc0)
  have k4 : (operations l : ℚ) ≤ c.hw.units * n := by
    rw [hcyc, ← mul_assoc] at k3
    exact le_of_mul_le_mul_right k3 hcy
  have hid : e.2.overall.ideal ≤ e.2.overall.idealTemporal := by
    rw [v1, v2, ec, e8, hn, hmac]
    refine mul_le_mul_of_nonneg_right ?_ hcy.le
    have : ⌈(operations l : ℚ) / c.hw.units⌉ ≤ (n : Int) := Int.ceil_le.2 (by
      rw [div_le_iff₀ hU]
      push_cast
      linarith)
    exact_mod_cast this
  have hop : (0 : ℚ) < operations l := by
    have : 1 ≤ operations l := List.one_le_prod fun x hx => by
      obtain ⟨y, hy, rfl⟩ := List.mem_map.1 hx
      obtain ⟨z, hz, rfl⟩ := List.mem_map.1 hy
      obtain ⟨n, hn, hxn⟩ := I.layer.whole z hz
      rw [hxn]
      simpa using hn
    exact_mod_cast this
  have hi0 : 0 < e.2.overall.ideal := by
    rw [v1, ec, e8, hmac]
    refine mul_pos ?_ hcy
    exact_mod_cast Int.ceil_pos.2 (div_pos hop hU)
  have hl0 : 0 < e.2.overall.latency0 := lt_of_lt_of_le v3 v4
  refine ⟨?_, hid, v4, ?_, ?_, ?_, ?_⟩
  · rw [← C.units]
    exact k3.trans (mul_le_mul_of_nonneg_left f2 hU.le)
  · rw [v6]
    exact div_pos hi0 hl0
  · rw [v6, v5]
    exact div_le_div_of_nonneg_left hi0.le v3 v4
  · rw [v5]
    exact (div_le_one v3).2 hid
  · intro hs
    obtain ⟨r, w1, -, -, -, w2, w3⟩ := Evaluate.ordered_partial R hs
    rw [hr] at w1
    cases w1
    have hl1 := lt_of_lt_of_le hl0 w2
    have hl2 := lt_of_lt_of_le hl1 w3
    rw [v6, v7, v8]
    exact ⟨div_pos hi0 hl2, div_le_div_of_nonneg_left hi0.le hl1 w3, div_le_div_of_nonneg_left hi0.le hl0 w2, w2, w3⟩

end Verif.Whole
