import Verif.Search.Errors
import Verif.Search.Held
import Verif.Ordering.Follow
import Verif.Evaluate.Fit

/-! C145, C146: from a spatial mapping to evaluated mappings. -/

namespace Verif.Search

open Cme (Dir)
open Evaluate (Hw Mem Job Result Mapped Ready Separate evaluate util copies inUse)
open LayerNode (Relation)
open MapInfo (Lv iters)
open Transfer (WholeLoops)
open Latency (Operand)

section
variable {Dim : Type} [DecidableEq Dim] {h : Hw} {topo : List Mem} {t : Task Dim} {rl : Operand → List Dim} {rels : List (Relation Dim)}
  {order array : List (Dim × ℚ)}

/-- The level of an operand in a memory is the number of memories with the operand that come before. -/
theorem lvl_holds (P : Prepared h topo t rl rels array) {pre post : List Mem} {m : Mem} (e : topo = pre ++ m :: post) {p : Operand × Nat}
    (hp : p ∈ m.holds) (ho : p.1 ∈ t.ops) : Alloc.lvl (pre.map (node h)) p.1 = p.2 := by
  have hmem : m ∈ h.mems := P.sorted.mem_iff.1 (by rw [e]; simp)
  have hl : Alloc.lvl (pre.map (node h)) p.1 = (pre.filter fun m => decide (p.1 ∈ m.holds.map Prod.fst)).length := by
    unfold Alloc.lvl
    rw [List.filter_map, List.length_map]
    rfl
  have hin : p.1 ∈ m.holds.map Prod.fst := List.mem_map.2 ⟨p, hp, rfl⟩
  have hg : (h.levels p.1)[(pre.filter fun m => decide (p.1 ∈ m.holds.map Prod.fst)).length]? = some m := by
    rw [P.levels, e, List.filter_append, List.filter_cons_of_pos (by simpa using hin)]
    simp
  have h2 := held' P ho hg
  have := (List.nodup_map_iff_inj_on (List.Nodup.of_map _ (P.built.single m hmem))).1 (P.built.single m hmem) _ h2 _ hp rfl
  rw [hl, ← this]

/-- What the loops that are kept in a memory occupy is at most its size. -/
theorem kept_fits (P : Prepared h topo t rl rels array) {tm : Operand → Lv Dim} (ha : allocate h topo t order = .ok tm) {j : Job Dim} (hops : j.ops = t.ops)
    {m : Mem} (hm : m ∈ h.mems) :
    ((m.holding j).map fun p => Alloc.heldBits (allocEnv t) order (tm p.1) p.1 p.2 ((tm p.1).getD p.2 []).length).sum ≤ m.size := by
  obtain ⟨pre, post, e⟩ := List.append_of_mem (P.sorted.mem_iff.2 hm)
  have hn := node_nodup P
  unfold allocate at ha
  rw [e, List.map_append, List.map_cons] at ha hn
  have hf := Alloc.run_fits hn ha
  have hst : Alloc.storedOps (allocEnv t) (node h m) = (m.holding j).map Prod.fst := by
    unfold Alloc.storedOps Mem.holding node allocEnv
    rw [List.filter_map, hops]
    rfl
  rw [hst, List.map_map] at hf
  refine le_trans (le_of_eq ?_) hf
  congr 1
  refine List.map_congr_left fun p hp => ?_
  unfold Mem.holding at hp
  obtain ⟨hp, ho⟩ := List.mem_filter.1 hp
  rw [hops] at ho
  simp only [Function.comp]
  rw [lvl_holds P e hp (by simpa using ho)]

/-- C146: in a mapping that is found, no memory is used for more than its size and half an element per operand (with the conditions on the precisions and
on the output, see `Held`). -/
theorem found_partial (P : Prepared h topo t rl rels array) (O : Order t order) (hfp : t.finalPrecision ≤ t.precision .out) (hpr : (t.rel .out).pr = [])
    {j : Job Dim} (hj : mapOrder h topo t order = .ok j) {r : Result} (hr : evaluate h j = .ok r) {op : Operand} (ho : op ∈ t.ops) {lv : Nat} {m : Mem}
    (hm : (h.levels op)[lv]? = some m) :
    r.utilShared (op, lv) * m.size ≤ m.size + ((m.holding j).map fun p => (t.precision p.1 : ℚ) / 2).sum := by
  have R := mapped P O hj
  obtain ⟨tm, ha, e1, -⟩ := mapOrder_ok P hj
  obtain ⟨fr, it, hfr, -, -, -, -, -, hu⟩ := Evaluate.parts R hr
  have hmem : m ∈ h.mems := P.built.inside op m (List.mem_of_getElem? hm)
  rw [Evaluate.shared_utilization R hr (by rw [e1]; exact ho) hm, ← List.sum_map_mul_right]
  refine le_trans (List.sum_le_sum (g := fun p => Alloc.heldBits (allocEnv t) order (tm p.1) p.1 p.2 ((tm p.1).getD p.2 []).length + (t.precision p.1 : ℚ) / 2) ?_) ?_
  · intro p hp
    unfold Mem.holding at hp
    obtain ⟨hp, hpo⟩ := List.mem_filter.1 hp
    rw [e1] at hpo
    rw [hu]
    exact (used_le P O hfp hpr hj ha hfr (by simpa using hpo) (P.built.numbered m hmem p hp)).1
  · rw [List.sum_map_add]
    exact add_le_add_left (kept_fits P ha e1 hmem) _

/-- C146: if the spatial mapping has whole factors, no memory is used for more than its size. -/
theorem found_fits (P : Prepared h topo t rl rels array) (O : Order t order) (hfp : t.finalPrecision ≤ t.precision .out) (hpr : (t.rel .out).pr = [])
    (hsu : ∀ op ∈ t.ops, ∀ l ∈ (t.su op).flatten, ∃ n : ℕ, l.2 = n) {j : Job Dim} (hj : mapOrder h topo t order = .ok j) {r : Result}
    (hr : evaluate h j = .ok r) {op : Operand} (ho : op ∈ t.ops) {lv : Nat} {m : Mem} (hm : (h.levels op)[lv]? = some m) :
    r.utilShared (op, lv) ≤ 1 := by
  have R := mapped P O hj
  obtain ⟨tm, ha, e1, -⟩ := mapOrder_ok P hj
  obtain ⟨fr, it, hfr, -, -, -, -, -, hu⟩ := Evaluate.parts R hr
  have hmem : m ∈ h.mems := P.built.inside op m (List.mem_of_getElem? hm)
  have hpos : (0 : ℚ) < m.size := by exact_mod_cast Nat.pos_of_ne_zero (P.built.size m hmem)
  have key : r.utilShared (op, lv) * m.size ≤ m.size := by
    rw [Evaluate.shared_utilization R hr (by rw [e1]; exact ho) hm, ← List.sum_map_mul_right]
    refine le_trans (List.sum_le_sum ?_) (kept_fits P ha e1 hmem)
    intro p hp
    unfold Mem.holding at hp
    obtain ⟨hp, hpo⟩ := List.mem_filter.1 hp
    rw [e1] at hpo
    have hpo : p.1 ∈ t.ops := by simpa using hpo
    rw [hu]
    exact (used_le P O hfp hpr hj ha hfr hpo (P.built.numbered m hmem p hp)).2 (hsu p.1 hpo)
  exact le_of_mul_le_mul_right (by rw [one_mul]; exact key) hpos

/-- C146: and there is room for the second copies of all operands that are said to be double buffered. -/
theorem found_buffers (P : Prepared h topo t rl rels array) (O : Order t order) (hfp : t.finalPrecision ≤ t.precision .out) (hpr : (t.rel .out).pr = [])
    (hsu : ∀ op ∈ t.ops, ∀ l ∈ (t.su op).flatten, ∃ n : ℕ, l.2 = n) {j : Job Dim} (hj : mapOrder h topo t order = .ok j) {r : Result}
    (hr : evaluate h j = .ok r) {m : Mem} (hm : m ∈ h.mems) : ((m.holding j).map fun p => copies r.flags p * inUse j r.util m.size p).sum ≤ 1 := by
  refine Evaluate.double_buffers_fit (mapped P O hj) hr (fun op ho lv hl => ?_) hm
  obtain ⟨tm, -, e1, -⟩ := mapOrder_ok P hj
  rw [e1] at ho
  exact found_fits P O hfp hpr hsu hj hr ho (List.getElem?_eq_getElem hl)

end

/-! ### The whole search -/

theorem prod_one_key {D : Type} [DecidableEq D] (f : D → ℚ) (x : ℚ) (k : D) : ∀ (keys : List D), keys.Nodup →
    (keys.map fun d => if k = d then x * f d else f d).prod = (if k ∈ keys then x else 1) * (keys.map f).prod
  | [], _ => by simp
  | a :: keys, hn => by
    rw [List.nodup_cons] at hn
    have ih := prod_one_key f x k keys hn.2
    rw [List.map_cons, List.prod_cons, ih, List.map_cons, List.prod_cons]
    by_cases hk : k = a
    · subst hk
      rw [if_pos rfl, if_neg hn.1, if_pos List.mem_cons_self]
      ring
    · rw [if_neg hk]
      by_cases h2 : k ∈ keys
      · rw [if_pos h2, if_pos (List.mem_cons_of_mem _ h2)]; ring
      · rw [if_neg h2, if_neg (by simp [hk, h2])]; ring

/-- The sizes of all loops, dimension by dimension. -/
theorem prod_by_key {D : Type} [DecidableEq D] {keys : List D} (hn : keys.Nodup) : ∀ (l : List (D × ℚ)), (∀ x ∈ l, x.1 ∈ keys) →
    (keys.map fun d => ((l.filter fun x => decide (x.1 = d)).map Prod.snd).prod).prod = (l.map Prod.snd).prod
  | [], _ => by simp
  | x :: l, hl => by
    have e : (fun d => (((x :: l).filter fun x => decide (x.1 = d)).map Prod.snd).prod) =
        fun d => if x.1 = d then x.2 * ((l.filter fun x => decide (x.1 = d)).map Prod.snd).prod else ((l.filter fun x => decide (x.1 = d)).map Prod.snd).prod := by
      funext d
      by_cases hd : x.1 = d <;> simp [hd]
    rw [e, prod_one_key _ _ _ _ hn, if_pos (hl x List.mem_cons_self), prod_by_key hn l (fun y hy => hl y (List.mem_cons_of_mem _ hy))]
    simp

theorem prod_le_prod {α : Type} {f g : α → ℚ} : ∀ (l : List α), (∀ x ∈ l, 0 ≤ f x ∧ f x ≤ g x) → 0 ≤ (l.map f).prod ∧ (l.map f).prod ≤ (l.map g).prod
  | [], _ => by simp
  | x :: l, h => by
    obtain ⟨h1, h2⟩ := prod_le_prod l fun y hy => h y (List.mem_cons_of_mem _ hy)
    obtain ⟨h3, h4⟩ := h x List.mem_cons_self
    simp only [List.map_cons, List.prod_cons]
    exact ⟨mul_nonneg h3 h1, mul_le_mul h4 h2 h1 (h3.trans h4)⟩

section
variable {D : Type} [LinearOrder D] {h : Hw} {topo : List Mem} {t : Task D} {rl : Operand → List D} {rels : List (Relation D)} {array : List (D × ℚ)}

theorem evaluations_mem : ∀ {jobs : List (Job D)} {err : Option PyErr} {e : Job D × Result}, e ∈ (evaluations h jobs err).1 → e.1 ∈ jobs ∧ evaluate h e.1 = .ok e.2
  | [], _, e, he => by simp [evaluations] at he
  | j :: js, err, e, he => by
    unfold evaluations at he
    cases hj : evaluate h j with
    | error x => rw [hj] at he; simp at he
    | ok r =>
      rw [hj] at he
      rcases List.mem_cons.1 he with rfl | he
      · exact ⟨List.mem_cons_self, hj⟩
      · obtain ⟨h1, h2⟩ := evaluations_mem he
        exact ⟨List.mem_cons_of_mem _ h1, h2⟩

theorem evaluations_error : ∀ {jobs : List (Job D)} {err : Option PyErr} {x : PyErr}, (∀ j ∈ jobs, ∀ x, evaluate h j = .error x → x = .zeroDivision) →
    (evaluations h jobs err).2 = some x → err = some x ∨ x = .zeroDivision
  | [], _, x, _, he => Or.inl (by simpa [evaluations] using he)
  | j :: js, err, x, hz, he => by
    unfold evaluations at he
    cases hj : evaluate h j with
    | error y =>
      rw [hj] at he
      simp only [Option.some.injEq] at he
      subst he
      exact Or.inr (hz j List.mem_cons_self _ hj)
    | ok r =>
      rw [hj] at he
      exact evaluations_error (fun j hj => hz j (List.mem_cons_of_mem _ hj)) he

theorem evaluations_all : ∀ {jobs : List (Job D)} {err : Option PyErr}, (∀ j ∈ jobs, ∃ r, evaluate h j = .ok r) →
    (evaluations h jobs err).2 = err ∧ (evaluations h jobs err).1.map Prod.fst = jobs
  | [], _, _ => by simp [evaluations]
  | j :: js, err, hz => by
    obtain ⟨r, hr⟩ := hz j List.mem_cons_self
    obtain ⟨h1, h2⟩ := evaluations_all (err := err) (fun j hj => hz j (List.mem_cons_of_mem _ hj))
    unfold evaluations
    rw [hr]
    simp [h1, h2]

/-- C145: the search ends, it yields exactly the mappings of those orders of certain loops that obey the ordering of the user and for which the loops fit (each
order once, and an exception says that there is none), and every mapping can be evaluated; the only other exception is a division by zero in an evaluation, and
there is none of them if no two movements of a port happen exactly once (`Evaluate.cancelled_crash`).  The user gives no ordering, one that says which
dimensions come first, or a complete one; for others the loops are wrong (`Ordering.sized_order_false`). -/
theorem search_partial (P : Prepared h topo t rl rels array) (hlk : ∀ p ∈ h.ports, ∀ k ∈ p.served, k.1 ∈ t.ops) (fact : Nat → List (Nat × Nat))
    (hf : Lpf.FactContract fact) (sizes : Dict D Int) (hw : sizes.WF) (hpos : ∀ k v, sizes.get? k = some v → 1 ≤ v) (hne : sizes ≠ [])
    (hd : t.L.dimSizes.keys = sizes.keys) (spatial : List (D × ℚ)) (hsp : ∀ l ∈ spatial, 1 ≤ l.2) (limit : Option Nat) (hlim : ∀ l, limit = some l → 1 ≤ l)
    (data : List (Ordering.Entry D)) (hfo : Ordering.Followed sizes spatial data) :
    ∃ (N : Nat) (o₀ : Engine.Order D) (L : List (Engine.Order D)), L.Nodup ∧ (∀ o, o ∈ L ↔ o.Perm o₀ ∧ Ordering.Obeys data o) ∧ (∀ o ∈ L, Order t (Engine.toAlloc o)) ∧
      (∀ d s, sizes.get? d = some s →
        (s : ℚ) ≤ ((spatial.filter (fun l => l.1 = d)).map Prod.snd).prod * Engine.iterQ (Engine.toAlloc o₀) d) ∧ Order t (Engine.toAlloc o₀) ∧
      ∀ fuel, N ≤ fuel → ∃ jobs err, mappings fact h topo t sizes spatial limit data fuel = some (jobs, err) ∧
        jobs = L.filterMap (fun o => (mapOrder h topo t (Engine.toAlloc o)).toOption) ∧
        (err = none ∧ jobs ≠ [] ∨ (∃ e, err = some e ∧ Ordering.Refusal data e) ∧ jobs = []) ∧
        (∀ j ∈ jobs, ∃ o ∈ L, mapOrder h topo t (Engine.toAlloc o) = .ok j ∧ Ready h j rl rels (Engine.toAlloc o) array) ∧
        (∀ x, (evaluations h jobs err).2 = some x → Ordering.Refusal data x ∧ jobs = [] ∨ x = .zeroDivision) ∧
        ((∀ j ∈ jobs, Separate h j) → (evaluations h jobs err).2 = err ∧ (evaluations h jobs err).1.map Prod.fst = jobs) := by
  obtain ⟨ld, lds, hk⟩ : ∃ ld lds, sizes.keys = ld :: lds := by
    cases sizes with
    | nil => exact absurd rfl hne
    | cons p s => exact ⟨p.1, Dict.keys s, rfl⟩
  obtain ⟨N, o₀, L, h1, h2, h3, h4, h5⟩ := Ordering.generate_followed fact lds sizes spatial limit data (fun o => mapOrder h topo t (Engine.toAlloc o)) hf ld hw hpos
    hsp hlim (by rw [hk]; exact List.mem_cons_self) hfo (fun o e he => mapOrder_error P he)
  have hO₀ : Order t (Engine.toAlloc o₀) := by
    refine ⟨fun l hl => ?_, fun l hl => ?_⟩
    · obtain ⟨-, n, e, hn⟩ := h4 l hl
      exact ⟨n, e, hn⟩
    · rw [hd]
      exact (h4 l hl).1
  have hO : ∀ o ∈ L, Order t (Engine.toAlloc o) := by
    intro o ho
    have hp : (Engine.toAlloc o).Perm (Engine.toAlloc o₀) := ((h2 o).1 ho).1.map _
    exact ⟨fun l hl => hO₀.whole l (hp.mem_iff.1 hl), fun l hl => hO₀.dims l (hp.mem_iff.1 hl)⟩
  refine ⟨N, o₀, L, h1, h2, hO, h3, hO₀, fun fuel hfu => ?_⟩
  obtain ⟨err, g1, g2⟩ := h5 fuel hfu
  set jobs := L.filterMap (fun o => (mapOrder h topo t (Engine.toAlloc o)).toOption) with hjd
  have hjobs : ∀ j ∈ jobs, ∃ o ∈ L, mapOrder h topo t (Engine.toAlloc o) = .ok j ∧ Ready h j rl rels (Engine.toAlloc o) array := by
    intro j hj
    obtain ⟨o, ho, hoj⟩ := List.mem_filterMap.1 hj
    have hoj : mapOrder h topo t (Engine.toAlloc o) = .ok j := by
      cases hm : mapOrder h topo t (Engine.toAlloc o) with
      | error e => rw [hm] at hoj; cases hoj
      | ok j' => rw [hm] at hoj; simp only [Except.toOption, Option.some.injEq] at hoj; rw [hoj]
    refine ⟨o, ho, hoj, { toMapped := mapped P (hO o ho) hoj, linked := ?_ }⟩
    obtain ⟨tm, -, e1, -⟩ := mapOrder_ok P hoj
    rw [e1]
    exact hlk
  have hend : err = none ∧ jobs ≠ [] ∨ (∃ e, err = some e ∧ Ordering.Refusal data e) ∧ jobs = [] := by
    rcases g2 with ⟨hn, o, ho, j, hj⟩ | ⟨he, hc⟩
    · left
      refine ⟨hn, List.ne_nil_of_mem (a := j) (List.mem_filterMap.2 ⟨o, ho, ?_⟩)⟩
      rw [hj]; rfl
    · right
      refine ⟨he, ?_⟩
      rw [hjd, List.filterMap_eq_nil_iff]
      intro o ho
      obtain ⟨e, he⟩ := hc o ho
      rw [he]; rfl
  refine ⟨jobs, err, ?_, rfl, hend, hjobs, ?_, ?_⟩
  · unfold mappings
    rw [hk, g1]
  · intro x hx
    have hz : ∀ j ∈ jobs, ∀ x, evaluate h j = .error x → x = .zeroDivision := by
      intro j hj x hx
      obtain ⟨o, -, -, R⟩ := hjobs j hj
      obtain ⟨st, on, off, -, hh⟩ := Evaluate.evaluated_partial R
      rcases hh with ⟨g, -⟩ | ⟨r, g, -⟩
      · rw [g] at hx; cases hx; rfl
      · rw [g] at hx; cases hx
    rcases evaluations_error hz hx with he | he
    · left
      rcases hend with ⟨g1, -⟩ | ⟨⟨e, g1, g3⟩, g2⟩
      · rw [g1] at he; cases he
      · rw [g1] at he; cases he; exact ⟨g3, g2⟩
    · exact Or.inr he
  · intro hs
    refine evaluations_all fun j hj => ?_
    obtain ⟨o, -, -, R⟩ := hjobs j hj
    obtain ⟨r, hr, -⟩ := Evaluate.ordered_partial R (hs j hj)
    exact ⟨r, hr⟩

/-- C145: all evaluations have the same ideal number of cycles, the latency is at least that, and the cycles times the units that the spatial loops use are
at least the operations of the layer. -/
theorem search_cycles (P : Prepared h topo t rl rels array) (hlk : ∀ p ∈ h.ports, ∀ k ∈ p.served, k.1 ∈ t.ops) (fact : Nat → List (Nat × Nat))
    (hf : Lpf.FactContract fact) (sizes : Dict D Int) (hw : sizes.WF) (hpos : ∀ k v, sizes.get? k = some v → 1 ≤ v) (hne : sizes ≠ [])
    (hd : t.L.dimSizes.keys = sizes.keys) (spatial : List (D × ℚ)) (hsp : ∀ l ∈ spatial, 1 ≤ l.2 ∧ l.1 ∈ sizes.keys) (limit : Option Nat)
    (hlim : ∀ l, limit = some l → 1 ≤ l) (data : List (Ordering.Entry D)) (hfo : Ordering.Followed sizes spatial data) :
    ∃ N, ∃ c : ℚ, (((sizes.map Prod.snd).prod : Int) : ℚ) * t.cyclesPerOp ≤ (spatial.map Prod.snd).prod * c ∧
      ∀ fuel, N ≤ fuel → ∃ jobs err, mappings fact h topo t sizes spatial limit data fuel = some (jobs, err) ∧
        ∀ e ∈ (evaluations h jobs err).1, e.2.overall.idealTemporal = c ∧ c ≤ e.2.overall.latency0 := by
  obtain ⟨N, o, L, -, h2, -, h4, hO, h5⟩ := search_partial P hlk fact hf sizes hw hpos hne hd spatial (fun l hl => (hsp l hl).1) limit hlim data hfo
  have hperm : ∀ o' ∈ L, iters (Engine.toAlloc o') = iters (Engine.toAlloc o) := by
    intro o' ho'
    have : (Engine.toAlloc o').Perm (Engine.toAlloc o) := ((h2 o').1 ho').1.map _
    exact (this.map _).prod_eq
  refine ⟨N, iters (Engine.toAlloc o) * t.cyclesPerOp, ?_, fun fuel hfu => ?_⟩
  · have hkn : sizes.keys.Nodup := hw
    have e1 : (sizes.map Prod.snd).prod = ((sizes.keys.map fun d => ((sizes.get? d).getD 1 : Int)).prod : Int) := by
      congr 1
      unfold Dict.keys
      rw [List.map_map]
      refine List.map_congr_left fun p hp => ?_
      simp only [Function.comp]
      rw [Dict.get?_of_mem hw (v := p.2) (by exact hp)]
      rfl
    have e2 : (((sizes.map Prod.snd).prod : Int) : ℚ) = (sizes.keys.map fun d => (((sizes.get? d).getD 1 : Int) : ℚ)).prod := by
      rw [e1]
      generalize sizes.keys = ks
      induction ks with
      | nil => simp
      | cons k ks ih => simp [ih]
    have e3 := prod_le_prod (f := fun d => (((sizes.get? d).getD 1 : Int) : ℚ))
      (g := fun d => ((spatial.filter (fun l => l.1 = d)).map Prod.snd).prod * Engine.iterQ (Engine.toAlloc o) d) sizes.keys (by
        intro d hk
        cases hg : sizes.get? d with
        | none => exact absurd hk ((Dict.get?_eq_none_iff _ _).1 hg)
        | some v =>
          have := hpos d v hg
          refine ⟨?_, h4 d v hg⟩
          simp only [Option.getD_some]
          exact_mod_cast (by omega : (0 : Int) ≤ v))
    rw [List.prod_map_mul, prod_by_key hkn spatial (fun l hl => (hsp l hl).2)] at e3
    have e4 : (sizes.keys.map fun d => Engine.iterQ (Engine.toAlloc o) d).prod = iters (Engine.toAlloc o) :=
      prod_by_key hkn _ (fun l hl => by rw [← hd]; exact hO.dims l hl)
    rw [e4] at e3
    rw [e2, ← mul_assoc]
    exact mul_le_mul_of_nonneg_right e3.2 (by positivity)
  · obtain ⟨jobs, err, g1, -, -, g2, -⟩ := h5 fuel hfu
    refine ⟨jobs, err, g1, fun e he => ?_⟩
    obtain ⟨hj, hr⟩ := evaluations_mem he
    obtain ⟨o', ho', hm, R⟩ := g2 _ hj
    obtain ⟨st, on, off, h0, hh⟩ := Evaluate.evaluated_partial R
    obtain ⟨tm, -, -, -, -, -, -, -, -, -, -, hc, -⟩ := mapOrder_ok P hm
    rcases hh with ⟨g, -⟩ | ⟨r, g, -, f2, f3, -⟩
    · rw [hr] at g; cases g
    · rw [hr] at g
      cases g
      rw [hc, hperm o' ho'] at f2 f3
      refine ⟨f2, ?_⟩
      rw [f3]
      have : (0 : ℚ) ≤ st := by exact_mod_cast h0
      linarith

end

end Verif.Search
