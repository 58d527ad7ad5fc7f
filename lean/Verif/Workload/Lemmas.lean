import Verif.Workload.Model
import Mathlib.Tactic.Linarith

/-! Helper lemmas about workload graphs. -/

namespace Verif.Workload

/-! ### Adding edges -/

theorem addEdge_nodes (g : Graph) (e : Nat × Nat) : (g.addEdge e).nodes = g.nodes := by
  unfold Graph.addEdge; split <;> rfl

theorem mem_addEdge (g : Graph) (e x : Nat × Nat) : x ∈ (g.addEdge e).edges ↔ x ∈ g.edges ∨ x = e := by
  unfold Graph.addEdge
  split
  · rename_i h
    constructor
    · exact Or.inl
    · rintro (h' | rfl)
      · exact h'
      · exact h
  · simp

theorem addEdge_nodup {g : Graph} (h : g.edges.Nodup) (e : Nat × Nat) : (g.addEdge e).edges.Nodup := by
  unfold Graph.addEdge
  split
  · exact h
  · rename_i h'
    exact List.nodup_append.2 ⟨h, List.nodup_singleton _, fun a ha b hb hc => by
      rw [List.mem_singleton] at hb; subst hb; subst hc; exact h' ha⟩

theorem addEdges_nodes (l : List (Nat × Nat)) (g : Graph) : (l.foldl Graph.addEdge g).nodes = g.nodes := by
  induction l generalizing g with
  | nil => rfl
  | cons e l ih => rw [List.foldl_cons, ih, addEdge_nodes]

theorem mem_addEdges (l : List (Nat × Nat)) (g : Graph) (x : Nat × Nat) : x ∈ (l.foldl Graph.addEdge g).edges ↔ x ∈ g.edges ∨ x ∈ l := by
  induction l generalizing g with
  | nil => simp
  | cons e l ih => rw [List.foldl_cons, ih, mem_addEdge, List.mem_cons, or_assoc]

theorem addEdges_nodup (l : List (Nat × Nat)) {g : Graph} (h : g.edges.Nodup) : (l.foldl Graph.addEdge g).edges.Nodup := by
  induction l generalizing g with
  | nil => exact h
  | cons e l ih => exact ih (addEdge_nodup h e)

/-! ### Looking up sources -/

theorem lookup_ok {table : Dict Nat Nat} {m : PyErr} {ss ps : List Nat} (h : lookup table m ss = .ok ps) (p : Nat) :
    p ∈ ps ↔ ∃ s ∈ ss, table.get? s = some p := by
  induction ss generalizing ps with
  | nil => cases h; simp
  | cons s ss ih =>
    unfold lookup at h
    cases h1 : table.get? s with
    | none => rw [h1] at h; cases h
    | some q =>
      rw [h1] at h
      simp only at h
      cases h2 : lookup table m ss with
      | error e => rw [h2] at h; cases h
      | ok ps' =>
        rw [h2] at h
        cases h
        simp only [List.mem_cons, ih h2, exists_eq_or_imp, h1, Option.some.injEq]
        constructor
        · rintro (rfl | h)
          · exact .inl rfl
          · exact .inr h
        · rintro (rfl | h)
          · exact .inl rfl
          · exact .inr h

theorem lookup_ok_iff {table : Dict Nat Nat} {m : PyErr} {ss : List Nat} : (∃ ps, lookup table m ss = .ok ps) ↔ ∀ s ∈ ss, ∃ p, table.get? s = some p := by
  induction ss with
  | nil => simp [lookup]
  | cons s ss ih =>
    unfold lookup
    cases h1 : table.get? s with
    | none => simp [h1]
    | some q =>
      simp only [List.forall_mem_cons, h1, Option.some.injEq, exists_eq', true_and, ← ih]
      cases h2 : lookup table m ss with
      | error e => simp
      | ok ps' => simp

theorem lookup_error {table : Dict Nat Nat} {m e : PyErr} {ss : List Nat} (h : lookup table m ss = .error e) : e = m := by
  induction ss with
  | nil => cases h
  | cons s ss ih =>
    unfold lookup at h
    cases h1 : table.get? s with
    | none => rw [h1] at h; cases h; rfl
    | some q =>
      rw [h1] at h
      simp only at h
      cases h2 : lookup table m ss with
      | error e' => rw [h2] at h; cases h; exact ih h2
      | ok ps' => rw [h2] at h; cases h

theorem lookup_congr {t t' : Dict Nat Nat} (m : PyErr) {ss : List Nat} (h : ∀ s ∈ ss, t.get? s = t'.get? s) : lookup t m ss = lookup t' m ss := by
  induction ss with
  | nil => rfl
  | cons s ss ih =>
    unfold lookup
    rw [h s (List.mem_cons_self ..), ih fun s' hs => h s' (List.mem_cons_of_mem _ hs)]

/-! ### Building a graph -/

/-- `i` is the last of the first `k` entries with this id. -/
def Latest (ids : List Nat) (k s i : Nat) : Prop := i < k ∧ ids[i]? = some s ∧ ∀ j, i < j → j < k → ids[j]? ≠ some s

theorem Latest.unique {ids : List Nat} {k s i i' : Nat} (h : Latest ids k s i) (h' : Latest ids k s i') : i = i' := by
  rcases Nat.lt_trichotomy i i' with hl | hl | hl
  · exact absurd h'.2.1 (h.2.2 i' hl h'.1)
  · exact hl
  · exact absurd h.2.1 (h'.2.2 i hl h.1)

theorem exists_latest {ids : List Nat} {k s i : Nat} (hi : i < k) (hs : ids[i]? = some s) : ∃ i', Latest ids k s i' := by
  induction k with
  | zero => omega
  | succ k ih =>
    by_cases hk : ids[k]? = some s
    · exact ⟨k, Nat.lt_succ_self k, hk, fun j h1 h2 => by omega⟩
    · have : i ≠ k := fun h => hk (h ▸ hs)
      obtain ⟨i', h1, h2, h3⟩ := ih (by omega)
      refine ⟨i', by omega, h2, fun j hj hj' => ?_⟩
      by_cases hjk : j = k
      · subst hjk; exact hk
      · exact h3 j hj (by omega)

/-- What the constructor loop has built after `k` entries; `par j i`: entry `j` has entry `i` as a source. -/
structure BInv (ids : List Nat) (par : Nat → Nat → Prop) (k : Nat) (b : Builder) : Prop where
  table : ∀ s i, b.table.get? s = some i ↔ Latest ids k s i
  nodes : b.graph.nodes = List.range k
  edges : ∀ i j, (i, j) ∈ b.graph.edges ↔ j < k ∧ par j i
  nodup : b.graph.edges.Nodup

theorem binv_empty (ids : List Nat) (par : Nat → Nat → Prop) : BInv ids par 0 emptyBuilder :=
  ⟨fun s i => by simp [emptyBuilder, Dict.get?, Latest], rfl, fun i j => by simp [emptyBuilder], List.nodup_nil⟩

theorem table_step {ids : List Nat} {par : Nat → Nat → Prop} {k : Nat} {b : Builder} (hb : BInv ids par k b) {id : Nat} (hid : ids[k]? = some id) (s i : Nat) :
    (b.table.set id k).get? s = some i ↔ Latest ids (k + 1) s i := by
  rw [Dict.get?_set]
  by_cases h : id = s
  · subst h
    simp only [if_true, Option.some.injEq]
    constructor
    · rintro rfl
      exact ⟨Nat.lt_succ_self k, hid, fun j h1 h2 => by omega⟩
    · intro h
      by_contra hc
      exact h.2.2 k (by have := h.1; omega) (Nat.lt_succ_self k) hid
  · rw [if_neg h, hb.table]
    constructor
    · rintro ⟨h1, h2, h3⟩
      refine ⟨by omega, h2, fun j hj hj' => ?_⟩
      by_cases hjk : j = k
      · subst hjk; rw [hid]; exact fun hc => h (Option.some.inj hc)
      · exact h3 j hj (by omega)
    · rintro ⟨h1, h2, h3⟩
      have : i ≠ k := fun hc => h (by rw [hc, hid] at h2; exact Option.some.inj h2)
      exact ⟨by omega, h2, fun j hj hj' => h3 j hj (by omega)⟩

theorem addLayer_inv {ids : List Nat} {par : Nat → Nat → Prop} {k : Nat} {b b' : Builder} {m : PyErr} {id : Nat} {ss : List Nat}
    (hb : BInv ids par k b) (hid : ids[k]? = some id) (hpar : ∀ i, par k i ↔ ∃ s ∈ ss, Latest ids (k + 1) s i)
    (h : addLayer m b k id ss = .ok b') : BInv ids par (k + 1) b' := by
  unfold addLayer at h
  simp only at h
  cases hl : lookup (b.table.set id k) m ss with
  | error e => rw [hl] at h; cases h
  | ok ps =>
    rw [hl] at h
    simp only [Except.ok.injEq] at h
    subst h
    have hnode : b.graph.addNode k = { b.graph with nodes := b.graph.nodes ++ [k] } := by
      unfold Graph.addNode
      rw [if_neg (by rw [hb.nodes]; simp)]
    refine ⟨table_step hb hid, ?_, ?_, ?_⟩
    · simp only
      rw [addEdges_nodes, hnode]
      simp only
      rw [hb.nodes, List.range_succ]
    · intro i j
      simp only
      rw [mem_addEdges, hnode]
      simp only [List.mem_map, Prod.mk.injEq, hb.edges]
      have hp : ∀ i, i ∈ ps ↔ par k i := by
        intro i
        rw [lookup_ok hl, hpar]
        constructor
        · rintro ⟨s, h1, h2⟩; exact ⟨s, h1, (table_step hb hid s i).1 h2⟩
        · rintro ⟨s, h1, h2⟩; exact ⟨s, h1, (table_step hb hid s i).2 h2⟩
      constructor
      · rintro (⟨h1, h2⟩ | ⟨p, h1, rfl, rfl⟩)
        · exact ⟨by omega, h2⟩
        · exact ⟨Nat.lt_succ_self _, (hp _).1 h1⟩
      · rintro ⟨h1, h2⟩
        by_cases hj : j = k
        · subst hj; exact .inr ⟨i, (hp i).2 h2, rfl, rfl⟩
        · exact .inl ⟨by omega, h2⟩
    · apply addEdges_nodup
      rw [hnode]
      exact hb.nodup

theorem addLayer_ok_iff {ids : List Nat} {par : Nat → Nat → Prop} {k : Nat} {b : Builder} {m : PyErr} {id : Nat} {ss : List Nat}
    (hb : BInv ids par k b) (hid : ids[k]? = some id) :
    (∃ b', addLayer m b k id ss = .ok b') ↔ ∀ s ∈ ss, ∃ i ≤ k, ids[i]? = some s := by
  have h1 : (∃ b', addLayer m b k id ss = .ok b') ↔ ∃ ps, lookup (b.table.set id k) m ss = .ok ps := by
    unfold addLayer
    simp only
    cases hl : lookup (b.table.set id k) m ss with
    | error e => simp
    | ok ps => simp
  rw [h1, lookup_ok_iff]
  constructor
  · intro h s hs
    obtain ⟨p, hp⟩ := h s hs
    have := (table_step hb hid s p).1 hp
    exact ⟨p, by have := this.1; omega, this.2.1⟩
  · intro h s hs
    obtain ⟨i, hi, hi'⟩ := h s hs
    obtain ⟨p, hp⟩ := exists_latest (k := k + 1) (by omega) hi'
    exact ⟨p, (table_step hb hid s p).2 hp⟩

theorem addLayer_error {b : Builder} {m e : PyErr} {k id : Nat} {ss : List Nat} (h : addLayer m b k id ss = .error e) : e = m := by
  unfold addLayer at h
  simp only at h
  cases hl : lookup (b.table.set id k) m ss with
  | error e' => rw [hl] at h; cases h; exact lookup_error hl
  | ok ps => rw [hl] at h; cases h

/-- The sources of entry `j` according to the specification: the last earlier entry with the id of a source. -/
def dnnPar (es : List Entry) (j i : Nat) : Prop := ∃ e, es[j]? = some e ∧ ∃ s ∈ e.source, s ≠ e.id ∧ Latest (es.map Entry.id) j s i

theorem dnnPar_iff {es : List Entry} {k : Nat} {e : Entry} (he : es[k]? = some e) (i : Nat) :
    dnnPar es k i ↔ ∃ s ∈ e.inputs, Latest (es.map Entry.id) (k + 1) s i := by
  have hid : (es.map Entry.id)[k]? = some e.id := by rw [List.getElem?_map, he]; rfl
  unfold dnnPar Entry.inputs
  simp only [he, Option.some.injEq, exists_eq_left', List.mem_filter, decide_eq_true_eq]
  constructor
  · rintro ⟨s, h1, h2, h3, h4, h5⟩
    refine ⟨s, ⟨h1, h2⟩, by omega, h4, fun j hj hj' => ?_⟩
    by_cases hjk : j = k
    · subst hjk; rw [hid]; exact fun hc => h2 (Option.some.inj hc).symm
    · exact h5 j hj (by omega)
  · rintro ⟨s, ⟨h1, h2⟩, h3, h4, h5⟩
    have : i ≠ k := fun hc => h2 (by rw [hc, hid] at h4; exact (Option.some.inj h4).symm)
    exact ⟨s, h1, h2, by omega, h4, fun j hj hj' => h5 j hj (by omega)⟩

theorem dnnLoop_inv (es done rest : List Entry) (hes : es = done ++ rest) (b b' : Builder)
    (hb : BInv (es.map Entry.id) (dnnPar es) done.length b) (h : dnnLoop done.length b rest = .ok b') :
    BInv (es.map Entry.id) (dnnPar es) es.length b' := by
  induction rest generalizing done b with
  | nil => cases h; rw [hes, List.append_nil] at *; exact hb
  | cons e rest ih =>
    have he : es[done.length]? = some e := by rw [hes]; simp
    have hid : (es.map Entry.id)[done.length]? = some e.id := by rw [List.getElem?_map, he]; rfl
    unfold dnnLoop at h
    cases h1 : addLayer .assertion b done.length e.id e.inputs with
    | error err => rw [h1] at h; cases h
    | ok b1 =>
      rw [h1] at h
      simp only at h
      have := addLayer_inv hb hid (dnnPar_iff he) h1
      refine ih (done ++ [e]) (by rw [hes]; simp) b1 ?_ ?_
      · simpa using this
      · simpa using h

theorem dnnLoop_ok_iff (es done rest : List Entry) (hes : es = done ++ rest) (b : Builder)
    (hb : BInv (es.map Entry.id) (dnnPar es) done.length b) :
    (∃ b', dnnLoop done.length b rest = .ok b') ↔
      ∀ (j : Nat) (e : Entry), done.length ≤ j → es[j]? = some e → ∀ s ∈ e.source, s = e.id ∨ ∃ i < j, (es.map Entry.id)[i]? = some s := by
  induction rest generalizing done b with
  | nil =>
    constructor
    · intro _ j e hj he
      rw [hes, List.append_nil, List.getElem?_eq_none hj] at he
      cases he
    · intro _; exact ⟨b, rfl⟩
  | cons e rest ih =>
    have he : es[done.length]? = some e := by rw [hes]; simp
    have hid : (es.map Entry.id)[done.length]? = some e.id := by rw [List.getElem?_map, he]; rfl
    have hfirst : (∃ b', addLayer .assertion b done.length e.id e.inputs = .ok b') ↔
        ∀ s ∈ e.source, s = e.id ∨ ∃ i < done.length, (es.map Entry.id)[i]? = some s := by
      rw [addLayer_ok_iff hb hid]
      unfold Entry.inputs
      simp only [List.mem_filter, decide_eq_true_eq]
      constructor
      · intro h s hs
        by_cases hse : s = e.id
        · exact .inl hse
        · obtain ⟨i, hi, hi'⟩ := h s ⟨hs, hse⟩
          refine .inr ⟨i, ?_, hi'⟩
          rcases Nat.lt_or_ge i done.length with h | h
          · exact h
          · have : i = done.length := by omega
            rw [this, hid] at hi'
            exact absurd (Option.some.inj hi').symm hse
      · rintro h s ⟨hs, hse⟩
        rcases h s hs with h | ⟨i, hi, hi'⟩
        · exact absurd h hse
        · exact ⟨i, hi.le, hi'⟩
    unfold dnnLoop
    cases h1 : addLayer .assertion b done.length e.id e.inputs with
    | error err =>
      constructor
      · rintro ⟨b', hb'⟩; cases hb'
      · intro h
        obtain ⟨b', hb'⟩ := hfirst.2 (h _ e (le_refl _) he)
        rw [h1] at hb'; cases hb'
    | ok b1 =>
      have hb1 := addLayer_inv hb hid (dnnPar_iff he) h1
      have := ih (done ++ [e]) (by rw [hes]; simp) b1 (by simpa using hb1)
      simp only [List.length_append, List.length_singleton] at this
      simp only
      rw [this]
      constructor
      · intro h j e' hj he'
        by_cases hjd : j = done.length
        · subst hjd
          rw [he] at he'; cases he'
          exact hfirst.1 ⟨b1, h1⟩
        · exact h j e' (by omega) he'
      · intro h j e' hj he'
        exact h j e' (by omega) he'

theorem dnnLoop_error (k : Nat) (b : Builder) (es : List Entry) (e : PyErr) (h : dnnLoop k b es = .error e) : e = .assertion := by
  induction es generalizing k b with
  | nil => cases h
  | cons x es ih =>
    unfold dnnLoop at h
    cases h1 : addLayer .assertion b k x.id x.inputs with
    | error err => rw [h1] at h; cases h; exact addLayer_error h1
    | ok b1 => rw [h1] at h; exact ih _ _ h

/-! ### Graphs whose edges go forward -/

/-- All edges go from a smaller to a larger node. -/
theorem forward_topo {g : Graph} {n : Nat} (hn : g.nodes = List.range n) (hnd : g.edges.Nodup) (hf : ∀ i j, (i, j) ∈ g.edges → i < j ∧ j < n) :
    Topo.Graph g.nodes g.edges ∧ Topo.IsTopo g.nodes g.edges g.nodes := by
  refine ⟨⟨by rw [hn]; exact List.nodup_range, hnd, ?_, ?_⟩, List.Perm.refl _, ?_⟩
  · rintro ⟨i, j⟩ he
    have := hf i j he
    rw [hn, List.mem_range]
    simp only
    omega
  · rintro ⟨i, j⟩ he
    have := hf i j he
    rw [hn, List.mem_range]
    simp only
    omega
  · intro pre v post heq u hu
    have := hf u v hu
    rw [hn] at heq
    have hlen : pre.length + (post.length + 1) = n := by
      have := congrArg List.length heq
      simpa using this.symm
    have hv : v = pre.length := by
      have h1 : (List.range n)[pre.length]? = some v := by rw [heq]; simp
      rw [List.getElem?_range (by omega)] at h1
      exact (Option.some.inj h1).symm
    have h2 : (List.range n)[u]? = some u := List.getElem?_range (by omega)
    rw [heq, List.getElem?_append_left (by omega)] at h2
    exact List.mem_of_getElem? h2

/-! ### Bypassing dummy nodes -/

theorem mem_preds {g : Graph} {u v : Nat} : u ∈ preds g v ↔ (u, v) ∈ g.edges := by
  unfold preds
  simp only [List.mem_map, List.mem_filter, decide_eq_true_eq]
  constructor
  · rintro ⟨⟨a, b⟩, ⟨h1, rfl⟩, rfl⟩; exact h1
  · intro h; exact ⟨(u, v), ⟨h, rfl⟩, rfl⟩

theorem mem_succs {g : Graph} {u v : Nat} : v ∈ succs g u ↔ (u, v) ∈ g.edges := by
  unfold succs
  simp only [List.mem_map, List.mem_filter, decide_eq_true_eq]
  constructor
  · rintro ⟨⟨a, b⟩, ⟨h1, rfl⟩, rfl⟩; exact h1
  · intro h; exact ⟨(u, v), ⟨h, rfl⟩, rfl⟩

theorem mem_bypass {g : Graph} {d u v : Nat} : (u, v) ∈ (bypass g d).edges ↔ (u, v) ∈ g.edges ∨ ((u, d) ∈ g.edges ∧ (d, v) ∈ g.edges) := by
  unfold bypass
  rw [mem_addEdges]
  simp only [List.mem_flatMap, List.mem_map, Prod.mk.injEq, mem_succs, mem_preds]
  constructor
  · rintro (h | ⟨s, h1, p, h2, rfl, rfl⟩)
    · exact .inl h
    · exact .inr ⟨h2, h1⟩
  · rintro (h | ⟨h1, h2⟩)
    · exact .inl h
    · exact .inr ⟨v, h2, u, h1, rfl, rfl⟩

theorem bypass_nodes (g : Graph) (d : Nat) : (bypass g d).nodes = g.nodes := addEdges_nodes _ _

theorem bypass_nodup {g : Graph} (h : g.edges.Nodup) (d : Nat) : (bypass g d).edges.Nodup := addEdges_nodup _ h

/-- A path whose nodes strictly between its ends are all in `D`. -/
inductive Via (E : Nat → Nat → Prop) (D : Nat → Prop) : Nat → Nat → Prop
  | edge {u v : Nat} : E u v → Via E D u v
  | step {u d v : Nat} : Via E D u d → D d → E d v → Via E D u v

theorem Via.mono {E : Nat → Nat → Prop} {D D' : Nat → Prop} (hd : ∀ x, D x → D' x) {u v : Nat} (h : Via E D u v) : Via E D' u v := by
  induction h with
  | edge h => exact .edge h
  | step _ h2 h3 ih => exact .step ih (hd _ h2) h3

theorem Via.trans {E : Nat → Nat → Prop} {D : Nat → Prop} {u d v : Nat} (h1 : Via E D u d) (hd : D d) (h2 : Via E D d v) : Via E D u v := by
  induction h2 with
  | edge h => exact .step h1 hd h
  | step _ h2 h3 ih => exact .step ih h2 h3

theorem via_insert {E : Nat → Nat → Prop} {D : Nat → Prop} {d u v : Nat} :
    Via E (fun x => D x ∨ x = d) u v ↔ Via E D u v ∨ (Via E D u d ∧ Via E D d v) := by
  constructor
  · intro h
    induction h with
    | edge h => exact .inl (.edge h)
    | step _ h2 h3 ih =>
      rcases h2 with h2 | rfl
      · rcases ih with ih | ⟨ih1, ih2⟩
        · exact .inl (.step ih h2 h3)
        · exact .inr ⟨ih1, .step ih2 h2 h3⟩
      · rcases ih with ih | ⟨ih1, -⟩
        · exact .inr ⟨ih, .edge h3⟩
        · exact .inr ⟨ih1, .edge h3⟩
  · rintro (h | ⟨h1, h2⟩)
    · exact h.mono fun _ => Or.inl
    · exact (h1.mono fun _ => Or.inl).trans (Or.inr rfl) (h2.mono fun _ => Or.inl)

theorem bypass_fold (g : Graph) (ds : List Nat) (g0 : Graph) (D : Nat → Prop) (h : ∀ u v, (u, v) ∈ g0.edges ↔ Via (fun a b => (a, b) ∈ g.edges) D u v)
    (u v : Nat) : (u, v) ∈ (ds.foldl bypass g0).edges ↔ Via (fun a b => (a, b) ∈ g.edges) (fun x => D x ∨ x ∈ ds) u v := by
  induction ds generalizing g0 D with
  | nil => simp [h]
  | cons d ds ih =>
    rw [List.foldl_cons, ih (bypass g0 d) (fun x => D x ∨ x = d)]
    · have : (fun x => (D x ∨ x = d) ∨ x ∈ ds) = fun x => D x ∨ x ∈ d :: ds := by
        funext x; simp [or_assoc]
      rw [this]
    · intro u v
      rw [mem_bypass, via_insert, h, h, h]

theorem bypass_fold_nodes (ds : List Nat) (g : Graph) : (ds.foldl bypass g).nodes = g.nodes := by
  induction ds generalizing g with
  | nil => rfl
  | cons d ds ih => rw [List.foldl_cons, ih, bypass_nodes]

theorem bypass_fold_nodup (ds : List Nat) {g : Graph} (h : g.edges.Nodup) : (ds.foldl bypass g).edges.Nodup := by
  induction ds generalizing g with
  | nil => exact h
  | cons d ds ih => exact ih (bypass_nodup h d)

end Verif.Workload
