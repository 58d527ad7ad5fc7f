import Verif.Workload.Lemmas

/-! Properties of workload graphs: C41 (user workloads), C42 (dummy nodes), C69 (ONNX workloads). -/

namespace Verif.Workload

/-! ### C41 -/

/-- C41: a list of layers is accepted exactly when every source of a layer is the layer itself or the id of an earlier layer; otherwise an assertion fails. -/
theorem dnn_ok_iff (es : List Entry) :
    ((∃ g, dnn es = .ok g) ↔ ∀ (j : Nat) (e : Entry), es[j]? = some e → ∀ s ∈ e.source, s = e.id ∨ ∃ i < j, ∃ e', es[i]? = some e' ∧ e'.id = s) ∧
    (∀ err, dnn es = .error err → err = .assertion) := by
  constructor
  · have h := dnnLoop_ok_iff es [] es rfl emptyBuilder (binv_empty _ _)
    have h1 : (∃ g, dnn es = .ok g) ↔ ∃ b, dnnLoop 0 emptyBuilder es = .ok b := by
      unfold dnn
      cases hd : dnnLoop 0 emptyBuilder es with
      | error e => simp
      | ok b => simp
    rw [h1]
    refine h.trans ?_
    simp only [List.length_nil, Nat.zero_le, true_imp_iff, List.getElem?_map, Option.map_eq_some_iff]
  · intro err h
    unfold dnn at h
    cases hd : dnnLoop 0 emptyBuilder es with
    | error e => rw [hd] at h; cases h; exact dnnLoop_error _ _ _ _ hd
    | ok b => rw [hd] at h; cases h

/-- C41: the graph has one node for each layer and an edge from `i` to `j` exactly when `j` names as one of its sources an id, other than its own, whose
last bearer before `j` is `i`. -/
theorem dnn_edges {es : List Entry} {g : Graph} (h : dnn es = .ok g) :
    g.nodes = List.range es.length ∧ g.edges.Nodup ∧
      ∀ i j, (i, j) ∈ g.edges ↔ ∃ e, es[j]? = some e ∧ ∃ s ∈ e.source, s ≠ e.id ∧ Latest (es.map Entry.id) j s i := by
  unfold dnn at h
  cases hd : dnnLoop 0 emptyBuilder es with
  | error e => rw [hd] at h; cases h
  | ok b =>
    rw [hd] at h
    cases h
    have hb := dnnLoop_inv es [] es rfl emptyBuilder b (binv_empty _ _) hd
    refine ⟨hb.nodes, hb.nodup, fun i j => (hb.edges i j).trans ?_⟩
    unfold dnnPar
    constructor
    · exact fun h => h.2
    · rintro ⟨e, h1, h2⟩
      exact ⟨(List.getElem?_eq_some_iff.1 h1).1, e, h1, h2⟩

/-- C41: the graph is acyclic, the order of the list is a topological order, and all layers (except those skipped) are processed once, each after the
layers it gets its operands from. -/
theorem dnn_schedule {es : List Entry} {g : Graph} (h : dnn es = .ok g) (skip : Nat → Bool) :
    Topo.IsTopo g.nodes g.edges (List.range es.length) ∧
    ∃ l, schedule g (fun _ => false) skip = .ok l ∧ l.Perm ((List.range es.length).filter fun v => !skip v) ∧
      ∀ pre v post, l = pre ++ v :: post → ∀ u, (u, v) ∈ g.edges → skip u = true ∨ u ∈ pre := by
  obtain ⟨h1, h2, h3⟩ := dnn_edges h
  obtain ⟨hg, ht⟩ := forward_topo h1 h2 (by
    intro i j hij
    obtain ⟨e, he, s, -, -, hl⟩ := (h3 i j).1 hij
    exact ⟨hl.1, (List.getElem?_eq_some_iff.1 he).1⟩)
  refine ⟨by rw [h1] at ht ⊢; exact ht, ?_⟩
  obtain ⟨order, ho⟩ := Topo.topoSort_complete hg ht
  have hs := Topo.topoSort_sound hg ho
  refine ⟨order.filter fun v => !skip v, ?_, ?_, ?_⟩
  · unfold schedule; rw [ho]; simp
  · rw [← h1]; exact hs.1.filter _
  · intro pre v post heq u hu
    by_cases hsk : skip u = true
    · exact .inl hsk
    · right
      rw [List.filter_eq_append_iff] at heq
      obtain ⟨l1, l2, hl, hp, hl2⟩ := heq
      rw [List.filter_eq_cons_iff] at hl2
      obtain ⟨m1, m2, hm, hm1, hm2, hm3⟩ := hl2
      have hu' := hs.2 (l1 ++ m1) v m2 (by rw [hl, hm]; simp) u hu
      rcases List.mem_append.1 hu' with hu' | hu'
      · rw [← hp]
        exact List.mem_filter.2 ⟨hu', by simpa using hsk⟩
      · exact absurd (by simpa using hsk) (hm1 u hu')

/-! ### C42 -/

/-- C42: after the removal of the dummy nodes the nodes are the other ones, and there is an edge between two of them exactly when the original graph
has a path between them whose interior nodes are all dummy nodes. -/
theorem no_dummy_edges (g : Graph) (isDummy : Nat → Bool) (hsub : ∀ u v, (u, v) ∈ g.edges → u ∈ g.nodes ∧ v ∈ g.nodes) :
    (noDummy g isDummy).nodes = g.nodes.filter (fun v => !isDummy v) ∧
    ∀ u v, (u, v) ∈ (noDummy g isDummy).edges ↔
      isDummy u = false ∧ isDummy v = false ∧ Via (fun a b => (a, b) ∈ g.edges) (fun d => isDummy d = true) u v := by
  unfold noDummy Graph.remove
  simp only
  have hvia : ∀ u v, Via (fun a b => (a, b) ∈ g.edges) (fun x => False ∨ x ∈ g.nodes.filter isDummy) u v ↔
      Via (fun a b => (a, b) ∈ g.edges) (fun d => isDummy d = true) u v := by
    intro u v
    constructor
    · exact Via.mono fun x hx => by
        rcases hx with hx | hx
        · exact hx.elim
        · exact (List.mem_filter.1 hx).2
    · intro h
      induction h with
      | edge h => exact .edge h
      | step _ h2 h3 ih => exact .step ih (.inr (List.mem_filter.2 ⟨(hsub _ _ h3).1, h2⟩)) h3
  have hmem : ∀ u v, (u, v) ∈ ((g.nodes.filter isDummy).foldl bypass g).edges ↔ Via (fun a b => (a, b) ∈ g.edges) (fun d => isDummy d = true) u v := by
    intro u v
    rw [bypass_fold g _ g (fun _ => False), hvia]
    intro a b
    constructor
    · exact fun h => Via.edge h
    · intro h
      cases h with
      | edge h => exact h
      | step _ h _ => exact h.elim
  have hends : ∀ u v, Via (fun a b => (a, b) ∈ g.edges) (fun d => isDummy d = true) u v → u ∈ g.nodes ∧ v ∈ g.nodes := by
    intro u v h
    induction h with
    | edge h => exact hsub _ _ h
    | step _ _ h3 ih => exact ⟨ih.1, (hsub _ _ h3).2⟩
  constructor
  · rw [bypass_fold_nodes]
    apply List.filter_congr
    intro v hv
    simp [hv]
  · intro u v
    rw [List.mem_filter, hmem]
    simp only [decide_eq_true_eq, List.mem_filter, not_and, Bool.not_eq_true]
    constructor
    · rintro ⟨h1, h2, h3⟩
      obtain ⟨h4, h5⟩ := hends u v h1
      exact ⟨h2 h4, h3 h5, h1⟩
    · rintro ⟨h1, h2, h3⟩
      exact ⟨h3, fun _ => h1, fun _ => h2⟩

/-- C42: any topological order of the original graph, without the dummy nodes, is one of the reduced graph; in particular the reduced graph of an acyclic
graph is acyclic. -/
theorem no_dummy_topo (g : Graph) (isDummy : Nat → Bool) (hg : Topo.Graph g.nodes g.edges) {order : List Nat} (ho : Topo.IsTopo g.nodes g.edges order) :
    Topo.IsTopo (noDummy g isDummy).nodes (noDummy g isDummy).edges (order.filter fun v => !isDummy v) := by
  have hsub : ∀ u v, (u, v) ∈ g.edges → u ∈ g.nodes ∧ v ∈ g.nodes := fun u v h => ⟨hg.src _ h, hg.dst _ h⟩
  obtain ⟨hn, he⟩ := no_dummy_edges g isDummy hsub
  refine ⟨by rw [hn]; exact ho.1.filter _, ?_⟩
  intro pre v post heq u hu
  obtain ⟨hu1, hv1, hvia⟩ := (he u v).1 hu
  have hbefore : ∀ a b, Via (fun a b => (a, b) ∈ g.edges) (fun d => isDummy d = true) a b → ∀ pre post, order = pre ++ b :: post → a ∈ pre := by
    intro a b h
    induction h with
    | edge h => intro pre post heq; exact ho.2 pre _ post heq _ h
    | @step d w _ _ h3 ih =>
      intro pre post heq
      have hd := ho.2 pre _ post heq _ h3
      obtain ⟨p1, p2, hp⟩ := List.append_of_mem hd
      have := ih p1 (p2 ++ w :: post) (by rw [heq, hp]; simp)
      rw [hp]; exact List.mem_append_left _ this
  rw [List.filter_eq_append_iff] at heq
  obtain ⟨l1, l2, hl, hp, hl2⟩ := heq
  rw [List.filter_eq_cons_iff] at hl2
  obtain ⟨m1, m2, hm, hm1, hm2, hm3⟩ := hl2
  have hu' := hbefore u v hvia (l1 ++ m1) m2 (by rw [hl, hm]; simp)
  rcases List.mem_append.1 hu' with hu' | hu'
  · rw [← hp]
    exact List.mem_filter.2 ⟨hu', by simpa using hu1⟩
  · exact absurd (by simpa using hu1) (hm1 u hu')

/-! ### C69 -/

/-- Node `i` produces a tensor that node `j` reads. -/
def Feeds (nodes : List ONode) (i j : Nat) : Prop := ∃ m n t, nodes[i]? = some m ∧ nodes[j]? = some n ∧ t ∈ m.output ∧ t ∈ n.input

theorem mem_predecessors {nodes : List ONode} {i j : Nat} : i ∈ predecessors nodes j ↔ i ≤ j ∧ Feeds nodes i j := by
  unfold predecessors Feeds
  cases hj : nodes[j]? with
  | none => simp
  | some n =>
    simp only [List.mem_flatMap, List.mem_filter, List.mem_range, Option.some.injEq]
    constructor
    · rintro ⟨t, h1, h2, h3⟩
      cases hi : nodes[i]? with
      | none => rw [hi] at h3; simp at h3
      | some m =>
        rw [hi] at h3
        exact ⟨by omega, m, n, t, rfl, rfl, by simpa using h3, h1⟩
    · rintro ⟨h1, m, n', t, h2, rfl, h3, h4⟩
      exact ⟨t, h4, by omega, by rw [h2]; simpa using h3⟩

theorem sources_spec {layer : Bool} {k : Nat} {ps ss : List Nat} (h : sources layer k ps = .ok ss) :
    (∀ i ∈ ss, i ∈ ps) ∧ (ps.length ≤ 2 → ∀ i ∈ ps, i = k ∨ i ∈ ss) := by
  unfold sources Entry.inputs at h
  by_cases hl : layer = true
  · rw [if_pos hl] at h
    match ps, h with
    | [], h => cases h; simp
    | [p], h => cases h; simp; tauto
    | [p, q], h => cases h; simp; tauto
  · rw [if_neg hl] at h
    match ps, h with
    | [], h => cases h; simp
    | [p], h => cases h; simp
    | p :: q :: r, h =>
      cases h
      refine ⟨by simp, fun hlen => ?_⟩
      have : r = [] := by simpa using hlen
      subst this
      simp

theorem sources_ok_iff {layer : Bool} {k : Nat} {ps : List Nat} : (∃ ss, sources layer k ps = .ok ss) ↔ layer = false ∨ ps.length ≤ 2 := by
  unfold sources
  cases layer with
  | false =>
    match ps with
    | [] => simp
    | [p] => simp
    | p :: q :: r => simp
  | true =>
    match ps with
    | [] => simp
    | [p] => simp
    | [p, q] => simp
    | p :: q :: r :: s => simp

theorem sources_error {layer : Bool} {k : Nat} {ps : List Nat} {e : PyErr} (h : sources layer k ps = .error e) : e = .valueError := by
  unfold sources at h
  by_cases hl : layer = true
  · rw [if_pos hl] at h
    match ps, h with
    | p :: q :: r :: s, h => cases h; rfl
  · rw [if_neg hl] at h
    match ps, h with
    | [], h => cases h
    | [p], h => cases h
    | p :: q :: r, h => cases h

def onnxPar (nodes : List ONode) (j i : Nat) : Prop :=
  ∃ n ss, nodes[j]? = some n ∧ sources n.layer j (predecessors nodes j) = .ok ss ∧ i ∈ ss

private theorem latest_range {n k s i : Nat} (hk : k < n) : Latest (List.range n) (k + 1) s i ↔ s = i ∧ i ≤ k := by
  unfold Latest
  constructor
  · rintro ⟨h1, h2, -⟩
    rw [List.getElem?_range (by omega)] at h2
    exact ⟨(Option.some.inj h2).symm, by omega⟩
  · rintro ⟨rfl, h⟩
    refine ⟨by omega, List.getElem?_range (by omega), fun j h1 h2 => ?_⟩
    rw [List.getElem?_range (by omega)]
    intro hc
    have := Option.some.inj hc
    omega

private theorem onnx_step {nodes : List ONode} {k : Nat} {n : ONode} {ss : List Nat} (hn : nodes[k]? = some n)
    (hs : sources n.layer k (predecessors nodes k) = .ok ss) (i : Nat) : onnxPar nodes k i ↔ ∃ s ∈ ss, Latest (List.range nodes.length) (k + 1) s i := by
  have hk := (List.getElem?_eq_some_iff.1 hn).1
  unfold onnxPar
  simp only [hn, Option.some.injEq, exists_and_left, exists_eq_left', hs, Except.ok.injEq, latest_range hk]
  constructor
  · intro h
    exact ⟨i, h, rfl, (mem_predecessors.1 ((sources_spec hs).1 i h)).1⟩
  · rintro ⟨s, h1, rfl, -⟩; exact h1

private theorem onnxLoop_inv (nodes done rest : List ONode) (heq : nodes = done ++ rest) (b b' : Builder)
    (hb : BInv (List.range nodes.length) (onnxPar nodes) done.length b) (h : onnxLoop nodes done.length b rest = .ok b') :
    BInv (List.range nodes.length) (onnxPar nodes) nodes.length b' := by
  induction rest generalizing done b with
  | nil =>
    cases h
    have : nodes.length = done.length := by rw [heq]; simp
    rw [this] at hb ⊢; exact hb
  | cons n rest ih =>
    have hn : nodes[done.length]? = some n := by rw [heq]; simp
    have hlt := (List.getElem?_eq_some_iff.1 hn).1
    unfold onnxLoop at h
    cases h0 : sources n.layer done.length (predecessors nodes done.length) with
    | error e => rw [h0] at h; cases h
    | ok ss =>
      rw [h0] at h
      simp only at h
      cases h1 : addLayer .keyError b done.length done.length ss with
      | error e => rw [h1] at h; cases h
      | ok b1 =>
        rw [h1] at h
        simp only at h
        have := addLayer_inv hb (List.getElem?_range hlt) (onnx_step hn h0) h1
        exact ih (done ++ [n]) (by rw [heq]; simp) b1 (by simpa using this) (by simpa using h)

private theorem onnxLoop_ok (nodes done rest : List ONode) (heq : nodes = done ++ rest) (b : Builder)
    (hb : BInv (List.range nodes.length) (onnxPar nodes) done.length b) :
    (∃ b', onnxLoop nodes done.length b rest = .ok b') ↔
      ∀ (j : Nat) (n : ONode), done.length ≤ j → nodes[j]? = some n → n.layer = true → (predecessors nodes j).length ≤ 2 := by
  induction rest generalizing done b with
  | nil =>
    constructor
    · intro _ j n hj hn
      rw [heq, List.append_nil, List.getElem?_eq_none hj] at hn
      cases hn
    · intro _; exact ⟨b, rfl⟩
  | cons n rest ih =>
    have hn : nodes[done.length]? = some n := by rw [heq]; simp
    have hlt := (List.getElem?_eq_some_iff.1 hn).1
    unfold onnxLoop
    cases h0 : sources n.layer done.length (predecessors nodes done.length) with
    | error e =>
      constructor
      · rintro ⟨b', hb'⟩; cases hb'
      · intro h
        exfalso
        have : ∃ ss, sources n.layer done.length (predecessors nodes done.length) = .ok ss := by
          rw [sources_ok_iff]
          cases hl : n.layer with
          | false => exact .inl rfl
          | true => exact .inr (h _ n (le_refl _) hn hl)
        obtain ⟨ss, hss⟩ := this
        rw [h0] at hss; cases hss
    | ok ss =>
      simp only
      have hok : ∃ b', addLayer .keyError b done.length done.length ss = .ok b' := by
        rw [addLayer_ok_iff hb (List.getElem?_range hlt)]
        intro s hs
        have := (mem_predecessors.1 ((sources_spec h0).1 s hs)).1
        exact ⟨s, this, List.getElem?_range (by omega)⟩
      obtain ⟨b1, h1⟩ := hok
      rw [h1]
      simp only
      have hb1 := addLayer_inv hb (List.getElem?_range hlt) (onnx_step hn h0) h1
      have := ih (done ++ [n]) (by rw [heq]; simp) b1 (by simpa using hb1)
      simp only [List.length_append, List.length_singleton] at this
      rw [this]
      constructor
      · intro h j n' hj hn' hl
        by_cases hjd : j = done.length
        · subst hjd
          rw [hn] at hn'; cases hn'
          rcases sources_ok_iff.1 ⟨ss, h0⟩ with hc | hc
          · rw [hc] at hl; cases hl
          · exact hc
        · exact h j n' (by omega) hn' hl
      · intro h j n' hj hn' hl
        exact h j n' (by omega) hn' hl

/-- C69: an ONNX model is parsed into a graph exactly when no node that becomes a layer has more than two inputs computed by other nodes. -/
theorem onnx_ok_iff (nodes : List ONode) : (∃ g, onnx nodes = .ok g) ↔
    ∀ (j : Nat) (n : ONode), nodes[j]? = some n → n.layer = true → (predecessors nodes j).length ≤ 2 := by
  have h1 : (∃ g, onnx nodes = .ok g) ↔ ∃ b, onnxLoop nodes 0 emptyBuilder nodes = .ok b := by
    unfold onnx
    cases hd : onnxLoop nodes 0 emptyBuilder nodes with
    | error e => simp
    | ok b => simp
  rw [h1]
  refine (onnxLoop_ok nodes [] nodes rfl emptyBuilder (binv_empty _ _)).trans ?_
  simp

theorem onnx_edges {nodes : List ONode} {g : Graph} (h : onnx nodes = .ok g) :
    g.nodes = List.range nodes.length ∧ g.edges.Nodup ∧ ∀ i j, (i, j) ∈ g.edges ↔ onnxPar nodes j i := by
  unfold onnx at h
  cases hd : onnxLoop nodes 0 emptyBuilder nodes with
  | error e => rw [hd] at h; cases h
  | ok b =>
    rw [hd] at h
    cases h
    have hb := onnxLoop_inv nodes [] nodes rfl emptyBuilder b (binv_empty _ _) hd
    refine ⟨hb.nodes, hb.nodup, fun i j => (hb.edges i j).trans ?_⟩
    constructor
    · exact fun h => h.2
    · rintro ⟨n, ss, h1, h2⟩
      exact ⟨(List.getElem?_eq_some_iff.1 h1).1, n, ss, h1, h2⟩

/-- C69: every edge of the workload is a data dependency of the model. -/
theorem onnx_edges_sound {nodes : List ONode} {g : Graph} (h : onnx nodes = .ok g) (i j : Nat) (hij : (i, j) ∈ g.edges) : i ≤ j ∧ Feeds nodes i j := by
  obtain ⟨n, ss, -, h2, h3⟩ := ((onnx_edges h).2.2 i j).1 hij
  exact mem_predecessors.1 ((sources_spec h2).1 i h3)

/-- C69, partial: when no node reads a tensor it writes itself and no node has more than two inputs computed by other nodes, the workload has exactly the
data dependencies of the model, is acyclic, and every layer is processed once and after the layers it depends on directly.
Missing: nodes with three or more computed inputs (`onnx_edges_false`) and omitted tensors (`onnx_cycle_false`). -/
theorem onnx_edges_partial {nodes : List ONode} (htopo : ∀ i j, Feeds nodes i j → i < j)
    (h2 : ∀ j, (predecessors nodes j).length ≤ 2) :
    ∃ g, onnx nodes = .ok g ∧ g.nodes = List.range nodes.length ∧ (∀ i j, (i, j) ∈ g.edges ↔ Feeds nodes i j) ∧
      ∀ isDummy skip : Nat → Bool, ∃ l, schedule g isDummy skip = .ok l ∧ l.Perm ((List.range nodes.length).filter fun v => !isDummy v && !skip v) ∧
        ∀ pre v post, l = pre ++ v :: post → ∀ u, Feeds nodes u v → isDummy u = true ∨ skip u = true ∨ u ∈ pre := by
  obtain ⟨g, hg⟩ := (onnx_ok_iff nodes).2 fun j _ _ _ => h2 j
  obtain ⟨e1, e2, e3⟩ := onnx_edges hg
  have hiff : ∀ i j, (i, j) ∈ g.edges ↔ Feeds nodes i j := by
    intro i j
    constructor
    · exact fun h => (onnx_edges_sound hg i j h).2
    · intro h
      have hlt := htopo i j h
      obtain ⟨m, n, t, -, hn, -⟩ := id h
      obtain ⟨ss, hss⟩ := (sources_ok_iff (k := j)).2 (Or.inr (h2 j) : n.layer = false ∨ (predecessors nodes j).length ≤ 2)
      refine (e3 i j).2 ⟨n, ss, hn, hss, ?_⟩
      rcases (sources_spec hss).2 (h2 j) i (mem_predecessors.2 ⟨hlt.le, h⟩) with hc | hc
      · omega
      · exact hc
  refine ⟨g, hg, e1, hiff, ?_⟩
  intro isDummy skip
  obtain ⟨hG, ht⟩ := forward_topo e1 e2 (by
    intro i j hij
    have hf := (hiff i j).1 hij
    refine ⟨htopo i j hf, ?_⟩
    obtain ⟨m, n, t, -, hn, -⟩ := hf
    exact (List.getElem?_eq_some_iff.1 hn).1)
  obtain ⟨order, ho⟩ := Topo.topoSort_complete hG ht
  have hs := Topo.topoSort_sound hG ho
  refine ⟨order.filter fun v => !isDummy v && !skip v, ?_, ?_, ?_⟩
  · unfold schedule; rw [ho]
  · rw [← e1]; exact hs.1.filter _
  · intro pre v post heq u hu
    by_cases hsk : isDummy u = true ∨ skip u = true
    · rcases hsk with h | h
      · exact .inl h
      · exact .inr (.inl h)
    · right; right
      push Not at hsk
      have hkeep : (!isDummy u && !skip u) = true := by simp [hsk.1, hsk.2]
      rw [List.filter_eq_append_iff] at heq
      obtain ⟨l1, l2, hl, hp, hl2⟩ := heq
      rw [List.filter_eq_cons_iff] at hl2
      obtain ⟨m1, m2, hm, hm1, hm2, hm3⟩ := hl2
      have hu' := hs.2 (l1 ++ m1) v m2 (by rw [hl, hm]; simp) u ((hiff u v).2 hu)
      rcases List.mem_append.1 hu' with hu' | hu'
      · rw [← hp]
        exact List.mem_filter.2 ⟨hu', hkeep⟩
      · exact absurd hkeep (hm1 u hu')

/-- Two convolutions and a chain of three of them, a concatenation (node 5) of their outputs, and a convolution (node 6). -/
def concatModel : List ONode :=
  [⟨true, ["x"], ["a"]⟩, ⟨true, ["x"], ["b"]⟩, ⟨true, ["x"], ["c"]⟩, ⟨true, ["c"], ["d"]⟩, ⟨true, ["d"], ["e"]⟩, ⟨false, ["a", "b", "e"], ["f"]⟩,
    ⟨true, ["f"], ["g"]⟩]

/-- C69 is false for a concatenation of three tensors: the dependency on the third one is dropped, the workload has no path from the convolution that
computes it (node 4) to the one after the concatenation (node 6), and node 6 is processed before node 4. -/
theorem onnx_edges_false : ∃ g, onnx concatModel = .ok g ∧ Feeds concatModel 4 5 ∧ Feeds concatModel 5 6 ∧ (4, 5) ∉ g.edges ∧
    schedule g (fun v => v == 5) (fun _ => false) = .ok [0, 1, 2, 3, 6, 4] ∧
    ¬ Via (fun a b => (a, b) ∈ g.edges) (fun _ => True) 4 6 := by
  refine ⟨⟨[0, 1, 2, 3, 4, 5, 6], [(2, 3), (3, 4), (0, 5), (1, 5), (5, 6)]⟩, by decide +kernel, ?_, ?_, by decide, by decide +kernel, ?_⟩
  · exact ⟨_, _, "e", rfl, rfl, by decide, by decide⟩
  · exact ⟨_, _, "f", rfl, rfl, by decide, by decide⟩
  · intro h
    have key : ∀ u v, Via (fun a b => (a, b) ∈ [(2, 3), (3, 4), (0, 5), (1, 5), (5, 6)]) (fun _ => True) u v → u ≠ 4 := by
      intro u v h
      induction h with
      | edge h => rintro rfl; simp at h
      | step _ _ _ ih => exact ih
    exact key _ _ h rfl

/-- An LSTM node whose fifth input and first output are omitted, which ONNX writes as an empty name. -/
def lstmModel : List ONode := [⟨true, ["x"], ["a"]⟩, ⟨false, ["a", "w", "r", "b", "", "h0"], ["", "yh"]⟩]

/-- C69 is false for omitted tensors: the node is taken for its own predecessor, and processing the workload fails. -/
theorem onnx_cycle_false : ∃ g, onnx lstmModel = .ok g ∧ (1, 1) ∈ g.edges ∧ schedule g (fun v => v == 1) (fun _ => false) = .error .valueError := by
  refine ⟨⟨[0, 1], [(0, 1), (1, 1)]⟩, by decide +kernel, by decide, by decide +kernel⟩

/-! ### Concrete cases -/

example : dnn [⟨0, [0, 0]⟩, ⟨1, [0, 1]⟩, ⟨2, [0, 1]⟩] = .ok ⟨[0, 1, 2], [(0, 1), (0, 2), (1, 2)]⟩ := by decide +kernel

example : dnn [⟨0, [1]⟩, ⟨1, [0]⟩] = .error .assertion := by decide +kernel

/-- A residual block: convolution, activation, convolution, addition. -/
def resModel : List ONode := [⟨true, ["x", "w"], ["a"]⟩, ⟨false, ["a"], ["b"]⟩, ⟨true, ["b", "v"], ["c"]⟩, ⟨false, ["b", "c"], ["d"]⟩, ⟨true, ["d"], ["e"]⟩]

example : (∀ j, j < 5 → (predecessors resModel j).length ≤ 2) ∧
    onnx resModel = .ok ⟨[0, 1, 2, 3, 4], [(0, 1), (1, 2), (1, 3), (2, 3), (3, 4)]⟩ := by decide +kernel

example : noDummy ⟨[0, 1, 2, 3, 4], [(0, 1), (1, 2), (1, 3), (2, 3), (3, 4)]⟩ (fun v => v == 1 || v == 3) =
    ⟨[0, 2, 4], [(0, 2), (2, 4), (0, 4)]⟩ := by decide +kernel

end Verif.Workload
