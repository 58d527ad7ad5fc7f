import Verif.Base.Dict
import Mathlib.Data.List.Nodup
import Mathlib.Data.List.Perm.Subperm
import Mathlib.Data.Finset.Basic
import Mathlib.Tactic.Linarith

/-! `networkx.topological_sort`, used through `DiGraphWrapper.topological_sort` (/repo/zigzag/utils.py lines 151-153).  networkx is an external library;
its algorithm is modelled from its documentation (`topological_generations`: Kahn's algorithm, generation by generation).  Emitting generation after
generation, each in the order in which its nodes lost their last incoming edge, is the same as a first-in first-out queue, so a queue is used.  A graph
is a list of nodes and a list of edges, both without repetition and in insertion order.  `indegree_map` is a function (only its positive entries exist in
networkx). -/

namespace Verif.Topo

variable {V : Type} [DecidableEq V]

/-- Successors in the order in which the edges were added. -/
def succs (edges : List (V × V)) (u : V) : List V := (edges.filter fun e => decide (e.1 = u)).map Prod.snd

/-- The inner loop: every child loses an incoming edge and joins the queue when it was the last one. -/
def relax : List V → (V → Nat) → List V → (V → Nat) × List V
  | [], deg, q => (deg, q)
  | c :: cs, deg, q =>
    let deg' : V → Nat := fun v => if v = c then deg v - 1 else deg v
    relax cs deg' (if deg' c = 0 then q ++ [c] else q)

/-- The outer loop; `done` are the nodes emitted. -/
def kahnLoop (edges : List (V × V)) : Nat → List V → (V → Nat) → List V → List V
  | 0, done, _, _ => done
  | _ + 1, done, _, [] => done
  | fuel + 1, done, deg, u :: q =>
    let r := relax (succs edges u) deg q
    kahnLoop edges fuel (done ++ [u]) r.1 r.2

def indegree (edges : List (V × V)) (v : V) : Nat := (edges.filter fun e => decide (e.2 = v)).length

/-- `topological_sort`; `NetworkXUnfeasible` (here `valueError`) when nodes are left over, that is for a cyclic graph. -/
def topoSort (nodes : List V) (edges : List (V × V)) : Except PyErr (List V) :=
  let order := kahnLoop edges nodes.length [] (indegree edges) (nodes.filter fun v => decide (indegree edges v = 0))
  if order.length = nodes.length then .ok order else .error .valueError

/-- A well-formed directed graph. -/
structure Graph (nodes : List V) (edges : List (V × V)) : Prop where
  nodes_nodup : nodes.Nodup
  edges_nodup : edges.Nodup
  src : ∀ e ∈ edges, e.1 ∈ nodes
  dst : ∀ e ∈ edges, e.2 ∈ nodes

/-- `order` lists every node once and every edge goes forward: whatever comes before the target contains the source. -/
def IsTopo (nodes : List V) (edges : List (V × V)) (order : List V) : Prop :=
  order.Perm nodes ∧ ∀ pre v post, order = pre ++ v :: post → ∀ u, (u, v) ∈ edges → u ∈ pre

/-! ### Correctness -/

theorem relax_spec (cs : List V) (deg : V → Nat) (q : List V) (h : cs.Nodup) :
    relax cs deg q = ((fun v => if v ∈ cs then deg v - 1 else deg v), q ++ cs.filter fun c => decide (deg c - 1 = 0)) := by
  induction cs generalizing deg q with
  | nil => simp [relax]
  | cons c cs ih =>
    obtain ⟨h1, h2⟩ := List.nodup_cons.1 h
    unfold relax
    simp only
    rw [ih _ _ h2]
    have hf : (cs.filter fun c' => decide ((if c' = c then deg c' - 1 else deg c') - 1 = 0)) = cs.filter fun c' => decide (deg c' - 1 = 0) := by
      apply List.filter_congr
      intro x hx
      rw [if_neg (by rintro rfl; exact h1 hx)]
    rw [hf]
    refine Prod.ext ?_ ?_
    · funext v
      simp only [List.mem_cons]
      by_cases hv : v = c
      · subst hv; simp [h1]
      · simp [hv]
    · simp only [if_true]
      by_cases hc : deg c - 1 = 0
      · simp [hc]
      · simp [hc]

/-- Edges into `v` from nodes that were not emitted. -/
def open_ (edges : List (V × V)) (done : List V) (v : V) : List (V × V) := edges.filter fun e => decide (e.2 = v ∧ e.1 ∉ done)

structure KInv (nodes : List V) (edges : List (V × V)) (done : List V) (deg : V → Nat) (q : List V) : Prop where
  degs : ∀ v, deg v = (open_ edges done v).length
  nodup : (done ++ q).Nodup
  sub : ∀ v ∈ done ++ q, v ∈ nodes
  zero : ∀ v ∈ nodes, deg v = 0 ↔ v ∈ done ++ q
  fwd : ∀ pre v post, done = pre ++ v :: post → ∀ u, (u, v) ∈ edges → u ∈ pre

theorem succs_nodup {edges : List (V × V)} (h : edges.Nodup) (u : V) : (succs edges u).Nodup := by
  unfold succs
  apply List.Nodup.map_on _ (h.filter _)
  intro x hx y hy hxy
  have h1 := (List.mem_filter.1 hx).2
  have h2 := (List.mem_filter.1 hy).2
  simp only [decide_eq_true_eq] at h1 h2
  exact Prod.ext (h1.trans h2.symm) hxy

theorem mem_succs {edges : List (V × V)} {u v : V} : v ∈ succs edges u ↔ (u, v) ∈ edges := by
  unfold succs
  simp only [List.mem_map, List.mem_filter, decide_eq_true_eq]
  constructor
  · rintro ⟨e, ⟨h1, rfl⟩, rfl⟩; exact h1
  · intro h; exact ⟨(u, v), ⟨h, rfl⟩, rfl⟩

theorem open_step {edges : List (V × V)} (hn : edges.Nodup) {done : List V} {u : V} (hu : u ∉ done) (v : V) :
    (open_ edges (done ++ [u]) v).length = if (u, v) ∈ edges then (open_ edges done v).length - 1 else (open_ edges done v).length := by
  have h1 : open_ edges (done ++ [u]) v = (open_ edges done v).filter fun e => decide (e ≠ (u, v)) := by
    unfold open_
    rw [List.filter_filter]
    apply List.filter_congr
    intro e _
    rw [Bool.eq_iff_iff]
    simp only [decide_eq_true_eq, Bool.and_eq_true, List.mem_append, List.mem_singleton, not_or, ne_eq]
    constructor
    · rintro ⟨h1, h2, h3⟩
      exact ⟨fun hc => h3 (by rw [hc]), h1, h2⟩
    · rintro ⟨h1, h2, h3⟩
      exact ⟨h2, h3, fun hc => h1 (Prod.ext hc h2)⟩
  have h2 : (open_ edges done v).Nodup := hn.filter _
  rw [h1]
  split
  · rename_i hm
    have hin : (u, v) ∈ open_ edges done v := List.mem_filter.2 ⟨hm, by simp [hu]⟩
    have := h2.erase_eq_filter (u, v)
    have h3 : ((open_ edges done v).filter fun e => decide (e ≠ (u, v))) = (open_ edges done v).erase (u, v) := by
      rw [this]
      apply List.filter_congr
      intro e _
      rw [Bool.eq_iff_iff]; simp
    rw [h3, List.length_erase_of_mem hin]
  · rename_i hm
    rw [List.filter_eq_self.2]
    intro e he
    simp only [decide_eq_true_eq]
    rintro rfl
    exact hm (List.mem_filter.1 he).1

theorem snoc_eq {α : Type} {done pre post : List α} {u v : α} (h : done ++ [u] = pre ++ v :: post) :
    (post = [] ∧ v = u ∧ pre = done) ∨ ∃ post', post = post' ++ [u] ∧ done = pre ++ v :: post' := by
  rcases List.eq_nil_or_concat post with rfl | ⟨p', x, rfl⟩
  · left
    have := List.append_inj' h rfl
    exact ⟨rfl, by simpa using this.2.symm, this.1.symm⟩
  · right
    rw [List.concat_eq_append] at h ⊢
    rw [← List.cons_append, ← List.append_assoc] at h
    have := List.append_inj' h rfl
    exact ⟨p', by simpa using this.2.symm, this.1⟩

theorem step_inv {nodes : List V} {edges : List (V × V)} (hg : Graph nodes edges) {done : List V} {deg : V → Nat} {u : V} {q : List V}
    (hi : KInv nodes edges done deg (u :: q)) :
    KInv nodes edges (done ++ [u]) (relax (succs edges u) deg q).1 (relax (succs edges u) deg q).2 := by
  rw [relax_spec _ _ _ (succs_nodup hg.edges_nodup u)]
  have hu : u ∉ done := by
    have := hi.nodup
    rw [List.nodup_append] at this
    exact fun hc => this.2.2 u hc u List.mem_cons_self rfl
  have hdeg0 : deg u = 0 := (hi.zero u (hi.sub u (by simp))).2 (by simp)
  have hdeg : ∀ v, (if v ∈ succs edges u then deg v - 1 else deg v) = (open_ edges (done ++ [u]) v).length := by
    intro v
    rw [open_step hg.edges_nodup hu v, hi.degs v]
    simp only [mem_succs]
  have hpos : ∀ v ∈ succs edges u, 1 ≤ deg v := by
    intro v hv
    rw [hi.degs v]
    have : (u, v) ∈ open_ edges done v := List.mem_filter.2 ⟨mem_succs.1 hv, by simp [hu]⟩
    exact List.length_pos_of_mem this
  have hnew : ∀ v ∈ succs edges u, v ∉ done ++ u :: q := by
    intro v hv hc
    have hvn := hg.dst _ (mem_succs.1 hv)
    have := (hi.zero v hvn).2 hc
    have := hpos v hv
    omega
  refine ⟨hdeg, ?_, ?_, ?_, ?_⟩
  · simp only
    rw [show done ++ [u] ++ (q ++ List.filter (fun c => decide (deg c - 1 = 0)) (succs edges u))
      = (done ++ u :: q) ++ List.filter (fun c => decide (deg c - 1 = 0)) (succs edges u) by simp]
    rw [List.nodup_append]
    refine ⟨hi.nodup, (succs_nodup hg.edges_nodup u).filter _, ?_⟩
    rintro a ha b hb rfl
    exact hnew a (List.mem_of_mem_filter hb) ha
  · intro v hv
    simp only [List.mem_append, List.mem_singleton, List.mem_filter] at hv
    rcases hv with (hv | rfl) | (hv | hv)
    · exact hi.sub v (by simp [hv])
    · exact hi.sub v (by simp)
    · exact hi.sub v (by simp [hv])
    · exact hg.dst _ (mem_succs.1 hv.1)
  · intro v hv
    simp only [List.mem_append, List.mem_singleton, List.mem_filter, decide_eq_true_eq]
    have hz := hi.zero v hv
    simp only [List.mem_append, List.mem_cons] at hz
    by_cases hs : v ∈ succs edges u
    · rw [if_pos hs]
      have hnv := hnew v hs
      simp only [List.mem_append, List.mem_cons, not_or] at hnv
      have := hpos v hs
      constructor
      · intro h0; exact Or.inr (Or.inr ⟨hs, h0⟩)
      · rintro ((h | h) | h | h)
        · exact absurd h hnv.1
        · exact absurd h hnv.2.1
        · exact absurd h hnv.2.2
        · exact h.2
    · rw [if_neg hs, hz]
      constructor
      · rintro (h | h | h)
        · exact Or.inl (Or.inl h)
        · exact Or.inl (Or.inr h)
        · exact Or.inr (Or.inl h)
      · rintro ((h | h) | h | h)
        · exact Or.inl h
        · exact Or.inr (Or.inl h)
        · exact Or.inr (Or.inr h)
        · exact absurd h.1 hs
  · intro pre v post heq w hw
    rcases snoc_eq heq with ⟨-, rfl, rfl⟩ | ⟨post', -, hd⟩
    · by_contra hc
      have : (w, v) ∈ open_ edges pre v := List.mem_filter.2 ⟨hw, by simp [hc]⟩
      have := List.length_pos_of_mem this
      rw [hi.degs] at hdeg0
      omega
    · exact hi.fwd pre v post' hd w hw

theorem loop_inv {nodes : List V} {edges : List (V × V)} (hg : Graph nodes edges) (fuel : Nat) {done : List V} {deg : V → Nat} {q : List V}
    (hi : KInv nodes edges done deg q) (hf : nodes.length ≤ fuel + done.length) :
    ∃ deg', KInv nodes edges (kahnLoop edges fuel done deg q) deg' [] := by
  induction fuel generalizing done deg q with
  | zero =>
    refine ⟨deg, ?_⟩
    unfold kahnLoop
    have hq : q = [] := by
      have h1 := (List.subperm_of_subset hi.nodup hi.sub).length_le
      rw [List.length_append] at h1
      exact List.length_eq_zero_iff.1 (by omega)
    subst hq
    exact hi
  | succ fuel ih =>
    cases q with
    | nil => exact ⟨deg, hi⟩
    | cons u q =>
      unfold kahnLoop
      refine ih (step_inv hg hi) ?_
      rw [List.length_append, List.length_singleton]
      omega

theorem start_inv {nodes : List V} {edges : List (V × V)} (hg : Graph nodes edges) :
    KInv nodes edges [] (indegree edges) (nodes.filter fun v => decide (indegree edges v = 0)) := by
  refine ⟨?_, ?_, ?_, ?_, ?_⟩
  · intro v; simp [indegree, open_]
  · simpa using hg.nodes_nodup.filter _
  · intro v hv; simp at hv; exact hv.1
  · intro v hv; simp [hv]
  · intro pre v post h; simp at h

/-- Whatever `topological_sort` returns is a topological order. -/
theorem topoSort_sound {nodes : List V} {edges : List (V × V)} (hg : Graph nodes edges) {order : List V} (h : topoSort nodes edges = .ok order) :
    IsTopo nodes edges order := by
  unfold topoSort at h
  simp only at h
  obtain ⟨deg', hi⟩ := loop_inv hg nodes.length (start_inv hg) (by simp)
  split at h
  · rename_i hl
    cases h
    have hsub := List.subperm_of_subset (List.append_nil (_ : List V) ▸ hi.nodup) (fun v hv => hi.sub v (by simpa using hv))
    exact ⟨hsub.perm_of_length_le hl.ge, hi.fwd⟩
  · cases h

/-- It succeeds on every graph that has a topological order, that is on every acyclic graph. -/
theorem topoSort_complete {nodes : List V} {edges : List (V × V)} (hg : Graph nodes edges) {witness : List V} (hw : IsTopo nodes edges witness) :
    ∃ order, topoSort nodes edges = .ok order := by
  unfold topoSort
  simp only
  obtain ⟨deg', hi⟩ := loop_inv hg nodes.length (start_inv hg) (by simp)
  generalize kahnLoop edges nodes.length [] (indegree edges) (nodes.filter fun v => decide (indegree edges v = 0)) = P at hi
  have hall : ∀ (k : Nat) (v : V), witness[k]? = some v → v ∈ P := by
    intro k
    induction k using Nat.strong_induction_on with
    | _ k ih =>
      intro v hv
      obtain ⟨hk, hk'⟩ := List.getElem?_eq_some_iff.1 hv
      have hvn : v ∈ nodes := hw.1.mem_iff.1 (List.mem_of_getElem? hv)
      have h0 : deg' v = 0 := by
        rw [hi.degs, List.length_eq_zero_iff, List.eq_nil_iff_forall_not_mem]
        intro e he
        have hf := List.mem_filter.1 he
        simp only [decide_eq_true_eq] at hf
        obtain ⟨he1, rfl, he2⟩ := hf
        have hsplit : witness = witness.take k ++ e.2 :: witness.drop (k + 1) := by
          rw [← hk']; simp
        have := hw.2 _ _ _ hsplit e.1 (by simpa using he1)
        obtain ⟨i, hi1, hi2⟩ := List.mem_iff_getElem.1 this
        rw [List.length_take] at hi1
        rw [List.getElem_take] at hi2
        exact he2 (ih i (by omega) e.1 (by rw [List.getElem?_eq_getElem (by omega), hi2]))
      simpa using (hi.zero v hvn).1 h0
  have hsub : nodes.Subperm P := List.subperm_of_subset hg.nodes_nodup fun v hv => by
    obtain ⟨k, hk, hk'⟩ := List.mem_iff_getElem.1 (hw.1.mem_iff.2 hv)
    exact hall k v (by rw [List.getElem?_eq_getElem hk, hk'])
  have hsub2 : P.Subperm nodes := List.subperm_of_subset (by simpa using hi.nodup) fun v hv => hi.sub v (by simpa using hv)
  rw [if_pos (le_antisymm hsub2.length_le hsub.length_le)]
  exact ⟨P, rfl⟩

/-- On a graph without topological order (a cyclic one) it raises. -/
theorem topoSort_error_iff {nodes : List V} {edges : List (V × V)} (hg : Graph nodes edges) :
    topoSort nodes edges = .error .valueError ↔ ¬ ∃ order, IsTopo nodes edges order := by
  constructor
  · rintro h ⟨o, ho⟩
    obtain ⟨o', ho'⟩ := topoSort_complete hg ho
    rw [ho'] at h; cases h
  · intro h
    cases hs : topoSort nodes edges with
    | ok o => exact absurd ⟨o, topoSort_sound hg hs⟩ h
    | error e =>
      unfold topoSort at hs
      simp only at hs
      split at hs
      · cases hs
      · cases hs; rfl

example : topoSort [3, 1, 2, 0] [(3, 0), (1, 2), (2, 0)] = .ok [3, 1, 2, 0] := by decide +kernel
example : topoSort [0, 1, 2] [(0, 1), (1, 2), (2, 0)] = .error .valueError := by decide +kernel

end Verif.Topo
