import Verif.Search.Lemmas

/-! The allocator fails only because memories are too small, and it uses the same tensor sizes as the cost model. -/

namespace Verif.Search

open Evaluate (Hw Mem Job)
open LayerNode (Relation Rel Layer)
open Latency (Operand)
open Engine (TooSmall)

/-! ### Exceptions of the allocator -/

section
variable {Op Dim : Type} [DecidableEq Op] [DecidableEq Dim]
open Alloc

theorem sliceLoop_error (size : Nat → ℚ) (cap : ℚ) : ∀ (k i : Nat) (e : PyErr), sliceLoop size cap k i = .error e → TooSmall e
  | 0, _, _, h => by cases h
  | k + 1, i, e, h => by
    unfold sliceLoop at h
    split_ifs at h with h1 h2
    · cases hs : sliceLoop size cap k (i + 1) with
      | error e' => rw [hs] at h; cases h; exact sliceLoop_error size cap k (i + 1) _ hs
      | ok l => rw [hs] at h; cases h
    · cases h; exact Or.inr rfl

theorem allSizes_error (env : Alloc.Env Op Dim) (st : AllocSt Op Dim) (cap : ℚ) : ∀ (ops : List Op) (e : PyErr), allSizes env st cap ops = .error e → TooSmall e
  | [], _, h => by cases h
  | op :: ops, e, h => by
    unfold allSizes at h
    cases h1 : calcSizeSlices env op (st op) cap with
    | error e' => rw [h1] at h; cases h; exact sliceLoop_error _ _ _ _ _ h1
    | ok s =>
      rw [h1] at h
      simp only at h
      cases h2 : allSizes env st cap ops with
      | error e' => rw [h2] at h; cases h; exact allSizes_error env st cap ops _ h2
      | ok l => rw [h2] at h; cases h

theorem search_error (cands : List Cand) (cap : ℚ) (valid : List Nat → Bool) : ∀ (is : List Nat) (best : List Nat × Option ℚ) (e : PyErr),
    search cands cap valid is best = .error e → TooSmall e
  | [], _, _, h => by cases h
  | i :: is, best, e, h => by
    unfold search at h
    simp only at h
    split_ifs at h
    · cases h; exact Or.inr rfl
    · exact search_error cands cap valid is _ _ h
    · exact search_error cands cap valid is _ _ h
    · exact search_error cands cap valid is _ _ h

theorem findBest_error {cands : List Cand} {cap : ℚ} {valid : List Nat → Bool} {e : PyErr} (h : findBest cands cap valid = .error e) : TooSmall e := by
  unfold findBest at h
  split at h
  · rename_i e' h1
    cases h
    exact search_error _ _ _ _ _ _ h1
  · cases h

theorem allocOps_error {env : Alloc.Env Op Dim} {node : Alloc.Node Op} : ∀ {pairs : List (Op × Nat)} {st : AllocSt Op Dim} {e : PyErr},
    (pairs.map Prod.fst).Nodup → (∀ p ∈ pairs, (st p.1).level < (env.spatial p.1).length) → allocOps env node st pairs = .error e → TooSmall e
  | [], st, e, _, _, h => by cases h
  | (op, idx) :: rest, st, e, hn, hl, h => by
    unfold allocOps at h
    simp only [List.map_cons, List.nodup_cons] at hn
    cases h1 : allocOp env node st op idx with
    | error e' =>
      rw [h1] at h
      cases h
      unfold allocOp at h1
      simp only at h1
      rw [List.getElem?_eq_getElem (hl (op, idx) (by simp))] at h1
      simp only at h1
      split_ifs at h1
      cases h1
      exact Or.inl rfl
    | ok s1 =>
      rw [h1] at h
      obtain ⟨sp, -, e2, -⟩ := allocOp_spec h1
      refine allocOps_error hn.2 (fun p hp => ?_) h
      have hne : p.1 ≠ op := by
        intro he; exact hn.1 (he ▸ List.mem_map_of_mem (f := Prod.fst) hp)
      rw [e2, Function.update_of_ne hne]
      exact hl p (by simp [hp])

theorem zip_fst_nodup {α β : Type} : ∀ {a : List α} {b : List β}, a.Nodup → ((a.zip b).map Prod.fst).Nodup
  | [], _, _ => by simp
  | _ :: _, [], _ => by simp
  | x :: a, y :: b, h => by
    rw [List.nodup_cons] at h
    simp only [List.zip_cons_cons, List.map_cons, List.nodup_cons]
    refine ⟨fun hc => h.1 ?_, zip_fst_nodup h.2⟩
    obtain ⟨p, hp, rfl⟩ := List.mem_map.1 hc
    exact (List.of_mem_zip hp).1

theorem allocateNode_error {env : Alloc.Env Op Dim} {st : AllocSt Op Dim} {node : Alloc.Node Op} {e : PyErr} (hn : node.ops.Nodup)
    (hl : ∀ op ∈ env.memOps, op ∈ node.ops → (st op).level < (env.spatial op).length) (h : allocateNode env st node = .error e) : TooSmall e := by
  unfold allocateNode at h
  simp only at h
  split at h
  · rename_i e' h1
    cases h
    exact allSizes_error _ _ _ _ _ h1
  · split at h
    · rename_i e' h1
      cases h
      exact findBest_error h1
    · refine allocOps_error (zip_fst_nodup (hn.filter _)) (fun p hp => ?_) h
      have := List.mem_filter.1 (List.of_mem_zip hp).1
      exact hl p.1 (by simpa using this.2) this.1

theorem allocNodes_error {env : Alloc.Env Op Dim} : ∀ {ns : List (Alloc.Node Op)} {st : AllocSt Op Dim} {e : PyErr}, (∀ n ∈ ns, n.ops.Nodup) →
    (∀ op ∈ env.memOps, (st op).level + lvl ns op ≤ (env.spatial op).length) → allocNodes env st ns = .error e → TooSmall e
  | [], _, _, _, _, h => by cases h
  | n :: ns, st, e, hn, hl, h => by
    unfold allocNodes at h
    cases h1 : allocateNode env st n with
    | error e' =>
      rw [h1] at h
      cases h
      refine allocateNode_error (hn n (by simp)) (fun op ho ho' => ?_) h1
      have := hl op ho
      rw [lvl_cons, if_pos ho'] at this
      omega
    | ok s1 =>
      rw [h1] at h
      refine allocNodes_error (fun m hm => hn m (by simp [hm])) (fun op ho => ?_) h
      obtain ⟨a1, a2⟩ := allocateNode_op (hn n (by simp)) h1 op ho
      have := hl op ho
      rw [lvl_cons] at this
      by_cases ho' : op ∈ n.ops
      · obtain ⟨idx, sp, -, e2, -, -⟩ := a2 ho'
        rw [if_pos ho'] at this
        rw [e2]
        simp only [advance]
        omega
      · rw [if_neg ho'] at this
        rw [a1 ho']
        omega

/-- The allocator raises no other exception if there are spatial loops for every level. -/
theorem run_error {env : Alloc.Env Op Dim} {ordering : List (Dim × ℚ)} {ns : List (Alloc.Node Op)} {e : PyErr} (hn : ∀ n ∈ ns, n.ops.Nodup)
    (hl : ∀ op ∈ env.memOps, lvl ns op + 1 ≤ (env.spatial op).length) (h : Alloc.run env ordering ns = .error e) : TooSmall e := by
  unfold Alloc.run at h
  split at h
  · rename_i e' h1
    exfalso
    unfold initState at h1
    rw [if_pos] at h1
    · cases h1
    · simp only [List.all_eq_true, Bool.not_eq_true', List.isEmpty_eq_false_iff]
      intro op ho hc
      have := hl op ho
      rw [hc] at this
      simp at this
  · rename_i st h1
    split at h
    · rename_i e' h2
      cases h
      refine allocNodes_error hn (fun op ho => ?_) h2
      obtain ⟨i1, i2⟩ := initState_inv h1 op
      rw [i1.level, i2]
      have := hl op ho
      simp only [List.length_nil]
      omega
    · cases h

end

variable {Dim : Type} [DecidableEq Dim] {h : Hw} {topo : List Mem} {t : Task Dim} {rl : Operand → List Dim} {rels : List (Relation Dim)}
  {array order : List (Dim × ℚ)}

/-- If there is no mapping for an order, a memory is too small. -/
theorem mapOrder_error (P : Prepared h topo t rl rels array) {e : PyErr} (hj : mapOrder h topo t order = .error e) : TooSmall e := by
  unfold mapOrder at hj
  simp only [bind, Except.bind] at hj
  cases ha : allocate h topo t order with
  | error e' =>
    rw [ha] at hj
    cases hj
    refine run_error (node_nodup P) (fun op ho => ?_) ha
    have : Alloc.lvl (topo.map (node h)) op = (h.levels op).length := nodes_length P op
    rw [this]
    exact (P.su op ho).1.ge
  | ok tm =>
    rw [ha] at hj
    have hk : ∀ op ∈ t.ops, (tm op).flatten = order ∧ (tm op).length = (h.levels op).length := by
      intro op ho
      have := Alloc.run_keeps_order (node_nodup P) ha op ho (node_top P ho)
      rw [nodes_length P] at this
      exact this
    obtain ⟨j', h1, -⟩ := finish_ok (t := t) (tm := tm) (order := order) (List.ne_nil_of_mem P.out) (fun op ho => by
      refine ⟨fun hc => P.stored op ho ?_, (hk op ho).1⟩
      have := (hk op ho).2
      rw [hc] at this
      exact List.length_eq_zero_iff.1 this.symm)
    simp only at hj
    rw [h1] at hj
    cases hj

end Verif.Search
