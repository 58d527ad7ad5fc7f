import Verif.TemporalMapping.Lemmas
import Verif.Alloc.Props

/-!
C14 (merge-down keeps the loop nest), C15 (it reaches the stationary mapping, fully determined), C16 (cycle counts), C57 (top loops).
-/

namespace Verif.TemporalMapping

variable {Op Dim : Type} [DecidableEq Op] [DecidableEq Dim]

/-- C14: the merge-down always ends; for every operand it keeps the number of levels and the sequence of loops from innermost to
outermost. -/
theorem merge_down_preserves (ir : Op → Dim → Bool) (ms : Dict Op (Levels Dim)) :
    ∃ N out, (∀ fuel, N ≤ fuel → mergeLoop ir fuel ms = some out) ∧
      List.Forall₂ (fun p q => q.1 = p.1 ∧ q.2.1.length = p.2.length ∧ q.2.1.flatten = p.2.flatten) ms out := by
  obtain ⟨out, h1, h2⟩ := mergeLoop_spec ir _ ms le_rfl
  exact ⟨_, out, h1, h2.imp fun p q ⟨a1, _, a3, a4, _, _⟩ => ⟨a1, a3, a4⟩⟩

/-- C15: what the merge-down returns.  The loops at or below level `k` are those that were there before, plus the whole run of
irrelevant loops that follows them in the loop nest (so loops only move down and nothing relevant moves); consequently no
level above the lowest starts with an irrelevant loop; the MAC-level stationary count is the size of the irrelevant loops the
whole nest starts with. -/
theorem merge_down_stationary (ir : Op → Dim → Bool) (ms : Dict Op (Levels Dim)) :
    ∃ N out, (∀ fuel, N ≤ fuel → mergeLoop ir fuel ms = some out) ∧
      List.Forall₂ (fun p q => q.1 = p.1 ∧
        (∀ k, (q.2.1.take (k + 1)).flatten =
          (p.2.take (k + 1)).flatten ++ (p.2.drop (k + 1)).flatten.takeWhile (fun l => ir p.1 l.1)) ∧
        (∀ k l ls, 1 ≤ k → q.2.1[k]? = some (l :: ls) → ir p.1 l.1 = false) ∧
        (p.2 ≠ [] → q.2.2 = ((p.2.flatten.takeWhile (fun l => ir p.1 l.1)).map Prod.snd).prod)) ms out := by
  obtain ⟨out, h1, h2⟩ := mergeLoop_spec ir _ ms le_rfl
  refine ⟨_, out, h1, h2.imp ?_⟩
  rintro p q ⟨a1, a2, a3, a4, a5, a6⟩
  have hk : ∀ k, (q.2.1.take (k + 1)).flatten =
      (p.2.take (k + 1)).flatten ++ (p.2.drop (k + 1)).flatten.takeWhile (fun l => ir p.1 l.1) := by
    intro k
    have ht := a5 k
    unfold target at ht
    rw [settled_run _ _ a2 k, List.length_nil, Nat.add_zero, drop_bound] at ht
    have e1 : (q.2.1.take (k + 1)).flatten = p.2.flatten.take (bound q.2.1 k) := by
      rw [← a4]
      have : q.2.1.flatten = (q.2.1.take (k + 1)).flatten ++ (q.2.1.drop (k + 1)).flatten := by
        rw [← List.flatten_append, List.take_append_drop]
      rw [this]
      unfold bound
      rw [List.take_left]
    have e2 : p.2.flatten = (p.2.take (k + 1)).flatten ++ (p.2.drop (k + 1)).flatten := by
      rw [← List.flatten_append, List.take_append_drop]
    rw [e1, ht, e2]
    unfold bound
    rw [List.take_length_add_append]
    congr 1
    have := List.takeWhile_prefix (l := (p.2.drop (k + 1)).flatten) (irp (ir p.1))
    exact (List.prefix_iff_eq_take.1 this).symm
  refine ⟨a1, hk, ?_, ?_⟩
  · intro k l ls hk1 hget
    have := a2 (k - 1)
    rw [Nat.sub_add_cancel hk1, List.getD_eq_getElem?_getD, hget, Option.getD_some] at this
    by_contra hc
    rw [List.takeWhile_cons_of_pos (by simpa using hc)] at this
    cases this
  · intro hne
    rw [a6]
    congr 2
    -- the irrelevant prefix of the lowest level is that of the nest
    have h0 := hk 0
    have hq : q.2.1 ≠ [] := by
      intro hc; rw [hc] at a3; exact hne (List.eq_nil_of_length_eq_zero a3.symm)
    cases hqc : q.2.1 with
    | nil => exact absurd hqc hq
    | cons x rest =>
      have hrun := settled_run _ _ a2 0
      rw [drop_bound, hqc] at hrun
      simp only [List.headD_cons, Nat.zero_add, List.drop_succ_cons, List.drop_zero] at hrun ⊢
      rw [← a4, hqc, List.flatten_cons]
      by_cases hall : ∀ a ∈ x, irp (ir p.1) a = true
      · rw [List.takeWhile_append_of_pos hall, hrun, List.append_nil]
        have := List.takeWhile_append_of_pos (l₂ := []) hall
        simpa using this
      · push Not at hall
        obtain ⟨a, ha, hna⟩ := hall
        obtain ⟨u, v, rfl⟩ := List.append_of_mem ha
        clear hqc hrun ha h0
        induction u with
        | nil => rw [List.nil_append, List.cons_append, List.takeWhile_cons_of_neg hna, List.takeWhile_cons_of_neg hna]
        | cons b u ih =>
          by_cases hb : irp (ir p.1) b = true
          · rw [List.cons_append, List.cons_append, List.takeWhile_cons_of_pos hb, List.takeWhile_cons_of_pos hb, ih]
          · rw [List.cons_append, List.cons_append, List.takeWhile_cons_of_neg hb, List.takeWhile_cons_of_neg hb]

/-- C16: the cycles covered up to level `k` are the product of the sizes of all loops at or below it. -/
theorem cycles_product (m : Levels Dim) (k : Nat) (hk : k < m.length) :
    (cycleCabl m)[k]? = some (((m.take (k + 1)).flatten.map Prod.snd).prod) := by
  unfold cycleCabl iterationEachLevel
  rw [List.getElem?_map, List.getElem?_range hk, Option.map_some, ← List.map_take]
  congr 1
  induction m.take (k + 1) with
  | nil => simp
  | cons x t ih => simp [ih]

/-- C16: going one level up multiplies the cycles by the loops of that level; with loop sizes at least one they do not decrease. -/
theorem cycles_step (m : Levels Dim) (k : Nat) (hk : k + 1 < m.length) (hs : ∀ lv ∈ m, ∀ l ∈ lv, 1 ≤ l.2) :
    ∃ a b, (cycleCabl m)[k]? = some a ∧ (cycleCabl m)[k + 1]? = some b ∧ b = a * ((m[k + 1].map Prod.snd).prod) ∧ 1 ≤ a ∧ a ≤ b := by
  refine ⟨_, _, cycles_product m k (by omega), cycles_product m (k + 1) hk, ?_⟩
  have e : (m.take (k + 1 + 1)).flatten = (m.take (k + 1)).flatten ++ m[k + 1] := by
    rw [List.take_succ_eq_append_getElem hk, List.flatten_append]; simp
  rw [e, List.map_append, List.prod_append]
  have hge : ∀ l : List (TLoop Dim), (∀ x ∈ l, 1 ≤ x.2) → 1 ≤ (l.map Prod.snd).prod := by
    intro l hl
    induction l with
    | nil => simp
    | cons x t ih =>
      rw [List.map_cons, List.prod_cons]
      have h1 := hl x (by simp)
      have h2 := ih (fun y hy => hl y (by simp [hy]))
      nlinarith
  have h1 : 1 ≤ (((m.take (k + 1)).flatten).map Prod.snd).prod := hge _ (by
    intro x hx
    obtain ⟨lv, hlv, hx⟩ := List.mem_flatten.1 hx
    exact hs lv (List.mem_of_mem_take hlv) x hx)
  have h2 : 1 ≤ ((m[k + 1]).map Prod.snd).prod := hge _ (fun x hx => hs _ (List.getElem_mem hk) x hx)
  refine ⟨rfl, h1, ?_⟩
  nlinarith

/-- C16: mappings whose operands all have the same loops and at least one level pass the equal-total-cycle check; the total is
the product of all loop sizes. -/
theorem total_cycle_ok (ms : Dict Op (Levels Dim)) (loops : List (TLoop Dim)) (hne : ms ≠ [])
    (h : ∀ p ∈ ms, p.2 ≠ [] ∧ p.2.flatten = loops) : totalCycle ms = .ok ((loops.map Prod.snd).prod) := by
  have hlast : ∀ p ∈ ms, (cycleCabl p.2).getLast? = some ((loops.map Prod.snd).prod) := by
    intro p hp
    obtain ⟨h1, h2⟩ := h p hp
    have hlen : (cycleCabl p.2).length = p.2.length := by simp [cycleCabl]
    have hpos := List.length_pos_iff.2 h1
    rw [List.getLast?_eq_getElem?, hlen, cycles_product p.2 _ (by omega), Nat.sub_add_cancel hpos, List.take_length, h2]
  have hm : ∀ l : Dict Op (Levels Dim), (∀ p ∈ l, p ∈ ms) →
      l.mapM (fun p => (cycleCabl p.2).getLast?) = some (List.replicate l.length ((loops.map Prod.snd).prod)) := by
    intro l
    induction l with
    | nil => intro _; rfl
    | cons p l ih =>
      intro hl
      rw [List.mapM_cons, hlast p (hl p (by simp)), ih (fun q hq => hl q (by simp [hq]))]
      rfl
  unfold totalCycle
  rw [hm ms (fun p hp => hp)]
  cases ms with
  | nil => exact absurd rfl hne
  | cons p ms =>
    simp only [List.length_cons, List.replicate_succ]
    rw [if_pos]
    rw [List.all_eq_true]
    intro x hx
    rcases List.mem_cons.1 hx with rfl | hx
    · exact decide_eq_true rfl
    · exact decide_eq_true (List.eq_of_mem_replicate hx)

/-- C16: the check fails when two operands disagree. -/
theorem total_cycle_detects (ms : Dict Op (Levels Dim)) (p q : Op × Levels Dim) (hp : p ∈ ms) (hq : q ∈ ms) (hnp : p.2 ≠ []) (hnq : q.2 ≠ [])
    (h : ((p.2.flatten.map Prod.snd).prod) ≠ ((q.2.flatten.map Prod.snd).prod)) (t : ℚ) : totalCycle ms ≠ .ok t := by
  have hlast : ∀ p : Op × Levels Dim, p.2 ≠ [] → (cycleCabl p.2).getLast? = some ((p.2.flatten.map Prod.snd).prod) := by
    intro p h1
    have hlen : (cycleCabl p.2).length = p.2.length := by simp [cycleCabl]
    have hpos := List.length_pos_iff.2 h1
    rw [List.getLast?_eq_getElem?, hlen, cycles_product p.2 _ (by omega), Nat.sub_add_cancel hpos, List.take_length]
  intro hc
  unfold totalCycle at hc
  have hmem : ∀ (l : Dict Op (Levels Dim)) (ts : List ℚ), l.mapM (fun p => (cycleCabl p.2).getLast?) = some ts →
      ∀ r ∈ l, ∃ x ∈ ts, (cycleCabl r.2).getLast? = some x := by
    intro l
    induction l with
    | nil => intro ts _ r hr; simp at hr
    | cons a l ih =>
      intro ts hts r hr
      rw [List.mapM_cons] at hts
      cases ha : (cycleCabl a.2).getLast? with
      | none => rw [ha] at hts; cases hts
      | some va =>
        cases hl : l.mapM (fun p => (cycleCabl p.2).getLast?) with
        | none => rw [ha, hl] at hts; cases hts
        | some tl =>
          rw [ha, hl] at hts
          cases hts
          rcases List.mem_cons.1 hr with rfl | hr
          · exact ⟨va, by simp, ha⟩
          · obtain ⟨x, hx, e⟩ := ih tl hl r hr
            exact ⟨x, by simp [hx], e⟩
  cases hms : ms.mapM (fun p => (cycleCabl p.2).getLast?) with
  | none => rw [hms] at hc; cases hc
  | some ts =>
    rw [hms] at hc
    cases ts with
    | nil => cases hc
    | cons t0 ts =>
      simp only at hc
      split at hc
      · next hall =>
        rw [List.all_eq_true] at hall
        obtain ⟨x, hx, ex⟩ := hmem ms _ hms p hp
        obtain ⟨y, hy, ey⟩ := hmem ms _ hms q hq
        rw [hlast p hnp] at ex
        rw [hlast q hnq] at ey
        have h1 := of_decide_eq_true (hall x hx)
        have h2 := of_decide_eq_true (hall y hy)
        cases ex; cases ey
        exact h (h1.trans h2.symm)
      · cases hc

/-- C16, end to end: every mapping built by the memory allocator for a layer passes the check after merge-down. -/
theorem allocated_total_cycle {env : Alloc.Env Op Dim} {ordering : List (Dim × ℚ)} {nodes : List (Alloc.Node Op)}
    {tm : Op → List (List (Dim × ℚ))} (hn : ∀ n ∈ nodes, n.ops.Nodup) (h : Alloc.run env ordering nodes = .ok tm)
    (hops : env.memOps ≠ []) (htop : ∀ op ∈ env.memOps, ∃ n ∈ nodes, op ∈ n.ops ∧ n.isTop op = true) (ir : Op → Dim → Bool) :
    ∃ N out, (∀ fuel, N ≤ fuel → mergeLoop ir fuel (env.memOps.map (fun op => (op, tm op))) = some out) ∧
      totalCycle (out.map (fun q => (q.1, q.2.1))) = .ok ((ordering.map Prod.snd).prod) := by
  obtain ⟨N, out, h1, h2⟩ := merge_down_preserves ir (env.memOps.map (fun op => (op, tm op)))
  refine ⟨N, out, h1, ?_⟩
  apply total_cycle_ok
  · intro hc
    have hl := h2.length_eq
    rw [List.map_eq_nil_iff.1 hc] at hl
    simp at hl
    exact hops hl
  · intro p hp
    obtain ⟨q, hq, rfl⟩ := List.mem_map.1 hp
    obtain ⟨i, hi, rfl⟩ := List.getElem_of_mem hq
    have hi' : i < (env.memOps.map (fun op => (op, tm op))).length := by rw [h2.length_eq]; exact hi
    have := (List.forall₂_iff_get.1 h2).2 i hi' hi
    obtain ⟨e1, e2, e3⟩ := this
    have him : i < env.memOps.length := by simpa using hi'
    have hop : env.memOps[i] ∈ env.memOps := List.getElem_mem him
    obtain ⟨f1, f2⟩ := Alloc.run_keeps_order hn h _ hop (htop _ hop)
    simp only [List.get_eq_getElem, List.getElem_map] at e1 e2 e3
    constructor
    · intro hc
      simp only at hc
      rw [hc] at e2
      obtain ⟨n, hn1, hn2, _⟩ := htop _ hop
      have : n ∈ nodes.filter (fun n => decide (env.memOps[i] ∈ n.ops)) := List.mem_filter.2 ⟨hn1, decide_eq_true hn2⟩
      have := List.length_pos_of_mem this
      rw [← f2, ← e2] at this
      simp at this
    · simp only
      rw [e3, f1]

/-- C57: the top (ir)relevant size of a level is the product of the maximal run of such loops the level ends with, one for empty
levels, and entry zero (the array) is one. -/
theorem top_loops (pred : Dim → Bool) (m : Levels Dim) :
    topLoopSize pred m = 1 :: m.map (fun loops => ((loops.reverse.takeWhile (fun l => pred l.1)).map Prod.snd).prod) := by
  have key : ∀ (l : List (TLoop Dim)) (acc : ℚ), topScan pred l acc = acc * ((l.takeWhile (fun l => pred l.1)).map Prod.snd).prod := by
    intro l
    induction l with
    | nil => intro acc; simp [topScan]
    | cons x l ih =>
      intro acc
      unfold topScan
      by_cases hx : pred x.1 = true
      · rw [if_pos hx, ih, List.takeWhile_cons_of_pos (by exact hx), List.map_cons, List.prod_cons, mul_assoc]
      · rw [if_neg hx, List.takeWhile_cons_of_neg (by exact hx)]; simp
  unfold topLoopSize
  congr 1
  apply List.map_congr_left
  intro loops _
  by_cases h : loops = []
  · simp [h]
  · rw [if_neg h, key]; simp

set_option synthInstance.maxSize 1000 in
set_option synthInstance.maxHeartbeats 200000 in
/-- Non-trivial case: two operands, three levels, a fully irrelevant middle level. -/
example : mergeLoop (fun (o : Nat) (d : Nat) => decide (d = o)) 10
    [(0, [[(0, 2), (1, 3)], [(0, 5)], [(0, 7), (1, 2)]]), (1, [[(0, 2)], [(1, 3), (0, 35)], [(1, 2)]])] =
    some [(0, ([[(0, 2), (1, 3), (0, 5), (0, 7)], [], [(1, 2)]], 2)), (1, ([[(0, 2), (1, 3)], [(0, 35), (1, 2)], []], 1))] := by
  decide +kernel

example : totalCycle [(0, [[(0, (2 : ℚ)), (1, 3)], []]), (1, [[(0, 2)], [(1, 3)]])] = .ok 6 := by decide +kernel

example : totalCycle [(0, [[(0, (2 : ℚ)), (1, 3)], []]), (1, [[(0, 2)], [(1, 2)]])] = .error .assertion := by decide +kernel

end Verif.TemporalMapping
