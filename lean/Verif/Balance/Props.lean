import Verif.Balance.Lemmas

/-! C31: balanced reduction of loading cycles.  The specification talks about lists of numbers only:
remaining value plus reduction is the old value, the reductions use at most the given amount, and no value falls below its minimum (false in general). -/

namespace Verif.Balance

private theorem run_inv {c m : List ℚ} {s : ℚ} {r d : List ℚ} (h : reduceBalanced c m s = .ok (r, d)) (hs : 0 < s) (hc : c ≠ []) :
    ∃ st, r = unsort c (order c) st.cs ∧ d = st.reds ∧ Inv (order c) c s st
      ∧ st = loop (order c) ((order c).map fun i => m.getD i 0) (List.range c.length)
        { cs := (order c).map fun i => c.getD i 0, reds := List.replicate c.length 0, s := s } := by
  unfold reduceBalanced at h
  rw [if_neg (by push Not; exact ⟨hs, hc⟩)] at h
  split at h
  · cases h
  · simp only [Except.ok.injEq, Prod.mk.injEq] at h
    refine ⟨_, h.1.symm, h.2.symm, ?_, rfl⟩
    exact loop_inv _ (order_nodup c) (order_length c) (fun i hi => (mem_order c i).1 hi) _ (fun i hi => by simpa using hi) _
      (init_inv c s hs.le)

/-- C31: for any values, minimums and amount, both results have one entry for each value, remaining value plus reduction is the value, and the
reductions add up to at most the amount (to nothing for an amount that is not positive). -/
theorem balance_conserves {c m : List ℚ} {s : ℚ} {r d : List ℚ} (h : reduceBalanced c m s = .ok (r, d)) :
    r.length = c.length ∧ d.length = c.length ∧ (∀ k, r.getD k 0 + d.getD k 0 = c.getD k 0)
      ∧ r.sum + d.sum = c.sum ∧ d.sum ≤ max s 0 := by
  by_cases hq : s ≤ 0 ∨ c = []
  · unfold reduceBalanced at h
    rw [if_pos hq] at h
    simp only [Except.ok.injEq, Prod.mk.injEq] at h
    obtain ⟨rfl, rfl⟩ := h
    refine ⟨rfl, by simp, fun k => ?_, by simp, by simp⟩
    have : (List.replicate c.length (0 : ℚ)).getD k 0 = 0 := by
      rw [List.getD_eq_getElem?_getD, List.getElem?_replicate]; split <;> rfl
    rw [this, add_zero]
  · push Not at hq
    obtain ⟨st, rfl, rfl, hi, -⟩ := run_inv h hq.1 hq.2
    have hlen := unsort_length c (order c) st.cs
    have hval : ∀ k, (unsort c (order c) st.cs).getD k 0 + st.reds.getD k 0 = c.getD k 0 := by
      intro k
      by_cases hk : k < c.length
      · obtain ⟨p, hp, rfl⟩ := List.mem_iff_getElem.1 ((mem_order c k).2 hk)
        rw [unsort_getD c (order c) st.cs (order_nodup c) (by rw [order_length, hi.clen]) (fun i h => (mem_order c i).1 h) p hp]
        exact hi.val p hp
      · rw [List.getD_eq_default _ _ (by omega), List.getD_eq_default _ _ (by rw [hi.rlen]; omega),
          List.getD_eq_default _ _ (by omega), add_zero]
    refine ⟨hlen, hi.rlen, hval, ?_, ?_⟩
    · exact sum_add_of_getD _ _ _ hlen hi.rlen hval
    · have := hi.sum
      have := hi.nonneg
      exact le_trans (by linarith) (le_max_left _ _)

private theorem sorted_getD (c m : List ℚ) (p : Nat) (hp : p < c.length) :
    ((order c).map fun i => m.getD i 0).getD p 0 = m.getD ((order c)[p]'(by rw [order_length]; exact hp)) 0 := by
  rw [List.getD_eq_getElem _ _ (by simpa [order_length] using hp), List.getElem_map]

/-- C31: if every value is at least its minimum then no value is raised, and the given amount is used up completely whenever the values
together exceed their minimums by at least that amount. -/
theorem balance_exact {c m : List ℚ} {s : ℚ} {r d : List ℚ} (h : reduceBalanced c m s = .ok (r, d))
    (hm : ∀ k, k < c.length → m.getD k 0 ≤ c.getD k 0) :
    (∀ k, r.getD k 0 ≤ c.getD k 0) ∧
      (0 ≤ s → s ≤ ((List.range c.length).map fun k => c.getD k 0 - m.getD k 0).sum → d.sum = s) := by
  have hcons := balance_conserves h
  by_cases hq : s ≤ 0 ∨ c = []
  · unfold reduceBalanced at h
    rw [if_pos hq] at h
    simp only [Except.ok.injEq, Prod.mk.injEq] at h
    obtain ⟨rfl, rfl⟩ := h
    refine ⟨fun k => le_rfl, fun h0 hs => ?_⟩
    rcases hq with hq | rfl
    · rw [show s = 0 from le_antisymm hq h0]; simp
    · simp only [List.length_nil, List.range_zero, List.map_nil, List.sum_nil] at hs
      rw [show s = 0 from le_antisymm hs h0]; simp
  · push Not at hq
    obtain ⟨st, hr, hd, hi, hst⟩ := run_inv h hq.1 hq.2
    rw [List.range_eq_range'] at hst
    have hmin : ∀ p, 0 ≤ p → p < 0 + c.length → ((order c).map fun i => m.getD i 0).getD p 0
        ≤ ((order c).map fun i => c.getD i 0).getD p 0 := by
      intro p _ hp
      rw [sorted_getD c m p (by omega), sorted_getD c c p (by omega)]
      exact hm _ ((mem_order c _).1 (List.getElem_mem _))
    constructor
    · intro k
      have hnn := loop_nonneg (order c) ((order c).map fun i => m.getD i 0) c.length 0
        { cs := (order c).map fun i => c.getD i 0, reds := List.replicate c.length 0, s := s } (by simp [order_length])
        hmin hq.1.le (fun j => by
          simp only
          rw [List.getD_eq_getElem?_getD, List.getElem?_replicate]; split <;> simp) k
      rw [← hst, ← hd] at hnn
      have := hcons.2.2.1 k
      linarith
    · intro _ hs
      have ham := loop_amount (order c) ((order c).map fun i => m.getD i 0) c.length 0
        { cs := (order c).map fun i => c.getD i 0, reds := List.replicate c.length 0, s := s } (by simp [order_length])
        hmin hq.1.le
      rw [← hst] at ham
      simp only at ham
      have hge : s ≤ ((List.range' 0 c.length).map fun p : Nat => ((p : ℚ) + 1)
          * (((order c).map fun i => c.getD i 0).getD p 0 - ((order c).map fun i => m.getD i 0).getD p 0)).sum := by
        refine hs.trans ?_
        have hperm : ((List.range c.length).map fun k => c.getD k 0 - m.getD k 0).sum
            = ((order c).map fun k => c.getD k 0 - m.getD k 0).sum := ((order_perm c).map _).sum_eq.symm
        have hlist : ((order c).map fun k => c.getD k 0 - m.getD k 0)
            = (List.range' 0 c.length).map fun p : Nat =>
              ((order c).map fun i => c.getD i 0).getD p 0 - ((order c).map fun i => m.getD i 0).getD p 0 := by
          refine List.ext_getElem (by simp [order_length]) fun p h1 h2 => ?_
          have hp : p < c.length := by simpa using h2
          simp only [List.getElem_map, List.getElem_range', Nat.zero_add, Nat.one_mul]
          rw [sorted_getD c m p hp, sorted_getD c c p hp]
        rw [hperm, hlist]
        refine List.sum_le_sum fun p hp => ?_
        rw [List.mem_range'_1] at hp
        have hd := hmin p (by omega) (by omega)
        have : (0 : ℚ) ≤ p := by positivity
        nlinarith
      rw [min_eq_left hge] at ham
      have := hi.sum
      rw [hd]
      linarith

/-- C31 for a single value: it is lowered by the amount, but not below the minimum. -/
theorem balance_single (c m s : ℚ) (hm : m ≤ c) (hs : 0 < s) :
    reduceBalanced [c] [m] s = .ok ([max m (c - s)], [min (c - m) s]) := by
  have ho : order [c] = [0] := rfl
  unfold reduceBalanced
  rw [if_neg (by push Not; exact ⟨hs, by simp⟩), if_neg (by simp), ho]
  simp only [List.map_cons, List.map_nil, List.length_cons, List.length_nil, List.replicate_succ, List.replicate_zero,
    List.range_succ, List.range_zero, List.nil_append, loop, List.getD_cons_zero, Nat.cast_zero, zero_add, mul_one, div_one]
  by_cases h : s ≥ c - m
  · rw [if_pos h, max_eq_left (by linarith), min_eq_left (by linarith)]
    simp [unsort, subFirst, addAt]
  · rw [if_neg h, max_eq_right (by linarith), min_eq_right (by linarith)]
    simp [unsort, subFirst, addAt]

/-- C31, partial: no value falls below its minimum as long as the amount does not exceed what the largest value can give alone.  Missing: larger
amounts, for which the statement is false (`balance_minimum_false`). -/
theorem balance_minimum_partial {c m : List ℚ} {s : ℚ} {r d : List ℚ} (h : reduceBalanced c m s = .ok (r, d))
    (hm : ∀ k, k < c.length → m.getD k 0 ≤ c.getD k 0)
    (hs : ∀ k, k < c.length → (∀ j, j < c.length → c.getD j 0 ≤ c.getD k 0) → s ≤ c.getD k 0 - m.getD k 0)
    (k : Nat) (hk : k < c.length) : m.getD k 0 ≤ r.getD k 0 := by
  by_cases hq : s ≤ 0 ∨ c = []
  · unfold reduceBalanced at h
    rw [if_pos hq] at h
    simp only [Except.ok.injEq, Prod.mk.injEq] at h
    obtain ⟨rfl, rfl⟩ := h
    exact hm k hk
  · push Not at hq
    obtain ⟨st, rfl, -, hi, hst⟩ := run_inv h hq.1 hq.2
    obtain ⟨p, hp, rfl⟩ := List.mem_iff_getElem.1 ((mem_order c k).2 hk)
    rw [unsort_getD c (order c) st.cs (order_nodup c) (by rw [order_length, hi.clen]) (fun i h => (mem_order c i).1 h) p hp]
    obtain ⟨n, hn⟩ : ∃ n, c.length = n + 1 := ⟨c.length - 1, by omega⟩
    have hlo := order_length c
    have hmin : ∀ p, p < c.length → ((order c).map fun i => m.getD i 0).getD p 0
        ≤ ((order c).map fun i => c.getD i 0).getD p 0 := by
      intro p hp
      rw [sorted_getD c m p (by omega), sorted_getD c c p (by omega)]
      exact hm _ ((mem_order c _).1 (List.getElem_mem _))
    -- the first position holds the largest value
    have hfirst : s ≤ ((order c).map fun i => c.getD i 0).getD 0 0 - ((order c).map fun i => m.getD i 0).getD 0 0 := by
      rw [sorted_getD c m 0 (by omega), sorted_getD c c 0 (by omega)]
      refine hs _ ((mem_order c _).1 (List.getElem_mem _)) fun j hj => ?_
      have hsort : (order c).Pairwise (fun i j => c.getD j 0 ≤ c.getD i 0) := by
        unfold order
        haveI : Std.Total (fun i j : Nat => c.getD j 0 ≤ c.getD i 0) := ⟨fun a b => le_total _ _⟩
        haveI : IsTrans Nat (fun i j : Nat => c.getD j 0 ≤ c.getD i 0) := ⟨fun a b d h1 h2 => le_trans h2 h1⟩
        exact List.pairwise_insertionSort _ _
      obtain ⟨q, hq', rfl⟩ := List.mem_iff_getElem.1 ((mem_order c j).2 hj)
      rcases Nat.eq_zero_or_pos q with rfl | hpos
      · exact le_rfl
      · exact List.pairwise_iff_getElem.1 hsort 0 q (by omega) hq' hpos
    rw [hn, List.range_eq_range', List.range'_succ] at hst
    unfold loop at hst
    simp only [Nat.cast_zero, zero_add, mul_one, div_one] at hst
    have hcs : st.cs = subFirst 1 s ((order c).map fun i => c.getD i 0) := by
      split at hst
      · rename_i hge
        have he := le_antisymm hfirst hge
        rw [hst, loop_zero _ _ n 1 _ (by simp; omega) (fun q h1 h2 => ?_) (by simp only; linarith)]
        · simp only; rw [he]
        · simp only
          rw [subFirst_getD _ _ _ _ (by simp; omega), if_neg (by omega), sub_zero]
          exact hmin q (by omega)
      · rw [hst]
    have hp' : p < c.length := by omega
    rw [hcs, subFirst_getD _ _ _ _ (by simpa using hp)]
    have := hmin p hp'
    rw [sorted_getD c m p hp', sorted_getD c c p hp'] at this
    split
    · rename_i hlt
      obtain rfl : p = 0 := by omega
      rw [sorted_getD c m 0 hp', sorted_getD c c 0 hp'] at hfirst
      rw [sorted_getD c c 0 hp']
      linarith
    · rw [sorted_getD c c p hp', sub_zero]; exact this

/-- C31 is false in general: the second step lowers the first value again, below its minimum and even below zero. -/
theorem balance_minimum_false : ∃ (c m : List ℚ) (s : ℚ) (r d : List ℚ), reduceBalanced c m s = .ok (r, d)
    ∧ (∀ k, k < c.length → 0 < m.getD k 0 ∧ m.getD k 0 ≤ c.getD k 0) ∧ r.getD 0 0 < 0 ∧ r.getD 0 0 < m.getD 0 0 :=
  ⟨[10, 8], [2, 2], 100, [-4, 2], [14, 6], by decide +kernel, by decide +kernel, by decide +kernel, by decide +kernel⟩

/-- The index error of line 1185 is the only failure. -/
theorem balance_ok (c m : List ℚ) (s : ℚ) (h : c.length ≤ m.length) : ∃ r d, reduceBalanced c m s = .ok (r, d) := by
  unfold reduceBalanced
  split
  · exact ⟨_, _, rfl⟩
  · rw [if_neg (by omega)]; exact ⟨_, _, rfl⟩

example : reduceBalanced [10, 8, 3] [2, 2, 1] 5 = .ok ([5, 8, 3], [5, 0, 0]) := by decide +kernel

example : ∀ k, k < [10, 8, (3 : ℚ)].length → (∀ j, j < [10, 8, (3 : ℚ)].length → [10, 8, (3 : ℚ)].getD j 0 ≤ [10, 8, (3 : ℚ)].getD k 0) →
    (5 : ℚ) ≤ [10, 8, (3 : ℚ)].getD k 0 - [2, 2, (1 : ℚ)].getD k 0 := by decide +kernel

end Verif.Balance
