import Verif.Balance.Model
import Mathlib.Algebra.BigOperators.Group.List.Basic
import Mathlib.Algebra.BigOperators.Group.Finset.Basic
import Mathlib.Tactic.Ring
import Mathlib.Data.List.GetD
import Mathlib.Algebra.Order.BigOperators.Group.List
import Mathlib.Tactic.Linarith
import Mathlib.Tactic.FieldSimp
import Mathlib.Tactic.Positivity

namespace Verif.Balance

theorem order_perm (c : List ℚ) : (order c).Perm (List.range c.length) := List.perm_insertionSort _ _

theorem order_nodup (c : List ℚ) : (order c).Nodup := (order_perm c).nodup_iff.2 List.nodup_range

theorem order_length (c : List ℚ) : (order c).length = c.length := by simpa using (order_perm c).length_eq

theorem mem_order (c : List ℚ) (i : Nat) : i ∈ order c ↔ i < c.length := by
  rw [(order_perm c).mem_iff, List.mem_range]

@[simp] theorem subFirst_length (k r cs) : (subFirst k r cs).length = cs.length := by simp [subFirst]

theorem subFirst_getD (k : Nat) (r : ℚ) (cs : List ℚ) (p : Nat) (hp : p < cs.length) :
    (subFirst k r cs).getD p 0 = cs.getD p 0 - if p < k then r else 0 := by
  unfold subFirst
  rw [List.getD_eq_getElem _ _ (by simpa using hp), List.getD_eq_getElem _ _ hp, List.getElem_mapIdx]
  split <;> simp

@[simp] theorem addAt_length (r reds idx) : (addAt r reds idx).length = reds.length := by
  unfold addAt
  induction idx generalizing reds with
  | nil => rfl
  | cons i t ih => rw [List.foldl_cons, ih]; simp

theorem addAt_cons (r reds i idx) : addAt r reds (i :: idx) = addAt r (reds.set i (reds.getD i 0 + r)) idx := rfl

theorem getD_set (l : List ℚ) (i k : Nat) (v : ℚ) (hi : i < l.length) :
    (l.set i v).getD k 0 = if k = i then v else l.getD k 0 := by
  by_cases hk : k < l.length
  · rw [List.getD_eq_getElem _ _ (by simpa using hk), List.getD_eq_getElem _ _ hk, List.getElem_set]
    by_cases h : k = i
    · simp [h]
    · simp [h, Ne.symm h]
  · rw [List.getD_eq_default _ _ (by simpa using hk), List.getD_eq_default _ _ (by simpa using hk)]
    by_cases h : k = i
    · omega
    · simp [h]

theorem addAt_getD (r : ℚ) (reds : List ℚ) (idx : List Nat) (hn : idx.Nodup) (hb : ∀ i ∈ idx, i < reds.length) (k : Nat) :
    (addAt r reds idx).getD k 0 = reds.getD k 0 + if k ∈ idx then r else 0 := by
  induction idx generalizing reds with
  | nil => simp [addAt]
  | cons i t ih =>
    rw [List.nodup_cons] at hn
    rw [addAt_cons, ih _ hn.2 (fun j hj => by rw [List.length_set]; exact hb j (List.mem_cons_of_mem _ hj)),
      getD_set _ _ _ _ (hb i List.mem_cons_self)]
    by_cases h : k = i
    · subst h
      simp [hn.1]
    · simp [h]

theorem sum_set (l : List ℚ) (i : Nat) (v : ℚ) (hi : i < l.length) : (l.set i v).sum = l.sum - l.getD i 0 + v := by
  induction l generalizing i with
  | nil => simp at hi
  | cons x t ih =>
    cases i with
    | zero => simp; ring
    | succ i =>
      have := ih i (by simpa using hi)
      simp only [List.set_cons_succ, List.sum_cons, this, List.getD_cons_succ]; ring

theorem addAt_sum (r : ℚ) (reds : List ℚ) (idx : List Nat) (hb : ∀ i ∈ idx, i < reds.length) :
    (addAt r reds idx).sum = reds.sum + idx.length * r := by
  induction idx generalizing reds with
  | nil => simp [addAt]
  | cons i t ih =>
    rw [addAt_cons, ih _ (fun j hj => by rw [List.length_set]; exact hb j (List.mem_cons_of_mem _ hj)),
      sum_set _ _ _ (hb i List.mem_cons_self)]
    push_cast [List.length_cons]; ring

theorem mem_take_iff {idx : List Nat} (hn : idx.Nodup) (p k : Nat) (hp : p < idx.length) :
    idx[p] ∈ idx.take k ↔ p < k := by
  rw [List.mem_take_iff_getElem]
  constructor
  · rintro ⟨j, hj, he⟩
    have := (List.Nodup.getElem_inj_iff hn).1 he
    omega
  · intro h
    exact ⟨p, by omega, rfl⟩

/-- The loop keeps every sorted value plus its reduction constant, and the budget plus the sum of the reductions constant. -/
structure Inv (idx : List Nat) (c : List ℚ) (s0 : ℚ) (st : St) : Prop where
  clen : st.cs.length = c.length
  rlen : st.reds.length = c.length
  val : ∀ p (hp : p < idx.length), st.cs.getD p 0 + st.reds.getD idx[p] 0 = c.getD idx[p] 0
  sum : st.s + st.reds.sum = s0
  nonneg : 0 ≤ st.s

theorem Inv.step {idx : List Nat} {c : List ℚ} {s0 : ℚ} {st : St} (hn : idx.Nodup) (hl : idx.length = c.length)
    (hb : ∀ i ∈ idx, i < c.length) (h : Inv idx c s0 st) (i : Nat) (hi : i < c.length) (r s' : ℚ)
    (hs : s' + (i + 1) * r = st.s) (h0 : 0 ≤ s') :
    Inv idx c s0 { cs := subFirst (i + 1) r st.cs, reds := addAt r st.reds (idx.take (i + 1)), s := s' } where
  clen := by simp [h.clen]
  rlen := by simp [h.rlen]
  val p hp := by
    have hn' : (idx.take (i + 1)).Nodup := hn.sublist (List.take_sublist _ _)
    have hb' : ∀ j ∈ idx.take (i + 1), j < st.reds.length := fun j hj => by
      rw [h.rlen]; exact hb j (List.mem_of_mem_take hj)
    show (subFirst (i + 1) r st.cs).getD p 0 + (addAt r st.reds (idx.take (i + 1))).getD idx[p] 0 = _
    rw [subFirst_getD _ _ _ _ (by rw [h.clen]; omega), addAt_getD _ _ _ hn' hb']
    have := h.val p hp
    simp only [mem_take_iff hn p (i + 1) hp]
    split <;> linarith
  sum := by
    have hb' : ∀ j ∈ idx.take (i + 1), j < st.reds.length := fun j hj => by
      rw [h.rlen]; exact hb j (List.mem_of_mem_take hj)
    show s' + (addAt r st.reds (idx.take (i + 1))).sum = _
    rw [addAt_sum _ _ _ hb', List.length_take, min_eq_left (by omega)]
    have := h.sum
    push_cast
    linarith
  nonneg := h0

theorem loop_inv {idx : List Nat} {c : List ℚ} {s0 : ℚ} (ms : List ℚ) (hn : idx.Nodup) (hl : idx.length = c.length)
    (hb : ∀ i ∈ idx, i < c.length) (is : List Nat) (his : ∀ i ∈ is, i < c.length) (st : St) (h : Inv idx c s0 st) :
    Inv idx c s0 (loop idx ms is st) := by
  induction is generalizing st with
  | nil => exact h
  | cons i rest ih =>
    unfold loop
    have hi := his i List.mem_cons_self
    simp only
    split
    · rename_i hge
      refine ih (fun j hj => his j (List.mem_cons_of_mem _ hj)) _ (h.step hn hl hb i hi _ _ ?_ ?_)
      · ring
      · linarith
    · refine h.step hn hl hb i hi _ _ ?_ le_rfl
      have : (0 : ℚ) < i + 1 := by positivity
      field_simp
      ring

theorem unsort_length (c : List ℚ) (idx : List Nat) (cs : List ℚ) : (unsort c idx cs).length = c.length := by
  unfold unsort
  generalize idx.zip cs = z
  induction z generalizing c with
  | nil => rfl
  | cons e t ih => rw [List.foldl_cons, ih]; simp

theorem unsort_getD_not_mem (c : List ℚ) (z : List (Nat × ℚ)) (k : Nat) (hk : k ∉ z.map Prod.fst) :
    (z.foldl (fun l e => l.set e.1 e.2) c).getD k 0 = c.getD k 0 := by
  induction z generalizing c with
  | nil => rfl
  | cons e t ih =>
    simp only [List.map_cons, List.mem_cons, not_or] at hk
    rw [List.foldl_cons, ih _ hk.2]
    rw [List.getD_eq_getElem?_getD, List.getD_eq_getElem?_getD, List.getElem?_set_ne (Ne.symm hk.1)]

theorem unsort_getD (c : List ℚ) (idx : List Nat) (cs : List ℚ) (hn : idx.Nodup) (hl : idx.length = cs.length)
    (hb : ∀ i ∈ idx, i < c.length) (p : Nat) (hp : p < idx.length) :
    (unsort c idx cs).getD idx[p] 0 = cs.getD p 0 := by
  unfold unsort
  induction idx generalizing c cs p with
  | nil => simp at hp
  | cons i t ih =>
    cases cs with
    | nil => simp at hl
    | cons x xs =>
      rw [List.nodup_cons] at hn
      rw [List.zip_cons_cons, List.foldl_cons]
      cases p with
      | zero =>
        rw [unsort_getD_not_mem]
        · simp only [List.getElem_cons_zero, List.getD_cons_zero]
          rw [getD_set _ _ _ _ (hb i List.mem_cons_self)]; simp
        · intro hm
          obtain ⟨e, he, heq⟩ := List.mem_map.1 hm
          obtain ⟨a, b⟩ := e
          have := (List.of_mem_zip he).1
          simp only [List.getElem_cons_zero] at heq
          subst heq
          exact hn.1 this
      | succ p =>
        simpa using ih (c.set i x) xs hn.2 (by simpa using hl)
          (fun j hj => by rw [List.length_set]; exact hb j (List.mem_cons_of_mem _ hj)) p (by simpa using hp)

theorem init_inv (c : List ℚ) (s : ℚ) (hs : 0 ≤ s) :
    Inv (order c) c s { cs := (order c).map fun i => c.getD i 0, reds := List.replicate c.length 0, s := s } where
  clen := by simp [order_length]
  rlen := by simp
  val p hp := by
    simp only
    rw [List.getD_eq_getElem _ _ (by simpa using hp), List.getElem_map]
    have : (List.replicate c.length (0 : ℚ)).getD (order c)[p] 0 = 0 := by
      rw [List.getD_eq_getElem?_getD, List.getElem?_replicate]; split <;> rfl
    rw [this]; simp
  sum := by simp
  nonneg := hs

/-- What a run of the loop over positions `i, i+1, …` removes: the whole capacity of these positions, or all the budget. -/
theorem loop_amount (idx : List Nat) (ms : List ℚ) (k i : Nat) (st : St) (hl : i + k = st.cs.length)
    (hm : ∀ p, i ≤ p → p < i + k → ms.getD p 0 ≤ st.cs.getD p 0) (h0 : 0 ≤ st.s) :
    st.s - (loop idx ms (List.range' i k) st).s
      = min st.s (((List.range' i k).map fun p : Nat => ((p : ℚ) + 1) * (st.cs.getD p 0 - ms.getD p 0)).sum) := by
  induction k generalizing i st with
  | zero => simp [loop, h0]
  | succ k ih =>
    have hcap : 0 ≤ ((List.range' (i + 1) k).map fun p : Nat => ((p : ℚ) + 1) * (st.cs.getD p 0 - ms.getD p 0)).sum := by
      refine List.sum_nonneg fun x hx => ?_
      obtain ⟨p, hp, rfl⟩ := List.mem_map.1 hx
      rw [List.mem_range'_1] at hp
      have := hm p (by omega) (by omega)
      have : (0 : ℚ) ≤ (p : ℚ) + 1 := by positivity
      exact mul_nonneg this (by linarith)
    rw [List.range'_succ, List.map_cons, List.sum_cons]
    unfold loop
    simp only
    split
    · rename_i hge
      have hcs : ∀ p, i + 1 ≤ p → p < i + (k + 1) →
          (subFirst (i + 1) (st.cs.getD i 0 - ms.getD i 0) st.cs).getD p 0 = st.cs.getD p 0 := by
        intro p h1 h2
        rw [subFirst_getD _ _ _ _ (by omega), if_neg (by omega), sub_zero]
      have := ih (i + 1)
        { cs := subFirst (i + 1) (st.cs.getD i 0 - ms.getD i 0) st.cs
          reds := addAt (st.cs.getD i 0 - ms.getD i 0) st.reds (idx.take (i + 1))
          s := st.s - (st.cs.getD i 0 - ms.getD i 0) * (i + 1) }
        (by simp; omega)
        (fun p h1 h2 => by simp only; rw [hcs p h1 (by omega)]; exact hm p (by omega) (by omega))
        (by simp only; linarith)
      simp only at this
      have he : ((List.range' (i + 1) k).map fun p : Nat => ((p : ℚ) + 1) *
          ((subFirst (i + 1) (st.cs.getD i 0 - ms.getD i 0) st.cs).getD p 0 - ms.getD p 0))
          = (List.range' (i + 1) k).map fun p : Nat => ((p : ℚ) + 1) * (st.cs.getD p 0 - ms.getD p 0) := by
        refine List.map_congr_left fun p hp => ?_
        rw [List.mem_range'_1] at hp
        rw [hcs p (by omega) (by omega)]
      rw [he] at this
      rw [min_def] at this ⊢
      split at this <;> split <;> linarith
    · rename_i hlt
      push Not at hlt
      rw [sub_zero, min_eq_left]
      linarith

theorem sum_add_of_getD (a b c : List ℚ) (h1 : a.length = c.length) (h2 : b.length = c.length)
    (h : ∀ k, a.getD k 0 + b.getD k 0 = c.getD k 0) : a.sum + b.sum = c.sum := by
  induction c generalizing a b with
  | nil => simp_all
  | cons x t ih =>
    cases a with
    | nil => simp at h1
    | cons y a =>
      cases b with
      | nil => simp at h2
      | cons z b =>
        have := ih a b (by simpa using h1) (by simpa using h2) (fun k => by simpa using h (k+1))
        have h0 := h 0
        simp at h0 ⊢
        linarith

theorem addAt_nonneg (r : ℚ) (hr : 0 ≤ r) (reds : List ℚ) (idx : List Nat) (h : ∀ k, 0 ≤ reds.getD k 0) (k : Nat) :
    0 ≤ (addAt r reds idx).getD k 0 := by
  induction idx generalizing reds with
  | nil => exact h k
  | cons i t ih =>
    rw [addAt_cons]
    refine ih _ fun j => ?_
    by_cases hi : i < reds.length
    · rw [getD_set _ _ _ _ hi]
      split
      · have := h i; linarith
      · exact h j
    · rw [List.set_eq_of_length_le (by omega)]; exact h j

theorem loop_nonneg (idx : List Nat) (ms : List ℚ) (k i : Nat) (st : St) (hl : i + k = st.cs.length)
    (hm : ∀ p, i ≤ p → p < i + k → ms.getD p 0 ≤ st.cs.getD p 0) (h0 : 0 ≤ st.s) (hr : ∀ j, 0 ≤ st.reds.getD j 0) (j : Nat) :
    0 ≤ (loop idx ms (List.range' i k) st).reds.getD j 0 := by
  induction k generalizing i st with
  | zero => exact hr j
  | succ k ih =>
    rw [List.range'_succ]
    unfold loop
    simp only
    split
    · rename_i hge
      refine ih (i + 1) _ (by simp; omega) (fun p h1 h2 => ?_) (by simp only; linarith) (fun q => ?_)
      · simp only
        rw [subFirst_getD _ _ _ _ (by omega), if_neg (by omega), sub_zero]
        exact hm p (by omega) (by omega)
      · exact addAt_nonneg _ (by have := hm i le_rfl (by omega); linarith) _ _ hr q
    · exact addAt_nonneg _ (by positivity) _ _ hr j

theorem subFirst_zero (k : Nat) (cs : List ℚ) : subFirst k 0 cs = cs := by
  unfold subFirst
  refine List.ext_getElem (by simp) fun p h1 h2 => ?_
  simp

/-- Without budget the loop changes no value. -/
theorem loop_zero (idx : List Nat) (ms : List ℚ) (k i : Nat) (st : St) (hl : i + k = st.cs.length)
    (hm : ∀ p, i ≤ p → p < i + k → ms.getD p 0 ≤ st.cs.getD p 0) (h0 : st.s = 0) :
    (loop idx ms (List.range' i k) st).cs = st.cs := by
  induction k generalizing i st with
  | zero => rfl
  | succ k ih =>
    rw [List.range'_succ]
    unfold loop
    simp only
    have h1 := hm i le_rfl (by omega)
    have hpos : (0 : ℚ) < (i : ℚ) + 1 := by positivity
    split
    · rename_i hge
      have hz : st.cs.getD i 0 - ms.getD i 0 = 0 := by
        rw [h0] at hge
        have : (st.cs.getD i 0 - ms.getD i 0) * ((i : ℚ) + 1) = 0 := le_antisymm hge (mul_nonneg (by linarith) hpos.le)
        rcases mul_eq_zero.1 this with h | h
        · exact h
        · linarith
      rw [hz, subFirst_zero]
      have := ih (i + 1) { cs := st.cs, reds := addAt 0 st.reds (List.take (i + 1) idx), s := st.s - 0 * ((i : ℚ) + 1) }
        (by simp only; omega) (fun p h1 h2 => hm p (by omega) (by omega)) (by simp [h0])
      exact this
    · rw [h0, zero_div, subFirst_zero]

end Verif.Balance
