import Verif.Multiperm.Refine

/-! Helper lemmas: initial state, whole enumeration, constrained enumeration. -/

namespace Verif.Multiperm

variable {α : Type} [LinearOrder α]

theorem sorted_perm (ms : List α) : (sorted ms).Perm ms := List.perm_insertionSort _ ms

theorem sorted_pairwise (ms : List α) : (sorted ms).Pairwise (fun a b => a ≤ b) := List.pairwise_insertionSort _ ms

theorem dec_reverse_sorted (ms : List α) : Dec (sorted ms).reverse := by
  unfold Dec; rw [List.pairwise_reverse]; exact sorted_pairwise ms

/-- `next_elem` fields after `init`. -/
def nx0 : Nat → Option Nat := fun k => if k = 0 then none else some (k - 1)

theorem isList_init : ∀ n, IsList nx0 (some n) (List.range (n + 1)).reverse
  | 0 => by simp [IsList, nx0]
  | n + 1 => by
    rw [List.range_succ, List.reverse_append]
    refine ⟨rfl, ?_⟩
    have : nx0 (n + 1) = some n := by simp [nx0]
    rw [this]
    exact isList_init n

theorem nth_init : ∀ (k h : Nat), nth nx0 h k = h - k
  | 0, h => by simp [nth]
  | k + 1, h => by
    cases h with
    | zero => simp [nth, nx0]
    | succ h =>
      have : nx0 (h + 1) = some h := by simp [nx0]
      simp only [nth, this]
      rw [nth_init k h]; omega

theorem map_valOf (d : α) (srt : List α) : (List.range srt.length).reverse.map (valOf d srt) = srt.reverse := by
  rw [List.map_reverse]
  congr 1
  apply List.ext_getElem
  · simp
  · intro i h1 h2
    simp [valOf, List.getD_eq_getElem?_getD, h2]

/-- The whole enumeration on the sorted list. -/
theorem loop_init (d : α) (srt : List α) (hs : srt.Pairwise (fun a b => a ≤ b)) (h0 : srt ≠ []) :
    ∃ N L, (srt.reverse :: L).Nodup ∧ (∀ y, y ∈ srt.reverse :: L ↔ y.Perm srt) ∧
      ∀ fuel, N ≤ fuel → loop (valOf d srt) srt.length fuel (initSt srt.length) = some L := by
  have hm : Dec srt.reverse := by unfold Dec; rw [List.pairwise_reverse]; exact hs
  set m := srt.reverse with hmdef
  have hlen : m.length = srt.length := by simp [hmdef]
  obtain ⟨n, hn⟩ : ∃ n, srt.length = n + 1 := ⟨srt.length - 1, by
    have := List.length_pos_iff.2 h0; omega⟩
  have hperm : ∀ y : List α, y.Perm m ↔ y.Perm srt := by
    intro y
    exact ⟨fun h => h.trans (List.reverse_perm srt), fun h => h.trans (List.reverse_perm srt).symm⟩
  set val := valOf d srt with hval
  have hvals : (List.range srt.length).reverse.map val = m := map_valOf d srt
  have hinit : initSt srt.length = { next := nx0, h := n, i := n - (n - 1), j := some 0 } := by
    have h1 : nth nx0 n (n + 1 - 2) = n - (n - 1) := by rw [nth_init]; omega
    have h2 : nth nx0 n n = 0 := by rw [nth_init]; omega
    unfold initSt
    rw [hn]
    show St.mk nx0 (n + 1 - 1) (nth nx0 (n + 1 - 1) (n + 1 - 2)) (some (nth nx0 (n + 1 - 1) (n + 1 - 1))) = _
    simp only [Nat.add_sub_cancel]
    rw [h1, h2]
  have hhd : m = val n :: ((List.range n).reverse.map val) := by
    rw [← hvals, hn, List.range_succ, List.reverse_append]; simp
  by_cases hlt : val 0 < val n
  · -- at least two different values
    have hn1 : 1 ≤ n := by
      by_contra h
      have : n = 0 := by omega
      subst this; exact lt_irrefl _ hlt
    obtain ⟨k, rfl⟩ : ∃ k, n = k + 1 := ⟨n - 1, by omega⟩
    -- nodes: `B ++ [1, 0]`
    obtain ⟨B, hB⟩ : ∃ B, (List.range (k + 2)).reverse = B ++ [1, 0] := by
      refine ⟨((List.range k).map (· + 2)).reverse, ?_⟩
      rw [show k + 2 = 2 + k from by omega, List.range_add]
      simp [List.range_succ, Nat.add_comm]
    have hm2 : m = (B ++ [1]).map val ++ [val 0] := by
      rw [← hvals, hn, hB]; simp
    have hl := isList_init (k + 1)
    rw [hB] at hl
    have hnd : (B ++ 1 :: 0 :: []).Nodup := by
      rw [← hB]; exact (List.nodup_reverse.2 List.nodup_range)
    obtain ⟨U, hU⟩ : ∃ U, B ++ [1] = (k + 1) :: U := by
      cases B with
      | nil => have := hl.head; simp at this; exact ⟨[], by simp [this]⟩
      | cons b B => have := hl.head; simp at this; exact ⟨B ++ [1], by simp [this]⟩
    obtain ⟨s1, hs1, inv1⟩ : ∃ s1, step val (initSt srt.length) = Step.next s1 ∧ Inv val s1 [] 0 (k + 1) U := by
      rw [hinit]
      refine ⟨{ next := Function.update (Function.update nx0 1 (nx0 0)) 0 (some (k + 1)), h := 0, i := 0, j := some (k + 1) }, ?_, ?_⟩
      · have e1 : k + 1 - (k + 1 - 1) = 1 := by omega
        have e2 : nx0 0 = none := rfl
        have e3 : nx0 1 = some 0 := rfl
        simp only [step, pickS, e1, e2, e3]
        simp [hlt]
      · refine ⟨rfl, rfl, ?_, ?_, by simp [Dec], hlt⟩
        · have := hl.shift hnd
          have h2 : (0 :: (B ++ [1])) = [] ++ 0 :: (k + 1) :: U := by rw [hU]; simp
          rw [h2] at this
          exact this
        · have := nodup_shift hnd
          rw [hU] at this
          exact this
    obtain ⟨V, hV1, hV2, hV3⟩ := seg m.length m le_rfl (by rw [hm2]; simp) hm
    have hpath := hV3 [] (by intro b hb; simp at hb)
    simp only [List.append_nil, List.map_id'] at hpath
    obtain ⟨hp1, hp2, hp3⟩ := hpath
    have hrot : rotR m = val 0 :: (B ++ [1]).map val := by rw [hm2, rotR_concat]
    have hrotne : rotR m ≠ m := by
      intro h
      have h1 : val 0 = val (k + 1) := by
        have h2 : m = val (k + 1) :: (U.map val ++ [val 0]) := by rw [hm2, hU]; simp
        rw [hrot, h2] at h
        exact (List.cons.inj h).1
      exact absurd hlt (by rw [h1]; exact lt_irrefl _)
    obtain ⟨V', hV'⟩ : ∃ V', V = V' ++ [m] := by
      obtain ⟨L, b, hb⟩ := List.eq_nil_or_concat V |>.resolve_left (by rintro rfl; simp at hp1)
      rw [List.concat_eq_append] at hb
      rw [hb] at hp2; simp at hp2
      exact ⟨L, by rw [hb, hp2]⟩
    obtain ⟨L, hL⟩ : ∃ L, V' = rotR m :: L := by
      cases V' with
      | nil =>
        rw [hV'] at hp1; simp at hp1
        exact absurd hp1.symm hrotne
      | cons a L => rw [hV'] at hp1; simp at hp1; exact ⟨L, by rw [hp1]⟩
    subst hL
    rw [hV'] at hV1 hV2 hp3
    have hnm : m ∉ rotR m :: L := by
      intro h
      rw [List.nodup_append] at hV1
      exact hV1.2.2 m h m (by simp) rfl
    refine ⟨L.length + 2, rotR m :: L, ?_, ?_, ?_⟩
    · rw [List.nodup_append] at hV1
      exact List.nodup_cons.2 ⟨hnm, hV1.1⟩
    · intro y
      rw [← hperm, ← hV2]
      simp; tauto
    · intro fuel hf
      obtain ⟨fuel, rfl⟩ : ∃ f, fuel = f + 1 := ⟨fuel - 1, by omega⟩
      have hval1 : ([] ++ 0 :: (k + 1) :: U).map val = rotR m := by
        rw [hrot, hU]; simp
      have := loop_path hm L (rotR m) s1 [] 0 (k + 1) U fuel hp3 hnm (by
        intro w hw
        exact (hV2 w).1 (by simp at hw ⊢; tauto)) inv1 hval1 (by omega)
      have hvis : visit val s1.next (srt.length + 1) (some s1.h) = rotR m := by
        rw [inv1.hl.visit val, hval1]
        have h1 := congrArg List.length hU
        have h2 := congrArg List.length hB
        simp at h1 h2 ⊢
        omega
      rw [hlen] at this
      simp [loop, hs1, this, hvis]
  · -- all values equal
    have hall : ∀ x ∈ m, x = val n := by
      intro x hx
      have h1 : x ≤ val n := by
        rw [hhd] at hx hm
        rcases List.mem_cons.1 hx with h | h
        · rw [h]
        · exact (List.pairwise_cons.1 hm).1 x h
      have h2 : val 0 ≤ x := by
        have : m = ((List.range n).map (· + 1)).reverse.map val ++ [val 0] := by
          rw [← hvals, hn, List.range_succ_eq_map]; simp
        rw [this] at hx hm
        rcases List.mem_append.1 hx with h | h
        · exact (dec_append.1 hm).2.2 x h (val 0) (by simp)
        · simp at h; rw [h]
      exact le_antisymm h1 (le_trans (not_lt.1 hlt) h2)
    refine ⟨1, [], by simp, ?_, ?_⟩
    · intro y
      rw [← hperm]
      simp only [List.mem_singleton]
      constructor
      · rintro rfl; exact List.Perm.refl _
      · intro hp
        have h1 : m = List.replicate m.length (val n) := List.eq_replicate_iff.2 ⟨rfl, hall⟩
        have h2 : y = List.replicate m.length (val n) :=
          List.eq_replicate_iff.2 ⟨hp.length_eq, fun b hb => hall b (hp.mem_iff.1 hb)⟩
        rw [h2, ← h1]
    · intro fuel hf
      obtain ⟨fuel, rfl⟩ : ∃ f, fuel = f + 1 := ⟨fuel - 1, by omega⟩
      have : step val (initSt srt.length) = Step.stop := by
        rw [hinit]
        have e2 : nx0 0 = none := rfl
        simp [step, e2, hlt]
      simp [loop, this]

theorem visit_init (d : α) (srt : List α) (h0 : srt ≠ []) :
    visit (valOf d srt) (initSt srt.length).next (srt.length + 1) (some (initSt srt.length).h) = srt.reverse := by
  obtain ⟨n, hn⟩ : ∃ n, srt.length = n + 1 := ⟨srt.length - 1, by
    have := List.length_pos_iff.2 h0; omega⟩
  have h1 : (initSt srt.length).h = n := by simp [initSt, hn]
  have h2 : (initSt srt.length).next = nx0 := rfl
  rw [h1, h2, (isList_init n).visit (valOf d srt) (by simp; omega), ← hn, map_valOf]

/-- The specification of a filtered generator: stops at the first constraint that raises. -/
def filterGen (cs : List (Constr α)) : List (List α) → GenOut α
  | [] => ([], none)
  | p :: ps => match allValid cs p with
    | .error e => ([], some e)
    | .ok true => (p :: (filterGen cs ps).1, (filterGen cs ps).2)
    | .ok false => filterGen cs ps

theorem loopC_eq (cs : List (Constr α)) (val : Nat → α) (n : Nat) : ∀ (fuel : Nat) (s : St) (L : List (List α)),
    loop val n fuel s = some L → loopC cs val n fuel s = some (filterGen cs L)
  | 0, _, _, h => by simp [loop] at h
  | fuel + 1, s, L, h => by
    unfold loop at h
    unfold loopC
    cases hs : step val s with
    | stop => rw [hs] at h; simp at h; subst h; rfl
    | crash => rw [hs] at h; simp at h
    | next s' =>
      rw [hs] at h
      simp only [Option.map_eq_some_iff] at h
      obtain ⟨ys, hys, rfl⟩ := h
      have := loopC_eq cs val n fuel s' ys hys
      simp only [this, emit, filterGen]
      cases allValid cs (visit val s'.next (n + 1) (some s'.h)) with
      | error e => rfl
      | ok b => cases b <;> rfl

end Verif.Multiperm
