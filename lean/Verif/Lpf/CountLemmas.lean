import Verif.Lpf.Lemmas
import Mathlib.Algebra.BigOperators.Group.Finset.Basic
import Mathlib.Algebra.BigOperators.Ring.Finset
import Mathlib.Data.Multiset.Basic
import Mathlib.Data.List.Permutation

/-! Helper lemmas for counting arrangements. -/

namespace Verif.Lpf

open Finset

variable {β : Type} [DecidableEq β]

theorem prod_fact_erase (s : Finset β) (ms : List β) (a : β) (ha : a ∈ ms) (has : a ∈ s) :
    ∏ b ∈ s, (ms.count b).factorial = (∏ b ∈ s, ((ms.erase a).count b).factorial) * ms.count a := by
  rw [← Finset.mul_prod_erase s _ has, ← Finset.mul_prod_erase s (fun b => ((ms.erase a).count b).factorial) has]
  have h1 : ∏ b ∈ s.erase a, (ms.count b).factorial = ∏ b ∈ s.erase a, ((ms.erase a).count b).factorial := by
    refine Finset.prod_congr rfl ?_
    intro b hb
    rw [List.count_erase_of_ne (Finset.ne_of_mem_erase hb)]
  have hpos : 0 < ms.count a := List.count_pos_iff.2 ha
  rw [h1, List.count_erase_self]
  obtain ⟨k, hk⟩ : ∃ k, ms.count a = k + 1 := ⟨ms.count a - 1, by omega⟩
  rw [hk, Nat.factorial_succ, Nat.add_sub_cancel]
  ring

/-- Number of distinct arrangements. -/
def arrCount (ms : List β) : Nat := ms.permutations.toFinset.card

theorem arrCount_rec (ms : List β) (h : ms ≠ []) : arrCount ms = ∑ a ∈ ms.toFinset, arrCount (ms.erase a) := by
  unfold arrCount
  have hEq : ms.permutations.toFinset =
      ms.toFinset.biUnion (fun a => ((ms.erase a).permutations.toFinset).image (fun y => a :: y)) := by
    ext y
    simp only [List.mem_toFinset, List.mem_permutations, Finset.mem_biUnion, Finset.mem_image]
    constructor
    · intro hy
      cases y with
      | nil => exact absurd hy.symm.eq_nil h
      | cons a y =>
        have ha : a ∈ ms := hy.mem_iff.1 (by simp)
        exact ⟨a, ha, y, (List.cons_perm_iff_perm_erase.1 hy).2, rfl⟩
    · rintro ⟨a, ha, z, hz, rfl⟩
      exact List.cons_perm_iff_perm_erase.2 ⟨ha, hz⟩
  rw [hEq, Finset.card_biUnion]
  · refine Finset.sum_congr rfl ?_
    intro a _
    rw [Finset.card_image_of_injective]
    intro x y hxy
    exact (List.cons.inj hxy).2
  · intro a _ b _ hab
    simp only [Function.onFun]
    rw [Finset.disjoint_left]
    intro y hy hy'
    obtain ⟨u, _, rfl⟩ := Finset.mem_image.1 hy
    obtain ⟨v, _, hv⟩ := Finset.mem_image.1 hy'
    exact hab (List.cons.inj hv).1.symm

theorem arrCount_mul (s : Finset β) : ∀ (n : Nat) (ms : List β), ms.length = n → (∀ a ∈ ms, a ∈ s) →
    arrCount ms * ∏ b ∈ s, (ms.count b).factorial = n.factorial := by
  intro n
  induction n with
  | zero =>
    intro ms h _
    rw [List.length_eq_zero_iff.1 h]
    simp [arrCount]
  | succ n ih =>
    intro ms h hs
    have hne : ms ≠ [] := by rintro rfl; simp at h
    rw [arrCount_rec ms hne, Finset.sum_mul]
    have : ∀ a ∈ ms.toFinset, arrCount (ms.erase a) * ∏ b ∈ s, (ms.count b).factorial = n.factorial * ms.count a := by
      intro a ha
      rw [List.mem_toFinset] at ha
      rw [prod_fact_erase s ms a ha (hs a ha), ← mul_assoc]
      rw [ih (ms.erase a) (by rw [List.length_erase_of_mem ha]; omega) (fun b hb => hs b (List.mem_of_mem_erase hb))]
    rw [Finset.sum_congr rfl this, ← Finset.mul_sum]
    have hc : ∑ a ∈ ms.toFinset, ms.count a = ms.length := List.sum_toFinset_count_eq_length ms
    rw [hc, h, Nat.factorial_succ]
    ring

theorem arrCount_eq_of_enum (ms : List β) (L : List (List β)) (hn : L.Nodup) (hm : ∀ y, y ∈ L ↔ y.Perm ms) :
    L.length = arrCount ms := by
  unfold arrCount
  rw [← List.toFinset_card_of_nodup hn]
  congr 1
  ext y
  simp [hm]

/-- Factorials of the multiplicities of a list given by distinct keys with multiplicities. -/
theorem prod_fact_keys : ∀ (kc : List (β × Int)), (kc.map Prod.fst).Nodup → 
    ∏ b ∈ (kc.map Prod.fst).toFinset, ((kc.flatMap (fun x => rep x.2 x.1)).count b).factorial =
      (kc.map (fun x => x.2.toNat.factorial)).prod
  | [], _ => by simp
  | (k, c) :: kc, h => by
    simp only [List.map_cons, List.nodup_cons] at h
    have ih := prod_fact_keys kc h.2
    have hk : k ∉ (kc.map Prod.fst).toFinset := by simpa using h.1
    simp only [List.map_cons, List.toFinset_cons, List.prod_cons, List.flatMap_cons, List.count_append]
    rw [Finset.prod_insert hk, ← ih]
    have hnot : ∀ b ∈ kc.flatMap (fun x => rep x.2 x.1), b ∈ kc.map Prod.fst := by
      intro b hb
      obtain ⟨x, hx, hb⟩ := List.mem_flatMap.1 hb
      have : b = x.1 := List.eq_of_mem_replicate hb
      rw [this]; exact List.mem_map_of_mem hx
    congr 1
    · have : (kc.flatMap (fun x => rep x.2 x.1)).count k = 0 :=
        List.count_eq_zero.2 (fun hb => h.1 (hnot k hb))
      rw [this]
      simp [rep]
    · refine Finset.prod_congr rfl ?_
      intro b hb
      have hbk : b ≠ k := by rintro rfl; exact hk hb
      have : (rep c k).count b = 0 := by
        unfold rep
        rw [List.count_replicate]
        simp [Ne.symm hbk]
      rw [this]; simp

theorem foldl_div (l : List Nat) (n : Nat) :
    l.foldl (fun n c => n / c.factorial) n = n / (l.map Nat.factorial).prod := by
  induction l generalizing n with
  | nil => simp
  | cons c l ih => simp only [List.foldl_cons, ih, List.map_cons, List.prod_cons, Nat.div_div_eq_div_mul]

variable {D : Type} [DecidableEq D]

/-- Keys and multiplicities of the loop factors. -/
def keyed (st : Dict D Ent) : List ((D × Nat) × Int) := st.flatMap (fun p => p.2.fac.map (fun fc => ((p.1, fc.1), fc.2)))

theorem keyed_lpfs (st : Dict D Ent) : lpfsOf st = (keyed st).flatMap (fun x => rep x.2 x.1) := by
  unfold lpfsOf keyed
  rw [List.flatMap_assoc]
  congr 1
  funext p
  rw [List.flatMap_map]

theorem keyed_nodup {st : Dict D Ent} (hw : st.WF) (hg : ∀ p ∈ st, (p.2.fac.map Prod.fst).Nodup) :
    ((keyed st).map Prod.fst).Nodup := by
  induction st with
  | nil => simp [keyed]
  | cons p t ih =>
    have hw' : p.1 ∉ t.map Prod.fst ∧ (t.map Prod.fst).Nodup := by simpa [Dict.WF, Dict.keys] using hw
    have hcons : keyed (p :: t) = p.2.fac.map (fun fc => ((p.1, fc.1), fc.2)) ++ keyed t := rfl
    rw [hcons, List.map_append, List.nodup_append]
    refine ⟨?_, ih (by simpa [Dict.WF, Dict.keys] using hw'.2) (fun x hx => hg x (by simp [hx])), ?_⟩
    · have := hg p (by simp)
      rw [List.map_map]
      have h2 : (p.2.fac.map (Prod.fst ∘ fun fc => ((p.1, fc.1), fc.2))) = (p.2.fac.map Prod.fst).map (fun f => (p.1, f)) := by
        rw [List.map_map]; rfl
      rw [h2]
      exact this.map (fun a b h => (Prod.mk.inj h).2)
    · intro a ha b hb hab
      subst hab
      obtain ⟨x, hx, rfl⟩ := List.mem_map.1 ha
      obtain ⟨fc, _, rfl⟩ := List.mem_map.1 hx
      obtain ⟨y, hy, hy2⟩ := List.mem_map.1 hb
      obtain ⟨q, hq, hq2⟩ := List.mem_flatMap.1 hy
      obtain ⟨fc', _, rfl⟩ := List.mem_map.1 hq2
      have : q.1 = p.1 := (Prod.mk.inj hy2).1
      exact hw'.1 (by rw [← this]; exact List.mem_map_of_mem hq)

theorem nb_eq {st : Dict D Ent} (hw : st.WF) (hg : ∀ p ∈ st, Good p.2) :
    nbPermutations st = arrCount (lpfsOf st) ∧
      (keyed st).map (fun x => x.2.toNat.factorial) = (st.flatMap (fun p => p.2.fac.map (fun x => x.2.toNat))).map Nat.factorial := by
  have hkc : (keyed st).map (fun x => x.2.toNat.factorial) =
      (st.flatMap (fun p => p.2.fac.map (fun x => x.2.toNat))).map Nat.factorial := by
    unfold keyed
    rw [List.map_flatMap, List.map_flatMap]
    congr 1
    funext p
    simp [List.map_map, Function.comp_def]
  refine ⟨?_, hkc⟩
  have hnd := keyed_nodup hw (fun p hp => (hg p hp).nodup)
  have hlen : (nPf st).toNat = (lpfsOf st).length := by
    have := length_lpfsOf hg; omega
  have hmul := arrCount_mul ((keyed st).map Prod.fst).toFinset (lpfsOf st).length (lpfsOf st) rfl (by
    intro a ha
    rw [keyed_lpfs] at ha
    obtain ⟨x, hx, hb⟩ := List.mem_flatMap.1 ha
    have : a = x.1 := List.eq_of_mem_replicate hb
    rw [List.mem_toFinset, this]; exact List.mem_map_of_mem hx)
  have hprod := prod_fact_keys (keyed st) hnd
  rw [← keyed_lpfs] at hprod
  rw [hprod] at hmul
  unfold nbPermutations
  rw [foldl_div, hlen, ← hkc, ← hmul]
  refine Nat.mul_div_cancel _ ?_
  apply Nat.pos_of_ne_zero
  intro h0
  rw [List.prod_eq_zero_iff] at h0
  obtain ⟨x, _, hx⟩ := List.mem_map.1 h0
  exact Nat.factorial_ne_zero _ hx

end Verif.Lpf
