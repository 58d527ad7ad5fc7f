import Verif.Lpf.CountLemmas
import Verif.Lpf.Props
import Verif.Multiperm.Props

/-!
Property C08: the announced number of loop orders is the number of orders the generator yields.
Loops are compared like Python tuples: lexicographically (`D ×ₗ Nat`).
-/

namespace Verif.Lpf

open Verif.Multiperm

variable {D : Type} [LinearOrder D]

/-- C08, arithmetic part: the successive divisions compute the multinomial coefficient and none of them leaves a
remainder: the result times all the factorials divided by is the factorial of the number of loops. -/
theorem nb_permutations_exact (fact : Nat → List (Nat × Nat)) (hf : FactContract fact) (layerDims : List D)
    (sizes : Dict D Nat) (hw : sizes.WF) (hs : ∀ p ∈ sizes, 1 < p.2) (hne : sizes ≠ []) (limit : Option Nat) :
    ∃ st, getPrimeFactors fact layerDims sizes none limit = .ok st ∧ (nPf st).toNat = (lpfsOf st).length ∧
      nbPermutations st * ((st.flatMap (fun p => p.2.fac.map (fun x => x.2.toNat))).map Nat.factorial).prod =
        (lpfsOf st).length.factorial ∧
      ∃ N L, (∀ fuel, N ≤ fuel → permutations (α := D ×ₗ Nat) fuel (lpfsOf st) = .ok (some L)) ∧
        L.length = nbPermutations st := by
  obtain ⟨st0, h1, h2, h3, h4, h5, h6⟩ := primeTable_good hf (layerDims := layerDims) hw hs hne
  have hl0 : st0.length = sizes.length := by
    have := congrArg List.length h4
    simpa [Dict.keys] using this
  -- the table after limiting is well formed
  obtain ⟨st, hst, hwf, hgood, hkeys⟩ : ∃ st, getPrimeFactors fact layerDims sizes none limit = .ok st ∧ st.WF ∧
      (∀ p ∈ st, Good p.2) ∧ st.keys = st0.keys := by
    cases limit with
    | none => exact ⟨st0, by simp [getPrimeFactors, h1, limitLpfs, updateMinLimit], h2, h3, rfl⟩
    | some l =>
      obtain ⟨l', hl', hge⟩ : ∃ l', updateMinLimit (some l) sizes.length = some l' ∧ sizes.length ≤ l' := by
        unfold updateMinLimit
        by_cases h : l < sizes.length
        · exact ⟨sizes.length, by simp [h], le_rfl⟩
        · exact ⟨l, by simp [h], by omega⟩
      by_cases hle : nPf st0 ≤ l'
      · exact ⟨st0, by simp [getPrimeFactors, h1, limitLpfs, hl', hle], h2, h3, rfl⟩
      · obtain ⟨st', e1, e2, e3, e4, _, _⟩ := limitLoop_ok (nPf st0 - l').toNat h2 h3 (by rw [hl0]; omega)
        exact ⟨st', by simp only [getPrimeFactors, h1, limitLpfs, hl', hle, if_false]; exact e1, e2, e3, e4⟩
  refine ⟨st, hst, by have := length_lpfsOf hgood; omega, ?_, ?_⟩
  · obtain ⟨hnb, hkc⟩ := nb_eq hwf hgood
    rw [hnb, ← hkc]
    have hprod := prod_fact_keys (keyed st) (keyed_nodup hwf (fun p hp => (hgood p hp).nodup))
    rw [← keyed_lpfs] at hprod
    rw [← hprod]
    refine arrCount_mul _ _ _ rfl ?_
    intro a ha
    rw [keyed_lpfs] at ha
    obtain ⟨x, hx, hb⟩ := List.mem_flatMap.1 ha
    have : a = x.1 := List.eq_of_mem_replicate hb
    rw [List.mem_toFinset, this]; exact List.mem_map_of_mem hx
  · have hnn : lpfsOf st ≠ [] := by
      intro h
      have h7 := length_lpfsOf hgood
      rw [h] at h7
      have hlen : st.length = sizes.length := by
        have := congrArg List.length hkeys
        have h8 : st.length = st0.length := by simpa [Dict.keys] using this
        omega
      cases st with
      | nil => simp at hlen; exact hne (List.length_eq_zero_iff.1 hlen.symm)
      | cons p t =>
        have hp := (hgood p (by simp)).one_lt
        have hsum : ∀ t : Dict D Ent, (∀ q ∈ t, Good q.2) → 0 ≤ nPf t := by
          intro t ht
          induction t with
          | nil => simp [nPf]
          | cons q t ih =>
            rw [nPf_cons]
            have := (ht q (by simp)).one_lt
            have := ih (fun q hq => ht q (by simp [hq]))
            omega
        have := hsum t (fun q hq => hgood q (by simp [hq]))
        rw [nPf_cons] at h7
        simp at h7; omega
    obtain ⟨N, L, hL1, hL2, hL3⟩ := permutations_complete (α := D ×ₗ Nat) (lpfsOf st) hnn
    have hsound := ((permutations_sound (α := D ×ₗ Nat) (lpfsOf st) N).2 L (hL3 N le_rfl)).1
    refine ⟨N, L, hL3, ?_⟩
    rw [(nb_eq hwf hgood).1]
    exact arrCount_eq_of_enum (β := D × Nat) (lpfsOf st) L hL1 (fun y => ⟨hsound y, hL2 y⟩)

/-- A workload with repeated factors: 4 factors of 2 on one dimension, one factor 3: 5 orders. -/
example : (getPrimeFactors (fun n => if n = 16 then [(2, 4)] else [(3, 1)]) [0, 1] [(0, 16), (1, 3)] none none).map
    (fun st => (nbPermutations st, (lpfsOf st).length)) = .ok (5, 5) := by decide +kernel

end Verif.Lpf
