import Verif.Lpf.Lemmas
import Mathlib.Data.Nat.Prime.Basic
import Mathlib.Data.Nat.Factors
import Mathlib.Algebra.BigOperators.Group.Finset.Basic

/-!
Properties C06, C07 and C55 (loop prime factors with static sizes).
-/

namespace Verif.Lpf

variable {D : Type} [DecidableEq D]

/-- The factorisation contract is satisfiable: Mathlib's prime factor list grouped by multiplicity meets it. -/
theorem factContract_primeFactorsList :
    FactContract (fun n => n.primeFactorsList.dedup.map (fun p => (p, n.primeFactorsList.count p))) := by
  intro n hn
  refine ⟨?_, ?_, ?_⟩
  · simpa [Function.comp_def] using List.nodup_dedup _
  · intro x hx
    obtain ⟨p, hp, rfl⟩ := List.mem_map.1 hx
    rw [List.mem_dedup] at hp
    exact ⟨Nat.prime_of_mem_primeFactorsList hp, List.count_pos_iff.2 hp⟩
  · simp only [List.map_map, Function.comp_def]
    have h1 := Finset.prod_list_count n.primeFactorsList
    rw [Nat.prod_primeFactorsList (by omega)] at h1
    conv_rhs => rw [h1]
    rw [← List.prod_toFinset _ (List.nodup_dedup _)]
    congr 1; ext x; simp

section
variable {fact : Nat → List (Nat × Nat)}

theorem weight_cast (l : List (Nat × Nat)) :
    weight (l.map (fun x => (x.1, (x.2 : Int)))) = (l.map (fun x => x.1 ^ x.2)).prod := by
  induction l with
  | nil => rfl
  | cons x t ih => simp [ih]

theorem csum_cast (l : List (Nat × Nat)) :
    csum (l.map (fun x => (x.1, (x.2 : Int)))) = ((l.map Prod.snd).sum : Nat) := by
  induction l with
  | nil => rfl
  | cons x t ih => simp [ih]

theorem fact_ne_nil (hf : FactContract fact) {n : Nat} (hn : 1 < n) : fact n ≠ [] := by
  intro h
  have := (hf n (by omega)).2.2
  rw [h] at this; simp at this; omega

theorem sum_pos {l : List (Nat × Nat)} (h : l ≠ []) (hp : ∀ x ∈ l, 1 ≤ x.2) : 1 ≤ (l.map Prod.snd).sum := by
  cases l with
  | nil => exact absurd rfl h
  | cons x t => have := hp x (by simp); simp; omega

theorem primeTable_good (hf : FactContract fact) {layerDims : List D} {sizes : Dict D Nat} (hw : sizes.WF)
    (hs : ∀ p ∈ sizes, 1 < p.2) (hne : sizes ≠ []) :
    ∃ st, primeTable fact layerDims sizes = .ok st ∧ st.WF ∧ (∀ p ∈ st, Good p.2) ∧ st.keys = sizes.keys ∧
      (∀ d n, sizes.get? d = some n → iterations (lpfsOf st) d = n) ∧
      (∀ x ∈ lpfsOf st, x.2.Prime) := by
  set st : Dict D Ent := sizes.map (fun p =>
    (p.1, { fac := (fact p.2).map (fun x => (x.1, (x.2 : Int))), sum := (((fact p.2).map Prod.snd).sum : Nat) }))
    with hst
  have hkeys : st.keys = sizes.keys := by simp [hst, Dict.keys, Function.comp_def]
  have hwf : st.WF := by unfold Dict.WF at *; rw [hkeys]; exact hw
  have hgood : ∀ p ∈ st, Good p.2 := by
    intro p hp
    rw [hst] at hp
    obtain ⟨q, hq, rfl⟩ := List.mem_map.1 hp
    have hq1 := hs q hq
    obtain ⟨h1, h2, h3⟩ := hf q.2 (by omega)
    refine ⟨?_, ?_, ?_, ?_⟩
    · intro x hx
      obtain ⟨y, hy, rfl⟩ := List.mem_map.1 hx
      have := (h2 y hy).2
      simp; omega
    · simpa [Function.comp_def] using h1
    · simp only [csum_cast]
    · have := sum_pos (fact_ne_nil hf hq1) (fun x hx => (h2 x hx).2)
      simp only; omega
  have hlp : lpfsOf st ≠ [] := by
    intro h
    have h1 := length_lpfsOf hgood
    rw [h] at h1
    have : ∀ t : Dict D Ent, (∀ p ∈ t, Good p.2) → t ≠ [] → 1 ≤ nPf t := by
      intro t
      induction t with
      | nil => intro _ h; exact absurd rfl h
      | cons a t ih =>
        intro hg _
        rw [nPf_cons]
        have h1 := (hg a (by simp)).one_lt
        by_cases ht : t = []
        · subst ht; simpa [nPf] using h1
        · have := ih (fun x hx => hg x (List.mem_cons_of_mem _ hx)) ht; omega
    have := this st hgood (by simp [hst, hne])
    simp at h1; omega
  refine ⟨st, ?_, hwf, hgood, hkeys, ?_, ?_⟩
  · simp only [primeTable, ← hst, hlp, if_false]
  · intro d n hd
    rw [iterations_lpfsOf hwf]
    have hm : (d, n) ∈ sizes := Dict.mem_of_get? hd
    have : (d, ({ fac := (fact n).map (fun x => (x.1, (x.2 : Int))), sum := (((fact n).map Prod.snd).sum : Nat) } : Ent))
        ∈ st := by rw [hst]; exact List.mem_map.2 ⟨_, hm, rfl⟩
    rw [Dict.get?_of_mem hwf this]
    simp only [weight_cast]
    exact (hf n (by have := hs _ hm; simp at this; omega)).2.2
  · intro x hx
    simp only [lpfsOf, List.mem_flatMap] at hx
    obtain ⟨p, hp, fc, hfc, hx⟩ := hx
    rw [hst] at hp
    obtain ⟨q, hq, rfl⟩ := List.mem_map.1 hp
    obtain ⟨y, hy, rfl⟩ := List.mem_map.1 hfc
    have := List.eq_of_mem_replicate hx
    rw [this]
    exact ((hf q.2 (by have := hs q hq; omega)).2.1 y hy).1

end

/-- C06.  For any temporal loop table (sizes larger than one, as returned by `get_temporal_loops`), the loop prime
factors multiply per dimension to the temporal loop size and are all prime (no limit, no constraints). -/
theorem prime_factors_preserve (fact : Nat → List (Nat × Nat)) (hf : FactContract fact) (layerDims : List D)
    (sizes : Dict D Nat) (hw : sizes.WF) (hs : ∀ p ∈ sizes, 1 < p.2) (hne : sizes ≠ []) :
    ∃ st, getPrimeFactors fact layerDims sizes none none = .ok st ∧
      (∀ d n, sizes.get? d = some n → iterations (lpfsOf st) d = n) ∧
      (∀ d, sizes.get? d = none → iterations (lpfsOf st) d = 1) ∧
      (∀ x ∈ lpfsOf st, x.2.Prime) := by
  obtain ⟨st, h1, h2, h3, h4, h5, h6⟩ := primeTable_good hf (layerDims := layerDims) hw hs hne
  refine ⟨st, by simp [getPrimeFactors, h1, limitLpfs, updateMinLimit], h5, ?_, h6⟩
  intro d hd
  rw [iterations_lpfsOf h2]
  have : st.get? d = none := by
    rw [Dict.get?_eq_none_iff, h4, ← Dict.get?_eq_none_iff]; exact hd
  simp [this]

/-- C06, fully spatial layers: with no temporal loop left, exactly one loop of size one on the first layer dimension is
scheduled (any limit of at least one, or no limit). -/
theorem prime_factors_empty (fact : Nat → List (Nat × Nat)) (d : D) (ds : List D) (limit : Option Nat)
    (hl : ∀ l, limit = some l → 1 ≤ l) :
    ∃ st, getPrimeFactors fact (d :: ds) [] none limit = .ok st ∧ lpfsOf st = [(d, 1)] := by
  refine ⟨[(d, { fac := [(1, 1)], sum := 1 })], ?_, by simp [lpfsOf, rep]⟩
  cases limit with
  | none => simp [getPrimeFactors, primeTable, lpfsOf, limitLpfs, updateMinLimit]
  | some l =>
    have := hl l rfl
    have h : nPf ([(d, { fac := [(1, 1)], sum := 1 })] : Dict D Ent) ≤ l := by simp [nPf]; omega
    simp [getPrimeFactors, primeTable, lpfsOf, limitLpfs, updateMinLimit, h]

/-- With a limit of zero the placeholder loop is merged away and no loop at all is left (the enumerator then raises
`IndexError`): the hypothesis `1 ≤ l` above is needed. -/
theorem prime_factors_empty_limit_zero (fact : Nat → List (Nat × Nat)) (d : D) (ds : List D) :
    ∃ st, getPrimeFactors fact (d :: ds) [] none (some 0) = .ok st ∧ lpfsOf st = [] := by
  refine ⟨[(d, { fac := [], sum := 0 })], ?_, by simp [lpfsOf]⟩
  simp [getPrimeFactors, primeTable, lpfsOf, limitLpfs, updateMinLimit, nPf, limitLoop, limitStep, maxDim, mergeFac,
    findSmallest, findLoop, bump, indexOf?, List.findIdx_cons, Dict.set]

/-- C07.  Limiting the number of loop factors (no static constraints) terminates without error, keeps the number of
iterations of every dimension, and ends with exactly `min (number of factors) (max limit (number of dimensions))`
loops; the limit is first raised to the number of temporal loop dimensions. -/
theorem limit_preserves (fact : Nat → List (Nat × Nat)) (hf : FactContract fact) (layerDims : List D)
    (sizes : Dict D Nat) (hw : sizes.WF) (hs : ∀ p ∈ sizes, 1 < p.2) (hne : sizes ≠ []) (limit : Nat) :
    ∃ st0 st, getPrimeFactors fact layerDims sizes none none = .ok st0 ∧
      getPrimeFactors fact layerDims sizes none (some limit) = .ok st ∧
      (∀ d n, sizes.get? d = some n → iterations (lpfsOf st) d = n) ∧
      (∀ d, sizes.get? d = none → iterations (lpfsOf st) d = 1) ∧
      (lpfsOf st).length = min (lpfsOf st0).length (max limit sizes.length) := by
  obtain ⟨st, h1, h2, h3, h4, h5, h6⟩ := primeTable_good hf (layerDims := layerDims) hw hs hne
  have hlen : st.length = sizes.length := by
    have := congrArg List.length h4; simpa [Dict.keys] using this
  obtain ⟨l, hl, hlm⟩ : ∃ l, updateMinLimit (some limit) sizes.length = some l ∧ l = max limit sizes.length := by
    unfold updateMinLimit
    by_cases h : limit < sizes.length
    · exact ⟨_, if_pos h, by omega⟩
    · exact ⟨_, if_neg h, by omega⟩
  have hL := length_lpfsOf h3
  have h0 : ∀ d, sizes.get? d = none → st.get? d = none := by
    intro d hd
    rw [Dict.get?_eq_none_iff, h4, ← Dict.get?_eq_none_iff]; exact hd
  have hone : ∀ d, sizes.get? d = none → iterations (lpfsOf st) d = 1 := by
    intro d hd
    rw [iterations_lpfsOf h2]; simp [h0 d hd]
  have hst0 : getPrimeFactors fact layerDims sizes none none = .ok st := by
    simp [getPrimeFactors, h1, limitLpfs, updateMinLimit]
  by_cases hle : nPf st ≤ l
  · refine ⟨st, st, hst0, ?_, h5, hone, ?_⟩
    · simp [getPrimeFactors, h1, limitLpfs, hl, hle]
    · omega
  · obtain ⟨s2, g1, g2, g3, g4, g5, g6⟩ := limitLoop_ok (nPf st - l).toNat h2 h3 (by omega)
    refine ⟨st, s2, hst0, ?_, ?_, ?_, ?_⟩
    · simp only [getPrimeFactors, h1, limitLpfs, hl, hle, if_false, Option.getD_none, g1]
    · intro d n hd; rw [g6]; exact h5 d n hd
    · intro d hd; rw [g6]; exact hone d hd
    · have := length_lpfsOf g3
      omega

/-- Trial-division factorisation used only for the concrete instances below. -/
def factSample : Nat → List (Nat × Nat)
  | 2 => [(2, 1)]
  | 3 => [(3, 1)]
  | 4 => [(2, 2)]
  | 6 => [(2, 1), (3, 1)]
  | 12 => [(2, 2), (3, 1)]
  | 16 => [(2, 4)]
  | 30 => [(2, 1), (3, 1), (5, 1)]
  | _ => []

/-- Non-vacuity: K = 16, C = 12, OX = 3 limited to five loops; the ordering of merging is K,K,C. -/
example : (getPrimeFactors factSample ["K"] [("K", 16), ("C", 12), ("OX", 3)] none (some 5)).map lpfsOf
    = .ok [("K", 4), ("K", 4), ("C", 3), ("C", 4), ("OX", 3)] := by decide +kernel

/-! ### static sizes (user temporal ordering) -/

/-- C55, negative part (i): with a user-fixed loop of size 6 on K (K = 6), the loops scheduled for K iterate 18 times:
`reduce_static_fps` (engine.py:242-260) adds the static size once per distinct prime factor. -/
theorem static_composite_false :
    (getPrimeFactors factSample ["K"] [("K", 6), ("C", 2)] (some [("K", 6)]) none).map
      (fun st => (iterations (lpfsOf st) "K", lpfsOf st)) = .ok (18, [("K", 3), ("K", 6), ("C", 2)]) := by
  decide +kernel

/-- C55, negative part (ii): two user-fixed loops of size 4 on K (K = 16) leave only 8 iterations. -/
theorem static_repeated_false :
    (getPrimeFactors factSample ["K"] [("K", 16)] (some [("K", 4), ("K", 4)]) none).map
      (fun st => (iterations (lpfsOf st) "K", lpfsOf st)) = .ok (8, [("K", 2), ("K", 4)]) := by
  decide +kernel

/-- C55, negative part (iii): a user-fixed loop of size 2 on K = 6 together with a limit of one loop schedules 18
iterations, although without the limit the result is correct. -/
theorem static_limit_false :
    (getPrimeFactors factSample ["K"] [("K", 6)] (some [("K", 2)]) none).map (fun st => iterations (lpfsOf st) "K")
      = .ok 6 ∧
    (getPrimeFactors factSample ["K"] [("K", 6)] (some [("K", 2)]) (some 1)).map (fun st => iterations (lpfsOf st) "K")
      = .ok 18 := by
  decide +kernel

section
variable {fact : Nat → List (Nat × Nat)}

theorem mul_bump_cancel {fac : List (Nat × Int)} {i : Nat} : bump (bump fac i (-1)) i 1 = fac := by
  induction fac generalizing i with
  | nil => simp [bump]
  | cons x t ih =>
    cases i with
    | zero => simp [bump_zero]
    | succ i => rw [bump_succ, bump_succ, ih]

/-- One static prime power `p ^ m` that is prime or not yet present keeps the number of iterations. -/
theorem reduceOne_weight {e e' : Ent} {p m : Nat}
    (hnew : m = 1 ∨ p ^ m ∉ e.fac.map Prod.fst) (h : reduceOne (p ^ m) e (p, m) = .ok e') :
    weight e'.fac = weight e.fac ∧ ∀ x ∈ e'.fac, x.1 ∈ e.fac.map Prod.fst ∨ x.1 = p ^ m := by
  unfold reduceOne at h
  split at h
  · cases h
  · rename_i idx hidx
    obtain ⟨c, hc⟩ := indexOf?_some hidx
    simp only [hc] at h
    by_cases hle : (m : Int) ≤ c
    · rw [if_pos hle] at h
      cases h
      by_cases h1 : m = 1
      · subst h1
        have hmem : p ∈ (bump e.fac idx (-1)).map Prod.fst := by
          rw [bump_fst]; exact List.mem_map.2 ⟨_, List.mem_of_getElem? hc, rfl⟩
        simp only [pow_one, Nat.cast_one, hmem, if_true, mul_bump_cancel]
        exact ⟨trivial, fun x hx => Or.inl (List.mem_map_of_mem hx)⟩
      · have hn : p ^ m ∉ (bump e.fac idx (-(m : Int))).map Prod.fst := by
          rw [bump_fst]; rcases hnew with h | h
          · exact absurd h h1
          · exact h
        simp only [hn, if_false]
        refine ⟨?_, ?_⟩
        · rw [weight_append, ← weight_bump_sub m hc hle]; simp; ring
        · intro x hx
          rcases List.mem_append.1 hx with hx | hx
          · left; rw [← bump_fst e.fac idx (-(m : Int))]; exact List.mem_map_of_mem hx
          · right; simp at hx; rw [hx]
    · rw [if_neg hle] at h
      cases h
      exact ⟨rfl, fun x hx => Or.inl (List.mem_map_of_mem hx)⟩

/-- C55 (partial).  If every user-fixed loop size is a prime power and no composite size is given twice for the same
dimension, the loops handed to the enumerator keep the number of iterations of every dimension.  Missing from the full
statement: composite sizes with two distinct primes and repeated composite sizes (false, see above), and limiting. -/
theorem static_preserves_partial (hf : FactContract fact) (layerDims : List D) (sizes : Dict D Nat) (hw : sizes.WF)
    (hs : ∀ p ∈ sizes, 1 < p.2) (hne : sizes ≠ []) (statics : List (D × Nat))
    (hpp : ∀ s ∈ statics, ∃ p m, p.Prime ∧ 1 ≤ m ∧ s.2 = p ^ m ∧ fact s.2 = [(p, m)])
    (hnd : (statics.filter (fun s => ¬ s.2.Prime)).Nodup)
    (st : Dict D Ent) (h : getPrimeFactors fact layerDims sizes (some statics) none = .ok st) :
    ∀ d n, sizes.get? d = some n → iterations (lpfsOf st) d = n := by
  obtain ⟨st0, h1, h2, h3, h4, h5, h6⟩ := primeTable_good hf (layerDims := layerDims) hw hs hne
  simp only [getPrimeFactors, h1, limitLpfs, updateMinLimit] at h
  have hprime0 : ∀ d e, st0.get? d = some e → ∀ x ∈ e.fac, x.1.Prime := by
    intro d e hde x hx
    have hm := Dict.mem_of_get? hde
    have hxp := (h3 _ hm).pos x hx
    refine h6 (d, x.1) ?_
    simp only [lpfsOf, List.mem_flatMap]
    refine ⟨_, hm, x, hx, ?_⟩
    simp only [rep, List.mem_replicate]
    exact ⟨by omega, trivial⟩
  have key : ∀ (l : List (D × Nat)) (s s' : Dict D Ent) (done : List (D × Nat)), s.WF →
      (∀ x ∈ l, ∃ p m, p.Prime ∧ 1 ≤ m ∧ x.2 = p ^ m ∧ fact x.2 = [(p, m)]) →
      (l.filter (fun x => ¬ x.2.Prime)).Nodup →
      (∀ x ∈ l, ¬ x.2.Prime → x ∉ done) →
      (∀ d e, s.get? d = some e → ∀ x ∈ e.fac, x.1.Prime ∨ (d, x.1) ∈ done) →
      reduceStatic fact s l = .ok s' → s'.WF ∧ ∀ d, iterations (lpfsOf s') d = iterations (lpfsOf s) d := by
    intro l
    induction l with
    | nil => intro s s' done hw _ _ _ _ h; simp [reduceStatic] at h; subst h; exact ⟨hw, fun _ => rfl⟩
    | cons a l ih =>
      intro s s' done hw hpp hnd hdone hinv h
      obtain ⟨d, size⟩ := a
      obtain ⟨p, m, hp, hm, hsz, hfa⟩ := hpp (d, size) (by simp)
      simp only at hsz hfa
      simp only [reduceStatic, hfa] at h
      split at h
      · cases h
      · rename_i e he
        split at h
        · cases h
        · rename_i e' he'
          have hone : reduceOne size e (p, m) = .ok e' := by
            simp only [reduceFactors] at he'
            split at he'
            · cases he'
            · rename_i e2 he2; rw [he2]; exact he'
          have hnew : m = 1 ∨ size ∉ e.fac.map Prod.fst := by
            by_cases h1 : m = 1
            · left; exact h1
            · right
              have hnp : ¬ size.Prime := by
                rw [hsz]; intro hpr
                exact Nat.Prime.not_prime_pow' h1 hpr
              intro hmem
              obtain ⟨x, hx, hxe⟩ := List.mem_map.1 hmem
              rcases hinv d e he x hx with h | h
              · rw [hxe] at h; exact hnp h
              · rw [hxe] at h; exact hdone (d, size) (by simp) hnp h
          rw [hsz] at hone hnew
          obtain ⟨hwt, hfst⟩ := reduceOne_weight hnew hone
          obtain ⟨w2, it2⟩ := ih (s.set d e') s' ((d, size) :: done) (hw.set _ _)
            (fun x hx => hpp x (List.mem_cons_of_mem _ hx))
            (hnd.sublist (List.Sublist.filter _ (List.sublist_cons_self _ _)))
            (by
              intro x hx hxp hmem
              rcases List.mem_cons.1 hmem with h | h
              · subst h
                rw [List.filter_cons_of_pos (by simpa using hxp)] at hnd
                exact (List.nodup_cons.1 hnd).1 (List.mem_filter.2 ⟨hx, by simpa using hxp⟩)
              · exact hdone x (List.mem_cons_of_mem _ hx) hxp h)
            (by
              intro d' e2 hde x hx
              rw [Dict.get?_set] at hde
              split_ifs at hde with hk
              · cases hde
                subst hk
                rcases hfst x hx with h | h
                · obtain ⟨y, hy, hye⟩ := List.mem_map.1 h
                  rcases hinv d e he y hy with h | h
                  · left; rw [← hye]; exact h
                  · right; rw [← hye]; exact List.mem_cons_of_mem _ h
                · right; rw [h, ← hsz]; simp
              · rcases hinv d' e2 hde x hx with h | h
                · left; exact h
                · right; exact List.mem_cons_of_mem _ h)
            h
          refine ⟨w2, fun d' => ?_⟩
          rw [it2 d', iterations_lpfsOf (hw.set _ _), iterations_lpfsOf hw, Dict.get?_set]
          split_ifs with hk
          · subst hk; simp [he, hwt]
          · rfl
  have hred : reduceStatic fact st0 statics = .ok st := by
    split at h
    · cases h
    · rename_i s1 hs1; rw [hs1]; exact h
  obtain ⟨_, hit⟩ := key statics st0 st [] h2 hpp hnd (by simp) (fun d e he x hx => Or.inl (hprime0 d e he x hx)) hred
  intro d n hd
  rw [hit d]; exact h5 d n hd

end

/-- Non-vacuity of the partial theorem: K = 16 with fixed loops 4 and 2. -/
example : (getPrimeFactors factSample ["K"] [("K", 16), ("C", 6)] (some [("K", 4), ("K", 2)]) none).map lpfsOf
    = .ok [("K", 2), ("K", 2), ("K", 4), ("C", 2), ("C", 3)] := by decide +kernel

end Verif.Lpf
