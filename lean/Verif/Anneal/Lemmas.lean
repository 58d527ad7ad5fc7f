import Verif.Anneal.Model
import Verif.Salsa.Props
import Verif.TemporalLoops.Props
import Verif.Ordering.Follow
import Verif.Search.Errors

/-! The orders of the annealing engine and those of the exhaustive one. -/

namespace Verif.Anneal

open Evaluate (Hw Mem Job Result evaluate)
open Latency (Operand)

section
variable {D : Type} [DecidableEq D]

/-- The allocation of an order does not depend on what a state is evaluated with. -/
theorem map_guess {h : Hw} {topo : List Mem} {t : Search.Task D} {o : List (D × ℚ)} {j : Job D} (hj : Search.mapOrder h topo (guess t) o = .ok j) :
    Search.mapOrder h topo t o = .ok (keep t j) := by
  unfold Search.mapOrder at hj ⊢
  have ha : Search.allocate h topo (guess t) o = Search.allocate h topo t o := rfl
  rw [ha] at hj
  simp only [bind, Except.bind] at hj ⊢
  cases hal : Search.allocate h topo t o with
  | error e => rw [hal] at hj; cases hj
  | ok tm =>
    rw [hal] at hj
    simp only at hj ⊢
    unfold Search.finish at hj ⊢
    have hg : (guess t).ops = t.ops := rfl
    have hr : (guess t).rel = t.rel := rfl
    simp only [hg, hr] at hj ⊢
    split at hj
    · cases hj
    · rename_i out hout
      simp only [bind, Except.bind] at hj ⊢
      cases htc : TemporalMapping.totalCycle (out.map fun q => (q.1, q.2.1)) with
      | error e => rw [htc] at hj; cases hj
      | ok total =>
        rw [htc] at hj
        cases hj
        rfl

theorem assess_ok {h : Hw} {topo : List Mem} {t : Search.Task D} {o : List (D × Nat)} {x : Job D × Result} (hx : assess h topo t o = .ok x) :
    Search.mapOrder h topo (guess t) (o.map fun l => (l.1, (l.2 : ℚ))) = .ok x.1 ∧ evaluate h x.1 = .ok x.2 := by
  unfold assess at hx
  simp only [bind, Except.bind] at hx
  cases hm : Search.mapOrder h topo (guess t) (o.map fun l => (l.1, (l.2 : ℚ))) with
  | error e => rw [hm] at hx; cases hx
  | ok j =>
    rw [hm] at hx
    simp only at hx
    cases he : evaluate h j with
    | error e => rw [he] at hx; cases hx
    | ok r =>
      rw [he] at hx
      cases hx
      exact ⟨rfl, he⟩

/-- What the stage passes on is the mapping of an order of the prime factors of all temporal loops. -/
theorem search_spec {fact : Nat → List (Nat × Nat)} {ex : ℚ → ℚ} {h : Hw} {topo : List Mem} {t : Search.Task D} {sizes : Dict D Int} {spatial : List (D × ℚ)} {k : Luck D}
    (hk : ∀ l, (k.shuffle l).Perm l) {js : List (Job D)} {err : Option PyErr} (hs : search fact ex h topo t sizes spatial k = (js, err)) :
    (js = [] ∧ ∃ e, err = some e) ∨ ∃ (loops : Dict D Int) (o : List (D × Nat)) (j : Job D), js = [j] ∧ err = none ∧ TemporalLoops.lomaTemporalLoops sizes spatial = .ok loops ∧
      o.Perm (Salsa.primeFactors fact loops) ∧ Search.mapOrder h topo t (o.map fun l => (l.1, (l.2 : ℚ))) = .ok j := by
  unfold search at hs
  split at hs
  · cases hs
    exact Or.inl ⟨rfl, _, rfl⟩
  · rename_i r hr
    cases hs
    right
    unfold Salsa.run at hr
    cases hl : TemporalLoops.salsaTemporalLoops sizes spatial with
    | error e => rw [hl] at hr; cases hr
    | ok loops =>
      rw [hl] at hr
      simp only at hr
      obtain ⟨hb, -⟩ := Salsa.salsa_best_accepted (hk _) hr
      obtain ⟨h1, h2, -⟩ := Salsa.salsa_orders (hk _) hr _ hb
      exact ⟨loops, r.best.ordering, _, rfl, rfl, TemporalLoops.salsa_eq_loma _ _ _ hl, h1, map_guess (assess_ok h2).1⟩

end

section
variable {D : Type} [LinearOrder D]

/-- The loops as an ordering of the user. -/
def asData (o : List (D × Nat)) : List (Ordering.Entry D) := o.map fun l => (l.1, some l.2)

theorem asData_user (o : List (D × Nat)) : Ordering.userOrder (asData o) = o.map fun l => (toLex l : D ×ₗ Nat) := by
  unfold Ordering.userOrder asData
  rw [List.map_map]
  rfl

theorem given_asData (o : List (D × Nat)) (d : D) : Ordering.given (asData o) d = Lpf.iterations o d := by
  unfold Ordering.given Lpf.iterations asData
  rw [List.filter_map, List.map_map]
  rfl

theorem factors_prod {fact : Nat → List (Nat × Nat)} (hf : Lpf.FactContract fact) {n : Nat} (hn : 1 ≤ n) (d : D) :
    (((fact n).flatMap fun x => List.replicate x.2 (d, x.1)).map Prod.snd).prod = n := by
  have key : ∀ l : List (Nat × Nat), ((l.flatMap fun x => List.replicate x.2 (d, x.1)).map Prod.snd).prod = (l.map fun x => x.1 ^ x.2).prod := by
    intro l
    induction l with
    | nil => rfl
    | cons x l ih => simp [ih]
  rw [key]
  exact (hf n hn).2.2

theorem primeFactors_iterations {fact : Nat → List (Nat × Nat)} (hf : Lpf.FactContract fact) : ∀ {t : Dict D Int}, t.WF → (∀ e ∈ t, 1 ≤ e.2) → ∀ d,
    (Lpf.iterations (Salsa.primeFactors fact t) d : Int) = (t.get? d).getD 1
  | [], _, _, d => by simp [Salsa.primeFactors, Lpf.iterations, Dict.get?_nil]
  | (k, v) :: t, hw, hp, d => by
    have hw' : Dict.WF t := by
      unfold Dict.WF Dict.keys at hw ⊢
      exact (List.nodup_cons.1 hw).2
    have hk : k ∉ Dict.keys t := by
      unfold Dict.WF Dict.keys at hw
      exact (List.nodup_cons.1 hw).1
    have ih := primeFactors_iterations hf hw' (fun e he => hp e (List.mem_cons_of_mem _ he)) d
    have hv : 1 ≤ v := hp (k, v) List.mem_cons_self
    have hsplit : Lpf.iterations (Salsa.primeFactors fact ((k, v) :: t)) d =
        Lpf.iterations ((fact v.toNat).flatMap fun x => List.replicate x.2 (k, x.1)) d * Lpf.iterations (Salsa.primeFactors fact t) d := by
      unfold Lpf.iterations Salsa.primeFactors
      rw [List.flatMap_cons, List.filter_append, List.map_append, List.prod_append]
    rw [hsplit, Dict.get?_cons]
    by_cases hd : k = d
    · subst hd
      have h1 : Lpf.iterations ((fact v.toNat).flatMap fun x => List.replicate x.2 (k, x.1)) k = v.toNat := by
        unfold Lpf.iterations
        rw [List.filter_eq_self.2]
        · exact factors_prod hf (by omega) k
        · intro x hx
          obtain ⟨y, -, hy⟩ := List.mem_flatMap.1 hx
          rw [List.eq_of_mem_replicate hy]
          simp
      have h2 : (Lpf.iterations (Salsa.primeFactors fact t) k : Int) = 1 := by
        rw [ih, (Dict.get?_eq_none_iff t k).2 hk]
        rfl
      push_cast
      rw [h1, h2]
      simp
      omega
    · have h1 : Lpf.iterations ((fact v.toNat).flatMap fun x => List.replicate x.2 (k, x.1)) d = 1 := by
        unfold Lpf.iterations
        rw [List.filter_eq_nil_iff.2]
        · rfl
        · intro x hx
          obtain ⟨y, -, hy⟩ := List.mem_flatMap.1 hx
          rw [List.eq_of_mem_replicate hy]
          simpa using hd
      rw [h1, one_mul, ih]
      simp [hd]

/-- An order of the prime factors of all temporal loops is complete. -/
theorem perm_complete {fact : Nat → List (Nat × Nat)} (hf : Lpf.FactContract fact) {sizes : Dict D Int} {spatial : List (D × ℚ)} (hw : sizes.WF) {t : Dict D Int}
    (ht : TemporalLoops.lomaTemporalLoops sizes spatial = .ok t) {o : List (D × Nat)} (ho : o.Perm (Salsa.primeFactors fact t)) : Ordering.Complete (asData o) t := by
  obtain ⟨hnk, hgt⟩ := TemporalLoops.loma_nontrivial sizes spatial hw t ht
  have hp : ∀ e ∈ t, 1 ≤ e.2 := fun e he => by
    have := (hgt e.1 e.2 he).1
    omega
  have hex : ∀ d, (Ordering.given (asData o) d : Int) = (t.get? d).getD 1 := by
    intro d
    rw [given_asData, ← primeFactors_iterations hf hnk hp d]
    have : Lpf.iterations o d = Lpf.iterations (Salsa.primeFactors fact t) d := ((ho.filter _).map _).prod_eq
    rw [this]
  refine ⟨fun e he => ?_, fun e he => ?_, hex⟩
  · obtain ⟨l, -, rfl⟩ := List.mem_map.1 he
    simp
  · obtain ⟨l, hl, rfl⟩ := List.mem_map.1 he
    have hm := ho.mem_iff.1 hl
    obtain ⟨p, hpt, hx⟩ := List.mem_flatMap.1 hm
    obtain ⟨x, -, hy⟩ := List.mem_flatMap.1 hx
    have := List.eq_of_mem_replicate hy
    have hd : l.1 = p.1 := by rw [this]
    have h1 := hex l.1
    rw [hd, Dict.get?_of_mem hnk (show (p.1, p.2) ∈ t from hpt)] at h1
    have h2 := (hgt p.1 p.2 hpt).1
    simp only [Option.getD_some] at h1
    rw [show ((l.1, some l.2) : Ordering.Entry D).1 = p.1 from hd]
    intro hc
    rw [hc] at h1
    omega

/-- Without a limit the exhaustive engine tries every order of the prime factors, and nothing else. -/
theorem generate_all {T : Type} {fact : Nat → List (Nat × Nat)} (hf : Lpf.FactContract fact) (ld : D) (dims : List D) {sizes : Dict D Int} {spatial : List (D × ℚ)}
    (alloc : Engine.Order D → Except PyErr T) (hw : sizes.WF) (hpos : ∀ k v, sizes.get? k = some v → 1 ≤ v) (hsp : ∀ l ∈ spatial, 1 ≤ l.2)
    (hsmall : ∀ o e, alloc o = .error e → Engine.TooSmall e) {t : Dict D Int} (ht : TemporalLoops.lomaTemporalLoops sizes spatial = .ok t) :
    ∃ N, ∀ fuel, N ≤ fuel → ∃ l err, Ordering.generate none fact (ld :: dims) sizes spatial none [] alloc fuel = some (l, err) ∧
      (∀ (o : List (D × Nat)) (m : T), o.Perm (Salsa.primeFactors fact t) → alloc (o.map fun l => (toLex l : D ×ₗ Nat)) = .ok m → m ∈ l ∧ err = none) ∧
      ∀ m ∈ l, ∃ o : List (D × Nat), o.Perm (Salsa.primeFactors fact t) ∧ alloc (o.map fun l => (toLex l : D ×ₗ Nat)) = .ok m := by
  obtain ⟨N, L, t', st, hnd, hL, hperm, hcov, hloop, ht', hst, hperms⟩ := Ordering.parts fact dims sizes spatial none hf ld hw hpos hsp (by simp)
  rw [ht] at ht'
  cases ht'
  obtain ⟨hnk, hgt⟩ := TemporalLoops.loma_nontrivial sizes spatial hw t ht
  by_cases hc : Ordering.Complete [] t
  · have hnil : t = [] := by
      by_contra hne
      obtain ⟨x, hx⟩ := List.exists_mem_of_ne_nil _ hne
      have h1 := hc.exact x.1
      rw [Dict.get?_of_mem hnk (show (x.1, x.2) ∈ t from hx)] at h1
      have h2 := (hgt x.1 x.2 hx).1
      simp [Ordering.given] at h1
      omega
    subst hnil
    refine ⟨0, fun fuel _ => ?_⟩
    obtain ⟨h1, h2, -⟩ := Ordering.complete_order none fact (ld :: dims) sizes spatial none [] alloc hw hpos hsp [] ht hc.sized hc.more hc.exact fuel
    have hu : Ordering.userOrder ([] : List (Ordering.Entry D)) = [] := rfl
    rw [hu] at h1 h2
    cases ha : alloc [] with
    | error e =>
      refine ⟨[], some e, h2 e ha, fun o m ho hm => ?_, by simp⟩
      have : o = [] := List.perm_nil.1 ho
      subst this
      rw [List.map_nil, ha] at hm
      cases hm
    | ok x =>
      refine ⟨[x], none, h1 x ha, fun o m ho hm => ?_, fun m hm => ⟨[], List.Perm.refl _, by rw [List.mem_singleton.1 hm]; exact ha⟩⟩
      have : o = [] := List.perm_nil.1 ho
      subst this
      rw [List.map_nil, ha] at hm
      cases hm
      exact ⟨List.mem_singleton_self _, rfl⟩
  · obtain ⟨o₀, ho₀⟩ := List.exists_mem_of_ne_nil _ hL
    have hpf : Lpf.lpfsOf st = Salsa.primeFactors fact t := by
      have hp0 : Salsa.primeFactors fact t ≠ [] := by
        intro h0
        refine hc ⟨by simp, by simp, fun d => ?_⟩
        have := primeFactors_iterations hf hnk (fun e he => by have := (hgt e.1 e.2 he).1; omega) d
        rw [h0] at this
        simpa [Ordering.given, Lpf.iterations] using this
      have hraw : Lpf.lpfsOf (t.map fun p => (p.1, ({ fac := (fact p.2.toNat).map (fun x => (x.1, (x.2 : Int))), sum := (((fact p.2.toNat).map Prod.snd).sum : Nat) } : Lpf.Ent))) =
          Salsa.primeFactors fact t := by
        unfold Lpf.lpfsOf Salsa.primeFactors
        rw [List.flatMap_map]
        refine congrArg (fun f => List.flatMap f t) (funext fun p => ?_)
        simp only
        rw [List.flatMap_map]
        refine congrArg (fun f => List.flatMap f (fact p.2.toNat)) (funext fun x => ?_)
        simp [Lpf.rep]
      unfold Lpf.getPrimeFactors Lpf.primeTable at hst
      simp only [List.map_map] at hst
      have hmm : (fun p : D × Nat => (p.1, ({ fac := (fact p.2).map (fun x => (x.1, (x.2 : Int))), sum := (((fact p.2).map Prod.snd).sum : Nat) } : Lpf.Ent))) ∘
          (fun p : D × Int => (p.1, p.2.toNat)) =
          fun p => (p.1, ({ fac := (fact p.2.toNat).map (fun x => (x.1, (x.2 : Int))), sum := (((fact p.2.toNat).map Prod.snd).sum : Nat) } : Lpf.Ent)) := rfl
      rw [hmm, hraw, if_neg hp0] at hst
      simp only [Lpf.limitLpfs, Lpf.updateMinLimit] at hst
      cases hst
      exact hraw
    refine ⟨N, fun fuel hfu => ?_⟩
    classical
    obtain ⟨err, g1, g2⟩ := Ordering.generate_plain fact dims sizes spatial [] alloc hperm ht hst (hperms fuel hfu) ho₀ (by simp) hc hsmall
    refine ⟨_, err, g1, fun o m ho hm => ?_, fun m hm => ?_⟩
    rotate_left
    · obtain ⟨x, hx, hm⟩ := List.mem_filterMap.1 hm
      obtain ⟨-, hs⟩ := Multiperm.permutations_sound ((Lpf.lpfsOf st).map fun l => (toLex l : D ×ₗ Nat)) fuel
      have h0 := (hs L (hperms fuel hfu)).1 x (List.mem_filter.1 hx).1
      rw [hpf] at h0
      have hid : (x.map fun l => (ofLex l : D × Nat)).map (fun l => (toLex l : D ×ₗ Nat)) = x := by
        rw [List.map_map]
        exact List.map_id x
      refine ⟨x.map fun l => (ofLex l : D × Nat), ?_, ?_⟩
      · have h1 := h0.map fun l => (ofLex l : D × Nat)
        rw [List.map_map] at h1
        exact h1.trans (List.Perm.of_eq (List.map_id _))
      · rw [hid]
        cases ha : alloc x with
        | error e =>
          rw [ha] at hm
          cases hm
        | ok y =>
          rw [ha] at hm
          cases hm
          rfl
    have hmem : (o.map fun l => (toLex l : D ×ₗ Nat)) ∈ L := by
      rw [hperm o₀ ho₀]
      obtain ⟨-, hs⟩ := Multiperm.permutations_sound ((Lpf.lpfsOf st).map fun l => (toLex l : D ×ₗ Nat)) fuel
      have h0 := (hs L (hperms fuel hfu)).1 o₀ ho₀
      rw [hpf] at h0
      exact (ho.map _).trans h0.symm
    have hob : (o.map fun l => (toLex l : D ×ₗ Nat)) ∈ L.filter fun o => decide (Ordering.Obeys [] o) := List.mem_filter.2 ⟨hmem, by simp [Ordering.Obeys]⟩
    refine ⟨List.mem_filterMap.2 ⟨_, hob, by rw [hm]; rfl⟩, ?_⟩
    rcases g2 with ⟨h, -⟩ | ⟨-, h⟩
    · exact h
    · obtain ⟨e, he⟩ := h _ hob
      rw [hm] at he
      cases he

end

end Verif.Anneal
