import Verif.Anneal.Outcome
import Verif.Anneal.Exhaustive
import Verif.Anneal.Free
import Verif.Anneal.Ordered
import Verif.Anneal.Example
import Mathlib.Data.List.Permutation

/-! Concrete cases of how calls with the annealing engine end (C164). -/

namespace Verif.Anneal.Ex

open Compare.Ex
open Evaluate.Ex (rl)
open Net (Node Options NodeOk)
open SpatialMapping (SM)
open Whole (AccD Acc)

/-- The numbers of loops that are left, for all spatial mappings. -/
def lefts {OA D : Type} [DecidableEq OA] [LinearOrder D] (a : AccD OA) (o : Options OA D) (n : Node OA D) : Option (List (Option Nat)) :=
  match Whole.accelerator (fun _ => (0, 0)) a, Net.spatialMappings o a n with
  | .ok c, .ok sms => some (sms.map fun sm =>
      match Whole.task a c n.layer sm with
      | .error _ => none
      | .ok t =>
        match TemporalLoops.lomaTemporalLoops (n.layer.sizes.map fun e => (e.1, (e.2 : Int))) (Whole.spatialLoops t) with
        | .error _ => none
        | .ok loops => some (Salsa.primeFactors quick loops).length)
  | _, _ => none

theorem lefts_length {OA D : Type} [DecidableEq OA] [LinearOrder D] {a : AccD OA} {o : Options OA D} {n : Node OA D} {ks : List (Option Nat)} (h : lefts a o n = some ks) {c : Acc OA} {sms : List (SM OA D)}
    (hc : Whole.accelerator (fun _ => (0, 0)) a = .ok c) (hs : Net.spatialMappings o a n = .ok sms) {sm : SM OA D} (hsm : sm ∈ sms) {t : Search.Task D}
    {p : List (D × Nat)} (ht : Whole.task a c n.layer sm = .ok t) (hl : Left quick n.layer t p) : some p.length ∈ ks := by
  obtain ⟨loops, h1, h2⟩ := hl
  unfold lefts at h
  rw [hc, hs] at h
  simp only [Option.some.injEq] at h
  rw [← h]
  refine List.mem_map.2 ⟨sm, hsm, ?_⟩
  rw [ht]
  simp only
  rw [h1]
  simp only
  rw [h2.length_eq]

/-- Non-trivial case of the outcome: the array leaves three loops of the layer of 2 × 4 × 2 or more, so that all draws of positions below three are in range. -/
example (draws : List Salsa.Draw) (hd : ∀ d ∈ draws, d.i < 3 ∧ d.j < 3) :
    (∃ ans, anneal (units 40 16 16 8) (opts 1 none id) "latency" [long] ⟨List.reverse, draws⟩ = .ok ans) ∨
      ∃ e, anneal (units 40 16 16 8) (opts 1 none id) "latency" [long] ⟨List.reverse, draws⟩ = .error e ∧ Halted (fun _ => (0, 0)) quick (units 40 16 16 8) (opts 1 none id) [long] e := by
  obtain ⟨S, -⟩ := set_order_false
  refine annealed_outcome S.file S.options S.factors (fun n hn _ => ⟨rl, [], S.nodes n hn⟩) (fun _ _ l => List.reverse_perm l) ?_ (Or.inr (Or.inl rfl))
  intro n hn c sms hc hs sm hsm t p ht hl _ d hd'
  rw [List.mem_singleton.1 hn] at hs ht hl
  have hks : ∃ ks, lefts (units 40 16 16 8) (opts 1 none id) long = some ks ∧ ∀ k ∈ ks, ∀ x, k = some x → 3 ≤ x := by
    refine ⟨[some 3], by decide +kernel, fun k hk x hx => ?_⟩
    rw [List.mem_singleton.1 hk] at hx
    cases hx
    exact le_refl _
  obtain ⟨ks, h1, h2⟩ := hks
  have := h2 _ (lefts_length h1 hc hs hsm ht hl) p.length rfl
  obtain ⟨d1, d2⟩ := hd d hd'
  exact ⟨by omega, by omega⟩

theorem lefts_none {a : AccD Nat} {o : Options Nat Nat} {n : Node Nat Nat} {ks : List (Option Nat)} (h : lefts a o n = some ks) (h0 : some 0 ∈ ks) :
    ∃ c sms sm t, Whole.accelerator (fun _ => (0, 0)) a = .ok c ∧ Net.spatialMappings o a n = .ok sms ∧ sm ∈ sms ∧ Whole.task a c n.layer sm = .ok t ∧
      Left quick n.layer t [] := by
  unfold lefts at h
  split at h
  · rename_i c sms hc hs
    cases h
    obtain ⟨sm, hsm, hx⟩ := List.mem_map.1 h0
    split at hx
    · cases hx
    · rename_i t ht
      split at hx
      · cases hx
      · rename_i loops hl
        exact ⟨c, sms, sm, t, hc, hs, hsm, ht, loops, hl, List.nil_perm.2 (List.length_eq_zero_iff.1 (Option.some.inj hx))⟩
  · cases h

/-- A layer of 2 × 2 × 2 that is unrolled completely: no numbers that the engine could draw give an answer. -/
example (opt : String) (d : Salsa.Draw) (ds : List Salsa.Draw) (ans : Net.Reply Nat Nat) : anneal grid (opts 1 none id) opt [unrolled] ⟨id, d :: ds⟩ ≠ .ok ans := by
  obtain ⟨c, sms, sm, t, h1, h2, h3, h4, h5⟩ := lefts_none (show lefts grid (opts 1 none id) unrolled = some [some 0] by decide +kernel) (List.mem_singleton_self _)
  exact unrolled_refused h1 (List.mem_singleton_self _) rfl h2 h3 h4 h5 (fun l => List.Perm.refl l) (by simp) opt ans

/-! ### A layer for which the engine cannot fail -/

def calmC {D : Type} [LinearOrder D] (h : Evaluate.Hw) (j : Evaluate.Job D) : Bool :=
  match Evaluate.mapping h j true with
  | .error _ => false
  | .ok it => decide (∀ p ∈ h.ports, (Latency.once (Evaluate.info h j it 0) ⟨p.bwMax, p.served⟩).length ≤ 1)

theorem calm {D : Type} [LinearOrder D] {h : Evaluate.Hw} {j : Evaluate.Job D} (hc : calmC h j = true) : Evaluate.Separate h j := by
  intro it hit
  unfold calmC at hc
  rw [hit] at hc
  exact of_decide_eq_true hc

/-- `Smooth`, checked for all orders. -/
def smoothC {OA D : Type} [DecidableEq OA] [LinearOrder D] (c : Acc OA) (l : Whole.LayerIn D) (t : Search.Task D) : Bool :=
  (l.sizes.any fun e => decide (l.sizes.get? e.1 = some e.2 ∧ (((Whole.spatialLoops t).filter fun x => x.1 = e.1).map Prod.snd).prod < (e.2 : ℚ))) &&
  decide ((Whole.spatialLoops t).map Prod.fst).Nodup &&
  match TemporalLoops.lomaTemporalLoops (l.sizes.map fun e => (e.1, (e.2 : Int))) (Whole.spatialLoops t) with
  | .error _ => true
  | .ok loops => (Salsa.primeFactors quick loops).permutations'.all fun p =>
    match Search.mapOrder c.hw c.topo t (p.map fun l => (l.1, (l.2 : ℚ))), Search.mapOrder c.hw c.topo (guess t) (p.map fun l => (l.1, (l.2 : ℚ))) with
    | .ok j, .ok j' => calmC c.hw j && calmC c.hw j'
    | _, _ => false

theorem smooth {OA D : Type} [DecidableEq OA] [LinearOrder D] {c : Acc OA} {l : Whole.LayerIn D} {t : Search.Task D} (h : smoothC c l t = true) : Smooth quick c l t := by
  unfold smoothC at h
  simp only [Bool.and_eq_true, List.any_eq_true, decide_eq_true_eq] at h
  obtain ⟨⟨⟨e, -, h1, h2⟩, h3⟩, h4⟩ := h
  have key : ∀ p, Left quick l t p → ∃ j j', Search.mapOrder c.hw c.topo t (p.map fun l => (l.1, (l.2 : ℚ))) = .ok j ∧
      Search.mapOrder c.hw c.topo (guess t) (p.map fun l => (l.1, (l.2 : ℚ))) = .ok j' ∧ calmC c.hw j = true ∧ calmC c.hw j' = true := by
    rintro p ⟨loops, hl, hp⟩
    rw [hl] at h4
    have := List.all_eq_true.1 h4 p (List.mem_permutations'.2 hp)
    split at this
    · rename_i j j' hj hj'
      simp only [Bool.and_eq_true] at this
      exact ⟨j, j', hj, hj', this⟩
    · cases this
  refine ⟨⟨e.1, e.2, h1, h2⟩, h3, fun p hp => ?_, fun p hp x hx => ?_⟩
  · obtain ⟨j, -, hj, -⟩ := key p hp
    exact ⟨j, hj⟩
  · obtain ⟨j, j', hj, hj', k1, k2⟩ := key p hp
    rcases hx with hx | hx
    · rw [hj'] at hx
      cases hx
      exact calm k2
    · rw [hj] at hx
      cases hx
      exact calm k1

def allC {OA D : Type} [DecidableEq OA] [LinearOrder D] (a : AccD OA) (o : Options OA D) (n : Node OA D) : Bool :=
  match Whole.accelerator (fun _ => (0, 0)) a, Net.spatialMappings o a n with
  | .ok c, .ok sms => sms.all fun sm =>
      match Whole.task a c n.layer sm with
      | .error _ => true
      | .ok t => smoothC c n.layer t
  | _, _ => false

theorem all_smooth {OA D : Type} [DecidableEq OA] [LinearOrder D] {a : AccD OA} {o : Options OA D} {n : Node OA D} (h : allC a o n = true) {c : Acc OA} {sms : List (SM OA D)}
    (hc : Whole.accelerator (fun _ => (0, 0)) a = .ok c) (hs : Net.spatialMappings o a n = .ok sms) {sm : SM OA D} (hsm : sm ∈ sms) {t : Search.Task D}
    (ht : Whole.task a c n.layer sm = .ok t) : Smooth quick c n.layer t := by
  unfold allC at h
  rw [hc, hs] at h
  have := List.all_eq_true.1 h sm hsm
  rw [ht] at this
  exact smooth this

/-- Non-trivial case: for the layer of 2 × 4 × 2 every sequence of draws of three positions has an answer. -/
example (draws : List Salsa.Draw) (hd : ∀ d ∈ draws, d.i < 3 ∧ d.j < 3) :
    ∃ ans, anneal (units 40 16 16 8) (opts 1 none id) "EDP" [long] ⟨List.reverse, draws⟩ = .ok ans := by
  obtain ⟨S, -⟩ := set_order_false
  refine annealed_works S.file S.options S.factors (fun n hn _ => ⟨rl, [], S.nodes n hn⟩) (fun _ _ l => List.reverse_perm l) ?_ (Or.inr (Or.inr rfl)) (by decide +kernel) ?_ ?_
  · intro n hn c sms hc hs sm hsm t p ht hl _ d hd'
    rw [List.mem_singleton.1 hn] at hs ht hl
    have := lefts_length (show lefts (units 40 16 16 8) (opts 1 none id) long = some [some 3] by decide +kernel) hc hs hsm ht hl
    rw [List.mem_singleton, Option.some.injEq] at this
    rw [this]
    exact hd d hd'
  · intro m hm
    simp only [units, List.mem_cons, List.not_mem_nil, or_false] at hm
    rcases hm with rfl | rfl | rfl <;> norm_num [Whole.prices]
  · intro n hn _ sms c hs hc sm hsm t ht
    rw [List.mem_singleton.1 hn] at hs ht ⊢
    exact all_smooth (show allC (units 40 16 16 8) (opts 1 none id) long = true by decide +kernel) hc hs hsm ht

/-- Non-trivial case: for the layer of 2 × 4 × 2 the exhaustive engine has an answer whenever the annealing engine has one, with no more energy. -/
example (draws : List Salsa.Draw) : ∃ M, ∀ fuel, M ≤ fuel → ∀ ans, anneal (units 40 16 16 8) (opts 1 none id) "energy" [long] ⟨List.reverse, draws⟩ = .ok ans →
    ∃ ans', call (units 40 16 16 8) (opts 1 none id) "energy" [long] fuel = .ok ans' ∧ ans'.energy ≤ ans.energy := by
  obtain ⟨S, -⟩ := set_order_false
  obtain ⟨M, h⟩ := exhaustive_best (cacti := fun _ => (0, 0)) (ex := accept) (luck := fun _ _ => ⟨List.reverse, draws⟩) S.file S.options S.factors
    (fun n hn _ => ⟨rl, [], S.nodes n hn⟩) (fun _ _ l => List.reverse_perm l) fun n hn _ sms c hs hc sm hsm t ht => by
      rw [List.mem_singleton.1 hn] at hs ht ⊢
      exact (all_smooth (show allC (units 40 16 16 8) (opts 1 none id) long = true by decide +kernel) hc hs hsm ht).calm
  refine ⟨M, fun fuel hf ans ha => ?_⟩
  obtain ⟨ans', h1, h2, -⟩ := h fuel hf "energy" ans ha
  exact ⟨ans', h1, h2 rfl⟩

/-- Non-trivial case: all orders of the layer of 2 × 4 × 2 fit, so a call has an answer exactly if the criterion is known. -/
example : ∃ M, ∀ fuel, M ≤ fuel → ∀ opt, (∃ ans, call (units 40 16 16 8) (opts 1 none id) opt [long] fuel = .ok ans) ↔ Net.Known opt := by
  obtain ⟨S, -⟩ := set_order_false
  have hsm : ∀ {sms c sm t}, Net.spatialMappings (opts 1 none id) (units 40 16 16 8) long = .ok sms → Whole.accelerator (fun _ => (0, 0)) (units 40 16 16 8) = .ok c → sm ∈ sms →
      Whole.task (units 40 16 16 8) c long.layer sm = .ok t → Smooth quick c long.layer t := fun hs hc hsm ht =>
    all_smooth (show allC (units 40 16 16 8) (opts 1 none id) long = true by decide +kernel) hc hs hsm ht
  obtain ⟨M, h⟩ := free_answer_iff (cacti := fun _ => (0, 0)) S.file S.options S.factors (fun n hn _ => ⟨rl, [], S.nodes n hn⟩) fun n hn _ sms c hs hc sm hm t ht => by
    rw [List.mem_singleton.1 hn] at hs ht ⊢
    exact (hsm hs hc hm ht).calm
  refine ⟨M, fun fuel hfu opt => (h fuel hfu opt).trans (and_iff_left fun n hn _ sms c hs hc sm hm t ht => ?_)⟩
  rw [List.mem_singleton.1 hn] at hs ht ⊢
  obtain ⟨sms', g1, -, g3⟩ := Net.generated S.file (S.nodes long (by simp)) S.options
  rw [hs] at g1
  cases g1
  obtain ⟨p, hp⟩ := left_some S.factors (g3 sm hm).1 hc ht
  obtain ⟨j, hj⟩ := (hsm hs hc hm ht).fits p hp
  exact ⟨p, j, hp, hj⟩

/-- Non-trivial case of C163: the layer of 2 × 4 × 2 with the second dimension first; without this ordering there is an answer with no more energy. -/
example : (∃ r, call (units 40 16 16 8) (opts 1 none id) "energy" [first] 40 = .ok r ∧ r.energy = 860) ∧
    ∃ M, ∀ fuel, M ≤ fuel → ∀ ans, call (units 40 16 16 8) (opts 1 none id) "energy" [first] fuel = .ok ans →
      ∃ ans', call (units 40 16 16 8) (opts 1 none id) "energy" [long] fuel = .ok ans' ∧ ans'.energy ≤ ans.energy := by
  obtain ⟨⟨r, hr, he, -⟩, -⟩ := ordering_false
  refine ⟨⟨r, hr, he⟩, ?_⟩
  obtain ⟨S, -⟩ := set_order_false
  have K : Net.NodeOk (units 40 16 16 8) long rl [] := S.nodes long (by simp)
  obtain ⟨M, h⟩ := ordering_best (cacti := fun _ => (0, 0)) (nodes := [first]) S.factors S.file S.options rfl (fun n hn _ => by
    rw [List.mem_singleton.1 hn]
    exact ⟨by decide +kernel, rl, [], ⟨{ K.layer with }, K.stored, K.linked, K.delivers, K.holds, K.user, K.whole, K.known, K.hints, by decide⟩⟩)
    fun n hn _ sms c hs hc sm hsm t ht => by
      rw [List.mem_singleton.1 hn] at hs ht ⊢
      exact (all_smooth (show allC (units 40 16 16 8) (opts 1 none id) first = true by decide +kernel) hc hs hsm ht).calm
  refine ⟨M, fun fuel hf ans ha => ?_⟩
  obtain ⟨ans', h1, h2, -⟩ := h fuel hf "energy" ans ha
  exact ⟨ans', h1, h2 rfl⟩

end Verif.Anneal.Ex
