import Verif.Anneal.Props

/-! C164: how calls with the annealing engine end. -/

namespace Verif.TemporalLoops

variable {D : Type} [DecidableEq D]

/-- The loop of the annealing engine raises nothing but `KeyError`, and not if every dimension is unrolled once. -/
theorem salsaLoop_cases : ∀ (ls : List (D × Rat)) (d : Dict D Int), (∀ l ∈ ls, l.2 ≠ 0) →
    (∃ d', salsaLoop d ls = .ok d') ∨ (salsaLoop d ls = .error .keyError ∧ ¬ ((∀ l ∈ ls, d.get? l.1 ≠ none) ∧ (ls.map Prod.fst).Nodup))
  | [], d, _ => Or.inl ⟨d, rfl⟩
  | l :: ls, d, h => by
    unfold salsaLoop salsaStep
    cases hg : d.get? l.1 with
    | none =>
      right
      exact ⟨rfl, fun hc => hc.1 l List.mem_cons_self hg⟩
    | some s =>
      simp only
      rw [if_neg (h l List.mem_cons_self)]
      have key : ∀ d' : Dict D Int, (∀ k, k ≠ l.1 → d'.get? k = d.get? k) → (∃ d'', salsaLoop d' ls = .ok d'') ∨
          (salsaLoop d' ls = .error .keyError ∧ ¬ ((∀ x ∈ l :: ls, d.get? x.1 ≠ none) ∧ ((l :: ls).map Prod.fst).Nodup)) := by
        intro d' hd'
        refine (salsaLoop_cases ls d' fun x hx => h x (List.mem_cons_of_mem _ hx)).imp_right fun ⟨h1, h2⟩ => ⟨h1, fun hc => h2 ⟨fun x hx => ?_, ?_⟩⟩
        · have hn := hc.2
          rw [List.map_cons, List.nodup_cons] at hn
          rw [hd' x.1 fun e => hn.1 (e ▸ List.mem_map.2 ⟨x, hx, rfl⟩)]
          exact hc.1 x (List.mem_cons_of_mem _ hx)
        · have hn := hc.2
          rw [List.map_cons, List.nodup_cons] at hn
          exact hn.2
      split
      · rename_i e he
        split_ifs at he
      · rename_i d' hd'
        refine key d' fun k hk => ?_
        split_ifs at hd'
        · cases hd'
          rw [Dict.get?_del, if_neg fun e => hk e.symm]
        · cases hd'
          rw [Dict.get?_set, if_neg fun e => hk e.symm]

theorem salsa_cases {sizes : Dict D Int} {spatial : List (D × Rat)} (h : ∀ l ∈ spatial, l.2 ≠ 0 ∧ l.1 ∈ sizes.keys) :
    (∃ res, salsaTemporalLoops sizes spatial = .ok res) ∨ (salsaTemporalLoops sizes spatial = .error .keyError ∧ ¬ (spatial.map Prod.fst).Nodup) := by
  unfold salsaTemporalLoops
  rcases salsaLoop_cases spatial sizes fun l hl => (h l hl).1 with ⟨d, hd⟩ | ⟨h1, h2⟩
  · rw [hd]
    exact Or.inl ⟨_, rfl⟩
  · rw [h1]
    exact Or.inr ⟨rfl, fun hn => h2 ⟨fun l hl hc => (Dict.get?_eq_none_iff _ _).1 hc (h l hl).2, hn⟩⟩

end Verif.TemporalLoops

namespace Verif.Salsa

variable {L C : Type} {eval : List L → Except PyErr C} {crit : C → ℚ} {ex : ℚ → ℚ} {t0 : ℚ} {lpfs : List L}

/-- What a run of the engine raises: nothing has to be ordered, an order that it tries raises, or has the criterion zero. -/
def Halts (eval : List L → Except PyErr C) (crit : C → ℚ) (lpfs : List L) (e : PyErr) : Prop :=
  (e = .valueError ∧ lpfs = []) ∨ (∃ o : List L, o.Perm lpfs ∧ eval o = .error e) ∨ (e = .zeroDivision ∧ ∃ o c, o.Perm lpfs ∧ eval o = .ok c ∧ crit c = 0)

theorem mkState_error {o : List L} {e : PyErr} (h : mkState eval crit o = .error e) : eval o = .error e := by
  unfold mkState at h
  cases he : eval o with
  | error x => rw [he] at h; cases h; rfl
  | ok c => rw [he] at h; cases h

theorem iter_error (ht : 0 < t0) {it : Nat} {d : Draw} {r : Run L C} (hi : Inv eval crit lpfs r) (hd : lpfs ≠ [] → d.i < lpfs.length ∧ d.j < lpfs.length) {e : PyErr}
    (h : iter eval crit ex t0 it d r = .error e) : Halts eval crit lpfs e := by
  have hcur := hi.legal _ hi.cur
  unfold iter at h
  simp only at h
  split at h
  · rename_i h0
    cases h
    exact Or.inl ⟨rfl, List.length_eq_zero_iff.1 (hcur.1.length_eq ▸ h0)⟩
  · rename_i h0
    have hne : lpfs ≠ [] := fun hc => h0 (by rw [hcur.1.length_eq, hc]; rfl)
    obtain ⟨d1, d2⟩ := hd hne
    have hs : ∃ o, swapList r.cur.ordering d.i d.j = .ok o := by
      unfold swapList
      have e1 : d.i < r.cur.ordering.length := by rw [hcur.1.length_eq]; exact d1
      have e2 : d.j < r.cur.ordering.length := by rw [hcur.1.length_eq]; exact d2
      rw [List.getElem?_eq_getElem e1, List.getElem?_eq_getElem e2]
      exact ⟨_, rfl⟩
    obtain ⟨q, hq⟩ := hs
    have hp := (swapList_perm hq).trans hcur.1
    split at h
    · rename_i x hx
      cases h
      unfold swap at hx
      rw [hq] at hx
      exact Or.inr (Or.inl ⟨q, hp, mkState_error hx⟩)
    · rename_i next hx
      unfold swap at hx
      rw [hq] at hx
      obtain ⟨n1, n2, n3⟩ := mkState_spec hx
      split at h
      · rename_i hz
        cases h
        rcases hz with hz | hz
        · exact Or.inr (Or.inr ⟨rfl, q, _, hp, n2, n3 ▸ hz⟩)
        · exact absurd hz (temp_pos ht it).ne'
      · split at h <;> cases h

theorem loop_error (ht : 0 < t0) : ∀ (ds : List Draw) {it : Nat} {r : Run L C}, Inv eval crit lpfs r →
    (lpfs ≠ [] → ∀ d ∈ ds, d.i < lpfs.length ∧ d.j < lpfs.length) → ∀ {e : PyErr}, loop eval crit ex t0 it ds r = .error e → Halts eval crit lpfs e
  | [], it, r, _, _, e, h => by cases h
  | d :: ds, it, r, hi, hd, e, h => by
    unfold loop at h
    split at h
    · rename_i x hx
      cases h
      exact iter_error ht hi (fun hne => hd hne d List.mem_cons_self) hx
    · rename_i r' hr
      exact loop_error ht ds (iter_inv hi hr) (fun hne x hx => hd hne x (List.mem_cons_of_mem _ hx)) h

theorem anneal_error (ht : 0 < t0) {shuffle : List L → List L} {draws : List Draw} (hsh : (shuffle lpfs).Perm lpfs)
    (hd : lpfs ≠ [] → ∀ d ∈ draws, d.i < lpfs.length ∧ d.j < lpfs.length) {e : PyErr} (h : anneal eval crit ex t0 shuffle lpfs draws = .error e) :
    Halts eval crit lpfs e := by
  unfold anneal at h
  split at h
  · rename_i x hx
    cases h
    exact Or.inr (Or.inl ⟨_, hsh, mkState_error hx⟩)
  · rename_i s hs
    obtain ⟨s1, s2, s3⟩ := mkState_spec hs
    refine loop_error ht draws ⟨fun x hx => ?_, by simp, by simp, fun x hx => ?_⟩ hd h
    · rw [List.mem_singleton.1 hx]
      exact ⟨s1 ▸ hsh, s1 ▸ s2, s3⟩
    · simp only [List.mem_singleton, Prod.mk.injEq, and_true] at hx
      rw [hx]

end Verif.Salsa

namespace Verif.Anneal

open Evaluate (Hw Mem Job Result Separate evaluate)
open Latency (Operand)
open LayerNode (Relation)
open Net (Node Options Reply FileOk NodeOk OptionsOk Known spatialMappings)
open Ports (MemD)
open SpatialMapping (SM)
open Whole (AccD Acc InputOk LayerIn)

variable {OA : Type} [DecidableEq OA] {D : Type} [LinearOrder D]
variable {a : AccD OA} {o : Options OA D} {nodes : List (Node OA D)} {cacti : MemD Operand OA → ℚ × ℚ} {fact : Nat → List (Nat × Nat)} {ex : ℚ → ℚ}
  {luck : Node OA D → SM OA D → Luck D}

/-- The allocation of an order does not depend on what a state is evaluated with. -/
theorem map_guess_error {h : Hw} {topo : List Mem} {t : Search.Task D} {o : List (D × ℚ)} {e : PyErr} (hj : Search.mapOrder h topo (guess t) o = .error e) :
    Search.mapOrder h topo t o = .error e := by
  unfold Search.mapOrder at hj ⊢
  have ha : Search.allocate h topo (guess t) o = Search.allocate h topo t o := rfl
  rw [ha] at hj
  simp only [bind, Except.bind] at hj ⊢
  cases hal : Search.allocate h topo t o with
  | error e => rw [hal] at hj; exact hj
  | ok tm =>
    rw [hal] at hj
    simp only at hj ⊢
    unfold Search.finish at hj ⊢
    have hg : (guess t).ops = t.ops := rfl
    have hr : (guess t).rel = t.rel := rfl
    simp only [hg, hr] at hj ⊢
    split at hj
    · exact hj
    · rename_i out hout
      simp only [bind, Except.bind] at hj ⊢
      cases htc : TemporalMapping.totalCycle (out.map fun q => (q.1, q.2.1)) with
      | error e => rw [htc] at hj; exact hj
      | ok total => rw [htc] at hj; cases hj

theorem guess_prepared {l : LayerIn D} {sm : SM OA D} {rl : Operand → List D} {rels : List (Relation D)} (I : InputOk a l sm rl rels)
    {c : Acc OA} (hc : Whole.accelerator cacti a = .ok c) : ∃ t array array', Whole.task a c l sm = .ok t ∧ Search.Prepared c.hw c.topo t rl rels array ∧
      Search.Prepared c.hw c.topo (guess t) rl rels array' ∧ t.ops = l.ops ∧ t.L = l.L := by
  obtain ⟨c', hc', C⟩ := Whole.accelerator_ok (cacti := cacti) I.acc
  rw [hc] at hc'
  cases hc'
  obtain ⟨lim, limI, t, h1, ht, P, e1, -, e3, -, -, -, -, hsu, -⟩ := Whole.task_ok I C
  obtain ⟨lim', limI', h1', h2, -⟩ := Conversion.convert_exact I.mapping
  rw [h1] at h1'
  cases h1'
  obtain ⟨w, -⟩ := Whole.converted_facts I.mapping h2
  refine ⟨t, _, lim.flatMap Prod.snd, ht, P, ?_, e1, e3⟩
  have hflat : ∀ m : SM OA D, (m.map (fun e => (e.2.map Prod.snd).prod)).prod = MapInfo.iters (m.flatMap Prod.snd) := by
    intro m
    unfold MapInfo.iters
    induction m with
    | nil => simp
    | cons e t ih => simp [ih]
  exact
    { P with
      su := fun op ho => ⟨(P.su op ho).1, (P.su op ho).1⟩
      unrolled := fun op ho x hx => P.unrolled op ho x (by
        rcases List.mem_append.1 hx with hx | hx
        · exact List.mem_append_left _ hx
        · exact List.mem_append_left _ hx)
      array := fun op _ => by
        show MapInfo.iters (t.su op).flatten = _
        rw [hsu, ← hflat]
        exact Conversion.per_level_product _ _ w
      cycles := Nat.one_pos }

/-- The loops that are left to order. -/
def Left (fact : Nat → List (Nat × Nat)) (l : LayerIn D) (t : Search.Task D) (p : List (D × Nat)) : Prop :=
  ∃ loops, TemporalLoops.lomaTemporalLoops (l.sizes.map fun e => (e.1, (e.2 : Int))) (Whole.spatialLoops t) = .ok loops ∧ p.Perm (Salsa.primeFactors fact loops)

/-- `np.random.randint(0, n)` draws positions below `n` (/repo/zigzag/opt/salsa/engine.py lines 137-138), for `n` loops to order. -/
def InRange (cacti : MemD Operand OA → ℚ × ℚ) (fact : Nat → List (Nat × Nat)) (a : AccD OA) (o : Options OA D) (nodes : List (Node OA D))
    (luck : Node OA D → SM OA D → Luck D) : Prop :=
  ∀ n ∈ nodes, ∀ c sms, Whole.accelerator cacti a = .ok c → spatialMappings o a n = .ok sms → ∀ sm ∈ sms, ∀ t p, Whole.task a c n.layer sm = .ok t →
    Left fact n.layer t p → p ≠ [] → ∀ d ∈ (luck n sm).draws, d.i < p.length ∧ d.j < p.length

/-- Positions that are always zero are in range. -/
theorem firsts (h : ∀ n sm, ∀ d ∈ (luck n sm).draws, d.i = 0 ∧ d.j = 0) : InRange cacti fact a o nodes luck := by
  intro n _ c sms _ _ sm _ t p _ _ hp d hd
  obtain ⟨h1, h2⟩ := h n sm d hd
  rw [h1, h2]
  exact ⟨List.length_pos_iff.2 hp, List.length_pos_iff.2 hp⟩

/-- An order of the loops that the engine tries, or passes on, divides by zero in its evaluation, or has no energy at all. -/
def Zero (fact : Nat → List (Nat × Nat)) (c : Acc OA) (l : LayerIn D) (t : Search.Task D) : Prop :=
  ∃ p, Left fact l t p ∧ ∃ j, (Search.mapOrder c.hw c.topo (guess t) (p.map fun l => (l.1, (l.2 : ℚ))) = .ok j ∧
      (evaluate c.hw j = .error .zeroDivision ∨ ∃ r, evaluate c.hw j = .ok r ∧ r.energy.total = 0)) ∨
    (Search.mapOrder c.hw c.topo t (p.map fun l => (l.1, (l.2 : ℚ))) = .ok j ∧ evaluate c.hw j = .error .zeroDivision)

/-- The exceptions for a spatial mapping: a division by zero; the array unrolls everything; it unrolls a dimension twice; an order of the loops does not fit. -/
def Hurdle (fact : Nat → List (Nat × Nat)) (c : Acc OA) (l : LayerIn D) (t : Search.Task D) (e : PyErr) : Prop :=
  (e = .zeroDivision ∧ Zero fact c l t) ∨
  (e = .valueError ∧ ∀ d s, l.sizes.get? d = some s → (s : ℚ) ≤ (((Whole.spatialLoops t).filter fun x => x.1 = d).map Prod.snd).prod) ∨
  (e = .keyError ∧ ¬ ((Whole.spatialLoops t).map Prod.fst).Nodup) ∨
  ((e = .memoryHierarchyTooSmall ∨ e = .memoryTooSmall) ∧ ∃ p, Left fact l t p ∧ Search.mapOrder c.hw c.topo t (p.map fun l => (l.1, (l.2 : ℚ))) = .error e)

/-- The exceptions of a call with the annealing engine. -/
def Halted (cacti : MemD Operand OA → ℚ × ℚ) (fact : Nat → List (Nat × Nat)) (a : AccD OA) (o : Options OA D) (nodes : List (Node OA D)) (e : PyErr) : Prop :=
  ∃ n ∈ nodes, n.skip = false ∧ ∃ sms c t, spatialMappings o a n = .ok sms ∧ Whole.accelerator cacti a = .ok c ∧
    ∃ sm ∈ sms, Whole.task a c n.layer sm = .ok t ∧ Hurdle fact c n.layer t e

theorem left_order (hf : Lpf.FactContract fact) {l : LayerIn D} {sm : SM OA D} {rl : Operand → List D} {rels : List (Relation D)} (I : InputOk a l sm rl rels)
    {t : Search.Task D} (hL : t.L = l.L) {p : List (D × Nat)} (hp : Left fact l t p) : Search.Order t (p.map fun l => (l.1, (l.2 : ℚ))) := by
  obtain ⟨loops, hl, hp⟩ := hp
  obtain ⟨s1, -, -, s4, -, -⟩ := Whole.engine_sizes I.layer
  obtain ⟨-, hgt⟩ := TemporalLoops.loma_nontrivial _ _ s1 loops hl
  constructor
  · intro x hx
    obtain ⟨y, hy, rfl⟩ := List.mem_map.1 hx
    have := primes hf (fun e he => by
      have := (hgt e.1 e.2 he).1
      omega) y (hp.mem_iff.1 hy)
    exact ⟨y.2, rfl, this.one_lt.le⟩
  · intro x hx
    obtain ⟨y, hy, rfl⟩ := List.mem_map.1 hx
    obtain ⟨e, he, hy⟩ := List.mem_flatMap.1 (hp.mem_iff.1 hy)
    obtain ⟨z, -, hy⟩ := List.mem_flatMap.1 hy
    rw [List.eq_of_mem_replicate hy, hL, s4]
    exact (hgt e.1 e.2 he).2

theorem evaluate_cases {h : Hw} {topo : List Mem} {t : Search.Task D} {rl : Operand → List D} {rels : List (Relation D)} {array : List (D × ℚ)}
    (P : Search.Prepared h topo t rl rels array) (hlk : ∀ p ∈ h.ports, ∀ k ∈ p.served, k.1 ∈ t.ops) {order : List (D × ℚ)} (O : Search.Order t order) {j : Job D}
    (hj : Search.mapOrder h topo t order = .ok j) : evaluate h j = .error .zeroDivision ∨ ∃ r, evaluate h j = .ok r := by
  obtain ⟨tm, -, e1, -⟩ := Search.mapOrder_ok P hj
  obtain ⟨st, on, off, -, h | ⟨r, h, -⟩⟩ := Evaluate.evaluated_partial (R := { toMapped := Search.mapped P O hj, linked := by rw [e1]; exact hlk })
  · exact Or.inl h.1
  · exact Or.inr ⟨r, h⟩

/-- The stage for temporal mappings raises only these exceptions, and what it passes on can only divide by zero in the evaluation. -/
theorem temporal_raises (hf : Lpf.FactContract fact) {n : Node OA D} {rl : Operand → List D} {rels : List (Relation D)} {sm : SM OA D} (I : InputOk a n.layer sm rl rels)
    {c : Acc OA} (hc : Whole.accelerator cacti a = .ok c) (hk : ∀ l, ((luck n sm).shuffle l).Perm l)
    (hd : ∀ t p, Whole.task a c n.layer sm = .ok t → Left fact n.layer t p → p ≠ [] → ∀ d ∈ (luck n sm).draws, d.i < p.length ∧ d.j < p.length) :
    ∃ t, Whole.task a c n.layer sm = .ok t ∧ (∀ e, ((env fact ex a c o luck).temporal n sm).2 = some e → Hurdle fact c n.layer t e) ∧
      ∀ j ∈ ((env fact ex a c o luck).temporal n sm).1, (evaluate c.hw j = .error .zeroDivision ∧ Zero fact c n.layer t) ∨ ∃ r, evaluate c.hw j = .ok r := by
  obtain ⟨t, array, array', ht, P, P', eops, eL⟩ := guess_prepared (cacti := cacti) I hc
  obtain ⟨c', hc', C⟩ := Whole.accelerator_ok (cacti := cacti) I.acc
  rw [hc] at hc'
  cases hc'
  have hlk : ∀ p ∈ c.hw.ports, ∀ k ∈ p.served, k.1 ∈ t.ops := fun p hp k hk => by
    obtain ⟨m, hm, hmk⟩ := C.linked p hp k hk
    rw [eops]
    exact I.linked m hm _ hmk
  obtain ⟨s1, s2, s3, s4, -, -⟩ := Whole.engine_sizes I.layer
  refine ⟨t, ht, fun e he => ?_, fun j hj => ?_⟩
  · have he' : (search fact ex c.hw c.topo t (n.layer.sizes.map fun e => (e.1, (e.2 : Int))) (Whole.spatialLoops t) (luck n sm)).2 = some e := by
      have : (env fact ex a c o luck).temporal n sm = search fact ex c.hw c.topo t (n.layer.sizes.map fun e => (e.1, (e.2 : Int))) (Whole.spatialLoops t) (luck n sm) := by
        unfold env
        simp only [ht]
      rw [← this]
      exact he
    unfold search at he'
    split at he'
    · rename_i x hx
      cases he'
      unfold Salsa.run at hx
      rcases TemporalLoops.salsa_cases (sizes := n.layer.sizes.map fun e => (e.1, (e.2 : Int))) (spatial := Whole.spatialLoops t) (fun l hl => by
        obtain ⟨h1, h2⟩ := Whole.spatialLoops_mem P l hl
        exact ⟨by linarith, by rw [← s4, ← eL]; exact h2⟩) with ⟨loops, hl⟩ | ⟨h1, h2⟩
      · rw [hl] at hx
        have hloma := TemporalLoops.salsa_eq_loma _ _ _ hl
        have hleft : ∀ q : List (D × Nat), q.Perm (Salsa.primeFactors fact loops) → Left fact n.layer t q := fun q hq => ⟨loops, hloma, hq⟩
        rcases Salsa.anneal_error (by norm_num) (hk _) (hd t _ ht (hleft _ (List.Perm.refl _))) hx with ⟨h1, h2⟩ | ⟨q, hq, h1⟩ | ⟨h1, q, x, hq, h2, h3⟩
        · refine Or.inr (Or.inl ⟨h1, fun d s hs => ?_⟩)
          have h0 : loops = [] := by
            cases hlo : loops with
            | nil => rfl
            | cons x l =>
              exfalso
              obtain ⟨-, hgt⟩ := TemporalLoops.loma_nontrivial _ _ s1 loops hloma
              have hx1 := (hgt x.1 x.2 (by rw [hlo]; exact List.mem_cons_self)).1
              have hcomp := primeFactors_iterations hf (t := loops) (TemporalLoops.loma_nontrivial _ _ s1 loops hloma).1 (fun e he => by
                have := (hgt e.1 e.2 he).1
                omega) x.1
              rw [h2, hlo] at hcomp
              rw [Dict.get?_cons, if_pos rfl] at hcomp
              simp only [Lpf.iterations, List.filter_nil, List.map_nil, List.prod_nil, Option.getD_some] at hcomp
              omega
          obtain ⟨res, r1, r2⟩ := TemporalLoops.loma_covers _ (Whole.spatialLoops t) s1 s2 (fun x hx => (Whole.spatialLoops_mem P x hx).1)
          rw [hloma] at r1
          cases r1
          have := r2 d s (by rw [Whole.cast_get?, hs]; rfl)
          rw [h0] at this
          simpa using this
        · have hO := left_order hf I (t := t) eL (hleft q hq)
          unfold assess at h1
          simp only [bind, Except.bind] at h1
          cases hm : Search.mapOrder c.hw c.topo (guess t) (q.map fun l => (l.1, (l.2 : ℚ))) with
          | error y =>
            rw [hm] at h1
            cases h1
            exact Or.inr (Or.inr (Or.inr ⟨Search.mapOrder_error P' hm, q, hleft q hq, map_guess_error hm⟩))
          | ok j =>
            rw [hm] at h1
            simp only at h1
            have hO' : Search.Order (guess t) (q.map fun l => (l.1, (l.2 : ℚ))) := ⟨hO.whole, hO.dims⟩
            rcases evaluate_cases P' hlk hO' hm with h | ⟨r, h⟩
            · rw [h] at h1
              cases h1
              exact Or.inl ⟨rfl, q, hleft q hq, j, Or.inl ⟨hm, Or.inl h⟩⟩
            · rw [h] at h1
              cases h1
        · exact Or.inl ⟨h1, q, hleft q hq, x.1, Or.inl ⟨(assess_ok h2).1, Or.inr ⟨x.2, (assess_ok h2).2, h3⟩⟩⟩
      · rw [h1] at hx
        cases hx
        exact Or.inr (Or.inr (Or.inl ⟨rfl, h2⟩))
    · cases he'
  · rcases temporal_spec (o := o) (ex := ex) hf I hc hk with ⟨h1, -⟩ | ⟨t', loops, p, j', e1, e2, e3, e4, e5⟩
    · rw [h1] at hj
      cases hj
    · rw [e1] at hj
      rw [List.mem_singleton.1 hj]
      rw [ht] at e2
      cases e2
      exact (evaluate_cases P hlk (left_order hf I eL ⟨loops, e3, e4⟩) e5).imp_left fun h => ⟨h, p, ⟨loops, e3, e4⟩, j', Or.inr ⟨e5, h⟩⟩

/-- C164: a call with the annealing engine and a known criterion has an answer or one of five exceptions: `ZeroDivisionError` if an order that is tried
divides by zero in its evaluation or has no energy; `ValueError` if the array unrolls all of a
layer; `KeyError` if it unrolls a dimension of a layer twice; two exceptions of the allocation if an order of the loops does not fit the memories.  (An exception in a
process of the engine makes the call wait for ever, C65.) -/
theorem annealed_outcome (F : FileOk a) (O : OptionsOk o) (hf : Lpf.FactContract fact) (hn : ∀ n ∈ nodes, n.skip = false → ∃ rl rels, NodeOk a n rl rels)
    (hk : ∀ n sm l, ((luck n sm).shuffle l).Perm l) (hd : InRange cacti fact a o nodes luck) {opt : String} (ho : Known opt) :
    (∃ ans, network cacti fact ex a o opt nodes luck = .ok ans) ∨ ∃ e, network cacti fact ex a o opt nodes luck = .error e ∧ Halted cacti fact a o nodes e := by
  obtain ⟨c, hc, C⟩ := Whole.accelerator_ok (cacti := cacti) F.acc
  rw [network_pipeline hc]
  refine Pipeline.api_raises (single (fact := fact) (a := a) (o := o) c) (Q := Halted cacti fact a o nodes) opt ho nodes fun n hmem hs => ?_
  have hs' : n.skip = false := hs
  obtain ⟨rl, rels, K⟩ := hn n hmem hs'
  obtain ⟨sms, h1, h2, h3⟩ := Net.generated F K O
  refine ⟨sms, h1, h2, fun sm hsm => ?_⟩
  obtain ⟨t, ht, k1, k2⟩ := temporal_raises (o := o) (ex := ex) hf (h3 sm hsm).1 hc (hk n sm) (hd n hmem c sms hc h1 sm hsm)
  refine ⟨fun e he => ⟨n, hmem, hs', sms, c, t, h1, hc, sm, hsm, ht, k1 e he⟩, fun h0 => ?_, fun j hj e he => ?_⟩
  · rcases temporal_spec (o := o) (ex := ex) hf (h3 sm hsm).1 hc (hk n sm) with ⟨-, e, he⟩ | ⟨t', loops, p, j, e1, -⟩
    · rw [he] at h0
      cases h0
    · rw [e1]
      simp
  · have he' : (match evaluate c.hw j with
        | .error e => .error e
        | .ok r => .ok ⟨⟨r.energy.total, r.overall.latency2, true⟩, (j, r)⟩ : Except PyErr (Pipeline.Cme (Job D × Result))) = .error e := he
    rcases k2 j hj with ⟨h, hz⟩ | ⟨r, h⟩
    · rw [h] at he'
      cases he'
      exact ⟨n, hmem, hs', sms, c, t, h1, hc, sm, hsm, ht, Or.inl ⟨rfl, hz⟩⟩
    · rw [h] at he'
      cases he'

/-- C164: if one of the spatial mappings of a layer leaves no loop, a call with the annealing engine never has an answer. -/
theorem unrolled_refused {c : Acc OA} (hc : Whole.accelerator cacti a = .ok c) {n : Node OA D} (hn : n ∈ nodes) (hs : n.skip = false) {sms : List (SM OA D)}
    (hsms : spatialMappings o a n = .ok sms) {sm : SM OA D} (hsm : sm ∈ sms) {t : Search.Task D} (ht : Whole.task a c n.layer sm = .ok t) (hl : Left fact n.layer t [])
    (hk : ∀ l, ((luck n sm).shuffle l).Perm l) (hd : (luck n sm).draws ≠ []) (opt : String) (ans : Reply OA D) : network cacti fact ex a o opt nodes luck ≠ .ok ans := by
  intro h
  rw [network_pipeline hc] at h
  obtain ⟨-, hw⟩ := (Pipeline.api_ok_iff (single c) opt nodes).1 ⟨ans, h⟩
  obtain ⟨sms', w1, -, w3⟩ := hw n hn hs
  have w1' : spatialMappings o a n = .ok sms' := w1
  rw [hsms] at w1'
  cases w1'
  obtain ⟨k1, -, -⟩ := w3 sm hsm
  have he : (env fact ex a c o luck).temporal n sm = search fact ex c.hw c.topo t (n.layer.sizes.map fun e => (e.1, (e.2 : Int))) (Whole.spatialLoops t) (luck n sm) := by
    unfold env
    simp only [ht]
  rw [he] at k1
  unfold search at k1
  split at k1
  · cases k1
  · rename_i r hr
    unfold Salsa.run at hr
    split at hr
    · cases hr
    · rename_i loops hlo
      obtain ⟨loops', hl', hp⟩ := hl
      rw [TemporalLoops.salsa_eq_loma _ _ _ hlo] at hl'
      cases hl'
      rw [List.nil_perm.1 hp] at hr
      unfold Salsa.anneal at hr
      rw [List.perm_nil.1 (hk [])] at hr
      split at hr
      · cases hr
      · rename_i s hst
        obtain ⟨d, ds, hds⟩ := List.exists_cons_of_ne_nil hd
        rw [hds] at hr
        have h0 : s.ordering.length = 0 := by rw [(Salsa.mkState_spec hst).1]; rfl
        simp only [Salsa.loop, Salsa.iter, if_pos h0] at hr
        cases hr

theorem operations_pos {l : LayerIn D} {rl : Operand → List D} {rels : List (Relation D)} (h : Whole.LayerOk l rl rels) : 0 < Whole.operations l := by
  obtain ⟨s1, s2, -, -, s5, -⟩ := Whole.engine_sizes h
  have : (0 : ℤ) < ((l.sizes.map fun e => (e.1, (e.2 : Int))).map Prod.snd).prod := List.prod_pos fun x hx => by
    obtain ⟨e, he, rfl⟩ := List.mem_map.1 hx
    have := s2 e.1 e.2 (Dict.get?_of_mem s1 he)
    omega
  have h2 : (0 : ℚ) < (Whole.operations l : ℕ) := by
    rw [← s5]
    exact_mod_cast this
  exact_mod_cast h2

/-- A mapping for which the engine cannot fail: loops are left, no dimension is unrolled twice, all orders of the loops fit the memories, and no two movements of a port
happen exactly once. -/
structure Smooth (fact : Nat → List (Nat × Nat)) (c : Acc OA) (l : LayerIn D) (t : Search.Task D) : Prop where
  left : ∃ d s, l.sizes.get? d = some s ∧ (((Whole.spatialLoops t).filter fun x => x.1 = d).map Prod.snd).prod < (s : ℚ)
  once : ((Whole.spatialLoops t).map Prod.fst).Nodup
  fits : ∀ p, Left fact l t p → ∃ j, Search.mapOrder c.hw c.topo t (p.map fun l => (l.1, (l.2 : ℚ))) = .ok j
  apart : ∀ p, Left fact l t p → ∀ j, Search.mapOrder c.hw c.topo (guess t) (p.map fun l => (l.1, (l.2 : ℚ))) = .ok j ∨
    Search.mapOrder c.hw c.topo t (p.map fun l => (l.1, (l.2 : ℚ))) = .ok j → Separate c.hw j

/-- C164: if all mappings of all layers are such, multiplications take energy and no memory has a negative price, a call has an answer, whatever is drawn. -/
theorem annealed_works (F : FileOk a) (O : OptionsOk o) (hf : Lpf.FactContract fact) (hn : ∀ n ∈ nodes, n.skip = false → ∃ rl rels, NodeOk a n rl rels)
    (hk : ∀ n sm l, ((luck n sm).shuffle l).Perm l) (hd : InRange cacti fact a o nodes luck) {opt : String} (ho : Known opt) (hmac : 0 < a.macEnergy)
    (hp : ∀ m ∈ a.mems, 0 ≤ (Whole.prices cacti m).1 ∧ 0 ≤ (Whole.prices cacti m).2)
    (hs : ∀ n ∈ nodes, n.skip = false → ∀ sms c, spatialMappings o a n = .ok sms → Whole.accelerator cacti a = .ok c → ∀ sm ∈ sms, ∀ t, Whole.task a c n.layer sm = .ok t →
      Smooth fact c n.layer t) : ∃ ans, network cacti fact ex a o opt nodes luck = .ok ans := by
  rcases annealed_outcome (ex := ex) F O hf hn hk hd ho with h | ⟨e, -, n, hmem, hskip, sms, c, t, hsms, hc, sm, hsm, ht, hh⟩
  · exact h
  exfalso
  have S := hs n hmem hskip sms c hsms hc sm hsm t ht
  obtain ⟨rl, rels, K⟩ := hn n hmem hskip
  obtain ⟨sms', g1, -, g3⟩ := Net.generated F K O
  rw [hsms] at g1
  cases g1
  have I := (g3 sm hsm).1
  rcases hh with ⟨-, p, hl, j, hz⟩ | ⟨-, h⟩ | ⟨-, h⟩ | ⟨-, p, hl, h⟩
  · obtain ⟨t', array, array', ht', P, P', eops, eL⟩ := guess_prepared (cacti := cacti) I hc
    rw [ht] at ht'
    cases ht'
    obtain ⟨c', hc', C⟩ := Whole.accelerator_ok (cacti := cacti) I.acc
    rw [hc] at hc'
    cases hc'
    have hlk : ∀ p ∈ c.hw.ports, ∀ k ∈ p.served, k.1 ∈ t.ops := fun p hp k hk => by
      obtain ⟨m, hm, hmk⟩ := C.linked p hp k hk
      rw [eops]
      exact I.linked m hm _ hmk
    have hO := left_order hf I (t := t) eL hl
    have hO' : Search.Order (guess t) (p.map fun l => (l.1, (l.2 : ℚ))) := ⟨hO.whole, hO.dims⟩
    have hcalm : ∀ {t' : Search.Task D} {array : List (D × ℚ)}, Search.Prepared c.hw c.topo t' rl rels array → Search.Order t' (p.map fun l => (l.1, (l.2 : ℚ))) →
        t'.ops = t.ops → Search.mapOrder c.hw c.topo t' (p.map fun l => (l.1, (l.2 : ℚ))) = .ok j → Separate c.hw j → evaluate c.hw j ≠ .error .zeroDivision := by
      intro t' array P hO e hj hsep hz
      obtain ⟨tm, -, e1, -⟩ := Search.mapOrder_ok P hj
      obtain ⟨r, hr, -⟩ := Evaluate.ordered_partial (R := { toMapped := Search.mapped P hO hj, linked := by rw [e1, e]; exact hlk }) hsep
      rw [hz] at hr
      cases hr
    rcases hz with ⟨hj, hz | ⟨r, hr, hz⟩⟩ | ⟨hj, hz⟩
    · exact hcalm P' hO' rfl hj (S.apart p hl j (Or.inl hj)) hz
    · obtain ⟨tm, -, -, -, eL', -⟩ := Search.mapOrder_ok P' hj
      obtain ⟨p1, p2⟩ := Whole.accelerator_prices hc
      obtain ⟨w1, w2, -⟩ := Evaluate.energy_bounds (Search.mapped P' hO' hj) (fun x hx => by
        obtain ⟨m, hm, hx⟩ := p2 x hx
        have := hp m hm
        rw [← hx] at this
        exact this) hr
      obtain ⟨-, -, -, -, -, s6⟩ := Whole.engine_sizes I.layer
      have hpos := operations_pos I.layer
      have : r.energy.total = a.macEnergy * (Whole.operations n.layer : ℕ) + r.energy.mem := by
        rw [w1, p1, ← s6, eL', show (guess t).L = t.L from rfl, eL]
        rfl
      have h1 : 0 < a.macEnergy * (Whole.operations n.layer : ℕ) := mul_pos hmac (by exact_mod_cast hpos)
      linarith
    · exact hcalm P hO rfl hj (S.apart p hl j (Or.inr hj)) hz
  · obtain ⟨d, s, h1, h2⟩ := S.left
    exact absurd (h d s h1) (not_le.2 h2)
  · exact h S.once
  · obtain ⟨j, hj⟩ := S.fits p hl
    rw [hj] at h
    cases h

end Verif.Anneal
