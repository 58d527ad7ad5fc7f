import Verif.Engine.Model
import Verif.TemporalLoops.Props
import Verif.Lpf.Props
import Verif.Multiperm.Props
import Verif.Alloc.Props

/-! C09 (which orders the engine yields) and C56 (end-to-end: every yielded mapping covers the layer). -/

namespace Verif.Engine

/-- The two exceptions that mean "this loop order does not fit" (memory_allocator.py:23-28). -/
def TooSmall (e : PyErr) : Prop := e = .memoryHierarchyTooSmall ∨ e = .memoryTooSmall

section
variable {O T : Type}

theorem orderLoop_cons_ok {alloc : O → Except PyErr T} {o : O} {t : T} (h : alloc o = .ok t) (os : List O) (y : Bool) :
    orderLoop alloc (o :: os) y = (t :: (orderLoop alloc os true).1, (orderLoop alloc os true).2) := by
  simp [orderLoop, h]

theorem orderLoop_cons_small {alloc : O → Except PyErr T} {o : O} {e : PyErr} (h : alloc o = .error e) (he : TooSmall e)
    (os : List O) (y : Bool) : orderLoop alloc (o :: os) y = orderLoop alloc os y := by
  rcases he with rfl | rfl <;> simp [orderLoop, h]

theorem orderLoop_cons_other {alloc : O → Except PyErr T} {o : O} {e : PyErr} (h : alloc o = .error e) (he : ¬ TooSmall e)
    (os : List O) (y : Bool) : orderLoop alloc (o :: os) y = ([], some e) := by
  unfold TooSmall at he
  push Not at he
  cases e <;> simp_all [orderLoop]

theorem orderLoop_append {alloc : O → Except PyErr T} (hs : List O) (rest : List O)
    (hok : ∀ o ∈ hs, ∀ e, alloc o = .error e → TooSmall e) : ∀ y : Bool,
    orderLoop alloc (hs ++ rest) y =
      (hs.filterMap (fun o => (alloc o).toOption) ++
        (orderLoop alloc rest (y || !(hs.filterMap (fun o => (alloc o).toOption)).isEmpty)).1,
       (orderLoop alloc rest (y || !(hs.filterMap (fun o => (alloc o).toOption)).isEmpty)).2) := by
  induction hs with
  | nil => intro y; simp
  | cons o os ih =>
    intro y
    have ih := ih (fun o' ho' => hok o' (by simp [ho']))
    cases h : alloc o with
    | ok t =>
      rw [List.cons_append, orderLoop_cons_ok h, ih true]
      simp [h, Except.toOption]
    | error e =>
      rw [List.cons_append, orderLoop_cons_small h (hok o (by simp) e h), ih y]
      simp [h, Except.toOption]

/-- C09: if allocation only ever fails with a too-small error, the engine yields exactly the mappings of the orders that fit, in
enumeration order, and raises the no-valid-ordering error iff there is none. -/
theorem engine_yields_fitting (alloc : O → Except PyErr T) (L : List O)
    (hok : ∀ o ∈ L, ∀ e, alloc o = .error e → TooSmall e) :
    (orderLoop alloc L false).1 = L.filterMap (fun o => (alloc o).toOption) ∧
    ((orderLoop alloc L false).2 = some .noValidOrdering ↔ ∀ o ∈ L, ∃ e, alloc o = .error e) ∧
    ((orderLoop alloc L false).2 = none ↔ ∃ o ∈ L, ∃ t, alloc o = .ok t) := by
  have h := orderLoop_append (alloc := alloc) L [] hok false
  rw [List.append_nil] at h
  rw [h]
  simp only [orderLoop, List.append_nil, Bool.false_or]
  have hemp : (L.filterMap (fun o => (alloc o).toOption)) = [] ↔ ∀ o ∈ L, ∃ e, alloc o = .error e := by
    rw [List.filterMap_eq_nil_iff]
    refine forall₂_congr fun o _ => ?_
    cases alloc o with
    | ok t => simp [Except.toOption]
    | error e => simp [Except.toOption]
  refine ⟨trivial, ?_, ?_⟩
  · rw [← hemp]
    by_cases hc : (L.filterMap (fun o => (alloc o).toOption)) = []
    · simp [hc]
    · have : (L.filterMap (fun o => (alloc o).toOption)).isEmpty = false := by simpa using hc
      simp only [this, Bool.not_false, if_true]
      simp [hc]
  · have hneg : (∃ o ∈ L, ∃ t, alloc o = .ok t) ↔ ¬ ∀ o ∈ L, ∃ e, alloc o = .error e := by
      push Not
      refine exists_congr fun o => and_congr_right fun _ => ?_
      cases alloc o with
      | ok t => simp
      | error e => simp
    rw [hneg, ← hemp]
    by_cases hc : (L.filterMap (fun o => (alloc o).toOption)) = []
    · simp [hc]
    · have : (L.filterMap (fun o => (alloc o).toOption)).isEmpty = false := by simpa using hc
      simp only [this, Bool.not_false, if_true]
      simp [hc]

/-- C09: any other exception ends the enumeration with that exception, after the mappings of the fitting orders before it. -/
theorem engine_other_exception (alloc : O → Except PyErr T) (pre post : List O) (o : O) (e : PyErr)
    (hok : ∀ o ∈ pre, ∀ e, alloc o = .error e → TooSmall e) (h : alloc o = .error e) (he : ¬ TooSmall e) :
    orderLoop alloc (pre ++ o :: post) false = (pre.filterMap (fun o => (alloc o).toOption), some e) := by
  rw [orderLoop_append pre (o :: post) hok false, orderLoop_cons_other h he]
  simp

/-- Hypotheses of the C09 theorems on a case with fitting and non-fitting orders and another exception. -/
example : orderLoop (fun n : Nat => if n = 3 then .error .keyError else if n % 2 = 0 then .ok n else .error .memoryTooSmall) [1, 2, 4, 3, 6] false =
    ([2, 4], some .keyError) := by decide

example : orderLoop (fun n : Nat => if n % 2 = 0 then .ok n else .error .memoryTooSmall) [1, 3] false =
    ([], some .noValidOrdering) := by decide

end

variable {D : Type} [LinearOrder D]

/-- Number of iterations over dimension `d` in a list of loops with rational sizes. -/
def iterQ (loops : List (D × ℚ)) (d : D) : ℚ := ((loops.filter (fun l => decide (l.1 = d))).map Prod.snd).prod

theorem iterQ_toAlloc (o : List (D × Nat)) (d : D) :
    iterQ (toAlloc (o.map (fun l => (toLex l : D ×ₗ Nat)))) d = (Lpf.iterations o d : ℚ) := by
  have e : toAlloc (o.map (fun l => (toLex l : D ×ₗ Nat))) = o.map (fun l => (l.1, (l.2 : ℚ))) := by
    unfold toAlloc; rw [List.map_map]; rfl
  rw [e]
  clear e
  induction o with
  | nil => simp [iterQ, Lpf.iterations]
  | cons l o ih =>
    unfold iterQ Lpf.iterations at ih ⊢
    by_cases h : l.1 = d
    · simp [h] at ih ⊢; left; exact ih
    · simp [h] at ih ⊢; exact ih

theorem iterQ_perm {a b : List (D × ℚ)} (h : a.Perm b) (d : D) : iterQ a d = iterQ b d :=
  ((h.filter _).map _).prod_eq

theorem limitStep_keys {statics : List (D × Nat)} {st st' : Dict D Lpf.Ent} (h : Lpf.limitStep statics st = .ok st') : st'.keys = st.keys := by
  unfold Lpf.limitStep at h
  cases hm : Lpf.maxDim st with
  | none => rw [hm] at h; cases h
  | some r =>
    rw [hm] at h
    simp only at h
    split at h
    · cases h
    · cases h
      have hr : r.1 ∈ st.keys := List.mem_map.2 ⟨r, (Lpf.maxDim_spec hm).1, rfl⟩
      rw [Dict.keys_set, if_pos hr]

theorem limitLoop_keys {statics : List (D × Nat)} : ∀ (n : Nat) {st st' : Dict D Lpf.Ent}, Lpf.limitLoop statics n st = .ok st' → st'.keys = st.keys
  | 0, st, st', h => by unfold Lpf.limitLoop at h; cases h; rfl
  | n + 1, st, st', h => by
    unfold Lpf.limitLoop at h
    split at h
    · cases h
    · rename_i st1 h1
      rw [limitLoop_keys n h, limitStep_keys h1]

/-- The loop prime factors are over dimensions of the temporal loops, or over the first dimension of the layer. -/
theorem factors_dims {fact : Nat → List (Nat × Nat)} {ld : D} {lds : List D} {sizes : Dict D Nat} {limit : Option Nat} {st : Dict D Lpf.Ent}
    (h : Lpf.getPrimeFactors fact (ld :: lds) sizes none limit = .ok st) : ∀ x ∈ Lpf.lpfsOf st, x.1 ∈ sizes.keys ∨ x.1 = ld := by
  have hst : st.keys = sizes.keys ∨ st.keys = [ld] := by
    unfold Lpf.getPrimeFactors at h
    cases hp : Lpf.primeTable fact (ld :: lds) sizes with
    | error e => rw [hp] at h; cases h
    | ok s0 =>
      rw [hp] at h
      have h0 : s0.keys = sizes.keys ∨ s0.keys = [ld] := by
        unfold Lpf.primeTable at hp
        simp only at hp
        split at hp
        · cases hp; exact Or.inr rfl
        · cases hp; left; simp [Dict.keys]
      have h1 : st.keys = s0.keys := by
        unfold Lpf.limitLpfs at h
        simp only at h
        split at h
        · cases h; rfl
        · split at h
          · cases h; rfl
          · exact limitLoop_keys _ h
      rw [h1]; exact h0
  intro x hx
  have hk : x.1 ∈ st.keys := by
    unfold Lpf.lpfsOf at hx
    obtain ⟨p, hp, hx⟩ := List.mem_flatMap.1 hx
    obtain ⟨fc, hfc, hx⟩ := List.mem_flatMap.1 hx
    unfold Lpf.rep at hx
    rw [List.eq_of_mem_replicate hx]
    exact List.mem_map.2 ⟨p, hp, rfl⟩
  rcases hst with e | e
  · left; rwa [e] at hk
  · right; rw [e] at hk; simpa using hk

/-- Everything the enumeration part of the engine produces. -/
theorem run_orders {T : Type} (fact : Nat → List (Nat × Nat)) (hf : Lpf.FactContract fact) (ld : D) (lds : List D) (sizes : Dict D Int)
    (spatial : List (D × Rat)) (hw : sizes.WF) (hpos : ∀ k v, sizes.get? k = some v → 1 ≤ v) (hsp : ∀ l ∈ spatial, 1 ≤ l.2)
    (limit : Option Nat) (hlim : ∀ l, limit = some l → 1 ≤ l) (alloc : Order D → Except PyErr T) :
    ∃ N L, L.Nodup ∧ L ≠ [] ∧ (∀ fuel, N ≤ fuel → run fact (ld :: lds) sizes spatial limit alloc fuel = some (orderLoop alloc L false)) ∧
      (∀ o ∈ L, ∀ o', o' ∈ L ↔ o'.Perm o) ∧
      (∀ o ∈ L, ∀ d s, sizes.get? d = some s →
        (s : ℚ) ≤ ((spatial.filter (fun l => l.1 = d)).map Prod.snd).prod * iterQ (toAlloc o) d) ∧
      (∀ o ∈ L, ∀ l ∈ toAlloc o, (l.1 ∈ sizes.keys ∨ l.1 = ld) ∧ ∃ n : ℕ, l.2 = n ∧ 1 ≤ n) := by
  obtain ⟨t, ht, hcov⟩ := TemporalLoops.loma_covers sizes spatial hw hpos hsp
  obtain ⟨hnd, hgt⟩ := TemporalLoops.loma_nontrivial sizes spatial hw t ht
  set tn : Dict D Nat := t.map (fun p => (p.1, p.2.toNat)) with htn
  have hget : ∀ d, tn.get? d = (t.get? d).map Int.toNat := by
    intro d
    rw [htn]
    clear_value tn
    clear htn ht hcov hnd hgt tn
    induction t with
    | nil => rfl
    | cons p t ih =>
      simp only [List.map_cons, Dict.get?_cons]
      by_cases hp : p.1 = d
      · simp [hp]
      · simp [hp, ih]
  have hwtn : tn.WF := by
    unfold Dict.WF Dict.keys
    rw [htn, List.map_map]
    exact hnd
  have hgt' : ∀ p ∈ tn, 1 < p.2 := by
    intro p hp
    rw [htn] at hp
    obtain ⟨q, hq, rfl⟩ := List.mem_map.1 hp
    have := (hgt q.1 q.2 hq).1
    simp only; omega
  -- the loop prime factors
  obtain ⟨st, hst, hne, hit⟩ : ∃ st, Lpf.getPrimeFactors fact (ld :: lds) tn none limit = .ok st ∧ Lpf.lpfsOf st ≠ [] ∧
      ∀ d, Lpf.iterations (Lpf.lpfsOf st) d = (tn.get? d).getD 1 := by
    by_cases hemp : tn = []
    · obtain ⟨st, h1, h2⟩ := Lpf.prime_factors_empty fact ld lds limit hlim
      refine ⟨st, by rw [hemp]; exact h1, by simp [h2], ?_⟩
      intro d
      rw [h2, hemp]
      by_cases hd : ld = d <;> simp [Lpf.iterations, hd]
    · have key : ∀ st, (∀ d n, tn.get? d = some n → Lpf.iterations (Lpf.lpfsOf st) d = n) →
          (∀ d, tn.get? d = none → Lpf.iterations (Lpf.lpfsOf st) d = 1) →
          Lpf.lpfsOf st ≠ [] ∧ ∀ d, Lpf.iterations (Lpf.lpfsOf st) d = (tn.get? d).getD 1 := by
        intro st h1 h2
        constructor
        · intro hc
          cases htc : tn with
          | nil => exact hemp htc
          | cons p tl =>
            have h3 := h1 p.1 p.2 (by rw [htc, Dict.get?_cons]; simp)
            rw [hc] at h3
            have h4 := hgt' p (by rw [htc]; simp)
            simp [Lpf.iterations] at h3
            omega
        · intro d
          cases h3 : tn.get? d with
          | none => rw [h2 d h3]; rfl
          | some n => rw [h1 d n h3]; rfl
      cases limit with
      | none =>
        obtain ⟨st, h1, h2, h3, _⟩ := Lpf.prime_factors_preserve fact hf (ld :: lds) tn hwtn hgt' hemp
        exact ⟨st, h1, key st h2 h3⟩
      | some l =>
        obtain ⟨_, st, _, h1, h2, h3, _⟩ := Lpf.limit_preserves fact hf (ld :: lds) tn hwtn hgt' hemp l
        exact ⟨st, h1, key st h2 h3⟩
  -- the enumeration
  set ms : Order D := (Lpf.lpfsOf st).map (fun l => (toLex l : D ×ₗ Nat)) with hms
  have hmsne : ms ≠ [] := by rw [hms]; simpa using hne
  obtain ⟨N, L, p1, p2, p3⟩ := Multiperm.permutations_complete ms hmsne
  have hsound := ((Multiperm.permutations_sound ms N).2 L (p3 N le_rfl)).1
  refine ⟨N, L, p1, ?_, ?_, ?_, ?_, ?_⟩
  · intro hc
    have := p2 ms (List.Perm.refl _)
    rw [hc] at this; simp at this
  · intro fuel hfuel
    unfold run
    rw [ht]
    simp only
    rw [← htn, hst]
    simp only
    rw [← hms, p3 fuel hfuel]
  · intro o ho o'
    exact ⟨fun h => (hsound o' h).trans (hsound o ho).symm, fun h => p2 o' (h.trans (hsound o ho))⟩
  · intro o ho d s hs
    have h1 := hcov d s hs
    have h2 : iterQ (toAlloc o) d = (((t.get? d).getD 1 : Int) : ℚ) := by
      have hp : (toAlloc o).Perm (toAlloc ms) := (hsound o ho).map _
      rw [iterQ_perm hp d, hms, iterQ_toAlloc, hit d, hget d]
      cases hd : t.get? d with
      | none => simp
      | some v =>
        have hv : 1 < v := by
          have : (d, v) ∈ t := Dict.mem_of_get? hd
          exact (hgt d v this).1
        simp only [Option.map_some, Option.getD_some]
        have hv' : ((v.toNat : Int)) = v := Int.toNat_of_nonneg (by omega)
        exact_mod_cast hv'
    rw [h2]; exact h1
  · intro o ho l hl
    unfold toAlloc at hl
    obtain ⟨x, hx, rfl⟩ := List.mem_map.1 hl
    have hx' : x ∈ ms := (hsound o ho).mem_iff.1 hx
    rw [hms] at hx'
    obtain ⟨y, hy, rfl⟩ := List.mem_map.1 hx'
    refine ⟨?_, y.2, rfl, ?_⟩
    · rcases factors_dims hst y hy with hk | hk
      · left
        obtain ⟨q, hq, e⟩ := List.mem_map.1 hk
        rw [htn] at hq
        obtain ⟨z, hz, rfl⟩ := List.mem_map.1 hq
        have := (hgt z.1 z.2 hz).2
        simp only at e
        rw [e] at this
        exact this
      · exact Or.inr hk
    · rw [Nat.one_le_iff_ne_zero]
      intro h0
      have hz : Lpf.iterations (Lpf.lpfsOf st) y.1 = 0 := by
        unfold Lpf.iterations
        exact List.prod_eq_zero (List.mem_map.2 ⟨y, List.mem_filter.2 ⟨hy, by simp⟩, h0⟩)
      rw [hit y.1] at hz
      cases hg : tn.get? y.1 with
      | none => rw [hg] at hz; cases hz
      | some n =>
        rw [hg] at hz
        have := hgt' _ (Dict.mem_of_get? hg)
        simp only [Option.getD_some] at hz
        simp only at this
        omega

/-- C56: every temporal mapping the engine yields covers the layer.  For every operand, the loops of all its memory levels
together with the spatial unrolling iterate at least the size of every layer dimension, and all operands have the same loops
in the same order.  The engine stops for every layer (some fuel is enough). -/
theorem engine_covers {Op : Type} [DecidableEq Op] (fact : Nat → List (Nat × Nat)) (hf : Lpf.FactContract fact) (ld : D) (lds : List D)
    (sizes : Dict D Int) (spatial : List (D × Rat)) (hw : sizes.WF) (hpos : ∀ k v, sizes.get? k = some v → 1 ≤ v)
    (hsp : ∀ l ∈ spatial, 1 ≤ l.2) (limit : Option Nat) (hlim : ∀ l, limit = some l → 1 ≤ l)
    (env : Alloc.Env Op D) (nodes : List (Alloc.Node Op)) (hn : ∀ n ∈ nodes, n.ops.Nodup)
    (htop : ∀ op ∈ env.memOps, ∃ n ∈ nodes, op ∈ n.ops ∧ n.isTop op = true) :
    ∃ N ys err, (∀ fuel, N ≤ fuel → run fact (ld :: lds) sizes spatial limit (fun o => Alloc.run env (toAlloc o) nodes) fuel = some (ys, err)) ∧
      ∀ tm ∈ ys, ∀ op ∈ env.memOps, (∀ op' ∈ env.memOps, (tm op').flatten = (tm op).flatten) ∧
        ∀ d s, sizes.get? d = some s →
          (s : ℚ) ≤ ((spatial.filter (fun l => l.1 = d)).map Prod.snd).prod * iterQ (tm op).flatten d := by
  obtain ⟨N, L, _, _, h3, _, h5, _⟩ := run_orders fact hf ld lds sizes spatial hw hpos hsp limit hlim (fun o => Alloc.run env (toAlloc o) nodes)
  refine ⟨N, _, _, h3, ?_⟩
  have hmem : ∀ (L : List (Order D)) (y : Bool) (tm), tm ∈ (orderLoop (fun o => Alloc.run env (toAlloc o) nodes) L y).1 →
      ∃ o ∈ L, Alloc.run env (toAlloc o) nodes = .ok tm := by
    intro L
    induction L with
    | nil => intro y tm h; simp [orderLoop] at h
    | cons o os ih =>
      intro y tm h
      cases ha : Alloc.run env (toAlloc o) nodes with
      | ok t =>
        rw [orderLoop_cons_ok (alloc := fun o => Alloc.run env (toAlloc o) nodes) ha] at h
        rcases List.mem_cons.1 h with rfl | h
        · exact ⟨o, by simp, ha⟩
        · obtain ⟨o', ho', e⟩ := ih _ _ h
          exact ⟨o', by simp [ho'], e⟩
      | error e =>
        by_cases hs : TooSmall e
        · rw [orderLoop_cons_small (alloc := fun o => Alloc.run env (toAlloc o) nodes) ha hs] at h
          obtain ⟨o', ho', e⟩ := ih _ _ h
          exact ⟨o', by simp [ho'], e⟩
        · rw [orderLoop_cons_other (alloc := fun o => Alloc.run env (toAlloc o) nodes) ha hs] at h
          simp at h
  intro tm htm op hop
  obtain ⟨o, ho, hrun⟩ := hmem L false tm htm
  have hfl : ∀ op ∈ env.memOps, (tm op).flatten = toAlloc o := fun op hop =>
    (Alloc.run_keeps_order hn hrun op hop (htop op hop)).1
  refine ⟨fun op' hop' => by rw [hfl op hop, hfl op' hop'], ?_⟩
  intro d s hs
  rw [hfl op hop]
  exact h5 o ho d s hs

/-- C56: conversely nothing that fits is missed: every distinct loop order is tried exactly once (`L` has no duplicates and is
closed under rearrangement), and what is yielded is the outcome of the loop over `L`. -/
theorem engine_tries_all {T : Type} (fact : Nat → List (Nat × Nat)) (hf : Lpf.FactContract fact) (ld : D) (lds : List D) (sizes : Dict D Int)
    (spatial : List (D × Rat)) (hw : sizes.WF) (hpos : ∀ k v, sizes.get? k = some v → 1 ≤ v) (hsp : ∀ l ∈ spatial, 1 ≤ l.2)
    (limit : Option Nat) (hlim : ∀ l, limit = some l → 1 ≤ l) (alloc : Order D → Except PyErr T)
    (hsmall : ∀ o e, alloc o = .error e → TooSmall e) :
    ∃ N L, L.Nodup ∧ L ≠ [] ∧ (∀ o ∈ L, ∀ o', o'.Perm o → o' ∈ L) ∧
      ∀ fuel, N ≤ fuel → ∃ err, run fact (ld :: lds) sizes spatial limit alloc fuel = some (L.filterMap (fun o => (alloc o).toOption), err) ∧
        (err = some .noValidOrdering ↔ ∀ o ∈ L, ∃ e, alloc o = .error e) := by
  obtain ⟨N, L, h1, h2, h3, h4, _⟩ := run_orders fact hf ld lds sizes spatial hw hpos hsp limit hlim alloc
  refine ⟨N, L, h1, h2, fun o ho o' => (h4 o ho o').2, fun fuel hfu => ?_⟩
  obtain ⟨e1, e2, _⟩ := engine_yields_fitting alloc L (fun o _ e he => hsmall o e he)
  refine ⟨(orderLoop alloc L false).2, ?_, e2⟩
  rw [h3 fuel hfu, ← e1]

/-- A layer of sizes 4 × 3 with the second dimension partly unrolled, and the two-level example memory of `Verif.Alloc`. -/
example : (run (fun n => if n = 4 then [(2, 2)] else if n = 2 then [(2, 1)] else []) [0, 1] [(0, 4), (1, 3)] [(1, 2)] none
    (fun o => (Alloc.run (Alloc.exEnv false) (toAlloc o) Alloc.exNodes).map (fun tm => tm 0)) 10) =
    some ([[[(1, 2), (0, 2), (0, 2)], []], [[(0, 2), (1, 2), (0, 2)], []], [[(0, 2), (0, 2), (1, 2)], []]], none) := by decide +kernel

end Verif.Engine
