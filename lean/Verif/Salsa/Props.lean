import Verif.Salsa.Model
import Verif.TemporalLoops.Props
import Verif.Lpf.Props
import Mathlib.Data.List.ReduceOption

/-! Properties of the annealing search: C37 (legal orders, best state), C65 (worker processes), C66 (every order can be reached). -/

namespace Verif.Salsa

variable {L C : Type}

theorem swapList_perm {o o' : List L} {i j : Nat} (h : swapList o i j = .ok o') : o'.Perm o := by
  unfold swapList at h
  split at h
  · rename_i a b ha hb
    cases h
    obtain ⟨hi, rfl⟩ := List.getElem?_eq_some_iff.1 ha
    obtain ⟨hj, rfl⟩ := List.getElem?_eq_some_iff.1 hb
    exact List.set_set_perm hi hj
  · cases h

theorem mkState_spec {eval : List L → Except PyErr C} {crit : C → ℚ} {o : List L} {s : State L C} (h : mkState eval crit o = .ok s) :
    s.ordering = o ∧ eval o = .ok s.cme ∧ s.crit = crit s.cme := by
  unfold mkState at h
  cases he : eval o with
  | error e => rw [he] at h; cases h
  | ok c => rw [he] at h; cases h; exact ⟨rfl, rfl, rfl⟩

/-- A state that stands for an order of the loops `lpfs` and carries its own evaluation. -/
def Legal (eval : List L → Except PyErr C) (crit : C → ℚ) (lpfs : List L) (s : State L C) : Prop :=
  s.ordering.Perm lpfs ∧ eval s.ordering = .ok s.cme ∧ s.crit = crit s.cme

/-- What holds after every iteration. -/
structure Inv (eval : List L → Except PyErr C) (crit : C → ℚ) (lpfs : List L) (r : Run L C) : Prop where
  legal : ∀ e ∈ r.log, Legal eval crit lpfs e.1
  cur : (r.cur, true) ∈ r.log
  best : (r.best, true) ∈ r.log
  least : ∀ s, (s, true) ∈ r.log → r.best.crit ≤ s.crit

theorem iter_inv {eval : List L → Except PyErr C} {crit : C → ℚ} {ex : ℚ → ℚ} {t0 : ℚ} {it : Nat} {d : Draw} {lpfs : List L} {r r' : Run L C}
    (hi : Inv eval crit lpfs r) (h : iter eval crit ex t0 it d r = .ok r') : Inv eval crit lpfs r' := by
  unfold iter at h
  simp only at h
  split at h
  · cases h
  · cases hs : swap eval crit r.cur d.i d.j with
    | error e => rw [hs] at h; cases h
    | ok next =>
      rw [hs] at h
      simp only at h
      have hn : Legal eval crit lpfs next := by
        unfold swap at hs
        cases hw : swapList r.cur.ordering d.i d.j with
        | error e => rw [hw] at hs; cases hs
        | ok o =>
          rw [hw] at hs
          simp only at hs
          obtain ⟨h1, h2, h3⟩ := mkState_spec hs
          refine ⟨?_, by rw [h1]; exact h2, h3⟩
          rw [h1]
          exact (swapList_perm hw).trans (hi.legal _ hi.cur).1
      split at h
      · cases h
      · split at h
        · cases h
          refine ⟨?_, by simp, ?_, ?_⟩
          · intro e he
            rcases List.mem_append.1 he with he | he
            · exact hi.legal e he
            · rw [List.mem_singleton.1 he]; exact hn
          · simp only
            split
            · simp
            · exact List.mem_append_left _ hi.best
          · intro s hs'
            simp only at hs' ⊢
            rcases List.mem_append.1 hs' with hs' | hs'
            · have := hi.least s hs'
              split
              · rename_i hlt; exact hlt.le.trans this
              · exact this
            · have : s = next := by
                have := List.mem_singleton.1 hs'
                exact congrArg Prod.fst this
              subst this
              split
              · exact le_rfl
              · rename_i hge; exact not_lt.1 hge
        · cases h
          refine ⟨?_, List.mem_append_left _ hi.cur, List.mem_append_left _ hi.best, ?_⟩
          · intro e he
            rcases List.mem_append.1 he with he | he
            · exact hi.legal e he
            · rw [List.mem_singleton.1 he]; exact hn
          · intro s hs'
            rcases List.mem_append.1 hs' with hs' | hs'
            · exact hi.least s hs'
            · simp at hs'

theorem loop_inv {eval : List L → Except PyErr C} {crit : C → ℚ} {ex : ℚ → ℚ} {t0 : ℚ} {lpfs : List L} (ds : List Draw) {it : Nat} {r r' : Run L C}
    (hi : Inv eval crit lpfs r) (h : loop eval crit ex t0 it ds r = .ok r') : Inv eval crit lpfs r' := by
  induction ds generalizing it r with
  | nil => cases h; exact hi
  | cons d ds ih =>
    unfold loop at h
    cases hd : iter eval crit ex t0 it d r with
    | error e => rw [hd] at h; cases h
    | ok r1 => rw [hd] at h; exact ih (iter_inv hi hd) h

theorem anneal_inv {eval : List L → Except PyErr C} {crit : C → ℚ} {ex : ℚ → ℚ} {t0 : ℚ} {shuffle : List L → List L} {lpfs : List L}
    {draws : List Draw} {r : Run L C} (hsh : (shuffle lpfs).Perm lpfs) (h : anneal eval crit ex t0 shuffle lpfs draws = .ok r) :
    Inv eval crit lpfs r := by
  unfold anneal at h
  cases hm : mkState eval crit (shuffle lpfs) with
  | error e => rw [hm] at h; cases h
  | ok s =>
    rw [hm] at h
    obtain ⟨h1, h2, h3⟩ := mkState_spec hm
    refine loop_inv draws ⟨?_, by simp, by simp, ?_⟩ h
    · intro e he
      rw [List.mem_singleton.1 he]
      exact ⟨by rw [h1]; exact hsh, by rw [h1]; exact h2, h3⟩
    · intro s' hs'
      have := congrArg Prod.fst (List.mem_singleton.1 hs')
      simp only at this
      rw [this]

/-- C37: whatever numbers are drawn (also outside the documented ranges) and whatever the objective is, every state evaluated stands for a permutation
of the loops, with its own cost. -/
theorem salsa_orders {eval : List L → Except PyErr C} {crit : C → ℚ} {ex : ℚ → ℚ} {t0 : ℚ} {shuffle : List L → List L} {lpfs : List L}
    {draws : List Draw} {r : Run L C} (hsh : (shuffle lpfs).Perm lpfs) (h : anneal eval crit ex t0 shuffle lpfs draws = .ok r) :
    ∀ e ∈ r.log, e.1.ordering.Perm lpfs ∧ eval e.1.ordering = .ok e.1.cme ∧ e.1.crit = crit e.1.cme :=
  (anneal_inv hsh h).legal

/-- C37: the returned state was accepted and is the best of all accepted ones. -/
theorem salsa_best_accepted {eval : List L → Except PyErr C} {crit : C → ℚ} {ex : ℚ → ℚ} {t0 : ℚ} {shuffle : List L → List L} {lpfs : List L}
    {draws : List Draw} {r : Run L C} (hsh : (shuffle lpfs).Perm lpfs) (h : anneal eval crit ex t0 shuffle lpfs draws = .ok r) :
    (r.best, true) ∈ r.log ∧ ∀ s, (s, true) ∈ r.log → r.best.crit ≤ s.crit :=
  ⟨(anneal_inv hsh h).best, (anneal_inv hsh h).least⟩

theorem temp_pos {t0 : ℚ} (h : 0 < t0) (it : Nat) : 0 < t0 * (995 / 1000 : ℚ) ^ it := by positivity

theorem iter_least {eval : List L → Except PyErr C} {crit : C → ℚ} {ex : ℚ → ℚ} {t0 : ℚ} {it : Nat} {d : Draw} {r r' : Run L C}
    (hex : ∀ y, 0 ≤ y → 1 ≤ ex y) (ht : 0 < t0) (hx : d.x < 1) (hpos : ∀ c, 0 < crit c) (hb : r.best.crit ≤ r.cur.crit)
    (hl : ∀ e ∈ r.log, r.best.crit ≤ e.1.crit) (h : iter eval crit ex t0 it d r = .ok r') : ∀ e ∈ r'.log, r'.best.crit ≤ e.1.crit := by
  unfold iter at h
  simp only at h
  split at h
  · cases h
  · cases hs : swap eval crit r.cur d.i d.j with
    | error e => rw [hs] at h; cases h
    | ok next =>
      rw [hs] at h
      simp only at h
      have hnp : 0 < next.crit := by
        unfold swap at hs
        cases hw : swapList r.cur.ordering d.i d.j with
        | error e => rw [hw] at hs; cases hs
        | ok o => rw [hw] at hs; rw [(mkState_spec hs).2.2]; exact hpos _
      split at h
      · cases h
      · split at h
        · cases h
          intro e he
          simp only at he ⊢
          rcases List.mem_append.1 he with he | he
          · split
            · rename_i hlt; exact hlt.le.trans (hl e he)
            · exact hl e he
          · rw [List.mem_singleton.1 he]
            split
            · exact le_rfl
            · rename_i hge; exact not_lt.1 hge
        · rename_i hrej
          cases h
          intro e he
          rcases List.mem_append.1 he with he | he
          · exact hl e he
          · rw [List.mem_singleton.1 he]
            simp only
            by_contra hc
            push Not at hc
            apply hrej
            refine lt_of_lt_of_le hx (hex _ (div_nonneg ?_ (temp_pos ht it).le))
            rw [sub_nonneg, le_div_iff₀ hnp]
            linarith

/-- C37, stronger: with positive objective values, a positive starting temperature, draws below one and `exp y ≥ 1` for `y ≥ 0`, no state that was
ever evaluated is better than the returned one - also none of the rejected ones. -/
theorem salsa_best {eval : List L → Except PyErr C} {crit : C → ℚ} {ex : ℚ → ℚ} {t0 : ℚ} {shuffle : List L → List L} {lpfs : List L}
    {draws : List Draw} {r : Run L C} (hex : ∀ y, 0 ≤ y → 1 ≤ ex y) (ht : 0 < t0) (hx : ∀ d ∈ draws, d.x < 1) (hpos : ∀ c, 0 < crit c)
    (hsh : (shuffle lpfs).Perm lpfs) (h : anneal eval crit ex t0 shuffle lpfs draws = .ok r) : ∀ e ∈ r.log, r.best.crit ≤ e.1.crit := by
  have key : ∀ (ds : List Draw) (it : Nat) (r r' : Run L C), (∀ d ∈ ds, d.x < 1) → Inv eval crit lpfs r → (∀ e ∈ r.log, r.best.crit ≤ e.1.crit) →
      loop eval crit ex t0 it ds r = .ok r' → ∀ e ∈ r'.log, r'.best.crit ≤ e.1.crit := by
    intro ds
    induction ds with
    | nil => intro it r r' _ _ hl hr; cases hr; exact hl
    | cons d ds ih =>
      intro it r r' hx hi hl hr
      unfold loop at hr
      cases hd : iter eval crit ex t0 it d r with
      | error e => rw [hd] at hr; cases hr
      | ok r1 =>
        rw [hd] at hr
        exact ih _ r1 r' (fun d' hd' => hx d' (List.mem_cons_of_mem _ hd')) (iter_inv hi hd)
          (iter_least hex ht (hx d List.mem_cons_self) hpos (hi.least _ hi.cur) hl hd) hr
  have h' := h
  unfold anneal at h'
  cases hm : mkState eval crit (shuffle lpfs) with
  | error e => rw [hm] at h'; cases h'
  | ok s =>
    rw [hm] at h'
    obtain ⟨h1, h2, h3⟩ := mkState_spec hm
    refine key draws 0 _ r hx ⟨?_, by simp, by simp, ?_⟩ (by simp) h'
    · intro e he
      rw [List.mem_singleton.1 he]
      exact ⟨by rw [h1]; exact hsh, by rw [h1]; exact h2, h3⟩
    · intro s' hs'
      have := congrArg Prod.fst (List.mem_singleton.1 hs')
      simp only at this
      rw [this]

/-- The number of evaluated states: the start and one for each iteration. -/
theorem salsa_count {eval : List L → Except PyErr C} {crit : C → ℚ} {ex : ℚ → ℚ} {t0 : ℚ} {shuffle : List L → List L} {lpfs : List L}
    {draws : List Draw} {r : Run L C} (h : anneal eval crit ex t0 shuffle lpfs draws = .ok r) : r.log.length = draws.length + 1 := by
  have key : ∀ (ds : List Draw) (it : Nat) (r r' : Run L C), loop eval crit ex t0 it ds r = .ok r' → r'.log.length = ds.length + r.log.length := by
    intro ds
    induction ds with
    | nil => intro it r r' hr; cases hr; simp
    | cons d ds ih =>
      intro it r r' hr
      unfold loop at hr
      cases hd : iter eval crit ex t0 it d r with
      | error e => rw [hd] at hr; cases hr
      | ok r1 =>
        rw [hd] at hr
        rw [ih _ r1 r' hr]
        have : r1.log.length = r.log.length + 1 := by
          unfold iter at hd
          simp only at hd
          split at hd
          · cases hd
          · cases hs : swap eval crit r.cur d.i d.j with
            | error e => rw [hs] at hd; cases hd
            | ok next =>
              rw [hs] at hd
              simp only at hd
              split at hd
              · cases hd
              · split at hd <;> · cases hd; simp
        rw [this, List.length_cons]; omega
  unfold anneal at h
  cases hm : mkState eval crit (shuffle lpfs) with
  | error e => rw [hm] at h; cases h
  | ok s => rw [hm] at h; rw [key _ _ _ _ h]; simp

/-- C37: the search does not fail when the layer has a temporal loop, every order can be evaluated to a positive objective, and the draws are in range. -/
theorem salsa_ok {eval : List L → Except PyErr C} {crit : C → ℚ} {ex : ℚ → ℚ} {t0 : ℚ} {shuffle : List L → List L} {lpfs : List L} {draws : List Draw}
    (hsh : (shuffle lpfs).Perm lpfs) (hne : lpfs ≠ []) (ht : 0 < t0) (hpos : ∀ c, 0 < crit c) (heval : ∀ o, o.Perm lpfs → ∃ c, eval o = .ok c)
    (hd : ∀ d ∈ draws, d.i < lpfs.length ∧ d.j < lpfs.length) : ∃ r, anneal eval crit ex t0 shuffle lpfs draws = .ok r := by
  have key : ∀ (ds : List Draw) (it : Nat) (r : Run L C), (∀ d ∈ ds, d.i < lpfs.length ∧ d.j < lpfs.length) → Inv eval crit lpfs r →
      ∃ r', loop eval crit ex t0 it ds r = .ok r' := by
    intro ds
    induction ds with
    | nil => intro it r _ _; exact ⟨r, rfl⟩
    | cons d ds ih =>
      intro it r hd hi
      have hp := (hi.legal _ hi.cur).1
      have hlen : r.cur.ordering.length = lpfs.length := hp.length_eq
      obtain ⟨h1, h2⟩ := hd d List.mem_cons_self
      have : ∃ r1, iter eval crit ex t0 it d r = .ok r1 := by
        unfold iter
        simp only
        have hl0 : ¬ r.cur.ordering.length = 0 := by
          rw [hlen]; intro hc; exact hne (List.length_eq_zero_iff.1 hc)
        rw [if_neg hl0]
        have hsw : swapList r.cur.ordering d.i d.j
            = .ok ((r.cur.ordering.set d.i (r.cur.ordering[d.j]'(by omega))).set d.j (r.cur.ordering[d.i]'(by omega))) := by
          unfold swapList
          rw [List.getElem?_eq_getElem (by omega), List.getElem?_eq_getElem (by omega)]
        obtain ⟨c, hc⟩ := heval _ ((swapList_perm hsw).trans hp)
        have hswap : swap eval crit r.cur d.i d.j
            = .ok ⟨(r.cur.ordering.set d.i (r.cur.ordering[d.j]'(by omega))).set d.j (r.cur.ordering[d.i]'(by omega)), c, crit c⟩ := by
          unfold swap
          rw [hsw]
          simp only [mkState, hc]
        rw [hswap]
        simp only
        rw [if_neg (by
          push Not
          exact ⟨(hpos c).ne', (temp_pos ht it).ne'⟩)]
        split <;> exact ⟨_, rfl⟩
      obtain ⟨r1, hr1⟩ := this
      unfold loop
      rw [hr1]
      exact ih _ r1 (fun d' hd' => hd d' (List.mem_cons_of_mem _ hd')) (iter_inv hi hr1)
  unfold anneal
  obtain ⟨c, hc⟩ := heval _ hsh
  simp only [mkState, hc]
  apply key draws 0 _ hd
  refine ⟨?_, by simp, by simp, ?_⟩
  · intro e he
    rw [List.mem_singleton.1 he]
    exact ⟨hsh, hc, rfl⟩
  · intro s' hs'
    have := congrArg Prod.fst (List.mem_singleton.1 hs')
    simp only at this
    rw [this]

/-- A layer that is unrolled completely in space has no temporal loop: the search raises `ValueError` in its first iteration (the exhaustive engine
handles the same layer, `Lpf.prime_factors_empty`). -/
theorem salsa_no_loop_false {eval : List L → Except PyErr C} {crit : C → ℚ} {ex : ℚ → ℚ} {t0 : ℚ} {shuffle : List L → List L} {c : C} {d : Draw}
    {ds : List Draw} (hsh : (shuffle []).Perm []) (he : eval [] = .ok c) : anneal eval crit ex t0 shuffle [] (d :: ds) = .error .valueError := by
  have h0 : shuffle [] = [] := List.perm_nil.1 hsh
  simp [anneal, mkState, h0, he, loop, iter]

/-! ### C66: every order can be reached -/

/-- The exchanges of a list of position pairs one after the other. -/
def swaps (o : List L) : List (Nat × Nat) → Except PyErr (List L)
  | [] => .ok o
  | p :: ps =>
    match swapList o p.1 p.2 with
    | .error e => .error e
    | .ok o' => swaps o' ps

theorem swaps_append (o : List L) (ps qs : List (Nat × Nat)) (o1 : List L) (h : swaps o ps = .ok o1) : swaps o (ps ++ qs) = swaps o1 qs := by
  induction ps generalizing o with
  | nil => cases h; rfl
  | cons p ps ih =>
    rw [List.cons_append]
    simp only [swaps] at h ⊢
    cases hs : swapList o p.1 p.2 with
    | error e => rw [hs] at h; cases h
    | ok o' => rw [hs] at h; exact ih o' h

theorem swapList_cons (x : L) (o o' : List L) (i j : Nat) (h : swapList o i j = .ok o') : swapList (x :: o) (i + 1) (j + 1) = .ok (x :: o') := by
  unfold swapList at h ⊢
  simp only [List.getElem?_cons_succ]
  split at h
  · rename_i a b ha hb
    cases h
    simp
  · cases h

theorem swaps_of_perm {o o' : List L} (h : o.Perm o') : ∃ ps : List (Nat × Nat), swaps o ps = .ok o' ∧ ∀ p ∈ ps, p.1 < o.length ∧ p.2 < o.length := by
  induction h with
  | nil => exact ⟨[], rfl, by simp⟩
  | cons x _ ih =>
    rename_i l1 l2 _
    obtain ⟨ps, h1, h2⟩ := ih
    refine ⟨ps.map fun p => (p.1 + 1, p.2 + 1), ?_, ?_⟩
    · clear h2
      induction ps generalizing l1 with
      | nil => cases h1; rfl
      | cons p ps ih =>
        rw [List.map_cons]
        unfold swaps at h1 ⊢
        cases hs : swapList l1 p.1 p.2 with
        | error e => rw [hs] at h1; cases h1
        | ok l' =>
          rw [hs] at h1
          simp only
          rw [swapList_cons x l1 l' p.1 p.2 hs]
          exact ih ((swapList_perm hs).trans ‹_›) h1
    · intro p hp
      obtain ⟨q, hq, rfl⟩ := List.mem_map.1 hp
      have := h2 q hq
      simp only [List.length_cons]
      omega
  | swap x y l => exact ⟨[(0, 1)], rfl, by simp⟩
  | trans h1 _ ih1 ih2 =>
    obtain ⟨ps, a1, a2⟩ := ih1
    obtain ⟨qs, b1, b2⟩ := ih2
    refine ⟨ps ++ qs, by rw [swaps_append _ _ _ _ a1]; exact b1, ?_⟩
    intro p hp
    rcases List.mem_append.1 hp with hp | hp
    · exact a2 p hp
    · rw [h1.length_eq]; exact b2 p hp

/-- C66: every order of the loops can be reached: for some number of iterations and some draws in the documented ranges the search evaluates that order,
hence returns a mapping at least as good. -/
theorem salsa_reaches {eval : List L → Except PyErr C} {crit : C → ℚ} {ex : ℚ → ℚ} {t0 : ℚ} {shuffle : List L → List L} {lpfs : List L}
    (hsh : (shuffle lpfs).Perm lpfs) (hne : lpfs ≠ []) (ht : 0 < t0) (hpos : ∀ c, 0 < crit c) (hex : ∀ y, 0 < ex y)
    (heval : ∀ o, o.Perm lpfs → ∃ c, eval o = .ok c) (target : List L) (hp : target.Perm lpfs) :
    ∃ (draws : List Draw) (r : Run L C), (∀ d ∈ draws, d.i < lpfs.length ∧ d.j < lpfs.length ∧ 0 ≤ d.x ∧ d.x < 1) ∧
      anneal eval crit ex t0 shuffle lpfs draws = .ok r ∧ r.cur.ordering = target ∧ r.best.crit ≤ r.cur.crit := by
  obtain ⟨ps, h1, h2⟩ := swaps_of_perm (hsh.trans hp.symm)
  have hlen := hsh.length_eq
  let mk : Nat × Nat → Draw := fun p => ⟨p.1, p.2, 0⟩
  have hr : ∀ d ∈ ps.map mk, d.i < lpfs.length ∧ d.j < lpfs.length ∧ 0 ≤ d.x ∧ d.x < 1 := by
    intro d hd
    obtain ⟨p, hp', rfl⟩ := List.mem_map.1 hd
    have := h2 p hp'
    rw [hlen] at this
    exact ⟨this.1, this.2, le_rfl, zero_lt_one⟩
  obtain ⟨r, hrun⟩ := salsa_ok (eval := eval) (crit := crit) (ex := ex) (t0 := t0) (shuffle := shuffle) (draws := ps.map mk) hsh hne ht hpos heval
    fun d hd => ⟨(hr d hd).1, (hr d hd).2.1⟩
  have hinv := anneal_inv hsh hrun
  refine ⟨ps.map mk, r, hr, hrun, ?_, hinv.least _ hinv.cur⟩
  have key : ∀ (ps : List (Nat × Nat)) (it : Nat) (r r' : Run L C) (o : List L), swaps r.cur.ordering ps = .ok o →
      loop eval crit ex t0 it (ps.map mk) r = .ok r' → r'.cur.ordering = o := by
    intro ps
    induction ps with
    | nil => intro it r r' o ho hl; cases hl; cases ho; rfl
    | cons p ps ih =>
      intro it r r' o ho hl
      rw [List.map_cons] at hl
      unfold loop at hl
      cases hd : iter eval crit ex t0 it (mk p) r with
      | error e => rw [hd] at hl; cases hl
      | ok r1 =>
        rw [hd] at hl
        refine ih _ r1 r' o ?_ hl
        unfold swaps at ho
        unfold iter at hd
        simp only at hd
        split at hd
        · cases hd
        · cases hw : swapList r.cur.ordering p.1 p.2 with
          | error e => rw [hw] at ho; cases ho
          | ok o1 =>
            rw [hw] at ho
            simp only at ho
            cases hs : swap eval crit r.cur (mk p).i (mk p).j with
            | error e => rw [hs] at hd; cases hd
            | ok next =>
              rw [hs] at hd
              simp only at hd
              have hno : next.ordering = o1 := by
                unfold swap at hs
                rw [show swapList r.cur.ordering (mk p).i (mk p).j = .ok o1 from hw] at hs
                exact (mkState_spec hs).1
              split at hd
              · cases hd
              · rw [if_pos (show (mk p).x < _ from hex _)] at hd
                cases hd
                simp only
                rw [hno]; exact ho
  unfold anneal at hrun
  cases hm : mkState eval crit (shuffle lpfs) with
  | error e => rw [hm] at hrun; cases hrun
  | ok s =>
    rw [hm] at hrun
    exact key ps 0 _ r target (by rw [(mkState_spec hm).1]; exact h1) hrun

/-! ### The loops annealed cover the layer -/

section
variable {D : Type} [DecidableEq D]
open Lpf (iterations FactContract)

/-- The factor table entry of one loop. -/
def entOf (fact : Nat → List (Nat × Nat)) (n : Nat) : Lpf.Ent :=
  { fac := (fact n).map (fun x => (x.1, (x.2 : Int))), sum := (((fact n).map Prod.snd).sum : Nat) }

theorem primeFactors_eq (fact : Nat → List (Nat × Nat)) (sizes : Dict D Int) :
    primeFactors fact sizes = Lpf.lpfsOf (List.map (fun p => (p.1, entOf fact p.2.toNat)) sizes) := by
  unfold primeFactors Lpf.lpfsOf entOf
  rw [List.flatMap_map]
  congr 1
  funext p
  simp only [List.flatMap_map, Lpf.rep, Int.toNat_natCast]

theorem iterations_perm {a b : List (D × Nat)} (h : a.Perm b) (d : D) : iterations a d = iterations b d := ((h.filter _).map _).prod_eq

/-- C37 end to end: every order the search evaluates, together with the spatial loops, covers every dimension of the layer, and all its loops are prime. -/
theorem salsa_covers {fact : Nat → List (Nat × Nat)} (hf : FactContract fact) {eval : List (D × Nat) → Except PyErr C} {crit : C → ℚ} {ex : ℚ → ℚ}
    {t0 : ℚ} {shuffle : List (D × Nat) → List (D × Nat)} (hsh : ∀ l, (shuffle l).Perm l) {sizes : Dict D Int} {spatial : List (D × Rat)}
    (hw : sizes.WF) (hpos : ∀ k v, sizes.get? k = some v → 1 ≤ v) (hsp : ∀ l ∈ spatial, 1 ≤ l.2) {draws : List Draw} {r : Run (D × Nat) C}
    (h : run fact eval crit ex t0 shuffle sizes spatial draws = .ok r) :
    ∀ e ∈ r.log, (∀ l ∈ e.1.ordering, l.2.Prime) ∧ ∀ k s, sizes.get? k = some s →
      (s : Rat) ≤ ((spatial.filter (fun l => l.1 = k)).map Prod.snd).prod * (iterations e.1.ordering k : Nat) := by
  unfold run at h
  cases hl : TemporalLoops.salsaTemporalLoops sizes spatial with
  | error e => rw [hl] at h; cases h
  | ok loops =>
    rw [hl] at h
    simp only at h
    have hloma := TemporalLoops.salsa_eq_loma _ _ _ hl
    obtain ⟨res, hres, hcov⟩ := TemporalLoops.loma_covers sizes spatial hw hpos hsp
    rw [hloma] at hres
    cases hres
    have hnt := TemporalLoops.loma_nontrivial sizes spatial hw loops hloma
    intro e he
    obtain ⟨hperm, -, -⟩ := salsa_orders (hsh _) h e he
    have hprop : (∀ l ∈ primeFactors fact loops, l.2.Prime) ∧ ∀ d, iterations (primeFactors fact loops) d = ((loops.get? d).getD 1).toNat := by
      constructor
      · intro l hlm
        obtain ⟨p, hp, hlm⟩ := List.mem_flatMap.1 hlm
        obtain ⟨x, hx, hlm⟩ := List.mem_flatMap.1 hlm
        rw [List.eq_of_mem_replicate hlm]
        have := (hnt.2 p.1 p.2 hp).1
        exact ((hf p.2.toNat (by omega)).2.1 x hx).1
      · intro d
        rw [primeFactors_eq]
        set st : Dict D Lpf.Ent := List.map (fun p => (p.1, entOf fact p.2.toNat)) loops with hst
        have hk : st.keys = loops.keys := by simp [hst, Dict.keys, Function.comp_def]
        have hwf : st.WF := by unfold Dict.WF; rw [hk]; exact hnt.1
        rw [Lpf.iterations_lpfsOf hwf]
        cases hg : loops.get? d with
        | none =>
          have : st.get? d = none := by rw [Dict.get?_eq_none_iff, hk, ← Dict.get?_eq_none_iff]; exact hg
          simp [this]
        | some n =>
          have hm := Dict.mem_of_get? hg
          have hn := (hnt.2 d n hm).1
          have : (d, entOf fact n.toNat) ∈ st := by
            rw [hst]; exact List.mem_map.2 ⟨_, hm, rfl⟩
          rw [Dict.get?_of_mem hwf this]
          simp only [entOf, Lpf.weight_cast, Option.getD_some]
          exact (hf n.toNat (by omega)).2.2
    refine ⟨fun l hlm => hprop.1 l (hperm.mem_iff.1 hlm), fun k s hs => ?_⟩
    rw [iterations_perm hperm, hprop.2]
    refine (hcov k s hs).trans (le_of_eq ?_)
    have h1 : (1 : Int) ≤ (loops.get? k).getD 1 := by
      cases hg : loops.get? k with
      | none => simp
      | some n => have := (hnt.2 k n (Dict.mem_of_get? hg)).1; simp; omega
    have h2 : ((((loops.get? k).getD 1).toNat : Int)) = (loops.get? k).getD 1 := Int.toNat_of_nonneg (by omega)
    congr 1
    have h3 : ((((((loops.get? k).getD 1).toNat : Int)) : Int) : ℚ) = (((loops.get? k).getD 1 : Int) : ℚ) := by rw [h2]
    rw [← h3]
    push_cast
    rfl

end

/-! ### C65: the worker processes -/

variable {a b : C → ℚ}

/-- `m` is not worse than `c`: smaller value, or equal value and not larger tie break. -/
def NotWorse (a b : C → ℚ) (m c : C) : Prop := a m < a c ∨ (a m = a c ∧ b m ≤ b c)

theorem NotWorse.refl (c : C) : NotWorse a b c c := Or.inr ⟨rfl, le_rfl⟩

theorem NotWorse.trans {x y z : C} (h1 : NotWorse a b x y) (h2 : NotWorse a b y z) : NotWorse a b x z := by
  rcases h1 with h1 | ⟨h1, h1'⟩ <;> rcases h2 with h2 | ⟨h2, h2'⟩
  · exact Or.inl (h1.trans h2)
  · exact Or.inl (h2 ▸ h1)
  · exact Or.inl (h1 ▸ h2)
  · exact Or.inr ⟨h1.trans h2, h1'.trans h2'⟩

theorem better_spec (m c : C) : (better a b (some m) c = c ∨ better a b (some m) c = m) ∧
    NotWorse a b (better a b (some m) c) c ∧ NotWorse a b (better a b (some m) c) m := by
  unfold better
  simp only
  split
  · rename_i h; exact ⟨Or.inl rfl, NotWorse.refl _, Or.inr ⟨h.1, h.2.le⟩⟩
  · rename_i h
    split
    · rename_i h2; exact ⟨Or.inl rfl, NotWorse.refl _, Or.inl h2⟩
    · rename_i h2
      refine ⟨Or.inr rfl, ?_, NotWorse.refl _⟩
      rcases lt_or_eq_of_le (not_lt.1 h2) with h3 | h3
      · exact Or.inl h3
      · refine Or.inr ⟨h3, ?_⟩
        by_contra hc
        exact h ⟨h3.symm, not_le.1 hc⟩

/-- What holds in every reachable state: the answers taken so far (`T`), those in the queue and those still to come are all the answers, and the best is
the best of `T`. -/
structure SInv (a b : C → ℚ) (workers : List (Option C)) (s : Stage C) (T : List C) : Prop where
  len : T.length = s.taken
  all : (T ++ s.queue ++ s.workers.reduceOption).Perm workers.reduceOption
  none_iff : s.best = none ↔ T = []
  best : ∀ m, s.best = some m → m ∈ T ∧ ∀ c ∈ T, NotWorse a b m c

theorem reach_inv {workers : List (Option C)} {n : Nat} {s : Stage C} (h : Reach a b n (startStage workers) s) : ∃ T, SInv a b workers s T := by
  induction h with
  | init => exact ⟨[], ⟨rfl, by simp [startStage], by simp [startStage], by simp [startStage]⟩⟩
  | step _ hs ih =>
    obtain ⟨T, hT⟩ := ih
    cases hs with
    | put c pre post h =>
      refine ⟨T, ⟨hT.len, ?_, hT.none_iff, hT.best⟩⟩
      refine List.Perm.trans ?_ hT.all
      simp only [h, List.reduceOption_append, List.reduceOption_cons_of_some, List.append_assoc]
      refine List.Perm.append_left _ (List.Perm.append_left _ ?_)
      rw [List.singleton_append]
      exact List.perm_middle.symm
    | die pre post h =>
      refine ⟨T, ⟨hT.len, ?_, hT.none_iff, hT.best⟩⟩
      refine List.Perm.trans ?_ hT.all
      simp [h, List.reduceOption_append, List.reduceOption_cons_of_none]
    | get c q hc hq =>
      refine ⟨T ++ [c], ⟨by simp [hT.len], ?_, by simp, ?_⟩⟩
      · refine List.Perm.trans ?_ hT.all
        simp [hq]
      · intro m hm
        simp only [Option.some.injEq] at hm
        rename_i s _
        cases hb : s.best with
        | none =>
          rw [hb] at hm
          have := hT.none_iff.1 hb
          simp only [better] at hm
          subst hm this
          simp only [List.nil_append, List.mem_singleton, true_and]
          rintro c' rfl
          exact NotWorse.refl _
        | some m0 =>
          rw [hb] at hm
          obtain ⟨h1, h2⟩ := hT.best m0 hb
          obtain ⟨b1, b2, b3⟩ := better_spec (a := a) (b := b) m0 c
          rw [hm] at b1 b2 b3
          refine ⟨?_, ?_⟩
          · rcases b1 with rfl | rfl
            · simp
            · exact List.mem_append_left _ h1
          · intro c' hc'
            rcases List.mem_append.1 hc' with hc' | hc'
            · exact b3.trans (h2 c' hc')
            · rw [List.mem_singleton.1 hc']; exact b2

/-- C65: whatever order the workers answer in, when the stage has all answers the chosen one is an answer of a worker and none is better. -/
theorem stage_best {workers : List C} {s : Stage C} (hw : workers ≠ [])
    (h : Reach a b workers.length (startStage (workers.map some)) s) (hd : s.done workers.length) :
    ∃ m, s.best = some m ∧ m ∈ workers ∧ ∀ c ∈ workers, a m < a c ∨ (a m = a c ∧ b m ≤ b c) := by
  obtain ⟨T, hT⟩ := reach_inv h
  have hred : (workers.map some).reduceOption = workers := by
    clear h hd hT hw
    induction workers with
    | nil => rfl
    | cons x t ih => rw [List.map_cons, List.reduceOption_cons_of_some, ih]
  have hall := hT.all
  rw [hred] at hall
  have hl := hall.length_eq
  have hTl : T.length = workers.length := by rw [hT.len]; exact hd
  simp only [List.length_append] at hl
  have hq : s.queue = [] := List.length_eq_zero_iff.1 (by omega)
  have hr : s.workers.reduceOption = [] := List.length_eq_zero_iff.1 (by omega)
  rw [hq, hr, List.append_nil, List.append_nil] at hall
  cases hb : s.best with
  | none =>
    have := hT.none_iff.1 hb
    rw [this] at hTl
    exact absurd (List.length_eq_zero_iff.1 hTl.symm) hw
  | some m =>
    obtain ⟨h1, h2⟩ := hT.best m hb
    exact ⟨m, rfl, hall.mem_iff.1 h1, fun c hc => h2 c (hall.mem_iff.2 hc)⟩

/-- C65, negative part: when one worker raises (an order that does not fit in memory is enough, `MemoryTooSmallException` is not caught), the stage waits
forever: it never has all the answers. -/
theorem stage_failure_false {workers : List (Option C)} {s : Stage C} (hn : none ∈ workers)
    (h : Reach a b workers.length (startStage workers) s) : ¬ s.done workers.length := by
  obtain ⟨T, hT⟩ := reach_inv h
  intro hd
  have hl := hT.all.length_eq
  simp only [List.length_append, hT.len] at hl
  have : workers.reduceOption.length < workers.length := by
    clear h hd hT hl
    induction workers with
    | nil => simp at hn
    | cons x t ih =>
      cases x with
      | none =>
        have := List.reduceOption_length_le t
        rw [List.reduceOption_cons_of_none, List.length_cons]; omega
      | some x =>
        have := ih (by simpa using hn)
        rw [List.reduceOption_cons_of_some, List.length_cons, List.length_cons]; omega
  unfold Stage.done at hd
  omega

/-- C65: as long as answers are missing and no worker raises, some process can go on. -/
theorem stage_progress {workers : List C} {s : Stage C} (h : Reach a b workers.length (startStage (workers.map some)) s)
    (hd : ¬ s.done workers.length) : ∃ s', Step a b workers.length s s' := by
  obtain ⟨T, hT⟩ := reach_inv h
  have hred : (workers.map some).reduceOption = workers := by
    clear h hd hT
    induction workers with
    | nil => rfl
    | cons x t ih => rw [List.map_cons, List.reduceOption_cons_of_some, ih]
  have hl := hT.all.length_eq
  rw [hred] at hl
  simp only [List.length_append, hT.len] at hl
  unfold Stage.done at hd
  cases hq : s.queue with
  | cons c q => exact ⟨_, .get s c q (by omega) hq⟩
  | nil =>
    cases hw : s.workers with
    | nil => rw [hq, hw] at hl; simp at hl; omega
    | cons x t =>
      cases x with
      | some c => exact ⟨_, .put s c [] t (by simp [hw])⟩
      | none => exact ⟨_, .die s [] t (by simp [hw])⟩

/-- C65: no execution is longer than two steps for each worker. -/
theorem stage_terminates {n : Nat} {s s' : Stage C} (h : Step a b n s s') :
    2 * s'.workers.length + s'.queue.length < 2 * s.workers.length + s.queue.length := by
  cases h with
  | put c pre post h => simp [h]; omega
  | die pre post h => simp [h]
  | get c q hc hq => simp [hq]

/-- The latency criterion is inconsistent: the engine minimises the latency without loading, the stage compares the latency with it, so the search may
return a mapping whose total latency is larger than that of another mapping it accepted. -/
theorem salsa_latency_false : ∃ (eval : List Nat → Except PyErr (ℚ × ℚ)) (draws : List Draw) (r : Run Nat (ℚ × ℚ)),
    anneal eval Prod.fst (fun _ => 1) 1 id [1, 2] draws = .ok r ∧ ∃ s, (s, true) ∈ r.log ∧ s.cme.2 < r.best.cme.2 := by
  refine ⟨fun o => if o = [1, 2] then .ok (1, 10) else .ok (2, 2), [⟨0, 1, 0⟩],
    ⟨⟨[2, 1], (2, 2), 2⟩, ⟨[1, 2], (1, 10), 1⟩, [(⟨[1, 2], (1, 10), 1⟩, true), (⟨[2, 1], (2, 2), 2⟩, true)]⟩, ?_,
    ⟨[2, 1], (2, 2), 2⟩, by simp, by norm_num⟩
  simp [anneal, mkState, loop, iter, swap, swapList]

/-! ### Concrete cases -/

/-- A cost that depends on the order, all positive. -/
def sampleEval (o : List (String × Nat)) : Except PyErr ℚ := .ok (if o.head? = some ("K", 3) then 1 else 2)

example : (match run (D := String) (fun n => if n = 6 then [(2, 1), (3, 1)] else [(n, 1)]) sampleEval id (fun y => 1 + y) 1 List.reverse
    [("K", 12), ("C", 5)] [("K", 2)] [⟨0, 1, 1/2⟩, ⟨2, 0, 1/3⟩, ⟨0, 1, 0⟩] with
  | .ok r => decide (r.best.crit = 1 ∧ r.log.length = 4 ∧ r.best.ordering.head? = some ("K", 3)) | .error _ => false) = true := by decide +kernel

example : Reach (C := ℚ) id id 2 (startStage [some 2, some 1]) ⟨[], [], 2, some 1⟩ := by
  have s1 : Step (C := ℚ) id id 2 (startStage [some 2, some 1]) ⟨[some 2], [1], 0, none⟩ := .put _ 1 [some 2] [] rfl
  have s2 : Step (C := ℚ) id id 2 ⟨[some 2], [1], 0, none⟩ ⟨[some 2], [], 1, some 1⟩ := .get _ 1 [] (by decide) rfl
  have s3 : Step (C := ℚ) id id 2 ⟨[some 2], [], 1, some 1⟩ ⟨[], [2], 1, some 1⟩ := .put _ 2 [] [] rfl
  have s4 : Step (C := ℚ) id id 2 ⟨[], [2], 1, some 1⟩ ⟨[], [], 2, some 1⟩ := by
    have := Step.get (a := (id : ℚ → ℚ)) (b := id) (n := 2) ⟨[], [2], 1, some 1⟩ 2 [] (by decide) rfl
    simpa [better] using this
  exact .step (.step (.step (.step .init s1) s2) s3) s4

end Verif.Salsa
