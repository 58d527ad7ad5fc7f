import Verif.Decouple.Spec
import Mathlib.Data.List.Nodup
import Mathlib.Tactic.FieldSimp
import Mathlib.Tactic.Ring

namespace Verif.Decouple

open LayerNode (lookup)

variable {Dim : Type} [DecidableEq Dim]

theorem foldlM_id {α β : Type} (f : α → β → Except PyErr α) : ∀ (l : List β) (a : α), (∀ b ∈ l, ∀ a, f a b = .ok a) →
    l.foldlM f a = .ok a
  | [], _, _ => rfl
  | b :: l, a, h => by
    rw [List.foldlM_cons, h b (by simp) a]
    exact foldlM_id f l a (fun c hc => h c (by simp [hc]))

theorem foldlM_single {α β : Type} (f : α → β → Except PyErr α) (m : β → Prop) (hnm : ∀ a b, ¬ m b → f a b = .ok a) :
    ∀ (l : List β), l.Nodup → ∀ b ∈ l, (∀ c ∈ l, m c → c = b) → ∀ a, l.foldlM f a = f a b
  | [], _, b, hb, _, _ => by simp at hb
  | c :: l, hn, b, hb, hu, a => by
    rw [List.nodup_cons] at hn
    rw [List.foldlM_cons]
    by_cases hcb : c = b
    · subst hcb
      have : ∀ a', l.foldlM f a' = .ok a' := by
        intro a'
        apply foldlM_id
        intro x hx a
        apply hnm
        intro hm
        exact hn.1 (hu x (by simp [hx]) hm ▸ hx)
      cases hf : f a c with
      | error e => rfl
      | ok v => exact this v
    · rw [hnm a c (fun hm => hcb (hu c (by simp) hm))]
      have hb' : b ∈ l := by
        rcases List.mem_cons.1 hb with h | h
        · exact absurd h.symm hcb
        · exact h
      exact foldlM_single f m hnm l hn.2 b hb' (fun x hx => hu x (by simp [hx])) a

theorem keyOf_some {env : DEnv Dim} {d k : Dim} (h : keyOf env d = some k) :
    env.other d = false ∧ ∃ xy, (k, xy) ∈ env.lut ∧ (xy.1 = d ∨ xy.2 = d) := by
  unfold keyOf at h
  by_cases ho : env.other d = true
  · rw [if_pos ho] at h; cases h
  · rw [if_neg ho] at h
    cases hf : env.lut.find? (fun e => e.2.1 = d ∨ e.2.2 = d) with
    | none => rw [hf] at h; cases h
    | some e =>
      rw [hf] at h
      cases h
      exact ⟨by simpa using ho, e.2, List.mem_of_find?_eq_some hf, by simpa using List.find?_some hf⟩

theorem keyOf_none {env : DEnv Dim} {d : Dim} (h : keyOf env d = none) (ho : env.other d = false) :
    ∀ e ∈ env.lut, ¬ (e.2.1 = d ∨ e.2.2 = d) := by
  unfold keyOf at h
  rw [if_neg (by simp [ho])] at h
  have : env.lut.find? (fun e => e.2.1 = d ∨ e.2.2 = d) = none := by simpa using h
  rw [List.find?_eq_none] at this
  intro e he
  simpa using this e he

theorem keyOf_of_mem {env : DEnv Dim} (hu : Uniq env) {d k : Dim} {xy : Dim × Dim} (ho : env.other d = false) (he : (k, xy) ∈ env.lut)
    (hm : xy.1 = d ∨ xy.2 = d) : keyOf env d = some k := by
  unfold keyOf
  rw [if_neg (by simp [ho])]
  cases hf : env.lut.find? (fun e => e.2.1 = d ∨ e.2.2 = d) with
  | none =>
    rw [List.find?_eq_none] at hf
    have := hf _ he
    simp at this; tauto
  | some e =>
    have h1 := List.mem_of_find?_eq_some hf
    have h2 : e.2.1 = d ∨ e.2.2 = d := by simpa using List.find?_some hf
    rw [hu d ho e h1 _ he h2 hm]; rfl

theorem lut_nodup {env : DEnv Dim} (hw : env.lut.WF) : env.lut.Nodup := List.Nodup.of_map _ hw

/-! ### First pass: events -/

/-- Update for one loop and its data dimension. -/
def upd (env : DEnv Dim) (st : Sizes Dim) (k : Dim) (loop : Dim × ℚ) : Except PyErr (Sizes Dim × Ev Dim) := do
  let s ← lookup st k
  let v ← lookup s loop.1
  let s' := s.set loop.1 (v * loop.2)
  let r ← env.tdim k s'
  if r = 0 then .error .zeroDivision else return (st.set k s', (k, r, s'.values.prod / r))

theorem stepKey_upd (env : DEnv Dim) (loop : Dim × ℚ) (acc : Sizes Dim × List (Ev Dim)) (e : Dim × Dim × Dim)
    (hm : e.2.1 = loop.1 ∨ e.2.2 = loop.1) :
    stepKey env loop acc e = (do let p ← upd env acc.1 e.1 loop; return (p.1, acc.2 ++ [p.2])) := by
  unfold stepKey upd
  rw [if_pos hm]
  cases lookup acc.1 e.1 with
  | error x => rfl
  | ok s =>
    simp only [bind, Except.bind]
    cases lookup s loop.1 with
    | error x => rfl
    | ok v =>
      simp only
      cases env.tdim e.1 (s.set loop.1 (v * loop.2)) with
      | error x => rfl
      | ok r =>
        simp only
        by_cases hr : r = 0
        · rw [if_pos hr, if_pos hr]
        · rw [if_neg hr, if_neg hr]; rfl

theorem stepLoop_eq {env : DEnv Dim} (hw : env.lut.WF) (hu : Uniq env) (acc : Sizes Dim × List (Ev Dim)) (loop : Dim × ℚ) :
    stepLoop env acc loop = match keyOf env loop.1 with
      | none => .ok acc
      | some k => do let p ← upd env acc.1 k loop; return (p.1, acc.2 ++ [p.2]) := by
  unfold stepLoop
  by_cases ho : env.other loop.1 = true
  · have : keyOf env loop.1 = none := by unfold keyOf; rw [if_pos ho]
    rw [if_pos ho, this]; rfl
  · rw [if_neg ho]
    have ho' : env.other loop.1 = false := by simpa using ho
    have hnm : ∀ (a : Sizes Dim × List (Ev Dim)) (b : Dim × Dim × Dim), ¬ (b.2.1 = loop.1 ∨ b.2.2 = loop.1) → stepKey env loop a b = .ok a := by
      intro a b hb; unfold stepKey; rw [if_neg hb]; rfl
    cases hk : keyOf env loop.1 with
    | none => exact foldlM_id _ _ _ (fun b hb a => hnm a b (keyOf_none hk ho' b hb))
    | some k =>
      obtain ⟨_, xy, hmem, hm⟩ := keyOf_some hk
      rw [foldlM_single (stepKey env loop) (fun b => b.2.1 = loop.1 ∨ b.2.2 = loop.1) hnm env.lut (lut_nodup hw) (k, xy) hmem
        (fun c hc hmc => hu loop.1 ho' c hc _ hmem hmc hm) acc, stepKey_upd env loop acc _ hm]

/-- Events of one level. -/
def evL (env : DEnv Dim) : Sizes Dim → List (Dim × ℚ) → Except PyErr (Sizes Dim × List (Ev Dim))
  | st, [] => .ok (st, [])
  | st, l :: ls => match keyOf env l.1 with
    | none => evL env st ls
    | some k => do
      let p ← upd env st k l
      let q ← evL env p.1 ls
      return (q.1, p.2 :: q.2)

theorem foldlM_stepLoop {env : DEnv Dim} (hw : env.lut.WF) (hu : Uniq env) : ∀ (l : List (Dim × ℚ)) (st : Sizes Dim) (acc : List (Ev Dim)),
    l.foldlM (stepLoop env) (st, acc) = (do let q ← evL env st l; return (q.1, acc ++ q.2))
  | [], st, acc => by simp [evL]; rfl
  | a :: l, st, acc => by
    rw [List.foldlM_cons, stepLoop_eq hw hu]
    unfold evL
    cases hk : keyOf env a.1 with
    | none => exact foldlM_stepLoop hw hu l st acc
    | some k =>
      simp only
      cases hup : upd env st k a with
      | error e => rfl
      | ok p =>
        simp only [bind, Except.bind, pure, Except.pure]
        have := foldlM_stepLoop hw hu l p.1 (acc ++ [p.2])
        simp only [bind, Except.bind, pure, Except.pure] at this
        rw [this]
        cases evL env p.1 l with
        | error e => rfl
        | ok q => simp

/-- Events of all levels, with the final state. -/
def evAll (env : DEnv Dim) : Sizes Dim → List (List (Dim × ℚ)) → Except PyErr (List (List (Ev Dim)))
  | _, [] => .ok []
  | st, l :: ls => do
    let p ← evL env st l
    let r ← evAll env p.1 ls
    return p.2 :: r

theorem allEvents_eq {env : DEnv Dim} (hw : env.lut.WF) (hu : Uniq env) : ∀ (ls : List (List (Dim × ℚ))) (st : Sizes Dim),
    allEvents env st ls = evAll env st ls
  | [], st => rfl
  | l :: ls, st => by
    unfold allEvents evAll
    rw [foldlM_stepLoop hw hu]
    cases evL env st l with
    | error e => rfl
    | ok p =>
      simp only [bind, Except.bind, pure, Except.pure, List.nil_append]
      rw [allEvents_eq hw hu ls p.1]

theorem evL_keys {env : DEnv Dim} : ∀ (l : List (Dim × ℚ)) (st : Sizes Dim) (q : Sizes Dim × List (Ev Dim)), evL env st l = .ok q →
    q.2.map Prod.fst = l.filterMap (fun x => keyOf env x.1)
  | [], st, q, h => by cases h; rfl
  | a :: l, st, q, h => by
    unfold evL at h
    cases hk : keyOf env a.1 with
    | none =>
      rw [hk] at h
      rw [List.filterMap_cons_none (f := fun x : Dim × ℚ => keyOf env x.1) hk]
      exact evL_keys l st q h
    | some k =>
      rw [hk] at h
      simp only at h
      cases hup : upd env st k a with
      | error e => rw [hup] at h; cases h
      | ok p =>
        rw [hup] at h
        simp only [bind, Except.bind, pure, Except.pure] at h
        cases hq : evL env p.1 l with
        | error e => rw [hq] at h; cases h
        | ok q' =>
          rw [hq] at h
          cases h
          rw [List.filterMap_cons_some (f := fun x : Dim × ℚ => keyOf env x.1) hk]
          have hp : p.2.1 = k := by
            unfold upd at hup
            simp only [bind, Except.bind, pure, Except.pure] at hup
            split at hup
            · cases hup
            · split at hup
              · cases hup
              · split at hup
                · cases hup
                · split at hup
                  · cases hup
                  · cases hup; rfl
          simp [hp, evL_keys l p.1 q' hq]

/-! ### Second pass: ratios -/

/-- Ratios of the events of one level, for all data dimensions at once. -/
def annL : (Dim → ℚ) → (Dim → ℚ) → List (Ev Dim) → Except PyErr (List (Ev Dim) × (Dim → ℚ) × (Dim → ℚ))
  | pS, pR, [] => .ok ([], pS, pR)
  | pS, pR, e :: es =>
    if pS e.1 = 0 ∨ pR e.1 = 0 then .error .zeroDivision else do
      let q ← annL (Function.update pS e.1 e.2.1) (Function.update pR e.1 e.2.2) es
      return ((e.1, e.2.1 / pS e.1, e.2.2 / pR e.1) :: q.1, q.2)

/-- Ratios of all levels. -/
def annAll : (Dim → ℚ) → (Dim → ℚ) → List (List (Ev Dim)) → Except PyErr (List (List (Ev Dim)))
  | _, _, [] => .ok []
  | pS, pR, l :: ls => do
    let q ← annL pS pR l
    let r ← annAll q.2.1 q.2.2 ls
    return q.1 :: r

/-- Part of the events for one data dimension. -/
def sel (f : Ev Dim → ℚ) (k : Dim) (ev : List (Ev Dim)) : List ℚ := (ev.filter (fun e => e.1 = k)).map f

theorem ratioLvl_cons_ok {p v : ℚ} {t : List ℚ} {r : List ℚ × ℚ} (h : ratioLvl p (v :: t) = .ok r) :
    p ≠ 0 ∧ ∃ r', ratioLvl v t = .ok r' ∧ r = (v / p :: r'.1, r'.2) := by
  unfold ratioLvl at h
  by_cases hp : p = 0
  · rw [if_pos hp] at h; cases h
  · rw [if_neg hp] at h
    cases ht : ratioLvl v t with
    | error e => rw [ht] at h; cases h
    | ok r' => rw [ht] at h; cases h; exact ⟨hp, r', rfl, rfl⟩

theorem annL_ok : ∀ (ev : List (Ev Dim)) (pS pR : Dim → ℚ),
    (∀ k, ∃ r, ratioLvl (pS k) (sel (fun e => e.2.1) k ev) = .ok r) → (∀ k, ∃ r, ratioLvl (pR k) (sel (fun e => e.2.2) k ev) = .ok r) →
    ∃ q, annL pS pR ev = .ok q ∧
      (∀ k, ratioLvl (pS k) (sel (fun e => e.2.1) k ev) = .ok (sel (fun e => e.2.1) k q.1, q.2.1 k)) ∧
      (∀ k, ratioLvl (pR k) (sel (fun e => e.2.2) k ev) = .ok (sel (fun e => e.2.2) k q.1, q.2.2 k)) ∧
      q.1.map Prod.fst = ev.map Prod.fst
  | [], pS, pR, _, _ => ⟨_, rfl, fun k => rfl, fun k => rfl, rfl⟩
  | e :: ev, pS, pR, hS, hR => by
    have selS : ∀ (f : Ev Dim → ℚ), sel f e.1 (e :: ev) = f e :: sel f e.1 ev := by
      intro f; unfold sel; rw [List.filter_cons_of_pos (by simp)]; rfl
    have selN : ∀ (f : Ev Dim → ℚ) k, e.1 ≠ k → sel f k (e :: ev) = sel f k ev := by
      intro f k hk; unfold sel; rw [List.filter_cons_of_neg (by simpa using hk)]
    obtain ⟨rs, hrs⟩ := hS e.1
    rw [selS] at hrs
    obtain ⟨hp1, rs', hrs', _⟩ := ratioLvl_cons_ok hrs
    obtain ⟨rr, hrr⟩ := hR e.1
    rw [selS] at hrr
    obtain ⟨hp2, rr', hrr', _⟩ := ratioLvl_cons_ok hrr
    obtain ⟨q, hq, q1, q2, q3⟩ := annL_ok ev (Function.update pS e.1 e.2.1) (Function.update pR e.1 e.2.2)
      (by
        intro k
        by_cases hk : e.1 = k
        · subst hk; rw [Function.update_self]; exact ⟨_, hrs'⟩
        · rw [Function.update_of_ne (Ne.symm hk)]
          obtain ⟨r, hr⟩ := hS k
          rw [selN _ k hk] at hr; exact ⟨r, hr⟩)
      (by
        intro k
        by_cases hk : e.1 = k
        · subst hk; rw [Function.update_self]; exact ⟨_, hrr'⟩
        · rw [Function.update_of_ne (Ne.symm hk)]
          obtain ⟨r, hr⟩ := hR k
          rw [selN _ k hk] at hr; exact ⟨r, hr⟩)
    refine ⟨((e.1, e.2.1 / pS e.1, e.2.2 / pR e.1) :: q.1, q.2), ?_, ?_, ?_, ?_⟩
    · unfold annL
      rw [if_neg (by tauto), hq]; rfl
    · intro k
      by_cases hk : e.1 = k
      · subst hk
        rw [selS]
        have := q1 e.1
        rw [Function.update_self] at this
        unfold ratioLvl
        rw [if_neg hp1, this]
        simp [sel, bind, Except.bind, pure, Except.pure]
      · rw [selN _ k hk]
        have := q1 k
        rw [Function.update_of_ne (Ne.symm hk)] at this
        rw [this]
        have : sel (fun e => e.2.1) k ((e.1, e.2.1 / pS e.1, e.2.2 / pR e.1) :: q.1) = sel (fun e => e.2.1) k q.1 := by
          unfold sel; rw [List.filter_cons_of_neg (by simpa using hk)]
        rw [this]
    · intro k
      by_cases hk : e.1 = k
      · subst hk
        rw [selS]
        have := q2 e.1
        rw [Function.update_self] at this
        unfold ratioLvl
        rw [if_neg hp2, this]
        simp [sel, bind, Except.bind, pure, Except.pure]
      · rw [selN _ k hk]
        have := q2 k
        rw [Function.update_of_ne (Ne.symm hk)] at this
        rw [this]
        have : sel (fun e => e.2.2) k ((e.1, e.2.1 / pS e.1, e.2.2 / pR e.1) :: q.1) = sel (fun e => e.2.2) k q.1 := by
          unfold sel; rw [List.filter_cons_of_neg (by simpa using hk)]
        rw [this]
    · simp [q3]

theorem ratios_cons_ok {p : ℚ} {l : List ℚ} {ls : List (List ℚ)} {r : List (List ℚ)} (h : ratios p (l :: ls) = .ok r) :
    ∃ a r', ratioLvl p l = .ok a ∧ ratios a.2 ls = .ok r' ∧ r = a.1 :: r' := by
  unfold ratios at h
  cases ha : ratioLvl p l with
  | error e => rw [ha] at h; cases h
  | ok a =>
    rw [ha] at h
    simp only [bind, Except.bind, pure, Except.pure] at h
    cases hr : ratios a.2 ls with
    | error e => rw [hr] at h; cases h
    | ok r' => rw [hr] at h; cases h; exact ⟨a, r', rfl, hr, rfl⟩

theorem annAll_ok : ∀ (evs : List (List (Ev Dim))) (pS pR : Dim → ℚ),
    (∀ k, ∃ r, ratios (pS k) (cabl (fun e => e.2.1) k evs) = .ok r) → (∀ k, ∃ r, ratios (pR k) (cabl (fun e => e.2.2) k evs) = .ok r) →
    ∃ q, annAll pS pR evs = .ok q ∧
      (∀ k, ratios (pS k) (cabl (fun e => e.2.1) k evs) = .ok (cabl (fun e => e.2.1) k q)) ∧
      (∀ k, ratios (pR k) (cabl (fun e => e.2.2) k evs) = .ok (cabl (fun e => e.2.2) k q)) ∧
      q.map (List.map Prod.fst) = evs.map (List.map Prod.fst)
  | [], pS, pR, _, _ => ⟨[], rfl, fun k => rfl, fun k => rfl, rfl⟩
  | ev :: evs, pS, pR, hS, hR => by
    have hc : ∀ (f : Ev Dim → ℚ) k (a : List (Ev Dim)) (as : List (List (Ev Dim))), cabl f k (a :: as) = sel f k a :: cabl f k as := fun _ _ _ _ => rfl
    obtain ⟨q, hq, q1, q2, q3⟩ := annL_ok ev pS pR
      (fun k => by obtain ⟨r, hr⟩ := hS k; rw [hc] at hr; obtain ⟨a, _, ha, _⟩ := ratios_cons_ok hr; exact ⟨a, ha⟩)
      (fun k => by obtain ⟨r, hr⟩ := hR k; rw [hc] at hr; obtain ⟨a, _, ha, _⟩ := ratios_cons_ok hr; exact ⟨a, ha⟩)
    obtain ⟨w, hw, w1, w2, w3⟩ := annAll_ok evs q.2.1 q.2.2
      (fun k => by
        obtain ⟨r, hr⟩ := hS k; rw [hc] at hr
        obtain ⟨a, r', ha, hr', _⟩ := ratios_cons_ok hr
        rw [q1 k] at ha; cases ha; exact ⟨r', hr'⟩)
      (fun k => by
        obtain ⟨r, hr⟩ := hR k; rw [hc] at hr
        obtain ⟨a, r', ha, hr', _⟩ := ratios_cons_ok hr
        rw [q2 k] at ha; cases ha; exact ⟨r', hr'⟩)
    refine ⟨q.1 :: w, ?_, ?_, ?_, by simp [q3, w3]⟩
    · unfold annAll
      rw [hq]
      simp only [bind, Except.bind, pure, Except.pure]
      rw [hw]
    · intro k
      rw [hc, hc]
      unfold ratios
      rw [q1 k]
      simp only [bind, Except.bind, pure, Except.pure]
      rw [w1 k]
    · intro k
      rw [hc, hc]
      unfold ratios
      rw [q2 k]
      simp only [bind, Except.bind, pure, Except.pure]
      rw [w2 k]

end Verif.Decouple
