import Verif.Plot.Model
import Mathlib.Tactic.Ring
import Mathlib.Tactic.Linarith
import Mathlib.Algebra.BigOperators.Group.List.Basic
import Mathlib.Data.List.Nodup
import Mathlib.Tactic.FieldSimp
import Mathlib.Tactic.Positivity

/-! Helper lemmas for the plots. -/

namespace Verif.Plot

open Cme (FourWay Dir)

variable {Op MOp Mem : Type} [DecidableEq Op] [DecidableEq MOp] [DecidableEq Mem]

/-- The energy of operand `op` in memory `mem` and direction `d`: the sum over the levels of the operand that are this memory. -/
def share (levels : MOp → List Mem) (r : Res Op MOp Mem) (op : Op) (mem : Mem) (d : Dir) : ℚ :=
  (r.energy.map (fun e => if e.1 = op then
    (((r.links.get? e.1).toList.flatMap (fun mo => ((levels mo).zip e.2).filter (fun x => x.1 = mem))).map (fun x => x.2.get d)).sum else 0)).sum

theorem get_add (a b : FourWay) (d : Dir) : (a + b).get d = a.get d + b.get d := by cases d <;> rfl
theorem get_zero (d : Dir) : (0 : FourWay).get d = 0 := by cases d <;> rfl

theorem look_addAt (t : Table Op Mem) (op op' : Op) (m m' : Mem) (x : FourWay) (d : Dir) :
    (look (addAt t op m x) op' m').get d = (look t op' m').get d + if op = op' ∧ m = m' then x.get d else 0 := by
  unfold addAt
  generalize hv : look t op m + x = v
  unfold look at hv ⊢
  rw [Dict.get?_set]
  by_cases h1 : op = op'
  · subst h1
    rw [if_pos rfl, Option.getD_some, Dict.get?_set]
    by_cases h2 : m = m'
    · subst h2
      rw [if_pos rfl, if_pos ⟨rfl, rfl⟩, Option.getD_some, ← hv, get_add]
    · rw [if_neg h2, if_neg (fun h => h2 h.2), add_zero]
  · rw [if_neg h1, if_neg (fun h => h1 h.1), add_zero]

theorem memLoop_look (levels : List Mem) (op : Op) : ∀ (xs : List FourWay) (i : Nat) (t t' : Table Op Mem), memLoop levels op i xs t = .ok t' →
    ∀ op' m d, (look t' op' m).get d = (look t op' m).get d +
      if op = op' then ((((levels.drop i).zip xs).filter (fun x => x.1 = m)).map (fun x => x.2.get d)).sum else 0
  | [], i, t, t', h, op', m, d => by
    rw [memLoop] at h; cases h; simp
  | x :: xs, i, t, t', h, op', m, d => by
    rw [memLoop] at h
    cases hl : levels[i]? with
    | none => rw [hl] at h; cases h
    | some y =>
      rw [hl] at h
      have ih := memLoop_look levels op xs (i + 1) _ t' h op' m d
      obtain ⟨hi, hy⟩ := List.getElem?_eq_some_iff.1 hl
      rw [ih, look_addAt, List.drop_eq_getElem_cons hi, hy, List.zip_cons_cons, List.filter_cons]
      by_cases h1 : op = op'
      · by_cases h2 : y = m
        · simp [h1, h2, add_assoc]
        · simp [h1, h2]
      · simp [h1]

theorem memLoop_ok (levels : List Mem) (op : Op) : ∀ (xs : List FourWay) (i : Nat) (t : Table Op Mem),
    (∃ t', memLoop levels op i xs t = .ok t') ↔ xs = [] ∨ i + xs.length ≤ levels.length
  | [], i, t => by simp [memLoop]
  | x :: xs, i, t => by
    rw [memLoop]
    cases hl : levels[i]? with
    | none =>
      rw [List.getElem?_eq_none_iff] at hl
      simp only [reduceCtorEq, exists_false, List.length_cons, false_or, false_iff]
      omega
    | some y =>
      obtain ⟨hi, _⟩ := List.getElem?_eq_some_iff.1 hl
      simp only [memLoop_ok levels op xs (i + 1), List.length_cons, reduceCtorEq, false_or]
      cases xs with
      | nil => simp; omega
      | cons a as => simp only [reduceCtorEq, false_or, List.length_cons]; omega

theorem opLoop_look (levels : MOp → List Mem) (links : Dict Op MOp) : ∀ (es : Dict Op (List FourWay)) (t t' : Table Op Mem),
    opLoop levels links es t = .ok t' → ∀ op' m d, (look t' op' m).get d = (look t op' m).get d +
      (es.map (fun e => if e.1 = op' then
        (((links.get? e.1).toList.flatMap (fun mo => ((levels mo).zip e.2).filter (fun x => x.1 = m))).map (fun x => x.2.get d)).sum else 0)).sum
  | [], t, t', h, op', m, d => by
    rw [opLoop] at h; cases h; simp
  | (op, es) :: rest, t, t', h, op', m, d => by
    rw [opLoop] at h
    cases hl : links.get? op with
    | none => rw [hl] at h; cases h
    | some mo =>
      rw [hl] at h
      cases hm : memLoop (levels mo) op 0 es t with
      | error e => simp only [hm] at h; cases h
      | ok t1 =>
        simp only [hm] at h
        rw [opLoop_look levels links rest t1 t' h op' m d, memLoop_look _ _ _ _ _ _ hm op' m d, List.map_cons, List.sum_cons]
        simp only [hl, Option.toList_some, List.flatMap_cons, List.flatMap_nil, List.append_nil, List.drop_zero]
        ring

theorem opLoop_ok (levels : MOp → List Mem) (links : Dict Op MOp) : ∀ (es : Dict Op (List FourWay)) (t : Table Op Mem),
    (∃ t', opLoop levels links es t = .ok t') ↔ ∀ e ∈ es, ∃ mo, links.get? e.1 = some mo ∧ e.2.length ≤ (levels mo).length
  | [], t => by simp [opLoop]
  | (op, es) :: rest, t => by
    rw [opLoop]
    cases hl : links.get? op with
    | none =>
      simp only [reduceCtorEq, exists_false, List.mem_cons, forall_eq_or_imp, hl, false_and]
    | some mo =>
      simp only [List.mem_cons, forall_eq_or_imp, hl, Option.some.injEq, exists_eq_left']
      cases hm : memLoop (levels mo) op 0 es t with
      | error e =>
        simp only [reduceCtorEq, exists_false, false_iff, not_and]
        intro h
        have := (memLoop_ok (levels mo) op es 0 t).2 (Or.inr (by omega))
        rw [hm] at this
        obtain ⟨_, h⟩ := this; cases h
      | ok t1 =>
        simp only [opLoop_ok levels links rest t1]
        have := (memLoop_ok (levels mo) op es 0 t).1 ⟨t1, hm⟩
        have hlen : es.length ≤ (levels mo).length := by
          rcases this with rfl | h
          · simp
          · omega
        tauto

theorem tables_ok (levels : MOp → List Mem) : ∀ rs : List (Res Op MOp Mem), (∃ ts, tables levels rs = .ok ts) ↔
    ∀ r ∈ rs, ∀ e ∈ r.energy, ∃ mo, r.links.get? e.1 = some mo ∧ e.2.length ≤ (levels mo).length
  | [] => by simp [tables]
  | r :: rs => by
    rw [tables]
    have h1 := opLoop_ok levels r.links r.energy ([] : Table Op Mem)
    have h2 := tables_ok levels rs
    simp only [List.mem_cons, forall_eq_or_imp]
    cases ho : opLoop levels r.links r.energy ([] : Table Op Mem) with
    | error e =>
      simp only [reduceCtorEq, exists_false, false_iff, not_and]
      intro h
      rw [← h1] at h
      obtain ⟨_, h⟩ := h; rw [ho] at h; cases h
    | ok t =>
      have h1' := h1.1 ⟨t, ho⟩
      cases ht : tables levels rs with
      | error e =>
        simp only [reduceCtorEq, exists_false, false_iff, not_and]
        intro _ h
        rw [← h2] at h
        obtain ⟨_, h⟩ := h; rw [ht] at h; cases h
      | ok ts =>
        simp only [Except.ok.injEq, exists_eq', true_iff]
        exact ⟨h1', h2.1 ⟨ts, ht⟩⟩

theorem tables_get (levels : MOp → List Mem) : ∀ (rs : List (Res Op MOp Mem)) (ts : List (Table Op Mem)), tables levels rs = .ok ts →
    ts.length = rs.length ∧ ∀ (i : Nat) (r : Res Op MOp Mem), rs[i]? = some r → ∃ t, ts[i]? = some t ∧ opLoop levels r.links r.energy [] = .ok t
  | [], ts, h => by
    rw [tables] at h; cases h; simp
  | r :: rs, ts, h => by
    rw [tables] at h
    cases ho : opLoop levels r.links r.energy ([] : Table Op Mem) with
    | error e => simp only [ho] at h; cases h
    | ok t =>
      cases ht : tables levels rs with
      | error e => simp only [ho, ht] at h; cases h
      | ok ts' =>
        simp only [ho, ht] at h
        cases h
        obtain ⟨h1, h2⟩ := tables_get levels rs ts' ht
        refine ⟨by simp [h1], fun i r' hi => ?_⟩
        cases i with
        | zero => rw [List.getElem?_cons_zero] at hi; cases hi; exact ⟨t, rfl, ho⟩
        | succ n => rw [List.getElem?_cons_succ] at hi ⊢; exact h2 n r' hi

/-! ### Sums of lists -/

theorem sum_zero {α : Type} (l : List α) : (l.map (fun _ => (0 : ℚ))).sum = 0 := by
  induction l with
  | nil => rfl
  | cons a l ih => rw [List.map_cons, List.sum_cons, ih, add_zero]

theorem sum_comm {α β : Type} (l1 : List α) (l2 : List β) (f : α → β → ℚ) :
    (l1.map (fun a => (l2.map (f a)).sum)).sum = (l2.map (fun b => (l1.map (fun a => f a b)).sum)).sum := by
  induction l1 with
  | nil => simp
  | cons a l ih =>
    simp only [List.map_cons, List.sum_cons]
    rw [ih, ← List.sum_map_add]

theorem sum_single {α : Type} [DecidableEq α] {l : List α} (hn : l.Nodup) {a : α} (ha : a ∈ l) (x : ℚ) :
    (l.map (fun b => if a = b then x else 0)).sum = x := by
  induction l with
  | nil => cases ha
  | cons b l ih =>
    rw [List.nodup_cons] at hn
    rw [List.map_cons, List.sum_cons]
    by_cases h : a = b
    · subst h
      rw [if_pos rfl]
      have : l.map (fun b => if a = b then x else 0) = l.map (fun _ => (0 : ℚ)) := by
        apply List.map_congr_left
        intro c hc
        rw [if_neg]; rintro rfl; exact hn.1 hc
      rw [this, sum_zero, add_zero]
    · rw [if_neg h, zero_add]
      exact ih hn.2 ((List.mem_cons.1 ha).resolve_left h)

theorem sum_filter {α β : Type} [DecidableEq α] {l : List α} (hn : l.Nodup) (g : α × β → ℚ) : ∀ ps : List (α × β), (∀ p ∈ ps, p.1 ∈ l) →
    (l.map (fun a => ((ps.filter (fun p => p.1 = a)).map g).sum)).sum = (ps.map g).sum
  | [], _ => by simp [sum_zero]
  | p :: ps, h => by
    rw [List.map_cons, List.sum_cons, ← sum_filter hn g ps (fun q hq => h q (by simp [hq])), ← sum_single hn (h p (by simp)) (g p),
      ← List.sum_map_add]
    congr 1
    apply List.map_congr_left
    intro a _
    rw [List.filter_cons]
    by_cases hp : p.1 = a <;> simp [hp]

/-! ### Names -/

theorem splitSlash_ne (s : List Char) : splitSlash s ≠ [] := by
  induction s with
  | nil => simp [splitSlash]
  | cons c cs ih =>
    rw [splitSlash]
    split_ifs
    · simp
    · cases splitSlash cs <;> simp

theorem join_cons (p : List Char) {ps : List (List Char)} (h : ps ≠ []) : joinSlash (p :: ps) = p ++ '/' :: joinSlash ps := by
  cases ps with
  | nil => exact absurd rfl h
  | cons q qs => rfl

theorem join_split (s : List Char) : joinSlash (splitSlash s) = s := by
  induction s with
  | nil => rfl
  | cons c cs ih =>
    rw [splitSlash]
    by_cases h : c = '/'
    · rw [if_pos h, join_cons _ (splitSlash_ne cs), ih, h]; rfl
    · rw [if_neg h]
      cases hs : splitSlash cs with
      | nil => exact absurd hs (splitSlash_ne cs)
      | cons p ps =>
        rw [hs] at ih
        simp only
        cases ps with
        | nil => simpa [joinSlash] using ih
        | cons q qs => rw [join_cons _ (by simp)] at ih ⊢; rw [List.cons_append, ih]

theorem join_append {a b : List (List Char)} (ha : a ≠ []) (hb : b ≠ []) : joinSlash (a ++ b) = joinSlash a ++ '/' :: joinSlash b := by
  induction a with
  | nil => exact absurd rfl ha
  | cons p ps ih =>
    rw [List.cons_append, join_cons _ (by simp [hb])]
    cases ps with
    | nil => rfl
    | cons q qs => rw [ih (by simp), join_cons p (ps := q :: qs) (by simp)]; simp

theorem split_parts (s : List Char) : ∀ p ∈ splitSlash s, '/' ∉ p := by
  induction s with
  | nil => simp [splitSlash]
  | cons c cs ih =>
    rw [splitSlash]
    by_cases h : c = '/'
    · rw [if_pos h]
      intro p hp
      rcases List.mem_cons.1 hp with rfl | hp
      · simp
      · exact ih p hp
    · rw [if_neg h]
      cases hs : splitSlash cs with
      | nil => exact absurd hs (splitSlash_ne cs)
      | cons q qs =>
        rw [hs] at ih
        intro p hp
        rcases List.mem_cons.1 hp with rfl | hp
        · intro hm
          rcases List.mem_cons.1 hm with hm | hm
          · exact h hm.symm
          · exact ih q (by simp) hm
        · exact ih p (by simp [hp])

theorem split_length (s : List Char) : (splitSlash s).length = s.count '/' + 1 := by
  induction s with
  | nil => rfl
  | cons c cs ih =>
    rw [splitSlash]
    by_cases h : c = '/'
    · rw [if_pos h, List.length_cons, ih, h, List.count_cons_self]
    · rw [if_neg h, List.count_cons_of_ne h]
      cases hs : splitSlash cs with
      | nil => exact absurd hs (splitSlash_ne cs)
      | cons q qs => rw [hs] at ih; simpa using ih

theorem join_count : ∀ ps : List (List Char), (∀ p ∈ ps, '/' ∉ p) → (joinSlash ps).count '/' = ps.length - 1
  | [], _ => rfl
  | [p], h => by simpa [joinSlash, List.count_eq_zero] using h
  | p :: q :: ps, h => by
    rw [joinSlash, List.count_append, List.count_cons_self, join_count (q :: ps) (fun x hx => h x (by simp [hx])),
      List.count_eq_zero.2 (h p (by simp))]
    simp

end Verif.Plot
