import Verif.Lpf.Spec
import Mathlib.Tactic.Ring
import Mathlib.Tactic.Linarith
import Mathlib.Algebra.Order.BigOperators.Group.List
import Mathlib.Data.List.Flatten
import Mathlib.Data.List.Perm.Basic

namespace Verif.Lpf

variable {D : Type} [DecidableEq D]

/-! ### one entry -/

def weight (fac : List (Nat × Int)) : Nat := (fac.map (fun x => x.1 ^ x.2.toNat)).prod
def csum (fac : List (Nat × Int)) : Int := (fac.map Prod.snd).sum

@[simp] theorem weight_nil : weight [] = 1 := rfl
@[simp] theorem weight_cons (x) (t : List (Nat × Int)) : weight (x :: t) = x.1 ^ x.2.toNat * weight t := by
  simp [weight]
@[simp] theorem csum_nil : csum [] = 0 := rfl
@[simp] theorem csum_cons (x) (t : List (Nat × Int)) : csum (x :: t) = x.2 + csum t := by simp [csum]
@[simp] theorem weight_append (s t : List (Nat × Int)) : weight (s ++ t) = weight s * weight t := by
  simp [weight]
@[simp] theorem csum_append (s t : List (Nat × Int)) : csum (s ++ t) = csum s + csum t := by
  simp [csum]

theorem bump_fst (fac : List (Nat × Int)) (i : Nat) (δ : Int) : (bump fac i δ).map Prod.fst = fac.map Prod.fst := by
  unfold bump
  induction fac generalizing i with
  | nil => simp
  | cons x t ih =>
    cases i with
    | zero => simp
    | succ i => simp [ih]

theorem bump_length (fac : List (Nat × Int)) (i : Nat) (δ : Int) : (bump fac i δ).length = fac.length := by
  simp [bump]

theorem bump_zero (x) (t : List (Nat × Int)) (δ : Int) : bump (x :: t) 0 δ = (x.1, x.2 + δ) :: t := rfl
theorem bump_succ (x) (t : List (Nat × Int)) (i) (δ : Int) : bump (x :: t) (i + 1) δ = x :: bump t i δ := rfl

theorem csum_bump {fac : List (Nat × Int)} {i : Nat} (δ : Int) (h : i < fac.length) :
    csum (bump fac i δ) = csum fac + δ := by
  induction fac generalizing i with
  | nil => simp at h
  | cons x t ih =>
    cases i with
    | zero => simp [bump_zero]; ring
    | succ i => simp [bump_succ, ih (by simpa using h)]; ring

theorem weight_bump_neg {fac : List (Nat × Int)} {i : Nat} {p : Nat} {c : Int} (h : fac[i]? = some (p, c))
    (hc : 1 ≤ c) : p * weight (bump fac i (-1)) = weight fac := by
  induction fac generalizing i with
  | nil => simp at h
  | cons x t ih =>
    cases i with
    | zero =>
      simp at h
      subst h
      simp only [bump_zero, weight_cons]
      have : c.toNat = (c + -1).toNat + 1 := by omega
      rw [this, pow_succ]; ring
    | succ i =>
      simp at h
      rw [bump_succ, weight_cons, weight_cons, ← ih h]; ring

theorem weight_bump_pos {fac : List (Nat × Int)} {i : Nat} {p : Nat} {c : Int} (h : fac[i]? = some (p, c))
    (hc : 0 ≤ c) : weight (bump fac i 1) = p * weight fac := by
  induction fac generalizing i with
  | nil => simp at h
  | cons x t ih =>
    cases i with
    | zero =>
      simp at h
      subst h
      simp only [bump_zero, weight_cons]
      have : (c + 1).toNat = c.toNat + 1 := by omega
      rw [this, pow_succ]; ring
    | succ i =>
      simp at h
      rw [bump_succ, weight_cons, weight_cons, ih h]; ring

/-- lowering the multiplicity by `m` -/
theorem weight_bump_sub {fac : List (Nat × Int)} {i : Nat} {p : Nat} {c : Int} (m : Nat) (h : fac[i]? = some (p, c))
    (hc : (m : Int) ≤ c) : p ^ m * weight (bump fac i (-(m : Int))) = weight fac := by
  induction fac generalizing i with
  | nil => simp at h
  | cons x t ih =>
    cases i with
    | zero =>
      simp at h
      subst h
      simp only [bump_zero, weight_cons]
      have : c.toNat = m + (c + -(m : Int)).toNat := by omega
      rw [this, pow_add]; ring
    | succ i =>
      simp at h
      rw [bump_succ, weight_cons, weight_cons, ← ih h]; ring

theorem mem_bump {fac : List (Nat × Int)} {i : Nat} {δ : Int} {y : Nat × Int} (h : y ∈ bump fac i δ) :
    y ∈ fac ∨ ∃ p c, fac[i]? = some (p, c) ∧ y = (p, c + δ) := by
  induction fac generalizing i with
  | nil => simp [bump] at h
  | cons x t ih =>
    cases i with
    | zero =>
      rw [bump_zero] at h
      rcases List.mem_cons.1 h with h | h
      · right; exact ⟨x.1, x.2, by simp, h⟩
      · left; simp [h]
    | succ i =>
      rw [bump_succ] at h
      rcases List.mem_cons.1 h with h | h
      · left; simp [h]
      · rcases ih h with h | ⟨p, c, h1, h2⟩
        · left; simp [h]
        · right; exact ⟨p, c, by simpa using h1, h2⟩

theorem get?_bump (fac : List (Nat × Int)) (i j : Nat) (δ : Int) :
    (bump fac i δ)[j]? = if i = j then (fac[j]?).map (fun x => (x.1, x.2 + δ)) else fac[j]? := by
  unfold bump
  rw [List.getElem?_modify]
  split_ifs with h
  · simp
  · cases fac[j]? <;> simp

theorem indexOf?_some {fac : List (Nat × Int)} {f k : Nat} (h : indexOf? fac f = some k) :
    ∃ c, fac[k]? = some (f, c) := by
  unfold indexOf? at h
  dsimp at h
  split_ifs at h with h1
  cases h
  have := List.findIdx_getElem (xs := fac) (p := fun x => x.1 == f) (w := h1)
  simp at this
  refine ⟨(fac[List.findIdx (fun x => x.1 == f) fac]).2, ?_⟩
  rw [List.getElem?_eq_getElem h1]
  congr 1
  exact Prod.ext this rfl

theorem indexOf?_none {fac : List (Nat × Int)} {f : Nat} (h : indexOf? fac f = none) : f ∉ fac.map Prod.fst := by
  unfold indexOf? at h
  dsimp at h
  split_ifs at h with h1
  have : ∀ x ∈ fac, ¬ (x.1 == f) = true := by
    have := (List.findIdx_eq_length (xs := fac) (p := fun x => x.1 == f)).1
      (le_antisymm List.findIdx_le_length (by omega))
    intro x hx; simpa using this x hx
  intro hm
  obtain ⟨x, hx, rfl⟩ := List.mem_map.1 hm
  exact this x hx (by simp)

theorem indexOf?_mem {fac : List (Nat × Int)} {f : Nat} (h : f ∈ fac.map Prod.fst) :
    ∃ k c, indexOf? fac f = some k ∧ fac[k]? = some (f, c) := by
  cases e : indexOf? fac f with
  | none => exact absurd h (indexOf?_none e)
  | some k => obtain ⟨c, hc⟩ := indexOf?_some e; exact ⟨k, c, rfl, hc⟩

theorem insertIdx_perm {α : Type} (l : List α) (i : Nat) (x : α) (h : i ≤ l.length) : (l.insertIdx i x).Perm (x :: l) :=
  List.perm_insertIdx x l h

theorem weight_perm {a b : List (Nat × Int)} (h : a.Perm b) : weight a = weight b := (h.map _).prod_eq
theorem csum_perm {a b : List (Nat × Int)} (h : a.Perm b) : csum a = csum b := (h.map _).sum_eq

theorem weight_filter (fac : List (Nat × Int)) : weight (fac.filter (fun x => x.2 ≠ 0)) = weight fac := by
  induction fac with
  | nil => rfl
  | cons x t ih =>
    by_cases h : x.2 = 0
    · simp [h]; simpa using ih
    · simp [h]; simp at ih; simp [ih]

theorem csum_filter (fac : List (Nat × Int)) : csum (fac.filter (fun x => x.2 ≠ 0)) = csum fac := by
  induction fac with
  | nil => rfl
  | cons x t ih =>
    by_cases h : x.2 = 0
    · simp [h]; simpa using ih
    · simp [h]; simp at ih; rw [ih]

/-- Invariant of one entry. -/
structure Good (e : Ent) : Prop where
  pos : ∀ x ∈ e.fac, 1 ≤ x.2
  nodup : (e.fac.map Prod.fst).Nodup
  sum_eq : e.sum = csum e.fac
  one_lt : 1 ≤ e.sum

/-- The two indices selected for merging refer to two available factors. -/
def GoodPair (fac : List (Nat × Int)) (i j : Nat) : Prop :=
  ∃ p c q c', fac[i]? = some (p, c) ∧ fac[j]? = some (q, c') ∧ ((i = j ∧ 2 ≤ c) ∨ (i ≠ j ∧ 1 ≤ c ∧ 1 ≤ c'))

theorem mergeFac_ok {statics : List Nat} {fac : List (Nat × Int)} (hpos : ∀ x ∈ fac, 0 ≤ x.2)
    (hnd : (fac.map Prod.fst).Nodup)
    (hij : GoodPair fac (findSmallest statics fac).1 (findSmallest statics fac).2) :
    ∃ fac', mergeFac statics fac = .ok fac' ∧ (∀ x ∈ fac', 1 ≤ x.2) ∧ (fac'.map Prod.fst).Nodup ∧
      csum fac' = csum fac - 1 ∧ weight fac' = weight fac ∧
      (∀ x ∈ fac', x.1 ∈ fac.map Prod.fst ∨ ∃ y ∈ fac, ∃ z ∈ fac, x.1 = y.1 * z.1) := by
  obtain ⟨p, c, q, c', hi, hj, hcond⟩ := hij
  set i := (findSmallest statics fac).1 with hidef
  set j := (findSmallest statics fac).2 with hjdef
  set f1 := bump (bump fac i (-1)) j (-1) with hf1
  have hil : i < fac.length := by
    rcases Nat.lt_or_ge i fac.length with h | h
    · exact h
    · rw [List.getElem?_eq_none h] at hi; cases hi
  have hjl : j < fac.length := by
    rcases Nat.lt_or_ge j fac.length with h | h
    · exact h
    · rw [List.getElem?_eq_none h] at hj; cases hj
  have hf1fst : f1.map Prod.fst = fac.map Prod.fst := by rw [hf1, bump_fst, bump_fst]
  have hf1csum : csum f1 = csum fac - 2 := by
    rw [hf1, csum_bump _ (by rw [bump_length]; exact hjl), csum_bump _ hil]; ring
  have hc1 : 1 ≤ c := by rcases hcond with ⟨_, h⟩ | ⟨_, h, _⟩ <;> omega
  have hj1 : ∃ c2, (bump fac i (-1))[j]? = some (q, c2) ∧ 1 ≤ c2 := by
    rw [get?_bump]
    rcases hcond with ⟨h, h2⟩ | ⟨h, _, h2⟩
    · rw [if_pos h, ← h, hi]
      rw [← h, hi] at hj
      cases hj
      exact ⟨c + -1, rfl, by omega⟩
    · rw [if_neg h]; exact ⟨c', hj, h2⟩
  obtain ⟨c2, hj2, hc2⟩ := hj1
  have hf1w : p * (q * weight f1) = weight fac := by
    rw [hf1, weight_bump_neg hj2 hc2, weight_bump_neg hi hc1]
  have hf1pos : ∀ x ∈ f1, 0 ≤ x.2 := by
    intro x hx
    rcases mem_bump hx with h | ⟨p', c3, h1, h2⟩
    · rcases mem_bump h with h | ⟨p', c3, h1, h2⟩
      · exact hpos _ h
      · rw [hi] at h1; cases h1; rw [h2]; simp; omega
    · rw [hj2] at h1; cases h1; rw [h2]; simp; omega
  have hpm : (p, c) ∈ fac := List.mem_of_getElem? hi
  have hqm : (q, c') ∈ fac := List.mem_of_getElem? hj
  -- the merged list before the final filter
  have key : ∃ f2, mergeFac statics fac = .ok (f2.filter (fun x => x.2 ≠ 0)) ∧ (∀ x ∈ f2, 0 ≤ x.2) ∧
      (f2.map Prod.fst).Nodup ∧ csum f2 = csum f1 + 1 ∧ weight f2 = (p * q) * weight f1 ∧
      (∀ x ∈ f2, x.1 ∈ fac.map Prod.fst ∨ x.1 = p * q) := by
    unfold mergeFac
    simp only [← hidef, ← hjdef, hi, hj, ← hf1]
    cases e : indexOf? f1 (p * q) with
    | some k =>
      obtain ⟨ck, hk⟩ := indexOf?_some e
      have hkl : k < f1.length := by
        rcases Nat.lt_or_ge k f1.length with h | h
        · exact h
        · rw [List.getElem?_eq_none h] at hk; cases hk
      refine ⟨_, rfl, ?_, ?_, ?_, ?_, ?_⟩
      · intro x hx
        rcases mem_bump hx with h | ⟨p', c3, h1, h2⟩
        · exact hf1pos _ h
        · have := hf1pos _ (List.mem_of_getElem? h1)
          rw [h2]; simp at this ⊢; omega
      · rw [bump_fst, hf1fst]; exact hnd
      · rw [csum_bump _ hkl]
      · rw [weight_bump_pos hk (hf1pos _ (List.mem_of_getElem? hk))]
      · intro x hx
        left
        rw [← hf1fst, ← bump_fst f1 k 1]
        exact List.mem_map_of_mem hx
    | none =>
      have hni := indexOf?_none e
      have hperm := insertIdx_perm f1 ((f1.filter (fun x : Nat × Int => x.1 < p * q)).length) (p * q, 1)
        (List.length_filter_le _ _)
      refine ⟨_, rfl, ?_, ?_, ?_, ?_, ?_⟩
      · intro x hx
        rcases List.mem_cons.1 (hperm.mem_iff.1 hx) with h | h
        · rw [h]; simp
        · exact hf1pos _ h
      · rw [(hperm.map Prod.fst).nodup_iff]
        simp only [List.map_cons, List.nodup_cons]
        exact ⟨hni, by rw [hf1fst]; exact hnd⟩
      · rw [csum_perm hperm]; simp; ring
      · rw [weight_perm hperm]; simp
      · intro x hx
        rcases List.mem_cons.1 (hperm.mem_iff.1 hx) with h | h
        · right; rw [h]
        · left; rw [← hf1fst]; exact List.mem_map_of_mem h
  obtain ⟨f2, h1, h2, h3, h4, h5, h6⟩ := key
  refine ⟨_, h1, ?_, ?_, ?_, ?_, ?_⟩
  · intro x hx
    have := List.mem_filter.1 hx
    have ha := h2 x this.1
    have hb : x.2 ≠ 0 := by simpa using this.2
    omega
  · exact h3.sublist (List.Sublist.map _ List.filter_sublist)
  · rw [csum_filter, h4, hf1csum]; ring
  · rw [weight_filter, h5, ← hf1w]; ring
  · intro x hx
    rcases h6 x (List.mem_filter.1 hx).1 with h | h
    · left; exact h
    · right; exact ⟨_, hpm, _, hqm, h⟩

theorem findSmallest_nil_goodPair {fac : List (Nat × Int)} (hpos : ∀ x ∈ fac, 1 ≤ x.2) (h2 : 2 ≤ csum fac) :
    GoodPair fac (findSmallest [] fac).1 (findSmallest [] fac).2 := by
  match fac with
  | [] => simp at h2
  | [(p, c)] =>
    have : 1 < c := by simp at h2; omega
    simp [findSmallest, findLoop, this]
    exact ⟨p, c, p, c, by simp, by simp, Or.inl ⟨rfl, by omega⟩⟩
  | (p, c) :: (q, c') :: t =>
    by_cases h : 1 < c
    · simp [findSmallest, findLoop, h]
      exact ⟨p, c, p, c, by simp, by simp, Or.inl ⟨rfl, by omega⟩⟩
    · simp [findSmallest, findLoop, h]
      exact ⟨p, c, q, c', by simp, by simp, Or.inr ⟨by omega, hpos (p, c) (by simp), hpos (q, c') (by simp)⟩⟩

/-! ### the table -/

theorem maxDim_aux (st : Dict D Ent) (b0 : Option (D × Ent)) (r : D × Ent)
    (h : st.foldl (fun best p => match best with
      | none => some p
      | some b => if b.2.sum < p.2.sum then some p else some b) b0 = some r) :
    (r ∈ st ∨ b0 = some r) ∧ (∀ x ∈ st, x.2.sum ≤ r.2.sum) ∧ (∀ b, b0 = some b → b.2.sum ≤ r.2.sum) := by
  induction st generalizing b0 with
  | nil => simp at h; subst h; simp
  | cons p t ih =>
    simp only [List.foldl_cons] at h
    obtain ⟨h1, h2, h3⟩ := ih _ h
    cases b0 with
    | none =>
      simp only at h1 h3
      have hp := h3 p rfl
      refine ⟨?_, ?_, by simp⟩
      · rcases h1 with h1 | h1
        · left; simp [h1]
        · left; cases h1; simp
      · intro x hx; rcases List.mem_cons.1 hx with rfl | hx
        · exact hp
        · exact h2 x hx
    | some b =>
      simp only at h1 h3
      split_ifs at h1 h3 with hlt
      · have hp := h3 p rfl
        refine ⟨?_, ?_, ?_⟩
        · rcases h1 with h1 | h1
          · left; simp [h1]
          · left; cases h1; simp
        · intro x hx; rcases List.mem_cons.1 hx with rfl | hx
          · exact hp
          · exact h2 x hx
        · intro b' hb'; cases hb'; omega
      · have hp := h3 b rfl
        refine ⟨?_, ?_, ?_⟩
        · rcases h1 with h1 | h1
          · left; simp [h1]
          · right; exact h1
        · intro x hx; rcases List.mem_cons.1 hx with rfl | hx
          · omega
          · exact h2 x hx
        · intro b' hb'; cases hb'; exact hp

theorem maxDim_some {st : Dict D Ent} (h : st ≠ []) : ∃ r, maxDim st = some r := by
  have aux : ∀ (st : Dict D Ent) (b : D × Ent), ∃ r, st.foldl (fun best p => match best with
      | none => some p
      | some b => if b.2.sum < p.2.sum then some p else some b) (some b) = some r := by
    intro st
    induction st with
    | nil => intro b; exact ⟨b, rfl⟩
    | cons p t ih =>
      intro b
      simp only [List.foldl_cons]
      split_ifs
      · exact ih p
      · exact ih b
  cases st with
  | nil => exact absurd rfl h
  | cons p t => exact aux t p

theorem maxDim_spec {st : Dict D Ent} {r : D × Ent} (h : maxDim st = some r) :
    r ∈ st ∧ ∀ x ∈ st, x.2.sum ≤ r.2.sum := by
  obtain ⟨h1, h2, _⟩ := maxDim_aux st none r h
  exact ⟨by simpa using h1, h2⟩

theorem nPf_cons (p : D × Ent) (t : Dict D Ent) : nPf (p :: t) = p.2.sum + nPf t := by simp [nPf]

theorem nPf_le (st : Dict D Ent) (m : Int) (h : ∀ x ∈ st, x.2.sum ≤ m) : nPf st ≤ st.length * m := by
  induction st with
  | nil => simp [nPf]
  | cons p t ih =>
    rw [nPf_cons]
    have h1 := h p (by simp)
    have h2 := ih (fun x hx => h x (List.mem_cons_of_mem _ hx))
    simp only [List.length_cons]
    push_cast
    nlinarith

theorem set_length_of_mem {V : Type} {d : Dict D V} {k : D} (h : k ∈ d.keys) (v : V) : (d.set k v).length = d.length := by
  have := Dict.keys_set d k v
  rw [if_pos h] at this
  have h2 := congrArg List.length this
  simpa [Dict.keys] using h2

theorem nPf_set {st : Dict D Ent} {k : D} {e : Ent} (h : st.get? k = some e) (v : Ent) :
    nPf (st.set k v) = nPf st - e.sum + v.sum := by
  induction st with
  | nil => simp at h
  | cons p t ih =>
    obtain ⟨a, b⟩ := p
    by_cases e' : a = k
    · simp [Dict.get?, e'] at h; subst h
      simp [Dict.set, e', nPf_cons]; ring
    · simp [Dict.get?, e'] at h
      simp [Dict.set, e', nPf_cons, ih h]; ring

theorem iterations_append (a b : List (D × Nat)) (d : D) : iterations (a ++ b) d = iterations a d * iterations b d := by
  simp [iterations]

theorem iterations_rep (a d : D) (pf : Nat) (c : Int) :
    iterations (rep c (a, pf)) d = if a = d then pf ^ c.toNat else 1 := by
  unfold iterations rep
  rw [List.filter_replicate]
  by_cases h : a = d <;> simp [h]

theorem iterations_entry (a d : D) (fac : List (Nat × Int)) :
    iterations (fac.flatMap (fun fc => rep fc.2 (a, fc.1))) d = if a = d then weight fac else 1 := by
  induction fac with
  | nil => simp [iterations]
  | cons x t ih =>
    rw [List.flatMap_cons, iterations_append, ih, iterations_rep]
    by_cases h : a = d <;> simp [h]

theorem iterations_lpfsOf {st : Dict D Ent} (hw : st.WF) (d : D) :
    iterations (lpfsOf st) d = match st.get? d with | none => 1 | some e => weight e.fac := by
  induction st with
  | nil => simp [lpfsOf, iterations]
  | cons p t ih =>
    obtain ⟨a, b⟩ := p
    simp only [Dict.WF, Dict.keys, List.map_cons, List.nodup_cons] at hw
    have ih := ih hw.2
    simp only [lpfsOf, List.flatMap_cons] at ih ⊢
    rw [iterations_append, ih, iterations_entry]
    by_cases h : a = d
    · subst h
      have : Dict.get? t a = none := (Dict.get?_eq_none_iff t a).2 hw.1
      simp [Dict.get?, this]
    · simp [Dict.get?, h]

theorem length_lpfsOf {st : Dict D Ent} (hg : ∀ p ∈ st, Good p.2) : ((lpfsOf st).length : Int) = nPf st := by
  induction st with
  | nil => simp [lpfsOf, nPf]
  | cons p t ih =>
    have ih := ih (fun x hx => hg x (List.mem_cons_of_mem _ hx))
    have hp := hg p (by simp)
    simp only [lpfsOf, List.flatMap_cons, List.length_append] at ih ⊢
    rw [nPf_cons]
    push_cast
    rw [ih, hp.sum_eq]
    congr 1
    have : ∀ fac : List (Nat × Int), (∀ x ∈ fac, 1 ≤ x.2) →
        ((fac.flatMap (fun fc => rep fc.2 (p.1, fc.1))).length : Int) = csum fac := by
      intro fac
      induction fac with
      | nil => intro _; simp
      | cons x t ih2 =>
        intro h
        have h1 := h x (by simp)
        have h2 := ih2 (fun y hy => h y (List.mem_cons_of_mem _ hy))
        rw [List.flatMap_cons, List.length_append, csum_cons]
        push_cast
        rw [h2]
        simp [rep]; omega
    exact this _ hp.pos

/-- One limiting step without static sizes. -/
theorem limitStep_ok {st : Dict D Ent} (hw : st.WF) (hg : ∀ p ∈ st, Good p.2) (hn : (st.length : Int) < nPf st) :
    ∃ st', limitStep [] st = .ok st' ∧ st'.WF ∧ (∀ p ∈ st', Good p.2) ∧ st'.keys = st.keys ∧ nPf st' = nPf st - 1 ∧
      ∀ d, iterations (lpfsOf st') d = iterations (lpfsOf st) d := by
  have hne : st ≠ [] := by rintro rfl; simp [nPf] at hn
  obtain ⟨⟨d, e⟩, hr⟩ := maxDim_some hne
  obtain ⟨hmem, hmax⟩ := maxDim_spec hr
  have he := hg _ hmem
  have h2 : 2 ≤ e.sum := by
    by_contra hlt
    have h1 : e.sum ≤ 1 := by omega
    have := nPf_le st 1 (fun x hx => le_trans (hmax x hx) h1)
    omega
  have hget : st.get? d = some e := Dict.get?_of_mem hw hmem
  have hkey : d ∈ st.keys := List.mem_map.2 ⟨_, hmem, rfl⟩
  obtain ⟨fac', hm, hp', hnd', hcs', hw', _⟩ := mergeFac_ok (statics := []) (fac := e.fac)
    (fun x hx => by have := he.pos x hx; omega) he.nodup
    (findSmallest_nil_goodPair he.pos (by rw [← he.sum_eq]; exact h2))
  refine ⟨st.set d { fac := fac', sum := e.sum - 1 }, ?_, hw.set _ _, ?_, ?_, ?_, ?_⟩
  · simp [limitStep, hr, hm]
  · intro p hp
    have hgp := (Dict.mem_iff (hw.set _ _)).1 (show (p.1, p.2) ∈ _ from hp)
    rw [Dict.get?_set] at hgp
    split_ifs at hgp with hk
    · have hgp : p.2 = { fac := fac', sum := e.sum - 1 } := (Option.some.inj hgp).symm
      rw [hgp]
      exact ⟨hp', hnd', by have := he.sum_eq; simp at this ⊢; omega, by simp; omega⟩
    · exact hg (p.1, p.2) (Dict.mem_of_get? hgp)
  · rw [Dict.keys_set, if_pos hkey]
  · rw [nPf_set hget]; simp only; ring
  · intro d'
    rw [iterations_lpfsOf (hw.set _ _), iterations_lpfsOf hw, Dict.get?_set]
    split_ifs with hk
    · subst hk; simp [hget, hw']
    · rfl

theorem limitLoop_ok (n : Nat) {st : Dict D Ent} (hw : st.WF) (hg : ∀ p ∈ st, Good p.2)
    (hn : (st.length : Int) + n ≤ nPf st) :
    ∃ st', limitLoop [] n st = .ok st' ∧ st'.WF ∧ (∀ p ∈ st', Good p.2) ∧ st'.keys = st.keys ∧ nPf st' = nPf st - n ∧
      ∀ d, iterations (lpfsOf st') d = iterations (lpfsOf st) d := by
  induction n generalizing st with
  | zero => exact ⟨st, rfl, hw, hg, rfl, by simp, fun _ => rfl⟩
  | succ n ih =>
    obtain ⟨s1, h1, hw1, hg1, hk1, hn1, hi1⟩ := limitStep_ok hw hg (by push_cast at hn; omega)
    have hl : s1.length = st.length := by
      have := congrArg List.length hk1
      simpa [Dict.keys] using this
    obtain ⟨s2, h2, hw2, hg2, hk2, hn2, hi2⟩ := ih hw1 hg1 (by push_cast at hn; rw [hl, hn1]; omega)
    exact ⟨s2, by simp [limitLoop, h1, h2], hw2, hg2, by rw [hk2, hk1], by rw [hn2, hn1]; push_cast; ring,
      fun d => by rw [hi2, hi1]⟩

end Verif.Lpf
