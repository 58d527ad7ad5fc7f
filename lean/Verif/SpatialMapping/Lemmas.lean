import Verif.SpatialMapping.Spec
import Mathlib.Tactic.Linarith
import Mathlib.Algebra.BigOperators.Ring.List
import Mathlib.Tactic.Ring
import Mathlib.Tactic.NormNum

/-! Helper lemmas for `Verif.SpatialMapping.Props`. -/

namespace Verif.SpatialMapping

variable {OA Dim : Type} [DecidableEq OA] [DecidableEq Dim]

theorem factor_cons (x : Dim × ℚ) (l : Dict Dim ℚ) (d : Dim) : factor (x :: l) d = if x.1 = d then x.2 else factor l d := by
  unfold factor
  rw [Dict.get?_cons]
  split_ifs <;> rfl

theorem factor_of_not_mem {l : Dict Dim ℚ} {d : Dim} (h : d ∉ l.keys) : factor l d = 1 := by
  unfold factor
  rw [(Dict.get?_eq_none_iff l d).2 h]; rfl

theorem filter_eq_of_not_mem {l : Dict Dim ℚ} {d : Dim} (h : d ∉ l.keys) : l.filter (fun x => x.1 = d) = [] := by
  rw [List.filter_eq_nil_iff]
  intro x hx hc
  exact h (List.mem_map.2 ⟨x, hx, by simpa using hc⟩)

theorem WF_cons {x : Dim × ℚ} {l : Dict Dim ℚ} (h : Dict.WF (x :: l)) : x.1 ∉ Dict.keys l ∧ Dict.WF l := by
  simpa [Dict.WF, Dict.keys] using h

theorem filter_prod {l : Dict Dim ℚ} (h : l.WF) (d : Dim) : ((l.filter (fun x => x.1 = d)).map Prod.snd).prod = factor l d := by
  induction l with
  | nil => simp [factor]
  | cons x l ih =>
    obtain ⟨h1, h2⟩ := WF_cons h
    rw [factor_cons]
    by_cases e : x.1 = d
    · rw [if_pos e, List.filter_cons_of_pos (by simpa using e), filter_eq_of_not_mem (e ▸ h1)]; simp
    · rw [if_neg e, List.filter_cons_of_neg (by simpa using e), ih h2]

theorem total_eq {m : SM OA Dim} (h : ∀ e ∈ m, e.2.WF) (d : Dim) : total m d = (m.map (fun e => factor e.2 d)).prod := by
  unfold total flat
  induction m with
  | nil => simp
  | cons e m ih =>
    rw [List.flatMap_cons, List.filter_append, List.map_append, List.prod_append, List.map_cons, List.prod_cons,
      ih (fun e he => h e (by simp [he])), filter_prod (h e (by simp))]

theorem util_del {l : Dict Dim ℚ} (h : l.WF) (d : Dim) : util l = factor l d * util (l.del d) := by
  induction l with
  | nil => simp [util, factor, Dict.del]
  | cons x l ih =>
    obtain ⟨h1, h2⟩ := WF_cons h
    rw [factor_cons]
    have ih := ih h2
    unfold util Dict.del at *
    by_cases e : x.1 = d
    · rw [if_pos e, List.filter_cons_of_neg (by simpa using e), List.map_cons, List.prod_cons, ih,
        factor_of_not_mem (e ▸ h1)]; ring
    · rw [if_neg e, List.filter_cons_of_pos (by simpa using e), List.map_cons, List.prod_cons, ih, List.map_cons, List.prod_cons]; ring

theorem factor_del (l : Dict Dim ℚ) (d d' : Dim) : factor (l.del d) d' = if d = d' then 1 else factor l d' := by
  unfold factor
  rw [Dict.get?_del]
  split_ifs <;> rfl

theorem mem_allDims {m : SM OA Dim} {d : Dim} : d ∈ allDims m ↔ ∃ e ∈ m, d ∈ e.2.keys := by
  unfold allDims flat Dict.keys
  rw [List.mem_dedup, List.mem_map]
  constructor
  · rintro ⟨x, hx, rfl⟩
    obtain ⟨e, he, hx⟩ := List.mem_flatMap.1 hx
    exact ⟨e, he, List.mem_map.2 ⟨x, hx, rfl⟩⟩
  · rintro ⟨e, he, hd⟩
    obtain ⟨x, hx, rfl⟩ := List.mem_map.1 hd
    exact ⟨x, List.mem_flatMap.2 ⟨e, he, hx⟩, rfl⟩

theorem allDims_nodup (m : SM OA Dim) : (allDims m).Nodup := List.nodup_dedup _

/-! ### validity -/

theorem validEntries_true (maxU : Dict OA (Dict Dim ℚ)) (oa : OA) (l : List (Dim × ℚ)) :
    validEntries maxU oa l = .ok true ↔ ∀ x ∈ l, ∃ mx b, maxU.get? oa = some mx ∧ mx.get? x.1 = some b ∧ x.2 ≤ b := by
  induction l with
  | nil => simp [validEntries]
  | cons x t ih =>
    rw [List.forall_mem_cons]
    unfold validEntries
    cases hm : maxU.get? oa with
    | none => simp
    | some mx =>
      rw [hm] at ih
      simp only [Option.some.injEq, exists_and_left, exists_eq_left'] at ih ⊢
      cases hb : mx.get? x.1 with
      | none => simp
      | some b =>
        simp only [Option.some.injEq, exists_eq_left']
        by_cases h : x.2 > b
        · simp [h]
        · simp only [if_neg h]
          rw [ih]
          constructor
          · intro h'; exact ⟨not_lt.1 h, h'⟩
          · intro h'; exact h'.2

theorem validUtil_true (oaSizes : Dict OA ℚ) (oa : OA) (l : Dict Dim ℚ) :
    validUtil oaSizes oa l = .ok true ↔ ∃ s, oaSizes.get? oa = some s ∧ util l ≤ s := by
  unfold validUtil
  cases oaSizes.get? oa with
  | none => simp
  | some s => simp

theorem validOas_true (oaSizes : Dict OA ℚ) (maxU : Dict OA (Dict Dim ℚ)) (m : SM OA Dim) :
    validOas oaSizes maxU m = .ok true ↔ ∀ e ∈ m, (∀ x ∈ e.2, ∃ mx b, maxU.get? e.1 = some mx ∧ mx.get? x.1 = some b ∧ x.2 ≤ b) ∧
      ∃ s, oaSizes.get? e.1 = some s ∧ util e.2 ≤ s := by
  induction m with
  | nil => simp [validOas]
  | cons e t ih =>
    rw [List.forall_mem_cons, ← validEntries_true, ← validUtil_true, ← ih]
    conv_lhs => unfold validOas
    cases h1 : validEntries maxU e.1 e.2 with
    | error x => simp
    | ok b =>
      cases b with
      | false => simp
      | true =>
        cases h2 : validUtil oaSizes e.1 e.2 with
        | error x => simp
        | ok b => cases b <;> simp

theorem validEntries_ok (maxU : Dict OA (Dict Dim ℚ)) (oa : OA) (h : oa ∈ maxU.keys) (l : List (Dim × ℚ)) :
    ∃ b, validEntries maxU oa l = .ok b := by
  induction l with
  | nil => exact ⟨_, rfl⟩
  | cons x t ih =>
    unfold validEntries
    cases hm : maxU.get? oa with
    | none => exact absurd h ((Dict.get?_eq_none_iff _ _).1 hm)
    | some mx =>
      simp only
      cases mx.get? x.1 with
      | none => exact ⟨_, rfl⟩
      | some b =>
        simp only
        split_ifs
        · exact ⟨_, rfl⟩
        · exact ih

theorem validOas_ok (oaSizes : Dict OA ℚ) (maxU : Dict OA (Dict Dim ℚ)) (m : SM OA Dim) (h1 : ∀ k ∈ m.keys, k ∈ maxU.keys)
    (h2 : ∀ k ∈ m.keys, k ∈ oaSizes.keys) : ∃ b, validOas oaSizes maxU m = .ok b := by
  induction m with
  | nil => exact ⟨_, rfl⟩
  | cons e t ih =>
    obtain ⟨b, hb⟩ := ih (fun k hk => h1 k (by simp [Dict.keys] at hk ⊢; tauto)) (fun k hk => h2 k (by simp [Dict.keys] at hk ⊢; tauto))
    obtain ⟨b1, hb1⟩ := validEntries_ok maxU e.1 (h1 _ (by simp [Dict.keys])) e.2
    unfold validOas
    rw [hb1]
    cases b1 with
    | false => exact ⟨_, rfl⟩
    | true =>
      have hk : e.1 ∈ oaSizes.keys := h2 _ (by simp [Dict.keys])
      unfold validUtil
      cases hs : oaSizes.get? e.1 with
      | none => exact absurd hk ((Dict.get?_eq_none_iff _ _).1 hs)
      | some s =>
        simp only
        cases decide (¬util e.2 > s) with
        | false => exact ⟨_, rfl⟩
        | true => exact ⟨_, hb⟩

/-! ### phase 1 -/

theorem dropUnknown_eq (sizes : Dict Dim ℚ) : ∀ (ds : List Dim) (m : SM OA Dim), ds.Nodup → (∀ d ∈ ds, d ∈ allDims m) →
    dropUnknown sizes ds m = .ok (m.map (fun e => (e.1, e.2.filter (fun x => x.1 ∈ sizes.keys ∨ x.1 ∉ ds))))
  | [], m, _, _ => by
    unfold dropUnknown
    simp
  | d :: ds, m, hn, ha => by
    obtain ⟨hd, hn⟩ := List.nodup_cons.1 hn
    unfold dropUnknown
    by_cases h : d ∈ sizes.keys
    · rw [if_pos h, dropUnknown_eq sizes ds m hn (fun x hx => ha x (by simp [hx]))]
      congr 1
      apply List.map_congr_left
      intro e _
      congr 1
      apply List.filter_congr
      intro x _
      rw [decide_eq_decide]
      constructor
      · rintro (h1 | h1)
        · exact Or.inl h1
        · by_cases hx : x.1 = d
          · exact Or.inl (hx ▸ h)
          · exact Or.inr (by simp [hx, h1])
      · rintro (h1 | h1)
        · exact Or.inl h1
        · exact Or.inr (fun hc => h1 (by simp [hc]))
    · rw [if_neg h]
      unfold deleteDim
      rw [if_pos (ha d (by simp))]
      simp only
      rw [dropUnknown_eq sizes ds _ hn ?_, List.map_map]
      · congr 1
        apply List.map_congr_left
        intro e _
        simp only [Function.comp, Dict.del, List.filter_filter]
        congr 1
        apply List.filter_congr
        intro x _
        rw [← Bool.decide_and, decide_eq_decide]
        constructor
        · rintro ⟨h1 | h1, h2⟩
          · exact Or.inl h1
          · exact Or.inr (by simp [h1, h2])
        · rintro (h1 | h1)
          · exact ⟨Or.inl h1, fun hc => h (hc ▸ h1)⟩
          · simp at h1
            exact ⟨Or.inr h1.2, h1.1⟩
      · intro x hx
        obtain ⟨e, he, hxe⟩ := mem_allDims.1 (ha x (by simp [hx]))
        refine mem_allDims.2 ⟨_, List.mem_map.2 ⟨e, he, rfl⟩, ?_⟩
        rw [Dict.keys_del, List.mem_filter]
        exact ⟨hxe, by simp; rintro rfl; exact hd hx⟩

/-- Phase 1 keeps exactly the unrollings of known layer dimensions, whatever the traversal order. -/
theorem phase1 (sizes : Dict Dim ℚ) (ds : List Dim) (m : SM OA Dim) (h : ds.Perm (allDims m)) :
    dropUnknown sizes ds m = .ok (m.map (fun e => (e.1, e.2.filter (fun x => x.1 ∈ sizes.keys)))) := by
  rw [dropUnknown_eq sizes ds m (h.nodup_iff.2 (allDims_nodup m)) (fun d hd => h.mem_iff.1 hd)]
  congr 1
  apply List.map_congr_left
  intro e he
  congr 1
  apply List.filter_congr
  intro x hx
  rw [decide_eq_decide]
  have : x.1 ∈ ds := h.mem_iff.2 (mem_allDims.2 ⟨e, he, List.mem_map.2 ⟨x, hx, rfl⟩⟩)
  tauto

/-! ### phase 2 -/

theorem clip_spec (maxU : Dict OA (Dict Dim ℚ)) (oa : OA) (mx : Dict Dim ℚ) (hm : maxU.get? oa = some mx) :
    ∀ (l : List (Dim × ℚ)), (∀ x ∈ l, x.1 ∈ mx.keys) →
      ∃ r, clip maxU oa l = .ok r ∧ List.Forall₂ (fun x y => y.1 = x.1 ∧ ∃ b, mx.get? x.1 = some b ∧ y.2 = min x.2 b) l r
  | [], _ => ⟨[], rfl, List.Forall₂.nil⟩
  | x :: t, h => by
    obtain ⟨r, hr, hf⟩ := clip_spec maxU oa mx hm t (fun y hy => h y (by simp [hy]))
    cases hb : mx.get? x.1 with
    | none => exact absurd (h x (by simp)) ((Dict.get?_eq_none_iff _ _).1 hb)
    | some b =>
      refine ⟨(x.1, if x.2 > b then b else x.2) :: r, ?_, List.Forall₂.cons ⟨rfl, b, hb, ?_⟩ hf⟩
      · unfold clip
        rw [hm]
        simp only
        rw [hb]
        simp only
        rw [hr]
      · split_ifs with hx
        · exact (min_eq_right (le_of_lt hx)).symm
        · exact (min_eq_left (not_lt.1 hx)).symm

theorem del_length_lt {l : Dict Dim ℚ} {d : Dim} (h : d ∈ l.keys) : (l.del d).length < l.length := by
  obtain ⟨x, hx, rfl⟩ := List.mem_map.1 h
  exact List.length_filter_lt_length_iff_exists.2 ⟨x, hx, by simp⟩

theorem shrink_spec (o : Order OA Dim) (ho : o.Ok) (size : ℚ) (hs : 1 ≤ size) : ∀ (n : Nat) (l : Dict Dim ℚ), l.length < n →
    ∃ l', shrink o size n l = .ok l' ∧ l'.Sublist l ∧ util l' ≤ size
  | 0, l, h => by omega
  | n + 1, l, h => by
    unfold shrink
    by_cases hu : util l > size
    · rw [if_pos hu]
      cases hh : (o.inner l l.keys).head? with
      | none =>
        have := List.head?_eq_none_iff.1 hh
        have hl := (ho.2.2 l l.keys).length_eq
        rw [this] at hl
        have : l = [] := by
          cases l with
          | nil => rfl
          | cons a b => simp [Dict.keys] at hl
        subst this
        simp [util] at hu
        linarith
      | some d =>
        have hd : d ∈ l.keys := (ho.2.2 l l.keys).mem_iff.1 (List.mem_of_head? hh)
        obtain ⟨l', h1, h2, h3⟩ := shrink_spec o ho size hs n (l.del d) (by have := del_length_lt hd; omega)
        exact ⟨l', h1, h2.trans List.filter_sublist, h3⟩
    · rw [if_neg hu]
      exact ⟨l, rfl, List.Sublist.refl _, not_lt.1 hu⟩

/-- Relation between one array dimension before and after phase 2. -/
def Clipped (maxU : Dict OA (Dict Dim ℚ)) (oaSizes : Dict OA ℚ) (e e' : OA × Dict Dim ℚ) : Prop :=
  e'.1 = e.1 ∧ ∃ mx s l, maxU.get? e.1 = some mx ∧ oaSizes.get? e.1 = some s ∧
    List.Forall₂ (fun x y => y.1 = x.1 ∧ ∃ b, mx.get? x.1 = some b ∧ y.2 = min x.2 b) e.2 l ∧ e'.2.Sublist l ∧ util e'.2 ≤ s

theorem phase2 (o : Order OA Dim) (ho : o.Ok) (oaSizes : Dict OA ℚ) (maxU : Dict OA (Dict Dim ℚ)) : ∀ (m : SM OA Dim),
    (∀ e ∈ m, ∃ mx, maxU.get? e.1 = some mx ∧ ∀ x ∈ e.2, x.1 ∈ mx.keys) → (∀ e ∈ m, ∃ s, oaSizes.get? e.1 = some s ∧ 1 ≤ s) →
    ∃ m', reduceOas o oaSizes maxU m = .ok m' ∧ List.Forall₂ (Clipped maxU oaSizes) m m'
  | [], _, _ => ⟨[], rfl, List.Forall₂.nil⟩
  | e :: t, h1, h2 => by
    obtain ⟨t', ht, hf⟩ := phase2 o ho oaSizes maxU t (fun e he => h1 e (by simp [he])) (fun e he => h2 e (by simp [he]))
    obtain ⟨mx, hmx, hk⟩ := h1 e (by simp)
    obtain ⟨s, hs, hs1⟩ := h2 e (by simp)
    obtain ⟨r, hr, hc⟩ := clip_spec maxU e.1 mx hmx e.2 hk
    obtain ⟨l', hl1, hl2, hl3⟩ := shrink_spec o ho s hs1 (r.length + 1) r (by omega)
    refine ⟨(e.1, l') :: t', ?_, List.Forall₂.cons ⟨rfl, mx, s, r, hmx, hs, hc, hl2, hl3⟩ hf⟩
    unfold reduceOas
    rw [hr]
    simp only
    unfold shrinkOa
    rw [hs]
    simp only
    rw [hl1]
    simp only
    rw [ht]

/-! ### phase 3 -/

/-- Every unrolling is zero or at least one. -/
def Whole (m : SM OA Dim) : Prop := ∀ e ∈ m, ∀ x ∈ e.2, x.2 = 0 ∨ 1 ≤ x.2

theorem factor_whole {m : SM OA Dim} (h : Whole m) {e : OA × Dict Dim ℚ} (he : e ∈ m) (d : Dim) : factor e.2 d = 0 ∨ 1 ≤ factor e.2 d := by
  unfold factor
  cases hg : e.2.get? d with
  | none => simp
  | some u => exact h e he _ (Dict.mem_of_get? hg)

theorem prod_whole : ∀ l : List ℚ, (∀ x ∈ l, x = 0 ∨ 1 ≤ x) → l.prod = 0 ∨ 1 ≤ l.prod
  | [], _ => by simp
  | x :: l, h => by
    rw [List.prod_cons]
    rcases h x (by simp) with hx | hx
    · simp [hx]
    · rcases prod_whole l (fun y hy => h y (by simp [hy])) with hp | hp
      · simp [hp]
      · right; nlinarith

/-- What one `cut` does: some array dimensions lose `d`. -/
def Cut (d : Dim) (e e' : OA × Dict Dim ℚ) : Prop := e'.1 = e.1 ∧ (e'.2 = e.2 ∨ e'.2 = e.2.del d ∧ 1 ≤ factor e.2 d)

theorem del_del (l : Dict Dim ℚ) (d : Dim) : (l.del d).del d = l.del d := by
  unfold Dict.del
  rw [List.filter_filter]
  simp

theorem Cut.trans {d : Dim} {m m' m'' : SM OA Dim} (h : List.Forall₂ (Cut d) m m') (h' : List.Forall₂ (Cut d) m' m'') :
    List.Forall₂ (Cut d) m m'' := by
  induction h generalizing m'' with
  | nil => cases h'; exact List.Forall₂.nil
  | cons hab _ ih =>
    cases h' with
    | cons hbc hr =>
      refine List.Forall₂.cons ⟨hbc.1.trans hab.1, ?_⟩ (ih hr)
      rcases hab.2 with h1 | ⟨h1, h1'⟩ <;> rcases hbc.2 with h2 | ⟨h2, h2'⟩
      · exact Or.inl (h2.trans h1)
      · rw [h1] at h2 h2'; exact Or.inr ⟨h2, h2'⟩
      · exact Or.inr ⟨h2.trans h1, h1'⟩
      · exact Or.inr ⟨by rw [h2, h1, del_del], h1'⟩

theorem holders_delAt {m : SM OA Dim} (hm : m.WF) (oa : OA) (d : Dim) (h : oa ∈ holders m d) :
    (holders (delAt m oa d) d).length < (holders m d).length := by
  have e : holders (delAt m oa d) d = (holders m d).filter (fun k => decide (k ≠ oa)) := by
    clear h hm
    unfold holders delAt
    induction m with
    | nil => rfl
    | cons e m ih =>
      rw [List.map_cons]
      by_cases h1 : e.1 = oa
      · rw [if_pos h1, List.filter_cons_of_neg (by simp [Dict.keys_del]), ih]
        by_cases h2 : d ∈ e.2.keys
        · rw [List.filter_cons_of_pos (by simpa using h2), List.map_cons, List.filter_cons_of_neg (by simpa using h1)]
        · rw [List.filter_cons_of_neg (by simpa using h2)]
      · rw [if_neg h1]
        by_cases h2 : d ∈ e.2.keys
        · rw [List.filter_cons_of_pos (by simpa using h2), List.filter_cons_of_pos (by simpa using h2), List.map_cons, List.map_cons,
            List.filter_cons_of_pos (by simpa using h1), ih]
        · rw [List.filter_cons_of_neg (by simpa using h2), List.filter_cons_of_neg (by simpa using h2), ih]
  rw [e]
  exact List.length_filter_lt_length_iff_exists.2 ⟨oa, h, by simp⟩

theorem delAt_keys (m : SM OA Dim) (oa : OA) (d : Dim) : (delAt m oa d).keys = m.keys := by
  unfold delAt Dict.keys
  rw [List.map_map]
  apply List.map_congr_left
  intro e _
  simp only [Function.comp]
  split_ifs <;> rfl

theorem delAt_wf {m : SM OA Dim} (hm : SMWF m) (oa : OA) (d : Dim) : SMWF (delAt m oa d) := by
  constructor
  · unfold Dict.WF; rw [delAt_keys]; exact hm.1
  · intro e he
    obtain ⟨e0, he0, rfl⟩ := List.mem_map.1 he
    split_ifs
    · exact (hm.2 e0 he0).del d
    · exact hm.2 e0 he0

theorem delAt_whole {m : SM OA Dim} (hm : Whole m) (oa : OA) (d : Dim) : Whole (delAt m oa d) := by
  intro e he x hx
  obtain ⟨e0, he0, rfl⟩ := List.mem_map.1 he
  split_ifs at hx
  · exact hm e0 he0 x (List.mem_of_mem_filter hx)
  · exact hm e0 he0 x hx

theorem cut_spec (o : Order OA Dim) (ho : o.Ok) (size : ℚ) (hs : 1 ≤ size) (d : Dim) : ∀ (n : Nat) (m : SM OA Dim), SMWF m → Whole m →
    (holders m d).length < n → ∃ m', cut o size d n m = .ok m' ∧ List.Forall₂ (Cut d) m m' ∧ total m' d ≤ size
  | 0, m, _, _, h => by omega
  | n + 1, m, hm, hw, h => by
    unfold cut
    by_cases hu : total m d > size
    · rw [if_pos hu]
      have hte := total_eq hm.2 d
      have hpos : ∀ e ∈ m, 1 ≤ factor e.2 d := by
        intro e he
        rcases factor_whole hw he d with h0 | h0
        · exfalso
          have : (m.map (fun e => factor e.2 d)).prod = 0 := List.prod_eq_zero (List.mem_map.2 ⟨e, he, h0⟩)
          rw [hte, this] at hu
          linarith
        · exact h0
      cases hh : (o.oas m (holders m d)).head? with
      | none =>
        have h1 := List.head?_eq_none_iff.1 hh
        have hl := (ho.2.1 m (holders m d)).length_eq
        rw [h1] at hl
        have h0 : holders m d = [] := List.length_eq_zero_iff.1 hl.symm
        have : total m d = 1 := by
          rw [hte]
          apply List.prod_eq_one
          intro x hx
          obtain ⟨e, he, rfl⟩ := List.mem_map.1 hx
          apply factor_of_not_mem
          intro hc
          have : e.1 ∈ holders m d := List.mem_map.2 ⟨e, List.mem_filter.2 ⟨he, by simpa using hc⟩, rfl⟩
          rw [h0] at this
          simp at this
        rw [this] at hu
        linarith
      | some oa =>
        have hoa : oa ∈ holders m d := (ho.2.1 m (holders m d)).mem_iff.1 (List.mem_of_head? hh)
        have hlt := holders_delAt hm.1 oa d hoa
        obtain ⟨m', h1, h2, h3⟩ := cut_spec o ho size hs d n (delAt m oa d) (delAt_wf hm oa d) (delAt_whole hw oa d) (by omega)
        refine ⟨m', h1, Cut.trans ?_ h2, h3⟩
        unfold delAt
        rw [List.forall₂_map_right_iff, List.forall₂_same]
        intro e he
        split_ifs with hc
        · exact ⟨rfl, Or.inr ⟨rfl, hpos e he⟩⟩
        · exact ⟨rfl, Or.inl rfl⟩
    · rw [if_neg hu]
      exact ⟨m, rfl, List.forall₂_same.2 (fun e _ => ⟨rfl, Or.inl rfl⟩), not_lt.1 hu⟩

/-- Invariants of phase 3. -/
structure Inv (oaSizes : Dict OA ℚ) (m : SM OA Dim) : Prop where
  wf : SMWF m
  whole : Whole m
  fits : ∀ e ∈ m, ∃ s, oaSizes.get? e.1 = some s ∧ util e.2 ≤ s

/-- Shape relation kept by phases: same array dimensions, sublists. -/
def Subs (m m' : SM OA Dim) : Prop := List.Forall₂ (fun e e' => e'.1 = e.1 ∧ e'.2.Sublist e.2) m m'

theorem Cut.subs {d : Dim} {m m' : SM OA Dim} (h : List.Forall₂ (Cut d) m m') : Subs m m' := by
  refine h.imp ?_
  rintro e e' ⟨h1, h2 | ⟨h2, _⟩⟩
  · exact ⟨h1, h2 ▸ List.Sublist.refl _⟩
  · exact ⟨h1, h2 ▸ List.filter_sublist⟩

theorem Subs.trans {m m' m'' : SM OA Dim} (h : Subs m m') (h' : Subs m' m'') : Subs m m'' := by
  unfold Subs at *
  induction h generalizing m'' with
  | nil => cases h'; exact List.Forall₂.nil
  | cons hab _ ih =>
    cases h' with
    | cons hbc hr => exact List.Forall₂.cons ⟨hbc.1.trans hab.1, hbc.2.trans hab.2⟩ (ih hr)

theorem Subs.keys {m m' : SM OA Dim} (h : Subs m m') : m'.keys = m.keys := by
  unfold Subs at h
  induction h with
  | nil => rfl
  | cons hab _ ih => simp only [Dict.keys, List.map_cons] at *; rw [hab.1, ih]

theorem forall₂_mem_right {α β : Type} {R : α → β → Prop} {l : List α} {l' : List β} (h : List.Forall₂ R l l') {b : β} (hb : b ∈ l') :
    ∃ a ∈ l, R a b := by
  induction h with
  | nil => simp at hb
  | cons hab _ ih =>
    rcases List.mem_cons.1 hb with rfl | hb
    · exact ⟨_, by simp, hab⟩
    · obtain ⟨a, ha, hr⟩ := ih hb
      exact ⟨a, by simp [ha], hr⟩

theorem Cut.inv {oaSizes : Dict OA ℚ} {d : Dim} {m m' : SM OA Dim} (h : List.Forall₂ (Cut d) m m') (hi : Inv oaSizes m) : Inv oaSizes m' := by
  refine ⟨⟨?_, ?_⟩, ?_, ?_⟩
  · unfold Dict.WF; rw [(Cut.subs h).keys]; exact hi.wf.1
  · intro e' he'
    obtain ⟨e, he, hc⟩ := forall₂_mem_right h he'
    rcases hc.2 with h2 | ⟨h2, _⟩
    · rw [h2]; exact hi.wf.2 e he
    · rw [h2]; exact (hi.wf.2 e he).del d
  · intro e' he' x hx
    obtain ⟨e, he, hc⟩ := forall₂_mem_right (Cut.subs h) he'
    exact hi.whole e he x (hc.2.subset hx)
  · intro e' he'
    obtain ⟨e, he, hc⟩ := forall₂_mem_right h he'
    obtain ⟨s, hs, hu⟩ := hi.fits e he
    refine ⟨s, by rw [hc.1]; exact hs, ?_⟩
    rcases hc.2 with h2 | ⟨h2, h1⟩
    · rw [h2]; exact hu
    · rw [h2]
      rw [util_del (hi.wf.2 e he) d] at hu
      have hnn : 0 ≤ util (e.2.del d) := by
        have : util (e.2.del d) = 0 ∨ 1 ≤ util (e.2.del d) := by
          apply prod_whole
          intro x hx
          obtain ⟨y, hy, rfl⟩ := List.mem_map.1 hx
          exact hi.whole e he y (List.mem_of_mem_filter hy)
        rcases this with h | h <;> linarith
      nlinarith

theorem Cut.total {d d' : Dim} {m m' : SM OA Dim} (h : List.Forall₂ (Cut d) m m') (hm : SMWF m) (hm' : SMWF m') (hd : d ≠ d') :
    total m' d' = total m d' := by
  rw [total_eq hm.2, total_eq hm'.2]
  clear hm hm'
  induction h with
  | nil => rfl
  | cons hab _ ih =>
    rw [List.map_cons, List.map_cons, List.prod_cons, List.prod_cons, ih]
    congr 1
    rcases hab.2 with h2 | ⟨h2, _⟩
    · rw [h2]
    · rw [h2, factor_del, if_neg hd]

theorem phase3 (o : Order OA Dim) (ho : o.Ok) (oaSizes : Dict OA ℚ) (sizes : Dict Dim ℚ) : ∀ (ds : List Dim) (m : SM OA Dim), Inv oaSizes m → ds.Nodup →
    (∀ d ∈ ds, ∃ s, sizes.get? d = some s ∧ 1 ≤ s) →
    ∃ m', cutDims o sizes ds m = .ok m' ∧ Subs m m' ∧ Inv oaSizes m' ∧ (∀ d, d ∉ ds → total m' d = total m d) ∧
      ∀ d ∈ ds, ∃ s, sizes.get? d = some s ∧ total m' d ≤ s
  | [], m, hi, _, _ => ⟨m, rfl, List.forall₂_same.2 (fun e _ => ⟨rfl, List.Sublist.refl _⟩), hi, fun _ _ => rfl, by simp⟩
  | d :: ds, m, hi, hn, hs => by
    obtain ⟨hd, hn⟩ := List.nodup_cons.1 hn
    obtain ⟨s, hs1, hs2⟩ := hs d (by simp)
    obtain ⟨m1, h1, h2, h3⟩ := cut_spec o ho s hs2 d ((holders m d).length + 1) m hi.wf hi.whole (by omega)
    have hi1 := Cut.inv h2 hi
    obtain ⟨m2, h4, h5, h6, h7, h8⟩ := phase3 o ho oaSizes sizes ds m1 hi1 hn (fun x hx => hs x (by simp [hx]))
    refine ⟨m2, ?_, (Cut.subs h2).trans h5, h6, ?_, ?_⟩
    · unfold cutDims
      rw [hs1]
      simp only
      rw [h1]
      exact h4
    · intro x hx
      have hx' : d ≠ x ∧ x ∉ ds := ⟨fun hc => hx (by simp [hc]), fun hc => hx (by simp [hc])⟩
      rw [h7 x hx'.2, Cut.total h2 hi.wf hi1.wf hx'.1]
    · intro x hx
      rcases List.mem_cons.1 hx with rfl | hx
      · exact ⟨s, hs1, by rw [h7 x hd]; exact h3⟩
      · exact h8 x hx

end Verif.SpatialMapping
