import Verif.LayerBuild.Model
import Verif.LayerNode.Props
import Verif.Equation.Props

namespace Verif.LayerBuild

open Verif.Equation Verif.LayerNode

theorem mapE_ok {α β : Type} (f : α → Except PyErr β) (g : α → β → Prop) (l : List α) (h : ∀ a ∈ l, ∃ b, f a = .ok b ∧ g a b) :
    ∃ bs, mapE f l = .ok bs ∧ List.Forall₂ g l bs := by
  induction l with
  | nil => exact ⟨[], rfl, .nil⟩
  | cons a t ih =>
    obtain ⟨b, hb, hg⟩ := h a (by simp)
    obtain ⟨bs, hbs, hgs⟩ := ih (fun x hx => h x (by simp [hx]))
    exact ⟨b :: bs, by rw [mapE, hb]; simp only; rw [hbs], .cons hg hgs⟩

theorem mapE_forall₂ {α β : Type} (f : α → Except PyErr β) (l : List α) (bs : List β) (h : mapE f l = .ok bs) : List.Forall₂ (fun a b => f a = .ok b) l bs := by
  induction l generalizing bs with
  | nil => cases h; exact .nil
  | cons a t ih =>
    rw [mapE] at h
    cases ha : f a with
    | error e => rw [ha] at h; cases h
    | ok b =>
      rw [ha] at h
      simp only at h
      cases ht : mapE f t with
      | error e => rw [ht] at h; cases h
      | ok bs' =>
        rw [ht] at h
        cases h
        exact .cons ha (ih bs' ht)

theorem set_fresh {V : Type} (d : Dict Text V) (k : Text) (v : V) (h : k ∉ d.keys) : d.set k v = d ++ [(k, v)] := by
  induction d with
  | nil => rfl
  | cons e t ih =>
    unfold Dict.set
    rw [if_neg (fun hc => h (by simp [Dict.keys, hc])), ih (fun hc => h (by rw [Dict.keys] at hc ⊢; exact List.mem_cons_of_mem _ hc))]
    rfl

theorem zipDict_aux {V : Type} (l : List (Text × V)) (d : Dict Text V) (h : ((d ++ l).map Prod.fst).Nodup) :
    l.foldl (fun d e => Dict.set d e.1 e.2) d = d ++ l := by
  induction l generalizing d with
  | nil => simp
  | cons e t ih =>
    have hn : e.1 ∉ Dict.keys d := by
      intro hc
      rw [List.map_append, List.nodup_append] at h
      exact h.2.2 e.1 hc e.1 (by simp) rfl
    rw [List.foldl_cons, set_fresh d e.1 e.2 hn, ih]
    · simp
    · simpa using h

theorem zipDict_eq {V : Type} (ks : List Text) (vs : List V) (hl : ks.length = vs.length) (hn : ks.Nodup) : zipDict ks vs = ks.zip vs := by
  unfold zipDict
  rw [zipDict_aux]
  · rfl
  · rw [List.nil_append, List.map_fst_zip (by omega)]
    exact hn

theorem zipDict_keys {V : Type} (ks : List Text) (vs : List V) (hl : ks.length = vs.length) (hn : ks.Nodup) : (zipDict ks vs).keys = ks := by
  rw [zipDict_eq ks vs hl hn, Dict.keys, List.map_fst_zip (by omega)]

theorem get_of_keys {V : Type} (d : Dict Text V) (k : Text) (h : k ∈ d.keys) : ∃ v, d.get? k = some v ∧ (k, v) ∈ d := by
  cases hg : d.get? k with
  | none => exact absurd h ((Dict.get?_eq_none_iff d k).1 hg)
  | some v => exact ⟨v, rfl, Dict.mem_of_get? hg⟩

theorem distinct_pos (sa a sb b : Nat) (ha : 1 ≤ a) (hb : 1 ≤ b) : 1 ≤ distinct sa a sb b := by
  unfold distinct
  apply Finset.card_pos.2
  exact ⟨_, Finset.mem_image.2 ⟨(0, 0), by simp; omega, rfl⟩⟩

theorem pyInt_int (n : Int) : pyInt (n : ℚ) = n := by
  unfold pyInt
  split_ifs <;> simp

/-- Product of a list of positive numbers. -/
theorem prod_pos' (l : List ℚ) (h : ∀ x ∈ l, 0 < x) : 0 < l.prod := by
  induction l with
  | nil => simp
  | cons a t ih =>
    rw [List.prod_cons]
    exact mul_pos (h a (by simp)) (ih (fun x hx => h x (by simp [hx])))

theorem mapM_pos {α : Type} (f : α → Except PyErr ℚ) (l : List α) (h : ∀ a ∈ l, ∃ q, f a = .ok q ∧ 0 < q) : ∃ qs, l.mapM f = .ok qs ∧ ∀ q ∈ qs, 0 < q := by
  induction l with
  | nil => exact ⟨[], rfl, by simp⟩
  | cons a t ih =>
    obtain ⟨q, hq, hp⟩ := h a (by simp)
    obtain ⟨qs, hqs, hps⟩ := ih (fun x hx => h x (by simp [hx]))
    refine ⟨q :: qs, ?_, ?_⟩
    · rw [List.mapM_cons, hq, hqs]
      rfl
    · intro x hx
      rcases List.mem_cons.1 hx with rfl | hx
      · exact hp
      · exact hps x hx

/-- Sorting dimensions into relevant and irrelevant ones succeeds when every dimension has a size or a relation. -/
theorem extractRel_total {Dim : Type} [DecidableEq Dim] (rl : List Dim) (sizes : Dict Dim ℚ) (rels : List (Relation Dim))
    (hn : (rels.map Relation.dim1).Nodup) (h : ∀ x ∈ rl, x ∈ sizes.keys ∨ ∃ r ∈ rels, x = r.dim1) : ∃ rel, extractRel rl sizes (extractPr rels) = .ok rel := by
  have hsome : ∀ x ∈ sizes.keys, (sizes.get? x).isSome := by
    intro x hx
    cases hg : sizes.get? x with
    | none => exact absurd hx ((Dict.get?_eq_none_iff _ _).1 hg)
    | some v => rfl
  unfold extractRel
  simp only
  split_ifs with hany
  · obtain ⟨ir, hir⟩ := filterSize_total sizes ((sizes.keys.filter (fun x => x ∉ rl)).filter (fun x => x ∉ (extractPr rels).prList)) (by
      intro x hx
      exact hsome x (List.mem_filter.1 (List.mem_filter.1 hx).1).1)
    exact ⟨_, by rw [hir]; rfl⟩
  · have hno : ∀ r ∈ rels, r.dim1 ∉ rl := by
      intro r hr' hc
      apply hany
      rw [List.any_eq_true]
      refine ⟨r.dim1, hc, ?_⟩
      rw [(extractPr_spec rels hn).1, get?_map_rel (fun r => (r.dim2, r.dim3)), find?_rel rels hn r hr']
      rfl
    obtain ⟨r1, hr1⟩ := filterSize_total sizes rl (by
      intro x hx
      rcases h x hx with h | ⟨r, hr', rfl⟩
      · exact hsome x h
      · exact absurd hx (hno r hr'))
    obtain ⟨ir, hir⟩ := filterSize_total sizes (sizes.keys.filter (fun x => x ∉ rl)) (by
      intro x hx
      exact hsome x (List.mem_filter.1 hx).1)
    exact ⟨_, by rw [hr1, hir]; rfl⟩

/-- The exception of a computation. -/
def errOf {α : Type} : Except PyErr α → Option PyErr
  | .error e => some e
  | .ok _ => none

theorem errOf_eq {α : Type} (x : Except PyErr α) (e : PyErr) (h : errOf x = some e) : x = .error e := by
  cases x with
  | error e' => cases h; rfl
  | ok a => cases h

end Verif.LayerBuild
