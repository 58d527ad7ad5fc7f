import Verif.Pipeline.Model
import Verif.Engine.Props
import Verif.Stages.Props
import Mathlib.Data.Prod.Lex
import Mathlib.Tactic.Linarith
import Mathlib.Algebra.BigOperators.Group.List.Lemmas
import Mathlib.Algebra.Order.BigOperators.Group.List

/-! C99, C100: what a whole run of the API returns, and when it returns. -/

namespace Verif.Pipeline

open Stages

variable {P I J Ly SM TM A B : Type}

/-! ### Specification -/

/-- `c` is the earliest among the elements with the smallest key. -/
def IsFirst {K : Type} [LT K] (key : A → K) (l : List A) (c : A) : Prop :=
  ∃ pre post, l = pre ++ c :: post ∧ (∀ x ∈ pre, key c < key x) ∧ ∀ x ∈ post, ¬ key x < key c

/-- What an option minimises: the named quantity, for energy and latency the other one decides ties. -/
def Opt.key : Opt → Cme P → ℚ ×ₗ ℚ
  | .energy, c => toLex (c.res.energy, c.res.latency)
  | .latency, c => toLex (c.res.latency, c.res.energy)
  | .edp, c => toLex (c.res.latency * c.res.energy, 0)

/-- All evaluated mappings of a layer, in the order of the search. -/
def cands (E : Env Ly SM TM P) (l : Ly) : List (Cme P) :=
  match E.spatial l with
  | .error _ => []
  | .ok sms => sms.flatMap fun sm => (E.temporal l sm).1.filterMap fun tm => (E.cost l sm tm).toOption

/-- Every generated spatial mapping has a temporal mapping, and everything can be evaluated. -/
def Works (E : Env Ly SM TM P) (l : Ly) : Prop :=
  ∃ sms, E.spatial l = .ok sms ∧ sms ≠ [] ∧
    ∀ sm ∈ sms, (E.temporal l sm).2 = none ∧ (E.temporal l sm).1 ≠ [] ∧ ∀ tm ∈ (E.temporal l sm).1, ∃ c, E.cost l sm tm = .ok c

/-- The cost model yields results of single layers (cost_model_evaluation.py:40-61). -/
def Single (E : Env Ly SM TM P) : Prop := ∀ l sm tm c, E.cost l sm tm = .ok c → c.res.single = true

/-! ### Helpers -/

theorem better_key (o : Opt) (c b : Cme P) : o.better c.res b.res = true ↔ o.key c < o.key b := by
  cases o <;> simp [Opt.better, Opt.key, energyBetter, latencyBetter, edpBetter, Prod.Lex.toLex_lt_toLex]

theorem forEach_nil (f : A → Gen B) (e : Option PyErr) : forEach f ([], e) = ([], e) := rfl

theorem forEach_go (f : A → Gen B) (g g' : Gen A) (h : g.2 = g'.2) : ∀ l, forEach.go f g l = forEach.go f g' l
  | [] => by simp only [forEach.go, h]
  | a :: t => by simp only [forEach.go, forEach_go f g g' h t]

theorem forEach_cons (f : A → Gen B) (a : A) (t : List A) (e : Option PyErr) : forEach f (a :: t, e) =
    match f a with
    | (ys, some e') => (ys, some e')
    | (ys, none) => (ys ++ (forEach f (t, e)).1, (forEach f (t, e)).2) := by
  unfold forEach
  rw [forEach.go, forEach_go f (a :: t, e) (t, e) rfl]
  rfl

theorem forEach_none (f : A → Gen B) : ∀ (l : List A) (e : Option PyErr),
    (forEach f (l, e)).2 = none ↔ e = none ∧ ∀ a ∈ l, (f a).2 = none
  | [], e => by simp [forEach_nil]
  | a :: t, e => by
    rw [forEach_cons]
    have ih := forEach_none f t e
    cases hfa : f a with
    | mk ys e' =>
      cases e' with
      | some e' => simp [hfa]
      | none => simp [hfa, ih]

theorem forEach_vals (f : A → Gen B) : ∀ (l : List A) (e : Option PyErr), (∀ a ∈ l, (f a).2 = none) →
    forEach f (l, e) = (l.flatMap fun a => (f a).1, e)
  | [], e, _ => rfl
  | a :: t, e, h => by
    rw [forEach_cons]
    have ih := forEach_vals f t e (fun x hx => h x (by simp [hx]))
    have ha := h a (by simp)
    cases hfa : f a with
    | mk ys e' =>
      rw [hfa] at ha
      change e' = none at ha
      subst ha
      simp only [ih, List.flatMap_cons, hfa]

/-- Everything a loop yields is yielded by its body. -/
theorem forEach_mem (f : A → Gen B) : ∀ (l : List A) (e : Option PyErr) (b : B), b ∈ (forEach f (l, e)).1 → ∃ a ∈ l, b ∈ (f a).1
  | [], e, b, h => by simp [forEach_nil] at h
  | a :: t, e, b, h => by
    rw [forEach_cons] at h
    cases hfa : f a with
    | mk ys e' =>
      rw [hfa] at h
      cases e' with
      | some e' => exact ⟨a, by simp, by rw [hfa]; exact h⟩
      | none =>
        rcases List.mem_append.1 h with h | h
        · exact ⟨a, by simp, by rw [hfa]; exact h⟩
        · obtain ⟨x, hx, hb⟩ := forEach_mem f t e b h
          exact ⟨x, by simp [hx], hb⟩

theorem minLoop_spec (o : Opt) (keep : Bool) :
    ∀ (subs : List (Cme P × I)) (seen : List (Cme P)) (b : Cme P) (others : List (Cme P × I)), (∀ s ∈ subs, s.1.res.single = true) →
      IsFirst o.key seen b →
      ∃ c, minLoop o.better keep subs (some b) others = .ok (some c, if keep then others ++ subs else others) ∧
        IsFirst o.key (seen ++ subs.map Prod.fst) c := by
  intro subs
  induction subs with
  | nil => intro seen b others _ h; exact ⟨b, by simp [minLoop], by simpa using h⟩
  | cons s t ih =>
    intro seen b others hs hm
    have hm' : IsFirst o.key (seen ++ [s.1]) (if o.better s.1.res b.res then s.1 else b) := by
      obtain ⟨pre, post, h1, h2, h3⟩ := hm
      by_cases hc : o.better s.1.res b.res = true
      · rw [if_pos hc]
        have hlt := (better_key o _ _).1 hc
        refine ⟨seen, [], rfl, fun x hx => ?_, by simp⟩
        rw [h1] at hx
        rcases List.mem_append.1 hx with hx | hx
        · exact lt_trans hlt (h2 x hx)
        · rcases List.mem_cons.1 hx with rfl | hx
          · exact hlt
          · exact lt_of_lt_of_le hlt (not_lt.1 (h3 x hx))
      · rw [if_neg hc]
        refine ⟨pre, post ++ [s.1], by rw [h1]; simp, h2, fun x hx => ?_⟩
        rcases List.mem_append.1 hx with hx | hx
        · exact h3 x hx
        · rw [List.mem_singleton.1 hx]
          exact fun h => hc ((better_key o _ _).2 h)
    obtain ⟨c, h1, h2⟩ := ih (seen ++ [s.1]) _ (if keep then others ++ [s] else others) (fun x hx => hs x (by simp [hx])) hm'
    refine ⟨c, ?_, by simpa using h2⟩
    unfold minLoop
    rw [if_pos (hs s (by simp))]
    simp only
    rw [h1]
    cases keep <;> simp

theorem minStage_err (o : Opt) (keep : Bool) (g : Gen (Cme P × I)) (hs : ∀ s ∈ g.1, s.1.res.single = true) :
    (minStage o.better keep g).2 = none ↔ g.2 = none ∧ g.1 ≠ [] := by
  obtain ⟨vals, e⟩ := g
  cases vals with
  | nil => cases e <;> simp [minStage, minLoop]
  | cons s t =>
    obtain ⟨c, h1, _⟩ := minLoop_spec o keep t [s.1] s.1 (if keep then [] ++ [s] else []) (fun x hx => hs x (by simp [hx]))
      ⟨[], [], rfl, by simp, by simp⟩
    have h2 : minLoop o.better keep (s :: t) none [] = minLoop o.better keep t (some s.1) (if keep then [] ++ [s] else []) := by
      rw [minLoop, if_pos (hs s (by simp))]
    rw [show minStage o.better keep (s :: t, e) = _ from rfl]
    unfold minStage
    rw [h2, h1]
    cases e <;> simp

theorem minStage_ok (o : Opt) (keep : Bool) (g : Gen (Cme P × I)) (hs : ∀ s ∈ g.1, s.1.res.single = true) (h : g.2 = none) (hne : g.1 ≠ []) :
    ∃ c, minStage o.better keep g = ([(c, if keep then g.1 else [])], none) ∧ IsFirst o.key (g.1.map Prod.fst) c := by
  obtain ⟨vals, e⟩ := g
  change e = none at h
  subst h
  cases vals with
  | nil => exact absurd rfl hne
  | cons s t =>
    obtain ⟨c, h1, h3⟩ := minLoop_spec o keep t [s.1] s.1 (if keep then [] ++ [s] else []) (fun x hx => hs x (by simp [hx]))
      ⟨[], [], rfl, by simp, by simp⟩
    have h2 : minLoop o.better keep (s :: t) none [] = minLoop o.better keep t (some s.1) (if keep then [] ++ [s] else []) := by
      rw [minLoop, if_pos (hs s (by simp))]
    refine ⟨c, ?_, by simpa using h3⟩
    unfold minStage
    rw [h2, h1]
    cases keep <;> simp

/-- The best of the bests is the best of all, and the first of the firsts is the first of all. -/
theorem nested_first {K : Type} [LinearOrder K] (key : A → K) (gs : List (List A)) (bs : List A)
    (h : List.Forall₂ (IsFirst key) gs bs) (b : A) (hb : IsFirst key bs b) : IsFirst key gs.flatten b := by
  obtain ⟨pre, post, rfl, h1, h2⟩ := hb
  have hsplit : ∀ (pre : List A) (gs : List (List A)), List.Forall₂ (IsFirst key) gs (pre ++ b :: post) →
      ∃ gp g gq, gs = gp ++ g :: gq ∧ List.Forall₂ (IsFirst key) gp pre ∧ IsFirst key g b ∧ List.Forall₂ (IsFirst key) gq post := by
    intro pre
    induction pre with
    | nil =>
      intro gs h
      cases h with
      | cons hg ht => exact ⟨[], _, _, rfl, .nil, hg, ht⟩
    | cons x t ih =>
      intro gs h
      cases h with
      | cons hg ht =>
        obtain ⟨gp, g, gq, rfl, a, b', c⟩ := ih _ ht
        exact ⟨_ :: gp, g, gq, rfl, .cons hg a, b', c⟩
  have hle : ∀ (g : List A) (b' : A), IsFirst key g b' → ∀ x ∈ g, key b' ≤ key x := by
    rintro g b' ⟨p, q, rfl, h1, h2⟩ x hx
    rcases List.mem_append.1 hx with hx | hx
    · exact (h1 x hx).le
    · rcases List.mem_cons.1 hx with rfl | hx
      · exact le_rfl
      · exact not_lt.1 (h2 x hx)
  have hmem : ∀ (gs : List (List A)) (bs : List A), List.Forall₂ (IsFirst key) gs bs → ∀ x ∈ gs.flatten, ∃ b' ∈ bs, key b' ≤ key x := by
    intro gs bs h
    induction h with
    | nil => simp
    | cons hg _ ih =>
      intro x hx
      rw [List.flatten_cons] at hx
      rcases List.mem_append.1 hx with hx | hx
      · exact ⟨_, by simp, hle _ _ hg x hx⟩
      · obtain ⟨b', hb', hk⟩ := ih x hx
        exact ⟨b', by simp [hb'], hk⟩
  obtain ⟨gp, g, gq, rfl, a1, ⟨p, q, rfl, a2, a3⟩, a4⟩ := hsplit pre gs h
  refine ⟨gp.flatten ++ p, q ++ gq.flatten, by simp, ?_, ?_⟩
  · intro x hx
    rcases List.mem_append.1 hx with hx | hx
    · obtain ⟨b', hb', hk⟩ := hmem _ _ a1 x hx
      exact lt_of_lt_of_le (h1 b' hb') hk
    · exact a2 x hx
  · intro x hx
    rcases List.mem_append.1 hx with hx | hx
    · exact a3 x hx
    · obtain ⟨b', hb', hk⟩ := hmem _ _ a4 x hx
      exact not_lt.2 (le_trans (not_lt.1 (h2 b' hb')) hk)

/-! ### One layer -/

private def body (E : Env Ly SM TM P) (l : Ly) (sm : SM) (tm : TM) : Gen (Cme P × (TM × Unit)) :=
  ((costStage E l sm tm).1.map (fun x => (x.1, (tm, x.2))), (costStage E l sm tm).2)

private theorem body_ok {E : Env Ly SM TM P} {l : Ly} {sm : SM} {tm : TM} {c : Cme P} (h : E.cost l sm tm = .ok c) :
    body E l sm tm = ([(c, (tm, ()))], none) := by
  unfold body costStage; rw [h]; rfl

private theorem body_err {E : Env Ly SM TM P} {l : Ly} {sm : SM} {tm : TM} {e : PyErr} (h : E.cost l sm tm = .error e) :
    body E l sm tm = ([], some e) := by
  unfold body costStage; rw [h]; rfl

private theorem body_none (E : Env Ly SM TM P) (l : Ly) (sm : SM) (tm : TM) : (body E l sm tm).2 = none ↔ ∃ c, E.cost l sm tm = .ok c := by
  cases h : E.cost l sm tm with
  | error e => simp [body_err h]
  | ok c => simp [body_ok h]

private theorem body_fst (E : Env Ly SM TM P) (l : Ly) (sm : SM) (tm : TM) :
    (body E l sm tm).1.map Prod.fst = (E.cost l sm tm).toOption.toList := by
  cases h : E.cost l sm tm with
  | error e => simp [body_err h, Except.toOption]
  | ok c => simp [body_ok h, Except.toOption]

theorem temporal_single {E : Env Ly SM TM P} (hs : Single E) (l : Ly) (sm : SM) : ∀ s ∈ (temporalStage E l sm).1, s.1.res.single = true := by
  intro s h
  obtain ⟨tm, _, hb⟩ := forEach_mem (body E l sm) _ _ _ h
  cases hc : E.cost l sm tm with
  | error e => rw [body_err hc] at hb; simp at hb
  | ok c =>
    rw [body_ok hc] at hb
    rw [List.mem_singleton.1 hb]
    exact hs _ _ _ _ hc

theorem temporal_none (E : Env Ly SM TM P) (l : Ly) (sm : SM) :
    (temporalStage E l sm).2 = none ↔ (E.temporal l sm).2 = none ∧ ∀ tm ∈ (E.temporal l sm).1, ∃ c, E.cost l sm tm = .ok c := by
  refine (forEach_none (body E l sm) _ _).trans ?_
  simp only [body_none]

theorem temporal_fst {E : Env Ly SM TM P} {l : Ly} {sm : SM} (h : (temporalStage E l sm).2 = none) :
    (temporalStage E l sm).1.map Prod.fst = (E.temporal l sm).1.filterMap fun tm => (E.cost l sm tm).toOption := by
  have h1 := ((temporal_none E l sm).1 h).2
  have h2 : temporalStage E l sm = _ := forEach_vals (body E l sm) (E.temporal l sm).1 (E.temporal l sm).2
    (fun a ha => (body_none E l sm a).2 (h1 a ha))
  rw [h2]
  change List.map Prod.fst (List.flatMap _ _) = _
  rw [List.map_flatMap]
  simp only [body_fst]
  rw [List.filterMap_eq_flatMap_toList]

private def smBody (o : Opt) (E : Env Ly SM TM P) (l : Ly) (sm : SM) : Gen (Cme P × (SM × List (Cme P × (TM × Unit)))) :=
  ((minStage o.better false (temporalStage E l sm)).1.map (fun x => (x.1, (sm, x.2))), (minStage o.better false (temporalStage E l sm)).2)

private theorem temporal_ne {E : Env Ly SM TM P} {l : Ly} {sm : SM} (h : (temporalStage E l sm).2 = none) :
    (temporalStage E l sm).1 ≠ [] ↔ (E.temporal l sm).1 ≠ [] := by
  have h1 := ((temporal_none E l sm).1 h).2
  have h2 := temporal_fst h
  constructor
  · intro hne hc
    rw [hc] at h2
    exact hne (List.map_eq_nil_iff.1 h2)
  · intro hne hc
    rw [hc] at h2
    obtain ⟨tm, ht⟩ := List.exists_mem_of_ne_nil _ hne
    obtain ⟨c, hc⟩ := h1 tm ht
    have : c ∈ ([] : List (Cme P)) := by
      change c ∈ List.map Prod.fst ([] : List (Cme P × (TM × Unit)))
      rw [h2]
      exact List.mem_filterMap.2 ⟨tm, ht, by rw [hc]; rfl⟩
    simp at this

private theorem smBody_none {E : Env Ly SM TM P} (hs : Single E) (o : Opt) (l : Ly) (sm : SM) :
    (smBody o E l sm).2 = none ↔
      (E.temporal l sm).2 = none ∧ (E.temporal l sm).1 ≠ [] ∧ ∀ tm ∈ (E.temporal l sm).1, ∃ c, E.cost l sm tm = .ok c := by
  refine (minStage_err o false _ (temporal_single hs l sm)).trans ?_
  constructor
  · rintro ⟨h1, h2⟩
    have h3 := (temporal_none E l sm).1 h1
    exact ⟨h3.1, (temporal_ne h1).1 h2, h3.2⟩
  · rintro ⟨h1, h2, h3⟩
    have h4 := (temporal_none E l sm).2 ⟨h1, h3⟩
    exact ⟨h4, (temporal_ne h4).2 h2⟩

private theorem smBody_ok {E : Env Ly SM TM P} (hs : Single E) (o : Opt) (l : Ly) (sm : SM) (h : (smBody o E l sm).2 = none) :
    ∃ c, smBody o E l sm = ([(c, (sm, []))], none) ∧
      IsFirst o.key ((E.temporal l sm).1.filterMap fun tm => (E.cost l sm tm).toOption) c := by
  obtain ⟨h1, h2⟩ := (minStage_err o false _ (temporal_single hs l sm)).1 h
  obtain ⟨c, h3, h4⟩ := minStage_ok o false _ (temporal_single hs l sm) h1 h2
  refine ⟨c, ?_, by rw [temporal_fst h1] at h4; exact h4⟩
  unfold smBody
  rw [h3]; rfl

private theorem smBody_single {E : Env Ly SM TM P} (hs : Single E) (o : Opt) (l : Ly) (sm : SM) : ∀ s ∈ (smBody o E l sm).1, s.1.res.single = true := by
  intro s h
  unfold smBody at h
  obtain ⟨x, hx, rfl⟩ := List.mem_map.1 h
  have hne : (minStage o.better false (temporalStage E l sm)).1 ≠ [] := List.ne_nil_of_mem hx
  have hn : (minStage o.better false (temporalStage E l sm)).2 = none := by
    by_contra hc
    apply hne
    unfold minStage at hc ⊢
    revert hc
    cases minLoop o.better false (temporalStage E l sm).1 none [] with
    | error e => intro _; rfl
    | ok r =>
      obtain ⟨best, others⟩ := r
      cases (temporalStage E l sm).2 with
      | some e => intro _; rfl
      | none =>
        cases best with
        | none => intro _; rfl
        | some b => intro hc; exact absurd rfl hc
  obtain ⟨h1, h2⟩ := (minStage_err o false _ (temporal_single hs l sm)).1 hn
  obtain ⟨c, h3, p, q, h4, _⟩ := minStage_ok o false _ (temporal_single hs l sm) h1 h2
  rw [h3] at hx
  rw [List.mem_singleton.1 hx]
  have : c ∈ (temporalStage E l sm).1.map Prod.fst := by rw [h4]; simp
  obtain ⟨y, hy, rfl⟩ := List.mem_map.1 this
  exact temporal_single hs l sm y hy

theorem spatial_single {E : Env Ly SM TM P} (hs : Single E) (o : Opt) (l : Ly) : ∀ s ∈ (spatialStage o.better E l).1, s.1.res.single = true := by
  intro s h
  unfold spatialStage at h
  cases hsm : E.spatial l with
  | error e => rw [hsm] at h; simp at h
  | ok sms =>
    rw [hsm] at h
    by_cases hl : sms.length > 0
    · simp only [hl, if_true] at h
      obtain ⟨sm, _, hb⟩ := forEach_mem (smBody o E l) _ _ _ h
      exact smBody_single hs o l sm s hb
    · simp only [hl, if_false] at h
      simp at h

private theorem spatial_eq {E : Env Ly SM TM P} (o : Opt) {l : Ly} {sms : List SM} (h : E.spatial l = .ok sms) (hne : sms ≠ []) :
    spatialStage o.better E l = forEach (smBody o E l) (sms, none) := by
  unfold spatialStage
  rw [h]
  simp only [List.length_pos_iff.2 hne, gt_iff_lt, if_true]
  rfl

private theorem spatial_vals {E : Env Ly SM TM P} (hs : Single E) (o : Opt) {l : Ly} {sms : List SM} (h : E.spatial l = .ok sms) (hne : sms ≠ [])
    (hall : ∀ sm ∈ sms, (smBody o E l sm).2 = none) :
    (spatialStage o.better E l).2 = none ∧ (spatialStage o.better E l).1 ≠ [] ∧
    List.Forall₂ (IsFirst o.key) (sms.map fun sm => (E.temporal l sm).1.filterMap fun tm => (E.cost l sm tm).toOption)
      ((spatialStage o.better E l).1.map Prod.fst) := by
  rw [spatial_eq o h hne, forEach_vals _ _ _ hall]
  refine ⟨rfl, ?_, ?_⟩
  · obtain ⟨sm, hsm⟩ := List.exists_mem_of_ne_nil _ hne
    obtain ⟨c, hc, _⟩ := smBody_ok hs o l sm (hall sm hsm)
    refine List.ne_nil_of_mem (a := (c, (sm, []))) (List.mem_flatMap.2 ⟨sm, hsm, by rw [hc]; simp⟩)
  · clear h hne
    induction sms with
    | nil => exact .nil
    | cons sm t ih =>
      obtain ⟨c, hc, hf⟩ := smBody_ok hs o l sm (hall sm (by simp))
      have := ih (fun x hx => hall x (by simp [hx]))
      simp only [List.flatMap_cons, hc, List.map_cons, List.map_append, List.singleton_append]
      exact .cons hf this

/-- A layer is evaluated without exception exactly if it works. -/
theorem layer_none {E : Env Ly SM TM P} (hs : Single E) (o : Opt) (keep : Bool) (l : Ly) :
    (minStage o.better keep (spatialStage o.better E l)).2 = none ↔ Works E l := by
  rw [minStage_err o keep _ (spatial_single hs o l)]
  constructor
  · rintro ⟨h1, h2⟩
    cases hsm : E.spatial l with
    | error e => unfold spatialStage at h1; rw [hsm] at h1; cases h1
    | ok sms =>
      by_cases hne : sms = []
      · unfold spatialStage at h1; rw [hsm, hne] at h1; cases h1
      · rw [spatial_eq o hsm hne, forEach_none] at h1
        exact ⟨sms, hsm, hne, fun sm hm => (smBody_none hs o l sm).1 (h1.2 sm hm)⟩
  · rintro ⟨sms, h1, h2, h3⟩
    obtain ⟨a, b, _⟩ := spatial_vals hs o h1 h2 (fun sm hm => (smBody_none hs o l sm).2 (h3 sm hm))
    exact ⟨a, b⟩

/-- C99: for one layer the nested search over spatial and temporal mappings yields exactly one result, the first best of all evaluated
mappings of the layer. -/
theorem layer_best {E : Env Ly SM TM P} (hs : Single E) (o : Opt) (l : Ly) (hw : Works E l) :
    ∃ c, minStage o.better false (spatialStage o.better E l) = ([(c, [])], none) ∧ IsFirst o.key (cands E l) c := by
  obtain ⟨sms, h1, h2, h3⟩ := hw
  obtain ⟨a1, a2, a3⟩ := spatial_vals hs o h1 h2 (fun sm hm => (smBody_none hs o l sm).2 (h3 sm hm))
  obtain ⟨c, c1, c2⟩ := minStage_ok o false _ (spatial_single hs o l) a1 a2
  refine ⟨c, by rw [c1]; rfl, ?_⟩
  have := nested_first o.key _ _ a3 c c2
  unfold cands
  rw [h1]
  change IsFirst o.key (List.flatMap _ _) c
  rw [List.flatMap_def]
  exact this

/-! ### All layers -/

private def lyBody (o : Opt) (E : Env Ly SM TM P) (l : Ly) : Gen (Cme P × (Ly × Info P SM TM)) :=
  if E.skip l then ([], none)
  else ((minStage o.better false (spatialStage o.better E l)).1.map (fun x => (x.1, (l, x.2))), (minStage o.better false (spatialStage o.better E l)).2)

private theorem lyBody_none {E : Env Ly SM TM P} (hs : Single E) (o : Opt) (l : Ly) : (lyBody o E l).2 = none ↔ (E.skip l = false → Works E l) := by
  unfold lyBody
  by_cases h : E.skip l = true
  · simp [h]
  · rw [if_neg h]
    simp only [Bool.not_eq_true] at h
    simp only [h, true_imp_iff]
    exact layer_none hs o false l

private theorem workload_vals {E : Env Ly SM TM P} (hs : Single E) (o : Opt) (layers : List Ly)
    (h : ∀ l ∈ layers, E.skip l = false → Works E l) :
    ∃ best : List (Ly × Cme P), best.map Prod.fst = layers.filter (fun l => !E.skip l) ∧
      (∀ x ∈ best, IsFirst o.key (cands E x.1) x.2 ∧ x.2.res.single = true) ∧
      workloadStage o.better false E layers = (best.map (fun x => (x.2, (x.1, []))), none) := by
  have h0 : workloadStage o.better false E layers = _ := forEach_vals (lyBody o E) layers none (fun l hl => (lyBody_none hs o l).2 (h l hl))
  rw [h0]
  clear h0
  induction layers with
  | nil => exact ⟨[], rfl, by simp, rfl⟩
  | cons l t ih =>
    obtain ⟨best, b1, b2, b3⟩ := ih (fun x hx => h x (by simp [hx]))
    by_cases hk : E.skip l = true
    · refine ⟨best, ?_, b2, ?_⟩
      · rw [b1, List.filter_cons_of_neg (by simp [hk])]
      · rw [List.flatMap_cons]
        have : lyBody o E l = ([], none) := by unfold lyBody; rw [if_pos hk]
        rw [this]
        exact b3
    · simp only [Bool.not_eq_true] at hk
      obtain ⟨c, c1, c2⟩ := layer_best hs o l (h l (by simp) hk)
      refine ⟨(l, c) :: best, ?_, ?_, ?_⟩
      · rw [List.map_cons, b1, List.filter_cons_of_pos (by simp [hk])]
      · intro x hx
        rcases List.mem_cons.1 hx with rfl | hx
        · refine ⟨c2, ?_⟩
          obtain ⟨p, q, e, _⟩ := c2
          have hm : c ∈ cands E l := by rw [e]; simp
          unfold cands at hm
          cases hsp : E.spatial l with
          | error _ => rw [hsp] at hm; simp at hm
          | ok sms =>
            rw [hsp] at hm
            obtain ⟨sm, _, hm⟩ := List.mem_flatMap.1 hm
            obtain ⟨tm, _, hm⟩ := List.mem_filterMap.1 hm
            cases hc : E.cost l sm tm with
            | error _ => rw [hc] at hm; cases hm
            | ok c' =>
              rw [hc] at hm
              injection hm with hm
              subst hm
              exact hs _ _ _ _ hc
        · exact b2 x hx
      · rw [List.flatMap_cons]
        have : lyBody o E l = ([(c, (l, []))], none) := by
          unfold lyBody
          rw [if_neg (by simp [hk]), c1]; rfl
        rw [this]
        simp only [List.map_cons, Prod.mk.injEq, and_true, List.singleton_append, List.cons.injEq, true_and]
        exact (Prod.mk.inj b3).1

theorem sumLoop_ok : ∀ (l : List (Cme P × J)) (tot : Res) (all : List (Cme P × J)), (∀ s ∈ l, s.1.res.single = true) → tot.single = false →
    sumLoop l tot all = .ok (⟨tot.energy + (l.map (fun s => s.1.res.energy)).sum, tot.latency + (l.map (fun s => s.1.res.latency)).sum, false⟩, all ++ l)
  | [], tot, all, _, h => by
    obtain ⟨e, lt, s⟩ := tot
    change s = false at h
    subst h
    simp [sumLoop]
  | s :: t, tot, all, hs, h => by
    rw [sumLoop, if_pos (hs s (by simp)), sumLoop_ok t _ _ (fun x hx => hs x (by simp [hx])) rfl]
    simp [add_assoc]

private theorem api_ok {E : Env Ly SM TM P} (hs : Single E) (o : Opt) (layers : List Ly) (h : ∀ l ∈ layers, E.skip l = false → Works E l) :
    ∃ best : List (Ly × Cme P), best.map Prod.fst = layers.filter (fun l => !E.skip l) ∧ (∀ x ∈ best, IsFirst o.key (cands E x.1) x.2) ∧
      mainStage (sumStage (workloadStage o.better false E layers)) =
        .ok [(⟨(best.map (fun x => x.2.res.energy)).sum, (best.map (fun x => x.2.res.latency)).sum, false⟩, best.map (fun x => (x.2, (x.1, []))))] := by
  obtain ⟨best, b1, b2, b3⟩ := workload_vals hs o layers h
  refine ⟨best, b1, fun x hx => (b2 x hx).1, ?_⟩
  rw [b3]
  unfold sumStage
  rw [sumLoop_ok _ _ _ (by
    intro s hm
    obtain ⟨x, hx, rfl⟩ := List.mem_map.1 hm
    exact (b2 x hx).2) rfl]
  simp only [mainStage, List.map_map, Function.comp_def, zero_add, List.nil_append]

private theorem sum_err (g : Gen (Cme P × J)) (h : g.2 ≠ none) : (sumStage g).2 ≠ none := by
  unfold sumStage
  cases sumLoop g.1 ⟨0, 0, false⟩ [] with
  | error e => simp
  | ok r =>
    obtain ⟨v, e⟩ := g
    cases e with
    | none => exact absurd rfl h
    | some e => simp

private theorem parse_cases {opt : String} {o : Opt} (h : Opt.parse opt = .ok o) :
    (opt = "energy" ∧ o = .energy) ∨ (opt = "latency" ∧ o = .latency) ∨ (opt = "EDP" ∧ o = .edp) := by
  unfold Opt.parse at h
  split_ifs at h with h1 h2 h3
  · exact Or.inl ⟨h1, (Except.ok.inj h).symm⟩
  · exact Or.inr (Or.inl ⟨h2, (Except.ok.inj h).symm⟩)
  · exact Or.inr (Or.inr ⟨h3, (Except.ok.inj h).symm⟩)

/-- C100: a call returns exactly if the criterion is known and for every layer that is not skipped every generated spatial mapping has a
temporal mapping and every mapping can be evaluated. -/
theorem api_ok_iff {E : Env Ly SM TM P} (hs : Single E) (opt : String) (layers : List Ly) :
    (∃ a, api opt false E layers = .ok a) ↔
      (opt = "energy" ∨ opt = "latency" ∨ opt = "EDP") ∧ ∀ l ∈ layers, E.skip l = false → Works E l := by
  constructor
  · rintro ⟨a, ha⟩
    unfold api at ha
    cases hp : Opt.parse opt with
    | error e => rw [hp] at ha; cases ha
    | ok o =>
      refine ⟨by rcases parse_cases hp with h | h | h <;> simp [h.1], ?_⟩
      rw [hp] at ha
      cases hm : mainStage (sumStage (workloadStage o.better false E layers)) with
      | error e => simp only [hm] at ha; cases ha
      | ok cmes =>
        have h1 : (sumStage (workloadStage o.better false E layers)).2 = none := by
          unfold mainStage at hm
          cases he : (sumStage (workloadStage o.better false E layers)).2 with
          | none => rfl
          | some e => rw [he] at hm; cases hm
        have h2 : (workloadStage o.better false E layers).2 = none := by
          by_contra hc
          exact sum_err _ hc h1
        have h3 := (forEach_none (lyBody o E) layers none).1 h2
        exact fun l hl => (lyBody_none hs o l).1 (h3.2 l hl)
  · rintro ⟨ho, hw⟩
    obtain ⟨o, hp⟩ : ∃ o, Opt.parse opt = .ok o := by
      rcases ho with rfl | rfl | rfl <;> exact ⟨_, rfl⟩
    obtain ⟨best, _, _, b3⟩ := api_ok hs o layers hw
    unfold api
    rw [hp]
    simp only [b3]
    exact ⟨_, rfl⟩

/-- C99: what is returned: the results are one per layer that is not skipped, in order, each the first best of all evaluated mappings of
its layer, and energy and latency are the sums over these results. -/
theorem api_answer {E : Env Ly SM TM P} (hs : Single E) (opt : String) (imc : Bool) (layers : List Ly)
    {a : Answer P (Ly × Info P SM TM)} (ha : api opt imc E layers = .ok a) :
    ∃ o, Opt.parse opt = .ok o ∧ ∃ best : List (Ly × Cme P), best.map Prod.fst = layers.filter (fun l => !E.skip l) ∧
      (∀ x ∈ best, IsFirst o.key (cands E x.1) x.2) ∧
      a.energy = (best.map (fun x => x.2.res.energy)).sum ∧ a.latency = (best.map (fun x => x.2.res.latency)).sum ∧
      a.cmes = [(⟨a.energy, a.latency, false⟩, best.map (fun x => (x.2, (x.1, []))))] ∧
      a.first = if imc then (best.head?.map (fun x => x.2.tag)) else none := by
  cases hp : Opt.parse opt with
  | error e => unfold api at ha; rw [hp] at ha; cases ha
  | ok o =>
    refine ⟨o, rfl, ?_⟩
    have hw : ∀ l ∈ layers, E.skip l = false → Works E l := by
      unfold api at ha
      rw [hp] at ha
      cases hm : mainStage (sumStage (workloadStage o.better false E layers)) with
      | error e => simp only [hm] at ha; cases ha
      | ok cmes =>
        have h1 : (sumStage (workloadStage o.better false E layers)).2 = none := by
          unfold mainStage at hm
          cases he : (sumStage (workloadStage o.better false E layers)).2 with
          | none => rfl
          | some e => rw [he] at hm; cases hm
        have h2 : (workloadStage o.better false E layers).2 = none := by
          by_contra hc
          exact sum_err _ hc h1
        have h3 := (forEach_none (lyBody o E) layers none).1 h2
        exact fun l hl => (lyBody_none hs o l).1 (h3.2 l hl)
    obtain ⟨best, b1, b2, b3⟩ := api_ok hs o layers hw
    refine ⟨best, b1, b2, ?_⟩
    unfold api at ha
    rw [hp] at ha
    simp only [b3, List.getElem?_cons_zero] at ha
    cases imc with
    | false =>
      simp only [Bool.false_eq_true, if_false, Except.ok.injEq] at ha
      subst ha
      exact ⟨rfl, rfl, rfl, rfl⟩
    | true =>
      simp only [if_true] at ha
      cases best with
      | nil => simp at ha
      | cons x t =>
        simp only [List.map_cons, List.getElem?_cons_zero, Except.ok.injEq] at ha
        subst ha
        exact ⟨rfl, rfl, rfl, rfl⟩

private theorem first_le {o : Opt} {l : List (Cme P)} {b : Cme P} (h : IsFirst o.key l b) : ∀ c ∈ l, o.key b ≤ o.key c := by
  obtain ⟨p, q, rfl, h1, h2⟩ := h
  intro x hx
  rcases List.mem_append.1 hx with hx | hx
  · exact (h1 x hx).le
  · rcases List.mem_cons.1 hx with rfl | hx
    · exact le_rfl
    · exact not_lt.1 (h2 x hx)

private theorem lex_fst {a b c d : ℚ} (h : (toLex (a, b) : ℚ ×ₗ ℚ) ≤ toLex (c, d)) : a ≤ c := by
  rw [Prod.Lex.toLex_le_toLex] at h
  rcases h with h | h
  · exact le_of_lt h
  · exact le_of_eq h.1

/-- C99: with the criterion "energy" the returned total energy is the least over all ways to choose one evaluated mapping per layer. -/
theorem api_energy_least {E : Env Ly SM TM P} (hs : Single E) (imc : Bool) (layers : List Ly)
    {a : Answer P (Ly × Info P SM TM)} (ha : api "energy" imc E layers = .ok a) :
    (∀ choice : Ly → Cme P, (∀ l ∈ layers, E.skip l = false → choice l ∈ cands E l) →
      a.energy ≤ ((layers.filter (fun l => !E.skip l)).map (fun l => (choice l).res.energy)).sum) ∧
    ∃ best : List (Ly × Cme P), best.map Prod.fst = layers.filter (fun l => !E.skip l) ∧ (∀ x ∈ best, x.2 ∈ cands E x.1) ∧
      a.energy = (best.map (fun x => x.2.res.energy)).sum := by
  obtain ⟨o, ho, best, b1, b2, b3, _⟩ := api_answer hs _ imc layers ha
  obtain rfl : o = .energy := by
    rcases parse_cases ho with h | h | h
    · exact h.2
    · exact absurd h.1 (by decide)
    · exact absurd h.1 (by decide)
  refine ⟨fun choice hc => ?_, best, b1, fun x hx => by obtain ⟨p, q, e, _⟩ := b2 x hx; rw [e]; simp, b3⟩
  rw [b3, ← b1, List.map_map]
  apply List.sum_le_sum
  intro x hx
  have hm : x.1 ∈ layers.filter (fun l => !E.skip l) := by rw [← b1]; exact List.mem_map.2 ⟨x, hx, rfl⟩
  obtain ⟨m1, m2⟩ := List.mem_filter.1 hm
  exact lex_fst (first_le (b2 x hx) _ (hc x.1 m1 (by simpa using m2)))

/-- C99: the same for "latency". -/
theorem api_latency_least {E : Env Ly SM TM P} (hs : Single E) (imc : Bool) (layers : List Ly)
    {a : Answer P (Ly × Info P SM TM)} (ha : api "latency" imc E layers = .ok a) :
    (∀ choice : Ly → Cme P, (∀ l ∈ layers, E.skip l = false → choice l ∈ cands E l) →
      a.latency ≤ ((layers.filter (fun l => !E.skip l)).map (fun l => (choice l).res.latency)).sum) ∧
    ∃ best : List (Ly × Cme P), best.map Prod.fst = layers.filter (fun l => !E.skip l) ∧ (∀ x ∈ best, x.2 ∈ cands E x.1) ∧
      a.latency = (best.map (fun x => x.2.res.latency)).sum := by
  obtain ⟨o, ho, best, b1, b2, _, b3, _⟩ := api_answer hs _ imc layers ha
  obtain rfl : o = .latency := by
    rcases parse_cases ho with h | h | h
    · exact absurd h.1 (by decide)
    · exact h.2
    · exact absurd h.1 (by decide)
  refine ⟨fun choice hc => ?_, best, b1, fun x hx => by obtain ⟨p, q, e, _⟩ := b2 x hx; rw [e]; simp, b3⟩
  rw [b3, ← b1, List.map_map]
  apply List.sum_le_sum
  intro x hx
  have hm : x.1 ∈ layers.filter (fun l => !E.skip l) := by rw [← b1]; exact List.mem_map.2 ⟨x, hx, rfl⟩
  obtain ⟨m1, m2⟩ := List.mem_filter.1 hm
  exact lex_fst (first_le (b2 x hx) _ (hc x.1 m1 (by simpa using m2)))

/-! ### With the loop order engine -/

private theorem orderLoop_has {O T : Type} (alloc : O → Except PyErr T) : ∀ (L : List O) (y : Bool), (Engine.orderLoop alloc L y).2 = none →
    ∀ o ∈ L, ∀ t, alloc o = .ok t → t ∈ (Engine.orderLoop alloc L y).1
  | [], _, _, o, ho, _, _ => by simp at ho
  | x :: L, y, h, o, ho, t, ht => by
    cases hx : alloc x with
    | ok t' =>
      rw [Engine.orderLoop_cons_ok hx] at h ⊢
      rcases List.mem_cons.1 ho with rfl | ho
      · rw [hx] at ht
        injection ht with ht
        subst ht
        exact List.mem_cons_self
      · exact List.mem_cons_of_mem _ (orderLoop_has alloc L true h o ho t ht)
    | error e =>
      by_cases hs : Engine.TooSmall e
      · rw [Engine.orderLoop_cons_small hx hs] at h ⊢
        rcases List.mem_cons.1 ho with rfl | ho
        · rw [hx] at ht; cases ht
        · exact orderLoop_has alloc L y h o ho t ht
      · rw [Engine.orderLoop_cons_other hx hs] at h
        cases h

/-- C99: with the loop order engine, the result of a layer is at least as good as the mapping of every loop order that fits, for every
generated spatial mapping: for every rearrangement `o'` of the loops of a tried order `o`, whose loops cover the layer together with the
spatial mapping. -/
theorem layer_beats_orders {D : Type} [LinearOrder D] {E : Env Ly SM TM P} (hs : Single E) (opt : Opt) (l : Ly) (hw : Works E l)
    (fact : Nat → List (Nat × Nat)) (hf : Lpf.FactContract fact) (ld : D) (lds : List D) (sizes : Dict D Int) (hwf : sizes.WF)
    (hpos : ∀ k v, sizes.get? k = some v → 1 ≤ v) (limit : Option Nat) (hlim : ∀ n, limit = some n → 1 ≤ n)
    (unroll : SM → List (D × Rat)) (hun : ∀ sm, ∀ x ∈ unroll sm, 1 ≤ x.2) (alloc : SM → Engine.Order D → Except PyErr TM)
    (hE : ∀ sm, ∃ N, ∀ fuel, N ≤ fuel → Engine.run fact (ld :: lds) sizes (unroll sm) limit (alloc sm) fuel = some (E.temporal l sm)) :
    ∃ c, minStage opt.better false (spatialStage opt.better E l) = ([(c, [])], none) ∧
      ∀ sms, E.spatial l = .ok sms → ∀ sm ∈ sms, ∃ o : Engine.Order D,
        (∀ d s, sizes.get? d = some s → (s : ℚ) ≤ (((unroll sm).filter (fun x => x.1 = d)).map Prod.snd).prod * Engine.iterQ (Engine.toAlloc o) d) ∧
        ∀ o', o'.Perm o → ∀ tm, alloc sm o' = .ok tm → ∃ c', E.cost l sm tm = .ok c' ∧ opt.key c ≤ opt.key c' := by
  obtain ⟨c, c1, c2⟩ := layer_best hs opt l hw
  refine ⟨c, c1, fun sms hsp sm hsm => ?_⟩
  obtain ⟨N, L, _, h2, h3, h4, h5, _⟩ := Engine.run_orders fact hf ld lds sizes (unroll sm) hwf hpos (hun sm) limit hlim (alloc sm)
  obtain ⟨N', hN'⟩ := hE sm
  have heq : E.temporal l sm = Engine.orderLoop (alloc sm) L false := by
    have a := hN' (max N N') (le_max_right _ _)
    rw [h3 (max N N') (le_max_left _ _)] at a
    exact (Option.some.inj a).symm
  obtain ⟨sms', w1, _, w3⟩ := hw
  rw [hsp] at w1
  injection w1 with w1
  subst w1
  obtain ⟨w4, _, w5⟩ := w3 sm hsm
  obtain ⟨o, ho⟩ := List.exists_mem_of_ne_nil _ h2
  refine ⟨o, h5 o ho, fun o' hp tm ht => ?_⟩
  have hmem : tm ∈ (E.temporal l sm).1 := by
    rw [heq] at w4 ⊢
    exact orderLoop_has (alloc sm) L false w4 o' ((h4 o ho o').2 hp) tm ht
  obtain ⟨c', hc'⟩ := w5 tm hmem
  refine ⟨c', hc', first_le c2 c' ?_⟩
  unfold cands
  rw [hsp]
  exact List.mem_flatMap.2 ⟨sm, hsm, List.mem_filterMap.2 ⟨tm, hmem, by rw [hc']; rfl⟩⟩

/-- The reducing stage is the one of `Verif.Stages` with everything but energy and latency forgotten. -/
theorem minStage_refines (better : Res → Res → Bool) (keep : Bool) (subs : List (Cme P × I)) :
    Stages.minRun better keep (subs.map (fun s => (s.1.res, s.2))) =
      match minStage better keep (subs, none) with
      | (_, some e) => .error e
      | (ys, none) => .ok (ys.map (fun y => (y.1.res, y.2.map (fun s => (s.1.res, s.2))))) := by
  have key : ∀ (subs : List (Cme P × I)) (b : Option (Cme P)) (others : List (Cme P × I)),
      Stages.minLoop better keep (subs.map (fun s => (s.1.res, s.2))) (b.map Cme.res) (others.map (fun s => (s.1.res, s.2))) =
        match minLoop better keep subs b others with
        | .error e => .error e
        | .ok (b', o') => .ok (b'.map Cme.res, o'.map (fun s => (s.1.res, s.2))) := by
    intro subs
    induction subs with
    | nil => intro b others; rfl
    | cons s t ih =>
      intro b others
      rw [List.map_cons]
      unfold Stages.minLoop minLoop
      by_cases h : s.1.res.single = true
      · rw [if_pos h, if_pos h]
        simp only
        rw [← ih]
        have e1 : (if keep = true then List.map (fun s : Cme P × I => (s.1.res, s.2)) others ++ [(s.1.res, s.2)]
            else List.map (fun s => (s.1.res, s.2)) others) =
            List.map (fun s => (s.1.res, s.2)) (if keep = true then others ++ [s] else others) := by
          cases keep <;> simp
        rw [e1]
        congr 1
        cases b with
        | none => rfl
        | some b =>
          simp only [Option.map_some]
          split_ifs <;> rfl
      · rw [if_neg h, if_neg h]
  have := key subs none []
  simp only [Option.map_none, List.map_nil] at this
  unfold Stages.minRun minStage
  rw [this]
  cases minLoop better keep subs none [] with
  | error e => rfl
  | ok r =>
    obtain ⟨b, o⟩ := r
    cases b <;> rfl

/-! ### Counterexamples and cases -/

/-- Two layers with two temporal mappings each: layer 0 costs (energy, latency) (1, 10) or (4, 3), layer 1 costs (10, 1) or (3, 4). -/
def edpEnv : Env Bool Unit Bool Unit where
  skip _ := false
  spatial _ := .ok [()]
  temporal _ _ := ([false, true], none)
  cost l _ tm := .ok ⟨match l, tm with
    | false, false => ⟨1, 10, true⟩
    | false, true => ⟨4, 3, true⟩
    | true, false => ⟨10, 1, true⟩
    | true, true => ⟨3, 4, true⟩, ()⟩

/-- C99: with the criterion "EDP" the product of the returned totals is not the least: the stage minimises the product of every layer.  Here
the call returns energy 11 and latency 11 (product 121), the other mappings of the same layers have energy 7 and latency 7. -/
theorem api_edp_false : (match api "EDP" false edpEnv [false, true] with | .ok a => some (a.energy * a.latency) | .error _ => none) = some 121 ∧
    ∃ choice : Bool → Cme Unit, (∀ l, choice l ∈ cands edpEnv l) ∧
      ([false, true].map (fun l => (choice l).res.energy)).sum * ([false, true].map (fun l => (choice l).res.latency)).sum = 49 := by
  refine ⟨by decide +kernel, fun l => ⟨match l with | false => ⟨4, 3, true⟩ | true => ⟨3, 4, true⟩, ()⟩, ?_, by decide +kernel⟩
  intro l
  cases l <;> decide +kernel

/-- C100: one generated spatial mapping without temporal mapping makes the whole call fail, although other mappings of every layer are
fine: here the first of two spatial mappings could be evaluated. -/
theorem api_one_bad_false : ∃ E : Env Unit Bool Unit Unit, Single E ∧ cands E () ≠ [] ∧
    (∀ sm, (E.temporal () sm).2 = none ∨ E.temporal () sm = ([], some .noValidOrdering)) ∧
    ∀ opt imc, ∃ e, api opt imc E [()] = .error e := by
  refine ⟨⟨fun _ => false, fun _ => .ok [false, true], fun _ sm => if sm then ([], some .noValidOrdering) else ([()], none),
    fun _ _ _ => .ok ⟨⟨1, 1, true⟩, ()⟩⟩, ?_, by decide +kernel, ?_, ?_⟩
  · intro l sm tm c h
    simp only [Except.ok.injEq] at h
    subst h; rfl
  · intro sm; cases sm <;> simp
  · intro opt imc
    unfold api
    cases hp : Opt.parse opt with
    | error e => exact ⟨e, rfl⟩
    | ok o => cases o <;> exact ⟨.noValidOrdering, rfl⟩

/-- C100: with `in_memory_compute`, a workload of which every layer is skipped (all pooling and additions) raises instead of returning a
total of zero. -/
theorem api_imc_empty_crash {E : Env Ly SM TM P} (opt : String) (layers : List Ly) (h : ∀ l ∈ layers, E.skip l = true) :
    ∃ e, api opt true E layers = .error e := by
  unfold api
  cases hp : Opt.parse opt with
  | error e => exact ⟨e, rfl⟩
  | ok o =>
    have h1 : workloadStage o.better false E layers = ([], none) := by
      have h0 : ∀ l ∈ layers, lyBody o E l = ([], none) := fun l hl => by unfold lyBody; rw [if_pos (h l hl)]
      have h2 : workloadStage o.better false E layers = _ := forEach_vals (lyBody o E) layers none (fun l hl => by rw [h0 l hl])
      rw [h2]
      have : (layers.flatMap fun a => (lyBody o E a).1) = [] := by
        rw [List.flatMap_eq_nil_iff]
        intro l hl; rw [h0 l hl]
      rw [this]
    refine ⟨.indexError, ?_⟩
    simp only [h1]
    rfl

/-- The hypotheses: two layers of which one is skipped, two spatial mappings, two temporal mappings each. -/
def sampleEnv : Env Bool Nat Nat Nat where
  skip l := l
  spatial _ := .ok [2, 3]
  temporal _ _ := ([5, 7], none)
  cost _ sm tm := .ok ⟨⟨(10 - (sm * tm % 4 : ℕ) : ℚ), (sm + tm : ℚ), true⟩, sm * tm⟩

example : Single sampleEnv ∧ (∀ l ∈ [false, true], sampleEnv.skip l = false → Works sampleEnv l) ∧
    (match api "latency" true sampleEnv [false, true] with | .ok a => some (a.latency, a.first) | .error _ => none) = some (7, some 10) := by
  refine ⟨?_, ?_, by decide +kernel⟩
  · intro l sm tm c h
    change Except.ok _ = Except.ok c at h
    injection h with h
    subst h; rfl
  · intro l _ _
    exact ⟨[2, 3], rfl, by simp, fun sm _ => ⟨rfl, by simp [sampleEnv], fun tm _ => ⟨_, rfl⟩⟩⟩

end Verif.Pipeline
