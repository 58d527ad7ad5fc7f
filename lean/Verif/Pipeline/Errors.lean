import Verif.Pipeline.Props

/-! Where the exception of a call comes from. -/

namespace Verif.Pipeline

open Stages

variable {P I J Ly SM TM A B : Type}

theorem forEach_some (f : A → Gen B) {x : PyErr} : ∀ (l : List A) (e : Option PyErr), (forEach f (l, e)).2 = some x → e = some x ∨ ∃ a ∈ l, (f a).2 = some x
  | [], e, h => Or.inl h
  | a :: t, e, h => by
    rw [forEach_cons] at h
    cases hfa : f a with
    | mk ys e' =>
      rw [hfa] at h
      cases e' with
      | some e' => exact Or.inr ⟨a, by simp, by rw [hfa]; exact h⟩
      | none =>
        rcases forEach_some f t e h with h | ⟨b, hb, h⟩
        · exact Or.inl h
        · exact Or.inr ⟨b, by simp [hb], h⟩

theorem forEach_empty (f : A → Gen B) : ∀ (l : List A) (e : Option PyErr), (forEach f (l, e)).2 = none → (forEach f (l, e)).1 = [] → ∀ a ∈ l, (f a).1 = []
  | [], e, _, _ => by simp
  | a :: t, e, h1, h2 => by
    rw [forEach_cons] at h1 h2
    cases hfa : f a with
    | mk ys e' =>
      rw [hfa] at h1 h2
      cases e' with
      | some e' => cases h1
      | none =>
        obtain ⟨h3, h4⟩ := List.append_eq_nil_iff.1 h2
        intro b hb
        rcases List.mem_cons.1 hb with rfl | hb
        · rw [hfa]; exact h3
        · exact forEach_empty f t e h1 h4 b hb

theorem minLoop_ok (better : Res → Res → Bool) (keep : Bool) : ∀ (l : List (Cme P × I)) (best : Option (Cme P)) (others : List (Cme P × I)),
    (∀ s ∈ l, s.1.res.single = true) → ∃ r, minLoop better keep l best others = .ok r ∧ (r.1 = none → best = none ∧ l = []) ∧
      ∀ c, r.1 = some c → best = some c ∨ ∃ s ∈ l, s.1 = c
  | [], best, others, _ => ⟨_, rfl, fun h => ⟨h, rfl⟩, fun _ h => Or.inl h⟩
  | s :: t, best, others, h => by
    unfold minLoop
    rw [if_pos (h s List.mem_cons_self)]
    obtain ⟨r, h1, h2, h3⟩ := minLoop_ok better keep t (some (match best with
        | none => s.1
        | some b => if better s.1.res b.res then s.1 else b)) (if keep then others ++ [s] else others) fun x hx => h x (List.mem_cons_of_mem _ hx)
    refine ⟨r, h1, fun hn => absurd (h2 hn).1 (by simp), fun c hc => ?_⟩
    rcases h3 c hc with h4 | ⟨x, hx, hxc⟩
    · cases best with
      | none =>
        simp only [Option.some.injEq] at h4
        exact Or.inr ⟨s, List.mem_cons_self, h4⟩
      | some b =>
        simp only [Option.some.injEq] at h4
        split at h4
        · exact Or.inr ⟨s, List.mem_cons_self, h4⟩
        · exact Or.inl (by rw [h4])
    · exact Or.inr ⟨x, List.mem_cons_of_mem _ hx, hxc⟩

/-- A reducing stage passes an exception on, raises one if nothing is yielded, and yields one of the results. -/
theorem minStage_cases (better : Res → Res → Bool) (keep : Bool) (g : Gen (Cme P × I)) (h : ∀ s ∈ g.1, s.1.res.single = true) :
    (∀ e, (minStage better keep g).2 = some e → g.2 = some e ∨ g.2 = none ∧ g.1 = []) ∧ (∀ s ∈ (minStage better keep g).1, ∃ s' ∈ g.1, s'.1 = s.1) ∧
      ((minStage better keep g).2 = none → (minStage better keep g).1 ≠ []) := by
  obtain ⟨r, h1, h2, h3⟩ := minLoop_ok better keep g.1 none [] h
  obtain ⟨b, os⟩ := r
  unfold minStage
  rw [h1]
  cases hg : g.2 with
  | some e => refine ⟨fun e' h => Or.inl h, by simp, by simp⟩
  | none =>
    cases b with
    | none => exact ⟨fun e' _ => Or.inr ⟨rfl, (h2 rfl).2⟩, by simp, by simp⟩
    | some b =>
      refine ⟨by simp, fun s hs => ?_, by simp⟩
      simp only [List.mem_singleton] at hs
      subst hs
      rcases h3 b rfl with h | h
      · cases h
      · exact h

theorem sumLoop_total {K : Type} : ∀ (l : List (Cme P × K)) (tot : Res) (all : List (Cme P × K)), (∀ s ∈ l, s.1.res.single = true) → ∃ r, sumLoop l tot all = .ok r
  | [], _, _, _ => ⟨_, rfl⟩
  | s :: t, tot, all, h => by
    unfold sumLoop
    rw [if_pos (h s List.mem_cons_self)]
    exact sumLoop_total t _ _ fun x hx => h x (List.mem_cons_of_mem _ hx)

/-- What a layer needs so that the call raises nothing but `Q`: some spatial mapping is generated, the search yields something or raises `Q`, and an evaluation
raises nothing but `Q`. -/
def Raises (E : Env Ly SM TM P) (Q : PyErr → Prop) (l : Ly) : Prop :=
  ∃ sms, E.spatial l = .ok sms ∧ sms ≠ [] ∧ ∀ sm ∈ sms, (∀ e, (E.temporal l sm).2 = some e → Q e) ∧
    ((E.temporal l sm).2 = none → (E.temporal l sm).1 ≠ []) ∧ ∀ tm ∈ (E.temporal l sm).1, ∀ e, E.cost l sm tm = .error e → Q e

theorem temporalStage_single {E : Env Ly SM TM P} (hs : Single E) (l : Ly) (sm : SM) : ∀ s ∈ (temporalStage E l sm).1, s.1.res.single = true := by
  intro s h
  obtain ⟨tm, -, h⟩ := forEach_mem _ _ _ _ h
  obtain ⟨x, hx, rfl⟩ := List.mem_map.1 h
  unfold costStage at hx
  cases hc : E.cost l sm tm with
  | error e => rw [hc] at hx; simp at hx
  | ok c =>
    rw [hc] at hx
    simp only [List.mem_singleton] at hx
    subst hx
    exact hs _ _ _ _ hc

theorem spatialStage_single {E : Env Ly SM TM P} (hs : Single E) (better : Res → Res → Bool) (l : Ly) : ∀ s ∈ (spatialStage better E l).1, s.1.res.single = true := by
  intro s h
  unfold spatialStage at h
  cases hsp : E.spatial l with
  | error e => rw [hsp] at h; simp at h
  | ok sms =>
    rw [hsp] at h
    simp only at h
    split at h
    · obtain ⟨sm, -, h⟩ := forEach_mem _ _ _ _ h
      obtain ⟨x, hx, rfl⟩ := List.mem_map.1 h
      obtain ⟨y, hy, hyx⟩ := (minStage_cases better false _ (temporalStage_single hs l sm)).2.1 x hx
      rw [← hyx]
      exact temporalStage_single hs l sm y hy
    · simp at h

theorem temporalStage_raises {E : Env Ly SM TM P} (hs : Single E) {Q : PyErr → Prop} (l : Ly) (sm : SM) (better : Res → Res → Bool)
    (h1 : ∀ e, (E.temporal l sm).2 = some e → Q e) (h2 : (E.temporal l sm).2 = none → (E.temporal l sm).1 ≠ [])
    (h3 : ∀ tm ∈ (E.temporal l sm).1, ∀ e, E.cost l sm tm = .error e → Q e) :
    ∀ e, (minStage better false (temporalStage E l sm)).2 = some e → Q e := by
  intro e he
  have hcost : ∀ tm e, (costStage E l sm tm).2 = some e → E.cost l sm tm = .error e := by
    intro tm e h
    unfold costStage at h
    cases hc : E.cost l sm tm with
    | error x => rw [hc] at h; cases h; rfl
    | ok c => rw [hc] at h; cases h
  rcases (minStage_cases better false _ (temporalStage_single hs l sm)).1 e he with h | ⟨h4, h5⟩
  · rcases forEach_some _ _ _ h with h | ⟨tm, htm, h⟩
    · exact h1 e h
    · exact h3 tm htm e (hcost tm e h)
  · obtain ⟨tm, htm⟩ := List.exists_mem_of_ne_nil _ (h2 ((forEach_none _ _ _).1 h4).1)
    have h6 := List.map_eq_nil_iff.1 (forEach_empty _ _ _ h4 h5 tm htm)
    have h7 := ((forEach_none _ _ _).1 h4).2 tm htm
    exfalso
    simp only at h6 h7
    unfold costStage at h6 h7
    cases hc : E.cost l sm tm with
    | error x => rw [hc] at h7; simp at h7
    | ok c => rw [hc] at h6; simp at h6

/-- If every layer that is not skipped raises nothing but `Q`, so does a call with a known criterion. -/
theorem api_raises {E : Env Ly SM TM P} (hs : Single E) {Q : PyErr → Prop} (opt : String) (ho : opt = "energy" ∨ opt = "latency" ∨ opt = "EDP") (layers : List Ly)
    (h : ∀ l ∈ layers, E.skip l = false → Raises E Q l) : (∃ a, api opt false E layers = .ok a) ∨ ∃ e, api opt false E layers = .error e ∧ Q e := by
  obtain ⟨o, hp⟩ : ∃ o, Opt.parse opt = .ok o := by rcases ho with rfl | rfl | rfl <;> exact ⟨_, rfl⟩
  have hsing : ∀ s ∈ (workloadStage o.better false E layers).1, s.1.res.single = true := by
    intro s hm
    obtain ⟨l, -, hl⟩ := forEach_mem _ _ _ _ hm
    split at hl
    · simp at hl
    · obtain ⟨x, hx, rfl⟩ := List.mem_map.1 hl
      obtain ⟨y, hy, hyx⟩ := (minStage_cases o.better false _ (spatialStage_single hs o.better l)).2.1 x hx
      rw [← hyx]
      exact spatialStage_single hs o.better l y hy
  have herr : ∀ e, (workloadStage o.better false E layers).2 = some e → Q e := by
    intro e he
    rcases forEach_some _ _ _ he with he | ⟨l, hl, he⟩
    · cases he
    · split at he
      · cases he
      · rename_i hsk
        obtain ⟨sms, w1, w2, w3⟩ := h l hl (by simpa using hsk)
        have hst : spatialStage o.better E l =
            forEach (fun sm => let r := minStage o.better false (temporalStage E l sm); (r.1.map (fun x => (x.1, (sm, x.2))), r.2)) (sms, none) := by
          unfold spatialStage
          rw [w1]
          simp only
          rw [if_pos (List.length_pos_iff.2 w2)]
        rcases (minStage_cases o.better false _ (spatialStage_single hs o.better l)).1 e he with h4 | ⟨h4, h5⟩
        · rw [hst] at h4
          rcases forEach_some _ _ _ h4 with h4 | ⟨sm, hsm, h4⟩
          · cases h4
          · obtain ⟨g1, g2, g3⟩ := w3 sm hsm
            exact temporalStage_raises hs l sm o.better g1 g2 g3 e h4
        · rw [hst] at h4 h5
          obtain ⟨sm, hsm⟩ := List.exists_mem_of_ne_nil _ w2
          have h6 := List.map_eq_nil_iff.1 (forEach_empty _ _ _ h4 h5 sm hsm)
          have h7 := ((forEach_none _ _ _).1 h4).2 sm hsm
          exact absurd h6 ((minStage_cases o.better false _ (temporalStage_single hs l sm)).2.2 h7)
  unfold api
  rw [hp]
  simp only
  obtain ⟨r, hr⟩ := sumLoop_total (workloadStage o.better false E layers).1 ⟨0, 0, false⟩ [] hsing
  unfold sumStage
  rw [hr]
  cases hw : (workloadStage o.better false E layers).2 with
  | some e => exact Or.inr ⟨e, by simp [mainStage], herr e hw⟩
  | none => exact Or.inl ⟨_, by simp [mainStage]; rfl⟩

end Verif.Pipeline
