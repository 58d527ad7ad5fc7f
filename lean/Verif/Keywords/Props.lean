import Verif.Keywords.Lemmas
import Verif.Save.Props
import Mathlib.Data.List.Forall2

/-!
C101: how keywords reach the stages of a pipeline.  C102: keywords that get lost.
-/

namespace Verif.Keywords

variable {V : Type}

/-- Every stage with a parameter `k` comes before any stage that changes or drops `k`. -/
def reaches (k : Key) : List Sig → Bool
  | [] => true
  | s :: t => if keeps k s then reaches k t else t.all fun x => decide (k ∉ x.required ++ x.optional)

/-- C101: a keyword that is not changed or dropped above them reaches all stages that have a parameter of this name, in any pipeline. -/
theorem parameter_value {k : Key} {v : V} : ∀ (l : List (St V)) (kw : Dict Key V) (r : List (Got V)) (n : Nat) (s : St V) (g : Got V),
    run l kw = .ok r → kw.get? k = some v → reaches k (l.map (·.sig)) = true → l[n]? = some s → r[n]? = some g →
    k ∈ s.sig.required ++ s.sig.optional → g.own.get? k = some v
  | [], kw, r, n, s, g, h, _, _, _, _, _ => by simp [run] at h
  | s0 :: t, kw, r, n, s, g, h, hv, hr, hs, hg, hb => by
    obtain ⟨_, hrun⟩ := (run_cons _ _ _ _).1 h
    cases n with
    | zero =>
      have hg' : g = split s0.sig kw := by
        rcases hrun with ⟨_, _, c⟩ | ⟨_, _, kw1, r1, _, _, c3⟩
        · subst c; simpa using hg.symm
        · subst c3; simpa using hg.symm
      simp only [List.getElem?_cons_zero, Option.some.injEq] at hs
      subst hs
      rw [hg', own_get, if_pos hb, hv]
    | succ n =>
      rcases hrun with ⟨_, b, _⟩ | ⟨_, _, kw1, r1, c1, c2, c3⟩
      · subst b; simp at hs
      · subst c3
        rw [List.map_cons, reaches] at hr
        by_cases hk : keeps k s0.sig = true
        · rw [if_pos hk] at hr
          exact parameter_value t kw1 r1 n s g c2 (keeps_get hk hv c1) hr (by simpa using hs) (by simpa using hg) hb
        · rw [if_neg hk, List.all_eq_true] at hr
          have hm : s ∈ t := List.mem_of_getElem? (by simpa using hs)
          exact absurd hb (by simpa using hr s.sig (List.mem_map_of_mem hm))

/-- Whether a pipeline runs, from the names of the keywords alone. -/
def okRun : List Sig → List Key → Bool
  | [], _ => false
  | s :: t, ks =>
    s.required.all (fun k => decide (k ∈ ks)) &&
      if s.leaf then t.isEmpty
      else
        let rest := ks.filter fun k => decide (k ∉ s.required ++ s.optional)
        !t.isEmpty && s.helper.all (fun k => decide (k ∉ rest)) && s.gives.all (fun p => decide (p.1 ∉ s.sets.map (·.1) ++ rest)) &&
          okRun t (s.gives.map (·.1) ++ (s.sets.map (·.1) ++ rest))

/-- C101: whether the constructors and calls of a pipeline succeed depends on the names of the keywords only, not on their values or order. -/
theorem runs_iff : ∀ (l : List (St V)) (kw : Dict Key V) (ks : List Key), (∀ k, kw.get? k ≠ none ↔ k ∈ ks) →
    ((∃ r, run l kw = .ok r) ↔ okRun (l.map (·.sig)) ks = true)
  | [], kw, ks, _ => by simp [run, okRun]
  | s :: t, kw, ks, hks => by
    rw [List.map_cons, okRun]
    have hrest : ∀ k, (split s.sig kw).rest.get? k ≠ none ↔ k ∈ ks.filter fun k => decide (k ∉ s.sig.required ++ s.sig.optional) := by
      intro k
      rw [rest_get, List.mem_filter, ← hks k]
      by_cases hb : k ∈ s.sig.required ++ s.sig.optional
      · simp [hb]
      · rw [if_neg hb]; simp only [hb, not_false_eq_true, decide_true, and_true]
    have hsets : ∀ k, (setsOf s (split s.sig kw)).get? k ≠ none ↔
        k ∈ s.sig.sets.map (·.1) ++ ks.filter fun k => decide (k ∉ s.sig.required ++ s.sig.optional) := by
      intro k
      unfold setsOf
      rw [sets_get, List.mem_append, ← hrest k]
      cases hf : s.sig.sets.reverse.find? (fun p => decide (p.1 = k)) with
      | some p =>
        have h1 := List.mem_of_find?_eq_some hf
        have h2 := List.find?_some hf
        simp only [ne_eq, reduceCtorEq, not_false_eq_true, true_iff]
        exact .inl (List.mem_map.2 ⟨p, by simpa using h1, by simpa using h2⟩)
      | none =>
        rw [List.find?_eq_none] at hf
        simp only
        constructor
        · exact .inr
        · rintro (h | h)
          · obtain ⟨p, hp, e⟩ := List.mem_map.1 h
            exact absurd (decide_eq_true e) (hf p (List.mem_reverse.2 hp))
          · exact h
    have hgive : ∀ kw', handOn s (split s.sig kw) = .ok kw' → ∀ k, kw'.get? k ≠ none ↔ k ∈ s.sig.gives.map (·.1) ++
        (s.sig.sets.map (·.1) ++ ks.filter fun k => decide (k ∉ s.sig.required ++ s.sig.optional)) := by
      intro kw' h k
      rw [((handOn_ok _ _ _).1 h).2.2, gives_get, List.mem_append, ← hsets k]
      cases hf : s.sig.gives.find? (fun p => decide (p.1 = k)) with
      | some p =>
        have h1 := List.mem_of_find?_eq_some hf
        have h2 := List.find?_some hf
        simp only [ne_eq, reduceCtorEq, not_false_eq_true, true_iff]
        exact .inl (List.mem_map.2 ⟨p, h1, by simpa using h2⟩)
      | none =>
        rw [List.find?_eq_none] at hf
        simp only
        constructor
        · exact .inr
        · rintro (h | h)
          · obtain ⟨p, hp, e⟩ := List.mem_map.1 h
            exact absurd (decide_eq_true e) (hf p hp)
          · exact h
    have hreq : (s.sig.required.all (fun k => decide (k ∈ ks)) = true) ↔ ∀ k ∈ s.sig.required, kw.get? k ≠ none := by
      rw [List.all_eq_true]
      exact ⟨fun h k hk => (hks k).2 (by simpa using h k hk), fun h k hk => by simpa using (hks k).1 (h k hk)⟩
    have hn : ∀ (d : Dict Key V) (k : Key) (m : List Key), (d.get? k ≠ none ↔ k ∈ m) → (d.get? k = none ↔ k ∉ m) := by
      intro d k m h
      rw [← h, not_not]
    rw [Bool.and_eq_true, hreq]
    cases hl : s.sig.leaf
    · simp only [Bool.false_eq_true, if_false]
      rw [Bool.and_eq_true, Bool.and_eq_true, Bool.and_eq_true, List.all_eq_true, List.all_eq_true]
      simp only [decide_eq_true_eq]
      constructor
      · rintro ⟨r, hr⟩
        obtain ⟨h1, ⟨a, _⟩ | ⟨_, b, kw1, r1, c1, c2, _⟩⟩ := (run_cons _ _ _ _).1 hr
        · rw [hl] at a; cases a
        · obtain ⟨d1, d2, _⟩ := (handOn_ok _ _ _).1 c1
          refine ⟨h1, ⟨⟨?_, fun k hk => ?_⟩, fun p hp => ?_⟩, ?_⟩
          · cases t with
            | nil => exact absurd rfl b
            | cons x t => rfl
          · exact (hn _ _ _ (hrest k)).1 (d1 k hk)
          · exact (hn _ _ _ (hsets p.1)).1 (d2 p hp)
          · exact (runs_iff t kw1 _ (hgive kw1 c1)).1 ⟨r1, c2⟩
      · rintro ⟨h1, ⟨⟨h2, h3⟩, h4⟩, h5⟩
        have c1 := (handOn_ok s (split s.sig kw) _).2
          ⟨fun k hk => (hn _ _ _ (hrest k)).2 (h3 k hk), fun p hp => (hn _ _ _ (hsets p.1)).2 (h4 p hp), rfl⟩
        obtain ⟨r1, c2⟩ := (runs_iff t _ _ (hgive _ c1)).2 h5
        refine ⟨_, (run_cons _ _ _ _).2 ⟨h1, .inr ⟨hl, ?_, _, r1, c1, c2, rfl⟩⟩⟩
        rintro rfl
        cases h2
    · simp only [if_true]
      constructor
      · rintro ⟨r, hr⟩
        obtain ⟨h1, ⟨_, b, _⟩ | ⟨a, _⟩⟩ := (run_cons _ _ _ _).1 hr
        · exact ⟨h1, by rw [b]; rfl⟩
        · rw [hl] at a; cases a
      · rintro ⟨h1, h2⟩
        refine ⟨_, (run_cons _ _ _ _).2 ⟨h1, .inl ⟨hl, ?_, rfl⟩⟩⟩
        cases t with
        | nil => rfl
        | cons x t => cases h2

/-- The signatures of the stages of the API. -/
def apiSigs (onnx exploit : Bool) : List Sig :=
  [if onnx then onnxParser else workloadParser, acceleratorParser, saveStage, pickleSave, sumStage] ++
  (if exploit then [searchLocality] else []) ++ [workloadStage, saveStage] ++ (if exploit then [exploitLocality] else []) ++
  [saveStage, minStage, spatialGenerator, spatialConversion, minStage, temporalEngine, costModel]

theorem apiSigs_eq (o : Options) (made : Nat → Key → V) : (apiStages o made).map (·.sig) = apiSigs o.onnx o.exploit := by
  unfold apiStages apiSigs
  cases o.exploit <;> simp

/-- The names of the keywords of the API. -/
def apiNames : List Key :=
  [.accelerator, .workload, .mapping, .dumpFolder, .pickleFilename, .lpfLimit, .progressBar, .nbMappings, .mixSpatial, .accessSame,
    .temporalMappingType]

theorem apiNames_eq (a : Args V) : (apiKw a).map (·.1) = apiNames := rfl

theorem api_runs (o : Options) (made : Nat → Key → V) (a : Args V) : ∃ r, run (apiStages o made) (apiKw a) = .ok r := by
  rw [runs_iff _ _ _ (get?_keys _), apiSigs_eq, apiNames_eq]
  generalize o.onnx = x
  generalize o.exploit = y
  revert x y
  decide +kernel

/-- C101: the pipeline of `get_hardware_performance_zigzag` runs for all options, every stage that asks for the output folder, the name of
the pickle file, the mapping, the number of spatial mappings, mixed spatial mappings, the access model or the kind of temporal mapping gets
the value given by the user, and the engine gets the limit and the progress bar. -/
theorem api_keywords (o : Options) (made : Nat → Key → V) (a : Args V) : ∃ r, run (apiStages o made) (apiKw a) = .ok r ∧
    r.length = (apiStages o made).length ∧
    ∀ (n : Nat) (s : St V) (g : Got V), (apiStages o made)[n]? = some s → r[n]? = some g →
      (Key.dumpFolder ∈ s.sig.required → g.own.get? .dumpFolder = some a.dumpFolder) ∧
      (Key.pickleFilename ∈ s.sig.required → g.own.get? .pickleFilename = some a.pickleFilename) ∧
      (Key.mapping ∈ s.sig.required → g.own.get? .mapping = some a.mapping) ∧
      (Key.nbMappings ∈ s.sig.optional → g.own.get? .nbMappings = some a.nbMappings) ∧
      (Key.mixSpatial ∈ s.sig.optional → g.own.get? .mixSpatial = some a.mixSpatial) ∧
      (Key.accessSame ∈ s.sig.optional → g.own.get? .accessSame = some a.accessSame) ∧
      (Key.temporalMappingType ∈ s.sig.required → g.own.get? .temporalMappingType = some a.temporalMappingType) ∧
      g.rest.get? .lpfLimit = some a.lpfLimit ∧ g.rest.get? .progressBar = some a.progressBar := by
  obtain ⟨r, hr⟩ := api_runs o made a
  refine ⟨r, hr, run_length _ _ _ hr, fun n s g hs hg => ?_⟩
  have hreach : ∀ k ∈ [Key.dumpFolder, .pickleFilename, .mapping, .nbMappings, .mixSpatial, .accessSame, .temporalMappingType],
      reaches k ((apiStages o made).map (·.sig)) = true := by
    rw [apiSigs_eq]
    generalize o.onnx = x
    generalize o.exploit = y
    revert x y
    decide +kernel
  have hfree : ∀ y ∈ (apiStages o made).map (·.sig), ∀ k ∈ [Key.lpfLimit, .progressBar],
      keeps k y = true ∧ k ∉ y.required ++ y.optional := by
    rw [apiSigs_eq]
    generalize o.onnx = x
    generalize o.exploit = y
    revert x y
    decide +kernel
  have hp : ∀ k v, k ∈ [Key.dumpFolder, .pickleFilename, .mapping, .nbMappings, .mixSpatial, .accessSame, .temporalMappingType] →
      (apiKw a).get? k = some v → k ∈ s.sig.required ++ s.sig.optional → g.own.get? k = some v :=
    fun k v hk hv hb => parameter_value _ _ _ n s g hr hv (hreach k hk) hs hg hb
  have hrest : ∀ k v, k ∈ [Key.lpfLimit, .progressBar] → (apiKw a).get? k = some v → g.rest.get? k = some v := by
    intro k v hk hv
    have hsm : s ∈ apiStages o made := List.mem_of_getElem? hs
    have h1 := kept_value _ _ _ n g hr hv (fun x hx => (hfree x.sig (List.mem_map_of_mem (List.mem_of_mem_take hx)) k hk).1) hg
    have h2 : g.own.get? k = none := by
      have := own_none _ _ _ n s g hr hs hg k (hfree s.sig (List.mem_map_of_mem hsm) k hk).2
      exact this
    unfold seen at h1
    rw [h2] at h1
    simpa using h1
  exact ⟨fun h => hp _ _ (by simp) rfl (by simp [h]), fun h => hp _ _ (by simp) rfl (by simp [h]),
    fun h => hp _ _ (by simp) rfl (by simp [h]), fun h => hp _ _ (by simp) rfl (by simp [h]),
    fun h => hp _ _ (by simp) rfl (by simp [h]), fun h => hp _ _ (by simp) rfl (by simp [h]),
    fun h => hp _ _ (by simp) rfl (by simp [h]), hrest _ _ (by simp) rfl, hrest _ _ (by simp) rfl⟩

/-- C101: keywords that no stage requires and no stage passes beside `**kwargs` do not matter: with any other values of them, or without
them, the pipeline runs as before, and no stage gets another value of another keyword. -/
theorem unused_keywords {O : Key → Prop} (l : List (St V)) (kw kw' : Dict Key V) (hu : Unused O l) (ha : Agree O kw kw') :
    ((∃ r, run l kw = .ok r) ↔ ∃ r', run l kw' = .ok r') ∧
    ∀ r r', run l kw = .ok r → run l kw' = .ok r' → List.Forall₂ (AgreeGot O) r r' := by
  refine ⟨⟨fun ⟨r, h⟩ => ?_, fun ⟨r, h⟩ => ?_⟩, fun r r' h h' => ?_⟩
  · obtain ⟨r', h', _⟩ := run_agree l kw kw' r hu ha h
    exact ⟨r', h'⟩
  · obtain ⟨r', h', _⟩ := run_agree l kw' kw r hu ha.symm h
    exact ⟨r', h'⟩
  · obtain ⟨r'', h'', hf⟩ := run_agree l kw kw' r hu ha h
    rw [h'] at h''
    cases h''
    exact hf

/-- A stage that passes its keywords on: it requires them, hands them back with its own values and adds none. -/
structure PassOn (s : Sig) : Prop where
  notLeaf : s.leaf = false
  noHelper : s.helper = []
  back : ∀ k ∈ s.required, (k, Src.own) ∈ s.gives ++ s.sets
  only : ∀ p ∈ s.gives ++ s.sets, p.1 ∈ s.required ∧ p.2 = .own
  apart : ∀ p ∈ s.gives, ∀ q ∈ s.sets, p.1 ≠ q.1

theorem passOn_agree {s : St V} (hs : PassOn s.sig) (kw : Dict Key V) (hk : ∀ k ∈ s.sig.required, kw.get? k ≠ none) :
    ∃ kw', handOn s (split s.sig kw) = .ok kw' ∧ Agree (fun k => k ∈ s.sig.optional ∧ k ∉ s.sig.required) kw kw' := by
  obtain ⟨kw', hok⟩ : ∃ kw', handOn s (split s.sig kw) = .ok kw' := by
    refine ⟨_, (handOn_ok _ _ _).2 ⟨by simp [hs.noHelper], fun p hp => ?_, rfl⟩⟩
    unfold setsOf
    rw [sets_get]
    have hb := (hs.only p (by simp [hp])).1
    have : s.sig.sets.reverse.find? (fun q => decide (q.1 = p.1)) = none := by
      rw [List.find?_eq_none]
      intro q hq
      simpa using fun e : q.1 = p.1 => hs.apart p hp q (List.mem_reverse.1 hq) e.symm
    rw [this]
    simp only
    rw [rest_get, if_pos (by simp [hb])]
  refine ⟨_, hok, fun k hO => ?_⟩
  by_cases hb : k ∈ s.sig.required
  · have h := hk k hb
    cases hv : kw.get? k with
    | none => exact absurd hv h
    | some v =>
      refine (keeps_get ?_ hv hok).symm
      unfold keeps
      rw [if_pos (by simp [hb]), Bool.and_eq_true, decide_eq_true_eq, decide_eq_true_eq]
      exact ⟨hs.back k hb, fun hn => by cases (hs.only _ hn).2⟩
  · have ho : k ∉ s.sig.optional := fun h => hO ⟨h, hb⟩
    cases hv : kw.get? k with
    | some v =>
      refine (keeps_get ?_ hv hok).symm
      unfold keeps
      rw [if_neg (by simp [hb, ho]), List.all_eq_true]
      intro p hp
      simpa using fun e : p.1 = k => hb (e ▸ (hs.only p hp).1)
    | none =>
      rw [handOn_get hok]
      have e1 : s.sig.gives.find? (fun p => decide (p.1 = k)) = none := by
        rw [List.find?_eq_none]
        intro p hp
        simpa using fun e : p.1 = k => hb (e ▸ (hs.only p (by simp [hp])).1)
      have e2 : s.sig.sets.reverse.find? (fun p => decide (p.1 = k)) = none := by
        rw [List.find?_eq_none]
        intro p hp
        simpa using fun e : p.1 = k => hb (e ▸ (hs.only p (by simp at hp; simp [hp])).1)
      rw [e1, e2]
      simp only
      rw [rest_get, if_neg (by simp [hb, ho]), hv]

/-- C101: a stage that passes its keywords on can be put into a working pipeline above any stage, provided its keywords can be seen there:
the pipeline still works, the stages above get what they got, the new stage gets what its successor got, and the stages below get the same
except for the keywords that are optional for the new stage. -/
theorem insert_stage (x : St V) (hx : PassOn x.sig) (post : List (St V)) (hpost : post ≠ [])
    (hu : Unused (fun k => k ∈ x.sig.optional ∧ k ∉ x.sig.required) post) :
    ∀ (pre : List (St V)) (kw : Dict Key V) (r : List (Got V)) (g : Got V), run (pre ++ post) kw = .ok r → r[pre.length]? = some g →
      (∀ k ∈ x.sig.required, seen g k ≠ none) →
      ∃ gx r', run (pre ++ x :: post) kw = .ok (r.take pre.length ++ gx :: r') ∧ (∀ k, seen gx k = seen g k) ∧
        List.Forall₂ (AgreeGot fun k => k ∈ x.sig.optional ∧ k ∉ x.sig.required) (r.drop pre.length) r'
  | [], kw, r, g, h, hg, hk => by
    obtain ⟨p, post', rfl⟩ : ∃ p post', post = p :: post' := by
      cases post with
      | nil => exact absurd rfl hpost
      | cons p post' => exact ⟨p, post', rfl⟩
    simp only [List.nil_append, List.length_nil, List.take_zero, List.drop_zero] at *
    have hgs : g = split p.sig kw := by
      obtain ⟨_, ⟨_, _, c⟩ | ⟨_, _, _, _, _, _, c⟩⟩ := (run_cons _ _ _ _).1 h
      · subst c; simpa using hg.symm
      · subst c; simpa using hg.symm
    subst hgs
    have hk' : ∀ k ∈ x.sig.required, kw.get? k ≠ none := fun k hk1 => by
      have := hk k hk1
      rwa [seen_split] at this
    obtain ⟨kw', h1, h2⟩ := passOn_agree hx kw hk'
    obtain ⟨r', h3, h4⟩ := run_agree (p :: post') kw kw' r hu h2 h
    exact ⟨split x.sig kw, r', (run_cons _ _ _ _).2 ⟨hk', .inr ⟨hx.notLeaf, by simp, kw', r', h1, h3, rfl⟩⟩,
      fun k => by rw [seen_split, seen_split], h4⟩
  | s :: pre, kw, r, g, h, hg, hk => by
    rw [List.cons_append] at h
    obtain ⟨h1, ⟨_, b, _⟩ | ⟨a, b, kw1, r1, c1, c2, c3⟩⟩ := (run_cons _ _ _ _).1 h
    · simp [hpost] at b
    · subst c3
      obtain ⟨gx, r', d1, d2, d3⟩ := insert_stage x hx post hpost hu pre kw1 r1 g c2 (by simpa using hg) hk
      exact ⟨gx, r', (run_cons _ _ _ _).2 ⟨h1, .inr ⟨a, by simp, kw1, _, c1, d1, rfl⟩⟩, d2, by simpa using d3⟩

/-- C101: saving, skipping, summing, reducing and caching stages can be put at any place of the pipeline of the API: it still works and all
other stages get the keywords they got before (a reducing stage takes `reduce_minimal_keep_others` away from those below it). -/
theorem api_insert (o : Options) (made : Nat → Key → V) (a : Args V) (x : St V)
    (hx : x.sig ∈ [saveStage, skipStage, sumStage, minStage, plainStage]) (n : Nat) (hn : n < (apiStages o made).length) :
    ∃ r gx r', run (apiStages o made) (apiKw a) = .ok r ∧
      run ((apiStages o made).take n ++ x :: (apiStages o made).drop n) (apiKw a) = .ok (r.take n ++ gx :: r') ∧
      List.Forall₂ (AgreeGot (· ∈ x.sig.optional)) (r.drop n) r' ∧
      (Key.dumpFolder ∈ x.sig.required → gx.own.get? .dumpFolder = some a.dumpFolder) := by
  obtain ⟨r, hr⟩ := api_runs o made a
  have hlen := run_length _ _ _ hr
  have hkeep : ∀ y ∈ (apiStages o made).map (·.sig), keeps .dumpFolder y = true := by
    rw [apiSigs_eq]
    generalize o.onnx = x
    generalize o.exploit = y
    revert x y
    decide +kernel
  have hnone : ∀ y ∈ (apiStages o made).map (·.sig), Key.keepOthers ∉ y.required ∧ Key.keepOthers ∉ y.helper ∧
      Key.keepOthers ∉ y.gives.map (·.1) := by
    rw [apiSigs_eq]
    generalize o.onnx = x
    generalize o.exploit = y
    revert x y
    decide +kernel
  have hfacts : PassOn x.sig ∧ (∀ k ∈ x.sig.required, k = .dumpFolder) ∧ (∀ k ∈ x.sig.optional, k = .keepOthers) := by
    simp only [List.mem_cons, List.not_mem_nil, or_false] at hx
    rcases hx with h | h | h | h | h <;> rw [h] <;> refine ⟨⟨?_, ?_, ?_, ?_, ?_⟩, ?_, ?_⟩ <;> decide
  obtain ⟨hpass, hreq, hopt⟩ := hfacts
  have hu : Unused (fun k => k ∈ x.sig.optional ∧ k ∉ x.sig.required) ((apiStages o made).drop n) := by
    intro y hy
    have := hnone y.sig (List.mem_map_of_mem (List.mem_of_mem_drop hy))
    refine ⟨fun k hk h => this.1 (hopt k h.1 ▸ hk), fun k hk h => this.2.1 (hopt k h.1 ▸ hk), fun p hp h => this.2.2 ?_⟩
    exact hopt p.1 h.1 ▸ List.mem_map_of_mem hp
  obtain ⟨g, hg⟩ : ∃ g, r[n]? = some g := ⟨r[n]'(by omega), List.getElem?_eq_getElem _⟩
  have hlenT : ((apiStages o made).take n).length = n := by simp; omega
  have hseen : seen g .dumpFolder = some a.dumpFolder := by
    exact kept_value _ _ _ n g hr rfl (fun y hy => hkeep y.sig (List.mem_map_of_mem (List.mem_of_mem_take hy))) hg
  obtain ⟨gx, r', h1, h2, h3⟩ := insert_stage x hpass ((apiStages o made).drop n) (by simpa using hn) hu ((apiStages o made).take n) (apiKw a)
    r g (by rw [List.take_append_drop]; exact hr) (by rw [hlenT]; exact hg)
    (fun k hk => by rw [hreq k hk, hseen]; simp)
  rw [hlenT] at h1 h3
  refine ⟨r, gx, r', hr, h1, ?_, fun hd => ?_⟩
  · refine List.Forall₂.imp ?_ h3
    exact fun u w huw => ⟨fun k hk => huw.1 k fun h => hk h.1, fun k hk => huw.2 k fun h => hk h.1⟩
  · have hs : seen gx .dumpFolder = some a.dumpFolder := by rw [h2, hseen]
    obtain ⟨kw', rfl⟩ := run_split _ _ _ n x gx h1 (by rw [List.getElem?_append_right (by omega), hlenT]; simp)
      (by rw [List.getElem?_append_right (by simp; omega)]; simp [show min n r.length = n by omega])
    rw [seen_split] at hs
    rw [own_get, if_pos (by simp [hd]), hs]

/-- A stage drops a keyword: it takes it and does not hand it on. -/
def drops (k : Key) (s : Sig) : Prop := k ∈ s.required ++ s.optional ∧ k ∉ (s.gives ++ s.sets).map (·.1)

/-- A stage does not bring a keyword in. -/
def silent (k : Key) (s : Sig) : Prop := k ∉ (s.gives ++ s.sets).map (·.1)

theorem silent_get {k : Key} {s : St V} {kw kw' : Dict Key V} (hs : silent k s.sig)
    (h : handOn s (split s.sig kw) = .ok kw') : kw'.get? k = if k ∈ s.sig.required ++ s.sig.optional then none else kw.get? k := by
  unfold silent at hs
  rw [handOn_get h]
  have e1 : s.sig.gives.find? (fun p => decide (p.1 = k)) = none := by
    rw [List.find?_eq_none]
    intro p hp
    simpa using fun e : p.1 = k => hs (List.mem_map.2 ⟨p, by simp [hp], e⟩)
  have e2 : s.sig.sets.reverse.find? (fun p => decide (p.1 = k)) = none := by
    rw [List.find?_eq_none]
    intro p hp
    simpa using fun e : p.1 = k => hs (List.mem_map.2 ⟨p, by simp at hp; simp [hp], e⟩)
  rw [e1, e2]
  simp only
  rw [rest_get]

theorem silent_none {k : Key} : ∀ (mid : List (St V)) (kw : Dict Key V) (r : List (Got V)), run mid kw = .ok r →
    (∀ s ∈ mid.dropLast, silent k s.sig) → kw.get? k = none → ∀ g ∈ r, seen g k = none
  | [], kw, r, h, _, _ => by simp [run] at h
  | s :: t, kw, r, h, hs, hk => by
    obtain ⟨_, ⟨_, b, c⟩ | ⟨_, b, kw1, r1, c1, c2, c3⟩⟩ := (run_cons _ _ _ _).1 h
    · subst c
      simp [seen_split, hk]
    · subst c3
      have hd : (s :: t).dropLast = s :: t.dropLast := by
        cases t with
        | nil => exact absurd rfl b
        | cons y t => rfl
      rw [hd] at hs
      have hk1 : kw1.get? k = none := by
        rw [silent_get (hs s (by simp)) c1, hk]; simp
      intro g hg
      rcases List.mem_cons.1 hg with rfl | hg
      · rw [seen_split, hk]
      · exact silent_none t kw1 r1 c2 (fun y hy => hs y (by simp [hy])) hk1 g hg

/-- C102: below a stage that takes a keyword without handing it on nobody sees the keyword, unless a stage in between brings it in again.
In particular no pipeline works in which a further stage requires it. -/
theorem dropped_keyword {k : Key} (x : St V) (hx : drops k x.sig) (post : List (St V)) (hpost : ∀ s ∈ post.dropLast, silent k s.sig) :
    ∀ (pre : List (St V)) (kw : Dict Key V) (r : List (Got V)), run (pre ++ x :: post) kw = .ok r →
      (∀ g ∈ r.drop (pre.length + 1), seen g k = none) ∧ ∀ s ∈ post, k ∉ s.sig.required
  | [], kw, r, h => by
    rw [List.nil_append] at h
    obtain ⟨_, ⟨_, b, c⟩ | ⟨_, b, kw1, r1, c1, c2, c3⟩⟩ := (run_cons _ _ _ _).1 h
    · subst b c
      simp
    · subst c3
      have hk1 : kw1.get? k = none := by rw [silent_get hx.2 c1, if_pos hx.1]
      have hn := silent_none post kw1 r1 c2 hpost hk1
      refine ⟨by simpa using hn, fun s hs hreq => ?_⟩
      obtain ⟨n, hn1, hn2⟩ := List.getElem_of_mem hs
      have hlen := run_length _ _ _ c2
      obtain ⟨kw', h1, h2⟩ := run_required post kw1 r1 n s (r1[n]'(by omega)) c2 (by rw [List.getElem?_eq_getElem hn1, hn2])
        (List.getElem?_eq_getElem _)
      have h3 := hn _ (List.getElem_mem (by omega : n < r1.length))
      rw [h1, seen_split] at h3
      exact h2 k hreq h3
  | s :: pre, kw, r, h => by
    rw [List.cons_append] at h
    obtain ⟨_, ⟨_, b, _⟩ | ⟨_, b, kw1, r1, c1, c2, c3⟩⟩ := (run_cons _ _ _ _).1 h
    · simp at b
    · subst c3
      simpa using dropped_keyword x hx post hpost pre kw1 r1 c2

/-- C101: in every pipeline that ends with an engine and the cost model, the cost model gets the accelerator, the layer, the spatial mapping
the engine got, the temporal mapping the engine made, and the integer spatial mapping that came to the engine. -/
theorem engine_and_cost (pre : List (St V)) (e c : St V) (he : e.sig = temporalEngine) (hc : c.sig = costModel) (kw : Dict Key V)
    (r : List (Got V)) (h : run (pre ++ [e, c]) kw = .ok r) : ∃ r0 ge gc, r = r0 ++ [ge, gc] ∧
      (∀ k ∈ [Key.accelerator, .layer, .spatialMapping], gc.own.get? k = ge.own.get? k ∧ ge.own.get? k ≠ none) ∧
      gc.own.get? .temporalMapping = some (e.made .temporalMapping) ∧
      gc.own.get? .spatialMappingInt = ge.rest.get? .spatialMappingInt ∧ gc.own.get? .accessSame = ge.rest.get? .accessSame := by
  induction pre generalizing kw r with
  | nil =>
    rw [List.nil_append] at h
    obtain ⟨h1, ⟨_, b, _⟩ | ⟨_, _, kw1, r1, c1, c2, c3⟩⟩ := (run_cons _ _ _ _).1 h
    · simp at b
    · obtain ⟨_, ⟨_, _, d⟩ | ⟨_, b, _⟩⟩ := (run_cons _ _ _ _).1 c2
      · subst c3 d
        refine ⟨[], _, _, rfl, ?_, ?_, ?_, ?_⟩
        · intro k hk
          have hreq : k ∈ e.sig.required := by
            rw [he]
            revert k
            decide
          have hv := h1 k hreq
          cases hkv : kw.get? k with
          | none => exact absurd hkv hv
          | some v =>
            have hb : k ∈ c.sig.required ++ c.sig.optional := by
              rw [hc]
              clear hkv hv hreq
              revert k
              decide
            have hkeep : keeps k e.sig = true := by
              rw [he]
              clear hkv hv hreq hb
              revert k
              decide
            rw [own_get, own_get, if_pos hb, if_pos (List.mem_append.2 (.inl hreq)), hkv, keeps_get hkeep hkv c1]
            simp
        · rw [own_get, if_pos (by rw [hc]; decide), handOn_get c1, he]
          rfl
        · rw [own_get, if_pos (by rw [hc]; decide), handOn_get c1, he]
          rfl
        · rw [own_get, if_pos (by rw [hc]; decide), handOn_get c1, he]
          rfl
      · exact absurd rfl b
  | cons s pre ih =>
    rw [List.cons_append] at h
    obtain ⟨_, ⟨_, b, _⟩ | ⟨_, _, kw1, r1, c1, c2, c3⟩⟩ := (run_cons _ _ _ _).1 h
    · simp at b
    · obtain ⟨r0, ge, gc, e1, e2⟩ := ih kw1 r1 c2
      exact ⟨split s.sig kw :: r0, ge, gc, by rw [c3, e1]; rfl, e2⟩

theorem raises_typeError {l : List (St V)} {s : St V} {t : List (St V)} (hl : l = s :: t) {kw : Dict Key V} {k : Key}
    (hk : k ∈ s.sig.required) (hn : kw.get? k = none) : run l kw = .error .typeError := by
  subst hl
  rw [run]
  have : construct s.sig t kw = .error .typeError := by
    unfold construct
    rw [if_pos (List.any_eq_true.2 ⟨k, hk, by simpa using hn⟩)]
  rw [this]

/-- C102: the command line `python -m zigzag` never works: whatever the arguments are, the first stage raises a `TypeError`, because the
keywords are called `onnx_model_path`, `mapping_path` and `accelerator_path` and not `workload`, `mapping` and `accelerator`. -/
theorem command_line_crash (made : Nat → Key → V) (accelerator model mapping folder limit bar : V) :
    run (cliStages made) (cliKw accelerator model mapping folder limit bar) = .error .typeError :=
  raises_typeError (k := .workload) rfl (by simp [onnxParser]) rfl

/-- C102: the command line would not work with the right names either: the generator of temporal mappings asks for
`temporal_mapping_type`, which is not given. -/
theorem command_line_renamed_crash (made : Nat → Key → V) (accelerator model mapping folder limit bar : V) :
    ∀ r, run (cliStages made) [(.accelerator, accelerator), (.workload, model), (.mapping, mapping), (.dumpFolder, folder),
      (.lpfLimit, limit), (.progressBar, bar)] ≠ .ok r := by
  intro r h
  have := (runs_iff _ _ _ (get?_keys _)).1 ⟨r, h⟩
  revert this
  change ¬ okRun [onnxParser, acceleratorParser, saveStage, workloadStage, spatialConversion, minStage, temporalEngine, costModel]
    [.accelerator, .workload, .mapping, .dumpFolder, .lpfLimit, .progressBar] = true
  decide +kernel

/-- With the right names and `temporal_mapping_type` the pipeline of the command line passes all its keywords. -/
theorem command_line_repaired (made : Nat → Key → V) (accelerator model mapping folder limit bar kind : V) :
    ∃ r, run (cliStages made) [(.accelerator, accelerator), (.workload, model), (.mapping, mapping), (.dumpFolder, folder),
      (.lpfLimit, limit), (.progressBar, bar), (.temporalMappingType, kind)] = .ok r := by
  rw [runs_iff _ _ _ (get?_keys _)]
  change okRun [onnxParser, acceleratorParser, saveStage, workloadStage, spatialConversion, minStage, temporalEngine, costModel]
    [.accelerator, .workload, .mapping, .dumpFolder, .lpfLimit, .progressBar, .temporalMappingType] = true
  decide +kernel

/-- C102: `reduce_minimal_keep_others` is meant to reach all reducing stages.  In the pipeline of the API, for all options and values, only
the outer reducing stage gets it: a stage takes the keyword without handing it on, so the inner reducing stages always drop the others. -/
theorem keep_others_false (o : Options) (made : Nat → Key → V) (a : Args V) (yes : V) : ∃ (l0 l1 : List (St V)) (outer : St V),
    apiStages o made = l0 ++ outer :: l1 ∧ outer.sig = minStage ∧ (∃ inner ∈ l1, inner.sig = minStage) ∧
    ∃ r g, run (apiStages o made) (apiKw a ++ [(.keepOthers, yes)]) = .ok r ∧ r[l0.length]? = some g ∧
      g.own.get? .keepOthers = some yes ∧ ∀ x ∈ r.drop (l0.length + 1), seen x .keepOthers = none := by
  obtain ⟨l0, hl0, hk⟩ : ∃ l0 : List (St V), apiStages o made = l0 ++ (⟨minStage, made 10⟩ : St V) :: [⟨spatialGenerator, made 11⟩,
      ⟨spatialConversion, made 12⟩, ⟨minStage, made 13⟩, ⟨temporalEngine, made 14⟩, ⟨costModel, made 15⟩] ∧
      ∀ s ∈ l0, keeps .keepOthers s.sig = true := by
    refine ⟨[⟨if o.onnx then onnxParser else workloadParser, made 0⟩, ⟨acceleratorParser, made 1⟩, ⟨saveStage, made 2⟩,
      ⟨pickleSave, made 3⟩, ⟨sumStage, made 4⟩] ++ (if o.exploit then [⟨searchLocality, made 5⟩] else []) ++
      [⟨workloadStage, made 6⟩, ⟨saveStage, made 7⟩] ++ (if o.exploit then [⟨exploitLocality, made 8⟩] else []) ++ [⟨saveStage, made 9⟩],
      ?_, ?_⟩
    · unfold apiStages
      simp
    · intro s hs
      have := List.mem_map_of_mem (f := fun s : St V => s.sig) hs
      revert this
      generalize s.sig = y
      generalize o.onnx = a
      generalize o.exploit = b
      rw [show List.map (fun s : St V => s.sig) _ = [if a then onnxParser else workloadParser, acceleratorParser, saveStage, pickleSave,
        sumStage] ++ (if b then [searchLocality] else []) ++ [workloadStage, saveStage] ++ (if b then [exploitLocality] else []) ++
        [saveStage] by cases b <;> simp]
      revert y
      revert a b
      decide +kernel
  refine ⟨l0, _, _, hl0, rfl, ⟨⟨minStage, made 13⟩, by simp, rfl⟩, ?_⟩
  obtain ⟨r, hr⟩ : ∃ r, run (apiStages o made) (apiKw a ++ [(.keepOthers, yes)]) = .ok r := by
    rw [runs_iff _ _ _ (get?_keys _), apiSigs_eq, List.map_append, apiNames_eq, List.map_cons, List.map_nil]
    change okRun _ (apiNames ++ [Key.keepOthers]) = true
    generalize o.onnx = x
    generalize o.exploit = y
    revert x y
    decide +kernel
  have hlen := run_length _ _ _ hr
  have hlt : l0.length < r.length := by rw [hlen, hl0]; simp
  refine ⟨r, r[l0.length], hr, List.getElem?_eq_getElem hlt, ?_, ?_⟩
  · rw [hl0] at hr
    obtain ⟨kw', h1⟩ := run_split _ _ _ l0.length ⟨minStage, made 10⟩ _ hr (by simp) (List.getElem?_eq_getElem hlt)
    have h2 := kept_value (k := .keepOthers) (v := yes) _ _ _ l0.length r[l0.length] hr rfl (fun s hs => hk s (by simpa using hs))
      (List.getElem?_eq_getElem hlt)
    rw [h1, seen_split] at h2
    rw [h1, own_get, if_pos (by change _ ∈ minStage.required ++ minStage.optional; decide), h2]
  · rw [hl0] at hr
    refine (dropped_keyword (k := .keepOthers) ⟨minStage, made 10⟩ (show drops .keepOthers minStage by unfold drops; decide) _ (fun s hs => ?_) l0 _ r hr).1
    simp only [List.dropLast_cons₂, List.dropLast_singleton, List.mem_cons, List.not_mem_nil, or_false] at hs
    have h : ∀ y ∈ [spatialGenerator, spatialConversion, minStage, temporalEngine], Key.keepOthers ∉ (y.gives ++ y.sets).map (·.1) := by
      decide
    refine h s.sig ?_
    rcases hs with rfl | rfl | rfl | rfl <;> simp

/-- C102: the annealing engine takes the criterion `salsa_opt_criterion`, which `get_hardware_performance_zigzag` does not give: with
`temporal_mapping_search_engine="salsa"` and any `opt` the annealing minimises the energy. -/
theorem salsa_criterion_false (o : Options) (made : Nat → Key → String) (a : Args String) (r : List (Got String))
    (h : run (apiStages o made) (apiKw a) = .ok r) : ∀ g ∈ r, salsaUses g.rest = "energy" := by
  intro g hg
  obtain ⟨n, hn, hgn⟩ := List.getElem_of_mem hg
  have hs : ∀ s ∈ (apiStages o made).dropLast, silent .salsaCriterion s.sig := by
    have : ∀ y ∈ apiSigs o.onnx o.exploit, Key.salsaCriterion ∉ (y.gives ++ y.sets).map (·.1) := by
      generalize o.onnx = x
      generalize o.exploit = y
      revert x y
      decide +kernel
    intro s hs
    refine this s.sig ?_
    rw [← apiSigs_eq o made]
    rw [List.dropLast_eq_take] at hs
    exact List.mem_map_of_mem (List.mem_of_mem_take hs)
  have := silent_none _ _ _ h hs rfl g hg
  unfold seen at this
  unfold salsaUses
  rw [Option.or_eq_none_iff] at this
  rw [this.2]
  rfl

/-- C102: a keyword `mapping_type` that a user adds for an own stage makes every pipeline with a generator of temporal mappings raise a
`TypeError`, unless a stage above takes it: the generator passes the name a second time. -/
theorem mapping_type_false (o : Options) (made : Nat → Key → V) (a : Args V) (v : V) :
    (∀ y ∈ (apiStages o made).map (·.sig), Key.mappingType ∉ y.required ++ y.optional) ∧
    ∀ r, run (apiStages o made) (apiKw a ++ [(.mappingType, v)]) ≠ .ok r := by
  refine ⟨?_, fun r h => ?_⟩
  · rw [apiSigs_eq]
    generalize o.onnx = x
    generalize o.exploit = y
    revert x y
    decide +kernel
  · have := (runs_iff _ _ _ (get?_keys _)).1 ⟨r, h⟩
    rw [apiSigs_eq, List.map_append, apiNames_eq, List.map_cons, List.map_nil] at this
    change okRun _ (apiNames ++ [Key.mappingType]) = true at this
    revert this
    generalize o.onnx = x
    generalize o.exploit = y
    revert x y
    decide +kernel

/-- C102: the default output folder is named after the time of the call.  It is computed when the package is loaded: two calls without
`dump_folder`, at any times, write to the same files, and the results the first call saved for a layer are replaced by those of a layer with
the same name of the second call, whatever they are. -/
theorem default_folder_false {B R : Type} (start t1 t2 : Nat) (suffix name : List Char) (text : R → List B × Option PyErr)
    (ok : ∀ r, (text r).2 = none) (first second : R) (fs : Save.FS B) :
    let run (t : Nat) (r : R) := Save.saveRun (folderOf start none t).toList suffix (fun _ => Save.Kind.layer name) text [r]
    ∃ file, (Save.after fs (run t1 first)).get? file = some (text first).1 ∧
      (Save.after (Save.after fs (run t1 first)) (run t2 second)).get? file = some (text second).1 := by
  intro run
  have hf : ∀ t, (folderOf start none t).toList = s!"outputs/{start}".toList := fun t => rfl
  have fine : ∀ t r, ∀ x ∈ [r], Save.Fine (folderOf start none t).toList suffix (fun _ : R => Save.Kind.layer name) text x :=
    fun t r x _ => ⟨⟨_, rfl⟩, ok x⟩
  refine ⟨s!"outputs/{start}".toList ++ ['/'] ++ Save.noSlash name ++ suffix, ?_, ?_⟩
  · rw [(Save.saved_last _ suffix (fun _ => Save.Kind.layer name) text [first] fs (fine t1 first)).2.2]
    simp [Save.fileName, hf, Except.toOption]
  · rw [(Save.saved_last _ suffix (fun _ => Save.Kind.layer name) text [second] _ (fine t2 second)).2.2]
    simp [Save.fileName, hf, Except.toOption]

/-! ### Concrete cases -/

/-- the values given by a user of the API -/
private def someArgs : Args Nat := ⟨1, 2, 3, 4, 5, 6, 7, 8, 9, 10, 11⟩

example : (run (apiStages ⟨true, true, false, false⟩ fun i _ => 100 + i) (apiKw someArgs)).toOption.isSome = true := by decide +kernel

example : ∃ r, run (apiStages ⟨false, false, false, false⟩ fun i _ => 100 + i) (apiKw someArgs) = .ok r ∧ r.length = 14 := by
  obtain ⟨r, h1, h2, _⟩ := api_keywords ⟨false, false, false, false⟩ (fun i _ => 100 + i) someArgs
  exact ⟨r, h1, h2⟩

/-- hypotheses of `parameter_value`: the save stages and the folder -/
example : reaches .dumpFolder (apiSigs true true) = true ∧ reaches .accelerator (apiSigs true true) = false := by decide +kernel

/-- hypotheses of `unused_keywords`: a keyword of the user in the pipeline of the API -/
example : Unused (· = .other 3) (apiStages ⟨true, true, false, false⟩ fun i _ => 100 + i) ∧
    Agree (· = .other 3) (apiKw someArgs) (apiKw someArgs ++ [(.other 3, 12)]) := by
  constructor
  · intro s hs
    have h : ∀ y ∈ apiSigs true true, (∀ k ∈ y.required, k ≠ .other 3) ∧ (∀ k ∈ y.helper, k ≠ .other 3) ∧ ∀ p ∈ y.gives, p.1 ≠ .other 3 := by
      decide +kernel
    exact h s.sig (by
      have := List.mem_map_of_mem (f := fun s : St Nat => s.sig) hs
      rwa [apiSigs_eq] at this)
  · intro k hk
    have : ∀ l : Dict Key Nat, Dict.get? (l ++ [(Key.other 3, 12)]) k = l.get? k := by
      intro l
      induction l with
      | nil => simp [Dict.get?, Ne.symm hk]
      | cons x t ih => rw [List.cons_append, Dict.get?_cons, Dict.get?_cons, ih]
    exact (this _).symm

/-- hypotheses of `insert_stage`: a save stage passes its keywords on, the pickling stage does not -/
example : PassOn saveStage ∧ ¬ PassOn pickleSave :=
  ⟨⟨by decide, by decide, by decide, by decide, by decide⟩, fun h => by simpa [pickleSave] using h.back⟩

/-- hypotheses of `dropped_keyword`, and a second pickling stage -/
example : drops .pickleFilename pickleSave ∧ ∀ r, run ([⟨pickleSave, fun _ => 0⟩] ++ (⟨pickleSave, fun _ => 0⟩ : St Nat) ::
    [⟨costModel, fun _ => 0⟩]) [(.pickleFilename, 1)] ≠ .ok r := by
  refine ⟨by unfold drops; decide, fun r h => ?_⟩
  exact (dropped_keyword (k := .pickleFilename) ⟨pickleSave, fun _ => 0⟩ (by unfold drops; decide)
    [⟨pickleSave, fun _ => 0⟩, ⟨costModel, fun _ => 0⟩] (by intro s hs; simp at hs; subst hs; unfold silent; decide) [] _ r h).2
    ⟨pickleSave, fun _ => 0⟩ (by simp) (by decide)

/-- hypotheses of `engine_and_cost` -/
example : (run [⟨temporalEngine, fun _ => 50⟩, ⟨costModel, fun _ => 60⟩] [(.accelerator, 1), (.layer, 2), (.spatialMapping, 3),
    (.spatialMappingInt, 4), (.temporalMappingType, 5)]).toOption.map (fun r => r.map fun g => g.own.get? .temporalMapping) =
    some [none, some 50] := by decide +kernel

end Verif.Keywords
