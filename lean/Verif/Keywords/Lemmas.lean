import Verif.Keywords.Model

/-! Helper lemmas about keyword dictionaries. -/

namespace Verif.Keywords

variable {V : Type}

/-- Both dictionaries have the same values outside of `O`. -/
def Agree (O : Key → Prop) (a b : Dict Key V) : Prop := ∀ k, ¬ O k → a.get? k = b.get? k

/-- Two stages got the same keywords outside of `O`. -/
def AgreeGot (O : Key → Prop) (a b : Got V) : Prop := Agree O a.own b.own ∧ Agree O a.rest b.rest

theorem Agree.symm {O : Key → Prop} {a b : Dict Key V} (h : Agree O a b) : Agree O b a := fun k hk => (h k hk).symm

theorem get?_filter (p : Key → Bool) (kw : Dict Key V) (k : Key) :
    Dict.get? (kw.filter (fun x => p x.1)) k = if p k then kw.get? k else none := by
  induction kw with
  | nil => simp [Dict.get?]
  | cons x t ih =>
    obtain ⟨a, v⟩ := x
    by_cases hp : p a = true
    · rw [List.filter_cons_of_pos (by simpa using hp), Dict.get?_cons, Dict.get?_cons, ih]
      by_cases h : a = k
      · subst h; simp [hp]
      · simp [h]
    · rw [List.filter_cons_of_neg (by simpa using hp), Dict.get?_cons, ih]
      by_cases h : a = k
      · subst h; simp [hp]
      · simp [h]

/-- What a stage gets of a dictionary. -/
def split (s : Sig) (kw : Dict Key V) : Got V :=
  ⟨kw.filter (fun p => decide (p.1 ∈ s.required ++ s.optional)), kw.filter (fun p => !decide (p.1 ∈ s.required ++ s.optional))⟩

theorem own_get (s : Sig) (kw : Dict Key V) (k : Key) :
    (split s kw).own.get? k = if k ∈ s.required ++ s.optional then kw.get? k else none := by
  have := get?_filter (fun k => decide (k ∈ s.required ++ s.optional)) kw k
  simpa [split] using this

theorem rest_get (s : Sig) (kw : Dict Key V) (k : Key) :
    (split s kw).rest.get? k = if k ∈ s.required ++ s.optional then none else kw.get? k := by
  have := get?_filter (fun k => !decide (k ∈ s.required ++ s.optional)) kw k
  simp only [split]
  rw [this]
  by_cases h : k ∈ s.required ++ s.optional <;> simp [h]

theorem split_agree {O : Key → Prop} (s : Sig) {a b : Dict Key V} (h : Agree O a b) : AgreeGot O (split s a) (split s b) := by
  refine ⟨fun k hk => ?_, fun k hk => ?_⟩
  · rw [own_get, own_get, h k hk]
  · rw [rest_get, rest_get, h k hk]

theorem construct_ok (s : Sig) (below : List (St V)) (kw : Dict Key V) (g : Got V) : construct s below kw = .ok g ↔
    (∀ k ∈ s.required, kw.get? k ≠ none) ∧ (s.leaf = true ↔ below = []) ∧ g = split s kw := by
  unfold construct
  by_cases h : s.required.any (fun k => decide (kw.get? k = none)) = true
  · rw [if_pos h]
    simp only [List.any_eq_true, decide_eq_true_eq] at h
    obtain ⟨k, hk, hn⟩ := h
    simp only [reduceCtorEq, false_iff, not_and]
    intro hall
    exact absurd hn (hall k hk)
  · rw [if_neg h]
    have hall : ∀ k ∈ s.required, kw.get? k ≠ none := by
      intro k hk hn
      exact h (List.any_eq_true.2 ⟨k, hk, by simpa using hn⟩)
    cases below with
    | nil =>
      cases hl : s.leaf
      · simp
      · simp only [List.isEmpty_nil, Bool.not_true, Bool.and_false, Bool.false_eq_true, if_false, Except.ok.injEq]
        exact ⟨fun e => ⟨hall, trivial, e.symm⟩, fun e => e.2.2.symm⟩
    | cons b t =>
      cases hl : s.leaf
      · simp only [List.isEmpty_cons, Bool.not_false, Bool.and_true, Bool.false_eq_true, if_false, Except.ok.injEq, reduceCtorEq,
          iff_self, true_and]
        exact ⟨fun e => ⟨hall, e.symm⟩, fun e => e.2.symm⟩
      · simp

/-- A run that comes to its end. -/
theorem run_cons (s : St V) (t : List (St V)) (kw : Dict Key V) (r : List (Got V)) : run (s :: t) kw = .ok r ↔
    (∀ k ∈ s.sig.required, kw.get? k ≠ none) ∧
      ((s.sig.leaf = true ∧ t = [] ∧ r = [split s.sig kw]) ∨
        (s.sig.leaf = false ∧ t ≠ [] ∧ ∃ kw' r', handOn s (split s.sig kw) = .ok kw' ∧ run t kw' = .ok r' ∧ r = split s.sig kw :: r')) := by
  rw [run]
  cases hc : construct s.sig t kw with
  | error e =>
    simp only [reduceCtorEq, false_iff]
    rintro ⟨h1, h2⟩
    have : construct s.sig t kw = .ok (split s.sig kw) := by
      refine (construct_ok _ _ _ _).2 ⟨h1, ?_, rfl⟩
      rcases h2 with ⟨a, b, _⟩ | ⟨a, b, _⟩
      · simp [a, b]
      · simp [a, b]
    rw [hc] at this
    cases this
  | ok g =>
    obtain ⟨h1, h2, rfl⟩ := (construct_ok _ _ _ _).1 hc
    simp only
    cases hl : s.sig.leaf
    · have ht : t ≠ [] := fun e => by simp [hl, e] at h2
      simp only [Bool.false_eq_true, if_false, false_and, false_or, true_and]
      cases hh : handOn s (split s.sig kw) with
      | error e => simp
      | ok kw' =>
        simp only
        cases hr : run t kw' with
        | error e =>
          simp only [reduceCtorEq, false_iff, not_and]
          rintro _ _ ⟨kw'', r', e1, e2, _⟩
          cases e1
          rw [hr] at e2
          cases e2
        | ok r' =>
          simp only [Except.ok.injEq]
          constructor
          · rintro rfl
            exact ⟨h1, ht, kw', r', rfl, hr, rfl⟩
          · rintro ⟨_, _, kw'', r'', e1, e2, e3⟩
            cases e1
            rw [hr] at e2
            cases e2
            exact e3.symm
    · have ht : t = [] := h2.1 hl
      simp only [if_true, Except.ok.injEq, true_and, Bool.true_eq_false, false_and, or_false]
      exact ⟨fun e => ⟨h1, ht, e.symm⟩, fun e => e.2.2.symm⟩

/-- The dictionary after `kwargs[name] = value` for a list of names. -/
theorem sets_get (made : Key → V) (own : Dict Key V) : ∀ (l : List (Key × Src)) (d : Dict Key V) (k : Key),
    Dict.get? (l.foldl (fun d p => d.set p.1 (value made own p.1 p.2)) d) k =
      match (l.reverse.find? (fun p => decide (p.1 = k))) with
      | some p => some (value made own k p.2)
      | none => d.get? k
  | [], d, k => rfl
  | p :: l, d, k => by
    rw [List.foldl_cons, sets_get made own l, List.reverse_cons, List.find?_append]
    cases h : l.reverse.find? (fun p => decide (p.1 = k)) with
    | some q => rfl
    | none =>
      simp only [Option.none_or]
      rw [Dict.get?_set]
      by_cases hk : p.1 = k
      · subst hk; simp
      · simp [hk]

theorem gives_get (made : Key → V) (own : Dict Key V) (d : Dict Key V) : ∀ (l : List (Key × Src)) (k : Key),
    Dict.get? (l.map (fun p => (p.1, value made own p.1 p.2)) ++ d) k =
      match (l.find? (fun p => decide (p.1 = k))) with
      | some p => some (value made own k p.2)
      | none => d.get? k
  | [], k => rfl
  | p :: l, k => by
    rw [List.map_cons, List.cons_append, Dict.get?_cons, gives_get made own d l k]
    by_cases hk : p.1 = k
    · subst hk; simp
    · simp [hk]

/-- The keywords after the assignments of a stage. -/
def setsOf (s : St V) (g : Got V) : Dict Key V := s.sig.sets.foldl (fun d p => d.set p.1 (value s.made g.own p.1 p.2)) g.rest

theorem handOn_ok (s : St V) (g : Got V) (kw' : Dict Key V) : handOn s g = .ok kw' ↔
    (∀ k ∈ s.sig.helper, g.rest.get? k = none) ∧ (∀ p ∈ s.sig.gives, (setsOf s g).get? p.1 = none) ∧
      kw' = s.sig.gives.map (fun p => (p.1, value s.made g.own p.1 p.2)) ++ setsOf s g := by
  unfold handOn
  by_cases h : s.sig.helper.any (fun k => !decide (g.rest.get? k = none)) = true
  · rw [if_pos h]
    simp only [reduceCtorEq, false_iff, not_and]
    intro h1
    obtain ⟨k, hk, hn⟩ := List.any_eq_true.1 h
    simp [h1 k hk] at hn
  · rw [if_neg h]
    have h1 : ∀ k ∈ s.sig.helper, g.rest.get? k = none := by
      intro k hk
      by_contra hn
      exact h (List.any_eq_true.2 ⟨k, hk, by simpa using hn⟩)
    change (if s.sig.gives.any (fun p => !decide ((setsOf s g).get? p.1 = none)) = true then _ else _) = _ ↔ _
    by_cases h' : s.sig.gives.any (fun p => !decide ((setsOf s g).get? p.1 = none)) = true
    · rw [if_pos h']
      simp only [reduceCtorEq, false_iff, not_and]
      intro _ h2
      obtain ⟨p, hp, hn⟩ := List.any_eq_true.1 h'
      simp [h2 p hp] at hn
    · rw [if_neg h']
      have h2 : ∀ p ∈ s.sig.gives, (setsOf s g).get? p.1 = none := by
        intro p hp
        by_contra hn
        exact h' (List.any_eq_true.2 ⟨p, hp, by simpa using hn⟩)
      exact ⟨fun e => ⟨h1, h2, (Except.ok.inj e).symm⟩, fun e => by rw [e.2.2]; rfl⟩

/-- The value of a keyword in the call of the substage. -/
theorem handOn_get {s : St V} {g : Got V} {kw' : Dict Key V} (h : handOn s g = .ok kw') (k : Key) :
    kw'.get? k =
      match (s.sig.gives.find? (fun p => decide (p.1 = k))) with
      | some p => some (value s.made g.own k p.2)
      | none =>
        match (s.sig.sets.reverse.find? (fun p => decide (p.1 = k))) with
        | some p => some (value s.made g.own k p.2)
        | none => g.rest.get? k := by
  rw [((handOn_ok _ _ _).1 h).2.2, gives_get]
  cases s.sig.gives.find? (fun p => decide (p.1 = k)) with
  | some p => rfl
  | none => exact sets_get _ _ _ _ _

theorem value_agree {O : Key → Prop} {a b : Dict Key V} (h : Agree O a b) (made : Key → V) {k : Key} (hk : ¬ O k) (x : Src) :
    value made a k x = value made b k x := by
  cases x
  · simp only [value, h k hk]
  · rfl

theorem handOn_agree {O : Key → Prop} (s : St V) {g g' : Got V} (hg : AgreeGot O g g') (hh : ∀ k ∈ s.sig.helper, ¬ O k)
    (hv : ∀ p ∈ s.sig.gives, ¬ O p.1) {kw : Dict Key V} (h : handOn s g = .ok kw) : ∃ kw', handOn s g' = .ok kw' ∧ Agree O kw kw' := by
  obtain ⟨h1, h2, _⟩ := (handOn_ok _ _ _).1 h
  have hset : Agree O (setsOf s g) (setsOf s g') := by
    intro k hk
    unfold setsOf
    rw [sets_get, sets_get]
    cases s.sig.sets.reverse.find? (fun p => decide (p.1 = k)) with
    | some p => simp only [value_agree hg.1 _ hk]
    | none => exact hg.2 k hk
  have hok : handOn s g' = .ok (s.sig.gives.map (fun p => (p.1, value s.made g'.own p.1 p.2)) ++ setsOf s g') :=
    (handOn_ok _ _ _).2 ⟨fun k hk => (hg.2 k (hh k hk)) ▸ h1 k hk, fun p hp => (hset p.1 (hv p hp)) ▸ h2 p hp, rfl⟩
  refine ⟨_, hok, fun k hk => ?_⟩
  rw [handOn_get h, handOn_get hok]
  cases s.sig.gives.find? (fun p => decide (p.1 = k)) with
  | some p => simp only [value_agree hg.1 _ hk]
  | none =>
    cases s.sig.sets.reverse.find? (fun p => decide (p.1 = k)) with
    | some p => simp only [value_agree hg.1 _ hk]
    | none => exact hg.2 k hk

/-- No stage insists on the keywords in `O`: none requires one, none passes one beside `**kwargs`. -/
def Unused (O : Key → Prop) (l : List (St V)) : Prop :=
  ∀ s ∈ l, (∀ k ∈ s.sig.required, ¬ O k) ∧ (∀ k ∈ s.sig.helper, ¬ O k) ∧ ∀ p ∈ s.sig.gives, ¬ O p.1

theorem run_agree {O : Key → Prop} : ∀ (l : List (St V)) (kw kw' : Dict Key V) (r : List (Got V)), Unused O l → Agree O kw kw' →
    run l kw = .ok r → ∃ r', run l kw' = .ok r' ∧ List.Forall₂ (AgreeGot O) r r'
  | [], kw, kw', r, _, _, h => by simp [run] at h
  | s :: t, kw, kw', r, hu, ha, h => by
    obtain ⟨h1, h2⟩ := (run_cons _ _ _ _).1 h
    obtain ⟨u1, u2, u3⟩ := hu s (by simp)
    have h1' : ∀ k ∈ s.sig.required, kw'.get? k ≠ none := fun k hk => by rw [← ha k (u1 k hk)]; exact h1 k hk
    rcases h2 with ⟨a, b, c⟩ | ⟨a, b, kw1, r1, c1, c2, c3⟩
    · exact ⟨_, (run_cons _ _ _ _).2 ⟨h1', .inl ⟨a, b, rfl⟩⟩, by rw [c]; exact .cons (split_agree _ ha) .nil⟩
    · obtain ⟨kw2, d1, d2⟩ := handOn_agree s (split_agree s.sig ha) u2 u3 c1
      obtain ⟨r2, e1, e2⟩ := run_agree t kw1 kw2 r1 (fun x hx => hu x (by simp [hx])) d2 c2
      exact ⟨_, (run_cons _ _ _ _).2 ⟨h1', .inr ⟨a, b, kw2, r2, d1, e1, rfl⟩⟩, by rw [c3]; exact .cons (split_agree _ ha) e2⟩

/-- What a stage can see under a name. -/
def seen (g : Got V) (k : Key) : Option V := (g.own.get? k).or (g.rest.get? k)

theorem seen_split (s : Sig) (kw : Dict Key V) (k : Key) : seen (split s kw) k = kw.get? k := by
  unfold seen
  rw [own_get, rest_get]
  by_cases h : k ∈ s.required ++ s.optional <;> simp [h]

/-- A stage leaves a keyword as it is: either it does not touch it, or it hands on its own value. -/
def keeps (k : Key) (s : Sig) : Bool :=
  if k ∈ s.required ++ s.optional then
    decide ((k, Src.own) ∈ s.gives ++ s.sets) && decide ((k, Src.new) ∉ s.gives ++ s.sets)
  else (s.gives ++ s.sets).all fun p => decide (p.1 ≠ k)

theorem keeps_get {k : Key} {s : St V} {kw kw' : Dict Key V} {v : V} (hk : keeps k s.sig = true) (hv : kw.get? k = some v)
    (h : handOn s (split s.sig kw) = .ok kw') : kw'.get? k = some v := by
  rw [handOn_get h]
  unfold keeps at hk
  by_cases hb : k ∈ s.sig.required ++ s.sig.optional
  · rw [if_pos hb, Bool.and_eq_true, decide_eq_true_eq, decide_eq_true_eq] at hk
    have hval : ∀ p : Key × Src, p ∈ s.sig.gives ++ s.sig.sets → p.1 = k → value s.made (split s.sig kw).own k p.2 = v := by
      rintro ⟨a, x⟩ hp rfl
      cases x
      · simp only [value, own_get, if_pos hb, hv, Option.getD_some]
      · exact absurd hp hk.2
    cases hf : s.sig.gives.find? (fun p => decide (p.1 = k)) with
    | some p =>
      have h1 := List.mem_of_find?_eq_some hf
      have h2 := List.find?_some hf
      simp only [hval p (by simp [h1]) (by simpa using h2)]
    | none =>
      simp only
      cases hf' : s.sig.sets.reverse.find? (fun p => decide (p.1 = k)) with
      | some p =>
        have h1 := List.mem_of_find?_eq_some hf'
        have h2 := List.find?_some hf'
        simp only [hval p (by simp at h1; simp [h1]) (by simpa using h2)]
      | none =>
        rw [List.find?_eq_none] at hf hf'
        rcases List.mem_append.1 hk.1 with hm | hm
        · exact absurd (decide_eq_true rfl) (hf _ hm)
        · exact absurd (decide_eq_true rfl) (hf' _ (List.mem_reverse.2 hm))
  · rw [if_neg hb, List.all_eq_true] at hk
    have e1 : s.sig.gives.find? (fun p => decide (p.1 = k)) = none := by
      rw [List.find?_eq_none]
      intro p hp
      simpa using hk p (by simp [hp])
    have e2 : s.sig.sets.reverse.find? (fun p => decide (p.1 = k)) = none := by
      rw [List.find?_eq_none]
      intro p hp
      simpa using hk p (by simp at hp; simp [hp])
    rw [e1, e2]
    simp only
    rw [rest_get, if_neg hb, hv]

theorem run_length : ∀ (l : List (St V)) (kw : Dict Key V) (r : List (Got V)), run l kw = .ok r → r.length = l.length
  | [], kw, r, h => by simp [run] at h
  | s :: t, kw, r, h => by
    obtain ⟨_, ⟨_, b, c⟩ | ⟨_, _, kw1, r1, _, c2, c3⟩⟩ := (run_cons _ _ _ _).1 h
    · simp [b, c]
    · simp [c3, run_length t kw1 r1 c2]

/-- Every stage got a split of some dictionary. -/
theorem run_split : ∀ (l : List (St V)) (kw : Dict Key V) (r : List (Got V)) (n : Nat) (s : St V) (g : Got V), run l kw = .ok r →
    l[n]? = some s → r[n]? = some g → ∃ kw', g = split s.sig kw'
  | [], kw, r, n, s, g, h, _, _ => by simp [run] at h
  | s0 :: t, kw, r, n, s, g, h, hs, hg => by
    obtain ⟨_, ⟨_, b, c⟩ | ⟨_, _, kw1, r1, _, c2, c3⟩⟩ := (run_cons _ _ _ _).1 h
    · subst b c
      cases n with
      | zero => cases hs; cases hg; exact ⟨_, rfl⟩
      | succ n => simp at hg
    · subst c3
      cases n with
      | zero => cases hs; cases hg; exact ⟨_, rfl⟩
      | succ n => exact run_split t kw1 r1 n s g c2 (by simpa using hs) (by simpa using hg)

theorem own_none (l : List (St V)) (kw : Dict Key V) (r : List (Got V)) (n : Nat) (s : St V) (g : Got V) (h : run l kw = .ok r)
    (hs : l[n]? = some s) (hg : r[n]? = some g) (k : Key) (hk : k ∉ s.sig.required ++ s.sig.optional) : g.own.get? k = none := by
  obtain ⟨kw', rfl⟩ := run_split l kw r n s g h hs hg
  rw [own_get, if_neg hk]

/-- Every stage had its required keywords. -/
theorem run_required : ∀ (l : List (St V)) (kw : Dict Key V) (r : List (Got V)) (n : Nat) (s : St V) (g : Got V), run l kw = .ok r →
    l[n]? = some s → r[n]? = some g → ∃ kw', g = split s.sig kw' ∧ ∀ k ∈ s.sig.required, kw'.get? k ≠ none
  | [], kw, r, n, s, g, h, _, _ => by simp [run] at h
  | s0 :: t, kw, r, n, s, g, h, hs, hg => by
    obtain ⟨h1, ⟨_, b, c⟩ | ⟨_, _, kw1, r1, _, c2, c3⟩⟩ := (run_cons _ _ _ _).1 h
    · subst b c
      cases n with
      | zero => cases hs; cases hg; exact ⟨_, rfl, h1⟩
      | succ n => simp at hg
    · subst c3
      cases n with
      | zero => cases hs; cases hg; exact ⟨_, rfl, h1⟩
      | succ n => exact run_required t kw1 r1 n s g c2 (by simpa using hs) (by simpa using hg)

/-- A keyword that all stages above leave as it is arrives with the value given to the pipeline. -/
theorem kept_value {k : Key} {v : V} : ∀ (l : List (St V)) (kw : Dict Key V) (r : List (Got V)) (n : Nat) (g : Got V), run l kw = .ok r →
    kw.get? k = some v → (∀ s ∈ l.take n, keeps k s.sig = true) → r[n]? = some g → seen g k = some v
  | [], kw, r, n, g, h, _, _, _ => by simp [run] at h
  | s :: t, kw, r, n, g, h, hv, hk, hg => by
    obtain ⟨_, ⟨_, b, c⟩ | ⟨_, _, kw1, r1, c1, c2, c3⟩⟩ := (run_cons _ _ _ _).1 h
    · subst c
      cases n with
      | zero => cases hg; rw [seen_split, hv]
      | succ n => simp at hg
    · subst c3
      cases n with
      | zero => cases hg; rw [seen_split, hv]
      | succ n =>
        exact kept_value t kw1 r1 n g c2 (keeps_get (hk s (by simp)) hv c1) (fun x hx => hk x (by simp [hx])) (by simpa using hg)

theorem get?_keys (kw : Dict Key V) (k : Key) : kw.get? k ≠ none ↔ k ∈ kw.map (·.1) := by
  induction kw with
  | nil => simp [Dict.get?]
  | cons x t ih =>
    obtain ⟨a, v⟩ := x
    rw [Dict.get?_cons, List.map_cons, List.mem_cons]
    by_cases h : a = k
    · subst h; simp
    · rw [if_neg h, ih]
      exact ⟨.inr, fun h' => h'.resolve_left fun e => h e.symm⟩

end Verif.Keywords
