import Verif.Files.Model
import Verif.Ports.Lemmas

namespace Verif.Files

/-! ### Paths -/

/-- One step into a value. -/
inductive Step where
  | key (k : String)
  | idx (i : Nat)
  deriving DecidableEq

/-- The value at a path. -/
def Doc.at : Doc → List Step → Option Doc
  | d, [] => some d
  | .dict es, .key k :: p =>
    match Dict.get? es k with
    | none => none
    | some v => v.at p
  | .list l, .idx i :: p =>
    match l[i]? with
    | none => none
    | some v => v.at p
  | _, _ => none

/-- Plain values. -/
def Doc.Plain : Doc → Prop
  | .bool _ | .int _ | .num _ | .str _ => True
  | _ => False

/-- `d'` keeps everything written in `d`: plain values stay where they are, lists keep their length. -/
def Keeps (d d' : Doc) : Prop :=
  ∀ p v, d.at p = some v → (v.Plain → d'.at p = some v) ∧ (∀ l, v = .list l → ∃ l', d'.at p = some (.list l') ∧ l'.length = l.length)

theorem Keeps.refl (d : Doc) : Keeps d d := fun _ _ h => ⟨fun _ => h, fun l e => ⟨l, e ▸ h, rfl⟩⟩

theorem Keeps.trans {a b c : Doc} (h : Keeps a b) (h' : Keeps b c) : Keeps a c := by
  intro p v hv
  refine ⟨fun hp => (h' p v ((h p v hv).1 hp)).1 hp, ?_⟩
  intro l e
  obtain ⟨l1, h1, h2⟩ := (h p v hv).2 l e
  obtain ⟨l2, h3, h4⟩ := (h' p _ h1).2 l1 rfl
  exact ⟨l2, h3, h4.trans h2⟩

theorem Keeps.null (d : Doc) : Keeps .null d := by
  intro p v hv
  cases p with
  | nil =>
    simp only [Doc.at, Option.some.injEq] at hv
    subst hv
    exact ⟨fun h => h.elim, fun l e => by cases e⟩
  | cons s p => cases s <;> simp [Doc.at] at hv

/-- The same for the entries of a mapping. -/
def KeepsD (es es' : List (String × Doc)) : Prop := ∀ k v, Dict.get? es k = some v → ∃ v', Dict.get? es' k = some v' ∧ Keeps v v'

theorem KeepsD.refl (es : List (String × Doc)) : KeepsD es es := fun _ v h => ⟨v, h, Keeps.refl v⟩

theorem KeepsD.trans {a b c : List (String × Doc)} (h : KeepsD a b) (h' : KeepsD b c) : KeepsD a c := by
  intro k v hv
  obtain ⟨v1, h1, h2⟩ := h k v hv
  obtain ⟨v2, h3, h4⟩ := h' k v1 h1
  exact ⟨v2, h3, h2.trans h4⟩

theorem KeepsD.dict {es es' : List (String × Doc)} (h : KeepsD es es') : Keeps (.dict es) (.dict es') := by
  intro p v hv
  cases p with
  | nil =>
    simp only [Doc.at, Option.some.injEq] at hv
    subst hv
    exact ⟨fun h => h.elim, fun l e => by cases e⟩
  | cons s p =>
    cases s with
    | idx i => simp [Doc.at] at hv
    | key k =>
      simp only [Doc.at] at hv
      cases hg : Dict.get? es k with
      | none => rw [hg] at hv; cases hv
      | some x =>
        rw [hg] at hv
        obtain ⟨x', h1, h2⟩ := h k x hg
        have := h2 p v hv
        simp only [Doc.at, h1]
        exact this

theorem KeepsD.set (es : List (String × Doc)) (k : String) (v v' : Doc) (h : Dict.get? es k = some v) (hv : Keeps v v') : KeepsD es (Dict.set es k v') := by
  intro k' x hx
  rw [Dict.get?_set]
  by_cases hk : k = k'
  · subst hk
    rw [h] at hx
    cases hx
    exact ⟨v', by rw [if_pos rfl], hv⟩
  · exact ⟨x, by rw [if_neg hk]; exact hx, Keeps.refl x⟩

theorem KeepsD.add (es : List (String × Doc)) (k : String) (v : Doc) (h : Dict.get? es k = none) : KeepsD es (Dict.set es k v) := by
  intro k' x hx
  rw [Dict.get?_set]
  by_cases hk : k = k'
  · subst hk
    rw [h] at hx
    cases hx
  · exact ⟨x, by rw [if_neg hk]; exact hx, Keeps.refl x⟩

theorem fill_keeps : ∀ (fs : Fields) (es : List (String × Doc)), KeepsD es (fill fs es)
  | .nil, es => KeepsD.refl es
  | .cons name _ dflt r t, es => by
    unfold fill
    cases dflt with
    | none => exact fill_keeps t es
    | some v =>
      simp only
      cases hg : Dict.get? es name with
      | none => exact (KeepsD.add es name v hg).trans (fill_keeps t _)
      | some x =>
        cases x with
        | null =>
          simp only
          split
          · exact fill_keeps t es
          · exact (KeepsD.set es name .null v hg (Keeps.null v)).trans (fill_keeps t _)
        | _ => exact fill_keeps t es

theorem addDefaults_keeps : ∀ (fs : Fields) (es : List (String × Doc)) (k : String) (v : Doc), Dict.get? es k = some v → Dict.get? (addDefaults fs es) k = some v
  | .nil, _, _, _, h => h
  | .cons name _ dflt r t, es, k, v, h => by
    unfold addDefaults
    cases hg : Dict.get? es name with
    | none =>
      refine addDefaults_keeps t _ k v ?_
      rw [Dict.get?_set_of_ne]
      · exact h
      · rintro rfl
        rw [hg] at h
        cases h
    | some x => exact addDefaults_keeps t es k v h

mutual

theorem normalize_keeps' : ∀ (r : Rule) (d : Doc), Keeps d (normalize r d)
  | .leaf _ _ _, d => Keeps.refl d
  | .pair _ _, d => Keeps.refl d
  | .oneOf _ _, d => Keeps.refl d
  | .listOf _ _ r, d => by
    have ih := normalize_keeps' r
    unfold normalize
    cases d with
    | list l =>
      simp only
      intro p v hv
      cases p with
      | nil =>
        simp only [Doc.at, Option.some.injEq] at hv
        subst hv
        refine ⟨fun h => h.elim, fun l' e => ?_⟩
        cases e
        exact ⟨_, rfl, by simp⟩
      | cons s p =>
        cases s with
        | key k => simp [Doc.at] at hv
        | idx i =>
          simp only [Doc.at] at hv
          cases hg : l[i]? with
          | none => rw [hg] at hv; cases hv
          | some x =>
            rw [hg] at hv
            simp only [Doc.at, List.getElem?_map, hg, Option.map_some]
            exact ih x p v hv
    | _ => exact Keeps.refl _
  | .values r, d => by
    have ih := normalize_keeps' r
    unfold normalize
    cases d with
    | dict es =>
      simp only
      apply KeepsD.dict
      intro k v hv
      refine ⟨normalize r v, ?_, ih v⟩
      clear * - hv
      induction es with
      | nil => cases hv
      | cons e t iht =>
        rw [List.map_cons, Dict.get?_cons]
        rw [Dict.get?_cons] at hv
        by_cases he : e.1 = k
        · rw [if_pos he] at hv ⊢
          cases hv
          rfl
        · rw [if_neg he] at hv ⊢
          exact iht hv
    | _ => exact Keeps.refl _
  | .record _ fs, d => by
    have ih := normalizeF_keeps fs
    unfold normalize
    cases d with
    | dict es => exact ((fill_keeps fs es).trans (ih _)).dict
    | _ => exact Keeps.refl _

theorem normalizeF_keeps : ∀ (fs : Fields) (es : List (String × Doc)), KeepsD es (normalizeF fs es)
  | .nil, es => KeepsD.refl es
  | .cons name _ _ r t, es => by
    have ih := normalize_keeps' r
    have iht := normalizeF_keeps t
    unfold normalizeF
    cases hg : Dict.get? es name with
    | none => exact iht es
    | some v => exact (KeepsD.set es name v _ hg (ih v)).trans (iht _)

end

/-! ### Fields -/

/-- A field of a schema. -/
def Fields.Has : Fields → String → Bool → Option Doc → Rule → Prop
  | .nil, _, _, _, _ => False
  | .cons n q d r t, name, req, dflt, rule => (n = name ∧ q = req ∧ d = dflt ∧ r = rule) ∨ t.Has name req dflt rule

theorem Fields.Has.mem {fs : Fields} {name : String} {req : Bool} {dflt : Option Doc} {r : Rule} (h : fs.Has name req dflt r) : name ∈ fs.names := by
  match fs, h with
  | .cons n q d r t, h =>
    rcases h with ⟨rfl, -⟩ | h
    · simp [Fields.names]
    · simp only [Fields.names, List.mem_cons]
      exact Or.inr h.mem

mutual

/-- A schema is sensible: fields are named once, defaults need no completion, and `null` is a default only where it is allowed. -/
def Rule.Fine : Rule → Prop
  | .leaf _ _ _ => True
  | .listOf _ _ r => r.Fine
  | .pair _ _ => True
  | .oneOf _ _ => True
  | .values r => r.Fine
  | .record _ fs => fs.names.Nodup ∧ fs.Fine

def Fields.Fine : Fields → Prop
  | .nil => True
  | .cons _ _ d r t => (∀ v, d = some v → normalize r v = v ∧ (v = .null → r.nullable = true)) ∧ r.Fine ∧ t.Fine

end

theorem Fields.Fine.has {fs : Fields} (hf : fs.Fine) {name : String} {req : Bool} {dflt : Option Doc} {r : Rule} (h : fs.Has name req dflt r) :
    (∀ v, dflt = some v → normalize r v = v ∧ (v = .null → r.nullable = true)) ∧ r.Fine := by
  match fs, hf, h with
  | .cons n q d r t, hf, h =>
    rcases h with ⟨-, -, rfl, rfl⟩ | h
    · exact ⟨hf.1, hf.2.1⟩
    · exact Fields.Fine.has hf.2.2 h

theorem fill_other : ∀ (fs : Fields) (es : List (String × Doc)) (k : String), k ∉ fs.names → Dict.get? (fill fs es) k = Dict.get? es k
  | .nil, _, _, _ => rfl
  | .cons name _ dflt r t, es, k, h => by
    simp only [Fields.names, List.mem_cons, not_or] at h
    unfold fill
    cases dflt with
    | none => exact fill_other t es k h.2
    | some v =>
      have hs : Dict.get? (Dict.set es name v) k = Dict.get? es k := Dict.get?_set_of_ne _ _ (Ne.symm h.1)
      simp only
      cases hg : Dict.get? es name with
      | none => exact (fill_other t _ k h.2).trans hs
      | some x =>
        cases x with
        | null =>
          simp only
          split
          · exact fill_other t es k h.2
          · exact (fill_other t _ k h.2).trans hs
        | _ => exact fill_other t es k h.2

theorem normalizeF_other : ∀ (fs : Fields) (es : List (String × Doc)) (k : String), k ∉ fs.names → Dict.get? (normalizeF fs es) k = Dict.get? es k
  | .nil, _, _, _ => by unfold normalizeF; rfl
  | .cons name _ _ r t, es, k, h => by
    simp only [Fields.names, List.mem_cons, not_or] at h
    unfold normalizeF
    cases hg : Dict.get? es name with
    | none => exact normalizeF_other t es k h.2
    | some x => exact (normalizeF_other t _ k h.2).trans (Dict.get?_set_of_ne _ _ (Ne.symm h.1))

/-- What completing the fields does to a field. -/
def filled (dflt : Option Doc) (r : Rule) (x : Option Doc) : Option Doc :=
  match dflt with
  | none => x
  | some v =>
    match x with
    | none => some v
    | some .null => if r.nullable then some .null else some v
    | some y => some y

theorem fill_get : ∀ (fs : Fields) (_ : fs.names.Nodup) (es : List (String × Doc)) {name : String} {req : Bool} {dflt : Option Doc} {r : Rule},
    fs.Has name req dflt r → Dict.get? (fill fs es) name = filled dflt r (Dict.get? es name)
  | .cons n q d r t, hn, es, name, req, dflt, rule, h => by
    simp only [Fields.names, List.nodup_cons] at hn
    rcases h with ⟨rfl, rfl, rfl, rfl⟩ | h
    · unfold fill filled
      cases d with
      | none => exact fill_other t es _ hn.1
      | some v =>
        simp only
        cases hg : Dict.get? es n with
        | none => rw [fill_other t _ _ hn.1, Dict.get?_set_self]
        | some x =>
          cases x with
          | null =>
            simp only
            split
            · rw [fill_other t _ _ hn.1, hg]
            · rw [fill_other t _ _ hn.1, Dict.get?_set_self]
          | _ => simp only [fill_other t es n hn.1, hg]
    · have hne : name ≠ n := by rintro rfl; exact hn.1 h.mem
      have ih := fun es => fill_get t hn.2 es h
      have hs : ∀ v, Dict.get? (Dict.set es n v) name = Dict.get? es name := fun v => Dict.get?_set_of_ne _ _ (Ne.symm hne)
      unfold fill
      cases d with
      | none => exact ih es
      | some v =>
        simp only
        cases hg : Dict.get? es n with
        | none => simp only [ih, hs]
        | some x =>
          cases x with
          | null =>
            simp only
            split
            · exact ih es
            · simp only [ih, hs]
          | _ => exact ih es

theorem normalizeF_get : ∀ (fs : Fields) (_ : fs.names.Nodup) (es : List (String × Doc)) {name : String} {req : Bool} {dflt : Option Doc} {r : Rule},
    fs.Has name req dflt r → Dict.get? (normalizeF fs es) name = (Dict.get? es name).map (normalize r)
  | .cons n q d r t, hn, es, name, req, dflt, rule, h => by
    simp only [Fields.names, List.nodup_cons] at hn
    rcases h with ⟨rfl, rfl, rfl, rfl⟩ | h
    · unfold normalizeF
      cases hg : Dict.get? es n with
      | none => simp only [normalizeF_other t es n hn.1, hg, Option.map_none]
      | some x => simp only [normalizeF_other t _ n hn.1, Dict.get?_set_self, Option.map_some]
    · have hne : name ≠ n := by rintro rfl; exact hn.1 h.mem
      have ih := fun es => normalizeF_get t hn.2 es h
      unfold normalizeF
      cases hg : Dict.get? es n with
      | none => exact ih es
      | some x => simp only [ih, Dict.get?_set_of_ne _ _ (Ne.symm hne)]

/-- A field of a completed mapping. -/
theorem normalize_field {fs : Fields} (hn : fs.names.Nodup) (es : List (String × Doc)) {name : String} {req : Bool} {dflt : Option Doc} {r : Rule}
    (h : fs.Has name req dflt r) :
    Dict.get? (normalizeF fs (fill fs es)) name = (filled dflt r (Dict.get? es name)).map (normalize r) := by
  rw [normalizeF_get fs hn _ h, fill_get fs hn es h]

theorem acceptsF_get : ∀ (fs : Fields) (es : List (String × Doc)) {name : String} {req : Bool} {dflt : Option Doc} {r : Rule},
    acceptsF fs es = true → fs.Has name req dflt r → (Dict.get? es name = none → req = false) ∧ (∀ e ∈ es, e.1 = name → accepts r e.2 = true)
  | .cons n q d r t, es, name, req, dflt, rule, h, hh => by
    unfold acceptsF at h
    simp only [Bool.and_eq_true, List.all_eq_true, Bool.or_eq_true, Bool.not_eq_true', decide_eq_false_iff_not] at h
    rcases hh with ⟨rfl, rfl, rfl, rfl⟩ | hh
    · refine ⟨fun hg => ?_, fun e he hk => ?_⟩
      · rw [hg] at h; simpa using h.1.1
      · exact (h.1.2 e he).resolve_left (fun hc => hc hk)
    · exact acceptsF_get t es h.2 hh

theorem acceptsF_val {fs : Fields} {es : List (String × Doc)} {name : String} {req : Bool} {dflt : Option Doc} {r : Rule}
    (h : acceptsF fs es = true) (hh : fs.Has name req dflt r) {v : Doc} (hv : Dict.get? es name = some v) : accepts r v = true :=
  (acceptsF_get fs es h hh).2 (name, v) (Dict.mem_of_get? hv) rfl

theorem acceptsF_of : ∀ (fs : Fields) (es : List (String × Doc)),
    (∀ name req dflt r, fs.Has name req dflt r → (Dict.get? es name = none → req = false) ∧ (∀ e ∈ es, e.1 = name → accepts r e.2 = true)) →
    acceptsF fs es = true
  | .nil, _, _ => by unfold acceptsF; rfl
  | .cons n q d r t, es, h => by
    unfold acceptsF
    simp only [Bool.and_eq_true, List.all_eq_true, Bool.or_eq_true, Bool.not_eq_true', decide_eq_false_iff_not]
    have := h n q d r (Or.inl ⟨rfl, rfl, rfl, rfl⟩)
    refine ⟨⟨?_, fun e he => ?_⟩, acceptsF_of t es (fun name req dflt r' hh => h name req dflt r' (Or.inr hh))⟩
    · cases hg : Dict.get? es n with
      | none => exact Or.inl (this.1 hg)
      | some v => exact Or.inr rfl
    · by_cases hk : e.1 = n
      · exact Or.inr (this.2 e he hk)
      · exact Or.inl hk

/-! ### Completing twice -/

theorem normalize_null (r : Rule) : normalize r .null = .null := by cases r <;> unfold normalize <;> rfl

theorem normalize_eq_null {r : Rule} {d : Doc} (h : normalize r d = .null) : d = .null := by
  cases r <;> unfold normalize at h <;> cases d <;> simp_all

theorem fill_id : ∀ (fs : Fields) (es : List (String × Doc)),
    (∀ name req dflt r, fs.Has name req dflt r → filled dflt r (Dict.get? es name) = Dict.get? es name) → fill fs es = es
  | .nil, _, _ => rfl
  | .cons n q d r t, es, h => by
    have ih := fill_id t es (fun name req dflt r' hh => h name req dflt r' (Or.inr hh))
    have h0 := h n q d r (Or.inl ⟨rfl, rfl, rfl, rfl⟩)
    unfold filled at h0
    unfold fill
    cases d with
    | none => exact ih
    | some v =>
      simp only at h0 ⊢
      cases hg : Dict.get? es n with
      | none => rw [hg] at h0; cases h0
      | some x =>
        rw [hg] at h0
        cases x with
        | null =>
          simp only at h0 ⊢
          by_cases hr : r.nullable = true
          · rw [if_pos hr]; exact ih
          · rw [if_neg hr] at h0 ⊢
            simp only [Option.some.injEq] at h0
            subst h0
            have : Dict.set es n .null = es := by
              clear * - hg
              induction es with
              | nil => cases hg
              | cons e t iht =>
                obtain ⟨a, b⟩ := e
                rw [Dict.get?_cons] at hg
                unfold Dict.set
                by_cases he : a = n
                · simp only [he, if_true] at hg ⊢
                  rw [Option.some.injEq] at hg
                  rw [hg]
                · simp only [if_neg he] at hg ⊢
                  rw [iht hg]
            rw [this]
            exact ih
        | _ => exact ih

theorem set_same {es : List (String × Doc)} {n : String} {v : Doc} (hg : Dict.get? es n = some v) : Dict.set es n v = es := by
  induction es with
  | nil => cases hg
  | cons e t iht =>
    obtain ⟨a, b⟩ := e
    rw [Dict.get?_cons] at hg
    unfold Dict.set
    by_cases he : a = n
    · simp only [he, if_true] at hg ⊢
      rw [Option.some.injEq] at hg
      rw [hg]
    · simp only [if_neg he] at hg ⊢
      rw [iht hg]

theorem normalizeF_id : ∀ (fs : Fields) (es : List (String × Doc)),
    (∀ name req dflt r, fs.Has name req dflt r → ∀ v, Dict.get? es name = some v → normalize r v = v) → normalizeF fs es = es
  | .nil, _, _ => by unfold normalizeF; rfl
  | .cons n q d r t, es, h => by
    have ih := normalizeF_id t es (fun name req dflt r' hh => h name req dflt r' (Or.inr hh))
    have h0 := h n q d r (Or.inl ⟨rfl, rfl, rfl, rfl⟩)
    unfold normalizeF
    cases hg : Dict.get? es n with
    | none => exact ih
    | some v => simp only [h0 v hg, set_same hg, ih]

theorem filled_fixed {dflt : Option Doc} {r : Rule} (hf : ∀ v, dflt = some v → normalize r v = v ∧ (v = .null → r.nullable = true)) (x : Option Doc) :
    filled dflt r ((filled dflt r x).map (normalize r)) = (filled dflt r x).map (normalize r) := by
  cases dflt with
  | none => rfl
  | some v =>
    obtain ⟨h1, h2⟩ := hf v rfl
    have key : ∀ y : Doc, (y = .null → r.nullable = true) → filled (some v) r (some (normalize r y)) = some (normalize r y) := by
      intro y hy
      unfold filled
      simp only
      cases hn : normalize r y with
      | null =>
        have := hy (normalize_eq_null hn)
        simp [this]
      | _ => rfl
    cases x with
    | none =>
      have : filled (some v) r none = some v := rfl
      rw [this, Option.map_some]
      exact key v h2
    | some y =>
      by_cases hy : y = .null
      · subst hy
        by_cases hr : r.nullable = true
        · have : filled (some v) r (some .null) = some .null := by unfold filled; simp [hr]
          rw [this, Option.map_some]
          exact key .null (fun _ => hr)
        · have : filled (some v) r (some .null) = some v := by unfold filled; simp [hr]
          rw [this, Option.map_some]
          exact key v h2
      · have : filled (some v) r (some y) = some y := by
          unfold filled
          cases y <;> simp_all
        rw [this, Option.map_some]
        exact key y (fun e => absurd e hy)

mutual

theorem normalize_twice : ∀ (r : Rule) (_ : r.Fine) (d : Doc), normalize r (normalize r d) = normalize r d
  | .leaf _ _ _, _, d => by unfold normalize; rfl
  | .pair _ _, _, d => by unfold normalize; rfl
  | .oneOf _ _, _, d => by unfold normalize; rfl
  | .listOf _ _ r, hf, d => by
    have ih := normalize_twice r hf
    cases d <;> simp [normalize, ih]
  | .values r, hf, d => by
    have ih := normalize_twice r hf
    cases d <;> simp [normalize, ih]
  | .record n fs, hf, d => by
    have ih := normalizeF_twice fs hf.2
    cases d with
    | dict es =>
      simp only [normalize, Doc.dict.injEq]
      have hg : ∀ name req dflt r, fs.Has name req dflt r →
          Dict.get? (normalizeF fs (fill fs es)) name = (filled dflt r (Dict.get? es name)).map (normalize r) :=
        fun name req dflt r h => normalize_field hf.1 es h
      rw [fill_id]
      · apply normalizeF_id
        intro name req dflt r h v hv
        rw [hg name req dflt r h] at hv
        cases hx : filled dflt r (Dict.get? es name) with
        | none => rw [hx] at hv; cases hv
        | some x =>
          rw [hx, Option.map_some, Option.some.injEq] at hv
          rw [← hv]
          exact ih name req dflt r h x
      · intro name req dflt r h
        rw [hg name req dflt r h]
        exact filled_fixed (hf.2.has h).1 _
    | _ => simp only [normalize]

theorem normalizeF_twice : ∀ (fs : Fields) (_ : fs.Fine) (name : String) (req : Bool) (dflt : Option Doc) (r : Rule), fs.Has name req dflt r →
    ∀ x, normalize r (normalize r x) = normalize r x
  | .cons n q d r t, hf, name, req, dflt, rule, h => by
    have ih := normalize_twice r hf.2.1
    have iht := normalizeF_twice t hf.2.2 name req dflt rule
    rcases h with ⟨-, -, -, rfl⟩ | h
    · exact ih
    · exact iht h

end

/-! ### Rules along a path -/

/-- The field with a name. -/
def Fields.find : Fields → String → Option (Bool × Option Doc × Rule)
  | .nil, _ => none
  | .cons n q d r t, k => if n = k then some (q, d, r) else t.find k

theorem Fields.find_has : ∀ {fs : Fields} {k : String} {q : Bool} {d : Option Doc} {r : Rule}, fs.find k = some (q, d, r) → fs.Has k q d r
  | .cons n q' d' r' t, k, q, d, r, h => by
    unfold Fields.find at h
    by_cases hk : n = k
    · rw [if_pos hk] at h
      simp only [Option.some.injEq, Prod.mk.injEq] at h
      exact Or.inl ⟨hk, h.1, h.2.1, h.2.2⟩
    · rw [if_neg hk] at h
      exact Or.inr (Fields.find_has h)

/-- The rule that a schema gives for a path. -/
def Rule.at : Rule → List Step → Option Rule
  | r, [] => some r
  | .listOf _ _ r, .idx _ :: p => r.at p
  | .values r, .key _ :: p => r.at p
  | .record _ fs, .key k :: p =>
    match fs.find k with
    | none => none
    | some f => f.2.2.at p
  | _, _ => none

theorem accepts_at (p : List Step) : ∀ (r : Rule) (_ : r.Fine) (d : Doc), accepts r (normalize r d) = true → ∀ v r', d.at p = some v → r.at p = some r' → v ≠ .null →
    r'.Fine ∧ accepts r' (normalize r' v) = true := by
  induction p with
  | nil =>
    intro r hf d h v r' hv hr _
    simp only [Doc.at, Option.some.injEq] at hv
    have hr' : r = r' := by cases r <;> simpa [Rule.at] using hr
    subst hv hr'
    exact ⟨hf, h⟩
  | cons s p ih =>
    intro r hf d h v r' hv hr hn
    cases s with
    | key k =>
      cases d with
      | dict es =>
        simp only [Doc.at] at hv
        cases hg : Dict.get? es k with
        | none => rw [hg] at hv; cases hv
        | some x =>
          rw [hg] at hv
          simp only at hv
          have hx : x ≠ .null := by
            rintro rfl
            cases p with
            | nil =>
              simp only [Doc.at, Option.some.injEq] at hv
              exact hn hv.symm
            | cons s p => cases s <;> simp [Doc.at] at hv
          cases r with
          | values r0 =>
            simp only [Rule.at] at hr
            simp only [normalize, accepts] at h
            refine ih r0 hf x ?_ v r' hv hr hn
            rw [List.all_eq_true] at h
            have hm := Dict.mem_of_get? hg
            exact h (k, normalize r0 x) (List.mem_map.2 ⟨(k, x), hm, rfl⟩)
          | record n fs =>
            simp only [Rule.at] at hr
            cases hfd : fs.find k with
            | none => rw [hfd] at hr; cases hr
            | some f =>
              obtain ⟨q, dflt, r0⟩ := f
              rw [hfd] at hr
              simp only at hr
              have hh := Fields.find_has hfd
              simp only [normalize, accepts, Bool.and_eq_true] at h
              refine ih r0 (hf.2.has hh).2 x ?_ v r' hv hr hn
              refine acceptsF_val h.2 hh ?_
              rw [normalize_field hf.1 es hh, hg]
              have : filled dflt r0 (some x) = some x := by
                unfold filled
                cases dflt with
                | none => rfl
                | some v => cases x <;> simp_all
              rw [this]
              rfl
          | _ => simp [Rule.at] at hr
      | _ => simp [Doc.at] at hv
    | idx i =>
      cases d with
      | list l =>
        simp only [Doc.at] at hv
        cases hg : l[i]? with
        | none => rw [hg] at hv; cases hv
        | some x =>
          rw [hg] at hv
          simp only at hv
          cases r with
          | listOf n len r0 =>
            simp only [Rule.at] at hr
            simp only [normalize, accepts, Bool.and_eq_true, List.all_eq_true] at h
            refine ih r0 hf x ?_ v r' hv hr hn
            exact h.2 _ (List.mem_map.2 ⟨x, List.mem_of_getElem? hg, rfl⟩)
          | _ => simp [Rule.at] at hr
      | _ => simp [Doc.at] at hv

end Verif.Files
