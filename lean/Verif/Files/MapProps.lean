import Verif.Files.Props

/-! C124 (mapping files mean what is written), C125 (layers are read as written). -/

namespace Verif.Files

/-- A field of a completed entry: what is written, else the default. -/
theorem added_field {α : Type} {fs : Fields} (hn : fs.names.Nodup) {es : List (String × Doc)} {name : String} {req : Bool} {dflt : Option Doc} {r : Rule}
    (hh : fs.Has name req dflt r) {f : Doc → Option α} {y : α} (h : (Doc.dict (addDefaults fs es)).field name f = some y) :
    f ((Dict.get? es name).getD (getDefault dflt r)) = some y := by
  obtain ⟨v, h1, h2⟩ := field_iff.1 h
  cases hg : Dict.get? es name with
  | none =>
    rw [addDefaults_get fs hn es hh hg] at h1
    cases h1
    simpa using h2
  | some x =>
    rw [addDefaults_keeps fs es name x hg] at h1
    cases h1
    simpa using h2

theorem normalizeList_iff {fs : Fields} {d : Doc} {ls : List (List (String × Doc))} :
    normalizeList fs d = some ls ↔ ∃ es : List (List (String × Doc)), d = .list (es.map .dict) ∧ ls = es.map (addDefaults fs) := by
  unfold normalizeList
  cases d with
  | list l =>
    simp only [mapM_iff, Doc.list.injEq]
    constructor
    · intro h
      induction h with
      | nil => exact ⟨[], rfl, rfl⟩
      | @cons a b l ls h1 _ ih =>
        obtain ⟨es, rfl, rfl⟩ := ih
        cases a <;> simp only [entryDefaults, reduceCtorEq, Option.some.injEq] at h1
        rename_i e
        exact ⟨e :: es, rfl, by rw [List.map_cons, h1]⟩
    · rintro ⟨es, rfl, rfl⟩
      induction es with
      | nil => exact .nil
      | cons e t ih => exact .cons rfl ih
  | _ => simp

/-! ### Mappings -/

theorem map_names : mapFields.names.Nodup := by decide +kernel

/-- Texts of lists. -/
def textList (l : List String) : Doc := .list (l.map .str)

/-- Texts of the unrollings per array dimension. -/
def flowDoc (l : List (String × List String)) : Doc := .dict (l.map (fun e => (e.1, textList e.2)))

/-- What an entry of a mapping file says. -/
structure MapSays (es : List (String × Doc)) (m : MapR) : Prop where
  name : (Dict.get? es "name").getD (.str "") = .str m.name
  spatial : (Dict.get? es "spatial_mapping").getD .null = (match m.spatial with | none => .null | some l => flowDoc l)
  links : (Dict.get? es "memory_operand_links").getD (.dict [("O", .str "O"), ("I", .str "I1"), ("W", .str "I2")]) = .dict (m.links.map (fun e => (e.1, .str e.2)))
  hint : (Dict.get? es "spatial_mapping_hint").getD (.dict []) = flowDoc m.hint
  order : ∃ l, (Dict.get? es "temporal_ordering").getD (.list []) = .list l ∧
    List.Forall₂ (fun d e => ∃ v, d = .list [.str e.1, v] ∧ ((∃ i, v = .int i ∧ e.2 = some i) ∨ (∃ s, v = .str s ∧ e.2 = none))) l m.order

theorem flows_doc {d : Doc} {l : List (String × List String)} (h : d.table (Doc.list? Doc.str?) = some l) : d = flowDoc l := by
  obtain ⟨es, rfl, hf⟩ := table_iff.1 h
  unfold flowDoc textList
  rw [forall2_eq_map (g := fun e : String × List String => (e.1, Doc.list (e.2.map .str))) (forall2_imp (S := fun a e => a = (e.1, Doc.list (e.2.map .str)))
    (fun a b hab => by rw [hab.1, ← strs_iff.1 hab.2]) hf)]

theorem strs_doc {d : Doc} {l : List (String × String)} (h : d.table Doc.str? = some l) : d = .dict (l.map (fun e => (e.1, .str e.2))) := by
  obtain ⟨es, rfl, hf⟩ := table_iff.1 h
  rw [forall2_eq_map (g := fun e : String × String => (e.1, Doc.str e.2)) (forall2_imp (S := fun a e => a = (e.1, Doc.str e.2))
    (fun a b hab => by rw [hab.1, ← str?_iff.1 hab.2]) hf)]

theorem ints_doc {d : Doc} {l : List (String × Int)} (h : d.table Doc.int? = some l) : d = .dict (l.map (fun e => (e.1, .int e.2))) := by
  obtain ⟨es, rfl, hf⟩ := table_iff.1 h
  rw [forall2_eq_map (g := fun e : String × Int => (e.1, Doc.int e.2)) (forall2_imp (S := fun a e => a = (e.1, Doc.int e.2))
    (fun a b hab => by rw [hab.1, ← int?_iff.1 hab.2]) hf)]

theorem orNull_iff {α : Type} {f : Doc → Option α} {d : Doc} {y : Option α} (h : d.orNull f = some y) : (d = .null ∧ y = none) ∨ (∃ z, y = some z ∧ f d = some z) := by
  by_cases hd : d = .null
  · subst hd
    simp only [Doc.orNull, Option.some.injEq] at h
    exact Or.inl ⟨rfl, h.symm⟩
  · right
    have : d.orNull f = (f d).map some := by cases d <;> first | exact absurd rfl hd | rfl
    rw [this] at h
    obtain ⟨z, h1, h2⟩ := Option.map_eq_some_iff.1 h
    exact ⟨z, h2.symm, h1⟩

theorem map_says {es : List (String × Doc)} {m : MapR} (h : readMap (.dict (addDefaults mapFields es)) = some m) : MapSays es m := by
  unfold readMap at h
  simp only [bind, Option.bind_eq_some_iff, pure, Option.some.injEq] at h
  obtain ⟨x1, h1, x2, h2, x3, h3, x4, h4, x5, h5, rfl⟩ := h
  have a1 := added_field map_names (name := "name") (req := true) (dflt := none) (r := tStr) (by simp [Fields.Has, mapFields]) h1
  have a2 := added_field map_names (name := "spatial_mapping") (req := false) (dflt := none) (r := perDim true (lineEnd itemCore)) (by simp [Fields.Has, mapFields]) h2
  have a3 := added_field map_names (name := "memory_operand_links") (req := false) (dflt := some defaultLinks)
    (r := .record false (.cons "O" true none tStr <| .cons "W" true none tStr <| .cons "I" true none tStr .nil)) (by simp [Fields.Has, mapFields]) h3
  have a4 := added_field map_names (name := "spatial_mapping_hint") (req := false) (dflt := none) (r := perDim false (lineEnd hintCore)) (by simp [Fields.Has, mapFields]) h4
  have a5 := added_field map_names (name := "temporal_ordering") (req := false) (dflt := none)
    (r := .listOf false anyLen (.pair tStr (.oneOf tInt (.leaf .string false (among ["*"]))))) (by simp [Fields.Has, mapFields]) h5
  simp only [getDefault, perDim, Rule.nullable, tStr, Rule.ty, typeDefault, if_true, Bool.false_eq_true, if_false] at a1 a2 a3 a4 a5
  refine ⟨str?_iff.1 a1, ?_, strs_doc a3, flows_doc a4, ?_⟩
  · rcases orNull_iff a2 with ⟨h, rfl⟩ | ⟨z, rfl, hz⟩
    · exact h
    · exact flows_doc hz
  · obtain ⟨l, hl, hf⟩ := list?_iff.1 a5
    refine ⟨l, hl, forall2_imp ?_ hf⟩
    intro d e he
    unfold orderItem at he
    split at he
    · cases he
      exact ⟨_, rfl, Or.inl ⟨_, rfl, rfl⟩⟩
    · cases he
      exact ⟨_, rfl, Or.inr ⟨_, rfl, rfl⟩⟩
    · cases he

/-- C124: a mapping file is handed on exactly when it is a list of mappings whose completed entries follow the schema and one of which has the name `default`. -/
theorem mapping_ok_iff (d : Doc) : (∃ ms, parseMapping d = .ok ms) ↔ ∃ es : List (List (String × Doc)), d = .list (es.map .dict) ∧
    (∀ e ∈ es, accepts (.record false mapFields) (.dict (addDefaults mapFields e)) = true) ∧ ∃ e ∈ es, Dict.get? e "name" = some (.str "default") := by
  have hname : ∀ {es : List (String × Doc)} {m : MapR}, MapSays es m → (m.name = "default" ↔ Dict.get? es "name" = some (.str "default")) := by
    intro es m hs
    have := hs.name
    cases hg : Dict.get? es "name" with
    | none =>
      rw [hg] at this
      simp only [Option.getD_none, Doc.str.injEq] at this
      simp [← this]
    | some v =>
      rw [hg] at this
      simp only [Option.getD_some] at this
      simp [this]
  unfold parseMapping
  constructor
  · rintro ⟨ms, h⟩
    cases hl : normalizeList mapFields d with
    | none => rw [hl] at h; cases h
    | some ls =>
      rw [hl] at h
      simp only at h
      obtain ⟨es, rfl, rfl⟩ := normalizeList_iff.1 hl
      split_ifs at h with ha
      refine ⟨es, rfl, ?_, ?_⟩
      · intro e he
        exact List.all_eq_true.1 ha _ (List.mem_map.2 ⟨e, he, rfl⟩)
      · split at h
        · cases h
        · rename_i ms' hm
          split_ifs at h with hd
          obtain ⟨m, hm1, hm2⟩ := List.mem_map.1 hd
          rw [mapM_iff, List.forall₂_map_left_iff] at hm
          obtain ⟨e, he, hr⟩ := forall2_right hm m hm1
          exact ⟨e, he, (hname (map_says hr)).1 hm2⟩
  · rintro ⟨es, rfl, ha, e, he, hd⟩
    rw [normalizeList_iff.2 ⟨es, rfl, rfl⟩]
    simp only
    rw [if_pos (List.all_eq_true.2 (by
      intro x hx
      obtain ⟨e, he, rfl⟩ := List.mem_map.1 hx
      exact ha e he))]
    obtain ⟨ms, hm, -, -⟩ := mapM_reads (f := fun es => readMap (.dict es)) (P := fun _ => True) (es.map (addDefaults mapFields)) (by
      intro x hx
      obtain ⟨e, he, rfl⟩ := List.mem_map.1 hx
      obtain ⟨m, hm, -⟩ := map_reads e (ha e he)
      exact ⟨m, hm, trivial⟩)
    rw [hm]
    simp only
    have hf := hm
    rw [mapM_iff, List.forall₂_map_left_iff] at hf
    obtain ⟨m, hmm, hr⟩ := forall2_left hf e he
    rw [if_pos (List.mem_map.2 ⟨m, hmm, (hname (map_says hr)).2 hd⟩)]
    exact ⟨ms, rfl⟩

/-- C124: the entries that are handed on say what is written; entries that are missing have no spatial mapping, no hint, no ordering and the standard links. -/
theorem mapping_as_written (d : Doc) (ms : List MapR) (h : parseMapping d = .ok ms) : ∃ es : List (List (String × Doc)), d = .list (es.map .dict) ∧ List.Forall₂ MapSays es ms ∧ ∀ m ∈ ms, MapOk m := by
  unfold parseMapping at h
  cases hl : normalizeList mapFields d with
  | none => rw [hl] at h; cases h
  | some ls =>
    rw [hl] at h
    simp only at h
    obtain ⟨es, rfl, rfl⟩ := normalizeList_iff.1 hl
    split_ifs at h with ha
    split at h
    · cases h
    · rename_i ms' hm
      split_ifs at h with hd
      cases h
      rw [mapM_iff, List.forall₂_map_left_iff] at hm
      refine ⟨es, rfl, forall2_imp (fun _ _ => map_says) hm, ?_⟩
      intro m hmm
      obtain ⟨e, he, hr⟩ := forall2_right hm m hmm
      obtain ⟨m', h1, h2⟩ := map_reads e (List.all_eq_true.1 ha _ (List.mem_map.2 ⟨e, he, rfl⟩))
      rw [h1] at hr
      cases hr
      exact h2

theorem hintOf_total {p : List Char → Bool} {l : List (String × List String)} (h : FlowsOk p l) : ∃ r, hintOf l = .ok r := by
  have : ∃ ps, mapE hintEntry l = .ok ps := by
    rw [mapE_total]
    intro e he
    exact ⟨_, by unfold hintEntry; rw [oaDim_ok (h e he).1]⟩
  obtain ⟨ps, hps⟩ := this
  exact ⟨_, by unfold hintOf; rw [hps]⟩

/-- C124: the attributes of a layer are built from an accepted entry exactly when no memory operand is linked twice (keys of mappings are different). -/
theorem attributes_iff (m : MapR) (hm : MapOk m) (hk : (m.links.map Prod.fst).Nodup) : (∃ a, mapAttr m = .ok a) ↔ (m.links.map Prod.snd).Nodup := by
  have hl : linksOf m.links = Links.mk m.links := by unfold linksOf; rw [foldl_written _ hk]
  rw [← Links.links_ok_iff m.links, ← hl]
  unfold mapAttr
  have hs : ∃ r, (match m.spatial with | none => .ok [] | some l => spatialOf l : Except PyErr (Dict String (Dict String Nat))) = .ok r := by
    cases hsp : m.spatial with
    | none => exact ⟨_, rfl⟩
    | some l => exact spatialOf_total (fun t ht => Or.inl ht) (hm.1 l hsp)
  obtain ⟨hint, hh⟩ := hintOf_total hm.2.2
  obtain ⟨r, hr⟩ := hs
  split
  · rename_i e he
    cases hsp : m.spatial with
    | none => rw [hsp] at he; cases he
    | some l =>
      rw [hsp] at he hr
      simp only at he hr
      rw [he] at hr
      cases hr
  · rw [hh]
    simp only
    cases linksOf m.links with
    | error e => simp
    | ok t => simp

theorem toNat_text (n : Nat) : (toString n).toList = Nat.toDigits 10 n := by
  show (String.ofList (Nat.toDigits 10 n)).toList = _
  exact String.toList_ofList

theorem parseItem_written {name : String} (hn : DimName name.toList) (n : Nat) : parseItem (name ++ ", " ++ toString n) = .ok (name, n) := by
  have := parseItem_text (name := name.toList) (ds := Nat.toDigits 10 n) (tail := []) hn Nat.toDigits_ne_nil
    (fun c hc => Nat.isDigit_of_mem_toDigits (b := 10) (by decide) (by decide) hc) (Or.inl rfl) (s := name ++ ", " ++ toString n) (by
      rw [String.toList_append, String.toList_append, toNat_text]
      simp)
  rw [this, String.ofList_toList, Nat.ofDigitChars_toDigits (by decide) (by decide)]

/-- Texts of unrollings. -/
def unrollText (e : String × Nat) : String := e.1 ++ ", " ++ toString e.2

theorem singleDim_written (l : List (String × Nat)) (hn : ∀ e ∈ l, DimName e.1.toList) : singleDim (l.map unrollText) = .ok (l.foldl (fun d e => Dict.set d e.1 e.2) []) := by
  have : mapE parseItem (l.map unrollText) = .ok l := by
    rw [mapE_iff, List.forall₂_map_left_iff]
    induction l with
    | nil => exact .nil
    | cons e t ih => exact .cons (parseItem_written (hn e (by simp)) e.2) (ih (fun x hx => hn x (by simp [hx])))
  unfold singleDim
  rw [this]

/-- C124, partial (with `repeated_dimension_false`): unrollings are understood as written when no loop dimension is named twice on one array dimension. -/
theorem unrollings_partial (l : List (String × List (String × Nat))) (hk : (l.map Prod.fst).Nodup) (ho : ∀ e ∈ l, dimText e.1.toList = true)
    (hn : ∀ e ∈ l, (∀ x ∈ e.2, DimName x.1.toList) ∧ (e.2.map Prod.fst).Nodup) : spatialOf (l.map (fun e => (e.1, e.2.map unrollText))) = .ok l := by
  have : mapE spatialEntry (l.map (fun e => (e.1, e.2.map unrollText))) = .ok l := by
    rw [mapE_iff, List.forall₂_map_left_iff]
    clear hk
    induction l with
    | nil => exact .nil
    | cons e t ih =>
      refine .cons ?_ (ih (fun x hx => ho x (by simp [hx])) (fun x hx => hn x (by simp [hx])))
      have he := hn e (by simp)
      unfold spatialEntry
      rw [oaDim_ok (ho e (by simp))]
      simp only [singleDim_written e.2 he.1, foldl_written e.2 he.2]
  unfold spatialOf
  rw [this]
  simp only [foldl_written l hk]

example : spatialOf [("D1", ["K, 4", "OX, 16"]), ("D2", ["C1, 8"])] = .ok [("D1", [("K", 4), ("OX", 16)]), ("D2", [("C1", 8)])] := by
  refine unrollings_partial [("D1", [("K", 4), ("OX", 16)]), ("D2", [("C1", 8)])] (by decide +kernel) (by decide +kernel) ?_
  intro e he
  simp only [List.mem_cons, List.not_mem_nil, or_false] at he
  rcases he with rfl | rfl
  · refine ⟨?_, by decide +kernel⟩
    intro x hx
    simp only [List.mem_cons, List.not_mem_nil, or_false] at hx
    rcases hx with rfl | rfl
    · exact ⟨['K'], [], by decide +kernel, by simp, by decide +kernel, by simp⟩
    · exact ⟨['O', 'X'], [], by decide +kernel, by simp, by decide +kernel, by simp⟩
  · refine ⟨?_, by decide +kernel⟩
    intro x hx
    simp only [List.mem_cons, List.not_mem_nil, or_false] at hx
    subst hx
    exact ⟨['C'], ['1'], by decide +kernel, by simp, by decide +kernel, by decide +kernel⟩

theorem table_flowDoc (l : List (String × List String)) : (flowDoc l).table (Doc.list? Doc.str?) = some l := by
  rw [table_iff]
  refine ⟨_, rfl, ?_⟩
  rw [List.forall₂_map_left_iff]
  induction l with
  | nil => exact .nil
  | cons e t ih => exact .cons ⟨rfl, strs_iff.2 rfl⟩ ih

/-- C123: the preferred unrollings of the accelerator are those of the file. -/
theorem dataflows_as_written (cacti : String → String → Int → Int → Except PyErr (ℚ × ℚ × ℚ)) (imc : AccR → Except PyErr Unit) (d : Doc) (acc : Acc)
    (h : parseAcc cacti imc d = .ok acc) : (d.at [.key "dataflows"] = none → acc.flows = none) ∧
      ∀ l : List (String × List (String × Nat)), d.at [.key "dataflows"] = some (flowDoc (l.map (fun e => (e.1, e.2.map unrollText)))) → (l.map Prod.fst).Nodup →
        (∀ e ∈ l, (∀ x ∈ e.2, DimName x.1.toList) ∧ (e.2.map Prod.fst).Nodup) → acc.flows = some l := by
  obtain ⟨ha, a, hr, hc, hb⟩ := (parseAcc_iff cacti imc d acc).1 h
  obtain ⟨a', hr', hok⟩ := acc_reads d ha
  rw [hr] at hr'
  cases hr'
  obtain ⟨-, -, -, s4⟩ := acc_says hr
  have hfl : flowsOf a.flows = .ok acc.flows := by
    unfold buildAcc at hb
    split at hb
    · cases hb
    · split at hb
      · cases hb
      · split at hb
        · cases hb
        · split at hb
          · cases hb
          · rename_i fl hfl
            split at hb
            · cases hb
            · simp only [Except.ok.injEq] at hb
              rw [hfl, ← hb]
  constructor
  · intro hd
    rw [hd] at s4
    rw [← s4] at hfl
    simp only [flowsOf, Option.bind_none, Except.ok.injEq] at hfl
    exact hfl.symm
  · intro l hd hk hn
    rw [hd, Option.bind_some, table_flowDoc] at s4
    have hfo := hok.2.2 _ s4.symm
    rw [← s4] at hfl
    simp only [flowsOf] at hfl
    rw [unrollings_partial l hk (fun e he => (hfo (e.1, e.2.map unrollText) (List.mem_map.2 ⟨e, he, rfl⟩)).1) hn] at hfl
    simp only [Except.ok.injEq] at hfl
    exact hfl.symm

theorem upper_dim {s : String} (h : DimName s.toList) : String.ofList (Equation.upper s.toList) = s := by
  rw [upper_id h.chars, String.ofList_toList]

/-- C124: the attributes that are built say what the entry says: no spatial mapping, or the unrollings of `unrollings_partial`; the links; the dimensions of the hint, each
once; the ordering. -/
theorem attributes_as_written (m : MapR) (a : MapAttr) (h : mapAttr m = .ok a) (hm : MapOk m) :
    (m.spatial = none → a.spatial = []) ∧ (∀ l, m.spatial = some l → spatialOf l = .ok a.spatial) ∧
    ((m.links.map Prod.fst).Nodup → a.links.data = m.links) ∧
    ((m.hint.map Prod.fst).Nodup → (∀ e ∈ m.hint, ∀ s ∈ e.2, DimName s.toList) → a.hint = m.hint.map (fun e => (e.1, e.2.dedup))) ∧
    ((∀ e ∈ m.order, DimName e.1.toList) → a.order = m.order) := by
  unfold mapAttr at h
  split at h
  · cases h
  · rename_i sp hsp
    split at h
    · cases h
    · rename_i hint hh
      split at h
      · cases h
      · rename_i links hl
        cases h
        refine ⟨?_, ?_, ?_, ?_, ?_⟩
        · intro e
          rw [e] at hsp
          cases hsp
          rfl
        · intro l e
          rw [e] at hsp
          exact hsp
        · intro hk
          unfold linksOf Links.mk at hl
          rw [foldl_written _ hk] at hl
          split_ifs at hl
          cases hl
          rfl
        · intro hk hd
          have : mapE hintEntry m.hint = .ok (m.hint.map (fun e => (e.1, e.2.dedup))) := by
            rw [mapE_iff, List.forall₂_map_right_iff]
            have ho := hm.2.2
            clear hh hk
            generalize m.hint = l at hd ho ⊢
            clear * - hd ho
            induction l with
            | nil => exact .nil
            | cons e t ih =>
              refine .cons ?_ (ih (fun x hx => hd x (by simp [hx])) (fun x hx => ho x (by simp [hx])))
              unfold hintEntry
              rw [oaDim_ok (ho e (by simp)).1]
              simp only [Except.ok.injEq, Prod.mk.injEq, true_and]
              congr 1
              conv_rhs => rw [← List.map_id e.2]
              exact List.map_congr_left (fun s hs => upper_dim (hd e (by simp) s hs))
          unfold hintOf at hh
          rw [this] at hh
          simp only [Except.ok.injEq] at hh
          rw [← hh, foldl_written]
          simpa [List.map_map, Function.comp_def] using hk
        · intro hd
          conv_rhs => rw [← List.map_id m.order]
          exact List.map_congr_left (fun e he => by rw [upper_dim (hd e he)]; rfl)

/-- A mapping file with one entry. -/
def sampleMap (sp : List Doc) (links : List (String × Doc)) : Doc :=
  .list [.dict [("name", .str "default"), ("spatial_mapping", .dict [("D1", .list sp)]), ("memory_operand_links", .dict links)]]

def okLinks : List (String × Doc) := [("O", .str "O"), ("W", .str "I2"), ("I", .str "I1")]

def mapRes (d : Doc) : Option (List (Dict String (Dict String Nat))) :=
  match parseMapping d with
  | .error _ => none
  | .ok ms => ms.mapM (fun m => match mapAttr m with | .ok a => some a.spatial | .error _ => none)

example : mapRes (sampleMap [.str "K, 4", .str "C, 8"] okLinks) = some [[("D1", [("K", 4), ("C", 8)])]] := by decide +kernel

/-- C124 is false: when a loop dimension is named twice on one array dimension, the file is accepted and the first unrolling is dropped without a message (of `K, 4` and
`K, 8` only `K, 8` is left, neither both nor their product). -/
theorem repeated_dimension_false : mapRes (sampleMap [.str "K, 4", .str "K, 8"] okLinks) = some [[("D1", [("K", 8)])]] := by decide +kernel

/-- C124 is false: a file that links two layer operands to the same memory operand is accepted, and building the attributes raises. -/
theorem double_link_false : (match parseMapping (sampleMap [.str "K, 4"] [("O", .str "O"), ("W", .str "I1"), ("I", .str "I1")]) with
    | .ok [m] => (match mapAttr m with | .ok _ => false | .error e => decide (e = .assertion))
    | _ => false) = true := by decide +kernel

/-! ### Layers -/

/-- What an entry of a workload file says. -/
structure LayerSays (rel : List Char → Option LayerBuild.RelD) (es : List (String × Doc)) (y : Option String × String × LayerBuild.LayerD) : Prop where
  id : (Dict.get? es "id").getD (.int 0) = .int y.2.2.id
  name : (Dict.get? es "name").getD .null = (match y.1 with | none => .null | some s => .str s)
  operator : (Dict.get? es "operator_type").getD (.str "") = .str y.2.1
  equation : (Dict.get? es "equation").getD (.str "") = .str (String.ofList y.2.2.equation)
  relations : ∃ ts : List String, (Dict.get? es "dimension_relations").getD (.list []) = .list (ts.map .str) ∧ List.Forall₂ (fun t r => rel t.toList = some r) ts y.2.2.relations
  loopDims : (Dict.get? es "loop_dims").getD (.list []) = .list (y.2.2.loopDims.map (fun t => .str (String.ofList t)))
  loopSizes : (Dict.get? es "loop_sizes").getD (.list []) = .list (y.2.2.loopSizes.map .int)
  precision : (Dict.get? es "operand_precision").getD (.dict []) = .dict (y.2.2.precision.map (fun e => (String.ofList e.1, .int e.2)))
  sources : (Dict.get? es "operand_source").getD (.dict []) = .dict (y.2.2.sources.map (fun e => (String.ofList e.1, .int e.2)))
  prDims : (Dict.get? es "pr_loop_dims").getD .null = (match y.2.2.prDims with | none => .null | some l => .list (l.map (fun t => .str (String.ofList t))))
  prSizes : (Dict.get? es "pr_loop_sizes").getD .null = (match y.2.2.prSizes with | none => .null | some l => .list (l.map .int))
  padding : (Dict.get? es "padding").getD .null = (match y.2.2.padding with | none => .null | some l => .list (l.map (fun p => .list [.int p.1, .int p.2])))

theorem layer_says (eqn : List Char → Bool) (rel : List Char → Option LayerBuild.RelD) {es : List (String × Doc)} {y : Option String × String × LayerBuild.LayerD}
    (h : readLayer rel (.dict (addDefaults (layerFields eqn (fun t => (rel t).isSome)) es)) = some y) : LayerSays rel es y := by
  unfold readLayer at h
  obtain ⟨x1, h1, h⟩ := Option.bind_eq_some_iff.1 h
  obtain ⟨x2, h2, h⟩ := Option.bind_eq_some_iff.1 h
  obtain ⟨x3, h3, h⟩ := Option.bind_eq_some_iff.1 h
  obtain ⟨x4, h4, h⟩ := Option.bind_eq_some_iff.1 h
  obtain ⟨x5, h5, h⟩ := Option.bind_eq_some_iff.1 h
  obtain ⟨x6, h6, h⟩ := Option.bind_eq_some_iff.1 h
  obtain ⟨x7, h7, h⟩ := Option.bind_eq_some_iff.1 h
  obtain ⟨x8, h8, h⟩ := Option.bind_eq_some_iff.1 h
  obtain ⟨x9, h9, h⟩ := Option.bind_eq_some_iff.1 h
  obtain ⟨x10, h10, h⟩ := Option.bind_eq_some_iff.1 h
  obtain ⟨x11, h11, h⟩ := Option.bind_eq_some_iff.1 h
  obtain ⟨x12, h12, h⟩ := Option.bind_eq_some_iff.1 h
  cases h
  have hn := layer_names eqn (fun t => (rel t).isSome)
  have a1 := added_field hn (name := "id") (req := true) (dflt := none) (r := tInt) (by simp [Fields.Has, layerFields]) h1
  have a2 := added_field hn (name := "name") (req := false) (dflt := some .null) (r := .leaf .string true anyDoc) (by simp [Fields.Has, layerFields]) h2
  have a3 := added_field hn (name := "operator_type") (req := true) (dflt := none) (r := .leaf .string false (among operators)) (by simp [Fields.Has, layerFields]) h3
  have a4 := added_field hn (name := "equation") (req := true) (dflt := none) (r := tText eqn) (by simp [Fields.Has, layerFields]) h4
  have a5 := added_field hn (name := "dimension_relations") (req := false) (dflt := none) (r := texts (fun t => (rel t).isSome)) (by simp [Fields.Has, layerFields]) h5
  have a6 := added_field hn (name := "loop_dims") (req := true) (dflt := none) (r := .listOf false anyLen tStr) (by simp [Fields.Has, layerFields]) h6
  have a7 := added_field hn (name := "loop_sizes") (req := true) (dflt := none) (r := .listOf false anyLen tInt) (by simp [Fields.Has, layerFields]) h7
  have a8 := added_field hn (name := "operand_precision") (req := true) (dflt := none) (r := .record false (
    .cons "I" false none tInt <| .cons "W" false none tInt <| .cons "O" true none tInt <| .cons "O_final" true none tInt .nil)) (by simp [Fields.Has, layerFields]) h8
  have a9 := added_field hn (name := "operand_source") (req := false) (dflt := none) (r := .record false (.cons "W" false none tInt <| .cons "I" false none tInt .nil))
    (by simp [Fields.Has, layerFields]) h9
  have a10 := added_field hn (name := "pr_loop_dims") (req := false) (dflt := some .null) (r := .listOf true anyLen tStr) (by simp [Fields.Has, layerFields]) h10
  have a11 := added_field hn (name := "pr_loop_sizes") (req := false) (dflt := some .null) (r := .listOf true anyLen tInt) (by simp [Fields.Has, layerFields]) h11
  have a12 := added_field hn (name := "padding") (req := false) (dflt := some .null) (r := .listOf true anyLen (.listOf false two tInt)) (by simp [Fields.Has, layerFields]) h12
  have d1 : getDefault none tInt = .int 0 := rfl
  have d3 : getDefault none (.leaf .string false (among operators)) = .str "" := rfl
  have d4 : getDefault none (tText eqn) = .str "" := rfl
  have d5 : getDefault none (texts (fun t => (rel t).isSome)) = .list [] := rfl
  have d6 : getDefault none (.listOf false anyLen tStr) = .list [] := rfl
  have d7 : getDefault none (.listOf false anyLen tInt) = .list [] := rfl
  have d8 : ∀ fs, getDefault none (.record false fs) = .dict [] := fun _ => rfl
  have d2 : ∀ r, getDefault (some .null) r = .null := fun _ => rfl
  rw [d1] at a1
  rw [d2] at a2 a10 a11 a12
  rw [d3] at a3
  rw [d4] at a4
  rw [d5] at a5
  rw [d6] at a6
  rw [d7] at a7
  rw [d8] at a8 a9
  refine ⟨int?_iff.1 a1, ?_, str?_iff.1 a3, ?_, ?_, ?_, ints_iff.1 a7, ?_, ?_, ?_, ?_, ?_⟩
  · rcases orNull_iff a2 with ⟨hq, rfl⟩ | ⟨z, rfl, hz⟩
    · exact hq
    · exact str?_iff.1 hz
  · simpa using str?_iff.1 a4
  · obtain ⟨ds, hd, hf⟩ := list?_iff.1 a5
    have : ∃ ts : List String, ds = ts.map .str ∧ List.Forall₂ (fun t r => rel t.toList = some r) ts x5 := by
      clear * - hf
      induction hf with
      | nil => exact ⟨[], rfl, .nil⟩
      | @cons a b l ls h _ ih =>
        obtain ⟨ts, rfl, ht⟩ := ih
        obtain ⟨s, h1, h2⟩ := Option.bind_eq_some_iff.1 h
        exact ⟨s :: ts, by rw [str?_iff.1 h1]; rfl, .cons h2 ht⟩
    obtain ⟨ts, rfl, ht⟩ := this
    exact ⟨ts, hd, ht⟩
  · simpa [List.map_map, Function.comp_def] using strs_iff.1 a6
  · simpa [List.map_map, Function.comp_def] using ints_doc a8
  · simpa [List.map_map, Function.comp_def] using ints_doc a9
  · rcases orNull_iff a10 with ⟨hq, rfl⟩ | ⟨z, rfl, hz⟩
    · exact hq
    · simpa [List.map_map, Function.comp_def] using strs_iff.1 hz
  · rcases orNull_iff a11 with ⟨hq, rfl⟩ | ⟨z, rfl, hz⟩
    · exact hq
    · exact ints_iff.1 hz
  · rcases orNull_iff a12 with ⟨hq, rfl⟩ | ⟨z, rfl, hz⟩
    · exact hq
    · obtain ⟨ds, hd, hf⟩ := list?_iff.1 hz
      rw [hd, forall2_eq_map (g := fun p : Int × Int => Doc.list [.int p.1, .int p.2]) (forall2_imp (fun a b hab => ?_) hf)]
      unfold pairInt? at hab
      split at hab
      · cases hab
        rfl
      · cases hab

/-- C125: a workload file is handed on exactly when it is a list of mappings whose completed entries follow the schema and pass the check of the padding; in particular
every entry that follows the schema can be read. -/
theorem layers_ok_iff (eqn : List Char → Bool) (rel : List Char → Option LayerBuild.RelD) (d : Doc) (ls : List (Option String × String × LayerBuild.LayerD)) :
    parseLayers eqn rel d = .ok ls ↔ ∃ es : List (List (String × Doc)), d = .list (es.map .dict) ∧
      (∀ e ∈ es, accepts (.record false (layerFields eqn (fun t => (rel t).isSome))) (.dict (addDefaults (layerFields eqn (fun t => (rel t).isSome)) e)) = true) ∧
      List.Forall₂ (fun e y => readLayer rel (.dict (addDefaults (layerFields eqn (fun t => (rel t).isSome)) e)) = some y) es ls ∧
      ∀ y ∈ ls, LayerBuild.validate y.2.2 = .ok true := by
  unfold parseLayers
  constructor
  · intro h
    cases hl : normalizeList (layerFields eqn (fun t => (rel t).isSome)) d with
    | none => rw [hl] at h; cases h
    | some l =>
      rw [hl] at h
      simp only at h
      obtain ⟨es, rfl, rfl⟩ := normalizeList_iff.1 hl
      split_ifs at h with ha
      split at h
      · cases h
      · rename_i ls' hm
        split at h
        · cases h
        · rename_i bs hb
          split_ifs at h with hall
          cases h
          refine ⟨es, rfl, fun e he => List.all_eq_true.1 ha _ (List.mem_map.2 ⟨e, he, rfl⟩), ?_, ?_⟩
          · rw [mapM_iff, List.forall₂_map_left_iff] at hm
            exact hm
          · intro y hy
            obtain ⟨b, hb1, hb2⟩ := forall2_left (mapE_iff.1 hb) y hy
            have := List.all_eq_true.1 hall b hb1
            simp only [id] at this
            rw [hb2, this]
  · rintro ⟨es, rfl, ha, hr, hv⟩
    rw [normalizeList_iff.2 ⟨es, rfl, rfl⟩]
    simp only
    rw [if_pos (List.all_eq_true.2 (by
      intro x hx
      obtain ⟨e, he, rfl⟩ := List.mem_map.1 hx
      exact ha e he))]
    rw [show List.mapM (fun es => readLayer rel (Doc.dict es)) (es.map (addDefaults (layerFields eqn (fun t => (rel t).isSome)))) = some ls by
      rw [mapM_iff, List.forall₂_map_left_iff]
      exact hr]
    simp only
    have : mapE (fun e : Option String × String × LayerBuild.LayerD => LayerBuild.validate e.2.2) ls = .ok (ls.map (fun _ => true)) := by
      rw [mapE_iff, List.forall₂_map_right_iff]
      clear * - hv
      induction ls with
      | nil => exact .nil
      | cons y t ih => exact .cons (hv y (by simp)) (ih (fun x hx => hv x (by simp [hx])))
    rw [this]
    simp

/-- C125: entries that follow the schema can be read. -/
theorem layers_read (eqn : List Char → Bool) (rel : List Char → Option LayerBuild.RelD) (es : List (String × Doc))
    (h : accepts (.record false (layerFields eqn (fun t => (rel t).isSome))) (.dict (addDefaults (layerFields eqn (fun t => (rel t).isSome)) es)) = true) :
    ∃ y, readLayer rel (.dict (addDefaults (layerFields eqn (fun t => (rel t).isSome)) es)) = some y := layer_reads eqn rel es h

/-- C125: the layers that are handed on say what is written, in the order of the file. -/
theorem layers_as_written (eqn : List Char → Bool) (rel : List Char → Option LayerBuild.RelD) (d : Doc) (ls : List (Option String × String × LayerBuild.LayerD))
    (h : parseLayers eqn rel d = .ok ls) : ∃ es : List (List (String × Doc)), d = .list (es.map .dict) ∧ List.Forall₂ (LayerSays rel) es ls := by
  obtain ⟨es, hd, -, hr, -⟩ := (layers_ok_iff eqn rel d ls).1 h
  exact ⟨es, hd, forall2_imp (fun _ _ => layer_says eqn rel) hr⟩

end Verif.Files
