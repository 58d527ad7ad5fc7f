import Verif.Hierarchy.Lemmas
import Verif.Files.Written
import Verif.Links.Props

/-! C120 (missing entries are reported), C121 (accepted accelerator files can be built), C122 (completing a file keeps what is written),
C123 (accelerators are built as written), C124 (mapping files mean what is written), C125 (layers are read as written). -/

namespace Verif.Files

open Verif.Ports (Dir PType PortD MemD)

/-! ### The schemas -/

theorem port_fine : portRule.Fine := by
  refine ⟨by decide +kernel, ?_⟩
  simp [Fields.Fine, Rule.Fine, tText, tInt, texts]

theorem mem_fine : memRule.Fine := by
  refine ⟨by decide +kernel, ?_⟩
  have := port_fine
  simp [memFields, Fields.Fine, Rule.Fine, tText, tInt, tStr, tBool, tFloat, texts, normalize, Rule.nullable, this]

theorem array_fine : arrayRule.Fine := by
  refine ⟨by decide +kernel, ?_⟩
  simp [arrayFields, Fields.Fine, Rule.Fine, tText, tInt, tStr, tBool, tFloat, texts, normalize, Rule.nullable]

theorem acc_fine : accRule.Fine := by
  refine ⟨by decide +kernel, ?_⟩
  have h1 := mem_fine
  have h2 := array_fine
  have h3 : flowsRule.Fine := by
    refine ⟨by decide +kernel, ?_⟩
    simp [flowFields, Fields.Fine, Rule.Fine, tText, texts]
  simp [accFields, Fields.Fine, Rule.Fine, tStr, h1, h2, h3]

/-! ### C120 -/

/-- C120: wherever the accelerator schema expects a mapping with a required entry that has no default, an accepted file has this entry. -/
theorem required_reported (d : Doc) (h : accepts accRule (normalize accRule d) = true) (p : List Step) (n : Bool) (fs : Fields) (es : List (String × Doc))
    (hr : accRule.at p = some (.record n fs)) (hd : d.at p = some (.dict es)) (name : String) (r : Rule) (hn : fs.Has name true none r) :
    Dict.get? es name ≠ none := by
  obtain ⟨hf, ha⟩ := accepts_at p accRule acc_fine d h _ _ hd hr (by simp)
  intro hg
  simp only [normalize, accepts, Bool.and_eq_true] at ha
  have := (acceptsF_get fs _ ha.2 hn).1 (by rw [normalize_field hf.1 es hn, hg]; rfl)
  cases this

/-- The parts of a file to which this applies: the file itself, the array, every memory and every port. -/
theorem required_places (m : String) (i : Nat) : accRule.at [] = some (.record false accFields) ∧ accRule.at [.key "operational_array"] = some (.record false arrayFields) ∧
    accRule.at [.key "memories", .key m] = some (.record false memFields) ∧ accRule.at [.key "memories", .key m, .key "ports", .idx i] = some portRule ∧
    (∀ k ∈ ["name", "memories", "operational_array"], ∃ r, accFields.Has k true none r) ∧ (∀ k ∈ ["dimensions", "sizes"], ∃ r, arrayFields.Has k true none r) ∧
    (∀ k ∈ ["size", "latency", "operands", "ports", "served_dimensions"], ∃ r, memFields.Has k true none r) := by
  refine ⟨rfl, ?_, ?_, ?_, ?_, ?_, ?_⟩
  · simp [Rule.at, accRule, accFields, Fields.find, arrayRule]
  · simp [Rule.at, accRule, accFields, Fields.find, memRule]
  · simp [Rule.at, accRule, accFields, Fields.find, memRule, memFields]
  · simp [accFields, Fields.Has]
  · simp [arrayFields, Fields.Has]
  · simp [memFields, Fields.Has]

/-- A layer with all entries. -/
def sampleLayer : List (String × Doc) :=
  [("id", .int 3), ("operator_type", .str "Gemm"), ("equation", .str "O[k]+=W[k][c]*I[c]"), ("loop_dims", .list [.str "K", .str "C"]),
    ("loop_sizes", .list [.int 4, .int 8]), ("operand_precision", .dict [("W", .int 8), ("I", .int 8), ("O", .int 16), ("O_final", .int 8)]), ("operand_source", .dict [])]

/-- A layer without sizes and dimensions, and without a number. -/
def bareLayer : List (String × Doc) :=
  [("operator_type", .str "Gemm"), ("equation", .str "O[k]+=W[k][c]*I[c]"),
    ("operand_precision", .dict [("W", .int 8), ("I", .int 8), ("O", .int 16), ("O_final", .int 8)])]

example : (match parseLayers (fun t => !t.isEmpty) (fun _ => none) (.list [.dict sampleLayer]) with | .ok l => l.length | .error _ => 0) = 1 := by decide +kernel

/-- C120 is false for workloads: `id`, `loop_dims` and `loop_sizes` are marked as required, but a layer without any of them is accepted; it gets the number 0 and no
loops.  (`normalize_list` completes required entries with an empty value of their type before the file is checked.) -/
theorem missing_layer_entries_false : Dict.get? bareLayer "id" = none ∧ Dict.get? bareLayer "loop_dims" = none ∧ Dict.get? bareLayer "loop_sizes" = none ∧
    (match parseLayers (fun t => !t.isEmpty) (fun _ => none) (.list [.dict bareLayer]) with
      | .ok [(_, _, l)] => decide (l.id = 0 ∧ l.loopDims = [] ∧ l.loopSizes = [])
      | _ => false) = true := by
  decide +kernel

/-- C120 is false for mappings: an entry without a name is accepted; its name is the empty text. -/
theorem missing_mapping_name_false : ((match parseMapping (.list [.dict [("name", .str "default")], .dict []]) with
    | .ok [_, m] => decide (m.name = "")
    | _ => false) : Bool) = true := by
  decide +kernel

theorem addDefaults_get : ∀ (fs : Fields) (_ : fs.names.Nodup) (es : List (String × Doc)) {name : String} {req : Bool} {dflt : Option Doc} {r : Rule},
    fs.Has name req dflt r → Dict.get? es name = none → Dict.get? (addDefaults fs es) name = some (getDefault dflt r)
  | .cons n q d r t, hn, es, name, req, dflt, rule, h, hg => by
    simp only [Fields.names, List.nodup_cons] at hn
    unfold addDefaults
    rcases h with ⟨rfl, rfl, rfl, rfl⟩ | h
    · simp only [hg]
      exact addDefaults_keeps t _ _ _ (Dict.get?_set_self _ _ _)
    · have hne : name ≠ n := by rintro rfl; exact hn.1 h.mem
      cases hx : Dict.get? es n with
      | none => exact addDefaults_get t hn.2 _ h (by rw [Dict.get?_set_of_ne _ _ (Ne.symm hne)]; exact hg)
      | some x => exact addDefaults_get t hn.2 _ h hg

theorem layer_names (eqn rel : List Char → Bool) : (layerFields eqn rel).names.Nodup := by
  show ["id", "name", "operator_type", "equation", "dimension_relations", "loop_dims", "loop_sizes", "operand_precision", "operand_source", "pr_loop_dims", "pr_loop_sizes", "padding"].Nodup
  decide +kernel

/-- C120, partial: a layer without `operator_type`, `equation` or `operand_precision` is refused (an empty text is not an equation).  Missing: the entries of
`missing_layer_entries_false`. -/
theorem missing_layer_entries_partial (eqn : List Char → Bool) (heq : eqn [] = false) (rel : List Char → Option LayerBuild.RelD) (l : List Doc) (es : List (String × Doc))
    (he : .dict es ∈ l) (k : String) (hk : k ∈ ["operator_type", "equation", "operand_precision"]) (hg : Dict.get? es k = none) :
    ∃ e, parseLayers eqn rel (.list l) = .error e := by
  have hbad : accepts (.record false (layerFields eqn (fun t => (rel t).isSome))) (.dict (addDefaults (layerFields eqn (fun t => (rel t).isSome)) es)) = false := by
    rw [Bool.eq_false_iff]
    intro h
    obtain ⟨es', he', ha⟩ := record_dict h
    cases he'
    have hn := layer_names eqn (fun t => (rel t).isSome)
    simp only [List.mem_cons, List.not_mem_nil, or_false] at hk
    rcases hk with rfl | rfl | rfl
    · have hh : (layerFields eqn (fun t => (rel t).isSome)).Has "operator_type" true none (.leaf .string false (among operators)) := by simp [Fields.Has, layerFields]
      have := acceptsF_val ha hh (addDefaults_get _ hn es hh hg)
      simp [getDefault, Rule.nullable, Rule.ty, typeDefault, accepts, Doc.hasTy, among, operators] at this
    · have hh : (layerFields eqn (fun t => (rel t).isSome)).Has "equation" true none (tText eqn) := by simp [Fields.Has, layerFields]
      have := acceptsF_val ha hh (addDefaults_get _ hn es hh hg)
      simp [getDefault, Rule.nullable, tText, Rule.ty, typeDefault, accepts, Doc.hasTy, onText, heq] at this
    · have hh : (layerFields eqn (fun t => (rel t).isSome)).Has "operand_precision" true none (.record false (
          .cons "I" false none tInt <| .cons "W" false none tInt <| .cons "O" true none tInt <| .cons "O_final" true none tInt .nil)) := by simp [Fields.Has, layerFields]
      have := acceptsF_val ha hh (addDefaults_get _ hn es hh hg)
      simp [getDefault, Rule.nullable, Rule.ty, typeDefault, accepts, acceptsF] at this
  unfold parseLayers
  cases hl : normalizeList (layerFields eqn (fun t => (rel t).isSome)) (.list l) with
  | none => exact ⟨_, rfl⟩
  | some ls =>
    have hmem : addDefaults (layerFields eqn (fun t => (rel t).isSome)) es ∈ ls := by
      obtain ⟨y, hy, he'⟩ := forall2_left (mapM_iff.1 hl) _ he
      cases he'
      exact hy
    simp only
    rw [if_neg]
    · exact ⟨_, rfl⟩
    · rw [List.all_eq_true]
      intro h
      have := h _ hmem
      rw [hbad] at this
      cases this

example : Dict.get? (sampleLayer.filter (fun e => decide (e.1 ≠ "equation"))) "equation" = none := by decide +kernel

/-! ### C122 -/

/-- C122: completing an accelerator file keeps every plain value and the length of every list that is written in it. -/
theorem written_kept (d : Doc) : Keeps d (normalize accRule d) := normalize_keeps' accRule d

/-- C122: the same for the entries of mapping and workload files. -/
theorem entry_kept (fs : Fields) (es : List (String × Doc)) (k : String) (v : Doc) (h : Dict.get? es k = some v) : Dict.get? (addDefaults fs es) k = some v :=
  addDefaults_keeps fs es k v h

/-- C122: completing a completed accelerator file changes nothing. -/
theorem complete_twice (d : Doc) : normalize accRule (normalize accRule d) = normalize accRule d := normalize_twice accRule acc_fine d

theorem at_append (d : Doc) (p q : List Step) : d.at (p ++ q) = (d.at p).bind (fun x => x.at q) := by
  induction p generalizing d with
  | nil => simp [Doc.at]
  | cons s p ih =>
    cases s with
    | key k =>
      cases d with
      | dict es =>
        simp only [List.cons_append, Doc.at]
        cases Dict.get? es k with
        | none => rfl
        | some v => exact ih v
      | _ => rfl
    | idx i =>
      cases d with
      | list l =>
        simp only [List.cons_append, Doc.at]
        cases l[i]? with
        | none => rfl
        | some v => exact ih v
      | _ => rfl

theorem normalize_at (p : List Step) : ∀ (r : Rule) (_ : r.Fine) (d : Doc) (v : Doc) (r' : Rule), d.at p = some v → r.at p = some r' → v ≠ .null →
    (normalize r d).at p = some (normalize r' v) := by
  induction p with
  | nil =>
    intro r _ d v r' hv hr _
    simp only [Doc.at, Option.some.injEq] at hv
    have hr' : r = r' := by cases r <;> simpa [Rule.at] using hr
    subst hv hr'
    simp [Doc.at]
  | cons s p ih =>
    intro r hf d v r' hv hr hn
    cases s with
    | key k =>
      cases d with
      | dict es =>
        simp only [Doc.at] at hv
        cases hg : Dict.get? es k with
        | none => rw [hg] at hv; cases hv
        | some x =>
          rw [hg] at hv
          simp only at hv
          have hx : x ≠ .null := by
            rintro rfl
            cases p with
            | nil =>
              simp only [Doc.at, Option.some.injEq] at hv
              exact hn hv.symm
            | cons s p => cases s <;> simp [Doc.at] at hv
          cases r with
          | values r0 =>
            simp only [Rule.at] at hr
            have : Dict.get? (es.map (fun e => (e.1, normalize r0 e.2))) k = some (normalize r0 x) := by
              clear * - hg
              induction es with
              | nil => cases hg
              | cons e t iht =>
                rw [List.map_cons, Dict.get?_cons]
                rw [Dict.get?_cons] at hg
                by_cases he : e.1 = k
                · rw [if_pos he] at hg ⊢
                  cases hg
                  rfl
                · rw [if_neg he] at hg ⊢
                  exact iht hg
            simp only [normalize, Doc.at, this]
            exact ih r0 hf x v r' hv hr hn
          | record n fs =>
            simp only [Rule.at] at hr
            cases hfd : fs.find k with
            | none => rw [hfd] at hr; cases hr
            | some f =>
              obtain ⟨q, dflt, r0⟩ := f
              rw [hfd] at hr
              simp only at hr
              have hh := Fields.find_has hfd
              have : filled dflt r0 (some x) = some x := by
                unfold filled
                cases dflt with
                | none => rfl
                | some v => cases x <;> simp_all
              simp only [normalize, Doc.at, normalize_field hf.1 es hh, hg, this, Option.map_some]
              exact ih r0 (hf.2.has hh).2 x v r' hv hr hn
          | _ => simp [Rule.at] at hr
      | _ => simp [Doc.at] at hv
    | idx i =>
      cases d with
      | list l =>
        simp only [Doc.at] at hv
        cases hg : l[i]? with
        | none => rw [hg] at hv; cases hv
        | some x =>
          rw [hg] at hv
          simp only at hv
          cases r with
          | listOf n len r0 =>
            simp only [Rule.at] at hr
            simp only [normalize, Doc.at, List.getElem?_map, hg, Option.map_some]
            exact ih r0 hf x v r' hv hr hn
          | _ => simp [Rule.at] at hr
      | _ => simp [Doc.at] at hv

/-- Defaults of a memory and of the array. -/
def memDefaults : List (String × Doc) :=
  [("r_cost", .null), ("w_cost", .null), ("area", .null), ("mem_type", .str "sram"), ("auto_cost_extraction", .bool false), ("force_double_buffering", .bool false)]

def arrayDefaults : List (String × Doc) := [("is_imc", .bool false), ("imc_type", .null), ("adc_resolution", .int 0), ("bit_serial_precision", .null)]

/-- C122: entries of a memory or of the array that are not written get the documented default. -/
theorem defaults_added (d : Doc) :
    (∀ m es, d.at [.key "memories", .key m] = some (.dict es) → ∀ e ∈ memDefaults, Dict.get? es e.1 = none →
      (normalize accRule d).at [.key "memories", .key m, .key e.1] = some e.2) ∧
    (∀ es, d.at [.key "operational_array"] = some (.dict es) → ∀ e ∈ arrayDefaults, Dict.get? es e.1 = none →
      (normalize accRule d).at [.key "operational_array", .key e.1] = some e.2) := by
  have hp := required_places
  constructor
  · intro m es hd e he hg
    have h := normalize_at _ accRule acc_fine d _ _ hd (hp m 0).2.2.1 (by simp)
    rw [show ([.key "memories", .key m, .key e.1] : List Step) = [.key "memories", .key m] ++ [.key e.1] from rfl, at_append, h]
    have key : ∀ (r : Rule) (v : Doc), memFields.Has e.1 false (some v) r → normalize r v = v → Dict.get? (normalizeF memFields (fill memFields es)) e.1 = some v := by
      intro r v hh hv
      rw [normalize_field mem_fine.1 es hh, hg]
      simp only [filled, Option.map_some, hv]
    have hres : Dict.get? (normalizeF memFields (fill memFields es)) e.1 = some e.2 := by
      simp only [memDefaults, List.mem_cons, List.not_mem_nil, or_false] at he
      rcases he with rfl | rfl | rfl | rfl | rfl | rfl
      · exact key (tFloat true) _ (by simp [memFields, Fields.Has]) (by simp [normalize_null])
      · exact key (tFloat true) _ (by simp [memFields, Fields.Has]) (by simp [normalize_null])
      · exact key (tFloat true) _ (by simp [memFields, Fields.Has]) (by simp [normalize_null])
      · exact key tStr _ (by simp [memFields, Fields.Has]) (by simp [normalize, tStr])
      · exact key tBool _ (by simp [memFields, Fields.Has]) (by simp [normalize, tBool])
      · exact key tBool _ (by simp [memFields, Fields.Has]) (by simp [normalize, tBool])
    simp only [Option.bind_some, normalize, Doc.at, hres]
  · intro es hd e he hg
    have h := normalize_at _ accRule acc_fine d _ _ hd (hp "" 0).2.1 (by simp)
    rw [show ([.key "operational_array", .key e.1] : List Step) = [.key "operational_array"] ++ [.key e.1] from rfl, at_append, h]
    have key : ∀ (q : Bool) (r : Rule) (v : Doc), arrayFields.Has e.1 q (some v) r → normalize r v = v → Dict.get? (normalizeF arrayFields (fill arrayFields es)) e.1 = some v := by
      intro q r v hh hv
      rw [normalize_field array_fine.1 es hh, hg]
      simp only [filled, Option.map_some, hv]
    have hres : Dict.get? (normalizeF arrayFields (fill arrayFields es)) e.1 = some e.2 := by
      simp only [arrayDefaults, List.mem_cons, List.not_mem_nil, or_false] at he
      rcases he with rfl | rfl | rfl | rfl
      · exact key false tBool _ (by simp [arrayFields, Fields.Has]) (by simp [normalize, tBool])
      · exact key false _ _ (by simp only [arrayFields, Fields.Has, String.reduceEq, false_and, true_and, false_or, or_false]; rfl) (normalize_null _)
      · exact key false (tFloat true) _ (by simp [arrayFields, Fields.Has]) (by simp [normalize, tFloat])
      · exact key true (tFloat true) _ (by simp [arrayFields, Fields.Has]) (by simp [normalize_null])
    simp only [Option.bind_some, normalize, Doc.at, hres]

/-! ### C121, C123 -/

theorem parseAcc_iff (cacti : String → String → Int → Int → Except PyErr (ℚ × ℚ × ℚ)) (imc : AccR → Except PyErr Unit) (d : Doc) (acc : Acc) :
    parseAcc cacti imc d = .ok acc ↔ accepts accRule (normalize accRule d) = true ∧ ∃ a, readAcc (normalize accRule d) = some a ∧ checkAcc a = .ok true ∧
      buildAcc cacti imc a = .ok acc := by
  unfold parseAcc
  by_cases ha : accepts accRule (normalize accRule d) = true
  · rw [if_pos ha]
    simp only [ha, true_and]
    cases hr : readAcc (normalize accRule d) with
    | none => simp
    | some a =>
      simp only [Option.some.injEq, exists_eq_left']
      cases hc : checkAcc a with
      | error e => simp
      | ok b => cases b <;> simp
  · rw [if_neg ha]
    simp [ha]

theorem check_lengths {a : AccR} (h : checkAcc a = .ok true) : a.arr.dims.length = a.arr.sizes.length := by
  unfold checkAcc at h
  split at h
  · cases h
  · split at h
    · cases h
    · simp only [Except.ok.injEq, Bool.and_eq_true, decide_eq_true_eq] at h
      exact h.1.1.1

theorem flows_total {a : AccR} (h : AccOk a) : ∃ r, flowsOf a.flows = .ok r := by
  unfold flowsOf
  cases hf : a.flows with
  | none => exact ⟨_, rfl⟩
  | some f =>
    obtain ⟨r, hr⟩ := spatialOf_total (fun t ht => Or.inr ht) (h.2.2 f hf)
    exact ⟨some r, by simp only [hr]⟩

/-- C121, partial (with `energy_missing_false`, `newline_false`, `foreign_operand_false` and `no_read_port_false`): a file leads to an accelerator exactly when it is
accepted, energy and area of a multiplier are given (or the constructor of the in-memory array succeeds), and in every memory the costs are given or can be extracted and
every allocation names an operand of this memory, a comma, a blank and a direction.  In particular the names of dimensions, served dimensions and unrollings of an accepted
file never raise. -/
theorem built_iff_partial (cacti : String → String → Int → Int → Except PyErr (ℚ × ℚ × ℚ)) (imc : AccR → Except PyErr Unit) (d : Doc) :
    (∃ acc, parseAcc cacti imc d = .ok acc) ↔ accepts accRule (normalize accRule d) = true ∧ ∃ a, readAcc (normalize accRule d) = some a ∧ checkAcc a = .ok true ∧
      (a.arr.imc = false → a.arr.energy ≠ none ∧ a.arr.area ≠ none) ∧ (a.arr.imc = true → imc a = .ok ()) ∧ ∀ e ∈ a.mems, CostOk cacti e.1 e.2 ∧ AllocOk e.2 := by
  simp only [parseAcc_iff]
  constructor
  · rintro ⟨acc, ha, a, hr, hc, hb⟩
    obtain ⟨a', hr', hok⟩ := acc_reads d ha
    rw [hr] at hr'
    cases hr'
    refine ⟨ha, a, hr, hc, ?_⟩
    unfold buildAcc unitOf at hb
    rw [← buildMems_iff cacti a.mems Hierarchy.empty hok.1]
    obtain ⟨r, hf⟩ := flows_total hok
    rw [hf, dimSizes_total hok.2.1 (check_lengths hc)] at hb
    cases hi : a.arr.imc with
    | true =>
      rw [hi] at hb
      simp only [if_true] at hb
      cases hq : imc a with
      | error x => rw [hq] at hb; cases hb
      | ok u =>
        rw [hq] at hb
        simp only at hb
        refine ⟨by simp, fun _ => rfl, ?_⟩
        cases hm : buildMems cacti Hierarchy.empty a.mems with
        | error x => rw [hm] at hb; cases hb
        | ok r => exact ⟨r, rfl⟩
    | false =>
      rw [hi] at hb
      simp only [Bool.false_eq_true, if_false] at hb
      cases he : a.arr.energy with
      | none => rw [he] at hb; cases hb
      | some e =>
        cases hs : a.arr.area with
        | none => rw [he, hs] at hb; cases hb
        | some s =>
          rw [he, hs] at hb
          simp only at hb
          refine ⟨by simp, by simp, ?_⟩
          cases hm : buildMems cacti Hierarchy.empty a.mems with
          | error x => rw [hm] at hb; cases hb
          | ok r => exact ⟨r, rfl⟩
  · rintro ⟨ha, a, hr, hc, he, hi, hm⟩
    obtain ⟨a', hr', hok⟩ := acc_reads d ha
    rw [hr] at hr'
    cases hr'
    obtain ⟨⟨h', ls⟩, hb⟩ := (buildMems_iff cacti a.mems Hierarchy.empty hok.1).2 hm
    obtain ⟨r, hf⟩ := flows_total hok
    suffices h : ∃ acc, buildAcc cacti imc a = .ok acc by
      obtain ⟨acc, h⟩ := h
      exact ⟨acc, ha, a, hr, hc, h⟩
    unfold buildAcc unitOf
    rw [hf, dimSizes_total hok.2.1 (check_lengths hc), hb]
    cases him : a.arr.imc with
    | true =>
      simp only [if_true, hi him]
      exact ⟨_, rfl⟩
    | false =>
      obtain ⟨h1, h2⟩ := he him
      obtain ⟨e, he⟩ := Option.ne_none_iff_exists'.1 h1
      obtain ⟨s, hs⟩ := Option.ne_none_iff_exists'.1 h2
      simp only [Bool.false_eq_true, if_false, he, hs]
      exact ⟨_, rfl⟩

/-- C121: a file that is accepted always has the form that is read. -/
theorem accepted_read (d : Doc) (h : accepts accRule (normalize accRule d) = true) : ∃ a, readAcc (normalize accRule d) = some a :=
  let ⟨a, ha, _⟩ := acc_reads d h
  ⟨a, ha⟩

/-- C121: the checks after the schema, for memories whose allocations can be taken apart, are those of `Verif.Ports`. -/
theorem checks_agree (m : MemR) (md : MemD String String) (h : memD m = .ok md) (dims : List String) : checkMem dims m = Ports.validateMem dims md := checkMem_eq h dims

/-- A small accelerator: a register file with the given allocations, and an array with the given further entries. -/
def sampleAcc (auto : Bool) (type : String) (alloc : List String) (arr : List (String × Doc)) : Doc :=
  .dict [("name", .str "small"),
    ("memories", .dict [
      ("rf", .dict [("size", .int 16), ("r_cost", .num (1/2)), ("w_cost", .int 1), ("area", .int 0), ("latency", .int 1), ("operands", .list [.str "I1", .str "O"]),
        ("ports", .list [.dict [("name", .str "rw_port_1"), ("type", .str type), ("bandwidth_min", .int 8), ("bandwidth_max", .int 16), ("allocation", .list (alloc.map .str))]]),
        ("served_dimensions", .list [.str "D1"]), ("auto_cost_extraction", .bool auto)])]),
    ("operational_array", .dict ([("dimensions", .list [.str "D1", .str "D2"]), ("sizes", .list [.int 4, .int 8]), ("input_precision", .list [.int 8, .int 8])] ++ arr)),
    ("dataflows", .dict [("D1", .list [.str "K, 4"]), ("D2", .list [.str "C, 8"])])]

def energy : List (String × Doc) := [("unit_energy", .num (1/25)), ("unit_area", .int 1)]

def noCacti : String → String → Int → Int → Except PyErr (ℚ × ℚ × ℚ) := fun _ _ _ _ => .ok (1, 2, 3)

def accErr (d : Doc) : Option PyErr :=
  match parseAcc noCacti (fun _ => .ok ()) d with
  | .ok _ => none
  | .error e => some e

/-- The schema and all checks accept the file. -/
def acceptedFile (d : Doc) : Bool :=
  accepts accRule (normalize accRule d) &&
    match (readAcc (normalize accRule d)).map checkAcc with
    | some (.ok b) => b
    | _ => false

example : acceptedFile (sampleAcc false "read_write" ["I1, fh", "I1, tl", "O, fh"] energy) = true ∧ accErr (sampleAcc false "read_write" ["I1, fh", "I1, tl", "O, fh"] energy) = none := by
  decide +kernel

/-- C121 is false: energy and area of a multiplier are optional in the schema, but without them building an array that is not in-memory raises `KeyError`. -/
theorem energy_missing_false : acceptedFile (sampleAcc false "read_write" ["I1, fh"] []) = true ∧ accErr (sampleAcc false "read_write" ["I1, fh"] []) = some .keyError := by
  decide +kernel

/-- C121 is false: an allocation with a newline at its end is accepted (`$` matches before it), but the direction `fh\n` is unknown and raises `ValueError`. -/
theorem newline_false : acceptedFile (sampleAcc false "read_write" ["I1, fh\n"] energy) = true ∧ accErr (sampleAcc false "read_write" ["I1, fh\n"] energy) = some .valueError := by
  decide +kernel

/-- C121 is false: an allocation for an operand that is not stored in the memory is accepted, and raises `KeyError`. -/
theorem foreign_operand_false : acceptedFile (sampleAcc false "read_write" ["I2, fh"] energy) = true ∧ accErr (sampleAcc false "read_write" ["I2, fh"] energy) = some .keyError := by
  decide +kernel

/-- C121 is false: with extraction of costs, a memory that only has ports for writing is accepted, and raises `ValueError`. -/
theorem no_read_port_false : acceptedFile (sampleAcc true "write" ["I1, fh"] energy) = true ∧ accErr (sampleAcc true "write" ["I1, fh"] energy) = some .valueError := by
  decide +kernel

/-- What an accelerator file says about the accelerator `acc` that is built from it. -/
structure AsWritten (cacti : String → String → Int → Int → Except PyErr (ℚ × ℚ × ℚ)) (d : Doc) (acc : Acc) : Prop where
  name : d.at [.key "name"] = some (.str acc.name)
  /-- energy and area of a multiplier, unless the array is in-memory -/
  unit : ((d.at [.key "operational_array", .key "is_imc"]).bind Doc.bool?).getD false = false →
    ∃ e s, acc.unit = some (e, s) ∧ (d.at [.key "operational_array", .key "unit_energy"]).bind Doc.num? = some e ∧
      (d.at [.key "operational_array", .key "unit_area"]).bind Doc.num? = some s
  /-- every dimension has the size at its position -/
  sizes : ∀ (ds : List String) (ss : List Int), d.at [.key "operational_array", .key "dimensions"] = some (.list (ds.map .str)) → d.at [.key "operational_array", .key "sizes"] = some (.list (ss.map .int)) →
    ds.length = ss.length ∧ (ds.Nodup → acc.sizes = ds.zip ss)
  /-- one level per memory, in the order of the file -/
  levels : ∃ ms, d.at [.key "memories"] = some (.dict ms) ∧ List.Forall₂ (fun e l => ∃ m, MemSays e.2 m ∧ LevelOf cacti (e.1, m) l) ms acc.levels

theorem at_two {d v : Doc} {k : String} (h : d.at [.key k] = some v) (k' : String) : d.at [.key k, .key k'] = v.at [.key k'] := by
  rw [show ([.key k, .key k'] : List Step) = [.key k] ++ [.key k'] from rfl, at_append, h]
  rfl

theorem str_inj {a b : List String} (h : (Doc.list (a.map .str)) = Doc.list (b.map .str)) : a = b := by
  simp only [Doc.list.injEq] at h
  exact List.map_injective_iff.2 (fun _ _ h => by simpa using h) h

theorem int_inj {a b : List Int} (h : (Doc.list (a.map .int)) = Doc.list (b.map .int)) : a = b := by
  simp only [Doc.list.injEq] at h
  exact List.map_injective_iff.2 (fun _ _ h => by simpa using h) h

theorem forall2_comp {α β γ : Type} {R : α → β → Prop} {S : β → γ → Prop} : ∀ {l : List α} {m : List β} {n : List γ}, List.Forall₂ R l m → List.Forall₂ S m n →
    List.Forall₂ (fun a c => ∃ b, R a b ∧ S b c) l n
  | _, _, _, .nil, .nil => .nil
  | _, _, _, .cons h t, .cons h' t' => .cons ⟨_, h, h'⟩ (forall2_comp t t')

/-- C123: the accelerator has the name, the array and the memories of the file: size, latency, buffering, served dimensions, ports and costs of every memory are those that are
written (costs: or extracted for the name, type and size of the memory and the widest access of its port for reading). -/
theorem built_as_written (cacti : String → String → Int → Int → Except PyErr (ℚ × ℚ × ℚ)) (imc : AccR → Except PyErr Unit) (d : Doc) (acc : Acc)
    (h : parseAcc cacti imc d = .ok acc) : AsWritten cacti d acc := by
  obtain ⟨ha, a, hr, hc, hb⟩ := (parseAcc_iff cacti imc d acc).1 h
  obtain ⟨a', hr', hok⟩ := acc_reads d ha
  rw [hr] at hr'
  cases hr'
  obtain ⟨s1, ⟨ms, s2, s2'⟩, ⟨v, s3, s3'⟩, -⟩ := acc_says hr
  obtain ⟨r, hf⟩ := flows_total hok
  have hl := check_lengths hc
  unfold buildAcc at hb
  rw [hf, dimSizes_total hok.2.1 hl] at hb
  split at hb
  · cases hb
  · rename_i unit hu
    simp only at hb
    split at hb
    · cases hb
    · split at hb
      · cases hb
      · rename_i h' ls hm
        simp only [Except.ok.injEq] at hb
        subst hb
        obtain ⟨b1, -⟩ := buildMems_levels cacti a.mems _ _ _ hok.1 hm
        refine ⟨s1, ?_, ?_, ms, s2, ?_⟩
        · rw [at_two s3, at_two s3, at_two s3, s3'.2.1]
          intro hi
          unfold unitOf at hu
          rw [hi] at hu
          simp only [Bool.false_eq_true, if_false] at hu
          split at hu
          · rename_i e s he hs
            simp only [Except.ok.injEq] at hu
            exact ⟨e, s, hu.symm, by rw [s3'.2.2.2.2.1, he], by rw [s3'.2.2.2.2.2.1, hs]⟩
          · cases hu
        · intro ds ss h1 h2
          rw [at_two s3, s3'.1] at h1
          rw [at_two s3, s3'.2.2.1] at h2
          have e1 := str_inj (Option.some.inj h1)
          have e2 := int_inj (Option.some.inj h2)
          rw [← e1, ← e2]
          refine ⟨hl, fun hn => foldl_written _ ?_⟩
          rw [List.map_fst_zip (Nat.le_of_eq hl)]
          exact hn
        · refine forall2_imp ?_ (forall2_comp s2' b1)
          rintro e l ⟨m, ⟨h1, h2⟩, h3⟩
          refine ⟨m.2, h2, ?_⟩
          rw [← h1]
          exact h3

/-- C123: the hierarchy is built from the memories of the file in their order, with the operands that are written; the level of an operand in a memory is the number
of earlier memories storing it. -/
theorem hierarchy_as_written (cacti : String → String → Int → Int → Except PyErr (ℚ × ℚ × ℚ)) (imc : AccR → Except PyErr Unit) (d : Doc) (acc : Acc)
    (h : parseAcc cacti imc d = .ok acc) : ∃ ms ops, d.at [.key "memories"] = some (.dict ms) ∧
      List.Forall₂ (fun (e : String × Doc) (o : List String) => e.2.at [.key "operands"] = some (.list (o.map .str))) ms ops ∧ acc.hier = Hierarchy.build ops ∧
      ∀ (i : Nat) (os : List String) (l : Level), ops[i]? = some os → acc.levels[i]? = some l →
        ∀ o, l.levels.get? o = if o ∈ os then some ((ops.take i).filter fun os' => decide (o ∈ os')).length else none := by
  obtain ⟨ha, a, hr, hc, hb⟩ := (parseAcc_iff cacti imc d acc).1 h
  obtain ⟨a', hr', hok⟩ := acc_reads d ha
  rw [hr] at hr'
  cases hr'
  obtain ⟨-, ⟨ms, s2, s2'⟩, -, -⟩ := acc_says hr
  unfold buildAcc at hb
  split at hb
  · cases hb
  · split at hb
    · cases hb
    · split at hb
      · cases hb
      · split at hb
        · cases hb
        · split at hb
          · cases hb
          · rename_i h' ls hm
            simp only [Except.ok.injEq] at hb
            subst hb
            obtain ⟨-, b2, b3⟩ := buildMems_levels cacti a.mems _ _ _ hok.1 hm
            refine ⟨ms, a.mems.map (fun e => e.2.operands), s2, ?_, ?_, ?_⟩
            · rw [List.forall₂_map_right_iff]
              exact forall2_imp (fun e m h => h.2.2.2.2.2.2.2.2.1) s2'
            · simp only [b2, Hierarchy.build, List.foldl_map]
            · intro i os l ho hl o
              rw [List.getElem?_map, Option.map_eq_some_iff] at ho
              obtain ⟨e, he, rfl⟩ := ho
              rw [b3 i e l he hl, newLevels_get]
              have : (a.mems.take i).foldl (fun h e => Hierarchy.addMemory h e.2.operands) Hierarchy.empty = Hierarchy.build ((a.mems.map (fun e => e.2.operands)).take i) := by
                rw [← List.map_take, Hierarchy.build, List.foldl_map]
              rw [this, Hierarchy.storing_length, Hierarchy.operands_build]

end Verif.Files
