import Verif.Ports.Props
import Verif.Files.Build
import Verif.Conversion.Convert

namespace Verif.Files

open Verif.Ports (Dir PType PortD MemD)

theorem mapM_iff {α β : Type} {f : α → Option β} : ∀ {l : List α} {ys : List β}, l.mapM f = some ys ↔ List.Forall₂ (fun a b => f a = some b) l ys
  | [], ys => by
    rw [List.mapM_nil]
    constructor
    · intro h
      cases h
      exact .nil
    · intro h
      cases h
      rfl
  | a :: t, ys => by
    rw [List.mapM_cons]
    simp only [bind, Option.bind_eq_some_iff, pure, Option.some.injEq]
    constructor
    · rintro ⟨b, h1, bs, h2, rfl⟩
      exact .cons h1 (mapM_iff.1 h2)
    · intro h
      cases h with
      | cons h1 h2 => exact ⟨_, h1, _, mapM_iff.2 h2, rfl⟩

/-! ### What readers return -/

theorem int?_iff {d : Doc} {i : Int} : d.int? = some i ↔ d = .int i := by cases d <;> simp [Doc.int?]
theorem str?_iff {d : Doc} {s : String} : d.str? = some s ↔ d = .str s := by cases d <;> simp [Doc.str?]
theorem bool?_iff {d : Doc} {b : Bool} : d.bool? = some b ↔ d = .bool b := by cases d <;> simp [Doc.bool?]

theorem list?_iff {α : Type} {f : Doc → Option α} {d : Doc} {l : List α} : d.list? f = some l ↔ ∃ ds, d = .list ds ∧ List.Forall₂ (fun a b => f a = some b) ds l := by
  cases d <;> simp [Doc.list?, mapM_iff]

theorem forall2_eq_map {α β : Type} {g : β → α} : ∀ {l : List α} {ys : List β}, List.Forall₂ (fun a b => a = g b) l ys → l = ys.map g
  | _, _, .nil => rfl
  | _, _, .cons h t => by rw [h, forall2_eq_map t]; rfl

theorem forall2_imp {α β : Type} {R S : α → β → Prop} (h : ∀ a b, R a b → S a b) : ∀ {l : List α} {ys : List β}, List.Forall₂ R l ys → List.Forall₂ S l ys
  | _, _, .nil => .nil
  | _, _, .cons a t => .cons (h _ _ a) (forall2_imp h t)

theorem strs_iff {d : Doc} {l : List String} : d.list? Doc.str? = some l ↔ d = .list (l.map .str) := by
  rw [list?_iff]
  constructor
  · rintro ⟨ds, rfl, h⟩
    rw [forall2_eq_map (g := Doc.str) (forall2_imp (S := fun a b => a = .str b) (fun a b => str?_iff.1) h)]
  · rintro rfl
    exact ⟨_, rfl, by rw [← mapM_iff, List.mapM_map]; exact mapM_iff.2 (by induction l <;> constructor <;> [rfl; assumption])⟩

theorem ints_iff {d : Doc} {l : List Int} : d.list? Doc.int? = some l ↔ d = .list (l.map .int) := by
  rw [list?_iff]
  constructor
  · rintro ⟨ds, rfl, h⟩
    rw [forall2_eq_map (g := Doc.int) (forall2_imp (S := fun a b => a = .int b) (fun a b => int?_iff.1) h)]
  · rintro rfl
    exact ⟨_, rfl, by rw [← mapM_iff, List.mapM_map]; exact mapM_iff.2 (by induction l <;> constructor <;> [rfl; assumption])⟩

theorem field_iff {α : Type} {es : List (String × Doc)} {k : String} {f : Doc → Option α} {y : α} :
    (Doc.dict es).field k f = some y ↔ ∃ v, Dict.get? es k = some v ∧ f v = some y := by
  simp [Doc.field, Doc.item, Option.bind_eq_some_iff]

theorem at_key (es : List (String × Doc)) (k : String) : (Doc.dict es).at [.key k] = Dict.get? es k := by
  unfold Doc.at
  cases Dict.get? es k <;> simp [Doc.at]

/-! ### Rules that change nothing -/

theorem leaf_id (ty : Ty) (n : Bool) (c : Doc → Bool) (d : Doc) : normalize (.leaf ty n c) d = d := by unfold normalize; rfl

theorem list_id {n : Bool} {len : Nat → Bool} {r : Rule} (h : ∀ d, normalize r d = d) (d : Doc) : normalize (.listOf n len r) d = d := by
  unfold normalize
  cases d with
  | list l =>
    simp only [Doc.list.injEq]
    conv_rhs => rw [← List.map_id l]
    exact List.map_congr_left (fun x _ => h x)
  | _ => rfl

theorem texts_id (p : List Char → Bool) (d : Doc) : normalize (texts p) d = d := list_id (leaf_id _ _ _) d

theorem record_id {n : Bool} {fs : Fields} (h : ∀ name req dflt r, fs.Has name req dflt r → dflt = none ∧ ∀ d, normalize r d = d) (d : Doc) : normalize (.record n fs) d = d := by
  cases d with
  | dict es =>
    simp only [normalize]
    rw [fill_id fs es (fun name req dflt r hh => by rw [(h _ _ _ _ hh).1]; rfl), normalizeF_id fs es (fun name req dflt r hh v _ => (h _ _ _ _ hh).2 v)]
  | _ => simp [normalize]

theorem port_id (d : Doc) : normalize portRule d = d := by
  refine record_id ?_ d
  intro name req dflt r hh
  simp only [Fields.Has, or_false] at hh
  rcases hh with ⟨-, -, rfl, rfl⟩ | ⟨-, -, rfl, rfl⟩ | ⟨-, -, rfl, rfl⟩ | ⟨-, -, rfl, rfl⟩ | ⟨-, -, rfl, rfl⟩ <;>
    exact ⟨rfl, fun d => by first | exact leaf_id _ _ _ d | exact texts_id _ d⟩

theorem flows_id (d : Doc) : normalize flowsRule d = d := by
  refine record_id ?_ d
  intro name req dflt r hh
  simp only [flowFields, Fields.Has, or_false] at hh
  rcases hh with ⟨-, -, rfl, rfl⟩ | ⟨-, -, rfl, rfl⟩ | ⟨-, -, rfl, rfl⟩ | ⟨-, -, rfl, rfl⟩ <;> exact ⟨rfl, texts_id _⟩

/-! ### Reading what is written -/

/-- A field without a default. -/
theorem plain_field {α : Type} {fs : Fields} (hn : fs.names.Nodup) {es : List (String × Doc)} {name : String} {req : Bool} {r : Rule} (hid : ∀ d, normalize r d = d)
    (hh : fs.Has name req none r) {f : Doc → Option α} {y : α} (h : (Doc.dict (normalizeF fs (fill fs es))).field name f = some y) :
    ∃ v, Dict.get? es name = some v ∧ f v = some y := by
  obtain ⟨v, h1, h2⟩ := field_iff.1 h
  rw [normalize_field hn es hh] at h1
  simp only [filled] at h1
  cases hg : Dict.get? es name with
  | none => rw [hg] at h1; cases h1
  | some x =>
    rw [hg, Option.map_some, hid] at h1
    cases h1
    exact ⟨_, rfl, h2⟩

/-- A field without a default that may be missing. -/
theorem plain_field? {α : Type} {fs : Fields} (hn : fs.names.Nodup) {es : List (String × Doc)} {name : String} {req : Bool} {r : Rule} (hid : ∀ d, normalize r d = d)
    (hh : fs.Has name req none r) {f : Doc → Option α} {y : Option α} (h : (Doc.dict (normalizeF fs (fill fs es))).field? name f = some y) :
    (Dict.get? es name).bind f = y := by
  unfold Doc.field? Doc.item at h
  simp only [normalize_field hn es hh, filled] at h
  cases hg : Dict.get? es name with
  | none =>
    rw [hg] at h
    simp only [Option.map_none, Option.some.injEq] at h
    subst h
    rfl
  | some x =>
    rw [hg] at h
    simp only [Option.map_some, hid] at h
    obtain ⟨z, h1, h2⟩ := Option.map_eq_some_iff.1 h
    subst h2
    exact h1

/-- A field with the default `null`. -/
theorem null_field {α : Type} {fs : Fields} (hn : fs.names.Nodup) {es : List (String × Doc)} {name : String} {req : Bool} {ty : Ty} {c : Doc → Bool}
    (hh : fs.Has name req (some .null) (.leaf ty true c)) {f : Doc → Option α} (hf : f .null = none) {y : Option α}
    (h : (Doc.dict (normalizeF fs (fill fs es))).field name (Doc.orNull f) = some y) : (Dict.get? es name).bind f = y := by
  obtain ⟨v, h1, h2⟩ := field_iff.1 h
  rw [normalize_field hn es hh] at h1
  cases hg : Dict.get? es name with
  | none =>
    rw [hg] at h1
    simp only [filled, Option.map_some, leaf_id, Option.some.injEq] at h1
    subst h1
    simp only [Doc.orNull, Option.some.injEq] at h2
    rw [← h2]
    rfl
  | some x =>
    rw [hg] at h1
    have : filled (some .null) (.leaf ty true c) (some x) = some x := by cases x <;> simp [filled, Rule.nullable]
    rw [this] at h1
    simp only [Option.map_some, leaf_id, Option.some.injEq] at h1
    subst h1
    simp only [Option.bind_some]
    cases x <;> simp only [Doc.orNull, Option.some.injEq] at h2
    · rw [hf, h2]
    all_goals
      obtain ⟨z, h3, h4⟩ := Option.map_eq_some_iff.1 h2
      rw [h3, h4]

/-- A field with a default that replaces `null`. -/
theorem default_field {α : Type} {fs : Fields} (hn : fs.names.Nodup) {es : List (String × Doc)} {name : String} {req : Bool} {ty : Ty} {c : Doc → Bool} {v0 : Doc}
    (hh : fs.Has name req (some v0) (.leaf ty false c)) {f : Doc → Option α} {y0 : α} (hv : f v0 = some y0) (hf : f .null = none) {y : α}
    (h : (Doc.dict (normalizeF fs (fill fs es))).field name f = some y) : ((Dict.get? es name).bind f).getD y0 = y := by
  obtain ⟨v, h1, h2⟩ := field_iff.1 h
  rw [normalize_field hn es hh] at h1
  cases hg : Dict.get? es name with
  | none =>
    rw [hg] at h1
    simp only [filled, Option.map_some, leaf_id, Option.some.injEq] at h1
    subst h1
    rw [hv] at h2
    cases h2
    rfl
  | some x =>
    rw [hg] at h1
    by_cases hx : x = .null
    · subst hx
      simp only [filled, Rule.nullable, Bool.false_eq_true, if_false, Option.map_some, leaf_id, Option.some.injEq] at h1
      subst h1
      rw [hv] at h2
      cases h2
      simp [hf]
    · have : filled (some v0) (.leaf ty false c) (some x) = some x := by cases x <;> simp_all [filled]
      rw [this] at h1
      simp only [Option.map_some, leaf_id, Option.some.injEq] at h1
      subst h1
      simp [h2]

/-- What a file says about a port. -/
def PortSays (d : Doc) (p : PortR) : Prop :=
  d.at [.key "name"] = some (.str p.name) ∧ d.at [.key "type"] = some (.str (match p.type with | .read => "read" | .write => "write" | .readWrite => "read_write")) ∧
  d.at [.key "bandwidth_min"] = some (.int p.bwMin) ∧ d.at [.key "bandwidth_max"] = some (.int p.bwMax) ∧ d.at [.key "allocation"] = some (.list (p.alloc.map .str))

theorem port_says {d : Doc} {p : PortR} (h : readPort d = some p) : PortSays d p := by
  unfold readPort at h
  simp only [bind, Option.bind_eq_some_iff, pure, Option.some.injEq] at h
  obtain ⟨x1, h1, x2, h2, x3, h3, x4, h4, x5, h5, rfl⟩ := h
  cases d with
  | dict es =>
    simp only [PortSays, at_key]
    obtain ⟨v1, g1, e1⟩ := field_iff.1 h1
    obtain ⟨v2, g2, e2⟩ := field_iff.1 h2
    obtain ⟨v3, g3, e3⟩ := field_iff.1 h3
    obtain ⟨v4, g4, e4⟩ := field_iff.1 h4
    obtain ⟨v5, g5, e5⟩ := field_iff.1 h5
    rw [g1, g2, g3, g4, g5, str?_iff.1 e1, int?_iff.1 e3, int?_iff.1 e4, strs_iff.1 e5]
    refine ⟨rfl, ?_, rfl, rfl, rfl⟩
    cases v2 <;> simp only [Doc.ptype?, reduceCtorEq] at e2
    split_ifs at e2 with a b c <;> cases e2
    · rw [a]
    · rw [b]
    · rw [c]
  | _ => simp [Doc.field, Doc.item] at h1

/-- What a file says about a memory. -/
def MemSays (d : Doc) (m : MemR) : Prop :=
  d.at [.key "size"] = some (.int m.size) ∧ (d.at [.key "r_cost"]).bind Doc.num? = m.rCost ∧ (d.at [.key "w_cost"]).bind Doc.num? = m.wCost ∧
  (d.at [.key "area"]).bind Doc.num? = m.area ∧ d.at [.key "latency"] = some (.int m.latency) ∧ ((d.at [.key "mem_type"]).bind Doc.str?).getD "sram" = m.type ∧
  ((d.at [.key "auto_cost_extraction"]).bind Doc.bool?).getD false = m.auto ∧ d.at [.key "operands"] = some (.list (m.operands.map .str)) ∧
  (∃ ps, d.at [.key "ports"] = some (.list ps) ∧ List.Forall₂ PortSays ps m.ports) ∧ d.at [.key "served_dimensions"] = some (.list (m.served.map .str)) ∧
  ((d.at [.key "force_double_buffering"]).bind Doc.bool?).getD false = m.double

theorem mem_says {d : Doc} {m : MemR} (h : readMem (normalize memRule d) = some m) : MemSays d m := by
  unfold readMem at h
  simp only [bind, Option.bind_eq_some_iff, pure, Option.some.injEq] at h
  obtain ⟨x1, h1, x2, h2, x3, h3, x4, h4, x5, h5, x6, h6, x7, h7, x8, h8, x9, h9, x10, h10, x11, h11, rfl⟩ := h
  have hn : memFields.names.Nodup := by decide +kernel
  cases d with
  | dict es =>
    simp only [memRule_eq, normalize] at h1 h2 h3 h4 h5 h6 h7 h8 h9 h10 h11
    simp only [MemSays, at_key]
    obtain ⟨v1, g1, e1⟩ := plain_field hn (leaf_id _ _ _) (req := true) (r := tInt) (by simp [Fields.Has, memFields]) h1
    obtain ⟨v5, g5, e5⟩ := plain_field hn (leaf_id _ _ _) (req := true) (r := tInt) (by simp [Fields.Has, memFields]) h5
    obtain ⟨v8, g8, e8⟩ := plain_field hn (texts_id operandText) (req := true) (by simp [Fields.Has, memFields]) h8
    obtain ⟨v9, g9, e9⟩ := plain_field hn (list_id (n := false) (len := anyLen) port_id) (req := true) (by simp [Fields.Has, memFields]) h9
    obtain ⟨v10, g10, e10⟩ := plain_field hn (texts_id dimText) (req := true) (by simp [Fields.Has, memFields]) h10
    rw [g1, g5, g8, g9, g10, int?_iff.1 e1, int?_iff.1 e5, strs_iff.1 e8, strs_iff.1 e10]
    refine ⟨rfl, ?_, ?_, ?_, rfl, ?_, ?_, rfl, ?_, rfl, ?_⟩
    · exact null_field hn (name := "r_cost") (req := false) (ty := .float) (c := anyDoc) (by simp [Fields.Has, memFields, tFloat]) rfl h2
    · exact null_field hn (name := "w_cost") (req := false) (ty := .float) (c := anyDoc) (by simp [Fields.Has, memFields, tFloat]) rfl h3
    · exact null_field hn (name := "area") (req := false) (ty := .float) (c := anyDoc) (by simp [Fields.Has, memFields, tFloat]) rfl h4
    · exact default_field hn (f := Doc.str?) (y0 := "sram") (name := "mem_type") (req := false) (ty := .string) (c := anyDoc) (v0 := .str "sram") (by simp [Fields.Has, memFields, tStr]) rfl rfl h6
    · exact default_field hn (f := Doc.bool?) (y0 := false) (name := "auto_cost_extraction") (req := false) (ty := .boolean) (c := anyDoc) (v0 := .bool false) (by simp [Fields.Has, memFields, tBool]) rfl rfl h7
    · obtain ⟨ps, rfl, hp⟩ := list?_iff.1 e9
      exact ⟨ps, rfl, forall2_imp (fun _ _ => port_says) hp⟩
    · exact default_field hn (f := Doc.bool?) (y0 := false) (name := "force_double_buffering") (req := false) (ty := .boolean) (c := anyDoc) (v0 := .bool false) (by simp [Fields.Has, memFields, tBool]) rfl rfl h11
  | _ => simp [memRule_eq, normalize, Doc.field, Doc.item] at h1

/-- What a file says about the array. -/
def ArrSays (d : Doc) (a : ArrR) : Prop :=
  d.at [.key "dimensions"] = some (.list (a.dims.map .str)) ∧ ((d.at [.key "is_imc"]).bind Doc.bool?).getD false = a.imc ∧
  d.at [.key "sizes"] = some (.list (a.sizes.map .int)) ∧ (d.at [.key "input_precision"]).bind (Doc.list? Doc.int?) = a.prec ∧
  (d.at [.key "unit_energy"]).bind Doc.num? = a.energy ∧ (d.at [.key "unit_area"]).bind Doc.num? = a.area ∧ (d.at [.key "imc_type"]).bind Doc.str? = a.type ∧
  (d.at [.key "bit_serial_precision"]).bind Doc.num? = a.bitSerial

theorem arr_says {d : Doc} {a : ArrR} (h : readArr (normalize arrayRule d) = some a) : ArrSays d a := by
  unfold readArr at h
  simp only [bind, Option.bind_eq_some_iff, pure, Option.some.injEq] at h
  obtain ⟨x1, h1, x2, h2, x3, h3, x4, h4, x5, h5, x6, h6, x7, h7, x8, h8, x9, h9, rfl⟩ := h
  have hn : arrayFields.names.Nodup := by decide +kernel
  cases d with
  | dict es =>
    simp only [arrayRule, normalize] at h1 h2 h3 h4 h5 h6 h7 h8 h9
    simp only [ArrSays, at_key]
    obtain ⟨v1, g1, e1⟩ := plain_field hn (texts_id dimText) (req := true) (by simp [Fields.Has, arrayFields]) h1
    obtain ⟨v3, g3, e3⟩ := plain_field hn (list_id (n := false) (len := anyLen) (leaf_id .integer false natural)) (req := true) (by simp [Fields.Has, arrayFields]) h3
    rw [g1, g3, strs_iff.1 e1, ints_iff.1 e3]
    refine ⟨rfl, ?_, rfl, ?_, ?_, ?_, ?_, ?_⟩
    · exact default_field hn (f := Doc.bool?) (y0 := false) (name := "is_imc") (req := false) (ty := .boolean) (c := anyDoc) (v0 := .bool false) (by simp [Fields.Has, arrayFields, tBool]) rfl rfl h2
    · exact plain_field? hn (name := "input_precision") (list_id (n := false) (len := two) (leaf_id .integer false anyDoc)) (req := false) (by simp [Fields.Has, arrayFields, tInt]) h4
    · exact plain_field? hn (name := "unit_energy") (leaf_id .float false anyDoc) (req := false) (by simp [Fields.Has, arrayFields, tFloat]) h5
    · exact plain_field? hn (name := "unit_area") (leaf_id .float false anyDoc) (req := false) (by simp [Fields.Has, arrayFields, tFloat]) h6
    · exact null_field hn (name := "imc_type") (req := false) (ty := .string) (c := among ["analog", "digital"])
        (by simp only [arrayFields, Fields.Has, String.reduceEq, false_and, true_and, false_or, or_false]) rfl h7
    · exact null_field hn (name := "bit_serial_precision") (req := true) (ty := .float) (c := anyDoc) (by simp [Fields.Has, arrayFields, tFloat]) rfl h9
  | _ => simp [arrayRule, normalize, Doc.field, Doc.item] at h1

theorem table_iff {α : Type} {f : Doc → Option α} {d : Doc} {l : List (String × α)} :
    d.table f = some l ↔ ∃ es, d = .dict es ∧ List.Forall₂ (fun a b => b.1 = a.1 ∧ f a.2 = some b.2) es l := by
  cases d <;> simp only [Doc.table, reduceCtorEq, false_and, exists_false, Doc.dict.injEq, exists_eq_left', mapM_iff]
  constructor
  · refine forall2_imp (fun a b h => ?_)
    obtain ⟨v, h1, h2⟩ := Option.map_eq_some_iff.1 h
    subst h2
    exact ⟨rfl, h1⟩
  · refine forall2_imp (fun a b h => ?_)
    rw [h.2, Option.map_some, ← h.1]

/-- What a file says about an accelerator. -/
def AccSays (d : Doc) (a : AccR) : Prop :=
  d.at [.key "name"] = some (.str a.name) ∧
  (∃ ms, d.at [.key "memories"] = some (.dict ms) ∧ List.Forall₂ (fun e m => m.1 = e.1 ∧ MemSays e.2 m.2) ms a.mems) ∧
  (∃ v, d.at [.key "operational_array"] = some v ∧ ArrSays v a.arr) ∧
  (d.at [.key "dataflows"]).bind (Doc.table (Doc.list? Doc.str?)) = a.flows

theorem acc_says {d : Doc} {a : AccR} (h : readAcc (normalize accRule d) = some a) : AccSays d a := by
  unfold readAcc at h
  simp only [bind, Option.bind_eq_some_iff, pure, Option.some.injEq] at h
  obtain ⟨x1, h1, x2, h2, x3, h3, x4, h4, rfl⟩ := h
  have hn : accFields.names.Nodup := by decide +kernel
  cases d with
  | dict es =>
    simp only [accRule, normalize] at h1 h2 h3 h4
    simp only [AccSays, at_key]
    obtain ⟨v1, g1, e1⟩ := plain_field hn (leaf_id .string false anyDoc) (req := true) (by simp [Fields.Has, accFields, tStr]) h1
    rw [g1, str?_iff.1 e1]
    refine ⟨rfl, ?_, ?_, ?_⟩
    · obtain ⟨v, g, e⟩ := field_iff.1 h2
      rw [normalize_field hn es (req := true) (dflt := none) (r := .values memRule) (by simp [Fields.Has, accFields])] at g
      simp only [filled] at g
      cases hg : Dict.get? es "memories" with
      | none => rw [hg] at g; cases g
      | some w =>
        rw [hg, Option.map_some] at g
        cases g
        cases w with
        | dict ms =>
          simp only [normalize] at e
          obtain ⟨ms', e', hf⟩ := table_iff.1 e
          cases e'
          rw [List.forall₂_map_left_iff] at hf
          exact ⟨ms, rfl, forall2_imp (fun a b h => ⟨h.1, mem_says h.2⟩) hf⟩
        | _ => simp [normalize, Doc.table] at e
    · obtain ⟨v, g, e⟩ := field_iff.1 h3
      rw [normalize_field hn es (req := true) (dflt := none) (r := arrayRule) (by simp [Fields.Has, accFields])] at g
      simp only [filled] at g
      cases hg : Dict.get? es "operational_array" with
      | none => rw [hg] at g; cases g
      | some w =>
        rw [hg, Option.map_some] at g
        cases g
        exact ⟨w, rfl, arr_says e⟩
    · exact plain_field? hn (name := "dataflows") flows_id (req := false) (by simp [Fields.Has, accFields]) h4
  | _ => simp [accRule, normalize, Doc.field, Doc.item] at h1

/-! ### Memories that are built -/

/-- How a direction is written in an allocation: `f`rom or `t`o, the `h`igher or `l`ower memory. -/
def dirName : Dir → String
  | .wrHigh => "fh"
  | .wrLow => "fl"
  | .rdHigh => "th"
  | .rdLow => "tl"

/-- The text of an allocation. -/
def movement (o : String) (d : Dir) : String := o ++ ", " ++ dirName d

/-- The port at place `i` is `p`, serves the movement, and no later port does. -/
def LastFor (ports : List PortR) (t : String) (i : Nat) (p : PortR) : Prop :=
  ports[i]? = some p ∧ t ∈ p.alloc ∧ ∀ (j : Nat) (q : PortR), i < j → ports[j]? = some q → t ∉ q.alloc

/-- What the entry says about the ports of the memory (with different names): every movement of an operand uses the last port for which it is written. -/
def PortsOf (m : MemR) (l : Level) : Prop :=
  (∀ o, (l.levels.get? o).isSome ↔ o ∈ m.operands) ∧
  ((m.ports.map PortR.name).Nodup →
    (∀ (i : Nat) (o : String) (lv : Nat) (d : Dir), (o, lv, d) ∈ l.ports.served i ↔ l.levels.get? o = some lv ∧ ∃ p, LastFor m.ports (movement o d) i p) ∧
    ∀ o ∈ m.operands, ∀ d : Dir, (∀ (i : Nat) (p : PortR), LastFor m.ports (movement o d) i p → l.ports.bw o d = some (p.bwMin, p.bwMax)) ∧
      ((∀ p ∈ m.ports, movement o d ∉ p.alloc) → l.ports.bw o d = none))

theorem dirOf_name {t : List Char} {d : Dir} : dirOf t = some d ↔ t = (dirName d).toList := by
  constructor
  · intro h
    have ht := dirOf_some.1 (show (dirOf t).isSome = true by rw [h]; rfl)
    simp only [dirTexts, List.mem_cons, List.not_mem_nil, or_false] at ht
    rcases ht with rfl | rfl | rfl | rfl <;> simp only [dirOf, Option.some.injEq] at h <;> subst h <;> decide +kernel
  · rintro rfl
    cases d <;> decide +kernel

theorem parseAlloc_movement {s : String} (hs : allocText s.toList = true) {a : String × Dir} (ha : parseAlloc s = .ok a) : s = movement a.1 a.2 := by
  obtain ⟨o, ho, d, hd, h⟩ := allocText_iff.1 hs
  obtain ⟨s1, s2⟩ := split_alloc ho hd
  rcases h with h | h
  · unfold parseAlloc at ha
    rw [h, s1] at ha
    simp only at ha
    cases hx : dirOf d with
    | none => rw [hx] at ha; cases ha
    | some x =>
      rw [hx] at ha
      simp only [Except.ok.injEq] at ha
      subst ha
      rw [← String.toList_inj, h, dirOf_name.1 hx]
      simp [movement]
  · exfalso
    unfold parseAlloc at ha
    rw [h, s2] at ha
    simp only [dirOf_newline hd] at ha
    cases ha

theorem movement_inj {o o' : String} {d d' : Dir} (h : movement o d = movement o' d') : o = o' ∧ d = d' := by
  rw [← String.toList_inj] at h
  simp only [movement, String.toList_append, List.append_assoc] at h
  have hl : ∀ x : Dir, (dirName x).toList.length = 2 := by intro x; cases x <;> decide +kernel
  obtain ⟨h1, h2⟩ := List.append_inj' h (by simp [hl])
  have h3 := List.append_cancel_left h2
  refine ⟨String.toList_inj.1 h1, ?_⟩
  have e1 := dirOf_name.2 (rfl : (dirName d).toList = _)
  rw [h3, dirOf_name.2 rfl] at e1
  exact (Option.some.inj e1).symm

theorem alloc_mem {p : PortR} {q : PortD String} (hp : ∀ s ∈ p.alloc, allocText s.toList = true) (h : portD p = .ok q) (o : String) (d : Dir) :
    (o, d) ∈ q.alloc ↔ movement o d ∈ p.alloc := by
  obtain ⟨-, -, -, -, ha⟩ := portD_ok.1 h
  constructor
  · intro hm
    obtain ⟨s, hs, e⟩ := forall2_right ha _ hm
    rw [← parseAlloc_movement (hp s hs) e]
    exact hs
  · intro hm
    obtain ⟨a, ha', e⟩ := forall2_left ha _ hm
    obtain ⟨e1, e2⟩ := movement_inj (parseAlloc_movement (hp _ hm) e)
    rw [e1, e2]
    exact ha'

theorem lastPort_at {Op : Type} [DecidableEq Op] {ports : List (PortD Op)} (hn : ports.Nodup) {i : Nat} {p : PortD Op} (hp : ports[i]? = some p) (o : Op) (d : Dir) :
    Ports.lastPort ports o d = some p ↔ (o, d) ∈ p.alloc ∧ ∀ (j : Nat) (q : PortD Op), i < j → ports[j]? = some q → (o, d) ∉ q.alloc := by
  induction ports using List.reverseRecOn generalizing i with
  | nil => simp at hp
  | append_singleton ps x ih =>
    rw [Ports.lastPort_append]
    have hn' := List.nodup_append.1 hn
    by_cases hi : i < ps.length
    · rw [List.getElem?_append_left hi] at hp
      have hpm := List.mem_of_getElem? hp
      have hne : x ≠ p := fun e => hn'.2.2 p hpm x (by simp) e.symm
      split
      · rename_i hx
        simp only [Option.some.injEq, hne, false_iff, not_and, not_forall, not_not]
        intro _
        exact ⟨ps.length, x, hi, by simp, hx⟩
      · rename_i hx
        rw [ih hn'.1 hp]
        refine and_congr_right fun _ => ⟨fun h j q hj hq => ?_, fun h j q hj hq => h j q hj ?_⟩
        · by_cases hjl : j < ps.length
          · rw [List.getElem?_append_left hjl] at hq
            exact h j q hj hq
          · rw [List.getElem?_append_right (by omega)] at hq
            have := List.mem_of_getElem? hq
            rw [List.mem_singleton] at this
            exact this ▸ hx
        · rw [List.getElem?_append_left (List.getElem?_eq_some_iff.1 hq).1]
          exact hq
    · rw [List.getElem?_append_right (by omega)] at hp
      have hx := List.mem_of_getElem? hp
      rw [List.mem_singleton] at hx
      subst hx
      have hi' : i = ps.length := by
        have := (List.getElem?_eq_some_iff.1 hp).1
        simp at this
        omega
      split
      · rename_i hx
        simp only [true_iff]
        refine ⟨hx, fun j q hj hq => ?_⟩
        have := (List.getElem?_eq_some_iff.1 hq).1
        simp at this
        omega
      · rename_i hx
        constructor
        · intro h
          exact absurd (List.mem_of_getElem? hp) (fun _ => hn'.2.2 p (Ports.lastPort_mem h).1 p (by simp) rfl)
        · exact fun h => absurd h.1 hx

theorem forall2_getElem {α β : Type} {R : α → β → Prop} : ∀ {l : List α} {ys : List β}, List.Forall₂ R l ys → ∀ i : Nat,
    (∀ a, l[i]? = some a → ∃ b, ys[i]? = some b ∧ R a b) ∧ (∀ b, ys[i]? = some b → ∃ a, l[i]? = some a ∧ R a b)
  | _, _, .nil, i => by simp
  | _, _, .cons h t, 0 => by simp [h]
  | _, _, .cons h t, i + 1 => by simpa using forall2_getElem t i

theorem newLevels_get (h : Hierarchy.Hier String) (ops : List String) (o : String) :
    (newLevels h ops).get? o = if o ∈ ops then some (Hierarchy.storing h.nodes o).length else none := by
  unfold newLevels
  have key : ∀ (l : List String) (d : Dict String Nat), (l.foldl (fun d op => d.set op (Hierarchy.storing h.nodes op).length) d).get? o =
      if o ∈ l then some (Hierarchy.storing h.nodes o).length else d.get? o := by
    intro l
    induction l with
    | nil => simp
    | cons x t ih =>
      intro d
      rw [List.foldl_cons, ih, Dict.get?_set]
      by_cases h1 : o ∈ t <;> by_cases h2 : x = o
      · simp [h1]
      · simp [h1]
      · simp [h1, h2]
      · have : ¬ o = x := fun e => h2 e.symm
        simp [h1, h2, this]
  exact key ops []

theorem newLevels_wf (h : Hierarchy.Hier String) (ops : List String) : (newLevels h ops).WF := by
  unfold newLevels
  have key : ∀ (l : List String) (d : Dict String Nat), d.WF → (l.foldl (fun d op => d.set op (Hierarchy.storing h.nodes op).length) d).WF := by
    intro l
    induction l with
    | nil => exact fun d hd => hd
    | cons x t ih => exact fun d hd => ih _ (hd.set _ _)
  exact key ops [] (by simp [Dict.WF, Dict.keys])

theorem ports_of {m : MemR} (hm : MemOk m) {md : MemD String String} (hd : memD m = .ok md) {h : Hierarchy.Hier String} {st : Ports.LvState String}
    (hb : Ports.buildMem md (newLevels h m.operands) = .ok st) {l : Level} (h1 : l.levels = newLevels h m.operands) (h2 : l.ports = st) : PortsOf m l := by
  obtain ⟨-, -, -, -, -, e, -, hp⟩ := memD_ok hd
  unfold PortsOf
  rw [h1, h2]
  refine ⟨fun o => by rw [newLevels_get]; split <;> simp [*], fun hn => ?_⟩
  have hnames : md.ports.map PortD.name = m.ports.map PortR.name := by
    have : ∀ {ps : List PortR} {qs : List (PortD String)}, List.Forall₂ (fun p q => portD p = .ok q) ps qs → qs.map PortD.name = ps.map PortR.name := by
      intro ps qs hf
      induction hf with
      | nil => rfl
      | cons a _ ih => rw [List.map_cons, List.map_cons, ih, (portD_ok.1 a).1]
    exact this hp
  rw [← hnames] at hn
  have hk : ∀ o ∈ (newLevels h m.operands).keys, o ∈ md.operands := by
    intro o ho
    obtain ⟨x, hx, rfl⟩ := List.mem_map.1 ho
    rw [e]
    exact newLevels_mem _ _ x hx
  have hpn : md.ports.Nodup := List.Nodup.of_map _ hn
  obtain ⟨g1, g2, -, -⟩ := Ports.last_declared md hn _ (newLevels_wf h m.operands) hk st hb
  have hlast : ∀ (i : Nat) (o : String) (d : Dir), (∀ q, md.ports[i]? = some q → Ports.lastPort md.ports o d = some q →
        ∃ p, LastFor m.ports (movement o d) i p ∧ portD p = .ok q) ∧
      (∀ p, LastFor m.ports (movement o d) i p → ∃ q, md.ports[i]? = some q ∧ Ports.lastPort md.ports o d = some q ∧ portD p = .ok q) := by
    intro i o d
    constructor
    · intro q hq hl
      obtain ⟨p, hpi, hpq⟩ := (forall2_getElem hp i).2 q hq
      obtain ⟨l1, l2⟩ := (lastPort_at hpn hq o d).1 hl
      refine ⟨p, ⟨hpi, (alloc_mem (hm.1 p (List.mem_of_getElem? hpi)).2 hpq o d).1 l1, ?_⟩, hpq⟩
      intro j p' hj hp' hin
      obtain ⟨q', hq', hpq'⟩ := (forall2_getElem hp j).1 p' hp'
      exact l2 j q' hj hq' ((alloc_mem (hm.1 p' (List.mem_of_getElem? hp')).2 hpq' o d).2 hin)
    · rintro p ⟨hpi, l1, l2⟩
      obtain ⟨q, hq, hpq⟩ := (forall2_getElem hp i).1 p hpi
      refine ⟨q, hq, (lastPort_at hpn hq o d).2 ⟨(alloc_mem (hm.1 p (List.mem_of_getElem? hpi)).2 hpq o d).2 l1, ?_⟩, hpq⟩
      intro j q' hj hq' hin
      obtain ⟨p', hp', hpq'⟩ := (forall2_getElem hp j).2 q' hq'
      exact l2 j p' hj hp' ((alloc_mem (hm.1 p' (List.mem_of_getElem? hp')).2 hpq' o d).1 hin)
  constructor
  · intro i o lv d
    rw [g2 i (o, lv, d)]
    refine and_congr_right fun _ => ⟨?_, ?_⟩
    · rintro ⟨q, hq, hl⟩
      obtain ⟨p, hl', -⟩ := (hlast i o d).1 q hq hl
      exact ⟨p, hl'⟩
    · rintro ⟨p, hl⟩
      obtain ⟨q, hq, hl', -⟩ := (hlast i o d).2 p hl
      exact ⟨q, hq, hl'⟩
  · intro o ho d
    have hok : o ∈ (newLevels h m.operands).keys := by
      by_contra hc
      have := (Dict.get?_eq_none_iff _ _).2 hc
      rw [newLevels_get, if_pos ho] at this
      cases this
    rw [g1 o hok d]
    constructor
    · intro i p hl
      obtain ⟨q, -, hl', hpq⟩ := (hlast i o d).2 p hl
      obtain ⟨-, -, e3, e4, -⟩ := portD_ok.1 hpq
      rw [hl', Option.map_some, e3, e4]
    · intro hno
      cases hl : Ports.lastPort md.ports o d with
      | none => rfl
      | some q =>
        exfalso
        obtain ⟨i, hq⟩ := List.getElem?_of_mem (Ports.lastPort_mem hl).1
        obtain ⟨p, ⟨hp1, hp2, -⟩, -⟩ := (hlast i o d).1 q hq hl
        exact hno p (List.mem_of_getElem? hp1) hp2

/-- A memory that has been built from its entry. -/
def LevelOf (cacti : String → String → Int → Int → Except PyErr (ℚ × ℚ × ℚ)) (e : String × MemR) (l : Level) : Prop :=
  l.name = e.1 ∧ l.size = e.2.size ∧ l.latency = e.2.latency ∧ l.double = e.2.double ∧ l.served = e.2.served ∧
  (e.2.auto = false → l.costs = (e.2.rCost, e.2.wCost, e.2.area)) ∧
  (e.2.auto = true → ∃ p c, ReadPort e.2.ports p ∧ cacti e.1 e.2.type e.2.size p.bwMax = .ok c ∧ l.costs = (some c.1, some c.2.1, some c.2.2)) ∧ PortsOf e.2 l

theorem buildMems_levels (cacti : String → String → Int → Int → Except PyErr (ℚ × ℚ × ℚ)) : ∀ (ms : List (String × MemR)) (h h' : Hierarchy.Hier String) (ls : List Level),
    (∀ e ∈ ms, MemOk e.2) → buildMems cacti h ms = .ok (h', ls) → List.Forall₂ (LevelOf cacti) ms ls ∧ h' = ms.foldl (fun h e => Hierarchy.addMemory h e.2.operands) h ∧
      ∀ (i : Nat) (e : String × MemR) (l : Level), ms[i]? = some e → ls[i]? = some l →
        l.levels = newLevels ((ms.take i).foldl (fun h e => Hierarchy.addMemory h e.2.operands) h) e.2.operands
  | [], h, h', ls, _, hb => by
    simp only [buildMems, Except.ok.injEq, Prod.mk.injEq] at hb
    obtain ⟨rfl, rfl⟩ := hb
    exact ⟨.nil, rfl, by simp⟩
  | e :: t, h, h', ls, hm, hb => by
    rw [buildMems] at hb
    cases hc : memCosts cacti e.1 e.2 with
    | error x => rw [hc] at hb; cases hb
    | ok c =>
      cases hd : memD e.2 with
      | error x => rw [hc, hd] at hb; cases hb
      | ok md =>
        rw [hc, hd, mapE_oaDim (hm e (by simp)).2.2] at hb
        simp only at hb
        cases hp : Ports.buildMem md (newLevels h e.2.operands) with
        | error x => rw [hp] at hb; cases hb
        | ok st =>
          rw [hp] at hb
          simp only at hb
          cases hr : buildMems cacti (Hierarchy.addMemory h e.2.operands) t with
          | error x => rw [hr] at hb; cases hb
          | ok r =>
            obtain ⟨h1, ls1⟩ := r
            rw [hr] at hb
            simp only [Except.ok.injEq, Prod.mk.injEq] at hb
            obtain ⟨rfl, rfl⟩ := hb
            obtain ⟨i1, i2, i3⟩ := buildMems_levels cacti t _ _ _ (fun x hx => hm x (by simp [hx])) hr
            refine ⟨.cons ⟨rfl, rfl, rfl, rfl, rfl, ?_, ?_, ports_of (hm e (by simp)) hd hp rfl rfl⟩ i1, i2, ?_⟩
            rotate_left 2
            · intro i e' l he hl
              cases i with
              | zero =>
                simp only [List.getElem?_cons_zero, Option.some.injEq] at he hl
                subst he hl
                rfl
              | succ i =>
                simp only [List.getElem?_cons_succ] at he hl
                exact i3 i e' l he hl
            · intro ha
              unfold memCosts at hc
              rw [ha] at hc
              simp only [Bool.false_eq_true, if_false, Except.ok.injEq] at hc
              exact hc.symm
            · intro ha
              unfold memCosts at hc
              rw [if_pos ha] at hc
              cases hf : (e.2.ports.find? (fun p => decide (p.type = .read))).or (e.2.ports.find? (fun p => decide (p.type = .readWrite))) with
              | none => rw [hf] at hc; cases hc
              | some p =>
                rw [hf] at hc
                simp only at hc
                cases hq : cacti e.1 e.2.type e.2.size p.bwMax with
                | error x => rw [hq] at hc; cases hc
                | ok q =>
                  rw [hq] at hc
                  simp only [Except.ok.injEq] at hc
                  exact ⟨p, q, (readPort_iff _ _).1 hf, hq, hc.symm⟩

/-! ### Unrollings that are read -/

theorem item_parses {s : String} (h : lineEnd itemCore s.toList = true ∨ lineEnd flowCore s.toList = true) :
    ∃ name ds tail, DimName name ∧ s.toList = name ++ ([',', ' '] ++ ds) ++ tail ∧ parseItem s = .ok (String.ofList name, Nat.ofDigitChars 10 ds 0) := by
  have key : ∀ u, (∃ name ds, DimName name ∧ u = name ++ ([',', ' '] ++ ds) ∧ ds ≠ [] ∧ ∀ c ∈ ds, c.isDigit = true) → (s.toList = u ∨ s.toList = u ++ ['\n']) →
      ∃ name ds tail, DimName name ∧ s.toList = name ++ ([',', ' '] ++ ds) ++ tail ∧ parseItem s = .ok (String.ofList name, Nat.ofDigitChars 10 ds 0) := by
    rintro u ⟨name, ds, hn, rfl, h1, h2⟩ (h | h)
    · exact ⟨name, ds, [], hn, by rw [h, List.append_nil], parseItem_text hn h1 h2 (Or.inl rfl) (by rw [h, List.append_nil])⟩
    · exact ⟨name, ds, ['\n'], hn, h, parseItem_text hn h1 h2 (Or.inr rfl) h⟩
  rcases h with h | h
  · obtain ⟨u, hu, he⟩ := lineEnd_cases h
    exact key u (itemCore_cases hu) he
  · obtain ⟨u, hu, he⟩ := lineEnd_cases h
    exact key u (flowCore_cases hu) he

theorem singleDim_total {l : List String} (h : ∀ s ∈ l, lineEnd itemCore s.toList = true ∨ lineEnd flowCore s.toList = true) : ∃ r, singleDim l = .ok r := by
  have : ∃ ps, mapE parseItem l = .ok ps := by
    rw [mapE_total]
    intro s hs
    obtain ⟨_, _, _, _, _, hp⟩ := item_parses (h s hs)
    exact ⟨_, hp⟩
  obtain ⟨ps, hps⟩ := this
  exact ⟨_, by unfold singleDim; rw [hps]⟩

theorem spatialOf_total {p : List Char → Bool} (hp : ∀ t, p t = true → lineEnd itemCore t = true ∨ lineEnd flowCore t = true) {l : List (String × List String)} (h : FlowsOk p l) :
    ∃ r, spatialOf l = .ok r := by
  have : ∃ ps, mapE spatialEntry l = .ok ps := by
    rw [mapE_total]
    intro e he
    obtain ⟨h1, h2⟩ := h e he
    obtain ⟨r, hr⟩ := singleDim_total (fun s hs => hp _ (h2 s hs))
    exact ⟨(e.1, r), by unfold spatialEntry; rw [oaDim_ok h1]; simp only [hr]⟩
  obtain ⟨ps, hps⟩ := this
  exact ⟨_, by unfold spatialOf; rw [hps]⟩

theorem dimSizes_total {a : ArrR} (h : ArrOk a) (hl : a.dims.length = a.sizes.length) : dimSizes a = .ok ((a.dims.zip a.sizes).foldl (fun d e => d.set e.1 e.2) []) := by
  unfold dimSizes
  rw [mapE_oaDim h.1]
  simp only
  rw [if_pos (Nat.le_of_eq hl)]

theorem foldl_written {K V : Type} [DecidableEq K] (l : List (K × V)) (h : (l.map Prod.fst).Nodup) : l.foldl (fun d e => Dict.set d e.1 e.2) [] = l := by
  have := Conversion.foldl_set_nodup l [] (by simpa [Dict.WF, Dict.keys] using h)
  simpa using this

end Verif.Files
