import Verif.Files.Lemmas

namespace Verif.Files

/-! ### Accepted values can be read -/

/-- Values accepted by a rule can be read, and what is read satisfies `P`. -/
def Reads {α : Type} (r : Rule) (f : Doc → Option α) (P : α → Prop) : Prop := ∀ d, accepts r d = true → ∃ y, f d = some y ∧ P y

theorem leaf_accepts {ty : Ty} {n : Bool} {c : Doc → Bool} {d : Doc} (h : accepts (.leaf ty n c) d = true) : (d = .null ∧ n = true) ∨ (d.hasTy ty = true ∧ c d = true) := by
  unfold accepts at h
  cases d <;> simp_all

theorem reads_int {c : Doc → Bool} {P : Int → Prop} (h : ∀ i, c (.int i) = true → P i) : Reads (.leaf .integer false c) Doc.int? P := by
  intro d hd
  rcases leaf_accepts hd with ⟨-, h0⟩ | ⟨h1, h2⟩
  · cases h0
  · cases d <;> simp only [Doc.hasTy, Bool.false_eq_true] at h1
    exact ⟨_, rfl, h _ h2⟩

theorem reads_str {c : Doc → Bool} {P : String → Prop} (h : ∀ i, c (.str i) = true → P i) : Reads (.leaf .string false c) Doc.str? P := by
  intro d hd
  rcases leaf_accepts hd with ⟨-, h0⟩ | ⟨h1, h2⟩
  · cases h0
  · cases d <;> simp only [Doc.hasTy, Bool.false_eq_true] at h1
    exact ⟨_, rfl, h _ h2⟩

theorem reads_bool {c : Doc → Bool} : Reads (.leaf .boolean false c) Doc.bool? (fun _ => True) := by
  intro d hd
  rcases leaf_accepts hd with ⟨-, h0⟩ | ⟨h1, h2⟩
  · cases h0
  · cases d <;> simp only [Doc.hasTy, Bool.false_eq_true] at h1
    exact ⟨_, rfl, trivial⟩

theorem reads_num {c : Doc → Bool} : Reads (.leaf .float false c) Doc.num? (fun _ => True) := by
  intro d hd
  rcases leaf_accepts hd with ⟨-, h0⟩ | ⟨h1, h2⟩
  · cases h0
  · cases d <;> simp only [Doc.hasTy, Bool.false_eq_true] at h1 <;> exact ⟨_, rfl, trivial⟩

/-- A rule that also allows `null`. -/
theorem reads_null {α : Type} {ty : Ty} {c : Doc → Bool} {f : Doc → Option α} {P : α → Prop} (h : Reads (.leaf ty false c) f P) :
    Reads (.leaf ty true c) (Doc.orNull f) (fun y => ∀ z, y = some z → P z) := by
  intro d hd
  rcases leaf_accepts hd with ⟨rfl, -⟩ | ⟨h1, h2⟩
  · exact ⟨none, rfl, fun z hz => by cases hz⟩
  · have : accepts (.leaf ty false c) d = true := by
      unfold accepts
      cases d <;> simp_all [Doc.hasTy]
    obtain ⟨y, hy, hp⟩ := h d this
    refine ⟨some y, ?_, fun z hz => by cases hz; exact hp⟩
    cases d <;> simp_all [Doc.orNull, Doc.hasTy]

theorem mapM_length {α β : Type} {f : α → Option β} : ∀ {l : List α} {ys : List β}, l.mapM f = some ys → ys.length = l.length
  | [], ys, h => by simp at h; subst h; rfl
  | x :: t, ys, h => by
    cases hx : f x with
    | none => simp [List.mapM_cons, hx] at h
    | some y =>
      cases ht : t.mapM f with
      | none => simp [List.mapM_cons, hx, ht] at h
      | some zs =>
        simp [List.mapM_cons, hx, ht] at h
        subst h
        simp [mapM_length ht]

theorem mapM_reads {α β : Type} {f : α → Option β} {P : β → Prop} : ∀ (l : List α), (∀ x ∈ l, ∃ y, f x = some y ∧ P y) → ∃ ys, l.mapM f = some ys ∧ ys.length = l.length ∧ ∀ y ∈ ys, P y
  | [], _ => ⟨[], rfl, rfl, by simp⟩
  | x :: t, h => by
    obtain ⟨y, hy, hp⟩ := h x (by simp)
    obtain ⟨ys, h1, h2, h3⟩ := mapM_reads t (fun z hz => h z (by simp [hz]))
    refine ⟨y :: ys, by simp [List.mapM_cons, hy, h1], by simp [h2], ?_⟩
    intro z hz
    rcases List.mem_cons.1 hz with rfl | hz
    · exact hp
    · exact h3 z hz

theorem reads_list {α : Type} {len : Nat → Bool} {r : Rule} {f : Doc → Option α} {P : α → Prop} (h : Reads r f P) :
    Reads (.listOf false len r) (Doc.list? f) (fun l => len l.length = true ∧ ∀ y ∈ l, P y) := by
  intro d hd
  unfold accepts at hd
  cases d with
  | list l =>
    simp only [Bool.and_eq_true, List.all_eq_true] at hd
    obtain ⟨ys, h1, h2, h3⟩ := mapM_reads l (fun x hx => h x (hd.2 x hx))
    exact ⟨ys, h1, by rw [h2]; exact hd.1, h3⟩
  | _ => simp at hd

theorem reads_listNull {α : Type} {len : Nat → Bool} {r : Rule} {f : Doc → Option α} {P : α → Prop} (h : Reads r f P) :
    Reads (.listOf true len r) (Doc.orNull (Doc.list? f)) (fun y => ∀ l, y = some l → len l.length = true ∧ ∀ y ∈ l, P y) := by
  intro d hd
  unfold accepts at hd
  cases d with
  | null => exact ⟨none, rfl, fun l hl => by cases hl⟩
  | list l =>
    have : accepts (.listOf false len r) (.list l) = true := by unfold accepts; exact hd
    obtain ⟨ys, h1, h2⟩ := reads_list h _ this
    exact ⟨some ys, by simp only [Doc.orNull, h1, Option.map_some], fun l hl => by cases hl; exact h2⟩
  | _ => simp at hd

theorem reads_texts (p : List Char → Bool) : Reads (texts p) (Doc.list? Doc.str?) (fun l => ∀ s ∈ l, p s.toList = true) := by
  intro d hd
  obtain ⟨y, h1, h2⟩ := reads_list (reads_str (P := fun s => p s.toList = true) (fun _ h => h)) d hd
  exact ⟨y, h1, h2.2⟩

theorem reads_values {α : Type} {r : Rule} {f : Doc → Option α} {P : α → Prop} (h : Reads r f P) : Reads (.values r) (Doc.table f) (fun l => ∀ e ∈ l, P e.2) := by
  intro d hd
  unfold accepts at hd
  cases d with
  | dict es =>
    simp only [List.all_eq_true] at hd
    obtain ⟨ys, h1, -, h3⟩ := mapM_reads (f := fun e : String × Doc => (f e.2).map (fun v => (e.1, v))) (P := fun e => P e.2) es (fun x hx => by
      obtain ⟨y, hy, hp⟩ := h x.2 (hd x hx)
      exact ⟨(x.1, y), by rw [hy]; rfl, hp⟩)
    exact ⟨ys, h1, h3⟩
  | _ => simp at hd

theorem Fields.has_of_mem : ∀ {fs : Fields} {k : String}, k ∈ fs.names → ∃ q d r, fs.Has k q d r
  | .cons n q d r t, k, h => by
    simp only [Fields.names, List.mem_cons] at h
    rcases h with rfl | h
    · exact ⟨q, d, r, Or.inl ⟨rfl, rfl, rfl, rfl⟩⟩
    · obtain ⟨q', d', r', h'⟩ := Fields.has_of_mem h
      exact ⟨q', d', r', Or.inr h'⟩

/-- A mapping all of whose fields follow rules of the same form. -/
theorem reads_record {α : Type} {fs : Fields} {f : Doc → Option α} {P : α → Prop} {n : Bool} (h : ∀ k q d r, fs.Has k q d r → Reads r f P) (es : List (String × Doc))
    (hd : accepts (.record n fs) (.dict es) = true) : ∃ l, Doc.table f (.dict es) = some l ∧ ∀ e ∈ l, e.1 ∈ fs.names ∧ P e.2 := by
  unfold accepts at hd
  simp only [Bool.and_eq_true, List.all_eq_true, decide_eq_true_eq] at hd
  obtain ⟨ys, h1, -, h3⟩ := mapM_reads (f := fun e : String × Doc => (f e.2).map (fun v => (e.1, v))) (P := fun e => e.1 ∈ fs.names ∧ P e.2) es (fun x hx => by
    obtain ⟨q, dflt, r, hh⟩ := Fields.has_of_mem (hd.1 x hx)
    obtain ⟨y, hy, hp⟩ := h _ _ _ _ hh x.2 ((acceptsF_get fs es hd.2 hh).2 x hx rfl)
    exact ⟨(x.1, y), by rw [hy]; rfl, hd.1 x hx, hp⟩)
  exact ⟨ys, h1, h3⟩

theorem record_dict {fs : Fields} {d : Doc} (h : accepts (.record false fs) d = true) : ∃ es, d = .dict es ∧ acceptsF fs es = true := by
  unfold accepts at h
  cases d with
  | dict es =>
    simp only [Bool.and_eq_true] at h
    exact ⟨es, rfl, h.2⟩
  | _ => simp at h

theorem reads_table {α : Type} {fs : Fields} {f : Doc → Option α} {P : α → Prop} (h : ∀ k q d r, fs.Has k q d r → Reads r f P) :
    Reads (.record false fs) (Doc.table f) (fun l => ∀ e ∈ l, e.1 ∈ fs.names ∧ P e.2) := by
  intro d hd
  obtain ⟨es, rfl, -⟩ := record_dict hd
  exact reads_record h es hd

theorem reads_tableNull {α : Type} {fs : Fields} {f : Doc → Option α} {P : α → Prop} (h : ∀ k q d r, fs.Has k q d r → Reads r f P) :
    Reads (.record true fs) (Doc.orNull (Doc.table f)) (fun y => ∀ l, y = some l → ∀ e ∈ l, e.1 ∈ fs.names ∧ P e.2) := by
  intro d hd
  cases d with
  | null => exact ⟨none, rfl, fun l hl => by cases hl⟩
  | dict es =>
    obtain ⟨l, h1, h2⟩ := reads_record h es hd
    exact ⟨some l, by simp only [Doc.orNull, h1, Option.map_some], fun l' hl => by cases hl; exact h2⟩
  | _ => simp [accepts] at hd

/-- A field that is required, or known to be present. -/
theorem field_reads {α : Type} {fs : Fields} {es : List (String × Doc)} (h : acceptsF fs es = true) {name : String} {req : Bool} {dflt : Option Doc} {r : Rule}
    (hh : fs.Has name req dflt r) (hp : req = true ∨ Dict.get? es name ≠ none) {f : Doc → Option α} {P : α → Prop} (hr : Reads r f P) :
    ∃ y, (Doc.dict es).field name f = some y ∧ P y := by
  cases hg : Dict.get? es name with
  | none =>
    rcases hp with hp | hp
    · have := (acceptsF_get fs es h hh).1 hg
      rw [hp] at this
      cases this
    · exact absurd hg hp
  | some v =>
    obtain ⟨y, hy, hp⟩ := hr v (acceptsF_val h hh hg)
    exact ⟨y, by simp only [Doc.field, Doc.item, hg, Option.bind_some, hy], hp⟩

theorem field?_reads {α : Type} {fs : Fields} {es : List (String × Doc)} (h : acceptsF fs es = true) {name : String} {req : Bool} {dflt : Option Doc} {r : Rule}
    (hh : fs.Has name req dflt r) {f : Doc → Option α} {P : α → Prop} (hr : Reads r f P) :
    ∃ y, (Doc.dict es).field? name f = some y ∧ ∀ z, y = some z → P z := by
  cases hg : Dict.get? es name with
  | none => exact ⟨none, by simp only [Doc.field?, Doc.item, hg], fun z hz => by cases hz⟩
  | some v =>
    obtain ⟨y, hy, hp⟩ := hr v (acceptsF_val h hh hg)
    exact ⟨some y, by simp only [Doc.field?, Doc.item, hg, hy, Option.map_some], fun z hz => by cases hz; exact hp⟩

theorem req_reads {α : Type} {fs : Fields} {es : List (String × Doc)} (h : acceptsF fs es = true) (name : String) {r : Rule} {f : Doc → Option α} {P : α → Prop}
    (hr : Reads r f P) (hh : fs.Has name true none r) : ∃ y, (Doc.dict es).field name f = some y ∧ P y := field_reads h hh (Or.inl rfl) hr

/-- All fields with a default are present. -/
def Completed (fs : Fields) (es : List (String × Doc)) : Prop := ∀ name req v r, fs.Has name req (some v) r → Dict.get? es name ≠ none

theorem def_reads {α : Type} {fs : Fields} {es : List (String × Doc)} (h : acceptsF fs es = true) (hc : Completed fs es) (name : String) (req : Bool) (v : Doc) {r : Rule}
    {f : Doc → Option α} {P : α → Prop} (hr : Reads r f P) (hh : fs.Has name req (some v) r) : ∃ y, (Doc.dict es).field name f = some y ∧ P y :=
  field_reads h hh (Or.inr (hc _ _ _ _ hh)) hr

theorem tInt_reads : Reads tInt Doc.int? (fun _ => True) := reads_int (fun _ _ => trivial)
theorem tStr_reads : Reads tStr Doc.str? (fun _ => True) := reads_str (fun _ _ => trivial)
theorem tText_reads (p : List Char → Bool) : Reads (tText p) Doc.str? (fun s => p s.toList = true) := reads_str (fun _ h => h)
theorem tBool_reads : Reads tBool Doc.bool? (fun _ => True) := reads_bool

/-- What the schema says about a port that has been read. -/
def PortOk (p : PortR) : Prop := portText p.name.toList = true ∧ ∀ s ∈ p.alloc, allocText s.toList = true

theorem port_reads : Reads portRule readPort PortOk := by
  intro d hd
  obtain ⟨es, rfl, h⟩ := record_dict hd
  obtain ⟨name, h1, p1⟩ := req_reads h "name" (tText_reads portText) (by simp [Fields.Has])
  obtain ⟨type, h2, -⟩ := field_reads (name := "type") (req := true) (dflt := none) (f := Doc.ptype?) (P := fun _ => True) h
    (by simp only [Fields.Has, String.reduceEq, false_and, true_and, false_or, or_false]; rfl) (Or.inl rfl) (by
      intro d hd
      rcases leaf_accepts hd with ⟨-, h0⟩ | ⟨h1, h2⟩
      · cases h0
      · cases d <;> simp only [Doc.hasTy, Bool.false_eq_true] at h1
        rename_i s
        simp only [among, decide_eq_true_eq, List.mem_cons, List.not_mem_nil, or_false] at h2
        rcases h2 with rfl | rfl | rfl
        · exact ⟨.read, by simp [Doc.ptype?], trivial⟩
        · exact ⟨.write, by simp [Doc.ptype?], trivial⟩
        · exact ⟨.readWrite, by simp [Doc.ptype?], trivial⟩)
  obtain ⟨lo, h3, -⟩ := req_reads h "bandwidth_min" tInt_reads (by simp [Fields.Has])
  obtain ⟨hi, h4, -⟩ := req_reads h "bandwidth_max" tInt_reads (by simp [Fields.Has])
  obtain ⟨al, h5, p5⟩ := req_reads h "allocation" (reads_texts allocText) (by simp [Fields.Has])
  exact ⟨⟨name, type, lo, hi, al⟩, by simp only [readPort, h1, h2, h3, h4, h5]; rfl, p1, p5⟩

/-- What the schema says about a memory that has been read. -/
def MemOk (m : MemR) : Prop :=
  (∀ p ∈ m.ports, PortOk p) ∧ (∀ o ∈ m.operands, operandText o.toList = true) ∧ (∀ d ∈ m.served, dimText d.toList = true)

theorem memRule_eq : memRule = .record false memFields := rfl

/-- Fields with a default are present in a completed mapping. -/
theorem normalize_present {fs : Fields} (hn : fs.names.Nodup) (es : List (String × Doc)) {name : String} {req : Bool} {v : Doc} {r : Rule}
    (h : fs.Has name req (some v) r) : Dict.get? (normalizeF fs (fill fs es)) name ≠ none := by
  rw [normalize_field hn es h]
  unfold filled
  cases Dict.get? es name with
  | none => simp
  | some x =>
    cases x with
    | null =>
      simp only
      split <;> simp
    | _ => simp

theorem normalize_record {n : Bool} {fs : Fields} {d : Doc} {es : List (String × Doc)} (h : normalize (.record n fs) d = .dict es) : ∃ es0, es = normalizeF fs (fill fs es0) := by
  unfold normalize at h
  cases d with
  | dict es0 =>
    simp only [Doc.dict.injEq] at h
    exact ⟨es0, h.symm⟩
  | _ => simp at h

theorem num_reads : Reads (tFloat true) (Doc.orNull Doc.num?) (fun _ => True) := by
  intro d hd
  obtain ⟨y, h1, -⟩ := reads_null (reads_num (c := anyDoc)) d hd
  exact ⟨y, h1, trivial⟩

theorem mem_reads (d : Doc) (hd : accepts memRule (normalize memRule d) = true) : ∃ m, readMem (normalize memRule d) = some m ∧ MemOk m := by
  rw [memRule_eq] at hd ⊢
  obtain ⟨es, he, h⟩ := record_dict hd
  obtain ⟨es0, h0⟩ := normalize_record he
  have hn : memFields.names.Nodup := by decide +kernel
  have hp : Completed memFields es := by
    intro name req v r hh
    rw [h0]
    exact normalize_present hn es0 hh
  rw [he]
  obtain ⟨x1, h1, -⟩ := req_reads h "size" tInt_reads (by simp [Fields.Has, memFields])
  obtain ⟨x2, h2, -⟩ := def_reads h hp "r_cost" false .null num_reads (by simp [Fields.Has, memFields])
  obtain ⟨x3, h3, -⟩ := def_reads h hp "w_cost" false .null num_reads (by simp [Fields.Has, memFields])
  obtain ⟨x4, h4, -⟩ := def_reads h hp "area" false .null num_reads (by simp [Fields.Has, memFields])
  obtain ⟨x5, h5, -⟩ := req_reads h "latency" tInt_reads (by simp [Fields.Has, memFields])
  obtain ⟨x6, h6, -⟩ := def_reads h hp "mem_type" false (.str "sram") tStr_reads (by simp [Fields.Has, memFields])
  obtain ⟨x7, h7, -⟩ := def_reads h hp "auto_cost_extraction" false (.bool false) tBool_reads (by simp [Fields.Has, memFields])
  obtain ⟨x8, h8, p8⟩ := req_reads h "operands" (reads_texts operandText) (by simp [Fields.Has, memFields])
  obtain ⟨x9, h9, p9⟩ := req_reads h "ports" (reads_list (len := anyLen) port_reads) (by simp [Fields.Has, memFields])
  obtain ⟨x10, h10, p10⟩ := req_reads h "served_dimensions" (reads_texts dimText) (by simp [Fields.Has, memFields])
  obtain ⟨x11, h11, -⟩ := def_reads h hp "force_double_buffering" false (.bool false) tBool_reads (by simp [Fields.Has, memFields])
  exact ⟨⟨x1, x2, x3, x4, x5, x6, x7, x8, x9, x10, x11⟩, by simp only [readMem, h1, h2, h3, h4, h5, h6, h7, h8, h9, h10, h11]; rfl, p9.2, p8, p10⟩

/-- What the schema says about an array that has been read. -/
def ArrOk (a : ArrR) : Prop := (∀ d ∈ a.dims, dimText d.toList = true) ∧ (∀ i ∈ a.sizes, 0 ≤ i) ∧ (∀ l, a.prec = some l → l.length = 2)

theorem arr_reads (d : Doc) (hd : accepts arrayRule (normalize arrayRule d) = true) : ∃ a, readArr (normalize arrayRule d) = some a ∧ ArrOk a := by
  have hr : arrayRule = .record false arrayFields := rfl
  rw [hr] at hd ⊢
  obtain ⟨es, he, h⟩ := record_dict hd
  obtain ⟨es0, h0⟩ := normalize_record he
  have hn : arrayFields.names.Nodup := by decide +kernel
  have hp : Completed arrayFields es := by
    intro name req v r hh
    rw [h0]
    exact normalize_present hn es0 hh
  rw [he]
  obtain ⟨x1, h1, p1⟩ := req_reads h "dimensions" (reads_texts dimText) (by simp [Fields.Has, arrayFields])
  obtain ⟨x2, h2, -⟩ := def_reads h hp "is_imc" false (.bool false) tBool_reads (by simp [Fields.Has, arrayFields])
  obtain ⟨x3, h3, p3⟩ := req_reads h "sizes" (reads_list (len := anyLen) (reads_int (c := natural) (P := fun i => 0 ≤ i)
    (fun i hi => by simpa [natural] using hi))) (by simp [Fields.Has, arrayFields])
  obtain ⟨x4, h4, p4⟩ := field?_reads (name := "input_precision") (req := false) (dflt := none) h (by simp [Fields.Has, arrayFields]) (reads_list (len := two) tInt_reads)
  obtain ⟨x5, h5, -⟩ := field?_reads (name := "unit_energy") (req := false) (dflt := none) (r := tFloat false) h (by simp [Fields.Has, arrayFields]) reads_num
  obtain ⟨x6, h6, -⟩ := field?_reads (name := "unit_area") (req := false) (dflt := none) (r := tFloat false) h (by simp [Fields.Has, arrayFields]) reads_num
  obtain ⟨x7, h7, -⟩ := def_reads h hp "imc_type" false .null (reads_null (reads_str (c := among ["analog", "digital"]) (P := fun _ => True) (fun _ _ => trivial)))
    (by simp [Fields.Has, arrayFields])
  obtain ⟨x8, h8, -⟩ := def_reads h hp "adc_resolution" false (.int 0) num_reads (by simp [Fields.Has, arrayFields])
  obtain ⟨x9, h9, -⟩ := def_reads h hp "bit_serial_precision" true .null num_reads (by simp [Fields.Has, arrayFields])
  refine ⟨⟨x1, x2, x3, x4, x5, x6, x7, x8, x9⟩, by simp only [readArr, h1, h2, h3, h4, h5, h6, h7, h8, h9]; rfl, p1, p3.2, ?_⟩
  intro l hl
  simpa [two] using (p4 l hl).1

theorem dim_name {k : String} (p : List Char → Bool) (h : k ∈ (dimFields p).names) : dimText k.toList = true := by
  simp only [dimFields, Fields.names, List.mem_cons, List.not_mem_nil, or_false] at h
  rcases h with rfl | rfl | rfl | rfl <;> decide +kernel

theorem flow_name {k : String} (h : k ∈ flowFields.names) : dimText k.toList = true := by
  simp only [flowFields, Fields.names, List.mem_cons, List.not_mem_nil, or_false] at h
  rcases h with rfl | rfl | rfl | rfl <;> decide +kernel

/-- Unrollings that follow the schema. -/
def FlowsOk (p : List Char → Bool) (l : List (String × List String)) : Prop := ∀ e ∈ l, dimText e.1.toList = true ∧ ∀ s ∈ e.2, p s.toList = true

theorem flows_reads : Reads flowsRule (Doc.table (Doc.list? Doc.str?)) (FlowsOk (lineEnd flowCore)) := by
  intro d hd
  obtain ⟨l, h1, h2⟩ := reads_table (fs := flowFields) (f := Doc.list? Doc.str?) (P := fun l => ∀ s ∈ l, lineEnd flowCore s.toList = true) (by
    intro k q d r h
    simp only [flowFields, Fields.Has, or_false] at h
    rcases h with ⟨-, -, -, rfl⟩ | ⟨-, -, -, rfl⟩ | ⟨-, -, -, rfl⟩ | ⟨-, -, -, rfl⟩ <;> exact reads_texts _) d hd
  exact ⟨l, h1, fun e he => ⟨flow_name (h2 e he).1, (h2 e he).2⟩⟩

theorem dims_has {p : List Char → Bool} : ∀ k q d r, (dimFields p).Has k q d r → Reads r (Doc.list? Doc.str?) (fun l => ∀ s ∈ l, p s.toList = true) := by
  intro k q d r h
  simp only [dimFields, Fields.Has, or_false] at h
  rcases h with ⟨-, -, -, rfl⟩ | ⟨-, -, -, rfl⟩ | ⟨-, -, -, rfl⟩ | ⟨-, -, -, rfl⟩ <;> exact reads_texts _

/-- What the schema says about an accelerator that has been read. -/
def AccOk (a : AccR) : Prop := (∀ e ∈ a.mems, MemOk e.2) ∧ ArrOk a.arr ∧ (∀ l, a.flows = some l → FlowsOk (lineEnd flowCore) l)

theorem acc_reads (d : Doc) (hd : accepts accRule (normalize accRule d) = true) : ∃ a, readAcc (normalize accRule d) = some a ∧ AccOk a := by
  have hr : accRule = .record false accFields := rfl
  rw [hr] at hd ⊢
  obtain ⟨es, he, h⟩ := record_dict hd
  obtain ⟨es0, h0⟩ := normalize_record he
  have hn : accFields.names.Nodup := by decide +kernel
  rw [he]
  obtain ⟨x1, h1, -⟩ := req_reads h "name" tStr_reads (by simp [Fields.Has, accFields])
  have hm : accFields.Has "memories" true none (.values memRule) := by simp [Fields.Has, accFields]
  have ha : accFields.Has "operational_array" true none arrayRule := by simp [Fields.Has, accFields]
  have g2 := normalize_field hn es0 hm
  have g3 := normalize_field hn es0 ha
  rw [← h0] at g2 g3
  simp only [filled] at g2 g3
  have e2 : ∃ x, (Doc.dict es).field "memories" (Doc.table readMem) = some x ∧ ∀ e ∈ x, MemOk e.2 := by
    cases hg : Dict.get? es0 "memories" with
    | none =>
      rw [hg] at g2
      have := (acceptsF_get _ _ h hm).1 g2
      cases this
    | some v =>
      rw [hg, Option.map_some] at g2
      have hv := acceptsF_val h hm g2
      unfold accepts normalize at hv
      cases v with
      | dict ms =>
        simp only [List.all_eq_true] at hv
        obtain ⟨ys, q1, -, q3⟩ := mapM_reads (f := fun e : String × Doc => (readMem e.2).map (fun v => (e.1, v))) (P := fun e => MemOk e.2)
          (ms.map (fun e => (e.1, normalize memRule e.2))) (fun x hx => by
            obtain ⟨e, he, rfl⟩ := List.mem_map.1 hx
            obtain ⟨m, m1, m2⟩ := mem_reads e.2 (hv _ hx)
            exact ⟨(e.1, m), by rw [m1]; rfl, m2⟩)
        refine ⟨ys, ?_, q3⟩
        simp only [Doc.field, Doc.item, g2, Option.bind_some, normalize, Doc.table]
        exact q1
      | _ => simp at hv
  have e3 : ∃ x, (Doc.dict es).field "operational_array" readArr = some x ∧ ArrOk x := by
    cases hg : Dict.get? es0 "operational_array" with
    | none =>
      rw [hg] at g3
      have := (acceptsF_get _ _ h ha).1 g3
      cases this
    | some v =>
      rw [hg, Option.map_some] at g3
      obtain ⟨a, a1, a2⟩ := arr_reads v (acceptsF_val h ha g3)
      exact ⟨a, by simp only [Doc.field, Doc.item, g3, Option.bind_some, a1], a2⟩
  obtain ⟨x2, h2, p2⟩ := e2
  obtain ⟨x3, h3, p3⟩ := e3
  obtain ⟨x4, h4, p4⟩ := field?_reads (name := "dataflows") (req := false) (dflt := none) h (by simp [Fields.Has, accFields]) flows_reads
  exact ⟨⟨x1, x2, x3, x4⟩, by simp only [readAcc, h1, h2, h3, h4]; rfl, p2, p3, p4⟩

/-! ### Entries of lists -/

theorem addDefaults_present : ∀ (fs : Fields) (es : List (String × Doc)) (k : String), k ∈ fs.names → Dict.get? (addDefaults fs es) k ≠ none
  | .cons n _ d r t, es, k, h => by
    simp only [Fields.names, List.mem_cons] at h
    unfold addDefaults
    by_cases hk : k = n
    · subst hk
      cases hg : Dict.get? es k with
      | none =>
        have := addDefaults_keeps t (Dict.set es k (getDefault d r)) k _ (Dict.get?_set_self _ _ _)
        simp only [this]
        simp
      | some x =>
        have := addDefaults_keeps t es k x hg
        simp only [this]
        simp
    · have hm := h.resolve_left hk
      cases hg : Dict.get? es n with
      | none => exact addDefaults_present t _ k hm
      | some x => exact addDefaults_present t _ k hm

theorem all_reads {α : Type} {fs : Fields} {es0 : List (String × Doc)} (h : acceptsF fs (addDefaults fs es0) = true) (name : String) (req : Bool) (dflt : Option Doc) {r : Rule}
    {f : Doc → Option α} {P : α → Prop} (hr : Reads r f P) (hh : fs.Has name req dflt r) : ∃ y, (Doc.dict (addDefaults fs es0)).field name f = some y ∧ P y :=
  field_reads h hh (Or.inr (addDefaults_present fs es0 name hh.mem)) hr

/-- What the schema says about a mapping entry that has been read. -/
def MapOk (m : MapR) : Prop :=
  (∀ l, m.spatial = some l → FlowsOk (lineEnd itemCore) l) ∧ (∀ e ∈ m.links, e.1 ∈ ["O", "W", "I"]) ∧ FlowsOk (lineEnd hintCore) m.hint

theorem order_reads : Reads (.listOf false anyLen (.pair tStr (.oneOf tInt (.leaf .string false (among ["*"]))))) (Doc.list? orderItem) (fun _ => True) := by
  intro d hd
  obtain ⟨y, h, -⟩ := reads_list (f := orderItem) (P := fun _ => True) (r := .pair tStr (.oneOf tInt (.leaf .string false (among ["*"])))) (by
    intro d hd
    unfold accepts at hd
    split at hd
    · rename_i x y
      simp only [Bool.and_eq_true] at hd
      obtain ⟨s, h1, -⟩ := tStr_reads x hd.1
      cases x <;> simp only [Doc.str?, reduceCtorEq, Option.some.injEq] at h1
      cases y <;> simp [accepts, tInt, Doc.hasTy] at hd
      · exact ⟨_, rfl, trivial⟩
      · exact ⟨_, rfl, trivial⟩
    · cases hd) d hd
  exact ⟨y, h, trivial⟩

theorem map_reads (es : List (String × Doc)) (hd : accepts (.record false mapFields) (.dict (addDefaults mapFields es)) = true) :
    ∃ m, readMap (.dict (addDefaults mapFields es)) = some m ∧ MapOk m := by
  obtain ⟨es', he, h⟩ := record_dict hd
  cases he
  obtain ⟨x1, h1, -⟩ := all_reads h "name" true none tStr_reads (by simp [Fields.Has, mapFields])
  obtain ⟨x2, h2, p2⟩ := all_reads h "spatial_mapping" false none (reads_tableNull (dims_has (p := lineEnd itemCore))) (by simp [Fields.Has, mapFields, perDim])
  obtain ⟨x3, h3, p3⟩ := all_reads h "memory_operand_links" false (some defaultLinks)
    (reads_table (fs := .cons "O" true none tStr <| .cons "W" true none tStr <| .cons "I" true none tStr .nil) (f := Doc.str?) (P := fun _ => True) (by
      intro k q d r hh
      simp only [Fields.Has, or_false] at hh
      rcases hh with ⟨-, -, -, rfl⟩ | ⟨-, -, -, rfl⟩ | ⟨-, -, -, rfl⟩ <;> exact tStr_reads)) (by simp [Fields.Has, mapFields])
  obtain ⟨x4, h4, p4⟩ := all_reads h "spatial_mapping_hint" false none (reads_table (dims_has (p := lineEnd hintCore))) (by simp [Fields.Has, mapFields, perDim])
  obtain ⟨x5, h5, -⟩ := all_reads h "temporal_ordering" false none order_reads (by simp [Fields.Has, mapFields])
  refine ⟨⟨x1, x2, x3, x4, x5⟩, by simp only [readMap, h1, h2, h3, h4, h5]; rfl, ?_, ?_, ?_⟩
  · intro l hl e he
    exact ⟨dim_name _ (p2 l hl e he).1, (p2 l hl e he).2⟩
  · intro e he
    simpa [Fields.names] using (p3 e he).1
  · intro e he
    exact ⟨dim_name _ (p4 e he).1, (p4 e he).2⟩

theorem layer_reads (eqn : List Char → Bool) (rel : List Char → Option LayerBuild.RelD) (es : List (String × Doc))
    (hd : accepts (.record false (layerFields eqn (fun t => (rel t).isSome))) (.dict (addDefaults (layerFields eqn (fun t => (rel t).isSome)) es)) = true) :
    ∃ m, readLayer rel (.dict (addDefaults (layerFields eqn (fun t => (rel t).isSome)) es)) = some m := by
  obtain ⟨es', he, h⟩ := record_dict hd
  cases he
  obtain ⟨x1, h1, -⟩ := all_reads h "id" true none tInt_reads (by simp [Fields.Has, layerFields])
  obtain ⟨x2, h2, -⟩ := all_reads h "name" false (some .null) (reads_null tStr_reads) (by simp [Fields.Has, layerFields])
  obtain ⟨x3, h3, -⟩ := all_reads h "operator_type" true none (reads_str (c := among operators) (P := fun _ => True) (fun _ _ => trivial)) (by simp [Fields.Has, layerFields])
  obtain ⟨x4, h4, -⟩ := all_reads h "equation" true none (tText_reads eqn) (by simp [Fields.Has, layerFields])
  obtain ⟨x5, h5, -⟩ := all_reads h "dimension_relations" false none (reads_list (len := anyLen) (r := tText (fun t => (rel t).isSome))
    (f := fun e => e.str?.bind (fun s => rel s.toList)) (P := fun _ => True) (by
      intro d hd
      obtain ⟨s, s1, s2⟩ := tText_reads (fun t => (rel t).isSome) d hd
      obtain ⟨y, hy⟩ := Option.isSome_iff_exists.1 s2
      exact ⟨y, by simp only [s1, Option.bind_some, hy], trivial⟩)) (by simp [Fields.Has, layerFields, texts])
  obtain ⟨x6, h6, -⟩ := all_reads h "loop_dims" true none (reads_list (len := anyLen) tStr_reads) (by simp [Fields.Has, layerFields])
  obtain ⟨x7, h7, -⟩ := all_reads h "loop_sizes" true none (reads_list (len := anyLen) tInt_reads) (by simp [Fields.Has, layerFields])
  obtain ⟨x8, h8, -⟩ := all_reads h "operand_precision" true none
    (reads_table (fs := .cons "I" false none tInt <| .cons "W" false none tInt <| .cons "O" true none tInt <| .cons "O_final" true none tInt .nil) (f := Doc.int?) (P := fun _ => True) (by
      intro k q d r hh
      simp only [Fields.Has, or_false] at hh
      rcases hh with ⟨-, -, -, rfl⟩ | ⟨-, -, -, rfl⟩ | ⟨-, -, -, rfl⟩ | ⟨-, -, -, rfl⟩ <;> exact tInt_reads)) (by simp [Fields.Has, layerFields])
  obtain ⟨x9, h9, -⟩ := all_reads h "operand_source" false none
    (reads_table (fs := .cons "W" false none tInt <| .cons "I" false none tInt .nil) (f := Doc.int?) (P := fun _ => True) (by
      intro k q d r hh
      simp only [Fields.Has, or_false] at hh
      rcases hh with ⟨-, -, -, rfl⟩ | ⟨-, -, -, rfl⟩ <;> exact tInt_reads)) (by simp [Fields.Has, layerFields])
  obtain ⟨x10, h10, -⟩ := all_reads h "pr_loop_dims" false (some .null) (reads_listNull (len := anyLen) tStr_reads) (by simp [Fields.Has, layerFields])
  obtain ⟨x11, h11, -⟩ := all_reads h "pr_loop_sizes" false (some .null) (reads_listNull (len := anyLen) tInt_reads) (by simp [Fields.Has, layerFields])
  obtain ⟨x12, h12, -⟩ := all_reads h "padding" false (some .null) (reads_listNull (len := anyLen) (r := .listOf false two tInt) (f := pairInt?) (P := fun _ => True) (by
      intro d hd
      obtain ⟨l, l1, l2, -⟩ := reads_list (len := two) tInt_reads d hd
      cases d with
      | list ds =>
        simp only [two, decide_eq_true_eq] at l2
        simp only [Doc.list?] at l1
        match ds, l1 with
        | [], l1 => simp at l1; subst l1; simp at l2
        | [a], l1 =>
          cases a <;> simp [Doc.int?] at l1
          subst l1
          simp at l2
        | [a, b], l1 =>
          cases a <;> cases b <;> simp [Doc.int?] at l1
          exact ⟨_, rfl, trivial⟩
        | a :: b :: c :: t, l1 =>
          exfalso
          have := mapM_length l1
          simp only [List.length_cons] at this
          omega
      | _ => simp [Doc.list?] at l1)) (by simp [Fields.Has, layerFields])
  exact ⟨_, by simp only [readLayer, h1, h2, h3, h4, h5, h6, h7, h8, h9, h10, h11, h12]; rfl⟩

end Verif.Files
