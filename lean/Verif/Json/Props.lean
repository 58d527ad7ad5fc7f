import Verif.Json.Lemmas

/-! C118: what is in a saved file is what is in the result.  C119: the figures in the files of a run add up. -/

namespace Verif.Json

/-! ### C118: files and objects -/

/-- Every object whose parts all have a representation can be saved, and the file says at every place what the object holds there: a place
exists in the file exactly when it exists in the object, and the part of the file at that place is what would be saved for that part of
the object alone. -/
theorem saved_at {v : Val} (hg : Good v) : ∃ j, save false v = .ok j ∧ ∀ p,
    match valAt v p with
    | none => j.at p = none
    | some w => Good w ∧ ∃ j', save false w = .ok j' ∧ j.at p = some j' := by
  obtain ⟨r, hr⟩ := good_ok v hg
  refine ⟨dump r, save_iff.2 ⟨r, hr, rfl⟩, ?_⟩
  have key : ∀ (p : List Step) (v : Val) (j : Json), Good v → save false v = .ok j →
      match valAt v p with
      | none => j.at p = none
      | some w => Good w ∧ ∃ j', save false w = .ok j' ∧ j.at p = some j' := by
    intro p
    induction p with
    | nil => intro v j hg h; exact ⟨hg, j, h, rfl⟩
    | cons st p ih =>
      intro v j hg h
      have hs := step_spec v j st hg h
      simp only [valAt, Json.at]
      cases hf : field v st with
      | none =>
        rw [hf] at hs
        simp only at hs
        simp [hs]
      | some w =>
        rw [hf] at hs
        obtain ⟨hw, j', h1, h2⟩ := hs
        rw [h2]
        simp only [Option.bind_some]
        exact ih w j' hw h1
  exact fun p => key p v _ hg (save_iff.2 ⟨r, hr, rfl⟩)

theorem save_num (q : ℚ) : save false (num q) = .ok (.num q) := rfl

/-- Numbers in the file. -/
theorem saved_number {v : Val} (hg : Good v) {j : Json} (h : save false v = .ok j) (p : List Step) :
    (∀ q, valAt v p = some (num q) → j.numAt p = some q) ∧ (valAt v p = none → j.numAt p = none) := by
  obtain ⟨j0, h0, hp⟩ := saved_at hg
  rw [h] at h0
  cases h0
  have hp := hp p
  constructor
  · intro q hq
    rw [hq] at hp
    obtain ⟨_, j', h1, h2⟩ := hp
    rw [save_num] at h1
    cases h1
    simp [Json.numAt, h2]
  · intro hn
    rw [hn] at hp
    simp only at hp
    simp [Json.numAt, hp]

/-! ### Tables -/

variable {Op : Type} [DecidableEq Op]

theorem list_json {A : Type} {f : A → Val} {g : A → Json} : ∀ l : List A, (∀ x ∈ l, save false (f x) = .ok (g x)) →
    ∃ rs, handlerL false (l.map f) = .ok rs ∧ dumpL rs = l.map g
  | [], _ => ⟨[], rfl, rfl⟩
  | x :: t, h => by
    obtain ⟨rs, h1, h2⟩ := list_json t (fun y hy => h y (by simp [hy]))
    obtain ⟨r, h3, h4⟩ := save_iff.1 (h x (by simp))
    refine ⟨r :: rs, ?_, ?_⟩
    · simp only [List.map_cons, handlerL, h3, h1]
    · simp only [List.map_cons, dumpL, h4, h2]

theorem save_list {A : Type} {f : A → Val} {g : A → Json} (l : List A) (h : ∀ x ∈ l, save false (f x) = .ok (g x)) :
    save false (.list (l.map f)) = .ok (.arr (l.map g)) := by
  obtain ⟨rs, h1, h2⟩ := list_json l h
  simp only [save, handler, h1, dump, h2]

theorem entries_json {A : Type} {k : A → List Char} {kv : A → Val} {f : A → Val} {g : A → Json} : ∀ (l : List A) (xs : List (Leaf × Rep)),
    (∀ x ∈ l, keyName (kv x) = some (k x)) → (∀ x ∈ l, save false (f x) = .ok (g x)) →
    List.Forall₂ Entry (l.map (fun x => (kv x, f x))) xs → dumpE xs = l.map (fun x => (k x, g x))
  | [], xs, _, _, h => by
    simp only [List.map_nil, List.forall₂_nil_left_iff] at h
    subst h; rfl
  | x :: t, xs, hk, hg, h => by
    simp only [List.map_cons, List.forall₂_cons_left_iff] at h
    obtain ⟨b, u, ⟨s, h1, h2, h3⟩, h4, rfl⟩ := h
    obtain ⟨b1, b2⟩ := b
    simp only at h1 h2 h3
    rw [hk x (by simp)] at h1
    cases h1
    have e := hg x (by simp)
    simp only [save, h3, Except.ok.injEq] at e
    simp only [dumpE, dumpP, h2, dumpKey, e, List.map_cons]
    rw [entries_json t u (fun y hy => hk y (by simp [hy])) (fun y hy => hg y (by simp [hy])) h4]

/-- A dictionary of things that can be saved, with different keys. -/
theorem save_dict {A : Type} {k : A → List Char} {kv : A → Val} {f : A → Val} {g : A → Json} (l : List A)
    (hk : ∀ x ∈ l, keyName (kv x) = some (k x)) (hn : (l.map k).Nodup) (hg : ∀ x ∈ l, save false (f x) = .ok (g x)) :
    save false (.dict (l.map (fun x => (kv x, f x)))) = .ok (.obj (l.map (fun x => (k x, g x)))) := by
  have e1 : (l.map (fun x => (kv x, f x))).map (fun e => keyName e.1) = (l.map k).map some := by
    rw [List.map_map, List.map_map]
    exact List.map_congr_left (fun x hx => hk x hx)
  obtain ⟨xs, h1, h2⟩ := handlerE_ok (l.map (fun x => (kv x, f x))) [] (by
    intro e he
    obtain ⟨x, hx, rfl⟩ := List.mem_map.1 he
    obtain ⟨r, hr, _⟩ := save_iff.1 (hg x hx)
    exact ⟨by simp only [hk x hx]; simp, r, hr⟩) (by rw [e1]; exact hn.map (Option.some_injective _)) (by simp)
  simp only [save, handler, h1, dump]
  rw [List.nil_append, entries_json l xs hk hg h2]

theorem wf_names {V : Type} {name : Op → List Char} (hi : Function.Injective name) {t : Dict Op V} (hw : t.WF) : (t.map (fun e => name e.1)).Nodup := by
  have := hw.map hi
  unfold Dict.keys at this
  rwa [List.map_map] at this

/-- A table is saved as an object with a list for each operand. -/
theorem save_table {V : Type} {name : Op → List Char} (hi : Function.Injective name) {f : V → Val} {g : V → Json} {t : Dict Op (List V)} (hw : t.WF)
    (hf : ∀ x, save false (f x) = .ok (g x)) : save false (table name f t) = .ok (.obj (t.map (fun e => (name e.1, Json.arr (e.2.map g))))) := by
  have h1 : ∀ e ∈ t, keyName (named (name e.1)) = some (name e.1) := by
    intro e _
    simp [named, keyName]
  have h2 : ∀ e ∈ t, save false (Val.list (e.2.map f)) = .ok (Json.arr (e.2.map g)) := fun e _ => save_list e.2 (fun x _ => hf x)
  have h3 := wf_names hi hw
  unfold table
  exact save_dict (A := Op × List V) (k := fun e => name e.1) (kv := fun e => named (name e.1)) (f := fun e => Val.list (e.2.map f)) (g := fun e => Json.arr (e.2.map g)) t h1 h3 h2

theorem good_table {V : Type} {name : Op → List Char} (hi : Function.Injective name) {f : V → Val} {t : Dict Op (List V)} (hw : t.WF)
    (hf : ∀ x, Good (f x)) : Good (table name f t) := by
  simp only [table, Good]
  refine ⟨(goodE_iff _).2 ?_, ?_⟩
  · intro e he
    obtain ⟨x, _, rfl⟩ := List.mem_map.1 he
    refine ⟨by simp [named, keyName], ?_⟩
    simp only [Good]
    refine (goodL_iff _).2 ?_
    intro v hv
    obtain ⟨y, _, rfl⟩ := List.mem_map.1 hv
    exact hf y
  · have := (wf_names hi hw).map (Option.some_injective _)
    rw [List.map_map] at this ⊢
    exact this

theorem good_num (q : ℚ) : Good (num q) := by simp [num, Good]

theorem good_tdict (l : List (String × Val)) : Good (tdict l) ↔ (∀ e ∈ l, Good e.2) ∧ (l.map Prod.fst).Nodup := by
  simp only [tdict, Good, goodE_iff, List.map_map, Function.comp_def, keyName, List.forall_mem_map]
  have e : l.map (fun x => some x.1.toList) = (l.map Prod.fst).map (fun x : String => some x.toList) := by rw [List.map_map]; rfl
  rw [e, List.nodup_map_iff (fun a b h => String.toList_inj.1 (Option.some_injective _ h))]
  simp

theorem good_four (f : Cme.FourWay) : Good (fourVal f) := by
  simp only [fourVal, Good, goodE_iff, List.map_map, Function.comp_def, keyName, List.forall_mem_map]
  refine ⟨fun d _ => ⟨Option.some_ne_none _, good_num _⟩, ?_⟩
  decide

theorem good_numbers {t : Dict (List Char) ℚ} (hw : t.WF) : Good (numbers t) := by
  simp only [numbers, Good]
  refine ⟨(goodE_iff _).2 ?_, ?_⟩
  · intro e he
    obtain ⟨x, _, rfl⟩ := List.mem_map.1 he
    exact ⟨by simp [keyName], good_num _⟩
  · have h2 := List.Nodup.map (Option.some_injective _) hw
    unfold Dict.keys at h2
    rw [List.map_map] at h2 ⊢
    exact h2

theorem field_table {V : Type} {name : Op → List Char} (hi : Function.Injective name) {f : V → Val} (op : Op) : ∀ t : Dict Op (List V),
    field (table name f t) (.key (name op)) = (t.get? op).map (fun l => .list (l.map f))
  | [] => rfl
  | e :: t => by
    have ih := field_table hi (f := f) op t
    simp only [table, field] at ih ⊢
    rw [List.map_cons, List.find?_cons]
    obtain ⟨k, l⟩ := e
    rw [Dict.get?_cons]
    by_cases hk : k = op
    · subst hk
      simp [named, keyName]
    · have h1 : ¬ (keyName (named (name k)) = some (name op)) := by
        simp only [named, keyName, Option.some.injEq]
        exact fun h => hk (hi h)
      simp only [h1, decide_false]
      rw [if_neg hk]
      exact ih

/-- The entry of an operand at a level of a table. -/
theorem valAt_table {V : Type} {name : Op → List Char} (hi : Function.Injective name) {f : V → Val} (op : Op) (i : Nat) (p : List Step) (t : Dict Op (List V)) :
    valAt (table name f t) (.key (name op) :: .idx i :: p) = ((t.get? op).bind (fun l => l[i]?)).bind (fun x => valAt (f x) p) := by
  simp only [valAt, field_table hi]
  cases t.get? op with
  | none => rfl
  | some l => simp [field, List.getElem?_map, Option.bind_map, Function.comp_def]

/-- Names of the four movements in a file: out of a memory or into it, on the side of the lower or of the higher memory. -/
def dirKey : Cme.Dir → List Char
  | .rdToLow => "rd_out_to_low".toList
  | .wrByLow => "wr_in_by_low".toList
  | .rdToHigh => "rd_out_to_high".toList
  | .wrByHigh => "wr_in_by_high".toList

theorem valAt_four (f : Cme.FourWay) (d : Cme.Dir) : valAt (fourVal f) [.key (dirKey d)] = some (num (f.get d)) := by
  cases d <;> rfl

/-! ### Results -/

/-- A place where a complete file has a figure that adds up over layers. -/
inductive Place (Op : Type) where
  | energyTotal
  | operational
  | memory
  | breakdown (op : Op) (level : Nat)
  | breakdownDir (op : Op) (level : Nat) (d : Cme.Dir)
  | access (op : Op) (level : Nat) (d : Cme.Dir)
  | onloading
  | computation
  | offloading

/-- Where the figure stands in the file. -/
def Place.path (name : Op → List Char) : Place Op → List Step
  | .energyTotal => [.key "outputs".toList, .key "energy".toList, .key "energy_total".toList]
  | .operational => [.key "outputs".toList, .key "energy".toList, .key "operational_energy".toList]
  | .memory => [.key "outputs".toList, .key "energy".toList, .key "memory_energy".toList]
  | .breakdown op i => [.key "outputs".toList, .key "energy".toList, .key "memory_energy_breakdown_per_level".toList, .key (name op), .idx i]
  | .breakdownDir op i d => [.key "outputs".toList, .key "energy".toList, .key "memory_energy_breakdown_per_level_per_operand".toList, .key (name op), .idx i, .key (dirKey d)]
  | .access op i d => [.key "outputs".toList, .key "memory".toList, .key "word_accesses".toList, .key (name op), .idx i, .key (dirKey d)]
  | .onloading => [.key "outputs".toList, .key "latency".toList, .key "data_onloading".toList]
  | .computation => [.key "outputs".toList, .key "latency".toList, .key "computation".toList]
  | .offloading => [.key "outputs".toList, .key "latency".toList, .key "data_offloading".toList]

/-- The figure in the result; entries of tables may not exist. -/
def Place.figure (c : Cme.Cme Op) : Place Op → Option ℚ
  | .energyTotal => some c.totals.energyTotal
  | .operational => some c.totals.macEnergy
  | .memory => some c.totals.memEnergy
  | .breakdown op i => (c.energy.get? op).bind (fun l => l[i]?)
  | .breakdownDir op i d => ((c.energyDir.get? op).bind (fun l => l[i]?)).map (fun f => f.get d)
  | .access op i d => ((c.access.get? op).bind (fun l => l[i]?)).map (fun f => f.get d)
  | .onloading => some (c.totals.latency1 - c.totals.latency0)
  | .computation => some c.totals.latency0
  | .offloading => some (c.totals.latency2 - c.totals.latency1)

/-- A result that can be saved completely. -/
structure Savable (name : Op → List Char) (r : Result Op) : Prop where
  names : Function.Injective name
  wf : Cme.WFC r.cme
  util : r.cme.util ≠ none
  accelerator : Good r.accelerator
  memUtil : ∀ p, r.part = some p → p.memUtil.WF
  layer : ∀ p, r.part = some p → Good p.layer ∧ Good p.spatial ∧ Good p.temporal
  imc : ∀ p, r.part = some p → ∀ m, p.imc = some m → m.macBreakdown.WF ∧ m.tclkBreakdown.WF ∧ m.imcAreaBreakdown.WF ∧ m.memAreaBreakdown.WF

theorem good_util {u : Option Cme.Util} (h : u ≠ none) : Good (utilVal u) := by
  obtain ⟨x, rfl⟩ := Option.ne_none_iff_exists'.1 h
  simp [utilVal, good_tdict, good_num]

theorem good_memory {name : Op → List Char} {r : Result Op} (h : Savable name r) : Good (memoryVal name r.cme r.part) := by
  have h1 : Good (table name fourVal r.cme.access) := good_table h.names h.wf.access good_four
  have h2 : Good (match r.part with | some p => table name num p.memUtil | none => .leaf .none) := by
    cases hp : r.part with
    | none => simp [Good]
    | some p => exact good_table h.names (h.memUtil p hp) good_num
  simp only [memoryVal, good_tdict, List.forall_mem_cons]
  exact ⟨⟨h2, h1, by simp⟩, by simp⟩

theorem good_result {name : Op → List Char} {r : Result Op} (h : Savable name r) : Good (resultVal name r) := by
  have hm := good_memory h
  have hu := good_util h.util
  have ht1 : Good (table name num r.cme.energy) := good_table h.names h.wf.energy good_num
  have ht2 : Good (table name fourVal r.cme.energyDir) := good_table h.names h.wf.energyDir good_four
  have ha := h.accelerator
  have hfull : Good (fullVal name r) := by
    have h1 : Good (match r.part with | some p => p.layer | none => .list (r.cme.layerIds.map (fun (i : Nat) => Val.leaf (.int i)))) := by
      cases hp : r.part with
      | none =>
        simp only [Good]
        refine (goodL_iff _).2 ?_
        intro v hv
        obtain ⟨i, _, rfl⟩ := List.mem_map.1 hv
        simp [Good]
      | some p => exact (h.layer p hp).1
    have h2 : Good (match r.part with | some p => p.spatial | none => .leaf .none) := by
      cases hp : r.part with
      | none => simp [Good]
      | some p => exact (h.layer p hp).2.1
    have h3 : Good (match r.part with | some p => p.temporal | none => .leaf .none) := by
      cases hp : r.part with
      | none => simp [Good]
      | some p => exact (h.layer p hp).2.2
    simp only [fullVal, good_tdict, List.forall_mem_cons]
    refine ⟨⟨⟨⟨hm, ⟨⟨good_num _, good_num _, good_num _, ht1, ht2, by simp⟩, by simp⟩, ⟨⟨good_num _, good_num _, good_num _, by simp⟩, by simp⟩, hu, by simp⟩, by simp⟩,
      ⟨⟨ha, h1, h2, h3, by simp⟩, by simp⟩, by simp⟩, by simp⟩
  simp only [resultVal, Good]
  cases hp : r.part with
  | none => exact hfull
  | some p =>
    simp only
    cases hi : p.imc with
    | none => exact hfull
    | some m =>
      simp only
      obtain ⟨i1, i2, i3, i4⟩ := h.imc p hp m hi
      obtain ⟨l1, l2, l3⟩ := h.layer p hp
      have n1 := good_numbers i1
      have n2 := good_numbers i2
      have n3 := good_numbers i3
      have n4 := good_numbers i4
      rw [hp] at hm
      simp [fullValImc, good_tdict, hm, hu, ht1, ht2, ha, l1, l2, l3, n1, n2, n3, n4, good_num]

/-- Complete results can be saved. -/
theorem complete_ok {name : Op → List Char} {r : Result Op} (h : Savable name r) : ∃ j, save false (resultVal name r) = .ok j := by
  obtain ⟨j, hj, _⟩ := saved_at (good_result h)
  exact ⟨j, hj⟩

theorem valAt_cons (v : Val) (st : Step) (p : List Step) : valAt v (st :: p) = (field v st).bind (fun w => valAt w p) := rfl

theorem field_obj (f g : Val) (st : Step) : field (.obj f g) st = field f st := by simp only [field]

theorem field_tdict (s : String) : ∀ l : List (String × Val), field (tdict l) (.key s.toList) = (l.find? (fun e => decide (e.1 = s))).map Prod.snd
  | [] => rfl
  | e :: t => by
    have ih := field_tdict s t
    simp only [tdict, field] at ih ⊢
    rw [List.map_cons, List.find?_cons, List.find?_cons]
    by_cases he : e.1 = s
    · simp [he, keyName]
    · have h1 : ¬ (keyName (.leaf (.str e.1.toList)) = some s.toList) := by
        simp only [keyName, Option.some.injEq]
        exact fun h => he (String.toList_inj.1 h)
      simp only [h1, he, decide_false]
      exact ih

theorem place_value {name : Op → List Char} (hi : Function.Injective name) (r : Result Op) (pl : Place Op) :
    valAt (resultVal name r) (pl.path name) = (pl.figure r.cme).map num := by
  have four : ∀ (o : Option Cme.FourWay) (d : Cme.Dir), o.bind (fun x => valAt (fourVal x) [.key (dirKey d)]) = (o.map (fun f => f.get d)).map num := by
    intro o d
    cases o with
    | none => rfl
    | some f => simp only [Option.bind_some, valAt_four, Option.map_some]
  have one : ∀ (o : Option ℚ), o.bind (fun x => valAt (num x) []) = o.map num := by
    intro o
    cases o <;> rfl
  have acc : ∀ op i d, valAt (table name fourVal r.cme.access) [.key (name op), .idx i, .key (dirKey d)] = ((Place.access op i d).figure r.cme).map num := by
    intro op i d; rw [valAt_table hi, four]; rfl
  have dir : ∀ op i d, valAt (table name fourVal r.cme.energyDir) [.key (name op), .idx i, .key (dirKey d)] = ((Place.breakdownDir op i d).figure r.cme).map num := by
    intro op i d; rw [valAt_table hi, four]; rfl
  have en : ∀ op i, valAt (table name num r.cme.energy) [.key (name op), .idx i] = ((Place.breakdown op i).figure r.cme).map num := by
    intro op i; rw [valAt_table hi, one]; rfl
  have head : valAt (resultVal name r) (pl.path name) = match pl with
      | .energyTotal => some (num r.cme.totals.energyTotal)
      | .operational => some (num r.cme.totals.macEnergy)
      | .memory => some (num r.cme.totals.memEnergy)
      | .breakdown op i => valAt (table name num r.cme.energy) [.key (name op), .idx i]
      | .breakdownDir op i d => valAt (table name fourVal r.cme.energyDir) [.key (name op), .idx i, .key (dirKey d)]
      | .access op i d => valAt (table name fourVal r.cme.access) [.key (name op), .idx i, .key (dirKey d)]
      | .onloading => some (num (r.cme.totals.latency1 - r.cme.totals.latency0))
      | .computation => some (num r.cme.totals.latency0)
      | .offloading => some (num (r.cme.totals.latency2 - r.cme.totals.latency1)) := by
    obtain ⟨c, a, part⟩ := r
    cases part with
    | none => cases pl <;> simp only [Place.path, resultVal, fullVal, memoryVal, valAt_cons, valAt, field_obj, field_tdict, List.find?_cons, String.reduceEq, decide_true, decide_false, Option.map_some, Option.bind_some]
    | some p =>
      obtain ⟨mu, l, sp, tm, imc⟩ := p
      cases imc with
      | none => cases pl <;> simp only [Place.path, resultVal, fullVal, memoryVal, valAt_cons, valAt, field_obj, field_tdict, List.find?_cons, String.reduceEq, decide_true, decide_false, Option.map_some, Option.bind_some]
      | some m => cases pl <;> simp only [Place.path, resultVal, fullValImc, memoryVal, valAt_cons, valAt, field_obj, field_tdict, List.find?_cons, String.reduceEq, decide_true, decide_false, Option.map_some, Option.bind_some]
  rw [head]
  cases pl with
  | access op i d => exact acc op i d
  | breakdownDir op i d => exact dir op i d
  | breakdown op i => exact en op i
  | _ => rfl

/-- The figures in a complete file are those of the result; what the result does not have is not in the file. -/
theorem complete_figures {name : Op → List Char} {r : Result Op} (h : Savable name r) {j : Json} (hj : save false (resultVal name r) = .ok j) (pl : Place Op) :
    j.numAt (pl.path name) = pl.figure r.cme := by
  have hv := place_value h.names r pl
  have hn := saved_number (good_result h) hj (pl.path name)
  cases hf : pl.figure r.cme with
  | none => rw [hf] at hv; exact hn.2 hv
  | some q => rw [hf] at hv; exact hn.1 q hv

/-- The utilizations in a complete file. -/
theorem complete_util {name : Op → List Char} {r : Result Op} (h : Savable name r) {j : Json} (hj : save false (resultVal name r) = .ok j) : ∃ u, r.cme.util = some u ∧
    ∀ k x, (k, x) ∈ [("ideal", u.spatial), ("stalls", u.util0), ("stalls_onloading", u.util1), ("stalls_onloading_offloading", u.util2)] →
      j.numAt [.key "outputs".toList, .key "spatial".toList, .key "mac_utilization".toList, .key k.toList] = some x := by
  obtain ⟨u, hu⟩ := Option.ne_none_iff_exists'.1 h.util
  refine ⟨u, hu, ?_⟩
  intro k x hk
  refine (saved_number (good_result h) hj _).1 x ?_
  clear hj h
  obtain ⟨c, a, part⟩ := r
  simp only at hu
  simp only [List.mem_cons, List.not_mem_nil, or_false, Prod.mk.injEq] at hk
  have main : valAt (utilVal (some u)) [.key "mac_utilization".toList, .key k.toList] = some (num x) := by
    rcases hk with ⟨rfl, rfl⟩ | ⟨rfl, rfl⟩ | ⟨rfl, rfl⟩ | ⟨rfl, rfl⟩ <;>
      simp only [utilVal, valAt_cons, valAt, field_tdict, List.find?_cons, String.reduceEq, decide_true, decide_false, Option.map_some, Option.bind_some]
  rw [← main]
  cases part with
  | none =>
    simp only [resultVal, fullVal, hu, field_obj, valAt_cons _ (.key "outputs".toList), valAt_cons _ (.key "spatial".toList), field_tdict, List.find?_cons, String.reduceEq, decide_true, decide_false, Option.map_some, Option.bind_some]
  | some p =>
    obtain ⟨mu, l, sp, tm, imc⟩ := p
    cases imc <;>
      simp only [resultVal, fullVal, fullValImc, hu, field_obj, valAt_cons _ (.key "outputs".toList), valAt_cons _ (.key "spatial".toList), field_tdict, List.find?_cons, String.reduceEq, decide_true, decide_false, Option.map_some, Option.bind_some]

theorem put_find (s : List Char) (r : Rep) : ∀ acc : List (Leaf × Rep),
    ((put (.str s) r acc).find? (fun e => decide (e.1 = .str s))).map Prod.snd = some r ∧
    ∀ t, t ≠ s → (put (.str s) r acc).find? (fun e => decide (e.1 = .str t)) = acc.find? (fun e => decide (e.1 = .str t))
  | [] => by
    refine ⟨by simp [put], fun t ht => ?_⟩
    simp [put, Ne.symm ht]
  | e :: l => by
    obtain ⟨h1, h2⟩ := put_find s r l
    unfold put
    by_cases he : e.1 = .str s
    · rw [if_pos ((same_str _ _).2 he)]
      refine ⟨by simp [he], fun t ht => ?_⟩
      simp [he, Ne.symm ht]
    · rw [if_neg (by rw [same_str]; exact he)]
      refine ⟨?_, fun t ht => ?_⟩
      · rw [List.find?_cons]
        simp only [he, decide_false]
        exact h1
      · rw [List.find?_cons, List.find?_cons, h2 t ht]

theorem handlerE_snoc (s : Bool) (p : Val × Val) (r : Leaf × Rep) (hp : handlerP s p = .ok r) : ∀ (es : List (Val × Val)) (acc xs : List (Leaf × Rep)), handlerE s acc es = .ok xs →
    handlerE s acc (es ++ [p]) = .ok (put r.1 r.2 xs)
  | [], acc, xs, h => by
    simp only [handlerE, Except.ok.injEq] at h
    subst h
    simp only [List.nil_append, handlerE, hp]
  | q :: t, acc, xs, h => by
    simp only [handlerE, List.cons_append] at h ⊢
    cases hq : handlerP s q with
    | error e => rw [hq] at h; cases h
    | ok x =>
      rw [hq] at h
      exact handlerE_snoc s p r hp t _ xs h

/-- Keys of a dictionary with the same text (such as an operand and its name): the entry that comes last is saved, the others are unchanged. -/
theorem last_entry_saved (es : List (Val × Val)) (k v : Val) (xs : List (Leaf × Rep)) (s : List Char) (r : Rep) (hes : handler false (.dict es) = .ok (.dict xs))
    (hk : keyName k = some s) (hv : handler false v = .ok r) : ∃ ys, handler false (.dict (es ++ [(k, v)])) = .ok (.dict ys) ∧
      (ys.find? (fun e => decide (e.1 = .str s))).map Prod.snd = some r ∧
      ∀ t, t ≠ s → ys.find? (fun e => decide (e.1 = .str t)) = xs.find? (fun e => decide (e.1 = .str t)) := by
  have hp : handlerP false (k, v) = .ok (.str s, r) := by simp only [handlerP, handler_key k s hk, hv]
  have he : handlerE false [] es = .ok xs := by
    simp only [handler] at hes
    cases h : handlerE false [] es with
    | error e => rw [h] at hes; cases hes
    | ok l =>
      rw [h] at hes
      simp only [Except.ok.injEq, Rep.dict.injEq] at hes
      rw [hes]
  refine ⟨put (.str s) r xs, ?_, put_find s r xs⟩
  simp only [handler, handlerE_snoc false _ _ hp es [] xs he]

example : handler false (.dict [(named "I".toList, .leaf (.int 1)), (.leaf (.str "I".toList), .leaf (.int 2))]) = .ok (.dict [(.str "I".toList, .leaf (.int 2))]) := by rfl

theorem simple_plain (name : Op → List Char) (r : Result Op) : save true (resultVal name r) = save false (simpleVal r) := by
  obtain ⟨c, a, part⟩ := r
  cases part with
  | none => rfl
  | some p =>
    obtain ⟨mu, l, sp, tm, imc⟩ := p
    cases imc with
    | none => rfl
    | some m => rfl

/-- The simple file can always be written; it has the total energy and the total latency. -/
theorem simple_figures (name : Op → List Char) (r : Result Op) : ∃ j, save true (resultVal name r) = .ok j ∧
    j.numAt [.key "energy".toList] = some r.cme.totals.energyTotal ∧ j.numAt [.key "latency".toList] = some r.cme.totals.latency2 := by
  rw [simple_plain]
  have hg : Good (simpleVal r) := by
    unfold simpleVal
    cases r.part.bind (fun p => p.imc) <;> simp [good_tdict, good_num]
  obtain ⟨j, hj, _⟩ := saved_at hg
  refine ⟨j, hj, (saved_number hg hj _).1 _ ?_, (saved_number hg hj _).1 _ ?_⟩ <;> unfold simpleVal <;> cases r.part.bind (fun p => p.imc) <;>
    simp only [valAt_cons, valAt, field_tdict, List.find?_cons, String.reduceEq, decide_true, decide_false, Option.map_some, Option.bind_some]

/-- The two files of a result agree: the three parts of the latency in the complete file add up to the latency in the simple file, and the
total energy is the same. -/
theorem files_agree {name : Op → List Char} {r : Result Op} (h : Savable name r) {j j' : Json} (hj : save false (resultVal name r) = .ok j)
    (hj' : save true (resultVal name r) = .ok j') : ∃ e l on co off : ℚ,
    j'.numAt [.key "energy".toList] = some e ∧ j.numAt ((Place.energyTotal : Place Op).path name) = some e ∧
    j'.numAt [.key "latency".toList] = some l ∧ j.numAt ((Place.onloading : Place Op).path name) = some on ∧
    j.numAt ((Place.computation : Place Op).path name) = some co ∧ j.numAt ((Place.offloading : Place Op).path name) = some off ∧ on + co + off = l := by
  obtain ⟨j0, h0, h1, h2⟩ := simple_figures name r
  rw [hj'] at h0
  cases h0
  refine ⟨_, _, _, _, _, h1, complete_figures h hj _, h2, complete_figures h hj _, complete_figures h hj _, complete_figures h hj _, ?_⟩
  ring

/-! ### C119: sums -/

theorem totalL_sum : ∀ l : List Json, totalL l = (l.map Json.total).sum
  | [] => rfl
  | j :: t => by simp [totalL, totalL_sum t]

theorem totalE_sum : ∀ l : List (List Char × Json), totalE l = (l.map (fun e => e.2.total)).sum
  | [] => rfl
  | (k, j) :: t => by simp [totalE, totalP, totalE_sum t]

/-- The energies in a complete file add up when they do in the result: total energy is operational energy plus memory energy, and memory energy is the
sum of all numbers in the breakdown. -/
theorem energy_adds_up {name : Op → List Char} {r : Result Op} (h : Savable name r) (hb : Cme.Balanced r.cme) {j : Json}
    (hj : save false (resultVal name r) = .ok j) : ∃ (e o m : ℚ) (b : Json),
    j.numAt ((Place.energyTotal : Place Op).path name) = some e ∧ j.numAt ((Place.operational : Place Op).path name) = some o ∧
    j.numAt ((Place.memory : Place Op).path name) = some m ∧ e = o + m ∧
    j.at [.key "outputs".toList, .key "energy".toList, .key "memory_energy_breakdown_per_level".toList] = some b ∧ b.total = m := by
  obtain ⟨j0, h0, hp⟩ := saved_at (good_result h)
  rw [hj] at h0
  cases h0
  have hp := hp [.key "outputs".toList, .key "energy".toList, .key "memory_energy_breakdown_per_level".toList]
  have hv : valAt (resultVal name r) [.key "outputs".toList, .key "energy".toList, .key "memory_energy_breakdown_per_level".toList] = some (table name num r.cme.energy) := by
    obtain ⟨c, a, part⟩ := r
    cases part with
    | none => simp only [resultVal, fullVal, valAt_cons, valAt, field_obj, field_tdict, List.find?_cons, String.reduceEq, decide_true, decide_false, Option.map_some, Option.bind_some]
    | some p =>
      obtain ⟨mu, l, sp, tm, imc⟩ := p
      cases imc with
      | none => simp only [resultVal, fullVal, valAt_cons, valAt, field_obj, field_tdict, List.find?_cons, String.reduceEq, decide_true, decide_false, Option.map_some, Option.bind_some]
      | some m => simp only [resultVal, fullValImc, valAt_cons, valAt, field_obj, field_tdict, List.find?_cons, String.reduceEq, decide_true, decide_false, Option.map_some, Option.bind_some]
  rw [hv] at hp
  obtain ⟨_, b, h1, h2⟩ := hp
  refine ⟨_, _, _, b, complete_figures h hj _, complete_figures h hj _, complete_figures h hj _, hb.1, h2, ?_⟩
  rw [save_table h.names h.wf.energy save_num] at h1
  cases h1
  rw [hb.2]
  simp only [Json.total, totalE_sum, totalL_sum, List.map_map, Cme.tableSum]
  congr 1
  refine List.map_congr_left (fun e _ => ?_)
  simp [Function.comp_def, Json.total, totalL_sum]

theorem additive_sum {A M : Type} [AddCommMonoid M] (g : M → ℚ) (g0 : g 0 = 0) (ga : ∀ a b, g (a + b) = g a + g b) (F : A → M) :
    ∀ l : List A, g (l.map F).sum = (l.map (fun c => g (F c))).sum
  | [] => by simpa using g0
  | c :: l => by rw [List.map_cons, List.sum_cons, ga, additive_sum g g0 ga F l, List.map_cons, List.sum_cons]

/-- Places where the total has the sum of the figures. -/
theorem figure_sum {ord : List Op → List Op} (ho : ∀ l, (ord l).Perm l) {subs : List (Cme.Cme Op)} (hw : ∀ c ∈ subs, Cme.WFC c) {t : Cme.Cme Op}
    {all : List (Cme.Cme Op × Unit)} (h : Cme.sumRun ord (subs.map (fun c => (c, ()))) = .ok (t, all)) (pl : Place Op) :
    (pl.figure t).getD 0 = (subs.map (fun c => (pl.figure c).getD 0)).sum := by
  obtain ⟨_, ht, he, hd, ha, _, _⟩ := Cme.sum_stage_totals ho _ (by
    intro s hs
    obtain ⟨c, hc, rfl⟩ := List.mem_map.1 hs
    exact hw c hc) h
  simp only [List.map_map, Function.comp_def] at ht he hd ha
  have lin : ∀ (g : Cme.Totals → ℚ), g 0 = 0 → (∀ a b, g (a + b) = g a + g b) → g t.totals = (subs.map (fun c => g c.totals)).sum := by
    intro g g0 ga
    rw [ht]
    exact additive_sum g g0 ga (fun c : Cme.Cme Op => c.totals) subs
  have four : ∀ (g : Cme.FourWay → ℚ), g 0 = 0 → (∀ a b, g (a + b) = g a + g b) → ∀ (tab : Cme.Cme Op → Dict Op (List Cme.FourWay)) (op : Op) (i : Nat),
      Cme.cell (tab t) op i = (subs.map (fun c => Cme.cell (tab c) op i)).sum → g (Cme.cell (tab t) op i) = (subs.map (fun c => g (Cme.cell (tab c) op i))).sum := by
    intro g g0 ga tab op i hs
    rw [hs]
    exact additive_sum g g0 ga (fun c => Cme.cell (tab c) op i) subs
  have cellq : ∀ (x : Dict Op (List ℚ)) op i, ((x.get? op).bind (fun l => l[i]?)).getD 0 = Cme.cell x op i := by
    intro x op i
    unfold Cme.cell
    cases x.get? op <;> simp
  have cellf : ∀ (x : Dict Op (List Cme.FourWay)) op i (d : Cme.Dir), (((x.get? op).bind (fun l => l[i]?)).map (fun f => f.get d)).getD 0 = (Cme.cell x op i).get d := by
    intro x op i d
    unfold Cme.cell
    cases x.get? op with
    | none => simp [Cme.fourway_zero]
    | some l =>
      simp only [Option.bind_some, Option.getD_some]
      cases l[i]? with
      | none => simp [Cme.fourway_zero]
      | some f => simp
  cases pl with
  | energyTotal => exact lin (fun x => x.energyTotal) rfl (fun _ _ => rfl)
  | operational => exact lin (fun x => x.macEnergy) rfl (fun _ _ => rfl)
  | memory => exact lin (fun x => x.memEnergy) rfl (fun _ _ => rfl)
  | breakdown op i => simp only [Place.figure, cellq]; exact he op i
  | breakdownDir op i d => simp only [Place.figure, cellf]; exact four (fun f => f.get d) (Cme.fourway_zero d) (fun a b => Cme.fourway_add a b d) (fun c => c.energyDir) op i (hd op i)
  | access op i d => simp only [Place.figure, cellf]; exact four (fun f => f.get d) (Cme.fourway_zero d) (fun a b => Cme.fourway_add a b d) (fun c => c.access) op i (ha op i)
  | onloading =>
    exact lin (fun x => x.latency1 - x.latency0) (by show (0 : ℚ) - 0 = 0; ring) (fun a b => by
      show a.latency1 + b.latency1 - (a.latency0 + b.latency0) = _; ring)
  | computation => exact lin (fun x => x.latency0) rfl (fun _ _ => rfl)
  | offloading =>
    exact lin (fun x => x.latency2 - x.latency1) (by show (0 : ℚ) - 0 = 0; ring) (fun a b => by
      show a.latency2 + b.latency2 - (a.latency1 + b.latency1) = _; ring)

theorem files_sum {name : Op → List Char} {rs : List (Result Op)} {js : List Json} (hs : ∀ r ∈ rs, Savable name r)
    (h : List.Forall₂ (fun r j => save false (resultVal name r) = .ok j) rs js) (pl : Place Op) :
    (js.map (fun j => (j.numAt (pl.path name)).getD 0)).sum = (rs.map (fun r => (pl.figure r.cme).getD 0)).sum := by
  induction h with
  | nil => rfl
  | @cons r j rs js h1 h2 ih =>
    rw [List.map_cons, List.sum_cons, List.map_cons, List.sum_cons, complete_figures (hs r (by simp)) h1, ih (fun r hr => hs r (by simp [hr]))]

/-- The overall file of a run is the sum of the files of its layers: each energy, each latency part, each entry of the energy tables and of the access table.
(An entry that is missing in a file counts as zero.) -/
theorem overall_is_sum {ord : List Op → List Op} (ho : ∀ l, (ord l).Perm l) {name : Op → List Char} {rs : List (Result Op)} (hs : ∀ r ∈ rs, Savable name r)
    {js : List Json} (h : List.Forall₂ (fun r j => save false (resultVal name r) = .ok j) rs js) {t : Cme.Cme Op} {all : List (Cme.Cme Op × Unit)}
    (hsum : Cme.sumRun ord (rs.map (fun r => (r.cme, ()))) = .ok (t, all)) {acc : Val} (ht : Savable name ⟨t, acc, none⟩) {J : Json}
    (hJ : save false (resultVal name ⟨t, acc, none⟩) = .ok J) (pl : Place Op) :
    (J.numAt (pl.path name)).getD 0 = (js.map (fun j => (j.numAt (pl.path name)).getD 0)).sum := by
  rw [complete_figures ht hJ, files_sum hs h]
  have e : rs.map (fun r => (r.cme, ())) = (rs.map (fun r => r.cme)).map (fun c => (c, ())) := by rw [List.map_map]; rfl
  rw [e] at hsum
  rw [figure_sum ho (by
    intro c hc
    obtain ⟨r, hr, rfl⟩ := List.mem_map.1 hc
    exact (hs r hr).wf) hsum, List.map_map]
  rfl

/-- The same for the simple files. -/
theorem overall_simple {ord : List Op → List Op} (ho : ∀ l, (ord l).Perm l) (name : Op → List Char) {rs : List (Result Op)} (hs : ∀ r ∈ rs, Cme.WFC r.cme)
    {js : List Json} (h : List.Forall₂ (fun r j => save true (resultVal name r) = .ok j) rs js) {t : Cme.Cme Op} {all : List (Cme.Cme Op × Unit)}
    (hsum : Cme.sumRun ord (rs.map (fun r => (r.cme, ()))) = .ok (t, all)) (acc : Val) {J : Json}
    (hJ : save true (resultVal name ⟨t, acc, none⟩) = .ok J) :
    J.numAt [.key "energy".toList] = some (js.map (fun j => (j.numAt [.key "energy".toList]).getD 0)).sum ∧
    J.numAt [.key "latency".toList] = some (js.map (fun j => (j.numAt [.key "latency".toList]).getD 0)).sum := by
  obtain ⟨J0, h0, h1, h2⟩ := simple_figures name ⟨t, acc, none⟩
  rw [hJ] at h0
  cases h0
  have e : rs.map (fun r => (r.cme, ())) = (rs.map (fun r => r.cme)).map (fun c => (c, ())) := by rw [List.map_map]; rfl
  rw [e] at hsum
  have hw : ∀ c ∈ rs.map (fun r => r.cme), Cme.WFC c := by
    intro c hc
    obtain ⟨r, hr, rfl⟩ := List.mem_map.1 hc
    exact hs r hr
  have f1 := figure_sum ho hw hsum .energyTotal
  have f2 := figure_sum ho hw hsum .onloading
  have f3 := figure_sum ho hw hsum .computation
  have f4 := figure_sum ho hw hsum .offloading
  simp only [Place.figure, Option.getD_some, List.map_map, Function.comp_def] at f1 f2 f3 f4
  rw [h1, h2]
  simp only
  have fl : t.totals.latency2 = (rs.map (fun r => r.cme.totals.latency2)).sum := by
    have : t.totals.latency2 = (t.totals.latency1 - t.totals.latency0) + t.totals.latency0 + (t.totals.latency2 - t.totals.latency1) := by ring
    rw [this, f2, f3, f4]
    clear f1 f2 f3 f4 hs h hsum hJ h1 h2 e hw this
    induction rs with
    | nil => simp
    | cons r rs ih => simp only [List.map_cons, List.sum_cons]; rw [← ih]; ring
  rw [f1, fl]
  clear f1 f2 f3 f4 hs hsum hJ h1 h2 e hw fl
  induction h with
  | nil => exact ⟨rfl, rfl⟩
  | @cons r j rs js a b ih =>
    obtain ⟨j0, g0, g1, g2⟩ := simple_figures name r
    rw [a] at g0
    cases g0
    simp only [List.map_cons, List.sum_cons, g1, g2, Option.getD_some, Option.some.injEq] at ih ⊢
    exact ⟨by rw [ih.1], by rw [ih.2]⟩

/-- The total of at least one layer can be saved completely when the layers can. -/
theorem overall_savable {ord : List Op → List Op} (ho : ∀ l, (ord l).Perm l) {name : Op → List Char} {rs : List (Result Op)} (hs : ∀ r ∈ rs, Savable name r)
    (hne : rs ≠ []) {t : Cme.Cme Op} {all : List (Cme.Cme Op × Unit)} (hsum : Cme.sumRun ord (rs.map (fun r => (r.cme, ()))) = .ok (t, all)) {acc : Val}
    (ha : Good acc) : Savable name ⟨t, acc, none⟩ := by
  unfold Cme.sumRun at hsum
  rw [List.map_map] at hsum
  have e : rs.map (Prod.fst ∘ fun r => (r.cme, ())) = rs.map (fun r => r.cme) := rfl
  rw [e] at hsum
  cases h : Cme.sumStage ord (rs.map (fun r => r.cme)) (Cme.empty Op) with
  | error x => rw [h] at hsum; cases hsum
  | ok t' =>
    rw [h] at hsum
    cases hsum
    have hw := Cme.sumStage_spec ho _ _ _ Cme.empty_wf (by
      intro c hc
      obtain ⟨r, hr, rfl⟩ := List.mem_map.1 hc
      exact (hs r hr).wf) h
    have key : ∀ (l : List (Cme.Cme Op)) (s t : Cme.Cme Op), Cme.sumStage ord l s = .ok t → l ≠ [] ∨ s.util ≠ none → t.util ≠ none := by
      intro l
      induction l with
      | nil => intro s t h hh; cases h; simpa using hh
      | cons c l ih =>
        intro s t h _
        unfold Cme.sumStage at h
        split_ifs at h
        cases hadd : Cme.add ord s c with
        | error x => rw [hadd] at h; cases h
        | ok s' =>
          rw [hadd] at h
          refine ih s' t h (Or.inr ?_)
          unfold Cme.add at hadd
          simp only at hadd
          repeat' split at hadd
          all_goals first
            | (cases hadd; done)
            | (cases hadd; simp)
    obtain ⟨r, hr⟩ := List.exists_mem_of_ne_nil rs hne
    exact ⟨(hs r hr).names, hw.1, key _ _ _ h (Or.inl (by simpa using hne)), ha, fun p hp => by simp at hp, fun p hp => by simp at hp, fun p hp => by simp at hp⟩

/-- Saving the total of no layers: the simple file has zeros, but the complete file cannot be written (`AttributeError`), because a sum has no utilization before
the first addition. -/
theorem empty_total_crash (name : Op → List Char) (acc : Val) :
    save false (resultVal name ⟨Cme.empty Op, acc, none⟩) = .error .attributeError ∧
    ∃ j, save true (resultVal name ⟨Cme.empty Op, acc, none⟩) = .ok j ∧ j.numAt [.key "energy".toList] = some 0 := by
  refine ⟨rfl, ?_⟩
  obtain ⟨j, h1, h2, _⟩ := simple_figures name ⟨Cme.empty Op, acc, none⟩
  exact ⟨j, h1, h2⟩

/-! ### In-memory computing -/

def pTclk : List Step := [.key "outputs".toList, .key "clock".toList, .key "tclk (ns)".toList]
def pArea : List Step := [.key "outputs".toList, .key "area (mm^2)".toList, .key "total_area".toList]
def pMac : List Step := [.key "outputs".toList, .key "latency".toList, .key "computation_breakdown".toList, .key "mac_computation".toList]
def pStall : List Step := [.key "outputs".toList, .key "latency".toList, .key "computation_breakdown".toList, .key "memory_stalling".toList]

/-- The further figures in the complete file of an in-memory-computing result, and their counterparts in the simple file. -/
theorem imc_figures {name : Op → List Char} {r : Result Op} (h : Savable name r) {p : LayerPart Op} (hp : r.part = some p) {m : ImcPart} (hm : p.imc = some m)
    {j j' : Json} (hj : save false (resultVal name r) = .ok j) (hj' : save true (resultVal name r) = .ok j') :
    j.numAt pTclk = some m.tclk ∧ j'.numAt [.key "tclk (ns)".toList] = some m.tclk ∧ j.numAt pArea = some m.area ∧ j'.numAt [.key "area".toList] = some m.area ∧
    j.numAt pMac = some r.cme.totals.idealTemporal ∧ j.numAt pStall = some m.stall := by
  have hg := good_result h
  rw [simple_plain] at hj'
  obtain ⟨c, a, part⟩ := r
  obtain ⟨mu, l, sp, tm, imc⟩ := p
  simp only at hp hm
  subst hp hm
  have hs : Good (simpleVal (⟨c, a, some ⟨mu, l, sp, tm, some m⟩⟩ : Result Op)) := by simp [simpleVal, good_tdict, good_num]
  refine ⟨(saved_number hg hj _).1 _ ?_, (saved_number hs hj' _).1 _ ?_, (saved_number hg hj _).1 _ ?_, (saved_number hs hj' _).1 _ ?_, (saved_number hg hj _).1 _ ?_,
    (saved_number hg hj _).1 _ ?_⟩ <;>
    simp only [pTclk, pArea, pMac, pStall, resultVal, fullValImc, simpleVal, valAt_cons, valAt, field_obj, field_tdict, List.find?_cons, String.reduceEq, decide_true, decide_false, Option.map_some,
      Option.bind_some]

/-- A multiple of an in-memory-computing result is saved with a wrong breakdown of the computation cycles: the cycles are multiplied, the stalls are not, so
the parts no longer add up (for every result with stalls whose parts add up, and every factor but one). -/
theorem mul_breakdown_false {name : Op → List Char} {r r' : Result Op} (h' : Savable name r') {p : LayerPart Op} (hp : r.part = some p) {m : ImcPart}
    (hm : p.imc = some m) (hsum : r.cme.totals.latency0 = r.cme.totals.idealTemporal + m.stall) (hst : m.stall ≠ 0) {n : ℚ} (hn : n ≠ 1)
    (hmul : mulResult r n = .ok r') {j : Json} (hj : save false (resultVal name r') = .ok j) : ∃ co mac st : ℚ,
    j.numAt ((Place.computation : Place Op).path name) = some co ∧ j.numAt pMac = some mac ∧ j.numAt pStall = some st ∧ co ≠ mac + st := by
  unfold mulResult at hmul
  cases hc : Cme.mul r.cme n with
  | error e => rw [hc] at hmul; cases hmul
  | ok c =>
    rw [hc] at hmul
    simp only [Except.ok.injEq] at hmul
    subst hmul
    have ht : c.totals = r.cme.totals.scale n := by
      unfold Cme.mul at hc
      simp only at hc
      split at hc
      · cases hc
      · cases hc; rfl
    obtain ⟨j', hj', _⟩ := simple_figures name { r with cme := c }
    obtain ⟨_, _, _, _, h1, h2⟩ := imc_figures h' (p := p) hp hm hj hj'
    refine ⟨_, _, _, complete_figures h' hj _, h1, h2, ?_⟩
    simp only [ht, Cme.Totals.scale, hsum]
    intro he
    have : m.stall * (n - 1) = 0 := by linarith
    rcases mul_eq_zero.1 this with h | h
    · exact hst h
    · exact hn (by linarith)

/-! ### C118: layers and accelerators can be saved -/

theorem good_named (s : List Char) : Good (named s) := by simp [named, Good]

theorem good_entries {A : Type} {k : A → List Char} {f : A → Val} (l : List A) (hn : (l.map k).Nodup) (hf : ∀ x ∈ l, Good (f x)) :
    Good (.dict (l.map (fun x => (named (k x), f x)))) := by
  simp only [Good, goodE_iff, List.map_map, Function.comp_def, List.forall_mem_map]
  refine ⟨fun x hx => ⟨by simp [named, keyName], hf x hx⟩, ?_⟩
  have := hn.map (Option.some_injective _)
  rwa [List.map_map] at this

theorem good_list {A : Type} {f : A → Val} (l : List A) (hf : ∀ x ∈ l, Good (f x)) : Good (.list (l.map f)) := by
  simp only [Good, goodL_iff, List.forall_mem_map]
  exact hf

/-- Spatial mappings can be saved. -/
theorem good_mapping {m : Dict (List Char) (Dict (List Char) ℚ)} (hm : m.WF) (hd : ∀ e ∈ m, Dict.WF e.2) : Good (mappingVal m) := by
  simp only [mappingVal, Good]
  have := good_entries (k := fun e : List Char × Dict (List Char) ℚ => e.1) (f := fun e => Val.obj (.dict (e.2.map (fun x => (named x.1, num x.2)))) .other) m hm (by
    intro e he
    simp only [Good]
    have := good_entries (k := fun x : List Char × ℚ => x.1) (f := fun x => num x.2) e.2 (hd e he) (fun x _ => good_num _)
    simpa only [Good] using this)
  simpa only [Good] using this

/-- Layers can be saved. -/
theorem good_layer (layerName type equation : List Char) (relations : List (List Char)) {sizes precision : Dict (List Char) ℕ} {mapping : Val} {links : Dict (List Char) (List Char)}
    (h1 : sizes.WF) (h2 : precision.WF) (h3 : links.WF) (hm : Good mapping) : Good (layerVal layerName type equation relations sizes precision mapping links) := by
  have g1 := good_entries (k := fun e : List Char × ℕ => e.1) (f := fun e => Val.leaf (.int e.2)) sizes h1 (fun x _ => by simp [Good])
  have g2 := good_entries (k := fun e : List Char × ℕ => e.1) (f := fun e => Val.leaf (.int e.2)) precision h2 (fun x _ => by simp [Good])
  have g3 := good_entries (k := fun e : List Char × List Char => e.1) (f := fun e => named e.2) links h3 (fun x _ => good_named _)
  have g4 := good_list (f := fun s : List Char => Val.obj (.leaf (.str s)) .other) relations (fun x _ => by simp [Good])
  have o : ∀ f g, Good (.obj f g) = Good f := fun f g => by simp only [Good]
  have lf : ∀ l, Good (.leaf l) = True := fun l => by simp only [Good]
  simp only [layerVal, o, good_tdict, List.forall_mem_cons, lf]
  exact ⟨⟨trivial, trivial, trivial, g4, g1, g2, hm, g3, by simp⟩, by simp⟩

/-- Accelerators can be saved. -/
theorem good_accelerator {name : Op → List Char} (hi : Function.Injective name) (id : Nat) (acc : List Char) {array dataflows : Val} (levels : List (List Char))
    {perOp : Dict Op (List (List Char))} {sizes : Dict Op (List ℕ)} {sharing : List (Dict Op ℕ)} (h1 : perOp.WF) (h2 : sizes.WF) (h3 : ∀ d ∈ sharing, Dict.WF d)
    (ha : Good array) (hd : Good dataflows) : Good (acceleratorVal name id acc array levels perOp dataflows sizes sharing) := by
  have o : ∀ f g, Good (.obj f g) = Good f := fun f g => by simp only [Good]
  have lf : ∀ l, Good (.leaf l) = True := fun l => by simp only [Good]
  have g1 := good_list (f := named) levels (fun x _ => good_named _)
  have g2 := good_table hi (f := named) h1 good_named
  have g3 := good_table hi (f := fun (n : ℕ) => Val.leaf (.int n)) h2 (fun x => by simp [Good])
  have g4 := good_list (f := fun d : Dict Op ℕ => Val.dict (d.map (fun e => (named (name e.1), Val.leaf (.int e.2))))) sharing (fun d hd =>
    good_entries (k := fun e : Op × ℕ => name e.1) (f := fun e => Val.leaf (.int e.2)) d (wf_names hi (h3 d hd)) (fun x _ => by simp [Good]))
  simp only [acceleratorVal, o, good_tdict, List.forall_mem_cons, lf]
  exact ⟨⟨trivial, trivial, ha, g1, g2, hd, g3, by simp, by simp, by simp, by simp, g4, by simp⟩, by simp⟩

theorem good_array (energy area : ℚ) {dims : Dict (List Char) ℕ} (h : dims.WF) : Good (arrayVal energy area dims) ∧ Good (imcArrayVal dims) := by
  have o : ∀ f g, Good (.obj f g) = Good f := fun f g => by simp only [Good]
  have g1 := good_entries (k := fun e : List Char × ℕ => e.1) (f := fun e => Val.leaf (.int e.2)) dims h (fun x _ => by simp [Good])
  constructor
  · simp only [arrayVal, o, good_tdict, List.forall_mem_cons]
    exact ⟨⟨⟨⟨good_num _, good_num _, by simp⟩, by simp⟩, g1, by simp⟩, by simp⟩
  · simp only [imcArrayVal, o, good_tdict, List.forall_mem_cons]
    exact ⟨⟨g1, by simp⟩, by simp⟩

/-! ### C118: mappings -/

theorem digits_inj {a b : Nat} (h : Nat.toDigits 10 a = Nat.toDigits 10 b) : a = b := by
  have e := congrArg (fun l => Nat.ofDigitChars 10 l 0) h
  simpa [Nat.ofDigitChars_toDigits] using e

theorem no_comma (n : Nat) : ',' ∉ Nat.toDigits 10 n := by
  intro h
  have := Nat.isDigit_of_mem_toDigits (by decide) (by decide) h
  exact absurd this (by decide)

/-- The text of a loop tells its dimension and its size. -/
theorem pairText_inj : Function.Injective pairText := by
  rintro ⟨d, n⟩ ⟨d', n'⟩ h
  simp only [pairText, List.cons_append, List.cons.injEq, true_and] at h
  have h := List.append_cancel_right h
  have h := congrArg List.reverse h
  have e : ", ".toList = [',', ' '] := rfl
  rw [e] at h
  simp only [List.reverse_append, List.append_assoc, List.reverse_cons, List.reverse_nil, List.nil_append, List.cons_append] at h
  have key : ∀ (x y u v : List Char), ' ' ∉ x → ' ' ∉ y → x ++ ' ' :: u = y ++ ' ' :: v → x = y ∧ u = v := by
    intro x
    induction x with
    | nil =>
      intro y u v _ hy h
      cases y with
      | nil => simp at h; exact ⟨rfl, h⟩
      | cons c y => simp at h; simp [← h.1] at hy
    | cons a x ih =>
      intro y u v hx hy h
      cases y with
      | nil => simp at h; simp [h.1] at hx
      | cons c y =>
        simp only [List.cons_append, List.cons.injEq] at h
        obtain ⟨h1, h2⟩ := ih y u v (fun hh => hx (by simp [hh])) (fun hh => hy (by simp [hh])) h.2
        exact ⟨by rw [h.1, h1], h2⟩
  have ns : ∀ n, ' ' ∉ (Nat.toDigits 10 n).reverse := by
    intro n h
    have := Nat.isDigit_of_mem_toDigits (by decide) (by decide) (List.mem_reverse.1 h)
    exact absurd this (by decide)
  obtain ⟨h1, h2⟩ := key _ _ _ _ (ns n) (ns n') h
  have h3 := digits_inj (List.reverse_injective h1)
  simp only [List.cons.injEq, true_and] at h2
  rw [List.reverse_injective h2, h3]

/-- A saved mapping determines the mapping: two mappings with the same saved form have the same loops at each memory level of each operand. -/
theorem mapping_recoverable {name : Op → List Char} (hi : Function.Injective name) {m m' : Dict Op (List (List (List Char × ℕ)))} (hm : m.WF) (hm' : m'.WF) :
    (∃ j, save false (loopsVal name m) = .ok j) ∧ (save false (loopsVal name m) = save false (loopsVal name m') → m = m') := by
  have hs : ∀ m : Dict Op (List (List (List Char × ℕ))), m.WF → save false (loopsVal name m) =
      .ok (.obj (m.map (fun e => (name e.1, Json.arr (e.2.map (fun l => Json.arr (l.map (fun x => Json.str (pairText x))))))))) := by
    intro m hm
    have := save_table hi (f := fun l : List (List Char × ℕ) => .list (l.map (fun e => .leaf (.str (pairText e)))))
      (g := fun l => Json.arr (l.map (fun x => Json.str (pairText x)))) hm (fun l => save_list l (fun x _ => rfl))
    unfold loopsVal save at *
    simpa only [handler] using this
  refine ⟨⟨_, hs m hm⟩, fun h => ?_⟩
  rw [hs m hm, hs m' hm'] at h
  simp only [Except.ok.injEq, Json.obj.injEq] at h
  refine List.map_injective_iff.2 ?_ h
  rintro ⟨k, l⟩ ⟨k', l'⟩ he
  simp only [Prod.mk.injEq, Json.arr.injEq] at he
  obtain ⟨h1, h2⟩ := he
  have := hi h1
  subst this
  have h3 : l = l' := by
    refine List.map_injective_iff.2 ?_ h2
    intro a b hab
    simp only [Json.arr.injEq] at hab
    refine List.map_injective_iff.2 ?_ hab
    intro x y hxy
    simp only [Json.str.injEq] at hxy
    exact pairText_inj hxy
  rw [h3]

/-! ### Examples -/

/-- A layer with one operand. -/
def exResult (k : ℚ) : Result Bool :=
  { cme := { totals := ⟨1, 2 * k, 1 + 2 * k, 1, 1, 3, 4, 5 * k, 6 * k, 7 * k⟩, energy := [(true, [k, k])], energyDir := [(true, [⟨k, 0, 0, 0⟩, ⟨0, k, 0, 0⟩])],
             access := [(true, [⟨1, 2, 3, 4⟩])], util := some ⟨1, 1, 1, 1⟩, cumulative := false, layerIds := [0], accelerator := some "acc".toList }
    accelerator := arrayVal 1 2 [("D1".toList, 4)]
    part := some { memUtil := [(true, [1, 1 / 2])], layer := layerVal "l".toList "Conv".toList "O+=W".toList [] [("K".toList, 2)] [] (mappingVal []) []
                   spatial := loopsVal (fun b => if b then "I".toList else "W".toList) [(true, [[("K".toList, 2)], []])]
                   temporal := loopsVal (fun b => if b then "I".toList else "W".toList) [(true, [[("C".toList, 3)], []])], imc := none } }

def exName (b : Bool) : List Char := if b then "I".toList else "W".toList

theorem exSavable (k : ℚ) : Savable exName (exResult k) := by
  have hi : Function.Injective exName := by
    intro a b h
    cases a <;> cases b <;> first | rfl | (revert h; decide)
  have lo : ∀ n : Nat, Good (loopsVal exName [(true, [[("K".toList, n)], []])]) := fun n => by
    simp only [loopsVal, Good]
    exact good_table hi (by unfold Dict.WF Dict.keys; simp) (fun l => good_list l (fun x _ => by simp [Good]))
  have lo' : Good (loopsVal exName [(true, [[("C".toList, 3)], []])]) := by
    simp only [loopsVal, Good]
    exact good_table hi (by unfold Dict.WF Dict.keys; simp) (fun l => good_list l (fun x _ => by simp [Good]))
  refine ⟨hi, ⟨?_, ?_, ?_, fun _ => Iff.rfl, fun _ => Iff.rfl⟩, by simp [exResult], (good_array 1 2 (by unfold Dict.WF Dict.keys; simp)).1, ?_, ?_, ?_⟩
  · unfold Dict.WF Dict.keys; simp [exResult]
  · unfold Dict.WF Dict.keys; simp [exResult]
  · unfold Dict.WF Dict.keys; simp [exResult]
  · intro p hp
    simp only [exResult, Option.some.injEq] at hp
    subst hp
    unfold Dict.WF Dict.keys; simp
  · intro p hp
    simp only [exResult, Option.some.injEq] at hp
    subst hp
    refine ⟨good_layer _ _ _ _ (by unfold Dict.WF Dict.keys; simp) List.nodup_nil List.nodup_nil (good_mapping List.nodup_nil (by simp)), lo 2, lo'⟩
  · intro p hp m hm
    simp only [exResult, Option.some.injEq] at hp
    subst hp
    simp at hm

/-- Two layers and their total: the hypotheses of `overall_is_sum`, `overall_savable` and `energy_adds_up`. -/
example : (∀ r ∈ [exResult 1, exResult 2], Savable exName r) ∧ Cme.Balanced (exResult 1).cme ∧
    (match Cme.sumRun id ([exResult 1, exResult 2].map (fun r => (r.cme, ()))) with | .ok _ => true | .error _ => false) = true := by
  refine ⟨?_, ?_, by decide +kernel⟩
  · intro r hr
    simp only [List.mem_cons, List.not_mem_nil, or_false] at hr
    rcases hr with rfl | rfl <;> exact exSavable _
  · refine ⟨?_, ?_⟩ <;> decide +kernel

/-- An in-memory-computing result with stalls. -/
def exImc : Result Bool :=
  { exResult 1 with part := (exResult 1).part.map (fun p => { p with imc := some ⟨[("adc".toList, 1)], 1, 2, [], 3, 1, 2, [], [("sram".toList, 2)]⟩ }) }

/-- The hypotheses of `imc_figures` and `mul_breakdown_false`: the cycles of the result add up, and its double exists. -/
example : exImc.cme.totals.latency0 = exImc.cme.totals.idealTemporal + 1 ∧
    (match mulResult exImc 2 with | .ok _ => true | .error _ => false) = true := by
  refine ⟨?_, ?_⟩ <;> decide +kernel

example : Savable exName exImc := by
  have h := exSavable 1
  refine ⟨h.names, h.wf, h.util, h.accelerator, ?_, ?_, ?_⟩
  · intro p hp
    simp only [exImc, exResult, Option.map_some, Option.some.injEq] at hp
    subst hp
    have q := h.memUtil _ (rfl : (exResult 1).part = some _)
    exact q
  · intro p hp
    simp only [exImc, exResult, Option.map_some, Option.some.injEq] at hp
    subst hp
    have q := h.layer _ (rfl : (exResult 1).part = some _)
    exact q
  · intro p hp m hm
    simp only [exImc, exResult, Option.map_some, Option.some.injEq] at hp
    subst hp
    simp only [Option.some.injEq] at hm
    subst hm
    unfold Dict.WF Dict.keys
    simp

/-- Two mappings with the same saved form (`mapping_recoverable`): only dictionaries count as tables. -/
example : Dict.WF ([(true, [[("K".toList, 12)], []])] : Dict Bool (List (List (List Char × ℕ)))) ∧ pairText ("K".toList, 12) = "(K, 12)".toList := by
  refine ⟨by unfold Dict.WF Dict.keys; simp, by decide +kernel⟩

end Verif.Json
