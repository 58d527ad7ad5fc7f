import Verif.Shipped.Layers

/-! C167: whole calls for the accelerator and mapping files that come with the tool, for every workload of convolutions, poolings, additions and matrix products. -/

namespace Verif.Shipped

open Call (AccSays FilesSay SourcesKnown LayerFits Written LayerOptions NodeSays Chosen First)
open Equation (Text)
open Evaluate (Separate)
open Files (Doc MapR MapAttr)
open LayerBuild (LayerD)
open Net (FileOk OptionsOk Known spatialMappings)
open Whole (AccD run)

/-! ### The files -/

/-- The accelerators that come with the tool, with the bits that their innermost memories have for an operand and for a result. -/
def accelerators : List (Doc × AccD String × (Int × Int)) :=
  [(ascendLikeDoc, ascendLike, (8, 16)), (edgeTpuLikeDoc, edgeTpuLike, (8, 16)), (eyerissLikeDoc, eyerissLike, (8, 16)), (gemmL1Doc, gemmL1, (8, 32)),
    (gemmL1L3Doc, gemmL1L3, (8, 32)), (metaPrototypeDoc, metaPrototype, (8, 16)), (teslaNpuLikeDoc, teslaNpuLike, (8, 16)), (tpuLikeDoc, tpuLike, (8, 16))]

/-- The convolution of the workload files. -/
def conv : Form where
  eqn := ⟨⟨tx "O", [tx "b", tx "k", tx "oy", tx "ox"]⟩, [⟨[], .accum, [], ⟨tx "W", [tx "k", tx "c", tx "fy", tx "fx"]⟩⟩,
    ⟨[], .times, [], ⟨tx "I", [tx "b", tx "c", tx "iy", tx "ix"]⟩⟩], []⟩
  dims := [tx "B", tx "K", tx "C", tx "OY", tx "OX", tx "FY", tx "FX"]
  axes := [(tx "IX", tx "OX", tx "FX"), (tx "IY", tx "OY", tx "FY")]

/-- The convolution with groups (/repo/zigzag/parser/onnx/conv_parser.py line 60). -/
def groups : Form where
  eqn := ⟨⟨tx "O", [tx "b", tx "g", tx "k", tx "oy", tx "ox"]⟩, [⟨[], .accum, [], ⟨tx "W", [tx "g", tx "k", tx "c", tx "fy", tx "fx"]⟩⟩,
    ⟨[], .times, [], ⟨tx "I", [tx "b", tx "g", tx "c", tx "iy", tx "ix"]⟩⟩], []⟩
  dims := [tx "B", tx "K", tx "G", tx "OX", tx "OY", tx "C", tx "FX", tx "FY"]
  axes := [(tx "IX", tx "OX", tx "FX"), (tx "IY", tx "OY", tx "FY")]

/-- Pooling. -/
def pooling : Form where
  eqn := ⟨⟨tx "O", [tx "b", tx "g", tx "oy", tx "ox"]⟩, [⟨[], .accum, [], ⟨tx "W", [tx "fx", tx "fy"]⟩⟩,
    ⟨[], .times, [], ⟨tx "I", [tx "b", tx "g", tx "iy", tx "ix"]⟩⟩], []⟩
  dims := [tx "B", tx "G", tx "OY", tx "OX", tx "FX", tx "FY"]
  axes := [(tx "IX", tx "OX", tx "FX"), (tx "IY", tx "OY", tx "FY")]

/-- Addition. -/
def addition : Form where
  eqn := ⟨⟨tx "O", [tx "b", tx "g", tx "oy", tx "ox"]⟩, [⟨[], .assign, [], ⟨tx "W", [tx "b", tx "g", tx "oy", tx "ox"]⟩⟩,
    ⟨[], .plus, [], ⟨tx "I", [tx "b", tx "g", tx "oy", tx "ox"]⟩⟩], []⟩
  dims := [tx "B", tx "G", tx "OY", tx "OX"]
  axes := []

/-- The product of matrices. -/
def product : Form where
  eqn := ⟨⟨tx "O", [tx "d0", tx "d1"]⟩, [⟨[], .accum, [], ⟨tx "I", [tx "d0", tx "d2"]⟩⟩, ⟨[], .times, [], ⟨tx "W", [tx "d2", tx "d1"]⟩⟩], []⟩
  dims := [tx "D0", tx "D1", tx "D2"]
  axes := []

def forms : List Form := [conv, groups, pooling, addition, product]

/-- The mapping file fits the accelerator, but for entries with the names `sized`. -/
def MapC (a : AccD String) (sized : List String) (dm : Doc) : Bool :=
  match Files.parseMapping dm with
  | .error _ => false
  | .ok ms => ms.all fun m => EntryC a m || decide (m.name ∈ sized)

/-- The accelerators with the mapping files for them, and the names of the entries that list numbers of iterations. -/
def pairs : List ((Doc × AccD String × (Int × Int)) × Doc × List String) :=
  [((ascendLikeDoc, ascendLike, (8, 16)), ascendLikeMap, []), ((ascendLikeDoc, ascendLike, (8, 16)), ascendLikeMixedMap, []),
    ((edgeTpuLikeDoc, edgeTpuLike, (8, 16)), edgeTpuLikeMap, []), ((edgeTpuLikeDoc, edgeTpuLike, (8, 16)), edgeTpuLikeMixedMap, []),
    ((eyerissLikeDoc, eyerissLike, (8, 16)), defaultMap, []),
    ((gemmL1Doc, gemmL1, (8, 32)), gemmL1Map, []), ((gemmL1L3Doc, gemmL1L3, (8, 32)), gemmL1L3Map, []),
    ((metaPrototypeDoc, metaPrototype, (8, 16)), metaPrototypeLikeMap, []), ((metaPrototypeDoc, metaPrototype, (8, 16)), metaPrototypeLikeMixedMap, []),
    ((teslaNpuLikeDoc, teslaNpuLike, (8, 16)), teslaNpuLikeMap, []), ((teslaNpuLikeDoc, teslaNpuLike, (8, 16)), teslaNpuLikeMixedMap, []),
    ((tpuLikeDoc, tpuLike, (8, 16)), tpuLikeMap, ["example_name_of_layer0"]), ((tpuLikeDoc, tpuLike, (8, 16)), tpuLikeMixedMap, ["example_name_of_layer0"]), ((tpuLikeDoc, tpuLike, (8, 16)), defaultMap, [])]

/-- No cost is negative. -/
def CostC (a : AccD String) : Prop := ∀ m ∈ a.mems, 0 ≤ m.rCost.getD 0 ∧ 0 ≤ m.wCost.getD 0

instance (a : AccD String) : Decidable (CostC a) := by unfold CostC; infer_instance

/-- C167: the accelerator files are accepted and describe proper accelerators, with room for operands of eight bits and results of sixteen bits, or 32 bits. -/
theorem accelerators_ok : ∀ x ∈ accelerators, (∀ cacti, AccSays cacti x.1 x.2.1) ∧ FileOk x.2.1 ∧ RoomC x.2.2 x.2.1 ∧ CostC x.2.1 := by
  have h : ∀ x ∈ accelerators, AccC x.1 x.2.1 = true ∧ FileC x.2.1 ∧ RoomC x.2.2 x.2.1 ∧ CostC x.2.1 := by decide +kernel
  intro x hx
  obtain ⟨h1, h2, h3, h4⟩ := h x hx
  exact ⟨accC h1, fileC h2, h3, h4⟩

/-- C167: the mapping files fit the accelerators that they are for. -/
theorem pairs_ok : ∀ x ∈ pairs, x.1 ∈ accelerators ∧ MapC x.1.2.1 x.2.2 x.2.1 = true ∧ "default" ∉ x.2.2 := by
  intro x hx
  refine ⟨?_, ?_⟩
  · simp only [pairs, List.mem_cons, List.not_mem_nil, or_false] at hx
    rcases hx with rfl | rfl | rfl | rfl | rfl | rfl | rfl | rfl | rfl | rfl | rfl | rfl | rfl | rfl <;> simp [accelerators]
  · revert x
    decide +kernel

theorem forms_ok : ∀ f ∈ forms, FormC f := by decide +kernel

/-! ### The layers of a workload -/

/-- The layers of the workload file have usual forms; none is called like an entry with numbers of iterations. -/
def Layers (lim : Int × Int) (sized : List String) (ys : List (Option String × String × LayerD)) : Prop :=
  ∀ y ∈ ys, (∃ f ∈ forms, Usual lim f y.2.2) ∧ y.1.getD ("Layer" ++ toString y.2.2.id) ∉ sized ∧ y.2.1 ∉ sized

/-- Every source of a layer is listed before it; a layer that names itself has a constant operand. -/
def Listed (ys : List (Option String × String × LayerD)) : Prop :=
  ∀ (j : Nat) y, ys[j]? = some y → ∀ s ∈ y.2.2.sources, s.2 = y.2.2.id ∨ ∃ i < j, ∃ z, ys[i]? = some z ∧ z.2.2.id = s.2

theorem first_exists {ms : List MapR} {s : String} (h : ∃ m ∈ ms, m.name = s) : ∃ e, First ms s e := by
  induction ms with
  | nil => obtain ⟨m, hm, -⟩ := h; cases hm
  | cons a t ih =>
    by_cases ha : a.name = s
    · exact ⟨a, [], t, rfl, ha, fun x hx => by cases hx⟩
    · obtain ⟨m, hm, hs⟩ := h
      rcases List.mem_cons.1 hm with rfl | hm
      · exact absurd hs ha
      · obtain ⟨e, pre, post, rfl, h1, h2⟩ := ih ⟨m, hm, hs⟩
        refine ⟨e, a :: pre, post, rfl, h1, fun x hx => ?_⟩
        rcases List.mem_cons.1 hx with rfl | hx
        · exact ha
        · exact h2 x hx

theorem chosen_exists {ms : List MapR} (hd : ∃ m ∈ ms, m.name = "default") (name type : String) : ∃ e, Chosen ms name type e := by
  by_cases h1 : ∃ m ∈ ms, m.name = name
  · obtain ⟨e, he⟩ := first_exists h1
    exact ⟨e, Or.inl he⟩
  · push Not at h1
    by_cases h2 : ∃ m ∈ ms, m.name = type
    · obtain ⟨e, he⟩ := first_exists h2
      exact ⟨e, Or.inr (Or.inl ⟨h1, he⟩)⟩
    · push Not at h2
      obtain ⟨e, he⟩ := first_exists hd
      exact ⟨e, Or.inr (Or.inr ⟨fun x hx => ⟨h1 x hx, h2 x hx⟩, he⟩)⟩

theorem first_mem {ms : List MapR} {s : String} {e : MapR} (h : First ms s e) : e ∈ ms ∧ e.name = s := by
  obtain ⟨pre, post, rfl, h, -⟩ := h
  exact ⟨by simp, h⟩

theorem chosen_mem {ms : List MapR} {name type : String} {e : MapR} (h : Chosen ms name type e) {sized : List String} (h1 : name ∉ sized) (h2 : type ∉ sized)
    (h3 : "default" ∉ sized) : e ∈ ms ∧ e.name ∉ sized := by
  rcases h with h | ⟨-, h⟩ | ⟨-, h⟩
  · exact ⟨(first_mem h).1, by rw [(first_mem h).2]; exact h1⟩
  · exact ⟨(first_mem h).1, by rw [(first_mem h).2]; exact h2⟩
  · exact ⟨(first_mem h).1, by rw [(first_mem h).2]; exact h3⟩

theorem default_mem {dm : Doc} {ms : List MapR} (h : Files.parseMapping dm = .ok ms) : ∃ m ∈ ms, m.name = "default" := by
  unfold Files.parseMapping at h
  cases hl : Files.normalizeList Files.mapFields dm with
  | none => rw [hl] at h; cases h
  | some l =>
    rw [hl] at h
    simp only at h
    split_ifs at h with ha
    split at h
    · cases h
    · split_ifs at h with hd
      cases h
      obtain ⟨m, hm, he⟩ := List.mem_map.1 hd
      exact ⟨m, hm, he⟩

variable {cacti : String → String → Int → Int → Except PyErr (ℚ × ℚ × ℚ)} {eqn : List Char → Bool} {rel : List Char → Option LayerBuild.RelD}
variable {fact : Nat → List (Nat × Nat)} {lo : LayerOptions} {o : Net.Options String Text} {da dw dm : Doc} {A : AccD String} {lim : Int × Int}

/-- The files describe layers that fit the accelerator. -/
theorem written (hr : RoomC lim A) {sized : List String} (hm : MapC A sized dm = true) (hd : "default" ∉ sized) {ys : List (Option String × String × LayerD)} (hy : Files.parseLayers eqn rel dw = .ok ys)
    (hu : Layers lim sized ys) (hk : Listed ys) : ∃ ms ws, Files.parseMapping dm = .ok ms ∧ FilesSay eqn rel dw dm ws ∧ SourcesKnown ws ∧ (∀ w ∈ ws, LayerFits A w) ∧
      (∀ w ∈ ws, w.entry ∈ ms) ∧ (ws.map Written.layer = ys.map fun y => y.2.2) ∧ ∀ w ∈ ws, ∃ f ∈ forms, Usual lim f w.layer ∧ w.eqn = f.eqn ∧ w.link = link := by
  unfold MapC at hm
  cases hp : Files.parseMapping dm with
  | error e => rw [hp] at hm; cases hm
  | ok ms =>
    rw [hp] at hm
    simp only [List.all_eq_true, Bool.or_eq_true, decide_eq_true_eq] at hm
    have key : ∀ ys : List (Option String × String × LayerD), Layers lim sized ys → ∃ ws : List Written, ws.map (fun w => (w.name, w.operator, w.layer)) = ys ∧
        ∀ w ∈ ws, LayerFits A w ∧ w.entry ∈ ms ∧ Chosen ms (w.name.getD ("Layer" ++ toString w.layer.id)) w.operator w.entry ∧
          ∃ f ∈ forms, Usual lim f w.layer ∧ w.eqn = f.eqn ∧ w.link = link := by
      intro ys hu
      induction ys with
      | nil => exact ⟨[], rfl, fun w hw => by cases hw⟩
      | cons y t ih =>
        obtain ⟨ws, h1, h2⟩ := ih fun z hz => hu z (List.mem_cons_of_mem _ hz)
        obtain ⟨⟨f, hf, U⟩, n1, n2⟩ := hu y List.mem_cons_self
        obtain ⟨e, he⟩ := chosen_exists (default_mem hp) (y.1.getD ("Layer" ++ toString y.2.2.id)) y.2.1
        obtain ⟨e1, e2⟩ := chosen_mem he n1 n2 hd
        have hc : EntryC A e = true := (hm e e1).resolve_right e2
        unfold EntryC at hc
        cases ha : Files.mapAttr e with
        | error x => rw [ha] at hc; cases hc
        | ok a =>
          rw [ha] at hc
          obtain ⟨rels, hfit⟩ := fits (forms_ok f hf) hr U ha (of_decide_eq_true hc) y.1 y.2.1
          refine ⟨⟨y.1, y.2.1, y.2.2, f.eqn, rels, e, a, link⟩ :: ws, by rw [List.map_cons, h1], fun w hw => ?_⟩
          rcases List.mem_cons.1 hw with rfl | hw
          · exact ⟨hfit, e1, he, f, hf, U, rfl, rfl⟩
          · exact h2 w hw
    obtain ⟨ws, h1, h2⟩ := key ys hu
    refine ⟨ms, ws, rfl, ⟨by rw [hy, h1], ms, hp, fun w hw => (h2 w hw).2.2.1⟩, ?_, fun w hw => (h2 w hw).1, fun w hw => (h2 w hw).2.1, ?_, fun w hw => (h2 w hw).2.2.2⟩
    · intro j w hw s hs
      have hget : ∀ i : Nat, ys[i]? = (ws[i]?).map fun w => (w.name, w.operator, w.layer) := fun i => by rw [← h1, List.getElem?_map]
      rcases hk j (w.name, w.operator, w.layer) (by rw [hget, hw]; rfl) s hs with h | ⟨i, hi, z, hz, hid⟩
      · exact Or.inl h
      · rw [hget] at hz
        obtain ⟨v, hv, rfl⟩ := Option.map_eq_some_iff.1 hz
        exact Or.inr ⟨i, hi, v, hv, hid⟩
    · rw [← h1, List.map_map]
      rfl

/-! ### The call -/

/-- The number of multiplications or additions of all layers. -/
def operations (ys : List (Option String × String × LayerD)) : Nat := (ys.map fun y => (y.2.2.loopSizes.map Int.toNat).prod).sum

/-- C167: for every accelerator file that comes with the tool, every mapping file that fits it and every workload file with layers of the usual forms, of any size, a call
ends, with an answer or one of five exceptions; the one for bad indices needs an ordering in the mapping file.  An answer has at least the energy of all operations,
and the units of the array times the latency are at least the operations, if no two movements of a port happen exactly once in the evaluations. -/
theorem shipped {x : Doc × AccD String × (Int × Int)} (hx : x ∈ accelerators) {sized : List String} (hm : MapC x.2.1 sized dm = true) (hd : "default" ∉ sized) {ys : List (Option String × String × LayerD)}
    (hy : Files.parseLayers eqn rel dw = .ok ys) (hu : Layers x.2.2 sized ys) (hk : Listed ys) (O : OptionsOk o) (hmix : o.mix = false) (hf : Lpf.FactContract fact)
    (lo : LayerOptions) (cacti : String → String → Int → Int → Except PyErr (ℚ × ℚ × ℚ)) : ∃ N, ∀ fuel, N ≤ fuel → ∀ opt, Known opt →
      ((∃ ans, Call.call cacti eqn rel fact lo o opt x.1 dw dm fuel = .ok ans) ∨ ∃ e, Call.call cacti eqn rel fact lo o opt x.1 dw dm fuel = .error e ∧
        (e ∈ [PyErr.noValidOrdering, .zeroDivision, .memoryHierarchyTooSmall, .memoryTooSmall] ∨
          e = .indexError ∧ ∃ ms, Files.parseMapping dm = .ok ms ∧ ∃ m ∈ ms, m.order ≠ [])) ∧
      ∀ ans, Call.call cacti eqn rel fact lo o opt x.1 dw dm fuel = .ok ans → x.2.1.macEnergy * (operations ys : ℕ) ≤ ans.energy ∧
        ((∀ c nodes, Whole.accelerator (fun _ => (0, 0)) x.2.1 = .ok c → Call.workload eqn rel lo dw dm = .ok nodes → ∀ n ∈ nodes, ∀ sms,
            spatialMappings o x.2.1 n = .ok sms → ∀ sm ∈ sms, ∀ evals err, run (fun _ => (0, 0)) fact x.2.1 n.layer sm o.limit fuel = some (evals, err) →
              ∀ e ∈ evals, Separate c.hw e.1) →
          ((operations ys : ℕ) : ℚ) ≤ ((x.2.1.sizes.map Prod.snd).prod : ℕ) * ans.latency) := by
  obtain ⟨hA, F, R, C⟩ := accelerators_ok x hx
  obtain ⟨ms, ws, hp, S, K, L, hent, hlay, -⟩ := written R hm hd hy hu hk
  obtain ⟨ws', nodes, N1, hord, hsays, h1⟩ := Call.call_partial (hA cacti) F S K L O hmix hf lo
  obtain ⟨N2, h2⟩ := Call.call_bounds (hA cacti) F S K L O hmix hf lo
  have hops : (ws.map Written.operations).sum = operations ys := by
    unfold operations
    have : ws.map Written.operations = (ws.map Written.layer).map fun d => (d.loopSizes.map Int.toNat).prod := by rw [List.map_map]; rfl
    rw [this, hlay, List.map_map]
    rfl
  refine ⟨max N1 N2, fun fuel hfu opt hopt => ⟨?_, fun ans hans => ?_⟩⟩
  · rcases (h1 fuel (le_of_max_le_left hfu) opt hopt).1 with h | ⟨e, he, hs⟩
    · exact Or.inl h
    · refine Or.inr ⟨e, he, ?_⟩
      rcases hs with rfl | rfl | ⟨rfl | rfl, -⟩ | ⟨rfl, n, hn, -, hne⟩
      · exact Or.inl (by simp)
      · exact Or.inl (by simp)
      · exact Or.inl (by simp)
      · exact Or.inl (by simp)
      · refine Or.inr ⟨rfl, ms, hp, ?_⟩
        obtain ⟨w, hw, hsay⟩ := Files.forall2_right hsays n hn
        have hw' : w ∈ ws := (Call.inOrder_perm hord).mem_iff.1 hw
        refine ⟨w.entry, hent w hw', fun h => hne ?_⟩
        rw [hsay.order]
        have ha := (L w hw').attr
        have : w.attr.order = [] := by
          unfold Files.mapAttr at ha
          split at ha
          · cases ha
          · split at ha
            · cases ha
            · split at ha
              · cases ha
              · injection ha with ha
                rw [← ha, h]
                rfl
        rw [this]
        rfl
  · obtain ⟨b1, b2⟩ := h2 fuel (le_of_max_le_right hfu) opt ans hans
    rw [hops] at b1 b2
    exact ⟨b2 C, b1⟩

end Verif.Shipped
