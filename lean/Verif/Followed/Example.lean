import Verif.Followed.Imc
import Verif.ImcFiles.Example

/-! The accelerator and mapping files that come with the tool. -/

namespace Verif.Followed

open Call (Written LayerFits LayerOptions dimsOf)
open Equation (Text upper)
open Files (Doc MapR)
open ImcCall (Chip)
open ImcFiles (imcFiles macros Counted adapt)
open LayerBuild (LayerD)
open LocalCall (Fed Constant NetSays)
open Net (OptionsOk Known)
open Reuse (LNode plan reduced)
open Shipped (accelerators conv groups forms tx Form MapC Layers Listed)
open SpatialMapping (SM)

variable {eqn : List Char → Bool} {rel : List Char → Option LayerBuild.RelD} {fact : Nat → List (Nat × Nat)} {o : Net.Options String Text} {dw dm : Doc}

/-- C171: for every accelerator file that comes with the tool, every mapping file that fits it and every workload file with layers of the usual forms, an answer adds up one
evaluation for each layer, made with a mapping that follows the mapping file. -/
theorem shipped_follows {x : Doc × Whole.AccD String × (Int × Int)} (hx : x ∈ accelerators) {sized : List String} (hm : MapC x.2.1 sized dm = true) (hd : "default" ∉ sized)
    {ys : List (Option String × String × LayerD)} (hy : Files.parseLayers eqn rel dw = .ok ys) (hu : Layers x.2.2 sized ys) (hk : Listed ys) (O : OptionsOk o)
    (hf : Lpf.FactContract fact) (lo : LayerOptions) (cacti : String → String → Int → Int → Except PyErr (ℚ × ℚ × ℚ)) :
    ∃ N, ∀ fuel, N ≤ fuel → ∀ opt, Known opt → ∀ ans, Call.call cacti eqn rel fact lo o opt x.1 dw dm fuel = .ok ans →
      ∃ best : List (Written × SM String Text × Evaluate.Result), (best.map fun b => (b.1.name, b.1.operator, b.1.layer)).Perm ys ∧
        ans.energy = (best.map fun x => x.2.2.energy.total).sum ∧ ans.latency = (best.map fun x => x.2.2.overall.latency2).sum ∧ ∀ b ∈ best, FileFollows b.1 b.2.1 := by
  obtain ⟨hA, F, R, -⟩ := Shipped.accelerators_ok x hx
  obtain ⟨ms, ws, hp, S, K, L, hent, hlay, hforms⟩ := Shipped.written R hm hd hy hu hk
  obtain ⟨ws', nodes, N, hord, hsay, h⟩ := call_follows (o := o) (fact := fact) (hA cacti) F S K L O hf lo
  refine ⟨N, fun fuel hfu opt hopt ans hans => ?_⟩
  obtain ⟨best, b1, b2, b3, b4⟩ := h fuel hfu opt hopt ans hans
  refine ⟨best, ?_, b2, b3, fun b hb => ?_⟩
  · have e : ys = ws.map fun w => (w.name, w.operator, w.layer) := by
      have := S.layers
      rw [hy] at this
      exact Except.ok.inj this
    have e2 : (best.map fun b => (b.1.name, b.1.operator, b.1.layer)) = ws'.map fun w => (w.name, w.operator, w.layer) := by
      rw [← b1, List.map_map]
      rfl
    rw [e, e2]
    exact (Call.inOrder_perm hord).map _
  · obtain ⟨n, -, h1, -⟩ := Files.forall2_right b4 b hb
    exact h1

/-- ResNet-18 on all accelerators that come with the tool and have a mapping file for it. -/
example : ∀ x ∈ Shipped.pairs, x.2.2 = [] → ∃ N, ∀ fuel, N ≤ fuel → ∀ opt, Known opt → ∀ ans,
    Call.call (fun _ _ _ _ => .error .valueError) Shipped.Ex.eqn Shipped.Ex.relOf Whole.Ex.fact ⟨false, false⟩ Shipped.Ex.options opt x.1.1 Shipped.resnet18Doc x.2.1 fuel = .ok ans →
      ∃ best : List (Written × SM String Text × Evaluate.Result), best.length = (Shipped.Ex.layers Shipped.resnet18Doc).length ∧ ∀ b ∈ best, FileFollows b.1 b.2.1 := by
  intro x hx h0
  obtain ⟨h1, h2, h3⟩ := Shipped.pairs_ok x hx
  obtain ⟨r1, r2, r3, r4, r5, r6⟩ := Shipped.Ex.resnet_ok
  have hL : Layers x.1.2.2 x.2.2 (Shipped.Ex.layers Shipped.resnet18Doc) := by
    rw [h0]
    rcases Shipped.Ex.limits x.1 h1 with h | h <;> rw [h]
    · exact Shipped.Ex.layersC r2
    · exact Shipped.Ex.layersC r3
  obtain ⟨N, hN⟩ := shipped_follows (o := Shipped.Ex.options) (fact := Whole.Ex.fact) h1 h2 h3 (Shipped.Ex.parsed r1) hL (Shipped.Ex.listedC r4) Call.Ex.optionsOk
    Lpf.factContract_primeFactorsList ⟨false, false⟩ (fun _ _ _ _ => .error .valueError)
  refine ⟨N, fun fuel hfu opt hopt ans hans => ?_⟩
  obtain ⟨best, b1, -, -, b4⟩ := hN fuel hfu opt hopt ans hans
  exact ⟨best, by simpa using b1.length_eq, b4⟩

/-! ### In-memory-computing arrays -/

/-- The dimensions that weights of convolutions have. -/
def keyed : List String := ["K", "C", "FX", "FY"]

/-- The entry unrolls or hints only dimensions of weights of convolutions along an array dimension. -/
def EntryAlong (oa : String) (m : MapR) : Bool :=
  match Files.mapAttr m with
  | .error _ => false
  | .ok a =>
    match Dict.get? a.spatial oa with
    | some l => l.all fun x => decide (x.1 ∈ keyed)
    | none =>
      match Dict.get? a.hint oa with
      | some l => decide (l ≠ []) && l.all fun d => decide (d ∈ keyed)
      | none => false

/-- All entries do, but for those with the names `others`. -/
def MapAlong (oa : String) (others : List String) (dm : Doc) : Bool :=
  match Files.parseMapping dm with
  | .error _ => false
  | .ok ms => ms.all fun m => EntryAlong oa m || decide (m.name ∈ others)

/-- Layers that are neither pooling nor additions are convolutions with constant weights, for which the entries `others` are not used. -/
def Convs (others : List String) (ys : List (Option String × String × LayerD)) : Prop :=
  ∀ y ∈ ys, y.2.1 ≠ "Pooling" → y.2.1 ≠ "Add" → (y.2.2.equation = conv.eqn.text ∨ y.2.2.equation = groups.eqn.text) ∧ (tx "W", y.2.2.id) ∈ y.2.2.sources ∧
    y.1.getD ("Layer" ++ toString y.2.2.id) ∉ others ∧ y.2.1 ∉ others

instance (others : List String) (ys : List (Option String × String × LayerD)) : Decidable (Convs others ys) := by unfold Convs; infer_instance

theorem forms_keyed : ∀ f ∈ forms, (f.eqn.text = conv.eqn.text ∨ f.eqn.text = groups.eqn.text) →
    (∀ d ∈ keyed, d.toList ∈ f.dims) ∧ ∀ t ∈ f.eqn.rest, t.term.name = tx "W" → ∀ d ∈ keyed, d.toList ∈ dimsOf t.term := by
  decide +kernel

theorem along_of {A : Whole.AccD String} {lim : Int × Int} {w : Written} {oa : String} (L : LayerFits A w) (he : EntryAlong oa w.entry = true) {f : Form} (hf : f ∈ forms)
    (U : Shipped.Usual lim f w.layer) (hq : w.eqn = f.eqn) (P : Fed w.layer) (hc : w.layer.equation = conv.eqn.text ∨ w.layer.equation = groups.eqn.text)
    (hW : (tx "W", w.layer.id) ∈ w.layer.sources) : Along oa w := by
  intro a b T t ht hb
  rw [LocalCall.weights_of hf L U hq P T ⟨_, hW⟩] at hb
  rw [U.equation] at hc
  obtain ⟨k1, k2⟩ := forms_keyed f hf hc
  rw [hq] at ht
  have k3 := k2 t ht hb
  have k4 : ∀ d ∈ keyed, d.toList ∈ dims w := fun d hd => U.dims.mem_iff.2 (k1 d hd)
  unfold EntryAlong at he
  rw [L.attr] at he
  simp only at he
  constructor
  · intro l hl x hx _
    rw [hl] at he
    simp only [List.all_eq_true, decide_eq_true_eq] at he
    exact k3 _ (he x hx)
  · intro hl
    rw [hl] at he
    simp only at he
    cases hh : Dict.get? w.attr.hint oa with
    | none => rw [hh] at he; cases he
    | some l =>
      rw [hh] at he
      simp only [Bool.and_eq_true, List.all_eq_true, decide_eq_true_eq] at he
      obtain ⟨d, hd⟩ := List.exists_mem_of_ne_nil _ he.1
      exact ⟨l, rfl, ⟨d, hd, k4 d (he.2 d hd)⟩, fun e hee _ => k3 e (he.2 e hee)⟩

/-- C170: for the two accelerators with in-memory-computing arrays that come with the tool, every mapping file that fits and unrolls or hints only dimensions of the weights
along the wordlines, and every workload file of convolutions, pooling layers and additions: the call raises the exception of the search for the memories of data; without
such an exception it has an answer exactly if there is a convolution and the runs of all generated spatial mappings of convolutions end without exception. -/
theorem shipped_imc_outcome (adcArea : Nat → ℚ) (hadc : ∀ r, 0 ≤ adcArea r) {x : Doc × Chip String} (hx : x ∈ imcFiles adcArea) {sized others : List String}
    (hm : MapC macros sized dm = true) (hd : "default" ∉ sized) (hmo : MapAlong "D1" others dm = true) (hdo : "default" ∉ others)
    {ys : List (Option String × String × LayerD)} (hy : Files.parseLayers eqn rel dw = .ok ys)
    (hu : Layers (8, 16) sized ys) (hk : Listed ys) (hfed : ∀ y ∈ ys, Fed y.2.2) (hid : (ys.map fun y => y.2.2.id).Nodup) (hco : Convs others ys) (hne : ys ≠ []) (O : OptionsOk o)
    (hf : Lpf.FactContract fact) (lo : LayerOptions) (cacti : String → String → Int → Int → Except PyErr (ℚ × ℚ × ℚ)) :
    ∃ (ws : List Written) (g : _) (nodes : List (LNode String Text)), (ws.map fun w => (w.name, w.operator, w.layer)) = ys ∧ NetSays lo (adapt x.2) ws g nodes ∧
      (∀ e, plan macros g nodes = .error e → ∀ fuel opt, Known opt → ImcFiles.call cacti adcArea eqn rel fact lo o opt x.1 dw dm fuel = .error e) ∧
      ∀ s, plan macros g nodes = .ok s → ∃ N, ∀ fuel, N ≤ fuel → ∀ opt, Known opt →
        ((∃ ans, ImcFiles.call cacti adcArea eqn rel fact lo o opt x.1 dw dm fuel = .ok ans) ↔ (∃ y ∈ ys, y.2.1 ≠ "Pooling" ∧ y.2.1 ≠ "Add") ∧
          ∀ n ∈ nodes, n.node.skip = false → ∀ b, reduced (fun _ => (0, 0)) macros s n = .ok b → ∀ sms, Net.spatialMappings o b n.node = .ok sms → ∀ sm ∈ sms,
            ∃ evals, Whole.run (fun _ => (0, 0)) fact b n.node.layer sm o.limit fuel = some (evals, none)) := by
  obtain ⟨F, R, C, X⟩ := ImcFiles.macros_ok
  obtain ⟨hA, H, hrows, hwl⟩ : (∀ cacti, ImcFiles.ImcSays cacti adcArea x.1 macros x.2) ∧ ImcFiles.Sensible adcArea x.2 ∧
      (x.2.arr.aimc = true ∨ ∃ k, x.2.arr.bl = 2 ^ k) ∧ x.2.wlDim = "D1" := by
    obtain ⟨h1, h2, h3⟩ := ImcFiles.files_ok adcArea hadc x hx
    refine ⟨h1, h2, .inr h3, ?_⟩
    simp only [imcFiles, List.mem_cons, List.not_mem_nil, or_false] at hx
    rcases hx with rfl | rfl <;> rfl
  obtain ⟨ws, S, K, L, B, hids, hforms, rfl⟩ := ImcFiles.shipped_says hm hd hy hu hk hfed hid
  have hal : ∀ w ∈ ws, Counted w → Along x.2.wlDim w := by
    intro w hw hcw
    obtain ⟨f, f1, f2, f3⟩ := hforms w hw
    have hyw := List.mem_map_of_mem (f := fun w : Written => (w.name, w.operator, w.layer)) hw
    obtain ⟨c1, c2, c3, c4⟩ := hco _ hyw hcw.1 hcw.2
    obtain ⟨ms, hms, hch⟩ := S.entries
    unfold MapAlong at hmo
    rw [hms] at hmo
    simp only [List.all_eq_true, Bool.or_eq_true, decide_eq_true_eq] at hmo
    have hent : w.entry ∈ ms ∧ w.entry.name ∉ others := by
      have key : ∀ {nm}, Call.First ms nm w.entry → nm ∉ others → w.entry ∈ ms ∧ w.entry.name ∉ others := by
        rintro nm ⟨pre, post, rfl, rfl, -⟩ hn
        exact ⟨by simp, hn⟩
      rcases hch w hw with h | ⟨-, h⟩ | ⟨-, h⟩
      · exact key h c3
      · exact key h c4
      · exact key h hdo
    rw [hwl]
    exact along_of (L w hw) ((hmo _ hent.1).resolve_right hent.2) f1 f2 f3 (hfed _ hyw) c1 c2
  obtain ⟨g, nodes, N, h1, h2⟩ := imc_file_outcome (o := o) (fact := fact) (hA cacti) F H X S K L B hids (by rintro rfl; exact hne rfl) hal O hf lo hrows
  refine ⟨ws, g, nodes, rfl, N, h1, fun s hs => ?_⟩
  obtain ⟨M, hM⟩ := h2 s hs
  refine ⟨M, fun fuel hfu opt hopt => ?_⟩
  rw [hM fuel hfu opt hopt]
  refine and_congr_left fun _ => ?_
  constructor
  · rintro ⟨w, h1, h2⟩
    exact ⟨_, List.mem_map_of_mem h1, h2⟩
  · rintro ⟨y, h1, h2⟩
    obtain ⟨w, hw, rfl⟩ := List.mem_map.1 h1
    exact ⟨w, hw, h2⟩

theorem resnet_convs : Convs ["Add"] (Shipped.Ex.layers Shipped.resnet18Doc) := by decide +kernel

theorem default_along : MapAlong "D1" ["Add"] Shipped.defaultImcMap = true := by decide +kernel

/-- ResNet-18 with the mapping file for in-memory-computing arrays. -/
example (adcArea : Nat → ℚ) (hadc : ∀ r, 0 ≤ adcArea r) : ∀ x ∈ imcFiles adcArea, ∃ (ws : List Written) (g : _) (nodes : List (LNode String Text)),
    NetSays ⟨false, false⟩ (adapt x.2) ws g nodes ∧ ∀ s, plan macros g nodes = .ok s → ∃ N, ∀ fuel, N ≤ fuel → ∀ opt, Known opt →
      ((∃ ans, ImcFiles.call (fun _ _ _ _ => .error .valueError) adcArea Shipped.Ex.eqn Shipped.Ex.relOf Whole.Ex.fact ⟨false, false⟩ Shipped.Ex.options opt x.1
        Shipped.resnet18Doc Shipped.defaultImcMap fuel = .ok ans) ↔ (∃ y ∈ Shipped.Ex.layers Shipped.resnet18Doc, y.2.1 ≠ "Pooling" ∧ y.2.1 ≠ "Add") ∧
          ∀ n ∈ nodes, n.node.skip = false → ∀ b, reduced (fun _ => (0, 0)) macros s n = .ok b → ∀ sms, Net.spatialMappings Shipped.Ex.options b n.node = .ok sms → ∀ sm ∈ sms,
            ∃ evals, Whole.run (fun _ => (0, 0)) Whole.Ex.fact b n.node.layer sm Shipped.Ex.options.limit fuel = some (evals, none)) := by
  intro x hx
  obtain ⟨r1, r2, r3, r4, r5, r6⟩ := Shipped.Ex.resnet_ok
  obtain ⟨q1, q2⟩ := LocalCall.resnet_fed
  obtain ⟨ws, g, nodes, -, h2, -, h4⟩ := shipped_imc_outcome (o := Shipped.Ex.options) (fact := Whole.Ex.fact) adcArea hadc hx ImcFiles.map_ok (by simp) default_along (by simp)
    (Shipped.Ex.parsed r1) (Shipped.Ex.layersC r2) (Shipped.Ex.listedC r4) (fun y hy => LocalCall.fedC (List.all_eq_true.1 q1 y hy)) q2 resnet_convs
    (by intro h; rw [h] at r5; cases r5) Call.Ex.optionsOk Lpf.factContract_primeFactorsList ⟨false, false⟩ (fun _ _ _ _ => .error .valueError)
  exact ⟨ws, g, nodes, h2, h4⟩

end Verif.Followed
