import Verif.LocalCall.Props
import Verif.Shipped.Example

/-! C169 for the accelerator and mapping files that come with the tool. -/

namespace Verif.LocalCall

open Call (Written LayerFits LayerOptions dimsOf)
open Equation (Text Eqn Term)
open Files (Doc)
open Latency (Operand)
open LayerBuild (LayerD)
open LayerNode (Relation)
open Net (OptionsOk Known)
open Ports (MemD)
open Shipped (accelerators addition forms tx link Form Usual RoomC MapC StackC Layers Listed operations)
open Reuse (LNode plan reduced levelFor)
open Whole (AccD)

/-- `AccFits` in decidable form. -/
def AccFitsC (a : AccD String) : Prop :=
  StackC a.mems ∧ (∀ p ∈ a.mems.zipIdx,
    (.out ∈ p.1.operands → (.in1 ∈ p.1.operands ∨ .in2 ∈ p.1.operands) → ∀ op ∈ [Operand.in1, .in2], ∃ q ∈ a.mems.zipIdx, q.2 ≤ p.2 ∧ op ∈ q.1.operands) ∧
      (p.1.served.length = a.sizes.length → ∃ q ∈ a.mems.zipIdx, q.2 ≤ p.2 ∧ .in2 ∈ q.1.operands)) ∧
    (∀ m ∈ a.mems, m.operands.Nodup) ∧ ∃ m ∈ a.mems.getLast?.toList, ∀ op ∈ [Operand.in1, .in2, .out], op ∈ m.operands

instance (a : AccD String) : Decidable (AccFitsC a) := by unfold AccFitsC; infer_instance

theorem accFitsC {a : AccD String} (h : AccFitsC a) : AccFits a := by
  obtain ⟨h1, h2, h3, m, h4, h5⟩ := h
  have key : ∀ {i op}, (∃ q ∈ a.mems.zipIdx, q.2 ≤ i ∧ op ∈ q.1.operands) → Before a i op := by
    rintro i op ⟨⟨m', j⟩, hj, hle, ho⟩
    exact ⟨j, m', hle, by simpa [List.mem_zipIdx_iff_getElem?] using hj, ho⟩
  have lt : ∀ {i m}, a.mems[i]? = some m → (m, i) ∈ a.mems.zipIdx := fun hm => by simpa [List.mem_zipIdx_iff_getElem?] using hm
  refine ⟨Shipped.stackC h1, fun i m hm ho hi => ?_, fun i m hm hs => key ((h2 _ (lt hm)).2 hs), h3, m, by simpa using h4, fun op => h5 op (by cases op <;> simp)⟩
  have := (h2 _ (lt hm)).1 ho hi
  exact ⟨key (this _ (by simp)), key (this _ (by simp))⟩

/-- The memories of all accelerators that come with the tool are listed from the array outwards. -/
theorem shipped_fit : ∀ x ∈ accelerators, AccFits x.2.1 := fun x hx => accFitsC ((show ∀ x ∈ accelerators, AccFitsC x.2.1 by decide +kernel) x hx)

/-- Dimensions given by a relation belong to the input `I` only; without relations, `I` is written first, if it is not an addition. -/
def AxesC (f : Form) : Prop :=
  f.eqn.rest.length = 2 ∧ (∀ a ∈ f.axes, a.1 ∉ dimsOf f.eqn.out ∧ ∀ t ∈ f.eqn.rest, a.1 ∈ dimsOf t.term ↔ t.term.name = tx "I") ∧
    (f.axes = [] → f.eqn.rest.map (fun r => r.term.name) = [tx "I", tx "W"] ∨ f.eqn.text = addition.eqn.text)

instance (f : Form) : Decidable (AxesC f) := by unfold AxesC; infer_instance

theorem forms_axes : ∀ f ∈ forms, AxesC f := by decide +kernel

/-- The operands `W` and `I` come from other layers or are constant; if there is a constant it is `W`, or both, but not in an addition. -/
structure Fed (d : LayerD) : Prop where
  once : (d.sources.map Prod.fst).Nodup
  inputs : ∀ s ∈ d.sources, s.2 = d.id → s.1 = tx "W" ∨ s.1 = tx "I"
  weights : (∃ c, Constant d c) → Constant d (tx "W")
  both : Constant d (tx "I") → d.equation ≠ addition.eqn.text

/-- If an operand is constant, `W` is the weights. -/
theorem weights_of {A : AccD String} {lim : Int × Int} {f : Form} (hf : f ∈ forms) {w : Written} (F : LayerFits A w) (U : Usual lim f w.layer)
    (he : w.eqn = f.eqn) (P : Fed w.layer) {a b : Text} (T : Told w a b) (hc : ∃ c, Constant w.layer c) : b = tx "W" := by
  obtain ⟨-, c2, c3⟩ := forms_axes f hf
  obtain ⟨-, -, -, -, -, -, -, -, f9⟩ := Shipped.forms_ok f hf
  obtain ⟨rels, u1, u2, -⟩ := U.relations
  have hrels : w.rels.map (fun r => (r.dim1, r.dim2, r.dim3)) = f.axes := by
    have h1 := LayerBuild.mapE_of_forall₂ F.good.parsed
    rw [LayerBuild.mapE_of_forall₂ u1] at h1
    rw [← Except.ok.inj h1]
    exact u2
  have haxis : ∀ r ∈ w.rels, (r.dim1, r.dim2, r.dim3) ∈ f.axes := fun r hr => by
    rw [← hrels]
    exact List.mem_map.2 ⟨r, hr, rfl⟩
  have hnames : (w.eqn.rest.map fun r => r.term.name) = [tx "W", tx "I"] ∨ (w.eqn.rest.map fun r => r.term.name) = [tx "I", tx "W"] := by
    rw [he]
    simpa using f9
  have hin : ∀ x, x = tx "W" ∨ x = tx "I" → ∃ r ∈ w.eqn.rest, r.term.name = x := by
    intro x hx
    have : x ∈ w.eqn.rest.map fun r => r.term.name := by
      rcases hnames with h | h <;> rw [h] <;> rcases hx with rfl | rfl <;> simp
    obtain ⟨r, h1, h2⟩ := List.mem_map.1 this
    exact ⟨r, h1, h2⟩
  have hrest : ∀ r ∈ w.eqn.rest, r.term.name = tx "W" ∨ r.term.name = tx "I" := by
    intro r hr
    have : r.term.name ∈ w.eqn.rest.map fun r => r.term.name := List.mem_map.2 ⟨r, hr, rfl⟩
    rcases hnames with h | h <;> rw [h] at this <;> simp only [List.mem_cons, List.not_mem_nil, or_false] at this <;> tauto
  have hW := P.weights hc
  by_cases hI : Constant w.layer (tx "I")
  · have hall : ∀ r ∈ w.eqn.rest, Constant w.layer r.term.name := by
      intro r hr
      rcases hrest r hr with h | h <;> rw [h]
      · exact hW
      · exact hI
    obtain ⟨k1, k2⟩ := T.all hall
    have ha : a = tx "I" := by
      cases hrl : w.rels with
      | nil =>
        obtain ⟨y, hy⟩ := k1 hrl
        have hno : f.axes = [] := by rw [← hrels, hrl]; rfl
        rcases c3 hno with h | h
        · rw [he, h] at hy
          exact (List.cons.inj hy).1.symm
        · exact absurd (by rw [U.equation, h]) (P.both hI)
      | cons r rs =>
        obtain ⟨t, ht, hn⟩ := hin (tx "I") (.inr rfl)
        rw [← hn]
        refine k2 r rs hrl t ht fun u hu => ?_
        rw [hn]
        rw [he] at hu
        exact (c2 _ (haxis r (by rw [hrl]; simp))).2 u hu
    obtain ⟨x, y, h1, h2⟩ := T.both
    have hne : tx "W" ≠ tx "I" := by decide
    rcases hnames with h | h <;> rw [h] at h1 <;> simp only [List.cons.injEq, and_true] at h1 <;> obtain ⟨rfl, rfl⟩ := h1 <;>
      rcases h2 with ⟨h2, h3⟩ | ⟨h2, h3⟩
    · exact absurd (h2.symm.trans ha) hne
    · exact h3
    · exact h3
    · exact absurd (h2.symm.trans ha) hne
  · refine T.one _ hW fun x hx => ?_
    rcases P.inputs _ hx rfl with h | h
    · exact h
    · exact absurd (by rw [← show x = tx "I" from h]; exact hx) hI

theorem both_of {A : AccD String} {lim : Int × Int} (hr : RoomC lim A) {f : Form} (hf : f ∈ forms) {w : Written} (F : LayerFits A w) (U : Usual lim f w.layer)
    (he : w.eqn = f.eqn) (hl : w.link = link) (P : Fed w.layer) : Both A w := by
  obtain ⟨c1, c2, -⟩ := forms_axes f hf
  obtain ⟨-, -, -, -, -, -, -, f8, f9⟩ := Shipped.forms_ok f hf
  obtain ⟨rels, u1, u2, -⟩ := U.relations
  have hrels : w.rels.map (fun r => (r.dim1, r.dim2, r.dim3)) = f.axes := by
    have h1 := LayerBuild.mapE_of_forall₂ F.good.parsed
    rw [LayerBuild.mapE_of_forall₂ u1] at h1
    rw [← Except.ok.inj h1]
    exact u2
  have haxis : ∀ r ∈ w.rels, (r.dim1, r.dim2, r.dim3) ∈ f.axes := fun r hr => by
    rw [← hrels]
    exact List.mem_map.2 ⟨r, hr, rfl⟩
  have hnames : (w.eqn.rest.map fun r => r.term.name) = [tx "W", tx "I"] ∨ (w.eqn.rest.map fun r => r.term.name) = [tx "I", tx "W"] := by
    rw [he]
    simpa using f9
  have hin : ∀ x, x = tx "W" ∨ x = tx "I" → ∃ r ∈ w.eqn.rest, r.term.name = x := by
    intro x hx
    have : x ∈ w.eqn.rest.map fun r => r.term.name := by
      rcases hnames with h | h <;> rw [h] <;> rcases hx with rfl | rfl <;> simp
    obtain ⟨r, h1, h2⟩ := List.mem_map.1 this
    exact ⟨r, h1, h2⟩
  have hrest : ∀ r ∈ w.eqn.rest, r.term.name = tx "W" ∨ r.term.name = tx "I" := by
    intro r hr
    have : r.term.name ∈ w.eqn.rest.map fun r => r.term.name := List.mem_map.2 ⟨r, hr, rfl⟩
    rcases hnames with h | h <;> rw [h] at this <;> simp only [List.mem_cons, List.not_mem_nil, or_false] at this <;> tauto
  have hterm : ∀ t ∈ w.eqn.terms, t.name = tx "O" ∨ t.name = tx "W" ∨ t.name = tx "I" := by
    intro t ht
    rw [Eqn.terms] at ht
    rcases List.mem_cons.1 ht with rfl | ht
    · rw [he]
      exact .inl f8
    · obtain ⟨r, hr, rfl⟩ := List.mem_map.1 ht
      exact .inr (hrest r hr)
  have hlim : ∀ t ∈ w.eqn.terms, w.precision t.name ≤ if w.link t.name = .out then lim.2 else lim.1 := by
    intro t ht
    rw [hl]
    rcases hterm t ht with h | h | h <;> rw [h]
    · rw [show link (tx "O") = .out by decide, if_pos rfl]
      exact U.result
    · rw [show link (tx "W") = .in2 by decide, if_neg (by decide)]
      exact U.operands _ (by simp)
    · rw [show link (tx "I") = .in1 by decide, if_neg (by decide)]
      exact U.operands _ (by simp)
  have hout : ∀ t ∈ w.eqn.terms, (t.name = w.eqn.out.name ↔ w.link t.name = .out) := by
    intro t ht
    rw [hl, he, f8]
    rcases hterm t ht with h | h | h <;> rw [h] <;> decide
  refine ⟨by rw [he]; exact c1, P.once, fun s hs e => hin _ (P.inputs s hs e), fun r hr => ?_, fun m hm t ht ho p hp hal => ?_, fun m hm t ht ho => ?_, .inr ?_⟩
  · obtain ⟨k1, k2⟩ := c2 _ (haxis r hr)
    rw [he]
    obtain ⟨t, ht, hn⟩ := hin (tx "I") (.inr rfl)
    rw [he] at ht
    exact ⟨k1, t, ht, (k2 t ht).2 hn⟩
  · refine (hlim t ht).trans ((hr.1 m hm _ ho).1 p hp ?_)
    by_cases e : w.link t.name = .out
    · rw [if_pos ((hout t ht).2 e)] at hal
      rw [if_pos e]
      exact hal
    · rw [if_neg fun e' => e ((hout t ht).1 e')] at hal
      rw [if_neg e]
      exact hal
  · exact (hlim t ht).trans (hr.1 m hm _ ho).2
  · intro a b T hc
    rw [weights_of hf F U he P T hc, hl]
    decide

variable {eqn : List Char → Bool} {rel : List Char → Option LayerBuild.RelD} {fact : Nat → List (Nat × Nat)} {o : Net.Options String Text} {dw dm : Doc}

/-- C169: for every accelerator file that comes with the tool, every mapping file that fits it and every workload file with layers of the usual forms, of any size and
with any edges, an answer of a call in which data stay in lower memories has at least the energy of all operations; the search for the memories is made on the layers
and edges of the files, and a layer finds the data of the layers before it in the memory where these leave them. -/
theorem shipped_local {x : Doc × AccD String × (Int × Int)} (hx : x ∈ accelerators) {sized : List String} (hm : MapC x.2.1 sized dm = true) (hd : "default" ∉ sized)
    {ys : List (Option String × String × LayerD)} (hy : Files.parseLayers eqn rel dw = .ok ys) (hu : Layers x.2.2 sized ys) (hk : Listed ys) (hfed : ∀ y ∈ ys, Fed y.2.2)
    (hid : (ys.map fun y => y.2.2.id).Nodup) (hne : ys ≠ []) (O : OptionsOk o) (hf : Lpf.FactContract fact) (lo : LayerOptions)
    (cacti : String → String → Int → Int → Except PyErr (ℚ × ℚ × ℚ)) :
    (∃ N, ∀ fuel, N ≤ fuel → ∀ opt ans, call cacti eqn rel fact lo o opt x.1 dw dm fuel = .ok ans → x.2.1.macEnergy * (operations ys : ℕ) ≤ ans.energy) ∧
    ∃ (ws : List Written) (g : _) (nodes : List (LNode String Text)), (ws.map Written.layer = ys.map fun y => y.2.2) ∧ NetSays lo (fun _ n => n) ws g nodes ∧
      (∀ e, plan x.2.1 g nodes = .error e → ∀ fuel opt, Known opt → call cacti eqn rel fact lo o opt x.1 dw dm fuel = .error e) ∧
      ∀ s, plan x.2.1 g nodes = .ok s →
        (∀ u ∈ nodes, ∀ v ∈ nodes, Feeds ws u.id v.id → ∃ (i : Nat) (m : MemD Operand String), x.2.1.mems[i]? = some m ∧ v.act ∈ m.operands ∧ .out ∈ m.operands ∧
          levelFor s u .out = some (i : Int) ∧ levelFor s v v.act = some (i : Int)) ∧
        ∃ N, ∀ fuel, N ≤ fuel → ∀ opt, Known opt →
        ((∃ ans, call cacti eqn rel fact lo o opt x.1 dw dm fuel = .ok ans) ↔ ∀ n ∈ nodes, ∀ b, reduced (fun _ => (0, 0)) x.2.1 s n = .ok b →
          ∀ sms, Net.spatialMappings o b n.node = .ok sms → ∀ sm ∈ sms, ∃ evals, Whole.run (fun _ => (0, 0)) fact b n.node.layer sm o.limit fuel = some (evals, none)) := by
  obtain ⟨hA, F, R, C⟩ := Shipped.accelerators_ok x hx
  obtain ⟨ms, ws, hp, S, K, L, hent, hlay, hforms⟩ := Shipped.written R hm hd hy hu hk
  have hB : ∀ w ∈ ws, Both x.2.1 w := by
    intro w hw
    obtain ⟨f, h1, h2, h3, h4⟩ := hforms w hw
    refine both_of R h1 (L w hw) h2 h3 h4 ?_
    have : w.layer ∈ ys.map fun y => y.2.2 := by rw [← hlay]; exact List.mem_map_of_mem hw
    obtain ⟨y, hy, e⟩ := List.mem_map.1 this
    rw [← e]
    exact hfed y hy
  have hids : (ws.map fun w => w.layer.id).Nodup := by
    have : (ws.map fun w => w.layer.id) = ys.map fun y => y.2.2.id := by
      have := congrArg (List.map LayerD.id) hlay
      rw [List.map_map, List.map_map] at this
      exact this
    rw [this]
    exact hid
  have hops : (ws.map Written.operations).sum = operations ys := by
    unfold operations
    have : ws.map Written.operations = (ws.map Written.layer).map fun d => (d.loopSizes.map Int.toNat).prod := by rw [List.map_map]; rfl
    rw [this, hlay, List.map_map]
    rfl
  have hne' : ws ≠ [] := by
    intro h
    rw [h] at hlay
    exact hne (List.map_eq_nil_iff.1 hlay.symm)
  constructor
  · obtain ⟨N, hN⟩ := local_bounds (hA cacti) F (shipped_fit x hx) S K L hB hids O hf lo
    refine ⟨N, fun fuel hfu opt ans hans => ?_⟩
    have := (hN fuel hfu opt ans hans).2 C
    rw [hops] at this
    exact this
  · obtain ⟨g, nodes, h1, h2, h3⟩ := local_outcome_partial (hA cacti) F (shipped_fit x hx) S K L hB hids hne' O hf lo
    exact ⟨ws, g, nodes, hlay, h1, h2, h3⟩

/-- `Fed` in decidable form. -/
def FedC (d : LayerD) : Bool :=
  decide (d.sources.map Prod.fst).Nodup && (d.sources.all fun s => decide (s.2 = d.id → s.1 = tx "W" ∨ s.1 = tx "I")) &&
    (d.sources.all fun s => decide (s.2 = d.id → (tx "W", d.id) ∈ d.sources)) && decide ((tx "I", d.id) ∈ d.sources → d.equation ≠ addition.eqn.text)

theorem fedC {d : LayerD} (h : FedC d = true) : Fed d := by
  unfold FedC at h
  simp only [Bool.and_eq_true, List.all_eq_true, decide_eq_true_eq] at h
  obtain ⟨⟨⟨h1, h2⟩, h3⟩, h4⟩ := h
  exact ⟨h1, h2, fun ⟨c, hc⟩ => h3 _ hc rfl, h4⟩

theorem resnet_fed : ((Shipped.Ex.layers Shipped.resnet18Doc).all fun y => FedC y.2.2) = true ∧ ((Shipped.Ex.layers Shipped.resnet18Doc).map fun y => y.2.2.id).Nodup := by
  decide +kernel

/-- ResNet-18 with its nine additions on all accelerators that come with the tool and have a mapping file for it. -/
example : ∀ x ∈ Shipped.pairs, x.2.2 = [] → (∃ N, ∀ fuel, N ≤ fuel → ∀ opt ans,
    call (fun _ _ _ _ => .error .valueError) Shipped.Ex.eqn Shipped.Ex.relOf Whole.Ex.fact ⟨false, false⟩ Shipped.Ex.options opt x.1.1 Shipped.resnet18Doc x.2.1 fuel = .ok ans →
      x.1.2.1.macEnergy * (1970798080 : ℕ) ≤ ans.energy) := by
  intro x hx h0
  obtain ⟨h1, h2, h3⟩ := Shipped.pairs_ok x hx
  obtain ⟨r1, r2, r3, r4, r5, r6⟩ := Shipped.Ex.resnet_ok
  obtain ⟨q1, q2⟩ := resnet_fed
  have hL : Layers x.1.2.2 x.2.2 (Shipped.Ex.layers Shipped.resnet18Doc) := by
    rw [h0]
    rcases Shipped.Ex.limits x.1 h1 with h | h <;> rw [h]
    · exact Shipped.Ex.layersC r2
    · exact Shipped.Ex.layersC r3
  rw [← r6]
  exact (shipped_local h1 h2 h3 (Shipped.Ex.parsed r1) hL (Shipped.Ex.listedC r4) (fun y hy => fedC (List.all_eq_true.1 q1 y hy)) q2 (by intro h; rw [h] at r5; cases r5)
    Call.Ex.optionsOk Lpf.factContract_primeFactorsList _ _).1

end Verif.LocalCall
