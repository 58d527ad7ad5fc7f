import Verif.AnnealFiles.Ignored
import Verif.AnnealFiles.Outcome
import Verif.AnnealFiles.Exhaustive
import Verif.Anneal.OutcomeExample
import Verif.Shipped.OnnxExample
import Verif.Foreign.Example
import Verif.Call.Example
import Verif.OnnxCall.Example

/-! C173 for the files that come with the tool, and concrete calls. -/

namespace Verif.AnnealFiles

open Anneal (Luck)
open Call (LayerOptions)
open Equation (Text)
open Files (Doc)
open LayerBuild (LayerD)
open Net (OptionsOk Node)
open Onnx (OModel Precisions)
open OnnxCall (Op)
open OnnxModel (OpNode)
open Shipped (accelerators MapC Layers Listed Described)
open SpatialMapping (SM)
open Whole (AccD)

variable {cacti : String → String → Int → Int → Except PyErr (ℚ × ℚ × ℚ)} {eqn : List Char → Bool} {rel : List Char → Option LayerBuild.RelD}
  {fact : Nat → List (Nat × Nat)} {ex : ℚ → ℚ} {lo : LayerOptions} {o : Net.Options String Text} {dw dm : Doc} {luck : Node String Text → SM String Text → Luck Text}
  {opt : String} {sized : List String}

/-- C173: for every accelerator file that comes with the tool, every mapping file that fits it and every workload file with layers of the usual forms, an answer has at least
the energy of all operations, whatever is drawn. -/
theorem shipped_annealed {x : Doc × AccD String × (Int × Int)} (hx : x ∈ accelerators) (hm : MapC x.2.1 sized dm = true) (hd : "default" ∉ sized)
    {ys : List (Option String × String × LayerD)} (hy : Files.parseLayers eqn rel dw = .ok ys) (hu : Layers x.2.2 sized ys) (hk : Listed ys) (O : OptionsOk o)
    (hf : Lpf.FactContract fact) (hl : Fair luck) {ans : Net.Reply String Text} (hans : call cacti eqn rel fact ex lo o opt x.1 dw dm luck = .ok ans) :
    x.2.1.macEnergy * (Shipped.operations ys : ℕ) ≤ ans.energy := by
  obtain ⟨hA, F, R, C⟩ := Shipped.accelerators_ok x hx
  obtain ⟨ms, ws, hp, S, K, L, hent, hlay, -⟩ := Shipped.written R hm hd hy hu hk
  have hops : (ws.map Call.Written.operations).sum = Shipped.operations ys := by
    unfold Shipped.operations
    have : ws.map Call.Written.operations = (ws.map Call.Written.layer).map fun d => (d.loopSizes.map Int.toNat).prod := by rw [List.map_map]; rfl
    rw [this, hlay, List.map_map]
    rfl
  have := (file_bounds (hA cacti) F S K L O hf hl hans).2 C
  rw [hops] at this
  exact this

/-- C173: the same for ONNX models. -/
theorem shipped_onnx_annealed {x : Doc × AccD String × (Int × Int)} (hx : x ∈ accelerators) (hm : MapC x.2.1 sized dm = true) (hd : "default" ∉ sized) {m : OModel}
    {nodes : List OpNode} {os : List (Option (Op × Precisions))} (D : Described x.2.2 sized m nodes os) (O : OptionsOk o) (hf : Lpf.FactContract fact) (hl : Fair luck)
    {ans : Net.Reply String Text} (hans : onnx cacti fact ex lo o opt x.1 m nodes dm luck = .ok ans) : x.2.1.macEnergy * (Shipped.multiplications os : ℕ) ≤ ans.energy := by
  obtain ⟨hA, F, R, C⟩ := Shipped.accelerators_ok x hx
  obtain ⟨ms, ls, hp, M, hent, hls⟩ := Shipped.onnx_written R hm hd D
  have hops : OnnxCall.operations ls = Shipped.multiplications os := by
    unfold OnnxCall.operations Shipped.multiplications
    rw [← hls, List.map_map]
    congr 1
    refine List.map_congr_left fun l _ => ?_
    cases l <;> rfl
  have := (onnx_bounds (hA cacti) F M O hf hl hans).2 C
  rw [hops] at this
  exact this

/-! ### Cases that meet the hypotheses -/

/-- C173: for every accelerator file that comes with the tool, every mapping file that fits it and every workload file with layers of the usual forms, a call with a known
criterion has an answer or one of five exceptions. -/
theorem shipped_annealed_outcome {x : Doc × AccD String × (Int × Int)} (hx : x ∈ accelerators) (hm : MapC x.2.1 sized dm = true) (hd : "default" ∉ sized)
    {ys : List (Option String × String × LayerD)} (hy : Files.parseLayers eqn rel dw = .ok ys) (hu : Layers x.2.2 sized ys) (hk : Listed ys) (O : OptionsOk o)
    (hf : Lpf.FactContract fact) (hl : Fair luck) (hr : ∀ ns, Call.workload eqn rel lo dw dm = .ok ns → Anneal.InRange (fun _ => (0, 0)) fact x.2.1 o ns luck)
    (ho : Net.Known opt) : (∃ ans, call cacti eqn rel fact ex lo o opt x.1 dw dm luck = .ok ans) ∨ ∃ e ns, call cacti eqn rel fact ex lo o opt x.1 dw dm luck = .error e ∧
      Call.workload eqn rel lo dw dm = .ok ns ∧ Anneal.Halted (fun _ => (0, 0)) fact x.2.1 o ns e := by
  obtain ⟨hA, F, R, C⟩ := Shipped.accelerators_ok x hx
  obtain ⟨ms, ws, hp, S, K, L, -⟩ := Shipped.written R hm hd hy hu hk
  exact file_outcome (hA cacti) F S K L O hf hl hr ho

namespace Ex

/-- The loops are reversed first, then exchanged as drawn. -/
def drawn (draws : List Salsa.Draw) : Node String Text → SM String Text → Luck Text := fun _ _ => ⟨List.reverse, draws⟩

theorem fair (draws : List Salsa.Draw) : Fair (drawn draws) := fun _ _ l => List.reverse_perm l

/-- In place of `np.exp`: states that are no worse are accepted. -/
def accept (y : ℚ) : ℚ := if 0 ≤ y then 2 else 0

def draws : List Salsa.Draw := [⟨0, 0, 1 / 2⟩, ⟨1, 0, 1 / 2⟩]

/-- The mapping file of `Call.Ex` without the ordering. -/
def freeDoc : Doc :=
  .list [.dict [("name", .str "default"), ("spatial_mapping_hint", .dict [("D1", .list [.str "K", .str "B"])])],
    .dict [("name", .str "Conv"), ("spatial_mapping", .dict [("D1", .list [.str "K, 2"])]),
      ("memory_operand_links", .dict [("O", .str "O"), ("W", .str "I1"), ("I", .str "I2")])]]

end Ex

open Ex

/-- A call on the files of `Call.Ex`; the exhaustive engine has an answer with energy 107. -/
example : Call.Ex.report (call Call.Ex.cacti Call.Ex.eqn Call.Ex.relOf Net.Ex.few accept ⟨false, false⟩ Call.Ex.options "energy" Call.Ex.accDoc Call.Ex.workDoc Call.Ex.mapDoc
    (drawn draws)) = some (109, 32, 2) := by decide +kernel

/-- Whatever is drawn, the 32 multiplications of the workload file are paid for, and the two layers are evaluated with mappings that follow their entries. -/
example (draws : List Salsa.Draw) (ans : Net.Reply String Text)
    (h : call Call.Ex.cacti Call.Ex.eqn Call.Ex.relOf Whole.Ex.fact ex ⟨false, false⟩ Call.Ex.options opt Call.Ex.accDoc Call.Ex.workDoc Call.Ex.mapDoc (drawn draws) = .ok ans) :
    16 ≤ ans.energy ∧ ∃ best : List (Call.Written × SM String Text × (Evaluate.Job Text × Evaluate.Result)), best.length = 2 ∧
      ans.energy = (best.map fun x => x.2.2.2.energy.total).sum ∧ ∀ x ∈ best, Followed.FileFollows x.1 x.2.1 := by
  constructor
  · have := (file_bounds Call.Ex.accSays Call.Ex.fileOk Call.Ex.filesSay Call.Ex.sourcesKnown Call.Ex.allFit Call.Ex.optionsOk Lpf.factContract_primeFactorsList (fair draws) h).2
      (by decide +kernel)
    rw [show ([Call.Ex.gemm, Call.Ex.conv].map Call.Written.operations).sum = 32 by decide +kernel, show Call.Ex.acc.macEnergy = 1 / 2 from rfl] at this
    norm_num at this
    exact this
  · obtain ⟨ws', ho, best, b1, b2, -, b4⟩ := file_answer Call.Ex.accSays Call.Ex.fileOk Call.Ex.filesSay Call.Ex.sourcesKnown Call.Ex.allFit Call.Ex.optionsOk
      Lpf.factContract_primeFactorsList (fair draws) h
    refine ⟨best, ?_, b2, fun x hx => (b4 x hx).1⟩
    have := congrArg List.length b1
    rw [List.length_map] at this
    rw [this, (Call.inOrder_perm ho).length_eq]
    rfl

/-- The ordering of the entry `default` has no effect. -/
example (draws : List Salsa.Draw) (ans : Net.Reply String Text)
    (h : call Call.Ex.cacti Call.Ex.eqn Call.Ex.relOf Whole.Ex.fact ex ⟨false, false⟩ Call.Ex.options opt Call.Ex.accDoc Call.Ex.workDoc Call.Ex.mapDoc (drawn draws) = .ok ans) :
    ∃ ans', call Call.Ex.cacti Call.Ex.eqn Call.Ex.relOf Whole.Ex.fact ex ⟨false, false⟩ Call.Ex.options opt Call.Ex.accDoc Call.Ex.workDoc freeDoc (drawn draws) = .ok ans' ∧
      ans'.energy = ans.energy ∧ ans'.latency = ans.latency :=
  file_ordering_ignored Call.Ex.accSays Call.Ex.fileOk (fun _ _ => rfl) (ms := [Call.Ex.gemmEntry, Call.Ex.convEntry]) (Call.Ex.of_toOption (by decide +kernel))
    (Call.Ex.of_toOption (by decide +kernel)) h

/-- The ordering has no effect for the model of `OnnxCall.Ex`, either. -/
example (draws : List Salsa.Draw) (ans : Net.Reply String Text)
    (h : onnx Call.Ex.cacti Whole.Ex.fact ex ⟨false, false⟩ Call.Ex.options opt Call.Ex.accDoc OnnxCall.Ex.model OnnxCall.Ex.nodes Call.Ex.mapDoc (drawn draws) = .ok ans) :
    ∃ ans', onnx Call.Ex.cacti Whole.Ex.fact ex ⟨false, false⟩ Call.Ex.options opt Call.Ex.accDoc OnnxCall.Ex.model OnnxCall.Ex.nodes freeDoc (drawn draws) = .ok ans' ∧
      ans'.energy = ans.energy ∧ ans'.latency = ans.latency :=
  onnx_ordering_ignored Call.Ex.accSays Call.Ex.fileOk (fun _ _ => rfl) (ms := [Call.Ex.gemmEntry, Call.Ex.convEntry]) (Call.Ex.of_toOption (by decide +kernel))
    (Call.Ex.of_toOption (by decide +kernel)) h

/-- The model of `OnnxCall.Ex`. -/
example (draws : List Salsa.Draw) (ans : Net.Reply String Text)
    (h : onnx Call.Ex.cacti Whole.Ex.fact ex ⟨false, false⟩ Call.Ex.options opt Call.Ex.accDoc OnnxCall.Ex.model OnnxCall.Ex.nodes Call.Ex.mapDoc (drawn draws) = .ok ans) :
    12 ≤ ans.energy := by
  have := (onnx_bounds Call.Ex.accSays Call.Ex.fileOk OnnxCall.Ex.modelIs Call.Ex.optionsOk Lpf.factContract_primeFactorsList (fair draws) h).2 (by decide +kernel)
  rw [show OnnxCall.operations OnnxCall.Ex.layers = 24 by decide +kernel, show Call.Ex.acc.macEnergy = 1 / 2 from rfl] at this
  norm_num at this
  exact this

/-- ResNet-18 as an ONNX model, on every accelerator with its mapping files. -/
example : ∀ x ∈ Shipped.pairs, ∀ (draws : List Salsa.Draw) (ans : Net.Reply String Text),
    onnx Call.Ex.cacti Whole.Ex.fact ex ⟨false, false⟩ Shipped.Ex.options opt x.1.1 Shipped.resnet18Tensors Shipped.resnet18Nodes x.2.1 (drawn draws) = .ok ans →
      x.1.2.1.macEnergy * 1814073344 ≤ ans.energy := by
  intro x hx draws ans h
  obtain ⟨h1, h2, h3⟩ := Shipped.pairs_ok x hx
  have hl : 8 ≤ x.1.2.2.1 ∧ 16 ≤ x.1.2.2.2 := by rcases Shipped.Ex.limits _ h1 with h | h <;> rw [h] <;> decide
  have := shipped_onnx_annealed h1 h2 h3 (Shipped.modelC Shipped.Ex.resnet18_ok.1 hl (Shipped.Ex.sized_names x hx)) Call.Ex.optionsOk Lpf.factContract_primeFactorsList
    (fair draws) h
  rw [Shipped.Ex.resnet18_ok.2] at this
  exact_mod_cast this

/-- ResNet-18 on the accelerator like the one of Tesla, with its mapping file, which has no orderings: no draws give a better answer than the exhaustive engine without limit has. -/
example (draws : List Salsa.Draw) : ∃ M, ∀ fuel, M ≤ fuel → ∀ ans,
    call Call.Ex.cacti Shipped.Ex.eqn Shipped.Ex.relOf Whole.Ex.fact ex ⟨false, false⟩ Shipped.Ex.options "latency" Shipped.teslaNpuLikeDoc Shipped.resnet18Doc Shipped.teslaNpuLikeMap
        (drawn draws) = .ok ans →
      (∃ ans', Call.call Call.Ex.cacti Shipped.Ex.eqn Shipped.Ex.relOf Whole.Ex.fact ⟨false, false⟩ { Shipped.Ex.options with limit := none } "latency" Shipped.teslaNpuLikeDoc
          Shipped.resnet18Doc Shipped.teslaNpuLikeMap fuel = .ok ans' ∧ ans'.latency ≤ ans.latency) ∨
        Call.call Call.Ex.cacti Shipped.Ex.eqn Shipped.Ex.relOf Whole.Ex.fact ⟨false, false⟩ { Shipped.Ex.options with limit := none } "latency" Shipped.teslaNpuLikeDoc
          Shipped.resnet18Doc Shipped.teslaNpuLikeMap fuel = .error .zeroDivision := by
  obtain ⟨h1, h2, h3⟩ := Shipped.pairs_ok ((Shipped.teslaNpuLikeDoc, Shipped.teslaNpuLike, (8, 16)), Shipped.teslaNpuLikeMap, []) (by simp [Shipped.pairs])
  obtain ⟨r1, r2, -, r3, -⟩ := Shipped.Ex.resnet_ok
  obtain ⟨hA, F, R, -⟩ := Shipped.accelerators_ok _ h1
  obtain ⟨ms, ws, hp, S, K, L, hent, -⟩ := Shipped.written R h2 h3 (Shipped.Ex.parsed r1) (Shipped.Ex.layersC r2) (Shipped.Ex.listedC r3)
  have hord : (match Files.parseMapping Shipped.teslaNpuLikeMap with | .error _ => false | .ok ms => ms.all fun m => m.order.isEmpty) = true := by decide +kernel
  rw [hp] at hord
  obtain ⟨M, h⟩ := exhaustive_partial (lo := ⟨false, false⟩) (ex := ex) (o := Shipped.Ex.options) (hA Call.Ex.cacti) F S K L (fun w hw =>
    Shipped.order_nil (L w hw).attr (List.isEmpty_iff.1 (List.all_eq_true.1 hord _ (hent w hw)))) Call.Ex.optionsOk Lpf.factContract_primeFactorsList (fair draws)
  exact ⟨M, fun fuel hf ans ha => (h fuel hf "latency" ans ha).imp_left (by
    rintro ⟨ans', k1, -, k2, -⟩
    exact ⟨ans', k1, k2 rfl⟩)⟩

/-- ResNet-18 on the accelerator like the one for tensors, with the mapping file for the array of Tesla: there is no answer. -/
example (draws : List Salsa.Draw) (ans : Net.Reply String Text) : call Call.Ex.cacti Shipped.Ex.eqn Shipped.Ex.relOf Whole.Ex.fact ex ⟨false, false⟩ Shipped.Ex.options opt
    Shipped.tpuLikeDoc Shipped.resnet18Doc Shipped.teslaNpuLikeMap (drawn draws) ≠ .ok ans := by
  have hx : (Shipped.tpuLikeDoc, Shipped.tpuLike, ((8, 16) : Int × Int)) ∈ accelerators := by simp [accelerators]
  obtain ⟨r1, r2, -, r4, r5, -⟩ := Shipped.Ex.resnet_ok
  obtain ⟨hA, F, R, -⟩ := Shipped.accelerators_ok _ hx
  obtain ⟨ms, ws, hp, S, K, L, hent, hlay, -⟩ := Shipped.written (A := { Shipped.tpuLike with sizes := Foreign.four }) R
    (Foreign.maps_ok _ hx Shipped.teslaNpuLikeMap (by simp [Foreign.maps])) (by simp) (Shipped.Ex.parsed r1) (Shipped.Ex.layersC r2) (Shipped.Ex.listedC r4)
  have hn : Foreign.MapNames Shipped.tpuLike Shipped.teslaNpuLikeMap = true := by decide +kernel
  have hne : ws ≠ [] := by
    rintro rfl
    rw [List.map_eq_nil_iff.1 hlay.symm] at r5
    cases r5
  obtain ⟨w, hw⟩ := List.exists_mem_of_ne_nil _ hne
  refine file_refused (hA _) F S K Foreign.four L Call.Ex.optionsOk ⟨w, hw, ?_⟩ opt ans
  unfold Foreign.MapNames at hn
  rw [hp] at hn
  have := List.all_eq_true.1 hn _ (hent w hw)
  unfold Foreign.EntryNames at this
  rw [(L w hw).attr] at this
  simp only [List.any_eq_true, decide_eq_true_eq] at this
  exact this

/-- ResNet-18 on the accelerator like the one of Tesla: an answer or one of five exceptions. -/
example (xs : List ℚ) : (∃ ans, call Call.Ex.cacti Shipped.Ex.eqn Shipped.Ex.relOf Whole.Ex.fact ex ⟨false, false⟩ Shipped.Ex.options "EDP" Shipped.teslaNpuLikeDoc
      Shipped.resnet18Doc Shipped.teslaNpuLikeMap (drawn (xs.map fun x => ⟨0, 0, x⟩)) = .ok ans) ∨
    ∃ e ns, call Call.Ex.cacti Shipped.Ex.eqn Shipped.Ex.relOf Whole.Ex.fact ex ⟨false, false⟩ Shipped.Ex.options "EDP" Shipped.teslaNpuLikeDoc
      Shipped.resnet18Doc Shipped.teslaNpuLikeMap (drawn (xs.map fun x => ⟨0, 0, x⟩)) = .error e ∧
      Call.workload Shipped.Ex.eqn Shipped.Ex.relOf ⟨false, false⟩ Shipped.resnet18Doc Shipped.teslaNpuLikeMap = .ok ns ∧
      Anneal.Halted (fun _ => (0, 0)) Whole.Ex.fact Shipped.teslaNpuLike Shipped.Ex.options ns e := by
  obtain ⟨h1, h2, h3⟩ := Shipped.pairs_ok ((Shipped.teslaNpuLikeDoc, Shipped.teslaNpuLike, (8, 16)), Shipped.teslaNpuLikeMap, []) (by simp [Shipped.pairs])
  obtain ⟨r1, r2, -, r3, -⟩ := Shipped.Ex.resnet_ok
  exact shipped_annealed_outcome h1 h2 h3 (Shipped.Ex.parsed r1) (Shipped.Ex.layersC r2) (Shipped.Ex.listedC r3) Call.Ex.optionsOk Lpf.factContract_primeFactorsList
    (fair _) (fun ns _ => Anneal.firsts fun n sm d hd => by
      obtain ⟨x, -, rfl⟩ := List.mem_map.1 hd
      exact ⟨rfl, rfl⟩) (Or.inr (Or.inr rfl))

namespace Ex

/-- The nodes of the files of `Call.Ex` all have three loops or more left, and none of their orders raises an exception. -/
theorem calm_nodes {ns : List (Node String Text)} (h : Call.workload Call.Ex.eqn Call.Ex.relOf ⟨false, false⟩ Call.Ex.workDoc Call.Ex.mapDoc = .ok ns) : ∀ n ∈ ns,
    (∃ ks, Anneal.Ex.lefts Call.Ex.acc Call.Ex.options n = some ks ∧ ∀ k ∈ ks, ∀ x, k = some x → 3 ≤ x) ∧ Anneal.Ex.allC Call.Ex.acc Call.Ex.options n = true := by
  have key : ((Call.workload Call.Ex.eqn Call.Ex.relOf ⟨false, false⟩ Call.Ex.workDoc Call.Ex.mapDoc).toOption.map fun ns => ns.map fun n =>
      (Anneal.Ex.lefts Call.Ex.acc Call.Ex.options n, Anneal.Ex.allC Call.Ex.acc Call.Ex.options n)) =
      some [(some [some 3, some 3, some 4], true), (some [some 3], true)] := by decide +kernel
  rw [h] at key
  intro n hn
  have hm := List.mem_map_of_mem (f := fun n => (Anneal.Ex.lefts Call.Ex.acc Call.Ex.options n, Anneal.Ex.allC Call.Ex.acc Call.Ex.options n)) hn
  have hk := Option.some.inj key
  simp only at hk
  rw [hk] at hm
  simp only [List.mem_cons, List.not_mem_nil, or_false, Prod.mk.injEq] at hm
  rcases hm with ⟨h1, h2⟩ | ⟨h1, h2⟩
  · refine ⟨⟨_, h1, fun k hk x hx => ?_⟩, h2⟩
    subst hx
    simp only [List.mem_cons, List.not_mem_nil, or_false, Option.some.injEq] at hk
    omega
  · refine ⟨⟨_, h1, fun k hk x hx => ?_⟩, h2⟩
    subst hx
    simp only [List.mem_cons, List.not_mem_nil, or_false, Option.some.injEq] at hk
    omega

end Ex

/-- Non-trivial case: on the files of `Call.Ex` every sequence of draws of three positions has an answer. -/
example (draws : List Salsa.Draw) (hd : ∀ d ∈ draws, d.i < 3 ∧ d.j < 3) :
    ∃ ans, call Call.Ex.cacti Call.Ex.eqn Call.Ex.relOf Compare.Ex.quick ex ⟨false, false⟩ Call.Ex.options "EDP" Call.Ex.accDoc Call.Ex.workDoc Call.Ex.mapDoc
      (drawn draws) = .ok ans := by
  refine file_works Call.Ex.accSays Call.Ex.fileOk Call.Ex.filesSay Call.Ex.sourcesKnown Call.Ex.allFit Call.Ex.optionsOk Compare.Ex.quickOk (fair draws) ?_
    (Or.inr (Or.inr rfl)) (by decide +kernel) (by decide +kernel) ?_
  · intro ns hw n hn c sms hc hs sm hsm t p ht hl _ d hd'
    obtain ⟨⟨ks, h1, h2⟩, -⟩ := calm_nodes hw n hn
    have := h2 _ (Anneal.Ex.lefts_length h1 hc hs hsm ht hl) p.length rfl
    obtain ⟨d1, d2⟩ := hd d hd'
    exact ⟨by omega, by omega⟩
  · intro ns hw n hn sms c hs hc sm hsm t ht
    exact Anneal.Ex.all_smooth (calm_nodes hw n hn).2 hc hs hsm ht

/-- Non-trivial case: on the files of `Call.Ex` there are draws with an answer, and none gives a better one than the exhaustive engine has without the ordering. -/
example (draws : List Salsa.Draw) : ∃ M, ∀ fuel, M ≤ fuel → ∀ ans,
    call Call.Ex.cacti Call.Ex.eqn Call.Ex.relOf Compare.Ex.quick ex ⟨false, false⟩ Call.Ex.options "energy" Call.Ex.accDoc Call.Ex.workDoc Call.Ex.mapDoc (drawn draws) = .ok ans →
      ∃ ans', Call.call Call.Ex.cacti Call.Ex.eqn Call.Ex.relOf Compare.Ex.quick ⟨false, false⟩ { Call.Ex.options with limit := none } "energy" Call.Ex.accDoc Call.Ex.workDoc
        freeDoc fuel = .ok ans' ∧ ans'.energy ≤ ans.energy := by
  obtain ⟨M, h⟩ := file_exhaustive_best (lo := ⟨false, false⟩) (ex := ex) (ms := [Call.Ex.gemmEntry, Call.Ex.convEntry]) (dm' := freeDoc) Call.Ex.accSays Call.Ex.fileOk
    Call.Ex.filesSay Call.Ex.sourcesKnown Call.Ex.allFit (Call.Ex.of_toOption (by decide +kernel)) (Call.Ex.of_toOption (by decide +kernel)) Call.Ex.optionsOk Compare.Ex.quickOk
    (fair draws) fun ns hw n hn sms c hs hc sm hsm t ht => (Anneal.Ex.all_smooth (calm_nodes hw n hn).2 hc hs hsm ht).calm
  refine ⟨M, fun fuel hfu ans ha => ?_⟩
  obtain ⟨ans', h1, h2, -⟩ := h fuel hfu "energy" ans ha
  exact ⟨ans', h1, h2 rfl⟩

end Verif.AnnealFiles
