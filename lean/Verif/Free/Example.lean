import Verif.Free.Props
import Verif.Free.Ordered
import Verif.AnnealFiles.Example

/-! Concrete cases of the conditions for answers. -/

namespace Verif.Free

open Call (LayerOptions Written FilesSay SourcesKnown LayerFits)
open Call.Ex (gemm conv gemmEntry convEntry gemmFits convFits of_toOption)
open Equation (Text)
open Net (Node Known)
open AnnealFiles (sansOrder)
open AnnealFiles.Ex (freeDoc)

namespace Ex

/-- The product of matrices without its ordering. -/
def gemmFree : Written := { gemm with entry := sansOrder gemmEntry, attr := { gemm.attr with order := [] } }

theorem filesSay : FilesSay Call.Ex.eqn Call.Ex.relOf Call.Ex.workDoc freeDoc [gemmFree, conv] where
  layers := of_toOption (by decide +kernel)
  entries := by
    refine ⟨[sansOrder gemmEntry, convEntry], of_toOption (by decide +kernel), ?_⟩
    intro w hw
    simp only [List.mem_cons, List.not_mem_nil, or_false] at hw
    rcases hw with rfl | rfl
    · exact Call.chosen_iff.2 (of_toOption (by decide +kernel))
    · exact Call.chosen_iff.2 (of_toOption (by decide +kernel))

theorem sourcesKnown : SourcesKnown [gemmFree, conv] := by
  intro j w hw s hs
  rcases j with _ | _ | j
  · cases hw
    exact Or.inl (by revert s; decide)
  · cases hw
    have : s = (LayerBuild.tx "W", 1) ∨ s = (LayerBuild.tx "I", 0) := by simpa [conv, Call.Ex.convD] using hs
    rcases this with rfl | rfl
    · exact Or.inl rfl
    · exact Or.inr ⟨0, by omega, gemmFree, rfl, rfl⟩
  · cases hw

theorem fits : ∀ w ∈ [gemmFree, conv], LayerFits Call.Ex.acc w := by
  intro w hw
  simp only [List.mem_cons, List.not_mem_nil, or_false] at hw
  rcases hw with rfl | rfl
  · have G := gemmFits
    exact ⟨G.good, G.pr, G.some, G.inputs, G.names, G.fresh, G.index, G.mix, G.vars, G.precise, of_toOption (by decide +kernel), G.link, G.out, G.stored, G.linked, G.delivers,
      G.holds, G.user, by simp [gemmFree]⟩
  · exact convFits

theorem smooth {ns : List (Node String Text)} (h : Call.workload Call.Ex.eqn Call.Ex.relOf ⟨false, false⟩ Call.Ex.workDoc freeDoc = .ok ns) : ∀ n ∈ ns,
    Anneal.Ex.allC Call.Ex.acc Call.Ex.options n = true := by
  have key : ((Call.workload Call.Ex.eqn Call.Ex.relOf ⟨false, false⟩ Call.Ex.workDoc freeDoc).toOption.map fun ns => ns.all fun n =>
      Anneal.Ex.allC Call.Ex.acc Call.Ex.options n) = some true := by decide +kernel
  rw [h] at key
  exact List.all_eq_true.1 (Option.some.inj key)

end Ex

open Ex

/-- Non-trivial case: for the product and the convolution of `Call.Ex` without ordering every mapping has an order that fits, so the call has an answer. -/
example : ∃ M, ∀ fuel, M ≤ fuel → ∀ opt, Known opt →
    ∃ ans, Call.call Call.Ex.cacti Call.Ex.eqn Call.Ex.relOf Compare.Ex.quick ⟨false, false⟩ { Call.Ex.options with limit := none } opt Call.Ex.accDoc Call.Ex.workDoc freeDoc fuel =
      .ok ans := by
  obtain ⟨ns, hw, M, h⟩ := file_answer_iff (lo := ⟨false, false⟩) Call.Ex.accSays Call.Ex.fileOk filesSay sourcesKnown fits (by decide +kernel) Call.Ex.optionsOk Compare.Ex.quickOk
    fun ns hw n hn sms c hs hc sm hsm t ht => (Anneal.Ex.all_smooth (smooth hw n hn) hc hs hsm ht).calm
  refine ⟨M, fun fuel hfu opt ho => (h fuel hfu opt ho).2 fun n hn sms c hs hc sm hsm t ht => ?_⟩
  have S := Anneal.Ex.all_smooth (smooth hw n hn) hc hs hsm ht
  obtain ⟨rl, rels, K⟩ : ∃ rl rels, Net.NodeOk Call.Ex.acc n rl rels := by
    obtain ⟨ns', hw', ws', -, hall⟩ := Call.workload_written (A := Call.Ex.acc) filesSay sourcesKnown fits ⟨false, false⟩
    rw [hw] at hw'
    cases hw'
    obtain ⟨w, -, -, rl, h'⟩ := Files.forall2_right hall n hn
    exact ⟨rl, _, h'⟩
  obtain ⟨sms', g1, -, g3⟩ := Net.generated Call.Ex.fileOk K Call.Ex.optionsOk
  rw [hs] at g1
  cases g1
  obtain ⟨p, hp⟩ := Anneal.left_some Compare.Ex.quickOk (g3 sm hsm).1 hc ht
  obtain ⟨j, hj⟩ := S.fits p hp
  exact ⟨p, j, hp, hj⟩

namespace Ex

/-- The product of the model of `OnnxCall.Ex` without its ordering. -/
def last : OnnxCall.Layer := { OnnxCall.Ex.gemm with entry := sansOrder gemmEntry, attr := { OnnxCall.Ex.gemm.attr with order := [] } }

def layers : List (Option OnnxCall.Layer) := [some OnnxCall.Ex.conv, none, none, some last]

theorem lastFits : OnnxCall.Fits Call.Ex.acc last (OnnxCall.computed OnnxCall.Ex.nodes 3) := by
  have G := OnnxCall.Ex.gemmFits
  exact ⟨G.sources, of_toOption (by decide +kernel), G.link, G.out, G.stored, G.linked, G.delivers, G.holds, G.user, by simp [last]⟩

theorem modelIs : OnnxCall.ModelIs Call.Ex.acc OnnxCall.Ex.model OnnxCall.Ex.nodes freeDoc layers where
  length := rfl
  entries := by
    refine ⟨[sansOrder gemmEntry, convEntry], of_toOption (by decide +kernel), ?_⟩
    intro k n l hn hl
    rcases k with _ | _ | _ | _ | k
    · cases hn
      cases hl
      exact ⟨⟨OnnxCall.Ex.convIs, ⟨.inr (by decide +kernel), .inl (by decide +kernel), .inr (by decide +kernel)⟩, Call.chosen_iff.2 (of_toOption (by decide +kernel))⟩,
        OnnxCall.Ex.convFits⟩
    · cases hl
    · cases hl
    · cases hn
      cases hl
      exact ⟨⟨OnnxCall.Ex.gemmIs, ⟨.inr (by decide +kernel), .inr (by decide +kernel), .inl (by decide +kernel)⟩, Call.chosen_iff.2 (of_toOption (by decide +kernel))⟩, lastFits⟩
    · cases hn
  others := by
    intro k n hn hl
    refine OnnxCall.Ex.modelIs.others k n hn ?_
    rcases k with _ | _ | _ | _ | k
    · cases hl
    · rfl
    · rfl
    · cases hl
    · cases hn
  forward := OnnxCall.Ex.modelIs.forward

theorem smooth_model {ns : List (Node String Text)} (h : OnnxCall.workload ⟨false, false⟩ OnnxCall.Ex.model OnnxCall.Ex.nodes freeDoc = .ok ns) : ∀ n ∈ ns,
    Anneal.Ex.allC Call.Ex.acc Call.Ex.options n = true := by
  have key : ((OnnxCall.workload ⟨false, false⟩ OnnxCall.Ex.model OnnxCall.Ex.nodes freeDoc).toOption.map fun ns => ns.all fun n =>
      Anneal.Ex.allC Call.Ex.acc Call.Ex.options n) = some true := by decide +kernel
  rw [h] at key
  exact List.all_eq_true.1 (Option.some.inj key)

end Ex

/-- Non-trivial case: the model of `OnnxCall.Ex` with the mapping file without ordering has an answer. -/
example : ∃ M, ∀ fuel, M ≤ fuel → ∀ opt, Known opt →
    ∃ ans, OnnxCall.call Call.Ex.cacti Compare.Ex.quick ⟨false, false⟩ { Call.Ex.options with limit := none } opt Call.Ex.accDoc OnnxCall.Ex.model OnnxCall.Ex.nodes freeDoc fuel =
      .ok ans := by
  obtain ⟨ns, hw, M, h⟩ := onnx_answer_iff (lo := ⟨false, false⟩) Call.Ex.accSays Call.Ex.fileOk modelIs (by
      intro l hl
      simp only [layers, List.mem_cons, List.not_mem_nil, or_false, Option.some.injEq, reduceCtorEq, false_or] at hl
      rcases hl with rfl | rfl <;> rfl) Call.Ex.optionsOk Compare.Ex.quickOk
    fun ns hw n hn sms c hs hc sm hsm t ht => (Anneal.Ex.all_smooth (smooth_model hw n hn) hc hs hsm ht).calm
  refine ⟨M, fun fuel hfu opt ho => (h fuel hfu opt ho).2 fun n hn sms c hs hc sm hsm t ht => ?_⟩
  have S := Anneal.Ex.all_smooth (smooth_model hw n hn) hc hs hsm ht
  obtain ⟨rl, rels, K⟩ : ∃ rl rels, Net.NodeOk Call.Ex.acc n rl rels := by
    obtain ⟨ns', hw', ws', -, hall⟩ := OnnxCall.workload_model modelIs ⟨false, false⟩
    rw [hw] at hw'
    cases hw'
    obtain ⟨w, -, -, h', -⟩ := Files.forall2_right hall n hn
    exact h'
  obtain ⟨sms', g1, -, g3⟩ := Net.generated Call.Ex.fileOk K Call.Ex.optionsOk
  rw [hs] at g1
  cases g1
  obtain ⟨p, hp⟩ := Anneal.left_some Compare.Ex.quickOk (g3 sm hsm).1 hc ht
  obtain ⟨j, hj⟩ := S.fits p hp
  exact ⟨p, j, hp, hj⟩

/-- Non-trivial case: for this model no draws give a better answer than the exhaustive engine has. -/
example {ex : ℚ → ℚ} (draws : List Salsa.Draw) : ∃ M, ∀ fuel, M ≤ fuel → ∀ ans,
    AnnealFiles.onnx Call.Ex.cacti Compare.Ex.quick ex ⟨false, false⟩ Call.Ex.options "latency" Call.Ex.accDoc OnnxCall.Ex.model OnnxCall.Ex.nodes freeDoc
        (AnnealFiles.Ex.drawn draws) = .ok ans →
      ∃ ans', OnnxCall.call Call.Ex.cacti Compare.Ex.quick ⟨false, false⟩ { Call.Ex.options with limit := none } "latency" Call.Ex.accDoc OnnxCall.Ex.model OnnxCall.Ex.nodes
        freeDoc fuel = .ok ans' ∧ ans'.latency ≤ ans.latency := by
  obtain ⟨M, h⟩ := AnnealFiles.onnx_exhaustive_best (lo := ⟨false, false⟩) (ex := ex) (ms := [sansOrder gemmEntry, convEntry]) (dm' := freeDoc) Call.Ex.accSays Call.Ex.fileOk
    modelIs (of_toOption (by decide +kernel)) (of_toOption (by decide +kernel)) Call.Ex.optionsOk Compare.Ex.quickOk (AnnealFiles.Ex.fair draws)
    fun ns hw n hn sms c hs hc sm hsm t ht => (Anneal.Ex.all_smooth (smooth_model hw n hn) hc hs hsm ht).calm
  refine ⟨M, fun fuel hfu ans ha => ?_⟩
  obtain ⟨ans', h1, -, h3⟩ := h fuel hfu "latency" ans ha
  exact ⟨ans', h1, h3 rfl⟩

namespace Ex

/-- The nodes of the files with the ordering have more operations than the array has units. -/
theorem big {ns : List (Node String Text)} (h : Call.workload Call.Ex.eqn Call.Ex.relOf ⟨false, false⟩ Call.Ex.workDoc Call.Ex.mapDoc = .ok ns) : ∀ n ∈ ns,
    Hierarchy.totalUnits Call.Ex.acc.sizes < Whole.operations n.layer := by
  have key : ((Call.workload Call.Ex.eqn Call.Ex.relOf ⟨false, false⟩ Call.Ex.workDoc Call.Ex.mapDoc).toOption.map fun ns => ns.all fun n =>
      decide (Hierarchy.totalUnits Call.Ex.acc.sizes < Whole.operations n.layer)) = some true := by decide +kernel
  rw [h] at key
  exact fun n hn => of_decide_eq_true (List.all_eq_true.1 (Option.some.inj key) n hn)

theorem big_model {ns : List (Node String Text)} (h : OnnxCall.workload ⟨false, false⟩ OnnxCall.Ex.model OnnxCall.Ex.nodes Call.Ex.mapDoc = .ok ns) : ∀ n ∈ ns,
    Hierarchy.totalUnits Call.Ex.acc.sizes < Whole.operations n.layer ∧ Anneal.Ex.allC Call.Ex.acc Call.Ex.options n = true := by
  have key : ((OnnxCall.workload ⟨false, false⟩ OnnxCall.Ex.model OnnxCall.Ex.nodes Call.Ex.mapDoc).toOption.map fun ns => ns.all fun n =>
      decide (Hierarchy.totalUnits Call.Ex.acc.sizes < Whole.operations n.layer) && Anneal.Ex.allC Call.Ex.acc Call.Ex.options n) = some true := by decide +kernel
  rw [h] at key
  intro n hn
  have := List.all_eq_true.1 (Option.some.inj key) n hn
  rw [Bool.and_eq_true, decide_eq_true_eq] at this
  exact this

end Ex

/-- Non-trivial case: the files of `Call.Ex`, whose mapping file has an ordering for the product, and the mapping file without it. -/
example : ∃ M, ∀ fuel, M ≤ fuel → ∀ ans,
    Call.call Call.Ex.cacti Call.Ex.eqn Call.Ex.relOf Compare.Ex.quick ⟨false, false⟩ Call.Ex.options "energy" Call.Ex.accDoc Call.Ex.workDoc Call.Ex.mapDoc fuel = .ok ans →
      ∃ ans', Call.call Call.Ex.cacti Call.Ex.eqn Call.Ex.relOf Compare.Ex.quick ⟨false, false⟩ Call.Ex.options "energy" Call.Ex.accDoc Call.Ex.workDoc freeDoc fuel = .ok ans' ∧
        ans'.energy ≤ ans.energy := by
  obtain ⟨M, h⟩ := file_ordering_best (lo := ⟨false, false⟩) (ms := [gemmEntry, convEntry]) (dm' := freeDoc) Call.Ex.accSays Call.Ex.fileOk Call.Ex.filesSay Call.Ex.sourcesKnown
    Call.Ex.allFit (of_toOption (by decide +kernel)) (of_toOption (by decide +kernel)) Call.Ex.optionsOk rfl Compare.Ex.quickOk (fun ns => big)
    fun ns hw n hn sms c hs hc sm hsm t ht => (Anneal.Ex.all_smooth (AnnealFiles.Ex.calm_nodes hw n hn).2 hc hs hsm ht).calm
  refine ⟨M, fun fuel hfu ans ha => ?_⟩
  obtain ⟨ans', h1, h2, -⟩ := h fuel hfu "energy" (Or.inl rfl) ans ha
  exact ⟨ans', h1, h2 rfl⟩

/-- Non-trivial case: the same for the model of `OnnxCall.Ex`. -/
example : ∃ M, ∀ fuel, M ≤ fuel → ∀ ans,
    OnnxCall.call Call.Ex.cacti Compare.Ex.quick ⟨false, false⟩ Call.Ex.options "energy" Call.Ex.accDoc OnnxCall.Ex.model OnnxCall.Ex.nodes Call.Ex.mapDoc fuel = .ok ans →
      ∃ ans', OnnxCall.call Call.Ex.cacti Compare.Ex.quick ⟨false, false⟩ Call.Ex.options "energy" Call.Ex.accDoc OnnxCall.Ex.model OnnxCall.Ex.nodes freeDoc fuel = .ok ans' ∧
        ans'.energy ≤ ans.energy := by
  obtain ⟨M, h⟩ := onnx_ordering_best (lo := ⟨false, false⟩) (ms := [gemmEntry, convEntry]) (dm' := freeDoc) Call.Ex.accSays Call.Ex.fileOk OnnxCall.Ex.modelIs
    (of_toOption (by decide +kernel)) (of_toOption (by decide +kernel)) Call.Ex.optionsOk rfl Compare.Ex.quickOk (fun ns hw n hn => (big_model hw n hn).1)
    fun ns hw n hn sms c hs hc sm hsm t ht => (Anneal.Ex.all_smooth (big_model hw n hn).2 hc hs hsm ht).calm
  refine ⟨M, fun fuel hfu ans ha => ?_⟩
  obtain ⟨ans', h1, h2, -⟩ := h fuel hfu "energy" (Or.inl rfl) ans ha
  exact ⟨ans', h1, h2 rfl⟩

end Verif.Free
