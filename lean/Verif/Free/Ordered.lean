import Verif.Free.Props
import Verif.Anneal.Ordered
import Verif.AnnealFiles.Ignored

/-! C163 for calls on files: leaving the orderings out of the mapping file never makes the answer worse. -/

namespace Verif.Free

open Anneal (Apart)
open AnnealFiles (sansOrder)
open Call (LayerOptions AccSays FilesSay SourcesKnown LayerFits Written)
open Compare (freed)
open Equation (Text)
open Files (Doc MapR)
open Net (OptionsOk Node FileOk Known)
open Onnx (OModel)
open OnnxCall (ModelIs Layer)
open OnnxModel (OpNode)
open Whole (AccD)

variable {cacti : String → String → Int → Int → Except PyErr (ℚ × ℚ × ℚ)} {eqn : List Char → Bool} {rel : List Char → Option LayerBuild.RelD}
  {fact : Nat → List (Nat × Nat)} {lo : LayerOptions} {o : Net.Options String Text} {da dw dm dm' : Doc} {A : AccD String} {ws : List Written}
  {m : OModel} {nodes : List OpNode} {ls : List (Option Layer)}

/-- C163: let the second mapping file be the first one without its orderings, which only say which dimensions come first. If there is no limit on loops, all layers have more operations
than the array has units and no order of the loops gives a mapping with two movements of a port that happen exactly once, then whenever a call with the first file has an answer, the call
with the second has one that is no worse. -/
theorem file_ordering_best (hA : AccSays cacti da A) (F : FileOk A) (S : FilesSay eqn rel dw dm ws) (K : SourcesKnown ws) (L : ∀ w ∈ ws, LayerFits A w) {ms : List MapR}
    (hm : Files.parseMapping dm = .ok ms) (hm' : Files.parseMapping dm' = .ok (ms.map sansOrder)) (O : OptionsOk o) (hl : o.limit = none) (hf : Lpf.FactContract fact)
    (hb : ∀ ns, Call.workload eqn rel lo dw dm = .ok ns → ∀ n ∈ ns, Hierarchy.totalUnits A.sizes < Whole.operations n.layer)
    (hs : ∀ ns, Call.workload eqn rel lo dw dm = .ok ns → Every A o ns (Apart fact)) :
    ∃ M, ∀ fuel, M ≤ fuel → ∀ opt, Known opt → ∀ ans, Call.call cacti eqn rel fact lo o opt da dw dm fuel = .ok ans →
      ∃ ans', Call.call cacti eqn rel fact lo o opt da dw dm' fuel = .ok ans' ∧ (opt = "energy" → ans'.energy ≤ ans.energy) ∧
        (opt = "latency" → ans'.latency ≤ ans.latency) ∧ (opt = "EDP" → ws.length ≤ 1 → ans'.latency * ans'.energy ≤ ans.latency * ans.energy) := by
  obtain ⟨ns, hw, ws', hord, hall⟩ := Call.workload_written (A := A) S K L lo
  have hlen : ns.length = ws.length := by rw [← hall.length_eq, (Call.inOrder_perm hord).length_eq]
  obtain ⟨M, hM⟩ := Anneal.ordering_best (cacti := fun _ => (0, 0)) hf F O hl (fun n hn _ => by
    obtain ⟨w, -, -, rl, h'⟩ := Files.forall2_right hall n hn
    exact ⟨hb ns hw n hn, rl, _, h'⟩) fun n hn _ => hs ns hw n hn
  refine ⟨M, fun fuel hfu opt hopt ans hans => ?_⟩
  rw [Call.call_eq hA F hw opt hopt fuel] at hans
  rw [Call.call_eq hA F (AnnealFiles.workload_sans hm hm' hw) opt hopt fuel]
  obtain ⟨ans', h1, h2, h3, h4⟩ := hM fuel hfu opt ans hans
  exact ⟨ans', h1, h2, h3, fun ho hl => h4 ho ((List.length_filter_le _ _).trans (by omega))⟩

/-- C163: the same for ONNX models. -/
theorem onnx_ordering_best (hA : AccSays cacti da A) (F : FileOk A) (I : ModelIs A m nodes dm ls) {ms : List MapR} (hm : Files.parseMapping dm = .ok ms)
    (hm' : Files.parseMapping dm' = .ok (ms.map sansOrder)) (O : OptionsOk o) (hl : o.limit = none) (hf : Lpf.FactContract fact)
    (hb : ∀ ns, OnnxCall.workload lo m nodes dm = .ok ns → ∀ n ∈ ns, Hierarchy.totalUnits A.sizes < Whole.operations n.layer)
    (hs : ∀ ns, OnnxCall.workload lo m nodes dm = .ok ns → Every A o ns (Apart fact)) :
    ∃ M, ∀ fuel, M ≤ fuel → ∀ opt, Known opt → ∀ ans, OnnxCall.call cacti fact lo o opt da m nodes dm fuel = .ok ans →
      ∃ ans', OnnxCall.call cacti fact lo o opt da m nodes dm' fuel = .ok ans' ∧ (opt = "energy" → ans'.energy ≤ ans.energy) ∧
        (opt = "latency" → ans'.latency ≤ ans.latency) := by
  obtain ⟨ns, hw, order, hord, hall⟩ := OnnxCall.workload_model I lo
  obtain ⟨M, hM⟩ := Anneal.ordering_best (cacti := fun _ => (0, 0)) hf F O hl (fun n hn _ => by
    obtain ⟨w, -, -, h', -⟩ := Files.forall2_right hall n hn
    exact ⟨hb ns hw n hn, h'⟩) fun n hn _ => hs ns hw n hn
  refine ⟨M, fun fuel hfu opt hopt ans hans => ?_⟩
  rw [OnnxCall.call_eq hA F hw opt hopt fuel] at hans
  rw [OnnxCall.call_eq hA F (AnnealFiles.onnx_workload_sans hm hm' hw) opt hopt fuel]
  obtain ⟨ans', h1, h2, h3, -⟩ := hM fuel hfu opt ans hans
  exact ⟨ans', h1, h2, h3⟩

end Verif.Free
