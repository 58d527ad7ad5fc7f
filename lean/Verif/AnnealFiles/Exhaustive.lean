import Verif.AnnealFiles.Ignored
import Verif.Anneal.Exhaustive

/-! C173: comparison of calls on files with the exhaustive engine if no order of the loops makes the cost model divide by zero. -/

namespace Verif.AnnealFiles

open Anneal (Luck Apart)
open Call (LayerOptions AccSays FilesSay SourcesKnown LayerFits Written)
open Equation (Text)
open Files (Doc MapR)
open Net (OptionsOk Node FileOk)
open Onnx (OModel)
open OnnxCall (ModelIs Layer)
open OnnxModel (OpNode)
open SpatialMapping (SM)
open Whole (AccD)

variable {cacti : String → String → Int → Int → Except PyErr (ℚ × ℚ × ℚ)} {eqn : List Char → Bool} {rel : List Char → Option LayerBuild.RelD}
  {fact : Nat → List (Nat × Nat)} {ex : ℚ → ℚ} {lo : LayerOptions} {o : Net.Options String Text} {da dw dm dm' : Doc} {A : AccD String} {ws : List Written}
  {luck : Node String Text → SM String Text → Luck Text} {m : OModel} {nodes : List OpNode} {ls : List (Option Layer)}

/-- C173: let the second mapping file be the first one without its orderings. If no order of the loops gives a mapping with two movements of a port that happen exactly once,
the exhaustive engine without limit has an answer for the second file whenever the annealing engine has one for the first, and it is no worse, whatever is drawn. -/
theorem file_exhaustive_best (hA : AccSays cacti da A) (F : FileOk A) (S : FilesSay eqn rel dw dm ws) (K : SourcesKnown ws) (L : ∀ w ∈ ws, LayerFits A w) {ms : List MapR}
    (hm : Files.parseMapping dm = .ok ms) (hm' : Files.parseMapping dm' = .ok (ms.map sansOrder)) (O : OptionsOk o) (hf : Lpf.FactContract fact) (hk : Fair luck)
    (hs : ∀ ns, Call.workload eqn rel lo dw dm = .ok ns → ∀ n ∈ ns, ∀ sms c, Net.spatialMappings o A n = .ok sms → Whole.accelerator (fun _ => (0, 0)) A = .ok c →
      ∀ sm ∈ sms, ∀ t, Whole.task A c n.layer sm = .ok t → Apart fact c n.layer t) :
    ∃ M, ∀ fuel, M ≤ fuel → ∀ opt ans, call cacti eqn rel fact ex lo o opt da dw dm luck = .ok ans →
      ∃ ans', Call.call cacti eqn rel fact lo { o with limit := none } opt da dw dm' fuel = .ok ans' ∧ (opt = "energy" → ans'.energy ≤ ans.energy) ∧
        (opt = "latency" → ans'.latency ≤ ans.latency) ∧ (opt = "EDP" → ws.length ≤ 1 → ans'.latency * ans'.energy ≤ ans.latency * ans.energy) := by
  obtain ⟨ns, hw, ws', hord, hall⟩ := Call.workload_written (A := A) S K L lo
  have hperm := Call.inOrder_perm hord
  obtain ⟨M, hM⟩ := Anneal.exhaustive_best (cacti := fun _ => (0, 0)) (ex := ex) F O hf (fun n hn _ => by
    obtain ⟨w, -, -, rl, h'⟩ := Files.forall2_right hall n hn
    exact ⟨rl, _, h'⟩) hk fun n hn _ => hs ns hw n hn
  have hlen : ns.length = ws.length := by rw [← hall.length_eq, hperm.length_eq]
  refine ⟨M, fun fuel hfu opt ans hans => ?_⟩
  have hopt := known hans
  rw [call_eq hA F hw hopt] at hans
  rw [Call.call_eq hA F (workload_sans hm hm' hw) opt hopt fuel]
  obtain ⟨ans', h1, h2, h3, h4⟩ := hM fuel hfu opt ans hans
  exact ⟨ans', h1, h2, h3, fun ho hl => h4 ho ((List.length_filter_le _ _).trans (by omega))⟩

/-- C173: the same for ONNX models. -/
theorem onnx_exhaustive_best (hA : AccSays cacti da A) (F : FileOk A) (I : ModelIs A m nodes dm ls) {ms : List MapR}
    (hm : Files.parseMapping dm = .ok ms) (hm' : Files.parseMapping dm' = .ok (ms.map sansOrder)) (O : OptionsOk o) (hf : Lpf.FactContract fact) (hk : Fair luck)
    (hs : ∀ ns, OnnxCall.workload lo m nodes dm = .ok ns → ∀ n ∈ ns, ∀ sms c, Net.spatialMappings o A n = .ok sms → Whole.accelerator (fun _ => (0, 0)) A = .ok c →
      ∀ sm ∈ sms, ∀ t, Whole.task A c n.layer sm = .ok t → Apart fact c n.layer t) :
    ∃ M, ∀ fuel, M ≤ fuel → ∀ opt ans, onnx cacti fact ex lo o opt da m nodes dm luck = .ok ans →
      ∃ ans', OnnxCall.call cacti fact lo { o with limit := none } opt da m nodes dm' fuel = .ok ans' ∧ (opt = "energy" → ans'.energy ≤ ans.energy) ∧
        (opt = "latency" → ans'.latency ≤ ans.latency) := by
  obtain ⟨ns, hw, order, hord, hall⟩ := OnnxCall.workload_model I lo
  obtain ⟨M, hM⟩ := Anneal.exhaustive_best (cacti := fun _ => (0, 0)) (ex := ex) F O hf (fun n hn _ => by
    obtain ⟨w, -, -, h', -⟩ := Files.forall2_right hall n hn
    exact h') hk fun n hn _ => hs ns hw n hn
  refine ⟨M, fun fuel hfu opt ans hans => ?_⟩
  have hopt := known_onnx hans
  rw [onnx_eq hA F hw hopt] at hans
  rw [OnnxCall.call_eq hA F (onnx_workload_sans hm hm' hw) opt hopt fuel]
  obtain ⟨ans', h1, h2, h3, -⟩ := hM fuel hfu opt ans hans
  exact ⟨ans', h1, h2, h3⟩

end Verif.AnnealFiles
