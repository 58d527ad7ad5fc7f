import Verif.AnnealFiles.Ignored
import Verif.Anneal.Outcome

/-! C173: how calls on files with the annealing engine end. -/

namespace Verif.AnnealFiles

open Anneal (Luck Halted InRange Left)
open Call (LayerOptions AccSays FilesSay SourcesKnown LayerFits Written)
open Equation (Text)
open Files (Doc)
open Net (OptionsOk Node Known FileOk)
open Onnx (OModel)
open OnnxCall (ModelIs Layer)
open OnnxModel (OpNode)
open SpatialMapping (SM)
open Whole (AccD)

variable {cacti : String → String → Int → Int → Except PyErr (ℚ × ℚ × ℚ)} {eqn : List Char → Bool} {rel : List Char → Option LayerBuild.RelD}
  {fact : Nat → List (Nat × Nat)} {ex : ℚ → ℚ} {lo : LayerOptions} {o : Net.Options String Text} {da dw dm : Doc} {A : AccD String} {ws : List Written}
  {luck : Node String Text → SM String Text → Luck Text} {opt : String} {m : OModel} {nodes : List OpNode} {ls : List (Option Layer)}

/-- C173: a call on a workload file with a known criterion has an answer or one of the five exceptions of `Halted`. -/
theorem file_outcome (hA : AccSays cacti da A) (F : FileOk A) (S : FilesSay eqn rel dw dm ws) (K : SourcesKnown ws) (L : ∀ w ∈ ws, LayerFits A w) (O : OptionsOk o)
    (hf : Lpf.FactContract fact) (hk : Fair luck) (hd : ∀ ns, Call.workload eqn rel lo dw dm = .ok ns → InRange (fun _ => (0, 0)) fact A o ns luck) (ho : Known opt) :
    (∃ ans, call cacti eqn rel fact ex lo o opt da dw dm luck = .ok ans) ∨
      ∃ e ns, call cacti eqn rel fact ex lo o opt da dw dm luck = .error e ∧ Call.workload eqn rel lo dw dm = .ok ns ∧ Halted (fun _ => (0, 0)) fact A o ns e := by
  obtain ⟨ns, hw, ws', hord, hall⟩ := Call.workload_written (A := A) S K L lo
  rw [call_eq hA F hw ho]
  refine (Anneal.annealed_outcome F O hf (fun n hn _ => ?_) hk (hd ns hw) ho).imp_right fun ⟨e, h1, h2⟩ => ⟨e, ns, h1, hw, h2⟩
  obtain ⟨w, -, -, rl, h'⟩ := Files.forall2_right hall n hn
  exact ⟨rl, _, h'⟩

/-- C173: the same for ONNX models. -/
theorem onnx_outcome (hA : AccSays cacti da A) (F : FileOk A) (M : ModelIs A m nodes dm ls) (O : OptionsOk o) (hf : Lpf.FactContract fact) (hk : Fair luck)
    (hd : ∀ ns, OnnxCall.workload lo m nodes dm = .ok ns → InRange (fun _ => (0, 0)) fact A o ns luck) (ho : Known opt) :
    (∃ ans, onnx cacti fact ex lo o opt da m nodes dm luck = .ok ans) ∨
      ∃ e ns, onnx cacti fact ex lo o opt da m nodes dm luck = .error e ∧ OnnxCall.workload lo m nodes dm = .ok ns ∧ Halted (fun _ => (0, 0)) fact A o ns e := by
  obtain ⟨ns, hw, order, hord, hall⟩ := OnnxCall.workload_model M lo
  rw [onnx_eq hA F hw ho]
  refine (Anneal.annealed_outcome F O hf (fun n hn _ => ?_) hk (hd ns hw) ho).imp_right fun ⟨e, h1, h2⟩ => ⟨e, ns, h1, hw, h2⟩
  obtain ⟨w, -, h, h', -⟩ := Files.forall2_right hall n hn
  exact h'

/-- C173: if loops are left in all mappings of all layers, no dimension is unrolled twice, all orders fit the memories, no two movements of a port happen exactly once,
multiplications take energy and no cost is negative, a call on a workload file has an answer, whatever is drawn. -/
theorem file_works (hA : AccSays cacti da A) (F : FileOk A) (S : FilesSay eqn rel dw dm ws) (K : SourcesKnown ws) (L : ∀ w ∈ ws, LayerFits A w) (O : OptionsOk o)
    (hf : Lpf.FactContract fact) (hk : Fair luck) (hd : ∀ ns, Call.workload eqn rel lo dw dm = .ok ns → InRange (fun _ => (0, 0)) fact A o ns luck) (ho : Known opt)
    (hmac : 0 < A.macEnergy) (hp : ∀ m ∈ A.mems, 0 ≤ m.rCost.getD 0 ∧ 0 ≤ m.wCost.getD 0)
    (hs : ∀ ns, Call.workload eqn rel lo dw dm = .ok ns → ∀ n ∈ ns, ∀ sms c, Net.spatialMappings o A n = .ok sms → Whole.accelerator (fun _ => (0, 0)) A = .ok c →
      ∀ sm ∈ sms, ∀ t, Whole.task A c n.layer sm = .ok t → Anneal.Smooth fact c n.layer t) :
    ∃ ans, call cacti eqn rel fact ex lo o opt da dw dm luck = .ok ans := by
  obtain ⟨ns, hw, ws', hord, hall⟩ := Call.workload_written (A := A) S K L lo
  rw [call_eq hA F hw ho]
  refine Anneal.annealed_works F O hf (fun n hn _ => ?_) hk (hd ns hw) ho hmac (fun m hm => ?_) fun n hn _ => hs ns hw n hn
  · obtain ⟨w, -, -, rl, h'⟩ := Files.forall2_right hall n hn
    exact ⟨rl, _, h'⟩
  · obtain ⟨a, -, -, -, -, -, -, hms⟩ := hA.read
    obtain ⟨e, -, h⟩ := Files.forall2_right hms m hm
    unfold Whole.prices
    rw [h.auto]
    exact hp m hm

/-- C173: the same for ONNX models. -/
theorem onnx_works (hA : AccSays cacti da A) (F : FileOk A) (M : ModelIs A m nodes dm ls) (O : OptionsOk o) (hf : Lpf.FactContract fact) (hk : Fair luck)
    (hd : ∀ ns, OnnxCall.workload lo m nodes dm = .ok ns → InRange (fun _ => (0, 0)) fact A o ns luck) (ho : Known opt)
    (hmac : 0 < A.macEnergy) (hp : ∀ m ∈ A.mems, 0 ≤ m.rCost.getD 0 ∧ 0 ≤ m.wCost.getD 0)
    (hs : ∀ ns, OnnxCall.workload lo m nodes dm = .ok ns → ∀ n ∈ ns, ∀ sms c, Net.spatialMappings o A n = .ok sms → Whole.accelerator (fun _ => (0, 0)) A = .ok c →
      ∀ sm ∈ sms, ∀ t, Whole.task A c n.layer sm = .ok t → Anneal.Smooth fact c n.layer t) :
    ∃ ans, onnx cacti fact ex lo o opt da m nodes dm luck = .ok ans := by
  obtain ⟨ns, hw, order, hord, hall⟩ := OnnxCall.workload_model M lo
  rw [onnx_eq hA F hw ho]
  refine Anneal.annealed_works F O hf (fun n hn _ => ?_) hk (hd ns hw) ho hmac (fun m hm => ?_) fun n hn _ => hs ns hw n hn
  · obtain ⟨w, -, h, h', -⟩ := Files.forall2_right hall n hn
    exact h'
  · obtain ⟨a, -, -, -, -, -, -, hms⟩ := hA.read
    obtain ⟨e, -, h⟩ := Files.forall2_right hms m hm
    unfold Whole.prices
    rw [h.auto]
    exact hp m hm

end Verif.AnnealFiles
