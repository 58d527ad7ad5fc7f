import Verif.Anneal.Model
import Verif.Call.Model
import Verif.OnnxCall.Model

/-! Calls with `temporal_mapping_search_engine="salsa"` (/repo/zigzag/api.py lines 28-159) on the contents of files.  The stages that read the files are those of the
other calls (api.py lines 80-85, 98-101): only the stage for temporal mappings differs (lines 91-93). -/

namespace Verif.AnnealFiles

open Anneal (Luck)
open Call (LayerOptions)
open Equation (Text)
open Files (Doc)
open Net (Node)
open Onnx (OModel)
open OnnxModel (OpNode)
open SpatialMapping (SM)

/-- The call for a workload file (api.py lines 69-159); `luck` are the random numbers of the engine. -/
def call (cacti : String → String → Int → Int → Except PyErr (ℚ × ℚ × ℚ)) (eqn : List Char → Bool) (rel : List Char → Option LayerBuild.RelD)
    (fact : Nat → List (Nat × Nat)) (ex : ℚ → ℚ) (lo : LayerOptions) (o : Net.Options String Text) (opt : String) (da dw dm : Doc)
    (luck : Node String Text → SM String Text → Luck Text) : Except PyErr (Net.Reply String Text) :=
  match Pipeline.Opt.parse opt with
  | .error e => .error e
  | .ok _ =>
    match Call.workload eqn rel lo dw dm with
    | .error e => .error e
    | .ok nodes =>
      match Call.accelerator cacti da with
      | .error e => .error e
      | .ok a => Anneal.network (fun _ => (0, 0)) fact ex a o opt nodes luck

/-- The call for an ONNX model (api.py lines 69-159). -/
def onnx (cacti : String → String → Int → Int → Except PyErr (ℚ × ℚ × ℚ)) (fact : Nat → List (Nat × Nat)) (ex : ℚ → ℚ) (lo : LayerOptions) (o : Net.Options String Text)
    (opt : String) (da : Doc) (m : OModel) (nodes : List OpNode) (dm : Doc) (luck : Node String Text → SM String Text → Luck Text) :
    Except PyErr (Net.Reply String Text) :=
  match Pipeline.Opt.parse opt with
  | .error e => .error e
  | .ok _ =>
    match OnnxCall.workload lo m nodes dm with
    | .error e => .error e
    | .ok ns =>
      match Call.accelerator cacti da with
      | .error e => .error e
      | .ok a => Anneal.network (fun _ => (0, 0)) fact ex a o opt ns luck

end Verif.AnnealFiles
