import Verif.Anneal.Free
import Verif.Call.Props
import Verif.OnnxCall.Props

/-! C153, C154: exactly when a call on files without orderings and without limit on loops has an answer, if no order of the loops makes the cost model divide by zero. -/

namespace Verif.Free

open Anneal (Apart Left)
open Call (LayerOptions AccSays FilesSay SourcesKnown LayerFits Written)
open Compare (freed)
open Equation (Text)
open Files (Doc)
open Net (OptionsOk Node FileOk Known)
open Onnx (OModel)
open OnnxCall (ModelIs Layer)
open OnnxModel (OpNode)
open Whole (AccD)

variable {cacti : String → String → Int → Int → Except PyErr (ℚ × ℚ × ℚ)} {eqn : List Char → Bool} {rel : List Char → Option LayerBuild.RelD}
  {fact : Nat → List (Nat × Nat)} {lo : LayerOptions} {o : Net.Options String Text} {da dw dm : Doc} {A : AccD String} {ws : List Written}
  {m : OModel} {nodes : List OpNode} {ls : List (Option Layer)}

/-- Every spatial mapping that is generated for a node satisfies `P`. -/
def Every (A : AccD String) (o : Net.Options String Text) (ns : List (Node String Text)) (P : Whole.Acc String → Whole.LayerIn Text → Search.Task Text → Prop) : Prop :=
  ∀ n ∈ ns, ∀ sms c, Net.spatialMappings o A n = .ok sms → Whole.accelerator (fun _ => (0, 0)) A = .ok c → ∀ sm ∈ sms, ∀ t, Whole.task A c n.layer sm = .ok t → P c n.layer t

/-- Some order of the loops that are left fits the memories. -/
def Fits (fact : Nat → List (Nat × Nat)) (c : Whole.Acc String) (l : Whole.LayerIn Text) (t : Search.Task Text) : Prop :=
  ∃ p j, Left fact l t p ∧ Search.mapOrder c.hw c.topo t (p.map fun l => (l.1, (l.2 : ℚ))) = .ok j

theorem freed_self {n : Node String Text} (h : n.layer.order = []) : freed n = n := by
  unfold freed
  rw [← h]

/-- C153: a call on a workload file, without limit on loops and with a mapping file without orderings, has an answer if and only if every spatial mapping of every layer has an
order of its loops that fits the memories, provided that no order gives a mapping with two movements of a port that happen exactly once. -/
theorem file_answer_iff (hA : AccSays cacti da A) (F : FileOk A) (S : FilesSay eqn rel dw dm ws) (K : SourcesKnown ws) (L : ∀ w ∈ ws, LayerFits A w)
    (hno : ∀ w ∈ ws, w.attr.order = []) (O : OptionsOk o) (hf : Lpf.FactContract fact)
    (hs : ∀ ns, Call.workload eqn rel lo dw dm = .ok ns → Every A o ns (Apart fact)) :
    ∃ ns, Call.workload eqn rel lo dw dm = .ok ns ∧ ∃ M, ∀ fuel, M ≤ fuel → ∀ opt, Known opt →
      ((∃ ans, Call.call cacti eqn rel fact lo { o with limit := none } opt da dw dm fuel = .ok ans) ↔ Every A o ns (Fits fact)) := by
  obtain ⟨ns, hw, ws', hord, hall⟩ := Call.workload_written (A := A) S K L lo
  have hperm := Call.inOrder_perm hord
  have hskip : ∀ n ∈ ns, n.skip = false := fun n hn => by
    obtain ⟨w, -, h, -⟩ := Files.forall2_right hall n hn
    exact h.skip
  have hfree : ns.map freed = ns := by
    conv_rhs => rw [← List.map_id ns]
    refine List.map_congr_left fun n hn => freed_self ?_
    obtain ⟨w, hw', h, -⟩ := Files.forall2_right hall n hn
    rw [h.order, hno w (hperm.subset hw')]
    rfl
  obtain ⟨M, hM⟩ := Anneal.free_answer_iff (cacti := fun _ => (0, 0)) F O hf (fun n hn _ => by
    obtain ⟨w, -, -, rl, h'⟩ := Files.forall2_right hall n hn
    exact ⟨rl, _, h'⟩) fun n hn _ => hs ns hw n hn
  refine ⟨ns, hw, M, fun fuel hfu opt hopt => ?_⟩
  have := hM fuel hfu opt
  rw [hfree] at this
  rw [Call.call_eq hA F hw opt hopt fuel, this]
  exact ⟨fun h n hn => h.2 n hn (hskip n hn), fun h => ⟨hopt, fun n hn _ => h n hn⟩⟩

/-- C154: the same for ONNX models. -/
theorem onnx_answer_iff (hA : AccSays cacti da A) (F : FileOk A) (I : ModelIs A m nodes dm ls) (hno : ∀ l, some l ∈ ls → l.attr.order = []) (O : OptionsOk o)
    (hf : Lpf.FactContract fact) (hs : ∀ ns, OnnxCall.workload lo m nodes dm = .ok ns → Every A o ns (Apart fact)) :
    ∃ ns, OnnxCall.workload lo m nodes dm = .ok ns ∧ ∃ M, ∀ fuel, M ≤ fuel → ∀ opt, Known opt →
      ((∃ ans, OnnxCall.call cacti fact lo { o with limit := none } opt da m nodes dm fuel = .ok ans) ↔ Every A o ns (Fits fact)) := by
  obtain ⟨ns, hw, order, hord, hall⟩ := OnnxCall.workload_model I lo
  have hskip : ∀ n ∈ ns, n.skip = false := fun n hn => by
    obtain ⟨w, -, h, -⟩ := Files.forall2_right hall n hn
    exact h.skip
  have hfree : ns.map freed = ns := by
    conv_rhs => rw [← List.map_id ns]
    refine List.map_congr_left fun n hn => freed_self ?_
    obtain ⟨w, hw', h, -⟩ := Files.forall2_right hall n hn
    obtain ⟨k, -, hk⟩ := List.mem_filterMap.1 hw'
    obtain ⟨l, hl, rfl⟩ := Option.map_eq_some_iff.1 hk
    obtain ⟨x, hx, hxl⟩ := Option.bind_eq_some_iff.1 hl
    cases hxl
    rw [h.order, hno _ (List.mem_of_getElem? hx)]
    rfl
  obtain ⟨M, hM⟩ := Anneal.free_answer_iff (cacti := fun _ => (0, 0)) F O hf (fun n hn _ => by
    obtain ⟨w, -, -, h', -⟩ := Files.forall2_right hall n hn
    exact h') fun n hn _ => hs ns hw n hn
  refine ⟨ns, hw, M, fun fuel hfu opt hopt => ?_⟩
  have := hM fuel hfu opt
  rw [hfree] at this
  rw [OnnxCall.call_eq hA F hw opt hopt fuel, this]
  exact ⟨fun h n hn => h.2 n hn (hskip n hn), fun h => ⟨hopt, fun n hn _ => h n hn⟩⟩

end Verif.Free
