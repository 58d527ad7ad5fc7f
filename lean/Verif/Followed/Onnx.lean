import Verif.Followed.Calls
import Verif.OnnxCall.Props
import Verif.OnnxCall.Example

/-! Calls on ONNX models: every convolution and every matrix product is evaluated with a mapping that follows its entry of the mapping file. -/

namespace Verif.Followed

open Call (AccSays LayerOptions)
open Equation (Text)
open Files (Doc)
open Net (FileOk NodeOk OptionsOk Known)
open Onnx (OModel)
open OnnxCall (Layer LayerIs ModelIs Sorted layersIn loops computed)
open OnnxModel (OpNode)
open SpatialMapping (SM)
open Whole (AccD run)

/-- A mapping that follows the entry of the mapping file for a layer of a model: along an array dimension for which the entry has a mapping, only dimensions of it are
unrolled, with unrollings that are not larger; along the others dimensions of the layer that are hinted, and any dimension of the layer if no hinted one is a dimension of
the layer. -/
def ModelFollows (l : Layer) (sm : SM String Text) : Prop :=
  ∀ oa u, sm.get? oa = some u →
    (∀ e, Dict.get? l.attr.spatial oa = some e → ∀ x ∈ u, ∃ d k, (d, k) ∈ e ∧ x.1 = d.toList ∧ x.2 ≤ (k : ℚ)) ∧
    (Dict.get? l.attr.spatial oa = none → ∀ x ∈ u, x.1 ∈ (loops l.op).map Prod.fst ∧
      ∀ e, Dict.get? l.attr.hint oa = some e → (∃ d ∈ e, d.toList ∈ (loops l.op).map Prod.fst) → ∃ d ∈ e, x.1 = d.toList)

variable {cacti : String → String → Int → Int → Except PyErr (ℚ × ℚ × ℚ)} {fact : Nat → List (Nat × Nat)} {lo : LayerOptions} {o : Net.Options String Text} {da dm : Doc}
  {A : AccD String} {m : OModel} {nodes : List OpNode} {ls : List (Option Layer)}

theorem follows_model {n : Net.Node String Text} {l : Layer} {cnt : Nat} (S : LayerIs lo l cnt n) {sm : SM String Text}
    (h : Follows n.mapping n.hints n.layer.sizes.keys sm) : ModelFollows l sm := by
  have hz : n.layer.sizes.keys = (loops l.op).map Prod.fst := by
    rw [Net.sizes_keys, S.sizes]
    unfold Dict.keys
    rw [List.map_map]
    rfl
  intro oa u hu
  obtain ⟨h1, h2⟩ := h oa u hu
  have e1 : n.mapping.get? oa = (Dict.get? l.attr.spatial oa).map fun l => l.map fun x => (x.1.toList, (x.2 : ℚ)) := by
    rw [S.mapping]
    exact SpatialGen.get?_mapVal (fun _ (l : Dict String ℕ) => l.map fun x => (x.1.toList, (x.2 : ℚ))) l.attr.spatial oa
  have e2 : n.hints.get? oa = (Dict.get? l.attr.hint oa).map fun l => l.map String.toList := by
    rw [S.hints]
    exact SpatialGen.get?_mapVal (fun _ (l : List String) => l.map String.toList) l.attr.hint oa
  refine ⟨fun e he x hx => ?_, fun he x hx => ?_⟩
  · rw [he] at e1
    obtain ⟨v, hv, hxv⟩ := h1 _ e1 x hx
    obtain ⟨y, hy, e⟩ := List.mem_map.1 hv
    have k1 := congrArg Prod.fst e
    have k2 := congrArg Prod.snd e
    simp only at k1 k2
    exact ⟨y.1, y.2, hy, k1.symm, by rw [k2]; exact hxv⟩
  · rw [he] at e1
    obtain ⟨k1, k2⟩ := h2 e1 x hx
    rw [hz] at k1 k2
    refine ⟨k1, fun e' he' ⟨d, hd, hdm⟩ => ?_⟩
    rw [he'] at e2
    obtain ⟨y, hy, e⟩ := List.mem_map.1 (k2 _ e2 ⟨d.toList, List.mem_map_of_mem hd, hdm⟩)
    exact ⟨y, hy, e.symm⟩

/-- C171: an answer of a call on an ONNX model adds up an evaluation for each convolution and matrix product of the model, made with a mapping that follows the entry of
the mapping file for it. -/
theorem onnx_follows (hA : AccSays cacti da A) (F : FileOk A) (M : ModelIs A m nodes dm ls) (O : OptionsOk o) (hf : Lpf.FactContract fact) (lo : LayerOptions) :
    ∃ order N, Sorted nodes order ∧ ∀ fuel, N ≤ fuel → ∀ opt, Known opt → ∀ ans, OnnxCall.call cacti fact lo o opt da m nodes dm fuel = .ok ans →
      ∃ best : List ((Nat × Layer) × SM String Text × Evaluate.Result), best.map Prod.fst = layersIn ls order ∧
        ans.energy = (best.map fun x => x.2.2.energy.total).sum ∧ ans.latency = (best.map fun x => x.2.2.overall.latency2).sum ∧
        ∀ x ∈ best, ModelFollows x.1.2 x.2.1 ∧ ∃ n, LayerIs lo x.1.2 (computed nodes x.1.1) n ∧
          ∃ evals, run (fun _ => (0, 0)) fact A n.layer x.2.1 o.limit fuel = some (evals, none) ∧ x.2.2 ∈ evals.map Prod.snd := by
  obtain ⟨ns, hw, order, hord, hall⟩ := OnnxCall.workload_model M lo
  have hskip : ∀ n ∈ ns, n.skip = false := by
    intro n hn
    obtain ⟨w, -, h, -⟩ := Files.forall2_right hall n hn
    exact h.skip
  have hn : ∀ n ∈ ns, n.skip = false → ∃ rl rels, NodeOk A n rl rels := by
    intro n hn _
    obtain ⟨w, -, -, h, -⟩ := Files.forall2_right hall n hn
    exact h
  obtain ⟨N, h2⟩ := Net.network_answer (cacti := fun _ => (0, 0)) F O hf hn
  refine ⟨order, N, hord, fun fuel hfu opt hopt ans hans => ?_⟩
  rw [OnnxCall.call_eq hA F hw opt hopt fuel] at hans
  obtain ⟨best, b1, b2, b3, b4⟩ := h2 fuel hfu opt ans hans
  have hfil : ns.filter (fun n => !n.skip) = ns := List.filter_eq_self.2 fun n hn => by simp [hskip n hn]
  rw [hfil] at b1
  have key : ∀ (bs : List (Net.Node String Text × (Evaluate.Job Text × Evaluate.Result))) (vs : List (Nat × Layer)),
      List.Forall₂ (fun (kl : Nat × Layer) n => LayerIs lo kl.2 (computed nodes kl.1) n ∧ (∃ rl rels, NodeOk A n rl rels) ∧ Whole.operations n.layer = kl.2.op.macs) vs
        (bs.map Prod.fst) →
      (∀ x ∈ bs, ∃ sms, Net.spatialMappings o A x.1 = .ok sms ∧ ∃ sm ∈ sms, ∃ evals, run (fun _ => (0, 0)) fact A x.1.layer sm o.limit fuel = some (evals, none) ∧ x.2 ∈ evals) →
      ∃ r : List ((Nat × Layer) × SM String Text × Evaluate.Result), r.map Prod.fst = vs ∧ (r.map fun x => x.2.2) = (bs.map fun x => x.2.2) ∧
        ∀ x ∈ r, ModelFollows x.1.2 x.2.1 ∧ ∃ n, LayerIs lo x.1.2 (computed nodes x.1.1) n ∧
          ∃ evals, run (fun _ => (0, 0)) fact A n.layer x.2.1 o.limit fuel = some (evals, none) ∧ x.2.2 ∈ evals.map Prod.snd := by
    intro bs
    induction bs with
    | nil => intro vs h _; cases h; exact ⟨[], rfl, rfl, by simp⟩
    | cons b t ih =>
      intro vs h hb
      cases h with
      | cons h1 ht =>
        rename_i w vt
        obtain ⟨r, r1, r2, r3⟩ := ih vt ht fun x hx => hb x (List.mem_cons_of_mem _ hx)
        obtain ⟨sms, q1, sm, q2, evals, q3, q4⟩ := hb b List.mem_cons_self
        obtain ⟨s1, ⟨rl, rels, s2⟩, -⟩ := h1
        refine ⟨(w, sm, b.2.2) :: r, by simp [r1], by simp [r2], fun x hx => ?_⟩
        rcases List.mem_cons.1 hx with rfl | hx
        · exact ⟨follows_model s1 (tried_follow F s2 O q1 q2), b.1, s1, evals, q3, List.mem_map_of_mem q4⟩
        · exact r3 x hx
  obtain ⟨r, r1, r2, r3⟩ := key best _ (by rw [b1]; exact hall) fun x hx => by
    obtain ⟨sms, c1, c2, -⟩ := b4 x hx
    exact ⟨sms, c1, c2⟩
  refine ⟨r, r1, ?_, ?_, r3⟩
  · rw [b2, show (r.map fun x => x.2.2.energy.total) = (r.map fun x => x.2.2).map fun y => y.energy.total by rw [List.map_map]; rfl, r2, List.map_map]
    rfl
  · rw [b3, show (r.map fun x => x.2.2.overall.latency2) = (r.map fun x => x.2.2).map fun y => y.overall.latency2 by rw [List.map_map]; rfl, r2, List.map_map]
    rfl

/-- The convolution and the product of the model of `OnnxCall.Ex`: the two layers are evaluated with mappings that follow their entries. -/
example : ∃ N, ∀ fuel, N ≤ fuel → ∀ opt, Known opt → ∀ ans,
    OnnxCall.call Call.Ex.cacti Whole.Ex.fact ⟨false, false⟩ Call.Ex.options opt Call.Ex.accDoc OnnxCall.Ex.model OnnxCall.Ex.nodes Call.Ex.mapDoc fuel = .ok ans →
      ∃ best : List ((Nat × Layer) × SM String Text × Evaluate.Result), (best.map fun x => x.1.2.op.macs).sum = 24 ∧ ∀ x ∈ best, ModelFollows x.1.2 x.2.1 := by
  obtain ⟨order, N, ho, h⟩ := onnx_follows Call.Ex.accSays Call.Ex.fileOk OnnxCall.Ex.modelIs Call.Ex.optionsOk Lpf.factContract_primeFactorsList ⟨false, false⟩
  refine ⟨N, fun fuel hf opt hopt ans ha => ?_⟩
  obtain ⟨best, b1, -, -, b4⟩ := h fuel hf opt hopt ans ha
  refine ⟨best, ?_, fun x hx => (b4 x hx).1⟩
  have e : (best.map fun x => x.1.2.op.macs) = (layersIn OnnxCall.Ex.layers order).map fun kl => kl.2.op.macs := by
    rw [← b1, List.map_map]
    rfl
  rw [e, OnnxCall.layersIn_sum, (ho.1.map _).sum_eq]
  have := OnnxCall.range_sum OnnxCall.Ex.layers
  rw [show OnnxCall.operations OnnxCall.Ex.layers = 24 by decide +kernel] at this
  exact this

end Verif.Followed
