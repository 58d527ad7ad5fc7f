import Verif.Foreign.Props
import Verif.OnnxCall.Props
import Verif.OnnxCall.Example

/-! C172 for ONNX models. -/

namespace Verif.Foreign

open Call (AccSays LayerOptions)
open Equation (Text)
open Files (Doc)
open Net (FileOk NodeOk OptionsOk Known Node)
open Onnx (OModel)
open OnnxCall (Layer LayerIs ModelIs Sorted layersIn computed)
open OnnxModel (OpNode)
open Whole (AccD)

/-- The mapping of the layer names a dimension that the array does not have. -/
def NodeNames (A : AccD String) (n : Node String Text) : Prop := ∃ oa ∈ n.mapping.keys, oa ∉ A.sizes.keys

variable {cacti : String → String → Int → Int → Except PyErr (ℚ × ℚ × ℚ)} {fact : Nat → List (Nat × Nat)} {lo : LayerOptions} {o : Net.Options String Text} {da dm : Doc}
  {A : AccD String} {m : OModel} {nodes : List OpNode} {ls : List (Option Layer)}

theorem layers_refused (F : FileOk A) (O : OptionsOk o) (hf : Lpf.FactContract fact) (s : Dict String Nat) {ns : List (Node String Text)}
    (hok : ∀ n ∈ ns, n.skip = false ∧ ∃ rl rels, NodeOk { A with sizes := s } n rl rels) (hex : ∃ n ∈ ns, NodeNames A n) :
    (∀ fuel opt, Known opt → ∀ ans, Net.network (fun _ => (0, 0)) fact A o opt ns fuel ≠ .ok ans) ∧
    (∃ N, ∀ fuel, N ≤ fuel → ∀ opt, Known opt → ∃ e, Net.network (fun _ => (0, 0)) fact A o opt ns fuel = .error e ∧
      e ∈ [PyErr.keyError, .noValidOrdering, .zeroDivision, .memoryHierarchyTooSmall, .memoryTooSmall, .indexError]) ∧
    ((∀ n ∈ ns, NodeNames A n) → ∀ fuel opt, Known opt → Net.network (fun _ => (0, 0)) fact A o opt ns fuel = .error .keyError) := by
  obtain ⟨pre, n, post, rfl, ⟨oa, hmem, hxn⟩, hpre⟩ := first_of hex
  have hfit : ∀ m ∈ pre, m.skip = false → ∃ rl rels, NodeOk A m rl rels := by
    intro m hm _
    obtain ⟨-, rl, rels, h2⟩ := hok m (by simp [hm])
    refine ⟨rl, rels, ⟨h2.layer, h2.stored, h2.linked, h2.delivers, h2.holds, h2.user, h2.whole, ?_, h2.hints, h2.order⟩⟩
    intro oa hoa
    by_contra hc
    exact hpre m hm ⟨oa, hoa, hc⟩
  have hkey := fun fuel opt (hk : Known opt) =>
    network_refused (cacti := fun _ => (0, 0)) (fact := fact) F O hk pre n post (hok n (by simp)).1 hmem hxn fuel
  refine ⟨fun fuel opt hk ans hc => ?_, ?_, fun hA' fuel opt hk => ?_⟩
  · obtain ⟨h1, h2⟩ := hkey fuel opt hk
    cases hr : Net.network (fun _ => (0, 0)) fact A o opt pre fuel with
    | ok r => rw [h1 ⟨r, hr⟩] at hc; cases hc
    | error e => rw [h2 e hr] at hc; cases hc
  · obtain ⟨N, h⟩ := Net.network_partial (cacti := fun _ => (0, 0)) F O hf hfit
    refine ⟨N, fun fuel hfu opt hk => ?_⟩
    obtain ⟨h1, h2⟩ := hkey fuel opt hk
    rcases (h fuel hfu opt hk).1 with h3 | ⟨e, h3, h4⟩
    · exact ⟨_, h1 h3, by simp⟩
    · refine ⟨e, h2 e h3, ?_⟩
      rcases h4 with rfl | rfl | ⟨rfl | rfl, -⟩ | ⟨rfl, -⟩ <;> simp
  · cases pre with
    | nil =>
      obtain ⟨c, hc, -⟩ := Whole.accelerator_ok (cacti := fun _ => (0, 0)) F.acc
      refine (hkey fuel opt hk).1 ?_
      unfold Net.network
      rw [hc]
      exact (Pipeline.api_ok_iff (Net.single c fuel) opt []).2 ⟨hk, by simp⟩
    | cons v t => exact absurd (hA' v (by simp)) (hpre v (by simp))

/-- The entry of the mapping file for a layer of a model has a mapping for a dimension that the array does not have. -/
def LayerNames (A : AccD String) (l : Layer) : Prop := ∃ e ∈ l.attr.spatial, e.1 ∉ A.sizes.keys

theorem layerNames {l : Layer} {cnt : Nat} {n : Node String Text} (S : LayerIs lo l cnt n) : NodeNames A n ↔ LayerNames A l := by
  unfold NodeNames LayerNames
  rw [S.mapping]
  unfold Dict.keys
  rw [List.map_map]
  simp [List.mem_map]

/-- C172: the same for an ONNX model: if the entry for a convolution or a matrix product of the model has a mapping for a dimension that the array does not have, the call has
no answer; it raises `KeyError`, or an exception of the search for a layer without such an entry that comes before. -/
theorem model_refused (hA : AccSays cacti da A) (F : FileOk A) (s : Dict String Nat) (M : ModelIs { A with sizes := s } m nodes dm ls) (O : OptionsOk o)
    (hf : Lpf.FactContract fact) (lo : LayerOptions) (hex : ∃ l, some l ∈ ls ∧ LayerNames A l) :
    (∀ fuel opt ans, OnnxCall.call cacti fact lo o opt da m nodes dm fuel ≠ .ok ans) ∧
    (∃ N, ∀ fuel, N ≤ fuel → ∀ opt, Known opt → ∃ e, OnnxCall.call cacti fact lo o opt da m nodes dm fuel = .error e ∧
      e ∈ [PyErr.keyError, .noValidOrdering, .zeroDivision, .memoryHierarchyTooSmall, .memoryTooSmall, .indexError]) ∧
    ((∀ l, some l ∈ ls → LayerNames A l) → ∀ fuel opt, Known opt → OnnxCall.call cacti fact lo o opt da m nodes dm fuel = .error .keyError) := by
  obtain ⟨ns, hw, order, hord, hall⟩ := OnnxCall.workload_model M lo
  have hok : ∀ n ∈ ns, n.skip = false ∧ ∃ rl rels, NodeOk { A with sizes := s } n rl rels := by
    intro n hn
    obtain ⟨w, -, h, h', -⟩ := Files.forall2_right hall n hn
    exact ⟨h.skip, h'⟩
  have hmem : ∀ l, (∃ k, (k, l) ∈ layersIn ls order) ↔ some l ∈ ls := by
    intro l
    unfold layersIn
    constructor
    · rintro ⟨k, h⟩
      obtain ⟨i, -, hi⟩ := List.mem_filterMap.1 h
      obtain ⟨l', hl', e⟩ := Option.map_eq_some_iff.1 hi
      obtain ⟨x, hx, rfl⟩ := Option.bind_eq_some_iff.1 hl'
      cases e
      exact List.mem_of_getElem? hx
    · intro h
      obtain ⟨k, hk⟩ := List.mem_iff_getElem?.1 h
      refine ⟨k, List.mem_filterMap.2 ⟨k, hord.1.symm.subset (List.mem_range.2 ?_), by rw [hk]; rfl⟩⟩
      rw [← M.length]
      exact (List.getElem?_eq_some_iff.1 hk).1
  obtain ⟨h1, h2, h3⟩ := layers_refused F O hf s hok (by
    obtain ⟨l, hl, hN⟩ := hex
    obtain ⟨k, hk⟩ := (hmem l).2 hl
    obtain ⟨n, hn, S, -⟩ := Files.forall2_left hall _ hk
    exact ⟨n, hn, (layerNames S).2 hN⟩)
  have he := fun fuel opt (hk : Known opt) => OnnxCall.call_eq hA F hw opt hk fuel (fact := fact) (o := o)
  refine ⟨fun fuel opt ans hc => ?_, ?_, fun hN fuel opt hk => ?_⟩
  · by_cases hk : Known opt
    · rw [he fuel opt hk] at hc
      exact h1 fuel opt hk ans hc
    · rw [OnnxCall.criterion_refused _ _ _ _ _ _ _ _ _ _ hk] at hc
      cases hc
  · obtain ⟨N, h⟩ := h2
    refine ⟨N, fun fuel hfu opt hk => ?_⟩
    rw [he fuel opt hk]
    exact h fuel hfu opt hk
  · rw [he fuel opt hk]
    refine h3 (fun n hn => ?_) fuel opt hk
    obtain ⟨⟨k, l⟩, hkl, S, -⟩ := Files.forall2_right hall n hn
    exact (layerNames S).2 (hN l ((hmem l).1 ⟨k, hkl⟩))

end Verif.Foreign
