import Verif.Foreign.Props
import Verif.ImcFiles.Props

/-! C172 for data in lower memories and for in-memory-computing arrays. -/

namespace Verif.Foreign

open Call (Written NodeSays LayerFits AccSays FilesSay SourcesKnown LayerOptions)
open Equation (Text)
open Files (Doc)
open ImcCall (Chip)
open ImcFiles (ImcSays Sensible Counted)
open Latency (Operand)
open LocalCall (Both NetSays)
open Net (Node Options OptionsOk FileOk Known)
open Ports (MemD)
open Reuse (LNode Graph)
open SpatialMapping (SM checkAndReduce)
open Whole (AccD)

section

variable {OA D : Type} [DecidableEq OA]

/-- Whatever the memories, no mappings are generated for a layer whose mapping names a dimension that the array does not have. -/
theorem never_generated [DecidableEq D] {a : AccD OA} {n : Node OA D} {o : Options OA D} (hu : ∀ e ∈ a.sizes, 1 ≤ e.2) (O : OptionsOk o) {oa : OA} (h : oa ∈ n.mapping.keys)
    (hn : oa ∉ a.sizes.keys) (sms : List (SM OA D)) : Net.spatialMappings o a n ≠ .ok sms := by
  intro hs
  cases hms : Net.memOps a n.layer with
  | error e =>
    unfold Net.spatialMappings at hs
    rw [hms] at hs
    split at hs <;> cases hs
  | ok ms =>
    rw [Net.spatialMappings_eq hms O.nb] at hs
    unfold SpatialGen.generate SpatialGen.template at hs
    cases hm : SpatialGen.getMaxUnrolling (Net.inputs o a n ms).mems (Net.inputs o a n ms).oaSizes (Net.inputs o a n ms).sizes with
    | error e =>
      rw [hm] at hs
      cases hs
    | ok maxU =>
      rw [hm] at hs
      simp only at hs
      have hc : checkAndReduce (Net.inputs o a n ms).order (some (SpatialGen.castDict (Net.inputs o a n ms).oaSizes)) (SpatialGen.castTable maxU)
          (SpatialGen.castDict (Net.inputs o a n ms).sizes) (Net.inputs o a n ms).provided = .error .keyError := by
        show checkAndReduce o.order (some (SpatialGen.castDict a.sizes)) (SpatialGen.castTable maxU) (SpatialGen.castDict n.layer.sizes) n.mapping = _
        unfold checkAndReduce
        simp only
        rw [SpatialMapping.phase1 _ _ n.mapping (O.order.1 _ _)]
        simp only
        obtain ⟨x, hx, hxo⟩ := List.mem_map.1 h
        rw [(reduce_foreign o.order O.order (SpatialGen.castDict a.sizes) (fun oa s hs => by
          rw [SpatialGen.castDict_get?, Option.map_eq_some_iff] at hs
          obtain ⟨k, hk, rfl⟩ := hs
          exact_mod_cast hu _ (Dict.mem_of_get? hk)) (SpatialGen.castTable maxU) _).2 ⟨_, List.mem_map_of_mem hx, by
            simp only
            rw [SpatialGen.castDict_get?, hxo, (Dict.get?_eq_none_iff a.sizes oa).2 hn]
            rfl⟩]
      rw [hc] at hs
      cases hs

end

section

variable {OA D : Type} [DecidableEq OA] [LinearOrder D] {cacti : MemD Operand OA → ℚ × ℚ} {fact : Nat → List (Nat × Nat)} {a : AccD OA} {o : Options OA D}
  {g : Graph OA D} {nodes : List (LNode OA D)} {n : LNode OA D} {oa : OA}

theorem built_sizes {s : Locality.St Operand} {b : AccD OA × Whole.Acc OA} (h : Reuse.built cacti a s n = .ok b) : b.1.sizes = a.sizes := by
  unfold Reuse.built Reuse.reduced at h
  split at h
  · cases h
  · rename_i b' hb
    split at hb
    · cases hb
    · split at hb
      · cases hb
      · cases hb
        split at h
        · cases h
        · cases h
          rfl

theorem never_works {s : Locality.St Operand} {fuel : Nat} (hu : ∀ e ∈ a.sizes, 1 ≤ e.2) (O : OptionsOk o) (h : oa ∈ n.node.mapping.keys) (hn : oa ∉ a.sizes.keys) :
    ¬ Pipeline.Works (Reuse.env cacti fact a s o fuel) n := by
  rintro ⟨sms, h1, -⟩
  unfold Reuse.env at h1
  simp only at h1
  cases hb : Reuse.built cacti a s n with
  | error e => rw [hb] at h1; cases h1
  | ok b =>
    rw [hb] at h1
    have hz := built_sizes hb
    exact never_generated (a := b.1) (by rw [hz]; exact hu) O h (by rw [hz]; exact hn) sms h1

/-- C172: with data in lower memories, a call with a layer whose mapping names a dimension that the array does not have has no answer. -/
theorem local_network_refused (hu : ∀ e ∈ a.sizes, 1 ≤ e.2) (O : OptionsOk o) (hm : n ∈ nodes) (hs : n.node.skip = false) (h : oa ∈ n.node.mapping.keys)
    (hn : oa ∉ a.sizes.keys) (opt : String) (fuel : Nat) (ans : Reuse.Reply OA D) : Reuse.network cacti fact a o opt g nodes fuel ≠ .ok ans := by
  intro hans
  obtain ⟨c, s, -, -, h'⟩ := Reuse.network_cases hans
  exact never_works hu O h hn (((Pipeline.api_ok_iff Reuse.single opt nodes).1 ⟨ans, h'⟩).2 n hm hs)

/-- C172: the same for an in-memory-computing array. -/
theorem imc_network_refused {K : Chip OA} (hu : ∀ e ∈ a.sizes, 1 ≤ e.2) (O : OptionsOk o) (hm : n ∈ nodes) (hs : n.node.skip = false) (h : oa ∈ n.node.mapping.keys)
    (hn : oa ∉ a.sizes.keys) (opt : String) (fuel : Nat) (ans : ImcCall.Reply OA D) : ImcCall.network cacti fact K a o opt g nodes fuel ≠ .ok ans := by
  intro hans
  obtain ⟨area, clock, c, s, -, -, -, -, h'⟩ := ImcCall.network_cases hans
  obtain ⟨hok, -⟩ := (ImcCall.api_imc_iff ImcCall.single).1 ⟨ans, h'⟩
  exact never_works hu O h hn (ImcCall.wrap_works.1 (((Pipeline.api_ok_iff ImcCall.single opt nodes).1 hok).2 n hm hs)).1

end

variable {cacti : String → String → Int → Int → Except PyErr (ℚ × ℚ × ℚ)} {adcArea : Nat → ℚ} {eqn : List Char → Bool} {rel : List Char → Option LayerBuild.RelD}
  {fact : Nat → List (Nat × Nat)} {o : Net.Options String Text} {da dw dm : Doc} {A : AccD String} {K : Chip String} {ws : List Written} {lo : LayerOptions}

theorem node_of {adapt : LocalCall.Entry → Node String Text → Node String Text} (had : ∀ y n, (adapt y n).mapping = n.mapping) {g : Graph String Text}
    {nodes : List (LNode String Text)} (N : NetSays lo adapt ws g nodes) {w : Written} (hw : w ∈ ws) (hN : Names A w) :
    ∃ n ∈ nodes, ∃ m, NodeSays lo w m ∧ n.node = adapt (w.name, w.operator, w.layer) m ∧ ∃ oa ∈ n.node.mapping.keys, oa ∉ A.sizes.keys := by
  obtain ⟨i, hi, rfl⟩ := List.getElem_of_mem hw
  obtain ⟨n, hn, rfl⟩ := List.mem_map.1 (N.all.mem_iff.2 (List.mem_range.2 hi))
  obtain ⟨w', m, f1, f2, f3, -⟩ := (N.seen n hn).layer
  rw [List.getElem?_eq_getElem hi] at f1
  cases f1
  obtain ⟨x, hx, hxn⟩ := hN
  refine ⟨n, hn, m, f2, f3, x.1, ?_, hxn⟩
  rw [f3, had, f2.mapping]
  unfold Dict.keys
  rw [List.map_map]
  exact List.mem_map_of_mem (f := fun e => e.1) hx

/-- C172: files that fit together but for the array dimensions in the mapping file, in a call with data in lower memories: if an entry has a mapping for a dimension that the
array does not have, the call has no answer. -/
theorem local_refused (hA : AccSays cacti da A) (F : FileOk A) (S : FilesSay eqn rel dw dm ws) (Q : SourcesKnown ws) (s : Dict String Nat)
    (L : ∀ w ∈ ws, LayerFits { A with sizes := s } w) (B : ∀ w ∈ ws, Both { A with sizes := s } w) (hid : (ws.map fun w => w.layer.id).Nodup) (O : OptionsOk o)
    (hex : ∃ w ∈ ws, Names A w) (opt : String) (fuel : Nat) (ans : Reuse.Reply String Text) : LocalCall.call cacti eqn rel fact lo o opt da dw dm fuel ≠ .ok ans := by
  intro hans
  obtain ⟨w, hw, hN⟩ := hex
  obtain ⟨p, g, nodes, h1, h2, N, -⟩ := LocalCall.prepared (A := { A with sizes := s }) S Q L B hid (List.ne_nil_of_mem hw) lo (fun _ n => n)
  obtain ⟨n, hn, m, f1, f2, oa, f3, f4⟩ := node_of (A := A) (fun _ _ => rfl) N hw hN
  rw [LocalCall.call_eq hA F h1 h2 opt (LocalCall.call_known hans) fuel] at hans
  exact local_network_refused F.acc.units O hn (by rw [f2]; exact f1.skip) f3 f4 opt fuel ans hans

/-- C172: the same for an in-memory-computing array, where pooling and additions are not evaluated. -/
theorem imc_refused (hA : ImcSays cacti adcArea da A K) (F : FileOk A) (H : Sensible adcArea K) (S : FilesSay eqn rel dw dm ws) (Q : SourcesKnown ws) (s : Dict String Nat)
    (L : ∀ w ∈ ws, LayerFits { A with sizes := s } w) (B : ∀ w ∈ ws, Both { A with sizes := s } w) (hid : (ws.map fun w => w.layer.id).Nodup) (O : OptionsOk o)
    (hex : ∃ w ∈ ws, Counted w ∧ Names A w) (opt : String) (fuel : Nat) (ans : ImcCall.Reply String Text) :
    ImcFiles.call cacti adcArea eqn rel fact lo o opt da dw dm fuel ≠ .ok ans := by
  intro hans
  obtain ⟨w, hw, hc, hN⟩ := hex
  obtain ⟨p, g, nodes, h1, h2, N, -⟩ := LocalCall.prepared (A := { A with sizes := s }) S Q L B hid (List.ne_nil_of_mem hw) lo (ImcFiles.adapt K)
  obtain ⟨n, hn, m, f1, f2, oa, f3, f4⟩ := node_of (A := A) (adapt := ImcFiles.adapt K) (fun _ _ => rfl) N hw hN
  obtain ⟨x, hx⟩ := ImcFiles.call_accelerator hans
  rw [ImcFiles.call_eq (ImcFiles.known_array hA F H hx).2 F h1 h2 opt (ImcFiles.call_known hans) fuel] at hans
  refine imc_network_refused F.acc.units O hn ?_ f3 f4 opt fuel ans hans
  rw [f2]
  exact decide_eq_false fun h => h.elim hc.1 hc.2

end Verif.Foreign
