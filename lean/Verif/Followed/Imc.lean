import Verif.Followed.Calls

/-! Calls for in-memory-computing arrays whose mapping files only unroll dimensions of the weights along the wordlines. -/

namespace Verif.Followed

open Call (Written NodeSays LayerFits LayerOptions FilesSay SourcesKnown dimsOf)
open Equation (Text upper)
open Files (Doc)
open ImcCall (Chip Straight)
open ImcFiles (ImcSays Sensible Counted adapt)
open LocalCall (AccFits Both NetSays Told)
open Net (FileOk OptionsOk Known)
open Reuse (LNode Graph plan reduced)
open SpatialMapping (SM)
open Whole (AccD)

/-- The entry of the mapping file for a layer unrolls or hints, along an array dimension, dimensions of the weights; others it names are not dimensions of the layer. -/
def Along (oa : String) (w : Written) : Prop :=
  ∀ a b, Told w a b → ∀ t ∈ w.eqn.rest, t.term.name = b →
    (∀ l, Dict.get? w.attr.spatial oa = some l → ∀ x ∈ l, x.1.toList ∈ dims w → x.1.toList ∈ dimsOf t.term) ∧
    (Dict.get? w.attr.spatial oa = none → ∃ l, Dict.get? w.attr.hint oa = some l ∧ (∃ d ∈ l, d.toList ∈ dims w) ∧ ∀ d ∈ l, d.toList ∈ dims w → d.toList ∈ dimsOf t.term)

variable {cacti : String → String → Int → Int → Except PyErr (ℚ × ℚ × ℚ)} {adcArea : Nat → ℚ} {eqn : List Char → Bool} {rel : List Char → Option LayerBuild.RelD}
  {fact : Nat → List (Nat × Nat)} {lo : LayerOptions} {o : Net.Options String Text} {da dw dm : Doc} {A : AccD String} {K : Chip String} {ws : List Written}

theorem straight_of {w : Written} (F : LayerFits A w) {m : Net.Node String Text} (S : NodeSays lo w m) {n : LNode String Text} (hL : n.node.layer.L = m.layer.L)
    (hR : n.node.layer.rel = m.layer.rel) {a b : Text} (T : Told w a b) (hb : n.weight = w.link b) (hal : Along K.wlDim w) {sm : SM String Text} (h : FileFollows w sm) :
    Straight K n sm := by
  intro u hu x hx hir
  obtain ⟨x', y', hxy, hor⟩ := T.both
  have hbm : b ∈ w.eqn.rest.map fun r => r.term.name := by
    rw [hxy]
    rcases hor with ⟨-, rfl⟩ | ⟨-, rfl⟩ <;> simp
  obtain ⟨t, ht, rfl⟩ := List.mem_map.1 hbm
  have htm : t.term ∈ w.eqn.terms := by
    rw [Equation.Eqn.terms]
    exact List.mem_cons_of_mem _ (List.mem_map_of_mem (f := fun r => r.term) ht)
  have hkeys : m.layer.L.dimSizes.keys = dims w := by
    have := node_dims F S.sizes
    rw [Net.sizes_keys] at this
    exact this
  have hir' : x.1 ∈ dims w ∧ x.1 ∉ dimsOf t.term := by
    rw [hR, hb] at hir
    rw [← hkeys]
    rcases LayerNode.extractRel_spec F.good.names (S.rel t.term htm) with ⟨-, -, h3, -⟩ | ⟨-, -, -, h3, -⟩
    · exact ⟨((h3 _).1 hir).1, ((h3 _).1 hir).2.1⟩
    · exact ⟨((h3 _).1 hir).1, ((h3 _).1 hir).2.1⟩
  obtain ⟨h1, h2⟩ := h _ u hu
  obtain ⟨k1, k2⟩ := hal a _ T t ht rfl
  cases hs : Dict.get? w.attr.spatial K.wlDim with
  | some l =>
    obtain ⟨d, k, hd, e, -⟩ := h1 l hs x hx
    rw [e] at hir'
    exact hir'.2 (k1 l hs _ hd hir'.1)
  | none =>
    obtain ⟨l, l1, l2, l3⟩ := k2 hs
    obtain ⟨d, hd, e⟩ := (h2 hs x hx).2 l l1 l2
    rw [e] at hir'
    exact hir'.2 (l3 d hd hir'.1)

/-- C170: if the mapping file only unrolls or hints dimensions of the weights along the wordlines, a call on files with an in-memory-computing array raises the exception of
the search for the memories of data, and without such an exception it has an answer exactly if a layer is neither `Pooling` nor `Add` and the runs of all generated spatial
mappings of such layers end without exception. -/
theorem imc_file_outcome (hA : ImcSays cacti adcArea da A K) (F : FileOk A) (H : Sensible adcArea K) (X : AccFits A) (S : FilesSay eqn rel dw dm ws)
    (Q : SourcesKnown ws) (L : ∀ w ∈ ws, LayerFits A w) (B : ∀ w ∈ ws, Both A w) (hid : (ws.map fun w => w.layer.id).Nodup) (hne : ws ≠ [])
    (hal : ∀ w ∈ ws, Counted w → Along K.wlDim w) (O : OptionsOk o) (hf : Lpf.FactContract fact) (lo : LayerOptions) (hrows : K.arr.aimc = true ∨ ∃ k, K.arr.bl = 2 ^ k) :
    ∃ g nodes, NetSays lo (adapt K) ws g nodes ∧
      (∀ e, plan A g nodes = .error e → ∀ fuel opt, Known opt → ImcFiles.call cacti adcArea eqn rel fact lo o opt da dw dm fuel = .error e) ∧
      ∀ s, plan A g nodes = .ok s → ∃ N, ∀ fuel, N ≤ fuel → ∀ opt, Known opt →
        ((∃ ans, ImcFiles.call cacti adcArea eqn rel fact lo o opt da dw dm fuel = .ok ans) ↔ (∃ w ∈ ws, Counted w) ∧
          ∀ n ∈ nodes, n.node.skip = false → ∀ b, reduced (fun _ => (0, 0)) A s n = .ok b → ∀ sms, Net.spatialMappings o b n.node = .ok sms → ∀ sm ∈ sms,
            ∃ evals, Whole.run (fun _ => (0, 0)) fact b n.node.layer sm o.limit fuel = some (evals, none)) := by
  obtain ⟨g, nodes, N, hok, h1, h2⟩ := (ImcFiles.imc_file_outcome_partial hA F H X S Q L B hid hne O hf lo).2 hrows
  refine ⟨g, nodes, N, h1, fun s hs => h2 s hs fun n hn hsk b hb sms hm sm hsm => ?_⟩
  obtain ⟨rl, rels, hl⟩ := hok n hn
  obtain ⟨w, hw, hfo⟩ := local_follows F X L B O (adapt := adapt K) (fun _ _ => ⟨rfl, rfl, rfl⟩) N hs hn hsk hl hb hm hsm
  obtain ⟨w', m, f1, f2, f3, ⟨a, b', f4, -, f6⟩, -⟩ := (N.seen n hn).layer
  rw [hw] at f1
  cases f1
  have hmem : w ∈ ws := List.mem_of_getElem? hw
  have hcount : Counted w := by
    rw [f3] at hsk
    unfold adapt at hsk
    simp only [decide_eq_false_iff_not, not_or] at hsk
    exact hsk
  exact straight_of (L w hmem) f2 (by rw [f3]; rfl) (by rw [f3]; rfl) f4 f6 (hal w hmem hcount) hfo

end Verif.Followed
