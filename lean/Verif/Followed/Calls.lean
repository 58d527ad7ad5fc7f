import Verif.Followed.Props
import Verif.Call.Props
import Verif.ImcFiles.Props

/-! Calls on the contents of files: every layer is evaluated with a mapping that follows its entry of the mapping file. -/

namespace Verif.Followed

open Call (Written NodeSays LayerFits LayerOptions AccSays FilesSay SourcesKnown InOrder dimsOf)
open Equation (Text upper)
open Files (Doc)
open ImcCall (Chip Straight)
open ImcFiles (ImcSays Sensible Counted)
open LocalCall (AccFits Both NetSays Told)
open Net (FileOk NodeOk OptionsOk Known)
open Reuse (LNode Graph plan reduced)
open SpatialMapping (SM)
open Whole (AccD run)

/-- The dimensions of a layer. -/
def dims (w : Written) : List Text := w.layer.loopDims.map upper

/-- A mapping that follows the entry of the mapping file for a layer: along an array dimension for which the entry has a mapping, only dimensions of it are unrolled, with
unrollings that are not larger; along the others dimensions of the layer that are hinted, and any dimension of the layer if no hinted one is a dimension of the layer. -/
def FileFollows (w : Written) (sm : SM String Text) : Prop :=
  ∀ oa u, sm.get? oa = some u →
    (∀ l, Dict.get? w.attr.spatial oa = some l → ∀ x ∈ u, ∃ d k, (d, k) ∈ l ∧ x.1 = d.toList ∧ x.2 ≤ (k : ℚ)) ∧
    (Dict.get? w.attr.spatial oa = none → ∀ x ∈ u, x.1 ∈ dims w ∧ ∀ l, Dict.get? w.attr.hint oa = some l → (∃ d ∈ l, d.toList ∈ dims w) → ∃ d ∈ l, x.1 = d.toList)

variable {cacti : String → String → Int → Int → Except PyErr (ℚ × ℚ × ℚ)} {eqn : List Char → Bool} {rel : List Char → Option LayerBuild.RelD}
  {fact : Nat → List (Nat × Nat)} {lo : LayerOptions} {o : Net.Options String Text} {da dw dm : Doc} {A : AccD String} {ws : List Written}

theorem node_dims {n : Net.Node String Text} {w : Written} (F : LayerFits A w)
    (hz : n.layer.L.dimSizes = (w.layer.loopDims.map upper).zip (w.layer.loopSizes.map fun k : Int => (k : ℚ))) : n.layer.sizes.keys = dims w := by
  rw [Net.sizes_keys, hz]
  unfold dims Dict.keys
  exact List.map_fst_zip (by simp [F.good.lens])

theorem follows_file {n : Net.Node String Text} {w : Written} (F : LayerFits A w) (hz : n.layer.sizes.keys = dims w)
    (hm : n.mapping = w.attr.spatial.map fun e => (e.1, e.2.map fun x => (x.1.toList, (x.2 : ℚ)))) (hh : n.hints = w.attr.hint.map fun e => (e.1, e.2.map String.toList))
    {sm : SM String Text} (h : Follows n.mapping n.hints n.layer.sizes.keys sm) : FileFollows w sm := by
  intro oa u hu
  obtain ⟨h1, h2⟩ := h oa u hu
  have e1 : n.mapping.get? oa = (Dict.get? w.attr.spatial oa).map fun l => l.map fun x => (x.1.toList, (x.2 : ℚ)) := by
    rw [hm]
    exact SpatialGen.get?_mapVal (fun _ (l : Dict String ℕ) => l.map fun x => (x.1.toList, (x.2 : ℚ))) w.attr.spatial oa
  have e2 : n.hints.get? oa = (Dict.get? w.attr.hint oa).map fun l => l.map String.toList := by
    rw [hh]
    exact SpatialGen.get?_mapVal (fun _ (l : List String) => l.map String.toList) w.attr.hint oa
  refine ⟨fun l hl x hx => ?_, fun hl x hx => ?_⟩
  · rw [hl] at e1
    obtain ⟨v, hv, hxv⟩ := h1 _ e1 x hx
    obtain ⟨y, hy, e⟩ := List.mem_map.1 hv
    have k1 := congrArg Prod.fst e
    have k2 := congrArg Prod.snd e
    simp only at k1 k2
    exact ⟨y.1, y.2, hy, k1.symm, by rw [k2]; exact hxv⟩
  · rw [hl] at e1
    obtain ⟨k1, k2⟩ := h2 e1 x hx
    rw [hz] at k1 k2
    refine ⟨k1, fun l' hl' ⟨d, hd, hdm⟩ => ?_⟩
    rw [hl'] at e2
    obtain ⟨y, hy, e⟩ := List.mem_map.1 (k2 _ e2 ⟨d.toList, List.mem_map_of_mem hd, hdm⟩)
    exact ⟨y, hy, e.symm⟩

/-- C171: an answer of a call adds up an evaluation for each written layer, made with a mapping that follows the entry of the mapping file for it. -/
theorem call_follows (hA : AccSays cacti da A) (F : FileOk A) (S : FilesSay eqn rel dw dm ws) (K : SourcesKnown ws) (L : ∀ w ∈ ws, LayerFits A w) (O : OptionsOk o)
    (hf : Lpf.FactContract fact) (lo : LayerOptions) :
    ∃ ws' nodes N, InOrder ws ws' ∧ List.Forall₂ (NodeSays lo) ws' nodes ∧ ∀ fuel, N ≤ fuel → ∀ opt, Known opt → ∀ ans,
      Call.call cacti eqn rel fact lo o opt da dw dm fuel = .ok ans → ∃ best : List (Written × SM String Text × Evaluate.Result), best.map Prod.fst = ws' ∧
        ans.energy = (best.map fun x => x.2.2.energy.total).sum ∧ ans.latency = (best.map fun x => x.2.2.overall.latency2).sum ∧
        List.Forall₂ (fun n x => FileFollows x.1 x.2.1 ∧ ∃ evals, run (fun _ => (0, 0)) fact A n.layer x.2.1 o.limit fuel = some (evals, none) ∧ x.2.2 ∈ evals.map Prod.snd)
          nodes best := by
  obtain ⟨nodes, hw, ws', hord, hall⟩ := Call.workload_written (A := A) S K L lo
  have hskip : ∀ n ∈ nodes, n.skip = false := by
    intro n hn
    obtain ⟨w, -, h, -⟩ := Files.forall2_right hall n hn
    exact h.skip
  have hn : ∀ n ∈ nodes, n.skip = false → ∃ rl rels, NodeOk A n rl rels := by
    intro n hn _
    obtain ⟨w, -, -, rl, h⟩ := Files.forall2_right hall n hn
    exact ⟨rl, _, h⟩
  obtain ⟨N, h2⟩ := Net.network_answer (cacti := fun _ => (0, 0)) F O hf hn
  refine ⟨ws', nodes, N, hord, Files.forall2_imp (fun _ _ h => h.1) hall, fun fuel hfu opt hopt ans hans => ?_⟩
  rw [Call.call_eq hA F hw opt hopt fuel] at hans
  obtain ⟨best, b1, b2, b3, b4⟩ := h2 fuel hfu opt ans hans
  have hfil : nodes.filter (fun n => !n.skip) = nodes := List.filter_eq_self.2 fun n hn => by simp [hskip n hn]
  rw [hfil] at b1
  have hmem : ∀ w ∈ ws', w ∈ ws := fun w h => (Call.inOrder_perm hord).subset h
  clear hans h2 hfil hw hord
  have key : ∀ (bs : List (Net.Node String Text × (Evaluate.Job Text × Evaluate.Result))) (vs : List Written), (∀ w ∈ vs, w ∈ ws) →
      List.Forall₂ (fun w n => NodeSays lo w n ∧ ∃ rl, NodeOk A n rl w.rels) vs (bs.map Prod.fst) →
      (∀ x ∈ bs, ∃ sms, Net.spatialMappings o A x.1 = .ok sms ∧ ∃ sm ∈ sms, ∃ evals, run (fun _ => (0, 0)) fact A x.1.layer sm o.limit fuel = some (evals, none) ∧ x.2 ∈ evals) →
      ∃ r : List (Written × SM String Text × Evaluate.Result), r.map Prod.fst = vs ∧ (r.map fun x => x.2.2) = (bs.map fun x => x.2.2) ∧
        List.Forall₂ (fun n x => FileFollows x.1 x.2.1 ∧ ∃ evals, run (fun _ => (0, 0)) fact A n.layer x.2.1 o.limit fuel = some (evals, none) ∧ x.2.2 ∈ evals.map Prod.snd)
          (bs.map Prod.fst) r := by
    intro bs
    induction bs with
    | nil => intro vs _ h _; cases h; exact ⟨[], rfl, rfl, .nil⟩
    | cons b t ih =>
      intro vs hv h hb
      cases h with
      | cons h1 ht =>
        rename_i w vt
        obtain ⟨r, r1, r2, r3⟩ := ih vt (fun x hx => hv x (List.mem_cons_of_mem _ hx)) ht fun x hx => hb x (List.mem_cons_of_mem _ hx)
        obtain ⟨sms, q1, sm, q2, evals, q3, q4⟩ := hb b List.mem_cons_self
        obtain ⟨s1, rl, s2⟩ := h1
        have hL := L w (hv w List.mem_cons_self)
        refine ⟨(w, sm, b.2.2) :: r, by simp [r1], by simp [r2], .cons ⟨?_, evals, q3, List.mem_map_of_mem q4⟩ r3⟩
        exact follows_file hL (node_dims hL s1.sizes) s1.mapping s1.hints (tried_follow F s2 O q1 q2)
  obtain ⟨r, r1, r2, r3⟩ := key best ws' hmem (by rw [b1]; exact hall) fun x hx => by
    obtain ⟨sms, c1, c2, -⟩ := b4 x hx
    exact ⟨sms, c1, c2⟩
  refine ⟨r, r1, ?_, ?_, by rw [← b1]; exact r3⟩
  · rw [b2, show (r.map fun x => x.2.2.energy.total) = (r.map fun x => x.2.2).map fun y => y.energy.total by rw [List.map_map]; rfl, r2, List.map_map]
    rfl
  · rw [b3, show (r.map fun x => x.2.2.overall.latency2) = (r.map fun x => x.2.2).map fun y => y.overall.latency2 by rw [List.map_map]; rfl, r2, List.map_map]
    rfl

/-- C171: with data in lower memories as well, every mapping that is tried for a layer follows its entry. -/
theorem local_follows (F : FileOk A) (X : AccFits A) (L : ∀ w ∈ ws, LayerFits A w) (B : ∀ w ∈ ws, Both A w) (O : OptionsOk o)
    {adapt : LocalCall.Entry → Net.Node String Text → Net.Node String Text}
    (had : ∀ y n, (adapt y n).mapping = n.mapping ∧ (adapt y n).hints = n.hints ∧ (adapt y n).layer.L = n.layer.L) {g : Graph String Text}
    {nodes : List (LNode String Text)} (N : NetSays lo adapt ws g nodes) {s : Locality.St Latency.Operand} (hp : plan A g nodes = .ok s) {n : LNode String Text} (hn : n ∈ nodes)
    (hs : n.node.skip = false) {rl : Latency.Operand → List Text} {rels : List (LayerNode.Relation Text)} (hok : Reuse.LayerOk A n rl rels) {b : AccD String}
    (hb : reduced (fun _ => (0, 0)) A s n = .ok b) {sms : List (SM String Text)} (hm : Net.spatialMappings o b n.node = .ok sms) {sm : SM String Text} (hsm : sm ∈ sms) :
    ∃ w, ws[n.id]? = some w ∧ FileFollows w sm := by
  have U := LocalCall.fits X L B N
  obtain ⟨b', k1, k2, k3, -⟩ := Reuse.reduced_ok (cacti := fun _ => (0, 0)) F X.stacked U hp hn hs hok
  rw [hb] at k1
  cases k1
  obtain ⟨w, m, f1, f2, f3, -, -⟩ := (N.seen n hn).layer
  have hw : w ∈ ws := List.mem_of_getElem? f1
  refine ⟨w, f1, follows_file (L w hw) ?_ ?_ ?_ (tried_follow k2 k3 O hm hsm)⟩
  · refine node_dims (L w hw) ?_
    rw [f3, (had _ _).2.2]
    exact f2.sizes
  · rw [f3, (had _ _).1]
    exact f2.mapping
  · rw [f3, (had _ _).2.1]
    exact f2.hints

end Verif.Followed
