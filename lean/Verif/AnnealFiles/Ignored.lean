import Verif.AnnealFiles.Props
import Verif.Compare.Layers

/-! C173: temporal orderings in the mapping file have no effect on calls with the annealing engine. -/

namespace Verif.AnnealFiles

open Anneal (Luck)
open Call (LayerOptions AccSays)
open Compare (freed)
open Equation (Text)
open Files (Doc MapR MapAttr)
open Net (FileOk Known Node Options Reply)
open Pipeline (Opt IsFirst)
open Ports (MemD)
open SpatialMapping (SM)
open Whole (AccD Acc)

section
variable {OA : Type} [DecidableEq OA] {D : Type} [LinearOrder D] {cacti : MemD Latency.Operand OA → ℚ × ℚ} {fact : Nat → List (Nat × Nat)} {ex : ℚ → ℚ} {a : AccD OA}
  {o : Options OA D} {luck : Node OA D → SM OA D → Luck D}

theorem stages_freed (c : Acc OA) (hl : ∀ n sm, luck (freed n) sm = luck n sm) (n : Node OA D) :
    (Anneal.env fact ex a c o luck).skip (freed n) = (Anneal.env fact ex a c o luck).skip n ∧
    (Anneal.env fact ex a c o luck).spatial (freed n) = (Anneal.env fact ex a c o luck).spatial n ∧
    (Anneal.env fact ex a c o luck).temporal (freed n) = (Anneal.env fact ex a c o luck).temporal n ∧
    (Anneal.env fact ex a c o luck).cost (freed n) = (Anneal.env fact ex a c o luck).cost n := by
  refine ⟨rfl, Compare.spatial_freed o a n, ?_, rfl⟩
  funext sm
  unfold Anneal.env
  simp only [hl]
  rfl

theorem stages_same (c : Acc OA) (hl : ∀ n sm, luck (freed n) sm = luck n sm) {n n' : Node OA D} (h : freed n = freed n') :
    (Anneal.env fact ex a c o luck).skip n = (Anneal.env fact ex a c o luck).skip n' ∧
    (Pipeline.Works (Anneal.env fact ex a c o luck) n → Pipeline.Works (Anneal.env fact ex a c o luck) n') ∧
    Pipeline.cands (Anneal.env fact ex a c o luck) n = Pipeline.cands (Anneal.env fact ex a c o luck) n' := by
  obtain ⟨h1, h2, h3, h4⟩ := stages_freed (fact := fact) (ex := ex) (a := a) (o := o) c hl n
  obtain ⟨k1, k2, k3, k4⟩ := stages_freed (fact := fact) (ex := ex) (a := a) (o := o) c hl n'
  rw [h] at h1 h2 h3 h4
  have e1 := h1.symm.trans k1
  have e2 := h2.symm.trans k2
  have e3 := h3.symm.trans k3
  have e4 := h4.symm.trans k4
  refine ⟨e1, fun hw => ?_, ?_⟩
  · unfold Pipeline.Works at hw ⊢
    rw [← e2, ← e3, ← e4]
    exact hw
  · unfold Pipeline.cands
    rw [e2, e3, e4]

/-- C173: layers that differ only in their temporal orderings have the same energy and latency. -/
theorem ordering_ignored (hl : ∀ n sm, luck (freed n) sm = luck n sm) {ns ns' : List (Node OA D)} (h : ns.map freed = ns'.map freed) {opt : String} {ans : Reply OA D}
    (hans : Anneal.network cacti fact ex a o opt ns luck = .ok ans) :
    ∃ ans', Anneal.network cacti fact ex a o opt ns' luck = .ok ans' ∧ ans'.energy = ans.energy ∧ ans'.latency = ans.latency := by
  cases hc : Whole.accelerator cacti a with
  | error e =>
    unfold Anneal.network at hans
    rw [hc] at hans
    cases hans
  | ok c =>
    rw [Anneal.network_pipeline hc] at hans ⊢
    have hall : List.Forall₂ (fun n n' => freed n = freed n') ns ns' := by
      have : List.Forall₂ (· = ·) (ns.map freed) (ns'.map freed) := by rw [h]; exact List.forall₂_same.2 fun _ _ => rfl
      rwa [List.forall₂_map_left_iff, List.forall₂_map_right_iff] at this
    obtain ⟨hk, hw⟩ := (Pipeline.api_ok_iff (Anneal.single c) opt ns).1 ⟨ans, hans⟩
    obtain ⟨ans', hans'⟩ := (Pipeline.api_ok_iff (Anneal.single (fact := fact) (ex := ex) (a := a) (o := o) (luck := luck) c) opt ns').2 ⟨hk, fun n' hn' hs => by
      obtain ⟨n, hn, e⟩ := Files.forall2_right hall n' hn'
      obtain ⟨e1, e2, -⟩ := stages_same (fact := fact) (ex := ex) (a := a) (o := o) c hl e
      exact e2 (hw n hn (e1.trans hs))⟩
    obtain ⟨op, hop, best, b1, b2, b3, b4, -⟩ := Pipeline.api_answer (Anneal.single c) opt false ns hans
    obtain ⟨op', hop', best', b1', b2', b3', b4', -⟩ := Pipeline.api_answer (Anneal.single c) opt false ns' hans'
    rw [hop] at hop'
    cases hop'
    have hfil : List.Forall₂ (fun n n' => freed n = freed n') (best.map Prod.fst) (best'.map Prod.fst) := by
      rw [b1, b1']
      clear b1 b1' b2 b2' b3 b3' b4 b4' hans hans' hw h
      induction hall with
      | nil => exact .nil
      | cons h1 _ ih =>
        obtain ⟨e1, -⟩ := stages_same (fact := fact) (ex := ex) (a := a) (o := o) c hl h1
        rw [List.filter_cons, List.filter_cons, e1]
        split_ifs
        · exact .cons h1 ih
        · exact ih
    rw [List.forall₂_map_left_iff, List.forall₂_map_right_iff] at hfil
    have hsame : best'.map Prod.snd = best.map Prod.snd := by
      clear b1 b1' b3 b3' b4 b4'
      induction hfil with
      | nil => rfl
      | cons h1 _ ih =>
        rw [List.map_cons, List.map_cons, ih (fun x hx => b2 x (List.mem_cons_of_mem _ hx)) fun x hx => b2' x (List.mem_cons_of_mem _ hx)]
        obtain ⟨-, -, e⟩ := stages_same (fact := fact) (ex := ex) (a := a) (o := o) c hl h1
        have f1 := b2 _ List.mem_cons_self
        have f2 := b2' _ List.mem_cons_self
        rw [e] at f1
        rw [Compare.first_unique f1 f2]
    refine ⟨ans', hans', ?_, ?_⟩
    · rw [b3, b3', show (best'.map fun x => x.2.res.energy) = (best'.map Prod.snd).map fun x => x.res.energy by rw [List.map_map]; rfl, hsame, List.map_map]
      rfl
    · rw [b4, b4', show (best'.map fun x => x.2.res.latency) = (best'.map Prod.snd).map fun x => x.res.latency by rw [List.map_map]; rfl, hsame, List.map_map]
      rfl

end

/-! ### The mapping file without orderings -/

/-- An entry of a mapping file without its temporal ordering. -/
def sansOrder (m : MapR) : MapR := { m with order := [] }

theorem mapAttr_sans {m : MapR} {t : MapAttr} (h : Files.mapAttr m = .ok t) : Files.mapAttr (sansOrder m) = .ok { t with order := [] } := by
  unfold Files.mapAttr at h ⊢
  simp only [sansOrder]
  split at h
  · cases h
  · split at h
    · cases h
    · split at h
      · cases h
      · cases h
        rfl

theorem named_sans (name : String) : ∀ ms : List MapR, Links.nextNamed ((ms.map sansOrder).map fun m => (m.name, m)) name =
    match Links.nextNamed (ms.map fun m => (m.name, m)) name with
    | .error e => .error e
    | .ok x => .ok (x.1, sansOrder x.2) := by
  intro ms
  unfold Links.nextNamed
  have e : (ms.map sansOrder).map (fun m => (m.name, m)) = (ms.map fun m => (m.name, m)).map fun x => (x.1, sansOrder x.2) := by
    simp only [List.map_map]
    rfl
  rw [e, List.find?_map]
  rw [show ((fun e : String × MapR => decide (e.1 = name)) ∘ fun x : String × MapR => (x.1, sansOrder x.2)) = fun e => decide (e.1 = name) from rfl]
  cases (ms.map fun m => (m.name, m)).find? fun e => decide (e.1 = name) <;> rfl

theorem choose_sans (name type : String) (ms : List MapR) : Links.choose name type ((ms.map sansOrder).map fun m => (m.name, m)) =
    match Links.choose name type (ms.map fun m => (m.name, m)) with
    | .error e => .error e
    | .ok x => .ok (x.1, sansOrder x.2) := by
  have hn : ((ms.map sansOrder).map fun m => (m.name, m)).map Prod.fst = (ms.map fun m => (m.name, m)).map Prod.fst := by
    simp only [List.map_map]
    rfl
  unfold Links.choose
  rw [hn]
  split_ifs <;> exact named_sans _ ms

theorem node_sans {lo : LayerOptions} {ms : List MapR} {y : Option String × String × LayerBuild.LayerD} {n : Node String Text} (h : Call.nodeOf lo ms y = .ok n) :
    Call.nodeOf lo (ms.map sansOrder) y = .ok (freed n) := by
  unfold Call.nodeOf at h ⊢
  split at h
  · cases h
  · rename_i b hb
    rw [choose_sans]
    split at h
    · cases h
    · rename_i nm m hm
      rw [hm]
      simp only
      split at h
      · cases h
      · rename_i t ht
        rw [mapAttr_sans ht]
        simp only
        split at h
        · cases h
        · rename_i ops hops
          split at h
          · rename_i hc
            cases h
            rw [if_pos ⟨hc.1, hc.2.1, by simp⟩]
            rfl
          · cases h

theorem nodes_sans {lo : LayerOptions} {ms : List MapR} : ∀ {ys : List (Option String × String × LayerBuild.LayerD)} {ns : List (Node String Text)},
    Call.nodesOf lo ms ys = .ok ns → Call.nodesOf lo (ms.map sansOrder) ys = .ok (ns.map freed)
  | [], ns, h => by cases h; rfl
  | y :: t, ns, h => by
    unfold Call.nodesOf at h ⊢
    split at h
    · cases h
    · rename_i n hn
      rw [node_sans hn]
      simp only
      split at h
      · cases h
      · rename_i l hl
        rw [nodes_sans hl]
        cases h
        rfl

theorem workload_sans {eqn : List Char → Bool} {rel : List Char → Option LayerBuild.RelD} {lo : LayerOptions} {dw dm dm' : Doc} {ms : List MapR}
    (hm : Files.parseMapping dm = .ok ms) (hm' : Files.parseMapping dm' = .ok (ms.map sansOrder)) {ns : List (Node String Text)}
    (h : Call.workload eqn rel lo dw dm = .ok ns) : Call.workload eqn rel lo dw dm' = .ok (ns.map freed) := by
  unfold Call.workload at h ⊢
  split at h
  · cases h
  · rename_i ys hy
    rw [hm] at h
    rw [hm']
    simp only at h ⊢
    split at h
    · cases h
    · rename_i l hl
      rw [nodes_sans hl]
      simp only
      split at h
      · cases h
      · rename_i g hg
        split at h
        · cases h
        · rename_i order ho
          cases h
          simp only [List.map_filterMap, List.getElem?_map]

variable {cacti : String → String → Int → Int → Except PyErr (ℚ × ℚ × ℚ)} {eqn : List Char → Bool} {rel : List Char → Option LayerBuild.RelD}
  {fact : Nat → List (Nat × Nat)} {ex : ℚ → ℚ} {lo : LayerOptions} {o : Net.Options String Text} {da dw dm dm' : Doc} {A : AccD String}
  {luck : Node String Text → SM String Text → Luck Text}

/-- C173: without the temporal orderings of the mapping file the call has an answer with the same energy and latency. -/
theorem file_ordering_ignored (hA : AccSays cacti da A) (F : FileOk A) (hl : ∀ n sm, luck (freed n) sm = luck n sm) {ms : List MapR} (hm : Files.parseMapping dm = .ok ms)
    (hm' : Files.parseMapping dm' = .ok (ms.map sansOrder)) {opt : String} {ans : Reply String Text} (hans : call cacti eqn rel fact ex lo o opt da dw dm luck = .ok ans) :
    ∃ ans', call cacti eqn rel fact ex lo o opt da dw dm' luck = .ok ans' ∧ ans'.energy = ans.energy ∧ ans'.latency = ans.latency := by
  have hk := known hans
  cases hw : Call.workload eqn rel lo dw dm with
  | error e =>
    obtain ⟨x, hx⟩ := parsed hk
    unfold call at hans
    rw [hx, hw] at hans
    cases hans
  | ok ns =>
    rw [call_eq hA F hw hk] at hans
    rw [call_eq hA F (workload_sans hm hm' hw) hk]
    refine ordering_ignored hl ?_ hans
    rw [List.map_map]
    rfl

/-! ### ONNX models -/

open Onnx (OModel)
open OnnxModel (OpNode)

theorem parseNode_sans {ms : List MapR} {m : OModel} {all : List OpNode} {k : Nat} {n : OpNode} {r : Option (Node String Text)}
    (h : OnnxCall.parseNode lo ms m all k n = .ok r) : OnnxCall.parseNode lo (ms.map sansOrder) m all k n = .ok (r.map freed) := by
  unfold OnnxCall.parseNode at h ⊢
  split at h
  · cases h
    rfl
  · cases h
  · split at h
    · cases h
    · rename_i x hx
      rw [node_sans hx]
      cases h
      rfl

theorem parseNodes_sans {ms : List MapR} {m : OModel} {all : List OpNode} : ∀ {k : Nat} {l : List OpNode} {rs : List (Option (Node String Text))},
    OnnxCall.parseNodes lo ms m all k l = .ok rs → OnnxCall.parseNodes lo (ms.map sansOrder) m all k l = .ok (rs.map (Option.map freed))
  | _, [], rs, h => by cases h; rfl
  | k, n :: t, rs, h => by
    unfold OnnxCall.parseNodes at h ⊢
    split at h
    · cases h
    · rename_i x hx
      rw [parseNode_sans hx]
      simp only
      split at h
      · cases h
      · rename_i l hl
        rw [parseNodes_sans hl]
        cases h
        rfl

theorem onnx_workload_sans {m : OModel} {nodes : List OpNode} {ms : List MapR} (hm : Files.parseMapping dm = .ok ms) (hm' : Files.parseMapping dm' = .ok (ms.map sansOrder))
    {ns : List (Node String Text)} (h : OnnxCall.workload lo m nodes dm = .ok ns) : OnnxCall.workload lo m nodes dm' = .ok (ns.map freed) := by
  unfold OnnxCall.workload at h ⊢
  split at h
  · cases h
  · rename_i hif
    rw [if_neg hif, hm']
    rw [hm] at h
    simp only at h ⊢
    split at h
    · cases h
    · rename_i rs hrs
      rw [parseNodes_sans hrs]
      simp only
      split at h
      · cases h
      · rename_i g hg
        have e : ∀ i : Nat, ((rs.map (Option.map freed))[i]?.bind id) = (rs[i]?.bind id).map freed := by
          intro i
          rw [List.getElem?_map]
          cases rs[i]? with
          | none => rfl
          | some x => cases x <;> rfl
        have e' : (fun i : Nat => ((rs.map (Option.map freed))[i]?.bind id).isNone) = fun i => (rs[i]?.bind id).isNone := by
          funext i
          rw [e, Option.isNone_map]
        rw [e']
        split at h
        · cases h
        · rename_i order ho
          cases h
          simp only [e, List.map_filterMap]

/-- C173: the same for ONNX models. -/
theorem onnx_ordering_ignored (hA : AccSays cacti da A) (F : FileOk A) (hl : ∀ n sm, luck (freed n) sm = luck n sm) {m : OModel} {nodes : List OpNode} {ms : List MapR}
    (hm : Files.parseMapping dm = .ok ms) (hm' : Files.parseMapping dm' = .ok (ms.map sansOrder)) {opt : String} {ans : Reply String Text}
    (hans : onnx cacti fact ex lo o opt da m nodes dm luck = .ok ans) :
    ∃ ans', onnx cacti fact ex lo o opt da m nodes dm' luck = .ok ans' ∧ ans'.energy = ans.energy ∧ ans'.latency = ans.latency := by
  have hk := known_onnx hans
  cases hw : OnnxCall.workload lo m nodes dm with
  | error e =>
    obtain ⟨x, hx⟩ := parsed hk
    unfold onnx at hans
    rw [hx, hw] at hans
    cases hans
  | ok ns =>
    rw [onnx_eq hA F hw hk] at hans
    rw [onnx_eq hA F (onnx_workload_sans hm hm' hw) hk]
    refine ordering_ignored hl ?_ hans
    rw [List.map_map]
    rfl

end Verif.AnnealFiles
