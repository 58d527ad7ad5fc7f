import Verif.Call.Spec
import Verif.Links.Props
import Verif.Files.MapProps
import Verif.Net.Props

/-! Layers of a workload file that fits: they can be built and meet what the stages need. -/

namespace Verif.Call

open Equation (Text Eqn Term upper parse operands equation_operands equation_dims)
open Files (Doc AccR MemR PortR MapR MapAttr)
open Latency (Operand)
open LayerBuild (LayerD Good GivenPr ComputedPr Built build validate)
open LayerNode (Relation Axis axisOf Rel extractRel extractPr)
open Net (Node Innermost NodeOk)
open Whole (AccD LayerIn LayerOk)

/-! ### Dictionaries from a list of assignments -/

theorem set_all {K V : Type} [DecidableEq K] {P : K × V → Prop} {d : Dict K V} {k : K} {v : V} (hx : P (k, v)) (hd : ∀ e ∈ d, P e) :
    ∀ e ∈ d.set k v, P e := by
  induction d with
  | nil =>
    intro e he
    simp only [Dict.set, List.mem_singleton] at he
    rw [he]
    exact hx
  | cons y s ihs =>
    obtain ⟨yk, yv⟩ := y
    intro e he
    rw [Dict.set] at he
    split at he
    · rename_i hk
      rcases List.mem_cons.1 he with rfl | he
      · rw [hk]
        exact hx
      · exact hd e (List.mem_cons_of_mem _ he)
    · rcases List.mem_cons.1 he with rfl | he
      · exact hd _ List.mem_cons_self
      · exact ihs (fun e he => hd e (List.mem_cons_of_mem _ he)) e he

theorem fold_all {K V : Type} [DecidableEq K] {P : K × V → Prop} (l : List (K × V)) : ∀ (d : Dict K V), (∀ e ∈ l, P e) → (∀ e ∈ d, P e) →
    ∀ e ∈ l.foldl (fun d e => Dict.set d e.1 e.2) d, P e := by
  induction l with
  | nil => intro d _ hd; exact hd
  | cons x t ih =>
    intro d hl hd
    exact ih _ (fun e he => hl e (List.mem_cons_of_mem _ he)) (set_all (hl x List.mem_cons_self) hd)

theorem fold_wf {K V : Type} [DecidableEq K] (l : List (K × V)) : ∀ (d : Dict K V), d.WF → Dict.WF (l.foldl (fun d e => Dict.set d e.1 e.2) d) := by
  induction l with
  | nil => intro d hd; exact hd
  | cons x t ih => intro d hd; exact ih _ (hd.set _ _)

/-! ### Building -/

theorem prSizes_int {d : LayerD} {rels : List (Relation Text)} {p : Dict Text (Int × Int)} {ps : Dict Text ℚ}
    (h : LayerBuild.prSizes (LayerBuild.prSizesFile d) (LayerBuild.dimSizes d) (extractPr rels) p = .ok ps) (k : Text) (v : ℚ) (hk : Dict.get? ps k = some v) :
    ∃ n : Int, v = n := by
  have hcomp : ∀ {ks : List Text} {ps : Dict Text ℚ}, LayerBuild.prSizesComputed (LayerBuild.dimSizes d) (extractPr rels) p ks = .ok ps →
      ∀ k v, Dict.get? ps k = some v → ∃ n : Int, v = n := by
    intro ks
    induction ks with
    | nil =>
      intro ps hp k v hk
      cases hp
      cases hk
    | cons x t ih =>
      intro ps hp k v hk
      rw [LayerBuild.prSizesComputed] at hp
      split at hp
      · cases hp
      · split at hp
        · cases hp
        · rename_i n _ _ r hr
          cases hp
          rw [Dict.get?_cons] at hk
          split at hk
          · cases hk
            exact ⟨n, rfl⟩
          · exact ih hr k v hk
  unfold LayerBuild.prSizes at h
  split at h
  · rename_i g hg
    split at h
    · exact hcomp h k v hk
    · cases h
      unfold LayerBuild.prSizesFile LayerBuild.zipDict at hg
      split at hg
      · rename_i ds ss h1 h2
        cases hg
        have hm := Dict.mem_of_get? hk
        refine fold_all (P := fun e : Text × ℚ => ∃ n : Int, e.2 = n) _ [] ?_ (by simp) _ hm
        intro e he
        obtain ⟨n, -, hn⟩ := List.mem_map.1 (List.of_mem_zip he).2
        exact ⟨n, hn.symm⟩
      · cases hg
  · exact hcomp h k v hk

/-- A layer that fits is built, with the written dimensions of its operands. -/
theorem built {d : LayerD} {e : Eqn} {rels : List (Relation Text)} (hg : Good d e rels) (hv : validate d = .ok true) (hpr : GivenPr d rels ∨ ComputedPr d)
    (hnm : (e.terms.map Term.name).Nodup) :
    ∃ b, build d = .ok b ∧ b.layer.dimSizes = LayerBuild.dimSizes d ∧ b.layer.pi = extractPr rels ∧
      (∀ r ∈ rels, ∃ m : ℕ, b.layer.prSizes.get? r.dim1 = some (m : ℚ) ∧ 1 ≤ m) ∧
      List.Forall₂ (fun (t : Term) (x : Text × Rel Text × ℚ) => x.1 = t.name ∧ extractRel (dimsOf t) (LayerBuild.dimSizes d) (extractPr rels) = .ok x.2.1)
        e.terms b.operands := by
  obtain ⟨b, hb, -⟩ := LayerBuild.build_ok_partial d e rels hg hv hpr
  obtain ⟨p, ps, hp, hps, hl⟩ := LayerBuild.build_layer hg.parsed hb
  refine ⟨b, hb, by rw [hl], by rw [hl], fun r hr => ?_, ?_⟩
  · obtain ⟨ps', hps', hpos⟩ := LayerBuild.prSizes_ok hg hpr p hp
    rw [hps] at hps'
    cases hps'
    obtain ⟨v, hv, h1⟩ := hpos r hr
    obtain ⟨n, hn⟩ := prSizes_int hps _ _ hv
    rw [hn] at h1
    have h1' : 1 ≤ n := by exact_mod_cast h1
    refine ⟨n.toNat, ?_, by omega⟩
    rw [hl, hv, hn]
    congr 1
    have : ((n.toNat : Int) : ℚ) = (n : ℚ) := by rw [Int.toNat_of_nonneg (by omega)]
    rw [← this]
    norm_cast
  · unfold build at hb
    simp only at hb
    rw [LayerBuild.mapE_of_forall₂ hg.parsed] at hb
    simp only at hb
    rw [hp] at hb
    simp only at hb
    rw [show operands (parse d.equation) = .ok (e.terms.map Term.name) by rw [hg.eqn, equation_operands e hg.plain]] at hb
    simp only at hb
    rw [hps] at hb
    simp only at hb
    split at hb
    · cases hb
    · rename_i infos hi
      cases hb
      have hf := LayerBuild.mapE_forall₂ _ _ _ hi
      rw [List.forall₂_map_left_iff] at hf
      rw [List.forall₂_iff_get] at hf ⊢
      refine ⟨hf.1, fun i h1 h2 => ?_⟩
      have hx := hf.2 i h1 h2
      simp only [List.get_eq_getElem] at hx ⊢
      have hk : e.terms[i]? = some e.terms[i] := List.getElem?_eq_getElem _
      unfold LayerBuild.operandInfo at hx
      rw [hg.eqn, equation_dims e hg.plain i _ hk (by
        intro j u hj hu heq
        have hji := hnm.getElem_inj_iff (i := j) (j := i) (hi := by simp; omega) (hj := by simp; omega)
        simp only [List.getElem_map] at hji
        obtain ⟨hjl, rfl⟩ := List.getElem?_eq_some_iff.1 hu
        have := hji.1 heq
        omega)] at hx
      simp only at hx
      change (match extractRel (dimsOf e.terms[i]) _ _ with | .error e => _ | .ok rel => _) = _ at hx
      split at hx
      · cases hx
      · rename_i rel hrel
        split at hx
        · cases hx
        · split at hx
          · cases hx
          · split_ifs at hx
            have := Except.ok.inj hx
            rw [← this]
            exact ⟨rfl, hrel⟩

/-! ### Entries of the mapping file -/

theorem toList_inj : Function.Injective String.toList := Function.LeftInverse.injective (g := String.ofList) fun _ => String.ofList_toList

theorem ofList_inj : Function.Injective String.ofList := Function.LeftInverse.injective (g := String.toList) fun _ => String.toList_ofList

theorem attr_facts {m : MapR} {a : MapAttr} (h : Files.mapAttr m = .ok a) :
    (a.spatial.WF ∧ ∀ e ∈ a.spatial, e.2.WF) ∧ (a.hint.WF ∧ ∀ e ∈ a.hint, e.2.Nodup) ∧ (a.links.data.map Prod.snd).Nodup := by
  unfold Files.mapAttr at h
  split at h
  · cases h
  · rename_i sp hsp
    split at h
    · cases h
    · rename_i hint hh
      split at h
      · cases h
      · rename_i links hl
        cases h
        refine ⟨?_, ?_, ?_⟩
        · show Dict.WF sp ∧ ∀ e ∈ sp, e.2.WF
          split at hsp
          · cases hsp
            exact ⟨List.nodup_nil, by simp⟩
          · unfold Files.spatialOf at hsp
            split at hsp
            · cases hsp
            · rename_i ps hps
              cases hsp
              refine ⟨fold_wf _ _ List.nodup_nil, fold_all (P := fun e : String × Dict String ℕ => e.2.WF) _ _ ?_ (by simp)⟩
              intro e he
              obtain ⟨x, -, hx⟩ := Files.forall2_right (Files.mapE_iff.1 hps) e he
              unfold Files.spatialEntry at hx
              split at hx
              · cases hx
              · split at hx
                · cases hx
                · rename_i v hv
                  cases hx
                  unfold Files.singleDim at hv
                  split at hv
                  · cases hv
                  · cases hv
                    exact fold_wf _ _ List.nodup_nil
        · show Dict.WF hint ∧ ∀ e ∈ hint, e.2.Nodup
          unfold Files.hintOf at hh
          split at hh
          · cases hh
          · rename_i ps hps
            cases hh
            refine ⟨fold_wf _ _ List.nodup_nil, fold_all (P := fun e : String × List String => e.2.Nodup) _ _ ?_ (by simp)⟩
            intro e he
            obtain ⟨x, -, hx⟩ := Files.forall2_right (Files.mapE_iff.1 hps) e he
            unfold Files.hintEntry at hx
            split at hx
            · cases hx
            · cases hx
              exact List.nodup_dedup _
        · show (links.data.map Prod.snd).Nodup
          unfold Files.linksOf at hl
          have := (Links.links_ok_iff _).1 ⟨_, hl⟩
          unfold Links.mk at hl
          split_ifs at hl
          cases hl
          exact this

theorem link_inj {A : AccD String} {w : Written} (F : LayerFits A w) {t u : Term} (ht : t ∈ w.eqn.terms) (hu : u ∈ w.eqn.terms)
    (h : w.link t.name = w.link u.name) : t.name = u.name := by
  obtain ⟨-, -, hn⟩ := attr_facts F.attr
  have h1 := Dict.mem_of_get? (F.link t ht)
  have h2 := Dict.mem_of_get? (F.link u hu)
  rw [h] at h1
  have := List.inj_on_of_nodup_map hn h1 h2 rfl
  exact ofList_inj (Prod.mk.inj this).1

theorem opOf_opName (o : Operand) : opOf (opName o) = some o := by cases o <;> decide +kernel

theorem linked_ok {A : AccD String} {w : Written} (F : LayerFits A w) :
    ∀ (ts : List Term), (∀ t ∈ ts, t ∈ w.eqn.terms) → ∀ ops : List (Text × Rel Text × ℚ), List.Forall₂ (fun (t : Term) x => x.1 = t.name) ts ops →
      linked w.attr.links ops = .ok (ops.map fun x => (w.link x.1, x.1, x.2.1)) := by
  intro ts hts ops hf
  induction hf with
  | nil => rfl
  | @cons t x _ _ h1 _ ih =>
    have ih := ih fun t ht => hts t (List.mem_cons_of_mem _ ht)
    have hl := F.link t (hts t List.mem_cons_self)
    rw [← h1] at hl
    rw [linked]
    have : linkOf w.attr.links x.1 = .ok (w.link x.1) := by
      unfold linkOf Links.Links.toMem
      rw [hl]
      simp only
      rw [opOf_opName]
    rw [this]
    simp only
    rw [ih]
    rfl

/-! ### The node -/

theorem forall₂_index {α β : Type} {R : α → β → Prop} {l : List α} {m : List β} (h : List.Forall₂ R l m) {a : α} (ha : a ∈ l) : ∃ b ∈ m, R a b := by
  induction h with
  | nil => cases ha
  | cons h1 _ ih =>
    rcases List.mem_cons.1 ha with rfl | ha
    · exact ⟨_, List.mem_cons_self, h1⟩
    · obtain ⟨b, hb, hr⟩ := ih ha
      exact ⟨b, List.mem_cons_of_mem _ hb, hr⟩

theorem forall₂_map_eq {α β γ : Type} {f : α → γ} {g : β → γ} {l : List α} {m : List β} (h : List.Forall₂ (fun a b => g b = f a) l m) : m.map g = l.map f := by
  induction h with
  | nil => rfl
  | cons h1 _ ih => rw [List.map_cons, List.map_cons, h1, ih]

theorem dims_zip {A : AccD String} {w : Written} (F : LayerFits A w) :
    LayerBuild.dimSizes w.layer = (w.layer.loopDims.map upper).zip (w.layer.loopSizes.map fun k : Int => (k : ℚ)) := by
  unfold LayerBuild.dimSizes
  exact LayerBuild.zipDict_eq _ _ (by simp [F.good.lens]) F.good.dims

theorem precision_nonneg {A : AccD String} {w : Written} (F : LayerFits A w) (t : Text) : ((precisionOf w.layer t : Nat) : Int) = w.precision t := by
  unfold precisionOf Written.precision
  have : 0 ≤ (Dict.get? w.layer.precision t).getD 0 := by
    cases h : Dict.get? w.layer.precision t with
    | none => simp
    | some v => exact F.precise _ (Dict.mem_of_get? h)
  omega

theorem nodeName_eq (name : Option String) (id : Int) : nodeName name id = name.getD ("Layer" ++ toString id) := by cases name <;> rfl

theorem first_named {ms : List MapR} {s : String} {e : MapR} : Links.FirstNamed (ms.map fun m => (m.name, m)) s (e.name, e) ↔ First ms s e := by
  constructor
  · rintro ⟨a, b, h1, h2, h3⟩
    obtain ⟨p, q, rfl, rfl, hq⟩ := List.map_eq_append_iff.1 h1
    obtain ⟨x, q', rfl, hx, rfl⟩ := List.map_eq_cons_iff.1 hq
    obtain rfl : x = e := congrArg Prod.snd hx
    exact ⟨p, q', rfl, h2, fun y hy => h3 _ (List.mem_map_of_mem hy)⟩
  · rintro ⟨p, q, rfl, h2, h3⟩
    refine ⟨p.map fun m => (m.name, m), q.map fun m => (m.name, m), by simp, h2, ?_⟩
    intro x hx
    obtain ⟨y, hy, rfl⟩ := List.mem_map.1 hx
    exact h3 y hy

theorem chosen_iff {ms : List MapR} {s t : String} {e : MapR} : Chosen ms s t e ↔ Links.choose s t (ms.map fun m => (m.name, m)) = .ok (e.name, e) := by
  rw [Links.choose_iff, first_named, first_named, first_named]
  unfold Chosen
  simp only [List.mem_map, forall_exists_index, and_imp, forall_apply_eq_imp_iff₂]

/-- A written layer that fits is built as written. -/
theorem node_built {A : AccD String} {w : Written} (F : LayerFits A w) (hv : validate w.layer = .ok true) (lo : LayerOptions) (ms : List MapR)
    (hc : Links.choose (nodeName w.name w.layer.id) w.operator (ms.map fun m => (m.name, m)) = .ok (w.entry.name, w.entry)) :
    ∃ n, nodeOf lo ms (w.name, w.operator, w.layer) = .ok n ∧ NodeSays lo w n ∧
      ∀ r ∈ w.rels, ∃ m : ℕ, n.layer.L.prSizes.get? r.dim1 = some (m : ℚ) ∧ 1 ≤ m := by
  obtain ⟨b, hb, hs, hp, hz, hf⟩ := built F.good hv F.pr F.names
  have hn : List.Forall₂ (fun (t : Term) (x : Text × Rel Text × ℚ) => x.1 = t.name) w.eqn.terms b.operands := Files.forall2_imp (fun _ _ h => h.1) hf
  have hl := linked_ok F _ (fun t ht => ht) _ hn
  set ops : Dict Operand (Text × Rel Text) := b.operands.map fun x => (w.link x.1, x.1, x.2.1) with hops
  have hk : ops.map Prod.fst = w.eqn.terms.map fun t => w.link t.name := by
    rw [hops, List.map_map]
    exact forall₂_map_eq (Files.forall2_imp (fun t x (h : x.1 = t.name) => by simp [h]) hn)
  have hwf : Dict.WF ops := by
    unfold Dict.WF Dict.keys
    rw [hk]
    refine List.Nodup.map_on ?_ (List.Nodup.of_map _ F.names)
    intro t ht u hu h
    exact List.inj_on_of_nodup_map F.names ht hu (link_inj F ht hu h)
  have hget : ∀ t ∈ w.eqn.terms, ∃ r, ops.get? (w.link t.name) = some (t.name, r) ∧ extractRel (dimsOf t) (LayerBuild.dimSizes w.layer) (extractPr w.rels) = .ok r := by
    intro t ht
    obtain ⟨x, hx, h1, h2⟩ := forall₂_index hf ht
    refine ⟨x.2.1, Dict.get?_of_mem hwf ?_, h2⟩
    rw [hops]
    exact List.mem_map.2 ⟨x, hx, by rw [h1]⟩
  have hhead : (ops.map Prod.fst).head? = some .out := by
    rw [hk]
    show some (w.link w.eqn.out.name) = _
    rw [F.out]
  have hdrop : (ops.map Prod.fst).drop 1 = w.eqn.rest.map fun r => w.link r.term.name := by
    rw [hk, Eqn.terms, List.map_cons, List.drop_one, List.tail_cons, List.map_map]
    rfl
  have hno : Operand.out ∉ (ops.map Prod.fst).drop 1 := by
    have h1 : (ops.map Prod.fst).Nodup := hwf
    cases ho : ops.map Prod.fst with
    | nil => simp
    | cons x t =>
      rw [ho] at h1 hhead
      simp only [List.head?_cons, Option.some.injEq] at hhead
      rw [hhead] at h1
      exact (List.nodup_cons.1 h1).1
  refine ⟨⟨false, layerOf lo w.layer b ops w.attr.order, w.attr.spatial.map fun e => (e.1, e.2.map fun x => (x.1.toList, (x.2 : ℚ))),
    w.attr.hint.map fun e => (e.1, e.2.map String.toList)⟩, ?_, ?_, ?_⟩
  · unfold nodeOf
    rw [hb]
    simp only
    rw [hc]
    simp only
    rw [F.attr]
    simp only
    rw [hl]
    simp only
    have ho : ∀ e ∈ w.attr.order, e.1.toList ∈ b.layer.dimSizes.keys → e.1 ≠ "*" ∧ ∀ f, e.2 = some f → 0 ≤ f := by
      intro e he hm
      rw [hs, LayerBuild.sizes_keys F.good] at hm
      obtain ⟨h1, h2⟩ := F.order e he hm
      exact ⟨h1, fun f hf => by rw [h2] at hf; cases hf⟩
    rw [if_pos ⟨hhead, hno, ho⟩]
  · refine ⟨rfl, hk, hdrop, ?_, hp, ?_, ?_, ?_, rfl, rfl, rfl, rfl, rfl, ?_⟩
    · show b.layer.dimSizes = _
      rw [hs, dims_zip F]
    · intro t ht
      obtain ⟨r, h1, h2⟩ := hget t ht
      show extractRel (dimsOf t) b.layer.dimSizes (extractPr w.rels) = .ok (((ops.get? (w.link t.name)).map fun x => x.2).getD ⟨[], [], []⟩)
      rw [hs, h1, h2]
      rfl
    · intro t ht
      obtain ⟨r, h1, h2⟩ := hget t ht
      show ((((ops.get? (w.link t.name)).map fun x => precisionOf w.layer x.1).getD 0 : Nat) : Int) = _
      rw [h1]
      exact precision_nonneg F _
    · exact precision_nonneg F _
    · show Ordering.removeInvalid b.layer.dimSizes.keys _ = _
      unfold Ordering.removeInvalid
      rw [hs, LayerBuild.sizes_keys F.good, List.filter_map]
      congr 1
      refine List.filter_congr fun e _ => ?_
      simp only [Function.comp]
      congr
  · exact hz

/-- The layer that the stages get meets what they need. -/
theorem node_ok {A : AccD String} {w : Written} (F : LayerFits A w) {lo : LayerOptions} {n : Node String Text} (S : NodeSays lo w n)
    (hz : ∀ r ∈ w.rels, ∃ m : ℕ, n.layer.L.prSizes.get? r.dim1 = some (m : ℚ) ∧ 1 ≤ m) :
    ∃ rl, NodeOk A n rl w.rels := by
  have hkeys : n.layer.L.dimSizes.keys = w.layer.loopDims.map upper := by
    rw [S.sizes, ← dims_zip F, LayerBuild.sizes_keys F.good]
  have hnd : (w.eqn.terms.map fun t => w.link t.name).Nodup := by
    refine List.Nodup.map_on ?_ (List.Nodup.of_map _ F.names)
    intro t ht u hu h
    exact List.inj_on_of_nodup_map F.names ht hu (link_inj F ht hu h)
  let rl : Operand → List Text := fun op => ((w.eqn.terms.find? fun t => decide (w.link t.name = op)).map dimsOf).getD []
  have hrl : ∀ t ∈ w.eqn.terms, rl (w.link t.name) = dimsOf t := by
    intro t ht
    show ((w.eqn.terms.find? fun u => decide (w.link u.name = w.link t.name)).map dimsOf).getD [] = dimsOf t
    cases hfi : w.eqn.terms.find? fun u => decide (w.link u.name = w.link t.name) with
    | none =>
      have := List.find?_eq_none.1 hfi t ht
      simp at this
    | some u =>
      have h1 := List.mem_of_find?_eq_some hfi
      have h2 := List.find?_some hfi
      have := List.inj_on_of_nodup_map F.names h1 ht (link_inj F h1 ht (by simpa using h2))
      rw [this]
      rfl
  have hop : ∀ op, op ∈ n.layer.ops ↔ ∃ t ∈ w.eqn.terms, w.link t.name = op := by
    intro op
    rw [S.ops, List.mem_map]
  have hall : ∀ {P : Operand → Prop}, (∀ t ∈ w.eqn.terms, P (w.link t.name)) → ∀ op ∈ n.layer.ops, P op := by
    intro P h op ho
    obtain ⟨t, ht, rfl⟩ := (hop op).1 ho
    exact h t ht
  have hout : w.eqn.out ∈ w.eqn.terms := List.mem_cons_self
  have hrest : ∀ r ∈ w.eqn.rest, r.term ∈ w.eqn.terms := fun r hr => List.mem_cons_of_mem _ (List.mem_map.2 ⟨r, hr, rfl⟩)
  refine ⟨rl, ⟨?_, ?_, ?_, ?_, ?_, ?_, ?_, ?_, ?_, ?_⟩⟩
  · refine ⟨?_, ?_, ?_, F.good.names, S.pi, ?_, ?_, ?_, ?_, hz, ?_, ?_, ?_, ?_, ?_, ?_⟩
    · rw [S.ops]
      exact hnd
    · rw [hop]
      exact ⟨_, hout, F.out⟩
    · rw [S.inputs]
      refine ⟨by simpa using F.inputs, fun op ho => ?_⟩
      obtain ⟨r, hr, rfl⟩ := List.mem_map.1 ho
      refine ⟨(hop _).2 ⟨_, hrest r hr, rfl⟩, fun h => ?_⟩
      rw [Eqn.terms, List.map_cons] at hnd
      refine (List.nodup_cons.1 hnd).1 ?_
      rw [F.out, ← h]
      exact List.mem_map.2 ⟨r.term, List.mem_map.2 ⟨r, hr, rfl⟩, rfl⟩
    · unfold Dict.WF
      rw [hkeys]
      exact F.good.dims
    · intro h
      rw [h] at hkeys
      exact F.some (List.map_eq_nil_iff.1 hkeys.symm)
    · intro e he
      rw [S.sizes] at he
      obtain ⟨k, hk, hk'⟩ := List.mem_map.1 (List.of_mem_zip he).2
      have h1 := F.good.pos k hk
      refine ⟨k.toNat, by omega, ?_⟩
      rw [← hk']
      have : ((k.toNat : Int) : ℚ) = (k : ℚ) := by rw [Int.toNat_of_nonneg (by omega)]
      rw [← this]
      norm_cast
    · intro r hr
      rw [hkeys]
      obtain ⟨h1, h2, -⟩ := F.good.relDims r hr
      exact ⟨h1, h2, F.fresh r hr⟩
    · exact hall fun t ht => by rw [hrl t ht]; exact S.rel t ht
    · exact hall fun t ht => by rw [hrl t ht]; exact F.index t ht
    · exact hall fun t ht => by rw [hrl t ht]; exact F.mix t ht
    · exact hall fun t ht => by rw [hrl t ht]; exact F.vars t ht
    · refine hall fun t ht => ?_
      rw [hrl t ht, hkeys]
      intro d hd hno
      obtain ⟨x, hx, rfl⟩ := List.mem_map.1 hd
      obtain ⟨hx1, hx2⟩ := List.mem_filter.1 hx
      rcases F.good.eqDims t ht x hx1 (by simpa using hx2) with h | ⟨r, hr, he⟩
      · exact h
      · exact absurd he.symm (hno r hr)
    · rw [S.cycles]
      norm_num
  · exact hall fun t ht => F.stored t ht
  · intro m hm op ho
    rw [hop]
    exact F.linked m hm op ho
  · intro m hm op ho p hp ha
    obtain ⟨pre, post, hmem, -⟩ := id hm
    obtain ⟨t, ht, rfl⟩ := F.linked m (by rw [hmem]; simp) op ho
    rw [S.precision t ht]
    refine F.delivers m hm t ht ho p hp ?_
    have : (t.name = w.eqn.out.name) ↔ w.link t.name = .out := by
      constructor
      · intro h
        rw [h, F.out]
      · intro h
        exact link_inj F ht hout (by rw [h, F.out])
    rw [if_congr this rfl rfl]
    exact ha
  · intro m hm op ho
    obtain ⟨pre, post, hmem, -⟩ := id hm
    obtain ⟨t, ht, rfl⟩ := F.linked m (by rw [hmem]; simp) op ho
    rw [S.precision t ht]
    exact F.holds m hm t ht ho
  · obtain ⟨⟨h1, h2⟩, -, -⟩ := attr_facts F.attr
    rw [S.mapping]
    refine ⟨?_, ?_⟩
    · unfold Dict.WF Dict.keys
      rw [List.map_map]
      exact h1
    · intro e he
      obtain ⟨x, hx, rfl⟩ := List.mem_map.1 he
      unfold Dict.WF Dict.keys
      simp only
      rw [List.map_map]
      have := List.Nodup.map toList_inj (show (x.2.map Prod.fst).Nodup from h2 x hx)
      rw [List.map_map] at this
      exact this
  · intro e he x hx
    rw [S.mapping] at he
    obtain ⟨y, hy, rfl⟩ := List.mem_map.1 he
    obtain ⟨z, hz, rfl⟩ := List.mem_map.1 hx
    exact ⟨z.2, (F.user y hy).2 z hz, rfl⟩
  · intro oa ho
    rw [S.mapping] at ho
    obtain ⟨e, he, rfl⟩ := List.mem_map.1 ho
    obtain ⟨y, hy, rfl⟩ := List.mem_map.1 he
    exact (F.user y hy).1
  · obtain ⟨-, ⟨h1, h2⟩, -⟩ := attr_facts F.attr
    rw [S.hints]
    refine ⟨?_, ?_⟩
    · unfold Dict.WF Dict.keys
      rw [List.map_map]
      exact h1
    · intro oa h hg
      obtain ⟨y, hy, he⟩ := List.mem_map.1 (Dict.mem_of_get? hg)
      cases he
      exact (h2 y hy).map toList_inj
  · intro e he
    rw [S.order] at he
    obtain ⟨x, hx, rfl⟩ := List.mem_map.1 he
    obtain ⟨h1, h2⟩ := List.mem_filter.1 hx
    show x.2.map Int.toNat = none
    rw [(F.order x h1 (by simpa using h2)).2]
    rfl

/-- The operations of the layer are those that are written. -/
theorem node_operations {A : AccD String} {w : Written} (F : LayerFits A w) {lo : LayerOptions} {n : Node String Text} (S : NodeSays lo w n) :
    Whole.operations n.layer = w.operations := by
  unfold Whole.operations LayerIn.sizes Written.operations
  rw [S.sizes, List.map_map]
  have hl : (w.layer.loopDims.map upper).length = w.layer.loopSizes.length := by simp [F.good.lens]
  generalize w.layer.loopDims.map upper = ks at hl ⊢
  generalize w.layer.loopSizes = vs at hl ⊢
  congr 1
  induction ks generalizing vs with
  | nil =>
    cases vs with
    | nil => rfl
    | cons => simp at hl
  | cons k ks ih =>
    cases vs with
    | nil => simp at hl
    | cons v vs =>
      simp only [List.map_cons, List.zip_cons_cons, Function.comp_apply, Rat.num_intCast]
      rw [ih vs (by simpa using hl)]

end Verif.Call
