import Verif.LocalCall.Layers
import Verif.Reuse.Props

/-! C169: a whole call on the contents of the three files in which data stay in lower memories between layers. -/

namespace Verif.LocalCall

open Call (Written NodeSays LayerFits FilesSay SourcesKnown AccSays dimsOf LayerOptions nodeName nodesOf entryOf idCode idCode_inj nodes_built nodeName_eq chosen_iff)
open Equation (Text Term)
open Evaluate (Separate)
open Files (Doc MapR)
open Latency (Operand)
open LayerBuild (validate)
open Net (Node NodeOk FileOk OptionsOk Known)
open Ports (MemD)
open Reuse (LNode Graph Fits plan reduced levelFor)
open Whole (AccD)

variable {cacti : String → String → Int → Int → Except PyErr (ℚ × ℚ × ℚ)} {eqn : List Char → Bool} {rel : List Char → Option LayerBuild.RelD}
variable {fact : Nat → List (Nat × Nat)} {lo : LayerOptions} {o : Net.Options String Text} {da dw dm : Doc} {A : AccD String} {ws : List Written}

/-! ### The workload -/

/-- The workload that is read from the files. -/
theorem parsed_ok (S : FilesSay eqn rel dw dm ws) (K : SourcesKnown ws) (L : ∀ w ∈ ws, LayerFits A w) (hid : (ws.map fun w => w.layer.id).Nodup) (lo : LayerOptions) :
    ∃ ms ns g order, workload eqn rel lo dw dm = .ok ⟨ws.map fun w => (w.name, w.operator, w.layer), ms, ns, g, order⟩ ∧
      (∀ w ∈ ws, validate w.layer = .ok true ∧ Links.choose (nodeName w.name w.layer.id) w.operator (ms.map fun m => (m.name, m)) = .ok (w.entry.name, w.entry)) ∧
      List.Forall₂ (fun w n => NodeSays lo w n ∧ ∃ rl, NodeOk A n rl w.rels) ws ns ∧ order.Perm (List.range ws.length) ∧
      (∀ pre v post, order = pre ++ v :: post → ∀ u, (u, v) ∈ g.edges → u ∈ pre) ∧ ∀ i j, (i, j) ∈ g.edges ↔ Feeds ws i j := by
  obtain ⟨ms, hms, hch'⟩ := S.entries
  have hch : ∀ w ∈ ws, Links.choose (nodeName w.name w.layer.id) w.operator (ms.map fun m => (m.name, m)) = .ok (w.entry.name, w.entry) := fun w hw => by
    rw [nodeName_eq]
    exact chosen_iff.1 (hch' w hw)
  have hv : ∀ w ∈ ws, validate w.layer = .ok true := by
    obtain ⟨es, -, -, -, hv⟩ := (Files.layers_ok_iff eqn rel dw _).1 S.layers
    intro w hw
    exact hv _ (List.mem_map.2 ⟨w, hw, rfl⟩)
  obtain ⟨ns, hns, hf⟩ := nodes_built (lo := lo) ms ws L hv hch
  set es := (ws.map fun w => (w.name, w.operator, w.layer)).map fun y => entryOf y.2.2 with hes
  have hget : ∀ j : Nat, es[j]? = (ws[j]?).map fun w : Written => entryOf w.layer := by
    intro j
    rw [hes, List.map_map, List.getElem?_map]
    rfl
  have hlen : es.length = ws.length := by rw [hes]; simp
  have hsame : ∀ (i j : Nat) (v w : Written), ws[i]? = some v → ws[j]? = some w → v.layer.id = w.layer.id → i = j := by
    intro i j v w h1 h2 h
    obtain ⟨k1, rfl⟩ := List.getElem?_eq_some_iff.1 h1
    obtain ⟨k2, rfl⟩ := List.getElem?_eq_some_iff.1 h2
    have := hid.getElem_inj_iff (i := i) (j := j) (hi := by simpa using k1) (hj := by simpa using k2)
    simp only [List.getElem_map] at this
    exact this.1 h
  have hdnn : ∃ g, Workload.dnn es = .ok g := by
    rw [(Workload.dnn_ok_iff es).1]
    intro j e he s hs
    rw [hget] at he
    obtain ⟨w, hw, rfl⟩ := Option.map_eq_some_iff.1 he
    obtain ⟨x, hx, rfl⟩ := List.mem_map.1 hs
    rcases K j w hw x hx with h | ⟨i, hi, v, hv, h⟩
    · exact Or.inl (by show idCode x.2 = idCode w.layer.id; rw [h])
    · refine Or.inr ⟨i, hi, entryOf v.layer, ?_, by show idCode v.layer.id = idCode x.2; rw [h]⟩
      rw [hget, hv]
      rfl
  obtain ⟨g, hg⟩ := hdnn
  obtain ⟨-, order, ho, hperm, hafter⟩ := Workload.dnn_schedule hg fun _ => false
  obtain ⟨-, -, hedges⟩ := Workload.dnn_edges hg
  have hids : ∀ k : Nat, (es.map Workload.Entry.id)[k]? = (ws[k]?).map fun w => idCode w.layer.id := by
    intro k
    rw [List.getElem?_map, hget, Option.map_map]
    rfl
  refine ⟨ms, ns, g, order, ?_, fun w hw => ⟨hv w hw, hch w hw⟩, hf, ?_, ?_, ?_⟩
  · unfold workload
    rw [S.layers]
    simp only
    rw [hms]
    simp only
    rw [hns]
    simp only
    rw [← hes, hg]
    simp only
    rw [ho]
  · rw [hlen] at hperm
    simpa using hperm
  · intro pre v post hs u he
    rcases hafter pre v post hs u he with h | h
    · cases h
    · exact h
  · intro i j
    rw [hedges]
    constructor
    · rintro ⟨e, he, s, hs, hne, hi, hv', -⟩
      rw [hget] at he
      obtain ⟨w, hw, rfl⟩ := Option.map_eq_some_iff.1 he
      obtain ⟨x, hx, rfl⟩ := List.mem_map.1 hs
      rw [hids] at hv'
      obtain ⟨v, hv, hvid⟩ := Option.map_eq_some_iff.1 hv'
      exact ⟨v, w, hv, hw, by omega, x, hx, (idCode_inj hvid).symm⟩
    · rintro ⟨v, w, h1, h2, hij, x, hx, hxv⟩
      have hne : x.2 ≠ w.layer.id := fun h => hij (hsame i j v w h1 h2 (by rw [← hxv, h]))
      refine ⟨entryOf w.layer, by rw [hget, h2]; rfl, idCode x.2, List.mem_map.2 ⟨x, hx, rfl⟩, fun h => hne (idCode_inj h), ?_, ?_, ?_⟩
      · rcases K j w h2 x hx with h | ⟨i', hi', v', hv', h'⟩
        · exact absurd h hne
        · have := hsame i i' v v' h1 hv' (by rw [h', hxv])
          omega
      · rw [hids, h1, hxv]
        rfl
      · intro k hik hkj h
        rw [hids] at h
        obtain ⟨u, hu, huid⟩ := Option.map_eq_some_iff.1 h
        have := hsame i k v u h1 hu (by rw [idCode_inj huid, hxv])
        omega

theorem picked_ids {l : List (LNode String Text)} (hl : ∀ (i : Nat) (n : LNode String Text), l[i]? = some n → n.id = i) :
    ∀ order : List Nat, (∀ i ∈ order, i < l.length) → (order.filterMap fun i => l[i]?).map LNode.id = order
  | [], _ => rfl
  | i :: t, h => by
    have hi := h i List.mem_cons_self
    rw [List.filterMap_cons, List.getElem?_eq_getElem hi]
    simp only [List.map_cons]
    rw [picked_ids hl t fun j hj => h j (List.mem_cons_of_mem _ hj), hl i _ (List.getElem?_eq_getElem hi)]

/-- C169: the layers, the edges and the roles of operands that the stages for locality get are those of the files. -/
theorem prepared (S : FilesSay eqn rel dw dm ws) (K : SourcesKnown ws) (L : ∀ w ∈ ws, LayerFits A w) (B : ∀ w ∈ ws, Both A w) (hid : (ws.map fun w => w.layer.id).Nodup)
    (hne : ws ≠ []) (lo : LayerOptions) (adapt : Entry → Node String Text → Node String Text) :
    ∃ p g nodes, workload eqn rel lo dw dm = .ok p ∧ prepare adapt p = .ok (g, nodes) ∧ NetSays lo adapt ws g nodes ∧
      ∀ n ∈ nodes, ∃ w ∈ ws, ∃ m rl, NodeSays lo w m ∧ NodeOk A m rl w.rels ∧ n.node = adapt (w.name, w.operator, w.layer) m ∧ ws[n.id]? = some w := by
  obtain ⟨ms, ns, g, order, h1, h2, h3, h4, h5, h6⟩ := parsed_ok (A := A) S K L hid lo
  obtain ⟨l, e1, e2, e3⟩ := lnodes_ok (A := A) adapt ms ws ns 0 (fun w hw => ⟨L w hw, B w hw, h2 w hw⟩) h3
  cases l with
  | nil => exact absurd (List.length_eq_zero_iff.1 e2.symm) hne
  | cons root t =>
    have hl : ∀ (i : Nat) (n : LNode String Text), (root :: t)[i]? = some n → n.id = i := fun i n hn => by rw [(e3 i n hn).1]; omega
    have hseen : ∀ (i : Nat) (n : LNode String Text), (root :: t)[i]? = some n → Seen lo adapt ws n := by
      intro i n hn
      obtain ⟨f1, f2, w, m, f3, f4, -, f5, f6, f7⟩ := e3 i n hn
      exact ⟨f2, w, m, by rw [f1, Nat.zero_add]; exact f3, f4, f5, f6, f7⟩
    have hmap : (order.filterMap fun i => (root :: t)[i]?).map LNode.id = order :=
      picked_ids hl order fun i hi => by rw [e2]; exact List.mem_range.1 (h4.mem_iff.1 hi)
    have hpred : ∀ u v, u ∈ (graphOf g root).pred v ↔ Feeds ws u v := by
      intro u v
      rw [← h6]
      simp [graphOf]
    have hsucc : ∀ u v, v ∈ (graphOf g root).succ u ↔ Feeds ws u v := by
      intro u v
      rw [← h6]
      simp [graphOf]
    refine ⟨_, graphOf g root, order.filterMap fun i => (root :: t)[i]?, h1, ?_, ⟨?_, ?_, ?_, hpred, hsucc, ?_⟩, ?_⟩
    · unfold prepare
      simp only
      rw [if_neg (not_not.2 (by rw [List.map_map]; exact hid)), e1]
    · rw [hmap]
      exact h4
    · intro n hn
      obtain ⟨i, -, hi⟩ := List.mem_filterMap.1 hn
      exact hseen i n hi
    · exact ⟨hseen 0 root rfl, hl 0 root rfl⟩
    · intro pre n post hs u hu
      rw [hs, List.map_append, List.map_cons] at hmap
      have := h5 _ _ _ hmap.symm u ((h6 _ _).2 hu)
      obtain ⟨x, hx, hxu⟩ := List.mem_map.1 this
      exact ⟨x, hx, hxu⟩
    · intro n hn
      obtain ⟨i, -, hi⟩ := List.mem_filterMap.1 hn
      obtain ⟨f1, -, w, m, f3, f4, ⟨rl, f5⟩, f6, -⟩ := e3 i n hi
      exact ⟨w, List.mem_of_getElem? f3, m, rl, f4, f5, f6, by rw [f1, Nat.zero_add]; exact f3⟩

/-- A network of the files is one that the stages for locality can deal with. -/
theorem fits (X : AccFits A) (L : ∀ w ∈ ws, LayerFits A w) (B : ∀ w ∈ ws, Both A w) {adapt : Entry → Node String Text → Node String Text}
    {g : Graph String Text} {nodes : List (LNode String Text)} (N : NetSays lo adapt ws g nodes) :
    Fits A g nodes .in1 .in2 := by
  have hnd : nodes.filter (fun n => !n.dummy) = nodes := List.filter_eq_self.2 fun n hn => by simp [(N.seen n hn).dummy]
  have hroles : ∀ n, Seen lo adapt ws n → (n.act = .in1 ∧ n.weight = .in2) ∨ (n.act = .in2 ∧ n.weight = .in1) := by
    intro n hn
    obtain ⟨w, m, f1, -, -, ⟨a, b, f2, f3, f4⟩, -⟩ := hn.layer
    rw [f3, f4]
    exact (told_links (L w (List.mem_of_getElem? f1)) f2).2.2
  refine ⟨fun n hn _ => hroles n (N.seen n hn), ?_, .inr ?_, ⟨by decide, by decide, by decide⟩, ?_, ?_, ?_, ?_, fun u v => (N.succ u v).trans (N.pred u v).symm,
    fun n hn _ => (N.seen n hn).dummy, ?_⟩
  · rcases hroles _ N.root.1 with ⟨h1, h2⟩ | ⟨h1, h2⟩
    · exact ⟨.inl h1, .inr h2⟩
    · exact ⟨.inr h1, .inl h2⟩
  · intro i m hm op hop hc
    rcases hc with ⟨h1, n, hn, -, h3, h4⟩ | ⟨h1, h2⟩
    · obtain ⟨w, x, f1, -, -, ⟨a, b, f2, f3, f4⟩, f5⟩ := (N.seen n hn).layer
      have hw := List.mem_of_getElem? f1
      rcases hop with rfl | rfl
      · rcases (B w hw).weights with hb | hb
        · exact hb i m hm h1
        · have := hb a b f2 (by
            by_contra hno
            rw [f5.2 (fun c hc => hno ⟨c, hc⟩)] at h3
            cases h3)
          rw [← f4, h4] at this
          cases this
      · exact X.weights i m hm h1
    · rcases hop with rfl | rfl
      · exact (X.inputs i m hm h1 h2).1
      · exact (X.inputs i m hm h1 h2).2
  · intro m hm
    refine ⟨X.distinct m hm, fun op _ => ?_⟩
    cases op
    · exact .inl rfl
    · exact .inr (.inl rfl)
    · exact .inr (.inr rfl)
  · obtain ⟨m, h1, h2⟩ := X.top
    exact ⟨m, h1, h2 _, h2 _, h2 _⟩
  · rw [hnd]
    exact N.all.nodup_iff.2 List.nodup_range
  · rw [hnd]
    intro pre n post hs p hp
    exact N.after pre n post hs p ((N.pred p n.id).1 hp)
  · intro n _ _ op _
    cases op
    · exact .inl rfl
    · exact .inr (.inl rfl)
    · exact .inr (.inr rfl)

theorem layer_ok {w : Written} (F : LayerFits A w) (B : Both A w) {m : Node String Text} {rl : Operand → List Text} (S : NodeSays lo w m) (hn : NodeOk A m rl w.rels)
    {n : LNode String Text} (h : n.node = m) : Reuse.LayerOk A n rl w.rels := by
  have key : ∀ x ∈ A.mems, ∀ op ∈ x.operands, ∃ t ∈ w.eqn.terms, w.link t.name = op ∧ (n.node.layer.precision op : Int) = w.precision t.name ∧
      (op = .out ↔ t.name = w.eqn.out.name) := by
    intro x hx op hop
    obtain ⟨t, ht, rfl⟩ := F.linked x hx op hop
    have ho : w.eqn.out ∈ w.eqn.terms := by rw [Equation.Eqn.terms]; exact List.mem_cons_self
    refine ⟨t, ht, rfl, by rw [h]; exact S.precision t ht, fun e => Call.link_inj F ht ho (by rw [e, F.out]), fun e => by rw [e, F.out]⟩
  refine ⟨by rw [h]; exact hn, ?_, ?_⟩
  · intro x hx op hop p hp hal
    obtain ⟨t, ht, rfl, h2, h3⟩ := key x hx op hop
    rw [h2]
    refine B.delivers x hx t ht hop p hp ?_
    by_cases e : w.link t.name = .out
    · rw [if_pos (h3.1 e)]
      rw [if_pos e] at hal
      exact hal
    · rw [if_neg fun e' => e (h3.2 e')]
      rw [if_neg e] at hal
      exact hal
  · intro x hx op hop
    obtain ⟨t, ht, rfl, h2, -⟩ := key x hx op hop
    rw [h2]
    exact B.holds x hx t ht hop

/-! ### The call -/

theorem call_eq (hA : AccSays cacti da A) (F : FileOk A) {p : Parsed} {g : Graph String Text} {nodes : List (LNode String Text)} (hw : workload eqn rel lo dw dm = .ok p)
    (hp : prepare (fun _ n => n) p = .ok (g, nodes)) (opt : String) (hk : Known opt) (fuel : Nat) :
    call cacti eqn rel fact lo o opt da dw dm fuel = Reuse.network (fun _ => (0, 0)) fact A o opt g nodes fuel := by
  have : ∃ x, Pipeline.Opt.parse opt = .ok x := by
    rcases hk with rfl | rfl | rfl <;> exact ⟨_, rfl⟩
  obtain ⟨x, hx⟩ := this
  obtain ⟨c, hc, -⟩ := Whole.accelerator_ok (cacti := fun _ => (0, 0)) F.acc
  unfold call
  rw [hx]
  simp only
  rw [hw]
  simp only
  rw [Call.accelerator_written hA F]
  simp only
  rw [hc]
  simp only
  rw [hp]

theorem call_known {opt : String} {fuel : Nat} {ans : Reuse.Reply String Text} (h : call cacti eqn rel fact lo o opt da dw dm fuel = .ok ans) : Known opt := by
  unfold Known
  by_contra hk
  push Not at hk
  unfold call Pipeline.Opt.parse at h
  rw [if_neg hk.1, if_neg hk.2.1, if_neg hk.2.2] at h
  cases h

theorem call_empty (A : AccD String) (S : FilesSay eqn rel dw dm []) {opt : String} {fuel : Nat} {ans : Reuse.Reply String Text}
    (h : call cacti eqn rel fact lo o opt da dw dm fuel = .ok ans) : False := by
  obtain ⟨ms, ns, g, order, h1, -, h3, -⟩ := parsed_ok (A := A) S (by intro j w hw; simp at hw) (by simp) (by simp) lo
  cases h3
  unfold call at h
  split at h
  · cases h
  · rw [h1] at h
    simp only at h
    split at h
    · cases h
    · split at h
      · cases h
      · simp only [prepare, List.map_nil, List.zip_nil_left, lnodesOf, List.nodup_nil, not_true_eq_false, if_false] at h
        cases h

/-- C169: bounds from the files alone, for networks of layers of any kind: the units of the array times the reported latency are at least the operations of all written
layers, if no two movements of a port happen exactly once in the evaluations; and if no written cost is negative the reported energy is at least the energy of all
multiplications. -/
theorem local_bounds (hA : AccSays cacti da A) (F : FileOk A) (X : AccFits A) (S : FilesSay eqn rel dw dm ws) (K : SourcesKnown ws) (L : ∀ w ∈ ws, LayerFits A w)
    (B : ∀ w ∈ ws, Both A w) (hid : (ws.map fun w => w.layer.id).Nodup) (O : OptionsOk o) (hf : Lpf.FactContract fact) (lo : LayerOptions) :
    ∃ N, ∀ fuel, N ≤ fuel → ∀ opt ans, call cacti eqn rel fact lo o opt da dw dm fuel = .ok ans →
      ((∀ g nodes s, NetSays lo (fun _ n => n) ws g nodes → plan A g nodes = .ok s → ∀ n ∈ nodes, ∀ b, reduced (fun _ => (0, 0)) A s n = .ok b →
          ∀ c, Whole.accelerator (fun _ => (0, 0)) b = .ok c → ∀ sms, Net.spatialMappings o b n.node = .ok sms → ∀ sm ∈ sms, ∀ evals err,
          Whole.run (fun _ => (0, 0)) fact b n.node.layer sm o.limit fuel = some (evals, err) → ∀ e ∈ evals, Separate c.hw e.1) →
        (((ws.map Written.operations).sum : ℕ) : ℚ) ≤ ((A.sizes.map Prod.snd).prod : ℕ) * ans.latency) ∧
      ((∀ m ∈ A.mems, 0 ≤ m.rCost.getD 0 ∧ 0 ≤ m.wCost.getD 0) → A.macEnergy * ((ws.map Written.operations).sum : ℕ) ≤ ans.energy) := by
  by_cases hne : ws = []
  · subst hne
    exact ⟨0, fun fuel _ opt ans hans => (call_empty A S hans).elim⟩
  obtain ⟨p, g, nodes, h1, h2, N, h3⟩ := prepared (A := A) S K L B hid hne lo fun _ n => n
  have U := fits X L B N
  have hn : ∀ n ∈ nodes, n.node.skip = false → ∃ rl rels, Reuse.LayerOk A n rl rels := by
    intro n hn _
    obtain ⟨w, hw, m, rl, k1, k2, k3, -⟩ := h3 n hn
    exact ⟨rl, w.rels, layer_ok (L w hw) (B w hw) k1 k2 k3⟩
  have hskip : ∀ n ∈ nodes, n.node.skip = false := by
    intro n hn
    obtain ⟨w, hw, m, rl, k1, k2, k3, -⟩ := h3 n hn
    rw [k3]
    exact k1.skip
  have hfil : nodes.filter (fun n => !n.node.skip) = nodes := List.filter_eq_self.2 fun n hn => by simp [hskip n hn]
  have hcyc : ∀ n ∈ nodes, n.node.layer.cyclesPerOp = 1 := by
    intro n hn
    obtain ⟨w, hw, m, rl, k1, k2, k3, -⟩ := h3 n hn
    rw [k3]
    exact k1.cycles
  have hops : ∀ n ∈ nodes, Whole.operations n.node.layer = ((ws[n.id]?).map Written.operations).getD 0 := by
    intro n hn
    obtain ⟨w, hw, m, rl, k1, k2, k3, k4⟩ := h3 n hn
    rw [k4, k3]
    exact Call.node_operations (L w hw) k1
  have hsum : (nodes.map fun n => Whole.operations n.node.layer).sum = (ws.map Written.operations).sum := by
    have e1 : (nodes.map fun n => Whole.operations n.node.layer) = (nodes.map LNode.id).map fun i => ((ws[i]?).map Written.operations).getD 0 := by
      rw [List.map_map]
      exact List.map_congr_left hops
    rw [e1, (N.all.map _).sum_eq]
    congr 1
    refine List.ext_getElem? fun i => ?_
    rw [List.getElem?_map, List.getElem?_map]
    by_cases hi : i < ws.length
    · rw [List.getElem?_range hi]
      simp [List.getElem?_eq_getElem hi]
    · rw [List.getElem?_eq_none (by simpa using hi), List.getElem?_eq_none (by omega)]
      rfl
  obtain ⟨M, hM⟩ := Reuse.call_bounds (cacti := fun _ => (0, 0)) F X.stacked O hf U hn
  refine ⟨M, fun fuel hfu opt ans hans => ?_⟩
  rw [call_eq hA F h1 h2 opt (call_known hans) fuel] at hans
  obtain ⟨k1, k2⟩ := hM fuel hfu opt ans hans
  rw [hfil] at k1 k2
  have hcast : ∀ l : List (LNode String Text), (l.map fun n => ((Whole.operations n.node.layer : ℕ) : ℚ)).sum = (((l.map fun n => Whole.operations n.node.layer).sum : ℕ) : ℚ) := by
    intro l
    induction l with
    | nil => simp
    | cons x t ih => simp only [List.map_cons, List.sum_cons, ih]; push_cast; ring
  constructor
  · intro hs
    have := k1 fun s hps n hnn _ => hs g nodes s N hps n hnn
    have hmap : (nodes.map fun n => ((Whole.operations n.node.layer : ℕ) * n.node.layer.cyclesPerOp : ℚ)) = nodes.map fun n => ((Whole.operations n.node.layer : ℕ) : ℚ) :=
      List.map_congr_left fun n hn => by rw [hcyc n hn]; norm_num
    rw [hmap, hcast, hsum] at this
    exact this
  · intro hp
    have hauto : ∀ m ∈ A.mems, m.auto = false := by
      obtain ⟨a, -, -, -, -, -, -, hms⟩ := hA.read
      intro m hm
      obtain ⟨e, -, h⟩ := Files.forall2_right hms m hm
      exact h.auto
    have := k2 fun m hm => by
      unfold Whole.prices
      rw [hauto m hm]
      exact hp m hm
    have hmap : (nodes.map fun n => A.macEnergy * (Whole.operations n.node.layer : ℕ)).sum = A.macEnergy * (nodes.map fun n => ((Whole.operations n.node.layer : ℕ) : ℚ)).sum :=
      List.sum_map_mul_left _ _ _
    rw [hmap, hcast, hsum] at this
    exact this

/-- C169: the search for the memories of data is made on the layers and edges of the files; if it raises an exception the call raises it; if not, where a layer gives its
output to another one, both use the same memory for it, which stores outputs and that input; and the call has an answer exactly if the run of every generated spatial
mapping on the remaining memories ends without exception. -/
theorem local_outcome_partial (hA : AccSays cacti da A) (F : FileOk A) (X : AccFits A) (S : FilesSay eqn rel dw dm ws) (K : SourcesKnown ws) (L : ∀ w ∈ ws, LayerFits A w)
    (B : ∀ w ∈ ws, Both A w) (hid : (ws.map fun w => w.layer.id).Nodup) (hne : ws ≠ []) (O : OptionsOk o) (hf : Lpf.FactContract fact) (lo : LayerOptions) :
    ∃ g nodes, NetSays lo (fun _ n => n) ws g nodes ∧
      (∀ e, plan A g nodes = .error e → ∀ fuel opt, Known opt → call cacti eqn rel fact lo o opt da dw dm fuel = .error e) ∧
      ∀ s, plan A g nodes = .ok s →
        (∀ u ∈ nodes, ∀ v ∈ nodes, Feeds ws u.id v.id → ∃ (i : Nat) (m : MemD Operand String), A.mems[i]? = some m ∧ v.act ∈ m.operands ∧ .out ∈ m.operands ∧
          levelFor s u .out = some (i : Int) ∧ levelFor s v v.act = some (i : Int)) ∧
        ∃ N, ∀ fuel, N ≤ fuel → ∀ opt, Known opt →
          ((∃ ans, call cacti eqn rel fact lo o opt da dw dm fuel = .ok ans) ↔ ∀ n ∈ nodes, ∀ b, reduced (fun _ => (0, 0)) A s n = .ok b →
            ∀ sms, Net.spatialMappings o b n.node = .ok sms → ∀ sm ∈ sms, ∃ evals, Whole.run (fun _ => (0, 0)) fact b n.node.layer sm o.limit fuel = some (evals, none)) := by
  obtain ⟨p, g, nodes, h1, h2, N, h3⟩ := prepared (A := A) S K L B hid hne lo fun _ n => n
  have U := fits X L B N
  have hn : ∀ n ∈ nodes, n.node.skip = false → ∃ rl rels, Reuse.LayerOk A n rl rels := by
    intro n hn _
    obtain ⟨w, hw, m, rl, k1, k2, k3, -⟩ := h3 n hn
    exact ⟨rl, w.rels, layer_ok (L w hw) (B w hw) k1 k2 k3⟩
  have hskip : ∀ n ∈ nodes, n.node.skip = false := by
    intro n hn
    obtain ⟨w, hw, m, rl, k1, k2, k3, -⟩ := h3 n hn
    rw [k3]
    exact k1.skip
  refine ⟨g, nodes, N, fun e he fuel opt hk => ?_, fun s hs => ⟨fun u hu v hv hfe => ?_, ?_⟩⟩
  · rw [call_eq hA F h1 h2 opt hk fuel]
    obtain ⟨c, hc, -⟩ := Whole.accelerator_ok (cacti := fun _ => (0, 0)) F.acc
    unfold Reuse.network
    rw [hc]
    simp only
    rw [he]
  · exact Reuse.handed_over U hs hu hv (N.seen u hu).dummy (N.seen v hv).dummy ((N.pred _ _).2 hfe)
  · obtain ⟨M, hM⟩ := Reuse.call_outcome (cacti := fun _ => (0, 0)) F X.stacked O hf U hn hs
    refine ⟨M, fun fuel hfu opt hk => ?_⟩
    rw [call_eq hA F h1 h2 opt hk fuel, hM fuel hfu opt hk]
    exact ⟨fun h n hn => h n hn (hskip n hn), fun h n hn _ => h n hn⟩

end Verif.LocalCall
