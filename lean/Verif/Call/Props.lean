import Verif.Call.Acc
import Verif.Workload.Props

/-! C153: a whole call on the contents of the three files. -/

namespace Verif.Call

open Equation (Text)
open Evaluate (Job Result Separate)
open Files (Doc MapR)
open Latency (Operand)
open LayerBuild (LayerD)
open Net (Node NodeOk FileOk OptionsOk Known NoWorse spatialMappings)
open Ports (MemD)
open Whole (AccD run)

variable {cacti : String → String → Int → Int → Except PyErr (ℚ × ℚ × ℚ)} {eqn : List Char → Bool} {rel : List Char → Option LayerBuild.RelD}
variable {fact : Nat → List (Nat × Nat)} {lo : LayerOptions} {o : Net.Options String Text} {da dw dm : Doc} {A : AccD String} {ws : List Written}

/-! ### The layers in order -/

theorem idCode_inj {i j : Int} (h : idCode i = idCode j) : i = j := by
  unfold idCode at h
  split_ifs at h <;> omega

theorem nodes_built (ms : List MapR) : ∀ ws : List Written, (∀ w ∈ ws, LayerFits A w) → (∀ w ∈ ws, LayerBuild.validate w.layer = .ok true) →
    (∀ w ∈ ws, Links.choose (nodeName w.name w.layer.id) w.operator (ms.map fun m => (m.name, m)) = .ok (w.entry.name, w.entry)) →
    ∃ ns, nodesOf lo ms (ws.map fun w => (w.name, w.operator, w.layer)) = .ok ns ∧
      List.Forall₂ (fun w n => NodeSays lo w n ∧ ∃ rl, NodeOk A n rl w.rels) ws ns
  | [], _, _, _ => ⟨[], rfl, .nil⟩
  | w :: t, F, V, C => by
    obtain ⟨ns, h1, h2⟩ := nodes_built ms t (fun x hx => F x (List.mem_cons_of_mem _ hx)) (fun x hx => V x (List.mem_cons_of_mem _ hx))
      (fun x hx => C x (List.mem_cons_of_mem _ hx))
    obtain ⟨n, k1, k2, k3⟩ := node_built (F w List.mem_cons_self) (V w List.mem_cons_self) lo ms (C w List.mem_cons_self)
    refine ⟨n :: ns, ?_, .cons ⟨k2, node_ok (F w List.mem_cons_self) k2 k3⟩ h2⟩
    rw [List.map_cons, nodesOf, k1]
    simp only
    rw [h1]

theorem picked {α β : Type} {R : α → β → Prop} {l : List α} {m : List β} (h : List.Forall₂ R l m) : ∀ order : List Nat, (∀ i ∈ order, i < l.length) →
    ∃ l', l'.map some = order.map (fun i => l[i]?) ∧ List.Forall₂ R l' (order.filterMap fun i => m[i]?)
  | [], _ => ⟨[], rfl, .nil⟩
  | i :: t, hi => by
    obtain ⟨l', h1, h2⟩ := picked h t fun j hj => hi j (List.mem_cons_of_mem _ hj)
    have hl := hi i List.mem_cons_self
    have hm : i < m.length := by rw [← h.length_eq]; exact hl
    refine ⟨l[i] :: l', ?_, ?_⟩
    · rw [List.map_cons, List.map_cons, h1, List.getElem?_eq_getElem hl]
    · rw [List.filterMap_cons, List.getElem?_eq_getElem hm]
      exact .cons ((List.forall₂_iff_get.1 h).2 i hl hm) h2

/-- C153: the layers that the stages get are those that the workload file and the mapping file describe, each once and after the layers that its operands come from. -/
theorem workload_written (S : FilesSay eqn rel dw dm ws) (K : SourcesKnown ws) (L : ∀ w ∈ ws, LayerFits A w) (lo : LayerOptions) :
    ∃ nodes, workload eqn rel lo dw dm = .ok nodes ∧ ∃ ws', InOrder ws ws' ∧ List.Forall₂ (fun w n => NodeSays lo w n ∧ ∃ rl, NodeOk A n rl w.rels) ws' nodes := by
  obtain ⟨ms, hms, hch'⟩ := S.entries
  have hch : ∀ w ∈ ws, Links.choose (nodeName w.name w.layer.id) w.operator (ms.map fun m => (m.name, m)) = .ok (w.entry.name, w.entry) := fun w hw => by
    rw [nodeName_eq]
    exact chosen_iff.1 (hch' w hw)
  have hv : ∀ w ∈ ws, LayerBuild.validate w.layer = .ok true := by
    obtain ⟨es, -, -, -, hv⟩ := (Files.layers_ok_iff eqn rel dw _).1 S.layers
    intro w hw
    exact hv _ (List.mem_map.2 ⟨w, hw, rfl⟩)
  obtain ⟨ns, hns, hf⟩ := nodes_built (lo := lo) ms ws L hv hch
  set es := (ws.map fun w => (w.name, w.operator, w.layer)).map fun y => entryOf y.2.2 with hes
  have hget : ∀ j : Nat, es[j]? = (ws[j]?).map fun w : Written => entryOf w.layer := by
    intro j
    rw [hes, List.map_map, List.getElem?_map]
    rfl
  have hlen : es.length = ws.length := by rw [hes]; simp
  have hdnn : ∃ g, Workload.dnn es = .ok g := by
    rw [(Workload.dnn_ok_iff es).1]
    intro j e he s hs
    rw [hget] at he
    obtain ⟨w, hw, rfl⟩ := Option.map_eq_some_iff.1 he
    obtain ⟨x, hx, rfl⟩ := List.mem_map.1 hs
    rcases K j w hw x hx with h | ⟨i, hi, v, hv, h⟩
    · exact Or.inl (by show idCode x.2 = idCode w.layer.id; rw [h])
    · refine Or.inr ⟨i, hi, entryOf v.layer, ?_, by show idCode v.layer.id = idCode x.2; rw [h]⟩
      rw [hget, hv]
      rfl
  obtain ⟨g, hg⟩ := hdnn
  obtain ⟨-, order, ho, hperm, hafter⟩ := Workload.dnn_schedule hg fun _ => false
  obtain ⟨-, -, hedges⟩ := Workload.dnn_edges hg
  have hperm' : order.Perm (List.range ws.length) := by
    rw [hlen] at hperm
    simpa using hperm
  obtain ⟨ws', h1, h2⟩ := picked hf order fun i hi => List.mem_range.1 (hperm'.mem_iff.1 hi)
  refine ⟨order.filterMap fun i => ns[i]?, ?_, ws', ⟨order, hperm', h1, ?_⟩, h2⟩
  · unfold workload
    rw [S.layers]
    simp only
    rw [hms]
    simp only
    rw [hns]
    simp only
    rw [← hes, hg]
    simp only
    rw [ho]
  · intro pre j post hsplit w hw s hs hne
    have hids : ∀ k : Nat, (es.map Workload.Entry.id)[k]? = (ws[k]?).map fun w => idCode w.layer.id := by
      intro k
      rw [List.getElem?_map, hget, Option.map_map]
      rfl
    -- the last bearer exists
    have hex : ∃ i, Bearer ws j s.2 i := by
      rcases K j w hw s hs with h | ⟨i, hi, v, hv, hid⟩
      · exact absurd h hne
      · have : ∃ i, (i < j ∧ ∃ v, ws[i]? = some v ∧ v.layer.id = s.2) ∧ ∀ k, (k < j ∧ ∃ v, ws[k]? = some v ∧ v.layer.id = s.2) → k ≤ i := by
          classical
          have hP : ∃ n, n ≤ j ∧ (n < j ∧ ∃ v, ws[n]? = some v ∧ v.layer.id = s.2) := ⟨i, hi.le, hi, v, hv, hid⟩
          refine ⟨Nat.findGreatest (fun n => n < j ∧ ∃ v, ws[n]? = some v ∧ v.layer.id = s.2) j, ?_, ?_⟩
          · exact Nat.findGreatest_spec (P := fun n => n < j ∧ ∃ v, ws[n]? = some v ∧ v.layer.id = s.2) hi.le ⟨hi, v, hv, hid⟩
          · intro k hk
            exact Nat.le_findGreatest hk.1.le hk
        obtain ⟨i, ⟨hi, hv⟩, hmax⟩ := this
        refine ⟨i, hi, hv, fun k hik hkj v hv hid => ?_⟩
        have := hmax k ⟨hkj, v, hv, hid⟩
        omega
    obtain ⟨i, hi, ⟨v, hv', hid⟩, hlast⟩ := id hex
    refine ⟨i, ?_, hi, ⟨v, hv', hid⟩, hlast⟩
    have hedge : (i, j) ∈ g.edges := by
      rw [hedges]
      refine ⟨entryOf w.layer, by rw [hget, hw]; rfl, idCode s.2, List.mem_map.2 ⟨s, hs, rfl⟩, fun h => hne (idCode_inj h), hi, ?_, ?_⟩
      · rw [hids, hv', ← hid]
        rfl
      · intro k hik hkj h
        rw [hids] at h
        obtain ⟨u, hu, huid⟩ := Option.map_eq_some_iff.1 h
        exact hlast k hik hkj u hu (idCode_inj huid)
    rcases hafter pre j post hsplit i hedge with h | h
    · cases h
    · exact h

/-! ### The call -/

theorem call_eq (hA : AccSays cacti da A) (F : FileOk A) {nodes : List (Node String Text)} (hw : workload eqn rel lo dw dm = .ok nodes) (opt : String) (hk : Known opt)
    (fuel : Nat) : call cacti eqn rel fact lo o opt da dw dm fuel = Net.network (fun _ => (0, 0)) fact A o opt nodes fuel := by
  have : ∃ x, Pipeline.Opt.parse opt = .ok x := by
    rcases hk with rfl | rfl | rfl <;> exact ⟨_, rfl⟩
  obtain ⟨x, hx⟩ := this
  unfold call
  rw [hx]
  simp only
  rw [hw]
  simp only
  rw [accelerator_written hA F]

/-- C153: a call with another criterion than energy, latency and EDP raises an exception, whatever the files are. -/
theorem criterion_refused (cacti : String → String → Int → Int → Except PyErr (ℚ × ℚ × ℚ)) (eqn : List Char → Bool) (rel : List Char → Option LayerBuild.RelD)
    (fact : Nat → List (Nat × Nat)) (lo : LayerOptions) (o : Net.Options String Text) (opt : String) (da dw dm : Doc) (fuel : Nat) (h : ¬ Known opt) :
    call cacti eqn rel fact lo o opt da dw dm fuel = .error .notImplemented := by
  unfold Known at h
  push Not at h
  unfold call Pipeline.Opt.parse
  rw [if_neg h.1, if_neg h.2.1, if_neg h.2.2]

/-- C153: a call on three files that describe an accelerator and layers that fit together ends, with the best evaluation of every written layer, or with one of the
exceptions of the search (`Net.Stopped`); it has an answer exactly if the run of every generated spatial mapping ends without exception. -/
theorem call_partial (hA : AccSays cacti da A) (F : FileOk A) (S : FilesSay eqn rel dw dm ws) (K : SourcesKnown ws) (L : ∀ w ∈ ws, LayerFits A w) (O : OptionsOk o)
    (_ : o.mix = false) (hf : Lpf.FactContract fact) (lo : LayerOptions) :
    ∃ ws' nodes N, InOrder ws ws' ∧ List.Forall₂ (NodeSays lo) ws' nodes ∧ ∀ fuel, N ≤ fuel → ∀ opt, Known opt →
      ((∃ ans, call cacti eqn rel fact lo o opt da dw dm fuel = .ok ans) ∨ ∃ e, call cacti eqn rel fact lo o opt da dw dm fuel = .error e ∧ Net.Stopped nodes e) ∧
      ((∃ ans, call cacti eqn rel fact lo o opt da dw dm fuel = .ok ans) ↔ ∀ n ∈ nodes, ∀ sms, spatialMappings o A n = .ok sms → ∀ sm ∈ sms,
        ∃ evals, run (fun _ => (0, 0)) fact A n.layer sm o.limit fuel = some (evals, none)) ∧
      ∀ ans, call cacti eqn rel fact lo o opt da dw dm fuel = .ok ans → ∃ best : List (Job Text × Result),
        ans.energy = (best.map fun x => x.2.energy.total).sum ∧ ans.latency = (best.map fun x => x.2.overall.latency2).sum ∧
        List.Forall₂ (fun n x => ∃ sms, spatialMappings o A n = .ok sms ∧
          (∃ sm ∈ sms, ∃ evals, run (fun _ => (0, 0)) fact A n.layer sm o.limit fuel = some (evals, none) ∧ x ∈ evals) ∧
          ∀ sm ∈ sms, ∃ evals, run (fun _ => (0, 0)) fact A n.layer sm o.limit fuel = some (evals, none) ∧ ∀ e ∈ evals, NoWorse opt x.2 e.2) nodes best := by
  obtain ⟨nodes, hw, ws', hord, hall⟩ := workload_written (A := A) S K L lo
  have hskip : ∀ n ∈ nodes, n.skip = false := by
    intro n hn
    obtain ⟨w, -, h, -⟩ := Files.forall2_right hall n hn
    exact h.skip
  have hn : ∀ n ∈ nodes, n.skip = false → ∃ rl rels, NodeOk A n rl rels := by
    intro n hn _
    obtain ⟨w, -, -, rl, h⟩ := Files.forall2_right hall n hn
    exact ⟨rl, _, h⟩
  obtain ⟨N1, h1⟩ := Net.network_partial (cacti := fun _ => (0, 0)) F O hf hn
  obtain ⟨N2, h2⟩ := Net.network_answer (cacti := fun _ => (0, 0)) F O hf hn
  refine ⟨ws', nodes, max N1 N2, hord, Files.forall2_imp (fun _ _ h => h.1) hall, fun fuel hfu opt hopt => ?_⟩
  rw [call_eq hA F hw opt hopt fuel]
  obtain ⟨k1, k2⟩ := h1 fuel (le_of_max_le_left hfu) opt hopt
  refine ⟨k1, ?_, fun ans hans => ?_⟩
  · rw [k2]
    exact ⟨fun h n hn => h n hn (hskip n hn), fun h n hn _ => h n hn⟩
  · obtain ⟨best, b1, b2, b3, b4⟩ := h2 fuel (le_of_max_le_right hfu) opt ans hans
    refine ⟨best.map Prod.snd, by rw [b2, List.map_map]; rfl, by rw [b3, List.map_map]; rfl, ?_⟩
    have : nodes.filter (fun n => !n.skip) = nodes := List.filter_eq_self.2 fun n hn => by simp [hskip n hn]
    rw [this] at b1
    rw [← b1, List.forall₂_map_left_iff, List.forall₂_map_right_iff]
    exact List.forall₂_same.2 fun x hx => b4 x hx

theorem inOrder_perm {ws ws' : List Written} (h : InOrder ws ws') : ws'.Perm ws := by
  obtain ⟨order, hp, hm, -⟩ := h
  have h1 : (ws'.map some).Perm (ws.map some) := by
    rw [hm]
    refine (hp.map _).trans (List.Perm.of_eq ?_)
    refine List.ext_getElem? fun i => ?_
    rw [List.getElem?_map, List.getElem?_map]
    by_cases hi : i < ws.length
    · rw [List.getElem?_range hi, List.getElem?_eq_getElem hi]
      simp [List.getElem?_eq_getElem hi]
    · rw [List.getElem?_eq_none (by simpa using hi), List.getElem?_eq_none (by omega)]
      rfl
  have := h1.filterMap id
  simpa using this

/-- C153: bounds from the files alone: the units of the array times the reported latency are at least the operations of all written layers, if no two movements of a port
happen exactly once in the evaluations; and if no written cost is negative the reported energy is at least the energy of all multiplications. -/
theorem call_bounds (hA : AccSays cacti da A) (F : FileOk A) (S : FilesSay eqn rel dw dm ws) (K : SourcesKnown ws) (L : ∀ w ∈ ws, LayerFits A w) (O : OptionsOk o)
    (_ : o.mix = false) (hf : Lpf.FactContract fact) (lo : LayerOptions) :
    ∃ N, ∀ fuel, N ≤ fuel → ∀ opt ans, call cacti eqn rel fact lo o opt da dw dm fuel = .ok ans →
      ((∀ c nodes, Whole.accelerator (fun _ => (0, 0)) A = .ok c → workload eqn rel lo dw dm = .ok nodes → ∀ n ∈ nodes, ∀ sms, spatialMappings o A n = .ok sms →
          ∀ sm ∈ sms, ∀ evals err, run (fun _ => (0, 0)) fact A n.layer sm o.limit fuel = some (evals, err) → ∀ e ∈ evals, Separate c.hw e.1) →
        (((ws.map Written.operations).sum : ℕ) : ℚ) ≤ ((A.sizes.map Prod.snd).prod : ℕ) * ans.latency) ∧
      ((∀ m ∈ A.mems, 0 ≤ m.rCost.getD 0 ∧ 0 ≤ m.wCost.getD 0) → A.macEnergy * ((ws.map Written.operations).sum : ℕ) ≤ ans.energy) := by
  obtain ⟨nodes, hw, ws', hord, hall⟩ := workload_written (A := A) S K L lo
  have hskip : ∀ n ∈ nodes, n.skip = false := by
    intro n hn
    obtain ⟨w, -, h, -⟩ := Files.forall2_right hall n hn
    exact h.skip
  have hn : ∀ n ∈ nodes, n.skip = false → ∃ rl rels, NodeOk A n rl rels := by
    intro n hn _
    obtain ⟨w, -, -, rl, h⟩ := Files.forall2_right hall n hn
    exact ⟨rl, _, h⟩
  have hfil : nodes.filter (fun n => !n.skip) = nodes := List.filter_eq_self.2 fun n hn => by simp [hskip n hn]
  have hperm := inOrder_perm hord
  have hops : nodes.map (fun n => Whole.operations n.layer) = ws'.map Written.operations := by
    refine forall₂_map_eq ?_
    have hmem : ∀ w ∈ ws', w ∈ ws := fun w hw => hperm.mem_iff.1 hw
    clear hord hperm hfil hn hskip hw
    induction hall with
    | nil => exact .nil
    | cons h1 _ ih =>
      exact .cons (node_operations (L _ (hmem _ List.mem_cons_self)) h1.1) (ih fun w hw => hmem w (List.mem_cons_of_mem _ hw))
  have hcyc : ∀ n ∈ nodes, n.layer.cyclesPerOp = 1 := by
    intro n hn
    obtain ⟨w, -, h, -⟩ := Files.forall2_right hall n hn
    exact h.cycles
  have hsum : (nodes.map fun n => Whole.operations n.layer).sum = (ws.map Written.operations).sum := by
    rw [hops]
    exact (hperm.map _).sum_eq
  obtain ⟨N, hN⟩ := Net.network_bounds (cacti := fun _ => (0, 0)) F O hf hn
  obtain ⟨c, hc, -⟩ := Whole.accelerator_ok (cacti := fun _ => (0, 0)) F.acc
  refine ⟨N, fun fuel hfu opt ans hans => ?_⟩
  have hk : Known opt := by
    by_contra h
    rw [criterion_refused _ _ _ _ _ _ _ _ _ _ _ h] at hans
    cases hans
  rw [call_eq hA F hw opt hk fuel] at hans
  obtain ⟨k1, k2⟩ := hN fuel hfu opt ans hans
  rw [hfil] at k1 k2
  have hcast : ∀ l : List (Node String Text), (l.map fun n => ((Whole.operations n.layer : ℕ) : ℚ)).sum = (((l.map fun n => Whole.operations n.layer).sum : ℕ) : ℚ) := by
    intro l
    induction l with
    | nil => simp
    | cons x t ih => simp only [List.map_cons, List.sum_cons, ih]; push_cast; ring
  constructor
  · intro hs
    have := k1 fun c' hc' n hn _ => hs c' nodes hc' hw n hn
    have hmap : (nodes.map fun n => ((Whole.operations n.layer : ℕ) * n.layer.cyclesPerOp : ℚ)) = nodes.map fun n => ((Whole.operations n.layer : ℕ) : ℚ) :=
      List.map_congr_left fun n hn => by rw [hcyc n hn]; norm_num
    rw [hmap, hcast, hsum] at this
    exact this
  · intro hp
    have hauto : ∀ m ∈ A.mems, m.auto = false := by
      obtain ⟨a, -, -, -, -, -, -, hms⟩ := hA.read
      intro m hm
      obtain ⟨e, -, h⟩ := Files.forall2_right hms m hm
      exact h.auto
    have := k2 fun m hm => by
      unfold Whole.prices
      rw [hauto m hm]
      exact hp m hm
    have hmap : (nodes.map fun n => A.macEnergy * (Whole.operations n.layer : ℕ)).sum = A.macEnergy * (nodes.map fun n => ((Whole.operations n.layer : ℕ) : ℚ)).sum :=
      List.sum_map_mul_left _ _ _
    rw [hmap, hcast, hsum] at this
    exact this

end Verif.Call
