import Verif.AnnealFiles.Model
import Verif.Anneal.Props
import Verif.Followed.Onnx
import Verif.Foreign.Onnx

/-! C173: calls with the annealing engine on the contents of files. -/

namespace Verif.AnnealFiles

open Anneal (Luck Found)
open Call (Written NodeSays LayerFits LayerOptions AccSays FilesSay SourcesKnown InOrder)
open Compare (freed)
open Equation (Text)
open Evaluate (Job Result Separate)
open Files (Doc)
open Followed (FileFollows ModelFollows)
open Foreign (Names LayerNames NodeNames)
open Net (FileOk NodeOk OptionsOk Known Node)
open Onnx (OModel)
open OnnxCall (Layer LayerIs ModelIs Sorted layersIn computed)
open OnnxModel (OpNode)
open SpatialMapping (SM)
open Whole (AccD)

variable {cacti : String → String → Int → Int → Except PyErr (ℚ × ℚ × ℚ)} {eqn : List Char → Bool} {rel : List Char → Option LayerBuild.RelD}
  {fact : Nat → List (Nat × Nat)} {ex : ℚ → ℚ} {lo : LayerOptions} {o : Net.Options String Text} {da dw dm : Doc} {A : AccD String} {ws : List Written}
  {luck : Node String Text → SM String Text → Luck Text} {opt : String} {m : OModel} {nodes : List OpNode} {ls : List (Option Layer)}

/-- `random.shuffle` permutes. -/
def Fair (luck : Node String Text → SM String Text → Luck Text) : Prop := ∀ n sm l, ((luck n sm).shuffle l).Perm l

theorem parsed (hk : Known opt) : ∃ x, Pipeline.Opt.parse opt = .ok x := by
  rcases hk with rfl | rfl | rfl <;> exact ⟨_, rfl⟩

theorem call_eq (hA : AccSays cacti da A) (F : FileOk A) {ns : List (Node String Text)} (hw : Call.workload eqn rel lo dw dm = .ok ns) (hk : Known opt) :
    call cacti eqn rel fact ex lo o opt da dw dm luck = Anneal.network (fun _ => (0, 0)) fact ex A o opt ns luck := by
  obtain ⟨x, hx⟩ := parsed hk
  unfold call
  rw [hx]
  simp only
  rw [hw]
  simp only
  rw [Call.accelerator_written hA F]

theorem onnx_eq (hA : AccSays cacti da A) (F : FileOk A) {ns : List (Node String Text)} (hw : OnnxCall.workload lo m nodes dm = .ok ns) (hk : Known opt) :
    onnx cacti fact ex lo o opt da m nodes dm luck = Anneal.network (fun _ => (0, 0)) fact ex A o opt ns luck := by
  obtain ⟨x, hx⟩ := parsed hk
  unfold onnx
  rw [hx]
  simp only
  rw [hw]
  simp only
  rw [Call.accelerator_written hA F]

/-- C173: a call with another criterion raises. -/
theorem criterion_refused (h : ¬ Known opt) : call cacti eqn rel fact ex lo o opt da dw dm luck = .error .notImplemented ∧
    onnx cacti fact ex lo o opt da m nodes dm luck = .error .notImplemented := by
  unfold Known at h
  push Not at h
  unfold call onnx Pipeline.Opt.parse
  rw [if_neg h.1, if_neg h.2.1, if_neg h.2.2]
  exact ⟨rfl, rfl⟩

theorem known {ans : Net.Reply String Text} (h : call cacti eqn rel fact ex lo o opt da dw dm luck = .ok ans) : Known opt := by
  by_contra hk
  rw [(criterion_refused (m := ⟨[], [], [], []⟩) (nodes := []) hk).1] at h
  cases h

theorem known_onnx {ans : Net.Reply String Text} (h : onnx cacti fact ex lo o opt da m nodes dm luck = .ok ans) : Known opt := by
  by_contra hk
  rw [(criterion_refused (eqn := fun _ => true) (rel := fun _ => none) (dw := .list []) hk).2] at h
  cases h

/-- What the answer for a list of layers adds up, for layers that are described by something else. -/
theorem answer {α : Type} {R : α → Node String Text → Prop} {P : α → SM String Text → Prop} (F : FileOk A) (O : OptionsOk o) (hf : Lpf.FactContract fact) (hk : Fair luck)
    {vs : List α} {ns : List (Node String Text)} (hall : List.Forall₂ R vs ns)
    (hR : ∀ v ∈ vs, ∀ n, R v n → n.skip = false ∧ (∃ rl rels, NodeOk A n rl rels) ∧ ∀ sms, Net.spatialMappings o A n = .ok sms → ∀ sm ∈ sms, P v sm)
    {ans : Net.Reply String Text} (hans : Anneal.network (fun _ => (0, 0)) fact ex A o opt ns luck = .ok ans) :
    ∃ best : List (α × SM String Text × (Job Text × Result)), best.map Prod.fst = vs ∧
      ans.energy = (best.map fun x => x.2.2.2.energy.total).sum ∧ ans.latency = (best.map fun x => x.2.2.2.overall.latency2).sum ∧
      ∀ x ∈ best, P x.1 x.2.1 ∧ ∃ n, R x.1 n ∧ Found (fun _ => (0, 0)) fact A n.layer x.2.1 x.2.2 := by
  have hns : ∀ n ∈ ns, n.skip = false ∧ ∃ rl rels, NodeOk A n rl rels := by
    intro n hn
    obtain ⟨v, hv, h⟩ := Files.forall2_right hall n hn
    exact ⟨(hR v hv n h).1, (hR v hv n h).2.1⟩
  obtain ⟨best, b1, b2, b3, b4⟩ := Anneal.annealed_answer F O hf (fun n hn _ => (hns n hn).2) hk hans
  rw [List.filter_eq_self.2 fun n hn => by simp [(hns n hn).1]] at b1
  have key : ∀ (bs : List (Node String Text × (Job Text × Result))) (us : List α), (∀ v ∈ us, v ∈ vs) → List.Forall₂ R us (bs.map Prod.fst) →
      (∀ x ∈ bs, ∃ sms, Net.spatialMappings o A x.1 = .ok sms ∧ ∃ sm ∈ sms, Found (fun _ => (0, 0)) fact A x.1.layer sm x.2) →
      ∃ r : List (α × SM String Text × (Job Text × Result)), r.map Prod.fst = us ∧ (r.map fun x => x.2.2) = (bs.map fun x => x.2) ∧
        ∀ x ∈ r, P x.1 x.2.1 ∧ ∃ n, R x.1 n ∧ Found (fun _ => (0, 0)) fact A n.layer x.2.1 x.2.2 := by
    intro bs
    induction bs with
    | nil => intro us _ h _; cases h; exact ⟨[], rfl, rfl, by simp⟩
    | cons b t ih =>
      intro us hu h hb
      cases h with
      | cons h1 ht =>
        rename_i w vt
        obtain ⟨r, r1, r2, r3⟩ := ih vt (fun x hx => hu x (List.mem_cons_of_mem _ hx)) ht fun x hx => hb x (List.mem_cons_of_mem _ hx)
        obtain ⟨sms, q1, sm, q2, q3⟩ := hb b List.mem_cons_self
        refine ⟨(w, sm, b.2) :: r, by simp [r1], by simp [r2], fun x hx => ?_⟩
        rcases List.mem_cons.1 hx with rfl | hx
        · exact ⟨(hR w (hu w List.mem_cons_self) b.1 h1).2.2 sms q1 sm q2, b.1, h1, q3⟩
        · exact r3 x hx
  obtain ⟨r, r1, r2, r3⟩ := key best vs (fun _ h => h) (by rw [b1]; exact hall) fun x hx => by
    obtain ⟨sms, c1, c2, -⟩ := b4 x hx
    exact ⟨sms, c1, c2⟩
  refine ⟨r, r1, ?_, ?_, r3⟩
  · rw [b2, show (r.map fun x => x.2.2.2.energy.total) = (r.map fun x => x.2.2).map fun y => y.2.energy.total by rw [List.map_map]; rfl, r2, List.map_map]
    rfl
  · rw [b3, show (r.map fun x => x.2.2.2.overall.latency2) = (r.map fun x => x.2.2).map fun y => y.2.overall.latency2 by rw [List.map_map]; rfl, r2, List.map_map]
    rfl

/-- C173: an answer adds up an evaluation for each written layer, made with a spatial mapping that follows the entry of the mapping file for it and an order of all loops
that are left, with prime numbers of iterations. -/
theorem file_answer (hA : AccSays cacti da A) (F : FileOk A) (S : FilesSay eqn rel dw dm ws) (K : SourcesKnown ws) (L : ∀ w ∈ ws, LayerFits A w) (O : OptionsOk o)
    (hf : Lpf.FactContract fact) (hk : Fair luck) {ans : Net.Reply String Text} (hans : call cacti eqn rel fact ex lo o opt da dw dm luck = .ok ans) :
    ∃ ws', InOrder ws ws' ∧ ∃ best : List (Written × SM String Text × (Job Text × Result)), best.map Prod.fst = ws' ∧
      ans.energy = (best.map fun x => x.2.2.2.energy.total).sum ∧ ans.latency = (best.map fun x => x.2.2.2.overall.latency2).sum ∧
      ∀ x ∈ best, FileFollows x.1 x.2.1 ∧ ∃ n, NodeSays lo x.1 n ∧ Found (fun _ => (0, 0)) fact A n.layer x.2.1 x.2.2 := by
  obtain ⟨ns, hw, ws', hord, hall⟩ := Call.workload_written (A := A) S K L lo
  rw [call_eq hA F hw (known hans)] at hans
  obtain ⟨best, b1, b2, b3, b4⟩ := answer (P := FileFollows) F O hf hk hall (fun w hw' n ⟨s, rl, k⟩ => by
    have hL := L w ((Call.inOrder_perm hord).subset hw')
    exact ⟨s.skip, ⟨rl, _, k⟩, fun sms h sm hsm => Followed.follows_file hL (Followed.node_dims hL s.sizes) s.mapping s.hints (Followed.tried_follow F k O h hsm)⟩) hans
  exact ⟨ws', hord, best, b1, b2, b3, fun x hx => ⟨(b4 x hx).1, (b4 x hx).2.imp fun n h => ⟨h.1.1, h.2⟩⟩⟩

/-- C173: the same for ONNX models. -/
theorem onnx_answer (hA : AccSays cacti da A) (F : FileOk A) (M : ModelIs A m nodes dm ls) (O : OptionsOk o) (hf : Lpf.FactContract fact) (hk : Fair luck)
    {ans : Net.Reply String Text} (hans : onnx cacti fact ex lo o opt da m nodes dm luck = .ok ans) :
    ∃ order, Sorted nodes order ∧ ∃ best : List ((Nat × Layer) × SM String Text × (Job Text × Result)), best.map Prod.fst = layersIn ls order ∧
      ans.energy = (best.map fun x => x.2.2.2.energy.total).sum ∧ ans.latency = (best.map fun x => x.2.2.2.overall.latency2).sum ∧
      ∀ x ∈ best, ModelFollows x.1.2 x.2.1 ∧ ∃ n, LayerIs lo x.1.2 (computed nodes x.1.1) n ∧ Found (fun _ => (0, 0)) fact A n.layer x.2.1 x.2.2 := by
  obtain ⟨ns, hw, order, hord, hall⟩ := OnnxCall.workload_model M lo
  rw [onnx_eq hA F hw (known_onnx hans)] at hans
  obtain ⟨best, b1, b2, b3, b4⟩ := answer (P := fun kl => ModelFollows kl.2) F O hf hk hall (fun kl _ n ⟨s, k, _⟩ => by
    refine ⟨s.skip, k, fun sms h sm hsm => ?_⟩
    obtain ⟨rl, rels, k⟩ := k
    exact Followed.follows_model s (Followed.tried_follow F k O h hsm)) hans
  exact ⟨order, hord, best, b1, b2, b3, fun x hx => ⟨(b4 x hx).1, (b4 x hx).2.imp fun n h => ⟨h.1.1, h.2⟩⟩⟩

theorem cast_sum (l : List (Node String Text)) : (l.map fun n => ((Whole.operations n.layer : ℕ) : ℚ)).sum = (((l.map fun n => Whole.operations n.layer).sum : ℕ) : ℚ) := by
  induction l with
  | nil => simp
  | cons x t ih => simp only [List.map_cons, List.sum_cons, ih]; push_cast; ring

theorem bounds (hA : AccSays cacti da A) (F : FileOk A) (O : OptionsOk o) (hf : Lpf.FactContract fact) (hk : Fair luck) {ns : List (Node String Text)}
    (hns : ∀ n ∈ ns, n.skip = false ∧ n.layer.cyclesPerOp = 1 ∧ ∃ rl rels, NodeOk A n rl rels) {ans : Net.Reply String Text}
    (hans : Anneal.network (fun _ => (0, 0)) fact ex A o opt ns luck = .ok ans) :
    ((∀ c, Whole.accelerator (fun _ => (0, 0)) A = .ok c → ∀ n ∈ ns, ∀ sms, Net.spatialMappings o A n = .ok sms → ∀ sm ∈ sms, ∀ e,
        Found (fun _ => (0, 0)) fact A n.layer sm e → Separate c.hw e.1) →
      (((ns.map fun n => Whole.operations n.layer).sum : ℕ) : ℚ) ≤ ((A.sizes.map Prod.snd).prod : ℕ) * ans.latency) ∧
    ((∀ m ∈ A.mems, 0 ≤ m.rCost.getD 0 ∧ 0 ≤ m.wCost.getD 0) → A.macEnergy * ((ns.map fun n => Whole.operations n.layer).sum : ℕ) ≤ ans.energy) := by
  obtain ⟨k1, k2⟩ := Anneal.annealed_bounds F O hf (fun n hn _ => (hns n hn).2.2) hk hans
  rw [List.filter_eq_self.2 fun n hn => by simp [(hns n hn).1]] at k1 k2
  constructor
  · intro hs
    have := k1 fun c' hc' n hn _ => hs c' hc' n hn
    have hmap : (ns.map fun n => ((Whole.operations n.layer : ℕ) * n.layer.cyclesPerOp : ℚ)) = ns.map fun n => ((Whole.operations n.layer : ℕ) : ℚ) :=
      List.map_congr_left fun n hn => by rw [(hns n hn).2.1]; norm_num
    rw [hmap, cast_sum] at this
    exact this
  · intro hp
    have hauto : ∀ m ∈ A.mems, m.auto = false := by
      obtain ⟨a, -, -, -, -, -, -, hms⟩ := hA.read
      intro m hm
      obtain ⟨e, -, h⟩ := Files.forall2_right hms m hm
      exact h.auto
    have := k2 fun m hm => by
      unfold Whole.prices
      rw [hauto m hm]
      exact hp m hm
    have hmap : (ns.map fun n => A.macEnergy * (Whole.operations n.layer : ℕ)).sum = A.macEnergy * (ns.map fun n => ((Whole.operations n.layer : ℕ) : ℚ)).sum :=
      List.sum_map_mul_left _ _ _
    rw [hmap, cast_sum] at this
    exact this

/-- C173: whatever is drawn, the energy is at least that of all multiplications of the workload file (if no written cost is negative), and the units of the array times the
latency are at least their number (if no two movements of a port happen exactly once in the evaluations). -/
theorem file_bounds (hA : AccSays cacti da A) (F : FileOk A) (S : FilesSay eqn rel dw dm ws) (K : SourcesKnown ws) (L : ∀ w ∈ ws, LayerFits A w) (O : OptionsOk o)
    (hf : Lpf.FactContract fact) (hk : Fair luck) {ans : Net.Reply String Text} (hans : call cacti eqn rel fact ex lo o opt da dw dm luck = .ok ans) :
    ((∀ c ns, Whole.accelerator (fun _ => (0, 0)) A = .ok c → Call.workload eqn rel lo dw dm = .ok ns → ∀ n ∈ ns, ∀ sms, Net.spatialMappings o A n = .ok sms →
        ∀ sm ∈ sms, ∀ e, Found (fun _ => (0, 0)) fact A n.layer sm e → Separate c.hw e.1) →
      (((ws.map Written.operations).sum : ℕ) : ℚ) ≤ ((A.sizes.map Prod.snd).prod : ℕ) * ans.latency) ∧
    ((∀ m ∈ A.mems, 0 ≤ m.rCost.getD 0 ∧ 0 ≤ m.wCost.getD 0) → A.macEnergy * ((ws.map Written.operations).sum : ℕ) ≤ ans.energy) := by
  obtain ⟨ns, hw, ws', hord, hall⟩ := Call.workload_written (A := A) S K L lo
  rw [call_eq hA F hw (known hans)] at hans
  have hperm := Call.inOrder_perm hord
  have hsum : (ns.map fun n => Whole.operations n.layer).sum = (ws.map Written.operations).sum := by
    have hops : ns.map (fun n => Whole.operations n.layer) = ws'.map Written.operations := by
      refine Call.forall₂_map_eq ?_
      have hmem : ∀ w ∈ ws', w ∈ ws := fun w hw => hperm.mem_iff.1 hw
      clear hord hperm hw hans
      induction hall with
      | nil => exact .nil
      | cons h1 _ ih => exact .cons (Call.node_operations (L _ (hmem _ List.mem_cons_self)) h1.1) (ih fun w hw => hmem w (List.mem_cons_of_mem _ hw))
    rw [hops]
    exact (hperm.map _).sum_eq
  obtain ⟨h1, h2⟩ := bounds hA F O hf hk (fun n hn => by
    obtain ⟨w, -, h, rl, h'⟩ := Files.forall2_right hall n hn
    exact ⟨h.skip, h.cycles, rl, _, h'⟩) hans
  rw [hsum] at h1 h2
  exact ⟨fun hs => h1 fun c hc => hs c ns hc hw, h2⟩

/-- C173: the same for ONNX models. -/
theorem onnx_bounds (hA : AccSays cacti da A) (F : FileOk A) (M : ModelIs A m nodes dm ls) (O : OptionsOk o) (hf : Lpf.FactContract fact) (hk : Fair luck)
    {ans : Net.Reply String Text} (hans : onnx cacti fact ex lo o opt da m nodes dm luck = .ok ans) :
    ((∀ c ns, Whole.accelerator (fun _ => (0, 0)) A = .ok c → OnnxCall.workload lo m nodes dm = .ok ns → ∀ n ∈ ns, ∀ sms, Net.spatialMappings o A n = .ok sms →
        ∀ sm ∈ sms, ∀ e, Found (fun _ => (0, 0)) fact A n.layer sm e → Separate c.hw e.1) →
      ((OnnxCall.operations ls : ℕ) : ℚ) ≤ ((A.sizes.map Prod.snd).prod : ℕ) * ans.latency) ∧
    ((∀ m ∈ A.mems, 0 ≤ m.rCost.getD 0 ∧ 0 ≤ m.wCost.getD 0) → A.macEnergy * (OnnxCall.operations ls : ℕ) ≤ ans.energy) := by
  obtain ⟨ns, hw, order, hord, hall⟩ := OnnxCall.workload_model M lo
  rw [onnx_eq hA F hw (known_onnx hans)] at hans
  have hsum : (ns.map fun n => Whole.operations n.layer).sum = OnnxCall.operations ls := by
    rw [Call.forall₂_map_eq (Files.forall2_imp (fun _ _ h => h.2.2) hall), OnnxCall.layersIn_sum, ← OnnxCall.range_sum, M.length]
    exact (hord.1.map _).sum_eq
  obtain ⟨h1, h2⟩ := bounds hA F O hf hk (fun n hn => by
    obtain ⟨w, -, h, h', -⟩ := Files.forall2_right hall n hn
    exact ⟨h.skip, h.cycles, h'⟩) hans
  rw [hsum] at h1 h2
  exact ⟨fun hs => h1 fun c hc => hs c ns hc hw, h2⟩

/-- C173: for a mapping file without orderings the exhaustive engine without limit has an answer that is no worse, whatever the annealing engine draws (or divides by zero
in one of its additional evaluations). -/
theorem exhaustive_partial (hA : AccSays cacti da A) (F : FileOk A) (S : FilesSay eqn rel dw dm ws) (K : SourcesKnown ws) (L : ∀ w ∈ ws, LayerFits A w)
    (hno : ∀ w ∈ ws, w.attr.order = []) (O : OptionsOk o) (hf : Lpf.FactContract fact) (hk : Fair luck) :
    ∃ M, ∀ fuel, M ≤ fuel → ∀ opt ans, call cacti eqn rel fact ex lo o opt da dw dm luck = .ok ans →
      (∃ ans', Call.call cacti eqn rel fact lo { o with limit := none } opt da dw dm fuel = .ok ans' ∧ (opt = "energy" → ans'.energy ≤ ans.energy) ∧
        (opt = "latency" → ans'.latency ≤ ans.latency) ∧ (opt = "EDP" → ws.length ≤ 1 → ans'.latency * ans'.energy ≤ ans.latency * ans.energy)) ∨
        Call.call cacti eqn rel fact lo { o with limit := none } opt da dw dm fuel = .error .zeroDivision := by
  obtain ⟨ns, hw, ws', hord, hall⟩ := Call.workload_written (A := A) S K L lo
  have hperm := Call.inOrder_perm hord
  obtain ⟨M, hM⟩ := Anneal.exhaustive_partial (cacti := fun _ => (0, 0)) (ex := ex) F O hf (fun n hn _ => by
    obtain ⟨w, -, -, rl, h'⟩ := Files.forall2_right hall n hn
    exact ⟨rl, _, h'⟩) hk
  have hfree : ns.map freed = ns := by
    conv_rhs => rw [← List.map_id ns]
    refine List.map_congr_left fun n hn => ?_
    obtain ⟨w, hw', h, -⟩ := Files.forall2_right hall n hn
    have : n.layer.order = [] := by rw [h.order, hno w (hperm.subset hw')]; rfl
    unfold freed
    rw [← this]
    rfl
  have hlen : ns.length = ws.length := by rw [← hall.length_eq, hperm.length_eq]
  refine ⟨M, fun fuel hfu opt ans hans => ?_⟩
  have hopt := known hans
  rw [call_eq hA F hw hopt] at hans
  rw [Call.call_eq hA F hw opt hopt fuel]
  have := hM fuel hfu opt ans hans
  rw [hfree] at this
  refine this.imp (fun ⟨ans', h1, h2, h3, h4⟩ => ⟨ans', h1, h2, h3, fun ho hl => h4 ho ?_⟩) id
  exact (List.length_filter_le _ _).trans (by omega)

theorem refused (F : FileOk A) (O : OptionsOk o) {ns : List (Node String Text)} {n : Node String Text} (hn : n ∈ ns) (hs : n.skip = false) (h : NodeNames A n) (opt : String)
    (ans : Net.Reply String Text) : Anneal.network (fun _ => (0, 0)) fact ex A o opt ns luck ≠ .ok ans := by
  intro hans
  obtain ⟨oa, hoa, hno⟩ := h
  obtain ⟨c, hc, -⟩ := Whole.accelerator_ok (cacti := fun _ => (0, 0)) F.acc
  rw [Anneal.network_pipeline hc] at hans
  obtain ⟨-, hall⟩ := (Pipeline.api_ok_iff (Anneal.single c) opt ns).1 ⟨ans, hans⟩
  obtain ⟨sms, h1, -⟩ := hall n hn hs
  rw [show (Anneal.env fact ex A c o luck).spatial n = .error .keyError from Foreign.layer_refused F O hoa hno] at h1
  cases h1

/-- C173: if the entry of the mapping file for a layer has a mapping for a dimension that the array does not have, there is no answer. -/
theorem file_refused (hA : AccSays cacti da A) (F : FileOk A) (S : FilesSay eqn rel dw dm ws) (K : SourcesKnown ws) (s : Dict String Nat)
    (L : ∀ w ∈ ws, LayerFits { A with sizes := s } w) (O : OptionsOk o) (hex : ∃ w ∈ ws, Names A w) (opt : String) (ans : Net.Reply String Text) :
    call cacti eqn rel fact ex lo o opt da dw dm luck ≠ .ok ans := by
  intro hans
  obtain ⟨ns, hw, ws', hord, hall⟩ := Call.workload_written (A := { A with sizes := s }) S K L lo
  rw [call_eq hA F hw (known hans)] at hans
  obtain ⟨w, hw', x, hx, hxn⟩ := hex
  obtain ⟨n, hn, hsay, -⟩ := Files.forall2_left hall w ((Call.inOrder_perm hord).symm.subset hw')
  refine refused F O hn hsay.skip ⟨x.1, ?_, hxn⟩ opt ans hans
  rw [hsay.mapping]
  unfold Dict.keys
  rw [List.map_map]
  exact List.mem_map_of_mem (f := fun e => e.1) hx

/-- C173: the limit on the number of loops has no effect on the result of any call with this engine, whatever the files are. -/
theorem limit_ignored (limit : Option Nat) : call cacti eqn rel fact ex lo { o with limit := limit } opt da dw dm luck = call cacti eqn rel fact ex lo o opt da dw dm luck ∧
    onnx cacti fact ex lo { o with limit := limit } opt da m nodes dm luck = onnx cacti fact ex lo o opt da m nodes dm luck := ⟨rfl, rfl⟩

end Verif.AnnealFiles
