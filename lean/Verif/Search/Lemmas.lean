import Verif.Search.Spec
import Verif.Alloc.Props
import Verif.Engine.Props
import Verif.TemporalMapping.Props
import Verif.Evaluate.Fit

/-! From an order of the loops to a mapping that can be evaluated. -/

namespace Verif.Search

open Evaluate (Hw Mem Job Built Mapped Ready cfg)
open LayerNode (Relation Rel Layer lookup calcTensorDim calcTensorSize)
open MapInfo
open Latency (Operand)
open Engine (TooSmall)

variable {Dim : Type} [DecidableEq Dim] {h : Hw} {topo : List Mem} {t : Task Dim} {rl : Operand → List Dim} {rels : List (Relation Dim)}
  {array order : List (Dim × ℚ)}

/-! ### The merge-down -/

theorem slack_bound (m : Lv Dim) : TemporalMapping.slack m ≤ m.length * m.flatten.length := by
  unfold TemporalMapping.slack
  have : ∀ x ∈ (List.range m.length).map (fun k => m.flatten.length - TemporalMapping.bound m k), x ≤ m.flatten.length := by
    intro x hx
    obtain ⟨k, _, rfl⟩ := List.mem_map.1 hx
    omega
  simpa using List.sum_le_card_nsmul _ _ this

theorem passes_enough (ir : Operand → Dim → Bool) (ms : Dict Operand (Lv Dim)) :
    ∃ out, TemporalMapping.mergeLoop ir (passes ms) ms = some out ∧
      List.Forall₂ (fun p q => q.1 = p.1 ∧ q.2.1.length = p.2.length ∧ q.2.1.flatten = p.2.flatten ∧
        (∀ k, (q.2.1.take (k + 1)).flatten = (p.2.take (k + 1)).flatten ++ (p.2.drop (k + 1)).flatten.takeWhile (fun l => ir p.1 l.1)) ∧
        (p.2 ≠ [] → q.2.2 = ((p.2.flatten.takeWhile (fun l => ir p.1 l.1)).map Prod.snd).prod)) ms out := by
  have hle : (ms.map (fun p => TemporalMapping.slack p.2)).sum ≤ (ms.map fun p => p.2.length * p.2.flatten.length).sum :=
    List.sum_le_sum (fun p _ => slack_bound p.2)
  obtain ⟨out, h1, -⟩ := TemporalMapping.mergeLoop_spec ir _ ms hle
  obtain ⟨N1, o1, a1, a2⟩ := TemporalMapping.merge_down_preserves ir ms
  obtain ⟨N2, o2, b1, b2⟩ := TemporalMapping.merge_down_stationary ir ms
  have hn := h1 (max (passes ms) (max N1 N2)) (le_max_left _ _)
  have e1 : o1 = out := by
    have := a1 (max (passes ms) (max N1 N2)) (by omega)
    rw [hn] at this
    exact (Option.some.inj this).symm
  have e2 : o2 = out := by
    have := b1 (max (passes ms) (max N1 N2)) (by omega)
    rw [hn] at this
    exact (Option.some.inj this).symm
  subst e1 e2
  refine ⟨o2, h1 _ le_rfl, ?_⟩
  have : ∀ {a : Dict Operand (Lv Dim)} {b : Dict Operand (Lv Dim × ℚ)} {P Q R : Operand × Lv Dim → Operand × (Lv Dim × ℚ) → Prop},
      List.Forall₂ P a b → List.Forall₂ Q a b → (∀ x y, P x y → Q x y → R x y) → List.Forall₂ R a b := by
    intro a b P Q R hp hq hi
    induction hp with
    | nil => exact .nil
    | cons x _ ih =>
      cases hq with
      | cons y ys => exact .cons (hi _ _ x y) (ih ys)
  exact this a2 b2 (fun p q hp hq => ⟨hp.1, hp.2.1, hp.2.2, hq.2.1, hq.2.2.2⟩)

/-- What `finish` gives for allocated loops that are, for every operand, the whole order. -/
theorem finish_ok {tm : Operand → Lv Dim} (hops : t.ops ≠ []) (htm : ∀ op ∈ t.ops, tm op ≠ [] ∧ (tm op).flatten = order) :
    ∃ j, finish t tm = .ok j ∧ j.ops = t.ops ∧ j.inputs = t.inputs ∧ j.L = t.L ∧ j.rel = t.rel ∧ j.precision = t.precision ∧
      j.finalPrecision = t.finalPrecision ∧ j.su = t.su ∧ j.suInt = t.suInt ∧ j.noAccess = t.noAccess ∧ j.cyclesPerOp = t.cyclesPerOp ∧
      j.totalCycle = iters order ∧ ∀ op ∈ t.ops, (j.tm op).length = (tm op).length ∧ (j.tm op).flatten = order ∧
        (∀ k, ((j.tm op).take (k + 1)).flatten =
          ((tm op).take (k + 1)).flatten ++ ((tm op).drop (k + 1)).flatten.takeWhile (fun l => decide (l.1 ∈ (t.rel op).ir))) ∧
        j.stationary op = iters (order.takeWhile (fun l => decide (l.1 ∈ (t.rel op).ir))) := by
  obtain ⟨out, h1, h2⟩ := passes_enough (fun op d => decide (d ∈ (t.rel op).ir)) (t.ops.map fun op => (op, tm op))
  have hkey : ∀ (ops : List Operand) (out : Dict Operand (Lv Dim × ℚ)) (P : Operand × Lv Dim → Operand × (Lv Dim × ℚ) → Prop),
      List.Forall₂ P (ops.map fun op => (op, tm op)) out → (∀ x y, P x y → y.1 = x.1) → ∀ op ∈ ops, ∃ q, out.get? op = some q ∧ P (op, tm op) (op, q) := by
    intro ops
    induction ops with
    | nil => intro out P _ _ op ho; cases ho
    | cons o ops ih =>
      intro out P hf hk op ho
      rw [List.map_cons] at hf
      cases hf with
      | @cons _ q _ qs hq hqs =>
        obtain ⟨q1, q2⟩ := q
        have e := hk _ _ hq
        simp only at e
        subst e
        rw [Dict.get?_cons]
        by_cases hc : q1 = op
        · subst hc
          exact ⟨q2, by simp, hq⟩
        · obtain ⟨q, g1, g2⟩ := ih qs P hqs hk op ((List.mem_cons.1 ho).resolve_left (Ne.symm hc))
          exact ⟨q, by simpa [hc] using g1, g2⟩
  have hq := hkey t.ops out _ h2 (fun _ _ hp => hp.1)
  have htot : TemporalMapping.totalCycle (out.map fun q => (q.1, q.2.1)) = .ok ((order.map Prod.snd).prod) := by
    apply TemporalMapping.total_cycle_ok
    · intro hc
      have hl := h2.length_eq
      rw [List.map_eq_nil_iff.1 hc] at hl
      simp at hl
      exact hops hl
    · intro p hp
      obtain ⟨q, hq', rfl⟩ := List.mem_map.1 hp
      have : ∀ (ms : List (Operand × Lv Dim)) (out : List (Operand × (Lv Dim × ℚ))) (P : Operand × Lv Dim → Operand × (Lv Dim × ℚ) → Prop),
          List.Forall₂ P ms out → ∀ q ∈ out, ∃ p ∈ ms, P p q := by
        intro ms out P hf
        induction hf with
        | nil => intro q hq; cases hq
        | cons x _ ih =>
          intro q hq
          rcases List.mem_cons.1 hq with rfl | hq
          · exact ⟨_, by simp, x⟩
          · obtain ⟨p, hp, hpq⟩ := ih q hq
            exact ⟨p, by simp [hp], hpq⟩
      obtain ⟨p, hp', g1, g2, g3, -⟩ := this _ _ _ h2 q hq'
      obtain ⟨op, ho, rfl⟩ := List.mem_map.1 hp'
      obtain ⟨n1, n2⟩ := htm op ho
      simp only at g2 g3
      refine ⟨?_, by simpa [n2] using g3⟩
      intro hc
      simp only at hc
      rw [hc] at g2
      exact n1 (List.length_eq_zero_iff.1 (by simpa using g2.symm))
  have hfin : finish t tm = .ok { ops := t.ops, inputs := t.inputs, L := t.L, rel := t.rel, precision := t.precision, finalPrecision := t.finalPrecision, su := t.su, suInt := t.suInt, tm := fun op => ((out.get? op).map Prod.fst).getD [], stationary := fun op => ((out.get? op).map Prod.snd).getD 1, totalCycle := (order.map Prod.snd).prod, noAccess := t.noAccess, cyclesPerOp := t.cyclesPerOp } := by
    unfold finish
    simp only [h1, htot, bind, Except.bind, pure, Except.pure]
  refine ⟨_, hfin, rfl, rfl, rfl, rfl, rfl, rfl, rfl, rfl, rfl, rfl, rfl, fun op ho => ?_⟩
  obtain ⟨q, g1, -, g2, g3, g4, g5⟩ := hq op ho
  obtain ⟨n1, n2⟩ := htm op ho
  simp only [g1, Option.map_some, Option.getD_some] at g2 g3 g4 g5 ⊢
  refine ⟨g2, by rw [g3, n2], g4, ?_⟩
  rw [g5 n1, n2]
  rfl

/-! ### The allocator -/

theorem node_nodup (P : Prepared h topo t rl rels array) : ∀ n ∈ topo.map (node h), n.ops.Nodup := by
  intro n hn
  obtain ⟨m, hm, rfl⟩ := List.mem_map.1 hn
  exact P.built.single m (P.sorted.mem_iff.1 hm)

theorem held' (P : Prepared h topo t rl rels array) {op : Operand} (ho : op ∈ t.ops) {lv : Nat} {m : Mem} (hm : (h.levels op)[lv]? = some m) :
    (op, lv) ∈ m.holds := by
  have hmin : m ∈ h.mems := P.built.inside op m (List.mem_of_getElem? hm)
  obtain ⟨p, hp, hk⟩ := P.serves op ho lv m hm .rdToLow (by unfold Evaluate.needed; split_ifs <;> simp)
  exact P.built.served m hmin p hp _ hk

theorem node_top (P : Prepared h topo t rl rels array) {op : Operand} (ho : op ∈ t.ops) :
    ∃ n ∈ topo.map (node h), op ∈ n.ops ∧ n.isTop op = true := by
  have hne := P.stored op ho
  have hl : (h.levels op)[(h.levels op).length - 1]? = some ((h.levels op).getLast hne) := by
    rw [← List.getLast?_eq_getElem?, List.getLast?_eq_some_getLast hne]
  have hh := held' P ho hl
  refine ⟨node h ((h.levels op).getLast hne), List.mem_map.2 ⟨_, P.sorted.mem_iff.2 (P.built.inside op _ (List.getLast_mem hne)), rfl⟩, ?_, ?_⟩
  · exact List.mem_map.2 ⟨_, hh, rfl⟩
  · simpa [node] using hh

theorem nodes_length (P : Prepared h topo t rl rels array) (op : Operand) :
    ((topo.map (node h)).filter (fun n => decide (op ∈ n.ops))).length = (h.levels op).length := by
  rw [P.levels op, List.filter_map, List.length_map]
  rfl

/-- Everything known about a mapping for an order. -/
theorem mapOrder_ok (P : Prepared h topo t rl rels array) {j : Job Dim} (hj : mapOrder h topo t order = .ok j) :
    ∃ tm, allocate h topo t order = .ok tm ∧ j.ops = t.ops ∧ j.inputs = t.inputs ∧ j.L = t.L ∧ j.rel = t.rel ∧ j.precision = t.precision ∧
      j.finalPrecision = t.finalPrecision ∧ j.su = t.su ∧ j.suInt = t.suInt ∧ j.noAccess = t.noAccess ∧ j.cyclesPerOp = t.cyclesPerOp ∧
      j.totalCycle = iters order ∧ ∀ op ∈ t.ops, (tm op).flatten = order ∧ (tm op).length = (h.levels op).length ∧
        (j.tm op).length = (h.levels op).length ∧ (j.tm op).flatten = order ∧
        (∀ k, ((j.tm op).take (k + 1)).flatten =
          ((tm op).take (k + 1)).flatten ++ ((tm op).drop (k + 1)).flatten.takeWhile (fun l => decide (l.1 ∈ (t.rel op).ir))) ∧
        j.stationary op = iters (order.takeWhile (fun l => decide (l.1 ∈ (t.rel op).ir))) := by
  unfold mapOrder at hj
  simp only [bind, Except.bind] at hj
  cases ha : allocate h topo t order with
  | error e => rw [ha] at hj; cases hj
  | ok tm =>
    rw [ha] at hj
    have hk : ∀ op ∈ t.ops, (tm op).flatten = order ∧ (tm op).length = (h.levels op).length := by
      intro op ho
      have := Alloc.run_keeps_order (node_nodup P) ha op ho (node_top P ho)
      rw [nodes_length P] at this
      exact this
    obtain ⟨j', h1, r1, r2, r3, r4, r5, r6, r7, r8, r9, r10, r11, r12⟩ := finish_ok (t := t) (tm := tm) (order := order) (List.ne_nil_of_mem P.out) (fun op ho => by
      refine ⟨fun hc => P.stored op ho ?_, (hk op ho).1⟩
      have := (hk op ho).2
      rw [hc] at this
      exact List.length_eq_zero_iff.1 this.symm)
    simp only at hj
    rw [h1] at hj
    cases hj
    refine ⟨tm, rfl, r1, r2, r3, r4, r5, r6, r7, r8, r9, r10, r11, fun op ho => ?_⟩
    obtain ⟨k1, k2⟩ := hk op ho
    obtain ⟨s1, s2, s3, s4⟩ := r12 op ho
    exact ⟨k1, k2, s1.trans k2, s2, s3, s4⟩

theorem takeWhile_eq_take {α : Type} (p : α → Bool) (l : List α) : l.takeWhile p = l.take (l.takeWhile p).length :=
  (List.prefix_iff_eq_take.1 (List.takeWhile_prefix p))

/-- A mapping that is found can be evaluated. -/
theorem mapped (P : Prepared h topo t rl rels array) (O : Order t order) {j : Job Dim} (hj : mapOrder h topo t order = .ok j) :
    Mapped h j rl rels order array := by
  obtain ⟨tm, ha, e1, e2, e3, e4, e5, e6, e7, e8, e9, e10, e11, e12⟩ := mapOrder_ok P hj
  exact {
    built := P.built
    ops := by rw [e1]; exact P.ops
    out := by rw [e1]; exact P.out
    inputs := by rw [e1, e2]; exact P.inputs
    shape := by
      intro int op ho
      rw [e1] at ho
      obtain ⟨-, -, s1, s2, -, -⟩ := e12 op ho
      exact {
        names := P.names
        pi := by change j.L.pi = _; rw [e3]; exact P.pi
        rel := by change LayerNode.extractRel _ j.L.dimSizes _ = .ok (j.rel op); rw [e3, e4]; exact P.rel op ho
        index := P.index op ho
        mix := P.mix op ho
        vars := P.vars op ho
        wf := by change j.L.dimSizes.WF; rw [e3]; exact P.wf
        related := by change ∀ r ∈ rels, r.dim2 ∈ j.L.dimSizes.keys ∧ r.dim3 ∈ j.L.dimSizes.keys ∧ r.dim1 ∉ j.L.dimSizes.keys ∧ 1 ≤ r.coef2; rw [e3]; exact P.related
        dims := by change ∀ d ∈ rl op, _ → d ∈ j.L.dimSizes.keys; rw [e3]; exact P.dims op ho
        levels := by
          change (if int then j.suInt op else j.su op).length = (j.tm op).length + 1
          rw [e7, e8, s1]
          cases int
          · exact (P.su op ho).1
          · exact (P.su op ho).2
        loops := by
          change ∀ l ∈ (j.tm op).flatten ++ (if int then j.suInt op else j.su op).flatten, l.1 ∈ j.L.dimSizes.keys ∧ 1 ≤ l.2
          rw [s2, e3, e7, e8]
          intro l hl
          rcases List.mem_append.1 hl with hl | hl
          · obtain ⟨n, h1, h2⟩ := O.whole l hl
            exact ⟨O.dims l hl, by rw [h1]; exact_mod_cast h2⟩
          · refine P.unrolled op ho l (List.mem_append.2 ?_)
            cases int
            · exact Or.inl hl
            · exact Or.inr hl }
    sizes := by
      rw [e3]
      intro r hr
      obtain ⟨m, h1, h2⟩ := P.sizes r hr
      exact ⟨m, h1, by exact_mod_cast h2⟩
    whole := O.whole
    tm := by
      intro op ho
      rw [e1] at ho
      obtain ⟨-, -, s1, s2, -, -⟩ := e12 op ho
      exact ⟨s2, s1, List.length_pos_iff.2 (P.stored op ho)⟩
    stationary := by
      intro op ho
      rw [e1] at ho
      obtain ⟨-, -, -, -, -, s4⟩ := e12 op ho
      exact ⟨_, by rw [s4, takeWhile_eq_take]⟩
    total := e11
    array := by rw [e1, e8]; exact P.array
    serves := by rw [e1]; exact P.serves
    cycles := by rw [e10]; exact P.cycles }

end Verif.Search
