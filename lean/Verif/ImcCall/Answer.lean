import Verif.ImcCall.Wrap
import Verif.ImcCall.Spec

/-! What calls for in-memory-computing arrays answer. -/

namespace Verif.ImcCall

open Evaluate (Job Result)
open Latency (Operand)
open Net (Options)
open Pipeline (Cme)
open Ports (MemD)
open Reuse (LNode Graph)
open SpatialMapping (SM)
open Whole (AccD Acc)

variable {OA : Type} [DecidableEq OA] {D : Type} [LinearOrder D]
variable {cacti : MemD Operand OA → ℚ × ℚ} {fact : Nat → List (Nat × Nat)} {K : Chip OA} {a : AccD OA} {s : Locality.St Operand} {o : Options OA D} {fuel : Nat}
  {clock array : ℚ}

theorem price_iff {n : LNode OA D} {sm : SM OA D} {e : Job D × Result} {x : Cme (Report D)} :
    price cacti K clock array o.setOrder a s n sm e = .ok x ↔ ∃ b c p, Reuse.built cacti a s n = .ok (b, c) ∧ arrayEnergy K o.setOrder b c n sm e.1 = .ok p ∧
      x = ⟨⟨e.2.energy.mem + total p, e.2.overall.latency2, true⟩, ⟨e.1, e.2, p, clock, areaOf array b⟩⟩ := by
  unfold price
  cases h : Reuse.built cacti a s n with
  | error e => simp
  | ok b =>
    obtain ⟨b, c⟩ := b
    simp only [Except.ok.injEq, Prod.mk.injEq]
    cases hp : arrayEnergy K o.setOrder b c n sm e.1 with
    | error e =>
      refine Iff.intro (fun h => by cases h) (fun h => ?_)
      obtain ⟨b', c', p, ⟨rfl, rfl⟩, h2, -⟩ := h
      rw [hp] at h2
      cases h2
    | ok p =>
      simp only [Except.ok.injEq]
      refine Iff.intro (fun h => ⟨b, c, p, ⟨rfl, rfl⟩, hp, h.symm⟩) (fun h => ?_)
      obtain ⟨b', c', p', ⟨rfl, rfl⟩, h2, rfl⟩ := h
      rw [hp] at h2
      cases h2
      rfl

theorem single : Pipeline.Single (env cacti fact K clock array a s o fuel) := by
  refine wrap_single fun l sm p x h => ?_
  obtain ⟨b, c, q, -, -, rfl⟩ := price_iff.1 h
  rfl

/-- A search that ends without exception is a run. -/
theorem run_of_temporal {b : AccD OA} {c : Acc OA} (hc : Whole.accelerator cacti b = .ok c) {n : Net.Node OA D} {sm : SM OA D}
    (h : ((Net.env fact b c o fuel).temporal n sm).2 = none) :
    Whole.run cacti fact b n.layer sm o.limit fuel = some (Search.evaluations c.hw ((Net.env fact b c o fuel).temporal n sm).1 none) := by
  unfold Net.env at h ⊢
  unfold Whole.run
  simp only at h ⊢
  rw [hc]
  simp only
  cases ht : Whole.task b c n.layer sm with
  | error e => rw [ht] at h; cases h
  | ok t =>
    rw [ht] at h
    simp only at h ⊢
    cases hm : Search.mappings fact c.hw c.topo t (n.layer.sizes.map fun e => (e.1, (e.2 : Int))) (Whole.spatialLoops t) o.limit n.layer.order fuel with
    | none => rw [hm] at h; cases h
    | some r =>
      rw [hm] at h
      simp only at h ⊢
      rw [← h]

theorem mem_evaluations {h : Evaluate.Hw} {j : Job D} {r : Result} : ∀ {jobs : List (Job D)} {err : Option PyErr}, (∀ j ∈ jobs, ∃ r, Evaluate.evaluate h j = .ok r) →
    ((j, r) ∈ (Search.evaluations h jobs err).1 ↔ j ∈ jobs ∧ Evaluate.evaluate h j = .ok r)
  | [], err, _ => by simp [Search.evaluations]
  | k :: ks, err, hall => by
    obtain ⟨q, hq⟩ := hall k List.mem_cons_self
    have ih := mem_evaluations (j := j) (r := r) (err := err) fun x hx => hall x (List.mem_cons_of_mem _ hx)
    unfold Search.evaluations
    rw [hq]
    simp only [List.mem_cons, ih, Prod.mk.injEq]
    constructor
    · rintro (⟨rfl, rfl⟩ | ⟨h1, h2⟩)
      · exact ⟨Or.inl rfl, hq⟩
      · exact ⟨Or.inr h1, h2⟩
    · rintro ⟨rfl | h1, h2⟩
      · rw [hq] at h2
        cases h2
        exact Or.inl ⟨rfl, rfl⟩
      · exact Or.inr ⟨h1, h2⟩

/-- The report of an evaluation. -/
def Eval.report (clock array : ℚ) (e : Eval OA D) : Cme (Report D) :=
  ⟨⟨e.energy, e.latency, true⟩, ⟨e.job, e.result, e.parts, clock, areaOf array e.file⟩⟩

theorem cands_iff {n : LNode OA D} (hw : Pipeline.Works (Reuse.env cacti fact a s o fuel) n) (x : Cme (Report D)) :
    x ∈ Pipeline.cands (env cacti fact K clock array a s o fuel) n ↔ ∃ e, Made cacti fact K a s o fuel n e ∧ e.report clock array = x := by
  obtain ⟨b, c, hb⟩ := Reuse.works_built hw
  obtain ⟨q1, q2⟩ := Reuse.built_iff.1 hb
  obtain ⟨s1, s2, s3⟩ := Reuse.stages (fact := fact) (o := o) (fuel := fuel) hb
  have hw' := (Reuse.works_iff (fact := fact) (o := o) (fuel := fuel) hb).1 hw
  obtain ⟨sms, w1, -, w3⟩ := hw'
  have hcost : ∀ sm j r, (Net.env fact b c o fuel).cost n.node sm j = .ok r ↔ ∃ q, Evaluate.evaluate c.hw j = .ok q ∧ r = Net.cme (j, q) := by
    intro sm j r
    unfold Net.env
    simp only
    cases Evaluate.evaluate c.hw j with
    | error e => simp
    | ok q =>
      simp only [Except.ok.injEq, exists_eq_left']
      exact eq_comm
  have hall : ∀ sm ∈ sms, ∀ j ∈ ((Net.env fact b c o fuel).temporal n.node sm).1, ∃ r, Evaluate.evaluate c.hw j = .ok r := by
    intro sm hsm j hj
    obtain ⟨r, hr⟩ := (w3 sm hsm).2.2 j hj
    obtain ⟨q, hq, -⟩ := (hcost sm j r).1 hr
    exact ⟨q, hq⟩
  unfold env
  rw [wrap_cands, s1, w1]
  simp only [Except.ok.injEq, exists_eq_left', s2, s3]
  constructor
  · rintro ⟨sm, hsm, j, hj, r, hr, hx⟩
    obtain ⟨q, hq, rfl⟩ := (hcost sm j r).1 hr
    obtain ⟨b', c', p, hb', hp, rfl⟩ := price_iff.1 hx
    rw [hb] at hb'
    cases hb'
    have w1' : Net.spatialMappings o b n.node = .ok sms := w1
    refine ⟨⟨b, c, sm, j, q, p⟩, ⟨q1, q2, ⟨sms, w1', hsm⟩, ⟨_, ?_, (mem_evaluations (err := none) (hall sm hsm)).2 ⟨hj, hq⟩⟩, hp⟩, rfl⟩
    · rw [run_of_temporal q2 (w3 sm hsm).1]
      congr 1
      refine Prod.ext rfl ?_
      exact Net.evaluations_done.2 ⟨rfl, hall sm hsm⟩
  · rintro ⟨e, M, rfl⟩
    have e1 := M.file
    have e2 := M.built
    obtain ⟨sms', w1', hsm⟩ := M.spatial
    obtain ⟨evals, hr, he⟩ := M.run
    rw [q1] at e1
    obtain ⟨eb, ec, esm, ej, er, ep⟩ := e
    simp only [Except.ok.injEq] at e1 e2 w1' hsm hr he
    subst e1
    rw [q2] at e2
    simp only [Except.ok.injEq] at e2
    subst e2
    have w1'' : Net.spatialMappings o b n.node = .ok sms := w1
    rw [w1''] at w1'
    cases w1'
    rw [run_of_temporal q2 (w3 esm hsm).1] at hr
    have hev : evals = (Search.evaluations c.hw ((Net.env fact b c o fuel).temporal n.node esm).1 none).1 := by
      simp only [Option.some.injEq] at hr
      rw [hr]
    rw [hev] at he
    obtain ⟨hj, hq⟩ := (mem_evaluations (hall esm hsm)).1 he
    exact ⟨esm, hsm, ej, hj, _, (hcost esm ej _).2 ⟨er, hq, rfl⟩, price_iff.2 ⟨b, c, ep, hb, M.parts, rfl⟩⟩

theorem network_cases {opt : String} {g : Graph OA D} {nodes : List (LNode OA D)} {ans : Reply OA D} (h : network cacti fact K a o opt g nodes fuel = .ok ans) :
    ∃ area clock c s, Imc.getArea K.arr = .ok area ∧ Imc.getTclk K.arr = .ok clock ∧ Whole.accelerator cacti a = .ok c ∧ Reuse.plan a g nodes = .ok s ∧
      Pipeline.api opt true (env cacti fact K (total clock) (total area) a s o fuel) nodes = .ok ans := by
  unfold network at h
  cases h1 : Imc.getArea K.arr with
  | error e => rw [h1] at h; cases h
  | ok area =>
    rw [h1] at h
    simp only at h
    cases h2 : Imc.getTclk K.arr with
    | error e => rw [h2] at h; cases h
    | ok clock =>
      rw [h2] at h
      simp only at h
      cases hc : Whole.accelerator cacti a with
      | error e => rw [hc] at h; cases h
      | ok c =>
        rw [hc] at h
        simp only at h
        cases hs : Reuse.plan a g nodes with
        | error e => rw [hs] at h; cases h
        | ok s =>
          rw [hs] at h
          exact ⟨area, clock, c, s, rfl, rfl, rfl, rfl, h⟩

/-- C166: what a call for an in-memory-computing array answers: for every layer that is not skipped, in order, one evaluation, whose energy is that of the
memories and of all parts of the array, and which is no worse than any other evaluation of the layer; energy and latency are the sums.  Clock and area are those of
the first of these evaluations: the clock of the array, and the area of the array and of the memories that the *first layer* keeps. -/
theorem imc_answer {opt : String} {g : Graph OA D} {nodes : List (LNode OA D)} {ans : Reply OA D} (h : network cacti fact K a o opt g nodes fuel = .ok ans) :
    ∃ area clock s, Imc.getArea K.arr = .ok area ∧ Imc.getTclk K.arr = .ok clock ∧ Reuse.plan a g nodes = .ok s ∧
      ∃ best : List (LNode OA D × Eval OA D), best.map Prod.fst = nodes.filter (fun n => !n.node.skip) ∧
        (∀ x ∈ best, Made cacti fact K a s o fuel x.1 x.2 ∧ ∀ y, Made cacti fact K a s o fuel x.1 y → NoWorse opt x.2 y) ∧
        ans.energy = (best.map fun x => x.2.energy).sum ∧ ans.latency = (best.map fun x => x.2.latency).sum ∧
        ∃ x t f, best = x :: t ∧ ans.first = some f ∧ f.clock = (clock.map Prod.snd).sum ∧
          f.area = (area.map Prod.snd).sum + (x.2.file.mems.map fun m => m.area.getD 0).sum := by
  obtain ⟨area, clk, c, s, h1, h2, -, h4, h⟩ := network_cases h
  refine ⟨area, clk, s, h1, h2, h4, ?_⟩
  obtain ⟨hok, l, hl, hsk⟩ := (api_imc_iff single).1 ⟨ans, h⟩
  obtain ⟨-, hw⟩ := (Pipeline.api_ok_iff single opt nodes).1 hok
  obtain ⟨op, ho, best, b1, b2, b3, b4, -, b6⟩ := Pipeline.api_answer single opt true nodes h
  have hmem : ∀ x ∈ best, x.1 ∈ nodes ∧ x.1.node.skip = false := by
    intro x hx
    have : x.1 ∈ best.map Prod.fst := List.mem_map.2 ⟨x, hx, rfl⟩
    rw [b1] at this
    obtain ⟨m1, m2⟩ := List.mem_filter.1 this
    have m3 : (!x.1.node.skip) = true := m2
    exact ⟨m1, by simpa using m3⟩
  have hone : ∀ x ∈ best, ∃ e, Made cacti fact K a s o fuel x.1 e ∧ e.report (total clk) (total area) = x.2 ∧ ∀ y, Made cacti fact K a s o fuel x.1 y → NoWorse opt e y := by
    intro x hx
    obtain ⟨m1, m2⟩ := hmem x hx
    have hwx := (wrap_works.1 (hw x.1 m1 m2)).1
    obtain ⟨pre, post, q1, q2, q3⟩ := b2 x hx
    have hin : x.2 ∈ Pipeline.cands (env cacti fact K (total clk) (total area) a s o fuel) x.1 := by rw [q1]; simp
    obtain ⟨e, he, hex⟩ := (cands_iff hwx x.2).1 hin
    refine ⟨e, he, hex, fun y hy => ?_⟩
    have hin' := (cands_iff (K := K) (clock := total clk) (array := total area) hwx _).2 ⟨y, hy, rfl⟩
    have hk : op.key x.2 ≤ op.key (y.report (total clk) (total area)) := by
      rw [q1] at hin'
      rcases List.mem_append.1 hin' with h | h
      · exact (q2 _ h).le
      · rcases List.mem_cons.1 h with h | h
        · rw [h]
        · exact not_lt.1 (q3 _ h)
    rw [← hex] at hk
    unfold Pipeline.Opt.parse at ho
    split_ifs at ho with p1 p2 p3
    · cases ho
      have := Prod.Lex.toLex_le_toLex.1 hk
      refine ⟨fun _ => ?_, fun h => absurd (p1.symm.trans h) (by decide), fun h => absurd (p1.symm.trans h) (by decide)⟩
      rcases this with h | h
      · exact le_of_lt h
      · exact le_of_eq h.1
    · cases ho
      have := Prod.Lex.toLex_le_toLex.1 hk
      refine ⟨fun h => absurd h p1, fun _ => ?_, fun h => absurd (p2.symm.trans h) (by decide)⟩
      rcases this with h | h
      · exact le_of_lt h
      · exact le_of_eq h.1
    · cases ho
      have := Prod.Lex.toLex_le_toLex.1 hk
      refine ⟨fun h => absurd h p1, fun h => absurd h p2, fun _ => ?_⟩
      rcases this with h | h
      · exact le_of_lt h
      · exact le_of_eq h.1
  have hne : best ≠ [] := by
    rintro rfl
    have : l ∈ nodes.filter fun n => !(env cacti fact K (total clk) (total area) a s o fuel).skip n := List.mem_filter.2 ⟨hl, by simp [hsk]⟩
    rw [← b1] at this
    cases this
  have hlist : ∃ L : List (LNode OA D × Eval OA D), List.Forall₂ (fun x y => y.1 = x.1 ∧ y.2.report (total clk) (total area) = x.2 ∧
      Made cacti fact K a s o fuel y.1 y.2 ∧ ∀ z, Made cacti fact K a s o fuel y.1 z → NoWorse opt y.2 z) best L := by
    clear b1 b2 b3 b4 b6 hmem hne
    induction best with
    | nil => exact ⟨[], .nil⟩
    | cons x t ih =>
      obtain ⟨e, e1, e2, e3⟩ := hone x List.mem_cons_self
      obtain ⟨L, hL⟩ := ih fun y hy => hone y (List.mem_cons_of_mem _ hy)
      exact ⟨(x.1, e) :: L, .cons ⟨rfl, e2, e1, e3⟩ hL⟩
  obtain ⟨L, hL⟩ := hlist
  have hsum : ∀ {bs : List (LNode OA D × Cme (Report D))} {ls : List (LNode OA D × Eval OA D)}, List.Forall₂ (fun x y => y.1 = x.1 ∧
      y.2.report (total clk) (total area) = x.2 ∧ Made cacti fact K a s o fuel y.1 y.2 ∧ ∀ z, Made cacti fact K a s o fuel y.1 z → NoWorse opt y.2 z) bs ls →
      ls.map Prod.fst = bs.map Prod.fst ∧ (bs.map fun x => x.2.res.energy).sum = (ls.map fun x => x.2.energy).sum ∧
      (bs.map fun x => x.2.res.latency).sum = (ls.map fun x => x.2.latency).sum ∧
      ∀ y ∈ ls, Made cacti fact K a s o fuel y.1 y.2 ∧ ∀ z, Made cacti fact K a s o fuel y.1 z → NoWorse opt y.2 z := by
    intro bs ls h
    induction h with
    | nil => simp
    | cons h _ ih =>
      obtain ⟨i1, i2, i3, i4⟩ := ih
      obtain ⟨k1, k2, k3, k4⟩ := h
      refine ⟨by simp [k1, i1], ?_, ?_, ?_⟩
      · simp only [List.map_cons, List.sum_cons, i2, ← k2]
        rfl
      · simp only [List.map_cons, List.sum_cons, i3, ← k2]
        rfl
      · intro y hy
        rcases List.mem_cons.1 hy with rfl | hy
        · exact ⟨k3, k4⟩
        · exact i4 y hy
  obtain ⟨u1, u2, u3, u4⟩ := hsum hL
  refine ⟨L, by rw [u1, b1]; rfl, u4, by rw [b3, u2], by rw [b4, u3], ?_⟩
  cases hL with
  | nil => exact absurd rfl hne
  | @cons x y bt lt hx _ =>
    obtain ⟨k1, k2, k3, -⟩ := hx
    refine ⟨y, lt, x.2.tag, rfl, by simpa using b6, ?_, ?_⟩
    · rw [← k2]
      rfl
    · rw [← k2]
      change areaOf (total area) y.2.file = _
      unfold areaOf
      rw [(Imc.area_total _ _).2]
      simp [total, List.map_map, Function.comp_def]

end Verif.ImcCall
