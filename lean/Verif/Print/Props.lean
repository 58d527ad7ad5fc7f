import Verif.Print.Model
import Verif.TemporalMapping.Props

/-! C96: the printed loop nest is the mapping that was evaluated. -/

namespace Verif.Print

variable {Op Dim Mem : Type} [DecidableEq Op] [DecidableEq Dim]

/-- Specification: every loop of an operand, innermost first, with the number of the level it is stored at. -/
def tagged : Nat → Levels Dim → List (Loop Dim × Nat)
  | _, [] => []
  | k, lv :: rest => lv.map (fun l => (l, k)) ++ tagged (k + 1) rest

theorem tagged_fst : ∀ (levels : Levels Dim) (k : Nat), (tagged k levels).map Prod.fst = levels.flatten
  | [], _ => rfl
  | lv :: rest, k => by
    simp only [tagged, List.map_append, List.map_map, List.flatten_cons, tagged_fst rest (k + 1)]
    congr 1
    induction lv with
    | nil => rfl
    | cons x t ih => rw [List.map_cons, ih]; rfl

theorem tagged_get (levels : Levels Dim) : ∀ (k : Nat) (l : Loop Dim) (j : Nat), (l, j) ∈ tagged k levels →
    k ≤ j ∧ ∃ lv, levels[j - k]? = some lv ∧ l ∈ lv := by
  induction levels with
  | nil => intro k l j h; simp [tagged] at h
  | cons x t ih =>
    intro k l j h
    simp only [tagged, List.mem_append, List.mem_map, Prod.mk.injEq] at h
    rcases h with ⟨a, ha, rfl, rfl⟩ | h
    · exact ⟨le_rfl, x, by simp, ha⟩
    · obtain ⟨h1, lv, h2, h3⟩ := ih _ _ _ h
      refine ⟨by omega, lv, ?_, h3⟩
      have : j - k = (j - (k + 1)) + 1 := by omega
      rw [this, List.getElem?_cons_succ]; exact h2

theorem takeOut_tagged (tl : Loop Dim) : ∀ (levels : Levels Dim) (k j : Nat) (rest : List (Loop Dim × Nat)),
    tagged k levels = (tl, j) :: rest →
    ∃ levels', takeOut tl levels = .ok (j - k, levels') ∧ tagged k levels' = rest ∧ k ≤ j
  | [], _, _, _, h => by simp [tagged] at h
  | [] :: ls, k, j, rest, h => by
    simp only [tagged, List.map_nil, List.nil_append] at h
    obtain ⟨ls', h1, h2, h3⟩ := takeOut_tagged tl ls (k + 1) j rest h
    unfold takeOut at h1 ⊢
    rw [List.findIdx?_cons]
    simp only [List.not_mem_nil, decide_false, Bool.false_eq_true, if_false]
    cases hf : ls.findIdx? (fun lv => decide (tl ∈ lv)) with
    | none => rw [hf] at h1; cases h1
    | some i =>
      rw [hf] at h1
      simp only [Except.ok.injEq, Prod.mk.injEq] at h1
      obtain ⟨e1, e2⟩ := h1
      refine ⟨[] :: ls', ?_, by simpa [tagged] using h2, by omega⟩
      simp only [Option.map_some, Except.ok.injEq, Prod.mk.injEq]
      exact ⟨by omega, by rw [List.modify_succ_cons, e2]⟩
  | (x :: xs) :: ls, k, j, rest, h => by
    simp only [tagged, List.map_cons, List.cons_append, List.cons.injEq, Prod.mk.injEq] at h
    obtain ⟨⟨rfl, rfl⟩, h⟩ := h
    refine ⟨xs :: ls, ?_, by simpa [tagged] using h, le_rfl⟩
    unfold takeOut
    rw [List.findIdx?_cons]
    simp

/-- The remaining loops of all operands agree on the tags `T`. -/
private def Inv (ops : List Op) (tm : Dict Op (Levels Dim)) (T : Op → List (Loop Dim × Nat)) : Prop :=
  ∀ op ∈ ops, ∃ levels, tm.get? op = some levels ∧ tagged 0 levels = T op

private theorem opLoop_spec (name : Op → Nat → Except PyErr Mem) (mem : Op → Nat → Mem) (tl : Loop Dim) :
    ∀ (ops : List Op) (tm : Dict Op (Levels Dim)) (T : Op → List (Loop Dim × Nat)) (lvl : Op → Nat), ops.Nodup →
      (∀ op ∈ ops, name op (lvl op) = .ok (mem op (lvl op))) →
      Inv ops tm (fun op => (tl, lvl op) :: T op) →
      ∃ tm', opLoop name tl ops tm = .ok (ops.map (fun op => mem op (lvl op)), tm') ∧ Inv ops tm' T ∧
        ∀ op, op ∉ ops → tm'.get? op = tm.get? op
  | [], tm, T, lvl, _, _, _ => ⟨tm, rfl, fun op h => by simp at h, fun _ _ => rfl⟩
  | op :: ops, tm, T, lvl, hnd, hname, hinv => by
    obtain ⟨levels, h1, h2⟩ := hinv op (by simp)
    obtain ⟨levels', h3, h4, _⟩ := takeOut_tagged tl levels 0 (lvl op) (T op) h2
    rw [Nat.sub_zero] at h3
    have hnot := (List.nodup_cons.1 hnd).1
    obtain ⟨tm', h5, h6, h7⟩ := opLoop_spec name mem tl ops (tm.set op levels') T lvl (List.nodup_cons.1 hnd).2
      (fun o ho => hname o (by simp [ho])) (fun o ho => by
        have hne : o ≠ op := fun e => hnot (e ▸ ho)
        obtain ⟨l, a, b⟩ := hinv o (by simp [ho])
        exact ⟨l, by rw [Dict.get?_set, if_neg hne.symm]; exact a, b⟩)
    refine ⟨tm', ?_, ?_, ?_⟩
    · unfold opLoop
      rw [h1]
      simp only [h3, hname op (by simp), h5, List.map_cons]
    · intro o ho
      rcases List.mem_cons.1 ho with rfl | ho
      · exact ⟨levels', by rw [h7 _ hnot, Dict.get?_set_self], h4⟩
      · exact h6 o ho
    · intro o ho
      simp only [List.mem_cons, not_or] at ho
      rw [h7 o ho.2, Dict.get?_set, if_neg (Ne.symm ho.1)]

/-- What is listed: one entry per loop with, per operand, the memory of the level the loop is stored at. -/
def listed (mem : Op → Nat → Mem) (ops : List Op) : List (Loop Dim) → (Op → List (Loop Dim × Nat)) → List (Entry Dim Mem)
  | [], _ => []
  | l :: ls, T => ⟨l.1, l.2, ops.map (fun op => mem op ((T op).head?.elim 0 Prod.snd))⟩ :: listed mem ops ls (fun op => (T op).tail)

private theorem loopLoop_spec (name : Op → Nat → Except PyErr Mem) (mem : Op → Nat → Mem) (ops : List Op) (hnd : ops.Nodup) :
    ∀ (loops : List (Loop Dim)) (tm : Dict Op (Levels Dim)) (T : Op → List (Loop Dim × Nat)),
      (∀ op ∈ ops, ∀ x ∈ T op, name op x.2 = .ok (mem op x.2)) → (∀ op ∈ ops, (T op).map Prod.fst = loops) → Inv ops tm T →
      loopLoop name ops loops tm = .ok (listed mem ops loops T)
  | [], tm, T, _, _, _ => rfl
  | l :: ls, tm, T, hname, hT, hinv => by
    have hh : ∀ op ∈ ops, T op = (l, (T op).head?.elim 0 Prod.snd) :: (T op).tail := by
      intro op ho
      have := hT op ho
      cases hto : T op with
      | nil => rw [hto] at this; cases this
      | cons x t =>
        rw [hto] at this
        simp only [List.map_cons, List.cons.injEq] at this
        simp [← this.1]
    obtain ⟨tm', h1, h2, _⟩ := opLoop_spec name mem l ops tm (fun op => (T op).tail) (fun op => (T op).head?.elim 0 Prod.snd) hnd
      (fun op ho => hname op ho (l, (T op).head?.elim 0 Prod.snd) (by
        have h := hh op ho
        exact h ▸ List.mem_cons_self))
      (fun op ho => by
        obtain ⟨lv, a, b⟩ := hinv op ho
        exact ⟨lv, a, b.trans (hh op ho)⟩)
    have h3 := loopLoop_spec name mem ops hnd ls tm' (fun op => (T op).tail)
      (fun op ho x hx => hname op ho x (List.mem_of_mem_tail hx)) (fun op ho => by
        have := hT op ho
        rw [List.map_tail, this, List.tail_cons]) h2
    unfold loopLoop
    simp only [h1, h3, listed]

theorem listed_get (mem : Op → Nat → Mem) (ops : List Op) : ∀ (loops : List (Loop Dim)) (T : Op → List (Loop Dim × Nat)) (i : Nat)
    (l : Loop Dim), loops[i]? = some l →
    (listed mem ops loops T)[i]? = some ⟨l.1, l.2, ops.map (fun op => mem op (((T op).drop i).head?.elim 0 Prod.snd))⟩
  | [], _, i, l, h => by simp at h
  | x :: xs, T, 0, l, h => by
    simp only [List.getElem?_cons_zero, Option.some.injEq] at h
    subst h
    simp [listed]
  | x :: xs, T, i + 1, l, h => by
    rw [List.getElem?_cons_succ] at h
    simp only [listed, List.getElem?_cons_succ]
    rw [listed_get mem ops xs (fun op => (T op).tail) i l h]
    simp [List.tail_drop]

theorem listed_length (mem : Op → Nat → Mem) (ops : List Op) : ∀ (loops : List (Loop Dim)) (T : Op → List (Loop Dim × Nat)),
    (listed mem ops loops T).length = loops.length
  | [], _ => rfl
  | _ :: xs, T => by simp [listed, listed_length mem ops xs]

/-- C96: whenever the operands have the same loops in the same order (as all mappings of the allocator have), the listing does not
raise and lists every loop once, innermost first, and for every operand the memory at whose level this very loop is stored -- also
if the same loop occurs several times. -/
theorem loops_listed (name : Op → Nat → Except PyErr Mem) (mem : Op → Nat → Mem) {ops : List Op} (hnd : ops.Nodup) {out : Op}
    (hout : out ∈ ops) {tm : Dict Op (Levels Dim)} {loops : List (Loop Dim)} {lv : Op → Levels Dim}
    (h : ∀ op ∈ ops, tm.get? op = some (lv op) ∧ (lv op).flatten = loops)
    (hname : ∀ op ∈ ops, ∀ k < (lv op).length, name op k = .ok (mem op k)) :
    ∃ es, getTemporalLoops name ops out tm = .ok es ∧ es.length = loops.length ∧
      ∀ (i : Nat) (e : Entry Dim Mem), es[i]? = some e → loops[i]? = some (e.dim, e.size) ∧
        ∃ at' : Op → Nat, e.mems = ops.map (fun op => mem op (at' op)) ∧
          ∀ op ∈ ops, (tagged 0 (lv op))[i]? = some ((e.dim, e.size), at' op) := by
  have hT : ∀ op ∈ ops, (tagged 0 (lv op)).map Prod.fst = loops := fun op ho => by rw [tagged_fst, (h op ho).2]
  have hs := loopLoop_spec name mem ops hnd loops tm (fun op => tagged 0 (lv op))
    (fun op ho x hx => by
      obtain ⟨_, l, h2, _⟩ := tagged_get (lv op) 0 x.1 x.2 hx
      rw [Nat.sub_zero] at h2
      exact hname op ho x.2 (List.getElem?_eq_some_iff.1 h2).1)
    hT (fun op ho => ⟨lv op, (h op ho).1, rfl⟩)
  refine ⟨_, by unfold getTemporalLoops; rw [(h out hout).1]; simp only; rw [(h out hout).2]; exact hs, listed_length mem ops _ _, ?_⟩
  intro i e he
  have hi : i < loops.length := by
    have := (List.getElem?_eq_some_iff.1 he).1
    rwa [listed_length] at this
  have hl : loops[i]? = some loops[i] := List.getElem?_eq_getElem hi
  rw [listed_get mem ops loops _ i _ hl] at he
  simp only [Option.some.injEq] at he
  subst he
  refine ⟨hl, _, rfl, fun op ho => ?_⟩
  have hm := hT op ho
  have hlen : i < (tagged 0 (lv op)).length := by
    have := congrArg List.length hm
    rw [List.length_map] at this; omega
  have hfst : (tagged 0 (lv op))[i].1 = loops[i] := by
    have := congrArg (fun l => l[i]?) hm
    simp only [List.getElem?_map, List.getElem?_eq_getElem hlen, List.getElem?_eq_getElem hi, Option.map_some, Option.some.injEq] at this
    exact this
  rw [List.getElem?_eq_getElem hlen, List.head?_drop, List.getElem?_eq_getElem hlen]
  simp [← hfst]

private theorem print_spec (par : Bool) (step : Nat) : ∀ (es : List (Entry Dim Mem)) (offset : Nat), (∀ e ∈ es, 3 ≤ e.mems.length) →
    ∃ rows, recursivePrint par step es offset = .ok (rows, offset + step * es.length) ∧ rows.length = es.length ∧
      ∀ (i : Nat) (r : Row Dim Mem), rows[i]? = some r → ∃ e, es[i]? = some e ∧ r.indent = offset + step * i ∧ r.parallel = par ∧
        r.dim = e.dim ∧ r.size = e.size ∧ e.mems.take 3 = [r.mems.1, r.mems.2.1, r.mems.2.2]
  | [], offset, _ => ⟨[], rfl, rfl, fun i r h => by simp at h⟩
  | e :: es, offset, h => by
    obtain ⟨rows, h1, h2, h3⟩ := print_spec par step es (offset + step) (fun x hx => h x (by simp [hx]))
    have h0 := h e (by simp)
    match hm : e.mems with
    | [] => rw [hm] at h0; simp at h0
    | [_] => rw [hm] at h0; simp at h0
    | [_, _] => rw [hm] at h0; simp at h0
    | a :: b :: c :: t =>
      refine ⟨⟨offset, par, e.dim, e.size, (a, b, c)⟩ :: rows, ?_, by simp [h2], ?_⟩
      · unfold recursivePrint
        simp only [hm, h1, List.length_cons, Except.ok.injEq, Prod.mk.injEq, true_and]
        ring
      · intro i r hr
        match i with
        | 0 =>
          simp only [List.getElem?_cons_zero, Option.some.injEq] at hr
          subst hr
          exact ⟨e, rfl, by simp, rfl, rfl, rfl, by simp [hm]⟩
        | i + 1 =>
          rw [List.getElem?_cons_succ] at hr
          obtain ⟨e', g1, g2, g3⟩ := h3 i r hr
          exact ⟨e', by rw [List.getElem?_cons_succ]; exact g1, by rw [g2]; ring, g3⟩

/-- C96: what is printed for a mapping of a layer with three operands.  From the outermost to the innermost, first every temporal
loop once, each indented one step further than the previous, with the three memories whose level stores it; then every spatial
loop. -/
theorem rows_printed (blank : Mem) (name : Op → Nat → Except PyErr Mem) (mem : Op → Nat → Mem) (offsets : Nat) {a b c : Op}
    (hnd : [a, b, c].Nodup) {out : Op} (hout : out ∈ [a, b, c]) {tm : Dict Op (Levels Dim)} {loops : List (Loop Dim)} {lv : Op → Levels Dim}
    (h : ∀ op ∈ [a, b, c], tm.get? op = some (lv op) ∧ (lv op).flatten = loops) (hne : loops ≠ [])
    (hname : ∀ op ∈ [a, b, c], ∀ k < (lv op).length, name op k = .ok (mem op k)) (sm : Levels Dim) :
    ∃ rows, printMapping blank name offsets [a, b, c] out tm sm = .ok rows ∧
      rows.map (fun r => (r.parallel, r.dim, r.size)) =
        loops.reverse.map (fun l => (false, l.1, l.2)) ++ sm.flatten.reverse.map (fun l => (true, l.1, l.2)) ∧
      (∀ (i : Nat) (r : Row Dim Mem), rows[i]? = some r → r.indent = offsets * min i loops.length) ∧
      ∀ (i : Nat) (r : Row Dim Mem), i < loops.length → rows[i]? = some r → ∃ ka kb kc,
        r.mems = (mem a ka, mem b kb, mem c kc) ∧
        (tagged 0 (lv a))[loops.length - 1 - i]? = some ((r.dim, r.size), ka) ∧
        (tagged 0 (lv b))[loops.length - 1 - i]? = some ((r.dim, r.size), kb) ∧
        (tagged 0 (lv c))[loops.length - 1 - i]? = some ((r.dim, r.size), kc) := by
  obtain ⟨es, h1, h2, h3⟩ := loops_listed name mem hnd hout h hname
  have hall : ∀ e ∈ es.reverse, 3 ≤ e.mems.length := by
    intro e he
    obtain ⟨i, hi⟩ := List.mem_iff_getElem?.1 (List.mem_reverse.1 he)
    obtain ⟨_, f, g, _⟩ := h3 i e hi
    rw [g]; simp
  obtain ⟨rows, p1, p2, p3⟩ := print_spec false offsets es.reverse 0 hall
  have hlen : es.reverse.length = loops.length := by rw [List.length_reverse, h2]
  rw [Nat.zero_add, hlen] at p1
  obtain ⟨srows, q1, q2, q3⟩ := print_spec true 0 (getSpatialLoops blank sm) (offsets * loops.length) (by
    intro e he
    unfold getSpatialLoops at he
    obtain ⟨x, _, rfl⟩ := List.mem_map.1 (List.mem_reverse.1 he)
    simp)
  have hes : es.isEmpty = false := by
    cases es with
    | nil => exact absurd (List.length_eq_zero_iff.1 h2.symm) hne
    | cons x t => rfl
  have hrl : rows.length = loops.length := by rw [p2, hlen]
  refine ⟨rows ++ srows, ?_, ?_, ?_, ?_⟩
  · unfold printMapping
    rw [h1]
    simp only [hes, Bool.false_eq_true, if_false, List.isEmpty_cons, List.length_cons, List.length_nil, ne_eq, not_true_eq_false, p1, q1]
  · rw [List.map_append]
    congr 1
    · apply List.ext_getElem?
      intro i
      rw [List.getElem?_map, List.getElem?_map]
      cases hr : rows[i]? with
      | none =>
        rw [List.getElem?_eq_none_iff] at hr
        rw [List.getElem?_eq_none_iff.2 (by rw [List.length_reverse]; omega)]; rfl
      | some r =>
        obtain ⟨e, g1, _, g3, g4, g5, _⟩ := p3 i r hr
        have hi : i < es.length := by
          have := (List.getElem?_eq_some_iff.1 g1).1
          rwa [List.length_reverse] at this
        rw [List.getElem?_reverse hi] at g1
        obtain ⟨k1, _⟩ := h3 _ e g1
        rw [List.getElem?_reverse (by omega)]
        rw [h2] at k1
        rw [k1]
        simp [g3, g4, g5]
    · apply List.ext_getElem?
      intro i
      rw [List.getElem?_map, List.getElem?_map]
      cases hr : srows[i]? with
      | none =>
        rw [List.getElem?_eq_none_iff] at hr
        rw [List.getElem?_eq_none_iff.2 (by
          rw [q2] at hr
          simp only [getSpatialLoops, List.length_reverse, List.length_map] at hr
          rw [List.length_reverse]; exact hr)]; rfl
      | some r =>
        obtain ⟨e, g1, _, g3, g4, g5, _⟩ := q3 i r hr
        unfold getSpatialLoops at g1
        rw [← List.map_reverse, List.getElem?_map] at g1
        cases hx : sm.flatten.reverse[i]? with
        | none => rw [hx] at g1; cases g1
        | some x =>
          rw [hx] at g1
          simp only [Option.map_some, Option.some.injEq] at g1
          subst g1
          simp [g3, g4, g5]
  · intro i r hr
    by_cases hi : i < rows.length
    · rw [List.getElem?_append_left hi] at hr
      obtain ⟨_, _, g2, _⟩ := p3 i r hr
      rw [g2, Nat.zero_add, min_eq_left (by omega)]
    · rw [List.getElem?_append_right (by omega)] at hr
      obtain ⟨_, _, g2, _⟩ := q3 _ r hr
      rw [g2, Nat.zero_mul, Nat.add_zero, min_eq_right (by omega)]
  · intro i r hi hr
    rw [List.getElem?_append_left (by omega)] at hr
    obtain ⟨e, g1, _, _, g4, g5, g6⟩ := p3 i r hr
    rw [List.getElem?_reverse (by omega)] at g1
    rw [h2] at g1
    obtain ⟨_, f, k2, k3⟩ := h3 _ e g1
    rw [k2] at g6
    simp only [List.map_cons, List.map_nil, List.take_succ_cons, List.take_zero, List.cons.injEq, and_true] at g6
    refine ⟨f a, f b, f c, ?_, ?_, ?_, ?_⟩
    · rw [g6.1, g6.2.1, g6.2.2]
    · rw [g4, g5]; exact k3 a (by simp)
    · rw [g4, g5]; exact k3 b (by simp)
    · rw [g4, g5]; exact k3 c (by simp)

/-- C96, end to end: every mapping of the memory allocator, after the merge-down of stationary loops, is printed without error and
the printed temporal loops are the scheduled order, outermost first. -/
theorem allocated_printed {a b c : Op} {env : Alloc.Env Op Dim} (hops : env.memOps = [a, b, c]) (hnd : [a, b, c].Nodup)
    {ordering : List (Dim × ℚ)} (hne : ordering ≠ []) {nodes : List (Alloc.Node Op)} {tm : Op → List (List (Dim × ℚ))}
    (hn : ∀ n ∈ nodes, n.ops.Nodup) (h : Alloc.run env ordering nodes = .ok tm)
    (htop : ∀ op ∈ env.memOps, ∃ n ∈ nodes, op ∈ n.ops ∧ n.isTop op = true) (ir : Op → Dim → Bool)
    (blank : Mem) (mem : Op → Nat → Mem) (name : Op → Nat → Except PyErr Mem)
    (hname : ∀ op ∈ env.memOps, ∀ k < (nodes.filter (fun n => decide (op ∈ n.ops))).length, name op k = .ok (mem op k))
    (offsets : Nat) (sm : Levels Dim) :
    ∃ N merged, (∀ fuel, N ≤ fuel → TemporalMapping.mergeLoop ir fuel (env.memOps.map (fun op => (op, tm op))) = some merged) ∧
      ∃ rows, printMapping blank name offsets env.memOps c (merged.map (fun q => (q.1, q.2.1))) sm = .ok rows ∧
        rows.map (fun r => (r.parallel, r.dim, r.size)) =
          ordering.reverse.map (fun l => (false, l.1, l.2)) ++ sm.flatten.reverse.map (fun l => (true, l.1, l.2)) := by
  obtain ⟨N, merged, h1, h2⟩ := TemporalMapping.merge_down_preserves ir (env.memOps.map (fun op => (op, tm op)))
  refine ⟨N, merged, h1, ?_⟩
  rw [hops] at h2 htop hname ⊢
  have hrun := fun op hop => Alloc.run_keeps_order hn h op (by rw [hops]; exact hop) (htop op hop)
  simp only [List.map_cons, List.map_nil] at h2
  match merged, h2 with
  | [qa, qb, qc], h2 =>
    simp only [List.forall₂_cons, List.forall₂_nil_left_iff, and_true] at h2
    obtain ⟨⟨a1, a2, a3⟩, ⟨b1, b2, b3⟩, ⟨c1, c2, c3⟩⟩ := h2
    have hab : a ≠ b := by rintro rfl; simp at hnd
    have hac : a ≠ c := by rintro rfl; simp at hnd
    have hbc : b ≠ c := by rintro rfl; simp at hnd
    have hla := hrun a (by simp)
    have hlb := hrun b (by simp)
    have hlc := hrun c (by simp)
    obtain ⟨rows, r1, r2, _⟩ := rows_printed blank name mem offsets hnd (out := c) (by simp)
      (tm := [(qa.1, qa.2.1), (qb.1, qb.2.1), (qc.1, qc.2.1)]) (loops := ordering)
      (lv := fun op => if op = a then qa.2.1 else if op = b then qb.2.1 else qc.2.1) (by
        intro op hop
        simp only [List.mem_cons, List.not_mem_nil, or_false] at hop
        rcases hop with rfl | rfl | rfl
        · simp [Dict.get?_cons, a1, a3, hla.1]
        · simp [Dict.get?_cons, a1, b1, b3, hlb.1, hab, hab.symm]
        · simp [Dict.get?_cons, a1, b1, c1, c3, hlc.1, hac, hbc, hac.symm, hbc.symm]) hne (by
        intro op hop k hk
        apply hname op hop
        simp only [List.mem_cons, List.not_mem_nil, or_false] at hop
        rcases hop with rfl | rfl | rfl
        · rw [if_pos rfl, a2, hla.2] at hk; exact hk
        · rw [if_neg hab.symm, if_pos rfl, b2, hlb.2] at hk; exact hk
        · rw [if_neg hac.symm, if_neg hbc.symm, c2, hlc.2] at hk; exact hk) sm
    exact ⟨rows, r1, r2⟩

/-- C96: an evaluation whose nest has no temporal loop is not printed: the maximum over no loops raises. -/
theorem empty_nest_raises (blank : Mem) (name : Op → Nat → Except PyErr Mem) (offsets : Nat) (ops : List Op) (out : Op)
    (tm : Dict Op (Levels Dim)) (lv : Levels Dim) (h : tm.get? out = some lv) (he : lv.flatten = []) (sm : Levels Dim) :
    printMapping blank name offsets ops out tm sm = .error .valueError := by
  unfold printMapping getTemporalLoops
  rw [h]
  simp [he, loopLoop]

/-- Three operands with two, one and two levels; the loop `(0, 2)` occurs twice and is stored at different levels for operand 0.
The order in the text is outermost first. -/
example : (match printMapping (Op := Nat) (Dim := Nat) (Mem := Nat × Nat) (9, 9) (fun op k => .ok (op, k)) 2 [0, 1, 2] 2
      [(0, [[(0, 2)], [(1, 3), (0, 2)]]), (1, [[(0, 2), (1, 3), (0, 2)]]), (2, [[(0, 2), (1, 3)], [(0, 2)]])] [[(1, 4)], [(0, 2)]] with
    | .ok rows => rows
    | .error _ => []) =
    [⟨0, false, 0, 2, ((0, 1), (1, 0), (2, 1))⟩, ⟨2, false, 1, 3, ((0, 1), (1, 0), (2, 0))⟩, ⟨4, false, 0, 2, ((0, 0), (1, 0), (2, 0))⟩,
     ⟨6, true, 0, 2, ((9, 9), (9, 9), (9, 9))⟩, ⟨6, true, 1, 4, ((9, 9), (9, 9), (9, 9))⟩] := by decide +kernel

end Verif.Print
