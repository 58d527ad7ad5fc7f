import Verif.Whole.Spec
import Verif.Ports.Props

/-! The accelerator that is built from the file. -/

namespace Verif.Whole

open Evaluate (Hw Mem Port Built needed)
open Latency (Operand Key)
open Ports (MemD PortD buildMem)

variable {OA : Type} [DecidableEq OA] {cacti : MemD Operand OA → ℚ × ℚ}

theorem dirOf_meaning (d : Ports.Dir) : dirOf d = meaning d := by cases d <;> rfl

theorem dirOf_inj {a b : Ports.Dir} (h : dirOf a = dirOf b) : a = b := by cases a <;> cases b <;> first | rfl | cases h

/-- The memory that is built from an entry. -/
structure MemSpec (m : MemD Operand OA) (levels : Dict Operand Nat) (x : Mem) : Prop where
  holds : x.holds = levels
  size : x.size = m.size.toNat
  bw : ∀ p ∈ x.ports, p.bwMax ≠ 0 ∧ p.bwMin ≠ 0
  served : ∀ k : Key, (∃ p ∈ x.ports, k ∈ p.served) ↔ levels.get? k.1 = some k.2.1 ∧ ∃ p ∈ m.ports, ∃ a ∈ p.alloc, a.1 = k.1 ∧ dirOf a.2 = k.2.2
  once : (x.ports.flatMap Port.served).Nodup
  entry : IsEntry m x

theorem zipIdx_pairwise {α : Type} (l : List α) : l.zipIdx.Pairwise fun p q => p.2 ≠ q.2 := by
  have h : (l.zipIdx.map Prod.snd).Nodup := by
    rw [List.zipIdx_map_snd]
    exact List.nodup_range'
  exact List.pairwise_map.1 h

theorem memOf_ok {m : MemD Operand OA} (M : MemOk m) {levels : Dict Operand Nat} (hw : levels.WF) (hk : ∀ o ∈ levels.keys, o ∈ m.operands) :
    ∃ x, memOf cacti m levels = .ok x ∧ MemSpec m levels x := by
  obtain ⟨st, hst⟩ := (Ports.build_ok_iff m M.names levels hw hk).2 M.only
  obtain ⟨h1, -, -, h4⟩ := Ports.ports_partial m M.names levels hw hk M.unique st hst
  obtain ⟨-, -, -, h5⟩ := Ports.last_declared m M.names levels hw hk st hst
  have hna : ¬ (m.auto ∧ ∀ p ∈ m.ports, p.type = .write) := by
    rintro ⟨ha, hp⟩
    obtain ⟨p, hp1, hp2⟩ := M.readable ha
    exact hp2 (hp p hp1)
  unfold memOf
  rw [if_neg hna, hst]
  refine ⟨_, rfl, rfl, rfl, ?_, ?_, ?_, ?_⟩
  · intro p hp
    obtain ⟨q, hq, rfl⟩ := List.mem_map.1 hp
    have hq1 := List.fst_mem_of_mem_zipIdx (List.mem_filter.1 hq).1
    have := M.bw _ hq1
    simp only
    omega
  · rintro ⟨o, lv, d⟩
    simp only [List.mem_map, List.mem_filter]
    constructor
    · rintro ⟨_, ⟨q, ⟨hq, _⟩, rfl⟩, hk⟩
      obtain ⟨⟨o', lv', d'⟩, hk1, hk2⟩ := List.mem_map.1 hk
      simp only [Prod.mk.injEq] at hk2
      obtain ⟨rfl, rfl, rfl⟩ := hk2
      have hg : m.ports[q.2]? = some q.1 := List.mk_mem_zipIdx_iff_getElem?.1 hq
      obtain ⟨g1, g2⟩ := (h1 q.2 q.1 hg o' lv' d').1 hk1
      exact ⟨g1, q.1, List.mem_of_getElem? hg, (o', d'), g2, rfl, rfl⟩
    · rintro ⟨g1, p, hp, ⟨o', d'⟩, ha, rfl, rfl⟩
      obtain ⟨i, hi⟩ := List.getElem?_of_mem hp
      have hs := (h1 i p hi o' lv d').2 ⟨g1, ha⟩
      exact ⟨_, ⟨(p, i), ⟨List.mk_mem_zipIdx_iff_getElem?.2 hi, (h5 i).2 (List.ne_nil_of_mem hs)⟩, rfl⟩, List.mem_map.2 ⟨_, hs, rfl⟩⟩
  · rw [List.flatMap_map, List.nodup_flatMap]
    refine ⟨fun p _ => (h4 p.2).map ?_, ?_⟩
    · rintro ⟨o, l, d⟩ ⟨o', l', d'⟩ he
      simp only [Prod.mk.injEq] at he
      obtain ⟨rfl, rfl, he⟩ := he
      rw [dirOf_inj he]
    · refine ((zipIdx_pairwise m.ports).filter _).imp_of_mem ?_
      intro p q hp hq hne k hkp hkq
      obtain ⟨⟨o, l, d⟩, a1, a2⟩ := List.mem_map.1 hkp
      obtain ⟨⟨o', l', d'⟩, b1, b2⟩ := List.mem_map.1 hkq
      rw [← a2] at b2
      simp only [Prod.mk.injEq] at b2
      obtain ⟨rfl, rfl, he⟩ := b2
      rw [dirOf_inj he] at b1
      have gp : m.ports[p.2]? = some p.1 := List.mk_mem_zipIdx_iff_getElem?.1 (List.mem_filter.1 hp).1
      have gq : m.ports[q.2]? = some q.1 := List.mk_mem_zipIdx_iff_getElem?.1 (List.mem_filter.1 hq).1
      have e := M.unique p.1 (List.mem_of_getElem? gp) q.1 (List.mem_of_getElem? gq) _ ((h1 _ _ gp _ _ _).1 a1).2 ((h1 _ _ gq _ _ _).1 b1).2
      have hn := M.names.of_map
      obtain ⟨l1, e1⟩ := List.getElem?_eq_some_iff.1 gp
      obtain ⟨l2, e2⟩ := List.getElem?_eq_some_iff.1 gq
      exact hne ((List.Nodup.getElem_inj_iff hn).1 (by rw [e1, e2, e]))
  · refine ⟨Int.toNat_of_nonneg (by have := M.size; omega), ?_, ?_⟩
    · intro ha
      simp only [prices]
      rw [if_neg (by simp [ha])]
      exact ⟨rfl, rfl⟩
    · intro p hp
      obtain ⟨q, hq, rfl⟩ := List.mem_map.1 hp
      have hq0 := (List.mem_filter.1 hq).1
      have hq1 := List.fst_mem_of_mem_zipIdx hq0
      have hb := M.bw _ hq1
      refine ⟨q.1, hq1, Int.toNat_of_nonneg (by omega), Int.toNat_of_nonneg (by omega), ?_⟩
      intro k hk
      obtain ⟨⟨o', lv', d'⟩, hk1, rfl⟩ := List.mem_map.1 hk
      exact ⟨(o', d'), ((h1 q.2 q.1 (List.mk_mem_zipIdx_iff_getElem?.1 hq0) o' lv' d').1 hk1).2, rfl, (dirOf_meaning d').symm⟩

theorem memsOf_ok : ∀ {ms : List (MemD Operand OA)} {ns : List (Hierarchy.Mem Operand)},
    List.Forall₂ (fun m n => MemOk m ∧ n.levels.WF ∧ ∀ o ∈ n.levels.keys, o ∈ m.operands) ms ns →
    ∃ xs, memsOf cacti ms ns = .ok xs ∧ xs.length = ms.length ∧
      ∀ (i : Nat) (m : MemD Operand OA) (n : Hierarchy.Mem Operand), ms[i]? = some m → ns[i]? = some n → ∃ x, xs[i]? = some x ∧ MemSpec m n.levels x
  | [], [], _ => ⟨[], rfl, rfl, by simp⟩
  | m :: ms, n :: ns, .cons ⟨h1, h2, h3⟩ hs => by
    obtain ⟨x, hx, sx⟩ := memOf_ok (cacti := cacti) h1 h2 h3
    obtain ⟨xs, hxs, hl, hsp⟩ := memsOf_ok hs
    refine ⟨x :: xs, by unfold memsOf; rw [hx]; simp only; rw [hxs], by simp [hl], ?_⟩
    rintro (_ | i) m' n' hm hn
    · simp only [List.getElem?_cons_zero, Option.some.injEq] at hm hn
      subst hm hn
      exact ⟨x, rfl, sx⟩
    · simpa using hsp i m' n' (by simpa using hm) (by simpa using hn)

/-! ### Lists of places -/

theorem filter_place {α : Type} {A : List α} {p : α → Bool} {i : Nat} {x : α} (h : A[i]? = some x) (hp : p x = true) : (A.filter p)[((A.take i).filter p).length]? = some x := by
  obtain ⟨hl, he⟩ := List.getElem?_eq_some_iff.1 h
  have hsplit : A = A.take i ++ x :: A.drop (i + 1) := by
    rw [← he, List.cons_getElem_drop_succ, List.take_append_drop]
  conv_lhs => arg 1; rw [hsplit]
  rw [List.filter_append, List.getElem?_append_right (le_refl _), List.filter_cons_of_pos hp, Nat.sub_self, List.getElem?_cons_zero]

theorem pick_get {α : Type} (A : List α) : ∀ (l : List Nat), (∀ i ∈ l, i < A.length) → ∀ k : Nat, (l.filterMap fun i => A[i]?)[k]? = l[k]?.bind fun i => A[i]?
  | [], _, k => by simp
  | i :: l, h, k => by
    have hl : i < A.length := h i List.mem_cons_self
    have hi : A[i]? = some A[i] := List.getElem?_eq_getElem hl
    rw [List.filterMap_cons_some hi]
    cases k with
    | zero => simp [hi]
    | succ k => simpa using pick_get A l (fun j hj => h j (List.mem_cons_of_mem _ hj)) k

theorem pick_filter {α : Type} (A : List α) (p : α → Bool) (q : Nat → Bool) (hq : ∀ i a, A[i]? = some a → q i = p a) : ∀ (l : List Nat), (∀ i ∈ l, i < A.length) →
    (l.filterMap fun i => A[i]?).filter p = (l.filter q).filterMap fun i => A[i]?
  | [], _ => rfl
  | i :: l, h => by
    have hl : i < A.length := h i List.mem_cons_self
    have hi : A[i]? = some A[i] := List.getElem?_eq_getElem hl
    have ih := pick_filter A p q hq l fun j hj => h j (List.mem_cons_of_mem _ hj)
    rw [List.filterMap_cons_some hi, List.filter_cons, List.filter_cons, hq i _ hi]
    split
    · rw [List.filterMap_cons_some hi, ih]
    · exact ih

/-- What is known of an accelerator that has been built. -/
structure AccSpec (a : AccD OA) (c : Acc OA) : Prop where
  built : Built c.hw
  sorted : c.topo.Perm c.hw.mems
  levels : ∀ op, c.hw.levels op = c.topo.filter fun m => decide (op ∈ m.holds.map Prod.fst)
  count : ∀ op, (c.hw.levels op).length = (a.mems.filter fun m => decide (op ∈ m.operands)).length
  served : ∀ op, (c.served op).length = (c.hw.levels op).length
  serves : ∀ op lv m, (c.hw.levels op)[lv]? = some m → ∀ d ∈ needed op (decide (lv + 1 = (c.hw.levels op).length)), ∃ p ∈ m.ports, (op, lv, d) ∈ p.served
  linked : ∀ p ∈ c.hw.ports, ∀ k ∈ p.served, ∃ m ∈ a.mems, k.1 ∈ m.operands
  units : c.hw.units = Hierarchy.totalUnits a.sizes
  written : ∀ op, List.Forall₂ IsEntry (storing a op) (c.hw.levels op)
  dims : ∀ op, c.served op = (storing a op).map MemD.served
  mac : c.hw.macEnergy = a.macEnergy

/-- C147: an accelerator file in which everything that is needed is declared gives an accelerator. -/
theorem accelerator_ok {a : AccD OA} (A : AccOk a) : ∃ c, accelerator cacti a = .ok c ∧ AccSpec a c := by
  set ml := a.mems.map MemD.operands with hml
  set g := Hierarchy.build ml with hg
  have hi := Hierarchy.inv_build ml
  have hlen : g.nodes.length = a.mems.length := by rw [Hierarchy.length_build]; simp [hml]
  -- entry and node
  have hnode : ∀ (k : Nat) m, a.mems[k]? = some m → ∃ n, g.nodes[k]? = some n ∧ n.operands = m.operands ∧ n.levels.WF ∧
      ∀ op, n.levels.get? op = if op ∈ m.operands then some ((a.mems.take k).filter fun m => decide (op ∈ m.operands)).length else none := by
    intro k m hm
    have hk : ml[k]? = some m.operands := by rw [hml, List.getElem?_map, hm]; rfl
    obtain ⟨n, n1, -, n3, -⟩ := Hierarchy.level_numbering ml k m.operands hk .out
    refine ⟨n, n1, n3, hi.wf n (List.mem_of_getElem? n1), fun op => ?_⟩
    obtain ⟨n', n1', -, -, n4'⟩ := Hierarchy.level_numbering ml k m.operands hk op
    rw [n1] at n1'
    cases n1'
    rw [n4', hml, ← List.map_take, List.filter_map, List.length_map]
    rfl
  have hkeys : ∀ (k : Nat) m n, a.mems[k]? = some m → g.nodes[k]? = some n → ∀ o ∈ n.levels.keys, o ∈ m.operands := by
    intro k m n hm hn o ho
    obtain ⟨n', n1, -, -, n4⟩ := hnode k m hm
    rw [hn] at n1; cases n1
    by_contra hc
    have := n4 o
    rw [if_neg hc, Dict.get?_eq_none_iff] at this
    exact this ho
  obtain ⟨ms, hms, hmsl, hspec⟩ := memsOf_ok (cacti := cacti) (ms := a.mems) (ns := g.nodes) (by
    rw [List.forall₂_iff_get]
    refine ⟨hlen.symm, fun k h1 h2 => ?_⟩
    have e1 : a.mems[k]? = some a.mems[k] := List.getElem?_eq_getElem h1
    have e2 : g.nodes[k]? = some g.nodes[k] := List.getElem?_eq_getElem h2
    exact ⟨A.mems _ (List.mem_of_getElem? e1), hi.wf _ (List.mem_of_getElem? e2), hkeys k _ _ e1 e2⟩)
  obtain ⟨order, ho, ht⟩ := Hierarchy.topoSort_build ml
  have hperm := ht.1
  rw [Hierarchy.ids_eq_range hi, Hierarchy.length_build] at hperm
  rw [show ml.length = a.mems.length by simp [hml]] at hperm
  have hlt : ∀ i ∈ order, i < a.mems.length := fun i hx => by simpa using hperm.mem_iff.1 hx
  -- the built memory at a place
  have hat : ∀ (k : Nat) (x : Mem), ms[k]? = some x → ∃ m n, a.mems[k]? = some m ∧ g.nodes[k]? = some n ∧ MemSpec m n.levels x ∧ n.operands = m.operands ∧ n.levels.WF ∧
      ∀ op, n.levels.get? op = if op ∈ m.operands then some ((a.mems.take k).filter fun m => decide (op ∈ m.operands)).length else none := by
    intro k x hx
    have hk : k < a.mems.length := by rw [← hmsl]; exact (List.getElem?_eq_some_iff.1 hx).1
    have e1 : a.mems[k]? = some a.mems[k] := List.getElem?_eq_getElem hk
    obtain ⟨n, n1, n2, n3, n4⟩ := hnode k _ e1
    obtain ⟨x', hx', sx⟩ := hspec k _ _ e1 n1
    rw [hx] at hx'; cases hx'
    exact ⟨_, n, e1, n1, sx, n2, n3, n4⟩
  have hmemkey : ∀ (d : Dict Operand Nat) op, op ∈ d.map Prod.fst ↔ (d.get? op).isSome := by
    intro d op
    have := (Dict.get?_eq_none_iff d op)
    constructor
    · intro h
      cases hc : d.get? op with
      | none => exact absurd h (this.1 hc)
      | some v => rfl
    · intro h
      by_contra hc
      rw [this.2 hc] at h
      cases h
  have hholds : ∀ (k : Nat) (x : Mem) (m : MemD Operand OA), ms[k]? = some x → a.mems[k]? = some m → ∀ op, op ∈ x.holds.map Prod.fst ↔ op ∈ m.operands := by
    intro k x m hx hm op
    obtain ⟨m', n, h1, -, sx, -, -, n4⟩ := hat k x hx
    rw [hm] at h1; cases h1
    rw [sx.holds, hmemkey, n4]
    split <;> simp [*]
  -- the places of an operand
  set idx : Operand → List Nat := fun op => order.filter fun i => decide (∃ m, a.mems[i]? = some m ∧ op ∈ m.operands) with hidx
  have hidxlt : ∀ op, ∀ i ∈ idx op, i < a.mems.length := fun op i hx => hlt i (List.mem_filter.1 hx).1
  set topo := order.filterMap fun i => ms[i]? with htopo
  have hlv : ∀ op, (topo.filter fun m => decide (op ∈ m.holds.map Prod.fst)) = (idx op).filterMap fun i => ms[i]? := by
    intro op
    refine pick_filter ms _ _ (fun i x hx => ?_) order (fun i hx => by rw [hmsl]; exact hlt i hx)
    obtain ⟨m, n, h1, -⟩ := hat i x hx
    rw [decide_eq_decide, hholds i x m hx h1]
    simp [h1]
  have hstor : ∀ op, Hierarchy.storing (order.filterMap fun i => g.nodes[i]?) op = (idx op).filterMap fun i => g.nodes[i]? := by
    intro op
    refine pick_filter g.nodes _ _ (fun i n hn => ?_) order (fun i hx => by rw [hlen]; exact hlt i hx)
    have hk : i < a.mems.length := by rw [← hlen]; exact (List.getElem?_eq_some_iff.1 hn).1
    have e1 : a.mems[i]? = some a.mems[i] := List.getElem?_eq_getElem hk
    obtain ⟨n', n1, n2, -⟩ := hnode i _ e1
    rw [hn] at n1; cases n1
    rw [decide_eq_decide, n2]
    simp [e1]
  have hserved : ∀ op, ((order.filterMap fun i => a.mems[i]?).filter fun m => decide (op ∈ m.operands)) = (idx op).filterMap fun i => a.mems[i]? := by
    intro op
    refine pick_filter a.mems _ _ (fun i m hm => ?_) order hlt
    rw [decide_eq_decide]
    simp [hm]
  have hlenpick : ∀ {α : Type} (B : List α) (l : List Nat), (∀ i ∈ l, i < B.length) → (l.filterMap fun i => B[i]?).length = l.length := by
    intro α B l
    induction l with
    | nil => intro _; rfl
    | cons i l ih =>
      intro h
      rw [List.filterMap_cons_some (List.getElem?_eq_getElem (h i List.mem_cons_self)), List.length_cons, List.length_cons,
        ih fun j hj => h j (List.mem_cons_of_mem _ hj)]
  -- the level of an operand at a place
  have hplace : ∀ (op : Operand) (k i : Nat) (m : MemD Operand OA), (idx op)[k]? = some i → a.mems[i]? = some m →
      op ∈ m.operands ∧ ((a.mems.take i).filter fun m => decide (op ∈ m.operands)).length = k := by
    intro op k i m hk hm
    obtain ⟨n, n1, n2, -, n4⟩ := hnode i m hm
    obtain ⟨l, hl, -, hll⟩ := Hierarchy.levels_order_partial ml op (A.aligned op)
    unfold Hierarchy.memoryLevels at hl
    rw [ho] at hl
    simp only at hl
    injection hl with hl
    rw [hstor op] at hl
    have : l[k]? = some n := by
      rw [← hl, pick_get g.nodes _ (fun i hx => by rw [hlen]; exact hidxlt op i hx), hk]
      exact n1
    have h2 := (hll k n this).2
    rw [n4] at h2
    split at h2
    · rename_i hop; exact ⟨hop, by simpa using h2⟩
    · cases h2
  have hfind : ∀ (op : Operand) (i : Nat) (m : MemD Operand OA), a.mems[i]? = some m → op ∈ m.operands → (idx op)[((a.mems.take i).filter fun m => decide (op ∈ m.operands)).length]? = some i := by
    intro op i m hm hop
    have hin : i ∈ idx op := by
      refine List.mem_filter.2 ⟨hperm.mem_iff.2 (by simpa using (List.getElem?_eq_some_iff.1 hm).1), ?_⟩
      simpa using ⟨m, hm, hop⟩
    obtain ⟨k, hk⟩ := List.getElem?_of_mem hin
    rw [(hplace op k i m hk hm).2]
    exact hk
  have hcount : ∀ op, (idx op).length = (a.mems.filter fun m => decide (op ∈ m.operands)).length := by
    intro op
    obtain ⟨l, hl, hl2, -⟩ := Hierarchy.levels_order_partial ml op (A.aligned op)
    unfold Hierarchy.memoryLevels at hl
    rw [ho] at hl
    simp only at hl
    injection hl with hl
    rw [hstor op] at hl
    rw [← hlenpick g.nodes (idx op) (fun i hx => by rw [hlen]; exact hidxlt op i hx), hl, hl2, hml, List.filter_map, List.length_map]
    rfl
  have hget : ∀ (op : Operand) (k : Nat) (x : Mem), ((idx op).filterMap fun i => ms[i]?)[k]? = some x ↔ ∃ i, (idx op)[k]? = some i ∧ ms[i]? = some x := by
    intro op k x
    rw [pick_get ms _ (fun i hx => by rw [hmsl]; exact hidxlt op i hx), Option.bind_eq_some_iff]
  have hsort : topo.Perm ms := by
    have h1 : topo.Perm ((List.range a.mems.length).filterMap fun i => ms[i]?) := hperm.filterMap _
    refine h1.trans (List.Perm.of_eq ?_)
    rw [← hmsl]
    apply List.ext_getElem?
    intro k
    rw [pick_get ms _ (fun i hx => by simpa using hx)]
    by_cases hk : k < ms.length
    · rw [List.getElem?_range hk]; rfl
    · rw [List.getElem?_eq_none (by simpa using hk), List.getElem?_eq_none (by simpa using hk)]; rfl
  have hnum : ∀ (k : Nat) (x : Mem), ms[k]? = some x → ∀ p ∈ x.holds, ((idx p.1).filterMap fun i => ms[i]?)[p.2]? = some x ∧ (idx p.1)[p.2]? = some k := by
    intro k x hx p hp
    obtain ⟨m, n, h1, -, sx, -, nw, n4⟩ := hat k x hx
    rw [sx.holds] at hp
    have hgp := Dict.get?_of_mem nw (show (p.1, p.2) ∈ n.levels from hp)
    rw [n4] at hgp
    split at hgp
    · rename_i hop
      have h2 := hfind p.1 k m h1 hop
      rw [Option.some.inj hgp] at h2
      exact ⟨(hget _ _ _).2 ⟨k, h2, hx⟩, h2⟩
    · cases hgp
  have hlevels : ∀ op, (topo.filter fun m => decide (op ∈ m.holds.map Prod.fst)).length = (idx op).length := fun op => by
    rw [hlv op, hlenpick ms _ (fun i hx => by rw [hmsl]; exact hidxlt op i hx)]
  unfold accelerator
  simp only
  rw [← hml, ← hg, hms]
  simp only
  rw [ho]
  simp only
  refine ⟨_, rfl, ?_⟩
  constructor
  · constructor
    · intro op m hm
      exact hsort.mem_iff.1 (List.mem_filter.1 hm).1
    · intro m hm p hp
      obtain ⟨k, hk⟩ := List.getElem?_of_mem hm
      show (topo.filter fun m => decide (p.1 ∈ m.holds.map Prod.fst))[p.2]? = some m
      rw [hlv]
      exact (hnum k m hk p hp).1
    · intro m hm
      obtain ⟨k, hk⟩ := List.getElem?_of_mem hm
      obtain ⟨m₀, n, -, -, sx, -, nw, -⟩ := hat k m hk
      rw [sx.holds]
      exact nw
    · intro m hm p hp q hq
      obtain ⟨k, hk⟩ := List.getElem?_of_mem hm
      obtain ⟨m₀, n, -, -, sx, -, nw, -⟩ := hat k m hk
      rw [sx.holds]
      exact Dict.mem_of_get? ((sx.served q).1 ⟨p, hp, hq⟩).1
    · unfold Hw.ports
      simp only
      rw [List.flatMap_assoc, List.nodup_flatMap]
      constructor
      · intro m hm
        obtain ⟨k, hk⟩ := List.getElem?_of_mem hm
        obtain ⟨m₀, n, -, -, sx, -⟩ := hat k m hk
        exact sx.once
      · rw [List.pairwise_iff_getElem]
        intro i j hi' hj' hij k hk1 hk2
        obtain ⟨p, hp, hkp⟩ := List.mem_flatMap.1 hk1
        obtain ⟨q, hq, hkq⟩ := List.mem_flatMap.1 hk2
        have ei : ms[i]? = some ms[i] := List.getElem?_eq_getElem hi'
        have ej : ms[j]? = some ms[j] := List.getElem?_eq_getElem hj'
        obtain ⟨m₀, n, -, -, sx, -, -, -⟩ := hat i _ ei
        obtain ⟨m₁, n', -, -, sx', -, -, -⟩ := hat j _ ej
        have h1 := (hnum i _ ei (k.1, k.2.1) (by rw [sx.holds]; exact Dict.mem_of_get? ((sx.served k).1 ⟨p, hp, hkp⟩).1)).2
        have h2 := (hnum j _ ej (k.1, k.2.1) (by rw [sx'.holds]; exact Dict.mem_of_get? ((sx'.served k).1 ⟨q, hq, hkq⟩).1)).2
        rw [h1] at h2
        simp only [Option.some.injEq] at h2
        omega
    · intro p hp
      obtain ⟨m, hm, hpm⟩ := List.mem_flatMap.1 hp
      obtain ⟨k, hk⟩ := List.getElem?_of_mem hm
      obtain ⟨m₀, n, -, -, sx, -⟩ := hat k m hk
      exact sx.bw p hpm
    · intro m hm
      obtain ⟨k, hk⟩ := List.getElem?_of_mem hm
      obtain ⟨m', n, h1, -, sx, -⟩ := hat k m hk
      rw [sx.size]
      have := (A.mems m' (List.mem_of_getElem? h1)).size
      omega
    · simp only
      unfold Hierarchy.totalUnits
      intro h0
      rw [List.prod_eq_zero_iff] at h0
      obtain ⟨e, he, h0⟩ := List.mem_map.1 h0
      have := A.units e he
      omega
  · exact hsort
  · intro op; rfl
  · intro op
    rw [hlevels, hcount]
  · intro op
    simp only
    rw [List.length_map, hserved, hlevels, hlenpick a.mems _ (hidxlt op)]
  · intro op lv x hx d hd
    simp only at hx hd
    rw [hlevels, hcount] at hd
    rw [hlv, hget] at hx
    obtain ⟨i, h1, h2⟩ := hx
    obtain ⟨m, n, m1, -, sx, -, -, n4⟩ := hat i x h2
    obtain ⟨hop, hlvl⟩ := hplace op lv i m h1 m1
    obtain ⟨hil, hie⟩ := List.getElem?_eq_some_iff.1 m1
    have hsplit : a.mems = a.mems.take i ++ m :: a.mems.drop (i + 1) := by
      rw [← hie, List.cons_getElem_drop_succ, List.take_append_drop]
    have htop : (lv + 1 = (a.mems.filter fun m => decide (op ∈ m.operands)).length) ↔ ∀ m' ∈ a.mems.drop (i + 1), op ∉ m'.operands := by
      have : (a.mems.filter fun m => decide (op ∈ m.operands)).length = lv + 1 + ((a.mems.drop (i + 1)).filter fun m => decide (op ∈ m.operands)).length := by
        conv_lhs => rw [hsplit]
        rw [List.filter_append, List.filter_cons_of_pos (by simpa using hop), List.length_append, List.length_cons, hlvl]
        omega
      rw [this]
      constructor
      · intro h m' hm' hc
        have h0 : ((a.mems.drop (i + 1)).filter fun m => decide (op ∈ m.operands)).length = 0 := by omega
        rw [List.length_eq_zero_iff, List.filter_eq_nil_iff] at h0
        exact h0 m' hm' (by simpa using hc)
      · intro h
        rw [List.filter_eq_nil_iff.2 (fun m' hm' => by simpa using h m' hm')]
        simp
    rw [decide_eq_decide.2 htop] at hd
    obtain ⟨p, hp, y, hy, rfl, rfl⟩ := A.declared _ m _ hsplit op hop d hd
    exact (sx.served _).2 ⟨by rw [n4, if_pos hop, hlvl], p, hp, y, hy, rfl, dirOf_meaning _⟩
  · intro p hp k hk
    obtain ⟨m, hm, hpm⟩ := List.mem_flatMap.1 hp
    obtain ⟨i, hi'⟩ := List.getElem?_of_mem hm
    obtain ⟨m', n, h1, -, sx, -⟩ := hat i m hi'
    obtain ⟨-, q, hq, y, hy, e1, -⟩ := (sx.served k).1 ⟨p, hpm, hk⟩
    exact ⟨m', List.mem_of_getElem? h1, by rw [← e1]; exact (A.mems m' (List.mem_of_getElem? h1)).only q hq y hy⟩
  · rfl
  · intro op
    show List.Forall₂ IsEntry (storing a op) (topo.filter fun m => decide (op ∈ m.holds.map Prod.fst))
    rw [hlv, List.forall₂_iff_get]
    have hl : (storing a op).length = ((idx op).filterMap fun i => ms[i]?).length := by
      rw [hlenpick ms _ (fun i hx => by rw [hmsl]; exact hidxlt op i hx), hcount]
      rfl
    refine ⟨hl, fun k h1 h2 => ?_⟩
    obtain ⟨i, i1, i2⟩ := (hget op k _).1 (List.getElem?_eq_getElem h2)
    obtain ⟨m, n, m1, -, sx, -⟩ := hat i _ i2
    obtain ⟨hop, hlvl⟩ := hplace op k i m i1 m1
    have h3 := filter_place (p := fun m => decide (op ∈ m.operands)) m1 (by simpa using hop)
    rw [hlvl] at h3
    have h4 : (storing a op)[k] = m := by
      have : (storing a op)[k]? = some m := h3
      rw [List.getElem?_eq_getElem h1] at this
      exact Option.some.inj this
    rw [List.get_eq_getElem, List.get_eq_getElem, h4]
    exact sx.entry
  · intro op
    simp only
    rw [hserved]
    congr 1
    apply List.ext_getElem?
    intro k
    rw [pick_get a.mems _ (hidxlt op)]
    cases hk : (idx op)[k]? with
    | none =>
      show none = _
      symm
      rw [List.getElem?_eq_none_iff] at hk ⊢
      show (a.mems.filter fun m => decide (op ∈ m.operands)).length ≤ k
      rw [← hcount]
      exact hk
    | some i =>
      have hi' := hidxlt op i (List.mem_of_getElem? hk)
      have m1 : a.mems[i]? = some a.mems[i] := List.getElem?_eq_getElem hi'
      obtain ⟨hop, hlvl⟩ := hplace op k i _ hk m1
      have h3 := filter_place (p := fun m => decide (op ∈ m.operands)) m1 (by simpa using hop)
      rw [hlvl] at h3
      show a.mems[i]? = (a.mems.filter fun m => decide (op ∈ m.operands))[k]?
      rw [m1, h3]
  · rfl

end Verif.Whole
