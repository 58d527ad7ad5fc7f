import Verif.Alloc.NodeLemmas
import Verif.Alloc.Spec

/-! Helper lemmas: the invariant of `run`. -/

namespace Verif.Alloc

variable {Op Dim : Type} [DecidableEq Op] [DecidableEq Dim]

structure Inv (env : Env Op Dim) (ordering : List (Dim × ℚ)) (op : Op) (s : OpSt Dim) : Prop where
  level : s.level = s.tm.length + 1
  pre : s.tm.flatten = ordering.take s.tm.flatten.length
  rest : s.unallocated = tmLoops (ordering.drop s.tm.flatten.length)
  alloc : s.allocated = resident (env.spatial op) s.tm s.tm.length

theorem tmLoops_take (l : List (Dim × ℚ)) (n : Nat) : (tmLoops l).take n = tmLoops (l.take n) := by
  simp [tmLoops, List.map_take]

theorem tmLoops_drop (l : List (Dim × ℚ)) (n : Nat) : (tmLoops l).drop n = tmLoops (l.drop n) := by
  simp [tmLoops, List.map_drop]

theorem tmLoops_map (l : List (Dim × ℚ)) : (tmLoops l).map (fun l => (l.dim, l.size)) = l := by
  simp [tmLoops, Function.comp_def]

theorem length_tmLoops (l : List (Dim × ℚ)) : (tmLoops l).length = l.length := by simp [tmLoops]

theorem getD_append_lt {α : Type} (a b : List α) (k : Nat) (d : α) (h : k < a.length) : (a ++ b).getD k d = a.getD k d := by
  rw [List.getD_eq_getElem?_getD, List.getD_eq_getElem?_getD, List.getElem?_append_left h]

theorem resident_append (sp : List (List (Dim × ℚ))) (a b : List (List (Dim × ℚ))) (l : Nat) (h : l ≤ a.length) :
    resident sp (a ++ b) l = resident sp a l := by
  unfold resident
  congr 1
  apply List.flatMap_congr
  intro k hk
  rw [getD_append_lt a b k [] (by have := List.mem_range.1 hk; omega)]

theorem resident_succ (sp : List (List (Dim × ℚ))) (tm : List (List (Dim × ℚ))) (l : Nat) :
    resident sp tm (l + 1) = resident sp tm l ++ tmLoops (tm.getD l []) ++ spLoops (sp.getD (l + 1) []) := by
  unfold resident
  rw [List.range_succ, List.flatMap_append]
  simp

theorem inv_advance {env : Env Op Dim} {ordering : List (Dim × ℚ)} {op : Op} {s : OpSt Dim} (h : Inv env ordering op s)
    {idx : Nat} {sp : List (Dim × ℚ)} (hsp : (env.spatial op)[s.level]? = some sp) (hidx : idx ≤ s.unallocated.length) :
    Inv env ordering op (advance s idx sp) := by
  have hx : (s.unallocated.take idx).map (fun l => (l.dim, l.size)) = (ordering.drop s.tm.flatten.length).take idx := by
    rw [h.rest, tmLoops_take, tmLoops_map]
  have hl : (advance s idx sp).tm.flatten = s.tm.flatten ++ (ordering.drop s.tm.flatten.length).take idx := by
    simp only [advance]; rw [hx]; simp
  have hle : idx ≤ (ordering.drop s.tm.flatten.length).length := by
    rw [h.rest, length_tmLoops] at hidx; exact hidx
  have hlen : (advance s idx sp).tm.flatten.length = s.tm.flatten.length + idx := by
    rw [hl, List.length_append, List.length_take, Nat.min_eq_left hle]
  refine ⟨?_, ?_, ?_, ?_⟩
  · simp [advance, h.level]
  · rw [hlen, List.take_add, ← h.pre, hl]
  · rw [hlen]
    simp only [advance]
    rw [h.rest, tmLoops_drop, List.drop_drop]
  · simp only [advance]
    rw [List.length_append, List.length_singleton, resident_succ, resident_append _ _ _ _ le_rfl, ← h.alloc, hx]
    congr 1
    · congr 1
      rw [h.rest, tmLoops_take]
      simp [List.getD_eq_getElem?_getD]
    · rw [List.getD_eq_getElem?_getD, ← h.level, hsp]; rfl

theorem mem_nodeOps {env : Env Op Dim} {node : Node Op} {op : Op} : op ∈ nodeOps env node ↔ op ∈ node.ops ∧ op ∈ env.memOps := by
  simp [nodeOps]

theorem exists_zip {α β : Type} : ∀ {a : List α} {b : List β} {x : α}, b.length = a.length → x ∈ a → ∃ y, (x, y) ∈ a.zip b
  | [], _, _, _, h => by simp at h
  | _ :: _, [], _, hl, _ => by simp at hl
  | a0 :: a, b0 :: b, x, hl, h => by
    rcases List.mem_cons.1 h with rfl | h
    · exact ⟨b0, by simp⟩
    · obtain ⟨y, hy⟩ := exists_zip (a := a) (b := b) (by simpa using hl) h
      exact ⟨y, by simp [hy]⟩

/-- The effect of a node on one operand. -/
theorem allocateNode_op {env : Env Op Dim} {st st' : AllocSt Op Dim} {node : Node Op} (hn : node.ops.Nodup)
    (h : allocateNode env st node = .ok st') (op : Op) (hop : op ∈ env.memOps) :
    (op ∉ node.ops → st' op = st op) ∧
    (op ∈ node.ops → ∃ idx sp, (env.spatial op)[(st op).level]? = some sp ∧ st' op = advance (st op) idx sp ∧
      idx ≤ (st op).unallocated.length ∧ (node.isTop op = true → (st op).unallocated.drop idx = [])) := by
  obtain ⟨best, hl, h1, h2, _⟩ := allocateNode_spec hn h
  constructor
  · intro ho
    exact h1 op (fun hc => ho (mem_nodeOps.1 hc).1)
  · intro ho
    obtain ⟨idx, hi⟩ := exists_zip hl (mem_nodeOps.2 ⟨ho, hop⟩)
    obtain ⟨sp, e1, e2, e3, e4⟩ := h2 _ hi
    exact ⟨idx, sp, e1, e2, e3, e4⟩

theorem allocNodes_append {env : Env Op Dim} : ∀ {a b : List (Node Op)} {st st' : AllocSt Op Dim},
    allocNodes env st (a ++ b) = .ok st' → ∃ s1, allocNodes env st a = .ok s1 ∧ allocNodes env s1 b = .ok st'
  | [], b, st, st', h => ⟨st, rfl, h⟩
  | n :: a, b, st, st', h => by
    rw [List.cons_append] at h
    unfold allocNodes at h
    cases h1 : allocateNode env st n with
    | error e => rw [h1] at h; cases h
    | ok s0 =>
      rw [h1] at h
      obtain ⟨s1, e1, e2⟩ := allocNodes_append (a := a) (b := b) h
      refine ⟨s1, ?_, e2⟩
      unfold allocNodes
      rw [h1]; exact e1

theorem allocNodes_cons {env : Env Op Dim} {n : Node Op} {ns : List (Node Op)} {st st' : AllocSt Op Dim}
    (h : allocNodes env st (n :: ns) = .ok st') : ∃ s1, allocateNode env st n = .ok s1 ∧ allocNodes env s1 ns = .ok st' := by
  unfold allocNodes at h
  cases h1 : allocateNode env st n with
  | error e => rw [h1] at h; cases h
  | ok s0 => rw [h1] at h; exact ⟨s0, rfl, h⟩

theorem lvl_cons (n : Node Op) (ns : List (Node Op)) (op : Op) :
    lvl (n :: ns) op = (if op ∈ n.ops then 1 else 0) + lvl ns op := by
  unfold lvl
  by_cases h : op ∈ n.ops
  · simp [h, Nat.add_comm]
  · simp [h]

theorem allocNodes_inv {env : Env Op Dim} {ordering : List (Dim × ℚ)} {op : Op} (hop : op ∈ env.memOps) :
    ∀ {ns : List (Node Op)} {st st' : AllocSt Op Dim}, (∀ n ∈ ns, n.ops.Nodup) → allocNodes env st ns = .ok st' →
    Inv env ordering op (st op) → Inv env ordering op (st' op) ∧ (st' op).tm.length = (st op).tm.length + lvl ns op ∧
      (∃ more, (st' op).tm = (st op).tm ++ more) ∧
      ((∃ n ∈ ns, op ∈ n.ops ∧ n.isTop op = true) ∨ (st op).unallocated = [] → (st' op).unallocated = [])
  | [], st, st', _, h, hi => by
    simp [allocNodes] at h; subst h
    exact ⟨hi, by simp [lvl], ⟨[], by simp⟩, by simp⟩
  | n :: ns, st, st', hn, h, hi => by
    obtain ⟨s1, h1, h2⟩ := allocNodes_cons h
    obtain ⟨a1, a2⟩ := allocateNode_op (hn n (by simp)) h1 op hop
    by_cases ho : op ∈ n.ops
    · obtain ⟨idx, sp, e1, e2, e3, e4⟩ := a2 ho
      have hi1 : Inv env ordering op (s1 op) := by rw [e2]; exact inv_advance hi e1 e3
      obtain ⟨r1, r2, ⟨more, r3⟩, r4⟩ := allocNodes_inv hop (fun m hm => hn m (by simp [hm])) h2 hi1
      refine ⟨r1, ?_, ?_, ?_⟩
      · rw [r2, lvl_cons, if_pos ho, e2]; simp [advance]; omega
      · exact ⟨_, by rw [r3, e2]; simp only [advance]; rw [List.append_assoc]⟩
      · rintro (⟨m, hm, hm1, hm2⟩ | hu)
        · rcases List.mem_cons.1 hm with rfl | hm
          · apply r4; right; rw [e2]; exact e4 hm2
          · exact r4 (Or.inl ⟨m, hm, hm1, hm2⟩)
        · apply r4; right; rw [e2]; simp [advance, hu]
    · rw [← a1 ho] at hi
      obtain ⟨r1, r2, r3, r4⟩ := allocNodes_inv hop (fun m hm => hn m (by simp [hm])) h2 hi
      rw [a1 ho] at r2 r3 r4
      refine ⟨r1, ?_, r3, ?_⟩
      · rw [r2, lvl_cons, if_neg ho]; omega
      · rintro (⟨m, hm, hm1, hm2⟩ | hu)
        · rcases List.mem_cons.1 hm with rfl | hm
          · exact absurd hm1 ho
          · exact r4 (Or.inl ⟨m, hm, hm1, hm2⟩)
        · exact r4 (Or.inr hu)

theorem initState_inv {env : Env Op Dim} {ordering : List (Dim × ℚ)} {st : AllocSt Op Dim} (h : initState env ordering = .ok st)
    (op : Op) : Inv env ordering op (st op) ∧ (st op).tm = [] := by
  unfold initState at h
  split at h
  · simp only [Except.ok.injEq] at h
    subst h
    refine ⟨⟨rfl, by simp, by simp, ?_⟩, rfl⟩
    simp [resident]
    congr 1
    cases env.spatial op <;> rfl
  · cases h

theorem run_ok {env : Env Op Dim} {ordering : List (Dim × ℚ)} {nodes : List (Node Op)} {tm : Op → List (List (Dim × ℚ))}
    (h : run env ordering nodes = .ok tm) : ∃ st st', initState env ordering = .ok st ∧ allocNodes env st nodes = .ok st' ∧
      tm = fun op => (st' op).tm := by
  unfold run at h
  cases h1 : initState env ordering with
  | error e => rw [h1] at h; cases h
  | ok st =>
    rw [h1] at h
    simp only at h
    cases h2 : allocNodes env st nodes with
    | error e => rw [h2] at h; cases h
    | ok st' => rw [h2] at h; simp only [Except.ok.injEq] at h; exact ⟨st, st', rfl, h2, h.symm⟩

/-- `sizeAt` of a state satisfying the invariant is the specified size. -/
theorem sizeAt_eq {env : Env Op Dim} {ordering : List (Dim × ℚ)} {st : AllocSt Op Dim} {op : Op} (hi : Inv env ordering op (st op))
    (tm : List (List (Dim × ℚ))) (ht : ∃ more, tm = (st op).tm ++ more) (i : Nat) :
    sizeAt env st op i = heldBits env ordering tm op (st op).tm.length i := by
  obtain ⟨more, rfl⟩ := ht
  have hpos : pos ((st op).tm ++ more) (st op).tm.length = (st op).tm.flatten.length := by
    unfold pos; rw [List.take_append_of_le_length le_rfl, List.take_length]
  unfold sizeAt heldBits calcLoopsSize
  rw [resident_append _ _ _ _ le_rfl, ← hi.alloc, hpos, hi.rest, tmLoops_take]
  congr 1
  unfold getPrecision precAt
  rw [hpos, hi.level, hi.rest]
  cases ho : env.isOut op with
  | false => simp
  | true =>
    simp only [if_true, true_and]
    by_cases hc : ∀ x ∈ ((env.spatial op).drop ((st op).tm.length + 1)).flatten ++ ordering.drop (st op).tm.flatten.length,
        x.1 ∉ env.irDims op
    · rw [if_pos hc, if_neg]
      intro ha
      obtain ⟨d, hd, hd2⟩ := List.any_eq_true.1 ha
      have hd2 := of_decide_eq_true hd2
      rcases List.mem_append.1 hd with hd | hd
      · obtain ⟨x, hx, rfl⟩ := List.mem_map.1 hd
        exact hc x (List.mem_append.2 (Or.inl hx)) hd2
      · obtain ⟨x, hx, rfl⟩ := List.mem_map.1 hd
        obtain ⟨y, hy, rfl⟩ := List.mem_map.1 hx
        exact hc y (List.mem_append.2 (Or.inr hy)) hd2
    · rw [if_neg hc, if_pos]
      push Not at hc
      obtain ⟨x, hx, hx2⟩ := hc
      refine List.any_eq_true.2 ⟨x.1, ?_, decide_eq_true hx2⟩
      rcases List.mem_append.1 hx with hx | hx
      · exact List.mem_append.2 (Or.inl (List.mem_map_of_mem hx))
      · exact List.mem_append.2 (Or.inr (List.mem_map.2 ⟨⟨x.1, x.2, true⟩, List.mem_map_of_mem (f := fun p : Dim × ℚ => (⟨p.1, p.2, true⟩ : Loop Dim)) hx, rfl⟩))

theorem costAt_eq {env : Env Op Dim} {ordering : List (Dim × ℚ)} {st : AllocSt Op Dim} {node : Node Op} {op : Op}
    (hi : Inv env ordering op (st op)) (tm : List (List (Dim × ℚ))) (ht : ∃ more, tm = (st op).tm ++ more) (i : Nat) :
    costAt env st node op i = fetchBits env ordering tm (node.isTop op) op (st op).tm.length i := by
  unfold costAt fetchBits
  rw [sizeAt_eq hi tm ht i]
  obtain ⟨more, rfl⟩ := ht
  have hpos : pos ((st op).tm ++ more) (st op).tm.length = (st op).tm.flatten.length := by
    unfold pos; rw [List.take_append_of_le_length le_rfl, List.take_length]
  rw [hpos, hi.rest, tmLoops_drop]
  simp [tmLoops, Function.comp_def]

theorem filter_spLoops (l : List (Dim × ℚ)) : (spLoops l).filter (fun l => l.temporal) = [] := by
  rw [List.filter_eq_nil_iff]
  intro x hx
  obtain ⟨_, _, rfl⟩ := List.mem_map.1 hx
  simp

theorem filter_tmLoops (l : List (Dim × ℚ)) : (tmLoops l).filter (fun l => l.temporal) = tmLoops l := by
  rw [List.filter_eq_self]
  intro x hx
  obtain ⟨_, _, rfl⟩ := List.mem_map.1 hx
  rfl

/-- The `offset` of the even check is the number of temporal loops already allocated. -/
theorem offset_eq {env : Env Op Dim} {ordering : List (Dim × ℚ)} {op : Op} {s : OpSt Dim} (hi : Inv env ordering op s) :
    (s.allocated.filter (fun l => l.temporal)).length = s.tm.flatten.length := by
  rw [hi.alloc]
  have : ∀ l ≤ s.tm.length, ((resident (env.spatial op) s.tm l).filter (fun l => l.temporal)).length = (s.tm.take l).flatten.length := by
    intro l
    induction l with
    | zero => intro _; simp [resident, filter_spLoops]
    | succ l ih =>
      intro hl
      rw [resident_succ, List.filter_append, List.filter_append, filter_spLoops, filter_tmLoops, List.append_nil, List.length_append,
        ih (by omega), length_tmLoops, List.take_add_one,
        List.flatten_append, List.length_append]
      rw [List.getD_eq_getElem?_getD, List.getElem?_eq_getElem (show l < s.tm.length by omega)]
      simp only [Option.getD_some, Option.toList_some, List.flatten_cons, List.flatten_nil, List.append_nil]
  rw [this _ le_rfl, List.take_length]

theorem mem_mapIdx_off {L : List (Loop Dim)} {k : Nat} {x : Nat × Loop Dim} :
    x ∈ L.mapIdx (fun i l => (i + k, l)) ↔ ∃ i, ∃ h : i < L.length, x = (i + k, L[i]) := by
  rw [List.mem_mapIdx]
  constructor
  · rintro ⟨i, h, rfl⟩; exact ⟨i, h, rfl⟩
  · rintro ⟨i, h, rfl⟩; exact ⟨i, h, rfl⟩

/-- The even check decides the specified condition. -/
theorem evenValid_iff {env : Env Op Dim} {ordering : List (Dim × ℚ)} {st : AllocSt Op Dim} {ops : List Op} {idx : List Nat}
    (hi : ∀ op ∈ ops, Inv env ordering op (st op)) (hidx : ∀ p ∈ ops.zip idx, p.2 ≤ (st p.1).unallocated.length) :
    evenValid st ops idx = true ↔ ∀ a ∈ ops.zip idx, ∀ b ∈ ops.zip idx, 0 < a.2 →
      (st a.1).tm.flatten.length + a.2 ≤ (st b.1).tm.flatten.length + b.2 := by
  have hget : ∀ op ∈ ops, ∀ (i : Nat) (h : i < (st op).unallocated.length), 
      ∃ h2 : (st op).tm.flatten.length + i < ordering.length, (st op).unallocated[i] =
        (⟨(ordering[(st op).tm.flatten.length + i]).1, (ordering[(st op).tm.flatten.length + i]).2, true⟩ : Loop Dim) := by
    intro op ho i h
    have hlen : (st op).unallocated.length = ordering.length - (st op).tm.flatten.length := by
      rw [(hi op ho).rest, length_tmLoops, List.length_drop]
    refine ⟨by omega, ?_⟩
    have := (hi op ho).rest
    simp only [this]
    simp [tmLoops]
  have hlenU : ∀ op ∈ ops, (st op).unallocated.length = ordering.length - (st op).tm.flatten.length := by
    intro op ho
    rw [(hi op ho).rest, length_tmLoops, List.length_drop]
  unfold evenValid
  simp only [Bool.not_eq_true', List.any_eq_false]
  constructor
  · intro h a ha b hb hpos
    by_contra hc
    have haO := (List.of_mem_zip ha).1
    have hbO := (List.of_mem_zip hb).1
    have ha2 := hidx a ha
    have hb2 := hidx b hb
    -- the last loop to be allocated of `a`
    have hla := hlenU a.1 haO
    have hlb := hlenU b.1 hbO
    obtain ⟨g1, g2⟩ := hget a.1 haO (a.2 - 1) (by omega)
    obtain ⟨g3, g4⟩ := hget b.1 hbO ((st a.1).tm.flatten.length + (a.2 - 1) - (st b.1).tm.flatten.length) (by omega)
    refine h ((a.2 - 1) + (st a.1).tm.flatten.length, (st a.1).unallocated[a.2 - 1]'(by omega)) ?_ ?_
    · refine List.mem_flatMap.2 ⟨a, ha, ?_⟩
      rw [offset_eq (hi a.1 haO), mem_mapIdx_off]
      exact ⟨a.2 - 1, by simp; omega, by simp⟩
    · apply decide_eq_true
      refine List.mem_flatMap.2 ⟨b, hb, ?_⟩
      rw [offset_eq (hi b.1 hbO)]
      rw [List.mem_mapIdx]
      refine ⟨(st a.1).tm.flatten.length + (a.2 - 1) - (st b.1).tm.flatten.length - b.2, by rw [List.length_drop]; omega, ?_⟩
      rw [List.getElem_drop]
      have e : b.2 + ((st a.1).tm.flatten.length + (a.2 - 1) - (st b.1).tm.flatten.length - b.2) =
          (st a.1).tm.flatten.length + (a.2 - 1) - (st b.1).tm.flatten.length := by omega
      have e2 : (st b.1).tm.flatten.length + ((st a.1).tm.flatten.length + (a.2 - 1) - (st b.1).tm.flatten.length) =
        (st a.1).tm.flatten.length + (a.2 - 1) := by omega
      simp only [e, g4, g2, e2]
      congr 1
      omega
  · intro h x hx hx2
    have hx2 := of_decide_eq_true hx2
    obtain ⟨a, ha, hxa⟩ := List.mem_flatMap.1 hx
    obtain ⟨b, hb, hxb⟩ := List.mem_flatMap.1 hx2
    have haO := (List.of_mem_zip ha).1
    have hbO := (List.of_mem_zip hb).1
    rw [offset_eq (hi a.1 haO), mem_mapIdx_off] at hxa
    rw [offset_eq (hi b.1 hbO), List.mem_mapIdx] at hxb
    obtain ⟨i, h1, rfl⟩ := hxa
    obtain ⟨j, h2, h3⟩ := hxb
    have h4 := congrArg Prod.fst h3
    simp only at h4
    simp only [List.length_take] at h1
    have := h a ha b hb (by omega)
    omega

end Verif.Alloc

namespace Verif.Alloc

variable {Op Dim : Type} [DecidableEq Op] [DecidableEq Dim]

theorem zip_eq_map {α β : Type} {c : α → β} : ∀ {a : List α} {b : List β}, b.length = a.length →
    (∀ p ∈ a.zip b, p.2 = c p.1) → a.zip b = a.map (fun o => (o, c o)) ∧ b = a.map c
  | [], [], _, _ => by simp
  | [], _ :: _, h, _ => by simp at h
  | _ :: _, [], h, _ => by simp at h
  | x :: a, y :: b, hl, h => by
    obtain ⟨e1, e2⟩ := zip_eq_map (c := c) (a := a) (b := b) (by simpa using hl) (fun p hp => h p (by simp [hp]))
    have := h (x, y) (by simp)
    simp only at this
    subst this
    rw [List.zip_cons_cons, e1, List.map_cons, List.map_cons]
    exact ⟨rfl, by rw [← e2]⟩

/-- A node visited by a successful run, in terms of the final temporal mapping. -/
theorem run_node {env : Env Op Dim} {ordering : List (Dim × ℚ)} {pre post : List (Node Op)} {node : Node Op}
    {tm : Op → List (List (Dim × ℚ))} (hn : ∀ n ∈ pre ++ node :: post, n.ops.Nodup)
    (h : run env ordering (pre ++ node :: post) = .ok tm) :
    (∀ op ∈ storedOps env node, pos (tm op) (lvl pre op) + ((tm op).getD (lvl pre op) []).length ≤ ordering.length) ∧
    ((storedOps env node).map (fun op => heldBits env ordering (tm op) op (lvl pre op) ((tm op).getD (lvl pre op) []).length)).sum
      ≤ node.cap ∧
    (env.even = true → EvenChoice (storedOps env node) tm (lvl pre) (fun op => ((tm op).getD (lvl pre op) []).length)) ∧
    (∀ ws : Op → Nat,
      (∀ op ∈ storedOps env node, pos (tm op) (lvl pre op) + ws op ≤ ordering.length ∧
        (node.isTop op = true → pos (tm op) (lvl pre op) + ws op = ordering.length) ∧
        ∀ j ≤ ws op, heldBits env ordering (tm op) op (lvl pre op) j ≤ node.cap) →
      ((storedOps env node).map (fun op => heldBits env ordering (tm op) op (lvl pre op) (ws op))).sum ≤ node.cap →
      (env.even = true → EvenChoice (storedOps env node) tm (lvl pre) ws) →
      ((storedOps env node).map (fun op => fetchBits env ordering (tm op) (node.isTop op) op (lvl pre op)
          ((tm op).getD (lvl pre op) []).length)).sum ≤
        ((storedOps env node).map (fun op => fetchBits env ordering (tm op) (node.isTop op) op (lvl pre op) (ws op))).sum) := by
  obtain ⟨st0, st', h0, h1, rfl⟩ := run_ok h
  obtain ⟨st1, a1, a2⟩ := allocNodes_append h1
  obtain ⟨st2, a3, a4⟩ := allocNodes_cons a2
  obtain ⟨best, hbl, _, hb2, hb3, hb4, hb5⟩ := allocateNode_spec (hn node (by simp)) a3
  have hops : nodeOps env node = storedOps env node := rfl
  rw [hops] at hbl hb2 hb3 hb4 hb5
  -- facts per operand
  have hI1 : ∀ op ∈ storedOps env node, Inv env ordering op (st1 op) ∧ (st1 op).tm.length = lvl pre op := by
    intro op ho
    have hm := (mem_nodeOps.1 ho).2
    obtain ⟨i0, t0⟩ := initState_inv h0 op
    obtain ⟨r1, r2, _, _⟩ := allocNodes_inv hm (fun n hn' => hn n (by simp [hn'])) a1 i0
    exact ⟨r1, by rw [r2, t0]; simp⟩
  have hch : ∀ p ∈ (storedOps env node).zip best, p.2 = (((st' p.1).tm).getD (lvl pre p.1) []).length ∧
      (∃ more, (st' p.1).tm = (st1 p.1).tm ++ more) := by
    intro p hp
    have ho := (List.of_mem_zip hp).1
    have hm := (mem_nodeOps.1 ho).2
    obtain ⟨sp, e1, e2, e3, _⟩ := hb2 p hp
    obtain ⟨i1, l1⟩ := hI1 p.1 ho
    have hi2 : Inv env ordering p.1 (st2 p.1) := by rw [e2]; exact inv_advance i1 e1 e3
    obtain ⟨_, _, ⟨more, r3⟩, _⟩ := allocNodes_inv hm (fun n hn' => hn n (by simp [hn'])) a4 hi2
    rw [e2] at r3
    simp only [advance] at r3
    constructor
    · rw [r3, ← l1, List.append_assoc]
      simp [List.getD_eq_getElem?_getD]
      omega
    · exact ⟨_, by rw [r3, List.append_assoc]⟩
  have hmore : ∀ op ∈ storedOps env node, ∃ more, (st' op).tm = (st1 op).tm ++ more := by
    intro op ho
    obtain ⟨y, hy⟩ := exists_zip hbl ho
    exact (hch _ hy).2
  have hpos : ∀ op ∈ storedOps env node, pos (st' op).tm (lvl pre op) = (st1 op).tm.flatten.length := by
    intro op ho
    obtain ⟨more, hmo⟩ := hmore op ho
    rw [← (hI1 op ho).2, hmo]
    unfold pos; rw [List.take_append_of_le_length le_rfl, List.take_length]
  have hlenU : ∀ op ∈ storedOps env node, (st1 op).unallocated.length = ordering.length - (st1 op).tm.flatten.length := by
    intro op ho
    rw [(hI1 op ho).1.rest, length_tmLoops, List.length_drop]
  have hleO : ∀ op ∈ storedOps env node, (st1 op).tm.flatten.length ≤ ordering.length := by
    intro op ho
    have := congrArg List.length (hI1 op ho).1.pre
    rw [List.length_take] at this
    omega
  have hsize : ∀ op ∈ storedOps env node, ∀ i, sizeAt env st1 op i = heldBits env ordering (st' op).tm op (lvl pre op) i := by
    intro op ho i
    rw [← (hI1 op ho).2]
    exact sizeAt_eq (hI1 op ho).1 _ (hmore op ho) i
  have hcost : ∀ op ∈ storedOps env node, ∀ i, costAt env st1 node op i =
      fetchBits env ordering (st' op).tm (node.isTop op) op (lvl pre op) i := by
    intro op ho i
    rw [← (hI1 op ho).2]
    exact costAt_eq (hI1 op ho).1 _ (hmore op ho) i
  obtain ⟨z1, z2⟩ := zip_eq_map (c := fun op => (((st' op).tm).getD (lvl pre op) []).length) hbl (fun p hp => (hch p hp).1)
  have hle : ∀ op ∈ storedOps env node, (((st' op).tm).getD (lvl pre op) []).length ≤ (st1 op).unallocated.length := by
    intro op ho
    obtain ⟨y, hy⟩ := exists_zip hbl ho
    obtain ⟨_, _, _, e3, _⟩ := hb2 _ hy
    rw [(hch _ hy).1] at e3
    exact e3
  have heven : ∀ ws : Op → Nat, (∀ op ∈ storedOps env node, ws op ≤ (st1 op).unallocated.length) →
      (evenValid st1 (storedOps env node) ((storedOps env node).map ws) = true ↔
        EvenChoice (storedOps env node) (fun op => (st' op).tm) (lvl pre) ws) := by
    intro ws hws
    have hz : (storedOps env node).zip ((storedOps env node).map ws) = (storedOps env node).map (fun o => (o, ws o)) := by
      refine (zip_eq_map (c := ws) (by simp) ?_).1
      intro p hp
      rw [List.mem_iff_getElem] at hp
      obtain ⟨i, hi, rfl⟩ := hp
      simp
    rw [evenValid_iff (env := env) (ordering := ordering) (fun op ho => (hI1 op ho).1), hz]
    · constructor
      · intro h a ha b hb hp
        have := h (a, ws a) (List.mem_map.2 ⟨a, ha, rfl⟩) (b, ws b) (List.mem_map.2 ⟨b, hb, rfl⟩) hp
        simp only at this ⊢
        rw [hpos a ha, hpos b hb]; exact this
      · intro h a ha b hb hp
        obtain ⟨a, ha', rfl⟩ := List.mem_map.1 ha
        obtain ⟨b, hb', rfl⟩ := List.mem_map.1 hb
        have := h a ha' b hb' hp
        simp only at this ⊢
        rw [hpos a ha', hpos b hb'] at this; exact this
    · rw [hz]
      intro p hp
      obtain ⟨a, ha, rfl⟩ := List.mem_map.1 hp
      exact hws a ha
  refine ⟨?_, ?_, ?_, ?_⟩
  · intro op ho
    have h1 := hle op ho
    rw [hpos op ho]
    rw [hlenU op ho] at h1
    have := hleO op ho
    simp only
    omega
  · rw [z1, List.map_map] at hb3
    refine le_of_eq_of_le ?_ hb3
    congr 1
    apply List.map_congr_left
    intro op ho
    exact (hsize op ho _).symm
  · intro he
    unfold validComb at hb4
    rw [if_pos he, z2] at hb4
    exact (heven _ hle).1 hb4
  · intro ws hws hsum hev
    have hwl : ∀ op ∈ storedOps env node, ws op ≤ (st1 op).unallocated.length := by
      intro op ho
      have := (hws op ho).1
      rw [hpos op ho] at this
      rw [hlenU op ho]
      omega
    have hz : (storedOps env node).zip ((storedOps env node).map ws) = (storedOps env node).map (fun o => (o, ws o)) := by
      refine (zip_eq_map (c := ws) (by simp) ?_).1
      intro p hp
      rw [List.mem_iff_getElem] at hp
      obtain ⟨i, hi, rfl⟩ := hp
      simp
    have := hb5 ((storedOps env node).map ws) (by simp) ?_ ?_ ?_
    · rw [z1, hz, List.map_map, List.map_map] at this
      refine le_of_eq_of_le ?_ (le_of_le_of_eq this ?_)
      · congr 1
        apply List.map_congr_left
        intro op ho
        exact (hcost op ho _).symm
      · congr 1
        apply List.map_congr_left
        intro op ho
        exact hcost op ho _
    · rw [hz]
      intro p hp
      obtain ⟨op, ho, rfl⟩ := List.mem_map.1 hp
      obtain ⟨w1, w2, w3⟩ := hws op ho
      refine ⟨hwl op ho, ?_, ?_⟩
      · intro ht
        have := w2 ht
        rw [hpos op ho] at this
        rw [hlenU op ho]
        simp only
        omega
      · intro j hj
        rw [hsize op ho]; exact w3 j hj
    · rw [hz, List.map_map]
      refine le_of_eq_of_le ?_ hsum
      congr 1
      apply List.map_congr_left
      intro op ho
      exact hsize op ho _
    · unfold validComb
      split
      · next he => exact (heven ws hwl).2 (hev he)
      · rfl

end Verif.Alloc
