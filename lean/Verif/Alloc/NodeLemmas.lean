import Verif.Alloc.SearchLemmas

/-! Helper lemmas: one memory node. -/

namespace Verif.Alloc

variable {Op Dim : Type} [DecidableEq Op] [DecidableEq Dim]

theorem sliceLoop_spec (size : Nat → ℚ) (cap : ℚ) : ∀ (k i : Nat) (l : List ℚ), sliceLoop size cap k i = .ok l →
    ∃ m ≤ k, l = (List.range m).map (fun j => size (i + j)) ∧ (∀ j < m, size (i + j) ≤ cap) ∧
      (i = 0 → 0 < k → 0 < m) ∧ (m < k → cap < size (i + m))
  | 0, i, l, h => by
    simp [sliceLoop] at h; subst h
    exact ⟨0, le_rfl, by simp, by simp, by simp, by simp⟩
  | k + 1, i, l, h => by
    unfold sliceLoop at h
    by_cases hc : size i ≤ cap
    · rw [if_pos hc] at h
      cases hs : sliceLoop size cap k (i + 1) with
      | error e => rw [hs] at h; cases h
      | ok t =>
        rw [hs] at h
        simp only [Except.ok.injEq] at h
        subst h
        obtain ⟨m, h1, h2, h3, h4, h5⟩ := sliceLoop_spec size cap k (i + 1) t hs
        refine ⟨m + 1, by omega, ?_, ?_, by omega, ?_⟩
        · rw [List.range_succ_eq_map, h2]
          simp only [List.map_cons, List.map_map, Nat.add_zero]
          congr 1
          apply List.map_congr_left
          intro j _
          simp only [Function.comp]
          congr 1; omega
        · intro j hj
          cases j with
          | zero => exact hc
          | succ j =>
            have := h3 j (by omega)
            rwa [show i + (j + 1) = i + 1 + j by omega]
        · intro hm
          have := h5 (by omega)
          rwa [show i + (m + 1) = i + 1 + m by omega]
    · rw [if_neg hc] at h
      by_cases hi : i = 0
      · rw [if_pos hi] at h; cases h
      · rw [if_neg hi] at h
        simp only [Except.ok.injEq] at h
        subst h
        exact ⟨0, by omega, by simp, by simp, fun h => absurd h hi, fun _ => by simpa using not_le.1 hc⟩

/-- Size of the data of `op` if the first `i` unallocated loops are allocated to the node. -/
def sizeAt (env : Env Op Dim) (st : AllocSt Op Dim) (op : Op) (i : Nat) : ℚ :=
  calcLoopsSize env op ((st op).allocated ++ (st op).unallocated.take i) (getPrecision env op (st op))

/-- Accesses to the level above of that choice. -/
def costAt (env : Env Op Dim) (st : AllocSt Op Dim) (node : Node Op) (op : Op) (i : Nat) : ℚ :=
  if node.isTop op then 0 else (((st op).unallocated.drop i).map (fun l => l.size)).prod * sizeAt env st op i

/-- The size table of one operand. -/
def Table (env : Env Op Dim) (st : AllocSt Op Dim) (cap : ℚ) (op : Op) (s : List ℚ) : Prop :=
  ∃ m, 1 ≤ m ∧ m ≤ (st op).unallocated.length + 1 ∧ s = (List.range m).map (sizeAt env st op) ∧
    (∀ j < m, sizeAt env st op j ≤ cap) ∧ (m < (st op).unallocated.length + 1 → cap < sizeAt env st op m)

theorem allSizes_spec (env : Env Op Dim) (st : AllocSt Op Dim) (cap : ℚ) : ∀ (ops : List Op) (sizes : List (List ℚ)),
    allSizes env st cap ops = .ok sizes → List.Forall₂ (Table env st cap) ops sizes
  | [], sizes, h => by simp [allSizes] at h; subst h; exact List.Forall₂.nil
  | op :: ops, sizes, h => by
    unfold allSizes at h
    cases h1 : calcSizeSlices env op (st op) cap with
    | error e => rw [h1] at h; cases h
    | ok s =>
      rw [h1] at h
      cases h2 : allSizes env st cap ops with
      | error e => rw [h2] at h; cases h
      | ok l =>
        rw [h2] at h
        simp only [Except.ok.injEq] at h
        subst h
        refine List.Forall₂.cons ?_ (allSizes_spec env st cap ops l h2)
        obtain ⟨m, e1, e2, e3, e4, e5⟩ := sliceLoop_spec _ _ _ _ _ h1
        refine ⟨m, e4 rfl (by omega), e1, ?_, ?_, ?_⟩
        · rw [e2]; simp [sizeAt]
        · intro j hj; have := e3 j hj; simpa [sizeAt] using this
        · intro hm; have := e5 hm; simpa [sizeAt] using this

def mkCands (st : AllocSt Op Dim) (node : Node Op) (ops : List Op) (sizes : List (List ℚ)) : List Cand :=
  List.zipWith (fun op s => mkCand (node.isTop op) (st op) s) ops sizes

theorem mkCand_entry (env : Env Op Dim) (st : AllocSt Op Dim) (node : Node Op) {cap : ℚ} {op : Op} {s : List ℚ}
    (ht : Table env st cap op s) {v : Nat} (hv : v < (mkCand (node.isTop op) (st op) s).sizes.length) :
    (mkCand (node.isTop op) (st op) s).sizes.getD v 0 = sizeAt env st op (v + (mkCand (node.isTop op) (st op) s).offset) ∧
    (mkCand (node.isTop op) (st op) s).acc.getD v 0 = costAt env st node op (v + (mkCand (node.isTop op) (st op) s).offset) := by
  obtain ⟨m, hm1, _, rfl, _, _⟩ := ht
  cases htop : node.isTop op with
  | true =>
    rw [htop] at hv
    simp [mkCand] at hv
    subst hv
    obtain ⟨k, rfl⟩ : ∃ k, m = k + 1 := ⟨m - 1, by omega⟩
    simp [mkCand, costAt, htop, List.range_succ]
  | false =>
    rw [htop] at hv
    simp [mkCand] at hv
    simp [mkCand, costAt, htop, List.getD_eq_getElem?_getD, hv]

theorem pick_cons (t : List ℚ) (ts : List (List ℚ)) (k : Nat) (v : List Nat) :
    pick (t :: ts) (k :: v) = t.getD k 0 + pick ts v := by simp [pick]

theorem withOff_cons (c : Cand) (cs : List Cand) (k : Nat) (v : List Nat) :
    withOff (c :: cs) (k :: v) = (k + c.offset) :: withOff cs v := by simp [withOff]

theorem mkCands_cons (st : AllocSt Op Dim) (node : Node Op) (op : Op) (ops : List Op) (s : List ℚ) (ss : List (List ℚ)) :
    mkCands st node (op :: ops) (s :: ss) = mkCand (node.isTop op) (st op) s :: mkCands st node ops ss := rfl

theorem pick_eq (env : Env Op Dim) (st : AllocSt Op Dim) (node : Node Op) (cap : ℚ) : ∀ {ops : List Op} {sizes : List (List ℚ)}
    {v : List Nat}, List.Forall₂ (Table env st cap) ops sizes →
    List.Forall₂ (fun k n => k < n) v (lensOf (mkCands st node ops sizes)) →
    sizeOf' (mkCands st node ops sizes) v =
      ((ops.zip (withOff (mkCands st node ops sizes) v)).map (fun p => sizeAt env st p.1 p.2)).sum ∧
    accOf (mkCands st node ops sizes) v =
      ((ops.zip (withOff (mkCands st node ops sizes) v)).map (fun p => costAt env st node p.1 p.2)).sum
  | [], _, v, ht, hv => by
    cases ht; cases hv
    simp [mkCands, sizeOf', accOf, pick]
  | op :: ops, _, v, ht, hv => by
    cases ht with
    | cons h1 h2 =>
      rw [mkCands_cons] at hv ⊢
      cases hv with
      | cons k1 k2 =>
        obtain ⟨i1, i2⟩ := pick_eq env st node cap h2 k2
        obtain ⟨e1, e2⟩ := mkCand_entry env st node h1 k1
        rw [withOff_cons, List.zip_cons_cons, List.map_cons, List.map_cons, List.sum_cons, List.sum_cons, ← i1, ← i2]
        constructor
        · show pick (_ :: _) _ = _
          rw [pick_cons, e1]; rfl
        · show pick (_ :: _) _ = _
          rw [pick_cons, e2]; rfl

/-- Result of allocating `idx` loops of one operand. -/
def advance (s : OpSt Dim) (idx : Nat) (sp : List (Dim × ℚ)) : OpSt Dim :=
  { allocated := s.allocated ++ s.unallocated.take idx ++ spLoops sp, unallocated := s.unallocated.drop idx, level := s.level + 1, tm := s.tm ++ [(s.unallocated.take idx).map (fun l => (l.dim, l.size))] }

theorem allocOp_spec {env : Env Op Dim} {node : Node Op} {st st' : AllocSt Op Dim} {op : Op} {idx : Nat}
    (h : allocOp env node st op idx = .ok st') :
    ∃ sp, (env.spatial op)[(st op).level]? = some sp ∧ st' = Function.update st op (advance (st op) idx sp) ∧
      (node.isTop op = true → (st op).unallocated.drop idx = []) := by
  unfold allocOp at h
  simp only at h
  cases hsp : (env.spatial op)[(st op).level]? with
  | none => rw [hsp] at h; cases h
  | some sp =>
    rw [hsp] at h
    simp only at h
    by_cases hc : (node.isTop op && !((st op).unallocated.drop idx).isEmpty) = true
    · rw [if_pos hc] at h; cases h
    · rw [if_neg hc] at h
      simp only [Except.ok.injEq] at h
      refine ⟨sp, rfl, h.symm, ?_⟩
      intro ht
      rw [ht] at hc
      simpa using hc

theorem allocOps_spec {env : Env Op Dim} {node : Node Op} : ∀ {pairs : List (Op × Nat)} {st st' : AllocSt Op Dim},
    (pairs.map Prod.fst).Nodup → allocOps env node st pairs = .ok st' →
    (∀ op, op ∉ pairs.map Prod.fst → st' op = st op) ∧
    (∀ p ∈ pairs, ∃ sp, (env.spatial p.1)[(st p.1).level]? = some sp ∧ st' p.1 = advance (st p.1) p.2 sp ∧
      (node.isTop p.1 = true → (st p.1).unallocated.drop p.2 = []))
  | [], st, st', _, h => by
    simp [allocOps] at h; subst h
    exact ⟨fun _ _ => rfl, by simp⟩
  | (op, idx) :: rest, st, st', hn, h => by
    unfold allocOps at h
    cases h1 : allocOp env node st op idx with
    | error e => rw [h1] at h; cases h
    | ok s1 =>
      rw [h1] at h
      simp only at h
      obtain ⟨sp, e1, e2, e3⟩ := allocOp_spec h1
      simp only [List.map_cons, List.nodup_cons] at hn
      obtain ⟨r1, r2⟩ := allocOps_spec hn.2 h
      constructor
      · intro o ho
        simp only [List.map_cons, List.mem_cons, not_or] at ho
        rw [r1 o ho.2, e2, Function.update_of_ne ho.1]
      · intro p hp
        rcases List.mem_cons.1 hp with rfl | hp
        · refine ⟨sp, e1, ?_, e3⟩
          rw [r1 op hn.1, e2, Function.update_self]
        · have hne : p.1 ≠ op := by
            intro he; exact hn.1 (he ▸ List.mem_map_of_mem (f := Prod.fst) hp)
          obtain ⟨sp', f1, f2, f3⟩ := r2 p hp
          have hs1 : s1 p.1 = st p.1 := by rw [e2, Function.update_of_ne hne]
          rw [hs1] at f1 f2 f3
          exact ⟨sp', f1, f2, f3⟩

theorem evenValid_zero (st : AllocSt Op Dim) (ops : List Op) (idx : List Nat) (h : ∀ k ∈ idx, k = 0) :
    evenValid st ops idx = true := by
  unfold evenValid
  simp only [Bool.not_eq_true', List.any_eq_false]
  intro x hx
  obtain ⟨p, hp, hx⟩ := List.mem_flatMap.1 hx
  have := h p.2 (List.of_mem_zip hp).2
  rw [this] at hx
  simp at hx

/-- The operands of the node that the layer uses. -/
def nodeOps (env : Env Op Dim) (node : Node Op) : List Op := node.ops.filter (fun op => decide (op ∈ env.memOps))

theorem length_mkCands {env : Env Op Dim} {st : AllocSt Op Dim} {cap : ℚ} {node : Node Op} {ops : List Op} {sizes : List (List ℚ)}
    (h : List.Forall₂ (Table env st cap) ops sizes) : (mkCands st node ops sizes).length = ops.length := by
  have := h.length_eq
  simp [mkCands, this]

theorem forall2_zip {α β : Type} {P : α → β → Prop} {a : List α} {b : List β} (h : List.Forall₂ P a b) :
    ∀ p ∈ a.zip b, P p.1 p.2 := by
  intro p hp
  induction h with
  | nil => simp at hp
  | cons h1 _ ih =>
    rcases List.mem_cons.1 hp with rfl | hp
    · exact h1
    · exact ih hp

theorem zipWith_eq_map_zip {α β γ : Type} (f : α → β → γ) : ∀ (a : List α) (b : List β),
    List.zipWith f a b = (a.zip b).map (fun p => f p.1 p.2)
  | [], _ => by simp
  | _ :: _, [] => by simp
  | x :: a, y :: b => by simp [zipWith_eq_map_zip f a b]

/-- Everything about a successful `allocate_node`. -/
theorem allocateNode_spec {env : Env Op Dim} {st st' : AllocSt Op Dim} {node : Node Op} (hn : node.ops.Nodup)
    (h : allocateNode env st node = .ok st') :
    ∃ best : List Nat, best.length = (nodeOps env node).length ∧
      (∀ op, op ∉ nodeOps env node → st' op = st op) ∧
      (∀ p ∈ (nodeOps env node).zip best, ∃ sp, (env.spatial p.1)[(st p.1).level]? = some sp ∧
        st' p.1 = advance (st p.1) p.2 sp ∧ p.2 ≤ (st p.1).unallocated.length ∧
        (node.isTop p.1 = true → (st p.1).unallocated.drop p.2 = [])) ∧
      (((nodeOps env node).zip best).map (fun p => sizeAt env st p.1 p.2)).sum ≤ node.cap ∧
      validComb env st (nodeOps env node) best = true ∧
      (∀ ws : List Nat, ws.length = (nodeOps env node).length →
        (∀ p ∈ (nodeOps env node).zip ws, p.2 ≤ (st p.1).unallocated.length ∧
          (node.isTop p.1 = true → p.2 = (st p.1).unallocated.length) ∧ ∀ j ≤ p.2, sizeAt env st p.1 j ≤ node.cap) →
        (((nodeOps env node).zip ws).map (fun p => sizeAt env st p.1 p.2)).sum ≤ node.cap →
        validComb env st (nodeOps env node) ws = true →
        (((nodeOps env node).zip best).map (fun p => costAt env st node p.1 p.2)).sum ≤
          (((nodeOps env node).zip ws).map (fun p => costAt env st node p.1 p.2)).sum) := by
  unfold allocateNode at h
  simp only at h
  change (match allSizes env st node.cap (nodeOps env node) with | .error e => _ | .ok sizes => _) = _ at h
  cases h1 : allSizes env st node.cap (nodeOps env node) with
  | error e => rw [h1] at h; cases h
  | ok sizes =>
    rw [h1] at h
    simp only at h
    have htab := allSizes_spec env st node.cap _ _ h1
    have hlenC := length_mkCands (node := node) htab
    set cands := mkCands st node (nodeOps env node) sizes with hcands
    change (match findBest cands node.cap (validComb env st (nodeOps env node)) with | .error e => _ | .ok best => _) = _ at h
    have hpos : ∀ c ∈ cands, c.sizes ≠ [] := by
      intro c hc
      rw [hcands] at hc
      unfold mkCands at hc
      rw [zipWith_eq_map_zip] at hc
      obtain ⟨p, hp, rfl⟩ := List.mem_map.1 hc
      obtain ⟨m, hm1, _, hs, _, _⟩ := forall2_zip htab p hp
      simp only [mkCand]
      cases node.isTop p.1 with
      | true => simp
      | false =>
        simp only [Bool.false_eq_true, if_false]
        rw [hs]; simp; omega
    obtain ⟨hbad, hgood⟩ := findBest_spec cands node.cap (validComb env st (nodeOps env node)) hpos
    have hzero : sizeOf' cands (cands.map (fun _ => 0)) ≤ node.cap := by
      by_contra hc
      rw [hbad (not_le.1 hc)] at h
      cases h
    obtain ⟨best, hb, hcase⟩ := hgood hzero
    rw [hb] at h
    simp only at h
    change allocOps env node st ((nodeOps env node).zip best) = _ at h
    have hnd : (nodeOps env node).Nodup := hn.filter _
    have hlen_of : ∀ v ∈ combos (lensOf cands), (withOff cands v).length = (nodeOps env node).length := by
      intro v hv
      have := (mem_combos.1 hv).length_eq
      simp only [lensOf, List.length_map] at this
      simp [withOff, this, hlenC]
    have hblen : best.length = (nodeOps env node).length := by
      rcases hcase with ⟨_, rfl⟩ | ⟨v, hv, _, rfl, _⟩
      · simp [hlenC]
      · exact hlen_of v hv
    have hfst : ((nodeOps env node).zip best).map Prod.fst = nodeOps env node := by
      rw [List.map_fst_zip]; omega
    obtain ⟨r1, r2⟩ := allocOps_spec (by rw [hfst]; exact hnd) h
    rw [hfst] at r1
    -- the fallback of line 287 is never used on success
    obtain ⟨v, hv, hvf, hbv, hopt⟩ : ∃ v ∈ combos (lensOf cands), Feasible cands node.cap (validComb env st (nodeOps env node)) v ∧
        best = withOff cands v ∧ ∀ w ∈ combos (lensOf cands),
          Feasible cands node.cap (validComb env st (nodeOps env node)) w → accOf cands v ≤ accOf cands w := by
      rcases hcase with ⟨hno, hbz⟩ | ⟨v, hv, hvf, hbv, hopt⟩
      · exfalso
        have hoff : ∀ c ∈ cands, c.offset = 0 := by
          intro c hc
          rw [hcands] at hc
          unfold mkCands at hc
          rw [zipWith_eq_map_zip] at hc
          obtain ⟨p, hp, rfl⟩ := List.mem_map.1 hc
          obtain ⟨m, hm1, hm2, hs, _, _⟩ := forall2_zip htab p hp
          simp only [mkCand]
          cases htop : node.isTop p.1 with
          | false => simp
          | true =>
            simp only [if_true]
            have hmem : p.1 ∈ nodeOps env node := (List.of_mem_zip hp).1
            obtain ⟨k, hk, hke⟩ := List.getElem_of_mem hmem
            have hp2 : (p.1, 0) ∈ (nodeOps env node).zip best := by
              rw [List.mem_iff_getElem]
              refine ⟨k, by simp; omega, ?_⟩
              rw [List.getElem_zip, hke]
              congr 1
              simp [hbz]
            obtain ⟨_, _, _, hd⟩ := r2 _ hp2
            have := hd htop
            simp at this
            rw [hs]
            rw [this] at hm2
            simp at hm2 ⊢; omega
        have hwz : withOff cands (cands.map (fun _ => 0)) = cands.map (fun _ => 0) := by
          have : ∀ cs : List Cand, (∀ c ∈ cs, c.offset = 0) → withOff cs (cs.map (fun _ => 0)) = cs.map (fun _ => 0) := by
            intro cs hcs
            induction cs with
            | nil => rfl
            | cons c cs ih =>
              rw [List.map_cons, withOff_cons, hcs c (by simp), ih (fun c hc => hcs c (by simp [hc]))]
          exact this cands hoff
        have hmem : cands.map (fun _ => 0) ∈ combos (lensOf cands) := by
          rw [mem_combos]
          have : ∀ cs : List Cand, (∀ c ∈ cs, c.sizes ≠ []) → List.Forall₂ (fun k n => k < n) (cs.map (fun _ => 0)) (lensOf cs) := by
            intro cs hcs
            induction cs with
            | nil => exact List.Forall₂.nil
            | cons c cs ih =>
              exact List.Forall₂.cons (List.length_pos_iff.2 (hcs c (by simp))) (ih (fun c hc => hcs c (by simp [hc])))
          exact this cands hpos
        refine hno _ hmem ⟨hzero, ?_⟩
        rw [hwz]
        unfold validComb
        split
        · apply evenValid_zero
          intro k hk
          obtain ⟨_, _, rfl⟩ := List.mem_map.1 hk
          rfl
        · rfl
      · exact ⟨v, hv, hvf, hbv, fun w hw hwf => (hopt w hw hwf).1⟩
    obtain ⟨es, ea⟩ := pick_eq env st node node.cap htab (mem_combos.1 hv)
    refine ⟨best, hblen, r1, ?_, ?_, ?_, ?_⟩
    · intro p hp
      obtain ⟨sp, e1, e2, e3⟩ := r2 p hp
      refine ⟨sp, e1, e2, ?_, e3⟩
      -- index below the table length
      have key : ∀ (ops : List Op) (sizes : List (List ℚ)) (v : List Nat), List.Forall₂ (Table env st node.cap) ops sizes →
          List.Forall₂ (fun k n => k < n) v (lensOf (mkCands st node ops sizes)) →
          ∀ p ∈ ops.zip (withOff (mkCands st node ops sizes) v), p.2 ≤ (st p.1).unallocated.length := by
        intro ops
        induction ops with
        | nil => intro sizes v _ _ p hp; simp at hp
        | cons op ops ih =>
          intro sizes v ht hv p hp
          cases ht with
          | cons t1 t2 =>
            rw [mkCands_cons] at hv hp
            cases hv with
            | cons k1 k2 =>
              rw [withOff_cons, List.zip_cons_cons] at hp
              rcases List.mem_cons.1 hp with rfl | hp
              · obtain ⟨m, hm1, hm2, rfl, _, _⟩ := t1
                simp only [mkCand] at k1 ⊢
                cases htop : node.isTop op with
                | true => rw [htop] at k1; simp at k1 ⊢; omega
                | false => rw [htop] at k1; simp at k1 ⊢; omega
              · exact ih _ _ t2 k2 p hp
      rw [hbv] at hp
      exact key _ _ _ htab (mem_combos.1 hv) p hp
    · rw [hbv, ← es]; exact hvf.1
    · rw [hbv]; exact hvf.2
    · intro ws hwl hwok hwsum hwval
      -- the alternative is one of the enumerated combinations
      have key : ∀ (ops : List Op) (sizes : List (List ℚ)) (bs : List Nat) (ws : List Nat), List.Forall₂ (Table env st node.cap) ops sizes →
          ws.length = ops.length → 
          (∀ p ∈ ops.zip ws, p.2 ≤ (st p.1).unallocated.length ∧
            (node.isTop p.1 = true → p.2 = (st p.1).unallocated.length) ∧ ∀ j ≤ p.2, sizeAt env st p.1 j ≤ node.cap) →
          ∃ w, List.Forall₂ (fun k n => k < n) w (lensOf (mkCands st node ops sizes)) ∧
            withOff (mkCands st node ops sizes) w = ws := by
        intro ops
        induction ops with
        | nil =>
          intro sizes bs ws ht hl _
          cases ht
          simp at hl; subst hl
          exact ⟨[], List.Forall₂.nil, rfl⟩
        | cons op ops ih =>
          intro sizes bs ws ht hl hok
          cases ws with
          | nil => simp at hl
          | cons w0 ws =>
            cases ht with
            | cons t1 t2 =>
              obtain ⟨w, hw1, hw2⟩ := ih _ bs ws t2 (by simpa using hl) (fun p hp => hok p (by simp [hp]))
              obtain ⟨m, hm1, hm2, hs, hm3, hm4⟩ := t1
              obtain ⟨a1, a2, a3⟩ := hok (op, w0) (by simp)
              simp only at a1 a2 a3
              have hm : w0 < m := by
                by_contra hc
                have := hm4 (by omega)
                exact absurd (a3 m (by omega)) (not_le.2 this)
              rw [mkCands_cons]
              refine ⟨(if node.isTop op then 0 else w0) :: w, ?_, ?_⟩
              · refine List.Forall₂.cons ?_ hw1
                rw [hs]
                cases htop : node.isTop op with
                | true => simp [mkCand]
                | false => simpa [mkCand] using hm
              · rw [withOff_cons, hw2, hs]
                congr 1
                cases htop : node.isTop op with
                | true => have := a2 htop; simp [mkCand]; omega
                | false => simp [mkCand]
      obtain ⟨w, hw1, hw2⟩ := key _ _ best ws htab hwl hwok
      obtain ⟨fs, fa⟩ := pick_eq env st node node.cap htab hw1
      have hres := hopt w (mem_combos.2 hw1) ⟨by rw [hcands, fs, hw2]; exact hwsum, by rw [hw2]; exact hwval⟩
      rw [hcands, ea, fa, hw2] at hres
      rw [hbv]; exact hres

end Verif.Alloc
