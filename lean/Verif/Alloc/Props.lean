import Verif.Alloc.RunLemmas

/-!
Properties of the memory allocator: C10 (order kept, one level per memory), C11 (fits), C12 (fewest accesses), C13 (even).
-/

namespace Verif.Alloc

variable {Op Dim : Type} [DecidableEq Op] [DecidableEq Dim]

/-- C10: for every operand of the layer that some visited node is the top level of, the concatenation of the per-level temporal
loops is exactly the given ordering, and there is one level per memory that stores the operand. -/
theorem run_keeps_order {env : Env Op Dim} {ordering : List (Dim × ℚ)} {nodes : List (Node Op)} {tm : Op → List (List (Dim × ℚ))}
    (hn : ∀ n ∈ nodes, n.ops.Nodup) (h : run env ordering nodes = .ok tm) (op : Op) (hop : op ∈ env.memOps)
    (htop : ∃ n ∈ nodes, op ∈ n.ops ∧ n.isTop op = true) :
    (tm op).flatten = ordering ∧ (tm op).length = (nodes.filter (fun n => decide (op ∈ n.ops))).length := by
  obtain ⟨st0, st', h0, h1, rfl⟩ := run_ok h
  obtain ⟨i0, t0⟩ := initState_inv h0 op
  obtain ⟨r1, r2, _, r4⟩ := allocNodes_inv hop hn h1 i0
  refine ⟨?_, by rw [r2, t0]; simp [lvl]⟩
  have hu := r4 (Or.inl htop)
  rw [r1.rest] at hu
  have hd : ordering.drop (st' op).tm.flatten.length = [] := by
    have := congrArg List.length hu
    rw [length_tmLoops] at this
    exact List.eq_nil_of_length_eq_zero this
  have := List.take_append_drop (st' op).tm.flatten.length ordering
  rw [hd, List.append_nil, ← r1.pre] at this
  exact this

/-- C10, without the assumption on the top level: the loops that were allocated are always a prefix of the ordering. -/
theorem run_prefix {env : Env Op Dim} {ordering : List (Dim × ℚ)} {nodes : List (Node Op)} {tm : Op → List (List (Dim × ℚ))}
    (hn : ∀ n ∈ nodes, n.ops.Nodup) (h : run env ordering nodes = .ok tm) (op : Op) (hop : op ∈ env.memOps) :
    (tm op).flatten <+: ordering := by
  obtain ⟨st0, st', h0, h1, rfl⟩ := run_ok h
  obtain ⟨i0, _⟩ := initState_inv h0 op
  obtain ⟨r1, _, _, _⟩ := allocNodes_inv hop hn h1 i0
  rw [r1.pre]
  exact List.take_prefix _ _

/-- C11: in every memory node, the data that all operands of the layer keep there fits in the capacity. -/
theorem run_fits {env : Env Op Dim} {ordering : List (Dim × ℚ)} {pre post : List (Node Op)} {node : Node Op}
    {tm : Op → List (List (Dim × ℚ))} (hn : ∀ n ∈ pre ++ node :: post, n.ops.Nodup)
    (h : run env ordering (pre ++ node :: post) = .ok tm) :
    ((storedOps env node).map (fun op => heldBits env ordering (tm op) op (lvl pre op) ((tm op).getD (lvl pre op) []).length)).sum
      ≤ node.cap := (run_node hn h).2.1

/-- C12: among all choices of how many further loops to keep in the node that fit (each prefix on its own and all operands
together), that leave nothing above a top level and that the mapping type allows, the chosen one causes the fewest accesses to
the memories above. -/
theorem run_optimal {env : Env Op Dim} {ordering : List (Dim × ℚ)} {pre post : List (Node Op)} {node : Node Op}
    {tm : Op → List (List (Dim × ℚ))} (hn : ∀ n ∈ pre ++ node :: post, n.ops.Nodup)
    (h : run env ordering (pre ++ node :: post) = .ok tm) (ws : Op → Nat)
    (hws : ∀ op ∈ storedOps env node, pos (tm op) (lvl pre op) + ws op ≤ ordering.length ∧
      (node.isTop op = true → pos (tm op) (lvl pre op) + ws op = ordering.length) ∧
      ∀ j ≤ ws op, heldBits env ordering (tm op) op (lvl pre op) j ≤ node.cap)
    (hfit : ((storedOps env node).map (fun op => heldBits env ordering (tm op) op (lvl pre op) (ws op))).sum ≤ node.cap)
    (heven : env.even = true → EvenChoice (storedOps env node) tm (lvl pre) ws) :
    ((storedOps env node).map (fun op => fetchBits env ordering (tm op) (node.isTop op) op (lvl pre op)
        ((tm op).getD (lvl pre op) []).length)).sum ≤
      ((storedOps env node).map (fun op => fetchBits env ordering (tm op) (node.isTop op) op (lvl pre op) (ws op))).sum :=
  (run_node hn h).2.2.2 ws hws hfit heven

/-- C12: ties are broken towards the choice that keeps more loops in the earlier operands (the last one enumerated), and
`MemoryTooSmall` is raised exactly when already the first combination exceeds the capacity. -/
theorem search_optimal (cands : List Cand) (cap : ℚ) (valid : List Nat → Bool) (hpos : ∀ c ∈ cands, c.sizes ≠ []) :
    (cap < sizeOf' cands (cands.map (fun _ => 0)) → findBest cands cap valid = .error .memoryTooSmall) ∧
    (sizeOf' cands (cands.map (fun _ => 0)) ≤ cap → ∃ best, findBest cands cap valid = .ok best ∧
      ((∀ v ∈ combos (lensOf cands), ¬ Feasible cands cap valid v) ∧ best = cands.map (fun _ => 0) ∨
        ∃ v ∈ combos (lensOf cands), Feasible cands cap valid v ∧ best = withOff cands v ∧
          ∀ w ∈ combos (lensOf cands), Feasible cands cap valid w → accOf cands v ≤ accOf cands w ∧
            (accOf cands w = accOf cands v → w = v ∨ List.Lex (· < ·) w v))) :=
  findBest_spec cands cap valid hpos

/-- C13: with the even mapping type, a loop allocated to a node for one operand is allocated to that node or below it for every
other operand of the node. -/
theorem run_even {env : Env Op Dim} {ordering : List (Dim × ℚ)} {pre post : List (Node Op)} {node : Node Op}
    {tm : Op → List (List (Dim × ℚ))} (hn : ∀ n ∈ pre ++ node :: post, n.ops.Nodup)
    (h : run env ordering (pre ++ node :: post) = .ok tm) (he : env.even = true) (a b : Op) (ha : a ∈ storedOps env node)
    (hb : b ∈ storedOps env node) (hne : (tm a).getD (lvl pre a) [] ≠ []) :
    (((tm a).take (lvl pre a)).flatten ++ (tm a).getD (lvl pre a) []).length ≤
      (((tm b).take (lvl pre b)).flatten ++ (tm b).getD (lvl pre b) []).length := by
  have := (run_node hn h).2.2.1 he a ha b hb (List.length_pos_iff.2 hne)
  rw [List.length_append, List.length_append]
  exact this

/-- What `dimSizes` is: per dimension the product of the sizes of the loops over it. -/
theorem dimSizes_get (loops : List (Loop Dim)) (d : Dim) :
    (dimSizes loops).get? d = if ∃ l ∈ loops, l.dim = d then some ((loops.filter (fun l => decide (l.dim = d))).map (fun l => l.size)).prod else none := by
  have gen : ∀ (loops : List (Loop Dim)) (acc : Dict Dim ℚ),
      (loops.foldl (fun d l => d.set l.dim ((d.get? l.dim).getD 1 * l.size)) acc).get? d =
        if ∃ l ∈ loops, l.dim = d then some ((acc.get? d).getD 1 * ((loops.filter (fun l => decide (l.dim = d))).map (fun l => l.size)).prod)
        else acc.get? d := by
    intro loops
    induction loops with
    | nil => intro acc; simp
    | cons l ls ih =>
      intro acc
      rw [List.foldl_cons, ih]
      by_cases hd : l.dim = d
      · subst hd
        by_cases hex : ∃ l' ∈ ls, l'.dim = l.dim
        · rw [if_pos hex, if_pos ⟨l, by simp, rfl⟩]
          simp [mul_assoc, Dict.get?_set]
        · have hfil : ls.filter (fun l' => decide (l'.dim = l.dim)) = [] := by
            rw [List.filter_eq_nil_iff]
            intro a ha hc
            exact hex ⟨a, ha, of_decide_eq_true hc⟩
          rw [if_neg hex, if_pos ⟨l, by simp, rfl⟩]
          simp [hfil, Dict.get?_set]
      · have hd' : d ≠ l.dim := fun h => hd h.symm
        by_cases hex : ∃ l' ∈ ls, l'.dim = d
        · rw [if_pos hex, if_pos (by obtain ⟨x, hx, hxd⟩ := hex; exact ⟨x, by simp [hx], hxd⟩)]
          simp [hd, hd', Dict.get?_set]
        · rw [if_neg hex, if_neg (by
            rintro ⟨x, hx, hxd⟩
            rcases List.mem_cons.1 hx with rfl | hx
            · exact hd hxd
            · exact hex ⟨x, hx, hxd⟩)]
          simp [hd, hd', Dict.get?_set]
  rw [dimSizes, gen]
  simp [Dict.get?]

/-! ### A concrete run: two operands, a shared register file and a shared top memory -/

section Example

/-- Operand 0 is relevant to dimension 0, operand 1 (the output) to both. -/
def exEnv (even : Bool) : Env Nat Nat :=
  { memOps := [0, 1], isOut := fun o => o = 1, prec := fun _ => 8, finalPrec := 8, irDims := fun o => if o = 0 then [1] else [],
    spatial := fun _ => [[], [], []], even := even,
    tensor := fun o d => if o = 0 then (d.get? 0).getD 1 else (d.get? 0).getD 1 * (d.get? 1).getD 1 }

def exNodes : List (Node Nat) :=
  [{ ops := [0, 1], cap := 48, isTop := fun _ => false }, { ops := [0, 1], cap := 1000, isTop := fun _ => true }]

example : (run (exEnv false) [(1, 2), (0, 3)] exNodes).map (fun tm => (tm 0, tm 1)) =
    .ok ([[(1, 2), (0, 3)], []], [[(1, 2)], [(0, 3)]]) := by decide +kernel

example : (run (exEnv true) [(1, 2), (0, 3)] exNodes).map (fun tm => (tm 0, tm 1)) =
    .ok ([[(1, 2)], [(0, 3)]], [[(1, 2)], [(0, 3)]]) := by decide +kernel

example : (∀ n ∈ exNodes, n.ops.Nodup) ∧ (∃ n ∈ exNodes, (0 : Nat) ∈ n.ops ∧ n.isTop 0 = true) := by decide +kernel

end Example

end Verif.Alloc
