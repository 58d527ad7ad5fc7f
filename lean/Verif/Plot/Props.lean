import Verif.Plot.Lemmas
import Mathlib.Data.Nat.Digits.Defs

/-! Properties of the plots of results (C126, C127). -/

namespace Verif.Plot

open Cme (FourWay Dir)

variable {Op MOp Mem : Type} [DecidableEq Op] [DecidableEq MOp] [DecidableEq Mem]

/-- Rectangles that lie on top of each other without gap, from `a` up to `b`. -/
def Stacked : ℚ → ℚ → List Seg → Prop
  | a, b, [] => a = b
  | a, b, s :: ss => s.bottom = a ∧ Stacked (a + s.height) b ss

/-- Energy of one entry in all directions. -/
def entryEnergy (f : FourWay) : ℚ := f.rdToHigh + f.wrByHigh + f.rdToLow + f.wrByLow

/-- Energy of the operations and of all memory accesses of a result. -/
def allEnergy (r : Res Op MOp Mem) : ℚ := r.mac + (r.energy.map (fun e => (e.2.map entryEnergy).sum)).sum

theorem stack_spec (hs : List ℚ) (a : ℚ) : Stacked a (a + hs.sum) (stack a hs) ∧ (stack a hs).map Seg.height = hs := by
  induction hs generalizing a with
  | nil => simp [Stacked, stack]
  | cons h hs ih =>
    obtain ⟨h1, h2⟩ := ih (a + h)
    rw [stack, List.map_cons, h2, List.sum_cons, ← add_assoc]
    exact ⟨⟨rfl, h1⟩, rfl⟩

theorem macRow_sum {ops : List Op} (h : ops ≠ []) (mac : ℚ) : (macRow ops mac).flatten.sum = mac := by
  cases ops with
  | nil => exact absurd rfl h
  | cons op ops =>
    have : ((ops.map (fun _ => [(0 : ℚ), 0, 0, 0])).flatten).sum = 0 := by
      clear h
      induction ops with
      | nil => rfl
      | cons o os ih => rw [List.map_cons, List.flatten_cons, List.sum_append, ih]; simp
    rw [macRow, List.flatten_cons, List.sum_append, this]
    simp

section plot
variable {ord : List Op → List Op} {size : Mem → Nat}

theorem plot_unfold {cmes : List (Option (Res Op MOp Mem))} {gs : List (Group Mem)} (h : plot ord size cmes = .ok gs) :
    ∃ first rest ts, cmes.filterMap id = first :: rest ∧ tables first.levels (first :: rest) = .ok ts ∧
      allOps ord (first :: rest) ≠ [] ∧ allMems size first ≠ [] ∧
      ∀ (g : Nat) (r : Res Op MOp Mem), (first :: rest)[g]? = some r → ∃ t, opLoop first.levels r.links r.energy [] = .ok t ∧
        gs[g]? = some (group (allMems size first) g r
          (macRow (allOps ord (first :: rest)) r.mac :: (allMems size first).map (memRow t (allOps ord (first :: rest))))) := by
  unfold plot at h
  split at h
  · cases h
  · rename_i first rest hf
    refine ⟨first, rest, ?_⟩
    unfold energyArray at h
    cases ht : tables first.levels (first :: rest) with
    | error e => simp only [ht] at h; cases h
    | ok ts =>
      simp only [ht] at h
      by_cases ho : allOps ord (first :: rest) = []
      · rw [if_pos ho] at h; cases h
      · by_cases hm : allMems size first = []
        · rw [if_neg ho, if_pos hm] at h; cases h
        · rw [if_neg ho, if_neg hm] at h
          simp only [Except.ok.injEq] at h
          refine ⟨ts, hf, rfl, ho, hm, fun g r hg => ?_⟩
          obtain ⟨t, h1, h2⟩ := (tables_get _ _ _ ht).2 g r hg
          refine ⟨t, h2, ?_⟩
          rw [← h, List.getElem?_zipWith_eq_some]
          have hlt := (List.getElem?_eq_some_iff.1 hg).1
          refine ⟨(g, r), _, ?_, ?_, rfl⟩
          · rw [List.getElem?_zip_eq_some]
            exact ⟨List.getElem?_range (by simpa using hlt), hg⟩
          · rw [List.getElem?_zipWith_eq_some]
            exact ⟨r, t, hg, h1, rfl⟩

/-- C126: the plot is drawn exactly if there is a result of a single layer, its accelerator has a memory, some layer has an operand, and
for every operand the first accelerator has at least as many memories as the result has entries. -/
theorem plot_ok_iff (ho : ∀ l, (ord l).Perm l) (cmes : List (Option (Res Op MOp Mem))) : (∃ gs, plot ord size cmes = .ok gs) ↔
    ∃ first rest, cmes.filterMap id = first :: rest ∧ first.mems ≠ [] ∧ (∃ r ∈ first :: rest, r.ops ≠ []) ∧
      ∀ r ∈ first :: rest, ∀ e ∈ r.energy, ∃ mo, r.links.get? e.1 = some mo ∧ e.2.length ≤ (first.levels mo).length := by
  have hops : ∀ rs : List (Res Op MOp Mem), allOps ord rs = [] ↔ ¬ ∃ r ∈ rs, r.ops ≠ [] := by
    intro rs
    unfold allOps
    rw [← List.length_eq_zero_iff, (ho _).length_eq, List.length_eq_zero_iff, List.eq_nil_iff_forall_not_mem]
    simp only [List.mem_dedup, List.mem_flatMap, not_exists, not_and, not_not]
    constructor
    · intro h r hr
      rw [List.eq_nil_iff_forall_not_mem]
      exact fun o hm => h o r hr hm
    · intro h o r hr hm
      rw [h r hr] at hm; cases hm
  have hmems : ∀ r : Res Op MOp Mem, allMems size r = [] ↔ r.mems = [] := by
    intro r
    unfold allMems
    rw [← List.length_eq_zero_iff, (List.perm_insertionSort _ _).length_eq, List.length_eq_zero_iff]
  constructor
  · rintro ⟨gs, h⟩
    obtain ⟨first, rest, ts, h1, h2, h3, h4, _⟩ := plot_unfold h
    refine ⟨first, rest, h1, fun hc => h4 ((hmems _).2 hc), ?_, (tables_ok _ _).1 ⟨ts, h2⟩⟩
    by_contra hc
    exact h3 ((hops _).2 hc)
  · rintro ⟨first, rest, h1, h2, h3, h4⟩
    obtain ⟨ts, ht⟩ := (tables_ok first.levels (first :: rest)).2 h4
    unfold plot energyArray
    rw [h1]
    simp only [ht]
    rw [if_neg (fun hc => (hops _).1 hc h3), if_neg (fun hc => h2 ((hmems _).1 hc))]
    exact ⟨_, rfl⟩

/-- C126: every layer has one bar for its operations and one for every memory of the first accelerator.  The rectangles of a bar lie on
top of each other from zero; those of a memory are the energies of the operands in it, for the four directions. -/
theorem bars_energy {cmes : List (Option (Res Op MOp Mem))} {gs : List (Group Mem)} (h : plot ord size cmes = .ok gs)
    {first : Res Op MOp Mem} {rest : List (Res Op MOp Mem)} (hf : cmes.filterMap id = first :: rest)
    {g : Nat} {r : Res Op MOp Mem} (hg : (first :: rest)[g]? = some r) :
    ∃ G, gs[g]? = some G ∧ G.bars.length = first.mems.length + 1 ∧
      (∃ segs, G.bars[0]? = some (none, barPos (first.mems.length + 1) g 0, segs) ∧ Stacked 0 r.mac segs) ∧
      ∀ i m, (allMems size first)[i]? = some m → ∃ segs, G.bars[i + 1]? = some (some m, barPos (first.mems.length + 1) g (i + 1), segs) ∧
        segs.map Seg.height = (allOps ord (first :: rest)).flatMap (fun op => Dir.all.map (share first.levels r op m)) ∧
        Stacked 0 ((allOps ord (first :: rest)).map (fun op => (Dir.all.map (share first.levels r op m)).sum)).sum segs := by
  obtain ⟨first', rest', ts, h1, _, hops, _, h5⟩ := plot_unfold h
  rw [hf] at h1; cases h1
  obtain ⟨t, ht, hG⟩ := h5 g r hg
  have hlen : (allMems size first).length = first.mems.length := (List.perm_insertionSort _ _).length_eq
  have hrow : ∀ m, memRow t (allOps ord (first :: rest)) m = (allOps ord (first :: rest)).map (fun op => Dir.all.map (share first.levels r op m)) := by
    intro m
    unfold memRow
    apply List.map_congr_left
    intro op _
    apply List.map_congr_left
    intro d _
    rw [opLoop_look _ _ _ _ _ ht op m d]
    have : (look ([] : Table Op Mem) op m).get d = 0 := get_zero d
    rw [this, zero_add]; rfl
  refine ⟨_, hG, ?_, ?_, ?_⟩
  · unfold group
    simp [hlen]
  · refine ⟨stack 0 (macRow (allOps ord (first :: rest)) r.mac).flatten, ?_, ?_⟩
    · unfold group
      simp only [hlen]
      rw [List.getElem?_zipWith_eq_some]
      refine ⟨(0, none), _, ?_, rfl, rfl⟩
      rw [List.getElem?_zip_eq_some]
      exact ⟨List.getElem?_range (by omega), rfl⟩
    · have := (stack_spec (macRow (allOps ord (first :: rest)) r.mac).flatten 0).1
      rwa [macRow_sum hops, zero_add] at this
  · intro i m hi
    have hlt := (List.getElem?_eq_some_iff.1 hi).1
    refine ⟨stack 0 (memRow t (allOps ord (first :: rest)) m).flatten, ?_, ?_, ?_⟩
    · unfold group
      simp only [hlen]
      rw [List.getElem?_zipWith_eq_some]
      refine ⟨(i + 1, some m), _, ?_, ?_, rfl⟩
      · rw [List.getElem?_zip_eq_some]
        refine ⟨List.getElem?_range (by omega), ?_⟩
        rw [List.getElem?_cons_succ, List.getElem?_map, hi]; rfl
      · rw [List.getElem?_cons_succ, List.getElem?_map, hi]; rfl
    · rw [(stack_spec _ _).2, hrow, List.flatMap_def]
    · have := (stack_spec (memRow t (allOps ord (first :: rest)) m).flatten 0).1
      rw [hrow m] at this ⊢
      rwa [List.sum_flatten, List.map_map, zero_add] at this

/-- Memory energies over all bars of a result. -/
theorem share_sum {levels : MOp → List Mem} {r : Res Op MOp Mem} {ops : List Op} {mems : List Mem} (ho : ops.Nodup) (hm : mems.Nodup)
    (hr : ∀ e ∈ r.energy, e.1 ∈ ops) (hl : ∀ mo, ∀ m ∈ levels mo, m ∈ mems)
    (hk : ∀ e ∈ r.energy, ∃ mo, r.links.get? e.1 = some mo ∧ e.2.length ≤ (levels mo).length) :
    (mems.map (fun m => (ops.map (fun op => (Dir.all.map (share levels r op m)).sum)).sum)).sum =
      (r.energy.map (fun e => (e.2.map entryEnergy).sum)).sum := by
  -- one entry
  have one : ∀ e ∈ r.energy, ∀ d : Dir, (mems.map (fun m => (ops.map (fun op => if e.1 = op then
      (((r.links.get? e.1).toList.flatMap (fun mo => ((levels mo).zip e.2).filter (fun x => x.1 = m))).map (fun x => x.2.get d)).sum else 0)).sum)).sum =
      (e.2.map (fun f => f.get d)).sum := by
    intro e he d
    obtain ⟨mo, h1, h2⟩ := hk e he
    simp only [sum_single ho (hr e he), h1, Option.toList_some, List.flatMap_cons, List.flatMap_nil, List.append_nil]
    rw [sum_filter hm (fun x => x.2.get d) ((levels mo).zip e.2) (fun p hp => hl mo _ (List.of_mem_zip hp).1)]
    have : ((levels mo).zip e.2).map (fun x => x.2.get d) = (((levels mo).zip e.2).map Prod.snd).map (fun f => f.get d) := by
      rw [List.map_map]; rfl
    rw [this, List.map_snd_zip h2]
  have swap : (mems.map (fun m => (ops.map (fun op => (Dir.all.map (share levels r op m)).sum)).sum)).sum =
      (Dir.all.map (fun d => (r.energy.map (fun e => (e.2.map (fun f => f.get d)).sum)).sum)).sum := by
    have e1 : ∀ m, (ops.map (fun op => (Dir.all.map (share levels r op m)).sum)).sum =
        (Dir.all.map (fun d => (ops.map (fun op => share levels r op m d)).sum)).sum := fun m => sum_comm ops Dir.all _
    simp only [e1]
    rw [sum_comm mems Dir.all]
    congr 1
    apply List.map_congr_left
    intro d _
    have e2 : ∀ m, (ops.map (fun op => share levels r op m d)).sum = (r.energy.map (fun e => (ops.map (fun op => if e.1 = op then
      (((r.links.get? e.1).toList.flatMap (fun mo => ((levels mo).zip e.2).filter (fun x => x.1 = m))).map (fun x => x.2.get d)).sum else 0)).sum)).sum := by
      intro m
      unfold share
      rw [sum_comm ops r.energy]
    simp only [e2]
    rw [sum_comm mems r.energy]
    congr 1
    apply List.map_congr_left
    intro e he
    exact one e he d
  rw [swap, sum_comm Dir.all r.energy]
  congr 1
  apply List.map_congr_left
  intro e _
  rw [sum_comm Dir.all e.2]
  congr 1
  apply List.map_congr_left
  intro f _
  simp [Dir.all, FourWay.get, entryEnergy, add_assoc]

/-- C126: the total written above the bars of a layer, and the bars together, are the energy of the operations and of all memory
accesses, if the memories of the accelerator differ from each other (`plot_total_false`), the layer has all operands of its figures and
the accelerator lists the memories of every operand. -/
theorem plot_total_partial (ho : ∀ l, (ord l).Perm l) {cmes : List (Option (Res Op MOp Mem))} {gs : List (Group Mem)}
    (h : plot ord size cmes = .ok gs) {first : Res Op MOp Mem} {rest : List (Res Op MOp Mem)} (hf : cmes.filterMap id = first :: rest)
    (hm : first.mems.Nodup) (hl : ∀ mo, ∀ m ∈ first.levels mo, m ∈ first.mems) {g : Nat} {r : Res Op MOp Mem}
    (hg : (first :: rest)[g]? = some r) (hr : ∀ e ∈ r.energy, e.1 ∈ r.ops) :
    ∃ G, gs[g]? = some G ∧ G.energyText = allEnergy r ∧
      (G.bars.map (fun b => (b.2.2.map Seg.height).sum)).sum = allEnergy r := by
  obtain ⟨first', rest', ts, h1, ht1, hops, _, h5⟩ := plot_unfold h
  rw [hf] at h1; cases h1
  obtain ⟨t, ht, hG⟩ := h5 g r hg
  have hperm := List.perm_insertionSort (fun a b => size a ≤ size b) first.mems
  have hon : (allOps ord (first :: rest)).Nodup := (ho _).nodup_iff.2 (List.nodup_dedup _)
  have hrow : ∀ m, (memRow t (allOps ord (first :: rest)) m).flatten.sum =
      ((allOps ord (first :: rest)).map (fun op => (Dir.all.map (share first.levels r op m)).sum)).sum := by
    intro m
    unfold memRow
    rw [List.sum_flatten, List.map_map]
    congr 1
    apply List.map_congr_left
    intro op _
    simp only [Function.comp_apply]
    congr 1
    apply List.map_congr_left
    intro d _
    rw [opLoop_look _ _ _ _ _ ht op m d]
    have : (look ([] : Table Op Mem) op m).get d = 0 := get_zero d
    rw [this, zero_add]; rfl
  have hr' := List.mem_of_getElem? hg
  have total : ((macRow (allOps ord (first :: rest)) r.mac :: (allMems size first).map (memRow t (allOps ord (first :: rest)))).map
      (fun row => row.flatten.sum)).sum = allEnergy r := by
    rw [List.map_cons, List.sum_cons, macRow_sum hops, List.map_map]
    unfold allEnergy
    congr 1
    have : (allMems size first).map ((fun row : List (List ℚ) => row.flatten.sum) ∘ memRow t (allOps ord (first :: rest))) =
        (allMems size first).map (fun m => ((allOps ord (first :: rest)).map (fun op => (Dir.all.map (share first.levels r op m)).sum)).sum) := by
      apply List.map_congr_left
      intro m _
      exact hrow m
    rw [this]
    refine share_sum hon (hperm.nodup_iff.2 hm) ?_ (fun mo m hm' => hperm.mem_iff.2 (hl mo m hm')) ((tables_ok _ _).1 ⟨ts, ht1⟩ r hr')
    intro e he
    unfold allOps
    rw [(ho _).mem_iff, List.mem_dedup, List.mem_flatMap]
    exact ⟨r, hr', hr e he⟩
  refine ⟨_, hG, total, ?_⟩
  rw [← total]
  unfold group
  simp only [List.map_cons]
  have hz : ∀ (xs : List (Nat × Option Mem)) (rows : List (List (List ℚ))), xs.length = rows.length → ∀ nb : Nat,
      (List.zipWith (fun (x : Nat × Option Mem) row => (x.2, barPos nb g x.1, stack 0 row.flatten)) xs rows).map (fun b => (b.2.2.map Seg.height).sum) =
        rows.map (fun row => row.flatten.sum) := by
    intro xs
    induction xs with
    | nil => intro rows h0 nb; cases rows with
      | nil => rfl
      | cons a as => simp at h0
    | cons x xs ih =>
      intro rows h0 nb
      cases rows with
      | nil => simp at h0
      | cons a as =>
        rw [List.zipWith_cons_cons, List.map_cons, List.map_cons, ih as (by simpa using h0)]
        congr 1
        simp only [(stack_spec _ _).2]
  have := hz (List.zip (List.range ((allMems size first).length + 1)) (none :: (allMems size first).map some))
    (macRow (allOps ord (first :: rest)) r.mac :: (allMems size first).map (memRow t (allOps ord (first :: rest)))) (by simp) ((allMems size first).length + 1)
  rw [this]; simp

/-- C126: the latency bar of a layer consists of five rectangles from zero up to the total latency, which is the number above it; they
are the differences of the successive latency figures, none negative if those are ordered (see C30). -/
theorem latency_bar {cmes : List (Option (Res Op MOp Mem))} {gs : List (Group Mem)} (h : plot ord size cmes = .ok gs) {g : Nat}
    {r : Res Op MOp Mem} (hg : (cmes.filterMap id)[g]? = some r) :
    ∃ G, gs[g]? = some G ∧ G.latencyText = r.lat2 ∧ Stacked 0 r.lat2 G.latency.2 ∧
      G.latency.2.map (fun s => s.bottom + s.height) = [r.ideal, r.idealTemporal, r.lat0, r.lat1, r.lat2] ∧
      ((0 ≤ r.ideal ∧ r.ideal ≤ r.idealTemporal ∧ r.idealTemporal ≤ r.lat0 ∧ r.lat0 ≤ r.lat1 ∧ r.lat1 ≤ r.lat2) ↔
        ∀ s ∈ G.latency.2, 0 ≤ s.height) := by
  obtain ⟨first, rest, ts, h1, _, _, _, h5⟩ := plot_unfold h
  rw [h1] at hg
  obtain ⟨t, _, hG⟩ := h5 g r hg
  refine ⟨_, hG, ?_, ?_, ?_, ?_⟩
  · simp [group, latencyRow]
  · simp [group, latencyRow, stack, Stacked]
  · simp [group, latencyRow, stack]
  · simp [group, latencyRow, stack]

end plot

/-- C126: bars of different layers or memories are at least their width apart. -/
theorem bars_apart {nbars g g' i i' : Nat} (hi : i < nbars) (hi' : i' < nbars) (hne : (g, i) ≠ (g', i')) :
    1 ≤ |barPos nbars g i - barPos nbars g' i'| := by
  have e : barPos nbars g i - barPos nbars g' i' = (((g : ℤ) * (nbars + 1) + i - (g' * (nbars + 1) + i') : ℤ) : ℚ) := by
    unfold barPos groupPos; push_cast; ring
  rw [e, ← Int.cast_abs]
  have hz : (g : ℤ) * (nbars + 1) + i - (g' * (nbars + 1) + i') ≠ 0 := by
    intro h0
    have h1 : g * (nbars + 1) + i = g' * (nbars + 1) + i' := by
      have : ((g * (nbars + 1) + i : ℕ) : ℤ) = ((g' * (nbars + 1) + i' : ℕ) : ℤ) := by push_cast; linarith
      exact_mod_cast this
    have h2 : i = i' := by
      have := congrArg (· % (nbars + 1)) h1
      simp only [Nat.mul_add_mod_self_right, Nat.mod_eq_of_lt (show i < nbars + 1 by omega), Nat.mod_eq_of_lt (show i' < nbars + 1 by omega)] at this
      exact this
    have h3 : g = g' := by
      rw [h2] at h1
      exact Nat.eq_of_mul_eq_mul_right (by omega) (Nat.add_right_cancel h1)
    exact hne (by rw [h2, h3])
  have : 1 ≤ |(g : ℤ) * (nbars + 1) + i - (g' * (nbars + 1) + i')| := Int.one_le_abs hz
  exact_mod_cast this

/-- C126: the shown name of a layer is the end of its name, starts after a slash or at the beginning, and has at most one slash; names
with at most one slash are shown in full. -/
theorem shorten_spec (name : List Char) : (∃ pre, name = pre ++ shorten name ∧ (pre = [] ∨ pre.getLast? = some '/')) ∧
    (shorten name).count '/' ≤ 1 ∧ (name.count '/' ≤ 1 → shorten name = name) := by
  have hlen := split_length name
  have hj := join_split name
  unfold shorten
  simp only
  generalize hps : splitSlash name = ps at *
  have hparts : ∀ p ∈ ps, '/' ∉ p := hps ▸ split_parts name
  refine ⟨?_, ?_, ?_⟩
  · by_cases h2 : ps.length ≤ 2
    · refine ⟨[], ?_, Or.inl rfl⟩
      rw [Nat.sub_eq_zero_of_le h2, List.drop_zero, hj]; rfl
    · refine ⟨joinSlash (ps.take (ps.length - 2)) ++ ['/'], ?_, Or.inr (by simp)⟩
      conv_lhs => rw [← hj, ← List.take_append_drop (ps.length - 2) ps]
      rw [join_append]
      · simp
      · intro hc
        have := congrArg List.length hc
        simp at this; omega
      · intro hc
        have := congrArg List.length hc
        simp at this; omega
  · rw [join_count _ (fun p hp => hparts p (List.mem_of_mem_drop hp)), List.length_drop]
    omega
  · intro h
    rw [Nat.sub_eq_zero_of_le (by omega), List.drop_zero, hj]

/-- C126: layers with different numbers have different labels. -/
theorem label_id {mems : List Mem} {g g' : Nat} {r r' : Res Op MOp Mem} {rows rows' : List (List (List ℚ))}
    (h : (group mems g r rows).label = (group mems g' r' rows').label) : r.id = r'.id := by
  have digits : ∀ n : Nat, ∀ c ∈ (toString n).toList, c ≠ ':' := by
    intro n c hc
    have : (toString n).toList = Nat.toDigits 10 n := by simp [toString, Nat.repr]
    rw [this] at hc
    have := Nat.isDigit_of_mem_toDigits (b := 10) (by decide) (by decide) hc
    rintro rfl
    revert this; decide
  have take : ∀ (n : Nat) (s : List Char), ((toString n).toList ++ ':' :: s).takeWhile (fun c => c ≠ ':') = (toString n).toList := by
    intro n s
    rw [List.takeWhile_append_of_pos (by simpa using digits n)]
    simp
  unfold group at h
  simp only at h
  have := congrArg (List.takeWhile (fun c => c ≠ ':')) h
  rw [take, take] at this
  have e : ∀ n : Nat, (toString n).toList = Nat.toDigits 10 n := fun n => by simp [toString, Nat.repr]
  rw [e, e] at this
  have := congrArg (fun l => Nat.ofDigitChars 10 l 0) this
  simpa [Nat.ofDigitChars_toDigits (b := 10) (by decide) (by decide)] using this

/-! ### Drawing of the memory levels -/

theorem nodePos_inj {m n g i i' : Nat} (hn : n ≤ m) (hi : i < n) (h : nodePos m n g i = nodePos m n g i') : i = i' := by
  unfold nodePos at h
  have h1 := (Prod.mk.injEq _ _ _ _ ▸ h).1
  by_cases hm : n = m
  · rw [if_pos hm, if_pos hm] at h1
    exact_mod_cast h1
  · rw [if_neg hm, if_neg hm] at h1
    have hm2 : (1 : ℚ) < m := by exact_mod_cast (by omega : 1 < m)
    have hn1 : (0 : ℚ) < (n : ℚ) + 1 := by positivity
    rw [div_left_inj' (ne_of_gt hn1)] at h1
    have := mul_right_cancel₀ (sub_ne_zero.2 (ne_of_gt hm2)) h1
    have : (i : ℚ) = i' := by linarith
    exact_mod_cast this

theorem nodePos_range {m n g i : Nat} (hn : n ≤ m) (hi : i < n) : 0 ≤ (nodePos m n g i).1 ∧ (nodePos m n g i).1 ≤ (m : ℚ) - 1 := by
  have hi' : (i : ℚ) + 1 ≤ n := by exact_mod_cast hi
  have hn' : (n : ℚ) ≤ m := by exact_mod_cast hn
  have h0 : (0 : ℚ) ≤ i := Nat.cast_nonneg i
  unfold nodePos
  split_ifs
  · exact ⟨h0, by linarith⟩
  · have hn1 : (0 : ℚ) < (n : ℚ) + 1 := by linarith
    constructor
    · apply div_nonneg _ hn1.le
      apply mul_nonneg <;> linarith
    · rw [div_le_iff₀ hn1, mul_comm]
      apply mul_le_mul_of_nonneg_left <;> linarith

/-- C127: all memory levels are drawn, each once, at pairwise different places, in the row of its generation and between the columns of
the widest generation; only a hierarchy without levels raises. -/
theorem levels_drawn {N : Type} (gens : List (List N)) : (gens = [] ∧ drawLevels gens = .error .valueError) ∨
    ∃ ps, drawLevels gens = .ok ps ∧ ps.map Prod.fst = gens.flatten ∧ (ps.map Prod.snd).Nodup ∧
      ∃ m : ℕ, (∀ gen ∈ gens, gen.length ≤ m) ∧ (∃ gen ∈ gens, gen.length = m) ∧
        ∀ p ∈ ps, 0 ≤ p.2.1 ∧ p.2.1 ≤ (m : ℚ) - 1 ∧ ∃ (g : ℕ) (gen : List N), gens[g]? = some gen ∧ p.1 ∈ gen ∧ p.2.2 = g := by
  unfold drawLevels
  cases hm : (gens.map List.length).max? with
  | none =>
    left
    rw [List.max?_eq_none_iff, List.map_eq_nil_iff] at hm
    exact ⟨hm, rfl⟩
  | some m =>
    right
    rw [List.max?_eq_some_iff] at hm
    obtain ⟨hmem, hle⟩ := hm
    have hle' : ∀ gen ∈ gens, gen.length ≤ m := fun gen hg => hle _ (List.mem_map.2 ⟨gen, hg, rfl⟩)
    refine ⟨_, rfl, ?_, ?_, m, hle', List.mem_map.1 hmem |>.imp (fun _ h => h), ?_⟩
    · rw [List.map_flatMap]
      simp only [List.map_map]
      have : ∀ x : List N × Nat, (x.1.zipIdx.map (Prod.fst ∘ fun y : N × Nat => (y.1, nodePos m x.1.length x.2 y.2))) = x.1 := by
        intro x
        have : (Prod.fst ∘ fun y : N × Nat => (y.1, nodePos m x.1.length x.2 y.2)) = Prod.fst := rfl
        rw [this, List.zipIdx_map_fst]
      simp only [this]
      rw [List.flatMap_def, List.zipIdx_map_fst]
    · rw [List.map_flatMap, List.nodup_flatMap]
      constructor
      · rintro ⟨gen, g⟩ hx
        have hg := hle' gen (List.fst_mem_of_mem_zipIdx hx)
        simp only [List.map_map]
        have e : gen.zipIdx.map (Prod.snd ∘ fun y : N × Nat => (y.1, nodePos m gen.length g y.2)) = (List.range gen.length).map (nodePos m gen.length g) := by
          rw [List.range_eq_range', ← List.zipIdx_map_snd 0 gen, List.map_map]
          rfl
        rw [e]
        refine List.Nodup.map_on ?_ List.nodup_range
        intro a ha b _ hab
        exact nodePos_inj hg (List.mem_range.1 ha) hab
      · have hp : (gens.zipIdx).Pairwise (fun x y => x.2 ≠ y.2) := by
          have : (gens.zipIdx.map Prod.snd).Nodup := by rw [List.zipIdx_map_snd]; exact List.nodup_range'
          exact List.pairwise_map.1 this
        refine hp.imp ?_
        rintro ⟨gen, g⟩ ⟨gen', g'⟩ hne
        simp only [Function.onFun, List.disjoint_left, List.map_map, List.mem_map]
        rintro p ⟨x, _, rfl⟩ ⟨y, _, hy⟩
        have := congrArg Prod.snd hy
        simp only [Function.comp_apply, nodePos] at this
        exact hne (by exact_mod_cast this.symm)
    · intro p hp
      rw [List.mem_flatMap] at hp
      obtain ⟨⟨gen, g⟩, hx, hp⟩ := hp
      rw [List.mem_map] at hp
      obtain ⟨⟨nd, i⟩, hi, rfl⟩ := hp
      have hg := List.mk_mem_zipIdx_iff_getElem?.1 hx
      have hi' := List.mk_mem_zipIdx_iff_getElem?.1 hi
      have hr := nodePos_range (g := g) (hle' gen (List.mem_of_getElem? hg)) (List.getElem?_eq_some_iff.1 hi').1
      exact ⟨hr.1, hr.2, g, gen, hg, List.mem_of_getElem? hi', rfl⟩

/-! ### Concrete results -/

/-- A register for each of two operands and a shared memory. -/
def exRes : Res Nat Nat Nat :=
  { id := 3, name := "layer1/layer1.0/conv2/Conv".toList, ops := [0, 1], links := [(0, 10), (1, 11)]
    energy := [(0, [⟨0, 1, 2, 0⟩, ⟨0, 0, 4, 0⟩]), (1, [⟨0, 3, 5, 0⟩, ⟨0, 0, 6, 0⟩])], mac := 7
    ideal := 10, idealTemporal := 12, lat0 := 13, lat1 := 17, lat2 := 18
    mems := [8, 16, 100], levels := fun mo => if mo = 10 then [8, 100] else if mo = 11 then [16, 100] else [] }

/-- What the texts of a plot say. -/
def texts (r : Except PyErr (List (Group Nat))) : Option (List (List Char × ℚ × ℚ)) :=
  match r with
  | .ok gs => some (gs.map (fun G => (G.label, G.energyText, G.latencyText)))
  | .error _ => none

example : texts (plot id id [none, some exRes]) = some [("3: conv2/Conv".toList, 28, 18)] := by decide +kernel
example : (∀ e ∈ exRes.energy, e.1 ∈ exRes.ops) ∧ exRes.mems.Nodup ∧ allEnergy exRes = 28 := by decide +kernel
example : ∀ mo, ∀ m ∈ exRes.levels mo, m ∈ exRes.mems := by
  intro mo m
  unfold exRes
  simp only
  split_ifs <;> simp +contextual <;> omega

/-- Both registers are the same memory instance, used for two levels (as `add_memory` allows). -/
def exTwice : Res Nat Nat Nat :=
  { exRes with mems := [8, 8, 100], levels := fun mo => if mo = 10 then [8, 100] else if mo = 11 then [8, 100] else [] }

/-- C126: if two memory levels use equal memory instances, each of their bars shows the energy of both, and the total written above the
bars counts it twice: 39 instead of 28. -/
theorem plot_total_false : texts (plot id id [some exTwice]) = some [("3: conv2/Conv".toList, 39, 18)] ∧ allEnergy exTwice = 28 := by
  decide +kernel

/-- A result on an accelerator with a third memory for the first operand. -/
def exDeeper : Res Nat Nat Nat :=
  { exRes with energy := [(0, [⟨0, 1, 2, 0⟩, ⟨0, 0, 4, 0⟩, ⟨0, 0, 9, 0⟩]), (1, [⟨0, 3, 5, 0⟩, ⟨0, 0, 6, 0⟩])]
               mems := [8, 16, 100, 500], levels := fun mo => if mo = 10 then [8, 100, 500] else if mo = 11 then [16, 100] else [] }

/-- C126: the memories are those of the first result's accelerator: a result of a deeper accelerator raises `IndexError`, although each of
the results can be plotted alone; in the other order it is plotted. -/
theorem plot_mixed_crash : texts (plot id id [some exRes, some exDeeper]) = none ∧ (texts (plot id id [some exRes])).isSome ∧
    (texts (plot id id [some exDeeper])).isSome ∧ (texts (plot id id [some exDeeper, some exRes])).isSome := by
  decide +kernel

/-- C126: a list of sums over layers only (or an empty list) cannot be plotted. -/
theorem plot_sums_crash (n : Nat) : plot (Op := Op) (MOp := MOp) (Mem := Mem) id (fun _ => 0) (List.replicate n none) = .error .indexError := by
  unfold plot
  have : (List.replicate n (none : Option (Res Op MOp Mem))).filterMap id = [] := by
    induction n with
    | zero => rfl
    | succ n ih => rw [List.replicate_succ, List.filterMap_cons]; exact ih
  rw [this]

example : drawLevels [[1, 2, 3], [4], [5, 6]] = .ok [(1, 0, 0), (2, 1, 0), (3, 2, 0), (4, 1, 1), (5, 2/3, 2), (6, 4/3, 2)] := by
  decide +kernel

end Verif.Plot
