import Verif.Reuse.Prune
import Verif.Reuse.Alone
import Verif.Locality.Props
import Verif.MapInfo.Traffic

/-! Every operand keeps a memory. -/

namespace Verif.Reuse

open Latency (Operand)
open LayerNode (Relation)
open Net (NodeOk FileOk)
open Ports (MemD)
open Whole (AccD)

theorem topLevel_cases {Op : Type} [DecidableEq Op] (mems : List (Locality.Mem Op)) (op : Op) :
    (Locality.topLevel mems op = -1 ∨ ∃ (i : Nat) (m : Locality.Mem Op), mems[i]? = some m ∧ op ∈ m.ops ∧ Locality.topLevel mems op = (i : Int)) ∧
      ∀ (i : Nat) (m : Locality.Mem Op), mems[i]? = some m → op ∈ m.ops → (i : Int) ≤ Locality.topLevel mems op := by
  unfold Locality.topLevel
  have key : ∀ (l : List (Locality.Mem Op × Nat)) (t : Int),
      (l.foldl (fun top m => if op ∈ m.1.ops then max (m.2 : Int) top else top) t = t ∨
        ∃ x ∈ l, op ∈ x.1.ops ∧ l.foldl (fun top m => if op ∈ m.1.ops then max (m.2 : Int) top else top) t = (x.2 : Int)) ∧
      t ≤ l.foldl (fun top m => if op ∈ m.1.ops then max (m.2 : Int) top else top) t ∧
      ∀ x ∈ l, op ∈ x.1.ops → (x.2 : Int) ≤ l.foldl (fun top m => if op ∈ m.1.ops then max (m.2 : Int) top else top) t := by
    intro l
    induction l with
    | nil => intro t; simp
    | cons y l ih =>
      intro t
      rw [List.foldl_cons]
      obtain ⟨h1, h2, h3⟩ := ih (if op ∈ y.1.ops then max (y.2 : Int) t else t)
      refine ⟨?_, ?_, ?_⟩
      · rcases h1 with h1 | ⟨x, hx, ho, he⟩
        · rw [h1]
          split_ifs with hy
          · rcases max_choice (y.2 : Int) t with hc | hc
            · exact .inr ⟨y, by simp, hy, hc⟩
            · exact .inl hc
          · exact .inl rfl
        · exact .inr ⟨x, by simp [hx], ho, he⟩
      · refine le_trans ?_ h2
        split_ifs
        · exact le_max_right _ _
        · exact le_refl _
      · intro x hx ho
        rcases List.mem_cons.1 hx with rfl | hx
        · refine le_trans ?_ h2
          rw [if_pos ho]
          exact le_max_left _ _
        · exact h3 x hx ho
  obtain ⟨h1, -, h3⟩ := key mems.zipIdx.reverse (-1)
  refine ⟨?_, ?_⟩
  · rcases h1 with h1 | ⟨x, hx, ho, he⟩
    · exact .inl h1
    · exact .inr ⟨x.2, x.1, List.mem_zipIdx_iff_getElem?.1 (List.mem_reverse.1 hx), ho, he⟩
  · intro i m hm ho
    exact h3 (m, i) (List.mem_reverse.2 (List.mem_zipIdx_iff_getElem?.2 hm)) ho

/-- If the last memory stores the operand, it is the outermost one. -/
theorem topLevel_last {Op : Type} [DecidableEq Op] {mems : List (Locality.Mem Op)} {m : Locality.Mem Op} (h : mems[mems.length - 1]? = some m) {op : Op} (ho : op ∈ m.ops) :
    Locality.topLevel mems op = ((mems.length - 1 : Nat) : Int) := by
  obtain ⟨h1, h2⟩ := topLevel_cases mems op
  have h3 := h2 _ _ h ho
  rcases h1 with h1 | ⟨i, x, hx, -, he⟩
  · omega
  · have := (List.getElem?_eq_some_iff.1 hx).1
    omega

variable {OA : Type} [DecidableEq OA] {D : Type} [LinearOrder D] {cacti : MemD Operand OA → ℚ × ℚ} {a : AccD OA}

theorem layerOf_fields {n : LNode OA D} {l : Locality.Layer Operand} (h : layerOf n = .ok l) :
    l.id = n.id ∧ l.act = n.act ∧ l.weight = n.weight ∧ l.out = .out ∧ l.adder = n.adder := by
  unfold layerOf at h
  simp only [bind, Except.bind, pure, Except.pure] at h
  repeat' split at h
  all_goals first | (cases h; done) | (cases h; exact ⟨rfl, rfl, rfl, rfl, rfl⟩) | skip

theorem plan_cases {g : Graph OA D} {nodes : List (LNode OA D)} {s : Locality.St Operand} (h : plan a g nodes = .ok s) :
    ∃ net, stage a g nodes = .ok net ∧ Locality.search net = .ok s := by
  unfold plan at h
  cases hn : stage a g nodes with
  | error e => rw [hn] at h; cases h
  | ok net =>
    rw [hn] at h
    simp only at h
    refine ⟨net, rfl, ?_⟩
    unfold Locality.run at h
    cases hs : Locality.search net with
    | error e =>
      rw [hs] at h
      simp only at h
      split at h <;> first | cases h | skip
      rename_i heq
      cases heq
    | ok s' =>
      rw [hs] at h
      simpa using h

theorem stage_cases {g : Graph OA D} {nodes : List (LNode OA D)} {net : Locality.Net Operand} (h : stage a g nodes = .ok net) :
    (nodes.filter fun n => !n.dummy).mapM layerOf = .ok net.order ∧ net.succ = g.succ ∧ net.pred = g.pred ∧ net.mems = memsOf a ∧
      net.topAct = Locality.topLevel (memsOf a) g.root.act ∧ net.topOut = Locality.topLevel (memsOf a) .out ∧ net.topWeight = Locality.topLevel (memsOf a) g.root.weight := by
  unfold stage at h
  cases hm : (nodes.filter fun n => !n.dummy).mapM layerOf with
  | error e => rw [hm] at h; cases h
  | ok order =>
    rw [hm] at h
    simp only at h
    split_ifs at h
    cases h
    exact ⟨rfl, rfl, rfl, rfl, rfl, rfl, rfl⟩

theorem mapM_forall2 {α β : Type} {f : α → Except PyErr β} : ∀ {l : List α} {r : List β}, l.mapM f = .ok r → List.Forall₂ (fun a b => f a = .ok b) l r
  | [], r, h => by cases h; exact .nil
  | x :: l, r, h => by
    rw [List.mapM_cons] at h
    simp only [bind, Except.bind, pure, Except.pure] at h
    cases hx : f x with
    | error e => rw [hx] at h; cases h
    | ok y =>
      rw [hx] at h
      simp only at h
      cases hl : l.mapM f with
      | error e => rw [hl] at h; cases h
      | ok ys =>
        rw [hl] at h
        cases h
        exact .cons hx (mapM_forall2 hl)

section
variable {g : Graph OA D} {nodes : List (LNode OA D)} {A W : Operand} {net : Locality.Net Operand}

theorem order_from (h : (nodes.filter fun n => !n.dummy).mapM layerOf = .ok net.order) {l : Locality.Layer Operand} (hl : l ∈ net.order) :
    ∃ n ∈ nodes, n.dummy = false ∧ layerOf n = .ok l := by
  have := mapM_forall2 h
  generalize hk : (nodes.filter fun n => !n.dummy) = ns at this
  have hns : ∀ n ∈ ns, n ∈ nodes ∧ n.dummy = false := by
    intro n hn
    rw [← hk] at hn
    simpa using List.mem_filter.1 hn
  clear h hk
  generalize net.order = ls at this hl
  induction this with
  | nil => cases hl
  | cons h1 h2 ih =>
    rcases List.mem_cons.1 hl with rfl | hl
    · exact ⟨_, (hns _ (by simp)).1, (hns _ (by simp)).2, h1⟩
    · exact ih (fun n hn => hns n (by simp [hn])) hl

theorem in_order (h : (nodes.filter fun n => !n.dummy).mapM layerOf = .ok net.order) {n : LNode OA D} (hn : n ∈ nodes) (hd : n.dummy = false)
    {l : Locality.Layer Operand} (hl : layerOf n = .ok l) : l ∈ net.order := by
  obtain ⟨i, hi⟩ := List.mem_iff_getElem?.1 (List.mem_filter.2 ⟨hn, by simp [hd]⟩ : n ∈ nodes.filter fun n => !n.dummy)
  obtain ⟨b, hb, hr⟩ := (MapInfo.mapM_get h).2 i n hi
  rw [hl] at hb
  cases hb
  exact List.mem_of_getElem? hr

theorem ids_eq {ns : List (LNode OA D)} {ls : List (Locality.Layer Operand)} (h : List.Forall₂ (fun n l => layerOf n = .ok l) ns ls) :
    ls.map Locality.Layer.id = ns.map LNode.id := by
  induction h with
  | nil => rfl
  | cons h1 _ ih => rw [List.map_cons, List.map_cons, ih, (layerOf_fields h1).1]

/-- The network that the stage works on. -/
theorem net_wf (U : Fits a g nodes A W) (h : stage a g nodes = .ok net) : net.WF := by
  obtain ⟨h1, h2, h3, -⟩ := stage_cases h
  have h4 := mapM_forall2 h1
  refine ⟨?_, ?_, ?_, ?_⟩
  · rw [ids_eq h4]
    exact U.ids
  · intro l hl
    obtain ⟨n, n1, n2, n3⟩ := order_from h1 hl
    obtain ⟨-, e1, -, e2, -⟩ := layerOf_fields n3
    rw [e1, e2]
    rcases U.names n n1 n2 with ⟨u, -⟩ | ⟨u, -⟩ <;> rw [u]
    · exact U.distinct.2.1
    · exact U.distinct.2.2
  · intro p l q he x hx
    rw [he] at h4
    have hp := List.forall₂_take_append _ _ _ h4
    have hq := List.forall₂_drop_append _ _ _ h4
    obtain ⟨n, post, hn, hpost, hsplit⟩ := List.forall₂_cons_right_iff.1 hq
    rw [h3, (layerOf_fields hn).1] at hx
    have hcat := List.take_append_drop p.length (nodes.filter fun n => !n.dummy)
    rw [hsplit] at hcat
    obtain ⟨y, hy, rfl⟩ := U.topo _ n post hcat.symm x hx
    have : y.id ∈ p.map Locality.Layer.id := by
      rw [ids_eq hp]
      exact List.mem_map.2 ⟨y, hy, rfl⟩
    obtain ⟨z, hz, hzy⟩ := List.mem_map.1 this
    exact ⟨z, hz, hzy⟩
  · intro u v
    rw [h2, h3]
    exact U.symm u v

/-- A memory of the file that stores inputs and outputs has the number recorded for the output. -/
theorem out_stored (U : Fits a g nodes A W) (h : stage a g nodes = .ok net) {s : Locality.St Operand} (hs : Locality.search net = .ok s)
    {l : Locality.Layer Operand} (hl : l ∈ net.order) :
    ∃ (i : Nat) (m : MemD Operand OA), s.lv l.id l.out = some (i : Int) ∧ a.mems[i]? = some m ∧ (A ∈ m.operands ∨ W ∈ m.operands) ∧ .out ∈ m.operands ∧
      ((∀ n ∈ nodes, n.dummy = false → n.act = A) → A ∈ m.operands) := by
  obtain ⟨h1, h2, h3, h4, h5, h6, h7⟩ := stage_cases h
  have hw := net_wf U h
  obtain ⟨n, n1, n2, n3⟩ := order_from h1 hl
  obtain ⟨-, e1, e2, e3, e4⟩ := layerOf_fields n3
  have u := U.names n n1 n2
  obtain ⟨d1, d2, d3⟩ := U.distinct
  obtain ⟨m, m1, m2, -, m4⟩ := U.top
  have hlast : a.mems[a.mems.length - 1]? = some m := by rw [← List.getLast?_eq_getElem?]; exact m1
  have hlen : (memsOf a).length = a.mems.length := by unfold memsOf; rw [List.length_map]
  have hget : ∀ (i : Nat) (x : Locality.Mem Operand), (memsOf a)[i]? = some x → ∃ y, a.mems[i]? = some y ∧ x.ops = y.operands := by
    intro i x hx
    unfold memsOf at hx
    rw [List.getElem?_map, Option.map_eq_some_iff] at hx
    obtain ⟨y, y1, rfl⟩ := hx
    exact ⟨y, y1, rfl⟩
  by_cases hb : Locality.isBranch net l = true
  · have := (Locality.search_levels net hw s hs l hl).1
    unfold Locality.outLevel at this
    rw [if_pos hb] at this
    have htop : net.topOut = ((a.mems.length - 1 : Nat) : Int) := by
      rw [h6, ← hlen]
      refine topLevel_last (m := ⟨m.operands, m.size.toNat * Hierarchy.unrollCount a.sizes m.served, decide (m.served.length = a.sizes.length)⟩) ?_ m4
      rw [hlen]
      unfold memsOf
      rw [List.getElem?_map, hlast]
      rfl
    rw [htop] at this
    exact ⟨_, m, this, hlast, .inl m2, m4, fun _ => m2⟩
  · obtain ⟨i, x, i1, i2, ⟨i3, ⟨b, i4, i5⟩, -⟩, -⟩ := Locality.out_lowest net hw s hs l hl (by simpa using hb)
      (by rw [e1, e2]; rcases u with ⟨u1, u2⟩ | ⟨u1, u2⟩ <;> rw [u1, u2] <;> first | exact d1 | exact d1.symm)
      (by rw [e1, e3]; rcases u with ⟨u1, -⟩ | ⟨u1, -⟩ <;> rw [u1] <;> assumption)
      (by rw [e2, e3]; rcases u with ⟨-, u2⟩ | ⟨-, u2⟩ <;> rw [u2] <;> assumption) (by
        intro x hx
        rw [h4] at hx
        obtain ⟨k, hk⟩ := List.mem_iff_getElem?.1 hx
        obtain ⟨y, y1, y2⟩ := hget k x hk
        rw [y2, e1, e2, e3]
        obtain ⟨w1, w2⟩ := U.memories y (List.mem_of_getElem? y1)
        refine ⟨w1, fun o ho => ?_⟩
        rcases u with ⟨u1, u2⟩ | ⟨u1, u2⟩ <;> rw [u1, u2]
        · exact w2 o ho
        · rcases w2 o ho with w | w | w
          · exact .inr (.inl w)
          · exact .inl w
          · exact .inr (.inr w))
    rw [h4] at i2
    obtain ⟨y, y1, y2⟩ := hget i x i2
    have hA : ∃ n ∈ nodes, n.dummy = false ∧ b = n.act := by
      unfold Locality.nextAct at i4
      split_ifs at i4 with hf
      · cases i4
        exact ⟨n, n1, n2, e1⟩
      · cases hsu : net.succ l.id with
        | nil => rw [hsu] at i4; cases i4
        | cons v r =>
          rw [hsu] at i4
          simp only [Option.map_eq_some_iff] at i4
          obtain ⟨z, z1, z2⟩ := i4
          have hz : z ∈ net.order := List.mem_of_find?_eq_some z1
          obtain ⟨n', n1', n2', n3'⟩ := order_from h1 hz
          exact ⟨n', n1', n2', by rw [← z2, (layerOf_fields n3').2.1]⟩
    obtain ⟨n', n1', n2', rfl⟩ := hA
    rw [y2] at i5
    refine ⟨i, y, i1, y1, ?_, by rw [← y2, ← e3]; exact i3, fun hall => by rw [← hall n' n1' n2']; exact i5⟩
    rcases U.names n' n1' n2' with ⟨u1, -⟩ | ⟨u1, -⟩ <;> rw [u1] at i5
    · exact .inl i5
    · exact .inr i5

/-- C165: in such a network every operand of every layer keeps a memory. -/
theorem levels_stored (U : Fits a g nodes A W) {s : Locality.St Operand} (hp : plan a g nodes = .ok s) {n : LNode OA D} (hn : n ∈ nodes) (hd : n.dummy = false)
    {l : Locality.Layer Operand} (hl : layerOf n = .ok l) {t : Int × Int × Int} (ht : Locality.targets s l = .ok t) (op : Operand) (hop : op = A ∨ op = W ∨ op = .out) :
    ∃ (i : Nat) (m : MemD Operand OA), a.mems[i]? = some m ∧ op ∈ m.operands ∧ Keeps l t op i := by
  obtain ⟨net, h, hs⟩ := plan_cases hp
  obtain ⟨h1, h2, h3, h4, h5, h6, h7⟩ := stage_cases h
  have hw := net_wf U h
  have hlo := in_order h1 hn hd hl
  obtain ⟨-, e1, e2, e3, e4⟩ := layerOf_fields hl
  have u := U.names n hn hd
  obtain ⟨m, m1, m2, m3, m4⟩ := U.top
  have hlast : a.mems[a.mems.length - 1]? = some m := by rw [← List.getLast?_eq_getElem?]; exact m1
  have hlen : (memsOf a).length = a.mems.length := by unfold memsOf; rw [List.length_map]
  have htop : ∀ o, o ∈ m.operands → Locality.topLevel (memsOf a) o = ((a.mems.length - 1 : Nat) : Int) := by
    intro o ho
    rw [← hlen]
    refine topLevel_last (m := ⟨m.operands, m.size.toNat * Hierarchy.unrollCount a.sizes m.served, decide (m.served.length = a.sizes.length)⟩) ?_ ho
    rw [hlen]
    unfold memsOf
    rw [List.getElem?_map, hlast]
    rfl
  unfold Locality.targets at ht
  cases ha : s.lv l.id l.act with
  | none => rw [ha] at ht; cases ht
  | some ta =>
    rw [ha] at ht
    simp only at ht
    cases hu : s.lv l.id l.out with
    | none => rw [hu] at ht; cases ht
    | some tu =>
      rw [hu] at ht
      simp only at ht
      cases ht
      unfold Keeps
      simp only
      have hroot : Locality.topLevel (memsOf a) g.root.act = ((a.mems.length - 1 : Nat) : Int) ∧ Locality.topLevel (memsOf a) g.root.weight = ((a.mems.length - 1 : Nat) : Int) := by
        obtain ⟨r1, r2⟩ := U.root
        constructor
        · rcases r1 with r | r <;> rw [r]
          · exact htop _ m2
          · exact htop _ m3
        · rcases r2 with r | r <;> rw [r]
          · exact htop _ m2
          · exact htop _ m3
      have hta : ∃ (i : Nat) (m : MemD Operand OA), ta = (i : Int) ∧ a.mems[i]? = some m ∧ (A ∈ m.operands ∨ W ∈ m.operands) ∧ .out ∈ m.operands ∧
          ((∀ n ∈ nodes, n.dummy = false → n.act = A) → A ∈ m.operands) := by
        obtain ⟨-, l2, l3, -⟩ := Locality.search_levels net hw s hs l hlo
        by_cases hf : l.id = Locality.firstId net
        · have := l2 hf
          rw [ha] at this
          split_ifs at this with hb
          · rw [h5, hroot.1] at this
            exact ⟨_, m, Option.some.inj this, hlast, .inl m2, m4, fun _ => m2⟩
          · obtain ⟨i, x, i1, i2, i3⟩ := out_stored U h hs hlo
            rw [(Locality.search_levels net hw s hs l hlo).1] at i1
            rw [i1] at this
            exact ⟨i, x, Option.some.inj this, i2, i3⟩
        · obtain ⟨p, r, pl, p1, p2, p3, p4⟩ := l3 hf
          obtain ⟨i, x, i1, i2, i3⟩ := out_stored U h hs p2
          rw [p4, i1] at ha
          exact ⟨i, x, (Option.some.inj ha).symm, i2, i3⟩
      obtain ⟨i, x, i1, i2, i3, i4, i5⟩ := hta
      have hin : ∀ op, op = A ∨ op = W → ∃ (j : Nat) (m : MemD Operand OA), a.mems[j]? = some m ∧ op ∈ m.operands ∧
          ((op = l.act ∧ (j : Int) ≤ ta) ∨ (op = l.weight ∧ (j : Int) ≤ if l.adder then ta else s.weight)) := by
        intro op hop
        rcases U.early with hplain | E
        · obtain ⟨u1, u2, u3⟩ := hplain n hn hd
          rcases hop with rfl | rfl
          · exact ⟨i, x, i2, i5 fun n hn hd => (hplain n hn hd).1, .inl ⟨by rw [e1, u1], by omega⟩⟩
          · have hadd : l.adder = false := by rw [e4]; exact u3
            rw [hadd]
            simp only [Bool.false_eq_true, if_false]
            have hall : ∀ l ∈ net.order, l.adder = false := by
              intro x hx
              obtain ⟨n', n1', n2', n3'⟩ := order_from h1 hx
              rw [(layerOf_fields n3').2.2.2.2]
              exact (hplain n' n1' n2').2.2
            rcases Locality.weight_fits_partial net hw.ops hall s hs with hx | ⟨-, i, x, i1, i2, -, -, z, z1, z2⟩
            · rw [h7, hroot.2] at hx
              exact ⟨_, m, hlast, m3, .inr ⟨by rw [e2, u2], by omega⟩⟩
            · obtain ⟨n', n1', n2', n3'⟩ := order_from h1 z1
              rw [(layerOf_fields n3').2.2.1, (hplain n' n1' n2').2.1] at z2
              rw [h4] at i1
              unfold memsOf at i1
              rw [List.getElem?_map, Option.map_eq_some_iff] at i1
              obtain ⟨y, y1, rfl⟩ := i1
              exact ⟨i, y, y1, z2, .inr ⟨by rw [e2, u2], by omega⟩⟩
        · have hlow : ∃ (j : Nat) (m : MemD Operand OA), a.mems[j]? = some m ∧ op ∈ m.operands ∧ (j : Int) ≤ ta := by
            obtain ⟨j, m', j1, j2, j3⟩ := E i x i2 op hop (.inr ⟨i4, i3⟩)
            exact ⟨j, m', j2, j3, by omega⟩
          have hrole : op = l.act ∨ op = l.weight := by
            rw [e1, e2]
            rcases u with ⟨u1, u2⟩ | ⟨u1, u2⟩ <;> rw [u1, u2]
            · exact hop
            · exact hop.symm
          rcases hrole with hr | hr
          · obtain ⟨j, m', j1, j2, j3⟩ := hlow
            exact ⟨j, m', j1, j2, .inl ⟨hr, j3⟩⟩
          · by_cases hadd : l.adder = true
            · obtain ⟨j, m', j1, j2, j3⟩ := hlow
              exact ⟨j, m', j1, j2, .inr ⟨hr, by rw [if_pos hadd]; exact j3⟩⟩
            · rw [if_neg hadd]
              rcases Locality.weight_level net hw.ops s hs with hx | ⟨k, y, k1, k2, k3⟩
              · rw [h7, hroot.2] at hx
                have hmem : op ∈ m.operands := by rcases hop with rfl | rfl <;> assumption
                exact ⟨_, m, hlast, hmem, .inr ⟨hr, by omega⟩⟩
              · rw [h4] at k1
                unfold memsOf at k1
                rw [List.getElem?_map, Option.map_eq_some_iff] at k1
                obtain ⟨z, z1, rfl⟩ := k1
                obtain ⟨j, m', j1, j2, j3⟩ := E k z z1 op hop (.inl ⟨by simpa using k3, n, hn, hd, by rw [← e4]; simpa using hadd, by rw [hr, e2]⟩)
                exact ⟨j, m', j2, j3, .inr ⟨hr, by omega⟩⟩
      rcases hop with hop | hop | rfl
      · obtain ⟨j, m', j1, j2, j3⟩ := hin op (.inl hop)
        exact ⟨j, m', j1, j2, j3.elim .inl fun h => .inr (.inl h)⟩
      · obtain ⟨j, m', j1, j2, j3⟩ := hin op (.inr hop)
        exact ⟨j, m', j1, j2, j3.elim .inl fun h => .inr (.inl h)⟩
      · obtain ⟨i, x, i1, i2, -, i4, -⟩ := out_stored U h hs hlo
        rw [hu] at i1
        have := Option.some.inj i1
        exact ⟨i, x, i2, i4, .inr (.inr ⟨e3.symm, by omega⟩)⟩

end

end Verif.Reuse
