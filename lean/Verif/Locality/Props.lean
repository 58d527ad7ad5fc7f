import Verif.Locality.Lemmas
import Mathlib.Tactic.Ring

/-! C50, C51, C80, C81, C82: data locality between layers. -/

namespace Verif.Locality

variable {Op : Type} [DecidableEq Op]

/-! ### C50 -/

/-- Several assignments to the level of one operand of a layer. -/
def assign (s : St Op) (id : Nat) (op : Op) : List Int → Except PyErr (St Op)
  | [] => .ok s
  | t :: ts =>
    match updateIo s id op t with
    | .error e => .error e
    | .ok s' => assign s' id op ts

private theorem assign_lv (id : Nat) (op : Op) (ts : List Int) (s s' : St Op) (h : assign s id op ts = .ok s') :
    s'.lv id op = (s.lv id op).map (fun v => ts.foldl (fun v t => lower t v) v) := by
  induction ts generalizing s with
  | nil => cases h; cases s'.lv id op <;> rfl
  | cons t ts ih =>
    unfold assign at h
    cases h1 : updateIo s id op t with
    | error e => rw [h1] at h; cases h
    | ok s1 =>
      rw [h1] at h
      rw [ih s1 h, (updateIo_lv h1).2 id op, if_pos ⟨rfl, rfl⟩, Option.map_map]
      rfl

private theorem fold_lower (ts : List Int) (h : ∀ t ∈ ts, 0 ≤ t) (v : Int) (hv : 0 ≤ v) :
    (ts.foldl (fun v t => lower t v) v) ∈ v :: ts ∧ ∀ x ∈ v :: ts, ts.foldl (fun v t => lower t v) v ≤ x := by
  induction ts generalizing v with
  | nil => simp
  | cons t ts ih =>
    rw [List.foldl_cons]
    have ht := h t (by simp)
    have hl : lower t v = min v t := by
      unfold lower
      split_ifs with hc
      · omega
      · omega
    rw [hl]
    obtain ⟨i1, i2⟩ := ih (fun x hx => h x (by simp [hx])) (min v t) (by omega)
    constructor
    · rcases List.mem_cons.1 i1 with i1 | i1
      · rw [i1]
        rcases min_choice v t with hm | hm <;> rw [hm] <;> simp
      · simp [i1]
    · intro x hx
      have hm := i2 (min v t) (by simp)
      rcases List.mem_cons.1 hx with rfl | hx
      · omega
      · rcases List.mem_cons.1 hx with rfl | hx
        · omega
        · exact i2 x (by simp [hx])

/-- C50: after any sequence of assigned levels the record is the smallest of them, whatever their order. -/
theorem record_min (id : Nat) (op : Op) (ts : List Int) (hne : ts ≠ []) (hts : ∀ t ∈ ts, 0 ≤ t) (s s' : St Op) (h0 : s.lv id op = some (-1))
    (h : assign s id op ts = .ok s') : ∃ m ∈ ts, s'.lv id op = some m ∧ ∀ t ∈ ts, m ≤ t := by
  rw [assign_lv id op ts s s' h, h0, Option.map_some]
  cases ts with
  | nil => exact absurd rfl hne
  | cons t ts =>
    rw [List.foldl_cons, lower_neg]
    obtain ⟨h1, h2⟩ := fold_lower ts (fun x hx => hts x (by simp [hx])) t (hts t (by simp))
    exact ⟨_, h1, rfl, h2⟩

/-- C50: assignments in another order give the same record. -/
theorem record_order (id : Nat) (op : Op) (ts us : List Int) (hp : ts.Perm us) (hts : ∀ t ∈ ts, 0 ≤ t) (s s1 s2 : St Op) (h0 : s.lv id op = some (-1))
    (h1 : assign s id op ts = .ok s1) (h2 : assign s id op us = .ok s2) : s1.lv id op = s2.lv id op := by
  by_cases hne : ts = []
  · subst hne
    have := hp.nil_eq
    subst this
    rw [h1] at h2
    cases h2
    rfl
  · obtain ⟨m, hm, e1, l1⟩ := record_min id op ts hne hts s s1 h0 h1
    obtain ⟨n, hn, e2, l2⟩ := record_min id op us (fun hc => hne (by rw [hc] at hp; exact hp.eq_nil)) (fun t ht => hts t (hp.mem_iff.2 ht)) s s2 h0 h2
    rw [e1, e2]
    have a := l1 n (hp.mem_iff.2 hn)
    have b := l2 m (hp.mem_iff.1 hm)
    congr 1
    omega

example : ∃ s', assign (⟨[(0, [("I1", -1), ("O", -1)])], 0⟩ : St String) 0 "O" [3, 1, 2] = .ok s' ∧ s'.lv 0 "O" = some 1 := ⟨_, rfl, by decide⟩

private theorem filter_prefix (p : Mem Op → Bool) (t : Int) (ms : List (Mem Op)) (n : Nat) :
    ((ms.zipIdx n).filter fun m => p m.1 && decide ((m.2 : Int) ≤ t)) <+: ((ms.zipIdx n).filter fun m => p m.1) := by
  induction ms generalizing n with
  | nil => simp
  | cons m ms ih =>
    rw [List.zipIdx_cons]
    by_cases ht : (n : Int) ≤ t
    · cases hp : p m with
      | false => simp only [List.filter_cons, hp, Bool.false_and, Bool.false_eq_true, if_false]; exact ih (n + 1)
      | true =>
        simp only [List.filter_cons, hp, ht, decide_true, Bool.and_self, if_true]
        exact (List.prefix_cons_inj _).2 (ih (n + 1))
    · have : ((m, n) :: ms.zipIdx (n + 1)).filter (fun m => p m.1 && decide ((m.2 : Int) ≤ t)) = [] := by
        rw [List.filter_eq_nil_iff]
        intro x hx
        have hx2 : n ≤ x.2 := by
          rcases List.mem_cons.1 hx with rfl | hx
          · exact le_refl _
          · have := (List.mem_zipIdx hx).1
            omega
        simp only [Bool.and_eq_true, decide_eq_true_eq, not_and]
        intro _
        omega
      rw [this]
      exact List.nil_prefix

/-- Level up to which memories are kept for an operand of the layer. -/
def levelOf (l : Layer Op) (ta tw tu : Int) (op : Op) : Option Int :=
  if op = l.act then some ta else if op = l.weight then some tw else if op = l.out then some tu else none

private theorem mem_pruneOps (l : Layer Op) (h1 : l.act ≠ l.weight) (h2 : l.act ≠ l.out) (h3 : l.weight ≠ l.out) (ops : List Op) (ta tw tu : Int) (i : Nat) (op : Op) (t : Int)
    (ht : levelOf l ta tw tu op = some t) : op ∈ pruneOps ops l ta tw tu i ↔ op ∈ ops ∧ (i : Int) ≤ t := by
  unfold levelOf at ht
  unfold pruneOps
  have key : ∀ (a : Op) (c : Prop) [Decidable c], op ∈ (if c then [a] else []) ↔ c ∧ op = a := by
    intro a c _
    split_ifs with hc <;> simp [hc]
  rw [List.mem_append, List.mem_append, key, key, key]
  split_ifs at ht with e1 e2 e3
  · cases ht
    subst e1
    simp [h1, h2]
  · cases ht
    subst e2
    simp [h1.symm, h3]
  · cases ht
    subst e3
    simp [h2.symm, h3.symm]

/-- C50: the memories of the pruned accelerator that store an operand are exactly the memories storing it at or below the level of that operand, in the same order. -/
theorem prune_exact (mems : List (Mem Op)) (l : Layer Op) (h1 : l.act ≠ l.weight) (h2 : l.act ≠ l.out) (h3 : l.weight ≠ l.out) (ta tw tu : Int) (op : Op) (t : Int)
    (ht : levelOf l ta tw tu op = some t) :
    ((prune mems l ta tw tu).filter fun e => decide (op ∈ e.2)).map Prod.fst =
      (mems.zipIdx.filter fun m => decide (op ∈ m.1.ops) && decide ((m.2 : Int) ≤ t)).map Prod.snd := by
  unfold prune
  rw [List.filter_filter, List.filter_map, List.map_map]
  have : (mems.zipIdx.filter ((fun e : Nat × List Op => decide (op ∈ e.2) && decide (e.2 ≠ [])) ∘ fun m => (m.2, pruneOps m.1.ops l ta tw tu m.2))) =
      mems.zipIdx.filter fun m => decide (op ∈ m.1.ops) && decide ((m.2 : Int) ≤ t) := by
    apply List.filter_congr
    intro m _
    have hm := mem_pruneOps l h1 h2 h3 m.1.ops ta tw tu m.2 op t ht
    simp only [Function.comp]
    by_cases hc : op ∈ pruneOps m.1.ops l ta tw tu m.2
    · have hne : pruneOps m.1.ops l ta tw tu m.2 ≠ [] := List.ne_nil_of_mem hc
      simp [hc, hne, (hm.1 hc).1, (hm.1 hc).2]
    · simp only [hc, decide_false, Bool.false_and]
      symm
      rw [Bool.and_eq_false_iff]
      by_contra hx
      push Not at hx
      exact hc (hm.2 ⟨by simpa using hx.1, by simpa using hx.2⟩)
  rw [this]
  rfl

/-- C50: so level `k` of the operand is the same memory in the pruned accelerator as in the original one. -/
theorem prune_prefix (mems : List (Mem Op)) (l : Layer Op) (h1 : l.act ≠ l.weight) (h2 : l.act ≠ l.out) (h3 : l.weight ≠ l.out) (ta tw tu : Int) (op : Op) (t : Int)
    (ht : levelOf l ta tw tu op = some t) :
    ((prune mems l ta tw tu).filter fun e => decide (op ∈ e.2)).map Prod.fst <+: (mems.zipIdx.filter fun m => decide (op ∈ m.1.ops)).map Prod.snd := by
  rw [prune_exact mems l h1 h2 h3 ta tw tu op t ht]
  exact List.IsPrefix.map _ (filter_prefix (fun m => decide (op ∈ m.ops)) t mems 0)

/-- C50: no memory of the pruned accelerator is empty or stores a foreign operand. -/
theorem prune_ops (mems : List (Mem Op)) (l : Layer Op) (ta tw tu : Int) :
    ∀ e ∈ prune mems l ta tw tu, e.2 ≠ [] ∧ ∀ op ∈ e.2, op = l.act ∨ op = l.weight ∨ op = l.out := by
  intro e he
  unfold prune at he
  rw [List.mem_filter] at he
  refine ⟨by simpa using he.2, ?_⟩
  obtain ⟨m, -, rfl⟩ := List.mem_map.1 he.1
  intro op hop
  unfold pruneOps at hop
  simp only [List.mem_append] at hop
  rcases hop with (hop | hop) | hop
  all_goals split_ifs at hop with hc
  all_goals simp only [List.mem_singleton, List.not_mem_nil] at hop
  · exact .inl hop
  · exact .inr (.inl hop)
  · exact .inr (.inr hop)

/-! ### A sample network -/

/-- A convolution-like layer. -/
def conv (id act w out : Nat) : Layer String := ⟨id, "I1", "I2", "O", false, act, w, out⟩

/-- On-chip memory and DRAM for all operands. -/
def twoMems (n : Nat) : List (Mem String) := [⟨["I1", "I2", "O"], n, true⟩, ⟨["I1", "I2", "O"], 1000, true⟩]

/-- Three layers in a row. -/
def chain : Net String where
  order := [conv 0 4 3 2, conv 1 2 3 40, conv 2 40 3 1]
  succ := fun i => if i = 0 then [1] else if i = 1 then [2] else []
  pred := fun i => if i = 1 then [0] else if i = 2 then [1] else []
  mems := twoMems 20
  topAct := 1
  topOut := 1
  topWeight := 1

theorem chain_wf : chain.WF := by
  refine ⟨by decide, by decide, ?_, ?_⟩
  · intro a l b h p hp
    have hl : chain.order = [conv 0 4 3 2, conv 1 2 3 40, conv 2 40 3 1] := rfl
    rw [hl] at h
    match a, h with
    | [], h =>
      obtain ⟨rfl, -⟩ := List.cons.inj h
      simp [chain, conv] at hp
    | [x], h =>
      have hx := (List.cons.inj h).1
      have h := (List.cons.inj h).2
      obtain ⟨rfl, -⟩ := List.cons.inj h
      have : p = 0 := by simpa [chain, conv] using hp
      exact ⟨x, by simp, by rw [← hx, this]; rfl⟩
    | [x, y], h =>
      have h := (List.cons.inj h).2
      have hx := (List.cons.inj h).1
      have h := (List.cons.inj h).2
      obtain ⟨rfl, -⟩ := List.cons.inj h
      have : p = 1 := by simpa [chain, conv] using hp
      exact ⟨y, by simp, by rw [← hx, this]; rfl⟩
    | x :: y :: z :: a, h =>
      have := congrArg List.length h
      simp at this
  · intro u v
    simp only [chain]
    constructor
    · intro h
      split_ifs at h with h1 h2
      · simp only [List.mem_singleton] at h; subst h; simp [h1]
      · simp only [List.mem_singleton] at h; subst h; simp [h2]
      · simp at h
    · intro h
      split_ifs at h with h1 h2
      · simp only [List.mem_singleton] at h; subst h; simp [h1]
      · simp only [List.mem_singleton] at h; subst h; simp [h2]
      · simp at h

/-- The data between the first two layers stays on chip, the large data after that does not. -/
example : ∃ s, search chain = .ok s ∧ s.lv 0 "O" = some 0 ∧ s.lv 1 "I1" = some 0 ∧ s.lv 1 "O" = some 1 ∧ s.lv 2 "I1" = some 1 ∧ s.weight = 0 :=
  ⟨_, rfl, by decide⟩

/-! ### C80 -/

/-- C80: whenever the search succeeds, every layer reads its input from the level to which each of its predecessors writes its output. -/
theorem edges_agree (net : Net Op) (hw : net.WF) (s : St Op) (h : search net = .ok s) (u v : Layer Op) (hu : u ∈ net.order) (hv : v ∈ net.order)
    (he : u.id ∈ net.pred v.id) : s.lv v.id v.act = s.lv u.id u.out := by
  have hvf : v.id ≠ firstId net := by
    intro hc
    cases ho : net.order with
    | nil => rw [ho] at hv; cases hv
    | cons x xs =>
      have hx : firstId net = x.id := by unfold firstId; rw [ho]; rfl
      have hvx : v = x := List.inj_on_of_nodup_map hw.ids hv (by rw [ho]; simp) (hc.trans hx)
      subst hvx
      obtain ⟨y, hy, -⟩ := hw.topo [] v xs ho u.id he
      cases hy
  obtain ⟨-, -, h3, -⟩ := search_levels net hw s h v hv
  obtain ⟨p, rest, pl, e1, e2, e3, e4⟩ := h3 hvf
  rw [e4]
  have hmem : ∀ x ∈ net.order, x.id ∈ net.pred v.id → rest ≠ [] → s.lv x.id x.out = some net.topOut := by
    intro x hx hxv hr
    rw [(search_levels net hw s h x hx).1]
    unfold outLevel
    rw [if_pos]
    have hvs := (hw.symm x.id v.id).2 hxv
    have hlen : (net.pred v.id).length > 1 := by
      rw [e1]
      cases rest with
      | nil => exact absurd rfl hr
      | cons _ _ => simp
    unfold isBranch
    match hs : net.succ x.id with
    | [] => rw [hs] at hvs; cases hvs
    | [n] =>
      rw [hs] at hvs
      simp only [List.mem_singleton] at hvs
      subst hvs
      simp [hlen]
    | _ :: _ :: _ => simp
  by_cases hr : rest = []
  · subst hr
    rw [e1] at he
    simp only [List.mem_singleton] at he
    have : pl = u := List.inj_on_of_nodup_map hw.ids e2 hu (e3.trans he.symm)
    rw [this]
  · rw [hmem u hu he hr, hmem pl e2 (by rw [e3, e1]; simp) hr]

example : 0 ∈ chain.pred 1 ∧ 1 ∈ chain.pred 2 := by decide

/-- C80: the final assertion: after a successful search every level is determined. -/
theorem levels_determined (net : Net Op) (hw : net.WF) (s : St Op) (h : search net = .ok s) (l : Layer Op) (hl : l ∈ net.order) :
    ∃ a o, s.lv l.id l.act = some a ∧ s.lv l.id l.out = some o ∧ 0 ≤ a ∧ 0 ≤ o := by
  obtain ⟨h1, h2, h3, -⟩ := search_levels net hw s h l hl
  have hall : ∀ i o v, s.lv i o = some v → 0 ≤ v := by
    intro i o v hv
    unfold search at h
    cases h0 : layerLoop net (firstId net) (lastId net) ⟨initUpd net.order, net.topWeight⟩ net.order with
    | error e => rw [h0] at h; cases h
    | ok s0 =>
      rw [h0] at h
      simp only at h
      split_ifs at h with hc
      cases h
      unfold St.lv at hv
      cases hg : s.upd.get? i with
      | none => rw [hg] at hv; cases hv
      | some t =>
        rw [hg] at hv
        simp only at hv
        rw [List.all_eq_true] at hc
        have := hc _ (Dict.mem_of_get? hg)
        rw [List.all_eq_true] at this
        simpa using this _ (Dict.mem_of_get? hv)
  have hact : ∃ a, s.lv l.id l.act = some a := by
    by_cases hf : l.id = firstId net
    · exact ⟨_, h2 hf⟩
    · obtain ⟨p, rest, pl, e1, e2, e3, e4⟩ := h3 hf
      rw [e4]
      exact ⟨_, (search_levels net hw s h pl e2).1⟩
  obtain ⟨a, ha⟩ := hact
  exact ⟨a, _, ha, h1, hall _ _ _ ha, hall _ _ _ h1⟩

/-! ### C81 -/

/-- The activation operand that follows the output: that of the next layer, for the last layer its own. -/
def nextAct (net : Net Op) (l : Layer Op) (final : Bool) : Option Op :=
  if final then some l.act
  else match net.succ l.id with
    | [] => none
    | n :: _ => (byId net n).map Layer.act

/-- The size of the constant weights of all layers that have constants. -/
def storedWeights (net : Net Op) : Nat := ((net.order.filter fun l => !l.adder).map Layer.weightSize).sum

private theorem allWeights_eq (net : Net Op) : allWeights net.order = storedWeights net := by
  unfold allWeights storedWeights
  induction net.order with
  | nil => rfl
  | cons l t ih =>
    rw [List.map_cons, List.sum_cons, ih]
    cases h : l.adder <;> simp [h]

/-- The memory stores output and next input and has room for the data of the layer and, if weights are in it, the weights of the network. -/
def Holds (net : Net Op) (l : Layer Op) (final : Bool) (m : Mem Op) : Prop :=
  l.out ∈ m.ops ∧ (∃ a, nextAct net l final = some a ∧ a ∈ m.ops) ∧
  (if l.adder then l.outSize + l.actSize
    else (if l.act ∈ m.ops then l.actSize else 0) + l.outSize + (if l.weight ∈ m.ops then storedWeights net else 0)) ≤ m.avail

private theorem sumIo_eq (l : Layer Op) (h1 : l.act ≠ l.weight) (h2 : l.act ≠ l.out) (h3 : l.weight ≠ l.out) (ops : List Op) (hnd : ops.Nodup)
    (hsub : ∀ o ∈ ops, o = l.act ∨ o = l.weight ∨ o = l.out) :
    sumIo l ops = .ok ((if l.act ∈ ops then l.actSize else 0) + (if l.out ∈ ops then l.outSize else 0)) := by
  have hioa : ioSize l l.act = .ok l.actSize := by
    unfold ioSize
    rw [Dict.get?_set_of_ne _ _ (Ne.symm h2), Dict.get?_cons, if_pos rfl]
  have hioo : ioSize l l.out = .ok l.outSize := by
    unfold ioSize
    rw [Dict.get?_set_self]
  induction ops with
  | nil => simp [sumIo]
  | cons o ops ih =>
    rw [List.nodup_cons] at hnd
    have ih' := ih hnd.2 (fun x hx => hsub x (by simp [hx]))
    rcases hsub o (by simp) with rfl | rfl | rfl
    · rw [sumIo, if_pos h1, hioa]
      simp only
      rw [ih']
      simp [hnd.1, h2.symm]
    · rw [sumIo, if_neg (by simp), ih']
      simp [h1, h3.symm]
    · rw [sumIo, if_pos h3.symm, hioo]
      simp only
      rw [ih']
      simp only [hnd.1, if_false, List.mem_cons, h2, false_or, true_or, if_true, Except.ok.injEq]
      omega

private theorem keeps_iff (net : Net Op) (l : Layer Op) (final : Bool) (m : Mem Op) (h1 : l.act ≠ l.weight) (h2 : l.act ≠ l.out) (h3 : l.weight ≠ l.out)
    (hnd : m.ops.Nodup) (hsub : ∀ o ∈ m.ops, o = l.act ∨ o = l.weight ∨ o = l.out) : keeps net l final m = true ↔ Holds net l final m := by
  have hsn : (∃ b, servesNext net l final m = .ok b ∧ b = true) ↔ ∃ a, nextAct net l final = some a ∧ a ∈ m.ops := by
    unfold servesNext nextAct
    cases final with
    | true => simp
    | false =>
      simp only [Bool.false_eq_true, if_false]
      cases net.succ l.id with
      | nil => simp
      | cons n ns => cases hb : byId net n <;> simp [hb]
  unfold keeps Holds
  rw [← hsn]
  cases hs : servesNext net l final m with
  | error e => simp
  | ok sn =>
    simp only [Except.ok.injEq, exists_eq_left']
    by_cases ho : l.out ∈ m.ops
    · cases sn with
      | false => simp
      | true =>
        simp only [ho, decide_true, Bool.and_self, Bool.true_and, true_and]
        cases ha : l.adder with
        | true =>
          have hso : servedOps l true m = [l.out, l.act] := by simp [servedOps, ha]
          rw [hso, sumIo_eq l h1 h2 h3 [l.out, l.act] (by simp [h2.symm]) (by simp)]
          have hw : weightNeed net l [l.out, l.act] = 0 := by simp [weightNeed, h3, h1.symm]
          simp only [hw, List.mem_cons, List.not_mem_nil, or_false, or_true, true_or, if_true, decide_eq_true_eq]
          constructor <;> intro <;> omega
        | false =>
          have hso : servedOps l true m = m.ops := by simp [servedOps, ha]
          rw [hso, sumIo_eq l h1 h2 h3 m.ops hnd hsub]
          simp only [weightNeed, allWeights_eq, ho, if_true, Bool.false_eq_true, if_false, decide_eq_true_eq]
    · simp [ho]

/-- C81: the output level of a layer outside of branches is the lowest memory that stores output and next input and has room for the data of the layer (and the weights
of the whole network, if they are stored in it). -/
theorem out_lowest (net : Net Op) (hw : net.WF) (s : St Op) (h : search net = .ok s) (l : Layer Op) (hl : l ∈ net.order) (hb : isBranch net l = false)
    (h1 : l.act ≠ l.weight) (h2 : l.act ≠ l.out) (h3 : l.weight ≠ l.out)
    (hm : ∀ m ∈ net.mems, m.ops.Nodup ∧ ∀ o ∈ m.ops, o = l.act ∨ o = l.weight ∨ o = l.out) :
    ∃ (i : Nat) (m : Mem Op), s.lv l.id l.out = some (i : Int) ∧ net.mems[i]? = some m ∧ Holds net l (decide (l.id = lastId net)) m ∧
      ∀ (j : Nat) (m' : Mem Op), j < i → net.mems[j]? = some m' → ¬ Holds net l (decide (l.id = lastId net)) m' := by
  obtain ⟨a, o, -, ho, -, hpos⟩ := levels_determined net hw s h l hl
  have hlv := (search_levels net hw s h l hl).1
  rw [ho] at hlv
  unfold outLevel at hlv
  rw [hb] at hlv
  simp only [Bool.false_eq_true, if_false] at hlv
  cases hf : net.mems.zipIdx.find? (fun m => keeps net l (decide (l.id = lastId net)) m.1) with
  | none =>
    rw [hf] at hlv
    simp only [Option.some.injEq] at hlv
    omega
  | some m =>
    rw [hf] at hlv
    simp only [Option.some.injEq] at hlv
    obtain ⟨hk, as, bs, hab, has⟩ := List.find?_eq_some_iff_append.1 hf
    have hmem : m ∈ net.mems.zipIdx := List.mem_of_find?_eq_some hf
    have hget : ∀ x ∈ net.mems.zipIdx, net.mems[x.2]? = some x.1 := by
      intro x hx
      have := List.mem_zipIdx_iff_getElem?.1 hx
      exact this
    refine ⟨m.2, m.1, by rw [ho, hlv], hget m hmem, ?_, ?_⟩
    · have := hm m.1 (List.mem_of_getElem? (hget m hmem))
      exact (keeps_iff net l _ m.1 h1 h2 h3 this.1 this.2).1 hk
    · intro j m' hj hm' hc
      have hm'' := hm m' (List.mem_of_getElem? hm')
      have hkeep := (keeps_iff net l (decide (l.id = lastId net)) m' h1 h2 h3 hm''.1 hm''.2).2 hc
      have hin : (m', j) ∈ net.mems.zipIdx := List.mem_zipIdx_iff_getElem?.2 hm'
      rw [hab] at hin
      rcases List.mem_append.1 hin with hin | hin
      · have := has _ hin
        rw [hkeep] at this
        cases this
      · -- later entries have larger places
        have hsorted : (net.mems.zipIdx.map Prod.snd).Pairwise (· < ·) := by
          rw [List.zipIdx_map_snd]
          exact List.pairwise_lt_range'
        rw [hab, List.map_append, List.map_cons, List.pairwise_append, List.pairwise_cons] at hsorted
        rcases List.mem_cons.1 hin with hin | hin
        · have : j = m.2 := congrArg Prod.snd hin
          omega
        · have := hsorted.2.1.1 j (List.mem_map.2 ⟨_, hin, rfl⟩)
          omega

example : isBranch chain (conv 0 4 3 2) = false ∧ Holds chain (conv 0 4 3 2) false ⟨["I1", "I2", "O"], 20, true⟩ := by
  refine ⟨by decide, by decide, ⟨"I1", by decide, by decide⟩, by decide⟩

private theorem layerStep_weight {net : Net Op} {f g : Nat} {l : Layer Op} {s s' : St Op} (hne : l.act ≠ l.out) (h : layerStep net f g s l = .ok s') :
    s'.weight = s.weight ∨ (s'.weight < s.weight ∧ ∃ m ∈ net.mems.zipIdx, s'.weight = m.2 ∧ keepsWeight net l (decide (l.id = g)) m.1) := by
  unfold layerStep at h
  simp only at h
  obtain ⟨s1, h1, hw1⟩ : ∃ s1, (if decide (l.id = f) = true then Except.ok s else propagate net l s) = .ok s1 ∧ s1.weight = s.weight := by
    by_cases hf : l.id = f
    · exact ⟨s, by simp [hf], rfl⟩
    · simp only [hf, decide_false, Bool.false_eq_true, if_false] at h ⊢
      cases hp : propagate net l s with
      | error e => rw [hp] at h; cases h
      | ok s1 =>
        refine ⟨s1, rfl, ?_⟩
        unfold propagate at hp
        cases hpr : net.pred l.id with
        | nil => rw [hpr] at hp; cases hp
        | cons p rest =>
          rw [hpr] at hp
          simp only at hp
          cases hb : byId net p with
          | none => rw [hb] at hp; cases hp
          | some pl =>
            rw [hb] at hp
            simp only at hp
            cases hv : s.lv pl.id pl.out with
            | none => rw [hv] at hp; cases hp
            | some v => rw [hv] at hp; exact (updateIo_lv hp).1
  rw [h1] at h
  simp only at h
  cases hb : isBranch net l with
  | true =>
    rw [hb] at h
    simp only [if_true] at h
    exact .inl ((record_lv hne h).1.trans hw1)
  | false =>
    rw [hb] at h
    simp only [Bool.false_eq_true, if_false] at h
    obtain ⟨-, -, -, hw⟩ := memLoop_lv hne _ h
    rw [hw1] at hw
    rcases hw with hw | ⟨hw, m, hm, e⟩
    · exact .inl hw
    · exact .inr ⟨hw, m, List.mem_reverse.1 hm, e⟩

private theorem layerLoop_weight {net : Net Op} {f g : Nat} (r : List (Layer Op)) (hne : ∀ l ∈ r, l.act ≠ l.out) {s s' : St Op}
    (h : layerLoop net f g s r = .ok s') :
    s'.weight = s.weight ∨ (s'.weight < s.weight ∧ ∃ l ∈ r, ∃ m ∈ net.mems.zipIdx, s'.weight = m.2 ∧ keepsWeight net l (decide (l.id = g)) m.1) := by
  induction r generalizing s with
  | nil => cases h; exact .inl rfl
  | cons l r ih =>
    unfold layerLoop at h
    cases h1 : layerStep net f g s l with
    | error e => rw [h1] at h; cases h
    | ok s1 =>
      rw [h1] at h
      simp only at h
      rcases ih (fun x hx => hne x (by simp [hx])) h with i | ⟨i, x, hx, m, hm, e⟩
      · rcases layerStep_weight (hne l (by simp)) h1 with j | ⟨j, m, hm, e1, e2⟩
        · exact .inl (i.trans j)
        · exact .inr ⟨by omega, l, by simp, m, hm, i.trans e1, e2⟩
      · refine .inr ⟨?_, x, by simp [hx], m, hm, e⟩
        rcases layerStep_weight (hne l (by simp)) h1 with j | ⟨j, -⟩ <;> omega

/-- C81, partial: in a network in which every layer has constant operands, a memory below the top that is chosen for the weights stores the weights operand of a layer,
serves the whole array and has room for all weights of the network.  Missing: layers without constants (`weight_level_false`). -/
theorem weight_fits_partial (net : Net Op) (hne : ∀ l ∈ net.order, l.act ≠ l.out) (hc : ∀ l ∈ net.order, l.adder = false) (s : St Op) (h : search net = .ok s) :
    s.weight = net.topWeight ∨ (s.weight < net.topWeight ∧ ∃ (i : Nat) (m : Mem Op), net.mems[i]? = some m ∧ s.weight = (i : Int) ∧ m.allDims = true ∧
      storedWeights net ≤ m.avail ∧ ∃ l ∈ net.order, l.weight ∈ m.ops) := by
  unfold search at h
  cases h0 : layerLoop net (firstId net) (lastId net) ⟨initUpd net.order, net.topWeight⟩ net.order with
  | error e => rw [h0] at h; cases h
  | ok s0 =>
    rw [h0] at h
    simp only at h
    split_ifs at h
    cases h
    rcases layerLoop_weight net.order hne h0 with hw | ⟨hw, l, hl, m, hm, e1, sn, io, e2, e3, e4, e5, e6⟩
    · exact .inl hw
    · refine .inr ⟨hw, m.2, m.1, List.mem_zipIdx_iff_getElem?.1 hm, e1, e4, ?_, l, hl, e3⟩
      have hso : ∀ b, servedOps l b m.1 = m.1.ops := by intro b; simp [servedOps, hc l hl]
      rw [hso] at e6
      have : weightNeed net l m.1.ops = storedWeights net := by simp [weightNeed, allWeights_eq, e3]
      omega

example : (∀ l ∈ chain.order, l.adder = false) ∧ storedWeights chain = 9 := by decide

/-- C81: with layers of any kind, a memory below the top that is chosen for the weights serves the whole array. -/
theorem weight_level (net : Net Op) (hne : ∀ l ∈ net.order, l.act ≠ l.out) (s : St Op) (h : search net = .ok s) :
    s.weight = net.topWeight ∨ ∃ (i : Nat) (m : Mem Op), net.mems[i]? = some m ∧ s.weight = (i : Int) ∧ m.allDims = true := by
  unfold search at h
  cases h0 : layerLoop net (firstId net) (lastId net) ⟨initUpd net.order, net.topWeight⟩ net.order with
  | error e => rw [h0] at h; cases h
  | ok s0 =>
    rw [h0] at h
    simp only at h
    split_ifs at h
    cases h
    rcases layerLoop_weight net.order hne h0 with hw | ⟨-, l, hl, m, hm, e1, sn, io, e2, e3, e4, e5, e6⟩
    · exact .inl hw
    · exact .inr ⟨m.2, m.1, List.mem_zipIdx_iff_getElem?.1 hm, e1, e4⟩

/-- An addition: its inputs are the operands of both memories inputs, the second one is called activation. -/
def addLayer (id act out : Nat) : Layer String := ⟨id, "I2", "I1", "O", true, act, 0, out⟩

/-- A layer with many weights followed by an addition of small tensors. -/
def convAdd : Net String where
  order := [conv 0 2 100 2, addLayer 1 4 2]
  succ := fun i => if i = 0 then [1] else []
  pred := fun i => if i = 1 then [0] else []
  mems := twoMems 10
  topAct := 1
  topOut := 1
  topWeight := 1

/-- C81 is false for the weights: because of the addition the weights are placed in a memory that cannot hold them, and the first layer keeps no other memory for them. -/
theorem weight_level_false : storedWeights convAdd = 100 ∧
    ∃ s, search convAdd = .ok s ∧ s.weight = 0 ∧ (convAdd.mems[0]?.map Mem.avail) = some 10 ∧
      ∃ ta tu, targets s (conv 0 2 100 2) = .ok (ta, 0, tu) ∧
        ((prune convAdd.mems (conv 0 2 100 2) ta 0 tu).filter fun e => decide ("I2" ∈ e.2)).map Prod.fst = [0] :=
  ⟨by decide, _, rfl, by decide, by decide, 1, 1, by decide, by decide⟩

/-! ### C82 -/

/-- C82: a successful search means one input layer and one output layer: every other layer has a predecessor and (outside of branches) a successor. -/
theorem search_single (net : Net Op) (hw : net.WF) (hm : net.mems ≠ []) (s : St Op) (h : search net = .ok s) (l : Layer Op) (hl : l ∈ net.order) :
    (l.id ≠ firstId net → net.pred l.id ≠ []) ∧ (l.id ≠ lastId net → net.succ l.id ≠ []) := by
  obtain ⟨-, -, h3, h4⟩ := search_levels net hw s h l hl
  refine ⟨?_, ?_⟩
  · intro hf
    obtain ⟨p, rest, pl, e, -⟩ := h3 hf
    rw [e]
    simp
  · intro hg
    cases hb : isBranch net l with
    | false => exact h4 hb hg hm
    | true =>
      intro hc
      unfold isBranch at hb
      rw [hc] at hb
      simp at hb

/-- Two layers reading the same input layer: two outputs of the network. -/
def twoOut : Net String where
  order := [conv 0 1 1 1, conv 1 1 1 1, conv 2 1 1 1]
  succ := fun i => if i = 0 then [1, 2] else []
  pred := fun i => if i = 1 ∨ i = 2 then [0] else []
  mems := twoMems 20
  topAct := 1
  topOut := 1
  topWeight := 1

/-- Two layers without predecessor. -/
def twoIn : Net String where
  order := [conv 0 1 1 1, conv 1 1 1 1, addLayer 2 2 1]
  succ := fun i => if i = 0 ∨ i = 1 then [2] else []
  pred := fun i => if i = 2 then [0, 1] else []
  mems := twoMems 20
  topAct := 1
  topOut := 1
  topWeight := 1

/-- C82 is false: the search raises for networks with two outputs and for networks with two inputs. -/
theorem search_raises_false : search twoOut = .error .stopIteration ∧ search twoIn = .error .stopIteration := ⟨rfl, rfl⟩

/-- A branch that is joined again, with separate outermost memories for outputs and inputs. -/
def diamond : Net String where
  order := [conv 0 9 1 9, conv 1 9 1 9, conv 2 9 1 9, addLayer 3 18 1]
  succ := fun i => if i = 0 then [1, 2] else if i = 1 ∨ i = 2 then [3] else []
  pred := fun i => if i = 1 ∨ i = 2 then [0] else if i = 3 then [1, 2] else []
  mems := [⟨["I1", "I2", "O"], 5, true⟩, ⟨["O"], 1000, true⟩, ⟨["I1", "I2"], 1000, true⟩, ⟨["I1", "I2", "O"], 20, true⟩]
  topAct := 3
  topOut := 3
  topWeight := 3

/-- The recorded input level always stores the input operand outside of branches. -/
theorem input_stored_partial (net : Net Op) (hw : net.WF) (s : St Op) (h : search net = .ok s) (u v : Layer Op) (hu : u ∈ net.order) (hv : v ∈ net.order)
    (he : net.succ u.id = [v.id]) (hp : net.pred v.id = [u.id]) (hlast : u.id ≠ lastId net) (h1 : u.act ≠ u.weight) (h2 : u.act ≠ u.out) (h3 : u.weight ≠ u.out)
    (hm : ∀ m ∈ net.mems, m.ops.Nodup ∧ ∀ o ∈ m.ops, o = u.act ∨ o = u.weight ∨ o = u.out) :
    ∃ (i : Nat) (m : Mem Op), s.lv v.id v.act = some (i : Int) ∧ net.mems[i]? = some m ∧ v.act ∈ m.ops ∧ u.out ∈ m.ops := by
  have hb : isBranch net u = false := by simp [isBranch, he, hp]
  obtain ⟨i, m, e1, e2, ⟨e3, ⟨a, e4, e5⟩, -⟩, -⟩ := out_lowest net hw s h u hu hb h1 h2 h3 hm
  refine ⟨i, m, by rw [edges_agree net hw s h u v hu hv (by rw [hp]; simp)]; exact e1, e2, ?_, e3⟩
  have hvb : byId net v.id = some v := by
    unfold byId
    cases hf : net.order.find? fun l => decide (l.id = v.id) with
    | none => exact absurd (by simp) (List.find?_eq_none.1 hf v hv)
    | some x =>
      have hx : x.id = v.id := by simpa using List.find?_some hf
      rw [List.inj_on_of_nodup_map hw.ids (List.mem_of_find?_eq_some hf) hv hx]
  have : a = v.act := by
    unfold nextAct at e4
    rw [he] at e4
    simp only [hlast, decide_false, Bool.false_eq_true, if_false, hvb, Option.map_some, Option.some.injEq] at e4
    exact e4.symm
  rw [← this]
  exact e5

/-- The same with the outermost memories of outputs and inputs being different ones. -/
def diamondSplit : Net String :=
  { diamond with
    mems := [⟨["I1", "I2", "O"], 100, true⟩, ⟨["O"], 1000, true⟩, ⟨["I1", "I2"], 1000, true⟩], topAct := 2, topOut := 1, topWeight := 2 }

/-- At branches the recorded input level can be a memory that does not store inputs. -/
theorem branch_level_false : topLevel diamondSplit.mems "O" = diamondSplit.topOut ∧
    ∃ s, search diamondSplit = .ok s ∧ s.lv 1 "I1" = some 1 ∧ (diamondSplit.mems[1]?.map Mem.ops) = some ["O"] :=
  ⟨by decide, _, rfl, by decide, by decide⟩

/-! ### C51 -/

private theorem lower_le (t v : Int) (hv : 0 ≤ v) : lower t v ≤ v := by
  unfold lower
  split_ifs with h
  · omega
  · omega

private theorem updateIo_le {s s' : St Op} {id : Nat} {op : Op} {t : Int} (h : updateIo s id op t = .ok s') (hpos : ∀ i o v, s.lv i o = some v → 0 ≤ v) :
    ∀ i o v, s'.lv i o = some v → ∃ w, s.lv i o = some w ∧ v ≤ w := by
  intro i o v hv
  rw [(updateIo_lv h).2 i o] at hv
  split_ifs at hv with hc
  · cases hw : s.lv i o with
    | none => rw [hw] at hv; cases hv
    | some w =>
      rw [hw] at hv
      simp only [Option.map_some, Option.some.injEq] at hv
      exact ⟨w, rfl, by rw [← hv]; exact lower_le t w (hpos i o w hw)⟩
  · exact ⟨v, hv, le_refl _⟩

private theorem search_pos {net : Net Op} {s : St Op} (h : search net = .ok s) : ∀ i o v, s.lv i o = some v → 0 ≤ v := by
  intro i o v hv
  unfold search at h
  cases h0 : layerLoop net (firstId net) (lastId net) ⟨initUpd net.order, net.topWeight⟩ net.order with
  | error e => rw [h0] at h; cases h
  | ok s0 =>
    rw [h0] at h
    simp only at h
    split_ifs at h with hc
    cases h
    unfold St.lv at hv
    cases hg : s.upd.get? i with
    | none => rw [hg] at hv; cases hv
    | some t =>
      rw [hg] at hv
      simp only at hv
      rw [List.all_eq_true] at hc
      have := hc _ (Dict.mem_of_get? hg)
      rw [List.all_eq_true] at this
      simpa using this _ (Dict.mem_of_get? hv)

/-- C51 fails for every network: asking for the data of the network to come from the top memory never raises the level of anything. -/
theorem from_top_never_raises (net : Net Op) (hta : 0 ≤ net.topAct) (hto : 0 ≤ net.topOut) (s s' : St Op) (h : run net false = .ok s) (h' : run net true = .ok s') :
    ∀ i o v, s'.lv i o = some v → ∃ w, s.lv i o = some w ∧ v ≤ w := by
  unfold run at h h'
  cases hs : search net with
  | error e => rw [hs] at h; cases h
  | ok s0 =>
    rw [hs] at h h'
    simp only [Bool.false_eq_true, if_false, if_true] at h h'
    cases h
    have hpos := search_pos hs
    have hle : ∀ (r : List (Layer Op)) (a b : St Op), loadLoop net a r = .ok b → (∀ i o v, a.lv i o = some v → 0 ≤ v) → 0 ≤ net.topOut →
        (∀ i o v, b.lv i o = some v → ∃ w, a.lv i o = some w ∧ v ≤ w) := by
      intro r
      induction r with
      | nil => intro a b hab _ _ i o v hv; cases hab; exact ⟨v, hv, le_refl _⟩
      | cons l r ih =>
        intro a b hab hp ho i o v hv
        unfold loadLoop at hab
        cases h1 : loadStep net a l with
        | error e => rw [h1] at hab; cases hab
        | ok c =>
          rw [h1] at hab
          simp only at hab
          have hmono : ∀ {x y : St Op} {id op t}, 0 ≤ t → updateIo x id op t = .ok y → (∀ i o v, x.lv i o = some v → 0 ≤ v) → (∀ i o v, y.lv i o = some v → 0 ≤ v) := by
            intro x y id op t ht hu hx i o v hv
            rw [(updateIo_lv hu).2 i o] at hv
            split_ifs at hv with hc
            · cases hw : x.lv i o with
              | none => rw [hw] at hv; cases hv
              | some w =>
                rw [hw] at hv
                simp only [Option.map_some, Option.some.injEq] at hv
                rw [← hv]
                unfold lower
                split_ifs
                · exact ht
                · exact hx i o w hw
            · exact hx i o v hv
          have hc : (∀ i o v, c.lv i o = some v → 0 ≤ v) ∧ (∀ i o v, c.lv i o = some v → ∃ w, a.lv i o = some w ∧ v ≤ w) := by
            unfold loadStep at h1
            by_cases hf : l.id = firstId net
            · rw [if_pos hf] at h1
              cases hu : updateIo a l.id l.act net.topAct with
              | error e => rw [hu] at h1; cases h1
              | ok a1 =>
                rw [hu] at h1
                simp only at h1
                have hp1 := hmono hta hu hp
                split_ifs at h1 with hg
                · refine ⟨hmono ho h1 hp1, ?_⟩
                  intro i o v hv
                  obtain ⟨w, hw, hvw⟩ := updateIo_le h1 hp1 i o v hv
                  obtain ⟨w', hw', hww⟩ := updateIo_le hu hp i o w hw
                  exact ⟨w', hw', by omega⟩
                · cases h1
                  exact ⟨hp1, updateIo_le hu hp⟩
            · rw [if_neg hf] at h1
              simp only at h1
              split_ifs at h1 with hg
              · exact ⟨hmono ho h1 hp, updateIo_le h1 hp⟩
              · cases h1
                exact ⟨hp, fun i o v hv => ⟨v, hv, le_refl _⟩⟩
          obtain ⟨w, hw, hvw⟩ := ih c b hab hc.1 ho i o v hv
          obtain ⟨w', hw', hww⟩ := hc.2 i o w hw
          exact ⟨w', hw', by omega⟩
    exact hle net.order s s' h' hpos hto

/-- C51 is false: input and output of the sample network stay on chip with the request as without. -/
theorem from_top_false : ∃ net : Net String, net.WF ∧ ∃ s, run net true = .ok s ∧ topLevel net.mems "I1" = 1 ∧ s.lv 0 "I1" = some 0 ∧ s.lv 2 "O" = some 1 :=
  ⟨chain, chain_wf, _, rfl, by decide, by decide, by decide⟩

end Verif.Locality
