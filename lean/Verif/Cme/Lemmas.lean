import Verif.Cme.Model
import Mathlib.Tactic.Ring
import Mathlib.Data.List.Dedup
import Mathlib.Tactic.Linarith
import Mathlib.Tactic.FieldSimp
import Mathlib.Algebra.BigOperators.Group.List.Basic

/-! Specification vocabulary and helper lemmas for the sums of cost results. -/

namespace Verif.Cme

instance : AddCommMonoid FourWay where
  add_assoc a b c := FourWay.ext (add_assoc _ _ _) (add_assoc _ _ _) (add_assoc _ _ _) (add_assoc _ _ _)
  zero_add a := FourWay.ext (zero_add _) (zero_add _) (zero_add _) (zero_add _)
  add_zero a := FourWay.ext (add_zero _) (add_zero _) (add_zero _) (add_zero _)
  add_comm a b := FourWay.ext (add_comm _ _) (add_comm _ _) (add_comm _ _) (add_comm _ _)
  nsmul := nsmulRec

instance : Zero Totals := ⟨⟨0, 0, 0, 0, 0, 0, 0, 0, 0, 0⟩⟩
instance : Add Totals := ⟨Totals.add⟩

instance : AddCommMonoid Totals where
  add_assoc a b c := Totals.ext (add_assoc _ _ _) (add_assoc _ _ _) (add_assoc _ _ _) (add_assoc _ _ _) (add_assoc _ _ _) (add_assoc _ _ _)
    (add_assoc _ _ _) (add_assoc _ _ _) (add_assoc _ _ _) (add_assoc _ _ _)
  zero_add a := Totals.ext (zero_add _) (zero_add _) (zero_add _) (zero_add _) (zero_add _) (zero_add _) (zero_add _) (zero_add _) (zero_add _) (zero_add _)
  add_zero a := Totals.ext (add_zero _) (add_zero _) (add_zero _) (add_zero _) (add_zero _) (add_zero _) (add_zero _) (add_zero _) (add_zero _) (add_zero _)
  add_comm a b := Totals.ext (add_comm _ _) (add_comm _ _) (add_comm _ _) (add_comm _ _) (add_comm _ _) (add_comm _ _) (add_comm _ _) (add_comm _ _)
    (add_comm _ _) (add_comm _ _)
  nsmul := nsmulRec

variable {Op : Type} [DecidableEq Op] {V : Type}

/-- The number recorded for an operand at a level; zero where nothing is recorded. -/
def cell [Zero V] (t : Dict Op (List V)) (op : Op) (i : Nat) : V := ((t.get? op).getD [])[i]?.getD 0

/-- Number of levels recorded for an operand. -/
def height (t : Dict Op (List V)) (op : Op) : Nat := ((t.get? op).getD []).length

/-- Two tables contain the same numbers (the order of operands may differ). -/
def SameTable (x y : Dict Op (List V)) : Prop := ∀ op, x.get? op = y.get? op

/-- The tables of a cost result are dictionaries over the same operands. -/
structure WFC (c : Cme Op) : Prop where
  energy : c.energy.WF
  energyDir : c.energyDir.WF
  access : c.access.WF
  dirKeys : ∀ op, op ∈ c.energyDir.keys ↔ op ∈ c.energy.keys
  accKeys : ∀ op, op ∈ c.access.keys ↔ op ∈ c.energy.keys

theorem addLists_cons [Add V] (a b : V) (x y : List V) : addLists (a :: x) (b :: y) = (a + b) :: addLists x y := by
  unfold addLists
  simp [Nat.succ_min_succ]

theorem addLists_nil [Add V] (y : List V) : addLists [] y = y := by simp [addLists]

theorem addLists_nil_right [Add V] (x : List V) : addLists x [] = x := by simp [addLists]

theorem addLists_get [AddCommMonoid V] : ∀ (x y : List V) (i : Nat), (addLists x y)[i]?.getD 0 = x[i]?.getD 0 + y[i]?.getD 0
  | [], y, i => by rw [addLists_nil]; simp
  | x, [], i => by rw [addLists_nil_right]; simp
  | a :: x, b :: y, i => by
    rw [addLists_cons]
    cases i with
    | zero => simp
    | succ j => simpa using addLists_get x y j

theorem addLists_length [Add V] : ∀ (x y : List V), (addLists x y).length = max x.length y.length
  | [], y => by rw [addLists_nil]; simp
  | x, [] => by rw [addLists_nil_right]; simp
  | a :: x, b :: y => by rw [addLists_cons]; simp [addLists_length x y, Nat.succ_max_succ]

theorem addLists_comm [AddCommMonoid V] : ∀ (x y : List V), addLists x y = addLists y x
  | [], y => by rw [addLists_nil, addLists_nil_right]
  | a :: x, [] => by rw [addLists_nil, addLists_nil_right]
  | a :: x, b :: y => by rw [addLists_cons, addLists_cons, addLists_comm x y, add_comm]

theorem addLists_assoc [AddCommMonoid V] : ∀ (x y z : List V), addLists (addLists x y) z = addLists x (addLists y z)
  | [], y, z => by rw [addLists_nil, addLists_nil]
  | a :: x, [], z => by rw [addLists_nil, addLists_nil_right]
  | a :: x, b :: y, [] => by rw [addLists_nil_right, addLists_nil_right]
  | a :: x, b :: y, c :: z => by rw [addLists_cons, addLists_cons, addLists_cons, addLists_cons, addLists_assoc x y z, add_assoc]

theorem addLists_sum [AddCommMonoid V] : ∀ (x y : List V), (addLists x y).sum = x.sum + y.sum
  | [], y => by rw [addLists_nil]; simp
  | a :: x, [] => by rw [addLists_nil_right]; simp
  | a :: x, b :: y => by
    rw [addLists_cons, List.sum_cons, List.sum_cons, List.sum_cons, addLists_sum x y]
    exact add_add_add_comm _ _ _ _

/-- Specification of the sum of two table rows. -/
def mergeRows [Add V] : Option (List V) → Option (List V) → Option (List V)
  | some a, some b => some (addLists a b)
  | some a, none => some a
  | none, some b => some b
  | none, none => none

theorem mergeRows_comm [AddCommMonoid V] (a b : Option (List V)) : mergeRows a b = mergeRows b a := by
  cases a <;> cases b <;> simp [mergeRows, addLists_comm]

theorem mergeRows_assoc [AddCommMonoid V] (a b c : Option (List V)) : mergeRows (mergeRows a b) c = mergeRows a (mergeRows b c) := by
  cases a <;> cases b <;> cases c <;> simp [mergeRows, addLists_assoc]

theorem mergeRows_getD [Add V] (a b : Option (List V)) : (mergeRows a b).getD [] = addLists (a.getD []) (b.getD []) := by
  cases a <;> cases b <;> simp [mergeRows, addLists_nil, addLists_nil_right]

theorem mem_keys_iff {t : Dict Op V} {k : Op} : k ∈ t.keys ↔ t.get? k ≠ none := by
  rw [Ne, Dict.get?_eq_none_iff, not_not]

theorem mem_keys_set {t : Dict Op V} {k j : Op} {v : V} : k ∈ (t.set j v).keys ↔ k ∈ t.keys ∨ k = j := by
  rw [mem_keys_iff, mem_keys_iff, Dict.get?_set]
  by_cases h : j = k
  · simp [h]
  · simp [h, Ne.symm h]

theorem addCommon_aux [Add V] (y : Dict Op (List V)) : ∀ (x : Dict Op (List V)) (r : Dict Op (List V)), x.WF →
    (∀ k, k ∈ (x.foldl (commonStep y) r).keys ↔ k ∈ r.keys ∨ (k ∈ x.keys ∧ k ∈ y.keys)) ∧
    (∀ k, Dict.get? (x.foldl (commonStep y) r) k =
      match x.get? k, y.get? k with
      | some a, some b => some (addLists a b)
      | _, _ => r.get? k) ∧
    (r.WF → Dict.WF (x.foldl (commonStep y) r)) := by
  intro x
  induction x with
  | nil => intro r _; simp [Dict.keys]
  | cons e t ih =>
    intro r hw
    have hw' : e.1 ∉ Dict.keys t ∧ Dict.WF t := List.nodup_cons.1 (by unfold Dict.WF Dict.keys at hw; exact hw)
    rw [List.foldl_cons]
    cases hy : y.get? e.1 with
    | none =>
      have hst : commonStep y r e = r := by unfold commonStep; rw [hy]
      rw [hst]
      obtain ⟨i1, i2, i3⟩ := ih r hw'.2
      have hyk := (Dict.get?_eq_none_iff _ _).1 hy
      refine ⟨fun k => ?_, fun k => ?_, i3⟩
      · rw [i1]
        simp only [Dict.keys, List.map_cons, List.mem_cons] at hyk ⊢
        constructor
        · rintro (h | ⟨h1, h2⟩)
          · exact Or.inl h
          · exact Or.inr ⟨Or.inr h1, h2⟩
        · rintro (h | ⟨rfl | h1, h2⟩)
          · exact Or.inl h
          · exact absurd h2 hyk
          · exact Or.inr ⟨h1, h2⟩
      · rw [i2, Dict.get?_cons]
        split_ifs with hk
        · subst hk
          rw [hy]
          cases Dict.get? t e.1 <;> rfl
        · rfl
    | some l =>
      have hst : commonStep y r e = r.set e.1 (addLists e.2 l) := by unfold commonStep; rw [hy]
      rw [hst]
      obtain ⟨i1, i2, i3⟩ := ih (r.set e.1 (addLists e.2 l)) hw'.2
      have hyk : e.1 ∈ y.keys := List.mem_map.2 ⟨_, Dict.mem_of_get? hy, rfl⟩
      refine ⟨fun k => ?_, fun k => ?_, fun h => i3 (Dict.WF.set h _ _)⟩
      · rw [i1, mem_keys_set]
        simp only [Dict.keys, List.map_cons, List.mem_cons] at hyk ⊢
        constructor
        · rintro ((h | rfl) | ⟨h1, h2⟩)
          · exact Or.inl h
          · exact Or.inr ⟨Or.inl rfl, hyk⟩
          · exact Or.inr ⟨Or.inr h1, h2⟩
        · rintro (h | ⟨rfl | h1, h2⟩)
          · exact Or.inl (Or.inl h)
          · exact Or.inl (Or.inr rfl)
          · exact Or.inr ⟨h1, h2⟩
      · rw [i2, Dict.get?_cons]
        split_ifs with hk
        · subst hk
          rw [hy, (Dict.get?_eq_none_iff _ _).2 hw'.1]
          simp
        · cases hx : Dict.get? t k with
          | none => simp only; rw [Dict.get?_set_of_ne _ _ hk]
          | some a =>
            cases hb : y.get? k with
            | none => simp only; rw [Dict.get?_set_of_ne _ _ hk]
            | some b => rfl

theorem addCommon_get [Add V] {x y : Dict Op (List V)} (hx : x.WF) (k : Op) :
    (addCommon x y).get? k = match x.get? k, y.get? k with | some a, some b => some (addLists a b) | _, _ => none := by
  have := (addCommon_aux y x [] hx).2.1 k
  unfold addCommon
  rw [this]
  cases x.get? k <;> cases y.get? k <;> rfl

theorem addCommon_keys [Add V] {x y : Dict Op (List V)} (hx : x.WF) (k : Op) : k ∈ (addCommon x y).keys ↔ k ∈ x.keys ∧ k ∈ y.keys := by
  have := (addCommon_aux y x [] hx).1 k
  unfold addCommon
  rw [this]
  simp [Dict.keys]

theorem addCommon_wf [Add V] {x y : Dict Op (List V)} (hx : x.WF) : (addCommon x y).WF := (addCommon_aux y x [] hx).2.2 List.nodup_nil

theorem copyOps_spec (src : Dict Op (List V)) : ∀ (ops : List Op) (r : Dict Op (List V)), (∀ op ∈ ops, op ∈ src.keys) →
    ∃ r', copyOps src ops r = .ok r' ∧ (∀ k, r'.get? k = if k ∈ ops then src.get? k else r.get? k) ∧ (r.WF → r'.WF) := by
  intro ops
  induction ops with
  | nil => intro r _; exact ⟨r, rfl, fun k => by simp, id⟩
  | cons op t ih =>
    intro r h
    cases hg : src.get? op with
    | none => exact absurd (h op (by simp)) ((Dict.get?_eq_none_iff _ _).1 hg)
    | some l =>
      obtain ⟨r', h1, h2, h3⟩ := ih (r.set op l) (fun o ho => h o (by simp [ho]))
      refine ⟨r', ?_, fun k => ?_, fun hw => h3 (Dict.WF.set hw _ _)⟩
      · unfold copyOps; rw [hg]; exact h1
      · rw [h2]
        by_cases hk : k ∈ t
        · simp [hk]
        · rw [if_neg hk, Dict.get?_set]
          by_cases he : op = k
          · subst he; simp [hg]
          · simp [hk, he, Ne.symm he]

theorem addTable_spec [Add V] {x y : Dict Op (List V)} (hx : x.WF) {ox oy : List Op} (h1 : ∀ k, k ∈ ox ↔ k ∈ x.keys ∧ k ∉ y.keys)
    (h2 : ∀ k, k ∈ oy ↔ k ∈ y.keys ∧ k ∉ x.keys) :
    ∃ r, addTable x y ox oy = .ok r ∧ r.WF ∧ ∀ k, r.get? k = mergeRows (x.get? k) (y.get? k) := by
  obtain ⟨r1, a1, a2, a3⟩ := copyOps_spec x ox (addCommon x y) (fun k hk => ((h1 k).1 hk).1)
  obtain ⟨r2, b1, b2, b3⟩ := copyOps_spec y oy r1 (fun k hk => ((h2 k).1 hk).1)
  refine ⟨r2, ?_, b3 (a3 (addCommon_wf hx)), fun k => ?_⟩
  · unfold addTable; rw [a1]; exact b1
  · rw [b2, a2, addCommon_get hx]
    cases ha : x.get? k with
    | none =>
      have hxk := (Dict.get?_eq_none_iff _ _).1 ha
      cases hb : y.get? k with
      | none =>
        have hyk := (Dict.get?_eq_none_iff _ _).1 hb
        rw [if_neg (fun h => hyk ((h2 k).1 h).1), if_neg (fun h => hxk ((h1 k).1 h).1)]
        rfl
      | some b =>
        have hyk : k ∈ y.keys := List.mem_map.2 ⟨_, Dict.mem_of_get? hb, rfl⟩
        rw [if_pos ((h2 k).2 ⟨hyk, hxk⟩)]
        rfl
    | some a =>
      have hxk : k ∈ x.keys := List.mem_map.2 ⟨_, Dict.mem_of_get? ha, rfl⟩
      rw [if_neg (fun h => ((h2 k).1 h).2 hxk)]
      cases hb : y.get? k with
      | none =>
        have hyk := (Dict.get?_eq_none_iff _ _).1 hb
        rw [if_pos ((h1 k).2 ⟨hxk, hyk⟩)]
        rfl
      | some b =>
        have hyk : k ∈ y.keys := List.mem_map.2 ⟨_, Dict.mem_of_get? hb, rfl⟩
        rw [if_neg (fun h => ((h1 k).1 h).2 hyk)]
        rfl

/-- What `__add__` does to well-formed results, for every traversal order of the operand sets. -/
theorem add_rows {ord : List Op → List Op} (ho : ∀ l, (ord l).Perm l) {a b : Cme Op} (ha : WFC a) (hb : WFC b) :
    ∃ en ed ac : _, (en : Dict Op (List ℚ)).WF ∧ (ed : Dict Op (List FourWay)).WF ∧ (ac : Dict Op (List FourWay)).WF ∧
      (∀ k, en.get? k = mergeRows (a.energy.get? k) (b.energy.get? k)) ∧ (∀ k, ed.get? k = mergeRows (a.energyDir.get? k) (b.energyDir.get? k)) ∧
      (∀ k, ac.get? k = mergeRows (a.access.get? k) (b.access.get? k)) ∧
      add ord a b = (match mkUtil (a.totals + b.totals) with
        | .error e => .error e
        | .ok u => match pickAccelerator a b with
          | .error e => .error e
          | .ok acc => .ok { totals := a.totals + b.totals, energy := en, energyDir := ed, access := ac, util := some u, cumulative := true,
                             layerIds := a.layerIds ++ b.layerIds, accelerator := acc }) := by
  set ox := ord (a.energy.keys.filter (fun k => decide (k ∉ (addCommon a.energy b.energy).keys))) with hox
  set oy := ord (b.energy.keys.filter (fun k => decide (k ∉ (addCommon a.energy b.energy).keys))) with hoy
  have m1 : ∀ k, k ∈ ox ↔ k ∈ a.energy.keys ∧ k ∉ b.energy.keys := by
    intro k
    rw [hox, (ho _).mem_iff, List.mem_filter, decide_eq_true_eq, addCommon_keys ha.energy]
    tauto
  have m2 : ∀ k, k ∈ oy ↔ k ∈ b.energy.keys ∧ k ∉ a.energy.keys := by
    intro k
    rw [hoy, (ho _).mem_iff, List.mem_filter, decide_eq_true_eq, addCommon_keys ha.energy]
    tauto
  obtain ⟨en, e1, e2, e3⟩ := addTable_spec (x := a.energy) (y := b.energy) ha.energy m1 m2
  obtain ⟨ed, d1, d2, d3⟩ := addTable_spec (x := a.energyDir) (y := b.energyDir) ha.energyDir (ox := ox) (oy := oy)
    (fun k => by rw [m1, ha.dirKeys, hb.dirKeys]) (fun k => by rw [m2, ha.dirKeys, hb.dirKeys])
  obtain ⟨ac, c1, c2, c3⟩ := addTable_spec (x := a.access) (y := b.access) ha.access (ox := ox) (oy := oy)
    (fun k => by rw [m1, ha.accKeys, hb.accKeys]) (fun k => by rw [m2, ha.accKeys, hb.accKeys])
  refine ⟨en, ed, ac, e2, d2, c2, e3, d3, c3, ?_⟩
  unfold add
  simp only
  rw [← hox, ← hoy, e1]
  simp only
  rw [d1]
  simp only
  rw [c1]
  rfl

theorem mergeRows_ne_none [Add V] (a b : Option (List V)) : mergeRows a b ≠ none ↔ a ≠ none ∨ b ≠ none := by
  cases a <;> cases b <;> simp [mergeRows]

/-- Sum of all numbers of a table. -/
def tableSum [AddCommMonoid V] (t : Dict Op (List V)) : V := (t.map (fun e => e.2.sum)).sum

theorem sum_ite_eq [AddCommMonoid V] (k : Op) (v : V) : ∀ ks : List Op, ks.Nodup → k ∈ ks → (ks.map (fun j => if k = j then v else 0)).sum = v := by
  intro ks
  induction ks with
  | nil => intro _ h; simp at h
  | cons a s ih =>
    intro hnd hk
    obtain ⟨ha, hs⟩ := List.nodup_cons.1 hnd
    rw [List.map_cons, List.sum_cons]
    by_cases hc : k = a
    · rw [if_pos hc]
      have : (s.map (fun j => if k = j then v else 0)).sum = 0 := by
        apply List.sum_eq_zero
        intro q hq
        obtain ⟨j, hj, rfl⟩ := List.mem_map.1 hq
        rw [if_neg]; intro h; exact ha (by rw [← hc, h]; exact hj)
      rw [this, add_zero]
    · rw [if_neg hc, zero_add]
      exact ih hs (by simpa [hc] using hk)

theorem tableSum_keys [AddCommMonoid V] : ∀ (t : Dict Op (List V)), t.WF → ∀ ks : List Op, ks.Nodup → (∀ k ∈ t.keys, k ∈ ks) →
    tableSum t = (ks.map (fun k => ((t.get? k).getD []).sum)).sum := by
  intro t
  induction t with
  | nil => intro _ ks _ _; simp [tableSum]
  | cons e t ih =>
    intro hw ks hn hk
    have hw' : e.1 ∉ Dict.keys t ∧ Dict.WF t := List.nodup_cons.1 (by unfold Dict.WF Dict.keys at hw; exact hw)
    have h1 : tableSum (e :: t) = e.2.sum + tableSum t := by simp [tableSum]
    rw [h1, ih hw'.2 ks hn (fun k hk' => hk k (by simp only [Dict.keys, List.map_cons, List.mem_cons] at hk' ⊢; exact Or.inr hk'))]
    have hrw : (fun k => ((Dict.get? (e :: t) k).getD []).sum) = fun k => (if e.1 = k then e.2.sum else 0) + ((Dict.get? t k).getD []).sum := by
      funext k
      rw [Dict.get?_cons]
      split_ifs with h
      · subst h
        rw [(Dict.get?_eq_none_iff _ _).2 hw'.1]
        simp
      · simp
    rw [hrw, List.sum_map_add, sum_ite_eq e.1 _ ks hn (hk _ (by simp [Dict.keys]))]

theorem tableSum_merge [AddCommMonoid V] {x y r : Dict Op (List V)} (hx : x.WF) (hy : y.WF) (hr : r.WF) (h : ∀ k, r.get? k = mergeRows (x.get? k) (y.get? k)) :
    tableSum r = tableSum x + tableSum y := by
  set ks := (x.keys ++ y.keys).dedup with hks
  have hin : ∀ k, k ∈ ks ↔ k ∈ x.keys ∨ k ∈ y.keys := fun k => by rw [hks, List.mem_dedup, List.mem_append]
  rw [tableSum_keys x hx ks (List.nodup_dedup _) (fun k hk => (hin k).2 (Or.inl hk)), tableSum_keys y hy ks (List.nodup_dedup _) (fun k hk => (hin k).2 (Or.inr hk)),
    tableSum_keys r hr ks (List.nodup_dedup _) (fun k hk => (hin k).2 (by
      rw [mem_keys_iff, h, mergeRows_ne_none] at hk
      exact hk.imp mem_keys_iff.2 mem_keys_iff.2)), ← List.sum_map_add]
  congr 1
  apply List.map_congr_left
  intro k _
  rw [h, mergeRows_getD, addLists_sum]

end Verif.Cme
