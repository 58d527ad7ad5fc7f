import Verif.Locality.Model
import Mathlib.Data.List.Nodup

namespace Verif.Locality

variable {Op : Type} [DecidableEq Op]

theorem get_map_lower (t : Dict Op Int) (op : Op) (target : Int) (o : Op) :
    Dict.get? (t.map fun e => if e.1 = op then (e.1, lower target e.2) else e) o = if o = op then (t.get? o).map (lower target) else t.get? o := by
  induction t with
  | nil => simp
  | cons e t ih =>
    rw [List.map_cons, Dict.get?_cons, Dict.get?_cons, ih]
    by_cases h1 : e.1 = op
    · by_cases h2 : e.1 = o
      · simp [h1, ← h2]
      · simp [h1, h2]
        have : op ≠ o := fun hc => h2 (h1.trans hc)
        simp [this]
    · by_cases h2 : e.1 = o
      · have : o ≠ op := fun hc => h1 (h2.trans hc)
        simp [h1, h2, this]
      · simp [h1, h2]

theorem updateIo_lv {s s' : St Op} {id : Nat} {op : Op} {target : Int} (h : updateIo s id op target = .ok s') :
    s'.weight = s.weight ∧ ∀ i o, s'.lv i o = if i = id ∧ o = op then (s.lv i o).map (lower target) else s.lv i o := by
  unfold updateIo at h
  cases hg : s.upd.get? id with
  | none => rw [hg] at h; cases h
  | some t =>
    rw [hg] at h
    cases h
    refine ⟨rfl, ?_⟩
    intro i o
    unfold St.lv
    simp only
    by_cases hi : i = id
    · subst hi
      rw [Dict.get?_set_self, hg]
      simp only [true_and]
      exact get_map_lower t op target o
    · rw [Dict.get?_set_of_ne _ _ (Ne.symm hi)]
      simp [hi]

theorem record_lv {s s' : St Op} {l : Layer Op} {first : Bool} {va vo : Int} (hne : l.act ≠ l.out) (h : record s l first va vo = .ok s') :
    s'.weight = s.weight ∧ (∀ i o, i ≠ l.id → s'.lv i o = s.lv i o) ∧ s'.lv l.id l.out = (s.lv l.id l.out).map (lower vo) ∧
      s'.lv l.id l.act = if first then (s.lv l.id l.act).map (lower va) else s.lv l.id l.act := by
  unfold record at h
  cases first with
  | false =>
    simp only [Bool.false_eq_true, if_false] at h ⊢
    obtain ⟨h1, h2⟩ := updateIo_lv h
    refine ⟨h1, fun i o hi => by rw [h2, if_neg (fun hc => hi hc.1)], by rw [h2]; simp, by rw [h2, if_neg (fun hc => hne hc.2)]⟩
  | true =>
    simp only [if_true] at h ⊢
    cases h1 : updateIo s l.id l.act va with
    | error e => rw [h1] at h; cases h
    | ok s1 =>
      rw [h1] at h
      simp only at h
      obtain ⟨a1, a2⟩ := updateIo_lv h1
      obtain ⟨b1, b2⟩ := updateIo_lv h
      refine ⟨b1.trans a1, ?_, ?_, ?_⟩
      · intro i o hi
        rw [b2, if_neg (fun hc => hi hc.1), a2, if_neg (fun hc => hi hc.1)]
      · rw [b2, if_pos ⟨rfl, rfl⟩, a2, if_neg (fun hc => hne hc.2.symm)]
      · rw [b2, if_neg (fun hc => hne hc.2), a2, if_pos ⟨rfl, rfl⟩]

/-- Operands whose sizes are counted. -/
def servedOps (l : Layer Op) (both : Bool) (m : Mem Op) : List Op := if l.adder && both then [l.out, l.act] else m.ops

/-- The memory is recorded for the output of the layer. -/
def keeps (net : Net Op) (l : Layer Op) (final : Bool) (m : Mem Op) : Bool :=
  match servesNext net l final m with
  | .error _ => false
  | .ok sn =>
    sn && decide (l.out ∈ m.ops) &&
      (match sumIo l (servedOps l true m) with
        | .error _ => false
        | .ok io => decide (io + weightNeed net l (servedOps l true m) ≤ m.avail))

/-- The memory is accepted for the weights. -/
def keepsWeight (net : Net Op) (l : Layer Op) (final : Bool) (m : Mem Op) : Prop :=
  ∃ sn io, servesNext net l final m = .ok sn ∧ l.weight ∈ m.ops ∧ m.allDims = true ∧
    sumIo l (servedOps l (sn && decide (l.out ∈ m.ops)) m) = .ok io ∧
    io + weightNeed net l (servedOps l (sn && decide (l.out ∈ m.ops)) m) ≤ m.avail

theorem memStep_lv {net : Net Op} {l : Layer Op} {first final : Bool} {s s' : St Op} {m : Mem Op × Nat} (hne : l.act ≠ l.out)
    (h : memStep net l first final s m = .ok s') :
    (∀ i o, i ≠ l.id → s'.lv i o = s.lv i o) ∧
    s'.lv l.id l.out = (s.lv l.id l.out).map (fun v => if keeps net l final m.1 then lower m.2 v else v) ∧
    s'.lv l.id l.act = (s.lv l.id l.act).map (fun v => if first && keeps net l final m.1 then lower m.2 v else v) ∧
    (s'.weight = s.weight ∨ ((m.2 : Int) < s.weight ∧ s'.weight = m.2 ∧ keepsWeight net l final m.1)) := by
  have hid : ∀ (x : Option Int), x.map (fun v => v) = x := fun x => by cases x <;> rfl
  unfold memStep at h
  cases h1 : servesNext net l final m.1 with
  | error e => rw [h1] at h; cases h
  | ok sn =>
    rw [h1] at h
    simp only at h
    have hk : keeps net l final m.1 = (sn && decide (l.out ∈ m.1.ops) &&
      (match sumIo l (servedOps l true m.1) with
        | .error _ => false
        | .ok io => decide (io + weightNeed net l (servedOps l true m.1) ≤ m.1.avail))) := by
      unfold keeps; rw [h1]
    cases hb : (sn && decide (l.out ∈ m.1.ops)) with
    | false =>
      rw [hb] at h hk
      simp only [Bool.false_and] at hk
      simp only [hk, Bool.and_false, Bool.false_eq_true, if_false, hid]
      simp only [Bool.false_or, Bool.and_false, Bool.false_eq_true, if_false] at h
      by_cases hw : decide (l.weight ∈ m.1.ops) = true
      · rw [if_pos hw] at h
        cases h2 : sumIo l m.1.ops with
        | error e => rw [h2] at h; cases h
        | ok io =>
          rw [h2] at h
          simp only at h
          by_cases hf : io + weightNeed net l m.1.ops ≤ m.1.avail
          · rw [if_pos hf] at h
            split_ifs at h with hlt
            · cases h
              refine ⟨fun _ _ _ => rfl, rfl, rfl, .inr ⟨hlt.1, rfl, sn, io, h1, by simpa using hw, hlt.2.1, ?_, ?_⟩⟩
              · rw [hb]; simpa [servedOps] using h2
              · rw [hb]; simpa [servedOps] using hf
            · cases h
              exact ⟨fun _ _ _ => rfl, rfl, rfl, .inl rfl⟩
          · rw [if_neg hf] at h
            cases h
            exact ⟨fun _ _ _ => rfl, rfl, rfl, .inl rfl⟩
      · rw [if_neg hw] at h
        cases h
        exact ⟨fun _ _ _ => rfl, rfl, rfl, .inl rfl⟩
    | true =>
      rw [hb] at h hk
      simp only [Bool.true_or, if_true, Bool.and_true] at h
      simp only [Bool.true_and] at hk
      have hso : servedOps l true m.1 = if l.adder = true then [l.out, l.act] else m.1.ops := by simp [servedOps]
      rw [← hso] at h
      cases h2 : sumIo l (servedOps l true m.1) with
      | error e => rw [h2] at h; cases h
      | ok io =>
        rw [h2] at h hk
        simp only at h hk
        by_cases hf : io + weightNeed net l (servedOps l true m.1) ≤ m.1.avail
        · rw [if_pos hf] at h
          have hkt : keeps net l final m.1 = true := by rw [hk]; simpa using hf
          cases h3 : record s l first m.2 m.2 with
          | error e => rw [h3] at h; cases h
          | ok s2 =>
            rw [h3] at h
            simp only at h
            obtain ⟨r1, r2, r3, r4⟩ := record_lv hne h3
            have hact : (s.lv l.id l.act).map (fun v => if first && keeps net l final m.1 then lower m.2 v else v) = s2.lv l.id l.act := by
              rw [r4, hkt]
              cases first <;> simp
            have hout : (s.lv l.id l.out).map (fun v => if keeps net l final m.1 then lower m.2 v else v) = s2.lv l.id l.out := by
              rw [r3, hkt]
              rfl
            rw [hact, hout]
            split_ifs at h with hlt
            · cases h
              refine ⟨fun i o hi => r2 i o hi, rfl, rfl, .inr ⟨by rw [← r1]; exact hlt.1, rfl, sn, io, h1, by simpa using hlt.2.2, hlt.2.1, ?_, ?_⟩⟩
              · rw [hb]; exact h2
              · rw [hb]; exact hf
            · cases h
              exact ⟨fun i o hi => r2 i o hi, rfl, rfl, .inl r1⟩
        · rw [if_neg hf] at h
          have hkf : keeps net l final m.1 = false := by rw [hk]; simpa using hf
          simp only [hkf, Bool.and_false, Bool.false_eq_true, if_false, hid]
          cases h
          exact ⟨fun _ _ _ => rfl, rfl, rfl, .inl rfl⟩

/-- Lowest level recorded when going through memories from the outermost one. -/
def low (k : Mem Op → Bool) (v : Int) (m : Mem Op × Nat) : Int := if k m.1 then lower m.2 v else v

theorem memLoop_lv {net : Net Op} {l : Layer Op} {first final : Bool} (hne : l.act ≠ l.out) (r : List (Mem Op × Nat)) {s s' : St Op}
    (h : memLoop net l first final s r = .ok s') :
    (∀ i o, i ≠ l.id → s'.lv i o = s.lv i o) ∧
    s'.lv l.id l.out = (s.lv l.id l.out).map (fun v => r.foldl (low (keeps net l final)) v) ∧
    s'.lv l.id l.act = (s.lv l.id l.act).map (fun v => if first then r.foldl (low (keeps net l final)) v else v) ∧
    (s'.weight = s.weight ∨ (s'.weight < s.weight ∧ ∃ m ∈ r, s'.weight = m.2 ∧ keepsWeight net l final m.1)) := by
  induction r generalizing s with
  | nil =>
    cases h
    refine ⟨fun _ _ _ => rfl, ?_, ?_, .inl rfl⟩
    · simp
    · cases first <;> simp
  | cons m r ih =>
    unfold memLoop at h
    cases h1 : memStep net l first final s m with
    | error e => rw [h1] at h; cases h
    | ok s1 =>
      rw [h1] at h
      simp only at h
      obtain ⟨a1, a2, a3, a4⟩ := memStep_lv hne h1
      obtain ⟨b1, b2, b3, b4⟩ := ih h
      refine ⟨fun i o hi => (b1 i o hi).trans (a1 i o hi), ?_, ?_, ?_⟩
      · rw [b2, a2, Option.map_map]; rfl
      · rw [b3, a3, Option.map_map]
        cases first
        · cases s.lv l.id l.act <;> simp
        · simp only [Bool.true_and, if_true]
          rfl
      · rcases b4 with b4 | ⟨b5, m', hm', b6, b7⟩
        · rcases a4 with a4 | ⟨a5, a6, a7⟩
          · exact .inl (b4.trans a4)
          · exact .inr ⟨by omega, m, by simp, b4.trans a6, a7⟩
        · refine .inr ⟨?_, m', by simp [hm'], b6, b7⟩
          rcases a4 with a4 | ⟨a5, a6, a7⟩ <;> omega

/-- The lowest place accepted by `k`. -/
theorem low_fold (k : Mem Op → Bool) (mems : List (Mem Op)) (n : Nat) :
    ((mems.zipIdx n).reverse.foldl (low k) (-1)) = match (mems.zipIdx n).find? (fun m => k m.1) with | some m => (m.2 : Int) | none => -1 := by
  induction mems generalizing n with
  | nil => rfl
  | cons m ms ih =>
    rw [List.zipIdx_cons, List.reverse_cons, List.foldl_append, ih (n + 1), List.find?_cons]
    simp only [List.foldl_cons, List.foldl_nil]
    unfold low
    simp only
    cases hk : k m with
    | false => simp
    | true =>
      simp only [if_true]
      unfold lower
      cases hf : (ms.zipIdx (n + 1)).find? (fun m => k m.1) with
      | none => simp
      | some x =>
        have hx := List.mem_of_find?_eq_some hf
        obtain ⟨hx1, -⟩ := List.mem_zipIdx hx
        simp only
        rw [if_pos]
        right
        omega

/-- Level of the output of a layer. -/
def outLevel (net : Net Op) (l : Layer Op) (final : Bool) : Int :=
  if isBranch net l then net.topOut
  else match net.mems.zipIdx.find? (fun m => keeps net l final m.1) with | some m => (m.2 : Int) | none => -1

theorem lower_neg (t : Int) : lower t (-1) = t := by simp [lower]

theorem layerStep_lv {net : Net Op} {f g : Nat} {l : Layer Op} {s s' : St Op} (hne : l.act ≠ l.out)
    (ha : s.lv l.id l.act = some (-1)) (ho : s.lv l.id l.out = some (-1)) (h : layerStep net f g s l = .ok s') :
    (∀ i o, i ≠ l.id → s'.lv i o = s.lv i o) ∧
    s'.lv l.id l.out = some (outLevel net l (decide (l.id = g))) ∧
    (l.id = f → s'.lv l.id l.act = some (if isBranch net l then net.topAct else outLevel net l (decide (l.id = g)))) ∧
    (l.id ≠ f → ∃ p rest pl v, net.pred l.id = p :: rest ∧ byId net p = some pl ∧ s.lv pl.id pl.out = some v ∧ s'.lv l.id l.act = some v) ∧
    (isBranch net l = false → l.id ≠ g → net.mems ≠ [] → net.succ l.id ≠ []) := by
  unfold layerStep at h
  simp only at h
  -- the state after propagation
  obtain ⟨s1, h1, q1, q2, q3, q4⟩ : ∃ s1, (if decide (l.id = f) = true then Except.ok s else propagate net l s) = .ok s1 ∧
      (∀ i o, i ≠ l.id → s1.lv i o = s.lv i o) ∧ s1.lv l.id l.out = some (-1) ∧ (l.id = f → s1.lv l.id l.act = some (-1)) ∧
      (l.id ≠ f → ∃ p rest pl v, net.pred l.id = p :: rest ∧ byId net p = some pl ∧ s.lv pl.id pl.out = some v ∧ s1.lv l.id l.act = some v) := by
    by_cases hf : l.id = f
    · exact ⟨s, by simp [hf], fun _ _ _ => rfl, ho, fun _ => ha, fun hc => absurd hf hc⟩
    · simp only [hf, decide_false, Bool.false_eq_true, if_false] at h ⊢
      cases hp : propagate net l s with
      | error e => rw [hp] at h; cases h
      | ok s1 =>
        refine ⟨s1, rfl, ?_⟩
        unfold propagate at hp
        cases hpr : net.pred l.id with
        | nil => rw [hpr] at hp; cases hp
        | cons p rest =>
          rw [hpr] at hp
          simp only at hp
          cases hb : byId net p with
          | none => rw [hb] at hp; cases hp
          | some pl =>
            rw [hb] at hp
            simp only at hp
            cases hv : s.lv pl.id pl.out with
            | none => rw [hv] at hp; cases hp
            | some v =>
              rw [hv] at hp
              simp only at hp
              obtain ⟨-, u⟩ := updateIo_lv hp
              refine ⟨fun i o hi => by rw [u, if_neg (fun hc => hi hc.1)], by rw [u, if_neg (fun hc => hne hc.2.symm)]; exact ho,
                fun hc => absurd hc not_false, fun _ => ⟨p, rest, pl, v, rfl, hb, hv, ?_⟩⟩
              rw [u, if_pos ⟨rfl, rfl⟩, ha, Option.map_some, lower_neg]
  rw [h1] at h
  simp only at h
  unfold outLevel
  cases hb : isBranch net l with
  | true =>
    rw [hb] at h
    simp only [if_true] at h ⊢
    obtain ⟨-, r2, r3, r4⟩ := record_lv hne h
    refine ⟨fun i o hi => (r2 i o hi).trans (q1 i o hi), by rw [r3, q2, Option.map_some, lower_neg], ?_, ?_, by simp⟩
    · intro hf
      rw [r4, q3 hf]
      simp [hf, lower_neg]
    · intro hf
      obtain ⟨p, rest, pl, v, e1, e2, e3, e4⟩ := q4 hf
      exact ⟨p, rest, pl, v, e1, e2, e3, by rw [r4]; simpa [hf] using e4⟩
  | false =>
    rw [hb] at h
    simp only [Bool.false_eq_true, if_false] at h ⊢
    obtain ⟨r1, r2, r3, -⟩ := memLoop_lv hne _ h
    have hlow := low_fold (keeps net l (decide (l.id = g))) net.mems 0
    refine ⟨fun i o hi => (r1 i o hi).trans (q1 i o hi), by rw [r2, q2, Option.map_some, hlow], ?_, ?_, ?_⟩
    · intro hf
      rw [r3, q3 hf]
      simp only [hf, decide_true, if_true, Option.map_some]
      rw [hf] at hlow
      rw [hlow]
    · intro hf
      obtain ⟨p, rest, pl, v, e1, e2, e3, e4⟩ := q4 hf
      exact ⟨p, rest, pl, v, e1, e2, e3, by rw [r3, e4]; simp [hf]⟩
    · intro _ hg hm hs
      obtain ⟨m, ms, hms⟩ : ∃ m ms, net.mems.zipIdx.reverse = m :: ms := by
        cases hr : net.mems.zipIdx.reverse with
        | nil => rw [List.reverse_eq_nil_iff, List.zipIdx_eq_nil_iff] at hr; exact absurd hr hm
        | cons m ms => exact ⟨m, ms, rfl⟩
      rw [hms] at h
      have : memStep net l (decide (l.id = f)) (decide (l.id = g)) s1 m = .error .stopIteration := by
        unfold memStep servesNext
        simp [hg, hs]
      unfold memLoop at h
      rw [this] at h
      cases h

/-- Layers of the network with what python guarantees: ids are different, linked operands are different, the order is topological, neighbours are symmetric. -/
structure Net.WF (net : Net Op) : Prop where
  ids : (net.order.map Layer.id).Nodup
  ops : ∀ l ∈ net.order, l.act ≠ l.out
  topo : ∀ a l b, net.order = a ++ l :: b → ∀ p ∈ net.pred l.id, ∃ x ∈ a, x.id = p
  symm : ∀ u v, v ∈ net.succ u ↔ u ∈ net.pred v

theorem layerLoop_other {net : Net Op} {f g : Nat} (r : List (Layer Op)) (hnd : (r.map Layer.id).Nodup) (hops : ∀ l ∈ r, l.act ≠ l.out) {s s' : St Op}
    (hin : ∀ l ∈ r, s.lv l.id l.act = some (-1) ∧ s.lv l.id l.out = some (-1)) (h : layerLoop net f g s r = .ok s') :
    ∀ i o, i ∉ r.map Layer.id → s'.lv i o = s.lv i o := by
  induction r generalizing s with
  | nil => cases h; intros; rfl
  | cons l r ih =>
    unfold layerLoop at h
    cases h1 : layerStep net f g s l with
    | error e => rw [h1] at h; cases h
    | ok s1 =>
      rw [h1] at h
      simp only at h
      rw [List.map_cons, List.nodup_cons] at hnd
      obtain ⟨a1, -⟩ := layerStep_lv (hops l (by simp)) (hin l (by simp)).1 (hin l (by simp)).2 h1
      intro i o hi
      simp only [List.map_cons, List.mem_cons, not_or] at hi
      have hin' : ∀ x ∈ r, s1.lv x.id x.act = some (-1) ∧ s1.lv x.id x.out = some (-1) := by
        intro x hx
        have hxl : x.id ≠ l.id := fun hc => hnd.1 (List.mem_map.2 ⟨x, hx, hc⟩)
        rw [a1 _ _ hxl, a1 _ _ hxl]
        exact hin x (by simp [hx])
      rw [ih hnd.2 (fun x hx => hops x (by simp [hx])) hin' h i o hi.2, a1 i o hi.1]

theorem layerLoop_split {net : Net Op} {f g : Nat} (a b : List (Layer Op)) {s s' : St Op} (h : layerLoop net f g s (a ++ b) = .ok s') :
    ∃ s1, layerLoop net f g s a = .ok s1 ∧ layerLoop net f g s1 b = .ok s' := by
  induction a generalizing s with
  | nil => exact ⟨s, rfl, h⟩
  | cons l a ih =>
    rw [List.cons_append] at h
    unfold layerLoop at h
    cases h1 : layerStep net f g s l with
    | error e => rw [h1] at h; cases h
    | ok s1 =>
      rw [h1] at h
      obtain ⟨s2, a1, a2⟩ := ih h
      exact ⟨s2, by rw [layerLoop, h1]; exact a1, a2⟩

theorem initUpd_lv (order : List (Layer Op)) (hnd : (order.map Layer.id).Nodup) (hops : ∀ l ∈ order, l.act ≠ l.out) (w : Int) :
    ∀ l ∈ order, (St.mk (initUpd order) w).lv l.id l.act = some (-1) ∧ (St.mk (initUpd order) w).lv l.id l.out = some (-1) := by
  have key : ∀ (r : List (Layer Op)) (d : Dict Nat (Dict Op Int)), (r.map Layer.id).Nodup →
      (∀ l ∈ r, (r.foldl (fun d l => d.set l.id (Dict.set [(l.act, (-1 : Int))] l.out (-1))) d).get? l.id = some (Dict.set [(l.act, -1)] l.out (-1))) ∧
      (∀ i, i ∉ r.map Layer.id → (r.foldl (fun d l => d.set l.id (Dict.set [(l.act, (-1 : Int))] l.out (-1))) d).get? i = d.get? i) := by
    intro r
    induction r with
    | nil => intro d _; simp
    | cons x r ih =>
      intro d hd
      rw [List.map_cons, List.nodup_cons] at hd
      obtain ⟨i1, i2⟩ := ih (d.set x.id (Dict.set [(x.act, -1)] x.out (-1))) hd.2
      rw [List.foldl_cons]
      refine ⟨?_, ?_⟩
      · intro l hl
        rcases List.mem_cons.1 hl with rfl | hl
        · rw [i2 _ hd.1, Dict.get?_set_self]
        · exact i1 l hl
      · intro i hi
        simp only [List.map_cons, List.mem_cons, not_or] at hi
        rw [i2 i hi.2, Dict.get?_set_of_ne _ _ (Ne.symm hi.1)]
  intro l hl
  unfold St.lv initUpd
  simp only
  rw [(key order [] hnd).1 l hl]
  simp only
  refine ⟨?_, by rw [Dict.get?_set_self]⟩
  rw [Dict.get?_set_of_ne _ _ (Ne.symm (hops l hl)), Dict.get?_cons, if_pos rfl]

/-- What is recorded for every layer. -/
theorem search_levels (net : Net Op) (hw : net.WF) (s : St Op) (h : search net = .ok s) (l : Layer Op) (hl : l ∈ net.order) :
    s.lv l.id l.out = some (outLevel net l (decide (l.id = lastId net))) ∧
    (l.id = firstId net → s.lv l.id l.act = some (if isBranch net l then net.topAct else outLevel net l (decide (l.id = lastId net)))) ∧
    (l.id ≠ firstId net → ∃ p rest pl, net.pred l.id = p :: rest ∧ pl ∈ net.order ∧ pl.id = p ∧ s.lv l.id l.act = s.lv pl.id pl.out) ∧
    (isBranch net l = false → l.id ≠ lastId net → net.mems ≠ [] → net.succ l.id ≠ []) := by
  unfold search at h
  cases h0 : layerLoop net (firstId net) (lastId net) ⟨initUpd net.order, net.topWeight⟩ net.order with
  | error e => rw [h0] at h; cases h
  | ok s0 =>
    rw [h0] at h
    simp only at h
    split_ifs at h
    cases h
    obtain ⟨a, b, hab⟩ := List.append_of_mem hl
    have hnd := hw.ids
    have hinit := initUpd_lv net.order hw.ids hw.ops net.topWeight
    have h0' : layerLoop net (firstId net) (lastId net) ⟨initUpd net.order, net.topWeight⟩ (a ++ l :: b) = .ok s := by rw [← hab]; exact h0
    obtain ⟨s1, h1, h2⟩ := layerLoop_split a (l :: b) h0'
    rw [hab, List.map_append, List.map_cons, List.nodup_append, List.nodup_cons] at hnd
    obtain ⟨n1, ⟨n2, n3⟩, n4⟩ := hnd
    have ha := layerLoop_other a n1 (fun x hx => hw.ops x (by rw [hab]; simp [hx]))
      (fun x hx => hinit x (by rw [hab]; simp [hx])) h1
    have hla : l.id ∉ a.map Layer.id := fun hc => n4 _ hc _ (by simp) rfl
    have hl1 : s1.lv l.id l.act = some (-1) ∧ s1.lv l.id l.out = some (-1) := by
      rw [ha _ _ hla, ha _ _ hla]; exact hinit l hl
    unfold layerLoop at h2
    cases h3 : layerStep net (firstId net) (lastId net) s1 l with
    | error e => rw [h3] at h2; cases h2
    | ok s2 =>
      rw [h3] at h2
      simp only at h2
      obtain ⟨t1, t2, t3, t4, t5⟩ := layerStep_lv (hw.ops l hl) hl1.1 hl1.2 h3
      have hb1 : ∀ x ∈ b, s2.lv x.id x.act = some (-1) ∧ s2.lv x.id x.out = some (-1) := by
        intro x hx
        have hxl : x.id ≠ l.id := fun hc => n2 (List.mem_map.2 ⟨x, hx, hc⟩)
        have hxa : x.id ∉ a.map Layer.id := fun hc => n4 _ hc x.id (by simp only [List.mem_cons, List.mem_map]; exact .inr ⟨x, hx, rfl⟩) rfl
        rw [t1 _ _ hxl, t1 _ _ hxl, ha _ _ hxa, ha _ _ hxa]
        exact hinit x (by rw [hab]; simp [hx])
      have hb := layerLoop_other b n3 (fun x hx => hw.ops x (by rw [hab]; simp [hx])) hb1 h2
      refine ⟨by rw [hb _ _ n2]; exact t2, fun hf => by rw [hb _ _ n2]; exact t3 hf, ?_, t5⟩
      intro hf
      obtain ⟨p, rest, pl, v, e1, e2, e3, e4⟩ := t4 hf
      obtain ⟨x, hx, hxp⟩ := hw.topo a l b hab p (by rw [e1]; simp)
      have hpl : pl ∈ net.order := List.mem_of_find?_eq_some e2
      have hplp : pl.id = p := by simpa using List.find?_some e2
      have hplx : pl = x := List.inj_on_of_nodup_map hw.ids hpl (by rw [hab]; simp [hx]) (hplp.trans hxp.symm)
      refine ⟨p, rest, pl, e1, hpl, hplp, ?_⟩
      have hxl : pl.id ≠ l.id := by
        rw [hplx]
        intro hc
        exact n4 x.id (List.mem_map.2 ⟨x, hx, rfl⟩) l.id (by simp) hc
      have hxb : pl.id ∉ b.map Layer.id := by
        rw [hplx]
        intro hc
        exact n4 x.id (List.mem_map.2 ⟨x, hx, rfl⟩) x.id (by simp only [List.mem_cons]; exact .inr hc) rfl
      rw [hb _ _ n2, hb _ _ hxb, e4, t1 _ _ hxl, e3]

end Verif.Locality
