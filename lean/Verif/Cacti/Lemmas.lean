import Mathlib.Tactic.SplitIfs
import Mathlib.Data.List.Induction
import Verif.Cacti.Model

/-! Helper lemmas for the extraction of costs with CACTI, and the specification used in `Props`. -/
namespace Verif.Cacti

/-! ### Specification -/

/-- The memory that a request means: a register file stands for an SRAM with 128 times as many bits. -/
def meant (r : Req) : Req :=
  if r.memType = "rf" then { r with memType := "sram", size := 128 * r.size } else r

/-- What CACTI itself reports for the memory of a request: energies in pJ per read and per write, and the area. -/
def reported (sim : Sim) (r : Req) : Option Cost :=
  let m := meant r
  (sim { mainMemory := decide (m.memType ≠ "sram"), sizeByte := m.size / 8, bw := m.bw, rd := m.rPort, wr := m.wPort,
         rw := m.rwPort, bank := m.bank, tech := m.tech }).map fun w => (1000 * w.rd, 1000 * w.wr, w.area)

/-- The record is for the same size, width, ports, banks and technology. -/
def SameShape (e : Rec) (r : Req) : Prop :=
  e.sizeBit = some r.size ∧ e.ioBus = some r.bw ∧ e.exRd = some r.rPort ∧ e.exWr = some r.wPort ∧ e.rdWr = some r.rwPort ∧
    e.bank = some r.bank ∧ e.tech.getD (-1) = r.tech

/-- … and for the same type of memory. -/
def Describes (e : Rec) (r : Req) : Prop := SameShape e r ∧ e.memType = some r.memType

/-- The costs in a record, if they are there. -/
def costOf (e : Rec) : Option Cost :=
  match e.rd, e.wr, e.area with
  | some a, some b, some c => some (1000 * a, 1000 * b, c)
  | _, _, _ => none

/-- The record says what CACTI says about every memory it describes. -/
def TrueRec (sim : Sim) (e : Rec) : Prop :=
  ∀ r c, r.memType ≠ "rf" → r.tech ≠ -1 → Describes e r → costOf e = some c → reported sim r = some c

/-- CACTI reports the size and the width it was asked for. -/
def Faithful (sim : Sim) : Prop := ∀ c w, sim c = some w → w.sizeByte = c.sizeByte ∧ w.width = c.bw

/-- All fields that are read are there. -/
def Complete (e : Rec) : Prop :=
  e.ioBus.isSome ∧ e.area.isSome ∧ e.bank.isSome ∧ e.rd.isSome ∧ e.wr.isSome ∧ e.exRd.isSome ∧ e.exWr.isSome ∧
    e.memType.isSome ∧ e.rdWr.isSome ∧ e.sizeBit.isSome

/-- The record is complete, and a name of the current form says what the record is for. -/
def Kept (p : Key × Rec) : Prop :=
  Complete p.2 ∧ ∀ a b c d x y t, p.1 = .made a b c d x y t →
    p.2.sizeBit = some (a * 8) ∧ p.2.ioBus = some b ∧ p.2.exRd = some c ∧ p.2.exWr = some d ∧ p.2.rdWr = some x ∧
      p.2.bank = some y ∧ p.2.tech = some t

/-! ### Requests -/

theorem normalise_eq (r : Req) : normalise r = meant r := by
  unfold normalise meant
  by_cases h : r.memType = "rf"
  · simp [h, Nat.mul_comm]
  · simp [h]

theorem meant_ne_rf (r : Req) : (meant r).memType ≠ "rf" := by
  unfold meant
  by_cases h : r.memType = "rf"
  · simp [h]
  · simp [h]

theorem meant_meant (r : Req) : meant (meant r) = meant r := by
  conv_lhs => rw [meant]
  rw [if_neg (meant_ne_rf r)]

theorem meant_of_ne {r : Req} (h : r.memType ≠ "rf") : meant r = r := by
  unfold meant; rw [if_neg h]

theorem meant_tech (r : Req) : (meant r).tech = r.tech := by
  unfold meant; split_ifs <;> rfl

theorem reported_meant (sim : Sim) (r : Req) : reported sim (meant r) = reported sim r := by
  simp only [reported, meant_meant]

theorem reported_eq (sim : Sim) {r : Req} (h : r.memType ≠ "rf") :
    reported sim r = (sim (cfgOf r)).map fun w => (1000 * w.rd, 1000 * w.wr, w.area) := by
  have e : (decide (r.memType ≠ "sram")) = !(r.memType == "sram") := by
    by_cases h : r.memType = "sram" <;> simp [h]
  simp only [reported, meant_of_ne h, cfgOf, e]

/-! ### The two tests -/

theorem need_ok {α : Type} {o : Option α} {a : α} : need o = .ok a ↔ o = some a := by
  cases o <;> simp [need]

theorem fullTest_some {e : Rec} {r : Req} {c : Cost} (h : fullTest e r = .ok (some c)) :
    Describes e r ∧ costOf e = some c := by
  obtain ⟨io, ar, ba, rd, wr, er, ew, ty, rw', sz, sb, te⟩ := e
  unfold fullTest at h
  cases io <;> cases ar <;> cases ba <;> cases rd <;> cases wr <;> cases er <;> cases ew <;> cases rw' <;> cases sz <;>
    cases ty <;> simp only [need, bind, Except.bind, pure, Except.pure, reduceCtorEq] at h
  simp only [Except.ok.injEq] at h
  split_ifs at h with hc
  obtain ⟨h1, h2, h3, h4, h5, h6, h7, h8⟩ := hc
  simp only [Option.some.injEq] at h
  subst h
  refine ⟨⟨⟨?_, ?_, ?_, ?_, ?_, ?_, ?_⟩, ?_⟩, ?_⟩ <;> simp_all [costOf, mul_comm]

theorem shapeTest_complete {e : Rec} (he : Complete e) (r : Req) :
    ∃ b : Bool, shapeTest e r = .ok b ∧ (b = true ↔ SameShape e r) := by
  obtain ⟨io, ar, ba, rd, wr, er, ew, ty, rw', sz, sb, te⟩ := e
  obtain ⟨h1, h2, h3, h4, h5, h6, h7, h8, h9, h10⟩ := he
  simp only [Option.isSome_iff_exists] at *
  obtain ⟨_, rfl⟩ := h1
  obtain ⟨_, rfl⟩ := h2
  obtain ⟨_, rfl⟩ := h3
  obtain ⟨_, rfl⟩ := h4
  obtain ⟨_, rfl⟩ := h5
  obtain ⟨_, rfl⟩ := h6
  obtain ⟨_, rfl⟩ := h7
  obtain ⟨_, rfl⟩ := h8
  obtain ⟨_, rfl⟩ := h9
  obtain ⟨_, rfl⟩ := h10
  refine ⟨_, rfl, ?_⟩
  simp only [decide_eq_true_eq, SameShape, Option.map_some, Option.getD_some, Option.some.injEq, Int.ofNat_eq_natCast, Nat.cast_inj]
  constructor
  · rintro ⟨a, b, c, d, e, f, g⟩
    exact ⟨a.symm, b, c.symm, d.symm, e.symm, f, g⟩
  · rintro ⟨a, b, c, d, e, f, g⟩
    exact ⟨a.symm, b, c.symm, d.symm, e.symm, f, g⟩

theorem fullTest_complete {e : Rec} (he : Complete e) (r : Req) :
    (Describes e r ∧ ∃ c, costOf e = some c ∧ fullTest e r = .ok (some c)) ∨
      (¬ Describes e r ∧ fullTest e r = .ok none) := by
  obtain ⟨io, ar, ba, rd, wr, er, ew, ty, rw', sz, sb, te⟩ := e
  obtain ⟨h1, h2, h3, h4, h5, h6, h7, h8, h9, h10⟩ := he
  simp only [Option.isSome_iff_exists] at *
  obtain ⟨io, rfl⟩ := h1
  obtain ⟨ar, rfl⟩ := h2
  obtain ⟨ba, rfl⟩ := h3
  obtain ⟨rd, rfl⟩ := h4
  obtain ⟨wr, rfl⟩ := h5
  obtain ⟨er, rfl⟩ := h6
  obtain ⟨ew, rfl⟩ := h7
  obtain ⟨ty, rfl⟩ := h8
  obtain ⟨rw', rfl⟩ := h9
  obtain ⟨sz, rfl⟩ := h10
  by_cases hd : r.memType = ty ∧ r.size = sz ∧ io = r.bw ∧ r.rPort = er ∧ r.wPort = ew ∧ r.rwPort = rw' ∧
      te.getD (-1) = r.tech ∧ ba = r.bank
  · left
    have hf : fullTest ⟨some io, some ar, some ba, some rd, some wr, some er, some ew, some ty, some rw', some sz, sb, te⟩ r =
        .ok (some (rd * 1000, wr * 1000, ar)) := by
      simp only [fullTest, need, bind, Except.bind, pure, Except.pure]
      rw [if_pos hd]
    exact ⟨(fullTest_some hf).1, _, (fullTest_some hf).2, hf⟩
  · right
    refine ⟨?_, ?_⟩
    · rintro ⟨⟨a, b, c, d, e, f, g⟩, h⟩
      simp only [Option.some.injEq] at *
      exact hd ⟨h.symm, a.symm, b, c.symm, d.symm, e.symm, g, f⟩
    · simp only [fullTest, need, bind, Except.bind, pure, Except.pure]
      rw [if_neg hd]

/-! ### The pool -/

theorem mem_set {K V : Type} [DecidableEq K] {d : Dict K V} {k : K} {v : V} {p : K × V} (h : p ∈ d.set k v) :
    p ∈ d ∨ p = (k, v) := by
  induction d with
  | nil => simpa [Dict.set] using h
  | cons q t ih =>
    simp only [Dict.set] at h
    split_ifs at h with hk
    · rcases List.mem_cons.1 h with h | h
      · exact .inr (by rw [h, hk])
      · exact .inl (List.mem_cons_of_mem _ h)
    · rcases List.mem_cons.1 h with h | h
      · exact .inl (h ▸ List.mem_cons_self)
      · rcases ih h with h | h
        · exact .inl (List.mem_cons_of_mem _ h)
        · exact .inr h

theorem load_snoc (f : File) (p : Key × Rec) : load (f ++ [p]) = (load f).set p.1 p.2 := by
  simp [load, List.foldl_append]

theorem mem_load {f : File} {p : Key × Rec} (h : p ∈ load f) : p ∈ f := by
  induction f using List.reverseRecOn with
  | nil => simp [load] at h
  | append_singleton f q ih =>
    rw [load_snoc] at h
    rcases mem_set h with h | h
    · exact List.mem_append_left _ (ih h)
    · exact List.mem_append_right _ (by simp [h])

theorem set_fresh {K V : Type} [DecidableEq K] {d : Dict K V} {k : K} (v : V) (h : k ∉ d.keys) :
    d.set k v = d ++ [(k, v)] := by
  induction d with
  | nil => rfl
  | cons q t ih =>
    simp only [Dict.keys, List.map_cons, List.mem_cons, not_or] at h
    have hq : ¬ q.1 = k := fun e => h.1 e.symm
    simp only [Dict.set, if_neg hq]
    rw [ih (by simpa [Dict.keys] using h.2)]
    rfl

theorem mem_set_self {K V : Type} [DecidableEq K] (d : Dict K V) (k : K) (v : V) : (k, v) ∈ d.set k v := by
  induction d with
  | nil => simp [Dict.set]
  | cons q t ih =>
    simp only [Dict.set]
    split_ifs with h
    · rw [h]; exact List.mem_cons_self
    · exact List.mem_cons_of_mem _ ih

theorem lookup_ok {d : Dict Key Rec} {r : Req} {c : Cost} (h : lookup d r = .ok c) :
    ∃ p ∈ d, Describes p.2 r ∧ costOf p.2 = some c := by
  induction d with
  | nil => simp [lookup] at h
  | cons p t ih =>
    simp only [lookup, bind, Except.bind] at h
    cases hf : fullTest p.2 r with
    | error e => simp [hf] at h
    | ok o =>
      cases o with
      | none =>
        simp only [hf] at h
        obtain ⟨q, hq, h⟩ := ih h
        exact ⟨q, List.mem_cons_of_mem _ hq, h⟩
      | some c' =>
        simp only [hf, pure, Except.pure, Except.ok.injEq] at h
        subst h
        exact ⟨p, List.mem_cons_self, fullTest_some hf⟩

theorem lookup_complete {d : Dict Key Rec} (hd : ∀ p ∈ d, Complete p.2) (r : Req) :
    (∃ c, lookup d r = .ok c) ↔ ∃ p ∈ d, Describes p.2 r := by
  constructor
  · rintro ⟨c, h⟩
    obtain ⟨p, hp, h, -⟩ := lookup_ok h
    exact ⟨p, hp, h⟩
  · induction d with
    | nil => simp
    | cons p t ih =>
      rintro ⟨q, hq, h⟩
      rcases fullTest_complete (hd p List.mem_cons_self) r with ⟨-, c, -, hf⟩ | ⟨hn, hf⟩
      · exact ⟨c, by simp [lookup, hf, bind, Except.bind, pure, Except.pure]⟩
      · rcases List.mem_cons.1 hq with rfl | hq
        · exact absurd h hn
        · obtain ⟨c, hc⟩ := ih (fun p hp => hd p (List.mem_cons_of_mem _ hp)) ⟨q, hq, h⟩
          exact ⟨c, by simp [lookup, hf, bind, Except.bind, hc]⟩

theorem itemExists_complete {d : Dict Key Rec} (hd : ∀ p ∈ d, Complete p.2) (r : Req) :
    ∃ b : Bool, itemExists d r = .ok b ∧ (b = true ↔ ∃ p ∈ d, SameShape p.2 r) := by
  induction d with
  | nil => exact ⟨false, rfl, by simp⟩
  | cons p t ih =>
    obtain ⟨b, hb, hb'⟩ := shapeTest_complete (hd p List.mem_cons_self) r
    obtain ⟨b', hi, hi'⟩ := ih (fun p hp => hd p (List.mem_cons_of_mem _ hp))
    cases b with
    | true =>
      exact ⟨true, by simp [itemExists, hb, bind, Except.bind, pure, Except.pure],
        iff_of_true rfl ⟨p, List.mem_cons_self, hb'.1 rfl⟩⟩
    | false =>
      refine ⟨b', by simp [itemExists, hb, bind, Except.bind, hi], ?_⟩
      rw [hi']
      have : ¬ SameShape p.2 r := fun h => by simpa using hb'.2 h
      simp [this]

theorem lookup_prefix {d : Dict Key Rec} {r : Req} {c : Cost} (x : Dict Key Rec) (h : lookup d r = .ok c) :
    lookup (d ++ x) r = .ok c := by
  induction d with
  | nil => simp [lookup] at h
  | cons p t ih =>
    simp only [lookup, bind, Except.bind, List.cons_append] at h ⊢
    cases hf : fullTest p.2 r with
    | error e => simp [hf] at h
    | ok o =>
      cases o with
      | none => simp only [hf] at h ⊢; exact ih h
      | some c' => simpa [hf] using h

theorem itemExists_prefix {d : Dict Key Rec} {r : Req} (x : Dict Key Rec) (h : itemExists d r = .ok true) :
    itemExists (d ++ x) r = .ok true := by
  induction d with
  | nil => simp [itemExists] at h
  | cons p t ih =>
    simp only [itemExists, bind, Except.bind, List.cons_append] at h ⊢
    cases hf : shapeTest p.2 r with
    | error e => simp [hf] at h
    | ok o =>
      cases o with
      | false =>
        simp only [hf, Bool.false_eq_true, if_false] at h ⊢
        exact ih h
      | true => simp [hf, pure, Except.pure]

/-! ### New records -/

theorem mkRecord_true {sim : Sim} (hs : Faithful sim) {q : Req} {label : String} {w : Row} {b : Req}
    (hw : sim (cfgOf b) = some w)
    (hq : ∀ r, r.memType ≠ "rf" → r.tech ≠ -1 → Describes (mkRecord q label w).2 r → cfgOf b = cfgOf r) :
    TrueRec sim (mkRecord q label w).2 := by
  intro r c hr ht hd hc
  rw [reported_eq sim hr, ← hq r hr ht hd, hw]
  simp only [mkRecord, costOf, Option.some.injEq] at hc
  simp [hc]

theorem mkRecord_kept (q : Req) (label : String) (w : Row) : Kept (mkRecord q label w) := by
  refine ⟨by simp [mkRecord, Complete], ?_⟩
  intro a b c d x y t h
  simp only [mkRecord, Key.made.injEq] at h ⊢
  obtain ⟨rfl, rfl, rfl, rfl, rfl, rfl, rfl⟩ := h
  simp

/-- The label given to the first row. -/
def label (r : Req) : String := if r.memType = "sram" then "sram" else "dram"

theorem own_true {sim : Sim} (hs : Faithful sim) {q : Req} {w : Row} (hw : sim (cfgOf q) = some w) :
    TrueRec sim (mkRecord q (label q) w).2 := by
  refine mkRecord_true hs hw ?_
  rintro r hr ht ⟨⟨h1, h2, h3, h4, h5, h6, h7⟩, h8⟩
  simp only [mkRecord, Option.some.injEq, Option.getD_some] at h1 h2 h3 h4 h5 h6 h7 h8
  obtain ⟨hs1, hs2⟩ := hs _ _ hw
  simp only [cfgOf] at hs1 hs2 ⊢
  have hsize : q.size / 8 = r.size / 8 := by omega
  have hty : (q.memType == "sram") = (r.memType == "sram") := by
    unfold label at h8
    split_ifs at h8 with h
    · rw [h, ← h8]
    · rw [← h8]
      simp [h]
  rw [hsize, hty, ← hs2, h2, h3, h4, h5, h6, h7]

theorem torn_true {sim : Sim} {e : Rec} (h : TrueRec sim e) (n : ℕ) (ht : e.tech.isSome) : TrueRec sim (torn n e) := by
  obtain ⟨t, ht⟩ := Option.isSome_iff_exists.1 ht
  rintro r c hr hte ⟨⟨h1, h2, h3, h4, h5, h6, h7⟩, h8⟩ hc
  simp only [torn] at h1 h2 h3 h4 h5 h6 h7 h8
  by_cases hn : 11 < n
  · refine h r c hr hte ⟨⟨?_, ?_, ?_, ?_, ?_, ?_, ?_⟩, ?_⟩ ?_
    · rwa [if_pos (by omega)] at h1
    · rwa [if_pos (by omega)] at h2
    · rwa [if_pos (by omega)] at h3
    · rwa [if_pos (by omega)] at h4
    · rwa [if_pos (by omega)] at h5
    · rwa [if_pos (by omega)] at h6
    · rwa [if_pos (by omega)] at h7
    · rwa [if_pos (by omega)] at h8
    · simp only [costOf, torn] at hc
      rwa [if_pos (by omega), if_pos (by omega), if_pos (by omega)] at hc
  · rw [if_neg hn] at h7
    simp only [Option.getD_none] at h7
    exact absurd h7.symm hte

/-! ### One request -/

theorem getItem_cases (sim : Sim) (f : File) (r : Req) :
    ((getItem sim f r).1 = f ∧ ∀ c, (getItem sim f r).2 = .ok c → itemExists (load f) (meant r) = .ok true ∧
        lookup (load f) (meant r) = .ok c) ∨
      ∃ w, itemExists (load f) (meant r) = .ok false ∧ sim (cfgOf (meant r)) = some w ∧
        getItem sim f r = (f ++ [mkRecord (meant r) (label (meant r)) w],
          lookup (load (f ++ [mkRecord (meant r) (label (meant r)) w])) (meant r)) := by
  unfold getItem
  rw [normalise_eq]
  simp only
  cases hi : itemExists (load f) (meant r) with
  | error e => left; simp
  | ok b =>
    cases b with
    | true => left; simp
    | false =>
      cases hw : sim (cfgOf (meant r)) with
      | none => left; simp [createItem, hw]
      | some w =>
        right
        refine ⟨w, rfl, rfl, ?_⟩
        simp [createItem, hw, mkRecords, label]

theorem getItem_true {sim : Sim} (hs : Faithful sim) {f : File} (hf : ∀ p ∈ f, TrueRec sim p.2) (r : Req) :
    (∀ p ∈ (getItem sim f r).1, TrueRec sim p.2) ∧
      ∀ c, r.tech ≠ -1 → (getItem sim f r).2 = .ok c → reported sim r = some c := by
  have look : ∀ (g : File), (∀ p ∈ g, TrueRec sim p.2) → ∀ c, r.tech ≠ -1 → lookup (load g) (meant r) = .ok c →
      reported sim r = some c := by
    intro g hg c ht hl
    obtain ⟨p, hp, hd, hc⟩ := lookup_ok hl
    rw [← reported_meant]
    exact hg p (mem_load hp) _ _ (meant_ne_rf r) (by rwa [meant_tech]) hd hc
  rcases getItem_cases sim f r with ⟨h1, h2⟩ | ⟨w, -, hw, h⟩
  · rw [h1]
    exact ⟨hf, fun c ht hc => look f hf c ht (h2 c hc).2⟩
  · rw [h]
    have hg : ∀ p ∈ f ++ [mkRecord (meant r) (label (meant r)) w], TrueRec sim p.2 := by
      intro p hp
      rcases List.mem_append.1 hp with hp | hp
      · exact hf p hp
      · rw [List.mem_singleton.1 hp]
        exact own_true hs hw
    exact ⟨hg, fun c ht hc => look _ hg c ht hc⟩

theorem getItem_kept {f : File} (sim : Sim) (hf : ∀ p ∈ f, Kept p) (r : Req) :
    ∀ p ∈ (getItem sim f r).1, Kept p := by
  rcases getItem_cases sim f r with ⟨h1, -⟩ | ⟨w, -, -, h⟩
  · rw [h1]; exact hf
  · rw [h]
    intro p hp
    rcases List.mem_append.1 hp with hp | hp
    · exact hf p hp
    · rw [List.mem_singleton.1 hp]
      exact mkRecord_kept _ _ _

/-- With a whole number of bytes a new record has a new name. -/
theorem fresh_name {sim : Sim} (hs : Faithful sim) {f : File} (hf : ∀ p ∈ f, Kept p) {r : Req} {w : Row}
    (h8 : (meant r).size % 8 = 0) (hi : itemExists (load f) (meant r) = .ok false) (hw : sim (cfgOf (meant r)) = some w)
    (l : String) : (mkRecord (meant r) l w).1 ∉ (load f).keys := by
  intro hk
  simp only [Dict.keys, List.mem_map] at hk
  obtain ⟨p, hp, hk⟩ := hk
  obtain ⟨b, hb, hb'⟩ := itemExists_complete (d := load f) (fun p hp => (hf p (mem_load hp)).1) (meant r)
  rw [hi] at hb
  cases hb
  have : SameShape p.2 (meant r) := by
    obtain ⟨h1, h2, h3, h4, h5, h6, h7⟩ := (hf p (mem_load hp)).2 _ _ _ _ _ _ _ hk
    obtain ⟨hs1, hs2⟩ := hs _ _ hw
    simp only [cfgOf] at hs1 hs2
    refine ⟨?_, ?_, h3, h4, h5, h6, by rw [h7]; rfl⟩
    · rw [h1, hs1]; congr 1; omega
    · rw [h2, hs2]
  simpa using hb'.2 ⟨p, hp, this⟩

theorem getItem_extends {sim : Sim} (hs : Faithful sim) {f : File} (hf : ∀ p ∈ f, Kept p) {r : Req}
    (h8 : (meant r).size % 8 = 0) : ∃ x, load (getItem sim f r).1 = load f ++ x := by
  rcases getItem_cases sim f r with ⟨h1, -⟩ | ⟨w, hi, hw, h⟩
  · exact ⟨[], by rw [h1]; simp⟩
  · refine ⟨[mkRecord (meant r) (label (meant r)) w], ?_⟩
    rw [h]
    simp only
    rw [load_snoc, set_fresh _ (fresh_name hs hf h8 hi hw _)]

theorem history_extends {sim : Sim} (hs : Faithful sim) (rs : List Req) :
    ∀ {f : File}, (∀ p ∈ f, Kept p) → (∀ r ∈ rs, (meant r).size % 8 = 0) →
      ∃ x, load (history sim f rs).1 = load f ++ x := by
  induction rs with
  | nil => intro f _ _; exact ⟨[], by simp [history]⟩
  | cons r rs ih =>
    intro f hf h8
    obtain ⟨x, hx⟩ := getItem_extends hs hf (h8 r List.mem_cons_self)
    obtain ⟨y, hy⟩ := ih (getItem_kept sim hf r) (fun r hr => h8 r (List.mem_cons_of_mem _ hr))
    exact ⟨x ++ y, by simp only [history]; rw [hy, hx, List.append_assoc]⟩

theorem history_kept (sim : Sim) (rs : List Req) : ∀ {f : File}, (∀ p ∈ f, Kept p) → ∀ p ∈ (history sim f rs).1, Kept p := by
  induction rs with
  | nil => intro f hf; simpa [history] using hf
  | cons r rs ih => intro f hf; exact ih (getItem_kept sim hf r)

end Verif.Cacti
