import Verif.Files.Read

namespace Verif.Files

open Verif.Ports (Dir PType PortD MemD)

/-! ### Sequences of steps -/

theorem mapE_iff {α β : Type} {f : α → Except PyErr β} : ∀ {l : List α} {ys : List β}, mapE f l = .ok ys ↔ List.Forall₂ (fun a b => f a = .ok b) l ys
  | [], ys => by
    unfold mapE
    constructor
    · intro h
      cases h
      exact .nil
    · intro h
      cases h
      rfl
  | a :: t, ys => by
    unfold mapE
    cases hf : f a with
    | error e =>
      simp only [reduceCtorEq, false_iff]
      intro h
      cases h with
      | cons h1 h2 => rw [hf] at h1; cases h1
    | ok b =>
      simp only
      cases ht : mapE f t with
      | error e =>
        simp only [reduceCtorEq, false_iff]
        intro h
        cases h with
        | cons h1 h2 =>
          rw [mapE_iff.2 h2] at ht
          cases ht
      | ok bs =>
        simp only [Except.ok.injEq]
        constructor
        · rintro rfl
          exact .cons hf (mapE_iff.1 ht)
        · intro h
          cases h with
          | cons h1 h2 =>
            rw [hf] at h1
            cases h1
            rw [mapE_iff.2 h2] at ht
            cases ht
            rfl

theorem mapE_total {α β : Type} {f : α → Except PyErr β} : ∀ {l : List α}, (∃ ys, mapE f l = .ok ys) ↔ ∀ x ∈ l, ∃ y, f x = .ok y
  | [] => by simp [mapE]
  | a :: t => by
    unfold mapE
    cases hf : f a with
    | error e => simp [hf]
    | ok b =>
      have ih := mapE_total (f := f) (l := t)
      simp only [List.forall_mem_cons, ← ih]
      cases ht : mapE f t with
      | error e => simp
      | ok bs => simp [hf]

/-! ### Allocations -/

/-- Texts of the directions. -/
def dirTexts : List (List Char) := [['f', 'h'], ['f', 'l'], ['t', 'h'], ['t', 'l']]

def opTexts : List (List Char) := [['I', '1'], ['I', '2'], ['O']]

theorem dirOf_some {t : List Char} : (dirOf t).isSome = true ↔ t ∈ dirTexts := by
  unfold dirOf dirTexts
  constructor
  · intro h
    split at h <;> first | (simp at h; done) | simp
  · intro h
    simp only [List.mem_cons, List.not_mem_nil, or_false] at h
    rcases h with rfl | rfl | rfl | rfl <;> rfl

theorem allocTail_iff {t : List Char} : allocTail t = true ↔ ∃ d ∈ dirTexts, t = [',', ' '] ++ d := by
  unfold allocTail
  split
  · rename_i t
    rw [dirOf_some]
    constructor
    · exact fun h => ⟨t, h, rfl⟩
    · rintro ⟨d, hd, e⟩
      simp only [List.cons_append, List.nil_append, List.cons.injEq, true_and] at e
      exact e ▸ hd
  · rename_i hx
    simp only [Bool.false_eq_true, false_iff, not_exists, not_and]
    rintro d - e
    exact hx d e

theorem allocCore_iff {t : List Char} : allocCore t = true ↔ ∃ o ∈ opTexts, ∃ d ∈ dirTexts, t = o ++ ([',', ' '] ++ d) := by
  constructor
  · intro h
    unfold allocCore at h
    split at h
    · obtain ⟨d, hd, rfl⟩ := allocTail_iff.1 h
      exact ⟨['I', '1'], by simp [opTexts], d, hd, rfl⟩
    · obtain ⟨d, hd, rfl⟩ := allocTail_iff.1 h
      exact ⟨['I', '2'], by simp [opTexts], d, hd, rfl⟩
    · obtain ⟨d, hd, rfl⟩ := allocTail_iff.1 h
      exact ⟨['O'], by simp [opTexts], d, hd, rfl⟩
    · cases h
  · rintro ⟨o, ho, d, hd, rfl⟩
    simp only [opTexts, List.mem_cons, List.not_mem_nil, or_false] at ho
    rcases ho with rfl | rfl | rfl <;> exact allocTail_iff.2 ⟨d, hd, rfl⟩

theorem dir_last {d : List Char} (h : d ∈ dirTexts) (t : List Char) : (t ++ d).getLast? ≠ some '\n' := by
  simp only [dirTexts, List.mem_cons, List.not_mem_nil, or_false] at h
  rcases h with rfl | rfl | rfl | rfl <;> simp [List.getLast?_append]

theorem dir_length {d : List Char} (h : d ∈ dirTexts) : d.length = 2 := by
  simp only [dirTexts, List.mem_cons, List.not_mem_nil, or_false] at h
  rcases h with rfl | rfl | rfl | rfl <;> rfl

theorem allocText_iff {t : List Char} : allocText t = true ↔ ∃ o ∈ opTexts, ∃ d ∈ dirTexts, t = o ++ ([',', ' '] ++ d) ∨ t = o ++ ([',', ' '] ++ d) ++ ['\n'] := by
  unfold allocText lineEnd
  simp only [Bool.or_eq_true, Bool.and_eq_true, decide_eq_true_eq, allocCore_iff]
  constructor
  · rintro (⟨o, ho, d, hd, h⟩ | ⟨hl, o, ho, d, hd, h⟩)
    · exact ⟨o, ho, d, hd, Or.inl h⟩
    · refine ⟨o, ho, d, hd, Or.inr ?_⟩
      rw [← h]
      exact (List.dropLast_append_getLast? _ hl).symm
  · rintro ⟨o, ho, d, hd, h | h⟩
    · exact Or.inl ⟨o, ho, d, hd, h⟩
    · refine Or.inr ⟨by rw [h]; exact List.getLast?_concat, o, ho, d, hd, by rw [h]; exact List.dropLast_concat⟩

theorem split_alloc {o d : List Char} (ho : o ∈ opTexts) (hd : d ∈ dirTexts) :
    splitCS (o ++ ([',', ' '] ++ d)) = [o, d] ∧ splitCS (o ++ ([',', ' '] ++ d) ++ ['\n']) = [o, d ++ ['\n']] := by
  simp only [opTexts, List.mem_cons, List.not_mem_nil, or_false] at ho
  simp only [dirTexts, List.mem_cons, List.not_mem_nil, or_false] at hd
  rcases ho with rfl | rfl | rfl <;> rcases hd with rfl | rfl | rfl | rfl <;> decide +kernel

theorem dirOf_newline {d : List Char} (hd : d ∈ dirTexts) : dirOf (d ++ ['\n']) = none := by
  simp only [dirTexts, List.mem_cons, List.not_mem_nil, or_false] at hd
  rcases hd with rfl | rfl | rfl | rfl <;> rfl

/-- Taking an allocation of the schema apart. -/
theorem parseAlloc_iff {s : String} (hs : allocText s.toList = true) (o : String) :
    (∃ x, parseAlloc s = .ok (o, x)) ↔ ∃ d ∈ dirTexts, s = o ++ ", " ++ String.ofList d := by
  obtain ⟨o', ho, d', hd, h⟩ := allocText_iff.1 hs
  obtain ⟨s1, s2⟩ := split_alloc ho hd
  have hlist : ∀ d : List Char, s = o ++ ", " ++ String.ofList d ↔ s.toList = o.toList ++ ([',', ' '] ++ d) := by
    intro d
    rw [← String.toList_inj]
    simp [List.append_assoc]
  rcases h with h | h
  · obtain ⟨x, hx⟩ := Option.isSome_iff_exists.1 (dirOf_some.2 hd)
    have hp : parseAlloc s = .ok (String.ofList o', x) := by
      unfold parseAlloc
      rw [h, s1]
      simp only [hx]
    rw [hp]
    constructor
    · rintro ⟨y, hy⟩
      simp only [Except.ok.injEq, Prod.mk.injEq] at hy
      refine ⟨d', hd, (hlist d').2 ?_⟩
      rw [h, ← hy.1, String.toList_ofList]
    · rintro ⟨d, hd2, e⟩
      rw [hlist, h] at e
      have hlen : ([',', ' '] ++ d').length = ([',', ' '] ++ d).length := by simp [dir_length hd, dir_length hd2]
      obtain ⟨e1, e2⟩ := List.append_inj' e hlen
      refine ⟨x, ?_⟩
      rw [e1, String.ofList_toList]
  · have hp : parseAlloc s = .error .valueError := by
      unfold parseAlloc
      rw [h, s2]
      simp only [dirOf_newline hd]
    rw [hp]
    constructor
    · rintro ⟨y, hy⟩
      cases hy
    · rintro ⟨d, hd2, e⟩
      exfalso
      have hl : s.toList.getLast? = some '\n' := by rw [h]; exact List.getLast?_concat
      rw [hlist] at e
      rw [e, ← List.append_assoc] at hl
      exact dir_last hd2 _ hl

/-- The check of the directions, for an allocation that can be taken apart. -/
theorem dirOk_of_parse {s : String} {o : String} {x : Dir} (h : parseAlloc s = .ok (o, x)) (type : PType) :
    dirOk type s = (!(x.isWrite && decide (type = .read)) && !(!x.isWrite && decide (type = .write))) := by
  unfold parseAlloc at h
  unfold dirOk
  split at h
  · rename_i o' d hs
    cases hd : dirOf d with
    | none => rw [hd] at h; cases h
    | some y =>
      rw [hd] at h
      simp only [Except.ok.injEq, Prod.mk.injEq] at h
      obtain ⟨-, rfl⟩ := h
      have := dirOf_some.1 (show (dirOf d).isSome = true by rw [hd]; rfl)
      simp only [dirTexts, List.mem_cons, List.not_mem_nil, or_false] at this
      rcases this with rfl | rfl | rfl | rfl <;> simp only [dirOf, Option.some.injEq] at hd <;> subst hd <;> cases type <;> rfl
  · cases h

/-! ### Memories -/

theorem portLoop_total {Op : Type} [DecidableEq Op] (ports : List (PortD Op)) (op : Op) (l : Nat) : ∀ (es : List (Dir × String)) (st : Ports.LvState Op),
    (∀ e ∈ es, e.2 ∈ ports.map PortD.name) → ∃ st', Ports.portLoop ports op l st es = .ok st'
  | [], st, _ => ⟨st, rfl⟩
  | e :: es, st, h => by
    unfold Ports.portLoop Ports.portStep
    cases hf : ports.findIdx? fun p => decide (p.name = e.2) with
    | none =>
      exfalso
      obtain ⟨p, hp, hn⟩ := List.mem_map.1 (h e (by simp))
      have := List.findIdx?_eq_none_iff.1 hf p hp
      simp [hn] at this
    | some i =>
      obtain ⟨hi, -, -⟩ := List.findIdx?_eq_some_iff_getElem.1 hf
      simp only [List.getElem?_eq_getElem hi]
      exact portLoop_total ports op l es _ (fun e' he => h e' (by simp [he]))

theorem allocatePorts_total {Op : Type} [DecidableEq Op] (ports : List (PortD Op)) (alloc : Dict Op (Dict Dir String)) : ∀ (r : List (Op × Nat)) (st : Ports.LvState Op),
    (∀ x ∈ r, ∃ t, alloc.get? x.1 = some t ∧ ∀ e ∈ t, e.2 ∈ ports.map PortD.name) → ∃ st', Ports.allocatePorts ports alloc st r = .ok st'
  | [], st, _ => ⟨st, rfl⟩
  | (op, l) :: r, st, h => by
    unfold Ports.allocatePorts
    obtain ⟨t, h1, h2⟩ := h (op, l) (by simp)
    simp only at h1
    simp only [h1]
    obtain ⟨st', h3⟩ := portLoop_total ports op l t st h2
    simp only [h3]
    exact allocatePorts_total ports alloc r st' (fun x hx => h x (by simp [hx]))

/-- A memory is built exactly when its ports only name operands stored in it (also with equal port names). -/
theorem buildMem_iff {Op Dim : Type} [DecidableEq Op] (m : MemD Op Dim) (levels : Dict Op Nat) (hk : ∀ x ∈ levels, x.1 ∈ m.operands) :
    (∃ st, Ports.buildMem m levels = .ok st) ↔ ∀ p ∈ m.ports, ∀ a ∈ p.alloc, a.1 ∈ m.operands := by
  constructor
  · rintro ⟨st, h⟩
    by_contra hc
    push Not at hc
    unfold Ports.buildMem at h
    rw [Ports.createAlloc_fail _ _ hc] at h
    cases h
  · intro h
    obtain ⟨d, h1, h2, h3⟩ := Ports.createAlloc_ok m.operands m.ports h
    unfold Ports.buildMem
    rw [h1]
    apply allocatePorts_total
    intro x hx
    obtain ⟨t, t1, t2, t3⟩ := h3 x.1 (hk x hx)
    refine ⟨t, t1, ?_⟩
    intro e he
    have hg := Dict.get?_of_mem t2 (show (e.1, e.2) ∈ t from he)
    rw [t3] at hg
    obtain ⟨p, hp, hn⟩ := Option.map_eq_some_iff.1 hg
    exact List.mem_map.2 ⟨p, (Ports.lastPort_mem hp).1, hn⟩

theorem mem_set {V : Type} {d : Dict String V} {k : String} {v : V} {x : String × V} (h : x ∈ d.set k v) : x = (k, v) ∨ x ∈ d := by
  induction d with
  | nil =>
    simp only [Dict.set, List.mem_singleton] at h
    exact Or.inl h
  | cons e t ih =>
    obtain ⟨a, b⟩ := e
    unfold Dict.set at h
    split at h
    · rename_i ha
      rcases List.mem_cons.1 h with rfl | h
      · exact Or.inl (by rw [ha])
      · exact Or.inr (by simp [h])
    · rcases List.mem_cons.1 h with rfl | h
      · exact Or.inr (by simp)
      · rcases ih h with h | h
        · exact Or.inl h
        · exact Or.inr (by simp [h])

theorem newLevels_mem (h : Hierarchy.Hier String) (ops : List String) : ∀ x ∈ newLevels h ops, x.1 ∈ ops := by
  have key : ∀ (l : List String) (d : Dict String Nat), (∀ x ∈ d, x.1 ∈ ops) → (∀ o ∈ l, o ∈ ops) →
      ∀ x ∈ l.foldl (fun d op => d.set op (Hierarchy.storing h.nodes op).length) d, x.1 ∈ ops := by
    intro l
    induction l with
    | nil => exact fun d hd _ => hd
    | cons o t ih =>
      intro d hd ho
      refine ih _ ?_ (fun o' ho' => ho o' (by simp [ho']))
      intro x hx
      rcases mem_set hx with rfl | hx
      · exact ho o (by simp)
      · exact hd x hx
  exact key ops [] (by simp) (fun _ h => h)

theorem forall2_left {α β : Type} {R : α → β → Prop} : ∀ {l : List α} {ys : List β}, List.Forall₂ R l ys → ∀ x ∈ l, ∃ y ∈ ys, R x y
  | _, _, .nil => by simp
  | _, _, .cons h t => by
    intro x hx
    rcases List.mem_cons.1 hx with rfl | hx
    · exact ⟨_, by simp, h⟩
    · obtain ⟨y, hy, hr⟩ := forall2_left t x hx
      exact ⟨y, by simp [hy], hr⟩

theorem forall2_right {α β : Type} {R : α → β → Prop} : ∀ {l : List α} {ys : List β}, List.Forall₂ R l ys → ∀ y ∈ ys, ∃ x ∈ l, R x y
  | _, _, .nil => by simp
  | _, _, .cons h t => by
    intro y hy
    rcases List.mem_cons.1 hy with rfl | hy
    · exact ⟨_, by simp, h⟩
    · obtain ⟨x, hx, hr⟩ := forall2_right t y hy
      exact ⟨x, by simp [hx], hr⟩

theorem portD_ok {p : PortR} {q : PortD String} : portD p = .ok q ↔ q.name = p.name ∧ q.type = p.type ∧ q.bwMin = p.bwMin ∧ q.bwMax = p.bwMax ∧
    List.Forall₂ (fun s a => parseAlloc s = .ok a) p.alloc q.alloc := by
  unfold portD
  cases h : mapE parseAlloc p.alloc with
  | error e =>
    simp only [reduceCtorEq, false_iff]
    rintro ⟨-, -, -, -, hf⟩
    rw [mapE_iff.2 hf] at h
    cases h
  | ok as =>
    simp only [Except.ok.injEq]
    constructor
    · rintro rfl
      exact ⟨rfl, rfl, rfl, rfl, mapE_iff.1 h⟩
    · rintro ⟨h1, h2, h3, h4, h5⟩
      rw [mapE_iff.2 h5] at h
      cases h
      cases q
      simp_all

theorem memD_ok {m : MemR} {md : MemD String String} (h : memD m = .ok md) :
    md.size = m.size ∧ md.auto = m.auto ∧ md.rCost = m.rCost ∧ md.wCost = m.wCost ∧ md.area = m.area ∧ md.operands = m.operands ∧ md.served = m.served ∧
      List.Forall₂ (fun p q => portD p = .ok q) m.ports md.ports := by
  unfold memD at h
  cases hp : mapE portD m.ports with
  | error e => rw [hp] at h; cases h
  | ok ps =>
    rw [hp] at h
    simp only [Except.ok.injEq] at h
    subst h
    exact ⟨rfl, rfl, rfl, rfl, rfl, rfl, rfl, mapE_iff.1 hp⟩

/-- Every allocation names an operand of the memory and a direction, with nothing behind. -/
def AllocOk (m : MemR) : Prop := ∀ p ∈ m.ports, ∀ s ∈ p.alloc, ∃ o ∈ m.operands, ∃ d ∈ ["fh", "fl", "th", "tl"], s = o ++ ", " ++ d

/-- The port whose width is used to extract costs: the first port for reading, without such ports the first one for reading and writing. -/
def ReadPort (ports : List PortR) (p : PortR) : Prop :=
  ∃ pre post, ports = pre ++ p :: post ∧ ((p.type = .read ∧ ∀ q ∈ pre, q.type ≠ .read) ∨ (p.type = .readWrite ∧ (∀ q ∈ ports, q.type ≠ .read) ∧ ∀ q ∈ pre, q.type ≠ .readWrite))

/-- The costs are given, or can be extracted: there is a port to read from and the extraction succeeds. -/
def CostOk (cacti : String → String → Int → Int → Except PyErr (ℚ × ℚ × ℚ)) (name : String) (m : MemR) : Prop :=
  m.auto = true → ∃ p, ReadPort m.ports p ∧ ∃ c, cacti name m.type m.size p.bwMax = .ok c

theorem readPort_iff (ports : List PortR) (p : PortR) :
    (ports.find? (fun p => decide (p.type = .read))).or (ports.find? (fun p => decide (p.type = .readWrite))) = some p ↔ ReadPort ports p := by
  cases h1 : ports.find? (fun p => decide (p.type = .read)) with
  | some q =>
    simp only [Option.some_or, Option.some.injEq]
    obtain ⟨hq, pre, post, e, hpre⟩ := List.find?_eq_some_iff_append.1 h1
    have hq' : q.type = .read := by simpa using hq
    constructor
    · rintro rfl
      exact ⟨pre, post, e, Or.inl ⟨hq', fun x hx => by simpa using hpre x hx⟩⟩
    · rintro ⟨pre', post', e', ⟨hp, hpre'⟩ | ⟨hp, hn, -⟩⟩
      · have : ports.find? (fun p => decide (p.type = .read)) = some p :=
          List.find?_eq_some_iff_append.2 ⟨by simpa using hp, pre', post', e', fun x hx => by simpa using hpre' x hx⟩
        rw [h1] at this
        simpa using this
      · exact absurd hq' (hn q (by rw [e]; simp))
  | none =>
    simp only [Option.none_or]
    have hn : ∀ q ∈ ports, q.type ≠ .read := fun q hq => by simpa using List.find?_eq_none.1 h1 q hq
    constructor
    · intro h2
      obtain ⟨hq, pre, post, e, hpre⟩ := List.find?_eq_some_iff_append.1 h2
      exact ⟨pre, post, e, Or.inr ⟨by simpa using hq, hn, fun x hx => by simpa using hpre x hx⟩⟩
    · rintro ⟨pre', post', e', ⟨hp, -⟩ | ⟨hp, -, hpre⟩⟩
      · exact absurd hp (hn p (by rw [e']; simp))
      · exact List.find?_eq_some_iff_append.2 ⟨by simpa using hp, pre', post', e', fun x hx => by simpa using hpre x hx⟩

theorem memCosts_iff (cacti : String → String → Int → Int → Except PyErr (ℚ × ℚ × ℚ)) (name : String) (m : MemR) : (∃ c, memCosts cacti name m = .ok c) ↔ CostOk cacti name m := by
  unfold memCosts CostOk
  by_cases ha : m.auto = true
  · rw [if_pos ha]
    simp only [ha, forall_const, ← readPort_iff]
    cases hp : (m.ports.find? (fun p => decide (p.type = .read))).or (m.ports.find? (fun p => decide (p.type = .readWrite))) with
    | none => simp
    | some p =>
      simp only [Option.some.injEq, exists_eq_left']
      cases cacti name m.type m.size p.bwMax <;> simp
  · rw [if_neg ha]
    simp [ha]

theorem dirTexts_iff (d : List Char) : d ∈ dirTexts ↔ String.ofList d ∈ ["fh", "fl", "th", "tl"] := by
  have hl : ∀ s : String, String.ofList d = s ↔ d = s.toList := by
    intro s
    rw [← String.toList_inj, String.toList_ofList]
  simp [dirTexts, hl]

theorem memD_total {m : MemR} (hm : MemOk m) (hi : Hierarchy.Hier String) :
    (∃ md st, memD m = .ok md ∧ Ports.buildMem md (newLevels hi m.operands) = .ok st) ↔ AllocOk m := by
  constructor
  · rintro ⟨md, st, h1, h2⟩
    obtain ⟨-, -, -, -, -, e, -, hp⟩ := memD_ok h1
    have hb := (buildMem_iff md (newLevels hi m.operands) (fun x hx => by rw [e]; exact newLevels_mem _ _ x hx)).1 ⟨st, h2⟩
    intro p hpm s hs
    obtain ⟨q, hq, hpq⟩ := forall2_left hp p hpm
    obtain ⟨-, -, -, -, ha⟩ := portD_ok.1 hpq
    obtain ⟨a, ha1, ha2⟩ := forall2_left ha s hs
    obtain ⟨d, hd, hsd⟩ := (parseAlloc_iff ((hm.1 p hpm).2 s hs) a.1).1 ⟨a.2, ha2⟩
    refine ⟨a.1, by rw [← e]; exact hb q hq a ha1, _, (dirTexts_iff d).1 hd, hsd⟩
  · intro h
    have ht : ∀ p ∈ m.ports, ∃ q, portD p = .ok q := by
      intro p hp
      have : ∃ as, mapE parseAlloc p.alloc = .ok as := by
        rw [mapE_total]
        intro s hs
        obtain ⟨o, ho, d, hd, e⟩ := h p hp s hs
        obtain ⟨x, hx⟩ := (parseAlloc_iff ((hm.1 p hp).2 s hs) o).2 ⟨d.toList, (dirTexts_iff _).2 (by rw [String.ofList_toList]; exact hd), by rw [String.ofList_toList]; exact e⟩
        exact ⟨_, hx⟩
      obtain ⟨as, has⟩ := this
      exact ⟨⟨p.name, p.type, p.bwMin, p.bwMax, as⟩, by unfold portD; rw [has]⟩
    obtain ⟨ps, hps⟩ := mapE_total.2 ht
    refine ⟨⟨m.size, m.auto, m.rCost, m.wCost, m.area, m.operands, ps, m.served⟩, ?_⟩
    have hb := (buildMem_iff ⟨m.size, m.auto, m.rCost, m.wCost, m.area, m.operands, ps, m.served⟩ (newLevels hi m.operands) (fun x hx => newLevels_mem _ _ x hx)).2 (by
      intro q hq a ha
      obtain ⟨p, hp, hpq⟩ := forall2_right (mapE_iff.1 hps) q hq
      obtain ⟨-, -, -, -, hal⟩ := portD_ok.1 hpq
      obtain ⟨s, hs, hsa⟩ := forall2_right hal a ha
      obtain ⟨o, ho, d, hd, e⟩ := h p hp s hs
      obtain ⟨x, hx⟩ := (parseAlloc_iff ((hm.1 p hp).2 s hs) o).2 ⟨d.toList, (dirTexts_iff _).2 (by rw [String.ofList_toList]; exact hd), by rw [String.ofList_toList]; exact e⟩
      rw [hsa] at hx
      simp only [Except.ok.injEq] at hx
      rw [hx]
      exact ho)
    obtain ⟨st, hst⟩ := hb
    exact ⟨st, by unfold memD; rw [hps], hst⟩

/-- The checks agree with those of `Verif.Ports`. -/
theorem checkMem_eq {m : MemR} {md : MemD String String} (h : memD m = .ok md) (dims : List String) : checkMem dims m = Ports.validateMem dims md := by
  obtain ⟨e1, e2, e3, e4, e5, e6, e7, hp⟩ := memD_ok h
  unfold checkMem Ports.validateMem
  simp only [e1, e2, e3, e4, e5, e7]
  have hd : (m.ports.all fun p => p.alloc.all (dirOk p.type)) = (md.ports.all fun p => p.alloc.all fun a =>
      !(a.2.isWrite && decide (p.type = .read)) && !(!a.2.isWrite && decide (p.type = .write))) := by
    clear * - hp
    generalize m.ports = ps at hp
    generalize md.ports = qs at hp
    induction hp with
    | nil => rfl
    | @cons p q ps qs hpq _ ih =>
      rw [List.all_cons, List.all_cons, ih]
      congr 1
      obtain ⟨-, h2, -, -, ha⟩ := portD_ok.1 hpq
      rw [h2]
      clear * - ha
      generalize p.alloc = ss at ha
      generalize q.alloc = as at ha
      induction ha with
      | nil => rfl
      | @cons s a ss as hsa _ ih =>
        rw [List.all_cons, List.all_cons, ih]
        congr 1
        exact dirOk_of_parse (o := a.1) (x := a.2) hsa p.type
  have hb : (m.ports.all fun p => !decide (p.bwMin > p.bwMax)) = (md.ports.all fun p => !decide (p.bwMin > p.bwMax)) := by
    clear * - hp
    generalize m.ports = ps at hp
    generalize md.ports = qs at hp
    induction hp with
    | nil => rfl
    | @cons p q ps qs hpq _ ih =>
      obtain ⟨-, -, h3, h4, -⟩ := portD_ok.1 hpq
      rw [List.all_cons, List.all_cons, ih, h3, h4]
  rw [hd, hb]

theorem oaDim_ok {s : String} (h : dimText s.toList = true) : oaDim s = .ok s := by unfold oaDim; rw [if_pos h]

theorem mapE_oaDim {l : List String} (h : ∀ s ∈ l, dimText s.toList = true) : mapE oaDim l = .ok l := by
  rw [mapE_iff]
  induction l with
  | nil => exact .nil
  | cons a t ih => exact .cons (oaDim_ok (h a (by simp))) (ih (fun s hs => h s (by simp [hs])))

theorem buildMems_iff (cacti : String → String → Int → Int → Except PyErr (ℚ × ℚ × ℚ)) : ∀ (l : List (String × MemR)) (h : Hierarchy.Hier String), (∀ e ∈ l, MemOk e.2) →
    ((∃ r, buildMems cacti h l = .ok r) ↔ ∀ e ∈ l, CostOk cacti e.1 e.2 ∧ AllocOk e.2)
  | [], h, _ => by simp [buildMems]
  | e :: t, h, hm => by
    have ih := buildMems_iff cacti t (Hierarchy.addMemory h e.2.operands) (fun x hx => hm x (by simp [hx]))
    have hc := memCosts_iff cacti e.1 e.2
    have hd := memD_total (hm e (by simp)) h
    rw [List.forall_mem_cons, ← ih, ← hc, ← hd]
    rw [buildMems]
    cases memCosts cacti e.1 e.2 with
    | error x => simp
    | ok c =>
      simp only
      cases memD e.2 with
      | error x => simp
      | ok md =>
        simp only [mapE_oaDim (hm e (by simp)).2.2]
        cases hb : Ports.buildMem md (newLevels h e.2.operands) with
        | error x => simp [hb]
        | ok st =>
          simp only
          cases hr : buildMems cacti (Hierarchy.addMemory h e.2.operands) t with
          | error x => simp
          | ok r => simp [hb]

/-! ### Unrollings -/

theorem upper_id {t : List Char} (h : ∀ c ∈ t, isAZ c = true ∨ c.isDigit = true) : Equation.upper t = t := by
  unfold Equation.upper
  conv_rhs => rw [← List.map_id t]
  apply List.map_congr_left
  intro c hc
  rcases h c hc with h | h
  · unfold isAZ at h
    simp only [decide_eq_true_eq] at h
    unfold Char.toUpper
    rw [dif_neg]
    · rfl
    · rintro ⟨h1, h2⟩
      have : c.toNat ≤ 'Z'.toNat := h.2
      have h1' : 'a'.toNat ≤ c.toNat := h1
      simp at this h1'
      omega
  · unfold Char.isDigit at h
    simp only [Bool.and_eq_true, decide_eq_true_eq, ge_iff_le] at h
    unfold Char.toUpper
    rw [dif_neg]
    · rfl
    · rintro ⟨h1, h2⟩
      have : c.toNat ≤ '9'.toNat := h.2
      have h1' : 'a'.toNat ≤ c.toNat := h1
      simp at this h1'
      omega

/-- Names of loop dimensions in mappings: `[A-Z]+\d*`. -/
def DimName (t : List Char) : Prop := ∃ a b, t = a ++ b ∧ a ≠ [] ∧ (∀ c ∈ a, isAZ c = true) ∧ ∀ c ∈ b, c.isDigit = true

theorem DimName.chars {t : List Char} (h : DimName t) : ∀ c ∈ t, isAZ c = true ∨ c.isDigit = true := by
  obtain ⟨a, b, rfl, -, ha, hb⟩ := h
  intro c hc
  rcases List.mem_append.1 hc with h | h
  · exact Or.inl (ha c h)
  · exact Or.inr (hb c h)

theorem comma_no : isAZ ',' = false ∧ Char.isDigit ',' = false := by decide

theorem DimName.no_comma {t : List Char} (h : DimName t) : ',' ∉ t := by
  intro hc
  rcases h.chars _ hc with h | h
  · rw [comma_no.1] at h; cases h
  · rw [comma_no.2] at h; cases h

theorem itemTail_iff {t : List Char} : itemTail t = true ↔ ∃ ds, t = [',', ' '] ++ ds ∧ ds ≠ [] ∧ ∀ c ∈ ds, c.isDigit = true := by
  unfold itemTail
  split
  · rename_i ds
    unfold digits
    simp only [Bool.and_eq_true, Bool.not_eq_true', List.isEmpty_eq_false_iff, List.all_eq_true]
    constructor
    · rintro ⟨h1, h2⟩
      exact ⟨ds, rfl, h1, h2⟩
    · rintro ⟨d, e, h1, h2⟩
      simp only [List.cons_append, List.nil_append, List.cons.injEq, true_and] at e
      exact e ▸ ⟨h1, h2⟩
  · rename_i hx
    simp only [Bool.false_eq_true, false_iff, not_exists, not_and]
    rintro d e
    exact absurd e (hx d)

theorem takeWhile_all {p : Char → Bool} : ∀ {l : List Char} {c : Char}, c ∈ l.takeWhile p → p c = true
  | a :: t, c, h => by
    rw [List.takeWhile_cons] at h
    by_cases ha : p a = true
    · rw [if_pos ha] at h
      rcases List.mem_cons.1 h with rfl | h
      · exact ha
      · exact takeWhile_all h
    · rw [if_neg ha] at h
      cases h

theorem itemCore_cases {t : List Char} (h : itemCore t = true) : ∃ name ds, DimName name ∧ t = name ++ ([',', ' '] ++ ds) ∧ ds ≠ [] ∧ ∀ c ∈ ds, c.isDigit = true := by
  unfold itemCore at h
  simp only [Bool.and_eq_true, Bool.not_eq_true', List.isEmpty_eq_false_iff] at h
  obtain ⟨ds, e, h1, h2⟩ := itemTail_iff.1 h.2
  refine ⟨t.takeWhile isAZ ++ (t.dropWhile isAZ).takeWhile Char.isDigit, ds, ⟨_, _, rfl, h.1, ?_, ?_⟩, ?_, h1, h2⟩
  · exact fun c hc => takeWhile_all hc
  · exact fun c hc => takeWhile_all hc
  · rw [List.append_assoc, ← e, List.takeWhile_append_dropWhile, List.takeWhile_append_dropWhile]

theorem flowCore_cases {t : List Char} (h : flowCore t = true) : ∃ name ds, DimName name ∧ t = name ++ ([',', ' '] ++ ds) ∧ ds ≠ [] ∧ ∀ c ∈ ds, c.isDigit = true := by
  unfold flowCore at h
  simp only [Bool.and_eq_true, Bool.not_eq_true', List.isEmpty_eq_false_iff] at h
  obtain ⟨ds, e, h1, h2⟩ := itemTail_iff.1 h.2
  refine ⟨t.takeWhile isAZ, ds, ⟨_, [], (List.append_nil _).symm, h.1, ?_, by simp⟩, ?_, h1, h2⟩
  · exact fun c hc => takeWhile_all hc
  · rw [← e, List.takeWhile_append_dropWhile]

theorem lineEnd_cases {p : List Char → Bool} {t : List Char} (h : lineEnd p t = true) : ∃ u, p u = true ∧ (t = u ∨ t = u ++ ['\n']) := by
  unfold lineEnd at h
  simp only [Bool.or_eq_true, Bool.and_eq_true, decide_eq_true_eq] at h
  rcases h with h | ⟨h1, h2⟩
  · exact ⟨t, h, Or.inl rfl⟩
  · exact ⟨t.dropLast, h2, Or.inr (List.dropLast_append_getLast? _ h1).symm⟩

/-- Reading an unrolling. -/
theorem parseItem_text {name ds tail : List Char} (hn : DimName name) (hd : ds ≠ []) (hds : ∀ c ∈ ds, c.isDigit = true) (ht : tail = [] ∨ tail = ['\n'])
    {s : String} (hs : s.toList = name ++ ([',', ' '] ++ ds) ++ tail) : parseItem s = .ok (String.ofList name, Nat.ofDigitChars 10 ds 0) := by
  have hb : beforeComma s.toList = name := by
    unfold beforeComma
    rw [hs, List.append_assoc]
    rw [List.takeWhile_append_of_pos]
    · simp
    · intro c hc
      simp only [decide_eq_true_eq]
      rintro rfl
      exact hn.no_comma hc
  have hnc : ',' ∉ ' ' :: (ds ++ tail) := by
    intro hc
    rcases List.mem_cons.1 hc with h | h
    · simp at h
    · rcases List.mem_append.1 h with h | h
      · have := hds _ h
        rw [comma_no.2] at this
        cases this
      · rcases ht with rfl | rfl <;> simp at h
  have ha : afterComma s.toList = ' ' :: (ds ++ tail) := by
    unfold afterComma
    rw [hs]
    have : (name ++ ([',', ' '] ++ ds) ++ tail).reverse = (' ' :: (ds ++ tail)).reverse ++ (',' :: name.reverse) := by simp
    rw [this, List.takeWhile_append_of_pos]
    · simp
    · intro c hc
      simp only [decide_eq_true_eq]
      rintro rfl
      exact hnc (List.mem_reverse.1 hc)
  have hnb : ∀ c ∈ ds, blank c = false := by
    intro c hc
    have := hds c hc
    unfold blank
    simp only [decide_eq_false_iff_not, not_or]
    constructor
    · rintro rfl; simp at this
    · rintro rfl; simp at this
  have hstrip : ((((' ' :: (ds ++ tail)).dropWhile blank).reverse.dropWhile blank).reverse) = ds := by
    have h1 : (' ' :: (ds ++ tail)).dropWhile blank = ds ++ tail := by
      rw [List.dropWhile_cons_of_pos (by decide)]
      cases ds with
      | nil => exact absurd rfl hd
      | cons a t => rw [List.cons_append, List.dropWhile_cons_of_neg (by simp [hnb a (by simp)])]
    rw [h1]
    have h2 : (ds ++ tail).reverse.dropWhile blank = ds.reverse := by
      have h3 : ds.reverse.dropWhile blank = ds.reverse := by
        rcases List.eq_nil_or_concat ds with rfl | ⟨t, a, rfl⟩
        · rfl
        · rw [List.concat_eq_append, List.reverse_append, List.reverse_singleton, List.singleton_append,
            List.dropWhile_cons_of_neg (by simp [hnb a (by simp)])]
      rcases ht with rfl | rfl
      · rw [List.append_nil]; exact h3
      · rw [List.reverse_append, List.reverse_singleton, List.singleton_append, List.dropWhile_cons_of_pos (by decide)]
        exact h3
    rw [h2, List.reverse_reverse]
  unfold parseItem toInt
  rw [ha, hb, hstrip, upper_id hn.chars]
  unfold LayerBuild.pyIntText
  rw [if_pos ⟨hd, by rw [List.all_eq_true]; exact hds⟩]
  rfl

end Verif.Files
