import Verif.Json.Model
import Verif.Cme.Props
import Mathlib.Data.List.Forall2
import Mathlib.Data.List.Nodup
import Mathlib.Tactic.Linarith
import Mathlib.Tactic.Ring

/-! Specification vocabulary for saved files and helper lemmas. -/

namespace Verif.Json

/-! ### What a file says -/

/-- One step into a tree: a key of a dictionary or a position in a list. -/
inductive Step where
  | key (s : List Char)
  | idx (n : Nat)

/-- Reading a file: the last entry with a key counts. -/
def Json.step : Json → Step → Option Json
  | .obj es, .key s => (es.reverse.find? (fun e => decide (e.1 = s))).map Prod.snd
  | .arr l, .idx n => l[n]?
  | _, _ => none

def Json.at : Json → List Step → Option Json
  | j, [] => some j
  | j, st :: p => (j.step st).bind (fun j' => Json.at j' p)

/-- The number at a place of a file. -/
def Json.numAt (j : Json) (p : List Step) : Option ℚ :=
  match j.at p with
  | some (.num q) => some q
  | _ => none

mutual

/-- Sum of all numbers in a part of a file. -/
def Json.total : Json → ℚ
  | .num q => q
  | .arr l => totalL l
  | .obj es => totalE es
  | .null => 0
  | .bool _ => 0
  | .str _ => 0

def totalL : List Json → ℚ
  | [] => 0
  | j :: t => j.total + totalL t

def totalP : List Char × Json → ℚ
  | (_, j) => j.total

def totalE : List (List Char × Json) → ℚ
  | [] => 0
  | p :: t => totalP p + totalE t

end

/-! ### What an object holds -/

/-- The text that stands for an object used as a key. -/
def keyName : Val → Option (List Char)
  | .leaf (.str s) => some s
  | .obj f _ => keyName f
  | _ => none

/-- One step into an object; representations are looked through. -/
def field : Val → Step → Option Val
  | .obj f _, st => field f st
  | .dict es, .key s => (es.find? (fun e => decide (keyName e.1 = some s))).map Prod.snd
  | .list l, .idx n => l[n]?
  | .tuple l, .idx n => l[n]?
  | .set l, .idx n => l[n]?
  | _, _ => none

def valAt : Val → List Step → Option Val
  | v, [] => some v
  | v, st :: p => (field v st).bind (fun w => valAt w p)

mutual

/-- An object that can be represented: everything in it has a representation, keys are texts and differ within each dictionary. -/
def Good : Val → Prop
  | .leaf _ => True
  | .npInt _ => True
  | .obj f _ => Good f
  | .dict es => GoodE es ∧ (es.map (fun e => keyName e.1)).Nodup
  | .set l => GoodL l
  | .list l => GoodL l
  | .tuple l => GoodL l
  | .raise _ => False
  | .other => False

def GoodL : List Val → Prop
  | [] => True
  | v :: t => Good v ∧ GoodL t

def GoodP : Val × Val → Prop
  | (k, v) => keyName k ≠ none ∧ Good v

def GoodE : List (Val × Val) → Prop
  | [] => True
  | p :: t => GoodP p ∧ GoodE t

end

/-! ### Lemmas -/

theorem goodL_iff : ∀ l : List Val, GoodL l ↔ ∀ v ∈ l, Good v
  | [] => by simp [GoodL]
  | v :: t => by simp [GoodL, goodL_iff t]

theorem goodE_iff : ∀ l : List (Val × Val), GoodE l ↔ ∀ e ∈ l, keyName e.1 ≠ none ∧ Good e.2
  | [] => by simp [GoodE]
  | (k, v) :: t => by simp [GoodE, GoodP, goodE_iff t]

theorem handler_key : ∀ (k : Val) (s : List Char), keyName k = some s → handler false k = .ok (.leaf (.str s))
  | .leaf (.str t), s, h => by
    simp only [keyName, Option.some.injEq] at h
    subst h; rfl
  | .leaf .none, s, h => by simp [keyName] at h
  | .leaf (.bool _), s, h => by simp [keyName] at h
  | .leaf (.int _), s, h => by simp [keyName] at h
  | .leaf (.num _), s, h => by simp [keyName] at h
  | .npInt _, s, h => by simp [keyName] at h
  | .obj f g, s, h => by
    simp only [keyName] at h
    simp only [handler]
    exact handler_key f s h
  | .dict _, s, h => by simp [keyName] at h
  | .set _, s, h => by simp [keyName] at h
  | .list _, s, h => by simp [keyName] at h
  | .tuple _, s, h => by simp [keyName] at h
  | .raise _, s, h => by simp [keyName] at h
  | .other, s, h => by simp [keyName] at h

theorem same_str (a : Leaf) (s : List Char) : a.same (.str s) = true ↔ a = .str s := by
  cases a <;> simp [Leaf.same, Leaf.val?]

theorem put_fresh (s : List Char) (r : Rep) : ∀ acc : List (Leaf × Rep), (∀ e ∈ acc, e.1 ≠ .str s) → put (.str s) r acc = acc ++ [(.str s, r)]
  | [], _ => rfl
  | e :: t, h => by
    unfold put
    rw [if_neg (by rw [same_str]; exact h e (by simp)), put_fresh s r t (fun x hx => h x (by simp [hx]))]
    rfl

/-- The representation of a list. -/
theorem handlerL_iff : ∀ (l : List Val) (rs : List Rep), handlerL false l = .ok rs ↔ List.Forall₂ (fun v r => handler false v = .ok r) l rs
  | [], rs => by
    simp only [handlerL, List.forall₂_nil_left_iff]
    exact ⟨fun h => by cases h; rfl, fun h => by rw [h]⟩
  | v :: t, rs => by
    simp only [handlerL, List.forall₂_cons_left_iff]
    cases hv : handler false v with
    | error e => simp
    | ok r =>
      simp only []
      cases ht : handlerL false t with
      | error e =>
        refine ⟨fun h => by simp at h, ?_⟩
        rintro ⟨b, u, _, h2, _⟩
        rw [(handlerL_iff t u).2 h2] at ht
        cases ht
      | ok l =>
        constructor
        · intro h
          simp only [Except.ok.injEq] at h
          exact ⟨r, l, rfl, (handlerL_iff t l).1 ht, h.symm⟩
        · rintro ⟨b, u, h1, h2, h3⟩
          have e := (handlerL_iff t u).2 h2
          rw [ht] at e
          simp only [Except.ok.injEq] at h1 e ⊢
          rw [h1, e, h3]

/-- Entry of a dictionary and entry of its representation. -/
def Entry (e : Val × Val) (x : Leaf × Rep) : Prop := ∃ s, keyName e.1 = some s ∧ x.1 = .str s ∧ handler false e.2 = .ok x.2

theorem handlerE_ok : ∀ (es : List (Val × Val)) (acc : List (Leaf × Rep)), (∀ e ∈ es, keyName e.1 ≠ none ∧ ∃ r, handler false e.2 = .ok r) →
    (es.map (fun e => keyName e.1)).Nodup → (∀ e ∈ es, ∀ x ∈ acc, ∀ s, keyName e.1 = some s → x.1 ≠ .str s) →
    ∃ xs, handlerE false acc es = .ok (acc ++ xs) ∧ List.Forall₂ Entry es xs
  | [], acc, _, _, _ => ⟨[], by simp [handlerE], List.Forall₂.nil⟩
  | (k, v) :: t, acc, h, hn, ha => by
    obtain ⟨h1, r, hr⟩ := h (k, v) (by simp)
    obtain ⟨s, hs⟩ := Option.ne_none_iff_exists'.1 h1
    simp only at hs hr
    have hp : handlerP false (k, v) = .ok (.str s, r) := by
      simp only [handlerP, handler_key k s hs, hr]
    have hput := put_fresh s r acc (fun x hx => ha (k, v) (by simp) x hx s hs)
    rw [List.map_cons, List.nodup_cons] at hn
    obtain ⟨xs, h2, h3⟩ := handlerE_ok t (acc ++ [(.str s, r)]) (fun e he => h e (by simp [he])) hn.2 (by
      intro e he x hx u hu
      rcases List.mem_append.1 hx with hx | hx
      · exact ha e (by simp [he]) x hx u hu
      · rw [List.mem_singleton] at hx
        subst hx
        intro heq
        simp only [Leaf.str.injEq] at heq
        subst heq
        apply hn.1
        simp only
        rw [hs, ← hu]
        exact List.mem_map_of_mem he)
    refine ⟨(.str s, r) :: xs, ?_, List.Forall₂.cons ⟨s, hs, rfl, hr⟩ h3⟩
    simp only [handlerE, hp, hput, h2]
    rw [List.append_assoc]
    rfl

mutual

theorem good_ok : ∀ v : Val, Good v → ∃ r, handler false v = .ok r
  | .leaf l, _ => ⟨_, rfl⟩
  | .npInt i, _ => ⟨_, rfl⟩
  | .obj f g, h => by
    simp only [handler]
    exact good_ok f (by simpa only [Good] using h)
  | .dict es, h => by
    simp only [Good] at h
    obtain ⟨xs, hx, _⟩ := handlerE_ok es [] (goodE_ok es h.1) h.2 (by simp)
    simp only [handler, hx]
    exact ⟨_, rfl⟩
  | .set l, h => by
    obtain ⟨rs, hr⟩ := goodL_ok l (by simpa only [Good] using h)
    simp only [handler, hr]
    exact ⟨_, rfl⟩
  | .list l, h => by
    obtain ⟨rs, hr⟩ := goodL_ok l (by simpa only [Good] using h)
    simp only [handler, hr]
    exact ⟨_, rfl⟩
  | .tuple l, h => by
    obtain ⟨rs, hr⟩ := goodL_ok l (by simpa only [Good] using h)
    simp only [handler, hr]
    exact ⟨_, rfl⟩
  | .raise e, h => by simp [Good] at h
  | .other, h => by simp [Good] at h

theorem goodL_ok : ∀ l : List Val, GoodL l → ∃ rs, handlerL false l = .ok rs
  | [], _ => ⟨_, rfl⟩
  | v :: t, h => by
    simp only [GoodL] at h
    obtain ⟨r, hr⟩ := good_ok v h.1
    obtain ⟨rs, ht⟩ := goodL_ok t h.2
    simp only [handlerL, hr, ht]
    exact ⟨_, rfl⟩

theorem goodP_ok : ∀ e : Val × Val, GoodP e → keyName e.1 ≠ none ∧ ∃ r, handler false e.2 = .ok r
  | (k, v), h => by
    simp only [GoodP] at h
    exact ⟨h.1, good_ok v h.2⟩

theorem goodE_ok : ∀ es : List (Val × Val), GoodE es → ∀ e ∈ es, keyName e.1 ≠ none ∧ ∃ r, handler false e.2 = .ok r
  | [], _, e, he => by simp at he
  | p :: t, h, e, he => by
    simp only [GoodE] at h
    have hp := goodP_ok p h.1
    rcases List.mem_cons.1 he with rfl | he
    · exact hp
    · exact goodE_ok t h.2 e he

end

theorem dumpL_map : ∀ l : List Rep, dumpL l = l.map dump
  | [] => rfl
  | r :: t => by simp [dumpL, dumpL_map t]

theorem dumpE_map : ∀ l : List (Leaf × Rep), dumpE l = l.map (fun e => (dumpKey e.1, dump e.2))
  | [] => rfl
  | (k, r) :: t => by simp [dumpE, dumpP, dumpE_map t]

theorem save_iff {v : Val} {j : Json} : save false v = .ok j ↔ ∃ r, handler false v = .ok r ∧ dump r = j := by
  unfold save
  cases handler false v with
  | error e => simp
  | ok r => simp

/-- The representation of a dictionary. -/
theorem handler_dict {es : List (Val × Val)} (h : Good (.dict es)) : ∃ xs, handler false (.dict es) = .ok (.dict xs) ∧ List.Forall₂ Entry es xs := by
  simp only [Good] at h
  obtain ⟨xs, hx, hf⟩ := handlerE_ok es [] (goodE_ok es h.1) h.2 (by simp)
  exact ⟨xs, by simp only [handler, hx]; rfl, hf⟩

theorem find_last {A B : Type} (q : A → List Char) (w : A → B) : ∀ (l : List A), (l.map q).Nodup → ∀ s,
    ((l.map (fun e => (q e, w e))).reverse.find? (fun e => decide (e.1 = s))).map Prod.snd = (l.find? (fun e => decide (q e = s))).map w
  | [], _, s => rfl
  | e :: t, h, s => by
    rw [List.map_cons, List.nodup_cons] at h
    rw [List.map_cons, List.reverse_cons, List.find?_append, List.find?_cons]
    have ih := find_last q w t h.2 s
    by_cases he : q e = s
    · have hn : (t.map (fun e => (q e, w e))).reverse.find? (fun e => decide (e.1 = s)) = none := by
        rw [List.find?_eq_none]
        intro x hx
        rw [List.mem_reverse, List.mem_map] at hx
        obtain ⟨y, hy, rfl⟩ := hx
        simp only [decide_eq_true_eq]
        intro hq
        exact h.1 (by rw [he, ← hq]; exact List.mem_map_of_mem hy)
      rw [hn]
      simp [he]
    · simp only [he, decide_false, List.find?_nil, List.find?_cons]
      rw [Option.or_none, ih]

theorem find_entry : ∀ {es : List (Val × Val)} {xs : List (Leaf × Rep)}, List.Forall₂ Entry es xs → ∀ s,
    match es.find? (fun e => decide (keyName e.1 = some s)) with
    | none => xs.find? (fun x => decide (dumpKey x.1 = s)) = none
    | some e => ∃ x, xs.find? (fun x => decide (dumpKey x.1 = s)) = some x ∧ handler false e.2 = .ok x.2
  | [], [], _, s => rfl
  | e :: es, x :: xs, h, s => by
    rw [List.forall₂_cons] at h
    obtain ⟨⟨u, h1, h2, h3⟩, ht⟩ := h
    have ih := find_entry ht s
    by_cases hu : u = s
    · subst hu
      simp only [List.find?_cons, h1, decide_true, h2, dumpKey]
      exact ⟨x, rfl, h3⟩
    · have hk : ¬ (keyName e.1 = some s) := by rw [h1]; simpa using hu
      have hd : ¬ (dumpKey x.1 = s) := by rw [h2]; simpa [dumpKey] using hu
      simp only [List.find?_cons, hk, decide_false, hd]
      exact ih

theorem forall₂_get {A B : Type} {R : A → B → Prop} : ∀ {l : List A} {m : List B}, List.Forall₂ R l m → ∀ n : Nat,
    match l[n]? with
    | none => m[n]? = none
    | some a => ∃ b, m[n]? = some b ∧ R a b
  | [], [], _, n => by simp
  | a :: l, b :: m, h, 0 => by
    rw [List.forall₂_cons] at h
    simp only [List.getElem?_cons_zero]
    exact ⟨b, rfl, h.1⟩
  | a :: l, b :: m, h, n + 1 => by
    rw [List.forall₂_cons] at h
    simp only [List.getElem?_cons_succ]
    exact forall₂_get h.2 n

theorem entry_names : ∀ {es : List (Val × Val)} {xs : List (Leaf × Rep)}, List.Forall₂ Entry es xs →
    es.map (fun e => keyName e.1) = (xs.map (fun x => dumpKey x.1)).map some
  | [], [], _ => rfl
  | e :: es, x :: xs, h => by
    rw [List.forall₂_cons] at h
    obtain ⟨⟨u, h1, h2, _⟩, ht⟩ := h
    simp [h1, h2, dumpKey, entry_names ht]

theorem step_seq {l : List Val} {rs : List Rep} (hg : GoodL l) (h : handlerL false l = .ok rs) (n : Nat) :
    match l[n]? with
    | none => (Json.arr (dumpL rs)).step (.idx n) = none
    | some w => Good w ∧ ∃ j', save false w = .ok j' ∧ (Json.arr (dumpL rs)).step (.idx n) = some j' := by
  have hf := forall₂_get ((handlerL_iff l rs).1 h) n
  rw [dumpL_map]
  cases hl : l[n]? with
  | none =>
    rw [hl] at hf
    simp only at hf ⊢
    simp only [Json.step, List.getElem?_map, hf, Option.map_none]
  | some w =>
    rw [hl] at hf
    simp only at hf ⊢
    obtain ⟨b, hb, hw⟩ := hf
    exact ⟨(goodL_iff l).1 hg w (List.mem_of_getElem? hl), dump b, save_iff.2 ⟨b, hw, rfl⟩, by simp only [Json.step, List.getElem?_map, hb, Option.map_some]⟩

/-- One step into a file is one step into the object. -/
theorem step_spec : ∀ (v : Val) (j : Json) (st : Step), Good v → save false v = .ok j →
    match field v st with
    | none => j.step st = none
    | some w => Good w ∧ ∃ j', save false w = .ok j' ∧ j.step st = some j'
  | .leaf l, j, st, _, h => by
    obtain ⟨r, hr, rfl⟩ := save_iff.1 h
    simp only [handler, Except.ok.injEq] at hr
    subst hr
    cases l <;> simp [field, dump, dumpLeaf, Json.step]
  | .npInt i, j, st, _, h => by
    obtain ⟨r, hr, rfl⟩ := save_iff.1 h
    simp only [handler, Except.ok.injEq] at hr
    subst hr
    simp [field, dump, dumpLeaf, Json.step]
  | .obj f g, j, st, hg, h => by
    simp only [field]
    refine step_spec f j st (by simpa only [Good] using hg) ?_
    unfold save at h ⊢
    simpa only [handler] using h
  | .dict es, j, st, hg, h => by
    obtain ⟨xs, hx, hf⟩ := handler_dict hg
    obtain ⟨r, hr, rfl⟩ := save_iff.1 h
    rw [hx] at hr
    cases hr
    simp only [Good] at hg
    cases st with
    | idx n => simp [field, dump, Json.step]
    | key s =>
      have hn : (xs.map (fun x => dumpKey x.1)).Nodup := by
        have := hg.2
        rw [entry_names hf] at this
        exact this.of_map some
      have hl := find_last (fun x : Leaf × Rep => dumpKey x.1) (fun x => dump x.2) xs hn s
      have he := find_entry hf s
      simp only [field, dump, Json.step, dumpE_map]
      rw [hl]
      cases hfe : es.find? (fun e => decide (keyName e.1 = some s)) with
      | none =>
        rw [hfe] at he
        simp only at he
        simp [he]
      | some e =>
        rw [hfe] at he
        obtain ⟨x, h1, h2⟩ := he
        simp only [Option.map_some]
        exact ⟨((goodE_iff es).1 hg.1 e (List.mem_of_find?_eq_some hfe)).2, dump x.2, save_iff.2 ⟨x.2, h2, rfl⟩, by rw [h1]; rfl⟩
  | .set l, j, st, hg, h => by
    simp only [Good] at hg
    obtain ⟨rs, hr⟩ := goodL_ok l hg
    simp only [save, handler, hr, Except.ok.injEq] at h
    subst h
    cases st with
    | idx n => simpa only [field, dump] using step_seq hg hr n
    | key s => simp [field, dump, Json.step]
  | .list l, j, st, hg, h => by
    simp only [Good] at hg
    obtain ⟨rs, hr⟩ := goodL_ok l hg
    simp only [save, handler, hr, Except.ok.injEq] at h
    subst h
    cases st with
    | idx n => simpa only [field, dump] using step_seq hg hr n
    | key s => simp [field, dump, Json.step]
  | .tuple l, j, st, hg, h => by
    simp only [Good] at hg
    obtain ⟨rs, hr⟩ := goodL_ok l hg
    simp only [save, handler, hr, Except.ok.injEq] at h
    subst h
    cases st with
    | idx n => simpa only [field, dump] using step_seq hg hr n
    | key s => simp [field, dump, Json.step]
  | .raise e, j, st, hg, _ => by simp [Good] at hg
  | .other, j, st, hg, _ => by simp [Good] at hg

end Verif.Json
