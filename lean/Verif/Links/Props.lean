import Verif.Links.Model

/-! C48, C52. -/

namespace Verif.Links

variable {L M : Type} [DecidableEq L] [DecidableEq M]

private theorem fold_keys (data : Dict L M) (d : Dict M L) :
    (data.foldl (fun d e => d.set e.2 e.1) d).length ≤ d.length + data.length ∧
    ((data.foldl (fun d e => d.set e.2 e.1) d).length = d.length + data.length ↔ (data.map Prod.snd).Nodup ∧ ∀ m ∈ data.map Prod.snd, m ∉ d.keys) := by
  induction data generalizing d with
  | nil => simp
  | cons e data ih =>
    rw [List.foldl_cons]
    obtain ⟨h1, h2⟩ := ih (d.set e.2 e.1)
    have hl : ∀ (t : Dict M L), t.length = t.keys.length := fun t => by simp [Dict.keys]
    by_cases hm : e.2 ∈ d.keys
    · have hlen : (d.set e.2 e.1).length = d.length := by rw [hl, hl, Dict.keys_set, if_pos hm]
      rw [hlen] at h1
      simp only [List.length_cons]
      refine ⟨by omega, ⟨fun h => by omega, fun h => absurd hm (h.2 e.2 (by simp))⟩⟩
    · have hlen : (d.set e.2 e.1).length = d.length + 1 := by rw [hl, hl, Dict.keys_set, if_neg hm]; simp
      rw [hlen] at h1 h2
      simp only [List.length_cons]
      refine ⟨by omega, ?_⟩
      rw [show d.length + (data.length + 1) = d.length + 1 + data.length by omega, h2, Dict.keys_set, if_neg hm]
      simp only [List.map_cons, List.nodup_cons, List.mem_append, List.mem_singleton, List.mem_cons, forall_eq_or_imp, not_or]
      constructor
      · rintro ⟨a, b⟩
        exact ⟨⟨fun hc => (b _ hc).2.1 rfl, a⟩, hm, fun m hm' => (b m hm').1⟩
      · rintro ⟨⟨a, b⟩, -, c⟩
        exact ⟨b, fun m hm' => ⟨c m hm', by rintro rfl; exact a hm', by simp⟩⟩

private theorem fold_get (data : Dict L M) (d : Dict M L) (h : (data.map Prod.snd).Nodup) (m : M) :
    (data.foldl (fun d e => d.set e.2 e.1) d).get? m = (match data.find? fun e => decide (e.2 = m) with | some e => some e.1 | none => d.get? m) := by
  induction data generalizing d with
  | nil => rfl
  | cons e data ih =>
    rw [List.map_cons, List.nodup_cons] at h
    rw [List.foldl_cons, ih _ h.2, List.find?_cons]
    by_cases he : e.2 = m
    · have hn : (data.find? fun e => decide (e.2 = m)) = none := by
        rw [List.find?_eq_none]
        intro x hx
        simp only [decide_eq_true_eq]
        intro hc
        exact h.1 (List.mem_map.2 ⟨x, hx, hc.trans he.symm⟩)
      simp [hn, he, Dict.get?_set]
    · simp only [he, decide_false]
      cases (data.find? fun e => decide (e.2 = m)) with
      | some x => rfl
      | none => simp only; rw [Dict.get?_set_of_ne _ _ he]

/-- C48: links are accepted exactly when no memory operand is linked twice. -/
theorem links_ok_iff (data : Dict L M) : (∃ t, mk data = .ok t) ↔ (data.map Prod.snd).Nodup := by
  have h := (fold_keys data []).2
  simp only [List.length_nil, Nat.zero_add, Dict.keys, List.map_nil, List.not_mem_nil, not_false_eq_true, implies_true, and_true] at h
  unfold mk invert
  rw [← h]
  constructor
  · rintro ⟨t, ht⟩
    split_ifs at ht with hc
    exact hc
  · intro hc
    exact ⟨_, if_pos hc⟩

/-- C48: for accepted links the two look-ups are inverse to each other and succeed exactly on linked operands. -/
theorem links_inverse (data : Dict L M) (hw : data.WF) (t : Links L M) (h : mk data = .ok t) :
    (∀ l m, t.toMem l = .ok m ↔ t.toLayer m = .ok l) ∧ (∀ l m, t.toMem l = .ok m ↔ (l, m) ∈ data) ∧
    (∀ l, t.hasLayer l = true ↔ ∃ m, t.toMem l = .ok m) ∧ (∀ m, t.hasMem m = true ↔ ∃ l, t.toLayer m = .ok l) := by
  have hn := (links_ok_iff data).1 ⟨t, h⟩
  have ht : t = ⟨data, invert data⟩ := by
    unfold mk at h
    split_ifs at h
    exact (Except.ok.inj h).symm
  subst ht
  have h1 : ∀ l m, (Links.mk data (invert data)).toMem l = .ok m ↔ (l, m) ∈ data := by
    intro l m
    unfold Links.toMem
    simp only
    rw [Dict.mem_iff hw]
    cases data.get? l <;> simp
  have h2 : ∀ l m, (Links.mk data (invert data)).toLayer m = .ok l ↔ (l, m) ∈ data := by
    intro l m
    unfold Links.toLayer invert
    simp only
    rw [fold_get data [] hn m]
    cases hf : data.find? fun e => decide (e.2 = m) with
    | none =>
      simp only [Dict.get?_nil]
      constructor
      · intro hc; cases hc
      · intro hm
        have := List.find?_eq_none.1 hf _ hm
        simp at this
    | some e =>
      have he := List.mem_of_find?_eq_some hf
      have he2 : e.2 = m := by simpa using List.find?_some hf
      simp only [Except.ok.injEq]
      constructor
      · rintro rfl; rw [← he2]; exact he
      · intro hm
        have inj : ∀ (t : List (L × M)), (t.map Prod.snd).Nodup → ∀ a ∈ t, ∀ b ∈ t, a.2 = b.2 → a = b := by
          intro t
          induction t with
          | nil => intro _ a ha; cases ha
          | cons x t ih =>
            intro hnd a ha b hb hab
            rw [List.map_cons, List.nodup_cons] at hnd
            rcases List.mem_cons.1 ha with ha1 | ha1 <;> rcases List.mem_cons.1 hb with hb1 | hb1
            · rw [ha1, hb1]
            · exact absurd (List.mem_map.2 ⟨b, hb1, by rw [← hab, ha1]⟩) hnd.1
            · exact absurd (List.mem_map.2 ⟨a, ha1, by rw [hab, hb1]⟩) hnd.1
            · exact ih hnd.2 a ha1 b hb1 hab
        exact congrArg Prod.fst (inj data hn e he (l, m) hm he2)
  refine ⟨fun l m => (h1 l m).trans (h2 l m).symm, h1, ?_, ?_⟩
  · intro l
    unfold Links.hasLayer
    simp only [decide_eq_true_eq, List.mem_map, Prod.exists, exists_and_right, exists_eq_right]
    exact exists_congr fun m => (h1 l m).symm
  · intro m
    unfold Links.hasMem
    simp only [decide_eq_true_eq, List.mem_map, Prod.exists, exists_eq_right]
    exact exists_congr fun l => (h2 l m).symm

example : Dict.WF [("I", "I1"), ("W", "I2"), ("O", "O")] ∧ ((([("I", "I1"), ("W", "I2"), ("O", "O")] : Dict String String)).map Prod.snd).Nodup := by
  unfold Dict.WF; decide

/-- Two inputs linked to the same memory operand are rejected. -/
example : mk [("I", "I1"), ("W", "I1")] = Except.error PyErr.assertion := rfl

/-! ### C52 -/

variable {α : Type}

/-- The first entry with a name. -/
def FirstNamed (data : List (String × α)) (name : String) (e : String × α) : Prop :=
  ∃ a b, data = a ++ e :: b ∧ e.1 = name ∧ ∀ x ∈ a, x.1 ≠ name

private theorem nextNamed_iff (data : List (String × α)) (name : String) (e : String × α) : nextNamed data name = .ok e ↔ FirstNamed data name e := by
  unfold nextNamed FirstNamed
  cases hf : data.find? fun e => decide (e.1 = name) with
  | none =>
    rw [List.find?_eq_none] at hf
    constructor
    · intro h; cases h
    · rintro ⟨a, b, h1, h2, -⟩
      exact absurd (by simpa using h2) (hf e (by rw [h1]; simp))
  | some x =>
    rw [List.find?_eq_some_iff_append] at hf
    obtain ⟨h1, a, b, h2, h3⟩ := hf
    have hx : x.1 = name := by simpa using h1
    have ha : ∀ y ∈ a, y.1 ≠ name := fun y hy => by simpa using h3 y hy
    simp only [Except.ok.injEq]
    constructor
    · rintro rfl; exact ⟨a, b, h2, hx, ha⟩
    · rintro ⟨a', b', g1, g2, g3⟩
      rw [h2] at g1
      rcases List.append_eq_append_iff.1 g1 with ⟨c, hc1, hc2⟩ | ⟨c, hc1, hc2⟩
      · cases c with
        | nil => simp only [List.nil_append] at hc2; exact (List.cons.inj hc2).1
        | cons y c =>
          have : x = y := (List.cons.inj hc2).1
          exact absurd hx (g3 x (by rw [hc1, this]; simp))
      · cases c with
        | nil => simp only [List.nil_append] at hc2; exact (List.cons.inj hc2).1.symm
        | cons y c =>
          have : e = y := (List.cons.inj hc2).1
          exact absurd g2 (ha e (by rw [hc1, this]; simp))

/-- C52: a layer uses the first entry with its name; if there is none the first entry with its operation type; if there is none the first entry named `default`. -/
theorem choose_iff (layer operation : String) (data : List (String × α)) (e : String × α) :
    choose layer operation data = .ok e ↔
      FirstNamed data layer e ∨ ((∀ x ∈ data, x.1 ≠ layer) ∧ FirstNamed data operation e) ∨
      ((∀ x ∈ data, x.1 ≠ layer ∧ x.1 ≠ operation) ∧ FirstNamed data "default" e) := by
  have hno : ∀ n, (n ∉ data.map Prod.fst) ↔ ∀ x ∈ data, x.1 ≠ n := by
    intro n
    simp only [List.mem_map, not_exists, not_and, ne_eq]
  have hfirst : ∀ n, FirstNamed data n e → n ∈ data.map Prod.fst := by
    rintro n ⟨a, b, h1, h2, -⟩
    exact List.mem_map.2 ⟨e, by rw [h1]; simp, h2⟩
  unfold choose
  split_ifs with h1 h2
  · rw [nextNamed_iff]
    constructor
    · exact .inl
    · rintro (h | ⟨h, -⟩ | ⟨h, -⟩)
      · exact h
      · exact absurd h1 ((hno _).2 h)
      · exact absurd h1 ((hno _).2 fun x hx => (h x hx).1)
  · rw [nextNamed_iff]
    constructor
    · exact fun h => .inr (.inl ⟨(hno _).1 h1, h⟩)
    · rintro (h | ⟨-, h⟩ | ⟨h, -⟩)
      · exact absurd (hfirst _ h) h1
      · exact h
      · exact absurd h2 ((hno _).2 fun x hx => (h x hx).2)
  · rw [nextNamed_iff]
    constructor
    · exact fun h => .inr (.inr ⟨fun x hx => ⟨(hno _).1 h1 x hx, (hno _).1 h2 x hx⟩, h⟩)
    · rintro (h | ⟨-, h⟩ | ⟨-, h⟩)
      · exact absurd (hfirst _ h) h1
      · exact absurd (hfirst _ h) h2
      · exact h

/-- C52: with a validated mapping file every layer has an entry. -/
theorem choose_total (layer operation : String) (data : List (String × α)) (h : hasDefault data = true) : ∃ e, choose layer operation data = .ok e := by
  have key : ∀ n, n ∈ data.map Prod.fst → ∃ e, nextNamed data n = .ok e := by
    intro n hn
    unfold nextNamed
    cases hf : data.find? fun e => decide (e.1 = n) with
    | none =>
      obtain ⟨x, hx, hx'⟩ := List.mem_map.1 hn
      exact absurd (by simpa using hx') (List.find?_eq_none.1 hf x hx)
    | some e => exact ⟨e, rfl⟩
  unfold choose
  split_ifs with h1 h2
  · exact key _ h1
  · exact key _ h2
  · exact key _ (by simpa [hasDefault] using h)

example : choose "conv1" "Conv" [("Conv", 1), ("default", 2), ("conv1", 3)] = .ok ("conv1", 3) ∧ choose "x" "Conv" [("Conv", 1), ("default", 2)] = .ok ("Conv", 1) ∧
    choose "x" "Pool" [("Conv", 1), ("default", 2)] = .ok ("default", 2) := by decide

end Verif.Links
