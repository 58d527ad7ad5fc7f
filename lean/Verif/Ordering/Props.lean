import Verif.Ordering.Model
import Verif.Engine.Props
import Verif.Window.Lemmas

/-! C43 (complete user orderings), C44 (constraints from partial orderings), C70 (the mappings generated for a user ordering). -/

namespace Verif.Ordering

variable {D : Type} [LinearOrder D] (star : Option D)

/-! ### C43 -/

/-- The number of iterations a user ordering gives to a dimension. -/
def given (data : List (Entry D)) (d : D) : Nat := ((data.filter fun e => decide (e.1 = d)).map fun e => e.2.getD 1).prod

private theorem all_get (data : List (Entry D)) (t : Dict D Nat) (hw : t.WF) (d : D) :
    (data.foldl mulEntry t).WF ∧
    Dict.get? (data.foldl mulEntry t) d =
      if d ∈ t.keys ∨ d ∈ data.map Prod.fst then some ((t.get? d).getD 1 * given data d) else none := by
  induction data generalizing t with
  | nil =>
    refine ⟨hw, ?_⟩
    simp only [List.foldl_nil, List.map_nil, List.not_mem_nil, or_false, given, List.filter_nil, List.prod_nil, mul_one]
    by_cases h : d ∈ t.keys
    · rw [if_pos h]
      cases hg : t.get? d with
      | none => exact absurd h ((Dict.get?_eq_none_iff _ _).1 hg)
      | some v => rfl
    · rw [if_neg h]; exact (Dict.get?_eq_none_iff _ _).2 h
  | cons e data ih =>
    rw [List.foldl_cons]
    obtain ⟨h1, h2⟩ := ih (mulEntry t e) (by unfold mulEntry; exact Dict.WF.set hw _ _)
    refine ⟨h1, ?_⟩
    rw [h2]
    unfold mulEntry
    by_cases he : e.1 = d
    · have hk : d ∈ (t.set e.1 ((t.get? e.1).getD 1 * e.2.getD 1)).keys := by
        rw [he]; exact List.mem_map.2 ⟨_, Dict.mem_of_get? (Dict.get?_set_self ..), rfl⟩
      rw [if_pos (.inl hk), if_pos (.inr (by simp [he])), he, Dict.get?_set_self]
      simp only [Option.getD_some, given, List.filter_cons, he, decide_true, if_true, List.map_cons, List.prod_cons]
      rw [Nat.mul_assoc]
    · have hg : Dict.get? (t.set e.1 ((t.get? e.1).getD 1 * e.2.getD 1)) d = t.get? d := by
        rw [Dict.get?_set, if_neg he]
      have hk : d ∈ (t.set e.1 ((t.get? e.1).getD 1 * e.2.getD 1)).keys ↔ d ∈ t.keys := by
        rw [← not_iff_not, ← Dict.get?_eq_none_iff, ← Dict.get?_eq_none_iff, hg]
      have hgiv : given (e :: data) d = given data d := by
        unfold given; rw [List.filter_cons_of_neg (by simpa using he)]
      simp only [hk, hg, hgiv, List.map_cons, List.mem_cons, Ne.symm he, false_or]

private theorem sameDict_iff {a b : Dict D Nat} (ha : a.WF) (hb : b.WF) : sameDict a b = true ↔ ∀ d, a.get? d = b.get? d := by
  unfold sameDict
  simp only [decide_eq_true_eq]
  constructor
  · rintro ⟨h1, h2⟩ d
    cases hd : a.get? d with
    | some v => exact (h2 _ (Dict.mem_of_get? hd)).symm
    | none =>
      by_contra hc
      have hdb : d ∈ b.keys := by
        by_contra hn; exact hc ((Dict.get?_eq_none_iff _ _).2 hn).symm
      have hsub : (d :: a.keys).Subperm b.keys := by
        refine List.subperm_of_subset (List.nodup_cons.2 ⟨(Dict.get?_eq_none_iff _ _).1 hd, ha⟩) ?_
        intro x hx
        rcases List.mem_cons.1 hx with rfl | hx
        · exact hdb
        · obtain ⟨e, he, rfl⟩ := List.mem_map.1 hx
          exact List.mem_map.2 ⟨_, Dict.mem_of_get? (h2 e he), rfl⟩
      have := hsub.length_le
      simp only [Dict.keys, List.length_cons, List.length_map] at this
      omega
  · intro h
    have hperm : a.keys.Perm b.keys := by
      rw [List.perm_ext_iff_of_nodup ha hb]
      intro d
      rw [← not_iff_not, ← Dict.get?_eq_none_iff, ← Dict.get?_eq_none_iff, h d]
    refine ⟨by simpa [Dict.keys] using hperm.length_eq, fun e he => ?_⟩
    rw [← h, Dict.get?_of_mem ha he]

/-- C43, partial: the check answers whether the ordering gives every dimension a factor and exactly the iterations that are required, provided no listed
dimension has factors with product one.  Missing: in that case the check raises (`is_complete_false`). -/
theorem is_complete_partial (data : List (Entry D)) (sizes : Dict D Nat) (hw : sizes.WF) (hs : ∀ d n, sizes.get? d = some n → 1 < n)
    (h1 : ∀ e ∈ data, given data e.1 ≠ 1) :
    ∃ b, isComplete data sizes = .ok b ∧ (b = true ↔ (∀ e ∈ data, e.2 ≠ none) ∧ ∀ d, given data d = (sizes.get? d).getD 1) := by
  unfold isComplete
  by_cases hn : (data.any fun e => e.2.isNone) = true
  · rw [if_pos hn]
    refine ⟨false, rfl, ?_⟩
    obtain ⟨e, he, he'⟩ := List.any_eq_true.1 hn
    simp only [Bool.false_eq_true, false_iff, not_and]
    intro h
    exact absurd (Option.isNone_iff_eq_none.1 he') (h e he)
  · rw [if_neg hn]
    have hn' : ∀ e ∈ data, e.2 ≠ none := fun e he hc => hn (List.any_eq_true.2 ⟨e, he, by simp [hc]⟩)
    have hall := fun d => all_get data [] (by simp [Dict.WF, Dict.keys]) d
    have hwf : (data.foldl mulEntry []).WF := by
      cases data with
      | nil => simp [Dict.WF, Dict.keys]
      | cons e _ => exact (hall e.1).1
    have hget : ∀ d, Dict.get? (data.foldl mulEntry []) d = if d ∈ data.map Prod.fst then some (given data d) else none := by
      intro d
      rw [(hall d).2]
      simp only [Dict.keys, List.map_nil, List.not_mem_nil, false_or, Dict.get?_nil, Option.getD_none, one_mul]
    have hno : ¬ ((data.foldl mulEntry []).any fun e => decide (e.2 = 1)) = true := by
      intro hc
      obtain ⟨e, he, he'⟩ := List.any_eq_true.1 hc
      have := Dict.get?_of_mem hwf he
      rw [hget] at this
      split at this
      · rename_i hm
        obtain ⟨x, hx, hx'⟩ := List.mem_map.1 hm
        refine h1 x hx ?_
        rw [hx', Option.some.inj this]
        simpa using he'
      · cases this
    simp only
    rw [if_neg hno]
    refine ⟨_, rfl, ?_⟩
    rw [sameDict_iff hwf hw]
    have hunlisted : ∀ d, d ∉ data.map Prod.fst → given data d = 1 := by
      intro d hd
      unfold given
      rw [List.filter_eq_nil_iff.2]
      · rfl
      · intro e he hc
        exact hd (List.mem_map.2 ⟨e, he, by simpa using hc⟩)
    constructor
    · intro h
      refine ⟨hn', fun d => ?_⟩
      rw [← h d, hget d]
      by_cases hd : d ∈ data.map Prod.fst
      · rw [if_pos hd]; rfl
      · rw [if_neg hd, hunlisted d hd]; rfl
    · rintro ⟨-, h⟩ d
      rw [hget d]
      by_cases hd : d ∈ data.map Prod.fst
      · rw [if_pos hd, h d]
        cases hg : sizes.get? d with
        | some n => rfl
        | none =>
          exfalso
          obtain ⟨x, hx, rfl⟩ := List.mem_map.1 hd
          refine h1 x hx ?_
          rw [h, hg]; rfl
      · rw [if_neg hd]
        cases hg : sizes.get? d with
        | none => rfl
        | some n =>
          exfalso
          have := h d
          rw [hunlisted d hd, hg] at this
          have h2 := hs d n hg
          simp at this
          omega

/-- C43: the check raises exactly when all factors are given and some listed dimension has factors with product one. -/
theorem is_complete_raises_iff (data : List (Entry D)) (sizes : Dict D Nat) :
    isComplete data sizes = .error .runtimeError ↔ (∀ e ∈ data, e.2 ≠ none) ∧ ∃ e ∈ data, given data e.1 = 1 := by
  unfold isComplete
  by_cases hn : (data.any fun e => e.2.isNone) = true
  · rw [if_pos hn]
    obtain ⟨e, he, he'⟩ := List.any_eq_true.1 hn
    constructor
    · intro h; cases h
    · rintro ⟨h, -⟩; exact absurd (Option.isNone_iff_eq_none.1 he') (h e he)
  · rw [if_neg hn]
    have hn' : ∀ e ∈ data, e.2 ≠ none := fun e he hc => hn (List.any_eq_true.2 ⟨e, he, by simp [hc]⟩)
    have hall := fun d => all_get data [] (by simp [Dict.WF, Dict.keys]) d
    have hwf : (data.foldl mulEntry []).WF := by
      cases data with
      | nil => simp [Dict.WF, Dict.keys]
      | cons e _ => exact (hall e.1).1
    have hget : ∀ d, Dict.get? (data.foldl mulEntry []) d = if d ∈ data.map Prod.fst then some (given data d) else none := by
      intro d
      rw [(hall d).2]
      simp only [Dict.keys, List.map_nil, List.not_mem_nil, false_or, Dict.get?_nil, Option.getD_none, one_mul]
    have hiff : ((data.foldl mulEntry []).any fun e => decide (e.2 = 1)) = true ↔ ∃ e ∈ data, given data e.1 = 1 := by
      rw [List.any_eq_true]
      constructor
      · rintro ⟨e, he, he'⟩
        have := Dict.get?_of_mem hwf he
        rw [hget] at this
        split at this
        · rename_i hm
          obtain ⟨x, hx, hx'⟩ := List.mem_map.1 hm
          exact ⟨x, hx, by rw [hx', Option.some.inj this]; simpa using he'⟩
        · cases this
      · rintro ⟨e, he, he'⟩
        have := hget e.1
        rw [if_pos (List.mem_map.2 ⟨e, he, rfl⟩), he'] at this
        exact ⟨_, Dict.mem_of_get? this, by simp⟩
    simp only
    by_cases h : ((data.foldl mulEntry []).any fun e => decide (e.2 = 1)) = true
    · rw [if_pos h]; exact ⟨fun _ => ⟨hn', hiff.1 h⟩, fun _ => rfl⟩
    · rw [if_neg h]
      constructor
      · intro hc; cases hc
      · rintro ⟨-, hc⟩; exact absurd (hiff.2 hc) h

/-- C43 is false in general: an ordering that covers the layer and also lists a dimension with factor one makes the check raise. -/
theorem is_complete_false : ∃ (data : List (Entry String)) (sizes : Dict String Nat), (∀ e ∈ data, e.2 ≠ none) ∧ (∀ e ∈ sizes, given data e.1 = e.2) ∧
    (∀ e ∈ data, sizes.get? e.1 = none → given data e.1 = 1) ∧ isComplete data sizes = .error .runtimeError :=
  ⟨[("K", some 12), ("G", some 1)], [("K", 12)], by decide +kernel⟩

/-! ### C44 -/

/-- A loop matches an entry of a user ordering: the dimension is the same, and so is the size if the entry has one. -/
def Matches (l : D ×ₗ Nat) (e : Entry D) : Prop := (ofLex l).1 = e.1 ∧ ∀ f, e.2 = some f → (ofLex l).2 = f

/-- There is a wildcard among the entries. -/
def HasStar (l : List (Entry D)) : Prop := ∃ e ∈ l, star = some e.1 ∧ e.2 = none

instance (l : List (Entry D)) : Decidable (HasStar star l) := by unfold HasStar; infer_instance

/-- Position the loop puts an entry at. -/
def keyOf (n : Nat) (outer : Prop) [Decidable outer] (count : Nat) : Int := if outer then (count : Int) - n else count

/-- Keys used so far come from entries seen so far. -/
def Seen (n count : Nat) (ks : List Int) : Prop := ∀ k ∈ ks, ∃ i : Nat, i < count ∧ (k = (i : Int) ∨ k = (i : Int) - n)

private theorem fresh {n count : Nat} {ks : List Int} (h : Seen n count ks) (hc : count < n) (o : Prop) [Decidable o] : keyOf n o count ∉ ks := by
  intro hm
  obtain ⟨i, hi, h1⟩ := h _ hm
  unfold keyOf at h1
  split at h1 <;> omega

private theorem seen_mono {n count : Nat} {ks : List Int} (h : Seen n count ks) : Seen n (count + 1) ks :=
  fun k hk => by obtain ⟨i, h1, h2⟩ := h k hk; exact ⟨i, by omega, h2⟩

private theorem seen_snoc {n count : Nat} {ks : List Int} (h : Seen n count ks) (o : Prop) [Decidable o] : Seen n (count + 1) (ks ++ [keyOf n o count]) := by
  intro k hk
  rcases List.mem_append.1 hk with hk | hk
  · exact seen_mono h k hk
  · rw [List.mem_singleton.1 hk]
    refine ⟨count, by omega, ?_⟩
    unfold keyOf; split
    · exact .inr rfl
    · exact .inl rfl

theorem cLoop_spec (n : Nat) (es : List (Entry D)) (s : CState D) (count : Nat) (hlen : count + es.length ≤ n)
    (hp : Seen n count s.pos.keys) (hq : Seen n count s.sized.keys) :
    (∀ x, x ∈ (cLoop star n s count es).pos ↔ x ∈ s.pos ∨ ∃ (j : Nat) (d : D), es[j]? = some (d, none) ∧ star ≠ some d ∧
      x = (keyOf n (s.outer = true ∨ HasStar star (es.take j)) (count + j), d)) ∧
    (∀ x, x ∈ (cLoop star n s count es).sized ↔ x ∈ s.sized ∨ ∃ (j : Nat) (d : D) (f : Nat), es[j]? = some (d, some f) ∧
      x = (keyOf n (s.outer = true ∨ HasStar star (es.take j)) (count + j), d, f)) := by
  induction es generalizing s count with
  | nil => simp [cLoop]
  | cons e es ih =>
    rw [List.length_cons] at hlen
    have hkey : ∀ j, keyOf n (s.outer = true ∨ HasStar star ((e :: es).take (j + 1))) (count + (j + 1)) =
        keyOf n ((s.outer = true ∨ (star = some e.1 ∧ e.2 = none)) ∨ HasStar star (es.take j)) (count + 1 + j) := by
      intro j
      have : (s.outer = true ∨ HasStar star ((e :: es).take (j + 1))) ↔ ((s.outer = true ∨ (star = some e.1 ∧ e.2 = none)) ∨ HasStar star (es.take j)) := by
        unfold HasStar
        rw [List.take_succ_cons, List.exists_mem_cons_iff, or_assoc]
      unfold keyOf
      rw [if_congr this rfl rfl]
      have : count + (j + 1) = count + 1 + j := by omega
      rw [this]
    have hkey0 : keyOf n (s.outer = true ∨ HasStar star ((e :: es).take 0)) (count + 0) = keyOf n (s.outer = true) count := by
      simp [keyOf, HasStar]
    have hex : ∀ (P : Nat → Prop), (∃ j, P j) ↔ P 0 ∨ ∃ j, P (j + 1) := by
      intro P
      constructor
      · rintro ⟨j | j, h⟩
        · exact .inl h
        · exact .inr ⟨j, h⟩
      · rintro (h | ⟨j, h⟩)
        · exact ⟨0, h⟩
        · exact ⟨j + 1, h⟩
    rw [cLoop]
    obtain ⟨d, o⟩ := e
    cases o with
    | none =>
      by_cases hd : star = some d
      · have hs : cStep star n s count (d, none) = { s with outer := true } := by
          unfold cStep; simp [isStar, hd]
        have hne : star = some d ↔ True := by simp [hd]
        simp only [hne, and_self, or_true, true_or] at hkey
        rw [hs]
        obtain ⟨h1, h2⟩ := ih { s with outer := true } (count + 1) (by omega) (seen_mono hp) (seen_mono hq)
        constructor
        · intro x
          rw [h1 x]; conv_rhs => rw [hex]
          simp only [hkey, List.getElem?_cons_zero, List.getElem?_cons_succ, true_or]
          constructor
          · rintro (h | h)
            · exact .inl h
            · exact .inr (.inr h)
          · rintro (h | ⟨d, h3, h4, h5⟩ | h)
            · exact .inl h
            · simp only [Option.some.injEq, Prod.mk.injEq] at h3
              exact absurd (by rw [hd, h3.1]) h4
            · exact .inr h
        · intro x
          rw [h2 x]; conv_rhs => rw [hex]
          simp only [hkey, List.getElem?_cons_zero, List.getElem?_cons_succ, true_or]
          constructor
          · rintro (h | h)
            · exact .inl h
            · exact .inr (.inr h)
          · rintro (h | ⟨d, f, h3, h5⟩ | h)
            · exact .inl h
            · simp at h3
            · exact .inr h
      · have hs : cStep star n s count (d, none) = { s with pos := s.pos ++ [(keyOf n (s.outer = true) count, d)] } := by
          unfold cStep
          have : isStar star (d, none) = false := by simp [isStar, hd]
          simp only [this, Bool.false_eq_true, if_false]
          rw [← Window.set_new _ _ _ (fresh hp (by omega) (s.outer = true))]
          rfl
        rw [hs]
        have hne : star = some d ↔ False := by simp [hd]
        obtain ⟨h1, h2⟩ := ih { s with pos := s.pos ++ [(keyOf n (s.outer = true) count, d)] } (count + 1) (by omega)
          (by simpa only [Dict.keys, List.map_append, List.map_cons, List.map_nil] using seen_snoc hp (s.outer = true)) (seen_mono hq)
        simp only [hne, false_and, or_false] at hkey
        constructor
        · intro x
          rw [h1 x]; conv_rhs => rw [hex]
          simp only [hkey, hkey0, List.getElem?_cons_zero, List.getElem?_cons_succ, List.mem_append, List.mem_singleton]
          constructor
          · rintro ((h | h) | h)
            · exact .inl h
            · exact .inr (.inl ⟨d, rfl, hd, h⟩)
            · exact .inr (.inr h)
          · rintro (h | ⟨d', h3, h4, h5⟩ | h)
            · exact .inl (.inl h)
            · simp only [Option.some.injEq, Prod.mk.injEq, and_true] at h3
              subst h3
              exact .inl (.inr h5)
            · exact .inr h
        · intro x
          rw [h2 x]; conv_rhs => rw [hex]
          simp only [hkey, List.getElem?_cons_zero, List.getElem?_cons_succ]
          constructor
          · rintro (h | h)
            · exact .inl h
            · exact .inr (.inr h)
          · rintro (h | ⟨d, f, h3, h5⟩ | h)
            · exact .inl h
            · simp at h3
            · exact .inr h
    | some f =>
      have hs : cStep star n s count (d, some f) = { s with sized := s.sized ++ [(keyOf n (s.outer = true) count, d, f)] } := by
        unfold cStep
        have : isStar star (d, some f) = false := by simp [isStar]
        simp only [this, Bool.false_eq_true, if_false]
        rw [← Window.set_new _ _ _ (fresh hq (by omega) (s.outer = true))]
        rfl
      rw [hs]
      have hne : (star = some ((d, some f) : Entry D).1 ∧ ((d, some f) : Entry D).2 = none) ↔ False := by simp
      obtain ⟨h1, h2⟩ := ih { s with sized := s.sized ++ [(keyOf n (s.outer = true) count, d, f)] } (count + 1) (by omega) (seen_mono hp)
        (by simpa only [Dict.keys, List.map_append, List.map_cons, List.map_nil] using seen_snoc hq (s.outer = true))
      simp only [hne, or_false] at hkey
      constructor
      · intro x
        rw [h1 x]; conv_rhs => rw [hex]
        simp only [hkey, List.getElem?_cons_zero, List.getElem?_cons_succ]
        constructor
        · rintro (h | h)
          · exact .inl h
          · exact .inr (.inr h)
        · rintro (h | ⟨d, h3, h5⟩ | h)
          · exact .inl h
          · simp at h3
          · exact .inr h
      · intro x
        rw [h2 x]; conv_rhs => rw [hex]
        simp only [hkey, hkey0, List.getElem?_cons_zero, List.getElem?_cons_succ, List.mem_append, List.mem_singleton]
        constructor
        · rintro ((h | h) | h)
          · exact .inl h
          · exact .inr (.inl ⟨d, f, rfl, h⟩)
          · exact .inr (.inr h)
        · rintro (h | ⟨d', f', h3, h5⟩ | h)
          · exact .inl (.inl h)
          · simp only [Option.some.injEq, Prod.mk.injEq] at h3
            obtain ⟨rfl, rfl⟩ := h3
            exact .inl (.inr h5)
          · exact .inr h

/-- Position in a loop order of `len` loops that the entry with index `i` speaks about: counted from the innermost loop before the first wildcard, from
the outermost loop after it. -/
def place (data : List (Entry D)) (len i : Nat) : Nat := if HasStar star (data.take i) then len - (data.length - i) else i

/-- C44: the constraints made from a user ordering accept exactly the loop orders in which the entries before the wildcard match the innermost loops and
the entries after it match the outermost loops, in the order given (with factors compared where they are given). -/
theorem constraints_iff (data : List (Entry D)) (p : Engine.Order D) (hp : data.length ≤ p.length) :
    ∃ b, accepts (constraints star data) p = .ok b ∧
      (b = true ↔ ∀ (i : Nat) (e : Entry D), data[i]? = some e → (star ≠ some e.1 ∨ e.2 ≠ none) → ∃ l, p[place star data p.length i]? = some l ∧ Matches l e) := by
  obtain ⟨h1, h2⟩ := cLoop_spec star data.length data ⟨[], [], false⟩ 0 (by simp) (by intro k hk; simp [Dict.keys] at hk) (by intro k hk; simp [Dict.keys] at hk)
  simp only [Bool.false_eq_true, false_or, Nat.zero_add, List.not_mem_nil] at h1 h2
  have hidx : ∀ (i : Nat) (e : Entry D), data[i]? = some e → i < data.length := fun i e h => (List.getElem?_eq_some_iff.1 h).1
  have hpy : ∀ (i : Nat) (l : D ×ₗ Nat), i < data.length →
      (Multiperm.pyIdx p (keyOf data.length (HasStar star (data.take i)) i) = .ok l ↔ p[place star data p.length i]? = some l) := by
    intro i l hi
    rw [Multiperm.pyIdx_ok_iff]
    unfold keyOf place
    by_cases hst : HasStar star (data.take i)
    · simp only [if_pos hst]
      have e1 : ((i : Int) - data.length + p.length).toNat = p.length - (data.length - i) := by omega
      rw [e1]
      constructor
      · rintro (⟨h, -⟩ | ⟨-, -, h⟩)
        · omega
        · exact h
      · intro h; exact .inr ⟨by omega, by omega, h⟩
    · simp only [if_neg hst]
      constructor
      · rintro (⟨-, h⟩ | ⟨h, -⟩)
        · simpa using h
        · omega
      · intro h; exact .inl ⟨by omega, by simpa using h⟩
  have hr1 : ∀ x ∈ (constraints star data).pos, -(p.length : Int) ≤ x.1 ∧ x.1 < p.length := by
    intro x hx
    obtain ⟨j, d, hj, -, rfl⟩ := (h1 x).1 hx
    have := hidx _ _ hj
    simp only [keyOf]
    split <;> omega
  have hr2 : ∀ x ∈ (constraints star data).sized, -(p.length : Int) ≤ x.1 ∧ x.1 < p.length := by
    intro x hx
    obtain ⟨j, d, f, hj, rfl⟩ := (h2 x).1 hx
    have := hidx _ _ hj
    simp only [keyOf]
    split <;> omega
  obtain ⟨b1, e1, i1⟩ := Multiperm.static_positions_iff (fun l : D ×ₗ Nat => (ofLex l).1) _ p hr1
  obtain ⟨b2, e2, i2⟩ := Multiperm.static_positions_and_sizes_iff (fun l : D ×ₗ Nat => (ofLex l).1) (fun l => (ofLex l).2) _ p hr2
  refine ⟨b1 && b2, ?_, ?_⟩
  · unfold accepts
    simp only [Multiperm.allValid, e1, e2]
    cases b1 <;> cases b2 <;> rfl
  · rw [Bool.and_eq_true, i1, i2]
    constructor
    · rintro ⟨ha, hb⟩ i ⟨d, o⟩ he hne
      have hi := hidx _ _ he
      cases o with
      | none =>
        obtain ⟨y, hy, hy'⟩ := ha _ ((h1 _).2 ⟨i, d, he, fun hc => hne.elim (fun h => h hc) (fun h => h rfl), rfl⟩)
        exact ⟨y, (hpy i y hi).1 hy, hy', fun f hf => by cases hf⟩
      | some f =>
        obtain ⟨y, hy, hy', hy''⟩ := hb _ ((h2 _).2 ⟨i, d, f, he, rfl⟩)
        exact ⟨y, (hpy i y hi).1 hy, hy', fun g hg => by cases hg; exact hy''⟩
    · intro h
      constructor
      · intro x hx
        obtain ⟨j, d, hj, hd, rfl⟩ := (h1 x).1 hx
        obtain ⟨l, hl, hm⟩ := h j _ hj (by simp [hd])
        exact ⟨l, (hpy j l (hidx _ _ hj)).2 hl, hm.1⟩
      · intro x hx
        obtain ⟨j, d, f, hj, rfl⟩ := (h2 x).1 hx
        obtain ⟨l, hl, hm⟩ := h j _ hj (by simp)
        exact ⟨l, (hpy j l (hidx _ _ hj)).2 hl, hm.1, hm.2 f rfl⟩

/-- The theorem on an ordering with entries on both sides of the wildcard. -/
example : accepts (constraints (some "*") [("K", none), ("*", none), ("C", some 3), ("OX", none)])
    [toLex ("K", 2), toLex ("K", 5), toLex ("K", 7), toLex ("C", 3), toLex ("OX", 4)] = .ok true ∧
    accepts (constraints (some "*") [("K", none), ("*", none), ("C", some 3), ("OX", none)])
    [toLex ("K", 2), toLex ("K", 5), toLex ("C", 3), toLex ("K", 7), toLex ("OX", 4)] = .ok false := by decide +kernel

/-- C44 fails for orderings that list more loops than the layer has: the check raises. -/
theorem constraints_short_false : ∃ (data : List (Entry String)) (p : Engine.Order String), p.length < data.length ∧
    accepts (constraints (some "*") data) p = .error .indexError :=
  ⟨[("K", none), ("K", none)], [toLex ("K", 2)], by decide +kernel⟩

/-- C44: orderings that come from a mapping file have gone through the removal of unknown dimensions, which removes the wildcards, so all entries that
are left are counted from the innermost loop. -/
theorem constraints_from_file (dims : List D) (hd : ∀ s, star = some s → s ∉ dims) (data : List (Entry D)) (p : Engine.Order D)
    (hp : (removeInvalid dims data).length ≤ p.length) :
    ∃ b, accepts (constraints star (removeInvalid dims data)) p = .ok b ∧
      (b = true ↔ ∀ (i : Nat) (e : Entry D), (data.filter fun e => decide (e.1 ∈ dims))[i]? = some e → ∃ l, p[i]? = some l ∧ Matches l e) := by
  obtain ⟨b, h1, h2⟩ := constraints_iff star (removeInvalid dims data) p hp
  refine ⟨b, h1, h2.trans ?_⟩
  have hns : ∀ e ∈ removeInvalid dims data, (star ≠ some e.1 ∨ e.2 ≠ none) := by
    intro e he
    have := (List.mem_filter.1 he).2
    exact Or.inl fun hs => hd _ hs (by simpa using this)
  have hpl : ∀ i, place star (removeInvalid dims data) p.length i = i := by
    intro i
    unfold place
    rw [if_neg]
    intro hc
    obtain ⟨e, he, h1, h2⟩ := hc
    rcases hns e (List.mem_of_mem_take he) with h | h
    · exact h h1
    · exact h h2
  refine forall₂_congr fun i e => ?_
  rw [hpl]
  constructor
  · intro h he; exact h he (hns e (List.mem_of_getElem? he))
  · intro h he _; exact h he

/-- C44 is false for orderings from a mapping file: "anything, then K outermost" rejects the order with K outermost and accepts one with K innermost. -/
theorem constraints_file_false : ∃ (dims : List String) (data : List (Entry String)) (good bad : Engine.Order String),
    data = [("*", none), ("K", none)] ∧ (good.getLast?.map fun l => (ofLex l).1) = some "K" ∧ (bad.getLast?.map fun l => (ofLex l).1) ≠ some "K" ∧
    accepts (constraints (some "*") (removeInvalid dims data)) good = .ok false ∧ accepts (constraints (some "*") (removeInvalid dims data)) bad = .ok true :=
  ⟨["K", "C"], _, [toLex ("C", 3), toLex ("K", 2)], [toLex ("K", 2), toLex ("C", 3)], rfl, by decide +kernel⟩

/-! ### C70 -/

section
variable {T : Type} (fact : Nat → List (Nat × Nat)) (dims : List D) (sizes : Dict D Int) (spatial : List (D × Rat))
  (limit : Option Nat) (data : List (Entry D)) (alloc : Engine.Order D → Except PyErr T)

theorem get_toNat (t : Dict D Int) (d : D) :
    Dict.get? (t.map fun p => (p.1, p.2.toNat)) d = (t.get? d).map Int.toNat := by
  induction t with
  | nil => rfl
  | cons p t ih =>
    simp only [List.map_cons, Dict.get?_cons]
    by_cases hp : p.1 = d
    · simp [hp]
    · simp [hp, ih]

theorem iter_user (d : D) : Engine.iterQ (Engine.toAlloc (userOrder data)) d = (given data d : ℚ) := by
  have : userOrder data = (data.map fun e => (e.1, e.2.getD 1)).map (fun l => (toLex l : D ×ₗ Nat)) := by
    unfold userOrder; rw [List.map_map]; rfl
  rw [this, Engine.iterQ_toAlloc]
  unfold Lpf.iterations given
  rw [List.filter_map, List.map_map]
  rfl

/-- C70: with a complete user ordering exactly the mapping of that order is generated, or the error of the allocation is raised; the order covers the
layer. -/
theorem complete_order (hw : sizes.WF) (hpos : ∀ k v, sizes.get? k = some v → 1 ≤ v) (hsp : ∀ l ∈ spatial, 1 ≤ l.2)
    (t : Dict D Int) (ht : TemporalLoops.lomaTemporalLoops sizes spatial = .ok t)
    (hc : ∀ e ∈ data, e.2 ≠ none) (h1 : ∀ e ∈ data, given data e.1 ≠ 1) (hg : ∀ d, (given data d : Int) = (t.get? d).getD 1) (fuel : Nat) :
    (∀ m, alloc (userOrder data) = .ok m → generate star fact dims sizes spatial limit data alloc fuel = some ([m], none)) ∧
    (∀ e, alloc (userOrder data) = .error e → generate star fact dims sizes spatial limit data alloc fuel = some ([], some e)) ∧
    (∀ d s, sizes.get? d = some s → (s : ℚ) ≤ ((spatial.filter (fun l => l.1 = d)).map Prod.snd).prod * Engine.iterQ (Engine.toAlloc (userOrder data)) d) := by
  obtain ⟨hnd, hgt⟩ := TemporalLoops.loma_nontrivial sizes spatial hw t ht
  have hb : isComplete data (t.map (fun p => (p.1, p.2.toNat))) = .ok true := by
    obtain ⟨b, hb, hb'⟩ := is_complete_partial data (t.map (fun p => (p.1, p.2.toNat)))
      (by unfold Dict.WF Dict.keys; rw [List.map_map]; exact hnd)
      (by
        intro d n hn
        rw [get_toNat] at hn
        obtain ⟨v, hv, rfl⟩ := Option.map_eq_some_iff.1 hn
        have := (hgt d v (Dict.mem_of_get? hv)).1
        omega) h1
    rw [hb, hb'.2]
    refine ⟨hc, fun d => ?_⟩
    rw [get_toNat]
    have := hg d
    cases hd : t.get? d with
    | none => rw [hd] at this; simpa using this
    | some v =>
      rw [hd] at this
      simp only [Option.getD_some, Option.map_some] at this ⊢
      omega
  refine ⟨?_, ?_, ?_⟩
  · intro m hm
    unfold generate
    rw [ht]; simp only; rw [hb]; simp only; rw [hm]
  · intro e he
    unfold generate
    rw [ht]; simp only; rw [hb]; simp only; rw [he]
  · intro d s hs
    obtain ⟨t', ht', hcov⟩ := TemporalLoops.loma_covers sizes spatial hw hpos hsp
    rw [ht] at ht'
    cases ht'
    have := hcov d s hs
    rw [iter_user data d]
    have h2 : ((given data d : ℕ) : ℚ) = (((t.get? d).getD 1 : Int) : ℚ) := by exact_mod_cast hg d
    rw [h2]; exact this

/-- The loop order satisfies a user ordering. -/
def Satisfies (data : List (Entry D)) (o : Engine.Order D) : Prop :=
  ∀ (i : Nat) (e : Entry D), data[i]? = some e → (star ≠ some e.1 ∨ e.2 ≠ none) → ∃ l, o[place star data o.length i]? = some l ∧ Matches l e

open Classical in
theorem filterGen_sat (L : List (Engine.Order D)) (hl : ∀ o ∈ L, data.length ≤ o.length) :
    Multiperm.filterGen (asConstr (constraints star data)) L = (L.filter fun o => decide (Satisfies star data o), none) := by
  induction L with
  | nil => rfl
  | cons o L ih =>
    have ih := ih fun o ho => hl o (by simp [ho])
    obtain ⟨b, hb, hb'⟩ := constraints_iff star data o (hl o (by simp))
    have hb : Multiperm.allValid (asConstr (constraints star data)) o = .ok b := hb
    simp only [Multiperm.filterGen, hb, ih]
    cases b with
    | true =>
      have : Satisfies star data o := hb'.1 rfl
      simp [List.filter_cons, this]
    | false =>
      have : ¬ Satisfies star data o := fun h => by have := hb'.2 h; cases this
      simp [List.filter_cons, this]

omit star data in
/-- The parts of the search without constraints: the temporal loops, their factors and all orders of them. -/
theorem parts (hf : Lpf.FactContract fact) (ld : D) (hw : sizes.WF) (hpos : ∀ k v, sizes.get? k = some v → 1 ≤ v)
    (hsp : ∀ l ∈ spatial, 1 ≤ l.2) (hlim : ∀ l, limit = some l → 1 ≤ l) :
    ∃ N L t st, L.Nodup ∧ L ≠ [] ∧ (∀ o ∈ L, ∀ o', o' ∈ L ↔ o'.Perm o) ∧
      (∀ o ∈ L, ∀ d s, sizes.get? d = some s → (s : ℚ) ≤ ((spatial.filter (fun l => l.1 = d)).map Prod.snd).prod * Engine.iterQ (Engine.toAlloc o) d) ∧
      (∀ o ∈ L, ∀ l ∈ Engine.toAlloc o, (l.1 ∈ sizes.keys ∨ l.1 = ld) ∧ ∃ n : ℕ, l.2 = n ∧ 1 ≤ n) ∧
      TemporalLoops.lomaTemporalLoops sizes spatial = .ok t ∧
      Lpf.getPrimeFactors fact (ld :: dims) (t.map (fun p => (p.1, p.2.toNat))) none limit = .ok st ∧
      ∀ fuel, N ≤ fuel → Multiperm.permutations fuel ((Lpf.lpfsOf st).map (fun l => (toLex l : D ×ₗ Nat))) = .ok (some L) := by
  obtain ⟨N, L, hnd, hL, hrun, hperm, hcov, hloop⟩ := Engine.run_orders fact hf ld dims sizes spatial hw hpos hsp limit hlim
    (fun o => (.ok o : Except PyErr (Engine.Order D)))
  have hid : ∀ (X : List (Engine.Order D)) (y : Bool), (Engine.orderLoop (fun o => (.ok o : Except PyErr (Engine.Order D))) X y).1 = X := by
    intro X
    induction X with
    | nil => intro y; rfl
    | cons x X ih => intro y; simp [Engine.orderLoop, ih]
  have hbad : ∀ {x : Option PyErr}, some (([] : List (Engine.Order D)), x) ≠ some (Engine.orderLoop (fun o => (.ok o : Except PyErr (Engine.Order D))) L false) := by
    intro x h
    have := congrArg Prod.fst (Option.some.inj h)
    rw [hid] at this
    exact hL this.symm
  have hr0 := hrun N le_rfl
  unfold Engine.run at hr0
  cases ht : TemporalLoops.lomaTemporalLoops sizes spatial with
  | error e => rw [ht] at hr0; exact absurd hr0 hbad
  | ok t =>
    rw [ht] at hr0
    simp only at hr0
    cases hst : Lpf.getPrimeFactors fact (ld :: dims) (t.map (fun p => (p.1, p.2.toNat))) none limit with
    | error e => rw [hst] at hr0; exact absurd hr0 hbad
    | ok st =>
      refine ⟨N, L, t, st, hnd, hL, hperm, hcov, hloop, rfl, hst, fun fuel hfuel => ?_⟩
      have hr := hrun fuel hfuel
      unfold Engine.run at hr
      rw [ht] at hr
      simp only at hr
      rw [hst] at hr
      simp only at hr
      cases hp : Multiperm.permutations fuel ((Lpf.lpfsOf st).map (fun l => (toLex l : D ×ₗ Nat))) with
      | error e => rw [hp] at hr; exact absurd hr hbad
      | ok r =>
        cases r with
        | none => rw [hp] at hr; cases hr
        | some L' =>
          rw [hp] at hr
          simp only [Option.some.injEq] at hr
          have := congrArg Prod.fst hr
          rw [hid, hid] at this
          rw [this]

/-- An ordering without factors is not complete, and no sizes are fixed. -/
theorem plain (hno : ∀ e ∈ data, e.2 = none) (hne : data ≠ []) (t : Dict D Nat) : isComplete data t = .ok false ∧ (constraints star data).sized = [] := by
  constructor
  · unfold isComplete
    rw [if_pos]
    cases data with
    | nil => exact absurd rfl hne
    | cons e es => simp [hno e (by simp)]
  · obtain ⟨-, h2⟩ := cLoop_spec star data.length data ⟨[], [], false⟩ 0 (by simp) (by intro k hk; simp [Dict.keys] at hk)
      (by intro k hk; simp [Dict.keys] at hk)
    refine List.eq_nil_iff_forall_not_mem.2 fun x hx => ?_
    rcases (h2 x).1 hx with h | ⟨j, d, f, hj, -⟩
    · cases h
    · have := hno _ (List.mem_of_getElem? hj); cases this

open Classical in
/-- C70, partial: with an ordering that fixes dimensions (no factors), exactly the fitting mappings of the loop orders that satisfy it are generated; the
loop orders are those of the unconstrained search.  Missing: orderings with factors (false, see `sized_order_false`), orderings with more entries than
there are loops (the check raises, `constraints_short_false`). -/
theorem position_order_partial (hf : Lpf.FactContract fact) (ld : D) (hw : sizes.WF) (hpos : ∀ k v, sizes.get? k = some v → 1 ≤ v)
    (hsp : ∀ l ∈ spatial, 1 ≤ l.2) (hlim : ∀ l, limit = some l → 1 ≤ l) (hno : ∀ e ∈ data, e.2 = none) (hne : data ≠ [])
    (hsmall : ∀ o e, alloc o = .error e → Engine.TooSmall e) :
    ∃ N L, L.Nodup ∧ L ≠ [] ∧ (∀ o ∈ L, ∀ o', o' ∈ L ↔ o'.Perm o) ∧
      (∀ o ∈ L, ∀ d s, sizes.get? d = some s → (s : ℚ) ≤ ((spatial.filter (fun l => l.1 = d)).map Prod.snd).prod * Engine.iterQ (Engine.toAlloc o) d) ∧
      ((∀ o ∈ L, data.length ≤ o.length) → ∀ fuel, N ≤ fuel → ∃ err,
        generate star fact (ld :: dims) sizes spatial limit data alloc fuel =
          some ((L.filter fun o => decide (Satisfies star data o)).filterMap (fun o => (alloc o).toOption), err) ∧
        (err = some .noValidOrdering ↔ ∀ o ∈ L, Satisfies star data o → ∃ e, alloc o = .error e) ∧
        (err = none ↔ ∃ o ∈ L, Satisfies star data o ∧ ∃ t, alloc o = .ok t)) := by
  obtain ⟨N, L, t, st, hnd, hL, hperm, hcov, -, ht, hst, hperms⟩ := parts fact dims sizes spatial limit hf ld hw hpos hsp hlim
  refine ⟨N, L, hnd, hL, hperm, hcov, fun hlen fuel hfuel => ?_⟩
  have hperms := hperms fuel hfuel
  have hcon := Multiperm.constrained_eq_scan _ (asConstr (constraints star data)) _ _ hperms
  rw [filterGen_sat star data L hlen] at hcon
  obtain ⟨hinc, hsized⟩ := plain star data hno hne (t.map (fun p => (p.1, p.2.toNat)))
  have hst' : Lpf.getPrimeFactors fact (ld :: dims) (t.map (fun p => (p.1, p.2.toNat))) (some []) limit = .ok st := hst
  have hF : ∀ e o, o ∈ L.filter (fun o => decide (Satisfies star data o)) → alloc o = .error e → Engine.TooSmall e := fun e o _ h => hsmall o e h
  obtain ⟨e1, e2, e3⟩ := Engine.engine_yields_fitting alloc (L.filter fun o => decide (Satisfies star data o)) (fun o ho e he => hF e o ho he)
  have hgen : generate star fact (ld :: dims) sizes spatial limit data alloc fuel =
      some (Engine.orderLoop alloc (L.filter fun o => decide (Satisfies star data o)) false) := by
    unfold generate
    rw [ht]; simp only; rw [hinc]; simp only
    by_cases hpz : (constraints star data).pos = []
    · rw [if_pos ⟨hpz, hsized⟩]
      have hall : L.filter (fun o => decide (Satisfies star data o)) = L := by
        rw [List.filter_eq_self]
        intro o _
        simp only [decide_eq_true_eq]
        intro i e he hes
        exfalso
        obtain ⟨h1, -⟩ := cLoop_spec star data.length data ⟨[], [], false⟩ 0 (by simp) (by intro k hk; simp [Dict.keys] at hk)
          (by intro k hk; simp [Dict.keys] at hk)
        obtain ⟨d, x⟩ := e
        have hx : x = none := hno _ (List.mem_of_getElem? he)
        subst hx
        have : (constraints star data).pos ≠ [] := List.ne_nil_of_mem ((h1 _).2 (.inr ⟨i, d, he, fun hc => hes.elim (fun h => h hc) (fun h => h rfl), rfl⟩))
        exact this hpz
      rw [hall]
      unfold Engine.run
      rw [ht]; simp only; rw [hst]; simp only; rw [hperms]
    · rw [if_neg (fun h => hpz h.1)]
      unfold runC
      rw [ht]; simp only; rw [hsized]; simp only [List.map_nil]; rw [hst']; simp only; rw [hcon]
  refine ⟨_, by rw [hgen, ← e1], ?_, ?_⟩
  · rw [e2]
    constructor
    · intro h o ho hs; exact h o (List.mem_filter.2 ⟨ho, by simpa using hs⟩)
    · intro h o ho
      obtain ⟨h3, h4⟩ := List.mem_filter.1 ho
      exact h o h3 (by simpa using h4)
  · rw [e3]
    constructor
    · rintro ⟨o, ho, h⟩
      obtain ⟨h3, h4⟩ := List.mem_filter.1 ho
      exact ⟨o, h3, by simpa using h4, h⟩
    · rintro ⟨o, ho, hs, h⟩
      exact ⟨o, List.mem_filter.2 ⟨ho, by simpa using hs⟩, h⟩

end

/-- Factors of the numbers used below. -/
def factSample : Nat → List (Nat × Nat)
  | 2 => [(2, 1)]
  | 3 => [(3, 1)]
  | 6 => [(2, 1), (3, 1)]
  | _ => []

/-- C70 is false for orderings with factors: a layer with K = 6 and C = 2 and the ordering "K 6, then C" gives an order with 18 iterations of K. -/
theorem sized_order_false : generate (some "*") factSample ["K", "C"] [("K", 6), ("C", 2)] [] none [("K", some 6), ("C", none)]
    (fun o => .ok (o.map ofLex)) 10 = some ([[("K", 6), ("C", 2), ("K", 3)]], none) := by decide +kernel

/-- A complete ordering gives the one order (C70), a position-only ordering gives the orders that satisfy it. -/
example : generate (some "*") factSample ["K", "C"] [("K", 6), ("C", 2)] [] none [("K", some 3), ("C", some 2), ("K", some 2)]
    (fun o => .ok (o.map ofLex)) 10 = some ([[("K", 3), ("C", 2), ("K", 2)]], none) ∧
  generate (some "*") factSample ["K", "C"] [("K", 6), ("C", 2)] [] none [("C", none)]
    (fun o => .ok (o.map ofLex)) 10 = some ([[("C", 2), ("K", 3), ("K", 2)], [("C", 2), ("K", 2), ("K", 3)]], none) := by decide +kernel

end Verif.Ordering
