import Verif.Ordering.Props

/-! The orders that are tried for an ordering of the user from which the unknown dimensions have been removed (so that there is no wildcard). -/

namespace Verif.Ordering

variable {D : Type} [LinearOrder D]

/-- The order has the loops that the user lists, innermost first. -/
def Obeys (data : List (Entry D)) (o : Engine.Order D) : Prop := ∀ (i : Nat) (e : Entry D), data[i]? = some e → ∃ l, o[i]? = some l ∧ Matches l e

/-- All loops are listed with their sizes: they are exactly the temporal loops that are needed, and none has one iteration. -/
structure Complete (data : List (Entry D)) (t : Dict D Int) : Prop where
  sized : ∀ e ∈ data, e.2 ≠ none
  more : ∀ e ∈ data, given data e.1 ≠ 1
  exact : ∀ d, (given data d : Int) = (t.get? d).getD 1

/-- The orderings that are followed: those that only say which dimensions come first, and complete ones. -/
def Followed (sizes : Dict D Int) (spatial : List (D × Rat)) (data : List (Entry D)) : Prop :=
  (∀ e ∈ data, e.2 = none) ∨ ∃ t, TemporalLoops.lomaTemporalLoops sizes spatial = .ok t ∧ Complete data t

/-- The exceptions if there is no mapping: no order fits; the given complete order does not fit; more loops are listed than there are. -/
inductive Refusal (data : List (Entry D)) : PyErr → Prop
  | none : Refusal data .noValidOrdering
  | small {e : PyErr} : Engine.TooSmall e → (∀ x ∈ data, x.2 ≠ Option.none) → Refusal data e
  | long : (∃ x ∈ data, x.2 = Option.none) → Refusal data .indexError

theorem Refusal.ne {data : List (Entry D)} {e : PyErr} (h : Refusal data e) : e ≠ .zeroDivision := by
  rintro rfl
  rcases h with _ | ⟨h | h, -⟩ <;> cases h

theorem satisfies_none (data : List (Entry D)) (o : Engine.Order D) : Satisfies none data o ↔ Obeys data o := by
  have hp : ∀ i, place none data o.length i = i := by
    intro i
    unfold place
    rw [if_neg]
    rintro ⟨e, -, h, -⟩
    cases h
  unfold Satisfies Obeys
  refine forall₂_congr fun i e => ?_
  rw [hp]
  simp

theorem obeys_length {data : List (Entry D)} {o : Engine.Order D} (h : Obeys data o) : data.length ≤ o.length := by
  by_contra hc
  obtain ⟨l, hl, -⟩ := h o.length data[o.length] (List.getElem?_eq_getElem (by omega))
  simp at hl

/-- An order that is listed completely is the only one that obeys. -/
theorem obeys_user {data : List (Entry D)} (hc : ∀ e ∈ data, e.2 ≠ none) {o : Engine.Order D} (hl : o.length = data.length) : Obeys data o ↔ o = userOrder data := by
  constructor
  · intro h
    refine List.ext_getElem? fun i => ?_
    unfold userOrder
    rw [List.getElem?_map]
    by_cases hi : i < data.length
    · obtain ⟨l, h1, h2, h3⟩ := h i _ (List.getElem?_eq_getElem hi)
      rw [h1, List.getElem?_eq_getElem hi]
      simp only [Option.map_some, Option.some.injEq]
      cases hf : data[i].2 with
      | none => exact absurd hf (hc _ (List.getElem_mem hi))
      | some f =>
        have h3 := h3 f hf
        apply ofLex.injective
        rw [ofLex_toLex]
        exact Prod.ext h2 (by simpa using h3)
    · rw [List.getElem?_eq_none (by omega), List.getElem?_eq_none (by omega)]
      rfl
  · rintro rfl i e he
    refine ⟨toLex (e.1, e.2.getD 1), by unfold userOrder; rw [List.getElem?_map, he]; rfl, rfl, fun f hf => ?_⟩
    simp [hf]

theorem static_ok {dim : D ×ₗ Nat → D} {o : Engine.Order D} : ∀ {d : Dict Int D}, Multiperm.staticPositions dim d o = .ok true → ∀ x ∈ d, ∃ y, Multiperm.pyIdx o x.1 = .ok y
  | [], _, x, hx => by simp at hx
  | (pos, item) :: d, h, x, hx => by
    unfold Multiperm.staticPositions at h
    cases hp : Multiperm.pyIdx o pos with
    | error e => rw [hp] at h; cases h
    | ok y =>
      rw [hp] at h
      simp only at h
      split_ifs at h with hd
      · rcases List.mem_cons.1 hx with rfl | hx
        · exact ⟨y, hp⟩
        · exact static_ok h x hx
      · cases h

theorem static_error {dim : D ×ₗ Nat → D} {o : Engine.Order D} : ∀ {d : Dict Int D} {e : PyErr}, Multiperm.staticPositions dim d o = .error e → e = .indexError
  | [], e, h => by simp [Multiperm.staticPositions] at h
  | (pos, item) :: d, e, h => by
    unfold Multiperm.staticPositions at h
    cases hp : Multiperm.pyIdx o pos with
    | error x =>
      rw [hp] at h
      simp only [Except.error.injEq] at h
      subst h
      unfold Multiperm.pyIdx at hp
      simp only at hp
      split_ifs at hp
      · cases hp; rfl
      · split at hp <;> cases hp
        rfl
      · split at hp <;> cases hp
        rfl
    | ok y =>
      rw [hp] at h
      simp only at h
      split_ifs at h with hd
      exact static_error h

/-- Orders that are too short are not accepted. -/
theorem short_order {data : List (Entry D)} (hno : ∀ e ∈ data, e.2 = none) (hne : data ≠ []) {o : Engine.Order D} (hs : o.length < data.length) :
    Multiperm.allValid (asConstr (constraints none data)) o = .ok false ∨ Multiperm.allValid (asConstr (constraints none data)) o = .error .indexError := by
  have hsz := (plain none data hno hne []).2
  unfold asConstr
  rw [hsz]
  simp only [Multiperm.allValid, Multiperm.staticPositionsAndSizes]
  cases hv : Multiperm.staticPositions (fun l => (ofLex l).1) (constraints none data).pos o with
  | error e =>
    right
    rw [static_error hv]
  | ok b =>
    left
    cases b with
    | false => rfl
    | true =>
      exfalso
      obtain ⟨h1, -⟩ := cLoop_spec none data.length data ⟨[], [], false⟩ 0 (by simp) (by intro k hk; simp [Dict.keys] at hk) (by intro k hk; simp [Dict.keys] at hk)
      have hlt : data.length - 1 < data.length := by omega
      have hmem : (((data.length - 1 : Nat) : Int), data[data.length - 1].1) ∈ (constraints none data).pos := by
        refine (h1 _).2 (.inr ⟨data.length - 1, data[data.length - 1].1, ?_, by simp, ?_⟩)
        · rw [List.getElem?_eq_getElem hlt, Option.some.injEq]
          exact Prod.ext rfl (hno _ (List.getElem_mem hlt))
        · simp [keyOf, HasStar]
      obtain ⟨y, hy⟩ := static_ok hv _ hmem
      rcases (Multiperm.pyIdx_ok_iff _ _ _).1 hy with ⟨h2, h3⟩ | ⟨h2, -⟩
      · have := (List.getElem?_eq_some_iff.1 h3).1
        simp at this
        omega
      · simp at h2
        omega

theorem short_orders {data : List (Entry D)} (hno : ∀ e ∈ data, e.2 = none) (hne : data ≠ []) : ∀ {L : List (Engine.Order D)}, (∀ o ∈ L, o.length < data.length) →
    Multiperm.filterGen (asConstr (constraints none data)) L = ([], none) ∨ Multiperm.filterGen (asConstr (constraints none data)) L = ([], some .indexError)
  | [], _ => Or.inl rfl
  | o :: L, h => by
    unfold Multiperm.filterGen
    rcases short_order hno hne (h o List.mem_cons_self) with hv | hv
    · rw [hv]
      exact short_orders hno hne fun o ho => h o (List.mem_cons_of_mem _ ho)
    · rw [hv]
      exact Or.inr rfl

section
variable {T : Type} (fact : Nat → List (Nat × Nat)) (dims : List D) (sizes : Dict D Int) (spatial : List (D × Rat))
  (limit : Option Nat) (data : List (Entry D)) (alloc : Engine.Order D → Except PyErr T)

omit fact dims limit data alloc in
/-- The loops of a complete ordering are loops of the layer, with at least one iteration. -/
theorem complete_loops {sizes : Dict D Int} {spatial : List (D × Rat)} {data : List (Entry D)} (hw : sizes.WF) {t : Dict D Int}
    (ht : TemporalLoops.lomaTemporalLoops sizes spatial = .ok t) (hc : Complete data t) : (∀ e ∈ data, e.1 ∈ sizes.keys) ∧ ∀ e ∈ data, 1 ≤ e.2.getD 1 := by
  obtain ⟨hnk, hgt⟩ := TemporalLoops.loma_nontrivial sizes spatial hw t ht
  have key : ∀ e ∈ data, e.1 ∈ sizes.keys ∧ 1 ≤ e.2.getD 1 := by
    intro e he
    have hg : given data e.1 ≠ 1 := hc.more e he
    have hx := hc.exact e.1
    cases hte : t.get? e.1 with
    | none =>
      rw [hte] at hx
      simp only [Option.getD_none] at hx
      exact absurd (by exact_mod_cast hx) hg
    | some v =>
      have hv := hgt e.1 v (Dict.mem_of_get? hte)
      refine ⟨hv.2, ?_⟩
      rcases Nat.eq_zero_or_pos (e.2.getD 1) with h0 | h0
      · exfalso
        rw [hte] at hx
        simp only [Option.getD_some] at hx
        have : given data e.1 = 0 := by
          unfold given
          refine List.prod_eq_zero (List.mem_map.2 ⟨e, List.mem_filter.2 ⟨he, by simp⟩, h0⟩)
        rw [this] at hx
        have := hv.1
        omega
      · exact h0
  exact ⟨fun e he => (key e he).1, fun e he => (key e he).2⟩

open Classical in
omit limit in
/-- What is generated for an ordering that only says which dimensions come first, from the list of all orders. -/
theorem generate_plain {limit : Option Nat} {ld : D} {L : List (Engine.Order D)} {t : Dict D Int} {st : Dict D Lpf.Ent} (hperm : ∀ o ∈ L, ∀ o', o' ∈ L ↔ o'.Perm o)
    (ht : TemporalLoops.lomaTemporalLoops sizes spatial = .ok t) (hst : Lpf.getPrimeFactors fact (ld :: dims) (t.map (fun p => (p.1, p.2.toNat))) none limit = .ok st)
    {fuel : Nat} (hperms : Multiperm.permutations fuel ((Lpf.lpfsOf st).map (fun l => (toLex l : D ×ₗ Nat))) = .ok (some L)) {o₀ : Engine.Order D} (ho₀ : o₀ ∈ L)
    (hno : ∀ e ∈ data, e.2 = none) (hc : ¬ Complete data t) (hsmall : ∀ o e, alloc o = .error e → Engine.TooSmall e) :
    ∃ err, generate none fact (ld :: dims) sizes spatial limit data alloc fuel = some ((L.filter fun o => decide (Obeys data o)).filterMap (fun o => (alloc o).toOption), err) ∧
      (err = none ∧ (∃ o ∈ L.filter fun o => decide (Obeys data o), ∃ m, alloc o = .ok m) ∨
        (∃ e, err = some e ∧ Refusal data e) ∧ ∀ o ∈ L.filter fun o => decide (Obeys data o), ∃ e, alloc o = .error e) := by
  by_cases hne : data = []
  · subst hne
    have hall : (L.filter fun o => decide (Obeys [] o)) = L := by
      rw [List.filter_eq_self]
      intro o _
      simp [Obeys]
    rw [hall]
    have hinc : isComplete [] (t.map (fun p => (p.1, p.2.toNat))) = .ok false := by
      cases t with
      | nil =>
        exfalso
        exact hc ⟨by simp, by simp, by simp [given]⟩
      | cons p t => simp [isComplete, sameDict]
    have hgen : generate none fact (ld :: dims) sizes spatial limit [] alloc fuel = some (Engine.orderLoop alloc L false) := by
      unfold generate
      rw [ht]; simp only; rw [hinc]; simp only
      rw [if_pos (by simp [constraints, cLoop])]
      unfold Engine.run
      rw [ht]; simp only; rw [hst]; simp only; rw [hperms]
    obtain ⟨e1, e2, e3⟩ := Engine.engine_yields_fitting alloc L (fun o _ e he => hsmall o e he)
    refine ⟨_, by rw [hgen, ← e1], ?_⟩
    by_cases hok : ∃ o ∈ L, ∃ m, alloc o = .ok m
    · exact Or.inl ⟨e3.2 hok, hok⟩
    · right
      have : ∀ o ∈ L, ∃ e, alloc o = .error e := fun o ho => by
        cases ha : alloc o with
        | error e => exact ⟨e, rfl⟩
        | ok m => exact absurd ⟨o, ho, m, ha⟩ hok
      exact ⟨⟨_, e2.2 this, .none⟩, this⟩
  · obtain ⟨hinc, hsz⟩ := plain none data hno hne (t.map (fun p => (p.1, p.2.toNat)))
    have hps : (constraints none data).pos ≠ [] := by
      obtain ⟨h1, -⟩ := cLoop_spec none data.length data ⟨[], [], false⟩ 0 (by simp) (by intro k hk; simp [Dict.keys] at hk) (by intro k hk; simp [Dict.keys] at hk)
      obtain ⟨e, he⟩ := List.exists_mem_of_ne_nil _ hne
      obtain ⟨i, hi, hie⟩ := List.getElem_of_mem he
      refine List.ne_nil_of_mem ((h1 _).2 (.inr ⟨i, e.1, ?_, by simp, rfl⟩))
      rw [List.getElem?_eq_getElem hi, hie, ← hno e he]
    have hst' : Lpf.getPrimeFactors fact (ld :: dims) (t.map (fun p => (p.1, p.2.toNat))) (some []) limit = .ok st := hst
    have hcon := Multiperm.constrained_eq_scan _ (asConstr (constraints none data)) _ _ (hperms)
    have hgen : ∀ l x, Multiperm.filterGen (asConstr (constraints none data)) L = (l, x) → generate none fact (ld :: dims) sizes spatial limit data alloc fuel =
        match x with
        | none => some (Engine.orderLoop alloc l false)
        | some e => some ((Engine.orderLoop alloc l true).1, some ((Engine.orderLoop alloc l true).2.getD e)) := by
      intro l x hx
      unfold generate
      rw [ht]; simp only; rw [hinc]; simp only
      rw [if_neg (fun h => hps h.1)]
      unfold runC
      rw [ht]; simp only; rw [hsz]; simp only [List.map_nil]; rw [hst']; simp only; rw [hcon, hx]
      cases x <;> rfl
    have hsame : ∀ o ∈ L, o.length = o₀.length := fun o ho => ((hperm o₀ ho₀ o).1 ho).length_eq
    by_cases hlen : data.length ≤ o₀.length
    · have hfg := filterGen_sat none data L fun o ho => by rw [hsame o ho]; exact hlen
      have hfl : (L.filter fun o => decide (Satisfies none data o)) = L.filter fun o => decide (Obeys data o) :=
        List.filter_congr fun o _ => by rw [decide_eq_decide]; exact satisfies_none data o
      have hg := hgen _ _ hfg
      simp only at hg
      have hfl' : (L.filter fun o => @decide (Satisfies none data o) (Classical.propDecidable _)) = L.filter fun o => decide (Obeys data o) := by
        rw [← hfl]
      rw [hfl'] at hg
      obtain ⟨e1, e2, e3⟩ := Engine.engine_yields_fitting alloc (L.filter fun o => decide (Obeys data o)) (fun o _ e he => hsmall o e he)
      refine ⟨_, by rw [hg, ← e1], ?_⟩
      by_cases hok : ∃ o ∈ L.filter fun o => decide (Obeys data o), ∃ m, alloc o = .ok m
      · exact Or.inl ⟨e3.2 hok, hok⟩
      · right
        have : ∀ o ∈ L.filter fun o => decide (Obeys data o), ∃ e, alloc o = .error e := fun o ho => by
          cases ha : alloc o with
          | error e => exact ⟨e, rfl⟩
          | ok m => exact absurd ⟨o, ho, m, ha⟩ hok
        exact ⟨⟨_, e2.2 this, .none⟩, this⟩
    · have hnil : (L.filter fun o => decide (Obeys data o)) = [] := by
        rw [List.filter_eq_nil_iff]
        intro o ho h
        have := obeys_length (by simpa using h : Obeys data o)
        rw [hsame o ho] at this
        exact hlen this
      rw [hnil]
      obtain ⟨e, he⟩ := List.exists_mem_of_ne_nil _ hne
      rcases short_orders hno hne (L := L) (fun o ho => by rw [hsame o ho]; omega) with h | h
      · refine ⟨some .noValidOrdering, by rw [hgen _ _ h]; rfl, Or.inr ⟨⟨_, rfl, .none⟩, by simp⟩⟩
      · refine ⟨some .indexError, by rw [hgen _ _ h]; rfl, Or.inr ⟨⟨_, rfl, .long ⟨e, he, hno e he⟩⟩, by simp⟩⟩

/-- What is generated for an ordering that is followed: the mappings of the orders of certain loops which obey the ordering, each order once, for which the
loops fit; the loops are enough for the layer. -/
theorem generate_followed (hf : Lpf.FactContract fact) (ld : D) (hw : sizes.WF) (hpos : ∀ k v, sizes.get? k = some v → 1 ≤ v)
    (hsp : ∀ l ∈ spatial, 1 ≤ l.2) (hlim : ∀ l, limit = some l → 1 ≤ l) (hld : ld ∈ sizes.keys) (hd : Followed sizes spatial data)
    (hsmall : ∀ o e, alloc o = .error e → Engine.TooSmall e) :
    ∃ (N : Nat) (o₀ : Engine.Order D) (L : List (Engine.Order D)), L.Nodup ∧ (∀ o, o ∈ L ↔ o.Perm o₀ ∧ Obeys data o) ∧
      (∀ d s, sizes.get? d = some s → (s : ℚ) ≤ ((spatial.filter (fun l => l.1 = d)).map Prod.snd).prod * Engine.iterQ (Engine.toAlloc o₀) d) ∧
      (∀ l ∈ Engine.toAlloc o₀, l.1 ∈ sizes.keys ∧ ∃ n : ℕ, l.2 = n ∧ 1 ≤ n) ∧
      ∀ fuel, N ≤ fuel → ∃ err, generate none fact (ld :: dims) sizes spatial limit data alloc fuel = some (L.filterMap (fun o => (alloc o).toOption), err) ∧
        (err = none ∧ (∃ o ∈ L, ∃ m, alloc o = .ok m) ∨ (∃ e, err = some e ∧ Refusal data e) ∧ ∀ o ∈ L, ∃ e, alloc o = .error e) := by
  obtain ⟨N, L, t, st, hnd, hL, hperm, hcov, hloop, ht, hst, hperms⟩ := parts fact dims sizes spatial limit hf ld hw hpos hsp hlim
  obtain ⟨hnk, hgt⟩ := TemporalLoops.loma_nontrivial sizes spatial hw t ht
  by_cases hc : Complete data t
  · have hone : ∀ o : Engine.Order D, o ∈ [userOrder data] ↔ o.Perm (userOrder data) ∧ Obeys data o := by
      intro o
      rw [List.mem_singleton]
      constructor
      · rintro rfl
        exact ⟨List.Perm.refl _, (obeys_user hc.sized (by simp [userOrder])).2 rfl⟩
      · rintro ⟨h1, h2⟩
        exact (obeys_user hc.sized (by rw [h1.length_eq]; simp [userOrder])).1 h2
    refine ⟨0, userOrder data, [userOrder data], List.nodup_singleton _, hone, ?_, ?_, fun fuel _ => ?_⟩
    · exact (complete_order none fact dims sizes spatial limit data alloc hw hpos hsp t ht hc.sized hc.more hc.exact 0).2.2
    · intro l hl
      unfold Engine.toAlloc userOrder at hl
      rw [List.map_map] at hl
      obtain ⟨e, he, rfl⟩ := List.mem_map.1 hl
      simp only [Function.comp, ofLex_toLex]
      obtain ⟨h1, h2⟩ := complete_loops hw ht hc
      exact ⟨h1 e he, e.2.getD 1, rfl, h2 e he⟩
    · obtain ⟨h1, h2, -⟩ := complete_order none fact (ld :: dims) sizes spatial limit data alloc hw hpos hsp t ht hc.sized hc.more hc.exact fuel
      cases ha : alloc (userOrder data) with
      | ok m =>
        refine ⟨none, ?_, Or.inl ⟨rfl, _, List.mem_singleton_self _, m, ha⟩⟩
        rw [h1 m ha]
        simp [ha, Except.toOption]
      | error e =>
        refine ⟨some e, ?_, Or.inr ⟨⟨e, rfl, .small (hsmall _ _ ha) hc.sized⟩, fun o ho => ?_⟩⟩
        · rw [h2 e ha]
          simp [ha, Except.toOption]
        · rw [List.mem_singleton.1 ho]
          exact ⟨e, ha⟩
  · have hno : ∀ e ∈ data, e.2 = none := by
      rcases hd with h | ⟨t', h1, h2⟩
      · exact h
      · rw [ht] at h1
        cases h1
        exact absurd h2 hc
    obtain ⟨o₀, ho₀⟩ := List.exists_mem_of_ne_nil _ hL
    have hlp : ∀ l ∈ Engine.toAlloc o₀, l.1 ∈ sizes.keys ∧ ∃ n : ℕ, l.2 = n ∧ 1 ≤ n := by
      intro l hl
      obtain ⟨h1, h2⟩ := hloop o₀ ho₀ l hl
      refine ⟨?_, h2⟩
      rcases h1 with h1 | rfl
      · exact h1
      · exact hld
    classical
    have hmem : ∀ o, o ∈ (L.filter fun o => decide (Obeys data o)) ↔ o.Perm o₀ ∧ Obeys data o := by
      intro o
      rw [List.mem_filter, hperm o₀ ho₀ o]
      simp
    refine ⟨N, o₀, L.filter fun o => decide (Obeys data o), hnd.filter _, hmem, hcov o₀ ho₀, hlp, fun fuel hfu => ?_⟩
    exact generate_plain fact dims sizes spatial data alloc hperm ht hst (hperms fuel hfu) ho₀ hno hc hsmall

open Classical in
/-- An ordering that only says which dimensions come first takes mappings away, if a temporal loop is left. -/
theorem generate_less (hf : Lpf.FactContract fact) (ld : D) (hw : sizes.WF) (hpos : ∀ k v, sizes.get? k = some v → 1 ≤ v)
    (hsp : ∀ l ∈ spatial, 1 ≤ l.2) (hlim : ∀ l, limit = some l → 1 ≤ l) (hno : ∀ e ∈ data, e.2 = none)
    (hleft : ∀ t, TemporalLoops.lomaTemporalLoops sizes spatial = .ok t → t ≠ [])
    (hsmall : ∀ o e, alloc o = .error e → Engine.TooSmall e) :
    ∃ N, ∀ fuel, N ≤ fuel → ∃ l err l' err', generate none fact (ld :: dims) sizes spatial limit data alloc fuel = some (l, err) ∧
      generate none fact (ld :: dims) sizes spatial limit [] alloc fuel = some (l', err') ∧ l.Sublist l' ∧ (err = none → err' = none) := by
  obtain ⟨N, L, t, st, hnd, hL, hperm, hcov, hloop, ht, hst, hperms⟩ := parts fact dims sizes spatial limit hf ld hw hpos hsp hlim
  obtain ⟨hnk, hgt⟩ := TemporalLoops.loma_nontrivial sizes spatial hw t ht
  have hinc : ∀ data : List (Entry D), (∀ e ∈ data, e.2 = none) → ¬ Complete data t := by
    intro data hno hc
    cases data with
    | cons e l => exact hc.sized e List.mem_cons_self (hno e List.mem_cons_self)
    | nil =>
      obtain ⟨x, hx⟩ := List.exists_mem_of_ne_nil _ (hleft t ht)
      have h1 := hc.exact x.1
      rw [Dict.get?_of_mem hnk (show (x.1, x.2) ∈ t from hx)] at h1
      have h2 := (hgt x.1 x.2 hx).1
      simp [given] at h1
      omega
  obtain ⟨o₀, ho₀⟩ := List.exists_mem_of_ne_nil _ hL
  refine ⟨N, fun fuel hfu => ?_⟩
  obtain ⟨err, h1, h2⟩ := generate_plain fact dims sizes spatial data alloc hperm ht hst (hperms fuel hfu) ho₀ hno (hinc data hno) hsmall
  obtain ⟨err', h3, h4⟩ := generate_plain fact dims sizes spatial [] alloc hperm ht hst (hperms fuel hfu) ho₀ (by simp) (hinc [] (by simp)) hsmall
  have hall : (L.filter fun o => decide (Obeys [] o)) = L := by
    rw [List.filter_eq_self]
    intro o _
    simp [Obeys]
  rw [hall] at h3 h4
  refine ⟨_, err, _, err', h1, h3, List.Sublist.filterMap _ (List.filter_sublist), fun he => ?_⟩
  rcases h2 with ⟨-, o, ho, m, hm⟩ | ⟨⟨e, h5, -⟩, -⟩
  · rcases h4 with ⟨h6, -⟩ | ⟨-, h6⟩
    · exact h6
    · obtain ⟨e, h7⟩ := h6 o (List.mem_filter.1 ho).1
      rw [hm] at h7
      cases h7
  · rw [he] at h5
    cases h5

end

end Verif.Ordering
