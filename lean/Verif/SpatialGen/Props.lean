import Verif.SpatialGen.Generate

/-! C25: the generated spatial mappings. -/

namespace Verif.SpatialGen

open Verif.SpatialMapping

variable {OA Dim : Type} [DecidableEq OA] [DecidableEq Dim]

/-! ### specification -/

/-- An unrolling of one array dimension that respects the hints: one hinted layer dimension unrolled by a divisor of its maximal
unrolling, or (mixed mappings) at least two hinted layer dimensions unrolled by divisors larger than one that fit together. -/
def OaChoice (mix : Bool) (hints : List Dim) (mx : Dict Dim Nat) (s : Nat) (l : Dict Dim ℚ) : Prop :=
  (∃ d ∈ hints, ∃ n f : Nat, mx.get? d = some n ∧ 0 < n ∧ 0 < f ∧ f ∣ n ∧ l = [(d, (f : ℚ))]) ∨
  (mix = true ∧ 2 ≤ l.length ∧ (l.map Prod.fst).Sublist hints ∧
    (∀ x ∈ l, ∃ n f : Nat, mx.get? x.1 = some n ∧ 0 < n ∧ 1 < f ∧ f ∣ n ∧ x.2 = f) ∧ (l.map Prod.snd).prod ≤ s)

/-- A completion of the user mapping `t`. -/
def IsCandidate (i : Inputs OA Dim) (maxU : Dict OA (Dict Dim Nat)) (t m : SM OA Dim) : Prop :=
  ∃ es : List (OA × Dict Dim ℚ), m = t ++ es ∧ es.map Prod.fst = toFill i t ∧
    ∀ e ∈ es, ∃ h mx s, i.hints.get? e.1 = some h ∧ maxU.get? e.1 = some mx ∧ i.oaSizes.get? e.1 = some s ∧ OaChoice i.mix h mx s e.2

/-- Inputs as the code builds them: dictionaries and sets have no duplicates, user unrollings are whole numbers. The hints may name dimensions that the layer
does not have. -/
structure InputsOk (i : Inputs OA Dim) : Prop where
  oas : i.oaSizes.WF
  dims : i.sizes.WF
  user : SMWF i.provided
  nat : NatSM i.provided
  served : ∀ mo ∈ i.mems, mo.served.Nodup
  hints : ∀ oa h, i.hints.get? oa = some h → h.Nodup
  capOrder : ∀ l, (i.capOrder l).Perm l

/-! ### choices for one array dimension -/

theorem mem_singles (hints : List Dim) (mx : Dict Dim Nat) (l : Dict Dim ℚ) :
    l ∈ singles hints mx ↔ ∃ d ∈ hints, ∃ n f : Nat, mx.get? d = some n ∧ 0 < n ∧ 0 < f ∧ f ∣ n ∧ l = [(d, (f : ℚ))] := by
  unfold singles
  rw [List.mem_flatMap]
  constructor
  · rintro ⟨d, hd, h⟩
    cases hn : mx.get? d with
    | none => rw [hn] at h; simp at h
    | some n =>
      rw [hn] at h
      simp only [List.mem_map, List.mem_reverse] at h
      obtain ⟨f, hf, rfl⟩ := h
      obtain ⟨h1, h2, h3⟩ := mem_divisors.1 hf
      exact ⟨d, hd, n, f, hn, h3, h1, h2, rfl⟩
  · rintro ⟨d, hd, n, f, hn, h3, h1, h2, rfl⟩
    refine ⟨d, hd, ?_⟩
    rw [hn]
    simp only [List.mem_map, List.mem_reverse]
    exact ⟨f, mem_divisors.2 ⟨h1, h2, h3⟩, rfl⟩

theorem mem_mixed (hints : List Dim) (mx : Dict Dim Nat) (l : Dict Dim ℚ) :
    l ∈ mixed hints mx ↔ 2 ≤ l.length ∧ (l.map Prod.fst).Sublist hints ∧
      ∀ x ∈ l, (∃ n f : Nat, mx.get? x.1 = some n ∧ 0 < n ∧ 1 < f ∧ f ∣ n ∧ x.2 = f) ∨ (mx.get? x.1 = none ∧ x.2 = 0) := by
  have hpool : ∀ d ∈ hints, ∀ f, f ∈ pool mx d ↔ (∃ n, mx.get? d = some n ∧ 0 < n ∧ 1 < f ∧ f ∣ n) ∨ (mx.get? d = none ∧ f = 0) := by
    intro d hd f
    unfold pool
    cases hn : mx.get? d with
    | none => simp
    | some n =>
      unfold nonTrivial
      simp only [List.mem_filter, decide_eq_true_eq, mem_divisors, Option.some.injEq, exists_eq_left', reduceCtorEq, false_and, or_false]
      constructor
      · rintro ⟨⟨h1, h2, h3⟩, h4, _⟩; exact ⟨h3, h4, h2⟩
      · rintro ⟨h1, h2, h3⟩; exact ⟨⟨by omega, h3, h1⟩, h2, Nat.le_of_dvd h1 h3⟩
  unfold mixed
  simp only [List.mem_flatMap, List.mem_map, mem_combinations, mem_pyProduct]
  constructor
  · rintro ⟨k, hk2, mix, ⟨hsub, hlen⟩, fs, hfs, rfl⟩
    have hk2 : 2 ≤ k := by simp [List.mem_range'] at hk2; omega
    rw [List.forall₂_map_right_iff] at hfs
    have hl := hfs.length_eq
    have hfst : (mix.zip (fs.map (fun f : Nat => (f : ℚ)))).map Prod.fst = mix := by
      rw [List.map_fst_zip]; simp [hl]
    refine ⟨by simp [hl]; omega, by rw [hfst]; exact hsub, ?_⟩
    intro x hx
    have key : ∀ (mix : List Dim) (fs : List Nat), List.Forall₂ (fun f d => f ∈ pool mx d) fs mix → ∀ x ∈ mix.zip (fs.map (fun f : Nat => (f : ℚ))),
        ∃ f : Nat, f ∈ pool mx x.1 ∧ x.2 = f ∧ x.1 ∈ mix := by
      intro mix fs h
      induction h with
      | nil => simp
      | @cons f d _ _ hfd _ ih =>
        intro x hx
        rw [List.map_cons, List.zip_cons_cons] at hx
        rcases List.mem_cons.1 hx with rfl | hx
        · exact ⟨f, hfd, rfl, by simp⟩
        · obtain ⟨f', h1, h2, h3⟩ := ih x hx
          exact ⟨f', h1, h2, by simp [h3]⟩
    obtain ⟨f, hf, he, hm⟩ := key mix fs hfs x hx
    rcases (hpool x.1 (hsub.subset hm) f).1 hf with ⟨n, hn, h0, h1, h2⟩ | ⟨hn, h0⟩
    · exact Or.inl ⟨n, f, hn, h0, h1, h2, he⟩
    · exact Or.inr ⟨hn, by rw [he, h0]; simp⟩
  · rintro ⟨hlen, hsub, hall⟩
    refine ⟨l.length, ?_, l.map Prod.fst, ⟨hsub, by simp⟩, ?_⟩
    · have := hsub.length_le
      simp only [List.length_map] at this
      simp [List.mem_range']
      exact ⟨l.length - 2, by omega, by omega⟩
    · have hsub' : ∀ x ∈ l, x.1 ∈ hints := fun x hx => hsub.subset (List.mem_map.2 ⟨x, hx, rfl⟩)
      clear hlen hsub
      induction l with
      | nil => exact ⟨[], by simp, rfl⟩
      | cons x t ih =>
        obtain ⟨fs, h1, h2⟩ := ih (fun y hy => hall y (by simp [hy])) (fun y hy => hsub' y (by simp [hy]))
        rcases hall x (by simp) with ⟨n, f, hn, h0, h3, h4, h5⟩ | ⟨hn, h5⟩
        · refine ⟨f :: fs, List.Forall₂.cons ((hpool x.1 (hsub' x (by simp)) f).2 (Or.inl ⟨n, hn, h0, h3, h4⟩)) h1, ?_⟩
          simp only [List.map_cons, List.zip_cons_cons, h2, ← h5]
        · refine ⟨0 :: fs, List.Forall₂.cons ((hpool x.1 (hsub' x (by simp)) 0).2 (Or.inr ⟨hn, rfl⟩)) h1, ?_⟩
          simp only [List.map_cons, List.zip_cons_cons, h2, Nat.cast_zero, ← h5]

/-- What the generator of one array dimension produces: in mixed unrollings a hinted dimension that the layer does not have is unrolled zero times. -/
def OaRaw (mix : Bool) (hints : List Dim) (mx : Dict Dim Nat) (s : Nat) (l : Dict Dim ℚ) : Prop :=
  (∃ d ∈ hints, ∃ n f : Nat, mx.get? d = some n ∧ 0 < n ∧ 0 < f ∧ f ∣ n ∧ l = [(d, (f : ℚ))]) ∨
  (mix = true ∧ 2 ≤ l.length ∧ (l.map Prod.fst).Sublist hints ∧
    (∀ x ∈ l, (∃ n f : Nat, mx.get? x.1 = some n ∧ 0 < n ∧ 1 < f ∧ f ∣ n ∧ x.2 = f) ∨ (mx.get? x.1 = none ∧ x.2 = 0)) ∧ (l.map Prod.snd).prod ≤ s)

theorem mem_singleOa (mix : Bool) (hints : List Dim) (mx : Dict Dim Nat) (s : Nat) (l : Dict Dim ℚ) :
    l ∈ singleOa mix hints mx s ↔ OaRaw mix hints mx s l := by
  unfold singleOa OaRaw
  rw [List.mem_append, mem_singles]
  apply or_congr Iff.rfl
  cases mix with
  | false => simp
  | true =>
    simp only [if_true, List.mem_filter, mem_mixed hints mx, decide_eq_true_eq, true_and]
    unfold util
    tauto

theorem oaChoice_iff (mix : Bool) (hints : List Dim) (mx : Dict Dim Nat) (s : Nat) (l : Dict Dim ℚ) :
    OaChoice mix hints mx s l ↔ OaRaw mix hints mx s l ∧ ∀ x ∈ l, x.1 ∈ mx.keys := by
  have hin : ∀ {d : Dim} {n : Nat}, mx.get? d = some n → d ∈ mx.keys := by
    intro d n h
    by_contra hc
    rw [(Dict.get?_eq_none_iff _ _).2 hc] at h
    cases h
  constructor
  · rintro (⟨d, hd, n, f, h, r⟩ | ⟨hm, hl, hs, ha, hp⟩)
    · refine ⟨Or.inl ⟨d, hd, n, f, h, r⟩, ?_⟩
      rw [r.2.2.2]
      intro x hx
      rw [List.mem_singleton.1 hx]
      exact hin h
    · refine ⟨Or.inr ⟨hm, hl, hs, fun x hx => Or.inl (ha x hx), hp⟩, fun x hx => ?_⟩
      obtain ⟨n, f, h, -⟩ := ha x hx
      exact hin h
  · rintro ⟨⟨d, hd, n, f, h, r⟩ | ⟨hm, hl, hs, ha, hp⟩, hk⟩
    · exact Or.inl ⟨d, hd, n, f, h, r⟩
    · refine Or.inr ⟨hm, hl, hs, fun x hx => ?_, hp⟩
      rcases ha x hx with h | ⟨h, -⟩
      · exact h
      · exact absurd (hk x hx) ((Dict.get?_eq_none_iff _ _).1 h)

/-- C25: the choices generated for one array dimension that only unroll dimensions of the layer are exactly the ones allowed by the hints. -/
theorem single_oa_exact (mix : Bool) (hints : List Dim) (mx : Dict Dim Nat) (s : Nat) (l : Dict Dim ℚ) :
    (l ∈ singleOa mix hints mx s ∧ ∀ x ∈ l, x.1 ∈ mx.keys) ↔ OaChoice mix hints mx s l := by
  rw [mem_singleOa, oaChoice_iff]

theorem combinations_nodup {α : Type} : ∀ (k : Nat) (l : List α), l.Nodup → (combinations k l).Nodup
  | 0, l, _ => by unfold combinations; simp
  | k + 1, [], _ => by unfold combinations; simp
  | k + 1, x :: t, h => by
    obtain ⟨hx, ht⟩ := List.nodup_cons.1 h
    unfold combinations
    rw [List.nodup_append]
    refine ⟨(combinations_nodup k t ht).map (fun a b hab => (List.cons.inj hab).2), combinations_nodup (k + 1) t ht, ?_⟩
    rintro a ha _ hb rfl
    obtain ⟨r, _, rfl⟩ := List.mem_map.1 ha
    have := ((mem_combinations (k + 1) t _).1 hb).1
    exact hx (this.subset (by simp))

theorem pyProduct_nodup {α : Type} : ∀ (ls : List (List α)), (∀ l ∈ ls, l.Nodup) → (pyProduct ls).Nodup
  | [], _ => by simp [pyProduct]
  | l :: t, h => by
    unfold pyProduct
    rw [List.nodup_flatMap]
    refine ⟨fun x _ => (pyProduct_nodup t (fun y hy => h y (by simp [hy]))).map (fun a b hab => (List.cons.inj hab).2), ?_⟩
    refine (h l (by simp)).imp ?_
    intro a b hab r hr1 hr2
    obtain ⟨r1, _, rfl⟩ := List.mem_map.1 hr1
    obtain ⟨r2, _, e⟩ := List.mem_map.1 hr2
    exact hab (List.cons.inj e).1.symm

theorem divisors_nodup (n : Nat) : (divisors n).Nodup := List.nodup_range.filter _

theorem pool_nodup (mx : Dict Dim Nat) (d : Dim) : (pool mx d).Nodup := by
  unfold pool
  cases mx.get? d with
  | none => simp
  | some n => exact (divisors_nodup n).filter _

theorem singles_nodup (hints : List Dim) (mx : Dict Dim Nat) (hn : hints.Nodup) : (singles hints mx).Nodup := by
  unfold singles
  rw [List.nodup_flatMap]
  constructor
  · intro d _
    cases mx.get? d with
    | none => simp
    | some n =>
      refine (List.nodup_reverse.2 (divisors_nodup n)).map ?_
      intro a b hab
      simpa using hab
  · refine hn.imp ?_
    intro a b hab l h1 h2
    have key : ∀ d, l ∈ (match mx.get? d with | none => ([] : List (Dict Dim ℚ)) | some n => (divisors n).reverse.map (fun f : Nat => [(d, (f : ℚ))])) → l.map Prod.fst = [d] := by
      intro d h
      cases hd : mx.get? d with
      | none => rw [hd] at h; simp at h
      | some n =>
        rw [hd] at h
        obtain ⟨f, _, rfl⟩ := List.mem_map.1 h
        rfl
    have e1 := key a h1
    have e2 := key b h2
    rw [e1] at e2
    exact hab (by simpa using e2)

theorem mixed_nodup (hints : List Dim) (mx : Dict Dim Nat) (hn : hints.Nodup) : (mixed hints mx).Nodup := by
  have keyl : ∀ mix : List Dim, ∀ l ∈ (pyProduct (mix.map (pool mx))).map (fun fs => mix.zip (fs.map (fun f : Nat => (f : ℚ)))), l.map Prod.fst = mix := by
    intro mix l hl
    obtain ⟨fs, hfs, rfl⟩ := List.mem_map.1 hl
    have := ((mem_pyProduct _ _).1 hfs).length_eq
    rw [List.map_fst_zip]
    simp at this
    simp [this]
  unfold mixed
  rw [List.nodup_flatMap]
  constructor
  · intro k _
    rw [List.nodup_flatMap]
    constructor
    · intro mix _
      apply List.Nodup.map_on
      · intro a ha b hb hab
        have la := ((mem_pyProduct _ _).1 ha).length_eq
        have lb := ((mem_pyProduct _ _).1 hb).length_eq
        simp at la lb
        have h2 := congrArg (List.map Prod.snd) hab
        rw [List.map_snd_zip (by simp [la]), List.map_snd_zip (by simp [lb])] at h2
        exact (List.map_injective_iff.2 Nat.cast_injective) h2
      · exact pyProduct_nodup _ (fun l hl => by obtain ⟨d, _, rfl⟩ := List.mem_map.1 hl; exact pool_nodup mx d)
    · refine (combinations_nodup k hints hn).imp ?_
      intro a b hab l h1 h2
      exact hab ((keyl a l h1).symm.trans (keyl b l h2))
  · refine (List.nodup_range' (step := 1)).imp ?_
    intro a b hab l h1 h2
    obtain ⟨m1, hm1, h1⟩ := List.mem_flatMap.1 h1
    obtain ⟨m2, hm2, h2⟩ := List.mem_flatMap.1 h2
    have e1 := keyl m1 l h1
    have e2 := keyl m2 l h2
    have l1 := ((mem_combinations _ _ _).1 hm1).2
    have l2 := ((mem_combinations _ _ _).1 hm2).2
    exact hab (by rw [← l1, ← l2, ← e1, ← e2])

theorem singleOa_nodup (mix : Bool) (hints : List Dim) (mx : Dict Dim Nat) (s : Nat) (hn : hints.Nodup) : (singleOa mix hints mx s).Nodup := by
  unfold singleOa
  rw [List.nodup_append]
  refine ⟨singles_nodup hints mx hn, ?_, ?_⟩
  · cases mix with
    | false => simp
    | true => exact (mixed_nodup hints mx hn).filter _
  · rintro a ha _ hb rfl
    obtain ⟨_, _, _, _, _, _, _, _, rfl⟩ := (mem_singles hints mx a).1 ha
    cases mix with
    | false => simp at hb
    | true =>
      have := ((mem_mixed hints mx _).1 (List.mem_filter.1 hb).1).1
      simp at this

theorem perOa_spec (i : Inputs OA Dim) (maxU : Dict OA (Dict Dim Nat)) : ∀ (fill : List OA) (heap : List (List (Dict Dim ℚ))), perOa i maxU fill = .ok heap →
    List.Forall₂ (fun oa l => ∃ h mx s, i.hints.get? oa = some h ∧ maxU.get? oa = some mx ∧ i.oaSizes.get? oa = some s ∧ l = singleOa i.mix h mx s) fill heap
  | [], heap, h => by unfold perOa at h; cases h; exact List.Forall₂.nil
  | oa :: t, heap, h => by
    unfold perOa at h
    cases h1 : i.hints.get? oa with
    | none => rw [h1] at h; cases h
    | some hh =>
      rw [h1] at h
      simp only at h
      cases h2 : maxU.get? oa with
      | none => rw [h2] at h; cases h
      | some mx =>
        rw [h2] at h
        simp only at h
        cases h3 : i.oaSizes.get? oa with
        | none => rw [h3] at h; cases h
        | some s =>
          rw [h3] at h
          simp only at h
          cases h4 : perOa i maxU t with
          | error e => rw [h4] at h; cases h
          | ok r =>
            rw [h4] at h
            cases h
            exact List.Forall₂.cons ⟨hh, mx, s, h1, h2, h3, rfl⟩ (perOa_spec i maxU t r h4)

theorem oaRaw_ok {mix : Bool} {hints : List Dim} {mx : Dict Dim Nat} {s : Nat} {l : Dict Dim ℚ} (hn : hints.Nodup) (h : OaRaw mix hints mx s l) :
    l.WF ∧ ∀ y ∈ l, IsNat y.2 := by
  rcases h with ⟨d, _, n, f, _, _, _, _, rfl⟩ | ⟨_, _, hsub, hall, _⟩
  · refine ⟨by simp [Dict.WF, Dict.keys], ?_⟩
    intro y hy
    rw [List.mem_singleton.1 hy]
    exact ⟨f, rfl⟩
  · refine ⟨hn.sublist hsub, ?_⟩
    intro y hy
    rcases hall y hy with ⟨_, f, _, _, _, _, e⟩ | ⟨_, e⟩
    · exact ⟨f, e⟩
    · exact ⟨0, by rw [e]; simp⟩

theorem perOa_heap (i : Inputs OA Dim) (ok : InputsOk i) (maxU : Dict OA (Dict Dim Nat))
    (fill : List OA) (heap : List (List (Dict Dim ℚ))) (h : perOa i maxU fill = .ok heap) :
    HeapOk heap ∧ (∀ l ∈ heap, l.Nodup) ∧
      List.Forall₂ (fun oa l => ∃ h mx s, i.hints.get? oa = some h ∧ maxU.get? oa = some mx ∧ i.oaSizes.get? oa = some s ∧ ∀ x, x ∈ l ↔ OaRaw i.mix h mx s x) fill heap := by
  have hs := perOa_spec i maxU fill heap h
  refine ⟨?_, ?_, ?_⟩
  · intro l hl x hx
    obtain ⟨oa, _, hh, mx, s, h1, h2, h3, rfl⟩ := forall₂_mem_right hs hl
    exact oaRaw_ok (ok.hints oa hh h1) ((mem_singleOa i.mix hh mx s x).1 hx)
  · intro l hl
    obtain ⟨oa, _, hh, mx, s, h1, h2, h3, rfl⟩ := forall₂_mem_right hs hl
    exact singleOa_nodup i.mix hh mx s (ok.hints oa hh h1)
  · refine hs.imp ?_
    rintro oa l ⟨hh, mx, s, h1, h2, h3, rfl⟩
    exact ⟨hh, mx, s, h1, h2, h3, mem_singleOa i.mix hh mx s⟩

/-! ### candidates -/

theorem toFill_nodup (i : Inputs OA Dim) (ok : InputsOk i) (t : SM OA Dim) : (toFill i t).Nodup := List.Nodup.filter _ ok.oas

theorem toFill_disj (i : Inputs OA Dim) (t : SM OA Dim) : ∀ oa ∈ toFill i t, oa ∉ t.keys := by
  intro oa h
  have := (List.mem_filter.1 h).2
  simpa using this

/-- The candidates as mappings. -/
def candList (i : Inputs OA Dim) (t : SM OA Dim) (heap : List (List (Dict Dim ℚ))) : List (SM OA Dim) :=
  (pyProduct heap).map (fun comb => t ++ (toFill i t).zip comb)

theorem allCands_resolve (i : Inputs OA Dim) (ok : InputsOk i) (t : SM OA Dim) (heap : List (List (Dict Dim ℚ))) :
    (allCands t heap).map (resolve (toFill i t) heap) = candList i t heap := by
  unfold allCands candList
  rw [← picks_product heap, List.map_map, List.map_map]
  apply List.map_congr_left
  intro ch _
  exact resolve_eq (toFill_nodup i ok t) (toFill_disj i t)

/-- The completions that are generated before the check for validity. -/
def IsRaw (i : Inputs OA Dim) (maxU : Dict OA (Dict Dim Nat)) (t m : SM OA Dim) : Prop :=
  ∃ es : List (OA × Dict Dim ℚ), m = t ++ es ∧ es.map Prod.fst = toFill i t ∧
    ∀ e ∈ es, ∃ h mx s, i.hints.get? e.1 = some h ∧ maxU.get? e.1 = some mx ∧ i.oaSizes.get? e.1 = some s ∧ OaRaw i.mix h mx s e.2

theorem raw_of_candidate {i : Inputs OA Dim} {maxU : Dict OA (Dict Dim Nat)} {t m : SM OA Dim} (h : IsCandidate i maxU t m) : IsRaw i maxU t m := by
  obtain ⟨es, rfl, hf, ha⟩ := h
  refine ⟨es, rfl, hf, fun e he => ?_⟩
  obtain ⟨h, mx, s, h1, h2, h3, hr⟩ := ha e he
  exact ⟨h, mx, s, h1, h2, h3, ((oaChoice_iff _ _ _ _ _).1 hr).1⟩

/-- A valid completion unrolls only dimensions of the layer. -/
theorem candidate_of_raw {i : Inputs OA Dim} {maxU : Dict OA (Dict Dim Nat)} {t m : SM OA Dim} {oaS : Dict OA ℚ} {sz : Dict Dim ℚ}
    (h : IsRaw i maxU t m) (hw : SMWF m) (hv : Valid oaS (castTable maxU) sz m) : IsCandidate i maxU t m := by
  obtain ⟨es, rfl, hf, ha⟩ := h
  refine ⟨es, rfl, hf, fun e he => ?_⟩
  obtain ⟨h, mx, s, h1, h2, h3, hr⟩ := ha e he
  refine ⟨h, mx, s, h1, h2, h3, (oaChoice_iff _ _ _ _ _).2 ⟨hr, fun x hx => ?_⟩⟩
  have hem : e ∈ t ++ es := List.mem_append_right _ he
  obtain ⟨mx', b, hb1, hb2, -⟩ := hv.bounded e.1 e.2 (Dict.get?_of_mem hw.1 hem) x.1 x.2 (Dict.get?_of_mem (hw.2 e hem) hx)
  obtain ⟨l, n, hl, hn, -⟩ := castTable_val hb1 hb2
  rw [h2] at hl
  cases hl
  by_contra hc
  rw [(Dict.get?_eq_none_iff _ _).2 hc] at hn
  cases hn

theorem mem_candList (i : Inputs OA Dim) (t : SM OA Dim) (maxU : Dict OA (Dict Dim Nat)) (heap : List (List (Dict Dim ℚ)))
    (hh : List.Forall₂ (fun oa l => ∃ h mx s, i.hints.get? oa = some h ∧ maxU.get? oa = some mx ∧ i.oaSizes.get? oa = some s ∧ ∀ x, x ∈ l ↔ OaRaw i.mix h mx s x) (toFill i t) heap)
    (m : SM OA Dim) : m ∈ candList i t heap ↔ IsRaw i maxU t m := by
  unfold candList IsRaw
  rw [List.mem_map]
  have key : ∀ (fill : List OA) (heap : List (List (Dict Dim ℚ))),
      List.Forall₂ (fun oa l => ∃ h mx s, i.hints.get? oa = some h ∧ maxU.get? oa = some mx ∧ i.oaSizes.get? oa = some s ∧ ∀ x, x ∈ l ↔ OaRaw i.mix h mx s x) fill heap →
      ∀ es : List (OA × Dict Dim ℚ), (∃ comb ∈ pyProduct heap, fill.zip comb = es) ↔ es.map Prod.fst = fill ∧
        ∀ e ∈ es, ∃ h mx s, i.hints.get? e.1 = some h ∧ maxU.get? e.1 = some mx ∧ i.oaSizes.get? e.1 = some s ∧ OaRaw i.mix h mx s e.2 := by
    intro fill heap h
    induction h with
    | nil =>
      intro es
      simp [pyProduct]
      rintro rfl
      simp
    | @cons oa l f hp hol _ ih =>
      intro es
      obtain ⟨hh, mx, s, h1, h2, h3, hx⟩ := hol
      constructor
      · rintro ⟨comb, hc, rfl⟩
        unfold pyProduct at hc
        obtain ⟨x, hxl, hc⟩ := List.mem_flatMap.1 hc
        obtain ⟨c', hc', rfl⟩ := List.mem_map.1 hc
        obtain ⟨i1, i2⟩ := (ih (f.zip c')).1 ⟨c', hc', rfl⟩
        rw [List.zip_cons_cons]
        refine ⟨by rw [List.map_cons, i1], ?_⟩
        intro e he
        rcases List.mem_cons.1 he with rfl | he
        · exact ⟨hh, mx, s, h1, h2, h3, (hx x).1 hxl⟩
        · exact i2 e he
      · rintro ⟨i1, i2⟩
        cases es with
        | nil => simp at i1
        | cons e es =>
          rw [List.map_cons, List.cons.injEq] at i1
          obtain ⟨c', hc', e'⟩ := (ih es).2 ⟨i1.2, fun y hy => i2 y (by simp [hy])⟩
          obtain ⟨hh', mx', s', h1', h2', h3', hch⟩ := i2 e (by simp)
          rw [i1.1, h1] at h1'
          rw [i1.1, h2] at h2'
          rw [i1.1, h3] at h3'
          cases h1'; cases h2'; cases h3'
          refine ⟨e.2 :: c', ?_, ?_⟩
          · unfold pyProduct
            exact List.mem_flatMap.2 ⟨e.2, (hx _).2 hch, List.mem_map.2 ⟨c', hc', rfl⟩⟩
          · rw [List.zip_cons_cons, e', ← i1.1]
  constructor
  · rintro ⟨comb, hc, rfl⟩
    exact ⟨_, rfl, (key _ _ hh _).1 ⟨comb, hc, rfl⟩⟩
  · rintro ⟨es, rfl, h⟩
    obtain ⟨comb, hc, e⟩ := (key _ _ hh es).2 h
    exact ⟨comb, hc, by rw [e]⟩

theorem candList_nodup (i : Inputs OA Dim) (t : SM OA Dim) (heap : List (List (Dict Dim ℚ))) (hlen : (toFill i t).length = heap.length) (hn : ∀ l ∈ heap, l.Nodup) :
    (candList i t heap).Nodup := by
  unfold candList
  apply List.Nodup.map_on
  · intro a ha b hb hab
    have la := ((mem_pyProduct _ _).1 ha).length_eq
    have lb := ((mem_pyProduct _ _).1 hb).length_eq
    have h := List.append_cancel_left hab
    have h2 := congrArg (List.map Prod.snd) h
    rwa [List.map_snd_zip (by omega), List.map_snd_zip (by omega)] at h2
  · exact pyProduct_nodup heap hn

theorem castDict_wf {d : Dict Dim Nat} (h : d.WF) : (castDict d).WF := by
  unfold Dict.WF at h ⊢
  have : (castDict d).keys = d.keys := by simp [castDict, Dict.keys, Function.comp_def]
  rw [this]; exact h

theorem ranked_spec (i : Inputs OA Dim) (maxU : Dict OA (Dict Dim Nat)) (t : SM OA Dim) (fill : List OA) (heap : List (List (Dict Dim ℚ))) (ks : List (ℚ × Cand OA Dim))
    (h : ranked i maxU t fill heap = .ok ks) :
    (ks.map Prod.snd).Perm ((allCands t heap).filter (fun c => decide (isValid (some (castDict i.oaSizes)) (castTable maxU) (castDict i.sizes) (resolve fill heap c) = .ok true))) ∧
    ks.Pairwise (fun a b => b.1 ≤ a.1) ∧ (∀ x ∈ ks, indicator (resolve fill heap x.2) = .ok x.1) ∧
    (∀ c ∈ allCands t heap, ∃ b, isValid (some (castDict i.oaSizes)) (castTable maxU) (castDict i.sizes) (resolve fill heap c) = .ok b) := by
  unfold ranked at h
  cases h1 : keepValid (fun c => isValid (some (castDict i.oaSizes)) (castTable maxU) (castDict i.sizes) (resolve fill heap c)) (allCands t heap) with
  | error e => rw [h1] at h; cases h
  | ok cs =>
    have hk := keepValid_eq _ _ _ h1
    have hall : ∀ (l r : List (Cand OA Dim)) (check : Cand OA Dim → Except PyErr Bool), keepValid check l = .ok r → ∀ c ∈ l, ∃ b, check c = .ok b := by
      intro l r check
      induction l generalizing r with
      | nil => intro _ c hc; simp at hc
      | cons a l ih =>
        intro hkv c hc
        unfold keepValid at hkv
        cases ha : check a with
        | error e => rw [ha] at hkv; cases hkv
        | ok b =>
          rw [ha] at hkv
          simp only at hkv
          cases hr : keepValid check l with
          | error e => rw [hr] at hkv; cases hkv
          | ok r' =>
            rcases List.mem_cons.1 hc with rfl | hc
            · exact ⟨b, ha⟩
            · exact ih r' hr c hc
    rw [h1] at h
    cases cs with
    | nil => cases h
    | cons c0 ct =>
      simp only at h
      cases h2 : withKeys (fun c => indicator (resolve fill heap c)) (c0 :: ct) with
      | error e => rw [h2] at h; cases h
      | ok kk =>
        rw [h2] at h
        cases h
        obtain ⟨e1, e2⟩ := withKeys_eq _ _ _ h2
        refine ⟨?_, sortDesc_sorted _, fun x hx => e2 x ((sortDesc_perm kk).mem_iff.1 hx), hall _ _ _ h1⟩
        rw [← hk, ← e1]
        exact (sortDesc_perm kk).map _

/-! ### properties -/

/-- C25: if the user left array dimensions open, the generated mappings are obtained from the best candidates: `best` and `rest` together
list every valid completion of the user mapping once, in non-increasing order of the performance indicator (so nothing in `rest` outranks
anything in `best`), `best` has the requested number or all of them, and every generated mapping is the corresponding entry of `best` with
lowered unrollings. -/
theorem generate_ranked (i : Inputs OA Dim) (ok : InputsOk i) (maxU : Dict OA (Dict Dim Nat)) (t : SM OA Dim) (ht : template i = .ok (maxU, t))
    (hopen : toFill i t ≠ []) (ys : List (SM OA Dim)) (h : generate i = .ok ys) :
    ∃ best rest : List (SM OA Dim), (best ++ rest).Nodup ∧
      (∀ m, m ∈ best ++ rest ↔ IsCandidate i maxU t m ∧ Valid (castDict i.oaSizes) (castTable maxU) (castDict i.sizes) m) ∧
      best.length = min i.nbMappings (best ++ rest).length ∧
      (∃ key : SM OA Dim → ℚ, (∀ m ∈ best ++ rest, indicator m = .ok (key m)) ∧ (best ++ rest).Pairwise (fun a b => key b ≤ key a)) ∧
      List.Forall₂ (fun b y => MLower b y ∧ isValid (some (castDict i.oaSizes)) (castTable maxU) (castDict i.sizes) y = .ok true) best ys := by
  obtain ⟨hmu, htw, htn⟩ := template_good i ok.user ok.nat maxU t ht
  unfold generate at h
  rw [ht] at h
  simp only at h
  rw [if_neg (by simpa using hopen)] at h
  unfold genFill at h
  cases hp : perOa i maxU (toFill i t) with
  | error e => rw [hp] at h; cases h
  | ok heap =>
    rw [hp] at h
    simp only at h
    obtain ⟨hok, hnd, hch⟩ := perOa_heap i ok maxU _ heap hp
    have hlen := hch.length_eq
    cases hr : ranked i maxU t (toFill i t) heap with
    | error e => rw [hr] at h; cases h
    | ok ks =>
      rw [hr] at h
      simp only at h
      obtain ⟨hperm, hsorted, hkey, hallok⟩ := ranked_spec i maxU t _ heap ks hr
      cases hl : limitAll i (toFill i t) ((ks.map Prod.snd).take i.nbMappings) heap with
      | error e => rw [hl] at h; cases h
      | ok p =>
        obtain ⟨cs, heap'⟩ := p
        rw [hl] at h
        cases h
        have hcok : ∀ c ∈ ks.map Prod.snd, CandOk (toFill i t) heap c := by
          intro c hc
          have hc := (List.mem_filter.1 (hperm.mem_iff.1 hc)).1
          obtain ⟨ch, hch', rfl⟩ := List.mem_map.1 hc
          have := ((mem_pyProduct _ _).1 hch').length_eq
          exact ⟨htw, htn, toFill_disj i t, by simpa using this⟩
        obtain ⟨hlow, hcs⟩ := limitAll_lower i ok.served ok.capOrder (toFill_nodup i ok t) _ heap cs heap' hok (fun c hc => hcok c (List.mem_of_mem_take hc)) hl
        set all := ks.map (fun x => resolve (toFill i t) heap x.2) with hall
        have hallp : all.Perm ((candList i t heap).filter (fun m => decide (isValid (some (castDict i.oaSizes)) (castTable maxU) (castDict i.sizes) m = .ok true))) := by
          rw [← allCands_resolve i ok t heap, List.filter_map]
          have := hperm.map (resolve (toFill i t) heap)
          rw [List.map_map] at this
          exact this
        have hvalid : ∀ m ∈ all, isValid (some (castDict i.oaSizes)) (castTable maxU) (castDict i.sizes) m = .ok true := by
          intro m hm
          have := (List.mem_filter.1 (hallp.mem_iff.1 hm)).2
          simpa using this
        have hwf : ∀ m ∈ candList i t heap, SMWF m := by
          intro m hm
          rw [← allCands_resolve i ok t heap] at hm
          obtain ⟨c, hc, rfl⟩ := List.mem_map.1 hm
          obtain ⟨ch, hch', rfl⟩ := List.mem_map.1 hc
          have := ((mem_pyProduct _ _).1 hch').length_eq
          exact (resolve_ok (toFill_nodup i ok t) hok ⟨htw, htn, toFill_disj i t, by simpa using this⟩).1
        have hsplit : all.take i.nbMappings ++ all.drop i.nbMappings = all := List.take_append_drop _ _
        refine ⟨all.take i.nbMappings, all.drop i.nbMappings, ?_, ?_, ?_, ?_, ?_⟩
        · rw [hsplit]
          exact hallp.nodup_iff.2 ((candList_nodup i t heap hlen hnd).filter _)
        · intro m
          rw [hsplit, hallp.mem_iff, List.mem_filter, decide_eq_true_eq, mem_candList i t maxU heap hch]
          constructor
          · rintro ⟨h1, h2⟩
            have hw := hwf m ((mem_candList i t maxU heap hch m).2 h1)
            have hv := ((is_valid_iff _ _ _ _ hw (castDict_wf ok.dims)).1 h2).2
            exact ⟨candidate_of_raw h1 hw hv, hv⟩
          · rintro ⟨h1, h2⟩
            refine ⟨raw_of_candidate h1, ?_⟩
            have hm := (mem_candList i t maxU heap hch m).2 (raw_of_candidate h1)
            refine (is_valid_iff _ _ _ _ (hwf m hm) (castDict_wf ok.dims)).2 ⟨?_, h2⟩
            by_contra hc
            have herr := is_valid_assert (castDict i.oaSizes) (castTable maxU) (castDict i.sizes) m hc
            rw [← allCands_resolve i ok t heap] at hm
            obtain ⟨c, hc', rfl⟩ := List.mem_map.1 hm
            obtain ⟨b, hb⟩ := hallok c hc'
            rw [hb] at herr
            cases herr
        · rw [hsplit, List.length_take]
        · rw [hsplit]
          refine ⟨fun m => match indicator m with | .ok k => k | .error _ => 0, ?_, ?_⟩
          · intro m hm
            obtain ⟨x, hx, rfl⟩ := List.mem_map.1 hm
            simp only [hkey x hx]
          · rw [hall, List.pairwise_map]
            refine hsorted.imp_of_mem ?_
            intro a b ha hb hab
            simp only [hkey a ha, hkey b hb]
            exact hab
        · have hb : all.take i.nbMappings = ((ks.map Prod.snd).take i.nbMappings).map (resolve (toFill i t) heap) := by
            rw [hall, List.map_take, List.map_map]
            rfl
          have hbv : ∀ m ∈ all.take i.nbMappings, _ := fun m hm => hvalid m (List.mem_of_mem_take hm)
          rw [hb] at hbv ⊢
          rw [List.forall₂_map_left_iff, List.forall₂_map_right_iff]
          have hmem : ∀ c ∈ (ks.map Prod.snd).take i.nbMappings, CandOk (toFill i t) heap c ∧
              isValid (some (castDict i.oaSizes)) (castTable maxU) (castDict i.sizes) (resolve (toFill i t) heap c) = .ok true :=
            fun c hc => ⟨hcok c (List.mem_of_mem_take hc), hbv _ (List.mem_map.2 ⟨c, hc, rfl⟩)⟩
          clear hbv hb hl
          generalize (ks.map Prod.snd).take i.nbMappings = best at hcs hmem
          induction hcs with
          | nil => exact List.Forall₂.nil
          | @cons c c' _ _ hcc _ ih =>
            refine List.Forall₂.cons ?_ (ih (fun x hx => hmem x (by simp [hx])))
            obtain ⟨hco, hv⟩ := hmem c (by simp)
            have hL := resolve_lower (toFill_nodup i ok t) hco.disj hlow hcc.1 hcc.2
            exact ⟨hL, valid_lower (resolve_ok (toFill_nodup i ok t) hok hco).1 (castDict_wf ok.dims) hL hv⟩

/-- C25: if the user mapping leaves nothing open it is the only result, with unrollings lowered to the memory capacities. -/
theorem generate_complete (i : Inputs OA Dim) (ok : InputsOk i) (maxU : Dict OA (Dict Dim Nat)) (t : SM OA Dim) (ht : template i = .ok (maxU, t))
    (hopen : toFill i t = []) (ys : List (SM OA Dim)) (h : generate i = .ok ys) :
    ∃ y, ys = [y] ∧ limitCapacity i.capOrder i.mems t = .ok y ∧ MLower t y ∧
      isValid (some (castDict i.oaSizes)) (castTable maxU) (castDict i.sizes) y = .ok true := by
  obtain ⟨hmu, htw, htn⟩ := template_good i ok.user ok.nat maxU t ht
  unfold generate at h
  rw [ht] at h
  simp only at h
  rw [if_pos (by simpa using hopen)] at h
  unfold genComplete at h
  cases hv : isValid (some (castDict i.oaSizes)) (castTable maxU) (castDict i.sizes) t with
  | error e => rw [hv] at h; cases h
  | ok b =>
    rw [hv] at h
    cases b with
    | false => cases h
    | true =>
      simp only at h
      cases hc : limitCapacity i.capOrder i.mems t with
      | error e => rw [hc] at h; cases h
      | ok m =>
        rw [hc] at h
        cases h
        have hl := limitCapacity_lower i.capOrder ok.capOrder i.mems t m ok.served htw htn hc
        exact ⟨m, rfl, rfl, hl, valid_lower htw (castDict_wf ok.dims) hl hv⟩

/-- C25: every generated mapping is valid. -/
theorem generate_valid (i : Inputs OA Dim) (ok : InputsOk i) (ys : List (SM OA Dim)) (h : generate i = .ok ys) :
    ∃ maxU, getMaxUnrolling i.mems i.oaSizes i.sizes = .ok maxU ∧
      ∀ y ∈ ys, isValid (some (castDict i.oaSizes)) (castTable maxU) (castDict i.sizes) y = .ok true := by
  cases ht : template i with
  | error e => unfold generate at h; rw [ht] at h; cases h
  | ok p =>
    obtain ⟨maxU, t⟩ := p
    refine ⟨maxU, (template_good i ok.user ok.nat maxU t ht).1, ?_⟩
    intro y hy
    by_cases ho : toFill i t = []
    · obtain ⟨y', rfl, _, _, hv⟩ := generate_complete i ok maxU t ht ho ys h
      rw [List.mem_singleton.1 hy]
      exact hv
    · obtain ⟨_, _, _, _, _, _, hf⟩ := generate_ranked i ok maxU t ht ho ys h
      obtain ⟨_, _, _, hv⟩ := forall₂_mem_right hf hy
      exact hv

/-! ### independence of the yielded mappings (C58) -/

theorem get?_append_left {own : SM OA Dim} {ps : List (OA × Dict Dim ℚ)} {oa : OA} (h : oa ∈ own.keys) :
    Dict.get? (own ++ ps) oa = Dict.get? own oa := by
  induction own with
  | nil => simp [Dict.keys] at h
  | cons e t ih =>
    rw [List.cons_append, Dict.get?_cons, Dict.get?_cons]
    split_ifs with hc
    · rfl
    · apply ih
      simpa [Dict.keys, Ne.symm hc] using h

theorem zip_map_self {α β : Type} (f : α → β) (l : List α) : l.zip (l.map f) = l.map (fun x => (x, f x)) := by
  induction l with
  | nil => rfl
  | cons x t ih => rw [List.map_cons, List.zip_cons_cons, ih, List.map_cons]

/-- After limiting one candidate in place it stands for the limited mapping. -/
theorem resolve_store {fill : List OA} (hf : fill.Nodup) {heap : List (List (Dict Dim ℚ))} (hh : HeapOk heap) {c : Cand OA Dim} (hc : CandOk fill heap c)
    (hlen : fill.length = heap.length) (hin : List.Forall₂ (fun k l => k < l.length) c.choice heap) {m : SM OA Dim} (hl : MLower (resolve fill heap c) m) :
    resolve fill (store m fill heap c.choice) { own := storeOwn m c.own, choice := c.choice } = m := by
  have hw := (resolve_ok hf hh hc).1
  have hmw := hl.wf hw
  have hk : m.keys = c.own.keys ++ fill := by
    rw [hl.keys, resolve_eq hf hc.disj]
    unfold Dict.keys
    rw [List.map_append, List.map_fst_zip]
    rw [picks_length hc.len.symm, hc.len]; omega
  have hown : (storeOwn m c.own).keys = c.own.keys := by simp [storeOwn, Dict.keys, Function.comp_def]
  rw [resolve_eq hf (by rw [hown]; exact hc.disj)]
  simp only
  have hp : picks (store m fill heap c.choice) c.choice = fill.map (fun oa => (m.get? oa).getD []) := by
    have : ∀ (fill : List OA) (heap : List (List (Dict Dim ℚ))) (choice : List Nat), fill.length = heap.length → List.Forall₂ (fun k l => k < l.length) choice heap →
        picks (store m fill heap choice) choice = fill.map (fun oa => (m.get? oa).getD []) := by
      intro fill heap choice hlen h
      induction h generalizing fill with
      | nil =>
        cases fill with
        | nil => rfl
        | cons a b => simp at hlen
      | cons hkl _ ih =>
        cases fill with
        | nil => simp at hlen
        | cons a b =>
          unfold store picks
          rw [List.zipWith_cons_cons, List.map_cons]
          congr 1
          · rw [List.getElem?_set_self hkl]; rfl
          · exact ih b (by simpa using hlen)
    exact this fill heap c.choice hlen hin
  rw [hp]
  have hself : m = m.keys.map (fun k => (k, (m.get? k).getD [])) := by
    unfold Dict.keys
    rw [List.map_map]
    conv_lhs => rw [← List.map_id m]
    apply List.map_congr_left
    intro e he
    simp only [id, Function.comp]
    rw [Dict.get?_of_mem hmw.1 (show (e.1, e.2) ∈ m from he)]
    rfl
  conv_rhs => rw [hself, hk, List.map_append]
  congr 1
  · unfold storeOwn Dict.keys
    rw [List.map_map]
    rfl
  · exact zip_map_self _ fill

/-- C58 (partial): when one mapping is requested it is the best candidate limited to the memory capacities.  Missing: the same for every
mapping when more are requested, which is false (`generate_shared_false`). -/
theorem generate_one_partial (i : Inputs OA Dim) (ok : InputsOk i) (maxU : Dict OA (Dict Dim Nat)) (t : SM OA Dim) (ht : template i = .ok (maxU, t))
    (hopen : toFill i t ≠ []) (hone : i.nbMappings = 1) (ys : List (SM OA Dim)) (h : generate i = .ok ys) :
    ∃ b y kb, ys = [y] ∧ limitCapacity i.capOrder i.mems b = .ok y ∧ IsCandidate i maxU t b ∧ indicator b = .ok kb ∧
      Valid (castDict i.oaSizes) (castTable maxU) (castDict i.sizes) b ∧
      ∀ m, IsCandidate i maxU t m → Valid (castDict i.oaSizes) (castTable maxU) (castDict i.sizes) m → ∃ k, indicator m = .ok k ∧ k ≤ kb := by
  obtain ⟨hmu, htw, htn⟩ := template_good i ok.user ok.nat maxU t ht
  unfold generate at h
  rw [ht] at h
  simp only at h
  rw [if_neg (by simpa using hopen)] at h
  unfold genFill at h
  cases hp : perOa i maxU (toFill i t) with
  | error e => rw [hp] at h; cases h
  | ok heap =>
    rw [hp] at h
    simp only at h
    obtain ⟨hok, hnd, hch⟩ := perOa_heap i ok maxU _ heap hp
    have hlen := hch.length_eq
    cases hr : ranked i maxU t (toFill i t) heap with
    | error e => rw [hr] at h; cases h
    | ok ks =>
      rw [hr] at h
      simp only at h
      obtain ⟨hperm, hsorted, hkey, hallok⟩ := ranked_spec i maxU t _ heap ks hr
      rw [hone] at h
      cases hks : ks with
      | nil =>
        exfalso
        rw [hks] at hr
        unfold ranked at hr
        cases h1 : keepValid (fun c => isValid (some (castDict i.oaSizes)) (castTable maxU) (castDict i.sizes) (resolve (toFill i t) heap c)) (allCands t heap) with
        | error e => rw [h1] at hr; cases hr
        | ok cs =>
          rw [h1] at hr
          cases cs with
          | nil => cases hr
          | cons c0 ct =>
            simp only at hr
            cases h2 : withKeys (fun c => indicator (resolve (toFill i t) heap c)) (c0 :: ct) with
            | error e => rw [h2] at hr; cases hr
            | ok kk =>
              rw [h2] at hr
              have e := (withKeys_eq _ _ _ h2).1
              have hlen0 := (sortDesc_perm kk).length_eq
              have : sortDesc kk = [] := by simpa using hr
              rw [this] at hlen0
              have : kk = [] := List.length_eq_zero_iff.1 hlen0.symm
              rw [this] at e
              cases e
      | cons x ks' =>
        rw [hks] at h hperm hsorted hkey
        have htake : ((x :: ks').map Prod.snd).take 1 = [x.2] := rfl
        rw [htake] at h
        have hx := (List.mem_filter.1 (hperm.mem_iff.1 (by simp : x.2 ∈ (x :: ks').map Prod.snd)))
        obtain ⟨ch, hch', hxe⟩ := List.mem_map.1 hx.1
        have hchf := (mem_pyProduct _ _).1 hch'
        rw [List.forall₂_map_right_iff] at hchf
        have hco : CandOk (toFill i t) heap x.2 := by
          rw [← hxe]
          exact ⟨htw, htn, toFill_disj i t, hchf.length_eq⟩
        have hxv : isValid (some (castDict i.oaSizes)) (castTable maxU) (castDict i.sizes) (resolve (toFill i t) heap x.2) = .ok true := by simpa using hx.2
        have hxwf := resolve_ok (toFill_nodup i ok t) hok hco
        have hxc : IsCandidate i maxU t (resolve (toFill i t) heap x.2) := by
          refine candidate_of_raw ?_ hxwf.1 ((is_valid_iff _ _ _ _ hxwf.1 (castDict_wf ok.dims)).1 hxv).2
          rw [← mem_candList i t maxU heap hch, ← allCands_resolve i ok t heap]
          exact List.mem_map.2 ⟨_, hx.1, rfl⟩
        unfold limitAll at h
        cases hl : limitCapacity i.capOrder i.mems (resolve (toFill i t) heap x.2) with
        | error e => rw [hl] at h; cases h
        | ok m =>
          rw [hl] at h
          simp only [limitAll] at h
          have hlow := limitCapacity_lower i.capOrder ok.capOrder i.mems _ m ok.served hxwf.1 hxwf.2 hl
          have hin : List.Forall₂ (fun k l => k < l.length) x.2.choice heap := by
            rw [← hxe]
            exact hchf.imp (fun a b hab => by simpa using hab)
          have hres := resolve_store (toFill_nodup i ok t) hok hco hlen hin hlow
          simp only [List.map_cons, List.map_nil, hres] at h
          refine ⟨_, m, x.1, (Except.ok.inj h).symm, hl, hxc, hkey x (by simp),
            ((is_valid_iff _ _ _ _ hxwf.1 (castDict_wf ok.dims)).1 hxv).2, ?_⟩
          intro m' hc' hv'
          -- every valid candidate occurs in the sorted list
          have hm' := (mem_candList i t maxU heap hch m').2 (raw_of_candidate hc')
          rw [← allCands_resolve i ok t heap] at hm'
          obtain ⟨c, hcm, rfl⟩ := List.mem_map.1 hm'
          have hcv : isValid (some (castDict i.oaSizes)) (castTable maxU) (castDict i.sizes) (resolve (toFill i t) heap c) = .ok true := by
            obtain ⟨ch2, hch2, rfl⟩ := List.mem_map.1 hcm
            have hlen2 := ((mem_pyProduct _ _).1 hch2).length_eq
            have hwf2 := (resolve_ok (toFill_nodup i ok t) hok (c := { own := t, choice := ch2 }) ⟨htw, htn, toFill_disj i t, by simpa using hlen2⟩).1
            refine (is_valid_iff _ _ _ _ hwf2 (castDict_wf ok.dims)).2 ⟨?_, hv'⟩
            by_contra hcc
            have herr := is_valid_assert (castDict i.oaSizes) (castTable maxU) (castDict i.sizes) _ hcc
            obtain ⟨b, hb⟩ := hallok _ hcm
            rw [hb] at herr
            cases herr
          have hcin : c ∈ (x :: ks').map Prod.snd := hperm.mem_iff.2 (List.mem_filter.2 ⟨hcm, by simpa using hcv⟩)
          obtain ⟨z, hz, rfl⟩ := List.mem_map.1 hcin
          refine ⟨z.1, hkey z hz, ?_⟩
          rcases List.mem_cons.1 hz with rfl | hz
          · exact le_refl _
          · exact (List.pairwise_cons.1 hsorted).1 z hz

/-- Inputs of the witnesses: a 6 x 6 array, one innermost memory holding two elements. -/
def sharedInputs (n : Nat) : Inputs String String :=
  { mems := [⟨1024, 2, 1, [], ["D1", "D2"]⟩], oaSizes := [("D1", 6), ("D2", 6)], sizes := [("K", 6), ("C", 6)], provided := [],
    hints := [("D1", ["K"]), ("D2", ["C"])], mix := false, nbMappings := n, order := plainOrder, capOrder := id }

set_option synthInstance.maxSize 1000 in
set_option synthInstance.maxHeartbeats 200000 in
/-- C58 is false: candidates share the objects of the array dimensions, so limiting the second candidate changes the first one, and
both results are the same mapping. -/
theorem generate_shared_false :
    generate (sharedInputs 1) = .ok [[("D1", [("K", 2)]), ("D2", [("C", 2)])]] ∧
    generate (sharedInputs 2) = .ok [[("D1", [("K", 1)]), ("D2", [("C", 2)])], [("D1", [("K", 1)]), ("D2", [("C", 2)])]] := by
  decide +kernel

/-- The hypotheses of the C25 theorems are met by these inputs. -/
example : InputsOk (sharedInputs 2) where
  oas := by unfold Dict.WF Dict.keys; decide
  dims := by unfold Dict.WF Dict.keys; decide
  user := ⟨by unfold Dict.WF Dict.keys; decide, fun e he => by cases he⟩
  nat := fun e he => by cases he
  served := by decide
  hints := by
    intro oa h hg
    have := Dict.mem_of_get? hg
    simp only [sharedInputs, List.mem_cons, Prod.mk.injEq, List.not_mem_nil, or_false] at this
    rcases this with ⟨_, rfl⟩ | ⟨_, rfl⟩ <;> decide
  capOrder := fun l => .refl l

/-- Inputs with mixed unrollings and a partial user mapping. -/
def mixedInputs : Inputs String String :=
  { mems := [⟨64, 24, 1, ["OX"], ["D1", "D2"]⟩], oaSizes := [("D1", 8), ("D2", 4)], sizes := [("K", 6), ("C", 4), ("OX", 5)],
      provided := [("D2", [("C", 4)])], hints := [("D1", ["K", "OX"])], mix := true, nbMappings := 2, order := plainOrder, capOrder := id }

set_option synthInstance.maxSize 1000 in
set_option synthInstance.maxHeartbeats 200000 in
/-- Non-trivial case of C25. -/
example : generate mixedInputs =
    .ok [[("D2", [("C", 4)]), ("D1", [("K", 6)])], [("D2", [("C", 4)]), ("D1", [("OX", 5)])]] := by decide +kernel

set_option synthInstance.maxSize 1000 in
set_option synthInstance.maxHeartbeats 200000 in
/-- A hint naming a dimension that the layer does not have ("FX") changes nothing. -/
example : generate { mixedInputs with hints := [("D1", ["K", "FX", "OX"])] } =
    .ok [[("D2", [("C", 4)]), ("D1", [("K", 6)])], [("D2", [("C", 4)]), ("D1", [("OX", 5)])]] := by decide +kernel

end Verif.SpatialGen
