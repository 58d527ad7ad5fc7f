import Verif.SpatialGen.Props
import Verif.SpatialGen.Positive

/-! C150: spatial mappings are generated for every layer, array and user mapping that fit together. -/

namespace Verif.SpatialGen

open Verif.SpatialMapping

variable {OA Dim : Type} [DecidableEq OA] [DecidableEq Dim]

/-! ### specification -/

/-- Array, layer, innermost memories and user mapping fit together: an innermost memory delivers one element per cycle and can hold it, the user mapping unrolls
dimensions of the array at least once, and for every other dimension of the array there is a hint that the layer has. -/
structure Fitting (i : Inputs OA Dim) : Prop where
  served : ∀ mo ∈ i.mems, ∀ oa ∈ mo.served, oa ∈ i.oaSizes.keys
  delivers : ∀ mo ∈ i.mems, mo.precision ≤ mo.bandwidth
  holds : ∀ mo ∈ i.mems, mo.precision ≤ mo.capacity
  array : ∀ e ∈ i.oaSizes, 1 ≤ e.2
  layer : ∀ e ∈ i.sizes, 1 ≤ e.2
  known : ∀ oa ∈ i.provided.keys, oa ∈ i.oaSizes.keys
  once : ∀ e ∈ i.provided, ∀ x ∈ e.2, 1 ≤ x.2
  hinted : ∀ oa ∈ i.oaSizes.keys, oa ∉ i.provided.keys → ∃ h, i.hints.get? oa = some h ∧ ∃ d ∈ h, d ∈ i.sizes.keys
  order : i.order.Ok

/-! ### bounds -/

theorem castDict_get? {K : Type} [DecidableEq K] (d : Dict K Nat) (k : K) : (castDict d).get? k = (d.get? k).map fun n : ℕ => (n : ℚ) :=
  get?_mapVal (fun _ (n : ℕ) => (n : ℚ)) d k

theorem castDict_keys {K : Type} (d : Dict K Nat) : (castDict d).keys = d.keys := by simp [castDict, Dict.keys, Function.comp_def]

theorem castTable_get? (m : Dict OA (Dict Dim Nat)) (oa : OA) : (castTable m).get? oa = (m.get? oa).map castDict :=
  get?_mapVal (fun _ (l : Dict Dim Nat) => castDict l) m oa

theorem castTable_keys (m : Dict OA (Dict Dim Nat)) : (castTable m).keys = m.keys := by simp [castTable, Dict.keys, Function.comp_def]

theorem get?_of_keys {K V : Type} [DecidableEq K] {d : Dict K V} {k : K} (h : k ∈ d.keys) : ∃ v, d.get? k = some v := by
  cases hg : d.get? k with
  | none => exact absurd h ((Dict.get?_eq_none_iff _ _).1 hg)
  | some v => exact ⟨v, rfl⟩

theorem keys_of_get? {K V : Type} [DecidableEq K] {d : Dict K V} {k : K} {v : V} (h : d.get? k = some v) : k ∈ d.keys := by
  by_contra hc
  rw [(Dict.get?_eq_none_iff _ _).2 hc] at h
  cases h

/-- Every layer dimension has a bound of at least one along every array dimension. -/
theorem bounds_pos {i : Inputs OA Dim} (f : Fitting i) : ∃ maxU, getMaxUnrolling i.mems i.oaSizes i.sizes = .ok maxU ∧ maxU.keys = i.oaSizes.keys ∧
    ∀ oa ∈ i.oaSizes.keys, ∃ l, maxU.get? oa = some l ∧ l.keys = i.sizes.keys ∧ ∀ d v, l.get? d = some v → 1 ≤ v := by
  obtain ⟨maxU, h⟩ := max_unrolling_total i.mems i.oaSizes i.sizes f.served
  obtain ⟨hk, hv⟩ := max_unrolling_exact i.mems i.oaSizes i.sizes maxU h
  refine ⟨maxU, h, hk, fun oa ho => ?_⟩
  obtain ⟨s, hs⟩ := get?_of_keys ho
  obtain ⟨l, hl⟩ := get?_of_keys (d := maxU) (k := oa) (by rw [hk]; exact ho)
  have hkeys : l.keys = i.sizes.keys := by
    have h1 := (limitBandwidth_spec i.mems _ maxU h).2.1 oa
    unfold initMax at h1
    rw [hl, get?_mapVal (fun _ s => i.sizes.map (fun x => (x.1, min x.2 s))), hs] at h1
    simp only [Option.map_some, Option.some.injEq] at h1
    rw [h1, keys_mapVal (fun _ n => min n s)]
  refine ⟨l, hl, hkeys, fun d v hd => ?_⟩
  obtain ⟨n, hn⟩ := get?_of_keys (d := i.sizes) (k := d) (by rw [← hkeys]; exact keys_of_get? hd)
  obtain ⟨l', v', h1, h2, -, h4⟩ := hv oa s d n hs hn
  rw [hl] at h1
  cases h1
  rw [hd] at h2
  cases h2
  refine (h4 1).2 ⟨f.layer _ (Dict.mem_of_get? hn), f.array _ (Dict.mem_of_get? hs), fun mo hmo _ _ _ => ?_⟩
  rw [one_mul]
  exact f.delivers mo hmo

/-! ### the user mapping -/

theorem reduceOas_congr (o : Order OA Dim) (s s' : Dict OA ℚ) (maxU : Dict OA (Dict Dim ℚ)) : ∀ m : SM OA Dim, (∀ e ∈ m, s.get? e.1 = s'.get? e.1) →
    reduceOas o s maxU m = reduceOas o s' maxU m
  | [], _ => rfl
  | e :: t, h => by
    unfold reduceOas
    rw [reduceOas_congr o s s' maxU t fun x hx => h x (by simp [hx])]
    unfold shrinkOa
    rw [h e (by simp)]

theorem get?_filter_keys {V : Type} (d : Dict OA V) (ks : List OA) (k : OA) (h : k ∈ ks) : Dict.get? (d.filter fun e => decide (e.1 ∈ ks)) k = d.get? k := by
  induction d with
  | nil => rfl
  | cons e t ih =>
    by_cases hc : e.1 ∈ ks
    · rw [List.filter_cons_of_pos (by simpa using hc), Dict.get?_cons, Dict.get?_cons, ih]
    · rw [List.filter_cons_of_neg (by simpa using hc), Dict.get?_cons, ih, if_neg]
      rintro rfl
      exact hc h

/-- The user mapping is reduced to a valid part. -/
theorem template_total {i : Inputs OA Dim} (ok : InputsOk i) (f : Fitting i) {maxU : Dict OA (Dict Dim Nat)}
    (hu : getMaxUnrolling i.mems i.oaSizes i.sizes = .ok maxU) (hk : maxU.keys = i.oaSizes.keys)
    (hb : ∀ oa ∈ i.oaSizes.keys, ∃ l, maxU.get? oa = some l ∧ l.keys = i.sizes.keys ∧ ∀ d v, l.get? d = some v → 1 ≤ v) :
    ∃ t, template i = .ok (maxU, t) ∧ t.keys = i.provided.keys ∧ SMWF t ∧ PosSM t ∧ Valid (castDict i.oaSizes) (castTable maxU) (castDict i.sizes) t := by
  set ks := i.provided.keys with hks
  set s' : Dict OA ℚ := (castDict i.oaSizes).filter (fun e => decide (e.1 ∈ ks)) with hs'
  have hget : ∀ k ∈ ks, s'.get? k = (castDict i.oaSizes).get? k := fun k h => get?_filter_keys _ ks k h
  have hsk : ∀ k, k ∈ s'.keys ↔ k ∈ ks := by
    intro k
    constructor
    · intro h
      obtain ⟨e, he, rfl⟩ := List.mem_map.1 h
      simpa using (List.mem_filter.1 he).2
    · intro h
      obtain ⟨v, hv⟩ := get?_of_keys (d := castDict i.oaSizes) (k := k) (by rw [castDict_keys]; exact f.known k h)
      exact keys_of_get? (v := v) (by rw [hget k h]; exact hv)
  have hwhole : ∀ oa mx d b, (castTable maxU).get? oa = some mx → mx.get? d = some b → IsPos b := by
    intro oa mx d b h1 h2
    obtain ⟨l, n, g1, g2, rfl⟩ := castTable_val h1 h2
    obtain ⟨l', g3, -, g4⟩ := hb oa (by rw [← hk]; exact keys_of_get? g1)
    rw [g1] at g3
    cases g3
    exact ⟨n, g4 d n g2, rfl⟩
  obtain ⟨t, ht, hv, hw, hl⟩ := check_and_reduce_valid i.order f.order s' (castTable maxU) (castDict i.sizes) i.provided ok.user (castDict_wf ok.dims)
    (fun k => (hsk k).symm)
    (fun oa ho => by
      obtain ⟨l, h1, h2, -⟩ := hb oa (f.known oa ho)
      exact ⟨castDict l, by rw [castTable_get?, h1]; rfl, fun d hd => by rw [castDict_keys] at hd ⊢; rw [h2]; exact hd⟩)
    (fun oa s h => by
      have hm : oa ∈ ks := (hsk oa).1 (keys_of_get? h)
      rw [hget oa hm, castDict_get?] at h
      cases hg : i.oaSizes.get? oa with
      | none => rw [hg] at h; cases h
      | some n =>
        rw [hg] at h
        cases h
        have := f.array _ (Dict.mem_of_get? hg)
        show (1 : ℚ) ≤ (n : ℚ)
        exact_mod_cast this)
    (fun d s h => by
      rw [castDict_get?] at h
      cases hg : i.sizes.get? d with
      | none => rw [hg] at h; cases h
      | some n =>
        rw [hg] at h
        cases h
        have := f.layer _ (Dict.mem_of_get? hg)
        show (1 : ℚ) ≤ (n : ℚ)
        exact_mod_cast this)
    (fun oa l d u h1 h2 => f.once _ (Dict.mem_of_get? h1) _ (Dict.mem_of_get? h2))
    (fun oa mx d b h1 h2 => Or.inr (hwhole oa mx d b h1 h2).one_le)
  have hsame : checkAndReduce i.order (some (castDict i.oaSizes)) (castTable maxU) (castDict i.sizes) i.provided = .ok t := by
    rw [← ht]
    unfold checkAndReduce
    simp only
    rw [phase1 (castDict i.sizes) _ i.provided (f.order.1 _ _)]
    simp only
    rw [reduceOas_congr i.order (castDict i.oaSizes) s' (castTable maxU)]
    intro e he
    obtain ⟨e0, he0, rfl⟩ := List.mem_map.1 he
    exact (hget _ (List.mem_map.2 ⟨e0, he0, rfl⟩)).symm
  have hpos := checkAndReduce_good i.order (castDict i.oaSizes) (castTable maxU) (castDict i.sizes) hwhole i.provided t
    ⟨ok.user, fun e he x hx => isPos_of (ok.nat e he x hx) (f.once e he x hx)⟩ hsame
  obtain ⟨-, hV⟩ := (is_valid_iff _ _ _ _ hw (castDict_wf ok.dims)).1 hv
  refine ⟨t, by unfold template; rw [hu]; simp only; rw [hsame], hl.1, hw, hpos.2, hV.bounded, fun oa l h => ?_, hV.known, hV.covers⟩
  obtain ⟨s, h1, h2⟩ := hV.fits oa l h
  refine ⟨s, ?_, h2⟩
  rw [← hget oa (by rw [hks, ← hl.1]; exact keys_of_get? h)]
  exact h1

/-! ### the candidates -/

theorem perOa_total {i : Inputs OA Dim} {maxU : Dict OA (Dict Dim Nat)} : ∀ (fill : List OA),
    (∀ oa ∈ fill, oa ∈ i.oaSizes.keys ∧ (∃ h, i.hints.get? oa = some h) ∧ ∃ l, maxU.get? oa = some l) → ∃ heap, perOa i maxU fill = .ok heap
  | [], _ => ⟨[], rfl⟩
  | oa :: t, h => by
    obtain ⟨h1, ⟨hh, h2⟩, l, h3⟩ := h oa (by simp)
    obtain ⟨s, h4⟩ := get?_of_keys h1
    obtain ⟨r, h5⟩ := perOa_total t fun x hx => h x (by simp [hx])
    refine ⟨singleOa i.mix hh l s :: r, ?_⟩
    unfold perOa
    simp only [h2, h3, h4, h5]

theorem keepValid_total {α : Type} (check : α → Except PyErr Bool) : ∀ l : List α, (∀ c ∈ l, ∃ b, check c = .ok b) → ∃ r, keepValid check l = .ok r
  | [], _ => ⟨[], rfl⟩
  | c :: t, h => by
    obtain ⟨b, hb⟩ := h c (by simp)
    obtain ⟨r, hr⟩ := keepValid_total check t fun x hx => h x (by simp [hx])
    refine ⟨if b then c :: r else r, ?_⟩
    unfold keepValid
    simp only [hb, hr]

theorem withKeys_total {α : Type} (key : α → Except PyErr ℚ) : ∀ l : List α, (∀ c ∈ l, ∃ k, key c = .ok k) → ∃ r, withKeys key l = .ok r
  | [], _ => ⟨[], rfl⟩
  | c :: t, h => by
    obtain ⟨k, hk⟩ := h c (by simp)
    obtain ⟨r, hr⟩ := withKeys_total key t fun x hx => h x (by simp [hx])
    refine ⟨(k, c) :: r, ?_⟩
    unfold withKeys
    simp only [hk, hr]

theorem limitAll_total (i : Inputs OA Dim) (ok : InputsOk i) (f : Fitting i) {fill : List OA} (hf : fill.Nodup) :
    ∀ (cs : List (Cand OA Dim)) (heap : List (List (Dict Dim ℚ))), HeapOk heap → fill.length = heap.length → (∀ c ∈ cs, CandOk fill heap c) →
      (∀ c ∈ cs, ∀ oa ∈ i.oaSizes.keys, oa ∈ c.own.keys ∨ oa ∈ fill) → ∃ r heap', limitAll i fill cs heap = .ok (r, heap')
  | [], heap, _, _, _, _ => ⟨[], heap, rfl⟩
  | c :: t, heap, hh, hlen, hc, hk => by
    obtain ⟨hw, hn⟩ := resolve_ok hf hh (hc c (by simp))
    have hkeys : ∀ oa ∈ i.oaSizes.keys, oa ∈ (resolve fill heap c).keys := by
      intro oa ho
      rw [resolve_eq hf (hc c (by simp)).disj]
      unfold Dict.keys
      rw [List.map_append, List.mem_append]
      rcases hk c (by simp) oa ho with h | h
      · exact Or.inl h
      · right
        rw [List.map_fst_zip (by rw [picks_length (hc c (by simp)).len.symm, (hc c (by simp)).len, hlen])]
        exact h
    obtain ⟨m, hm, -⟩ := limit_capacity_lowers i.capOrder ok.capOrder i.mems _ hw hn
      ⟨ok.served, fun mo hmo oa ho => hkeys oa (f.served mo hmo oa ho), fun mo hmo _ => f.holds mo hmo⟩
    obtain ⟨l1, -⟩ := limit_one i ok.served ok.capOrder hf hh (hc c (by simp)) hm
    have hl : (store m fill heap c.choice).length = heap.length := l1.length_eq.symm
    obtain ⟨r, heap', hr⟩ := limitAll_total i ok f hf t (store m fill heap c.choice) (l1.ok hh) (by rw [hl, hlen])
      (fun x hx => ⟨(hc x (by simp [hx])).wf, (hc x (by simp [hx])).nat, (hc x (by simp [hx])).disj, by rw [hl]; exact (hc x (by simp [hx])).len⟩)
      (fun x hx => hk x (by simp [hx]))
    refine ⟨{ own := storeOwn m c.own, choice := c.choice } :: r, heap', ?_⟩
    unfold limitAll
    simp only [hm, hr]

theorem exists_choice {A B : Type} {P : A → B → Prop} : ∀ l : List A, (∀ a ∈ l, ∃ b, P a b) → ∃ es : List (A × B), es.map Prod.fst = l ∧ ∀ e ∈ es, P e.1 e.2
  | [], _ => ⟨[], rfl, by simp⟩
  | a :: t, h => by
    obtain ⟨b, hb⟩ := h a (by simp)
    obtain ⟨es, h1, h2⟩ := exists_choice t fun x hx => h x (by simp [hx])
    refine ⟨(a, b) :: es, by simp [h1], fun e he => ?_⟩
    rcases List.mem_cons.1 he with rfl | he
    · exact hb
    · exact h2 e he

theorem oaChoice_pos {mix : Bool} {hints : List Dim} {mx : Dict Dim Nat} {s : Nat} {l : Dict Dim ℚ} (h : OaChoice mix hints mx s l) :
    l ≠ [] ∧ ∀ x ∈ l, IsPos x.2 := by
  rcases h with ⟨d, -, n, f, -, -, h1, -, rfl⟩ | ⟨-, h2, -, h3, -⟩
  · exact ⟨by simp, fun x hx => by rw [List.mem_singleton.1 hx]; exact ⟨f, h1, rfl⟩⟩
  · refine ⟨fun hc => by rw [hc] at h2; simp at h2, fun x hx => ?_⟩
    obtain ⟨n, f, -, -, h4, -, e⟩ := h3 x hx
    exact ⟨f, by omega, e⟩

/-- Unrolling a hinted dimension of the layer once along every open array dimension is a valid completion. -/
theorem once_valid {i : Inputs OA Dim} (ok : InputsOk i) (f : Fitting i) {maxU : Dict OA (Dict Dim Nat)} {t : SM OA Dim}
    (hb : ∀ oa ∈ i.oaSizes.keys, ∃ l, maxU.get? oa = some l ∧ l.keys = i.sizes.keys ∧ ∀ d v, l.get? d = some v → 1 ≤ v)
    (hk : t.keys = i.provided.keys) (hw : SMWF t) (hv : Valid (castDict i.oaSizes) (castTable maxU) (castDict i.sizes) t) :
    ∃ m, IsRaw i maxU t m ∧ Valid (castDict i.oaSizes) (castTable maxU) (castDict i.sizes) m := by
  have hfill : ∀ oa ∈ toFill i t, oa ∈ i.oaSizes.keys ∧ oa ∉ t.keys := fun oa h => ⟨(List.mem_filter.1 h).1, toFill_disj i t oa h⟩
  obtain ⟨es, h1, h2⟩ := exists_choice (P := fun oa l => ∃ h d mx v s, i.hints.get? oa = some h ∧ d ∈ h ∧ d ∈ i.sizes.keys ∧ maxU.get? oa = some mx ∧
      mx.get? d = some v ∧ 1 ≤ v ∧ i.oaSizes.get? oa = some s ∧ l = [(d, (1 : ℚ))]) (toFill i t) fun oa ho => by
    obtain ⟨a1, a2⟩ := hfill oa ho
    obtain ⟨h, b1, d, b2, b3⟩ := f.hinted oa a1 (by rw [← hk]; exact a2)
    obtain ⟨mx, c1, c2, c3⟩ := hb oa a1
    obtain ⟨v, c4⟩ := get?_of_keys (d := mx) (k := d) (by rw [c2]; exact b3)
    obtain ⟨s, c5⟩ := get?_of_keys a1
    exact ⟨_, h, d, mx, v, s, b1, b2, b3, c1, c4, c3 d v c4, c5, rfl⟩
  refine ⟨t ++ es, ⟨es, rfl, h1, fun e he => ?_⟩, ?_⟩
  · obtain ⟨h, d, mx, v, s, b1, b2, b3, b4, b5, b6, b7, b8⟩ := h2 e he
    exact ⟨h, mx, s, b1, b4, b7, Or.inl ⟨d, b2, v, 1, b5, b6, Nat.one_pos, one_dvd _, by rw [b8]; simp⟩⟩
  have hin : ∀ oa l, Dict.get? (t ++ es) oa = some l → t.get? oa = some l ∨ (oa, l) ∈ es := by
    intro oa l h
    rcases List.mem_append.1 (Dict.mem_of_get? h) with h | h
    · exact Or.inl (Dict.get?_of_mem hw.1 h)
    · exact Or.inr h
  refine ⟨fun oa l hl d u hu => ?_, fun oa l hl => ?_, fun oa l hl d hd => ?_, fun d s hs => ?_⟩
  · rcases hin oa l hl with h | h
    · exact hv.bounded oa l h d u hu
    · obtain ⟨_, d', mx, v, s, b1, b2, b3, b4, b5, b6, b7, b8⟩ := h2 _ h
      change l = _ at b8
      rw [b8, Dict.get?_cons] at hu
      split_ifs at hu with hd
      · cases hu
        refine ⟨castDict mx, (v : ℚ), by rw [castTable_get?, b4]; rfl, ?_, by show (1 : ℚ) ≤ v; exact_mod_cast b6⟩
        rw [castDict_get?, ← hd, b5]
        rfl
      · cases hu
  · rcases hin oa l hl with h | h
    · exact hv.fits oa l h
    · obtain ⟨_, d', mx, v, s, b1, b2, b3, b4, b5, b6, b7, b8⟩ := h2 _ h
      change l = _ at b8
      refine ⟨(s : ℚ), by rw [castDict_get?, b7]; rfl, ?_⟩
      rw [b8]
      have := f.array _ (Dict.mem_of_get? b7)
      simpa using this
  · rcases hin oa l hl with h | h
    · exact hv.known oa l h d hd
    · obtain ⟨_, d', mx, v, s, b1, b2, b3, b4, b5, b6, b7, b8⟩ := h2 _ h
      change l = _ at b8
      rw [b8] at hd
      have : d = d' := by simpa [Dict.keys] using hd
      rw [this, castDict_keys]
      exact b3
  · rw [List.map_append, List.prod_append]
    have h1' : (es.map fun e => factor e.2 d).prod = 1 := by
      apply List.prod_eq_one
      intro x hx
      obtain ⟨e, he, rfl⟩ := List.mem_map.1 hx
      obtain ⟨_, d', mx, v, s, b1, b2, b3, b4, b5, b6, b7, b8⟩ := h2 _ he
      rw [b8]
      unfold factor
      rw [Dict.get?_cons]
      split_ifs <;> rfl
    rw [h1', mul_one]
    exact hv.covers d s hs

/-- C150: for a layer, an array, innermost memories and a user mapping that fit together, spatial mappings are generated: there is at least one, all of them are
valid for the array and the layer and unroll every dimension a whole number of times, at least once. -/
theorem generate_total (i : Inputs OA Dim) (ok : InputsOk i) (f : Fitting i) (hn : 1 ≤ i.nbMappings) :
    ∃ maxU ys, getMaxUnrolling i.mems i.oaSizes i.sizes = .ok maxU ∧ generate i = .ok ys ∧ ys ≠ [] ∧ ∀ y ∈ ys,
      SMWF y ∧ SameOas (castDict i.oaSizes) y ∧ Valid (castDict i.oaSizes) (castTable maxU) (castDict i.sizes) y ∧
      ∀ e ∈ y, ∀ x ∈ e.2, ∃ n : ℕ, 1 ≤ n ∧ x.2 = n := by
  obtain ⟨maxU, hu, hmk, hb⟩ := bounds_pos f
  obtain ⟨t, ht, hk, hw, hp, hv⟩ := template_total ok f hu hmk hb
  by_cases hopen : toFill i t = []
  · have hsame : SameOas (castDict i.oaSizes) t := by
      intro k
      rw [castDict_keys]
      constructor
      · intro h
        exact f.known k (by rw [← hk]; exact h)
      · intro h
        by_contra hc
        have : k ∈ toFill i t := List.mem_filter.2 ⟨h, by simpa using hc⟩
        rw [hopen] at this
        cases this
    have hval := (is_valid_iff _ (castTable maxU) _ _ hw (castDict_wf ok.dims)).2 ⟨hsame, hv⟩
    obtain ⟨m, hm, hlow⟩ := limit_capacity_lowers i.capOrder ok.capOrder i.mems t hw hp.nat
      ⟨ok.served, fun mo hmo oa ho => (hsame oa).2 (by rw [castDict_keys]; exact f.served mo hmo oa ho), fun mo hmo _ => f.holds mo hmo⟩
    refine ⟨maxU, [m], hu, ?_, by simp, fun y hy => ?_⟩
    · unfold generate
      rw [ht]
      simp only
      rw [if_pos (by rw [hopen]; rfl)]
      unfold genComplete
      rw [hval]
      simp only
      rw [hm]
    · rw [List.mem_singleton.1 hy]
      obtain ⟨g1, g2⟩ := (is_valid_iff _ _ _ _ (hlow.wf hw) (castDict_wf ok.dims)).1 (valid_lower hw (castDict_wf ok.dims) hlow hval)
      exact ⟨hlow.wf hw, g1, g2, limitCapacity_pos i.capOrder i.mems f.holds t m hp hm⟩
  -- candidates
  have hfill : ∀ oa ∈ toFill i t, oa ∈ i.oaSizes.keys ∧ oa ∉ t.keys := fun oa h => ⟨(List.mem_filter.1 h).1, toFill_disj i t oa h⟩
  obtain ⟨heap, hheap⟩ := perOa_total (i := i) (maxU := maxU) (toFill i t) fun oa ho => by
    obtain ⟨a1, a2⟩ := hfill oa ho
    obtain ⟨h, b1, -⟩ := f.hinted oa a1 (by rw [← hk]; exact a2)
    obtain ⟨mx, c1, -⟩ := hb oa a1
    exact ⟨a1, ⟨h, b1⟩, mx, c1⟩
  obtain ⟨hok, hnd, hch⟩ := perOa_heap i ok maxU _ heap hheap
  have hlen := hch.length_eq
  have hfn := toFill_nodup i ok t
  have hco : ∀ c ∈ allCands t heap, CandOk (toFill i t) heap c := by
    intro c hc
    obtain ⟨chc, hch', rfl⟩ := List.mem_map.1 hc
    have := ((mem_pyProduct _ _).1 hch').length_eq
    exact ⟨hw, hp.nat, toFill_disj i t, by simpa using this⟩
  have hown : ∀ c ∈ allCands t heap, c.own = t := by
    intro c hc
    obtain ⟨chc, -, rfl⟩ := List.mem_map.1 hc
    rfl
  have hcand : ∀ c ∈ allCands t heap, IsRaw i maxU t (resolve (toFill i t) heap c) := by
    intro c hc
    rw [← mem_candList i t maxU heap hch, ← allCands_resolve i ok t heap]
    exact List.mem_map.2 ⟨c, hc, rfl⟩
  have hsame : ∀ c ∈ allCands t heap, SameOas (castDict i.oaSizes) (resolve (toFill i t) heap c) := by
    intro c hc k
    obtain ⟨es, h1, h2, -⟩ := hcand c hc
    rw [h1, castDict_keys]
    unfold Dict.keys
    rw [List.map_append, h2, List.mem_append]
    constructor
    · rintro (h | h)
      · exact f.known k (by rw [← hk]; exact h)
      · exact (hfill k h).1
    · intro h
      by_cases hc : k ∈ t.keys
      · exact Or.inl hc
      · exact Or.inr (List.mem_filter.2 ⟨h, by simpa using hc⟩)
  have hchk : ∀ c ∈ allCands t heap, ∃ b, isValid (some (castDict i.oaSizes)) (castTable maxU) (castDict i.sizes) (resolve (toFill i t) heap c) = .ok b := by
    intro c hc
    have hwf := (resolve_ok hfn hok (hco c hc)).1
    by_cases hV : Valid (castDict i.oaSizes) (castTable maxU) (castDict i.sizes) (resolve (toFill i t) heap c)
    · exact ⟨true, (is_valid_iff _ _ _ _ hwf (castDict_wf ok.dims)).2 ⟨hsame c hc, hV⟩⟩
    · refine ⟨false, is_valid_false _ _ _ _ hwf (castDict_wf ok.dims) (hsame c hc) (fun k h => ?_) hV⟩
      rw [castTable_keys, hmk, ← castDict_keys]
      exact (hsame c hc k).1 h
  obtain ⟨cs, hcs⟩ := keepValid_total _ (allCands t heap) hchk
  have hcf := keepValid_eq _ _ _ hcs
  have hcm : ∀ c ∈ cs, c ∈ allCands t heap ∧ Valid (castDict i.oaSizes) (castTable maxU) (castDict i.sizes) (resolve (toFill i t) heap c) := by
    intro c hc
    rw [hcf] at hc
    obtain ⟨h1, h2⟩ := List.mem_filter.1 hc
    exact ⟨h1, ((is_valid_iff _ _ _ _ (resolve_ok hfn hok (hco c h1)).1 (castDict_wf ok.dims)).1 (by simpa using h2)).2⟩
  have hpos : ∀ c ∈ cs, PosSM (resolve (toFill i t) heap c) ∧ ∃ d, d ∈ allDims (resolve (toFill i t) heap c) := by
    intro c hc
    obtain ⟨h1, h2⟩ := hcm c hc
    obtain ⟨es, e1, e2, e3⟩ := candidate_of_raw (hcand c h1) (resolve_ok hfn hok (hco c h1)).1 h2
    constructor
    · rw [e1]
      intro e he
      rcases List.mem_append.1 he with he | he
      · exact hp e he
      · obtain ⟨h, mx, s, -, -, -, g⟩ := e3 e he
        exact (oaChoice_pos g).2
    · cases es with
      | nil => exact absurd e2.symm hopen
      | cons e es' =>
        obtain ⟨h, mx, s, -, -, -, g⟩ := e3 e (by simp)
        obtain ⟨x, hx⟩ := List.exists_mem_of_ne_nil _ (oaChoice_pos g).1
        refine ⟨x.1, ?_⟩
        unfold allDims flat
        rw [List.mem_dedup, e1]
        exact List.mem_map.2 ⟨x, List.mem_flatMap.2 ⟨e, by simp, hx⟩, rfl⟩
  have hne : cs ≠ [] := by
    obtain ⟨m, m1, m2⟩ := once_valid ok f hb hk hw hv
    have hm := (mem_candList i t maxU heap hch m).2 m1
    rw [← allCands_resolve i ok t heap] at hm
    obtain ⟨c, hc, rfl⟩ := List.mem_map.1 hm
    have : c ∈ cs := by
      rw [hcf]
      exact List.mem_filter.2 ⟨hc, by simpa using (is_valid_iff _ _ _ _ (resolve_ok hfn hok (hco c hc)).1 (castDict_wf ok.dims)).2 ⟨hsame c hc, m2⟩⟩
    exact List.ne_nil_of_mem this
  obtain ⟨ks, hks⟩ := withKeys_total (fun c => indicator (resolve (toFill i t) heap c)) cs fun c hc => by
    obtain ⟨h1, h2⟩ := hcm c hc
    obtain ⟨mx, -, -, g⟩ := indicator_formula (m := resolve (toFill i t) heap c) ⟨(resolve_ok hfn hok (hco c h1)).1, (hpos c hc).2, (hpos c hc).1⟩
    exact ⟨_, g⟩
  have hrank : ranked i maxU t (toFill i t) heap = .ok (sortDesc ks) := by
    unfold ranked
    rw [hcs]
    cases cs with
    | nil => exact absurd rfl hne
    | cons c cs' =>
      simp only
      rw [hks]
  have hksm : ∀ c ∈ ((sortDesc ks).map Prod.snd).take i.nbMappings, c ∈ cs := by
    intro c hc
    rw [← (withKeys_eq _ _ _ hks).1]
    exact ((sortDesc_perm ks).map Prod.snd).mem_iff.1 (List.mem_of_mem_take hc)
  obtain ⟨r, heap', hl⟩ := limitAll_total i ok f hfn (((sortDesc ks).map Prod.snd).take i.nbMappings) heap hok hlen
    (fun c hc => hco c (hcm c (hksm c hc)).1) fun c hc oa ho => by
      rw [hown c (hcm c (hksm c hc)).1]
      by_cases h : oa ∈ t.keys
      · exact Or.inl h
      · exact Or.inr (List.mem_filter.2 ⟨ho, by simpa using h⟩)
  have hgen : generate i = .ok (r.map (resolve (toFill i t) heap')) := by
    unfold generate
    rw [ht]
    simp only
    rw [if_neg (by simpa using hopen)]
    unfold genFill
    rw [hheap]
    simp only
    rw [hrank]
    simp only
    rw [hl]
  obtain ⟨hlow, hrel⟩ := limitAll_lower i ok.served ok.capOrder hfn _ heap r heap' hok (fun c hc => hco c (hcm c (hksm c hc)).1) hl
  obtain ⟨-, hrp⟩ := limitAll_pos i f.holds hfn _ heap r heap' (fun c hc => by
    obtain ⟨h1, -⟩ := hcm c (hksm c hc)
    refine ⟨by rw [hown c h1]; exact hp, by rw [hown c h1]; exact toFill_disj i t, fun x hx y hy => ?_⟩
    have h2 := (hpos c (hksm c hc)).1
    rw [resolve_eq hfn (hco c h1).disj] at h2
    have h3 : (toFill i t).length = (picks heap c.choice).length := by rw [picks_length (hco c h1).len.symm, (hco c h1).len, hlen]
    obtain ⟨j, hj, rfl⟩ := List.getElem_of_mem hx
    refine h2 ((toFill i t)[j], (picks heap c.choice)[j]) (List.mem_append_right _ ?_) y hy
    exact List.mem_iff_getElem.2 ⟨j, by simp [hj, h3], by simp⟩) hl
  refine ⟨maxU, _, hu, hgen, ?_, fun y hy => ?_⟩
  · rw [Ne, List.map_eq_nil_iff]
    intro hc
    have h1 := hrel.length_eq
    rw [hc, List.length_nil, List.length_take, List.length_map, (sortDesc_perm ks).length_eq] at h1
    have h2 : ks.length ≠ 0 := by
      have := congrArg List.length (withKeys_eq _ _ _ hks).1
      rw [List.length_map] at this
      rw [this]
      simpa using hne
    omega
  · obtain ⟨maxU', g1, g2⟩ := generate_valid i ok _ hgen
    rw [hu] at g1
    cases g1
    obtain ⟨c', hc', rfl⟩ := List.mem_map.1 hy
    obtain ⟨c, hcc, h1, h2⟩ := forall₂_mem_right hrel hc'
    have hcok := hco c (hcm c (hksm c hcc)).1
    have hwy := (resolve_lower hfn hcok.disj hlow h1 h2).wf (resolve_ok hfn hok hcok).1
    obtain ⟨a1, a2, a3⟩ := hrp c' hc'
    obtain ⟨v1, v2⟩ := (is_valid_iff _ _ _ _ hwy (castDict_wf ok.dims)).1 (g2 _ hy)
    exact ⟨hwy, v1, v2, resolve_pos hfn a2 a3 a1⟩

/-! ### cases -/

/-- The hypotheses of C150 are met by a partial user mapping with mixed unrollings. -/
example : Fitting mixedInputs where
  served := by decide
  delivers := by decide
  holds := by decide
  array := by decide
  layer := by decide
  known := by decide
  once := by decide +kernel
  hinted := by
    intro oa h1 h2
    have : oa = "D1" := by
      have h3 : oa = "D1" ∨ oa = "D2" := by simpa [mixedInputs, Dict.keys] using h1
      rcases h3 with h3 | h3
      · exact h3
      · exact absurd (by rw [h3]; decide) h2
    subst this
    exact ⟨["K", "OX"], by decide, "K", by decide, by decide⟩
  order := plainOrder_ok

/-- An innermost memory that delivers 4 bits per cycle of a weight with 8 bits. -/
def narrowInputs (user : SM String String) : Inputs String String :=
  { mems := [⟨4, 1024, 8, ["C"], ["D1"]⟩], oaSizes := [("D1", 4)], sizes := [("K", 8), ("C", 6)], provided := user,
    hints := [("D1", ["K"])], mix := false, nbMappings := 1, order := plainOrder, capOrder := id }

set_option synthInstance.maxSize 1000 in
set_option synthInstance.maxHeartbeats 200000 in
/-- C150 needs that the innermost memories deliver an element per cycle: otherwise the bound of the dimension is zero and nothing is generated for the hint
(`AssertionError`, "No valid SpatialMappings found"), although the layer can be executed without unrolling. -/
theorem generate_narrow_crash : generate (narrowInputs []) = .error .assertion := by
  decide +kernel

set_option synthInstance.maxSize 1000 in
set_option synthInstance.maxHeartbeats 200000 in
/-- C150 is false when an innermost memory does not deliver an element per cycle: the user mapping is "reduced" to an unrolling of zero, accepted as valid and
yielded. -/
theorem generate_zero_false : generate (narrowInputs [("D1", [("K", 4)])]) = .ok [[("D1", [("K", 0)])]] := by
  decide +kernel

end Verif.SpatialGen
