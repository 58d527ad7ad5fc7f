import Verif.SpatialGen.Total

/-! What the generator yields when the innermost memories are large enough for every unrolling of the array, and when the user mapping is complete. -/

namespace Verif.SpatialGen

open Verif.SpatialMapping

variable {OA Dim : Type} [DecidableEq OA] [DecidableEq Dim]

/-! ### Mappings that fit are not changed -/

/-- The memory holds the elements that the array unrolls from it. -/
theorem capStep_same (ord : List Dim → List Dim) {mo : MemOp OA Dim} {m : SM OA Dim} (hk : ∀ oa ∈ mo.served, oa ∈ m.keys)
    (h : storedElems mo m * mo.precision ≤ mo.capacity) : capStep ord mo m = .ok m := by
  unfold capStep
  rw [servedEntries_eq m mo.irrelevant mo.served hk]
  simp only
  rw [if_neg]
  rintro ⟨h1, h2⟩
  have hp : (0 : ℚ) < mo.precision := by exact_mod_cast h1
  rw [div_lt_iff₀ hp] at h2
  have := relEntries_prod mo m
  unfold relEntries at this
  rw [this] at h2
  exact absurd h (not_le.2 h2)

theorem limitCapacity_same (ord : List Dim → List Dim) {m : SM OA Dim} : ∀ mems : List (MemOp OA Dim),
    (∀ mo ∈ mems, (∀ oa ∈ mo.served, oa ∈ m.keys) ∧ storedElems mo m * mo.precision ≤ mo.capacity) → limitCapacity ord mems m = .ok m
  | [], _ => rfl
  | mo :: t, h => by
    unfold limitCapacity
    rw [capStep_same ord (h mo (by simp)).1 (h mo (by simp)).2]
    exact limitCapacity_same ord t fun x hx => h x (by simp [hx])

theorem prod_filter_le {l : List (Dim × ℚ)} (p : Dim × ℚ → Bool) (h : ∀ x ∈ l, 1 ≤ x.2) :
    0 ≤ ((l.filter p).map Prod.snd).prod ∧ ((l.filter p).map Prod.snd).prod ≤ (l.map Prod.snd).prod := by
  induction l with
  | nil => simp
  | cons x t ih =>
    obtain ⟨i1, i2⟩ := ih fun y hy => h y (by simp [hy])
    have hx := h x (by simp)
    rw [List.filter_cons]
    split_ifs
    · rw [List.map_cons, List.prod_cons, List.map_cons, List.prod_cons]
      have : (0 : ℚ) ≤ x.2 := by linarith
      exact ⟨mul_nonneg this i1, mul_le_mul_of_nonneg_left i2 this⟩
    · refine ⟨i1, i2.trans ?_⟩
      rw [List.map_cons, List.prod_cons]
      exact le_mul_of_one_le_left (i1.trans i2) hx

/-- Innermost memories that hold an element for every unit they serve. -/
def Roomy (i : Inputs OA Dim) : Prop := ∀ mo ∈ i.mems, mo.precision * (mo.served.map fun oa => (i.oaSizes.get? oa).getD 1).prod ≤ mo.capacity

theorem roomy_holds {i : Inputs OA Dim} (hr : Roomy i) (ha : ∀ e ∈ i.oaSizes, 1 ≤ e.2) {maxU : Dict OA (Dict Dim ℚ)} {sizes : Dict Dim ℚ} {m : SM OA Dim} (hv : Valid (castDict i.oaSizes) maxU sizes m)
    (hp : PosSM m) : ∀ mo ∈ i.mems, storedElems mo m * mo.precision ≤ mo.capacity := by
  intro mo hmo
  have key : ∀ served : List OA, 0 ≤ (served.map (fun oa => ((((m.get? oa).getD []).filter (fun x => decide (x.1 ∉ mo.irrelevant))).map Prod.snd).prod)).prod ∧
      (served.map (fun oa => ((((m.get? oa).getD []).filter (fun x => decide (x.1 ∉ mo.irrelevant))).map Prod.snd).prod)).prod ≤
        (((served.map fun oa => (i.oaSizes.get? oa).getD 1).prod : ℕ) : ℚ) := by
    intro served
    induction served with
    | nil => simp
    | cons oa t ih =>
      rw [List.map_cons, List.prod_cons, List.map_cons, List.prod_cons, Nat.cast_mul]
      have : 0 ≤ ((((m.get? oa).getD []).filter (fun x => decide (x.1 ∉ mo.irrelevant))).map Prod.snd).prod ∧
          ((((m.get? oa).getD []).filter (fun x => decide (x.1 ∉ mo.irrelevant))).map Prod.snd).prod ≤ (((i.oaSizes.get? oa).getD 1 : ℕ) : ℚ) := by
        cases hg : m.get? oa with
        | none =>
          refine ⟨by simp, ?_⟩
          cases ho : i.oaSizes.get? oa with
          | none => simp
          | some s =>
            have := ha _ (Dict.mem_of_get? ho)
            simpa using this
        | some l =>
          obtain ⟨f1, f2⟩ := prod_filter_le (l := l) (fun x => decide (x.1 ∉ mo.irrelevant)) fun x hx => by
            obtain ⟨n, hn, e⟩ := hp _ (Dict.mem_of_get? hg) x hx
            rw [e]
            exact_mod_cast hn
          obtain ⟨s, hs, hle⟩ := hv.fits oa l hg
          rw [castDict_get?] at hs
          obtain ⟨s', hs', rfl⟩ := Option.map_eq_some_iff.1 hs
          rw [hs']
          exact ⟨f1, f2.trans hle⟩
      exact ⟨mul_nonneg this.1 ih.1, mul_le_mul this.2 ih.2 ih.1 (this.1.trans this.2)⟩
  have h1 := (key mo.served).2
  have h2 : ((mo.precision * (mo.served.map fun oa => (i.oaSizes.get? oa).getD 1).prod : ℕ) : ℚ) ≤ mo.capacity := by exact_mod_cast hr mo hmo
  rw [Nat.cast_mul, mul_comm] at h2
  exact (mul_le_mul_of_nonneg_right h1 (Nat.cast_nonneg _)).trans h2

/-! ### Candidates -/

theorem store_same {m : SM OA Dim} : ∀ (fill : List OA) (heap : List (List (Dict Dim ℚ))) (choice : List Nat), List.Forall₂ (fun k l => k < l.length) choice heap →
    (∀ p ∈ fill.zip (picks heap choice), m.get? p.1 = some p.2) → store m fill heap choice = heap
  | [], [], _, _, _ => by unfold store; rfl
  | [], _ :: _, _, _, _ => by unfold store; rfl
  | _ :: _, _, _, .nil, _ => by unfold store; rfl
  | oa :: f, l :: h, k :: c, .cons hk ht, hp => by
    unfold store
    have e : picks (l :: h) (k :: c) = (l[k]?).getD [] :: picks h c := rfl
    rw [e, List.zip_cons_cons] at hp
    have h0 := hp (oa, (l[k]?).getD []) List.mem_cons_self
    simp only at h0
    rw [h0, store_same f h c ht fun p hp' => hp p (List.mem_cons_of_mem _ hp')]
    congr 1
    rw [List.getElem?_eq_getElem hk]
    simp

theorem storeOwn_same {m own : SM OA Dim} (h : ∀ e ∈ own, m.get? e.1 = some e.2) : storeOwn m own = own := by
  unfold storeOwn
  conv_rhs => rw [← List.map_id own]
  exact List.map_congr_left fun e he => by rw [h e he]; rfl

theorem limitAll_same (i : Inputs OA Dim) {fill : List OA} (hf : fill.Nodup) {heap : List (List (Dict Dim ℚ))} (hh : HeapOk heap) : ∀ cs : List (Cand OA Dim),
    (∀ c ∈ cs, CandOk fill heap c ∧ List.Forall₂ (fun k l => k < l.length) c.choice heap ∧
      limitCapacity i.capOrder i.mems (resolve fill heap c) = .ok (resolve fill heap c)) → limitAll i fill cs heap = .ok (cs, heap)
  | [], _ => rfl
  | c :: t, h => by
    obtain ⟨hc, hb, hl⟩ := h c List.mem_cons_self
    have hw := (resolve_ok hf hh hc).1
    have hget : ∀ e ∈ c.own ++ fill.zip (picks heap c.choice), (resolve fill heap c).get? e.1 = some e.2 := fun e he =>
      Dict.get?_of_mem hw.1 (by rw [resolve_eq hf hc.disj]; exact he)
    unfold limitAll
    rw [hl]
    simp only
    rw [store_same fill heap c.choice hb fun p hp => hget p (List.mem_append_right _ hp), limitAll_same i hf hh t fun x hx => h x (List.mem_cons_of_mem _ hx),
      storeOwn_same fun e he => hget e (List.mem_append_left _ he)]

/-! ### Results -/

theorem perOa_same (i : Inputs OA Dim) (maxU : Dict OA (Dict Dim Nat)) (nb : Nat) : ∀ fill : List OA, perOa { i with nbMappings := nb } maxU fill = perOa i maxU fill
  | [] => rfl
  | oa :: t => by
    unfold perOa
    rw [perOa_same i maxU nb t]

/-- With roomy memories the generator yields the best completions of the user mapping, and more of them if more are asked for. -/
theorem generate_take (i : Inputs OA Dim) (ok : InputsOk i) (f : Fitting i) (hr : Roomy i) :
    ∃ all : List (SM OA Dim), all ≠ [] ∧ ∀ nb, 1 ≤ nb → generate { i with nbMappings := nb } = .ok (all.take nb) := by
  obtain ⟨maxU, hu, hmk, hb⟩ := bounds_pos f
  obtain ⟨t, ht, hk, hw, hp, hv⟩ := template_total ok f hu hmk hb
  have ht' : ∀ nb, template { i with nbMappings := nb } = .ok (maxU, t) := fun nb => ht
  have hserved : ∀ {m : SM OA Dim}, SameOas (castDict i.oaSizes) m → ∀ mo ∈ i.mems, ∀ oa ∈ mo.served, oa ∈ m.keys := fun hs mo hmo oa ho =>
    (hs oa).2 (by rw [castDict_keys]; exact f.served mo hmo oa ho)
  obtain ⟨maxU', ys, hu', hys, hyne, -⟩ := generate_total { i with nbMappings := 1 } ⟨ok.oas, ok.dims, ok.user, ok.nat, ok.served, ok.hints, ok.capOrder⟩
    ⟨f.served, f.delivers, f.holds, f.array, f.layer, f.known, f.once, f.hinted, f.order⟩ (le_refl 1)
  by_cases hopen : toFill i t = []
  · have hopen' : ∀ nb, toFill { i with nbMappings := nb } t = [] := fun nb => hopen
    have hsame : SameOas (castDict i.oaSizes) t := by
      intro k
      rw [castDict_keys]
      constructor
      · intro h
        exact f.known k (by rw [← hk]; exact h)
      · intro h
        by_contra hc
        have : k ∈ toFill i t := List.mem_filter.2 ⟨h, by simpa using hc⟩
        rw [hopen] at this
        cases this
    have hval := (is_valid_iff _ (castTable maxU) _ _ hw (castDict_wf ok.dims)).2 ⟨hsame, hv⟩
    have hlim := limitCapacity_same i.capOrder i.mems fun mo hmo => ⟨hserved hsame mo hmo, roomy_holds hr f.array hv hp mo hmo⟩
    refine ⟨[t], by simp, fun nb hnb => ?_⟩
    unfold generate
    rw [ht' nb]
    simp only
    rw [if_pos (by rw [hopen' nb]; rfl)]
    unfold genComplete
    rw [show isValid (some (castDict i.oaSizes)) (castTable maxU) (castDict i.sizes) t = .ok true from hval]
    simp only
    rw [hlim]
    simp only
    rw [List.take_of_length_le (by simpa using hnb)]
  · have hfn := toFill_nodup i ok t
    have hgen : ∀ nb, generate { i with nbMappings := nb } = genFill { i with nbMappings := nb } maxU t (toFill i t) := fun nb => by
      unfold generate
      rw [ht' nb]
      simp only
      refine if_neg fun hc => hopen (List.length_eq_zero_iff.1 ?_)
      exact hc
    have h1 := hgen 1
    rw [hys] at h1
    unfold genFill at h1
    rw [perOa_same i maxU 1] at h1
    cases hheap : perOa i maxU (toFill i t) with
    | error e => rw [hheap] at h1; cases h1
    | ok heap =>
      rw [hheap] at h1
      simp only at h1
      cases hks : ranked i maxU t (toFill i t) heap with
      | error e =>
        rw [show ranked { i with nbMappings := 1 } maxU t (toFill i t) heap = .error e from hks] at h1
        cases h1
      | ok ks =>
        obtain ⟨hok, hnd, hch⟩ := perOa_heap i ok maxU _ heap hheap
        obtain ⟨r1, r2, r3, -⟩ := ranked_spec i maxU t (toFill i t) heap ks hks
        have hcs : ∀ c ∈ ks.map Prod.snd, CandOk (toFill i t) heap c ∧ List.Forall₂ (fun k l => k < l.length) c.choice heap ∧
            limitCapacity i.capOrder i.mems (resolve (toFill i t) heap c) = .ok (resolve (toFill i t) heap c) := by
          intro c hc
          obtain ⟨hca, hcv⟩ := List.mem_filter.1 (r1.mem_iff.1 hc)
          have hraw : IsRaw i maxU t (resolve (toFill i t) heap c) := by
            rw [← mem_candList i t maxU heap hch, ← allCands_resolve i ok t heap]
            exact List.mem_map.2 ⟨c, hca, rfl⟩
          obtain ⟨ch, hch', rfl⟩ := List.mem_map.1 hca
          have hprod := (mem_pyProduct _ _).1 hch'
          have hco : CandOk (toFill i t) heap { own := t, choice := ch } := ⟨hw, hp.nat, toFill_disj i t, by simpa using hprod.length_eq⟩
          have hwf := (resolve_ok hfn hok hco).1
          obtain ⟨v1, v2⟩ := (is_valid_iff _ _ _ _ hwf (castDict_wf ok.dims)).1 (by simpa using hcv)
          refine ⟨hco, ?_, limitCapacity_same i.capOrder i.mems fun mo hmo => ⟨hserved v1 mo hmo, roomy_holds hr f.array v2 ?_ mo hmo⟩⟩
          · rw [List.forall₂_map_right_iff] at hprod
            exact hprod.imp fun k l h => List.mem_range.1 h
          · obtain ⟨es, e1, -, e3⟩ := candidate_of_raw hraw hwf v2
            rw [e1]
            intro e he
            rcases List.mem_append.1 he with he | he
            · exact hp e he
            · obtain ⟨h, mx, s, -, -, -, g⟩ := e3 e he
              exact (oaChoice_pos g).2
        have hall : ∀ nb, generate { i with nbMappings := nb } = .ok (((ks.map Prod.snd).map (resolve (toFill i t) heap)).take nb) := by
          intro nb
          rw [hgen nb]
          unfold genFill
          rw [perOa_same i maxU nb, hheap]
          simp only
          rw [show ranked { i with nbMappings := nb } maxU t (toFill i t) heap = .ok ks from hks]
          simp only
          rw [limitAll_same { i with nbMappings := nb } hfn hok _ fun c hc => hcs c (List.mem_of_mem_take hc)]
          simp only
          rw [List.map_take]
        refine ⟨_, ?_, fun nb _ => hall nb⟩
        intro hc
        rw [hall 1, hc, List.take_nil] at hys
        exact hyne (Except.ok.inj hys).symm

/-- A complete user mapping that fits is the only mapping, whatever the options are. -/
theorem generate_user (i : Inputs OA Dim) (hd : i.sizes.WF) (ho : i.order.Ok) (hw : SMWF i.provided) {maxU : Dict OA (Dict Dim Nat)}
    (hu : getMaxUnrolling i.mems i.oaSizes i.sizes = .ok maxU) (hs : SameOas (castDict i.oaSizes) i.provided)
    (hv : Valid (castDict i.oaSizes) (castTable maxU) (castDict i.sizes) i.provided)
    (hm : ∀ mo ∈ i.mems, (∀ oa ∈ mo.served, oa ∈ i.oaSizes.keys) ∧ storedElems mo i.provided * mo.precision ≤ mo.capacity) : generate i = .ok [i.provided] := by
  have hval := (is_valid_iff _ (castTable maxU) _ _ hw (castDict_wf hd)).2 ⟨hs, hv⟩
  have ht : template i = .ok (maxU, i.provided) := by
    unfold template
    rw [hu]
    simp only
    rw [check_and_reduce_id i.order ho _ _ _ _ hw (castDict_wf hd) hval]
  have hopen : toFill i i.provided = [] := by
    unfold toFill
    rw [List.filter_eq_nil_iff]
    intro oa h
    have := (hs oa).2 (by rw [castDict_keys]; exact h)
    simpa using this
  unfold generate
  rw [ht]
  simp only
  rw [if_pos (by rw [hopen]; rfl)]
  unfold genComplete
  rw [hval]
  simp only
  rw [limitCapacity_same i.capOrder i.mems fun mo hmo => ⟨fun oa ho => (hs oa).2 (by rw [castDict_keys]; exact (hm mo hmo).1 oa ho), (hm mo hmo).2⟩]

end Verif.SpatialGen
