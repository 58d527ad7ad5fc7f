import Verif.Decouple.Lemmas

namespace Verif.Decouple

open LayerNode (lookup)

variable {Dim : Type} [DecidableEq Dim]

/-- The loops of one level with the events spliced in. -/
def splice (env : DEnv Dim) : List (Dim × ℚ) → List (Ev Dim) → List (TDim Dim × ℚ)
  | [], _ => []
  | l :: ls, ev => match keyOf env l.1 with
    | none => (.orig l.1, l.2) :: splice env ls ev
    | some k => match ev with
      | [] => []
      | e :: es => (.r k, e.2.1) :: (.ir k, e.2.2) :: splice env ls es

omit [DecidableEq Dim] in
theorem ins_app {α : Type} (x y : α) (rest : List α) : ∀ done : List α,
    (done ++ x :: rest).insertIdx (done.length + 1) y = done ++ x :: y :: rest
  | [] => by simp
  | a :: done => by
    rw [List.cons_append, List.length_cons, List.insertIdx_succ_cons, ins_app x y rest done]; rfl

theorem replLoops_ok {env : DEnv Dim} (hw : env.lut.WF) (hu : Uniq env) (perS perR : Dict Dim (List (List ℚ))) (level : Nat) (full : List (Ev Dim))
    (hS : ∀ e ∈ env.lut, ∃ L, perS.get? e.1 = some L ∧ L[level]? = some (sel (fun e => e.2.1) e.1 full))
    (hR : ∀ e ∈ env.lut, ∃ L, perR.get? e.1 = some L ∧ L[level]? = some (sel (fun e => e.2.2) e.1 full)) :
    ∀ (loops : List (Dim × ℚ)) (idx : Nat) (c ev : List (Ev Dim)) (done : List (TDim Dim × ℚ)) (loc : Dict Dim Nat) (g : Nat),
      full = c ++ ev → ev.map Prod.fst = loops.filterMap (fun x => keyOf env x.1) →
      (∀ e ∈ env.lut, loc.get? e.1 = some (c.filter (fun x => x.1 = e.1)).length) → done.length = idx + g →
      ∃ st, replLoops env perS perR level idx loops (done ++ loops.map (fun x => (.orig x.1, x.2)), loc, g) = .ok st ∧
        st.1 = done ++ splice env loops ev
  | [], idx, c, ev, done, loc, g, _, _, _, _ => ⟨_, rfl, by simp [splice]⟩
  | l :: loops, idx, c, ev, done, loc, g, hfull, hkeys, hloc, hlen => by
    unfold replLoops
    have hnm : ∀ (a : RSt Dim) (b : Dim × Dim × Dim), ¬ (b.2.1 = l.1 ∨ b.2.2 = l.1) → replKey perS perR level idx l.1 a b = .ok a := by
      intro a b hb; unfold replKey; rw [if_neg hb]; rfl
    cases hk : keyOf env l.1 with
    | none =>
      have hstep : ∀ a : RSt Dim, replLoop env perS perR level idx l.1 a = .ok a := by
        intro a
        unfold replLoop
        by_cases ho : env.other l.1 = true
        · rw [if_pos ho]
        · rw [if_neg ho]
          exact foldlM_id _ _ _ (fun b hb a => hnm a b (keyOf_none hk (by simpa using ho) b hb))
      rw [hstep]
      simp only [bind, Except.bind]
      rw [List.filterMap_cons_none (f := fun x : Dim × ℚ => keyOf env x.1) hk] at hkeys
      obtain ⟨st, h1, h2⟩ := replLoops_ok hw hu perS perR level full hS hR loops (idx + 1) c ev (done ++ [(.orig l.1, l.2)]) loc g
        hfull hkeys hloc (by simp; omega)
      refine ⟨st, ?_, ?_⟩
      · rw [← h1]; simp
      · rw [h2]; simp [splice, hk]
    | some k =>
      obtain ⟨ho, xy, hmem, hm⟩ := keyOf_some hk
      rw [List.filterMap_cons_some (f := fun x : Dim × ℚ => keyOf env x.1) hk] at hkeys
      cases ev with
      | nil => simp at hkeys
      | cons e es =>
        rw [List.map_cons, List.cons.injEq] at hkeys
        obtain ⟨hek, hkeys⟩ := hkeys
        obtain ⟨LS, hLS, hLS'⟩ := hS _ hmem
        obtain ⟨LR, hLR, hLR'⟩ := hR _ hmem
        have hsel : ∀ f : Ev Dim → ℚ, sel f k full = sel f k c ++ f e :: sel f k es := by
          intro f
          rw [hfull]
          unfold sel
          rw [List.filter_append, List.filter_cons_of_pos (by simpa using hek)]; simp
        have hselget : ∀ f : Ev Dim → ℚ, pyGet (sel f k full) (c.filter (fun x => x.1 = k)).length = .ok (f e) := by
          intro f
          have hl : (c.filter (fun x => x.1 = k)).length = (sel f k c).length := by unfold sel; rw [List.length_map]
          unfold pyGet
          rw [hsel, hl]
          simp
        have hstep : replKey perS perR level idx l.1 (done ++ (TDim.orig l.1, l.2) :: loops.map (fun x => (.orig x.1, x.2)), loc, g) (k, xy) =
            .ok (done ++ [(.r k, e.2.1), (.ir k, e.2.2)] ++ loops.map (fun x => (.orig x.1, x.2)),
              loc.set k ((c.filter (fun x => x.1 = k)).length + 1), g + 1) := by
          unfold replKey lookup
          rw [if_pos hm]
          simp only [hloc _ hmem, hLS, hLR, bind, Except.bind, pure, Except.pure]
          rw [show pyGet LS level = .ok (sel (fun e => e.2.1) k full) by unfold pyGet; rw [hLS']]
          rw [show pyGet LR level = .ok (sel (fun e => e.2.2) k full) by unfold pyGet; rw [hLR']]
          simp only [hselget]
          rw [if_pos (by simp; omega), ← hlen]
          congr 2
          rw [List.set_append_right _ _ le_rfl, Nat.sub_self, List.set_cons_zero, ins_app]
          simp
        have hfold : replLoop env perS perR level idx l.1 (done ++ (TDim.orig l.1, l.2) :: loops.map (fun x => (.orig x.1, x.2)), loc, g) =
            .ok (done ++ [(.r k, e.2.1), (.ir k, e.2.2)] ++ loops.map (fun x => (.orig x.1, x.2)),
              loc.set k ((c.filter (fun x => x.1 = k)).length + 1), g + 1) := by
          unfold replLoop
          rw [if_neg (by simp [ho]), foldlM_single (replKey perS perR level idx l.1) (fun b => b.2.1 = l.1 ∨ b.2.2 = l.1) hnm env.lut (lut_nodup hw) (k, xy) hmem
            (fun c hc hmc => hu l.1 ho c hc _ hmem hmc hm), hstep]
        simp only [List.map_cons]
        rw [hfold]
        simp only [bind, Except.bind]
        obtain ⟨st, h1, h2⟩ := replLoops_ok hw hu perS perR level full hS hR loops (idx + 1) (c ++ [e]) es
          (done ++ [(.r k, e.2.1), (.ir k, e.2.2)]) (loc.set k ((c.filter (fun x => x.1 = k)).length + 1)) (g + 1)
          (by rw [hfull]; simp) hkeys
          (by
            intro e' he'
            rw [Dict.get?_set]
            by_cases hke : k = e'.1
            · rw [if_pos hke, ← hke, List.filter_append, List.filter_cons_of_pos (by simpa using hek)]; simp
            · rw [if_neg hke, hloc e' he', List.filter_append, List.filter_cons_of_neg (by simpa [hek] using hke)]; simp)
          (by simp; omega)
        refine ⟨st, h1, ?_⟩
        rw [h2]; simp [splice, hk]

theorem replLevels_ok {env : DEnv Dim} (hw : env.lut.WF) (hu : Uniq env) (perS perR : Dict Dim (List (List ℚ))) (anns : List (List (Ev Dim)))
    (hS : ∀ e ∈ env.lut, perS.get? e.1 = some (cabl (fun e => e.2.1) e.1 anns))
    (hR : ∀ e ∈ env.lut, perR.get? e.1 = some (cabl (fun e => e.2.2) e.1 anns)) :
    ∀ (levels : List (List (Dim × ℚ))) (done rest : List (List (Ev Dim))), anns = done ++ rest →
      rest.map (List.map Prod.fst) = levels.map (fun l => l.filterMap (fun x => keyOf env x.1)) →
      replLevels env perS perR done.length levels = .ok (List.zipWith (splice env) levels rest)
  | [], done, rest, _, _ => by simp [replLevels]; rfl
  | l :: levels, done, [], _, h => by simp at h
  | l :: levels, done, a :: rest, hann, hkeys => by
    simp only [List.map_cons, List.cons.injEq] at hkeys
    have hget : ∀ (f : Ev Dim → ℚ) k, (cabl f k anns)[done.length]? = some (sel f k a) := by
      intro f k
      unfold cabl
      rw [hann]
      simp [sel]
    obtain ⟨st, h1, h2⟩ := replLoops_ok hw hu perS perR done.length a
      (fun e he => ⟨_, hS e he, hget _ _⟩) (fun e he => ⟨_, hR e he, hget _ _⟩) l 0 [] a [] (env.lut.map (fun e => (e.1, 0))) 0 rfl hkeys.1
      (by
        intro e he
        have hwf : Dict.WF (env.lut.map (fun e => (e.1, (0 : Nat)))) := by
          unfold Dict.WF Dict.keys at hw ⊢; simpa [Function.comp_def] using hw
        simpa using Dict.get?_of_mem hwf (List.mem_map_of_mem (f := fun e : Dim × Dim × Dim => (e.1, (0 : Nat))) he))
      rfl
    have ih := replLevels_ok hw hu perS perR anns hS hR levels (done ++ [a]) rest (by rw [hann]; simp) hkeys.2
    rw [List.length_append, List.length_singleton] at ih
    unfold replLevels
    rw [List.nil_append] at h1 h2
    rw [h1]
    simp only [bind, Except.bind]
    rw [ih, h2]
    rfl

theorem perDict_get {f : Ev Dim → ℚ} {evs : List (List (Ev Dim))} : ∀ (keys : List Dim) (d : Dict Dim (List (List ℚ))),
    perDict f keys evs = .ok d → ∀ k ∈ keys, ∃ l, ratios 1 (cabl f k evs) = .ok l ∧ d.get? k = some l
  | [], d, _, k, hk => by simp at hk
  | a :: keys, d, h, k, hk => by
    unfold perDict at h
    rw [List.mapM_cons] at h
    simp only [bind, Except.bind, pure, Except.pure] at h
    cases ha : ratios 1 (cabl f a evs) with
    | error e => rw [ha] at h; cases h
    | ok la =>
      rw [ha] at h
      simp only at h
      cases hr : perDict f keys evs with
      | error e =>
        unfold perDict at hr
        simp only [bind, Except.bind, pure, Except.pure] at hr
        rw [hr] at h; cases h
      | ok d' =>
        have hr' := hr
        unfold perDict at hr
        simp only [bind, Except.bind, pure, Except.pure] at hr
        rw [hr] at h
        cases h
        rw [Dict.get?_cons]
        by_cases hak : a = k
        · subst hak; exact ⟨la, ha, by simp⟩
        · simp only [hak, if_false]
          have hk' : k ∈ keys := by
            rcases List.mem_cons.1 hk with h | h
            · exact absurd h.symm hak
            · exact h
          exact perDict_get keys d' hr' k hk'

theorem evAll_keys {env : DEnv Dim} : ∀ (levels : List (List (Dim × ℚ))) (st : Sizes Dim) (evs : List (List (Ev Dim))),
    evAll env st levels = .ok evs → evs.map (List.map Prod.fst) = levels.map (fun l => l.filterMap (fun x => keyOf env x.1))
  | [], st, evs, h => by cases h; rfl
  | l :: levels, st, evs, h => by
    unfold evAll at h
    cases hl : evL env st l with
    | error e => rw [hl] at h; cases h
    | ok p =>
      rw [hl] at h
      simp only [bind, Except.bind, pure, Except.pure] at h
      cases hr : evAll env p.1 levels with
      | error e => rw [hr] at h; cases h
      | ok r =>
        rw [hr] at h
        cases h
        simp [evL_keys l st p hl, evAll_keys levels p.1 r hr]

/-- Events of dimensions outside the table do not occur. -/
theorem cabl_empty {env : DEnv Dim} {evs : List (List (Ev Dim))} {levels : List (List (Dim × ℚ))}
    (h : evs.map (List.map Prod.fst) = levels.map (fun l => l.filterMap (fun x => keyOf env x.1))) (f : Ev Dim → ℚ) (k : Dim)
    (hk : k ∉ env.lut.keys) : cabl f k evs = evs.map (fun _ => []) := by
  unfold cabl
  apply List.map_congr_left
  intro ev hev
  rw [List.filter_eq_nil_iff.2]
  · rfl
  · intro e he hc
    have hek : e.1 = k := by simpa using hc
    have hm : ev.map Prod.fst ∈ evs.map (List.map Prod.fst) := List.mem_map_of_mem hev
    rw [h] at hm
    obtain ⟨l, _, hl⟩ := List.mem_map.1 hm
    have : e.1 ∈ ev.map Prod.fst := List.mem_map_of_mem he
    rw [← hl] at this
    obtain ⟨x, _, hx⟩ := List.mem_filterMap.1 this
    obtain ⟨_, xy, hmem, _⟩ := keyOf_some hx
    apply hk
    rw [← hek]
    exact List.mem_map_of_mem (f := Prod.fst) hmem

theorem ratios_empty {α : Type} (p : ℚ) : ∀ l : List α, ratios p (l.map (fun _ => [])) = .ok (l.map (fun _ => []))
  | [] => rfl
  | a :: l => by
    rw [List.map_cons]
    unfold ratios ratioLvl
    simp only [bind, Except.bind, pure, Except.pure]
    rw [ratios_empty p l]

/-- The code is: compute the events, take ratios, splice them in. -/
theorem decouple_ok {env : DEnv Dim} (hw : env.lut.WF) (hu : Uniq env) {levels : List (List (Dim × ℚ))} {out : List (List (TDim Dim × ℚ))}
    (h : decouple env levels = .ok out) :
    ∃ evs anns, evAll env (initSizes env.lut) levels = .ok evs ∧ annAll (fun _ => 1) (fun _ => 1) evs = .ok anns ∧
      out = List.zipWith (splice env) levels anns ∧
      anns.map (List.map Prod.fst) = levels.map (fun l => l.filterMap (fun x => keyOf env x.1)) := by
  unfold decouple at h
  rw [allEvents_eq hw hu] at h
  cases he : evAll env (initSizes env.lut) levels with
  | error e => rw [he] at h; cases h
  | ok evs =>
    rw [he] at h
    simp only [bind, Except.bind] at h
    cases hs : perDict (fun e => e.2.1) env.lut.keys evs with
    | error e => rw [hs] at h; cases h
    | ok perS =>
      rw [hs] at h
      simp only at h
      cases hr : perDict (fun e => e.2.2) env.lut.keys evs with
      | error e => rw [hr] at h; cases h
      | ok perR =>
        rw [hr] at h
        simp only at h
        have hkeys := evAll_keys levels _ evs he
        have hget : ∀ (f : Ev Dim → ℚ) (d : Dict Dim (List (List ℚ))), perDict f env.lut.keys evs = .ok d →
            ∀ k, ∃ r, ratios 1 (cabl f k evs) = .ok r := by
          intro f d hd k
          by_cases hk : k ∈ env.lut.keys
          · obtain ⟨l, hl, _⟩ := perDict_get _ d hd k hk; exact ⟨l, hl⟩
          · rw [cabl_empty hkeys f k hk]; exact ⟨_, ratios_empty 1 evs⟩
        obtain ⟨anns, a1, a2, a3, a4⟩ := annAll_ok evs (fun _ => 1) (fun _ => 1) (hget _ perS hs) (hget _ perR hr)
        refine ⟨evs, anns, rfl, a1, ?_, a4.trans hkeys⟩
        have := replLevels_ok hw hu perS perR anns
          (by
            intro e hmem
            obtain ⟨l, hl, hd⟩ := perDict_get _ perS hs e.1 (List.mem_map_of_mem (f := Prod.fst) hmem)
            rw [a2 e.1] at hl; cases hl; exact hd)
          (by
            intro e hmem
            obtain ⟨l, hl, hd⟩ := perDict_get _ perR hr e.1 (List.mem_map_of_mem (f := Prod.fst) hmem)
            rw [a3 e.1] at hl; cases hl; exact hd)
          levels [] anns rfl (a4.trans hkeys)
        rw [List.length_nil] at this
        rw [this] at h
        cases h; rfl

end Verif.Decouple
