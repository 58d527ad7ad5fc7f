import Verif.Decouple.Lemmas2
import Verif.LayerNode.Props
import Mathlib.Algebra.Order.BigOperators.GroupWithZero.List

/-! C18: partially relevant loops are split without changing iteration counts. -/

namespace Verif.Decouple

open LayerNode (lookup)

variable {Dim : Type} [DecidableEq Dim]

theorem accSizes_eq (env : DEnv Dim) (xy : Dim × Dim) (loops : List (Dim × ℚ)) :
    accSizes env xy loops = if xy.1 = xy.2 then [(xy.1, dimProd env xy.1 loops)]
      else [(xy.1, dimProd env xy.1 loops), (xy.2, dimProd env xy.2 loops)] := by
  unfold accSizes
  by_cases h : xy.1 = xy.2 <;> simp [Dict.set, h]

theorem dimProd_snoc (env : DEnv Dim) (d : Dim) (loops : List (Dim × ℚ)) (l : Dim × ℚ) :
    dimProd env d (loops ++ [l]) = if l.1 = d ∧ env.other l.1 = false then dimProd env d loops * l.2 else dimProd env d loops := by
  unfold dimProd
  rw [List.filter_append, List.map_append, List.prod_append]
  split_ifs with h
  · rw [List.filter_cons_of_pos (by simpa using h)]; simp
  · rw [List.filter_cons_of_neg (by simpa using h)]; simp

/-- A loop of the data dimension multiplies the size of its own dimension. -/
theorem accSizes_step (env : DEnv Dim) {xy : Dim × Dim} {l : Dim × ℚ} (ho : env.other l.1 = false) (hm : xy.1 = l.1 ∨ xy.2 = l.1)
    (loops : List (Dim × ℚ)) : ∃ v, (accSizes env xy loops).get? l.1 = some v ∧
      (accSizes env xy loops).set l.1 (v * l.2) = accSizes env xy (loops ++ [l]) ∧
      (accSizes env xy (loops ++ [l])).values.prod = (accSizes env xy loops).values.prod * l.2 := by
  obtain ⟨x, y⟩ := xy
  obtain ⟨d, s⟩ := l
  simp only at ho hm ⊢
  rw [accSizes_eq, accSizes_eq, dimProd_snoc, dimProd_snoc]
  simp only [ho, and_true]
  by_cases hxy : x = y
  · subst hxy
    have hd : x = d := by tauto
    subst hd
    refine ⟨dimProd env x loops, ?_, ?_, ?_⟩ <;> simp [Dict.get?, Dict.set, Dict.values]
  · simp only [hxy, if_false]
    rcases hm with rfl | rfl
    · refine ⟨dimProd env x loops, ?_, ?_, ?_⟩
      · simp [Dict.get?]
      · simp [Dict.set, hxy]
      · simp [Dict.values, hxy]; ring
    · refine ⟨dimProd env y loops, ?_, ?_, ?_⟩
      · simp [Dict.get?, hxy]
      · simp [Dict.set, hxy, Ne.symm hxy]
      · simp [Dict.values, Ne.symm hxy]; ring

/-- A loop that is not of the data dimension changes nothing. -/
theorem accSizes_skip (env : DEnv Dim) {xy : Dim × Dim} {l : Dim × ℚ} (h : env.other l.1 = true ∨ ¬ (xy.1 = l.1 ∨ xy.2 = l.1))
    (loops : List (Dim × ℚ)) : accSizes env xy (loops ++ [l]) = accSizes env xy loops := by
  rw [accSizes_eq, accSizes_eq, dimProd_snoc, dimProd_snoc]
  rcases h with h | h
  · simp [h]
  · push Not at h
    simp only [Ne.symm h.1, Ne.symm h.2, false_and, if_false]

/-- Relation between the state of the code and the loops seen so far. -/
def Inv (env : DEnv Dim) (done : List (Dim × ℚ)) (st : Sizes Dim) (pS pR : Dim → ℚ) : Prop :=
  ∀ k xy, (k, xy) ∈ env.lut → st.get? k = some (accSizes env xy done) ∧ pS k * pR k = (accSizes env xy done).values.prod ∧
    (env.tdim k (accSizes env xy done) = .ok (pS k) ∨ (pS k = 1 ∧ ∀ l ∈ done, keyOf env l.1 ≠ some k))

theorem nameProd_cons (n : TDim Dim) (l : TDim Dim × ℚ) (ls : List (TDim Dim × ℚ)) :
    nameProd n (l :: ls) = (if l.1 = n then l.2 else 1) * nameProd n ls := by
  unfold nameProd
  by_cases h : l.1 = n <;> simp [h]

theorem level_spec {env : DEnv Dim} (hw : env.lut.WF) (hu : Uniq env) : ∀ (loops : List (Dim × ℚ)) (done : List (Dim × ℚ)) (st : Sizes Dim)
    (pS pR : Dim → ℚ) (p : Sizes Dim × List (Ev Dim)) (q : List (Ev Dim) × (Dim → ℚ) × (Dim → ℚ)), Inv env done st pS pR →
    evL env st loops = .ok p → annL pS pR p.2 = .ok q →
    Inv env (done ++ loops) p.1 q.2.1 q.2.2 ∧
    (∃ blocks, List.Forall₂ (Split env) loops blocks ∧ splice env loops q.1 = blocks.flatten) ∧
    (∀ k, nameProd (.r k) (splice env loops q.1) * pS k = q.2.1 k) ∧ (∀ k, nameProd (.ir k) (splice env loops q.1) * pR k = q.2.2 k)
  | [], done, st, pS, pR, p, q, hI, hp, hq => by
    cases hp; cases hq
    refine ⟨by simpa using hI, ⟨[], .nil, rfl⟩, fun k => ?_, fun k => ?_⟩ <;> simp [splice, nameProd]
  | l :: loops, done, st, pS, pR, p, q, hI, hp, hq => by
    unfold evL at hp
    cases hk : keyOf env l.1 with
    | none =>
      rw [hk] at hp
      simp only at hp
      have hI' : Inv env (done ++ [l]) st pS pR := by
        intro k xy hmem
        obtain ⟨i1, i2, i3⟩ := hI k xy hmem
        have hskip : accSizes env xy (done ++ [l]) = accSizes env xy done := by
          apply accSizes_skip
          by_cases ho : env.other l.1 = true
          · exact Or.inl ho
          · exact Or.inr (keyOf_none hk (by simpa using ho) _ hmem)
        rw [hskip]
        refine ⟨i1, i2, i3.imp id fun ⟨h1, h2⟩ => ⟨h1, fun x hx => ?_⟩⟩
        rcases List.mem_append.1 hx with hx | hx
        · exact h2 x hx
        · rw [List.mem_singleton.1 hx, hk]; simp
      obtain ⟨r1, ⟨blocks, r2, r3⟩, r4, r5⟩ := level_spec hw hu loops (done ++ [l]) st pS pR p q hI' hp hq
      have hsp : splice env (l :: loops) q.1 = (.orig l.1, l.2) :: splice env loops q.1 := by rw [splice, hk]
      refine ⟨by simpa using r1, ⟨[(.orig l.1, l.2)] :: blocks, .cons ?_ r2, ?_⟩, fun k => ?_, fun k => ?_⟩
      · unfold Split; rw [hk]
      · rw [hsp, r3]; rfl
      · rw [hsp, nameProd_cons]; simpa using r4 k
      · rw [hsp, nameProd_cons]; simpa using r5 k
    | some k =>
      rw [hk] at hp
      simp only at hp
      obtain ⟨ho, xy, hmem, hm⟩ := keyOf_some hk
      obtain ⟨i1, i2, i3⟩ := hI k xy hmem
      obtain ⟨v, v1, v2, v3⟩ := accSizes_step env ho hm done
      cases hup : upd env st k l with
      | error e => rw [hup] at hp; cases hp
      | ok u =>
        rw [hup] at hp
        simp only [bind, Except.bind, pure, Except.pure] at hp
        cases hrest : evL env u.1 loops with
        | error e => rw [hrest] at hp; cases hp
        | ok p' =>
          rw [hrest] at hp
          cases hp
          -- the update
          unfold upd lookup at hup
          simp only [i1, v1, bind, Except.bind, pure, Except.pure] at hup
          rw [v2] at hup
          cases ht : env.tdim k (accSizes env xy (done ++ [l])) with
          | error e => rw [ht] at hup; cases hup
          | ok r =>
            rw [ht] at hup
            simp only at hup
            by_cases hr0 : r = 0
            · rw [if_pos hr0] at hup; cases hup
            · rw [if_neg hr0] at hup
              cases hup
              simp only at hrest hq
              -- the ratio
              unfold annL at hq
              simp only at hq
              by_cases hz : pS k = 0 ∨ pR k = 0
              · rw [if_pos hz] at hq; cases hq
              · rw [if_neg hz] at hq
                push Not at hz
                simp only [bind, Except.bind, pure, Except.pure] at hq
                set pS' := Function.update pS k r with hpS'
                set pR' := Function.update pR k ((accSizes env xy (done ++ [l])).values.prod / r) with hpR'
                cases hq' : annL pS' pR' p'.2 with
                | error e => rw [hq'] at hq; cases hq
                | ok q' =>
                  rw [hq'] at hq
                  cases hq
                  have hI' : Inv env (done ++ [l]) (st.set k (accSizes env xy (done ++ [l]))) pS' pR' := by
                    intro k' xy' hmem'
                    by_cases hkk : k = k'
                    · subst hkk
                      have hxy : xy' = xy := by
                        have h1 := Dict.get?_of_mem hw hmem
                        have h2 := Dict.get?_of_mem hw hmem'
                        rw [h1] at h2; cases h2; rfl
                      subst hxy
                      refine ⟨by rw [Dict.get?_set, if_pos rfl], ?_, Or.inl ?_⟩
                      · rw [hpS', hpR', Function.update_self, Function.update_self, mul_div_cancel₀ _ hr0]
                      · rw [hpS', Function.update_self]; exact ht
                    · obtain ⟨j1, j2, j3⟩ := hI k' xy' hmem'
                      have hnm : ¬ (xy'.1 = l.1 ∨ xy'.2 = l.1) := by
                        intro hc
                        have := hu l.1 ho _ hmem _ hmem' hm hc
                        exact hkk (congrArg Prod.fst this)
                      rw [accSizes_skip env (Or.inr hnm), hpS', hpR', Function.update_of_ne (Ne.symm hkk), Function.update_of_ne (Ne.symm hkk)]
                      refine ⟨by rw [Dict.get?_set, if_neg hkk]; exact j1, j2, j3.imp id fun ⟨h1, h2⟩ => ⟨h1, fun x hx => ?_⟩⟩
                      rcases List.mem_append.1 hx with hx | hx
                      · exact h2 x hx
                      · rw [List.mem_singleton.1 hx, hk]; simpa using hkk
                  obtain ⟨r1, ⟨blocks, r2, r3⟩, r4, r5⟩ := level_spec hw hu loops (done ++ [l]) _ pS' pR' p' q' hI' hrest hq'
                  set a := r / pS k with ha
                  set b := (accSizes env xy (done ++ [l])).values.prod / r / pR k with hb
                  have hsp : splice env (l :: loops) ((k, a, b) :: q'.1) = (.r k, a) :: (.ir k, b) :: splice env loops q'.1 := by
                    rw [splice, hk]
                  refine ⟨by simpa using r1, ⟨[(.r k, a), (.ir k, b)] :: blocks, .cons ?_ r2, ?_⟩, fun k' => ?_, fun k' => ?_⟩
                  · unfold Split
                    rw [hk]
                    refine ⟨a, b, rfl, ?_⟩
                    rw [ha, hb, v3, ← i2]
                    have := hz.1
                    have := hz.2
                    field_simp
                  · rw [hsp, r3]; rfl
                  · rw [hsp, nameProd_cons, nameProd_cons, ← r4 k']
                    by_cases hkk : k = k'
                    · subst hkk
                      rw [hpS', Function.update_self, ha]
                      have := hz.1
                      simp
                      field_simp
                    · rw [hpS', Function.update_of_ne (Ne.symm hkk)]
                      simp [hkk]
                  · rw [hsp, nameProd_cons, nameProd_cons, ← r5 k']
                    by_cases hkk : k = k'
                    · subst hkk
                      rw [hpR', Function.update_self, hb]
                      have := hz.2
                      simp
                      field_simp
                    · rw [hpR', Function.update_of_ne (Ne.symm hkk)]
                      simp [hkk]

theorem inv_init {env : DEnv Dim} (hw : env.lut.WF) : Inv env [] (initSizes env.lut) (fun _ => 1) (fun _ => 1) := by
  intro k xy hmem
  have hwf : (initSizes env.lut).WF := by
    unfold Dict.WF Dict.keys initSizes at *; simpa [Function.comp_def] using hw
  refine ⟨?_, ?_, Or.inr ⟨rfl, by simp⟩⟩
  · apply Dict.get?_of_mem hwf
    have := List.mem_map_of_mem (f := fun e : Dim × Dim × Dim => (e.1, (Dict.set [] e.2.1 (1 : ℚ)).set e.2.2 1)) hmem
    simpa [initSizes, accSizes, dimProd] using this
  · rw [accSizes_eq]
    by_cases h : xy.1 = xy.2 <;> simp [h, dimProd, Dict.values]

theorem nameProd_append (n : TDim Dim) (a b : List (TDim Dim × ℚ)) : nameProd n (a ++ b) = nameProd n a * nameProd n b := by
  unfold nameProd; rw [List.filter_append, List.map_append, List.prod_append]

theorem levels_spec {env : DEnv Dim} (hw : env.lut.WF) (hu : Uniq env) : ∀ (levels : List (List (Dim × ℚ))) (done : List (Dim × ℚ)) (st : Sizes Dim)
    (pS pR : Dim → ℚ) (evs anns : List (List (Ev Dim))), Inv env done st pS pR → evAll env st levels = .ok evs → annAll pS pR evs = .ok anns →
    List.Forall₂ (fun l o => ∃ blocks, List.Forall₂ (Split env) l blocks ∧ o = blocks.flatten) levels (List.zipWith (splice env) levels anns) ∧
    ∀ n, ∃ st' pS' pR', Inv env (done ++ (levels.take n).flatten) st' pS' pR' ∧
      ∀ k, nameProd (.r k) ((List.zipWith (splice env) levels anns).take n).flatten * pS k = pS' k ∧
        nameProd (.ir k) ((List.zipWith (splice env) levels anns).take n).flatten * pR k = pR' k
  | [], done, st, pS, pR, evs, anns, hI, h1, h2 => by
    cases h1; cases h2
    refine ⟨.nil, fun n => ⟨st, pS, pR, by simpa using hI, fun k => ?_⟩⟩
    simp [nameProd]
  | l :: levels, done, st, pS, pR, evs, anns, hI, h1, h2 => by
    unfold evAll at h1
    cases hl : evL env st l with
    | error e => rw [hl] at h1; cases h1
    | ok p =>
      rw [hl] at h1
      simp only [bind, Except.bind, pure, Except.pure] at h1
      cases hr : evAll env p.1 levels with
      | error e => rw [hr] at h1; cases h1
      | ok evs' =>
        rw [hr] at h1
        cases h1
        unfold annAll at h2
        cases hq : annL pS pR p.2 with
        | error e => rw [hq] at h2; cases h2
        | ok q =>
          rw [hq] at h2
          simp only [bind, Except.bind, pure, Except.pure] at h2
          cases hw' : annAll q.2.1 q.2.2 evs' with
          | error e => rw [hw'] at h2; cases h2
          | ok w =>
            rw [hw'] at h2
            cases h2
            obtain ⟨r1, r2, r4, r5⟩ := level_spec hw hu l done st pS pR p q hI hl hq
            obtain ⟨s1, s2⟩ := levels_spec hw hu levels (done ++ l) p.1 q.2.1 q.2.2 evs' w r1 hr hw'
            refine ⟨.cons r2 s1, fun n => ?_⟩
            cases n with
            | zero => exact ⟨st, pS, pR, by simpa using hI, fun k => by simp [nameProd]⟩
            | succ n =>
              obtain ⟨st', pS', pR', t1, t2⟩ := s2 n
              refine ⟨st', pS', pR', by simpa using t1, fun k => ?_⟩
              rw [List.zipWith_cons_cons, List.take_succ_cons, List.flatten_cons, nameProd_append, nameProd_append, ← (t2 k).1, ← (t2 k).2,
                ← r4 k, ← r5 k]
              constructor <;> ring

/-- C18: every loop is kept, or replaced in place by a relevant and an irrelevant loop of its data dimension whose sizes multiply
to the loop size. -/
theorem decouple_split {env : DEnv Dim} (hw : env.lut.WF) (hu : Uniq env) {levels : List (List (Dim × ℚ))} {out : List (List (TDim Dim × ℚ))}
    (h : decouple env levels = .ok out) :
    List.Forall₂ (fun l o => ∃ blocks, List.Forall₂ (Split env) l blocks ∧ o = blocks.flatten) levels out := by
  obtain ⟨evs, anns, h1, h2, rfl, _⟩ := decouple_ok hw hu h
  exact (levels_spec hw hu levels [] _ _ _ evs anns (inv_init hw) h1 h2).1

/-- C18: every level keeps the product of its loop sizes. -/
theorem decouple_product {env : DEnv Dim} (hw : env.lut.WF) (hu : Uniq env) {levels : List (List (Dim × ℚ))} {out : List (List (TDim Dim × ℚ))}
    (h : decouple env levels = .ok out) :
    out.map (fun l => (l.map Prod.snd).prod) = levels.map (fun l => (l.map Prod.snd).prod) := by
  have key : ∀ l blocks, List.Forall₂ (Split env) l blocks → ((blocks.flatten).map Prod.snd).prod = (l.map Prod.snd).prod := by
    intro l blocks hf
    induction hf with
    | nil => rfl
    | @cons a b l blocks hs _ ih =>
      rw [List.flatten_cons, List.map_append, List.prod_append, ih, List.map_cons, List.prod_cons]
      congr 1
      unfold Split at hs
      cases hk : keyOf env a.1 with
      | none => rw [hk] at hs; simp only at hs; rw [hs]; simp
      | some k => rw [hk] at hs; obtain ⟨x, y, rfl, e⟩ := hs; simp [e]
  have := decouple_split hw hu h
  induction this with
  | nil => rfl
  | cons hs _ ih =>
    obtain ⟨blocks, hb, rfl⟩ := hs
    rw [List.map_cons, List.map_cons, key _ _ hb]
    congr 1
    clear h
    rename_i hrest
    clear ih
    induction hrest with
    | nil => rfl
    | cons hs' _ ih' =>
      obtain ⟨blocks', hb', rfl⟩ := hs'
      rw [List.map_cons, List.map_cons, key _ _ hb', ih']

/-- C18: the relevant loops of a data dimension up to any level multiply to the size of that data dimension for the loops up to
that level (one when no loop of it has occurred). -/
theorem decouple_data_size {env : DEnv Dim} (hw : env.lut.WF) (hu : Uniq env) {levels : List (List (Dim × ℚ))} {out : List (List (TDim Dim × ℚ))}
    (h : decouple env levels = .ok out) (n : Nat) (k : Dim) (xy : Dim × Dim) (hmem : (k, xy) ∈ env.lut) :
    env.tdim k (accSizes env xy (levels.take n).flatten) = .ok (nameProd (.r k) (out.take n).flatten) ∨
    (nameProd (.r k) (out.take n).flatten = 1 ∧ ∀ l ∈ (levels.take n).flatten, keyOf env l.1 ≠ some k) := by
  obtain ⟨evs, anns, h1, h2, rfl, _⟩ := decouple_ok hw hu h
  obtain ⟨st, pS, pR, hI, hp⟩ := (levels_spec hw hu levels [] _ _ _ evs anns (inv_init hw) h1 h2).2 n
  obtain ⟨_, _, h3⟩ := hI k xy hmem
  have := (hp k).1
  rw [mul_one] at this
  rw [this]
  simpa using h3

/-- C18: the two parts of a data dimension multiply to the iterations of its loops up to any level. -/
theorem decouple_reuse {env : DEnv Dim} (hw : env.lut.WF) (hu : Uniq env) {levels : List (List (Dim × ℚ))} {out : List (List (TDim Dim × ℚ))}
    (h : decouple env levels = .ok out) (n : Nat) (k : Dim) (x y : Dim) (hmem : (k, (x, y)) ∈ env.lut) (hxy : x ≠ y) :
    nameProd (.r k) (out.take n).flatten * nameProd (.ir k) (out.take n).flatten =
      dimProd env x (levels.take n).flatten * dimProd env y (levels.take n).flatten := by
  obtain ⟨evs, anns, h1, h2, rfl, _⟩ := decouple_ok hw hu h
  obtain ⟨st, pS, pR, hI, hp⟩ := (levels_spec hw hu levels [] _ _ _ evs anns (inv_init hw) h1 h2).2 n
  obtain ⟨_, h3, _⟩ := hI k (x, y) hmem
  have := (hp k).1
  rw [mul_one] at this
  have h5 := (hp k).2
  rw [mul_one] at h5
  rw [this, h5, h3, accSizes_eq]
  simp [hxy, Dict.values]

/-! ### No exception on positive sizes -/

theorem dimProd_pos (env : DEnv Dim) (d : Dim) (loops : List (Dim × ℚ)) (h : ∀ l ∈ loops, 0 < l.2) : 0 < dimProd env d loops := by
  unfold dimProd
  apply List.prod_pos
  intro x hx
  obtain ⟨l, hl, rfl⟩ := List.mem_map.1 hx
  exact h l (List.mem_of_mem_filter hl)

theorem accSizes_pos (env : DEnv Dim) (xy : Dim × Dim) (loops : List (Dim × ℚ)) (h : ∀ l ∈ loops, 0 < l.2) :
    ∀ v ∈ (accSizes env xy loops).values, 0 < v := by
  intro v hv
  rw [accSizes_eq] at hv
  have h1 := dimProd_pos env xy.1 loops h
  have h2 := dimProd_pos env xy.2 loops h
  split_ifs at hv
  · simp [Dict.values] at hv; rw [hv]; exact h1
  · simp [Dict.values] at hv; rcases hv with rfl | rfl <;> assumption

/-- Part of `Inv` that concerns the first pass. -/
def InvS (env : DEnv Dim) (done : List (Dim × ℚ)) (st : Sizes Dim) : Prop :=
  ∀ k xy, (k, xy) ∈ env.lut → st.get? k = some (accSizes env xy done)

theorem evL_total {env : DEnv Dim} (hw : env.lut.WF) (hu : Uniq env)
    (ht : ∀ k xy, (k, xy) ∈ env.lut → ∀ ls : List (Dim × ℚ), (∀ l ∈ ls, 1 ≤ l.2) → ∃ r, 0 < r ∧ env.tdim k (accSizes env xy ls) = .ok r) :
    ∀ (loops done : List (Dim × ℚ)) (st : Sizes Dim), InvS env done st → (∀ l ∈ done ++ loops, 1 ≤ l.2) →
      ∃ p, evL env st loops = .ok p ∧ InvS env (done ++ loops) p.1 ∧ ∀ e ∈ p.2, 0 < e.2.1 ∧ 0 < e.2.2
  | [], done, st, hI, _ => ⟨_, rfl, by simpa using hI, by simp⟩
  | l :: loops, done, st, hI, hpos => by
    unfold evL
    cases hk : keyOf env l.1 with
    | none =>
      simp only
      have hI' : InvS env (done ++ [l]) st := by
        intro k xy hmem
        rw [hI k xy hmem, accSizes_skip]
        by_cases ho : env.other l.1 = true
        · exact Or.inl ho
        · exact Or.inr (keyOf_none hk (by simpa using ho) _ hmem)
      obtain ⟨p, h1, h2, h3⟩ := evL_total hw hu ht loops (done ++ [l]) st hI' (by simpa using hpos)
      exact ⟨p, h1, by simpa using h2, h3⟩
    | some k =>
      simp only
      obtain ⟨ho, xy, hmem, hm⟩ := keyOf_some hk
      obtain ⟨v, v1, v2, v3⟩ := accSizes_step env ho hm done
      have hpa : ∀ x ∈ done ++ [l], 1 ≤ x.2 := fun x hx => hpos x (by
        rcases List.mem_append.1 hx with h | h
        · exact List.mem_append_left _ h
        · rw [List.mem_singleton.1 h]; simp)
      have hacc := accSizes_pos env xy (done ++ [l]) (fun x hx => lt_of_lt_of_le one_pos (hpa x hx))
      obtain ⟨r, hr, htd⟩ := ht k xy hmem _ hpa
      have hup : upd env st k l = .ok (st.set k (accSizes env xy (done ++ [l])), (k, r, (accSizes env xy (done ++ [l])).values.prod / r)) := by
        unfold upd lookup
        simp only [hI k xy hmem, v1, bind, Except.bind, pure, Except.pure]
        rw [v2, htd]
        simp only
        rw [if_neg hr.ne']
      have hI' : InvS env (done ++ [l]) (st.set k (accSizes env xy (done ++ [l]))) := by
        intro k' xy' hmem'
        rw [Dict.get?_set]
        by_cases hkk : k = k'
        · subst hkk
          have hxy : xy' = xy := by
            have h1 := Dict.get?_of_mem hw hmem
            have h2 := Dict.get?_of_mem hw hmem'
            rw [h1] at h2; cases h2; rfl
          rw [if_pos rfl, hxy]
        · rw [if_neg hkk, hI k' xy' hmem', accSizes_skip]
          right
          intro hc
          exact hkk (congrArg Prod.fst (hu l.1 ho _ hmem _ hmem' hm hc))
      obtain ⟨p, h1, h2, h3⟩ := evL_total hw hu ht loops (done ++ [l]) _ hI' (by simpa using hpos)
      rw [hup]
      simp only [bind, Except.bind, pure, Except.pure]
      rw [h1]
      refine ⟨_, rfl, by simpa using h2, ?_⟩
      intro e he
      rcases List.mem_cons.1 he with rfl | he
      · exact ⟨hr, div_pos (List.prod_pos hacc) hr⟩
      · exact h3 e he

theorem ratioLvl_total : ∀ (l : List ℚ) (p : ℚ), 0 < p → (∀ v ∈ l, 0 < v) → ∃ r, ratioLvl p l = .ok r ∧ 0 < r.2
  | [], p, hp, _ => ⟨_, rfl, hp⟩
  | v :: l, p, hp, h => by
    obtain ⟨r, hr, hr2⟩ := ratioLvl_total l v (h v (by simp)) (fun w hw => h w (by simp [hw]))
    unfold ratioLvl
    rw [if_neg hp.ne', hr]
    exact ⟨_, rfl, hr2⟩

theorem ratios_total : ∀ (ls : List (List ℚ)) (p : ℚ), 0 < p → (∀ l ∈ ls, ∀ v ∈ l, 0 < v) → ∃ r, ratios p ls = .ok r
  | [], p, _, _ => ⟨_, rfl⟩
  | l :: ls, p, hp, h => by
    obtain ⟨r, hr, hr2⟩ := ratioLvl_total l p hp (h l (by simp))
    obtain ⟨w, hw⟩ := ratios_total ls r.2 hr2 (fun l hl => h l (by simp [hl]))
    unfold ratios
    rw [hr]
    simp only [bind, Except.bind]
    rw [hw]
    exact ⟨_, rfl⟩

theorem evAll_total {env : DEnv Dim} (hw : env.lut.WF) (hu : Uniq env)
    (ht : ∀ k xy, (k, xy) ∈ env.lut → ∀ ls : List (Dim × ℚ), (∀ l ∈ ls, 1 ≤ l.2) → ∃ r, 0 < r ∧ env.tdim k (accSizes env xy ls) = .ok r) :
    ∀ (levels : List (List (Dim × ℚ))) (done : List (Dim × ℚ)) (st : Sizes Dim), InvS env done st → (∀ l ∈ done ++ levels.flatten, 1 ≤ l.2) →
      ∃ evs, evAll env st levels = .ok evs ∧ ∀ ev ∈ evs, ∀ e ∈ ev, 0 < e.2.1 ∧ 0 < e.2.2
  | [], done, st, _, _ => ⟨_, rfl, by simp⟩
  | l :: levels, done, st, hI, hpos => by
    obtain ⟨p, h1, h2, h3⟩ := evL_total hw hu ht l done st hI (fun x hx => hpos x (by
      rw [List.flatten_cons, ← List.append_assoc]; exact List.mem_append_left _ hx))
    obtain ⟨evs, h4, h5⟩ := evAll_total hw hu ht levels (done ++ l) p.1 h2 (by simpa using hpos)
    unfold evAll
    rw [h1]
    simp only [bind, Except.bind]
    rw [h4]
    refine ⟨_, rfl, ?_⟩
    intro ev hev
    rcases List.mem_cons.1 hev with rfl | hev
    · exact h3
    · exact h5 ev hev

theorem perDict_total {f : Ev Dim → ℚ} {evs : List (List (Ev Dim))} (h : ∀ k, ∃ r, ratios 1 (cabl f k evs) = .ok r) :
    ∀ keys, ∃ d, perDict f keys evs = .ok d
  | [] => ⟨_, rfl⟩
  | k :: keys => by
    obtain ⟨r, hr⟩ := h k
    obtain ⟨d, hd⟩ := perDict_total h keys
    unfold perDict at hd ⊢
    rw [List.mapM_cons]
    simp only [bind, Except.bind, pure, Except.pure] at hd ⊢
    rw [hr]
    simp only
    rw [hd]
    exact ⟨_, rfl⟩

/-- No exception when all loop sizes are at least one and the data dimensions then have positive sizes. -/
theorem decouple_total {env : DEnv Dim} (hw : env.lut.WF) (hu : Uniq env)
    (ht : ∀ k xy, (k, xy) ∈ env.lut → ∀ ls : List (Dim × ℚ), (∀ l ∈ ls, 1 ≤ l.2) → ∃ r, 0 < r ∧ env.tdim k (accSizes env xy ls) = .ok r)
    (levels : List (List (Dim × ℚ))) (hpos : ∀ l ∈ levels.flatten, 1 ≤ l.2) : ∃ out, decouple env levels = .ok out := by
  obtain ⟨evs, h1, h2⟩ := evAll_total hw hu ht levels [] (initSizes env.lut) (fun k xy hm => (inv_init hw k xy hm).1) (by simpa using hpos)
  have hr : ∀ (f : Ev Dim → ℚ), (∀ ev ∈ evs, ∀ e ∈ ev, 0 < f e) → ∀ k, ∃ r, ratios 1 (cabl f k evs) = .ok r := by
    intro f hf k
    apply ratios_total _ _ one_pos
    intro l hl v hv
    obtain ⟨ev, hev, rfl⟩ := List.mem_map.1 hl
    obtain ⟨e, he, rfl⟩ := List.mem_map.1 hv
    exact hf ev hev e (List.mem_of_mem_filter he)
  have hS := hr (fun e => e.2.1) (fun ev hev e he => (h2 ev hev e he).1)
  have hR := hr (fun e => e.2.2) (fun ev hev e he => (h2 ev hev e he).2)
  obtain ⟨perS, hs⟩ := perDict_total hS env.lut.keys
  obtain ⟨perR, hrr⟩ := perDict_total hR env.lut.keys
  obtain ⟨anns, a1, a2, a3, a4⟩ := annAll_ok evs (fun _ => 1) (fun _ => 1) hS hR
  have hkeys := evAll_keys levels _ evs h1
  have := replLevels_ok hw hu perS perR anns
    (by
      intro e hmem
      obtain ⟨l, hl, hd⟩ := perDict_get _ perS hs e.1 (List.mem_map_of_mem (f := Prod.fst) hmem)
      rw [a2 e.1] at hl; cases hl; exact hd)
    (by
      intro e hmem
      obtain ⟨l, hl, hd⟩ := perDict_get _ perR hrr e.1 (List.mem_map_of_mem (f := Prod.fst) hmem)
      rw [a3 e.1] at hl; cases hl; exact hd)
    levels [] anns rfl (a4.trans hkeys)
  unfold decouple
  rw [allEvents_eq hw hu, h1]
  simp only [bind, Except.bind]
  rw [hs]
  simp only
  rw [hrr]
  exact ⟨_, this⟩

/-! ### Loops of positive size are split into loops of positive size -/

theorem annL_pos : ∀ (es : List (Ev Dim)) (pS pR : Dim → ℚ) (q : List (Ev Dim) × (Dim → ℚ) × (Dim → ℚ)), annL pS pR es = .ok q →
    (∀ k, 0 < pS k) → (∀ k, 0 < pR k) → (∀ e ∈ es, 0 < e.2.1 ∧ 0 < e.2.2) →
    (∀ e ∈ q.1, 0 < e.2.1 ∧ 0 < e.2.2) ∧ (∀ k, 0 < q.2.1 k) ∧ ∀ k, 0 < q.2.2 k
  | [], pS, pR, q, h, hS, hR, _ => by cases h; exact ⟨by simp, hS, hR⟩
  | e :: es, pS, pR, q, h, hS, hR, he => by
    unfold annL at h
    rw [if_neg (by rintro (h0 | h0); exacts [(hS _).ne' h0, (hR _).ne' h0])] at h
    cases hq : annL (Function.update pS e.1 e.2.1) (Function.update pR e.1 e.2.2) es with
    | error x => simp only [bind, Except.bind, hq] at h; cases h
    | ok q' =>
      simp only [bind, Except.bind, hq, pure, Except.pure] at h
      cases h
      obtain ⟨e1, e2⟩ := he e (by simp)
      have up : ∀ (p : Dim → ℚ) (v : ℚ), (∀ k, 0 < p k) → 0 < v → ∀ k, 0 < Function.update p e.1 v k := by
        intro p v hp hv k
        by_cases hk : k = e.1
        · rw [hk, Function.update_self]; exact hv
        · rw [Function.update_of_ne hk]; exact hp k
      obtain ⟨a, b, c⟩ := annL_pos es _ _ q' hq (up pS _ hS e1) (up pR _ hR e2) (fun x hx => he x (by simp [hx]))
      refine ⟨fun x hx => ?_, b, c⟩
      rcases List.mem_cons.1 hx with rfl | hx
      · exact ⟨div_pos e1 (hS _), div_pos e2 (hR _)⟩
      · exact a x hx

theorem annAll_pos : ∀ (evs : List (List (Ev Dim))) (pS pR : Dim → ℚ) (anns : List (List (Ev Dim))), annAll pS pR evs = .ok anns →
    (∀ k, 0 < pS k) → (∀ k, 0 < pR k) → (∀ ev ∈ evs, ∀ e ∈ ev, 0 < e.2.1 ∧ 0 < e.2.2) → ∀ ev ∈ anns, ∀ e ∈ ev, 0 < e.2.1 ∧ 0 < e.2.2
  | [], pS, pR, anns, h, _, _, _ => by cases h; simp
  | l :: ls, pS, pR, anns, h, hS, hR, he => by
    unfold annAll at h
    cases hq : annL pS pR l with
    | error x => simp only [bind, Except.bind, hq] at h; cases h
    | ok q =>
      cases hr : annAll q.2.1 q.2.2 ls with
      | error x => simp only [bind, Except.bind, hq, hr] at h; cases h
      | ok r =>
        simp only [bind, Except.bind, hq, hr, pure, Except.pure] at h
        cases h
        obtain ⟨a, b, c⟩ := annL_pos l pS pR q hq hS hR (he l (by simp))
        intro ev hev
        rcases List.mem_cons.1 hev with rfl | hev
        · exact a
        · exact annAll_pos ls _ _ r hr b c (fun x hx => he x (by simp [hx])) ev hev

theorem splice_pos (env : DEnv Dim) : ∀ (ls : List (Dim × ℚ)) (ev : List (Ev Dim)), (∀ l ∈ ls, 0 < l.2) → (∀ e ∈ ev, 0 < e.2.1 ∧ 0 < e.2.2) →
    ∀ x ∈ splice env ls ev, 0 < x.2
  | [], ev, _, _ => by simp [splice]
  | l :: ls, ev, hl, he => by
    unfold splice
    cases keyOf env l.1 with
    | none =>
      intro x hx
      rcases List.mem_cons.1 hx with rfl | hx
      · exact hl l (by simp)
      · exact splice_pos env ls ev (fun y hy => hl y (by simp [hy])) he x hx
    | some k =>
      cases ev with
      | nil => simp
      | cons e es =>
        intro x hx
        simp only [List.mem_cons] at hx
        rcases hx with rfl | rfl | hx
        · exact (he e (by simp)).1
        · exact (he e (by simp)).2
        · exact splice_pos env ls es (fun y hy => hl y (by simp [hy])) (fun y hy => he y (by simp [hy])) x hx

/-- C18: loops of at least one iteration are split into loops of positive size. -/
theorem decouple_pos {env : DEnv Dim} (hw : env.lut.WF) (hu : Uniq env)
    (ht : ∀ k xy, (k, xy) ∈ env.lut → ∀ ls : List (Dim × ℚ), (∀ l ∈ ls, 1 ≤ l.2) → ∃ r, 0 < r ∧ env.tdim k (accSizes env xy ls) = .ok r)
    {levels : List (List (Dim × ℚ))} (hpos : ∀ l ∈ levels.flatten, 1 ≤ l.2) {out : List (List (TDim Dim × ℚ))}
    (h : decouple env levels = .ok out) : ∀ x ∈ out.flatten, 0 < x.2 := by
  obtain ⟨evs, h1, h2⟩ := evAll_total hw hu ht levels [] (initSizes env.lut) (fun k xy hm => (inv_init hw k xy hm).1) (by simpa using hpos)
  obtain ⟨evs', anns, h1', h3, rfl, -⟩ := decouple_ok hw hu h
  rw [h1] at h1'
  cases h1'
  have ha := annAll_pos evs _ _ anns h3 (fun _ => one_pos) (fun _ => one_pos) h2
  intro x hx
  obtain ⟨o, ho, hx⟩ := List.mem_flatten.1 hx
  obtain ⟨n, hn, rfl⟩ := List.mem_iff_getElem.1 ho
  rw [List.getElem_zipWith] at hx
  exact splice_pos env _ _ (fun l hl => lt_of_lt_of_le one_pos (hpos l (List.mem_flatten.2 ⟨_, List.getElem_mem _, hl⟩)))
    (ha _ (List.getElem_mem _)) x hx

/-! ### With the sizes of the layer -/

/-- The environment of an operand of a layer (lines 20-32). -/
def layerEnv (L : LayerNode.Layer Dim) (rel : LayerNode.Rel Dim) : DEnv Dim :=
  { other := fun d => d ∈ rel.r ++ rel.ir
    lut := rel.pr
    tdim := fun k s => LayerNode.calcTensorDim L s k }

theorem dimProd_one_le (env : DEnv Dim) (d : Dim) (loops : List (Dim × ℚ)) (h : ∀ l ∈ loops, 1 ≤ l.2) : 1 ≤ dimProd env d loops := by
  have : ∀ l : List ℚ, (∀ x ∈ l, 1 ≤ x) → 1 ≤ l.prod := by
    intro l
    induction l with
    | nil => simp
    | cons a l ih =>
      intro h
      rw [List.prod_cons]
      have h1 := h a (by simp)
      have h2 := ih (fun x hx => h x (by simp [hx]))
      nlinarith
  apply this
  intro x hx
  obtain ⟨l, hl, rfl⟩ := List.mem_map.1 hx
  exact h l (List.mem_of_mem_filter hl)

/-- Sizes of partially relevant dimensions are positive for positive loop sizes. -/
theorem calcPr_pos (sa sb : Nat) (a b : ℤ) (h : 1 ≤ sa ∨ 1 ≤ sb) (ha : 1 ≤ a) (hb : 1 ≤ b) :
    ∃ p, LayerNode.calcPr sa a sb b = .ok p ∧ 1 ≤ p := by
  have hg : Nat.gcd sa sb ≠ 0 := by
    intro hc
    rw [Nat.gcd_eq_zero_iff] at hc
    omega
  have e : (Int.gcd (sa : ℤ) (sb : ℤ) : ℤ) = (Nat.gcd sa sb : ℤ) := by simp [Int.gcd]
  unfold LayerNode.calcPr
  simp only [e]
  rw [if_neg (by exact_mod_cast hg)]
  refine ⟨_, rfl, ?_⟩
  rw [← Int.natCast_div, ← Int.natCast_div]
  generalize hs : sa / Nat.gcd sa sb = s
  generalize hq : sb / Nat.gcd sa sb = q
  have hsq : 1 ≤ s ∨ 1 ≤ q := by
    rcases h with h | h
    · left
      rw [← hs, Nat.one_le_div_iff (Nat.pos_of_ne_zero hg)]
      exact Nat.gcd_le_left _ h
    · right
      rw [← hq, Nat.one_le_div_iff (Nat.pos_of_ne_zero hg)]
      exact Nat.gcd_le_right _ h
  have hs0 : (0 : ℤ) ≤ s := by positivity
  have hq0 : (0 : ℤ) ≤ q := by positivity
  rcases le_total ((b : ℤ) - s) 0 with hbs | hbs
  · rw [max_eq_left hbs]; nlinarith
  · rw [max_eq_right hbs]
    rcases le_total a (q : ℤ) with haq | haq
    · nlinarith [mul_nonneg hbs (sub_nonneg.2 haq), mul_pos (show 0 < a by omega) (show 0 < b by omega)]
    · have key : a * b - (b - s) * (a - q) = s * (a - q) + b * q := by ring
      rw [key]
      rcases Nat.eq_zero_or_pos q with rfl | hqp
      · have : (1 : ℤ) ≤ s := by exact_mod_cast hsq.resolve_right (by omega)
        push_cast
        nlinarith
      · have : (1 : ℤ) ≤ q := by exact_mod_cast hqp
        nlinarith [mul_nonneg hs0 (sub_nonneg.2 haq)]

/-- The sizes of the data dimensions of a layer are positive. -/
theorem layer_tdim {L : LayerNode.Layer Dim} {rel : LayerNode.Rel Dim}
    (hl : ∀ k x y, (k, (x, y)) ∈ rel.pr → k ≠ x ∧ k ≠ y ∧ L.pi.prLoop.get? k = some (x, y) ∧
      (∃ ca cb, L.pi.scaling.get? k = some (ca, cb) ∧ (1 ≤ ca ∨ 1 ≤ cb)) ∧ ∃ m, L.prSizes.get? k = some m ∧ 0 < m) :
    ∀ k xy, (k, xy) ∈ (layerEnv L rel).lut → ∀ ls : List (Dim × ℚ), (∀ l ∈ ls, 1 ≤ l.2) →
      ∃ r, 0 < r ∧ (layerEnv L rel).tdim k (accSizes (layerEnv L rel) xy ls) = .ok r := by
  rintro k ⟨x, y⟩ hmem ls hls
  obtain ⟨nx, ny, h1, ⟨ca, cb, h2, h3⟩, m, h4, h5⟩ := hl k x y hmem
  have hx := dimProd_one_le (layerEnv L rel) x ls hls
  have hy := dimProd_one_le (layerEnv L rel) y ls hls
  have hpy : ∀ q : ℚ, 1 ≤ q → 1 ≤ LayerNode.pyInt q := by
    intro q hq
    unfold LayerNode.pyInt
    rw [if_pos (by linarith), Int.le_floor]
    exact_mod_cast hq
  have a1 : (accSizes (layerEnv L rel) (x, y) ls).get? k = none := by
    rw [accSizes_eq]
    split_ifs <;> simp [Dict.get?_cons, Dict.get?_nil, Ne.symm nx, Ne.symm ny]
  have a2 : (accSizes (layerEnv L rel) (x, y) ls).get? x = some (dimProd (layerEnv L rel) x ls) := by
    rw [accSizes_eq]
    split_ifs <;> simp [Dict.get?_cons]
  have a3 : (accSizes (layerEnv L rel) (x, y) ls).get? y = some (dimProd (layerEnv L rel) y ls) := by
    rw [accSizes_eq]
    split_ifs with hxy
    · change x = y at hxy
      subst hxy
      simp [Dict.get?_cons]
    · have hxy' : ¬ x = y := hxy
      simp [Dict.get?_cons, hxy']
  obtain ⟨p, hp1, hp2⟩ := calcPr_pos ca cb _ _ h3 (hpy _ hx) (hpy _ hy)
  refine ⟨min m p, ?_, ?_⟩
  · rw [lt_min_iff]
    refine ⟨h5, ?_⟩
    have : (1 : ℚ) ≤ p := by exact_mod_cast hp2
    linarith
  · change LayerNode.calcTensorDim L _ k = _
    unfold LayerNode.calcTensorDim LayerNode.lookup
    simp only [a1, h1, a2, a3, h2, bind, Except.bind, hp1, h4, pure, Except.pure]

/-- C18: the splitting of the loops of a layer operand raises no exception when every loop has at least one iteration, the relations
have a positive coefficient and the partially relevant dimensions a positive size. -/
theorem decouple_layer_total {L : LayerNode.Layer Dim} {rel : LayerNode.Rel Dim} (hw : rel.pr.WF) (hu : Uniq (layerEnv L rel))
    (hl : ∀ k x y, (k, (x, y)) ∈ rel.pr → k ≠ x ∧ k ≠ y ∧ L.pi.prLoop.get? k = some (x, y) ∧
      (∃ ca cb, L.pi.scaling.get? k = some (ca, cb) ∧ (1 ≤ ca ∨ 1 ≤ cb)) ∧ ∃ m, L.prSizes.get? k = some m ∧ 0 < m)
    (levels : List (List (Dim × ℚ))) (hpos : ∀ l ∈ levels.flatten, 1 ≤ l.2) :
    ∃ out, decouple (layerEnv L rel) levels = .ok out := by
  exact decouple_total (env := layerEnv L rel) hw hu (layer_tdim hl) levels hpos

/-- C18: a loop that contributes to two data dimensions breaks the claim: the level product grows from 4 to 16 (dimensions 0: IX =
OX + FX, 3: IY = OX + FY). -/
theorem decouple_shared_false :
    ∃ (L : LayerNode.Layer Nat) (rel : LayerNode.Rel Nat) (levels : List (List (Nat × ℚ))) (out : List (List (TDim Nat × ℚ))),
      decouple (layerEnv L rel) levels = .ok out ∧
      out.map (fun l => (l.map Prod.snd).prod) = [16] ∧ levels.map (fun l => (l.map Prod.snd).prod) = [4] := by
  refine ⟨⟨[], LayerNode.extractPr [⟨0, 1, 2, 1, 1⟩, ⟨3, 1, 5, 1, 1⟩], [(0, 9), (3, 9)]⟩, ⟨[], [], [(0, (1, 2)), (3, (1, 5))]⟩, [[(1, 4)]],
    [[(.r 0, 4), (.r 3, 4), (.ir 3, 1)]], ?_, ?_, ?_⟩ <;> decide +kernel

/-- Non-trivial case: `IX = 2*OX + FX` over two levels. -/
example : decouple (layerEnv LayerNode.exLayer ⟨[1], [0], [(4, (2, 3))]⟩) [[(3, 3), (1, 2)], [(2, 2), (0, 8), (2, 2)]] =
    .ok [[(.r 4, 3), (.ir 4, 1), (.orig 1, 2)], [(.r 4, 5/3), (.ir 4, 6/5), (.orig 0, 8), (.r 4, 9/5), (.ir 4, 10/9)]] := by decide +kernel

/-- The hypotheses of `decouple_layer_total` hold for it. -/
example (levels : List (List (Nat × ℚ))) (hpos : ∀ l ∈ levels.flatten, 1 ≤ l.2) :
    ∃ out, decouple (layerEnv LayerNode.exLayer ⟨[1], [0], [(4, (2, 3))]⟩) levels = .ok out := by
  refine decouple_layer_total (by unfold Dict.WF; decide) ?_ ?_ levels hpos
  · intro d _ e he e' he' _ _
    rw [List.mem_singleton.1 he, List.mem_singleton.1 he']
  · intro k x y h
    obtain ⟨rfl, rfl, rfl⟩ : k = 4 ∧ x = 2 ∧ y = 3 := by simpa using h
    exact ⟨by decide, by decide, rfl, ⟨2, 1, rfl, Or.inl (by decide)⟩, 9, rfl, by norm_num⟩

end Verif.Decouple
