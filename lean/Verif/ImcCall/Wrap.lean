import Verif.ImcCall.Model
import Verif.Reuse.Props
import Verif.Imc.Props

/-! Helpers for C166: stages whose results are turned into others, and calls that also return clock and area. -/

namespace Verif.ImcCall

open Pipeline (Env Cme Works Single cands api)

variable {Ly SM TM P Q : Type} {E : Env Ly SM TM P} {f : Ly → SM → P → Except PyErr (Cme Q)}

theorem wrap_cost {l : Ly} {sm : SM} {tm : TM} {x : Cme Q} :
    (wrap E f).cost l sm tm = .ok x ↔ ∃ c, E.cost l sm tm = .ok c ∧ f l sm c.tag = .ok x := by
  change (match E.cost l sm tm with
    | .error e => .error e
    | .ok c => f l sm c.tag : Except PyErr (Cme Q)) = .ok x ↔ _
  cases h : E.cost l sm tm with
  | error e => simp
  | ok c => simp

theorem wrap_single (hf : ∀ l sm p x, f l sm p = .ok x → x.res.single = true) : Single (wrap E f) := by
  intro l sm tm x h
  obtain ⟨c, -, hx⟩ := wrap_cost.1 h
  exact hf l sm _ x hx

theorem wrap_works {l : Ly} : Works (wrap E f) l ↔ Works E l ∧ ∀ sms, E.spatial l = .ok sms → ∀ sm ∈ sms, ∀ tm ∈ (E.temporal l sm).1, ∀ c,
    E.cost l sm tm = .ok c → ∃ x, f l sm c.tag = .ok x := by
  constructor
  · rintro ⟨sms, h1, h2, h3⟩
    have h1' : E.spatial l = .ok sms := h1
    refine ⟨⟨sms, h1', h2, fun sm hsm => ⟨(h3 sm hsm).1, (h3 sm hsm).2.1, fun tm htm => ?_⟩⟩, fun sms' hs sm hsm tm htm c hc => ?_⟩
    · obtain ⟨x, hx⟩ := (h3 sm hsm).2.2 tm htm
      obtain ⟨c, hc, -⟩ := wrap_cost.1 hx
      exact ⟨c, hc⟩
    · rw [h1'] at hs
      cases hs
      obtain ⟨x, hx⟩ := (h3 sm hsm).2.2 tm htm
      obtain ⟨c', hc', hx'⟩ := wrap_cost.1 hx
      rw [hc] at hc'
      cases hc'
      exact ⟨x, hx'⟩
  · rintro ⟨⟨sms, h1, h2, h3⟩, h4⟩
    refine ⟨sms, h1, h2, fun sm hsm => ⟨(h3 sm hsm).1, (h3 sm hsm).2.1, fun tm htm => ?_⟩⟩
    obtain ⟨c, hc⟩ := (h3 sm hsm).2.2 tm htm
    obtain ⟨x, hx⟩ := h4 sms h1 sm hsm tm htm c hc
    exact ⟨x, wrap_cost.2 ⟨c, hc, hx⟩⟩

theorem wrap_cands {l : Ly} {x : Cme Q} : x ∈ cands (wrap E f) l ↔ ∃ sms, E.spatial l = .ok sms ∧ ∃ sm ∈ sms, ∃ tm ∈ (E.temporal l sm).1, ∃ c,
    E.cost l sm tm = .ok c ∧ f l sm c.tag = .ok x := by
  have hs : (wrap E f).spatial l = E.spatial l := rfl
  unfold cands
  rw [hs]
  cases h : E.spatial l with
  | error e => simp
  | ok sms =>
    simp only [List.mem_flatMap, List.mem_filterMap, Except.ok.injEq, exists_eq_left']
    refine exists_congr fun sm => and_congr_right fun _ => exists_congr fun tm => and_congr_right fun _ => ?_
    rw [← wrap_cost]
    cases (wrap E f).cost l sm tm with
    | error e => simp [Except.toOption]
    | ok y => simp [Except.toOption]

/-- A call that also returns clock and area has an answer exactly if it has one without and a layer is not skipped. -/
theorem api_imc_iff (hs : Single E) {opt : String} {layers : List Ly} :
    (∃ r, api opt true E layers = .ok r) ↔ (∃ r, api opt false E layers = .ok r) ∧ ∃ l ∈ layers, E.skip l = false := by
  constructor
  · rintro ⟨r, hr⟩
    obtain ⟨o, hp, best, b1, -, -, -, b5, -⟩ := Pipeline.api_answer hs opt true layers hr
    have hne : best ≠ [] := by
      rintro rfl
      simp only [List.map_nil] at b5
      unfold api at hr
      rw [hp] at hr
      simp only at hr
      cases hm : Pipeline.mainStage (Pipeline.sumStage (Pipeline.workloadStage o.better false E layers)) with
      | error e => rw [hm] at hr; cases hr
      | ok cmes =>
        rw [hm] at hr
        simp only at hr
        cases h0 : cmes[0]? with
        | none => rw [h0] at hr; cases hr
        | some q =>
          rw [h0] at hr
          simp only [if_true] at hr
          cases h1 : q.2[0]? with
          | none => rw [h1] at hr; cases hr
          | some z =>
            rw [h1] at hr
            simp only [Except.ok.injEq] at hr
            subst hr
            simp only at b5
            rw [b5] at h0
            simp only [List.getElem?_cons_zero, Option.some.injEq] at h0
            rw [← h0] at h1
            simp at h1
    constructor
    · unfold api at hr ⊢
      rw [hp] at hr ⊢
      simp only at hr ⊢
      cases hm : Pipeline.mainStage (Pipeline.sumStage (Pipeline.workloadStage o.better false E layers)) with
      | error e => rw [hm] at hr; cases hr
      | ok cmes =>
        rw [hm] at hr
        simp only at hr ⊢
        cases h0 : cmes[0]? with
        | none => rw [h0] at hr; cases hr
        | some q => exact ⟨_, rfl⟩
    · obtain ⟨x, t, rfl⟩ := List.exists_cons_of_ne_nil hne
      have : x.1 ∈ layers.filter fun l => !E.skip l := by rw [← b1]; simp
      obtain ⟨m1, m2⟩ := List.mem_filter.1 this
      exact ⟨x.1, m1, by simpa using m2⟩
  · rintro ⟨⟨r, hr⟩, l, hl, hsk⟩
    obtain ⟨o, hp, best, b1, -, -, -, b5, -⟩ := Pipeline.api_answer hs opt false layers hr
    have hne : best ≠ [] := by
      rintro rfl
      have : l ∈ layers.filter fun l => !E.skip l := List.mem_filter.2 ⟨hl, by simp [hsk]⟩
      rw [← b1] at this
      cases this
    unfold api at hr ⊢
    rw [hp] at hr ⊢
    simp only at hr ⊢
    cases hm : Pipeline.mainStage (Pipeline.sumStage (Pipeline.workloadStage o.better false E layers)) with
    | error e => rw [hm] at hr; cases hr
    | ok cmes =>
      rw [hm] at hr
      simp only at hr ⊢
      cases h0 : cmes[0]? with
      | none => rw [h0] at hr; cases hr
      | some q =>
        rw [h0] at hr
        simp only [Bool.false_eq_true, if_false, Except.ok.injEq] at hr
        subst hr
        simp only at b5
        rw [b5] at h0
        simp only [List.getElem?_cons_zero, Option.some.injEq] at h0
        obtain ⟨x, t, rfl⟩ := List.exists_cons_of_ne_nil hne
        have hq : q.2[0]? = some (x.2, (x.1, [])) := by rw [← h0]; rfl
        simp only [if_true, hq]
        exact ⟨_, rfl⟩

end Verif.ImcCall
