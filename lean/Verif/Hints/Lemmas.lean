import Verif.Hints.Model
import Verif.SpatialGen.Props

/-! Helper lemmas: constructing a stage keeps the usable hints and fills the missing ones; the generator looks hints up only for the array
dimensions of the accelerator. -/

namespace Verif.Hints

open Verif.SpatialMapping Verif.SpatialGen

variable {OA Dim : Type} [DecidableEq OA] [DecidableEq Dim]

theorem get?_delAll (l : List OA) (h : Hint OA Dim) (oa : OA) :
    (l.foldl (fun h oa => h.del oa) h).get? oa = if oa ∈ l then none else h.get? oa := by
  induction l generalizing h with
  | nil => simp
  | cons x t ih =>
    rw [List.foldl_cons, ih, Dict.get?_del]
    by_cases hx : x = oa
    · subst hx
      simp
    · have hx' : ¬ oa = x := fun e => hx e.symm
      by_cases ht : oa ∈ t <;> simp [hx, hx', ht]

theorem wf_delAll (l : List OA) (h : Hint OA Dim) (hw : h.WF) : Dict.WF (l.foldl (fun h oa => h.del oa) h) := by
  induction l generalizing h with
  | nil => exact hw
  | cons x t ih => exact ih _ (hw.del x)

theorem mem_invalid (valid : List Dim) (h : Hint OA Dim) (hw : h.WF) (oa : OA) :
    oa ∈ invalid valid h ↔ ∃ l, h.get? oa = some l ∧ ∀ d ∈ l, d ∉ valid := by
  unfold invalid
  simp only [List.mem_map, List.mem_filter, Bool.not_eq_true', List.any_eq_false, decide_eq_true_eq]
  constructor
  · rintro ⟨e, ⟨he, ha⟩, rfl⟩
    exact ⟨e.2, Dict.get?_of_mem hw he, ha⟩
  · rintro ⟨l, hl, ha⟩
    exact ⟨(oa, l), ⟨Dict.mem_of_get? hl, ha⟩, rfl⟩

theorem get?_clear (valid : List Dim) (h : Hint OA Dim) (hw : h.WF) (oa : OA) :
    (clearInvalid valid h).get? oa = (h.get? oa).filter (fun l => l.any (fun d => decide (d ∈ valid))) := by
  unfold clearInvalid
  rw [get?_delAll]
  cases hl : h.get? oa with
  | none =>
    simp
  | some l =>
    by_cases ha : l.any (fun d => decide (d ∈ valid)) = true
    · rw [if_neg, Option.filter_some, if_pos ha]
      intro hm
      obtain ⟨l', hl', hn⟩ := (mem_invalid valid h hw oa).1 hm
      rw [hl] at hl'
      cases hl'
      obtain ⟨d, hd, hv⟩ := List.any_eq_true.1 ha
      exact hn d hd (by simpa using hv)
    · rw [if_pos, Option.filter_some, if_neg ha]
      refine (mem_invalid valid h hw oa).2 ⟨l, hl, fun d hd hv => ha (List.any_eq_true.2 ⟨d, hd, by simpa using hv⟩)⟩

theorem wf_clear (valid : List Dim) (h : Hint OA Dim) (hw : h.WF) : (clearInvalid valid h).WF := wf_delAll _ _ hw

theorem get?_complete (ord : List Dim → List Dim) (dims : List Dim) (oas : List OA) (h : Hint OA Dim) (oa : OA) :
    (complete ord dims oas h).get? oa = (h.get? oa).or (if oa ∈ oas then some (ord dims.dedup) else none) := by
  induction oas generalizing h with
  | nil => simp [complete]
  | cons x t ih =>
    rw [complete, ih]
    by_cases hx : x ∈ h.keys
    · rw [if_pos hx]
      by_cases he : oa = x
      · subst he
        have : h.get? oa ≠ none := fun hn => (Dict.get?_eq_none_iff _ _).1 hn hx
        obtain ⟨l, hl⟩ := Option.ne_none_iff_exists'.1 this
        simp [hl]
      · simp [he]
    · rw [if_neg hx, Dict.get?_set]
      by_cases he : x = oa
      · subst he
        rw [(Dict.get?_eq_none_iff _ _).2 hx]
        simp
      · have he' : ¬ oa = x := fun e => he e.symm
        simp [he, he']

theorem wf_complete (ord : List Dim → List Dim) (dims : List Dim) (oas : List OA) (h : Hint OA Dim) (hw : h.WF) : (complete ord dims oas h).WF := by
  induction oas generalizing h with
  | nil => exact hw
  | cons x t ih =>
    rw [complete]
    split
    · exact ih _ hw
    · exact ih _ (hw.set _ _)

theorem wf_construct (ord : List Dim → List Dim) (dims : List Dim) (oas : List OA) (h : Hint OA Dim) (hw : h.WF) : (construct ord dims oas h).WF :=
  wf_complete _ _ _ _ (wf_clear _ _ hw)

/-- What one construction does to the hints of one array dimension. -/
theorem get?_construct (ord : List Dim → List Dim) (dims : List Dim) (oas : List OA) (h : Hint OA Dim) (hw : h.WF) (oa : OA) :
    (construct ord dims oas h).get? oa =
      ((h.get? oa).filter (fun l => l.any (fun d => decide (d ∈ dims)))).or (if oa ∈ oas then some (ord dims.dedup) else none) := by
  unfold construct
  rw [get?_complete, get?_clear _ _ hw]

theorem wf_constructAll (ord : List Dim → List Dim) (dims : List Dim) (hist : List (List OA)) (h : Hint OA Dim) (hw : h.WF) :
    (constructAll ord dims hist h).WF := by
  unfold constructAll
  induction hist generalizing h with
  | nil => exact hw
  | cons x t ih => exact ih _ (wf_construct ord dims x h hw)

theorem constructAll_snoc (ord : List Dim → List Dim) (dims : List Dim) (hist : List (List OA)) (x : List OA) (h : Hint OA Dim) :
    constructAll ord dims (hist ++ [x]) h = construct ord dims x (constructAll ord dims hist h) := by
  unfold constructAll
  rw [List.foldl_append]
  rfl

/-- After any history the hints of an array dimension are the usable hints of the user, or nothing, or all dimensions of the layer. -/
theorem get?_constructAll (ord : List Dim → List Dim) (dims : List Dim) (hist : List (List OA)) (h : Hint OA Dim) (hw : h.WF) (oa : OA)
    (f : List Dim → Bool) (hf : f = fun l : List Dim => l.any (fun d => decide (d ∈ dims))) :
    (constructAll ord dims hist h).get? oa = h.get? oa ∨
    (constructAll ord dims hist h).get? oa = (h.get? oa).filter f ∨
    (constructAll ord dims hist h).get? oa = ((h.get? oa).filter f).or (some (ord dims.dedup)) := by
  induction hist using List.reverseRecOn with
  | nil => left; rfl
  | append_singleton t x ih =>
    rw [constructAll_snoc, get?_construct _ _ _ _ (wf_constructAll ord dims t h hw), ← hf]
    generalize ord dims.dedup = all at ih ⊢
    clear hf
    right
    rcases ih with h' | h' | h' <;> rw [h'] <;> by_cases hx : oa ∈ x <;> by_cases ha : f all = true <;> cases h.get? oa with
    | none => simp [hx, ha, Option.filter_some]
    | some l => by_cases hl : f l = true <;> simp [hx, hl, ha, Option.filter_some]

/-- A construction after any history gives the array dimensions of the accelerator the same hints as a first construction. -/
theorem construct_history (ord : List Dim → List Dim) (dims : List Dim) (hist : List (List OA)) (h : Hint OA Dim) (hw : h.WF) (oas : List OA)
    (oa : OA) (hoa : oa ∈ oas) :
    (construct ord dims oas (constructAll ord dims hist h)).get? oa = (construct ord dims oas h).get? oa := by
  rw [get?_construct _ _ _ _ (wf_constructAll ord dims hist h hw), get?_construct _ _ _ _ hw, if_pos hoa]
  obtain ⟨f, hf⟩ : ∃ f : List Dim → Bool, f = fun l : List Dim => l.any (fun d => decide (d ∈ dims)) := ⟨_, rfl⟩
  have ih := get?_constructAll ord dims hist h hw oa f hf
  rw [← hf]
  generalize ord dims.dedup = all at ih ⊢
  clear hf
  rcases ih with h' | h' | h' <;> rw [h'] <;> by_cases ha : f all = true <;> cases h.get? oa with
  | none => simp [ha, Option.filter_some]
  | some l => by_cases hl : f l = true <;> simp [hl, ha, Option.filter_some]

/-! ### the generator only uses the hints of the array dimensions -/

theorem perOa_congr (i : Inputs OA Dim) (h' : Hint OA Dim) (maxU : Dict OA (Dict Dim Nat)) (fill : List OA)
    (hh : ∀ oa ∈ fill, h'.get? oa = i.hints.get? oa) : perOa { i with hints := h' } maxU fill = perOa i maxU fill := by
  induction fill with
  | nil => rfl
  | cons oa t ih =>
    unfold perOa
    simp only [hh oa (by simp), ih (fun x hx => hh x (by simp [hx]))]

theorem limitAll_hints (i : Inputs OA Dim) (h' : Hint OA Dim) (fill : List OA) : ∀ (cs : List (Cand OA Dim)) (heap : List (List (Dict Dim ℚ))),
    limitAll { i with hints := h' } fill cs heap = limitAll i fill cs heap
  | [], _ => rfl
  | c :: t, heap => by
    unfold limitAll
    simp only [limitAll_hints i h' fill t]

theorem generate_congr (i : Inputs OA Dim) (h' : Hint OA Dim) (hh : ∀ oa ∈ i.oaSizes.keys, h'.get? oa = i.hints.get? oa) :
    generate { i with hints := h' } = generate i := by
  unfold generate
  have ht : template { i with hints := h' } = template i := rfl
  rw [ht]
  cases template i with
  | error e => rfl
  | ok p =>
    obtain ⟨maxU, t⟩ := p
    simp only
    have hf : toFill { i with hints := h' } t = toFill i t := rfl
    rw [hf]
    have hc : genComplete { i with hints := h' } maxU t = genComplete i maxU t := rfl
    rw [hc]
    congr 1
    unfold genFill
    rw [perOa_congr i h' maxU (toFill i t) (fun oa hoa => hh oa (List.mem_filter.1 hoa).1)]
    cases perOa i maxU (toFill i t) with
    | error e => rfl
    | ok heap =>
      simp only [limitAll_hints]
      rfl

end Verif.Hints
