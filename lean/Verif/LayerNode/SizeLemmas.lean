import Verif.LayerNode.PrLemmas
import Mathlib.Data.List.Perm.Basic
import Mathlib.Algebra.BigOperators.Group.List.Lemmas

namespace Verif.LayerNode

variable {Dim : Type} [DecidableEq Dim]

/-- Number of values an index takes in a tile. -/
def axisCard (t : Dim → Nat) : Axis Dim → Nat
  | .dim d => t d
  | .lin sa x sb y => distinct sa (t x) sb (t y)

omit [DecidableEq Dim] in
theorem val_congr {p q : Dim → Nat} {ax : Axis Dim} (h : ∀ d ∈ ax.vars, p d = q d) : ax.val p = ax.val q := by
  cases ax with
  | dim d => exact h d (by simp [Axis.vars])
  | lin sa x sb y =>
    simp only [Axis.val]
    rw [h x (by simp [Axis.vars]), h y (by simp [Axis.vars])]

omit [DecidableEq Dim] in
theorem address_congr {p q : Dim → Nat} {axes : List (Axis Dim)} (h : ∀ d ∈ axes.flatMap Axis.vars, p d = q d) :
    address axes p = address axes q := by
  unfold address
  apply List.map_congr_left
  intro ax hax
  exact val_congr fun d hd => h d (List.mem_flatMap.2 ⟨ax, hax, hd⟩)

/-- Values of one index in a tile. -/
def vals (ax : Axis Dim) (t : Dim → Nat) : Set Nat := {n | ∃ p : Dim → Nat, (∀ d, p d < t d) ∧ n = ax.val p}

theorem ncard_vals (ax : Axis Dim) (hn : ax.vars.Nodup) (t : Dim → Nat) (ht : ∀ d, 1 ≤ t d) :
    (vals ax t).ncard = axisCard t ax := by
  cases ax with
  | dim d =>
    have : vals (.dim d) t = ↑(Finset.range (t d)) := by
      ext n
      simp only [vals, Set.mem_setOf_eq, Finset.coe_range, Set.mem_Iio, Axis.val]
      constructor
      · rintro ⟨p, hp, rfl⟩; exact hp d
      · intro h
        refine ⟨fun e => if e = d then n else 0, fun e => ?_, by simp⟩
        by_cases he : e = d
        · subst he; simpa using h
        · simp only [he, if_false]; exact ht e
    rw [this, Set.ncard_coe_finset, Finset.card_range]; rfl
  | lin sa x sb y =>
    have hxy : x ≠ y := by
      intro h; simp [Axis.vars, h] at hn
    have : vals (.lin sa x sb y) t =
        ↑((Finset.range (t x) ×ˢ Finset.range (t y)).image (fun p => sa * p.1 + sb * p.2)) := by
      ext n
      simp only [vals, Set.mem_setOf_eq, Finset.coe_image, Set.mem_image, Finset.mem_coe, Finset.mem_product, Finset.mem_range,
        Axis.val, Prod.exists]
      constructor
      · rintro ⟨p, hp, rfl⟩; exact ⟨p x, p y, ⟨hp x, hp y⟩, rfl⟩
      · rintro ⟨i, j, ⟨hi, hj⟩, rfl⟩
        refine ⟨fun e => if e = x then i else if e = y then j else 0, fun e => ?_, by simp [hxy.symm]⟩
        by_cases he : e = x
        · subst he; simpa using hi
        · by_cases he' : e = y
          · subst he'; simpa [he] using hj
          · simp only [he, he', if_false]; exact ht e
    rw [this, Set.ncard_coe_finset]; rfl

theorem ncard_touched (t : Dim → Nat) (ht : ∀ d, 1 ≤ t d) :
    ∀ axes : List (Axis Dim), (axes.flatMap Axis.vars).Nodup → (touched axes t).ncard = (axes.map (axisCard t)).prod
  | [], _ => by
    have : touched ([] : List (Axis Dim)) t = {[]} := by
      ext v
      simp only [touched, address, List.map_nil, Set.mem_setOf_eq, Set.mem_singleton_iff]
      exact ⟨fun ⟨_, _, h⟩ => h, fun h => ⟨fun _ => 0, fun d => ht d, h⟩⟩
    rw [this, Set.ncard_singleton]; rfl
  | ax :: axes, hn => by
    rw [List.flatMap_cons, List.nodup_append] at hn
    obtain ⟨h1, h2, h3⟩ := hn
    have e : touched (ax :: axes) t = (fun q : Nat × List Nat => q.1 :: q.2) '' (vals ax t ×ˢ touched axes t) := by
      ext v
      simp only [Set.mem_image, Set.mem_prod, Prod.exists]
      constructor
      · rintro ⟨p, hp, rfl⟩
        exact ⟨ax.val p, address axes p, ⟨⟨p, hp, rfl⟩, ⟨p, hp, rfl⟩⟩, rfl⟩
      · rintro ⟨n, w, ⟨⟨p, hp, rfl⟩, ⟨q, hq, rfl⟩⟩, rfl⟩
        refine ⟨fun d => if d ∈ ax.vars then p d else q d, fun d => ?_, ?_⟩
        · by_cases hd : d ∈ ax.vars <;> simp [hd, hp, hq]
        · change _ :: _ = Axis.val _ ax :: address axes _
          congr 1
          · exact val_congr fun d hd => by simp [hd]
          · refine address_congr fun d hd => ?_
            rw [if_neg]
            intro hd'
            exact h3 d hd' d hd rfl
    rw [e, Set.ncard_image_of_injective, Set.ncard_prod, ncard_vals ax h1 t ht, ncard_touched t ht axes h2]
    · simp
    · rintro ⟨a, b⟩ ⟨c, d⟩ h
      simp only [List.cons.injEq] at h
      exact Prod.ext h.1 h.2

/-! Extraction of the partially relevant dimensions. -/

theorem extractPr_concat (rels : List (Relation Dim)) (r : Relation Dim) :
    extractPr (rels ++ [r]) =
      { prLoop := (extractPr rels).prLoop.set r.dim1 (r.dim2, r.dim3)
        prList := (extractPr rels).prList ++ [r.dim1, r.dim2, r.dim3]
        scaling := (extractPr rels).scaling.set r.dim1 (r.coef2, r.coef3) } := by
  unfold extractPr
  rw [List.foldl_append]; rfl

theorem extractPr_spec (rels : List (Relation Dim)) (hn : (rels.map Relation.dim1).Nodup) :
    (extractPr rels).prLoop = rels.map (fun r => (r.dim1, (r.dim2, r.dim3))) ∧
    (extractPr rels).scaling = rels.map (fun r => (r.dim1, (r.coef2, r.coef3))) ∧
    (extractPr rels).prList = rels.flatMap (fun r => [r.dim1, r.dim2, r.dim3]) := by
  have hset : ∀ {V : Type} (l : Dict Dim V) (k : Dim) (v : V), k ∉ l.keys → l.set k v = l ++ [(k, v)] := by
    intro V l k v hk
    induction l with
    | nil => rfl
    | cons p t ih =>
      obtain ⟨a, b⟩ := p
      simp only [Dict.keys, List.map_cons, List.mem_cons, not_or] at hk
      simp only [Dict.set, if_neg (Ne.symm hk.1), List.cons_append]
      rw [ih hk.2]
  induction rels using List.reverseRecOn with
  | nil => exact ⟨rfl, rfl, rfl⟩
  | append_singleton rels r ih =>
    rw [List.map_append, List.nodup_append] at hn
    obtain ⟨i1, i2, i3⟩ := ih hn.1
    have hk : r.dim1 ∉ rels.map Relation.dim1 := fun hc => hn.2.2 _ hc r.dim1 (by simp) rfl
    rw [extractPr_concat]
    refine ⟨?_, ?_, ?_⟩
    · simp only [i1, List.map_append]
      rw [hset]
      · simp
      · simpa [Dict.keys, Function.comp_def] using hk
    · simp only [i2, List.map_append]
      rw [hset]
      · simp
      · simpa [Dict.keys, Function.comp_def] using hk
    · simp [i3]

theorem get?_map_rel {V : Type} (f : Relation Dim → V) (rels : List (Relation Dim)) (d : Dim) :
    Dict.get? (rels.map (fun r => (r.dim1, f r))) d = (rels.find? (fun r => r.dim1 = d)).map f := by
  induction rels with
  | nil => rfl
  | cons r t ih =>
    rw [List.map_cons, Dict.get?_cons, List.find?_cons]
    by_cases h : r.dim1 = d
    · simp [h]
    · simp [h, ih]

theorem filterSize_ok (sizes : Dict Dim ℚ) : ∀ l r, filterSize sizes l = .ok r →
    r = l.filter (fun d => sizes.get? d ≠ some 1) ∧ ∀ d ∈ l, (sizes.get? d).isSome
  | [], r, h => by cases h; exact ⟨rfl, by simp⟩
  | d :: t, r, h => by
    unfold filterSize lookup at h
    cases hg : sizes.get? d with
    | none => rw [hg] at h; cases h
    | some s =>
      rw [hg] at h
      cases hr : filterSize sizes t with
      | error e => rw [hr] at h; cases h
      | ok rest =>
        rw [hr] at h
        obtain ⟨e1, e2⟩ := filterSize_ok sizes t rest hr
        change Except.ok (if s ≠ 1 then d :: rest else rest) = Except.ok r at h
        cases h
        constructor
        · by_cases hs : s = 1
          · subst hs; simp [hg, e1]
          · simp [hg, hs, e1]
        · intro x hx
          rcases List.mem_cons.1 hx with rfl | hx
          · simp [hg]
          · exact e2 x hx

theorem filterSize_total (sizes : Dict Dim ℚ) (l : List Dim) (h : ∀ d ∈ l, (sizes.get? d).isSome) :
    ∃ r, filterSize sizes l = .ok r := by
  induction l with
  | nil => exact ⟨_, rfl⟩
  | cons d t ih =>
    obtain ⟨r, hr⟩ := ih (fun x hx => h x (by simp [hx]))
    obtain ⟨s, hs⟩ := Option.isSome_iff_exists.1 (h d (by simp))
    unfold filterSize lookup
    rw [hs, hr]
    exact ⟨_, rfl⟩

end Verif.LayerNode
