import Verif.Net.Gen

/-! The mappings that are tried for a layer follow its entry of the mapping file. -/

namespace Verif.Followed

open Net (Node NodeOk FileOk OptionsOk Options)
open Latency (Operand)
open LayerNode (Relation)
open SpatialGen (Inputs InputsOk template toFill generate IsCandidate OaChoice castDict castTable MLower DLower)
open SpatialMapping (SM Order dropUnknown deleteDim clip shrink shrinkOa reduceOas cut cutDims delAt checkAndReduce allDims)
open Whole (AccD)

variable {OA D : Type} [DecidableEq OA] [DecidableEq D]

/-- What is unrolled along an array dimension follows the entry of the mapping file: if the entry has a mapping for this array dimension, dimensions of this mapping with
unrollings that are not larger; otherwise dimensions of the layer that are hinted, and any dimension of the layer if none of the hinted ones is one of the layer. -/
def FollowsAt (user : SM OA D) (hints : Dict OA (List D)) (dims : List D) (oa : OA) (w : Dict D ℚ) : Prop :=
  (∀ l, user.get? oa = some l → ∀ x ∈ w, ∃ u, (x.1, u) ∈ l ∧ x.2 ≤ u) ∧
  (user.get? oa = none → ∀ x ∈ w, x.1 ∈ dims ∧ ∀ l, hints.get? oa = some l → (∃ d ∈ l, d ∈ dims) → x.1 ∈ l)

/-- A mapping that follows the entry of the mapping file. -/
def Follows (user : SM OA D) (hints : Dict OA (List D)) (dims : List D) (sm : SM OA D) : Prop := ∀ oa w, sm.get? oa = some w → FollowsAt user hints dims oa w

/-- Fewer dimensions and unrollings that are not larger. -/
def Less (l l' : List (D × ℚ)) : Prop := ∀ x ∈ l', ∃ u, (x.1, u) ∈ l ∧ x.2 ≤ u

/-- The same array dimensions. -/
def Under (m m' : SM OA D) : Prop := List.Forall₂ (fun e e' => e'.1 = e.1 ∧ Less e.2 e'.2) m m'

omit [DecidableEq D] in
theorem less_sub {l l' : List (D × ℚ)} (h : l' ⊆ l) : Less l l' := fun x hx => ⟨x.2, h hx, le_refl _⟩

omit [DecidableEq D] in
theorem Less.trans {a b c : List (D × ℚ)} (h : Less a b) (h' : Less b c) : Less a c := by
  intro x hx
  obtain ⟨u, hu, hxu⟩ := h' x hx
  obtain ⟨v, hv, huv⟩ := h _ hu
  exact ⟨v, hv, hxu.trans huv⟩

omit [DecidableEq OA] [DecidableEq D] in
theorem under_refl (m : SM OA D) : Under m m := List.forall₂_same.2 fun _ _ => ⟨rfl, less_sub (List.Subset.refl _)⟩

omit [DecidableEq OA] [DecidableEq D] in
theorem Under.trans {a b c : SM OA D} (h : Under a b) (h' : Under b c) : Under a c := by
  unfold Under at *
  induction h generalizing c with
  | nil => cases h'; exact .nil
  | cons hab _ ih =>
    cases h' with
    | cons hbc hr => exact .cons ⟨hbc.1.trans hab.1, hab.2.trans hbc.2⟩ (ih hr)

omit [DecidableEq D] in
theorem Under.get? {m m' : SM OA D} (h : Under m m') (oa : OA) : (m.get? oa = none ∧ m'.get? oa = none) ∨ ∃ l l', m.get? oa = some l ∧ m'.get? oa = some l' ∧ Less l l' := by
  unfold Under at h
  induction h with
  | nil => left; exact ⟨rfl, rfl⟩
  | cons hab _ ih =>
    rw [Dict.get?_cons, Dict.get?_cons, hab.1]
    split_ifs
    · right; exact ⟨_, _, rfl, rfl, hab.2⟩
    · exact ih

theorem dropUnknown_under (sizes : Dict D ℚ) : ∀ (ds : List D) (m m' : SM OA D), dropUnknown sizes ds m = .ok m' → Under m m'
  | [], m, m', h => by
    unfold dropUnknown at h; cases h; exact under_refl _
  | d :: ds, m, m', h => by
    unfold dropUnknown at h
    split_ifs at h
    · exact dropUnknown_under sizes ds m m' h
    · unfold deleteDim at h
      split_ifs at h
      · refine Under.trans ?_ (dropUnknown_under sizes ds _ m' h)
        unfold Under
        rw [List.forall₂_map_right_iff, List.forall₂_same]
        exact fun e _ => ⟨rfl, less_sub List.filter_sublist.subset⟩

theorem clip_less (maxU : Dict OA (Dict D ℚ)) (oa : OA) : ∀ (l r : List (D × ℚ)), clip maxU oa l = .ok r → Less l r
  | [], r, h => by unfold clip at h; cases h; exact fun x hx => by cases hx
  | x :: t, r, h => by
    unfold clip at h
    cases hm : maxU.get? oa with
    | none => rw [hm] at h; cases h
    | some mx =>
      rw [hm] at h
      simp only at h
      cases hb : mx.get? x.1 with
      | none => rw [hb] at h; cases h
      | some b =>
        rw [hb] at h
        simp only at h
        cases hc : clip maxU oa t with
        | error e => rw [hc] at h; cases h
        | ok r' =>
          rw [hc] at h
          cases h
          intro y hy
          rcases List.mem_cons.1 hy with rfl | hy
          · refine ⟨x.2, by simp, ?_⟩
            simp only
            split_ifs with hxb
            · exact hxb.le
            · exact le_refl _
          · obtain ⟨u, hu, hyu⟩ := clip_less maxU oa t r' hc y hy
            exact ⟨u, by simp [hu], hyu⟩

theorem reduceOas_under (o : Order OA D) (oaSizes : Dict OA ℚ) (maxU : Dict OA (Dict D ℚ)) : ∀ (m m' : SM OA D), reduceOas o oaSizes maxU m = .ok m' → Under m m'
  | [], m', h => by unfold reduceOas at h; cases h; exact .nil
  | e :: t, m', h => by
    unfold reduceOas at h
    cases hc : clip maxU e.1 e.2 with
    | error x => rw [hc] at h; cases h
    | ok l =>
      rw [hc] at h
      simp only at h
      cases hs : shrinkOa o oaSizes e.1 l with
      | error x => rw [hs] at h; cases h
      | ok l' =>
        rw [hs] at h
        simp only at h
        cases hr : reduceOas o oaSizes maxU t with
        | error x => rw [hr] at h; cases h
        | ok t' =>
          rw [hr] at h
          cases h
          have hsub : l'.Sublist l := by
            unfold shrinkOa at hs
            cases hz : oaSizes.get? e.1 with
            | none => rw [hz] at hs; cases hs
            | some s => rw [hz] at hs; exact SpatialGen.shrink_sub o s _ l l' hs
          exact .cons ⟨rfl, (clip_less maxU e.1 e.2 l hc).trans (less_sub hsub.subset)⟩ (reduceOas_under o oaSizes maxU t t' hr)

theorem cut_under (o : Order OA D) (size : ℚ) (d : D) : ∀ (n : Nat) (m m' : SM OA D), cut o size d n m = .ok m' → Under m m'
  | 0, _, _, h => by unfold cut at h; cases h
  | n + 1, m, m', h => by
    unfold cut at h
    split_ifs at h
    · cases hh : (o.oas m (SpatialMapping.holders m d)).head? with
      | none => rw [hh] at h; cases h
      | some oa =>
        rw [hh] at h
        refine Under.trans ?_ (cut_under o size d n (delAt m oa d) m' h)
        unfold delAt Under
        rw [List.forall₂_map_right_iff, List.forall₂_same]
        intro e _
        split_ifs
        · exact ⟨rfl, less_sub List.filter_sublist.subset⟩
        · exact ⟨rfl, less_sub (List.Subset.refl _)⟩
    · cases h; exact under_refl _

theorem cutDims_under (o : Order OA D) (sizes : Dict D ℚ) : ∀ (ds : List D) (m m' : SM OA D), cutDims o sizes ds m = .ok m' → Under m m'
  | [], m, m', h => by unfold cutDims at h; cases h; exact under_refl _
  | d :: ds, m, m', h => by
    unfold cutDims at h
    cases hz : sizes.get? d with
    | none => rw [hz] at h; cases h
    | some s =>
      rw [hz] at h
      simp only at h
      cases hc : cut o s d ((SpatialMapping.holders m d).length + 1) m with
      | error x => rw [hc] at h; cases h
      | ok m1 =>
        rw [hc] at h
        exact (cut_under o s d _ m m1 hc).trans (cutDims_under o sizes ds m1 m' h)

theorem checkAndReduce_under (o : Order OA D) (oaSizes : Dict OA ℚ) (maxU : Dict OA (Dict D ℚ)) (sizes : Dict D ℚ) (m m' : SM OA D)
    (h : checkAndReduce o (some oaSizes) maxU sizes m = .ok m') : Under m m' := by
  unfold checkAndReduce at h
  simp only at h
  cases h1 : dropUnknown sizes (o.dims m (allDims m)) m with
  | error x => rw [h1] at h; cases h
  | ok m1 =>
    rw [h1] at h
    simp only at h
    cases h2 : reduceOas o oaSizes maxU m1 with
    | error x => rw [h2] at h; cases h
    | ok m2 =>
      rw [h2] at h
      exact ((dropUnknown_under sizes _ m m1 h1).trans (reduceOas_under o oaSizes maxU m1 m2 h2)).trans (cutDims_under o sizes _ m2 m' h)

theorem template_under {i : Inputs OA D} {maxU : Dict OA (Dict D Nat)} {t : SM OA D} (h : template i = .ok (maxU, t)) : Under i.provided t := by
  unfold template at h
  cases h1 : SpatialGen.getMaxUnrolling i.mems i.oaSizes i.sizes with
  | error e => rw [h1] at h; cases h
  | ok mu =>
    rw [h1] at h
    simp only at h
    cases h2 : checkAndReduce i.order (some (castDict i.oaSizes)) (castTable mu) (castDict i.sizes) i.provided with
    | error e => rw [h2] at h; cases h
    | ok t' =>
      rw [h2] at h
      cases h
      exact checkAndReduce_under _ _ _ _ _ _ h2

omit [DecidableEq OA] [DecidableEq D] in
theorem mlower_under {m m' : SM OA D} (h : MLower m m') : Under m m' := by
  unfold MLower at h
  unfold Under
  refine h.imp fun e e' he => ⟨he.1, fun x hx => ?_⟩
  obtain ⟨y, hy, h1, -, h2⟩ := SpatialMapping.forall₂_mem_right he.2 hx
  exact ⟨y.2, by rw [h1]; exact hy, h2⟩

omit [DecidableEq D] in
theorem get?_append_left {t es : SM OA D} {oa : OA} {l : Dict D ℚ} (h : t.get? oa = some l) : Dict.get? (t ++ es) oa = some l := by
  induction t with
  | nil => cases h
  | cons e t ih =>
    rw [List.cons_append, Dict.get?_cons]
    rw [Dict.get?_cons] at h
    split_ifs at h ⊢
    · exact h
    · exact ih h

/-- The dimensions that the generator unrolls: those of the user, and hinted ones elsewhere. -/
theorem generate_follows {i : Inputs OA D} (ok : InputsOk i) {ys : List (SM OA D)} (h : generate i = .ok ys) {y : SM OA D} (hy : y ∈ ys) {oa : OA} {w : Dict D ℚ}
    (hw : y.get? oa = some w) :
    (∀ l, i.provided.get? oa = some l → Less l w) ∧
    (i.provided.get? oa = none → ∃ h mx s, i.hints.get? oa = some h ∧ SpatialGen.getMaxUnrolling i.mems i.oaSizes i.sizes = .ok mx ∧ mx.get? oa = some s ∧ ∀ x ∈ w, x.1 ∈ h ∧ x.1 ∈ s.keys) := by
  cases ht : template i with
  | error e => unfold generate at h; rw [ht] at h; cases h
  | ok p =>
    obtain ⟨maxU, t⟩ := p
    have hu := template_under ht
    obtain ⟨hmu, -, -⟩ := SpatialGen.template_good i ok.user ok.nat maxU t ht
    have key : ∃ b, Under b y ∧ ∀ v, b.get? oa = some v → (∀ l, i.provided.get? oa = some l → Less l v) ∧
        (i.provided.get? oa = none → ∃ h s, i.hints.get? oa = some h ∧ maxU.get? oa = some s ∧ ∀ x ∈ v, x.1 ∈ h ∧ x.1 ∈ s.keys) := by
      by_cases hopen : toFill i t = []
      · obtain ⟨y', rfl, -, hl, -⟩ := SpatialGen.generate_complete i ok maxU t ht hopen ys h
        cases List.mem_singleton.1 hy
        refine ⟨t, mlower_under hl, fun v hv => ?_⟩
        rcases hu.get? oa with ⟨-, h2⟩ | ⟨l, l', h1, h2, h3⟩
        · rw [hv] at h2; cases h2
        · rw [hv] at h2
          cases h2
          exact ⟨fun l0 hl0 => by rw [h1] at hl0; cases hl0; exact h3, fun hn => by rw [h1] at hn; cases hn⟩
      · obtain ⟨best, rest, -, hb, -, -, hf⟩ := SpatialGen.generate_ranked i ok maxU t ht hopen ys h
        obtain ⟨b, hbm, hlow, -⟩ := SpatialMapping.forall₂_mem_right hf hy
        obtain ⟨⟨es, rfl, hes, hch⟩, -⟩ := (hb b).1 (List.mem_append_left _ hbm)
        refine ⟨t ++ es, mlower_under hlow, fun v hv => ?_⟩
        rcases hu.get? oa with ⟨h1, h2⟩ | ⟨l, l', h1, h2, h3⟩
        · refine ⟨fun l hl => absurd (h1.symm.trans hl) (by simp), fun _ => ?_⟩
          have hmem : (oa, v) ∈ es := by
            rcases List.mem_append.1 (Dict.mem_of_get? hv) with hm | hm
            · exact absurd (List.mem_map_of_mem (f := Prod.fst) hm) ((Dict.get?_eq_none_iff _ _).1 h2)
            · exact hm
          obtain ⟨hh, mx, s, q1, q2, -, q4⟩ := hch _ hmem
          refine ⟨hh, mx, q1, q2, fun x hx => ?_⟩
          rcases q4 with ⟨d, hd, n, f, r1, -, -, -, rfl⟩ | ⟨-, -, r2, r3, -⟩
          · cases List.mem_singleton.1 hx
            exact ⟨hd, List.mem_map_of_mem (f := Prod.fst) (Dict.mem_of_get? r1)⟩
          · obtain ⟨n, f, r4, -⟩ := r3 x hx
            exact ⟨r2.subset (List.mem_map_of_mem hx), List.mem_map_of_mem (f := Prod.fst) (Dict.mem_of_get? r4)⟩
        · have hvl : v = l' := by
            have := get?_append_left (es := es) h2
            rw [hv] at this
            exact Option.some.inj this
          subst hvl
          exact ⟨fun l0 hl0 => by rw [h1] at hl0; cases hl0; exact h3, fun hn => by rw [h1] at hn; cases hn⟩
    obtain ⟨b, hby, hb⟩ := key
    rcases hby.get? oa with ⟨-, h2⟩ | ⟨v, w', h1, h2, h3⟩
    · rw [hw] at h2; cases h2
    · rw [hw] at h2
      cases h2
      obtain ⟨q1, q2⟩ := hb v h1
      refine ⟨fun l hl => (q1 l hl).trans h3, fun hn => ?_⟩
      obtain ⟨hh, s, r1, r2, r3⟩ := q2 hn
      refine ⟨hh, maxU, s, r1, hmu, r2, fun x hx => ?_⟩
      obtain ⟨u, hu, -⟩ := h3 x hx
      exact r3 (x.1, u) hu

/-- C171: every mapping that is tried for a layer follows its entry of the mapping file. -/
theorem tried_follow {a : AccD OA} {n : Node OA D} {rl : Operand → List D} {rels : List (Relation D)} {o : Options OA D} (F : FileOk a) (N : NodeOk a n rl rels) (O : OptionsOk o)
    {sms : List (SM OA D)} (h : Net.spatialMappings o a n = .ok sms) {sm : SM OA D} (hs : sm ∈ sms) : Follows n.mapping n.hints n.layer.sizes.keys sm := by
  obtain ⟨ms, hms, hfed⟩ := Net.memOps_ok n.layer F
  obtain ⟨ok, fit⟩ := Net.inputs_ok F N O hfed
  rw [Net.spatialMappings_eq hms O.nb] at h
  intro oa w hw
  obtain ⟨h1, h2⟩ := generate_follows ok h hs hw
  refine ⟨h1, fun hn => ?_⟩
  obtain ⟨l, mx, s, q1, q2, q3, q4⟩ := h2 hn
  obtain ⟨mx', b1, b2, b3⟩ := SpatialGen.bounds_pos fit
  rw [q2] at b1
  cases b1
  have hoa : oa ∈ a.sizes.keys := by
    have : oa ∈ mx.keys := List.mem_map_of_mem (f := Prod.fst) (Dict.mem_of_get? q3)
    rw [b2] at this
    exact this
  obtain ⟨s', c1, c2, -⟩ := b3 oa hoa
  rw [q3] at c1
  cases c1
  obtain ⟨l', d1, d2, -⟩ := Hints.hints_effective o.setOrder O.setOrder n.layer.sizes.keys n.hints N.hints.1 [] a.sizes.keys oa hoa
  rw [show l' = l from Option.some.inj (d1.symm.trans q1)] at d2
  intro x hx
  obtain ⟨e1, e2⟩ := q4 x hx
  refine ⟨by rw [c2] at e2; exact e2, fun l0 hl0 hex => ?_⟩
  have := (d2 x.1).1 e1
  rw [hl0] at this
  cases this with
  | hinted _ h => exact h
  | useless h _ =>
    obtain ⟨d, hd, hd'⟩ := hex
    exact absurd hd' (h d hd)

end Verif.Followed
