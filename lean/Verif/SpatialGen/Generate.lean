import Verif.SpatialGen.Capacity

/-! Lemmas for C25: candidates, sorting, shared objects. -/

namespace Verif.SpatialGen

open Verif.SpatialMapping

variable {OA Dim : Type} [DecidableEq OA] [DecidableEq Dim]

/-! ### the reduced user mapping -/

/-- Keys occur once and every unrolling satisfies `P`. -/
def Good (P : ℚ → Prop) (m : SM OA Dim) : Prop := SMWF m ∧ ∀ e ∈ m, ∀ x ∈ e.2, P x.2

theorem Good.sub {P : ℚ → Prop} {m m' : SM OA Dim} (h : Good P m) (hs : List.Forall₂ (fun e e' => e'.1 = e.1 ∧ e'.2.Sublist e.2) m m') : Good P m' := by
  have hk : m'.keys = m.keys := by
    clear h
    induction hs with
    | nil => rfl
    | cons hab _ ih => simp only [Dict.keys, List.map_cons] at *; rw [hab.1, ih]
  refine ⟨⟨by unfold Dict.WF; rw [hk]; exact h.1.1, fun e' he' => ?_⟩, fun e' he' x hx => ?_⟩
  · obtain ⟨e, he, _, hsub⟩ := forall₂_mem_right hs he'
    exact (h.1.2 e he).sublist (hsub.map _)
  · obtain ⟨e, he, _, hsub⟩ := forall₂_mem_right hs he'
    exact h.2 e he x (hsub.subset hx)

theorem sub_refl (m : SM OA Dim) : List.Forall₂ (fun e e' => e'.1 = e.1 ∧ e'.2.Sublist e.2) m m :=
  List.forall₂_same.2 (fun _ _ => ⟨rfl, List.Sublist.refl _⟩)

theorem dropUnknown_good {P : ℚ → Prop} (sizes : Dict Dim ℚ) : ∀ (ds : List Dim) (m m' : SM OA Dim), Good P m → dropUnknown sizes ds m = .ok m' → Good P m'
  | [], m, m', hg, h => by
    unfold dropUnknown at h; cases h; exact hg
  | d :: ds, m, m', hg, h => by
    unfold dropUnknown at h
    split_ifs at h
    · exact dropUnknown_good sizes ds m m' hg h
    · unfold deleteDim at h
      split_ifs at h
      · refine dropUnknown_good sizes ds _ m' (hg.sub ?_) h
        rw [List.forall₂_map_right_iff, List.forall₂_same]
        exact fun e _ => ⟨rfl, List.filter_sublist⟩

theorem clip_good {P : ℚ → Prop} (maxU : Dict OA (Dict Dim ℚ)) (hmax : ∀ oa mx d b, maxU.get? oa = some mx → mx.get? d = some b → P b) (oa : OA) :
    ∀ (l r : List (Dim × ℚ)), (∀ x ∈ l, P x.2) → clip maxU oa l = .ok r → r.map Prod.fst = l.map Prod.fst ∧ ∀ x ∈ r, P x.2
  | [], r, _, h => by unfold clip at h; cases h; simp
  | x :: t, r, hl, h => by
    unfold clip at h
    cases hm : maxU.get? oa with
    | none => rw [hm] at h; cases h
    | some mx =>
      rw [hm] at h
      simp only at h
      cases hb : mx.get? x.1 with
      | none => rw [hb] at h; cases h
      | some b =>
        rw [hb] at h
        simp only at h
        cases hc : clip maxU oa t with
        | error e => rw [hc] at h; cases h
        | ok r' =>
          rw [hc] at h
          cases h
          obtain ⟨h1, h2⟩ := clip_good maxU hmax oa t r' (fun y hy => hl y (by simp [hy])) hc
          refine ⟨by simp [h1], ?_⟩
          intro y hy
          rcases List.mem_cons.1 hy with rfl | hy
          · simp only
            split_ifs
            · exact hmax _ _ _ _ hm hb
            · exact hl x (by simp)
          · exact h2 y hy

theorem shrink_sub (o : Order OA Dim) (size : ℚ) : ∀ (n : Nat) (l l' : Dict Dim ℚ), shrink o size n l = .ok l' → l'.Sublist l
  | 0, _, _, h => by unfold shrink at h; cases h
  | n + 1, l, l', h => by
    unfold shrink at h
    split_ifs at h
    · cases hh : (o.inner l l.keys).head? with
      | none => rw [hh] at h; cases h
      | some d =>
        rw [hh] at h
        exact (shrink_sub o size n _ l' h).trans List.filter_sublist
    · cases h; exact List.Sublist.refl _

theorem reduceOas_good {P : ℚ → Prop} (o : Order OA Dim) (oaSizes : Dict OA ℚ) (maxU : Dict OA (Dict Dim ℚ))
    (hmax : ∀ oa mx d b, maxU.get? oa = some mx → mx.get? d = some b → P b) :
    ∀ (m m' : SM OA Dim), (∀ e ∈ m, e.2.WF ∧ ∀ x ∈ e.2, P x.2) → reduceOas o oaSizes maxU m = .ok m' →
      m'.keys = m.keys ∧ ∀ e ∈ m', e.2.WF ∧ ∀ x ∈ e.2, P x.2
  | [], m', _, h => by unfold reduceOas at h; cases h; simp
  | e :: t, m', hg, h => by
    unfold reduceOas at h
    cases hc : clip maxU e.1 e.2 with
    | error x => rw [hc] at h; cases h
    | ok l =>
      rw [hc] at h
      simp only at h
      cases hs : shrinkOa o oaSizes e.1 l with
      | error x => rw [hs] at h; cases h
      | ok l' =>
        rw [hs] at h
        simp only at h
        cases hr : reduceOas o oaSizes maxU t with
        | error x => rw [hr] at h; cases h
        | ok t' =>
          rw [hr] at h
          cases h
          obtain ⟨hk, ht⟩ := reduceOas_good o oaSizes maxU hmax t t' (fun y hy => hg y (by simp [hy])) hr
          obtain ⟨hwf, hP⟩ := hg e (by simp)
          obtain ⟨hck, hcP⟩ := clip_good maxU hmax e.1 e.2 l hP hc
          have hsub : l'.Sublist l := by
            unfold shrinkOa at hs
            cases hz : oaSizes.get? e.1 with
            | none => rw [hz] at hs; cases hs
            | some s => rw [hz] at hs; exact shrink_sub o s _ l l' hs
          refine ⟨by simp only [Dict.keys, List.map_cons] at hk ⊢; rw [hk], ?_⟩
          intro y hy
          rcases List.mem_cons.1 hy with rfl | hy
          · refine ⟨?_, fun x hx => hcP x (hsub.subset hx)⟩
            have : Dict.WF l := by unfold Dict.WF Dict.keys at hwf ⊢; rw [hck]; exact hwf
            unfold Dict.WF Dict.keys at this ⊢
            exact this.sublist (hsub.map _)
          · exact ht y hy

theorem cut_good {P : ℚ → Prop} (o : Order OA Dim) (size : ℚ) (d : Dim) : ∀ (n : Nat) (m m' : SM OA Dim), Good P m → cut o size d n m = .ok m' → Good P m' ∧ m'.keys = m.keys
  | 0, _, _, _, h => by unfold cut at h; cases h
  | n + 1, m, m', hg, h => by
    unfold cut at h
    split_ifs at h
    · cases hh : (o.oas m (holders m d)).head? with
      | none => rw [hh] at h; cases h
      | some oa =>
        rw [hh] at h
        have hk : (delAt m oa d).keys = m.keys := by
          simp only [delAt, Dict.keys, List.map_map]
          apply List.map_congr_left
          intro e _
          simp only [Function.comp]
          split_ifs <;> rfl
        have := cut_good o size d n (delAt m oa d) m' (hg.sub ?_) h
        · exact ⟨this.1, this.2.trans hk⟩
        · unfold delAt
          rw [List.forall₂_map_right_iff, List.forall₂_same]
          intro e _
          split_ifs
          · exact ⟨rfl, List.filter_sublist⟩
          · exact ⟨rfl, List.Sublist.refl _⟩
    · cases h; exact ⟨hg, rfl⟩

theorem cutDims_good {P : ℚ → Prop} (o : Order OA Dim) (sizes : Dict Dim ℚ) : ∀ (ds : List Dim) (m m' : SM OA Dim), Good P m → cutDims o sizes ds m = .ok m' → Good P m'
  | [], m, m', hg, h => by unfold cutDims at h; cases h; exact hg
  | d :: ds, m, m', hg, h => by
    unfold cutDims at h
    cases hz : sizes.get? d with
    | none => rw [hz] at h; cases h
    | some s =>
      rw [hz] at h
      simp only at h
      cases hc : cut o s d ((holders m d).length + 1) m with
      | error x => rw [hc] at h; cases h
      | ok m1 =>
        rw [hc] at h
        exact cutDims_good o sizes ds m1 m' (cut_good o s d _ m m1 hg hc).1 h

theorem checkAndReduce_good {P : ℚ → Prop} (o : Order OA Dim) (oaSizes : Dict OA ℚ) (maxU : Dict OA (Dict Dim ℚ)) (sizes : Dict Dim ℚ)
    (hmax : ∀ oa mx d b, maxU.get? oa = some mx → mx.get? d = some b → P b) (m m' : SM OA Dim) (hg : Good P m)
    (h : checkAndReduce o (some oaSizes) maxU sizes m = .ok m') : Good P m' := by
  unfold checkAndReduce at h
  simp only at h
  cases h1 : dropUnknown sizes (o.dims m (allDims m)) m with
  | error x => rw [h1] at h; cases h
  | ok m1 =>
    rw [h1] at h
    simp only at h
    have g1 := dropUnknown_good sizes _ m m1 hg h1
    cases h2 : reduceOas o oaSizes maxU m1 with
    | error x => rw [h2] at h; cases h
    | ok m2 =>
      rw [h2] at h
      obtain ⟨hk, he⟩ := reduceOas_good o oaSizes maxU hmax m1 m2 (fun e hee => ⟨g1.1.2 e hee, g1.2 e hee⟩) h2
      exact cutDims_good o sizes _ m2 m' ⟨⟨by unfold Dict.WF; rw [hk]; exact g1.1.1, fun e hee => (he e hee).1⟩, fun e hee => (he e hee).2⟩ h

theorem castTable_val {m : Dict OA (Dict Dim Nat)} {oa : OA} {mx : Dict Dim ℚ} {d : Dim} {b : ℚ} (h : (castTable m).get? oa = some mx) (h' : mx.get? d = some b) :
    ∃ l n, m.get? oa = some l ∧ l.get? d = some n ∧ b = n := by
  unfold castTable at h
  rw [get?_mapVal (fun _ (l : Dict Dim Nat) => l.map (fun x => (x.1, (x.2 : ℚ))))] at h
  cases hg : m.get? oa with
  | none => rw [hg] at h; cases h
  | some l =>
    rw [hg] at h
    cases h
    rw [get?_mapVal (fun _ (n : Nat) => (n : ℚ))] at h'
    cases hd : l.get? d with
    | none => rw [hd] at h'; cases h'
    | some n =>
      rw [hd] at h'
      cases h'
      exact ⟨l, n, rfl, hd, rfl⟩

/-- The reduced user mapping has whole unrollings and unique keys. -/
theorem template_good (i : Inputs OA Dim) (hp : SMWF i.provided) (hn : NatSM i.provided) (maxU : Dict OA (Dict Dim Nat)) (t : SM OA Dim)
    (h : template i = .ok (maxU, t)) : getMaxUnrolling i.mems i.oaSizes i.sizes = .ok maxU ∧ SMWF t ∧ NatSM t := by
  unfold template at h
  cases h1 : getMaxUnrolling i.mems i.oaSizes i.sizes with
  | error e => rw [h1] at h; cases h
  | ok mu =>
    rw [h1] at h
    simp only at h
    cases h2 : checkAndReduce i.order (some (castDict i.oaSizes)) (castTable mu) (castDict i.sizes) i.provided with
    | error e => rw [h2] at h; cases h
    | ok t' =>
      rw [h2] at h
      cases h
      refine ⟨rfl, ?_⟩
      exact checkAndReduce_good (P := IsNat) i.order _ _ _ (fun oa mx d b hm hb => by
        obtain ⟨_, n, _, _, rfl⟩ := castTable_val hm hb
        exact ⟨n, rfl⟩) _ _ ⟨hp, hn⟩ h2

/-! ### capacity limiting that succeeded -/

theorem servedEntries_known (m : SM OA Dim) (ir : List Dim) : ∀ (served : List OA) (es : List (Dim × ℚ)), servedEntries m ir served = .ok es →
    ∀ oa ∈ served, oa ∈ m.keys
  | [], _, _, oa, h => by simp at h
  | a :: t, es, h, oa, hoa => by
    unfold servedEntries at h
    cases hg : m.get? a with
    | none => rw [hg] at h; cases h
    | some l =>
      rw [hg] at h
      simp only at h
      cases hr : servedEntries m ir t with
      | error e => rw [hr] at h; cases h
      | ok r =>
        rcases List.mem_cons.1 hoa with rfl | hoa
        · by_contra hc
          rw [← Dict.get?_eq_none_iff, hg] at hc
          cases hc
        · exact servedEntries_known m ir t r hr oa hoa

theorem capStep_lower (ord : List Dim → List Dim) (ho : ∀ l, (ord l).Perm l) (mo : MemOp OA Dim) (hs : mo.served.Nodup) {m m' : SM OA Dim} (hm : SMWF m) (hn : NatSM m)
    (h : capStep ord mo m = .ok m') : MLower m m' := by
  have hk : ∀ oa ∈ mo.served, oa ∈ m.keys := by
    unfold capStep at h
    cases he : servedEntries m mo.irrelevant mo.served with
    | error e => rw [he] at h; cases h
    | ok es => exact servedEntries_known m _ _ es he
  by_cases hr : relEntries mo m = [] → mo.precision ≤ mo.capacity
  · obtain ⟨m1, e1, l1, _⟩ := capStep_spec ord ho mo hs hm hn hk hr
    rw [h] at e1
    cases e1
    exact l1
  · exfalso
    push Not at hr
    obtain ⟨h0, hlt⟩ := hr
    unfold capStep at h
    rw [servedEntries_eq m mo.irrelevant mo.served hk] at h
    simp only at h
    change (if mo.precision > 0 ∧ (mo.capacity : ℚ) / mo.precision < ((relEntries mo m).map Prod.snd).prod then
      limitLoops m mo.served (ord (((relEntries mo m).map Prod.fst).dedup)) ((mo.capacity : ℚ) / mo.precision) else .ok m) = .ok m' at h
    rw [h0] at h
    have hp : 0 < mo.precision := by omega
    have hp' : (0 : ℚ) < mo.precision := by exact_mod_cast hp
    have hlt' : (mo.capacity : ℚ) < mo.precision := by exact_mod_cast hlt
    have hb : (mo.capacity : ℚ) / mo.precision < 1 := (div_lt_one hp').2 hlt'
    rw [if_pos ⟨hp, by simpa using hb⟩] at h
    have hd : ord (([] : List (Dim × ℚ)).map Prod.fst).dedup = [] := by
      have := ho (([] : List (Dim × ℚ)).map Prod.fst).dedup
      simpa using this
    rw [hd] at h
    unfold limitLoops at h
    have : factorsOf m mo.served ([] : List Dim) = [] := rfl
    simp only [this] at h
    rw [adjust_empty _ hb] at h
    cases h

theorem limitCapacity_lower (ord : List Dim → List Dim) (ho : ∀ l, (ord l).Perm l) : ∀ (mems : List (MemOp OA Dim)) (m m' : SM OA Dim), (∀ mo ∈ mems, mo.served.Nodup) →
    SMWF m → NatSM m → limitCapacity ord mems m = .ok m' → MLower m m'
  | [], m, m', _, _, hn, h => by unfold limitCapacity at h; cases h; exact MLower.refl hn
  | mo :: t, m, m', hs, hm, hn, h => by
    unfold limitCapacity at h
    cases h1 : capStep ord mo m with
    | error e => rw [h1] at h; cases h
    | ok m1 =>
      rw [h1] at h
      have l1 := capStep_lower ord ho mo (hs mo (by simp)) hm hn h1
      exact l1.trans (limitCapacity_lower ord ho t m1 m' (fun x hx => hs x (by simp [hx])) (l1.wf hm) l1.nat h)

/-! ### validity survives lowering -/

theorem valid_lower {oaSizes : Dict OA ℚ} {maxU : Dict OA (Dict Dim ℚ)} {sizes : Dict Dim ℚ} {m m' : SM OA Dim} (hm : SMWF m) (hs : sizes.WF) (hl : MLower m m')
    (h : isValid (some oaSizes) maxU sizes m = .ok true) : isValid (some oaSizes) maxU sizes m' = .ok true := by
  obtain ⟨hsame, hv⟩ := (is_valid_iff _ _ _ _ hm hs).1 h
  refine (is_valid_iff _ _ _ _ (hl.wf hm) hs).2 ⟨fun k => by rw [hl.keys]; exact hsame k, ?_, ?_, ?_, ?_⟩
  · intro oa l' hl' d u hu
    rcases hl.get? oa with ⟨_, h2⟩ | ⟨l, l2, h1, h2, hd⟩
    · rw [h2] at hl'; cases hl'
    · rw [h2] at hl'; cases hl'
      obtain ⟨y, hy, hk, _, hle⟩ := forall₂_mem_right hd (Dict.mem_of_get? hu)
      have hlm := Dict.mem_of_get? h1
      obtain ⟨mx, b, hmx, hb, hyb⟩ := hv.bounded oa l h1 y.1 y.2 (Dict.get?_of_mem (hm.2 _ hlm) hy)
      simp only at hk hle
      exact ⟨mx, b, hmx, by rw [hk]; exact hb, le_trans hle hyb⟩
  · intro oa l' hl'
    rcases hl.get? oa with ⟨_, h2⟩ | ⟨l, l2, h1, h2, hd⟩
    · rw [h2] at hl'; cases hl'
    · rw [h2] at hl'; cases hl'
      obtain ⟨s, hs1, hs2⟩ := hv.fits oa l h1
      have := (hd.prod_le (fun _ => true)).2
      simp only [List.filter_true] at this
      exact ⟨s, hs1, le_trans this hs2⟩
  · intro oa l' hl' d hd
    rcases hl.get? oa with ⟨_, h2⟩ | ⟨l, l2, h1, h2, hdl⟩
    · rw [h2] at hl'; cases hl'
    · rw [h2] at hl'; cases hl'
      rw [hdl.keys] at hd
      exact hv.known oa l h1 d hd
  · intro d s hds
    have hf : ∀ {a b : Dict Dim ℚ}, DLower a b → 0 ≤ factor b d ∧ factor b d ≤ factor a d := by
      intro a b hab
      unfold DLower at hab
      induction hab with
      | nil => simp [factor]
      | @cons x y _ _ hxy _ ih =>
        rw [factor_cons, factor_cons, hxy.1]
        split_ifs
        · exact ⟨hxy.2.1.nonneg, hxy.2.2⟩
        · exact ih
    have : ∀ {a b : SM OA Dim}, MLower a b → 0 ≤ (b.map (fun e => factor e.2 d)).prod ∧ (b.map (fun e => factor e.2 d)).prod ≤ (a.map (fun e => factor e.2 d)).prod := by
      intro a b hab
      unfold MLower at hab
      induction hab with
      | nil => simp
      | cons hxy _ ih =>
        simp only [List.map_cons, List.prod_cons]
        obtain ⟨h0, h1⟩ := hf hxy.2
        exact ⟨mul_nonneg h0 ih.1, mul_le_mul h1 ih.2 ih.1 (le_trans h0 h1)⟩
    exact le_trans (this hl).2 (hv.covers d s hds)

/-! ### sorting, filtering -/

theorem keepValid_eq {α : Type} (check : α → Except PyErr Bool) : ∀ (l r : List α), keepValid check l = .ok r →
    r = l.filter (fun c => decide (check c = .ok true))
  | [], r, h => by unfold keepValid at h; cases h; rfl
  | c :: t, r, h => by
    unfold keepValid at h
    cases hc : check c with
    | error e => rw [hc] at h; cases h
    | ok b =>
      rw [hc] at h
      simp only at h
      cases hr : keepValid check t with
      | error e => rw [hr] at h; cases h
      | ok r' =>
        rw [hr] at h
        cases h
        rw [List.filter_cons, hc, keepValid_eq check t r' hr]
        cases b <;> simp

theorem withKeys_eq {α : Type} (key : α → Except PyErr ℚ) : ∀ (l : List α) (r : List (ℚ × α)), withKeys key l = .ok r →
    r.map Prod.snd = l ∧ ∀ x ∈ r, key x.2 = .ok x.1
  | [], r, h => by unfold withKeys at h; cases h; simp
  | c :: t, r, h => by
    unfold withKeys at h
    cases hc : key c with
    | error e => rw [hc] at h; cases h
    | ok k =>
      rw [hc] at h
      simp only at h
      cases hr : withKeys key t with
      | error e => rw [hr] at h; cases h
      | ok r' =>
        rw [hr] at h
        cases h
        obtain ⟨h1, h2⟩ := withKeys_eq key t r' hr
        refine ⟨by simp [h1], ?_⟩
        intro x hx
        rcases List.mem_cons.1 hx with rfl | hx
        · exact hc
        · exact h2 x hx

theorem insertDesc_perm {α : Type} (x : ℚ × α) (l : List (ℚ × α)) : (insertDesc x l).Perm (x :: l) := by
  induction l with
  | nil => exact List.Perm.refl _
  | cons y t ih =>
    unfold insertDesc
    split_ifs
    · exact List.Perm.refl _
    · exact (ih.cons y).trans (List.Perm.swap x y t)

theorem sortDesc_perm {α : Type} (l : List (ℚ × α)) : (sortDesc l).Perm l := by
  induction l with
  | nil => exact List.Perm.refl _
  | cons x t ih => exact (insertDesc_perm x _).trans (ih.cons x)

theorem insertDesc_sorted {α : Type} (x : ℚ × α) (l : List (ℚ × α)) (h : l.Pairwise (fun a b => b.1 ≤ a.1)) :
    (insertDesc x l).Pairwise (fun a b => b.1 ≤ a.1) := by
  induction l with
  | nil => simp [insertDesc]
  | cons y t ih =>
    obtain ⟨h1, h2⟩ := List.pairwise_cons.1 h
    unfold insertDesc
    split_ifs with hc
    · refine List.pairwise_cons.2 ⟨?_, h⟩
      intro z hz
      rcases List.mem_cons.1 hz with rfl | hz
      · exact hc
      · exact le_trans (h1 z hz) hc
    · refine List.pairwise_cons.2 ⟨?_, ih h2⟩
      intro z hz
      rcases List.mem_cons.1 ((insertDesc_perm x t).mem_iff.1 hz) with rfl | hz
      · exact le_of_lt (not_le.1 hc)
      · exact h1 z hz

theorem sortDesc_sorted {α : Type} (l : List (ℚ × α)) : (sortDesc l).Pairwise (fun a b => b.1 ≤ a.1) := by
  induction l with
  | nil => exact List.Pairwise.nil
  | cons x t ih => exact insertDesc_sorted x _ ih

/-- Equal keys keep their order. -/
theorem sortDesc_stable {α : Type} (l : List (ℚ × α)) (k : ℚ) : (sortDesc l).filter (fun x => decide (x.1 = k)) = l.filter (fun x => decide (x.1 = k)) := by
  have ins : ∀ (x : ℚ × α) (l : List (ℚ × α)), l.Pairwise (fun a b => b.1 ≤ a.1) →
      (insertDesc x l).filter (fun x => decide (x.1 = k)) = (x :: l).filter (fun x => decide (x.1 = k)) := by
    intro x l
    induction l with
    | nil => intro _; rfl
    | cons y t ih =>
      intro h
      obtain ⟨_, h2⟩ := List.pairwise_cons.1 h
      unfold insertDesc
      split_ifs with hc
      · rfl
      · rw [List.filter_cons, ih h2, List.filter_cons, List.filter_cons, List.filter_cons]
        by_cases hx : x.1 = k
        · have : ¬ y.1 = k := by rintro rfl; exact hc (le_of_eq hx.symm)
          simp [hx, this]
        · simp [hx]
  induction l with
  | nil => rfl
  | cons x t ih =>
    change (insertDesc x (sortDesc t)).filter _ = _
    rw [ins x _ (sortDesc_sorted t), List.filter_cons, List.filter_cons, ih]

/-! ### candidates -/

theorem foldl_set_append (own : SM OA Dim) : ∀ (ps : List (OA × Dict Dim ℚ)), (ps.map Prod.fst).Nodup → (∀ p ∈ ps, p.1 ∉ own.keys) →
    ps.foldl (fun m p => m.set p.1 p.2) own = own ++ ps := by
  intro ps
  induction ps generalizing own with
  | nil => simp
  | cons p ps ih =>
    intro hn hd
    rw [List.map_cons] at hn
    obtain ⟨h1, h2⟩ := List.nodup_cons.1 hn
    rw [List.foldl_cons]
    have hset : ∀ (m : SM OA Dim), p.1 ∉ m.keys → m.set p.1 p.2 = m ++ [p] := by
      intro m
      induction m with
      | nil => intro _; rfl
      | cons e m ihm =>
        intro hh
        have hh' : p.1 ≠ e.1 ∧ p.1 ∉ Dict.keys m := by simpa [Dict.keys] using hh
        change (if e.1 = p.1 then _ else e :: Dict.set m p.1 p.2) = _
        rw [if_neg (Ne.symm hh'.1), ihm hh'.2]
        rfl
    rw [hset own (hd p (by simp)), ih _ h2]
    · simp
    · intro q hq
      have hq1 := hd q (by simp [hq])
      simp only [Dict.keys, List.map_append, List.mem_append, List.map_cons, List.map_nil, List.mem_singleton, not_or] at hq1 ⊢
      exact ⟨hq1, fun hc => h1 (List.mem_map.2 ⟨q, hq, hc⟩)⟩

theorem zip_fst_sublist {α β : Type} : ∀ (a : List α) (b : List β), ((a.zip b).map Prod.fst).Sublist a
  | [], b => by simp
  | x :: a, [] => by simp
  | x :: a, y :: b => by simpa using zip_fst_sublist a b

theorem picks_length {heap : List (List (Dict Dim ℚ))} {choice : List Nat} (h : heap.length = choice.length) : (picks heap choice).length = choice.length := by
  unfold picks; rw [List.length_zipWith]; omega

theorem resolve_eq {fill : List OA} {heap : List (List (Dict Dim ℚ))} {c : Cand OA Dim} (hf : fill.Nodup) (hd : ∀ oa ∈ fill, oa ∉ c.own.keys) :
    resolve fill heap c = c.own ++ fill.zip (picks heap c.choice) := by
  unfold resolve
  apply foldl_set_append
  · exact hf.sublist (zip_fst_sublist _ _)
  · intro p hp
    exact hd _ (List.of_mem_zip hp).1

/-- The heap only contains whole unrollings and unique keys. -/
def HeapOk (heap : List (List (Dict Dim ℚ))) : Prop := ∀ l ∈ heap, ∀ x ∈ l, x.WF ∧ ∀ y ∈ x, IsNat y.2

theorem picks_ok {heap : List (List (Dict Dim ℚ))} (hh : HeapOk heap) {choice : List Nat} : ∀ x ∈ picks heap choice, x.WF ∧ ∀ y ∈ x, IsNat y.2 := by
  unfold picks
  induction heap generalizing choice with
  | nil => intro x hx; simp at hx
  | cons l t ih =>
    cases choice with
    | nil => intro x hx; simp at hx
    | cons k c =>
      intro x hx
      rw [List.zipWith_cons_cons] at hx
      rcases List.mem_cons.1 hx with rfl | hx
      · cases hk : l[k]? with
        | none => simp [Dict.WF, Dict.keys]
        | some y => exact hh l (by simp) y (List.mem_of_getElem? hk)
      · exact ih (fun l' hl' => hh l' (by simp [hl'])) x hx

theorem append_wf {own : SM OA Dim} {ps : List (OA × Dict Dim ℚ)} (ho : SMWF own) (hn : (ps.map Prod.fst).Nodup) (hd : ∀ p ∈ ps, p.1 ∉ own.keys)
    (hp : ∀ p ∈ ps, p.2.WF) : SMWF (own ++ ps) := by
  constructor
  · unfold Dict.WF Dict.keys
    rw [List.map_append, List.nodup_append]
    refine ⟨ho.1, hn, ?_⟩
    rintro a ha _ hb rfl
    obtain ⟨p, hp1, rfl⟩ := List.mem_map.1 hb
    exact hd p hp1 ha
  · intro e he
    rcases List.mem_append.1 he with h | h
    · exact ho.2 e h
    · exact hp e h

/-- What is known of a candidate. -/
structure CandOk (fill : List OA) (heap : List (List (Dict Dim ℚ))) (c : Cand OA Dim) : Prop where
  wf : SMWF c.own
  nat : NatSM c.own
  disj : ∀ oa ∈ fill, oa ∉ c.own.keys
  len : c.choice.length = heap.length

theorem resolve_ok {fill : List OA} {heap : List (List (Dict Dim ℚ))} {c : Cand OA Dim} (hf : fill.Nodup) (hh : HeapOk heap) (hc : CandOk fill heap c) :
    SMWF (resolve fill heap c) ∧ NatSM (resolve fill heap c) := by
  rw [resolve_eq hf hc.disj]
  constructor
  · apply append_wf hc.wf
    · exact hf.sublist (zip_fst_sublist _ _)
    · intro p hp; exact hc.disj _ (List.of_mem_zip hp).1
    · intro p hp; exact (picks_ok hh _ (List.of_mem_zip hp).2).1
  · intro e he
    rcases List.mem_append.1 he with h | h
    · exact hc.nat e h
    · exact (picks_ok hh _ (List.of_mem_zip h).2).2

/-- Lowering of the shared objects. -/
def HLower (h h' : List (List (Dict Dim ℚ))) : Prop := List.Forall₂ (List.Forall₂ DLower) h h'

theorem HLower.refl {h : List (List (Dict Dim ℚ))} (hh : HeapOk h) : HLower h h :=
  List.forall₂_same.2 (fun l hl => List.forall₂_same.2 (fun x hx => DLower.refl (hh l hl x hx).2))

theorem HLower.trans {a b c : List (List (Dict Dim ℚ))} (h : HLower a b) (h' : HLower b c) : HLower a c := by
  unfold HLower at *
  induction h generalizing c with
  | nil => cases h'; exact List.Forall₂.nil
  | @cons x y _ _ hab _ ih =>
    cases h' with
    | @cons _ z _ _ hbc hr =>
      refine List.Forall₂.cons ?_ (ih hr)
      clear ih hr
      induction hab generalizing z with
      | nil => cases hbc; exact List.Forall₂.nil
      | cons h1 _ ih2 =>
        cases hbc with
        | cons h2 h3 => exact List.Forall₂.cons (h1.trans h2) (ih2 h3)

theorem HLower.ok {h h' : List (List (Dict Dim ℚ))} (hl : HLower h h') (hh : HeapOk h) : HeapOk h' := by
  intro l' hl' x' hx'
  obtain ⟨l, hll, hf⟩ := forall₂_mem_right hl hl'
  obtain ⟨x, hx, hd⟩ := forall₂_mem_right hf hx'
  refine ⟨by unfold Dict.WF; rw [hd.keys]; exact (hh l hll x hx).1, fun y hy => ?_⟩
  obtain ⟨_, _, _, hn, _⟩ := forall₂_mem_right hd hy
  exact hn

theorem picks_lower {h h' : List (List (Dict Dim ℚ))} (hl : HLower h h') (choice : List Nat) : List.Forall₂ DLower (picks h choice) (picks h' choice) := by
  unfold HLower at hl
  induction hl generalizing choice with
  | nil => simp [picks]
  | @cons a b t t' hab _ ih =>
    cases choice with
    | nil => simp [picks]
    | cons k c =>
      unfold picks
      rw [List.zipWith_cons_cons, List.zipWith_cons_cons]
      refine List.Forall₂.cons ?_ (ih c)
      have hlen := hab.length_eq
      by_cases hk : k < a.length
      · rw [List.getElem?_eq_getElem hk, List.getElem?_eq_getElem (hlen ▸ hk)]
        exact List.forall₂_iff_get.1 hab |>.2 k hk (hlen ▸ hk)
      · rw [List.getElem?_eq_none (by omega), List.getElem?_eq_none (by omega)]
        exact List.Forall₂.nil

theorem zip_lower {fill : List OA} {ps ps' : List (Dict Dim ℚ)} (h : List.Forall₂ DLower ps ps') :
    MLower (fill.zip ps) (fill.zip ps') := by
  unfold MLower
  induction h generalizing fill with
  | nil => simp
  | cons hab _ ih =>
    cases fill with
    | nil => simp
    | cons oa f => exact List.Forall₂.cons ⟨rfl, hab⟩ ih

theorem MLower.append {a a' b b' : SM OA Dim} (h : MLower a a') (h' : MLower b b') : MLower (a ++ b) (a' ++ b') := List.rel_append h h'

theorem resolve_lower {fill : List OA} {h h' : List (List (Dict Dim ℚ))} (hf : fill.Nodup) {c c' : Cand OA Dim} (hd : ∀ oa ∈ fill, oa ∉ c.own.keys)
    (hl : HLower h h') (ho : MLower c.own c'.own) (hc : c'.choice = c.choice) : MLower (resolve fill h c) (resolve fill h' c') := by
  rw [resolve_eq hf hd, resolve_eq hf (by rw [ho.keys]; exact hd), hc]
  exact ho.append (zip_lower (picks_lower hl _))

theorem set_lower {l : List (Dict Dim ℚ)} (hl : List.Forall₂ DLower l l) (k : Nat) {x : Dict Dim ℚ} (h : ∀ y, l[k]? = some y → DLower y x) :
    List.Forall₂ DLower l (l.set k x) := by
  rw [List.forall₂_iff_get] at hl ⊢
  refine ⟨by simp, ?_⟩
  intro j h1 h2
  simp only [List.get_eq_getElem, List.getElem_set]
  split_ifs with hjk
  · subst hjk
    exact h _ (List.getElem?_eq_getElem h1)
  · exact hl.2 j h1 h1

theorem store_lower {m : SM OA Dim} : ∀ (fill : List OA) (heap : List (List (Dict Dim ℚ))) (choice : List Nat), HeapOk heap →
    (∀ p ∈ fill.zip (picks heap choice), ∃ l', m.get? p.1 = some l' ∧ DLower p.2 l') → HLower heap (store m fill heap choice)
  | [], h, c, hh, _ => by unfold store; exact HLower.refl hh
  | oa :: f, [], c, hh, _ => by unfold store; exact HLower.refl hh
  | oa :: f, l :: h, [], hh, _ => by unfold store; exact HLower.refl hh
  | oa :: f, l :: h, k :: c, hh, hp => by
    unfold store
    unfold picks at hp
    rw [List.zipWith_cons_cons, List.zip_cons_cons] at hp
    refine List.Forall₂.cons ?_ (store_lower f h c (fun x hx => hh x (by simp [hx])) (fun p hpp => hp p (by simp [picks] at hpp ⊢; exact Or.inr hpp)))
    apply set_lower
    · exact List.forall₂_same.2 (fun x hx => DLower.refl (hh l (by simp) x hx).2)
    · intro y hy
      obtain ⟨l', h1, h2⟩ := hp (oa, (l[k]?).getD []) (by simp)
      simp only at h1 h2
      rw [h1, Option.getD_some]
      rw [hy] at h2
      exact h2

theorem get?_append_right {own : SM OA Dim} {ps : List (OA × Dict Dim ℚ)} {oa : OA} (h : oa ∉ own.keys) :
    Dict.get? (own ++ ps) oa = Dict.get? ps oa := by
  induction own with
  | nil => rfl
  | cons e t ih =>
    have h' : oa ≠ e.1 ∧ oa ∉ Dict.keys t := by simpa [Dict.keys] using h
    rw [List.cons_append, Dict.get?_cons, if_neg (Ne.symm h'.1)]
    exact ih h'.2

theorem storeOwn_lower {m m0 own : SM OA Dim} {ps : List (OA × Dict Dim ℚ)} (hm0 : m0 = own ++ ps) (hw : m0.WF) (hl : MLower m0 m) : MLower own (storeOwn m own) := by
  unfold storeOwn MLower
  rw [List.forall₂_map_right_iff, List.forall₂_same]
  intro e he
  refine ⟨rfl, ?_⟩
  have hg : m0.get? e.1 = some e.2 := Dict.get?_of_mem hw (by rw [hm0]; exact List.mem_append_left _ he)
  rcases hl.get? e.1 with ⟨h1, _⟩ | ⟨l, l', h1, h2, hd⟩
  · rw [hg] at h1; cases h1
  · rw [hg] at h1; cases h1
    simp only
    rw [h2]
    exact hd

/-- One round of capacity limiting: objects and own part are lowered. -/
theorem limit_one (i : Inputs OA Dim) (hs : ∀ mo ∈ i.mems, mo.served.Nodup) (ho : ∀ l, (i.capOrder l).Perm l) {fill : List OA} (hf : fill.Nodup)
    {heap : List (List (Dict Dim ℚ))} (hh : HeapOk heap) {c : Cand OA Dim} (hc : CandOk fill heap c) {m : SM OA Dim}
    (h : limitCapacity i.capOrder i.mems (resolve fill heap c) = .ok m) :
    HLower heap (store m fill heap c.choice) ∧ MLower c.own (storeOwn m c.own) := by
  obtain ⟨hw, hn⟩ := resolve_ok hf hh hc
  have hl := limitCapacity_lower i.capOrder ho i.mems _ m hs hw hn h
  constructor
  · apply store_lower _ _ _ hh
    intro p hp
    have hg : (resolve fill heap c).get? p.1 = some p.2 :=
      Dict.get?_of_mem hw.1 (by rw [resolve_eq hf hc.disj]; exact List.mem_append_right _ hp)
    rcases hl.get? p.1 with ⟨h1, _⟩ | ⟨l, l', h1, h2, hd⟩
    · rw [hg] at h1; cases h1
    · rw [hg] at h1; cases h1
      exact ⟨l', h2, hd⟩
  · exact storeOwn_lower (resolve_eq hf hc.disj) hw.1 hl

theorem limitAll_lower (i : Inputs OA Dim) (hs : ∀ mo ∈ i.mems, mo.served.Nodup) (ho : ∀ l, (i.capOrder l).Perm l) {fill : List OA} (hf : fill.Nodup) :
    ∀ (cs : List (Cand OA Dim)) (heap : List (List (Dict Dim ℚ))) (r : List (Cand OA Dim)) (heap' : List (List (Dict Dim ℚ))), HeapOk heap → (∀ c ∈ cs, CandOk fill heap c) →
      limitAll i fill cs heap = .ok (r, heap') → HLower heap heap' ∧ List.Forall₂ (fun c c' => MLower c.own c'.own ∧ c'.choice = c.choice) cs r
  | [], heap, r, heap', hh, _, h => by
    unfold limitAll at h
    cases h
    exact ⟨HLower.refl hh, List.Forall₂.nil⟩
  | c :: t, heap, r, heap', hh, hc, h => by
    unfold limitAll at h
    cases h1 : limitCapacity i.capOrder i.mems (resolve fill heap c) with
    | error e => rw [h1] at h; cases h
    | ok m =>
      rw [h1] at h
      simp only at h
      obtain ⟨hl1, ho1⟩ := limit_one i hs ho hf hh (hc c (by simp)) h1
      cases h2 : limitAll i fill t (store m fill heap c.choice) with
      | error e => rw [h2] at h; cases h
      | ok p =>
        obtain ⟨r', heap2⟩ := p
        rw [h2] at h
        simp only [Except.ok.injEq, Prod.mk.injEq] at h
        obtain ⟨rfl, rfl⟩ := h
        obtain ⟨hl2, hf2⟩ := limitAll_lower i hs ho hf t _ r' heap2 (hl1.ok hh)
          (fun x hx => by
            have := hc x (by simp [hx])
            exact ⟨this.wf, this.nat, this.disj, by rw [this.len]; exact hl1.length_eq⟩) h2
        exact ⟨hl1.trans hl2, List.Forall₂.cons ⟨ho1, rfl⟩ hf2⟩

/-! ### products and combinations -/

theorem mem_pyProduct {α : Type} : ∀ (ls : List (List α)) (r : List α), r ∈ pyProduct ls ↔ List.Forall₂ (fun x l => x ∈ l) r ls
  | [], r => by simp [pyProduct]
  | l :: t, r => by
    unfold pyProduct
    rw [List.mem_flatMap]
    constructor
    · rintro ⟨x, hx, hr⟩
      obtain ⟨r', hr', rfl⟩ := List.mem_map.1 hr
      exact List.Forall₂.cons hx ((mem_pyProduct t r').1 hr')
    · intro h
      cases h with
      | cons hx hr => exact ⟨_, hx, List.mem_map.2 ⟨_, (mem_pyProduct t _).2 hr, rfl⟩⟩

theorem pyProduct_map {α β : Type} (f : α → β) : ∀ (ls : List (List α)), pyProduct (ls.map (List.map f)) = (pyProduct ls).map (List.map f)
  | [] => rfl
  | l :: t => by
    rw [List.map_cons]
    unfold pyProduct
    rw [pyProduct_map f t, List.flatMap_map, List.map_flatMap]
    apply List.flatMap_congr
    intro x _
    simp [List.map_map, Function.comp_def]

/-- Choosing positions is choosing objects. -/
theorem picks_product (heap : List (List (Dict Dim ℚ))) :
    (pyProduct (heap.map (fun l => List.range l.length))).map (picks heap) = pyProduct heap := by
  induction heap with
  | nil => rfl
  | cons l t ih =>
    rw [List.map_cons]
    unfold pyProduct
    rw [List.map_flatMap, ← ih]
    have : ∀ k, List.map (picks (l :: t)) ((pyProduct (t.map (fun l => List.range l.length))).map (fun r => k :: r)) =
        ((pyProduct (t.map (fun l => List.range l.length))).map (picks t)).map (fun r => (l[k]?).getD [] :: r) := by
      intro k
      simp [List.map_map, Function.comp_def, picks]
    simp only [this]
    have hl : l = (List.range l.length).map (fun k => (l[k]?).getD []) := by
      apply List.ext_getElem
      · simp
      · intro j h1 h2
        simp [h1]
    conv_rhs => rw [hl]
    rw [List.flatMap_map]

theorem mem_combinations {α : Type} : ∀ (k : Nat) (l r : List α), r ∈ combinations k l ↔ r.Sublist l ∧ r.length = k
  | 0, l, r => by
    unfold combinations
    rw [List.mem_singleton]
    constructor
    · rintro rfl; simp
    · rintro ⟨_, h⟩; exact List.length_eq_zero_iff.1 h
  | k + 1, [], r => by
    unfold combinations
    simp only [List.not_mem_nil, List.sublist_nil, false_iff, not_and]
    rintro rfl
    simp
  | k + 1, x :: t, r => by
    unfold combinations
    rw [List.mem_append, List.mem_map, mem_combinations (k + 1) t r]
    constructor
    · rintro (⟨r', hr', rfl⟩ | ⟨h1, h2⟩)
      · obtain ⟨h1, h2⟩ := (mem_combinations k t r').1 hr'
        exact ⟨h1.cons_cons x, by simp [h2]⟩
      · exact ⟨h1.cons x, h2⟩
    · rintro ⟨h1, h2⟩
      cases h1 with
      | cons _ h => exact Or.inr ⟨h, h2⟩
      | cons_cons _ h =>
        refine Or.inl ⟨_, (mem_combinations k t _).2 ⟨h, ?_⟩, rfl⟩
        simpa using h2

theorem mem_divisors {n k : Nat} : k ∈ divisors n ↔ 0 < k ∧ k ∣ n ∧ 0 < n := by
  unfold divisors
  simp only [List.mem_filter, List.mem_range, decide_eq_true_eq]
  constructor
  · rintro ⟨h1, h2, h3⟩; exact ⟨h2, h3, by omega⟩
  · rintro ⟨h1, h2, h3⟩
    have := Nat.le_of_dvd h3 h2
    exact ⟨by omega, h1, h2⟩

end Verif.SpatialGen
