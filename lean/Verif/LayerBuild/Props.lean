import Verif.LayerBuild.Lemmas
import Mathlib.Data.Nat.Digits.Defs
import Mathlib.Data.Nat.Digits.Lemmas

/-! C84: accepted workload files can be turned into layers. -/

namespace Verif.LayerBuild

open Verif.Equation Verif.LayerNode

/-! ### The checks -/

/-- Specification: the number a coefficient stands for, one if it is left out. -/
def Stands (c : Option Text) (n : Nat) : Prop :=
  match c with
  | none => n = 1
  | some t => t ≠ [] ∧ (∀ x ∈ t, x.isDigit = true) ∧ n = Nat.ofDigits 10 ((t.map fun x => x.toNat - 48).reverse)

private theorem coef_iff (c : Option Text) (n : Nat) : coef c = .ok n ↔ Stands c n := by
  cases c with
  | none =>
    simp only [coef, Stands, Except.ok.injEq]
    exact eq_comm
  | some t =>
    have hfold : ∀ (t : Text) (a : Nat), t.foldl (fun n c => 10 * n + digit c) a =
        Nat.ofDigits 10 ((t.map fun x => x.toNat - 48).reverse) + 10 ^ t.length * a := by
      intro t
      induction t with
      | nil => intro a; simp
      | cons x t ih =>
        intro a
        rw [List.foldl_cons, ih, List.map_cons, List.reverse_cons, Nat.ofDigits_append, Nat.ofDigits_singleton]
        simp only [List.length_reverse, List.length_map, List.length_cons, digit]
        have : '0'.toNat = 48 := rfl
        rw [this, pow_succ]
        ring
    simp only [coef, pyIntText, Stands]
    by_cases h : t ≠ [] ∧ t.all Char.isDigit = true
    · rw [if_pos h, Except.ok.injEq, hfold t 0]
      simp only [Nat.mul_zero, Nat.add_zero]
      rw [List.all_eq_true] at h
      exact ⟨fun e => ⟨h.1, h.2, e.symm⟩, fun e => e.2.2.symm⟩
    · rw [if_neg h]
      constructor
      · intro e; cases e
      · rintro ⟨a, b, _⟩
        exact absurd ⟨a, List.all_eq_true.2 b⟩ h

/-- C84: a relation `ix = a * ox + b * fx` is read with its dimensions and coefficients in the written order. -/
theorem relation_read (r : RelD) (s : Relation Text) : mkRel r = .ok s ↔
    s.dim1 = upper r.d1 ∧ s.dim2 = upper r.d2 ∧ s.dim3 = upper r.d3 ∧ Stands r.c2 s.coef2 ∧ Stands r.c3 s.coef3 := by
  obtain ⟨s1, s2, s3, a, b⟩ := s
  rw [← coef_iff, ← coef_iff]
  unfold mkRel
  cases h2 : coef r.c2 with
  | error e => simp
  | ok x =>
    cases h3 : coef r.c3 with
    | error e => simp
    | ok y =>
      simp only [Except.ok.injEq, Relation.mk.injEq]
      constructor
      · rintro ⟨rfl, rfl, rfl, rfl, rfl⟩; exact ⟨rfl, rfl, rfl, rfl, rfl⟩
      · rintro ⟨rfl, rfl, rfl, rfl, rfl⟩; exact ⟨rfl, rfl, rfl, rfl, rfl⟩

example : mkRel ⟨"ix".toList, some "12".toList, "ox".toList, none, "fx".toList⟩ = .ok ⟨"IX".toList, "OX".toList, "FX".toList, 12, 1⟩ := by rfl

/-- C84: checking a layer raises exactly for padding or sizes of partially relevant dimensions without a list of these dimensions. -/
theorem validate_total_iff (d : LayerD) : (∃ b, validate d = .ok b) ↔ (d.prDims = none → d.padding = none ∧ d.prSizes = none) := by
  unfold validate sameLength
  cases d.prDims <;> cases d.padding <;> cases d.prSizes <;> simp

/-- C84: an accepted layer has one padding entry and one size per partially relevant dimension. -/
theorem validate_sound (d : LayerD) (h : validate d = .ok true) :
    (∀ ps, d.padding = some ps → ∃ ds, d.prDims = some ds ∧ ds.length = ps.length) ∧ (∀ ss, d.prSizes = some ss → ∃ ds, d.prDims = some ds ∧ ds.length = ss.length) := by
  unfold validate sameLength at h
  cases hd : d.prDims <;> cases hp : d.padding <;> cases hs : d.prSizes <;> rw [hd, hp, hs] at h <;> simp at h ⊢ <;> omega

/-! ### Construction -/

/-- What a consistent description of a layer is: an equation over known dimensions, relations between known dimensions, positive sizes, precisions of all operands. -/
structure Good (d : LayerD) (e : Eqn) (rels : List (Relation Text)) : Prop where
  eqn : d.equation = e.text
  plain : e.Plain
  parsed : List.Forall₂ (fun r s => mkRel r = .ok s) d.relations rels
  names : (rels.map Relation.dim1).Nodup
  lens : d.loopDims.length = d.loopSizes.length
  dims : (d.loopDims.map upper).Nodup
  pos : ∀ n ∈ d.loopSizes, 1 ≤ n
  relDims : ∀ r ∈ rels, r.dim2 ∈ d.loopDims.map upper ∧ r.dim3 ∈ d.loopDims.map upper ∧ (r.coef2 ≠ 0 ∨ r.coef3 ≠ 0)
  eqDims : ∀ t ∈ e.terms, ∀ x ∈ t.dims, x ≠ [] → upper x ∈ d.loopDims.map upper ∨ ∃ r ∈ rels, upper x = r.dim1
  prec : ∀ t ∈ e.terms, t.name ∈ d.precision.keys

/-- Sizes of the partially relevant dimensions are given for all of them. -/
structure GivenPr (d : LayerD) (rels : List (Relation Text)) : Prop where
  ex : ∃ ds ss, d.prDims = some ds ∧ d.prSizes = some ss ∧ ds.length = ss.length ∧ (ds.map upper).Nodup ∧ ds ≠ [] ∧ (∀ n ∈ ss, 1 ≤ n) ∧
    ∀ r ∈ rels, r.dim1 ∈ ds.map upper

/-- No sizes are given and there is no padding. -/
structure ComputedPr (d : LayerD) : Prop where
  sizes : d.prSizes = none
  padding : d.padding = none

theorem sizes_keys {d : LayerD} {e : Eqn} {rels : List (Relation Text)} (hg : Good d e rels) : (dimSizes d).keys = d.loopDims.map upper := by
  unfold dimSizes
  exact zipDict_keys _ _ (by simp [hg.lens]) hg.dims

theorem sizes_get {d : LayerD} {e : Eqn} {rels : List (Relation Text)} (hg : Good d e rels) (x : Text) (hx : x ∈ d.loopDims.map upper) :
    ∃ n : Nat, (dimSizes d).get? x = some (n : ℚ) ∧ 1 ≤ n := by
  obtain ⟨v, hv, hm⟩ := get_of_keys (dimSizes d) x (by rw [sizes_keys hg]; exact hx)
  unfold dimSizes at hm
  rw [zipDict_eq _ _ (by simp [hg.lens]) hg.dims] at hm
  obtain ⟨n, hn, hnv⟩ := List.mem_map.1 (List.of_mem_zip hm).2
  have h1 := hg.pos n hn
  refine ⟨n.toNat, ?_, by omega⟩
  rw [hv, ← hnv]
  congr 1
  have : ((n.toNat : Int) : ℚ) = (n : ℚ) := by rw [Int.toNat_of_nonneg (by omega)]
  rw [← this]
  norm_cast

theorem mapE_of_forall₂ {α β : Type} {f : α → Except PyErr β} {l : List α} {bs : List β} (h : List.Forall₂ (fun a b => f a = .ok b) l bs) : mapE f l = .ok bs := by
  induction h with
  | nil => rfl
  | cons h1 _ ih => rw [mapE, h1]; simp only; rw [ih]

theorem prGet (rels : List (Relation Text)) (hn : (rels.map Relation.dim1).Nodup) (r : Relation Text) (hr : r ∈ rels) :
    Dict.get? (extractPr rels).prLoop r.dim1 = some (r.dim2, r.dim3) ∧ Dict.get? (extractPr rels).scaling r.dim1 = some (r.coef2, r.coef3) := by
  obtain ⟨h1, h2, h3⟩ := extractPr_spec rels hn
  rw [h1]
  constructor
  · rw [get?_map_rel (fun r => (r.dim2, r.dim3)), find?_rel rels hn r hr]; rfl
  · rw [h2, get?_map_rel (fun r => (r.coef2, r.coef3)), find?_rel rels hn r hr]; rfl

/-- The size of a partially relevant dimension can be computed and is positive. -/
private theorem prTotal_ok {d : LayerD} {e : Eqn} {rels : List (Relation Text)} (hg : Good d e rels) (r : Relation Text) (hr : r ∈ rels) :
    ∃ n : Int, calcPrTotal (dimSizes d) (extractPr rels) 0 r.dim1 = .ok n ∧ 1 ≤ n := by
  obtain ⟨g1, g2⟩ := prGet rels hg.names r hr
  obtain ⟨k2, k3, kc⟩ := hg.relDims r hr
  obtain ⟨a, ha, ha1⟩ := sizes_get hg _ k2
  obtain ⟨b, hb, hb1⟩ := sizes_get hg _ k3
  obtain ⟨v, hv, hdv, -⟩ := pr_size_exact_iff r.coef2 a r.coef3 b kc
  refine ⟨v - 0, ?_, ?_⟩
  · unfold calcPrTotal LayerNode.lookup
    simp only [g1, ha, hb, g2, bind, Except.bind]
    have pa : pyInt (a : ℚ) = (a : Int) := by have := pyInt_int (a : Int); simpa using this
    have pb : pyInt (b : ℚ) = (b : Int) := by have := pyInt_int (b : Int); simpa using this
    rw [pa, pb, hv]
    rfl
  · have := distinct_pos r.coef2 a r.coef3 b ha1 hb1
    omega

private theorem computed_ok {d : LayerD} {e : Eqn} {rels : List (Relation Text)} (hg : Good d e rels) (ks : List Text) (hk : ∀ k ∈ ks, ∃ r ∈ rels, r.dim1 = k) :
    ∃ ps, prSizesComputed (dimSizes d) (extractPr rels) [] ks = .ok ps ∧ ∀ k ∈ ks, ∃ v, Dict.get? ps k = some v ∧ 1 ≤ v := by
  induction ks with
  | nil => exact ⟨[], rfl, by simp⟩
  | cons k ks ih =>
    obtain ⟨ps, hps, hp⟩ := ih (fun x hx => hk x (by simp [hx]))
    obtain ⟨r, hr, rfl⟩ := hk k (by simp)
    obtain ⟨n, hn, h1⟩ := prTotal_ok hg r hr
    refine ⟨(r.dim1, (n : ℚ)) :: ps, ?_, ?_⟩
    · rw [prSizesComputed]
      have : padSum [] r.dim1 = 0 := rfl
      rw [this, hn]
      simp only
      rw [hps]
    · intro x hx
      rw [Dict.get?_cons]
      by_cases hxr : r.dim1 = x
      · rw [if_pos hxr]
        exact ⟨_, rfl, show (1 : ℚ) ≤ (n : ℚ) by exact_mod_cast h1⟩
      · rw [if_neg hxr]
        rcases List.mem_cons.1 hx with h | h
        · exact absurd h.symm hxr
        · exact hp x h

/-- Sizes of all partially relevant dimensions are available. -/
theorem prSizes_ok {d : LayerD} {e : Eqn} {rels : List (Relation Text)} (hg : Good d e rels) (hpr : GivenPr d rels ∨ ComputedPr d) (p : Dict Text (Int × Int))
    (hp : padding d = .ok p) :
    ∃ ps, prSizes (prSizesFile d) (dimSizes d) (extractPr rels) p = .ok ps ∧ ∀ r ∈ rels, ∃ v, Dict.get? ps r.dim1 = some v ∧ 1 ≤ v := by
  rcases hpr with ⟨ds, ss, h1, h2, h3, h4, h5, h6, h7⟩ | ⟨h1, h2⟩
  · refine ⟨zipDict (ds.map upper) (ss.map fun n : Int => (n : ℚ)), ?_, ?_⟩
    · unfold prSizes prSizesFile
      rw [h1, h2]
      simp only
      rw [if_neg]
      rw [zipDict_eq _ _ (by simp [h3]) h4]
      intro hc
      have := congrArg List.length hc
      rw [List.length_zip] at this
      simp only [List.length_map, List.length_nil] at this
      have hz : ds.length = 0 := by omega
      exact h5 (List.length_eq_zero_iff.1 hz)
    · intro r hr
      obtain ⟨v, hv, hm⟩ := get_of_keys (zipDict (ds.map upper) (ss.map fun n : Int => (n : ℚ))) r.dim1 (by rw [zipDict_keys _ _ (by simp [h3]) h4]; exact h7 r hr)
      refine ⟨v, hv, ?_⟩
      rw [zipDict_eq _ _ (by simp [h3]) h4] at hm
      obtain ⟨n, hn, hnv⟩ := List.mem_map.1 (List.of_mem_zip hm).2
      rw [← hnv]
      exact_mod_cast h6 n hn
  · have hpe : p = [] := by
      unfold padding at hp
      rw [h2] at hp
      cases hd : d.prDims <;> rw [hd] at hp <;> cases hp <;> rfl
    subst hpe
    have hf : prSizesFile d = none := by unfold prSizesFile; rw [h1]; cases d.prDims <;> rfl
    have hkeys : Dict.keys (extractPr rels).prLoop = rels.map Relation.dim1 := by
      rw [(extractPr_spec rels hg.names).1, Dict.keys, List.map_map]; rfl
    obtain ⟨ps, hps, hv⟩ := computed_ok hg (rels.map Relation.dim1) (fun k hk => by obtain ⟨r, hr, rfl⟩ := List.mem_map.1 hk; exact ⟨r, hr, rfl⟩)
    refine ⟨ps, ?_, fun r hr => hv _ (List.mem_map.2 ⟨r, hr, rfl⟩)⟩
    unfold prSizes
    rw [hf]
    simp only
    rw [hkeys]
    exact hps

/-- Every size used for an operand is available and positive. -/
private theorem tensorDim_ok {d : LayerD} {e : Eqn} {rels : List (Relation Text)} (hg : Good d e rels) (ps : Dict Text ℚ)
    (hps : ∀ r ∈ rels, ∃ v, Dict.get? ps r.dim1 = some v ∧ 1 ≤ v) (r : Relation Text) (hr : r ∈ rels) :
    ∃ q, calcTensorDim ⟨dimSizes d, extractPr rels, ps⟩ (dimSizes d) r.dim1 = .ok q ∧ 0 < q := by
  unfold calcTensorDim
  cases hs : (dimSizes d).get? r.dim1 with
  | some s =>
    obtain ⟨n, hn, h1⟩ := sizes_get hg r.dim1 (by
      rw [← sizes_keys hg]
      exact List.mem_map.2 ⟨_, Dict.mem_of_get? hs, rfl⟩)
    rw [hs] at hn
    cases hn
    exact ⟨_, rfl, by exact_mod_cast h1⟩
  | none =>
    obtain ⟨g1, g2⟩ := prGet rels hg.names r hr
    obtain ⟨k2, k3, kc⟩ := hg.relDims r hr
    obtain ⟨a, ha, ha1⟩ := sizes_get hg _ k2
    obtain ⟨b, hb, hb1⟩ := sizes_get hg _ k3
    obtain ⟨v, hv, hdv, -⟩ := pr_size_exact_iff r.coef2 a r.coef3 b kc
    obtain ⟨m, hm, hm1⟩ := hps r hr
    have pa : pyInt (a : ℚ) = (a : Int) := by have := pyInt_int (a : Int); simpa using this
    have pb : pyInt (b : ℚ) = (b : Int) := by have := pyInt_int (b : Int); simpa using this
    refine ⟨min m v, ?_, ?_⟩
    · simp only [g1]
      unfold LayerNode.lookup
      simp only [ha, hb, g2, hm, bind, Except.bind]
      rw [pa, pb, hv]
      rfl
    · have hd1 := distinct_pos r.coef2 a r.coef3 b ha1 hb1
      have hv1 : (1 : ℚ) ≤ (v : ℚ) := by
        have : (1 : Int) ≤ v := by omega
        exact_mod_cast this
      exact lt_min (by linarith) (by linarith)

/-- One operand of a consistent description. -/
private theorem operand_ok {d : LayerD} {e : Eqn} {rels : List (Relation Text)} (hg : Good d e rels) (ps : Dict Text ℚ)
    (hps : ∀ r ∈ rels, ∃ v, Dict.get? ps r.dim1 = some v ∧ 1 ≤ v) (op : Text) (hop : op ∈ e.terms.map Term.name) :
    ∃ x, operandInfo (parse d.equation) ⟨dimSizes d, extractPr rels, ps⟩ d.precision op = .ok x ∧ x.1 = op ∧ 0 < x.2.2 := by
  -- first occurrence of the operand
  obtain ⟨k, t, hk, htn, hfirst⟩ : ∃ (k : Nat) (t : Term), e.terms[k]? = some t ∧ t.name = op ∧ ∀ (j : Nat) (u : Term), j < k → e.terms[j]? = some u → u.name ≠ op := by
    have hex : ∃ k : Nat, ∃ t, e.terms[k]? = some t ∧ t.name = op := by
      obtain ⟨t, ht, hto⟩ := List.mem_map.1 hop
      obtain ⟨k, hk⟩ := List.mem_iff_getElem?.1 ht
      exact ⟨k, t, hk, hto⟩
    classical
    obtain ⟨t, h1, h2⟩ := Nat.find_spec hex
    exact ⟨Nat.find hex, t, h1, h2, fun j u hj hu hc => Nat.find_min hex hj ⟨u, hu, hc⟩⟩
  have htm : t ∈ e.terms := List.mem_of_getElem? hk
  subst htn
  have hr := equation_dims e hg.plain k t hk hfirst
  set rl := (t.dims.filter fun x => decide (x ≠ [])).map upper with hrl
  have hdims : ∀ x ∈ rl, x ∈ d.loopDims.map upper ∨ ∃ r ∈ rels, x = r.dim1 := by
    intro x hx
    rw [hrl] at hx
    obtain ⟨y, hy, rfl⟩ := List.mem_map.1 hx
    rw [List.mem_filter] at hy
    exact hg.eqDims t htm y hy.1 (by simpa using hy.2)
  obtain ⟨rel, hrel⟩ : ∃ rel, extractRel rl (dimSizes d) (extractPr rels) = .ok rel :=
    extractRel_total rl (dimSizes d) rels hg.names (by rw [sizes_keys hg]; exact hdims)
  have hspec := extractRel_spec hg.names hrel
  have hrr : ∀ x ∈ rel.r, x ∈ d.loopDims.map upper := by
    intro x hx
    rcases hspec with ⟨-, h2, -, -⟩ | ⟨h1, h2, -, -, -⟩
    · rw [h2, List.mem_filter] at hx
      rcases hdims x hx.1 with h | ⟨r, hr', rfl⟩
      · exact h
      · have : r.dim1 ∈ (extractPr rels).prList := (mem_prList rels hg.names _).2 ⟨r, hr', .inl rfl⟩
        have hn := hx.2
        simp [this] at hn
    · rw [h2, List.mem_filter] at hx
      rcases hdims x hx.1 with h | ⟨r, hr', rfl⟩
      · exact h
      · exact absurd hx.1 (h1 r hr')
  have hrp : ∀ x ∈ rel.pr.keys, ∃ r ∈ rels, r.dim1 = x := by
    intro x hx
    rcases hspec with ⟨-, -, -, h4⟩ | ⟨-, -, -, -, h4⟩
    · rw [h4, (extractPr_spec rels hg.names).1] at hx
      simp only [Dict.keys, List.map_map, List.mem_map] at hx
      obtain ⟨r, hr', rfl⟩ := hx
      exact ⟨r, hr', rfl⟩
    · rw [h4] at hx
      cases hx
  obtain ⟨rs, hrs, hrsp⟩ := mapM_pos (LayerNode.lookup (dimSizes d)) rel.r (fun x hx => by
    obtain ⟨n, hn, h1⟩ := sizes_get hg x (hrr x hx)
    refine ⟨n, ?_, by exact_mod_cast h1⟩
    unfold LayerNode.lookup
    rw [hn])
  obtain ⟨qs, hqs, hqsp⟩ := mapM_pos (fun x => calcTensorDim ⟨dimSizes d, extractPr rels, ps⟩ (dimSizes d) x) rel.pr.keys (fun x hx => by
    obtain ⟨r, hr', rfl⟩ := hrp x hx
    exact tensorDim_ok hg ps hps r hr')
  have hsize : operandSizeElem ⟨dimSizes d, extractPr rels, ps⟩ rel = .ok (rs.prod * qs.prod) := by
    unfold operandSizeElem
    simp only
    rw [hrs, hqs]
    rfl
  have hpos : 0 < rs.prod * qs.prod := mul_pos (prod_pos' _ hrsp) (prod_pos' _ hqsp)
  obtain ⟨v, hv, -⟩ := get_of_keys d.precision t.name (hg.prec t htm)
  refine ⟨(t.name, rel, rs.prod * qs.prod), ?_, rfl, hpos⟩
  unfold operandInfo
  rw [hg.eqn, hr]
  simp only
  rw [hrel]
  simp only
  rw [hsize]
  simp only
  rw [hv]
  simp only
  rw [if_neg (ne_of_gt hpos)]

/-- The parts of a built layer. -/
theorem build_layer {d : LayerD} {rels : List (Relation Text)} (hr : List.Forall₂ (fun r s => mkRel r = .ok s) d.relations rels) {b : Built} (hb : build d = .ok b) :
    ∃ p ps, padding d = .ok p ∧ prSizes (prSizesFile d) (dimSizes d) (extractPr rels) p = .ok ps ∧ b.layer = ⟨dimSizes d, extractPr rels, ps⟩ := by
  unfold build at hb
  simp only at hb
  rw [mapE_of_forall₂ hr] at hb
  simp only at hb
  cases hp : padding d with
  | error x => rw [hp] at hb; cases hb
  | ok p =>
    rw [hp] at hb
    simp only at hb
    cases ho : operands (parse d.equation) with
    | error x => rw [ho] at hb; cases hb
    | ok ops =>
      rw [ho] at hb
      simp only at hb
      cases hps : prSizes (prSizesFile d) (dimSizes d) (extractPr rels) p with
      | error x => rw [hps] at hb; cases hb
      | ok ps =>
        rw [hps] at hb
        simp only at hb
        cases hi : mapE (operandInfo (parse d.equation) ⟨dimSizes d, extractPr rels, ps⟩ d.precision) ops with
        | error x => rw [hi] at hb; cases hb
        | ok infos =>
          rw [hi] at hb
          cases hb
          exact ⟨p, ps, rfl, hps, rfl⟩

theorem computed_get {sizes : Dict Text ℚ} {pi : PrInfo Text} {p : Dict Text (Int × Int)} : ∀ {ks : List Text} {ps : Dict Text ℚ},
    prSizesComputed sizes pi p ks = .ok ps → ∀ k ∈ ks, ∃ n : Int, calcPrTotal sizes pi (padSum p k) k = .ok n ∧ Dict.get? ps k = some (n : ℚ)
  | [], ps, _, k, hk => by cases hk
  | x :: ks, ps, h, k, hk => by
    rw [prSizesComputed] at h
    cases hc : calcPrTotal sizes pi (padSum p x) x with
    | error e => rw [hc] at h; cases h
    | ok n =>
      rw [hc] at h
      simp only at h
      cases hr : prSizesComputed sizes pi p ks with
      | error e => rw [hr] at h; cases h
      | ok q =>
        rw [hr] at h
        cases h
        rw [Dict.get?_cons]
        by_cases hxk : x = k
        · subst hxk
          exact ⟨n, hc, by rw [if_pos rfl]⟩
        · rw [if_neg hxk]
          rcases List.mem_cons.1 hk with e | h'
          · exact absurd e.symm hxk
          · exact computed_get hr k h'

/-- C84: if no sizes of the partially relevant dimensions are given, the size of such a dimension in every built layer is the number of different positions
`coef2 · i + coef3 · j` minus the padding on both sides (where the loop sizes are such that the positions leave no gaps). -/
theorem padded_size (d : LayerD) (e : Eqn) (rels : List (Relation Text)) (hg : Good d e rels) (b : Built) (hb : build d = .ok b)
    (hss : d.prSizes = none) (ds : List Text) (ps : List (Int × Int)) (hds : d.prDims = some ds) (hps : d.padding = some ps)
    (hl : ds.length = ps.length) (hn : (ds.map upper).Nodup) (r : Relation Text) (hr : r ∈ rels) (lo hi : Int)
    (hpad : (r.dim1, (lo, hi)) ∈ (ds.map upper).zip ps) (n m : Nat) (h2 : (r.dim2, (n : Int)) ∈ (d.loopDims.map upper).zip d.loopSizes)
    (h3 : (r.dim3, (m : Int)) ∈ (d.loopDims.map upper).zip d.loopSizes)
    (hgap : m ≤ r.coef2 / Nat.gcd r.coef2 r.coef3 ∨ r.coef3 / Nat.gcd r.coef2 r.coef3 ≤ n) :
    b.layer.prSizes.get? r.dim1 = some (((distinct r.coef2 n r.coef3 m : Int) - (lo + hi) : Int) : ℚ) := by
  obtain ⟨p, q, hp, hq, hbl⟩ := build_layer hg.parsed hb
  rw [hbl]
  simp only
  have hpe : p = (ds.map upper).zip ps := by
    unfold padding at hp
    rw [hds, hps] at hp
    simp only at hp
    rw [if_pos (by omega), zipDict_eq _ _ (by simp [hl]) hn] at hp
    exact (Except.ok.inj hp).symm
  have hf : prSizesFile d = none := by unfold prSizesFile; rw [hss]; cases d.prDims <;> rfl
  unfold prSizes at hq
  rw [hf] at hq
  simp only at hq
  have hmem : r.dim1 ∈ (extractPr rels).prLoop.keys := by
    rw [(extractPr_spec rels hg.names).1, Dict.keys, List.map_map]
    exact List.mem_map.2 ⟨r, hr, rfl⟩
  obtain ⟨k, hk, hget⟩ := computed_get hq r.dim1 hmem
  rw [hget]
  have hsz : ∀ (x : Text) (v : Nat), (x, (v : Int)) ∈ (d.loopDims.map upper).zip d.loopSizes → (dimSizes d).get? x = some (v : ℚ) := by
    intro x v hx
    unfold dimSizes
    rw [zipDict_eq _ _ (by simp [hg.lens]) hg.dims, List.zip_map_right]
    refine Dict.get?_of_mem ?_ (List.mem_map.2 ⟨_, hx, by simp [Prod.map]⟩)
    unfold Dict.WF Dict.keys
    rw [List.map_map]
    change List.Nodup (List.map Prod.fst _)
    rw [List.map_fst_zip (by simp [hg.lens])]
    exact hg.dims
  have hpads : padSum p r.dim1 = lo + hi := by
    unfold padSum
    rw [hpe, Dict.get?_of_mem _ hpad]
    unfold Dict.WF Dict.keys
    rw [List.map_fst_zip (by simp [hl])]
    exact hn
  obtain ⟨g1, g2⟩ := prGet rels hg.names r hr
  obtain ⟨-, -, kc⟩ := hg.relDims r hr
  obtain ⟨v, hv, -, hdv⟩ := pr_size_exact_iff r.coef2 n r.coef3 m kc
  rw [hpads] at hk
  unfold calcPrTotal LayerNode.lookup at hk
  simp only [g1, hsz _ _ h2, hsz _ _ h3, g2, bind, Except.bind] at hk
  have pa : pyInt (n : ℚ) = (n : Int) := by have := pyInt_int (n : Int); simpa using this
  have pb : pyInt (m : ℚ) = (m : Int) := by have := pyInt_int (m : Int); simpa using this
  rw [pa, pb, hv] at hk
  have : v - (lo + hi) = k := Except.ok.inj hk
  rw [← this, hdv.2 hgap]

/-- C84, partial: every accepted and consistent description of a layer gives a layer with the written operands, positive operand sizes and the product of the loop
sizes as number of operations. Missing: accepted descriptions that are not consistent (`accepted_build_false`). -/
theorem build_ok_partial (d : LayerD) (e : Eqn) (rels : List (Relation Text)) (hg : Good d e rels) (hv : validate d = .ok true) (hpr : GivenPr d rels ∨ ComputedPr d) :
    ∃ b, build d = .ok b ∧ b.operands.map Prod.fst = e.terms.map Term.name ∧ (∀ x ∈ b.operands, 0 < x.2.2) ∧ b.macs = ((d.loopSizes.map fun n : Int => (n : ℚ)).prod) := by
  obtain ⟨p, hp⟩ : ∃ p, padding d = .ok p := by
    unfold padding
    obtain ⟨h1, -⟩ := validate_sound d hv
    cases hd : d.prDims with
    | none => exact ⟨_, rfl⟩
    | some ds =>
      cases hq : d.padding with
      | none => exact ⟨_, rfl⟩
      | some q =>
        obtain ⟨ds', e1, e2⟩ := h1 q hq
        rw [hd] at e1
        cases e1
        simp only
        rw [if_pos (by omega)]
        exact ⟨_, rfl⟩
  obtain ⟨ps, hps, hpv⟩ := prSizes_ok hg hpr p hp
  obtain ⟨infos, hi, hf⟩ := mapE_ok (operandInfo (parse d.equation) ⟨dimSizes d, extractPr rels, ps⟩ d.precision) (fun op x => x.1 = op ∧ 0 < x.2.2)
    (e.terms.map Term.name) (fun op hop => operand_ok hg ps hpv op hop)
  refine ⟨⟨⟨dimSizes d, extractPr rels, ps⟩, infos, totalSize (dimSizes d)⟩, ?_, ?_, ?_, ?_⟩
  · unfold build
    simp only
    rw [mapE_of_forall₂ hg.parsed]
    simp only
    rw [hp]
    simp only
    have ho : operands (parse d.equation) = .ok (e.terms.map Term.name) := by rw [hg.eqn, equation_operands e hg.plain]
    rw [ho]
    simp only
    rw [hps]
    simp only
    rw [hi]
  · generalize e.terms.map Term.name = l at hf
    clear hi
    induction hf with
    | nil => rfl
    | cons h1 _ ih => rw [List.map_cons, ih, h1.1]
  · generalize e.terms.map Term.name = l at hf
    clear hi
    induction hf with
    | nil => simp
    | cons h1 _ ih =>
      intro x hx
      rcases List.mem_cons.1 hx with rfl | hx
      · exact h1.2
      · exact ih x hx
  · unfold totalSize dimSizes
    rw [zipDict_eq _ _ (by simp [hg.lens]) hg.dims, List.map_snd_zip (by simp [hg.lens])]

private theorem mapM_sizes (sizes : Dict Text ℚ) (s : Text → Int) (rl : List Text) (h : ∀ x ∈ rl, sizes.get? x = some (s x : ℚ)) :
    ∃ qs, (rl.filter fun x => decide (sizes.get? x ≠ some 1)).mapM (LayerNode.lookup sizes) = .ok qs ∧ qs.prod = ((rl.map fun x => (s x : ℚ)).prod) := by
  induction rl with
  | nil => exact ⟨[], rfl, rfl⟩
  | cons x t ih =>
    obtain ⟨qs, hq, hp⟩ := ih (fun y hy => h y (by simp [hy]))
    have hx := h x (by simp)
    by_cases h1 : sizes.get? x = some 1
    · rw [List.filter_cons_of_neg (by simp [h1])]
      refine ⟨qs, hq, ?_⟩
      rw [hx] at h1
      rw [List.map_cons, List.prod_cons, hp, Option.some.inj h1, one_mul]
    · rw [List.filter_cons_of_pos (by simpa using h1), List.mapM_cons]
      refine ⟨(s x : ℚ) :: qs, ?_, by rw [List.map_cons, List.prod_cons, List.prod_cons, hp]⟩
      have : LayerNode.lookup sizes x = .ok (s x : ℚ) := by unfold LayerNode.lookup; rw [hx]
      rw [this, hq]
      rfl

/-- C84: in every built layer an operand over loop dimensions only has as many elements as the product of the sizes of the dimensions written for it. -/
theorem operand_elements (d : LayerD) (e : Eqn) (rels : List (Relation Text)) (hg : Good d e rels) (b : Built) (hb : build d = .ok b)
    (s : Text → Int) (hs : ∀ x ∈ (d.loopDims.map upper).zip d.loopSizes, s x.1 = x.2)
    (k : Nat) (t : Term) (hk : e.terms[k]? = some t) (hfirst : ∀ (j : Nat) (u : Term), j < k → e.terms[j]? = some u → u.name ≠ t.name)
    (hd : ∀ x ∈ t.dims, x ≠ [] → upper x ∈ d.loopDims.map upper ∧ ∀ r ∈ rels, upper x ≠ r.dim1) :
    ∃ rel, (b.operands)[k]? = some (t.name, rel, ((((t.dims.filter fun x => decide (x ≠ [])).map fun x => (s (upper x) : ℚ)).prod))) := by
  have htm : t ∈ e.terms := List.mem_of_getElem? hk
  unfold build at hb
  simp only at hb
  rw [mapE_of_forall₂ hg.parsed] at hb
  simp only at hb
  cases hp : padding d with
  | error x => rw [hp] at hb; cases hb
  | ok p =>
    rw [hp] at hb
    simp only at hb
    have ho : operands (parse d.equation) = .ok (e.terms.map Term.name) := by rw [hg.eqn, equation_operands e hg.plain]
    rw [ho] at hb
    simp only at hb
    cases hps : prSizes (prSizesFile d) (dimSizes d) (extractPr rels) p with
    | error x => rw [hps] at hb; cases hb
    | ok ps =>
      rw [hps] at hb
      simp only at hb
      cases hi : mapE (operandInfo (parse d.equation) ⟨dimSizes d, extractPr rels, ps⟩ d.precision) (e.terms.map Term.name) with
      | error x => rw [hi] at hb; cases hb
      | ok infos =>
        rw [hi] at hb
        cases hb
        have hf := mapE_forall₂ _ _ _ hi
        obtain ⟨x, hx, hxi⟩ : ∃ x, infos[k]? = some x ∧ operandInfo (parse d.equation) ⟨dimSizes d, extractPr rels, ps⟩ d.precision t.name = .ok x := by
          have hl := hf.length_eq
          have hk' : (e.terms.map Term.name)[k]? = some t.name := by rw [List.getElem?_map, hk]; rfl
          obtain ⟨hlt, hke⟩ := List.getElem?_eq_some_iff.1 hk'
          refine ⟨infos[k]'(by omega), List.getElem?_eq_getElem _, ?_⟩
          have := (List.forall₂_iff_get.1 hf).2 k hlt (by omega)
          simp only [List.get_eq_getElem] at this
          rw [hke] at this
          exact this
        unfold operandInfo at hxi
        rw [hg.eqn, equation_dims e hg.plain k t hk hfirst] at hxi
        simp only at hxi
        set rl := (t.dims.filter fun x => decide (x ≠ [])).map upper with hrl
        have hin : ∀ y ∈ rl, y ∈ d.loopDims.map upper ∧ ∀ r ∈ rels, y ≠ r.dim1 := by
          intro y hy
          rw [hrl] at hy
          obtain ⟨z, hz, rfl⟩ := List.mem_map.1 hy
          rw [List.mem_filter] at hz
          exact hd z hz.1 (by simpa using hz.2)
        cases hrel : extractRel rl (dimSizes d) (extractPr rels) with
        | error x => rw [hrel] at hxi; cases hxi
        | ok rel =>
          rw [hrel] at hxi
          simp only at hxi
          have hsz : ∀ y ∈ rl, (dimSizes d).get? y = some (s y : ℚ) := by
            intro y hy
            obtain ⟨v, hv, hm⟩ := get_of_keys (dimSizes d) y (by rw [sizes_keys hg]; exact (hin y hy).1)
            unfold dimSizes at hm
            rw [zipDict_eq _ _ (by simp [hg.lens]) hg.dims, List.zip_map_right] at hm
            obtain ⟨z, hz, hzy⟩ := List.mem_map.1 hm
            simp only [Prod.map, id] at hzy
            obtain ⟨rfl, rfl⟩ := Prod.mk.inj hzy
            rw [hv, ← hs z hz]
          have hsize : operandSizeElem ⟨dimSizes d, extractPr rels, ps⟩ rel = .ok ((rl.map fun x => (s x : ℚ)).prod) := by
            rcases extractRel_spec hg.names hrel with ⟨⟨r, hr, hc⟩, -⟩ | ⟨-, h2, -, -, h5⟩
            · exact absurd rfl ((hin _ hc).2 r hr)
            · obtain ⟨qs, hqs, hqp⟩ := mapM_sizes (dimSizes d) s rl hsz
              unfold operandSizeElem
              simp only
              rw [h2, h5]
              have hr' : (List.filter (fun d_1 => decide ((dimSizes d).get? d_1 ≠ some 1)) rl).mapM (LayerNode.lookup (dimSizes d)) = .ok qs := by
                rw [← hqs]
              rw [hr', ← hqp]
              simp [Dict.keys, pure, Except.pure, bind, Except.bind]
          rw [hsize] at hxi
          simp only at hxi
          cases hpr : d.precision.get? t.name with
          | none => rw [hpr] at hxi; cases hxi
          | some v =>
            rw [hpr] at hxi
            simp only at hxi
            split_ifs at hxi with hz
            cases hxi
            refine ⟨rel, ?_⟩
            rw [hx, hrl, List.map_map]
            rfl

/-- The computation behind the entry of one operand of a built layer. -/
private theorem built_operand {d : LayerD} {e : Eqn} {rels : List (Relation Text)} (hg : Good d e rels) {b : Built} (hb : build d = .ok b)
    {k : Nat} {t : Term} (hk : e.terms[k]? = some t) :
    ∃ p ps x, padding d = .ok p ∧ prSizes (prSizesFile d) (dimSizes d) (extractPr rels) p = .ok ps ∧ b.operands[k]? = some x ∧
      operandInfo (parse d.equation) ⟨dimSizes d, extractPr rels, ps⟩ d.precision t.name = .ok x := by
  unfold build at hb
  simp only at hb
  rw [mapE_of_forall₂ hg.parsed] at hb
  simp only at hb
  cases hp : padding d with
  | error x => rw [hp] at hb; cases hb
  | ok p =>
    rw [hp] at hb
    simp only at hb
    have ho : operands (parse d.equation) = .ok (e.terms.map Term.name) := by rw [hg.eqn, equation_operands e hg.plain]
    rw [ho] at hb
    simp only at hb
    cases hps : prSizes (prSizesFile d) (dimSizes d) (extractPr rels) p with
    | error x => rw [hps] at hb; cases hb
    | ok ps =>
      rw [hps] at hb
      simp only at hb
      cases hi : mapE (operandInfo (parse d.equation) ⟨dimSizes d, extractPr rels, ps⟩ d.precision) (e.terms.map Term.name) with
      | error x => rw [hi] at hb; cases hb
      | ok infos =>
        rw [hi] at hb
        cases hb
        have hf := mapE_forall₂ _ _ _ hi
        have hl := hf.length_eq
        have hk' : (e.terms.map Term.name)[k]? = some t.name := by rw [List.getElem?_map, hk]; rfl
        obtain ⟨hlt, hke⟩ := List.getElem?_eq_some_iff.1 hk'
        refine ⟨p, ps, infos[k]'(by omega), rfl, hps, List.getElem?_eq_getElem _, ?_⟩
        have := (List.forall₂_iff_get.1 hf).2 k hlt (by omega)
        simp only [List.get_eq_getElem] at this
        rw [hke] at this
        exact this

private theorem mapM_map {α : Type} (f : α → Except PyErr ℚ) (g : α → ℚ) (l : List α) (h : ∀ a ∈ l, f a = .ok (g a)) : l.mapM f = .ok (l.map g) := by
  induction l with
  | nil => rfl
  | cons a t ih =>
    rw [List.mapM_cons, h a (by simp), ih (fun x hx => h x (by simp [hx]))]
    rfl

theorem sizes_int {d : LayerD} {e : Eqn} {rels : List (Relation Text)} (hg : Good d e rels) (s : Text → Int) (hs : ∀ x ∈ (d.loopDims.map upper).zip d.loopSizes, s x.1 = x.2)
    (y : Text) (hy : y ∈ d.loopDims.map upper) : (dimSizes d).get? y = some (s y : ℚ) := by
  obtain ⟨v, hv, hm⟩ := get_of_keys (dimSizes d) y (by rw [sizes_keys hg]; exact hy)
  unfold dimSizes at hm
  rw [zipDict_eq _ _ (by simp [hg.lens]) hg.dims, List.zip_map_right] at hm
  obtain ⟨z, hz, hzy⟩ := List.mem_map.1 hm
  simp only [Prod.map, id] at hzy
  obtain ⟨rfl, rfl⟩ := Prod.mk.inj hzy
  rw [hv, ← hs z hz]

/-- C84: in every built layer with given sizes of the partially relevant dimensions, an operand with such a dimension has as many elements as the product of the sizes of its
dimensions outside of all relations and, for every relation, the smaller of the given size and the computed extent. -/
theorem related_elements (d : LayerD) (e : Eqn) (rels : List (Relation Text)) (hg : Good d e rels) (b : Built) (hb : build d = .ok b)
    (s : Text → Int) (hs : ∀ x ∈ (d.loopDims.map upper).zip d.loopSizes, s x.1 = x.2)
    (ds : List Text) (ss : List Int) (hds : d.prDims = some ds) (hss : d.prSizes = some ss) (hl : ds.length = ss.length) (hn : (ds.map upper).Nodup)
    (pz : Text → Int) (hpz : ∀ x ∈ (ds.map upper).zip ss, pz x.1 = x.2)
    (hcov : ∀ r ∈ rels, r.dim1 ∈ ds.map upper ∧ r.dim1 ∉ d.loopDims.map upper)
    (k : Nat) (t : Term) (hk : e.terms[k]? = some t) (hfirst : ∀ (j : Nat) (u : Term), j < k → e.terms[j]? = some u → u.name ≠ t.name)
    (hrel : ∃ x ∈ t.dims, x ≠ [] ∧ ∃ r ∈ rels, upper x = r.dim1) :
    ∃ (rel : Rel Text) (f : Relation Text → Int), (b.operands)[k]? = some (t.name, rel,
        ((((t.dims.filter fun x => decide (x ≠ [])).map upper).filter fun x => decide (x ∉ rels.flatMap fun r => [r.dim1, r.dim2, r.dim3])).map fun x => (s x : ℚ)).prod *
          (rels.map fun r => (f r : ℚ)).prod) ∧
      ∀ r ∈ rels, ∃ v : Int, calcPr r.coef2 (s r.dim2) r.coef3 (s r.dim3) = .ok v ∧ f r = min (pz r.dim1) v := by
  obtain ⟨p, ps, x, hp, hps, hx, hxi⟩ := built_operand hg hb hk
  have hpse : ps = zipDict (ds.map upper) (ss.map fun n : Int => (n : ℚ)) := by
    unfold prSizes prSizesFile at hps
    rw [hds, hss] at hps
    simp only at hps
    split_ifs at hps with hc
    · rw [zipDict_eq _ _ (by simp [hl]) hn] at hc
      have := congrArg List.length hc
      rw [List.length_zip] at this
      simp only [List.length_map, List.length_nil] at this
      have hz : ds.length = 0 := by omega
      obtain ⟨y, -, -, r, hr, -⟩ := hrel
      have := (hcov r hr).1
      rw [List.length_eq_zero_iff.1 hz] at this
      cases this
    · cases hps; rfl
  have hpsg : ∀ y ∈ ds.map upper, Dict.get? ps y = some (pz y : ℚ) := by
    intro y hy
    rw [hpse]
    obtain ⟨v, hv, hm⟩ := get_of_keys (zipDict (ds.map upper) (ss.map fun n : Int => (n : ℚ))) y (by rw [zipDict_keys _ _ (by simp [hl]) hn]; exact hy)
    rw [zipDict_eq _ _ (by simp [hl]) hn, List.zip_map_right] at hm
    obtain ⟨z, hz, hzy⟩ := List.mem_map.1 hm
    simp only [Prod.map, id] at hzy
    obtain ⟨rfl, rfl⟩ := Prod.mk.inj hzy
    rw [hv, ← hpz z hz]
  have hlt := List.mem_of_getElem? hk
  unfold operandInfo at hxi
  rw [hg.eqn, equation_dims e hg.plain k t hk hfirst] at hxi
  simp only at hxi
  set rl := (t.dims.filter fun x => decide (x ≠ [])).map upper with hrl
  cases hrel' : extractRel rl (dimSizes d) (extractPr rels) with
  | error x => rw [hrel'] at hxi; cases hxi
  | ok rel =>
    rw [hrel'] at hxi
    simp only at hxi
    have hyes : ∃ r ∈ rels, r.dim1 ∈ rl := by
      obtain ⟨y, hy, hy0, r, hr, hyr⟩ := hrel
      exact ⟨r, hr, by rw [hrl, ← hyr]; exact List.mem_map.2 ⟨y, List.mem_filter.2 ⟨hy, by simpa using hy0⟩, rfl⟩⟩
    have hpl : (extractPr rels).prList = rels.flatMap fun r => [r.dim1, r.dim2, r.dim3] := (extractPr_spec rels hg.names).2.2
    obtain ⟨h2, h4⟩ : rel.r = rl.filter (fun x => decide (x ∉ rels.flatMap fun r => [r.dim1, r.dim2, r.dim3])) ∧ rel.pr = (extractPr rels).prLoop := by
      rcases extractRel_spec hg.names hrel' with ⟨-, h2, -, h4⟩ | ⟨h1, -⟩
      · refine ⟨?_, h4⟩
        rw [h2, hpl]
        apply List.filter_congr
        intro y _
        simp only [decide_eq_decide]
      · obtain ⟨r, hr, hc⟩ := hyes
        exact absurd hc (h1 r hr)
    have hloop : ∀ r ∈ rels, ∃ v : Int, calcPr r.coef2 (s r.dim2) r.coef3 (s r.dim3) = .ok v := by
      intro r hr
      obtain ⟨k2, k3, kc⟩ := hg.relDims r hr
      have pos : ∀ y ∈ d.loopDims.map upper, ∃ n : Nat, s y = n := by
        intro y hy
        obtain ⟨n, hn, -⟩ := sizes_get hg y hy
        rw [sizes_int hg s hs y hy] at hn
        exact ⟨n, by have := Option.some.inj hn; exact_mod_cast this⟩
      obtain ⟨a, ha⟩ := pos _ k2
      obtain ⟨b', hb'⟩ := pos _ k3
      rw [ha, hb']
      obtain ⟨v, hv, -⟩ := pr_size_exact_iff r.coef2 a r.coef3 b' kc
      exact ⟨v, hv⟩
    have htd : ∀ r ∈ rels, ∀ v : Int, calcPr r.coef2 (s r.dim2) r.coef3 (s r.dim3) = .ok v →
        calcTensorDim ⟨dimSizes d, extractPr rels, ps⟩ (dimSizes d) r.dim1 = .ok ((min (pz r.dim1) v : Int) : ℚ) := by
      intro r hr v hv
      obtain ⟨g1, g2⟩ := prGet rels hg.names r hr
      obtain ⟨k2, k3, -⟩ := hg.relDims r hr
      obtain ⟨c1, c2⟩ := hcov r hr
      have hno : (dimSizes d).get? r.dim1 = none := by
        rw [Dict.get?_eq_none_iff, sizes_keys hg]
        exact c2
      unfold calcTensorDim
      rw [hno]
      simp only [g1]
      unfold LayerNode.lookup
      simp only [sizes_int hg s hs _ k2, sizes_int hg s hs _ k3, g2, hpsg _ c1, bind, Except.bind]
      rw [pyInt_int, pyInt_int, hv]
      simp only [pure, Except.pure]
      rw [Int.cast_min]
    classical
    set f : Relation Text → Int := fun r => min (pz r.dim1) (match calcPr r.coef2 (s r.dim2) r.coef3 (s r.dim3) with | .ok v => v | .error _ => 0) with hf
    have hfr : ∀ r ∈ rels, ∃ v : Int, calcPr r.coef2 (s r.dim2) r.coef3 (s r.dim3) = .ok v ∧ f r = min (pz r.dim1) v := by
      intro r hr
      obtain ⟨v, hv⟩ := hloop r hr
      exact ⟨v, hv, by simp only [hf]; rw [hv]⟩
    have hkeys : rel.pr.keys = rels.map Relation.dim1 := by
      rw [h4, (extractPr_spec rels hg.names).1, Dict.keys, List.map_map]; rfl
    have hps' : (rels.map Relation.dim1).mapM (fun x => calcTensorDim ⟨dimSizes d, extractPr rels, ps⟩ (dimSizes d) x) = .ok (rels.map fun r => (f r : ℚ)) := by
      have : ∀ l : List (Relation Text), (∀ r ∈ l, r ∈ rels) →
          (l.map Relation.dim1).mapM (fun x => calcTensorDim ⟨dimSizes d, extractPr rels, ps⟩ (dimSizes d) x) = .ok (l.map fun r => (f r : ℚ)) := by
        intro l hl'
        induction l with
        | nil => rfl
        | cons a l ih =>
          obtain ⟨v, hv, hfv⟩ := hfr a (hl' a (by simp))
          rw [List.map_cons, List.mapM_cons, htd a (hl' a (by simp)) v hv, ih (fun r hr => hl' r (by simp [hr])), List.map_cons, hfv]
          rfl
      exact this rels (fun _ h => h)
    have hrs : rel.r.mapM (LayerNode.lookup (dimSizes d)) = .ok ((rl.filter fun x => decide (x ∉ rels.flatMap fun r => [r.dim1, r.dim2, r.dim3])).map fun x => (s x : ℚ)) := by
      rw [h2]
      apply mapM_map
      intro y hy
      rw [List.mem_filter] at hy
      have hyl : y ∈ d.loopDims.map upper := by
        have hy1 := hy.1
        rw [hrl] at hy1
        obtain ⟨z, hz, rfl⟩ := List.mem_map.1 hy1
        rw [List.mem_filter] at hz
        rcases hg.eqDims t hlt z hz.1 (by simpa using hz.2) with h | ⟨r, hr, hc⟩
        · exact h
        · have h2 := hy.2
          rw [decide_eq_true_eq] at h2
          exact absurd (List.mem_flatMap.2 ⟨r, hr, by rw [hc]; simp⟩) h2
      unfold LayerNode.lookup
      rw [sizes_int hg s hs y hyl]
    have hsize : operandSizeElem ⟨dimSizes d, extractPr rels, ps⟩ rel =
        .ok (((rl.filter fun x => decide (x ∉ rels.flatMap fun r => [r.dim1, r.dim2, r.dim3])).map fun x => (s x : ℚ)).prod * (rels.map fun r => (f r : ℚ)).prod) := by
      unfold operandSizeElem
      simp only
      rw [hrs, hkeys, hps']
      rfl
    rw [hsize] at hxi
    simp only at hxi
    cases hpr : d.precision.get? t.name with
    | none => rw [hpr] at hxi; cases hxi
    | some v =>
      rw [hpr] at hxi
      simp only at hxi
      split_ifs at hxi with hz
      cases hxi
      exact ⟨rel, f, hx, hfr⟩

/-! ### A consistent layer and accepted layers that raise -/

/-- Texts of one letter or more. -/
def tx (s : String) : Text := s.toList

/-- A one-dimensional convolution. -/
def conv1 : LayerD where
  id := 3
  equation := tx "O[k][ox]+=W[k][fx]*I[ix]"
  relations := [⟨tx "ix", some (tx "2"), tx "ox", none, tx "fx"⟩]
  loopDims := [tx "K", tx "OX", tx "FX"]
  loopSizes := [4, 5, 3]
  precision := [(tx "O", 16), (tx "W", 8), (tx "I", 8), (tx "O_final", 8)]
  sources := [(tx "W", 3), (tx "I", 2)]
  prDims := none
  prSizes := none
  padding := none

/-- Its equation. -/
def conv1Eqn : Eqn where
  out := ⟨tx "O", [tx "k", tx "ox"]⟩
  rest := [⟨[], .accum, [], ⟨tx "W", [tx "k", tx "fx"]⟩⟩, ⟨[], .times, [], ⟨tx "I", [tx "ix"]⟩⟩]
  trailing := []

theorem conv1_good : Good conv1 conv1Eqn [⟨tx "IX", tx "OX", tx "FX", 2, 1⟩] := by
  refine ⟨by decide, ?_, .cons (by decide +kernel) .nil, by decide, by decide, by decide, by decide, by decide +kernel, by decide +kernel, by decide +kernel⟩
  refine ⟨?_, by decide, by decide⟩
  intro t ht
  simp only [Eqn.terms, conv1Eqn, List.map_cons, List.map_nil, List.mem_cons, List.not_mem_nil, or_false] at ht
  rcases ht with rfl | rfl | rfl <;> exact ⟨by decide, by decide, by decide⟩

example : ∃ b, build conv1 = .ok b ∧ b.operands.map Prod.fst = [tx "O", tx "W", tx "I"] ∧ (∀ x ∈ b.operands, 0 < x.2.2) ∧ b.macs = 60 := by
  obtain ⟨b, h1, h2, h3, h4⟩ := build_ok_partial conv1 conv1Eqn _ conv1_good (by decide) (.inr ⟨rfl, rfl⟩)
  exact ⟨b, h1, h2, h3, by rw [h4]; simp [conv1]; norm_num⟩

/-- The weights of the layer have `4 · 3` elements. -/
example : ∃ b rel, build conv1 = .ok b ∧ b.operands[1]? = some (tx "W", rel, 12) := by
  obtain ⟨b, h1, -⟩ := build_ok_partial conv1 conv1Eqn _ conv1_good (by decide) (.inr ⟨rfl, rfl⟩)
  obtain ⟨rel, h2⟩ := operand_elements conv1 conv1Eqn _ conv1_good b h1 (fun x => if x = tx "K" then 4 else if x = tx "OX" then 5 else 3) (by decide +kernel) 1
    ⟨tx "W", [tx "k", tx "fx"]⟩ rfl (by
      intro j u hj hu
      have : j = 0 := by omega
      subst this
      cases hu
      decide) (by decide +kernel)
  refine ⟨b, rel, h1, ?_⟩
  rw [h2]
  have : ((([tx "k", tx "fx"].filter fun x => decide (x ≠ [])).map fun x => (((if upper x = tx "K" then 4 else if upper x = tx "OX" then 5 else 3 : Int)) : ℚ)).prod) = 12 := by
    decide +kernel
  exact congrArg some (congrArg (Prod.mk _) (congrArg (Prod.mk _) this))

/-- The layer with padding of the inputs by one on the left and two on the right. -/
def conv1Padded : LayerD := { conv1 with prDims := some [tx "ix"], padding := some [(1, 2)] }

/-- The inputs of the padded layer: `2 · 5 + 3 - 2 = 11` positions, of which three are padding. -/
example : (match build conv1Padded with | .ok b => b.layer.prSizes.get? (tx "IX") | .error _ => none) = some 8 := by decide +kernel

example : Good conv1Padded conv1Eqn [⟨tx "IX", tx "OX", tx "FX", 2, 1⟩] :=
  ⟨conv1_good.eqn, conv1_good.plain, conv1_good.parsed, conv1_good.names, conv1_good.lens, conv1_good.dims, conv1_good.pos, conv1_good.relDims,
    conv1_good.eqDims, conv1_good.prec⟩

/-- The layer with other names of the inputs, as the documentation allows. -/
def conv1Names : LayerD := { conv1 with equation := tx "O[k][ox]+=A[k][fx]*B[ix]" }

/-- The layer with a coefficient that is not a number. -/
def conv1Coef : LayerD := { conv1 with relations := [⟨tx "ix", some (tx "s"), tx "ox", none, tx "fx"⟩] }

/-- The layer with a missing loop size. -/
def conv1Short : LayerD := { conv1 with loopSizes := [4, 5] }

/-- The layer with a loop of size zero. -/
def conv1Zero : LayerD := { conv1 with loopSizes := [0, 5, 3] }

/-- The layer with padding, but without partially relevant dimensions. -/
def conv1Pad : LayerD := { conv1 with padding := some [(1, 1)] }

/-- C84 is false: accepted layers whose construction raises: input operands not called `I` and `W` (the schema allows no other precisions), a coefficient that is no number,
fewer loop sizes than loop dimensions, a loop of size zero. -/
theorem accepted_build_false :
    (validate conv1Names = .ok true ∧ Accepted conv1Names.equation ∧ (∃ e, build conv1Names = .error e)) ∧
    (validate conv1Coef = .ok true ∧ build conv1Coef = .error .valueError) ∧
    (validate conv1Short = .ok true ∧ build conv1Short = .error .keyError) ∧
    (validate conv1Zero = .ok true ∧ build conv1Zero = .error .zeroDivision) := by
  refine ⟨⟨by decide, ?_, ?_⟩, ⟨by decide, errOf_eq _ _ (by decide +kernel)⟩, ⟨by decide, errOf_eq _ _ (by decide +kernel)⟩, ⟨by decide, errOf_eq _ _ (by decide +kernel)⟩⟩
  · refine ⟨[tx "k", tx "ox"], [], true, [], [], 'A', [tx "k", tx "fx"], [], '*', [], 'B', [tx "ix"], [], ?_⟩
    decide +kernel
  · exact ⟨.keyError, errOf_eq _ _ (by decide +kernel)⟩

/-- C84: the check itself raises for padding without a list of dimensions. -/
theorem validate_raises_false : validate conv1Pad = .error .typeError := by decide

end Verif.LayerBuild
