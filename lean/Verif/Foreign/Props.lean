import Verif.Net.Props
import Verif.Call.Props

/-! C172: a spatial mapping for a dimension that the array does not have. -/

namespace Verif.Foreign

open Call (Written NodeSays LayerFits LayerOptions AccSays FilesSay SourcesKnown InOrder)
open Equation (Text)
open Files (Doc)
open Net (FileOk NodeOk OptionsOk Known Node Options)
open Pipeline (Env Single Gen forEach workloadStage sumStage sumLoop mainStage api Opt)
open SpatialMapping (SM Order SMWF shrinkOa reduceOas checkAndReduce clip dropUnknown)
open Whole (AccD)

/-! ### The generation of spatial mappings -/

variable {OA D : Type} [DecidableEq OA] [DecidableEq D]

theorem clip_keyError (maxU : Dict OA (Dict D ℚ)) (oa : OA) : ∀ l : List (D × ℚ), (∃ r, clip maxU oa l = .ok r) ∨ clip maxU oa l = .error .keyError
  | [] => .inl ⟨[], rfl⟩
  | x :: t => by
    unfold clip
    cases maxU.get? oa with
    | none => exact .inr rfl
    | some mx =>
      simp only
      cases mx.get? x.1 with
      | none => exact .inr rfl
      | some b =>
        simp only
        rcases clip_keyError maxU oa t with ⟨r, h⟩ | h <;> rw [h]
        · exact .inl ⟨_, rfl⟩
        · exact .inr rfl

theorem reduce_foreign (o : Order OA D) (ho : o.Ok) (oaSizes : Dict OA ℚ) (hs : ∀ oa s, oaSizes.get? oa = some s → 1 ≤ s) (maxU : Dict OA (Dict D ℚ)) : ∀ m : SM OA D,
    ((∃ m', reduceOas o oaSizes maxU m = .ok m') ∨ reduceOas o oaSizes maxU m = .error .keyError) ∧
      ((∃ e ∈ m, oaSizes.get? e.1 = none) → reduceOas o oaSizes maxU m = .error .keyError)
  | [] => ⟨.inl ⟨[], rfl⟩, by simp⟩
  | e :: t => by
    obtain ⟨h1, h2⟩ := reduce_foreign o ho oaSizes hs maxU t
    unfold reduceOas
    rcases clip_keyError maxU e.1 e.2 with ⟨l, hl⟩ | hl
    · rw [hl]
      simp only
      unfold shrinkOa
      cases hz : oaSizes.get? e.1 with
      | none => exact ⟨.inr rfl, fun _ => rfl⟩
      | some s =>
        obtain ⟨l', k1, -, -⟩ := SpatialMapping.shrink_spec o ho s (hs _ _ hz) (l.length + 1) l (Nat.lt_succ_self _)
        simp only
        rw [k1]
        simp only
        refine ⟨?_, fun ⟨x, hx, hn⟩ => ?_⟩
        · rcases h1 with ⟨m', h⟩ | h <;> rw [h]
          · exact .inl ⟨_, rfl⟩
          · exact .inr rfl
        · rcases List.mem_cons.1 hx with rfl | hx
          · rw [hz] at hn; cases hn
          · rw [h2 ⟨x, hx, hn⟩]
    · rw [hl]
      exact ⟨.inr rfl, fun _ => rfl⟩

/-- C172: a layer whose mapping names a dimension that the array does not have is refused. -/
theorem layer_refused {a : AccD OA} {n : Node OA D} {o : Options OA D} (F : FileOk a) (O : OptionsOk o) {oa : OA} (h : oa ∈ n.mapping.keys) (hn : oa ∉ a.sizes.keys) :
    Net.spatialMappings o a n = .error .keyError := by
  obtain ⟨ms, hms, hfed⟩ := Net.memOps_ok n.layer F
  rw [Net.spatialMappings_eq hms O.nb]
  obtain ⟨maxU, hu⟩ := SpatialGen.max_unrolling_total ms a.sizes n.layer.sizes fun mo hmo oa hoa => by
    obtain ⟨m, hm, -, op, -, p, -, -, rfl⟩ := hfed mo hmo
    exact (F.served m hm).2 oa hoa
  unfold SpatialGen.generate SpatialGen.template
  rw [show SpatialGen.getMaxUnrolling (Net.inputs o a n ms).mems (Net.inputs o a n ms).oaSizes (Net.inputs o a n ms).sizes = .ok maxU from hu]
  simp only
  have hc : checkAndReduce (Net.inputs o a n ms).order (some (SpatialGen.castDict (Net.inputs o a n ms).oaSizes)) (SpatialGen.castTable maxU)
      (SpatialGen.castDict (Net.inputs o a n ms).sizes) (Net.inputs o a n ms).provided = .error .keyError := by
    show checkAndReduce o.order (some (SpatialGen.castDict a.sizes)) (SpatialGen.castTable maxU) (SpatialGen.castDict n.layer.sizes) n.mapping = _
    unfold checkAndReduce
    simp only
    rw [SpatialMapping.phase1 _ _ n.mapping (O.order.1 _ _)]
    simp only
    obtain ⟨x, hx, hxo⟩ := List.mem_map.1 h
    rw [(reduce_foreign o.order O.order (SpatialGen.castDict a.sizes) (fun oa s hs => by
      rw [SpatialGen.castDict_get?, Option.map_eq_some_iff] at hs
      obtain ⟨k, hk, rfl⟩ := hs
      exact_mod_cast F.acc.units _ (Dict.mem_of_get? hk)) (SpatialGen.castTable maxU) _).2 ⟨_, List.mem_map_of_mem hx, by
        simp only
        rw [SpatialGen.castDict_get?, hxo, (Dict.get?_eq_none_iff a.sizes oa).2 hn]
        rfl⟩]
  rw [hc]

/-! ### A call up to a layer that raises -/

section Prefix

variable {Ly SM TM P : Type}

theorem forEach_append {A B : Type} (f : A → Gen B) (a b : List A) : (forEach f (a ++ b, none)).2 =
    match (forEach f (a, none)).2 with
    | some e => some e
    | none => (forEach f (b, none)).2 := by
  have go : ∀ (g g' g'' : Gen A) (a b : List A), g.2 = none → g'.2 = none → g''.2 = none → (forEach.go f g (a ++ b)).2 =
      match (forEach.go f g' a).2 with
      | some e => some e
      | none => (forEach.go f g'' b).2 := by
    intro g g' g'' a b hg hg' hg''
    induction a with
    | nil =>
      have : ∀ l : List A, (forEach.go f g l).2 = (forEach.go f g'' l).2 := by
        intro l
        induction l with
        | nil => exact hg.trans hg''.symm
        | cons x t ih =>
          unfold forEach.go
          rcases f x with ⟨ys, e⟩
          cases e with
          | some e => rfl
          | none => exact ih
      rw [show (forEach.go f g' []).2 = none from hg']
      exact this b
    | cons x t ih =>
      rw [List.cons_append, forEach.go, forEach.go]
      rcases f x with ⟨ys, e⟩
      cases e with
      | some e => rfl
      | none => exact ih
  exact go _ _ _ a b rfl rfl rfl

theorem api_iff {E : Env Ly SM TM P} (hs : Single E) {opt : String} {o : Opt} (hp : Opt.parse opt = .ok o) (layers : List Ly) :
    (∀ e, api opt false E layers = .error e ↔ (workloadStage o.better false E layers).2 = some e) ∧
      ((∃ ans, api opt false E layers = .ok ans) ↔ (workloadStage o.better false E layers).2 = none) := by
  have hsing : ∀ s ∈ (workloadStage o.better false E layers).1, s.1.res.single = true := by
    intro s hm
    obtain ⟨l, -, hl⟩ := Pipeline.forEach_mem _ _ _ _ hm
    split at hl
    · simp at hl
    · obtain ⟨x, hx, rfl⟩ := List.mem_map.1 hl
      obtain ⟨y, hy, hyx⟩ := (Pipeline.minStage_cases o.better false _ (Pipeline.spatialStage_single hs o.better l)).2.1 x hx
      rw [← hyx]
      exact Pipeline.spatialStage_single hs o.better l y hy
  obtain ⟨r, hr⟩ := Pipeline.sumLoop_total (workloadStage o.better false E layers).1 ⟨0, 0, false⟩ [] hsing
  unfold api
  rw [hp]
  simp only
  unfold sumStage
  rw [hr]
  cases hw : (workloadStage o.better false E layers).2 with
  | some e => simp [mainStage]
  | none => simp [mainStage]

/-- If the layers before a layer have an answer and the mappings of the layer cannot be generated, the call raises that exception; if they raise, the call raises the same. -/
theorem api_prefix {E : Env Ly SM TM P} (hs : Single E) {opt : String} (ho : Known opt) (pre : List Ly) (l : Ly) (post : List Ly) (hl : E.skip l = false) {x : PyErr}
    (hx : E.spatial l = .error x) :
    ((∃ ans, api opt false E pre = .ok ans) → api opt false E (pre ++ l :: post) = .error x) ∧
      ∀ e, api opt false E pre = .error e → api opt false E (pre ++ l :: post) = .error e := by
  obtain ⟨o, hp⟩ : ∃ o, Opt.parse opt = .ok o := by rcases ho with rfl | rfl | rfl <;> exact ⟨_, rfl⟩
  obtain ⟨h1, h2⟩ := api_iff hs hp pre
  obtain ⟨k1, -⟩ := api_iff hs hp (pre ++ l :: post)
  have hlast : (workloadStage o.better false E (l :: post)).2 = some x := by
    unfold workloadStage forEach forEach.go
    simp only [hl]
    have : Pipeline.minStage o.better false (Pipeline.spatialStage o.better E l) = ([], some x) := by
      unfold Pipeline.spatialStage
      rw [hx]
      rfl
    rw [this]
    rfl
  constructor
  · intro h
    rw [k1]
    have h := h2.1 h
    unfold workloadStage at h hlast ⊢
    rw [forEach_append, h]
    exact hlast
  · intro e h
    rw [k1]
    have h := (h1 e).1 h
    unfold workloadStage at h ⊢
    rw [forEach_append, h]

end Prefix

variable {D : Type} [LinearOrder D]

/-- C172: with a layer whose mapping names a dimension that the array does not have a call raises `KeyError`, or the exception that the layers before it raise. -/
theorem network_refused {cacti : Ports.MemD Latency.Operand OA → ℚ × ℚ} {fact : Nat → List (Nat × Nat)} {a : AccD OA} {o : Options OA D} (F : FileOk a) (O : OptionsOk o)
    {opt : String} (hk : Known opt) (pre : List (Node OA D)) (n : Node OA D) (post : List (Node OA D)) (hs : n.skip = false) {oa : OA} (h : oa ∈ n.mapping.keys)
    (hn : oa ∉ a.sizes.keys) (fuel : Nat) :
    ((∃ ans, Net.network cacti fact a o opt pre fuel = .ok ans) → Net.network cacti fact a o opt (pre ++ n :: post) fuel = .error .keyError) ∧
      ∀ e, Net.network cacti fact a o opt pre fuel = .error e → Net.network cacti fact a o opt (pre ++ n :: post) fuel = .error e := by
  obtain ⟨c, hc, -⟩ := Whole.accelerator_ok (cacti := cacti) F.acc
  have hnet : ∀ nodes, Net.network cacti fact a o opt nodes fuel = api opt false (Net.env fact a c o fuel) nodes := by intro nodes; unfold Net.network; rw [hc]
  rw [hnet, hnet]
  exact api_prefix (Net.single c fuel) hk pre n post hs (layer_refused F O h hn)

/-! ### Calls on the contents of files -/

/-- The entry of the mapping file for the layer has a mapping for a dimension that the array does not have. -/
def Names (A : AccD String) (w : Written) : Prop := ∃ e ∈ w.attr.spatial, e.1 ∉ A.sizes.keys

theorem split_of {α β : Type} {R : α → β → Prop} : ∀ {a b : List α} {l : List β}, List.Forall₂ R (a ++ b) l → ∃ x y, List.Forall₂ R a x ∧ List.Forall₂ R b y ∧ l = x ++ y
  | [], _, l, h => ⟨[], l, .nil, h, rfl⟩
  | _ :: _, _, _, .cons h t => by
    obtain ⟨x, y, h1, h2, rfl⟩ := split_of t
    exact ⟨_ :: x, y, .cons h h1, h2, rfl⟩

theorem first_of {α : Type} {P : α → Prop} : ∀ {l : List α}, (∃ x ∈ l, P x) → ∃ pre x post, l = pre ++ x :: post ∧ P x ∧ ∀ y ∈ pre, ¬ P y
  | [], h => by simp at h
  | a :: t, h => by
    by_cases ha : P a
    · exact ⟨[], a, t, rfl, ha, by simp⟩
    · obtain ⟨x, hx, hp⟩ := h
      rcases List.mem_cons.1 hx with rfl | hx
      · exact absurd hp ha
      · obtain ⟨pre, x, post, rfl, h1, h2⟩ := first_of ⟨x, hx, hp⟩
        refine ⟨a :: pre, x, post, rfl, h1, fun y hy => ?_⟩
        rcases List.mem_cons.1 hy with rfl | hy
        · exact ha
        · exact h2 y hy

variable {cacti : String → String → Int → Int → Except PyErr (ℚ × ℚ × ℚ)} {eqn : List Char → Bool} {rel : List Char → Option LayerBuild.RelD}
  {fact : Nat → List (Nat × Nat)} {o : Net.Options String Text} {da dw dm : Doc} {A : AccD String} {ws : List Written}

/-- C172: files that fit together but for the array dimensions in the mapping file.  If an entry has a mapping for a dimension that the array does not have, the call has
no answer: it raises `KeyError`, or before that an exception of the search for a layer without such an entry; it raises `KeyError` if the entries of all layers have such
a mapping. -/
theorem call_refused (hA : AccSays cacti da A) (F : FileOk A) (S : FilesSay eqn rel dw dm ws) (K : SourcesKnown ws) (s : Dict String Nat)
    (L : ∀ w ∈ ws, LayerFits { A with sizes := s } w) (O : OptionsOk o) (hf : Lpf.FactContract fact) (lo : LayerOptions) (hex : ∃ w ∈ ws, Names A w) :
    (∀ fuel opt ans, Call.call cacti eqn rel fact lo o opt da dw dm fuel ≠ .ok ans) ∧
    (∃ N, ∀ fuel, N ≤ fuel → ∀ opt, Known opt → ∃ e, Call.call cacti eqn rel fact lo o opt da dw dm fuel = .error e ∧
      e ∈ [PyErr.keyError, .noValidOrdering, .zeroDivision, .memoryHierarchyTooSmall, .memoryTooSmall, .indexError]) ∧
    ((∀ w ∈ ws, Names A w) → ∀ fuel opt, Known opt → Call.call cacti eqn rel fact lo o opt da dw dm fuel = .error .keyError) := by
  obtain ⟨nodes, hw, ws', hord, hall⟩ := Call.workload_written (A := { A with sizes := s }) S K L lo
  have hperm := Call.inOrder_perm hord
  obtain ⟨pre, w, post, rfl, hN, hpre⟩ := first_of (P := Names A) (l := ws') (by
    obtain ⟨w, h1, h2⟩ := hex
    exact ⟨w, hperm.symm.subset h1, h2⟩)
  obtain ⟨npre, nrest, hall1, hall2, rfl⟩ : ∃ a b, List.Forall₂ (fun w n => NodeSays lo w n ∧ ∃ rl, NodeOk { A with sizes := s } n rl w.rels) pre a ∧
      List.Forall₂ (fun w n => NodeSays lo w n ∧ ∃ rl, NodeOk { A with sizes := s } n rl w.rels) (w :: post) b ∧ nodes = a ++ b := split_of hall
  cases hall2 with
  | cons hn hpost =>
    rename_i n npost
    obtain ⟨hsay, -⟩ := hn
    obtain ⟨x, hx, hxn⟩ := hN
    have hmem : x.1 ∈ n.mapping.keys := by
      rw [hsay.mapping]
      unfold Dict.keys
      rw [List.map_map]
      exact List.mem_map_of_mem (f := fun e => e.1) hx
    have hfit : ∀ m ∈ npre, m.skip = false → ∃ rl rels, NodeOk A m rl rels := by
      intro m hm _
      obtain ⟨v, hv, h1, rl, h2⟩ := Files.forall2_right hall1 m hm
      refine ⟨rl, v.rels, ⟨h2.layer, h2.stored, h2.linked, h2.delivers, h2.holds, h2.user, h2.whole, ?_, h2.hints, h2.order⟩⟩
      intro oa hoa
      rw [h1.mapping] at hoa
      unfold Dict.keys at hoa
      rw [List.map_map] at hoa
      obtain ⟨e, he, rfl⟩ := List.mem_map.1 hoa
      by_contra hc
      exact hpre v hv ⟨e, he, hc⟩
    have hkey : ∀ fuel opt, Known opt → ((∃ ans, Net.network (fun _ => (0, 0)) fact A o opt npre fuel = .ok ans) →
          Call.call cacti eqn rel fact lo o opt da dw dm fuel = .error .keyError) ∧
        ∀ e, Net.network (fun _ => (0, 0)) fact A o opt npre fuel = .error e → Call.call cacti eqn rel fact lo o opt da dw dm fuel = .error e := by
      intro fuel opt hk
      rw [Call.call_eq hA F hw opt hk fuel]
      exact network_refused F O hk npre n npost hsay.skip hmem hxn fuel
    refine ⟨fun fuel opt ans hc => ?_, ?_, fun hA' fuel opt hk => ?_⟩
    · by_cases hk : Known opt
      · obtain ⟨h1, h2⟩ := hkey fuel opt hk
        cases hr : Net.network (fun _ => (0, 0)) fact A o opt npre fuel with
        | ok r => rw [h1 ⟨r, hr⟩] at hc; cases hc
        | error e => rw [h2 e hr] at hc; cases hc
      · rw [Call.criterion_refused _ _ _ _ _ _ _ _ _ _ _ hk] at hc
        cases hc
    · obtain ⟨N, h⟩ := Net.network_partial (cacti := fun _ => (0, 0)) F O hf hfit
      refine ⟨N, fun fuel hfu opt hk => ?_⟩
      obtain ⟨h1, h2⟩ := hkey fuel opt hk
      rcases (h fuel hfu opt hk).1 with h3 | ⟨e, h3, h4⟩
      · exact ⟨_, h1 h3, by simp⟩
      · refine ⟨e, h2 e h3, ?_⟩
        rcases h4 with rfl | rfl | ⟨rfl | rfl, -⟩ | ⟨rfl, -⟩ <;> simp
    · cases pre with
      | nil =>
        cases hall1
        obtain ⟨c, hc, -⟩ := Whole.accelerator_ok (cacti := fun _ => (0, 0)) F.acc
        refine (hkey fuel opt hk).1 ?_
        unfold Net.network
        rw [hc]
        exact (Pipeline.api_ok_iff (Net.single c fuel) opt []).2 ⟨hk, by simp⟩
      | cons v t => exact absurd (hA' v (hperm.subset (by simp))) (hpre v (by simp))

end Verif.Foreign
