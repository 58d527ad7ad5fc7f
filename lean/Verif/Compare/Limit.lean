import Verif.Compare.More
import Verif.Ordering.Follow
import Mathlib.Data.Nat.Log

/-! C159: the limit on the number of loops. -/

namespace Verif.Compare

open Latency (Operand)
open LayerNode (Relation)
open Net (Node Options network env FileOk NodeOk OptionsOk)
open Ports (MemD)
open Whole (AccD)

variable {OA : Type} [DecidableEq OA] {D : Type} [LinearOrder D]

/-! ### Number of loops -/

theorem lomaLoop_le : ∀ (ls : List (D × ℚ)) {d d' : Dict D Int}, (∀ k v, d.get? k = some v → 1 ≤ v) → (∀ l ∈ ls, 1 ≤ l.2) → TemporalLoops.lomaLoop d ls = .ok d' →
    ∀ k v, d'.get? k = some v → ∃ s, d.get? k = some s ∧ v ≤ s
  | [], d, d', _, _, h => by
    cases h
    exact fun k v hv => ⟨v, hv, le_refl _⟩
  | l :: ls, d, d', hp, hl, h => by
    unfold TemporalLoops.lomaLoop at h
    cases hs : TemporalLoops.lomaStep d l with
    | error e =>
      rw [hs] at h
      cases h
    | ok d1 =>
      rw [hs] at h
      have key : ∀ k v, d1.get? k = some v → 1 ≤ v ∧ ∃ s, d.get? k = some s ∧ v ≤ s := by
        unfold TemporalLoops.lomaStep at hs
        cases hg : d.get? l.1 with
        | none =>
          rw [hg] at hs
          cases hs
          exact fun k v hv => ⟨hp k v hv, v, hv, le_refl _⟩
        | some s =>
          rw [hg] at hs
          simp only at hs
          have hl1 := hl l List.mem_cons_self
          have hs1 := hp _ _ hg
          rw [if_neg (by linarith)] at hs
          split_ifs at hs with hq
          · cases hs
            intro k v hv
            rw [Dict.get?_del] at hv
            split_ifs at hv
            exact ⟨hp k v hv, v, hv, le_refl _⟩
          · cases hs
            intro k v hv
            rw [Dict.get?_set] at hv
            split_ifs at hv with hk
            · cases hv
              have h0 : (0 : ℚ) < s := by exact_mod_cast hs1
              refine ⟨Int.one_le_ceil_iff.2 (div_pos h0 (by linarith)), s, by rw [← hg]; congr 1; exact hk.symm, Int.ceil_le.2 ?_⟩
              exact div_le_self h0.le hl1
            · exact ⟨hp k v hv, v, hv, le_refl _⟩
      intro k v hv
      obtain ⟨s1, g1, g2⟩ := lomaLoop_le ls (fun k v hv => (key k v hv).1) (fun x hx => hl x (List.mem_cons_of_mem _ hx)) h k v hv
      obtain ⟨-, s, g3, g4⟩ := key k s1 g1
      exact ⟨s, g3, g2.trans g4⟩

theorem count_le_log {fact : Nat → List (Nat × Nat)} (hf : Lpf.FactContract fact) {n : Nat} (hn : 1 ≤ n) : ((fact n).map Prod.snd).sum ≤ Nat.log 2 n := by
  obtain ⟨-, h2, h3⟩ := hf n hn
  apply Nat.le_log_of_pow_le (by norm_num)
  conv_rhs => rw [← h3]
  have : ∀ l : List (Nat × Nat), (∀ x ∈ l, x.1.Prime ∧ 1 ≤ x.2) → 2 ^ (l.map Prod.snd).sum ≤ (l.map (fun x => x.1 ^ x.2)).prod := by
    intro l
    induction l with
    | nil => simp
    | cons x t ih =>
      intro h
      rw [List.map_cons, List.sum_cons, pow_add, List.map_cons, List.prod_cons]
      exact Nat.mul_le_mul (Nat.pow_le_pow_left (h x (by simp)).1.two_le _) (ih fun y hy => h y (by simp [hy]))
  exact this _ h2

/-- A limit that allows as many loops as the sizes of the layer have prime factors at most changes nothing. -/
theorem factors_limit {fact : Nat → List (Nat × Nat)} (hf : Lpf.FactContract fact) (dims : List D) {sizes : Dict D Int} (hw : sizes.WF)
    (hp : ∀ k v, sizes.get? k = some v → 1 ≤ v) {spatial : List (D × ℚ)} (hs : ∀ l ∈ spatial, 1 ≤ l.2) {k : Nat} (h1 : 1 ≤ k)
    (hk : (sizes.map fun e => Nat.log 2 e.2.toNat).sum ≤ k) {t : Dict D Int} (ht : TemporalLoops.lomaTemporalLoops sizes spatial = .ok t) {stat : Option (List (D × Nat))}
    (hst : stat = none ∨ stat = some []) :
    Lpf.getPrimeFactors fact dims (t.map fun p => (p.1, p.2.toNat)) stat (some k) = Lpf.getPrimeFactors fact dims (t.map fun p => (p.1, p.2.toNat)) stat none := by
  unfold Lpf.getPrimeFactors
  cases hpt : Lpf.primeTable fact dims (t.map fun p => (p.1, p.2.toNat)) with
  | error e => rfl
  | ok st =>
    simp only
    have hn : Lpf.nPf st ≤ k := by
      obtain ⟨n1, n2⟩ := TemporalLoops.loma_nontrivial sizes spatial hw t ht
      unfold Lpf.primeTable at hpt
      simp only at hpt
      split_ifs at hpt with hnil
      · cases dims with
        | nil => cases hpt
        | cons d ds =>
          cases hpt
          simpa [Lpf.nPf] using h1
      · cases hpt
        have hle : ∀ k v, (k, v) ∈ t → ∃ s, sizes.get? k = some s ∧ v ≤ s := by
          intro k v hv
          unfold TemporalLoops.lomaTemporalLoops at ht
          cases hl : TemporalLoops.lomaLoop sizes spatial with
          | error e =>
            rw [hl] at ht
            cases ht
          | ok d' =>
            rw [hl] at ht
            cases ht
            have hd' := TemporalLoops.lomaLoop_wf hw hl
            exact lomaLoop_le spatial hp hs hl k v (Dict.get?_of_mem hd' (List.mem_filter.1 hv).1)
        have s1 : (t.map fun e => ((fact e.2.toNat).map Prod.snd).sum).sum ≤ (t.keys.map fun d => Nat.log 2 ((sizes.get? d).getD 0).toNat).sum := by
          unfold Dict.keys
          rw [List.map_map]
          apply List.sum_le_sum
          intro e he
          obtain ⟨s, g1, g2⟩ := hle e.1 e.2 he
          simp only [Function.comp, g1, Option.getD_some]
          have := (n2 e.1 e.2 he).1
          exact (count_le_log hf (by omega)).trans (Nat.log_mono_right (by omega))
        have s2 : (t.keys.map fun d => Nat.log 2 ((sizes.get? d).getD 0).toNat).sum ≤ (sizes.keys.map fun d => Nat.log 2 ((sizes.get? d).getD 0).toNat).sum := by
          obtain ⟨l, l1, l2⟩ := List.subperm_of_subset n1 (fun d hd => by
            obtain ⟨e, he, rfl⟩ := List.mem_map.1 hd
            exact (n2 e.1 e.2 he).2 : t.keys ⊆ sizes.keys)
          rw [← (l1.map fun d => Nat.log 2 ((sizes.get? d).getD 0).toNat).sum_eq]
          exact (l2.map _).sum_le_sum (by simp)
        have s3 : (sizes.keys.map fun d => Nat.log 2 ((sizes.get? d).getD 0).toNat).sum = (sizes.map fun e => Nat.log 2 e.2.toNat).sum := by
          unfold Dict.keys
          rw [List.map_map]
          congr 1
          apply List.map_congr_left
          intro e he
          simp only [Function.comp]
          rw [Dict.get?_of_mem hw (show (e.1, e.2) ∈ sizes from he)]
          rfl
        have s4 : Lpf.nPf (List.map (fun p => (p.1, ({ fac := (fact p.2).map (fun x => (x.1, (x.2 : Int))), sum := (((fact p.2).map Prod.snd).sum : Nat) } : Lpf.Ent)))
            (List.map (fun p : D × Int => (p.1, p.2.toNat)) t)) = ((t.map fun e => ((fact e.2.toNat).map Prod.snd).sum).sum : ℕ) := by
          unfold Lpf.nPf
          rw [List.map_map, List.map_map]
          generalize t = t'
          induction t' with
          | nil => rfl
          | cons e r ih =>
            rw [List.map_cons, List.sum_cons, List.map_cons, List.sum_cons, ih, Nat.cast_add]
            rfl
        rw [s4]
        exact_mod_cast s1.trans (s2.trans (s3.le.trans hk))
    have hred : ∀ lim, Lpf.limitLpfs fact stat lim st = match lim with
        | none => .ok st
        | some l => if Lpf.nPf st ≤ (l : Int) then .ok st else Lpf.limitLoop [] (Lpf.nPf st - l).toNat st := by
      intro lim
      unfold Lpf.limitLpfs
      rcases hst with rfl | rfl <;> rfl
    rw [hred, hred]
    unfold Lpf.updateMinLimit
    simp only
    have : ∀ m : Nat, k ≤ m → (if Lpf.nPf st ≤ (m : Int) then Except.ok st else Lpf.limitLoop [] (Lpf.nPf st - (m : Int)).toNat st) = Except.ok st := fun m hm =>
      if_pos (hn.trans (by exact_mod_cast hm))
    split_ifs with hlt
    · exact this _ hlt.le
    · exact this _ (le_refl k)

theorem generate_limit {fact : Nat → List (Nat × Nat)} (hf : Lpf.FactContract fact) {T : Type} (dims : List D) {sizes : Dict D Int} (hw : sizes.WF)
    (hp : ∀ k v, sizes.get? k = some v → 1 ≤ v) {spatial : List (D × ℚ)} (hs : ∀ l ∈ spatial, 1 ≤ l.2) {k : Nat} (h1 : 1 ≤ k)
    (hk : (sizes.map fun e => Nat.log 2 e.2.toNat).sum ≤ k) {data : List (Ordering.Entry D)} (hd : ∀ e ∈ data, e.2 = none) (alloc : Engine.Order D → Except PyErr T) (fuel : Nat) :
    Ordering.generate none fact dims sizes spatial (some k) data alloc fuel = Ordering.generate none fact dims sizes spatial none data alloc fuel := by
  unfold Ordering.generate
  cases ht : TemporalLoops.lomaTemporalLoops sizes spatial with
  | error e => rfl
  | ok t =>
    have hz : (Ordering.constraints none data).sized = [] := by
      rcases data with _ | ⟨e, l⟩
      · rfl
      · exact (Ordering.plain none (e :: l) hd (by simp) []).2
    simp only [Engine.run, Ordering.runC, ht, hz, List.map_nil, factors_limit hf dims hw hp hs h1 hk ht (Or.inl rfl), factors_limit hf dims hw hp hs h1 hk ht (Or.inr rfl)]

/-! ### Calls -/

/-- C159 (partial): a limit that is at least the number of factors of two that the sizes of a layer have room for changes nothing: the call answers the same as without a limit.
Missing: smaller limits, for which a larger limit may give a worse answer (`larger_limit_false`). -/
theorem large_limit_partial {cacti : MemD Operand OA → ℚ × ℚ} {fact : Nat → List (Nat × Nat)} (hf : Lpf.FactContract fact) {a : AccD OA} {o : Options OA D}
    {nodes : List (Node OA D)} (F : FileOk a) (O : OptionsOk o) {k : Nat} (h1 : 1 ≤ k)
    (N : ∀ n ∈ nodes, n.skip = false → (n.layer.sizes.map fun e => Nat.log 2 e.2).sum ≤ k ∧ ∃ (rl : Operand → List D) (rels : List (Relation D)), NodeOk a n rl rels)
    (opt : String) (fuel : Nat) :
    network cacti fact a { o with limit := some k } opt nodes fuel = network cacti fact a { o with limit := none } opt nodes fuel := by
  unfold network
  cases hc : Whole.accelerator cacti a with
  | error e => rfl
  | ok c =>
    simp only
    have key : ∀ better : Stages.Res → Stages.Res → Bool,
        Pipeline.workloadStage better false (env fact a c { o with limit := some k } fuel) nodes = Pipeline.workloadStage better false (env fact a c { o with limit := none } fuel) nodes := by
      intro better
      unfold Pipeline.workloadStage
      apply forEach_congr
      intro n hn
      show (if n.skip = true then _ else _) = (if n.skip = true then _ else _)
      cases hs : n.skip with
      | true => rfl
      | false =>
        obtain ⟨hk, rl, rels, K⟩ := N n hn hs
        obtain ⟨sms, h2, -, h4⟩ := Net.generated (o := o) F K O
        have : Pipeline.spatialStage better (env fact a c { o with limit := some k } fuel) n = Pipeline.spatialStage better (env fact a c { o with limit := none } fuel) n := by
          unfold Pipeline.spatialStage
          rw [show (env fact a c { o with limit := some k } fuel).spatial n = Net.spatialMappings o a n from rfl,
            show (env fact a c { o with limit := none } fuel).spatial n = Net.spatialMappings o a n from rfl, h2]
          simp only
          split_ifs
          · apply forEach_congr
            intro sm hsm
            have ht : (env fact a c { o with limit := some k } fuel).temporal n sm = (env fact a c { o with limit := none } fuel).temporal n sm := by
              have I := (h4 sm hsm).1
              obtain ⟨c', hc', C⟩ := Whole.accelerator_ok (cacti := cacti) I.acc
              rw [hc] at hc'
              cases hc'
              obtain ⟨lim, limI, t, -, ht, P, -⟩ := Whole.task_ok I C
              unfold env
              simp only [ht]
              have : Search.mappings fact c.hw c.topo t (n.layer.sizes.map fun e => (e.1, (e.2 : Int))) (Whole.spatialLoops t) (some k) n.layer.order fuel =
                  Search.mappings fact c.hw c.topo t (n.layer.sizes.map fun e => (e.1, (e.2 : Int))) (Whole.spatialLoops t) none n.layer.order fuel := by
                unfold Search.mappings
                obtain ⟨s1, s2, s3, s4, -, -⟩ := Whole.engine_sizes I.layer
                refine generate_limit hf _ s1 ?_ (fun x hx => (Whole.spatialLoops_mem P x hx).1) h1 ?_ K.order _ fuel
                · exact s2
                · rw [List.map_map]
                  exact hk
              rw [this]
            unfold Pipeline.temporalStage
            rw [ht]
            rfl
          · rfl
        rw [this]
    unfold Pipeline.api
    simp only [key]

end Verif.Compare
