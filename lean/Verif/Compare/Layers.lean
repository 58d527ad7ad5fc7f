import Verif.Net.Props
import Verif.Files.Build

/-! C155, C156: what two calls that differ in the layers or in the criterion have to do with each other. -/

namespace Verif.Compare

open Evaluate (Job Result)
open Latency (Operand)
open Net (Node Options Reply network env Known)
open Pipeline (IsFirst Cme Opt)
open Ports (MemD)
open Whole (AccD Acc)

variable {OA : Type} [DecidableEq OA] {D : Type} [LinearOrder D]
variable {a : AccD OA} {o : Options OA D} {cacti : MemD Operand OA → ℚ × ℚ} {fact : Nat → List (Nat × Nat)} {fuel : Nat}

/-! ### Helpers -/

theorem first_unique {A K : Type} [LinearOrder K] {key : A → K} {l : List A} {b c : A} (hb : IsFirst key l b) (hc : IsFirst key l c) : b = c := by
  obtain ⟨p, q, h1, h2, h3⟩ := hb
  obtain ⟨p', q', g1, g2, g3⟩ := hc
  have hbl : b ∈ l := by rw [h1]; simp
  have hcl : c ∈ l := by rw [g1]; simp
  have hle : ∀ {b : A} {p q : List A}, l = p ++ b :: q → (∀ x ∈ p, key b < key x) → (∀ x ∈ q, ¬ key x < key b) → ∀ x ∈ l, key b ≤ key x := by
    intro b p q h1 h2 h3 x hx
    rw [h1] at hx
    rcases List.mem_append.1 hx with h | h
    · exact (h2 x h).le
    · rcases List.mem_cons.1 h with rfl | h
      · exact le_refl _
      · exact not_lt.1 (h3 x h)
  have heq : key b = key c := le_antisymm (hle h1 h2 h3 c hcl) (hle g1 g2 g3 b hbl)
  have hp : p.length = p'.length := by
    rcases Nat.lt_trichotomy p.length p'.length with h | h | h
    · exfalso
      have hm : b ∈ p' := by
        have : (p' ++ c :: q')[p.length]? = some b := by rw [← g1, h1]; simp
        rw [List.getElem?_append_left h] at this
        exact List.mem_of_getElem? this
      exact absurd (g2 b hm) (by rw [heq]; exact lt_irrefl _)
    · exact h
    · exfalso
      have hm : c ∈ p := by
        have : (p ++ b :: q)[p'.length]? = some c := by rw [← h1, g1]; simp
        rw [List.getElem?_append_left h] at this
        exact List.mem_of_getElem? this
      exact absurd (h2 c hm) (by rw [heq]; exact lt_irrefl _)
  have hh : l[p.length]? = some b := by rw [h1]; simp
  have hh' : l[p'.length]? = some c := by rw [g1]; simp
  rw [hp, hh'] at hh
  exact (Option.some.inj hh).symm

/-- A call in terms of the pipeline. -/
theorem network_pipeline {opt : String} {nodes : List (Node OA D)} {c : Acc OA} (hc : Whole.accelerator cacti a = .ok c) :
    network cacti fact a o opt nodes fuel = Pipeline.api opt false (env fact a c o fuel) nodes := by
  unfold network
  rw [hc]

/-- The best evaluation of a layer under a criterion. -/
def BestOf (E : Pipeline.Env (Node OA D) (SpatialMapping.SM OA D) (Job D) (Job D × Result)) (op : Opt) (n : Node OA D) (x : Cme (Job D × Result)) : Prop :=
  IsFirst op.key (Pipeline.cands E n) x

theorem answer_best {opt : String} {nodes : List (Node OA D)} {c : Acc OA} {ans : Reply OA D}
    (h : Pipeline.api opt false (env fact a c o fuel) nodes = .ok ans) : ∃ op, Opt.parse opt = .ok op ∧ ∃ best, List.Forall₂ (BestOf (env fact a c o fuel) op)
      (nodes.filter fun n => !n.skip) best ∧ ans.energy = (best.map fun x => x.res.energy).sum ∧ ans.latency = (best.map fun x => x.res.latency).sum := by
  obtain ⟨op, hop, best, b1, b2, b3, b4, -⟩ := Pipeline.api_answer (Net.single c fuel) opt false nodes h
  refine ⟨op, hop, best.map Prod.snd, ?_, by rw [b3, List.map_map]; rfl, by rw [b4, List.map_map]; rfl⟩
  have : nodes.filter (fun n => !n.skip) = best.map Prod.fst := b1.symm
  rw [this, List.forall₂_map_left_iff, List.forall₂_map_right_iff]
  exact List.forall₂_same.2 fun x hx => b2 x hx

theorem best_unique {E : Pipeline.Env (Node OA D) (SpatialMapping.SM OA D) (Job D) (Job D × Result)} {op : Opt} {l : List (Node OA D)} {b c : List (Cme (Job D × Result))}
    (hb : List.Forall₂ (BestOf E op) l b) (hc : List.Forall₂ (BestOf E op) l c) : b = c := by
  induction hb generalizing c with
  | nil => cases hc; rfl
  | cons h _ ih =>
    cases hc with
    | cons h' t' => rw [first_unique h h', ih t']

/-! ### Layers -/

/-- C155: a call on several layers has an answer exactly if the call on every one of them alone has one, and reports the sum of what these calls report. -/
theorem layers_alone (opt : String) (nodes : List (Node OA D)) {ans : Reply OA D} (h : network cacti fact a o opt nodes fuel = .ok ans) :
    ∃ each : List (Reply OA D), List.Forall₂ (fun n r => network cacti fact a o opt [n] fuel = .ok r) nodes each ∧
      ans.energy = (each.map fun r => r.energy).sum ∧ ans.latency = (each.map fun r => r.latency).sum := by
  cases hc : Whole.accelerator cacti a with
  | error e =>
    unfold network at h
    rw [hc] at h
    cases h
  | ok c =>
    rw [network_pipeline hc] at h
    simp only [network_pipeline hc]
    obtain ⟨hk, hw⟩ := (Pipeline.api_ok_iff (Net.single c fuel) opt nodes).1 ⟨ans, h⟩
    obtain ⟨op, hop, best, b1, b2, b3⟩ := answer_best h
    have hone : ∀ n ∈ nodes, ∃ r, Pipeline.api opt false (env fact a c o fuel) [n] = .ok r := fun n hn =>
      (Pipeline.api_ok_iff (Net.single c fuel) opt [n]).2 ⟨hk, fun l hl hs => by
        rw [List.mem_singleton.1 hl] at hs ⊢
        exact hw n hn hs⟩
    clear h hw
    have key : ∀ (nodes : List (Node OA D)) (best : List (Cme (Job D × Result))), List.Forall₂ (BestOf (env fact a c o fuel) op) (nodes.filter fun n => !n.skip) best →
        (∀ n ∈ nodes, ∃ r, Pipeline.api opt false (env fact a c o fuel) [n] = .ok r) →
        ∃ each : List (Reply OA D), List.Forall₂ (fun n r => Pipeline.api opt false (env fact a c o fuel) [n] = .ok r) nodes each ∧
          (best.map fun x => x.res.energy).sum = (each.map fun r => r.energy).sum ∧ (best.map fun x => x.res.latency).sum = (each.map fun r => r.latency).sum := by
      intro nodes
      induction nodes with
      | nil =>
        intro best hb _
        cases hb
        exact ⟨[], .nil, rfl, rfl⟩
      | cons n t ih =>
        intro best hb hone
        obtain ⟨r, hr⟩ := hone n List.mem_cons_self
        obtain ⟨op', hop', b', c1, c2, c3⟩ := answer_best hr
        rw [hop] at hop'
        cases hop'
        by_cases hs : n.skip = true
        · rw [List.filter_cons_of_neg (by simp [hs])] at hb c1
          cases c1
          obtain ⟨each, e1, e2, e3⟩ := ih best hb fun x hx => hone x (List.mem_cons_of_mem _ hx)
          refine ⟨r :: each, .cons hr e1, ?_, ?_⟩
          · rw [List.map_cons, List.sum_cons, c2, ← e2]; simp
          · rw [List.map_cons, List.sum_cons, c3, ← e3]; simp
        · rw [List.filter_cons_of_pos (by simp [hs])] at hb c1
          cases c1 with
          | cons k1 k2 =>
            cases k2
            cases hb with
            | cons m1 m2 =>
              obtain ⟨each, e1, e2, e3⟩ := ih _ m2 fun x hx => hone x (List.mem_cons_of_mem _ hx)
              rw [first_unique m1 k1]
              refine ⟨r :: each, .cons hr e1, ?_, ?_⟩
              · rw [List.map_cons, List.sum_cons, List.map_cons, List.sum_cons, c2, ← e2]; simp
              · rw [List.map_cons, List.sum_cons, List.map_cons, List.sum_cons, c3, ← e3]; simp
    obtain ⟨each, e1, e2, e3⟩ := key nodes best b1 hone
    exact ⟨each, e1, b2.trans e2, b3.trans e3⟩

/-- C155: if the call on every layer alone has an answer then so does the call on all of them. -/
theorem layers_together (opt : String) {nodes : List (Node OA D)} (hne : nodes ≠ []) (h : ∀ n ∈ nodes, ∃ r, network cacti fact a o opt [n] fuel = .ok r) :
    ∃ ans, network cacti fact a o opt nodes fuel = .ok ans := by
  obtain ⟨n, hn⟩ := List.exists_mem_of_ne_nil _ hne
  cases hc : Whole.accelerator cacti a with
  | error e =>
    obtain ⟨r, hr⟩ := h n hn
    unfold network at hr
    rw [hc] at hr
    cases hr
  | ok c =>
    simp only [network_pipeline hc] at h ⊢
    have h' := fun n hn => (Pipeline.api_ok_iff (Net.single c fuel) opt [n]).1 (h n hn)
    exact (Pipeline.api_ok_iff (Net.single c fuel) opt nodes).2 ⟨(h' n hn).1, fun l hl hs => (h' l hl).2 l List.mem_cons_self hs⟩

/-- C155: the order of the layers has no influence on what is reported. -/
theorem layers_order (opt : String) {nodes nodes' : List (Node OA D)} (hp : nodes'.Perm nodes) {ans : Reply OA D}
    (h : network cacti fact a o opt nodes fuel = .ok ans) :
    ∃ ans', network cacti fact a o opt nodes' fuel = .ok ans' ∧ ans'.energy = ans.energy ∧ ans'.latency = ans.latency := by
  obtain ⟨each, e1, e2, e3⟩ := layers_alone opt nodes h
  have hne : ∃ ans', network cacti fact a o opt nodes' fuel = .ok ans' := by
    by_cases hn : nodes' = []
    · subst hn
      rw [hp.symm.eq_nil] at h
      exact ⟨ans, h⟩
    · refine layers_together opt hn fun n hn => ?_
      obtain ⟨r, hr, h⟩ := Files.forall2_right e1.flip n (hp.mem_iff.1 hn)
      exact ⟨r, h⟩
  obtain ⟨ans', h'⟩ := hne
  obtain ⟨each', f1, f2, f3⟩ := layers_alone opt nodes' h'
  have hf : ∀ (ns : List (Node OA D)) (rs : List (Reply OA D)), List.Forall₂ (fun n r => network cacti fact a o opt [n] fuel = .ok r) ns rs →
      ns.map (fun n => network cacti fact a o opt [n] fuel) = rs.map .ok := by
    intro ns rs hh
    induction hh with
    | nil => rfl
    | cons h _ ih => rw [List.map_cons, List.map_cons, h, ih]
  have hperm : (each'.map (Except.ok (ε := PyErr))).Perm (each.map .ok) := by
    rw [← hf _ _ e1, ← hf _ _ f1]
    exact hp.map _
  have hval : ∀ g : Reply OA D → ℚ, (each'.map g).sum = (each.map g).sum := by
    intro g
    have := hperm.map fun x => match x with
      | .ok r => g r
      | .error _ => 0
    rw [List.map_map, List.map_map] at this
    exact this.sum_eq
  exact ⟨ans', h', by rw [e2, f2, hval], by rw [e3, f3, hval]⟩

/-! ### Criteria -/

/-- C156: whether a call has an answer does not depend on the criterion. -/
theorem criterion_answer {opt opt' : String} (hk : Known opt) (hk' : Known opt') {nodes : List (Node OA D)}
    (h : ∃ ans, network cacti fact a o opt nodes fuel = .ok ans) : ∃ ans, network cacti fact a o opt' nodes fuel = .ok ans := by
  cases hc : Whole.accelerator cacti a with
  | error e =>
    obtain ⟨r, hr⟩ := h
    unfold network at hr
    rw [hc] at hr
    cases hr
  | ok c =>
    simp only [network_pipeline hc] at h ⊢
    exact (Pipeline.api_ok_iff (Net.single c fuel) opt' nodes).2 ⟨hk', ((Pipeline.api_ok_iff (Net.single c fuel) opt nodes).1 h).2⟩

theorem first_le {A K : Type} [LinearOrder K] {key : A → K} {l : List A} {b : A} (h : IsFirst key l b) : b ∈ l ∧ ∀ x ∈ l, key b ≤ key x := by
  obtain ⟨p, q, rfl, h2, h3⟩ := h
  refine ⟨by simp, fun x hx => ?_⟩
  rcases List.mem_append.1 hx with h | h
  · exact (h2 x h).le
  · rcases List.mem_cons.1 h with rfl | h
    · exact le_refl _
    · exact not_lt.1 (h3 x h)

theorem sum_le {A B : Type} {P : A → B → Prop} {Q : A → B → Prop} (f : B → ℚ) (hPQ : ∀ n x y, P n x → Q n y → f x ≤ f y) {l : List A} {b c : List B}
    (hb : List.Forall₂ P l b) (hc : List.Forall₂ Q l c) : (b.map f).sum ≤ (c.map f).sum := by
  induction hb generalizing c with
  | nil => cases hc; simp
  | cons h _ ih =>
    cases hc with
    | cons h' t' =>
      rw [List.map_cons, List.sum_cons, List.map_cons, List.sum_cons]
      exact add_le_add (hPQ _ _ _ h h') (ih t')

/-- C156: no criterion gives less energy than the criterion energy, no criterion less latency than the criterion latency, and for a single layer no criterion a
smaller product than the criterion EDP. -/
theorem criterion_best {opt : String} {nodes : List (Node OA D)} {ans r : Reply OA D} (h : network cacti fact a o opt nodes fuel = .ok ans) :
    (network cacti fact a o "energy" nodes fuel = .ok r → r.energy ≤ ans.energy) ∧ (network cacti fact a o "latency" nodes fuel = .ok r → r.latency ≤ ans.latency) ∧
      ((nodes.filter fun n => !n.skip).length ≤ 1 → network cacti fact a o "EDP" nodes fuel = .ok r → r.latency * r.energy ≤ ans.latency * ans.energy) := by
  cases hc : Whole.accelerator cacti a with
  | error e =>
    unfold network at h
    rw [hc] at h
    cases h
  | ok c =>
    simp only [network_pipeline hc] at h ⊢
    obtain ⟨op, -, best, b1, b2, b3⟩ := answer_best h
    refine ⟨fun hr => ?_, fun hr => ?_, fun hl hr => ?_⟩
    · obtain ⟨op', hop, best', c1, c2, -⟩ := answer_best hr
      cases hop
      rw [b2, c2]
      refine sum_le (fun x => x.res.energy) (fun n x y hx hy => ?_) c1 b1
      have := (first_le hx).2 y (first_le hy).1
      rcases Prod.Lex.toLex_le_toLex.1 this with h | h
      · exact le_of_lt h
      · exact le_of_eq h.1
    · obtain ⟨op', hop, best', c1, -, c3⟩ := answer_best hr
      cases hop
      rw [b3, c3]
      refine sum_le (fun x => x.res.latency) (fun n x y hx hy => ?_) c1 b1
      have := (first_le hx).2 y (first_le hy).1
      rcases Prod.Lex.toLex_le_toLex.1 this with h | h
      · exact le_of_lt h
      · exact le_of_eq h.1
    · obtain ⟨op', hop, best', c1, c2, c3⟩ := answer_best hr
      cases hop
      rw [b2, b3, c2, c3]
      cases hf : nodes.filter (fun n => !n.skip) with
      | nil =>
        rw [hf] at b1 c1
        cases b1
        cases c1
        simp
      | cons n t =>
        rw [hf] at b1 c1 hl
        have ht : t = [] := by
          rw [List.length_cons] at hl
          exact List.eq_nil_of_length_eq_zero (by omega)
        subst ht
        cases b1 with
        | cons hy y2 =>
          cases y2
          cases c1 with
          | cons hx x2 =>
            cases x2
            simp only [List.map_cons, List.map_nil, List.sum_cons, List.sum_nil, add_zero]
            have := (first_le hx).2 _ (first_le hy).1
            rcases Prod.Lex.toLex_le_toLex.1 this with h | h
            · exact le_of_lt h
            · exact le_of_eq h.1

end Verif.Compare
