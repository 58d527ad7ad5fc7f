import Verif.Reuse.Model
import Verif.Compare.Layers

/-! C165: a call with the stages for locality is the sum of calls without them on the layers alone, each with its own accelerator. -/

namespace Verif.Reuse

open Evaluate (Job Result)
open Latency (Operand)
open Net (Node Options)
open Pipeline (Cme IsFirst Opt)
open Ports (MemD)
open SpatialMapping (SM)
open Whole (AccD Acc LayerIn)

variable {OA : Type} [DecidableEq OA] {D : Type} [LinearOrder D] {cacti : MemD Operand OA → ℚ × ℚ} {fact : Nat → List (Nat × Nat)} {a : AccD OA} {o : Options OA D}
  {s : Locality.St Operand} {fuel : Nat}

theorem single : Pipeline.Single (env cacti fact a s o fuel) := by
  intro n sm j c h
  have h' : (match built cacti a s n with
    | .error e => .error e
    | .ok b => (Net.env fact b.1 b.2 o fuel).cost n.node sm j : Except PyErr (Cme (Job D × Result))) = .ok c := h
  cases hb : built cacti a s n with
  | error e => rw [hb] at h'; cases h'
  | ok b =>
    rw [hb] at h'
    exact Net.single b.2 fuel n.node sm j c h'

theorem built_iff {n : LNode OA D} {b : AccD OA} {c : Acc OA} :
    built cacti a s n = .ok (b, c) ↔ reduced cacti a s n = .ok b ∧ Whole.accelerator cacti b = .ok c := by
  unfold built
  cases h : reduced cacti a s n with
  | error e => simp
  | ok b' =>
    simp only
    cases hc : Whole.accelerator cacti b' with
    | error e =>
      refine Iff.intro (fun h => by cases h) (fun h => ?_)
      obtain ⟨h1, h2⟩ := h
      cases h1
      rw [hc] at h2
      cases h2
    | ok c' =>
      refine Iff.intro (fun h => ?_) (fun h => ?_)
      · cases h
        exact ⟨rfl, hc⟩
      · obtain ⟨h1, h2⟩ := h
        cases h1
        rw [hc] at h2
        cases h2
        rfl

theorem works_built {n : LNode OA D} (h : Pipeline.Works (env cacti fact a s o fuel) n) : ∃ b c, built cacti a s n = .ok (b, c) := by
  obtain ⟨sms, h1, -⟩ := h
  have h1' : (match built cacti a s n with
    | .error e => .error e
    | .ok b => (Net.env fact b.1 b.2 o fuel).spatial n.node : Except PyErr (List (SM OA D))) = .ok sms := h1
  cases hb : built cacti a s n with
  | error e => rw [hb] at h1'; cases h1'
  | ok b => exact ⟨b.1, b.2, rfl⟩

theorem stages {n : LNode OA D} {b : AccD OA} {c : Acc OA} (hb : built cacti a s n = .ok (b, c)) :
    (env cacti fact a s o fuel).spatial n = (Net.env fact b c o fuel).spatial n.node ∧
      (∀ sm, (env cacti fact a s o fuel).temporal n sm = (Net.env fact b c o fuel).temporal n.node sm) ∧
      ∀ sm j, (env cacti fact a s o fuel).cost n sm j = (Net.env fact b c o fuel).cost n.node sm j := by
  refine ⟨?_, fun sm => ?_, fun sm j => ?_⟩ <;>
  · unfold env
    simp only [hb]

theorem works_iff {n : LNode OA D} {b : AccD OA} {c : Acc OA} (hb : built cacti a s n = .ok (b, c)) :
    Pipeline.Works (env cacti fact a s o fuel) n ↔ Pipeline.Works (Net.env fact b c o fuel) n.node := by
  obtain ⟨h1, h2, h3⟩ := stages (fact := fact) (o := o) (fuel := fuel) hb
  unfold Pipeline.Works
  simp only [h1, h2, h3]

theorem cands_eq {n : LNode OA D} {b : AccD OA} {c : Acc OA} (hb : built cacti a s n = .ok (b, c)) :
    Pipeline.cands (env cacti fact a s o fuel) n = Pipeline.cands (Net.env fact b c o fuel) n.node := by
  obtain ⟨h1, h2, h3⟩ := stages (fact := fact) (o := o) (fuel := fuel) hb
  unfold Pipeline.cands
  simp only [h1, h2, h3]

theorem network_cases {opt : String} {g : Graph OA D} {nodes : List (LNode OA D)} {ans : Reply OA D} (h : network cacti fact a o opt g nodes fuel = .ok ans) :
    ∃ c s, Whole.accelerator cacti a = .ok c ∧ plan a g nodes = .ok s ∧ Pipeline.api opt false (env cacti fact a s o fuel) nodes = .ok ans := by
  unfold network at h
  cases hc : Whole.accelerator cacti a with
  | error e => rw [hc] at h; cases h
  | ok c =>
    rw [hc] at h
    simp only at h
    cases hs : plan a g nodes with
    | error e => rw [hs] at h; cases h
    | ok s =>
      rw [hs] at h
      exact ⟨c, s, rfl, rfl, h⟩

/-- C165: the answer of a call with the stages for locality is, for every layer that is not skipped, in order, that of a call without these stages on the layer alone
and the accelerator from which the memories above the levels found for the layer were removed; energy and latency are the sums. -/
theorem layers_alone {opt : String} {g : Graph OA D} {nodes : List (LNode OA D)} {ans : Reply OA D} (h : network cacti fact a o opt g nodes fuel = .ok ans) :
    ∃ s, plan a g nodes = .ok s ∧ ∃ each : List (Net.Reply OA D),
      List.Forall₂ (fun n r => ∃ b, reduced cacti a s n = .ok b ∧ Net.network cacti fact b o opt [n.node] fuel = .ok r) (nodes.filter fun n => !n.node.skip) each ∧
      ans.energy = (each.map fun r => r.energy).sum ∧ ans.latency = (each.map fun r => r.latency).sum := by
  obtain ⟨-, s, -, hs, h⟩ := network_cases h
  refine ⟨s, hs, ?_⟩
  obtain ⟨hk, hw⟩ := (Pipeline.api_ok_iff single opt nodes).1 ⟨ans, h⟩
  obtain ⟨op, hop, best, b1, b2, b3, b4, -⟩ := Pipeline.api_answer single opt false nodes h
  have hmem : ∀ x ∈ best, x.1 ∈ nodes ∧ x.1.node.skip = false := by
    intro x hx
    have : x.1 ∈ best.map Prod.fst := List.mem_map.2 ⟨x, hx, rfl⟩
    rw [b1] at this
    obtain ⟨m1, m2⟩ := List.mem_filter.1 this
    have m3 : (!x.1.node.skip) = true := m2
    exact ⟨m1, by simpa using m3⟩
  have hone : ∀ x ∈ best, ∃ b r, reduced cacti a s x.1 = .ok b ∧ Net.network cacti fact b o opt [x.1.node] fuel = .ok r ∧ r.energy = x.2.res.energy ∧
      r.latency = x.2.res.latency := by
    intro x hx
    obtain ⟨m1, m2⟩ := hmem x hx
    have hwx := hw x.1 m1 m2
    obtain ⟨b, c, hb⟩ := works_built hwx
    obtain ⟨q1, q2⟩ := built_iff.1 hb
    have hwn := (works_iff hb).1 hwx
    obtain ⟨r, hr⟩ := (Pipeline.api_ok_iff (Net.single c fuel) opt [x.1.node]).2 ⟨hk, fun l hl _ => by rw [List.mem_singleton.1 hl]; exact hwn⟩
    obtain ⟨op', hop', best', c1, c2, c3⟩ := Compare.answer_best hr
    rw [hop] at hop'
    cases hop'
    rw [List.filter_cons_of_pos (by simp [m2])] at c1
    cases c1 with
    | cons k1 k2 =>
      cases k2
      have hfx := b2 x hx
      rw [cands_eq hb] at hfx
      have := Compare.first_unique hfx k1
      refine ⟨b, r, q1, by rw [Compare.network_pipeline q2]; exact hr, ?_, ?_⟩
      · rw [c2, this]; simp
      · rw [c3, this]; simp
  have hf : nodes.filter (fun n => !n.node.skip) = best.map Prod.fst := b1.symm
  rw [hf, b3, b4]
  clear b1 b2 b3 b4 hf hmem hw
  induction best with
  | nil => exact ⟨[], .nil, rfl, rfl⟩
  | cons x t ih =>
    obtain ⟨b, r, h1, h2, h3, h4⟩ := hone x List.mem_cons_self
    obtain ⟨each, e1, e2, e3⟩ := ih fun y hy => hone y (List.mem_cons_of_mem _ hy)
    refine ⟨r :: each, .cons ⟨b, h1, h2⟩ e1, ?_, ?_⟩
    · rw [List.map_cons, List.sum_cons, List.map_cons, List.sum_cons, h3, e2]
    · rw [List.map_cons, List.sum_cons, List.map_cons, List.sum_cons, h4, e3]

/-- C165: the call with the stages for locality has an answer exactly if levels are found and every layer alone has one with its accelerator. -/
theorem layers_together {opt : String} (hk : Net.Known opt) {g : Graph OA D} {nodes : List (LNode OA D)} {c : Acc OA} (hc : Whole.accelerator cacti a = .ok c) :
    (∃ ans, network cacti fact a o opt g nodes fuel = .ok ans) ↔ ∃ s, plan a g nodes = .ok s ∧
      ∀ n ∈ nodes, n.node.skip = false → ∃ b r, reduced cacti a s n = .ok b ∧ Net.network cacti fact b o opt [n.node] fuel = .ok r := by
  constructor
  · rintro ⟨ans, h⟩
    obtain ⟨s, hs, each, h1, -⟩ := layers_alone h
    refine ⟨s, hs, fun n hn hsk => ?_⟩
    have hm : n ∈ nodes.filter fun n => !n.node.skip := List.mem_filter.2 ⟨hn, by simp [hsk]⟩
    clear h hs hn
    generalize (nodes.filter fun n => !n.node.skip) = l at h1 hm
    induction h1 with
    | nil => cases hm
    | cons h _ ih =>
      rcases List.mem_cons.1 hm with rfl | hm
      · obtain ⟨b, h1, h2⟩ := h
        exact ⟨b, _, h1, h2⟩
      · exact ih hm
  · rintro ⟨s, hs, h⟩
    have : ∃ ans, Pipeline.api opt false (env cacti fact a s o fuel) nodes = .ok ans := by
      refine (Pipeline.api_ok_iff single opt nodes).2 ⟨hk, fun n hn hsk => ?_⟩
      obtain ⟨b, r, h1, h2⟩ := h n hn hsk
      cases hcb : Whole.accelerator cacti b with
      | error e =>
        unfold Net.network at h2
        rw [hcb] at h2
        cases h2
      | ok c' =>
        rw [Compare.network_pipeline hcb] at h2
        exact (works_iff (built_iff.2 ⟨h1, hcb⟩)).2 (((Pipeline.api_ok_iff (Net.single c' fuel) opt [n.node]).1 ⟨r, h2⟩).2 n.node List.mem_cons_self hsk)
    obtain ⟨ans, h⟩ := this
    refine ⟨ans, ?_⟩
    unfold network
    rw [hc]
    simp only [hs]
    exact h

end Verif.Reuse
