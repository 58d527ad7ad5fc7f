import Verif.Whole.Props
import Verif.Conversion.Kept

/-! C149: the memories of a run are not overfull. -/

namespace Verif.Whole

open Conversion (Good Divides clean known convert perMemLvl)
open SpatialMapping (SM SMWF factor)
open MapInfo (iters Lv)
open Latency (Operand)
open LayerNode (Relation)
open Ports (MemD)
open Evaluate (Hw Mem Job Result Separate Ready evaluate copies inUse)
open Search (Prepared Order mappings evaluations mapOrder)

/-- Loops with whole sizes stay whole when they are combined for the levels. -/
theorem perMemLvl_whole {OA Dim : Type} [DecidableEq OA] [DecidableEq Dim] (s : List (List OA)) {m : SM OA Dim} (hm : SMWF m)
    (hS : ∀ e ∈ m, ∀ x ∈ e.2, ∃ n : ℕ, 1 ≤ n ∧ x.2 = n) : ∀ x ∈ (perMemLvl s m).flatten, ∃ n : ℕ, x.2 = n := by
  intro l hl
  obtain ⟨d, hd, hld⟩ := List.mem_flatten.1 hl
  obtain ⟨i, hi⟩ := List.getElem?_of_mem hd
  obtain ⟨hw, hf⟩ := (Conversion.per_level_placement s m hm).2 i d hi
  have hv : factor d l.1 = l.2 := by
    unfold factor
    rw [Dict.get?_of_mem hw (show (l.1, l.2) ∈ d from hld)]
    rfl
  obtain ⟨n, -, hn⟩ := Conversion.prod_nat (m := m.filter fun e => decide (Conversion.levelOf s e.1 = i)) (fun e he => hS e (List.mem_filter.1 he).1) l.1
  exact ⟨n, by rw [← hv, hf, hn]⟩

variable {OA : Type} [DecidableEq OA] {D : Type} [LinearOrder D]
variable {a : AccD OA} {l : LayerIn D} {user : SM OA D} {rl : Operand → List D} {rels : List (Relation D)} {cacti : MemD Operand OA → ℚ × ℚ}

/-- C149: if the unrollings divide the dimensions of the layer and outputs do not grow when they are final, no memory is overfull in any evaluation that a
run yields, for any memory of the file and any operand in it, also with the second copies of the operands that are double buffered.  The output must not be
indexed by a sum of dimensions (`Search.found_partial`). -/
theorem run_fits (I : InputOk a l user rl rels) (hd : Divides l.sizes user) (hfp : l.finalPrecision ≤ l.precision .out) (hpr : (l.rel .out).pr = [])
    (fact : Nat → List (Nat × Nat)) (hf : Lpf.FactContract fact) (limit : Option Nat) (hlim : ∀ n, limit = some n → 1 ≤ n) (hfo : Follows cacti a l user) :
    ∃ c N, accelerator cacti a = .ok c ∧ ∀ fuel, N ≤ fuel → ∃ evals err, run cacti fact a l user limit fuel = some (evals, err) ∧ ∀ e ∈ evals,
      (∀ op ∈ l.ops, ∀ lv, lv < (a.mems.filter fun m => decide (op ∈ m.operands)).length → e.2.utilShared (op, lv) ≤ 1) ∧
      ∀ m ∈ c.hw.mems, ((m.holding e.1).map fun p => copies e.2.flags p * inUse e.1 e.2.util m.size p).sum ≤ 1 := by
  obtain ⟨c, hc, C⟩ := accelerator_ok (cacti := cacti) I.acc
  obtain ⟨lim, limI, t, hcv, ht, P, e1, e2, e3, e4, e5, e6, e8, e9, -⟩ := task_ok I C
  obtain ⟨s1, s2, s3, s4, -, -⟩ := engine_sizes I.layer
  have hlk : ∀ p ∈ c.hw.ports, ∀ k ∈ p.served, k.1 ∈ t.ops := fun p hp k hk => by
    obtain ⟨m, hm, hmk⟩ := C.linked p hp k hk
    rw [e1]
    exact I.linked m hm _ hmk
  obtain ⟨N, o₀, L, -, -, q4, -, -, q6⟩ := Search.search_partial P hlk fact hf _ s1 s2 s3 (by rw [e3]; exact s4) (spatialLoops t)
    (fun x hx => (spatialLoops_mem P x hx).1) limit hlim _ (hfo.task hc ht)
  have hsu : ∀ op ∈ t.ops, ∀ x ∈ (t.su op).flatten, ∃ n : ℕ, x.2 = n := by
    rw [Conversion.convert_kept I.mapping hd] at hcv
    cases hcv
    have hin : ∀ e ∈ clean l.sizes user, Dict.WF e.2 ∧ ∀ x ∈ e.2, ∃ n : ℕ, 1 ≤ n ∧ x.2 = n := by
      intro e he
      obtain ⟨e0, h3, rfl⟩ := List.mem_map.1 (List.mem_filter.1 he).1
      exact ⟨Conversion.known_wf (I.mapping.wf.2 _ h3), fun x hx => I.mapping.whole _ h3 x (List.mem_filter.1 hx).1⟩
    have hw : SMWF (clean l.sizes user) := by
      refine ⟨?_, fun e he => (hin e he).1⟩
      unfold Dict.WF Dict.keys clean
      refine ((List.filter_sublist.map Prod.fst).nodup ?_)
      rw [List.map_map]
      exact I.mapping.wf.1
    intro op _ x hx
    rw [e9] at hx
    exact perMemLvl_whole _ hw (fun e he => (hin e he).2) x hx
  refine ⟨c, N, hc, fun fuel hfu => ?_⟩
  obtain ⟨jobs, err, g1, -, -, g4, -⟩ := q6 fuel hfu
  refine ⟨_, _, by simp only [run, hc, ht, g1]; rfl, fun e he => ?_⟩
  obtain ⟨hj, hr⟩ := Search.evaluations_mem he
  obtain ⟨o, ho, hm, -⟩ := g4 _ hj
  have hfp' : t.finalPrecision ≤ t.precision .out := by rw [e5, e6]; exact hfp
  have hpr' : (t.rel .out).pr = [] := by rw [e4]; exact hpr
  refine ⟨fun op hop lv hlv => ?_, fun m hmm => Search.found_buffers P (q4 o ho) hfp' hpr' hsu hm hr hmm⟩
  rw [← C.count op] at hlv
  exact Search.found_fits P (q4 o ho) hfp' hpr' hsu hm hr (by rw [e1]; exact hop) (List.getElem?_eq_getElem hlv)

end Verif.Whole
