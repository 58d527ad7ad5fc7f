import Verif.LocalCall.Room
import Verif.LocalCall.Example
import Verif.Call.Example

/-! A concrete case of `local_room`: the product and the convolution of `Call.Ex`. -/

namespace Verif.LocalCall

open Call.Ex (gemm conv)
open Latency (Operand)
open LayerBuild (tx)

namespace RoomEx

theorem accFits : AccFits Call.Ex.acc := accFitsC (by decide +kernel)

theorem both : ∀ w ∈ [gemm, conv], Both Call.Ex.acc w := by
  intro w hw
  simp only [List.mem_cons, List.not_mem_nil, or_false] at hw
  have hB : ∀ (i : Nat) (m : Ports.MemD Operand String), Call.Ex.acc.mems[i]? = some m → m.served.length = Call.Ex.acc.sizes.length → Before Call.Ex.acc i .in1 := by
    intro i m h _
    exact ⟨0, _, Nat.zero_le _, rfl, by decide⟩
  rcases hw with rfl | rfl
  · exact ⟨rfl, by decide, by decide, by decide, fun m hm t ht _ p hp _ => (Call.Ex.wide gemm (.inl rfl) m hm t ht).1 p hp,
      fun m hm t ht _ => (Call.Ex.wide gemm (.inl rfl) m hm t ht).2, .inl hB⟩
  · exact ⟨rfl, by decide, by decide, by decide, fun m hm t ht _ p hp _ => (Call.Ex.wide conv (.inr rfl) m hm t ht).1 p hp,
      fun m hm t ht _ => (Call.Ex.wide conv (.inr rfl) m hm t ht).2, .inl hB⟩

/-- The condition of `Compact` in decidable form. -/
def compactC (l : Whole.LayerIn Equation.Text) (r : LayerNode.Relation Equation.Text) : Bool :=
  decide (r.coef3 / Nat.gcd r.coef2 r.coef3 ≤ Reuse.extent l r.dim2) &&
    (l.L.prSizes.get? r.dim1).any fun m => decide ((LayerNode.distinct r.coef2 (Reuse.extent l r.dim2) r.coef3 (Reuse.extent l r.dim3) : ℚ) ≤ m)

theorem compact {p : Parsed} {g : Reuse.Graph String Equation.Text} {nodes : List (Reuse.LNode String Equation.Text)}
    (h1 : workload Call.Ex.eqn Call.Ex.relOf ⟨false, false⟩ Call.Ex.workDoc Call.Ex.mapDoc = .ok p) (h2 : prepare (fun _ n => n) p = .ok (g, nodes)) :
    (∀ n ∈ nodes, ∀ w, [gemm, conv][n.id]? = some w → ∀ r ∈ w.rels, compactC n.node.layer r = true) ∧ (∃ s, Reuse.plan Call.Ex.acc g nodes = .ok s) ∧
      ∀ n ∈ nodes, (g.succ n.id).length ≤ 1 ∧ ∀ v ∈ g.succ n.id, (g.pred v).length ≤ 1 := by
  have key : ((workload Call.Ex.eqn Call.Ex.relOf ⟨false, false⟩ Call.Ex.workDoc Call.Ex.mapDoc).toOption.bind fun p => (prepare (fun _ n => n) p).toOption.map fun x =>
      (x.2.all fun n => [gemm, conv][n.id]?.toList.all fun w => w.rels.all fun r => compactC n.node.layer r) && (Reuse.plan Call.Ex.acc x.1 x.2).toOption.isSome &&
      x.2.all fun n => decide ((x.1.succ n.id).length ≤ 1 ∧ ∀ v ∈ x.1.succ n.id, (x.1.pred v).length ≤ 1)) = some true := by decide +kernel
  rw [h1] at key
  simp only [Except.toOption, Option.bind_some] at key
  rw [h2] at key
  simp only [Option.map_some, Option.some.injEq, Bool.and_eq_true, List.all_eq_true, decide_eq_true_eq] at key
  obtain ⟨⟨k1, k2⟩, k3⟩ := key
  refine ⟨fun n hn w hw => k1 n hn w (by rw [hw]; simp), ?_, k3⟩
  cases hp : Reuse.plan Call.Ex.acc g nodes with
  | error e => rw [hp] at k2; cases k2
  | ok s => exact ⟨s, rfl⟩

end RoomEx

open RoomEx

/-- Non-trivial case: the results of both layers stay in a memory that has room for the data. -/
example : ∃ g nodes s, NetSays ⟨false, false⟩ (fun _ n => n) [gemm, conv] g nodes ∧ Reuse.plan Call.Ex.acc g nodes = .ok s ∧
    ∃ (rl : Reuse.LNode String Equation.Text → Operand → List Equation.Text) (ww : Reuse.LNode String Equation.Text → Call.Written),
    ∀ u ∈ nodes, [gemm, conv][u.id]? = some (ww u) ∧ Net.NodeOk Call.Ex.acc u.node (rl u) (ww u).rels ∧ ∃ (i : Nat) (m : Ports.MemD Operand String), Call.Ex.acc.mems[i]? = some m ∧ Reuse.levelFor s u .out = some (i : Int) ∧
      Reuse.RoomFor Call.Ex.acc nodes (fun v op => Reuse.data v.node.layer (rl v) (ww v).rels op) u m := by
  obtain ⟨p, g, nodes, h1, h2, N, rl, ww, h3, h4⟩ := local_room accFits Call.Ex.filesSay Call.Ex.sourcesKnown
    (fun w hw => by
      simp only [List.mem_cons, List.not_mem_nil, or_false] at hw
      rcases hw with rfl | rfl
      · exact Call.Ex.gemmFits
      · exact Call.Ex.convFits) both (by decide) (by simp) ⟨false, false⟩
  obtain ⟨c1, ⟨s, c2⟩, c3⟩ := compact h1 h2
  refine ⟨g, nodes, s, N, c2, rl, ww, fun u hu => ⟨(h3 u hu).1, (h3 u hu).2, ?_⟩⟩
  obtain ⟨b, i, m, -, a1, a2, -, -, a3, -⟩ := h4 (fun n hn op _ r hr _ => by
    have := c1 n hn _ (h3 n hn).1 r hr
    simp only [compactC, Bool.and_eq_true, decide_eq_true_eq, Option.any_eq_true] at this
    exact ⟨.inr this.1, this.2⟩) s c2 u hu (c3 u hu).1 (c3 u hu).2
  exact ⟨i, m, a1, a2, a3⟩

end Verif.LocalCall
