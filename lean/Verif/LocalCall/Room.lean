import Verif.LocalCall.Props
import Verif.Reuse.RoomAll

/-! C169: where the results of the layers of the files stay between layers. -/

namespace Verif.LocalCall

open Call (Written NodeSays LayerFits FilesSay SourcesKnown LayerOptions)
open Equation (Text)
open Files (Doc)
open Latency (Operand)
open Net (Node NodeOk)
open Ports (MemD)
open Reuse (LNode Graph plan levelFor Compact RoomFor UsedAs data)
open Whole (AccD)

variable {eqn : List Char → Bool} {rel : List Char → Option LayerBuild.RelD} {da dw dm : Doc} {A : AccD String} {ws : List Written}

/-- C169: for the contents of files that fit together, the results of a layer that is no start or end of a branch stay in the lowest memory for the results and for the input as
which they are used that has room for the data of the layer, if the sizes of the layers are exact (see C17). -/
theorem local_room (X : AccFits A) (S : FilesSay eqn rel dw dm ws) (K : SourcesKnown ws) (L : ∀ w ∈ ws, LayerFits A w) (B : ∀ w ∈ ws, Both A w)
    (hid : (ws.map fun w => w.layer.id).Nodup) (hne : ws ≠ []) (lo : LayerOptions) :
    ∃ p g nodes, workload eqn rel lo dw dm = .ok p ∧ prepare (fun _ n => n) p = .ok (g, nodes) ∧ NetSays lo (fun _ n => n) ws g nodes ∧
      ∃ rl : LNode String Text → Operand → List Text, ∃ ww : LNode String Text → Written,
        (∀ n ∈ nodes, ws[n.id]? = some (ww n) ∧ NodeOk A n.node (rl n) (ww n).rels) ∧
        ((∀ n ∈ nodes, ∀ op ∈ n.node.layer.ops, Compact n.node.layer (rl n) (ww n).rels op) → ∀ s, plan A g nodes = .ok s →
          ∀ u ∈ nodes, (g.succ u.id).length ≤ 1 → (∀ v ∈ g.succ u.id, (g.pred v).length ≤ 1) →
          ∃ (b : Operand) (i : Nat) (m : MemD Operand String), UsedAs g nodes u b ∧ A.mems[i]? = some m ∧ levelFor s u .out = some (i : Int) ∧
            b ∈ m.operands ∧ .out ∈ m.operands ∧ RoomFor A nodes (fun v op => data v.node.layer (rl v) (ww v).rels op) u m ∧
            ∀ (j : Nat) (m' : MemD Operand String), j < i → A.mems[j]? = some m' → b ∈ m'.operands → .out ∈ m'.operands →
              ¬ RoomFor A nodes (fun v op => data v.node.layer (rl v) (ww v).rels op) u m') := by
  obtain ⟨p, g, nodes, h1, h2, N, h3⟩ := prepared S K L B hid hne lo (fun _ n => n)
  have : ∀ n : LNode String Text, ∃ x : (Operand → List Text) × Written, n ∈ nodes → x.2 ∈ ws ∧ NodeSays lo x.2 n.node ∧ NodeOk A n.node x.1 x.2.rels ∧ ws[n.id]? = some x.2 := by
    intro n
    by_cases hn : n ∈ nodes
    · obtain ⟨w, hw, m, rl, a1, a2, a3, a4⟩ := h3 n hn
      subst a3
      exact ⟨(rl, w), fun _ => ⟨hw, a1, a2, a4⟩⟩
    · obtain ⟨w, -⟩ := List.exists_mem_of_ne_nil ws hne
      exact ⟨(fun _ => [], w), fun h => absurd h hn⟩
  choose x hx using this
  refine ⟨p, g, nodes, h1, h2, N, fun n => (x n).1, fun n => (x n).2, fun n hn => ⟨(hx n hn).2.2.2, (hx n hn).2.2.1⟩, fun C s hs u hu k1 k2 => ?_⟩
  exact Reuse.kept_room_all (fits X L B N) hs (rl := fun n => (x n).1) (rels := fun n => (x n).2.rels)
    (fun n hn _ => ⟨(hx n hn).2.2.1, C n hn⟩) hu (N.seen u hu).dummy k1 k2

end Verif.LocalCall
