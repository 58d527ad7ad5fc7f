import Verif.OnnxCall.Props
import Verif.Shipped.Props

/-! C168: whole calls on ONNX models with the accelerator and mapping files that come with the tool. -/

namespace Verif.Shipped

open Call (LayerOptions Chosen)
open Equation (Text)
open Evaluate (Separate)
open Files (Doc MapR MapAttr)
open Latency (Operand)
open Net (OptionsOk Known spatialMappings Innermost)
open Onnx (OModel Precisions)
open OnnxCall (Op IsConv IsProduct Precise Layer NodeIs Fits ModelIs Other computed operands layersIn)
open OnnxModel (OpNode)
open Whole (AccD run)

/-- What a node of the model computes. -/
def OpIs (m : OModel) (n : OpNode) : Op → Prop
  | .conv c => IsConv m n c
  | .product lead D C K => IsProduct m n lead D C K

/-- The nodes of the model are these convolutions and matrix products with these precisions, or no layers (`none`): the innermost memories have room for them, at most two
of their inputs are computed by nodes of the model, and none is called like an entry with numbers of iterations.  Every tensor is computed before it is used. -/
structure Described (lim : Int × Int) (sized : List String) (m : OModel) (nodes : List OpNode) (os : List (Option (Op × Precisions))) : Prop where
  length : os.length = nodes.length
  layers : ∀ (k : Nat) n x, nodes[k]? = some n → os[k]? = some (some x) → OpIs m n x.1 ∧ Precise n x.2 ∧
    ((x.2.act : Int) ≤ lim.1 ∧ (x.2.weight : Int) ≤ lim.1 ∧ (x.2.inter : Int) ≤ lim.2) ∧ computed nodes k ≤ 2 ∧
    (if n.name = "" then "Op" ++ toString k else n.name) ∉ sized ∧ n.op ∉ sized
  others : ∀ (k : Nat) n, nodes[k]? = some n → os[k]? = some none → Other n
  forward : ∀ i j, Workload.Feeds (nodes.map OnnxModel.ONode.ofOp) i j → i < j

/-- The multiplications of all layers. -/
def multiplications (os : List (Option (Op × Precisions))) : Nat := (os.map fun x => match x with
  | none => 0
  | some x => x.1.macs).sum

theorem operands_names {l : Layer} {c : Nat} {t : Text × Nat} (h : t ∈ operands l c) : t.1 ∈ [tx "O", tx "W", tx "I"] := by
  unfold operands at h
  simp only [List.mem_cons, List.not_mem_nil, or_false] at h
  rcases h with rfl | rfl | rfl <;> simp [tx]

/-- A layer of an ONNX model fits the accelerator. -/
theorem onnx_fits {A : AccD String} {lim : Int × Int} {e : MapR} {t : MapAttr} {o : Op} {b : Precisions} {c : Nat} (hr : RoomC lim A) (hm : Files.mapAttr e = .ok t)
    (ht : AttrC A t) (hb : (b.act : Int) ≤ lim.1 ∧ (b.weight : Int) ≤ lim.1 ∧ (b.inter : Int) ≤ lim.2) (hc : c ≤ 2) : Fits A ⟨o, b, e, t, link⟩ c := by
  obtain ⟨r1, r2⟩ := hr
  obtain ⟨t1, t2, t3, t4, t5⟩ := ht
  have hlim : ∀ x ∈ operands ⟨o, b, e, t, link⟩ c, (x.2 : Int) ≤ if link x.1 = .out then lim.2 else lim.1 := by
    intro x hx
    unfold operands at hx
    simp only [List.mem_cons, List.not_mem_nil, or_false] at hx
    rcases hx with rfl | rfl | rfl
    · rw [show link "O".toList = .out by decide, if_pos rfl]
      exact hb.2.2
    · rw [show (if link "W".toList = .out then lim.2 else lim.1) = lim.1 from if_neg (by decide)]
      cases o with
      | conv _ => exact hb.2.1
      | product _ _ _ _ =>
        simp only
        split_ifs
        · exact hb.2.1
        · exact hb.1
    · rw [show link "I".toList = .in1 by decide, if_neg (by decide)]
      exact hb.1
  have hop : ∀ op : Operand, op ∈ [Operand.in1, .in2, .out] := by
    intro op
    cases op <;> simp
  have hout : ∀ x ∈ operands ⟨o, b, e, t, link⟩ c, (x.1 = "O".toList ↔ link x.1 = .out) := by
    intro x hx
    have := operands_names hx
    revert this
    generalize x.1 = y
    intro this
    simp only [List.mem_cons, List.not_mem_nil, or_false] at this
    rcases this with rfl | rfl | rfl <;> decide
  exact {
    sources := hc
    attr := hm
    link := fun x hx => by
      have := operands_names hx
      revert this
      generalize x.1 = y
      intro this
      simp only [List.mem_cons, List.not_mem_nil, or_false] at this
      rcases this with rfl | rfl | rfl
      · exact t1
      · exact t2
      · exact t3
    out := rfl
    stored := fun x _ => r2 _ (hop _)
    linked := fun x _ op _ => by
      have hn : ∀ y ∈ [tx "O", tx "W", tx "I"], ∃ x ∈ operands ⟨o, b, e, t, link⟩ c, x.1 = y := by
        intro y hy
        unfold operands
        simp only [List.mem_cons, List.not_mem_nil, or_false] at hy ⊢
        rcases hy with rfl | rfl | rfl
        · exact ⟨_, .inl rfl, rfl⟩
        · exact ⟨_, .inr (.inl rfl), rfl⟩
        · exact ⟨_, .inr (.inr rfl), rfl⟩
      have : ∃ y ∈ [tx "O", tx "W", tx "I"], link y = op := by cases op <;> decide
      obtain ⟨y, hy, he⟩ := this
      obtain ⟨x, hx, rfl⟩ := hn y hy
      exact ⟨x, hx, he⟩
    delivers := fun x hx u hu ho p hp ha => by
      refine le_trans (hlim u hu) ((r1 x (innermost_mem hx) _ ho).1 p hp ?_)
      have := hout u hu
      by_cases h : u.1 = "O".toList
      · rw [if_pos (this.1 h)]
        rw [if_pos h] at ha
        exact ha
      · rw [if_neg fun hc => h (this.2 hc)]
        rw [if_neg h] at ha
        exact ha
    holds := fun x hx u hu ho => le_trans (hlim u hu) (r1 x (innermost_mem hx) _ ho).2
    user := t4
    order := fun e he _ => t5 e he }

variable {fact : Nat → List (Nat × Nat)} {lo : LayerOptions} {o : Net.Options String Text} {dm : Doc} {A : AccD String} {lim : Int × Int}
variable {m : OModel} {nodes : List OpNode} {os : List (Option (Op × Precisions))} {sized : List String}

/-- The model, the accelerator and the mapping file fit. -/
theorem onnx_written (hr : RoomC lim A) (hm : MapC A sized dm = true) (hd : "default" ∉ sized) (D : Described lim sized m nodes os) :
    ∃ ms ls, Files.parseMapping dm = .ok ms ∧ ModelIs A m nodes dm ls ∧ (∀ l ∈ ls, ∀ x, l = some x → x.entry ∈ ms ∧ Files.mapAttr x.entry = .ok x.attr) ∧
      ls.map (Option.map fun l => (l.op, l.bits)) = os := by
  unfold MapC at hm
  cases hp : Files.parseMapping dm with
  | error e => rw [hp] at hm; cases hm
  | ok ms =>
    rw [hp] at hm
    simp only [List.all_eq_true, Bool.or_eq_true, decide_eq_true_eq] at hm
    have one : ∀ k : Nat, k < os.length → ∃ l : Option Layer, l.map (fun l => (l.op, l.bits)) = (os[k]?.bind id) ∧ ∀ x, l = some x → ∀ n, nodes[k]? = some n →
        NodeIs m ms k n x ∧ Fits A x (computed nodes k) ∧ x.entry ∈ ms ∧ Files.mapAttr x.entry = .ok x.attr := by
      intro k hk
      cases h : os[k] with
      | none => exact ⟨none, by rw [List.getElem?_eq_getElem hk, h]; rfl, fun x hx => by cases hx⟩
      | some x =>
        have hk' : k < nodes.length := by rw [← D.length]; exact hk
        have hn := List.getElem?_eq_getElem hk'
        obtain ⟨d1, d2, d3, d4, d5, d6⟩ := D.layers k _ x hn (by rw [List.getElem?_eq_getElem hk, h])
        obtain ⟨e, he⟩ := chosen_exists (default_mem hp) (if nodes[k].name = "" then "Op" ++ toString k else nodes[k].name) nodes[k].op
        obtain ⟨e1, e2⟩ := chosen_mem he d5 d6 hd
        have hc : EntryC A e = true := (hm e e1).resolve_right e2
        unfold EntryC at hc
        cases ha : Files.mapAttr e with
        | error x => rw [ha] at hc; cases hc
        | ok a =>
          rw [ha] at hc
          refine ⟨some ⟨x.1, x.2, e, a, link⟩, by rw [List.getElem?_eq_getElem hk, h]; rfl, fun y hy n hn' => ?_⟩
          cases hy
          rw [hn] at hn'
          cases hn'
          refine ⟨⟨?_, d2, he⟩, onnx_fits hr ha (of_decide_eq_true hc) d3 d4, e1, ha⟩
          rcases x with ⟨_ | _, _⟩ <;> exact d1
    have hall : ∀ k : Fin os.length, ∃ l : Option Layer, l.map (fun l => (l.op, l.bits)) = (os[k.1]?.bind id) ∧ ∀ x, l = some x → ∀ n, nodes[k.1]? = some n →
        NodeIs m ms k n x ∧ Fits A x (computed nodes k) ∧ x.entry ∈ ms ∧ Files.mapAttr x.entry = .ok x.attr := fun k => one k.1 k.2
    choose g g1 g2 using hall
    have hget : ∀ (k : Nat) l, (List.ofFn g)[k]? = some l → ∃ hk : k < os.length, l = g ⟨k, hk⟩ := by
      intro k l h
      obtain ⟨hk, h⟩ := List.getElem?_eq_some_iff.1 h
      rw [List.length_ofFn] at hk
      rw [List.getElem_ofFn] at h
      exact ⟨hk, h.symm⟩
    refine ⟨ms, List.ofFn g, rfl, ⟨by rw [List.length_ofFn, D.length], ⟨ms, hp, fun k n l hn hl => ?_⟩, fun k n hn hl => ?_, D.forward⟩, fun l hl x hx => ?_, ?_⟩
    · obtain ⟨hk, he⟩ := hget k _ hl
      obtain ⟨h1, h2, -⟩ := g2 ⟨k, hk⟩ l he.symm n hn
      exact ⟨h1, h2⟩
    · obtain ⟨hk, he⟩ := hget k _ hl
      refine D.others k n hn ?_
      have := g1 ⟨k, hk⟩
      rw [← he] at this
      rw [List.getElem?_eq_getElem hk] at this ⊢
      simp only [Option.map_none, Option.bind_some, id] at this
      rw [← this]
    · obtain ⟨k, hk⟩ := List.getElem?_of_mem hl
      obtain ⟨hk, he⟩ := hget k _ hk
      have hk' : k < nodes.length := by rw [← D.length]; exact hk
      exact (g2 ⟨k, hk⟩ x (he ▸ hx) _ (List.getElem?_eq_getElem hk')).2.2
    · refine List.ext_getElem? fun k => ?_
      rw [List.getElem?_map]
      by_cases hk : k < os.length
      · rw [List.getElem?_eq_getElem (by rw [List.length_ofFn]; exact hk), List.getElem_ofFn, Option.map_some, g1 ⟨k, hk⟩, List.getElem?_eq_getElem hk]
        rfl
      · rw [List.getElem?_eq_none (by rw [List.length_ofFn]; omega), List.getElem?_eq_none (by omega)]
        rfl

theorem order_nil {e : MapR} {t : MapAttr} (ha : Files.mapAttr e = .ok t) (h : e.order = []) : t.order = [] := by
  unfold Files.mapAttr at ha
  split at ha
  · cases ha
  · split at ha
    · cases ha
    · split at ha
      · cases ha
      · injection ha with ha
        rw [← ha, h]
        rfl

/-- C168: for every accelerator file that comes with the tool, every mapping file that fits it and every ONNX model whose convolutions and matrix products have the
shapes that the standard asks for, a call ends, with an answer or one of five exceptions; the one for bad indices needs an ordering in the mapping file.  An answer has
at least the energy of the multiplications of all convolutions and matrix products, and the units of the array times the latency are at least the multiplications, if no
two movements of a port happen exactly once in the evaluations. -/
theorem shipped_onnx {x : Doc × AccD String × (Int × Int)} (hx : x ∈ accelerators) (hm : MapC x.2.1 sized dm = true) (hd : "default" ∉ sized)
    (D : Described x.2.2 sized m nodes os) (O : OptionsOk o) (hmix : o.mix = false) (hf : Lpf.FactContract fact) (lo : LayerOptions)
    (cacti : String → String → Int → Int → Except PyErr (ℚ × ℚ × ℚ)) : ∃ N, ∀ fuel, N ≤ fuel → ∀ opt, Known opt →
      ((∃ ans, OnnxCall.call cacti fact lo o opt x.1 m nodes dm fuel = .ok ans) ∨ ∃ e, OnnxCall.call cacti fact lo o opt x.1 m nodes dm fuel = .error e ∧
        (e ∈ [PyErr.noValidOrdering, .zeroDivision, .memoryHierarchyTooSmall, .memoryTooSmall] ∨
          e = .indexError ∧ ∃ ms, Files.parseMapping dm = .ok ms ∧ ∃ m ∈ ms, m.order ≠ [])) ∧
      ∀ ans, OnnxCall.call cacti fact lo o opt x.1 m nodes dm fuel = .ok ans → x.2.1.macEnergy * (multiplications os : ℕ) ≤ ans.energy ∧
        ((∀ c ns, Whole.accelerator (fun _ => (0, 0)) x.2.1 = .ok c → OnnxCall.workload lo m nodes dm = .ok ns → ∀ n ∈ ns, ∀ sms,
            spatialMappings o x.2.1 n = .ok sms → ∀ sm ∈ sms, ∀ evals err, run (fun _ => (0, 0)) fact x.2.1 n.layer sm o.limit fuel = some (evals, err) →
              ∀ e ∈ evals, Separate c.hw e.1) →
          ((multiplications os : ℕ) : ℚ) ≤ ((x.2.1.sizes.map Prod.snd).prod : ℕ) * ans.latency) := by
  obtain ⟨hA, F, R, C⟩ := accelerators_ok x hx
  obtain ⟨ms, ls, hp, M, hent, hls⟩ := onnx_written R hm hd D
  obtain ⟨order, ns, N1, -, hsays, h1⟩ := OnnxCall.call_partial (hA cacti) F M O hmix hf lo
  obtain ⟨N2, h2⟩ := OnnxCall.call_bounds (hA cacti) F M O hmix hf lo
  have hops : OnnxCall.operations ls = multiplications os := by
    unfold OnnxCall.operations multiplications
    rw [← hls, List.map_map]
    congr 1
    refine List.map_congr_left fun l _ => ?_
    cases l <;> rfl
  refine ⟨max N1 N2, fun fuel hfu opt hopt => ⟨?_, fun ans hans => ?_⟩⟩
  · rcases (h1 fuel (le_of_max_le_left hfu) opt hopt).1 with h | ⟨e, he, hs⟩
    · exact Or.inl h
    · refine Or.inr ⟨e, he, ?_⟩
      rcases hs with rfl | rfl | ⟨rfl | rfl, -⟩ | ⟨rfl, n, hn, -, hne⟩
      · exact Or.inl (by simp)
      · exact Or.inl (by simp)
      · exact Or.inl (by simp)
      · exact Or.inl (by simp)
      · refine Or.inr ⟨rfl, ms, hp, ?_⟩
        obtain ⟨⟨k, l⟩, hw, hsay⟩ := Files.forall2_right hsays n hn
        unfold layersIn at hw
        obtain ⟨i, -, hi⟩ := List.mem_filterMap.1 hw
        obtain ⟨l', hl', hk⟩ := Option.map_eq_some_iff.1 hi
        cases hk
        obtain ⟨l'', hl'', rfl⟩ := Option.bind_eq_some_iff.1 hl'
        obtain ⟨e1, e2⟩ := hent _ (List.mem_of_getElem? hl'') l rfl
        refine ⟨l.entry, e1, fun h => hne ?_⟩
        rw [hsay.order, order_nil e2 h]
        rfl
  · obtain ⟨b1, b2⟩ := h2 fuel (le_of_max_le_right hfu) opt ans hans
    rw [hops] at b1 b2
    exact ⟨b2 C, b1⟩

end Verif.Shipped
