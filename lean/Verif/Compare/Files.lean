import Verif.Net.Example
import Mathlib.Tactic.Simproc.Factors

/-! Concrete files for C155 to C161, and how to see that they fit together. -/

namespace Verif.Compare.Ex

open Evaluate (needed)
open Evaluate.Ex (rl)
open Latency (Operand)
open Net (Node Options Innermost FileOk NodeOk OptionsOk)
open Ports (MemD PortD)
open Whole (AccD MemOk AccOk LayerOk meaning)
open Whole.Ex (layerIn fact)

/-! ### Conditions that can be computed -/

/-- The conditions of `MemOk`. -/
def MemC (m : MemD Operand Nat) : Prop :=
  (m.ports.map PortD.name).Nodup ∧ (∀ p ∈ m.ports, ∀ a ∈ p.alloc, a.1 ∈ m.operands) ∧ (∀ p ∈ m.ports, ∀ q ∈ m.ports, ∀ a ∈ p.alloc, a ∈ q.alloc → p = q) ∧
    (∀ p ∈ m.ports, 1 ≤ p.bwMin ∧ 1 ≤ p.bwMax) ∧ 1 ≤ m.size ∧ (m.auto = true → ∃ p ∈ m.ports, p.type ≠ .write)

instance (m : MemD Operand Nat) : Decidable (MemC m) := by unfold MemC; infer_instance

/-- The movements of a memory are declared; `post` are the memories after it. -/
def DeclC (m : MemD Operand Nat) (post : List (MemD Operand Nat)) : Prop :=
  ∀ op ∈ m.operands, ∀ d ∈ needed op (decide (∀ m' ∈ post, op ∉ m'.operands)), ∃ p ∈ m.ports, ∃ x ∈ p.alloc, x.1 = op ∧ meaning x.2 = d

instance (m : MemD Operand Nat) (post : List (MemD Operand Nat)) : Decidable (DeclC m post) := by unfold DeclC; infer_instance

/-- The conditions of `FileOk`, for files in which an operand is stored in at most two memories. -/
def FileC (a : AccD Nat) : Prop :=
  (∀ m ∈ a.mems, MemC m ∧ m.served.Nodup ∧ ∀ oa ∈ m.served, oa ∈ a.sizes.keys) ∧
    (∀ op ∈ [Operand.in1, .in2, .out], ((a.mems.map MemD.operands).filter fun l => decide (op ∈ l)).length ≤ 2) ∧
    (∀ i ∈ List.range a.mems.length, ∀ m ∈ a.mems[i]?, DeclC m (a.mems.drop (i + 1))) ∧ (∀ e ∈ a.sizes, 1 ≤ e.2) ∧ a.sizes.keys.Nodup

instance (a : AccD Nat) : Decidable (FileC a) := by unfold FileC; infer_instance

theorem split_index {A : Type} {l pre post : List A} {x : A} (h : l = pre ++ x :: post) :
    pre.length ∈ List.range l.length ∧ l[pre.length]? = some x ∧ l.take pre.length = pre ∧ l.drop (pre.length + 1) = post := by
  subst h
  simp

theorem fileC {a : AccD Nat} (h : FileC a) : FileOk a := by
  obtain ⟨h1, h2, h3, h4, h5⟩ := h
  refine ⟨⟨fun m hm => ?_, fun op => ?_, fun pre m post e op ho d hd => ?_, h4, h5⟩, fun m hm => (h1 m hm).2⟩
  · obtain ⟨⟨m1, m2, m3, m4, m5, m6⟩, -⟩ := h1 m hm
    exact ⟨m1, m2, fun p hp q hq x hx => m3 p hp q hq x hx, m4, m5, m6⟩
  · exact Hierarchy.aligned_of_two _ _ (h2 op (by cases op <;> simp))
  · obtain ⟨e1, e2, -, e4⟩ := split_index e
    have := h3 _ e1 m (by rw [e2]; rfl) op ho d
    rw [e4] at this
    exact this hd

/-- A layer of this size with these precisions. -/
def node (size : Nat × Nat × Nat) (prec : Operand → Nat) (final : Nat) (mapping : SpatialMapping.SM Nat Nat) (hints : Hints.Hint Nat Nat) : Node Nat Nat :=
  ⟨false, { layerIn with L := Evaluate.Ex.layer size.1 size.2.1 size.2.2, precision := prec, finalPrecision := final }, mapping, hints⟩

/-- A mapping of the user. -/
def MapC (a : AccD Nat) (mapping : SpatialMapping.SM Nat Nat) : Prop :=
  mapping.keys.Nodup ∧ ∀ e ∈ mapping, (Dict.keys e.2).Nodup ∧ e.1 ∈ a.sizes.keys ∧ ∀ x ∈ e.2, x.2 = ((x.2.num.natAbs : ℕ) : ℚ) ∧ 1 ≤ x.2.num.natAbs

instance (a : AccD Nat) (mapping : SpatialMapping.SM Nat Nat) : Decidable (MapC a mapping) := by unfold MapC; infer_instance

/-- A memory delivers and holds one element of its operands. -/
def OneC (prec : Operand → Nat) (m : MemD Operand Nat) : Prop := ∀ op ∈ m.operands,
  (∀ p ∈ m.ports, (op, if op = .out then Ports.Dir.wrLow else .rdLow) ∈ p.alloc → (prec op : Int) ≤ p.bwMax) ∧ (prec op : Int) ≤ m.size

instance (prec : Operand → Nat) (m : MemD Operand Nat) : Decidable (OneC prec m) := by unfold OneC; infer_instance

/-- No operand of a memory is stored in one of these. -/
def InC (m : MemD Operand Nat) (pre : List (MemD Operand Nat)) : Prop := ∀ m' ∈ pre, ∀ op ∈ m.operands, op ∉ m'.operands

instance (m : MemD Operand Nat) (pre : List (MemD Operand Nat)) : Decidable (InC m pre) := by unfold InC; infer_instance

/-- The conditions of `NodeOk` for such a layer. -/
def NodeC (a : AccD Nat) (size : Nat × Nat × Nat) (prec : Operand → Nat) (mapping : SpatialMapping.SM Nat Nat) (hints : Hints.Hint Nat Nat) : Prop :=
  2 ≤ size.1 ∧ 2 ≤ size.2.1 ∧ 2 ≤ size.2.2 ∧ (∀ op ∈ [Operand.out, .in1, .in2], ∃ m ∈ a.mems, op ∈ m.operands) ∧
    (∀ i ∈ List.range a.mems.length, ∀ m ∈ a.mems[i]?, InC m (a.mems.take i) → OneC prec m) ∧
    MapC a mapping ∧ hints.keys.Nodup ∧ ∀ e ∈ hints, List.Nodup e.2

instance (a : AccD Nat) (size : Nat × Nat × Nat) (prec : Operand → Nat) (mapping : SpatialMapping.SM Nat Nat) (hints : Hints.Hint Nat Nat) :
    Decidable (NodeC a size prec mapping hints) := by
  unfold NodeC
  infer_instance

theorem nodeC {a : AccD Nat} {size : Nat × Nat × Nat} {prec : Operand → Nat} {final : Nat} {mapping : SpatialMapping.SM Nat Nat} {hints : Hints.Hint Nat Nat}
    (h : NodeC a size prec mapping hints) : NodeOk a (node size prec final mapping hints) rl [] := by
  obtain ⟨s1, s2, s3, h1, h2, ⟨h3, h4⟩, h5, h6⟩ := h
  have hin : ∀ m, Innermost a m → ∀ op ∈ m.operands,
      (∀ p ∈ m.ports, (op, if op = .out then Ports.Dir.wrLow else .rdLow) ∈ p.alloc → (prec op : Int) ≤ p.bwMax) ∧ (prec op : Int) ≤ m.size := by
    rintro m ⟨pre, post, e, he⟩ op ho
    obtain ⟨e1, e2, e3, -⟩ := split_index e
    exact h2 _ e1 m (by rw [e2]; rfl) (by rw [e3]; exact he) op ho
  exact
    { layer :=
        { Whole.Ex.layerOk with
          wf := by
            show Dict.WF ([(0, _), (1, _), (2, _)] : List (Nat × ℚ))
            unfold Dict.WF Dict.keys
            simp
          some := by simp [node, Evaluate.Ex.layer]
          whole := by
            intro e he
            have : e ∈ [((0 : Nat), (size.1 : ℚ)), (1, (size.2.1 : ℚ)), (2, (size.2.2 : ℚ))] := he
            simp only [List.mem_cons, List.not_mem_nil, or_false] at this
            rcases this with rfl | rfl | rfl
            · exact ⟨_, by omega, rfl⟩
            · exact ⟨_, by omega, rfl⟩
            · exact ⟨_, by omega, rfl⟩
          dims := fun op ho d hd _ => by
            show d ∈ ([0, 1, 2] : List Nat)
            cases op <;> simp [rl] at hd <;> rcases hd with rfl | rfl <;> simp
          rel := fun op ho => by
            have q1 : size.1 ≠ 1 := by omega
            have q2 : size.2.1 ≠ 1 := by omega
            have q3 : size.2.2 ≠ 1 := by omega
            show LayerNode.extractRel (rl op) [(0, (size.1 : ℚ)), (1, (size.2.1 : ℚ)), (2, (size.2.2 : ℚ))] (LayerNode.extractPr []) = .ok (Evaluate.Ex.rel op)
            have e : (LayerNode.extractPr ([] : List (LayerNode.Relation Nat))).prLoop = [] := rfl
            cases op <;> simp [LayerNode.extractRel, rl, e, LayerNode.filterSize, Dict.keys, Dict.get?, LayerNode.lookup, Evaluate.Ex.rel, q1, q2, q3, bind, Except.bind, pure, Except.pure] }
      stored := fun op ho => h1 op ho
      linked := fun m hm op ho => by show op ∈ [Operand.out, .in1, .in2]; cases op <;> simp
      delivers := fun m hm op ho p hp => (hin m hm op ho).1 p hp
      holds := fun m hm op ho => (hin m hm op ho).2
      user := ⟨h3, fun e he => (h4 e he).1⟩
      whole := fun e he x hx => ⟨_, ((h4 e he).2.2 x hx).2, ((h4 e he).2.2 x hx).1⟩
      known := fun oa ho => by
        obtain ⟨e, he, rfl⟩ := List.mem_map.1 ho
        exact (h4 e he).2.1
      order := by intro e he; cases he
      hints := ⟨h5, fun oa h hh => h6 _ (Dict.mem_of_get? hh)⟩ }

/-- The prime factors, with those of small numbers at hand. -/
def quick (n : Nat) : List (Nat × Nat) := if n = 2 then [(2, 1)] else if n = 4 then [(2, 2)] else if n = 8 then [(2, 3)] else fact n

theorem quick_eq : quick = fact := by
  funext n
  unfold quick
  split_ifs with h1 h2 h3
  · subst h1
    simp [fact]
  · subst h2
    have : Nat.primeFactorsList 4 = [2, 2] := by simp [Nat.primeFactorsList_ofNat]
    rw [fact, this]
    decide
  · subst h3
    have : Nat.primeFactorsList 8 = [2, 2, 2] := by simp [Nat.primeFactorsList_ofNat]
    rw [fact, this]
    decide
  · rfl

theorem quickOk : Lpf.FactContract quick := by
  rw [quick_eq]
  exact Lpf.factContract_primeFactorsList

/-! ### Accelerators -/

/-- A memory of every unit for inputs, a memory of every unit for outputs, and a main memory for the whole array. -/
def units (inSize outSize bw bwMain : Int) : AccD Nat := ⟨[
  { size := inSize, auto := false, rCost := some 1, wCost := some 1, area := some 0, operands := [.in1, .in2], served := []
    ports := [⟨"r1", .read, 1, bw, [(.in1, .rdLow), (.in2, .rdLow)]⟩, ⟨"w1", .write, 1, bw, [(.in1, .wrHigh)]⟩, ⟨"w2", .write, 1, bw, [(.in2, .wrHigh)]⟩] },
  { size := outSize, auto := false, rCost := some 1, wCost := some 1, area := some 0, operands := [.out], served := []
    ports := [⟨"r1", .read, 1, bw, [(.out, .rdLow)]⟩, ⟨"r2", .read, 1, bw, [(.out, .rdHigh)]⟩, ⟨"w1", .write, 1, bw, [(.out, .wrLow)]⟩,
      ⟨"w2", .write, 1, bw, [(.out, .wrHigh)]⟩] },
  { size := 100000, auto := false, rCost := some 10, wCost := some 10, area := none, operands := [.in1, .in2, .out], served := [0]
    ports := [⟨"rw1", .readWrite, 1, bwMain, [(.in1, .rdLow), (.in1, .wrHigh)]⟩, ⟨"rw2", .readWrite, 1, bwMain, [(.in2, .rdLow), (.in2, .wrHigh)]⟩,
      ⟨"rw3", .readWrite, 1, bwMain, [(.out, .rdLow), (.out, .rdHigh), (.out, .wrLow), (.out, .wrHigh)]⟩] }], [(0, 2)], 1 / 2⟩

/-- A memory for every operand and a main memory; `served` are the dimensions of the array served by the first three memories. -/
def split (size1 size2 size3 bw1 bw2 bw3 bwMain : Int) (served : List Nat × List Nat × List Nat) (array : Dict Nat Nat) : AccD Nat := ⟨[
  { size := size1, auto := false, rCost := some 1, wCost := some 1, area := some 0, operands := [.in1], served := served.1
    ports := [⟨"r1", .read, 1, bw1, [(.in1, .rdLow)]⟩, ⟨"w1", .write, 1, bw1, [(.in1, .wrHigh)]⟩] },
  { size := size2, auto := false, rCost := some 1, wCost := some 1, area := some 0, operands := [.in2], served := served.2.1
    ports := [⟨"r1", .read, 1, bw2, [(.in2, .rdLow)]⟩, ⟨"w2", .write, 1, bw2, [(.in2, .wrHigh)]⟩] },
  { size := size3, auto := false, rCost := some 1, wCost := some 1, area := some 0, operands := [.out], served := served.2.2
    ports := [⟨"r1", .read, 1, bw3, [(.out, .rdLow)]⟩, ⟨"r2", .read, 1, bw3, [(.out, .rdHigh)]⟩, ⟨"w1", .write, 1, bw3, [(.out, .wrLow)]⟩,
      ⟨"w2", .write, 1, bw3, [(.out, .wrHigh)]⟩] },
  { size := 100000, auto := false, rCost := some 10, wCost := some 10, area := none, operands := [.in1, .in2, .out], served := array.keys
    ports := [⟨"rw1", .readWrite, 1, bwMain, [(.in1, .rdLow), (.in1, .wrHigh)]⟩, ⟨"rw2", .readWrite, 1, bwMain, [(.in2, .rdLow), (.in2, .wrHigh)]⟩,
      ⟨"rw3", .readWrite, 1, bwMain, [(.out, .rdLow), (.out, .rdHigh), (.out, .wrLow), (.out, .wrHigh)]⟩] }], array, 1 / 2⟩

/-- The precisions 16, 4 and 16. -/
def mixedP (op : Operand) : Nat := if op = .in2 then 4 else 16
/-- The precision 8. -/
def eight (_ : Operand) : Nat := 8
/-- The precision 1. -/
def bit (_ : Operand) : Nat := 1

def opts (nb : Nat) (limit : Option Nat) (setOrder : List Nat → List Nat) : Options Nat Nat :=
  ⟨false, nb, limit, ⟨fun _ l => l, fun _ l => l, fun _ l => l⟩, id, setOrder⟩

theorem optsOk {nb : Nat} {limit : Option Nat} {setOrder : List Nat → List Nat} (h1 : 1 ≤ nb) (h2 : ∀ k, limit = some k → 1 ≤ k)
    (h3 : ∀ l, (setOrder l).Perm l) : OptionsOk (opts nb limit setOrder) :=
  ⟨h1, h2, ⟨fun _ _ => .refl _, fun _ _ => .refl _, fun _ _ => .refl _⟩, fun _ => .refl _, h3⟩

/-- Energy and latency of a call. -/
def answer (r : Except PyErr (Net.Reply Nat Nat)) : Option (ℚ × ℚ) :=
  match r with
  | .ok a => some (a.energy, a.latency)
  | .error _ => none

theorem answer_ok {r : Except PyErr (Net.Reply Nat Nat)} {e l : ℚ} (h : answer r = some (e, l)) : ∃ a, r = .ok a ∧ a.energy = e ∧ a.latency = l := by
  cases r with
  | error x => cases h
  | ok a =>
    cases h
    exact ⟨a, rfl, rfl, rfl⟩

/-- A call without automatic extraction of costs. -/
abbrev call (a : AccD Nat) (o : Options Nat Nat) (opt : String) (nodes : List (Node Nat Nat)) (fuel : Nat) : Except PyErr (Net.Reply Nat Nat) :=
  Net.network (fun _ => (0, 0)) quick a o opt nodes fuel

end Verif.Compare.Ex
