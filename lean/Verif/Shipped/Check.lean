import Verif.Reuse.Prune
import Verif.Compare.Files
import Verif.Call.Acc
import Verif.Shipped.Docs

/-! What has to be checked about the contents of an accelerator file, in decidable form. -/

namespace Verif.Shipped

open Call (AccSays MemSays PortSays opName)
open Compare.Ex (split_index)
open Evaluate (needed)
open Files (Doc AccR MemR PortR)
open Latency (Operand)
open Net (FileOk Innermost)
open Ports (MemD PortD)
open Whole (AccD meaning)

/-! ### The contents of the file -/

/-- A port as written. -/
def PortC (p : PortR) (q : PortD Operand) : Prop :=
  q.name = p.name ∧ q.type = p.type ∧ q.bwMin = p.bwMin ∧ q.bwMax = p.bwMax ∧ p.alloc = q.alloc.map fun a => Files.movement (opName a.1) a.2

instance (p : PortR) (q : PortD Operand) : Decidable (PortC p q) := by unfold PortC; infer_instance

/-- A memory as written, with written costs. -/
def MemC (m : MemR) (d : MemD Operand String) : Prop :=
  d.size = m.size ∧ m.operands = d.operands.map opName ∧ m.ports.length = d.ports.length ∧ (∀ x ∈ m.ports.zip d.ports, PortC x.1 x.2) ∧ d.served = m.served ∧
    m.auto = false ∧ d.rCost = m.rCost ∧ d.wCost = m.wCost ∧ d.area = m.area ∧ d.auto = false

instance (m : MemR) (d : MemD Operand String) : Decidable (MemC m d) := by unfold MemC; infer_instance

/-- What is read from the file. -/
def ReadC (a : AccR) (A : AccD String) : Prop :=
  (Files.checkAcc a).toOption = some true ∧ a.arr.imc = false ∧ a.arr.energy = some A.macEnergy ∧ a.arr.area ≠ none ∧
    A.sizes.map (fun e => (e.1, (e.2 : Int))) = a.arr.dims.zip a.arr.sizes ∧ a.mems.length = A.mems.length ∧ ∀ x ∈ a.mems.zip A.mems, MemC x.1.2 x.2

instance (a : AccR) (A : AccD String) : Decidable (ReadC a A) := by unfold ReadC; infer_instance

/-- The file describes the accelerator. -/
def AccC (d : Doc) (A : AccD String) : Bool :=
  Files.accepts Files.accRule (Files.normalize Files.accRule d) &&
    match Files.readAcc (Files.normalize Files.accRule d) with
    | none => false
    | some a => decide (ReadC a A)

theorem accC {d : Doc} {A : AccD String} (h : AccC d A = true) (cacti : String → String → Int → Int → Except PyErr (ℚ × ℚ × ℚ)) : AccSays cacti d A := by
  unfold AccC at h
  rw [Bool.and_eq_true] at h
  obtain ⟨h1, h2⟩ := h
  refine ⟨h1, ?_⟩
  cases hr : Files.readAcc (Files.normalize Files.accRule d) with
  | none => rw [hr] at h2; cases h2
  | some a =>
    rw [hr] at h2
    obtain ⟨k1, k2, k3, k4, k5, k6, k7⟩ := of_decide_eq_true h2
    refine ⟨a, rfl, ?_, k2, k3, k4, k5, ?_⟩
    · cases hc : Files.checkAcc a with
      | error e => rw [hc] at k1; cases k1
      | ok b => rw [hc] at k1; cases k1; rfl
    · rw [List.forall₂_iff_zip]
      refine ⟨k6, fun {x m} hx => ?_⟩
      obtain ⟨m1, m2, m3, m4, m5, m6, m7, m8, m9, m10⟩ := k7 _ hx
      refine ⟨m1, m2, ?_, m5, fun _ => ⟨m7, m8, m9⟩, fun ha => (by rw [m6] at ha; cases ha), m10⟩
      rw [List.forall₂_iff_zip]
      refine ⟨m3, fun {p q} hp => ?_⟩
      obtain ⟨p1, p2, p3, p4, p5⟩ := m4 _ hp
      exact ⟨p1, p2, p3, p4, p5⟩

/-! ### A proper accelerator -/

/-- The ports of a memory. -/
def PortsC (m : MemD Operand String) : Prop :=
  (m.ports.map PortD.name).Nodup ∧ (∀ p ∈ m.ports, ∀ a ∈ p.alloc, a.1 ∈ m.operands) ∧ (∀ p ∈ m.ports, ∀ q ∈ m.ports, ∀ a ∈ p.alloc, a ∈ q.alloc → p = q) ∧
    (∀ p ∈ m.ports, 1 ≤ p.bwMin ∧ 1 ≤ p.bwMax) ∧ 1 ≤ m.size ∧ m.auto = false

instance (m : MemD Operand String) : Decidable (PortsC m) := by unfold PortsC; infer_instance

/-- The movements of a memory are declared; `post` are the memories after it. -/
def DeclC (m : MemD Operand String) (post : List (MemD Operand String)) : Prop :=
  ∀ op ∈ m.operands, ∀ d ∈ needed op (decide (∀ m' ∈ post, op ∉ m'.operands)), ∃ p ∈ m.ports, ∃ x ∈ p.alloc, x.1 = op ∧ meaning x.2 = d

instance (m : MemD Operand String) (post : List (MemD Operand String)) : Decidable (DeclC m post) := by unfold DeclC; infer_instance

/-- Memories listed from the inside to the outside. -/
def StackC (mems : List (MemD Operand String)) : Prop :=
  ∀ i ∈ List.range mems.length, ∀ j ∈ List.range mems.length, ∀ l ∈ List.range mems.length, i < j → j < l → ∀ a ∈ mems[i]?, ∀ b ∈ mems[j]?, ∀ c ∈ mems[l]?,
    ∀ op ∈ a.operands, op ∈ b.operands → op ∈ c.operands → ∀ o ∈ a.operands, Reuse.below mems i o ≤ Reuse.below mems j op

instance (mems : List (MemD Operand String)) : Decidable (StackC mems) := by unfold StackC; infer_instance

theorem stackC {mems : List (MemD Operand String)} (h : StackC mems) : Reuse.Stacked mems := by
  intro i j l a b c hij hjl ha hb hc op oa ob oc o ho
  have lt : ∀ {k : Nat} {x : MemD Operand String}, mems[k]? = some x → k ∈ List.range mems.length := fun hx =>
    List.mem_range.2 (List.getElem?_eq_some_iff.1 hx).1
  exact h i (lt ha) j (lt hb) l (lt hc) hij hjl a ha b hb c hc op oa ob oc o ho

/-- All conditions on the accelerator. -/
def FileC (a : AccD String) : Prop :=
  (∀ m ∈ a.mems, PortsC m ∧ m.served.Nodup ∧ ∀ oa ∈ m.served, oa ∈ a.sizes.keys) ∧ StackC a.mems ∧
    (∀ i ∈ List.range a.mems.length, ∀ m ∈ a.mems[i]?, DeclC m (a.mems.drop (i + 1))) ∧ (∀ e ∈ a.sizes, 1 ≤ e.2) ∧ a.sizes.keys.Nodup

instance (a : AccD String) : Decidable (FileC a) := by unfold FileC; infer_instance

theorem fileC {a : AccD String} (h : FileC a) : FileOk a := by
  obtain ⟨h1, h2, h3, h4, h5⟩ := h
  refine ⟨⟨fun m hm => ?_, fun op => Reuse.aligned_of_stacked (stackC h2) op, fun pre m post e op ho d hd => ?_, h4, h5⟩, fun m hm => (h1 m hm).2⟩
  · obtain ⟨⟨m1, m2, m3, m4, m5, m6⟩, -⟩ := h1 m hm
    exact ⟨m1, m2, fun p hp q hq x hx => m3 p hp q hq x hx, m4, m5, fun ha => (by rw [m6] at ha; cases ha)⟩
  · obtain ⟨e1, e2, -, e4⟩ := split_index e
    have := h3 _ e1 m (by rw [e2]; rfl) op ho d
    rw [e4] at this
    exact this hd

end Verif.Shipped
