import Verif.Imc.Model
import Mathlib.Tactic.Ring
import Mathlib.Tactic.Linarith
import Mathlib.Tactic.Positivity

/-! Specification of adder trees and lemmas on them. -/

namespace Verif.Imc

/-- A tree of adders; a leaf is an input that carries data or not. -/
inductive Tree where
  | leaf (active : Bool)
  | node (l r : Tree)

namespace Tree

def height : Tree → Nat
  | leaf _ => 0
  | node l r => max l.height r.height + 1

/-- Some input carries data. -/
def active : Tree → Bool
  | leaf a => a
  | node l r => l.active || r.active

def leaves : Tree → List Bool
  | leaf a => [a]
  | node l r => l.leaves ++ r.leaves

/-- One bit adders of the tree: an adder on subtrees of height `h` adds numbers of `p + h` bits. -/
def adders (p : Nat) : Tree → Nat
  | leaf _ => 0
  | node l r => l.adders p + r.adders p + (p + max l.height r.height)

/-- Those with data on both sides. -/
def full (p : Nat) : Tree → Nat
  | leaf _ => 0
  | node l r => l.full p + r.full p + (if l.active && r.active then p + max l.height r.height else 0)

/-- Those with data on exactly one side. -/
def half (p : Nat) : Tree → Nat
  | leaf _ => 0
  | node l r => l.half p + r.half p + (if l.active ^^ r.active then p + max l.height r.height else 0)

end Tree

/-- The balanced tree of depth `d` whose first `m` inputs carry data. -/
def fill : Nat → Nat → Tree
  | 0, m => .leaf (decide (0 < m))
  | d + 1, m => .node (fill d m) (fill d (m - 2 ^ d))

/-- `fill` is what it says. -/
theorem fill_leaves (d m : Nat) : (fill d m).leaves = (List.range (2 ^ d)).map fun i => decide (i < m) := by
  induction d generalizing m with
  | zero => simp [fill, Tree.leaves]
  | succ d ih =>
    rw [fill, Tree.leaves, ih, ih, show 2 ^ (d + 1) = 2 ^ d + 2 ^ d by ring, List.range_add, List.map_append, List.map_map]
    congr 1
    apply List.map_congr_left
    intro i _
    simp only [Function.comp_apply, decide_eq_decide]
    omega

theorem fill_height (d m : Nat) : (fill d m).height = d := by
  induction d generalizing m with
  | zero => rfl
  | succ d ih => simp [fill, Tree.height, ih]

theorem fill_active (d m : Nat) : (fill d m).active = decide (0 < m) := by
  induction d generalizing m with
  | zero => rfl
  | succ d ih =>
    simp only [fill, Tree.active, ih]
    rw [← Bool.decide_or]
    simp only [decide_eq_decide]
    have := Nat.sub_le m (2 ^ d)
    omega

theorem fill_adders (p d m : Nat) : ((fill d m).adders p : Int) = treeAdders (2 ^ d) p d := by
  induction d generalizing m with
  | zero => simp [fill, Tree.adders, treeAdders]
  | succ d ih =>
    simp only [fill, Tree.adders, fill_height, max_self]
    push_cast
    rw [ih, ih]
    unfold treeAdders
    push_cast
    ring

theorem fill_zero (p d : Nat) : (fill d 0).full p = 0 ∧ (fill d 0).half p = 0 := by
  induction d with
  | zero => exact ⟨rfl, rfl⟩
  | succ d ih => simp [fill, Tree.full, Tree.half, fill_active, ih]

theorem fill_all (p d m : Nat) (h : 2 ^ d ≤ m) : (fill d m).full p = (fill d m).adders p ∧ (fill d m).half p = 0 := by
  induction d generalizing m with
  | zero => exact ⟨rfl, rfl⟩
  | succ d ih =>
    have h2 : 2 ^ (d + 1) = 2 ^ d + 2 ^ d := by ring
    have hp : 0 < 2 ^ d := Nat.two_pow_pos d
    obtain ⟨h3, h4⟩ := ih m (by omega)
    obtain ⟨h5, h6⟩ := ih (m - 2 ^ d) (by omega)
    have a1 : (decide (0 < m)) = true := by simp; omega
    have a2 : (decide (0 < m - 2 ^ d)) = true := by simp; omega
    simp only [fill, Tree.full, Tree.half, Tree.adders, fill_active, h3, h4, h5, h6, a1, a2, Bool.and_self, if_true, Bool.xor_self,
      Bool.false_eq_true, if_false, and_self]

theorem active_loop (p k left : Nat) (f h : Int) (hl : left < 2 ^ k) :
    activeLoop p k left f h = some (f + ((fill k left).full p : Int), h + ((fill k left).half p : Int)) := by
  induction k generalizing left f h with
  | zero =>
    have : left = 0 := by simpa using hl
    subst this
    simp [activeLoop, fill, Tree.full, Tree.half]
  | succ k ih =>
    have h2 : 2 ^ (k + 1) = 2 ^ k + 2 ^ k := by ring
    have hp : 0 < 2 ^ k := Nat.two_pow_pos k
    rw [activeLoop]
    by_cases h0 : left = 0
    · subst h0
      simp [fill_zero]
    · rw [if_neg h0]
      have a1 : decide (0 < left) = true := by simp; omega
      by_cases hs : left ≤ 1 ∧ 2 ^ k = 1
      · rw [if_pos hs]
        have hk : k = 0 := by
          by_contra hc
          have := Nat.one_lt_two_pow hc
          omega
        have hl1 : left = 1 := by omega
        subst hk hl1
        simp [fill, Tree.full, Tree.half, Tree.active, Tree.height]
      · rw [if_neg hs]
        by_cases hgt : left > 2 ^ k
        · rw [if_pos hgt, ih _ _ _ (by omega)]
          obtain ⟨h3, h4⟩ := fill_all p k left (by omega)
          have a2 : decide (0 < left - 2 ^ k) = true := by simp; omega
          have e1 := fill_adders p k left
          simp only [fill, Tree.full, Tree.half, fill_active, fill_height, h3, h4, a1, a2, Bool.and_self, if_true, Bool.xor_self, max_self,
            Bool.false_eq_true, if_false]
          push_cast
          rw [e1]
          unfold treeAdders
          push_cast
          refine congrArg some (Prod.ext ?_ ?_) <;> simp <;> ring
        · rw [if_neg hgt]
          have e0 : left - 2 ^ k = 0 := by omega
          obtain ⟨z1, z2⟩ := fill_zero p k
          by_cases hlt : left < 2 ^ k
          · rw [if_pos hlt, ih _ _ _ hlt]
            simp only [fill, Tree.full, Tree.half, fill_active, fill_height, e0, z1, z2, a1, max_self]
            refine congrArg some (Prod.ext ?_ ?_) <;> simp <;> ring
          · rw [if_neg hlt]
            have heq : left = 2 ^ k := by omega
            obtain ⟨h3, h4⟩ := fill_all p k left (by omega)
            have e1 := fill_adders p k left
            simp only [fill, Tree.full, Tree.half, fill_active, fill_height, e0, z1, z2, h3, h4, a1, max_self]
            push_cast
            rw [e1]
            unfold treeAdders
            refine congrArg some (Prod.ext ?_ ?_) <;> simp

theorem full_half_le (p : Nat) (t : Tree) : t.full p + t.half p ≤ t.adders p := by
  induction t with
  | leaf a => simp [Tree.full, Tree.half, Tree.adders]
  | node l r ihl ihr =>
    simp only [Tree.full, Tree.half, Tree.adders]
    cases l.active <;> cases r.active <;> simp <;> omega

theorem fill_mono (p d : Nat) {m m' : Nat} (h : m ≤ m') :
    (fill d m).full p ≤ (fill d m').full p ∧ (fill d m).full p + (fill d m).half p ≤ (fill d m').full p + (fill d m').half p := by
  induction d generalizing m m' with
  | zero => exact ⟨le_refl _, le_refl _⟩
  | succ d ih =>
    obtain ⟨h1, h2⟩ := ih h
    obtain ⟨h3, h4⟩ := ih (m := m - 2 ^ d) (m' := m' - 2 ^ d) (by omega)
    simp only [fill, Tree.full, Tree.half, fill_active, fill_height, max_self]
    by_cases a : 0 < m <;> by_cases b : 0 < m - 2 ^ d <;> by_cases c : 0 < m' <;> by_cases e : 0 < m' - 2 ^ d <;>
      simp [a, b, c, e] <;> omega

end Verif.Imc
