import Verif.HwEq.Lemmas

/-! Properties C105, C106 and C107: equality, `has_same_performance` and hashes of hardware descriptions. -/

namespace Verif.HwEq

open Verif.Ports (Dir PType LvState)
open Verif.Hierarchy (sameTable)

variable {Op Dim Arr : Type} [DecidableEq Op] [DecidableEq Dim]

/-! ### Specification -/

/-- Every memory stores at least one operand, each listed once; the served dimensions are a set. -/
def Valid (specs : List (Spec Op Dim)) : Prop := ∀ s ∈ specs, s.operands.Nodup ∧ s.operands ≠ [] ∧ s.served.Nodup

/-- Two memories with the same data: everything a user can state about a memory except the identity of the ports. -/
structure SameMemory (a b : Level Op Dim) : Prop where
  name : a.inst.name = b.inst.name
  size : a.inst.size = b.inst.size
  read : a.inst.rCost = b.inst.rCost
  write : a.inst.wCost = b.inst.wCost
  area : a.inst.area = b.inst.area
  latency : a.inst.latency = b.inst.latency
  double : a.inst.double = b.inst.double
  group : a.inst.group = b.inst.group
  allPorts : List.Forall₂ PortLike a.inst.ports b.inst.ports
  usedPorts : List.Forall₂ PortLike a.ports b.ports
  operands : a.operands = b.operands
  levels : ∀ k, a.levels.get? k = b.levels.get? k
  served : ∀ x, x ∈ a.served ↔ x ∈ b.served

/-- The same, without name, area and sharing group. -/
structure SamePerformance (a b : Level Op Dim) : Prop where
  size : a.inst.size = b.inst.size
  read : a.inst.rCost = b.inst.rCost
  write : a.inst.wCost = b.inst.wCost
  latency : a.inst.latency = b.inst.latency
  double : a.inst.double = b.inst.double
  allPorts : List.Forall₂ PortLike a.inst.ports b.inst.ports
  usedPorts : List.Forall₂ PortLike a.ports b.ports
  operands : a.operands = b.operands
  levels : ∀ k, a.levels.get? k = b.levels.get? k
  served : ∀ x, x ∈ a.served ↔ x ∈ b.served

theorem levelEq_iff {a b : Level Op Dim} (ha : a.levels.WF) (hb : b.levels.WF) (sa : a.served.Nodup) (sb : b.served.Nodup) :
    levelEq a b = true ↔ SameMemory a b := by
  simp only [levelEq, instEq, Bool.and_eq_true, decide_eq_true_eq, sameTable_iff ha hb, servedEq_iff sa sb, portsEq_iff]
  constructor
  · rintro ⟨⟨⟨⟨⟨⟨⟨⟨⟨⟨⟨⟨h1, h2⟩, h3⟩, h4⟩, h5⟩, h6⟩, h7⟩, h8⟩, h9⟩, h10⟩, h11⟩, h12⟩, h13⟩
    exact ⟨h1, h2, h3, h4, h5, h6, h8, h9, h7, h12, h10, h11, h13⟩
  · rintro ⟨h1, h2, h3, h4, h5, h6, h8, h9, h7, h12, h10, h11, h13⟩
    exact ⟨⟨⟨⟨⟨⟨⟨⟨⟨⟨⟨⟨h1, h2⟩, h3⟩, h4⟩, h5⟩, h6⟩, h7⟩, h8⟩, h9⟩, h10⟩, h11⟩, h12⟩, h13⟩

theorem levelSame_iff {a b : Level Op Dim} (ha : a.levels.WF) (hb : b.levels.WF) (sa : a.served.Nodup) (sb : b.served.Nodup) :
    levelSame a b = true ↔ SamePerformance a b := by
  simp only [levelSame, instSame, Bool.and_eq_true, decide_eq_true_eq, sameTable_iff ha hb, servedEq_iff sa sb, portsEq_iff]
  constructor
  · rintro ⟨⟨⟨⟨⟨⟨⟨⟨⟨h2, h3⟩, h4⟩, h6⟩, h7⟩, h8⟩, h10⟩, h11⟩, h12⟩, h13⟩
    exact ⟨h2, h3, h4, h6, h8, h7, h12, h10, h11, h13⟩
  · rintro ⟨h2, h3, h4, h6, h8, h7, h12, h10, h11, h13⟩
    exact ⟨⟨⟨⟨⟨⟨⟨⟨⟨h2, h3⟩, h4⟩, h6⟩, h7⟩, h8⟩, h10⟩, h11⟩, h12⟩, h13⟩

theorem zip_forall₂ {A B : List (Spec Op Dim)} {a b : Hier Op Dim} (hA : Valid A) (hB : Valid B) (ba : Built A a) (bb : Built B b)
    (f : Level Op Dim → Level Op Dim → Bool) (hf : ∀ x y, f x y = true → x.operands = y.operands) (hn : sameTable a.nb b.nb = true) :
    allZip f a.nodes b.nodes = true ↔ List.Forall₂ (fun x y => f x y = true) a.nodes b.nodes := by
  refine ⟨fun h => ?_, allZip_of_forall₂ f⟩
  have hnb : ∀ k, (Hierarchy.build (A.map Spec.operands)).nb.get? k = (Hierarchy.build (B.map Spec.operands)).nb.get? k := by
    rw [ba.nb, bb.nb] at hn
    exact (sameTable_iff (wf_nb _) (wf_nb _)).1 hn
  have ops_of : ∀ {x y : List (Level Op Dim)} {g : Level Op Dim → Level Op Dim → Bool}, (∀ u v, g u v = true → u.operands = v.operands) →
      List.Forall₂ (fun u v => g u v = true) x y → x.map Level.operands = y.map Level.operands := by
    intro x y g hg h
    induction h with
    | nil => rfl
    | cons hab _ ih => simp [hg _ _ hab, ih]
  have vA : ∀ l ∈ A.map Spec.operands, l.Nodup ∧ l ≠ [] := by
    intro l hl
    obtain ⟨s, hs, rfl⟩ := List.mem_map.1 hl
    exact ⟨(hA s hs).1, (hA s hs).2.1⟩
  have vB : ∀ l ∈ B.map Spec.operands, l.Nodup ∧ l ≠ [] := by
    intro l hl
    obtain ⟨s, hs, rfl⟩ := List.mem_map.1 hl
    exact ⟨(hB s hs).1, (hB s hs).2.1⟩
  rcases Nat.le_total a.nodes.length b.nodes.length with hl | hl
  · obtain ⟨pre, post, he, hp⟩ := allZip_le f _ _ hl h
    have hrest : post.map Level.operands = [] := by
      apply no_more (fun l hl => (vA l hl).1) vB (he := ?_) hnb
      rw [← bb.ops, ← ba.ops, ops_of hf hp, he, List.map_append]
    rw [List.map_eq_nil_iff] at hrest
    rw [he, hrest, List.append_nil]
    exact hp
  · rw [allZip_flip] at h
    obtain ⟨pre, post, he, hp⟩ := allZip_le _ _ _ hl h
    have hrest : post.map Level.operands = [] := by
      apply no_more (fun l hl => (vB l hl).1) vA (he := ?_) (fun k => (hnb k).symm)
      rw [← bb.ops, ← ba.ops, ops_of (fun u v h => (hf v u h).symm) hp, he, List.map_append]
    rw [List.map_eq_nil_iff] at hrest
    rw [he, hrest, List.append_nil]
    exact List.Forall₂.flip hp

theorem forall₂_iff {A : Type} {P Q : A → A → Prop} {x y : List A} (h : ∀ a ∈ x, ∀ b ∈ y, (P a b ↔ Q a b)) : List.Forall₂ P x y ↔ List.Forall₂ Q x y := by
  constructor
  · intro hp
    induction hp with
    | nil => exact .nil
    | cons hab _ ih => exact .cons ((h _ (by simp) _ (by simp)).1 hab) (ih (fun a ha b hb => h a (by simp [ha]) b (by simp [hb])))
  · intro hp
    induction hp with
    | nil => exact .nil
    | cons hab _ ih => exact .cons ((h _ (by simp) _ (by simp)).2 hab) (ih (fun a ha b hb => h a (by simp [ha]) b (by simp [hb])))

theorem served_nodup {A : List (Spec Op Dim)} {a : Hier Op Dim} (hA : Valid A) (ba : Built A a) : ∀ l ∈ a.nodes, l.served.Nodup := by
  intro l hl
  obtain ⟨s, hs, e⟩ := ba.served l hl
  rw [e]; exact (hA s hs).2.2

/-! ### C105 -/

/-- Hierarchies compare equal exactly when they have equally many memories and the memories, in the order in which they were added, have the
same data; although only as many memories are compared as the smaller one has, no memory goes unnoticed. -/
theorem hierarchy_eq {A B : List (Spec Op Dim)} {a b : Hier Op Dim} (hA : Valid A) (hB : Valid B) (ha : build A = .ok a) (hb : build B = .ok b) :
    hierEq a b = true ↔ (∀ k, a.nb.get? k = b.nb.get? k) ∧ List.Forall₂ SameMemory a.nodes b.nodes := by
  have ba := built ha
  have bb := built hb
  have hw : sameTable a.nb b.nb = true ↔ ∀ k, a.nb.get? k = b.nb.get? k := by
    rw [ba.nb, bb.nb]; exact sameTable_iff (wf_nb _) (wf_nb _)
  have hl : List.Forall₂ (fun x y => levelEq x y = true) a.nodes b.nodes ↔ List.Forall₂ SameMemory a.nodes b.nodes :=
    forall₂_iff (fun x hx y hy => levelEq_iff (ba.wf x hx) (bb.wf y hy) (served_nodup hA ba x hx) (served_nodup hB bb y hy))
  unfold hierEq
  rw [Bool.and_eq_true, ← hw, ← hl]
  constructor
  · rintro ⟨h1, h2⟩
    refine ⟨h1, (zip_forall₂ hA hB ba bb _ ?_ h1).1 h2⟩
    intro x y h
    simp only [levelEq, Bool.and_eq_true, decide_eq_true_eq] at h
    exact h.1.1.1.2
  · rintro ⟨h1, h2⟩
    exact ⟨h1, allZip_of_forall₂ _ h2⟩

/-- The same for `has_same_performance`. -/
theorem hierarchy_same {A B : List (Spec Op Dim)} {a b : Hier Op Dim} (hA : Valid A) (hB : Valid B) (ha : build A = .ok a) (hb : build B = .ok b) :
    hierSame a b = true ↔ (∀ k, a.nb.get? k = b.nb.get? k) ∧ List.Forall₂ SamePerformance a.nodes b.nodes := by
  have ba := built ha
  have bb := built hb
  have hw : sameTable a.nb b.nb = true ↔ ∀ k, a.nb.get? k = b.nb.get? k := by
    rw [ba.nb, bb.nb]; exact sameTable_iff (wf_nb _) (wf_nb _)
  have hl : List.Forall₂ (fun x y => levelSame x y = true) a.nodes b.nodes ↔ List.Forall₂ SamePerformance a.nodes b.nodes :=
    forall₂_iff (fun x hx y hy => levelSame_iff (ba.wf x hx) (bb.wf y hy) (served_nodup hA ba x hx) (served_nodup hB bb y hy))
  unfold hierSame
  rw [Bool.and_eq_true, ← hw, ← hl]
  constructor
  · rintro ⟨h1, h2⟩
    refine ⟨h1, (zip_forall₂ hA hB ba bb _ ?_ h1).1 h2⟩
    intro x y h
    simp only [levelSame, Bool.and_eq_true, decide_eq_true_eq] at h
    exact h.1.1.1.2
  · rintro ⟨h1, h2⟩
    exact ⟨h1, allZip_of_forall₂ _ h2⟩

theorem SameMemory.refl (a : Level Op Dim) : SameMemory a a :=
  ⟨rfl, rfl, rfl, rfl, rfl, rfl, rfl, rfl, forall₂_refl (fun _ => ⟨rfl, rfl, rfl⟩) _, forall₂_refl (fun _ => ⟨rfl, rfl, rfl⟩) _, rfl, fun _ => rfl, fun _ => Iff.rfl⟩

theorem SameMemory.symm {a b : Level Op Dim} (h : SameMemory a b) : SameMemory b a :=
  ⟨h.1.symm, h.2.symm, h.3.symm, h.4.symm, h.5.symm, h.6.symm, h.7.symm, h.8.symm, forall₂_symm (fun _ _ => portLike_symm) h.9,
    forall₂_symm (fun _ _ => portLike_symm) h.10, h.11.symm, fun k => (h.12 k).symm, fun x => (h.13 x).symm⟩

theorem SameMemory.trans {a b c : Level Op Dim} (h : SameMemory a b) (k : SameMemory b c) : SameMemory a c :=
  ⟨h.1.trans k.1, h.2.trans k.2, h.3.trans k.3, h.4.trans k.4, h.5.trans k.5, h.6.trans k.6, h.7.trans k.7, h.8.trans k.8,
    forall₂_trans (P := PortLike) (fun _ _ _ u v => portLike_trans u v) h.9 k.9, forall₂_trans (P := PortLike) (fun _ _ _ u v => portLike_trans u v) h.10 k.10, h.11.trans k.11,
    fun x => (h.12 x).trans (k.12 x), fun x => (h.13 x).trans (k.13 x)⟩

/-- An array comparison that is an equivalence. -/
structure Equiv (e : Arr → Arr → Bool) : Prop where
  refl : ∀ a, e a a = true
  symm : ∀ a b, e a b = true → e b a = true
  trans : ∀ a b c, e a b = true → e b c = true → e a c = true

/-- Equality of accelerators is an equivalence relation. -/
theorem accelerator_eq_equiv {e : Arr → Arr → Bool} (he : Equiv e) {A B C : List (Spec Op Dim)} {x y z : Acc Arr Op Dim} (hA : Valid A) (hB : Valid B)
    (hC : Valid C) (hx : build A = .ok x.mem) (hy : build B = .ok y.mem) (hz : build C = .ok z.mem) :
    accEq e x x = true ∧ (accEq e x y = true → accEq e y x = true) ∧ (accEq e x y = true → accEq e y z = true → accEq e x z = true) := by
  unfold accEq
  simp only [Bool.and_eq_true, decide_eq_true_eq]
  rw [hierarchy_eq hA hA hx hx, hierarchy_eq hA hB hx hy, hierarchy_eq hB hA hy hx, hierarchy_eq hB hC hy hz, hierarchy_eq hA hC hx hz]
  refine ⟨⟨⟨trivial, he.refl _⟩, fun _ => rfl, forall₂_refl SameMemory.refl _⟩, ?_, ?_⟩
  · rintro ⟨⟨h1, h2⟩, h3, h4⟩
    exact ⟨⟨h1.symm, he.symm _ _ h2⟩, fun k => (h3 k).symm, forall₂_symm (fun _ _ => SameMemory.symm) h4⟩
  · rintro ⟨⟨h1, h2⟩, h3, h4⟩ ⟨⟨g1, g2⟩, g3, g4⟩
    exact ⟨⟨h1.trans g1, he.trans _ _ _ h2 g2⟩, fun k => (h3 k).trans (g3 k), forall₂_trans (P := SameMemory) (fun _ _ _ u v => SameMemory.trans u v) h4 g4⟩

/-- Equal accelerators have the same performance in the sense of `has_same_performance`, whatever their memories are. -/
theorem eq_same {e : Arr → Arr → Bool} {x y : Acc Arr Op Dim} (h : accEq e x y = true) : accSame e x y = true := by
  unfold accEq hierEq allZip at h
  unfold accSame hierSame allZip
  simp only [Bool.and_eq_true, List.all_eq_true] at h ⊢
  refine ⟨h.1.2, h.2.1, fun p hp => ?_⟩
  have := h.2.2 p hp
  simp only [levelEq, levelSame, instEq, instSame, Bool.and_eq_true] at this ⊢
  tauto

/-! ### C106 -/

theorem asPortD_eq {x y : List Port} (hp : List.Forall₂ PortLike x y) (hn : x.map Port.name = y.map Port.name) :
    (x.map asPortD : List (Ports.PortD Op)) = y.map asPortD := by
  induction hp with
  | nil => rfl
  | cons hab _ ih =>
    obtain ⟨h1, h2, h3⟩ := hab
    simp only [List.map_cons, List.cons.injEq] at hn
    have := ih hn.2
    simp only [List.map_cons, List.cons.injEq]
    exact ⟨by simp [asPortD, h1, h2, h3, hn.1], this⟩

theorem mkLevels_bw : ∀ (A B : List (Spec Op Dim)) (ms : List (Hierarchy.Mem Op)) (x y : List (Level Op Dim)), A.length = ms.length → B.length = ms.length →
    mkLevels A ms = .ok x → mkLevels B ms = .ok y → List.Forall₂ SamePerformance x y →
    A.map (fun s => s.inst.ports.map Port.name) = B.map (fun s => s.inst.ports.map Port.name) → A.map Spec.alloc = B.map Spec.alloc →
    List.Forall₂ (fun a b => ∀ op d, a.bw op d = b.bw op d) x y := by
  intro A B ms x y lA lB hA hB hs hn hal
  have fA := mkLevels_ok A ms x lA hA
  have fB := mkLevels_ok B ms y lB hB
  clear hA hB
  induction hs generalizing A B ms with
  | nil => exact .nil
  | cons hab _ ih =>
    cases ms with
    | nil => simp at fA
    | cons m ms =>
      cases A with
      | nil => simp at fA
      | cons s A =>
        cases B with
        | nil => simp at fB
        | cons t B =>
          rw [List.zip_cons_cons] at fA fB
          cases fA with
          | cons a1 a2 =>
            cases fB with
            | cons b1 b2 =>
              simp only [List.map_cons, List.cons.injEq] at hn hal
              refine .cons ?_ (ih A B ms (by simpa using lA) (by simpa using lB) hn.2 hal.2 a2 b2)
              obtain ⟨st, h1, rfl⟩ := mkLevel_ok a1
              obtain ⟨st', h2, rfl⟩ := mkLevel_ok b1
              have hp := hab.allPorts
              simp only at hp h1 h2
              rw [asPortD_eq hp hn.1, hal.1, h2] at h1
              cases h1
              exact fun _ _ => rfl

/-- What `has_same_performance` promises holds if, in addition, the ports have the same names and every operand uses the ports of the same names: then every memory
not only has the same size, costs, ports, operands, levels and served dimensions, it also gives every operand the same bandwidths in every direction. -/
theorem same_performance_partial {A B : List (Spec Op Dim)} {a b : Hier Op Dim} (hA : Valid A) (hB : Valid B) (ha : build A = .ok a) (hb : build B = .ok b)
    (hsame : hierSame a b = true) (hnames : A.map (fun s => s.inst.ports.map Port.name) = B.map (fun s => s.inst.ports.map Port.name))
    (halloc : A.map Spec.alloc = B.map Spec.alloc) :
    List.Forall₂ (fun x y => SamePerformance x y ∧ ∀ op d, x.bw op d = y.bw op d) a.nodes b.nodes := by
  have hs := ((hierarchy_same hA hB ha hb).1 hsame).2
  have hops : A.map Spec.operands = B.map Spec.operands := by
    rw [← (built ha).ops, ← (built hb).ops]
    clear ha hb hsame
    generalize a.nodes = x at hs
    generalize b.nodes = y at hs
    induction hs with
    | nil => rfl
    | cons hab _ ih => simp [hab.operands, ih]
  have key : List.Forall₂ (fun x y : Level Op Dim => ∀ op d, x.bw op d = y.bw op d) a.nodes b.nodes := by
    unfold build at ha hb
    simp only at ha hb
    rw [hops] at ha
    cases h1 : mkLevels A (Hierarchy.build (B.map Spec.operands)).nodes with
    | error e => rw [h1] at ha; cases ha
    | ok x =>
      cases h2 : mkLevels B (Hierarchy.build (B.map Spec.operands)).nodes with
      | error e => rw [h2] at hb; cases hb
      | ok y =>
        simp only [h1, Except.ok.injEq] at ha
        simp only [h2, Except.ok.injEq] at hb
        subst ha
        subst hb
        have lB : B.length = (Hierarchy.build (B.map Spec.operands)).nodes.length := by rw [Hierarchy.length_build, List.length_map]
        have lA : A.length = B.length := by simpa using congrArg List.length hops
        exact mkLevels_bw A B _ x y (lA.trans lB) lB h1 h2 hs hnames halloc
  clear hsame ha hb
  generalize a.nodes = x at hs key
  generalize b.nodes = y at hs key
  induction hs with
  | nil => exact .nil
  | cons hab _ ih =>
    cases key with
    | cons k1 k2 => exact .cons ⟨hab, k1⟩ (ih k2)

/-- A memory of a concrete size with a narrow and a wide reading port and one writing port. -/
def inst0 (i : Nat) : Inst :=
  ⟨"sram", 4096, 1, 2, 0, 1, [⟨"r_port_1", .read, 8, 64, i⟩, ⟨"r_port_2", .read, 8, 512, i + 1⟩, ⟨"w_port_1", .write, 8, 64, i + 2⟩], false, -1⟩

/-- The memory with operand `I1` on the port `p` and `I2` on the port `q`. -/
def spec0 (i : Nat) (p q : String) : Spec String Nat :=
  ⟨inst0 i, ["I1", "I2"], [("I1", [(.rdLow, p), (.wrHigh, "w_port_1")]), ("I2", [(.rdLow, q), (.wrHigh, "w_port_1")])], [1, 2]⟩

/-- Bandwidths as a list. -/
def bws (h : Except PyErr (Hier String Nat)) : Option (List (Option (Int × Int))) :=
  match h with
  | .ok h => some (h.nodes.map fun l => l.bw "I1" .rdLow)
  | .error _ => none

/-- Whether two hierarchies are built and compare equal, and whether they claim the same performance. -/
def compared (a b : Except PyErr (Hier String Nat)) : Option (Bool × Bool) :=
  match a, b with
  | .ok a, .ok b => some (hierEq a b, hierSame a b)
  | _, _ => none

/-- Two accelerators that differ in which operand uses which port compare equal and claim the same performance although the first operand is read at 64 bits
per cycle in one and at 512 in the other: ports are compared one by one by width and kind, which operand is allocated to them is not. -/
theorem same_performance_false : compared (build [spec0 0 "r_port_1" "r_port_2"]) (build [spec0 3 "r_port_2" "r_port_1"]) = some (true, true) ∧
    bws (build [spec0 0 "r_port_1" "r_port_2"]) = some [some (8, 64)] ∧ bws (build [spec0 3 "r_port_2" "r_port_1"]) = some [some (8, 512)] := by
  decide +kernel

/-- A memory that stores no operand (accepted by the validator, accelerator_validator.py lines 52-56) breaks equality: the hierarchy with one memory is equal
to both hierarchies with an additional empty memory of different size, which are not equal to each other, so equality is not transitive, and memories go
unnoticed. -/
theorem equality_empty_false :
    let m := spec0 0 "r_port_1" "r_port_2"
    let e1 : Spec String Nat := ⟨{ inst0 0 with size := 8 }, [], [], []⟩
    let e2 : Spec String Nat := ⟨{ inst0 0 with size := 16 }, [], [], []⟩
    compared (build [m, e1]) (build [m]) = some (true, true) ∧ compared (build [m]) (build [m, e2]) = some (true, true) ∧
      compared (build [m, e1]) (build [m, e2]) = some (false, false) := by
  decide +kernel

/-! ### C107 -/

/-- Equal accelerators have equal hashes. -/
theorem accelerator_hash {e : Arr → Arr → Bool} {x y : Acc Arr Op Dim} (h : accEq e x y = true) : accHash x = accHash y := by
  simp only [accEq, Bool.and_eq_true, decide_eq_true_eq] at h
  exact h.1.1

theorem portIds_ge : ∀ (n c : Nat), ∀ i ∈ portIds c (List.replicate n none), c ≤ i
  | 0, c, i, h => by simp [portIds] at h
  | n + 1, c, i, h => by
    simp only [List.replicate_succ, portIds, newPortId, List.mem_cons] at h
    rcases h with rfl | h
    · exact le_refl _
    · have := portIds_ge n (c + 1) i h
      omega

/-- Ports created without asking for an identifier, as from an accelerator file, never share one, at whatever value the counter starts. -/
theorem port_ids_distinct : ∀ (n c : Nat), (portIds c (List.replicate n none)).Nodup
  | 0, c => by simp [portIds]
  | n + 1, c => by
    simp only [List.replicate_succ, portIds, newPortId, List.nodup_cons]
    refine ⟨fun h => ?_, port_ids_distinct n (c + 1)⟩
    have := portIds_ge n (c + 1) c h
    omega

/-- As long as identifiers are distinct, tables with ports as keys (`loading_cycles_during_computation` and others, cost_model.py lines 867-877) keep the ports
apart: looking up a port gives what was stored for that very port. -/
theorem port_table {V : Type} (ps : List (Port × V)) (hd : (ps.map fun e => e.1.id).Nodup) (e : Port × V) (he : e ∈ ps) :
    pyLookup portHash portEq e.1 ps = some e.2 := by
  induction ps with
  | nil => cases he
  | cons x t ih =>
    rw [List.map_cons, List.nodup_cons] at hd
    rw [pyLookup]
    rcases List.mem_cons.1 he with rfl | he
    · rw [if_pos ⟨rfl, (portEq_iff _ _).2 ⟨rfl, rfl, rfl⟩⟩]
    · rw [if_neg, ih hd.2 he]
      rintro ⟨h1, _⟩
      exact hd.1 (List.mem_map.2 ⟨e, he, h1.symm⟩)

/-- Asking for an identifier sets the counter back: ports created later get identifiers that are already in use. -/
theorem port_ids_false : portIds 0 [none, none, some 0, none] = [0, 1, 0, 1] := by decide +kernel

/-- Ports with the same identifier and the same width are taken for the same key although they are different ports: the value stored for the second one is lost. -/
theorem port_table_false : pyLookup portHash portEq ⟨"b", .read, 8, 64, 0⟩ [(⟨"a", .read, 8, 64, 0⟩, 1), (⟨"b", .read, 8, 64, 0⟩, 2)] = some 1 := by decide +kernel

/-- Equal ports can have different hashes: a set or dictionary with one does not contain the other. -/
theorem port_hash_false : ∃ p q : Port, portEq p q = true ∧ portHash p ≠ portHash q ∧ pyLookup portHash portEq q [(p, ())] = none :=
  ⟨⟨"a", .read, 8, 64, 0⟩, ⟨"a", .read, 8, 64, 1⟩, by decide +kernel⟩

/-- The same for memories: equal memories of two accelerators have different hashes as soon as their places in the two hierarchies differ, for every hash function
without collisions. -/
theorem level_hash_false (h : Nat → Nat) (hi : Function.Injective h) : ∃ a b : Level String Nat, levelEq a b = true ∧ levelHash h a ≠ levelHash h b := by
  refine ⟨⟨0, inst0 0, ["I1"], [("I1", 0)], [1], [], fun _ _ => none⟩, ⟨1, inst0 0, ["I1"], [("I1", 0)], [1], [], fun _ _ => none⟩, by decide +kernel, ?_⟩
  intro hc
  exact absurd (hi hc) (by decide)

/-! ### Spatial mappings -/

theorem dimEq_iff (a b : Dict Dim ℚ) : dimEq a b = true ↔ ∀ d, a.get? d = b.get? d := by
  simp only [dimEq, Bool.and_eq_true, List.all_eq_true, decide_eq_true_eq]
  constructor
  · rintro ⟨⟨h1, h2⟩, h3⟩ d
    by_cases hd : d ∈ a.keys
    · exact h3 d hd
    · have hd' : d ∉ b.keys := fun hc => hd (h2 d hc)
      rw [(Dict.get?_eq_none_iff _ _).2 hd, (Dict.get?_eq_none_iff _ _).2 hd']
  · intro h
    have hk : ∀ d, d ∈ a.keys ↔ d ∈ b.keys := by
      intro d
      have h1 : d ∉ a.keys ↔ d ∉ b.keys := by
        rw [← Dict.get?_eq_none_iff, ← Dict.get?_eq_none_iff, h d]
      exact not_iff_not.1 h1
    exact ⟨⟨fun d hd => (hk d).1 hd, fun d hd => (hk d).2 hd⟩, fun d _ => h d⟩

/-- Spatial mappings compare equal exactly when they mention the same array dimensions and give every layer dimension the same unrolling on each, whatever the order
in which they were written down. -/
theorem mapping_eq {OA : Type} [DecidableEq OA] (a b : Dict OA (Dict Dim ℚ)) :
    mappingEq a b = true ↔ ∀ oa, (a.get? oa = none ↔ b.get? oa = none) ∧ ∀ x y, a.get? oa = some x → b.get? oa = some y → ∀ d, x.get? d = y.get? d := by
  simp only [mappingEq, Bool.and_eq_true, List.all_eq_true, decide_eq_true_eq]
  constructor
  · rintro ⟨⟨h1, h2⟩, h3⟩ oa
    have hk : oa ∈ a.keys ↔ oa ∈ b.keys := ⟨h1 oa, h2 oa⟩
    refine ⟨?_, ?_⟩
    · rw [Dict.get?_eq_none_iff, Dict.get?_eq_none_iff]
      exact not_congr hk
    · intro x y hx hy
      have := h3 oa (List.mem_map.2 ⟨_, Dict.mem_of_get? hx, rfl⟩)
      rw [hx, hy] at this
      exact (dimEq_iff x y).1 this
  · intro h
    have hk : ∀ oa, oa ∈ a.keys ↔ oa ∈ b.keys := by
      intro oa
      have := (h oa).1
      rw [Dict.get?_eq_none_iff, Dict.get?_eq_none_iff] at this
      exact not_iff_not.1 this
    refine ⟨⟨fun d hd => (hk d).1 hd, fun d hd => (hk d).2 hd⟩, ?_⟩
    intro oa hoa
    cases hx : a.get? oa with
    | none => exact absurd hoa ((Dict.get?_eq_none_iff _ _).1 hx)
    | some x =>
      cases hy : b.get? oa with
      | none => exact absurd ((hk oa).1 hoa) ((Dict.get?_eq_none_iff _ _).1 hy)
      | some y => exact (dimEq_iff x y).2 ((h oa).2 x y hx hy)

/-- Equal spatial mappings can have different hashes: an unrolling of two layer dimensions on one array dimension, written down in the two possible orders, for all hash
functions without collisions. -/
theorem mapping_hash_false (h1 : List (String × ℚ) → Nat) (h2 : List (String × Nat) → Nat) (i1 : Function.Injective h1) (i2 : Function.Injective h2) :
    ∃ a b : Dict String (Dict String ℚ), mappingEq a b = true ∧ mappingHash h1 h2 id a ≠ mappingHash h1 h2 id b := by
  refine ⟨[("D1", [("K", 2), ("C", 4)])], [("D1", [("C", 4), ("K", 2)])], by decide +kernel, ?_⟩
  intro hc
  have := i2 hc
  simp only [id, List.map_cons, List.map_nil, List.cons.injEq, Prod.mk.injEq, true_and, and_true] at this
  exact absurd (i1 this) (by decide +kernel)

/-! ### Concrete cases -/

example : mappingEq ([("D1", [("K", 2), ("C", 4)]), ("D2", [])] : Dict String (Dict String ℚ)) [("D2", []), ("D1", [("C", 4), ("K", 2)])] = true ∧
    mappingEq ([("D1", [("K", 2), ("C", 4)])] : Dict String (Dict String ℚ)) [("D2", []), ("D1", [("C", 4), ("K", 2)])] = false := by decide +kernel


/-- The hypotheses are met: two memories built twice with different port identifiers compare equal. -/
example : Valid [spec0 0 "r_port_1" "r_port_2"] := by
  intro s hs
  rw [List.mem_singleton.1 hs]
  exact ⟨by decide, by decide, by decide⟩

example : compared (build [spec0 0 "r_port_1" "r_port_2", spec0 3 "r_port_2" "r_port_1"]) (build [spec0 6 "r_port_1" "r_port_2", spec0 9 "r_port_2" "r_port_1"]) =
    some (true, true) := by decide +kernel

/-- One memory more, or another size: not equal. -/
example : compared (build [spec0 0 "r_port_1" "r_port_2", spec0 3 "r_port_2" "r_port_1"]) (build [spec0 6 "r_port_1" "r_port_2"]) = some (false, false) ∧
    compared (build [spec0 0 "r_port_1" "r_port_2"]) (build [{ spec0 0 "r_port_1" "r_port_2" with inst := { inst0 0 with size := 8 } }]) = some (false, false) ∧
    compared (build [spec0 0 "r_port_1" "r_port_2"]) (build [{ spec0 0 "r_port_1" "r_port_2" with inst := { inst0 0 with name := "x" } }]) = some (false, true) := by
  decide +kernel

example : Equiv (fun a b : Nat => decide (a = b)) := ⟨by simp, by simp [eq_comm], by simp +contextual⟩

end Verif.HwEq
