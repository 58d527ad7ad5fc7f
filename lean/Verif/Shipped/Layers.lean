import Verif.Call.Props
import Verif.Shipped.Check

/-! Layers of usual forms, of any size, and entries of mapping files: what has to be checked so that they fit an accelerator. -/

namespace Verif.Shipped

open Call (LayerFits Written dimsOf opName)
open Equation (Text Eqn Term upper isAlnum isBlank)
open Files (Doc MapR MapAttr)
open Latency (Operand)
open LayerBuild (LayerD Good GivenPr ComputedPr mkRel)
open LayerNode (Relation Axis axisOf)
open Net (FileOk Innermost)
open Ports (MemD PortD)
open Whole (AccD)

/-- A text. -/
def tx (s : String) : Text := s.toList

/-- A form of layers: the equation, the dimensions, and for every dimension of the equation that is not one of the layer the two dimensions that it depends on. -/
structure Form where
  eqn : Eqn
  dims : List Text
  axes : List (Text × Text × Text)

/-- The dimensions that an index depends on. -/
def Form.vars (f : Form) (x : Text) : List Text :=
  match f.axes.find? (fun a => a.1 = x) with
  | some a => [a.2.1, a.2.2]
  | none => [x]

/-- A form with one result and two operands. -/
def FormC (f : Form) : Prop :=
  (∀ t ∈ f.eqn.terms, t.name ≠ [] ∧ (∀ c ∈ t.name, isAlnum c = true) ∧ (∀ d ∈ t.dims, ∀ c ∈ d, isAlnum c = true) ∧
    (∀ x ∈ t.dims, x ≠ [] → upper x ∈ f.dims ∨ ∃ a ∈ f.axes, upper x = a.1) ∧ (dimsOf t).Nodup ∧
    ((∀ a ∈ f.axes, a.1 ∈ dimsOf t) ∨ ∀ a ∈ f.axes, a.1 ∉ dimsOf t) ∧ ((dimsOf t).flatMap f.vars).Nodup) ∧
  (∀ r ∈ f.eqn.rest, (∀ c ∈ r.before, isBlank c = true) ∧ (∀ c ∈ r.after, isBlank c = true)) ∧ (∀ c ∈ f.eqn.trailing, isBlank c = true) ∧
  (f.axes.map Prod.fst).Nodup ∧ f.dims.Nodup ∧ f.dims ≠ [] ∧ (∀ a ∈ f.axes, a.2.1 ∈ f.dims ∧ a.2.2 ∈ f.dims ∧ a.1 ∉ f.dims) ∧
  f.eqn.out.name = tx "O" ∧ (f.eqn.rest.map fun r => r.term.name) ∈ [[tx "W", tx "I"], [tx "I", tx "W"]]

instance (f : Form) : Decidable (FormC f) := by unfold FormC; infer_instance

/-- A layer of a form, with any positive sizes, strides and dilations, and precisions of at most `lim.1` bits for the operands and `lim.2` bits for the result. -/
structure Usual (lim : Int × Int) (f : Form) (d : LayerD) : Prop where
  equation : d.equation = f.eqn.text
  relations : ∃ rels, List.Forall₂ (fun r s => mkRel r = .ok s) d.relations rels ∧ rels.map (fun r => (r.dim1, r.dim2, r.dim3)) = f.axes ∧ ∀ r ∈ rels, 1 ≤ r.coef2
  dims : (d.loopDims.map upper).Perm f.dims
  lens : d.loopDims.length = d.loopSizes.length
  pos : ∀ n ∈ d.loopSizes, 1 ≤ n
  given : ∀ x ∈ [tx "O", tx "W", tx "I"], x ∈ d.precision.keys
  precise : ∀ e ∈ d.precision, 0 ≤ e.2
  result : (d.precision.get? (tx "O")).getD 0 ≤ lim.2
  operands : ∀ x ∈ [tx "W", tx "I"], (d.precision.get? x).getD 0 ≤ lim.1
  pr : (∃ ds ss, d.prDims = some ds ∧ d.prSizes = some ss ∧ ds.length = ss.length ∧ (ds.map upper).Nodup ∧ ds ≠ [] ∧ (∀ n ∈ ss, 1 ≤ n) ∧
      ∀ a ∈ f.axes, a.1 ∈ ds.map upper) ∨ d.prSizes = none ∧ d.padding = none

/-- The innermost memories deliver and hold elements of that many bits; every operand is stored somewhere. -/
def RoomC (lim : Int × Int) (a : AccD String) : Prop :=
  (∀ m ∈ a.mems, ∀ op ∈ m.operands,
    (∀ p ∈ m.ports, (op, if op = .out then Ports.Dir.wrLow else .rdLow) ∈ p.alloc → (if op = .out then lim.2 else lim.1) ≤ p.bwMax) ∧
      (if op = .out then lim.2 else lim.1) ≤ m.size) ∧
    ∀ op ∈ [Operand.in1, .in2, .out], ∃ m ∈ a.mems, op ∈ m.operands

instance (lim : Int × Int) (a : AccD String) : Decidable (RoomC lim a) := by unfold RoomC; infer_instance

/-- The entry links weights and inputs to the operands `I2` and `I1`, fixes unrollings for dimensions of the array only, and lists no numbers of iterations. -/
def AttrC (a : AccD String) (t : MapAttr) : Prop :=
  t.links.data.get? "O" = some "O" ∧ t.links.data.get? "W" = some "I2" ∧ t.links.data.get? "I" = some "I1" ∧
    (∀ e ∈ t.spatial, e.1 ∈ a.sizes.keys ∧ ∀ x ∈ e.2, 1 ≤ x.2) ∧ ∀ e ∈ t.order, e.1 ≠ "*" ∧ e.2 = none

instance (a : AccD String) (t : MapAttr) : Decidable (AttrC a t) := by unfold AttrC; infer_instance

/-- Such an entry of a mapping file. -/
def EntryC (a : AccD String) (m : MapR) : Bool :=
  match Files.mapAttr m with
  | .error _ => false
  | .ok t => decide (AttrC a t)

/-- The memory operands that the operands of the layer are linked to. -/
def link (t : Text) : Operand := if t = tx "O" then .out else if t = tx "W" then .in2 else .in1

theorem vars_eq {f : Form} {rels : List (Relation Text)} (h : rels.map (fun r => (r.dim1, r.dim2, r.dim3)) = f.axes) (x : Text) :
    (axisOf rels x).vars = f.vars x := by
  unfold Form.vars axisOf
  rw [← h]
  clear h
  induction rels with
  | nil => rfl
  | cons r t ih =>
    rw [List.map_cons, List.find?_cons, List.find?_cons]
    by_cases hx : r.dim1 = x
    · simp [hx, Axis.vars]
    · simp only [hx, decide_false]
      exact ih

theorem flat_eq {f : Form} {rels : List (Relation Text)} (h : rels.map (fun r => (r.dim1, r.dim2, r.dim3)) = f.axes) (l : List Text) :
    ((l.map (axisOf rels)).flatMap Axis.vars) = l.flatMap f.vars := by
  rw [List.flatMap_map]
  exact congrArg (fun g => l.flatMap g) (funext fun x => vars_eq h x)

theorem innermost_mem {A : AccD String} {m : MemD Operand String} (h : Innermost A m) : m ∈ A.mems := by
  obtain ⟨pre, post, h, -⟩ := h
  rw [h]
  simp

theorem ne_names : tx "W" ≠ tx "O" ∧ tx "I" ≠ tx "O" ∧ tx "I" ≠ tx "W" := by decide

/-- A layer of such a form fits the accelerator. -/
theorem fits {A : AccD String} {lim : Int × Int} {f : Form} {d : LayerD} {m : MapR} {t : MapAttr} (hf : FormC f) (hr : RoomC lim A) (U : Usual lim f d)
    (hm : Files.mapAttr m = .ok t) (ht : AttrC A t) (name : Option String) (operator : String) :
    ∃ rels, LayerFits A ⟨name, operator, d, f.eqn, rels, m, t, link⟩ := by
  obtain ⟨f1, f2, f3, f4, f5, f6, f7, f8, f9⟩ := hf
  obtain ⟨r1, r2⟩ := hr
  obtain ⟨t1, t2, t3, t4, t5⟩ := ht
  obtain ⟨rels, u1, u2, u3⟩ := U.relations
  have hnames : f.eqn.terms.map Term.name = tx "O" :: (f.eqn.rest.map fun r => r.term.name) := by
    unfold Eqn.terms
    rw [List.map_cons, f8, List.map_map]
    rfl
  have hterm : ∀ u ∈ f.eqn.terms, u.name = tx "O" ∨ u.name = tx "W" ∨ u.name = tx "I" := by
    intro u hu
    have : u.name ∈ f.eqn.terms.map Term.name := List.mem_map.2 ⟨u, hu, rfl⟩
    rw [hnames] at this
    simp only [List.mem_cons, List.not_mem_nil, or_false] at f9
    rcases f9 with h | h <;> rw [h] at this <;> simp only [List.mem_cons, List.not_mem_nil, or_false] at this <;> tauto
  have hall : ∀ x ∈ [tx "O", tx "W", tx "I"], ∃ u ∈ f.eqn.terms, u.name = x := by
    intro x hx
    have : x ∈ f.eqn.terms.map Term.name := by
      rw [hnames]
      simp only [List.mem_cons, List.not_mem_nil, or_false] at f9 hx ⊢
      rcases f9 with h | h <;> rw [h] <;> simp only [List.mem_cons, List.not_mem_nil, or_false] <;> tauto
    obtain ⟨u, hu, rfl⟩ := List.mem_map.1 this
    exact ⟨u, hu, rfl⟩
  have haxis : ∀ r ∈ rels, (r.dim1, r.dim2, r.dim3) ∈ f.axes := fun r hr => by
    rw [← u2]
    exact List.mem_map.2 ⟨r, hr, rfl⟩
  have hrel : ∀ a ∈ f.axes, ∃ r ∈ rels, r.dim1 = a.1 := by
    intro a ha
    rw [← u2] at ha
    obtain ⟨r, hr, rfl⟩ := List.mem_map.1 ha
    exact ⟨r, hr, rfl⟩
  have hmem : ∀ x, x ∈ d.loopDims.map upper ↔ x ∈ f.dims := fun x => U.dims.mem_iff
  have hlim : ∀ u ∈ f.eqn.terms, (d.precision.get? u.name).getD 0 ≤ if link u.name = .out then lim.2 else lim.1 := by
    intro u hu
    rcases hterm u hu with h | h | h <;> rw [h]
    · rw [show link (tx "O") = .out by decide, if_pos rfl]
      exact U.result
    · rw [show link (tx "W") = .in2 by decide, if_neg (by decide)]
      exact U.operands _ (by simp)
    · rw [show link (tx "I") = .in1 by decide, if_neg (by decide)]
      exact U.operands _ (by simp)
  have hlout : ∀ u ∈ f.eqn.terms, (u.name = f.eqn.out.name ↔ link u.name = .out) := by
    intro u hu
    rw [f8]
    rcases hterm u hu with h | h | h <;> rw [h] <;> decide
  have hop : ∀ op : Operand, op ∈ [Operand.in1, .in2, .out] := by
    intro op
    cases op <;> simp
  refine ⟨rels, ?_⟩
  exact {
    good := {
      eqn := U.equation
      plain := ⟨fun u hu => ⟨(f1 u hu).1, (f1 u hu).2.1, (f1 u hu).2.2.1⟩, fun r hr => f2 r hr, f3⟩
      parsed := u1
      names := by
        rw [← u2, List.map_map] at f4
        exact f4
      lens := U.lens
      dims := U.dims.nodup_iff.2 f5
      pos := U.pos
      relDims := fun r hr => by
        obtain ⟨k1, k2, -⟩ := f7 _ (haxis r hr)
        exact ⟨(hmem _).2 k1, (hmem _).2 k2, Or.inl (by have := u3 r hr; omega)⟩
      eqDims := fun u hu x hx hne => by
        rcases (f1 u hu).2.2.2.1 x hx hne with h | ⟨a, ha, h⟩
        · exact Or.inl ((hmem _).2 h)
        · obtain ⟨r, hr, he⟩ := hrel a ha
          exact Or.inr ⟨r, hr, by rw [h, he]⟩
      prec := fun u hu => U.given _ (by rcases hterm u hu with h | h | h <;> rw [h] <;> simp) }
    pr := by
      rcases U.pr with ⟨ds, ss, h1, h2, h3, h4, h5, h6, h7⟩ | ⟨h1, h2⟩
      · exact Or.inl ⟨ds, ss, h1, h2, h3, h4, h5, h6, fun r hr => h7 _ (haxis r hr)⟩
      · exact Or.inr ⟨h1, h2⟩
    some := by
      intro h
      have := U.dims
      rw [show d.loopDims = [] from h, List.map_nil] at this
      exact f6 this.nil_eq.symm
    inputs := by
      intro h
      rw [show f.eqn.rest = [] from h] at f9
      simp at f9
    names := by
      show (f.eqn.terms.map Term.name).Nodup
      rw [hnames]
      simp only [List.mem_cons, List.not_mem_nil, or_false] at f9
      rcases f9 with h | h <;> rw [h] <;> decide
    fresh := fun r hr => ⟨fun h => (f7 _ (haxis r hr)).2.2 ((hmem _).1 h), u3 r hr⟩
    index := fun u hu => (f1 u hu).2.2.2.2.1
    mix := fun u hu => by
      rcases (f1 u hu).2.2.2.2.2.1 with h | h
      · exact Or.inl fun r hr => h _ (haxis r hr)
      · exact Or.inr fun r hr => h _ (haxis r hr)
    vars := fun u hu => by
      show (((dimsOf u).map (axisOf rels)).flatMap Axis.vars).Nodup
      rw [flat_eq u2]
      exact (f1 u hu).2.2.2.2.2.2
    precise := U.precise
    attr := hm
    link := fun u hu => by
      show t.links.data.get? (String.ofList u.name) = _
      rcases hterm u hu with h | h | h <;> rw [h]
      · exact t1
      · exact t2
      · exact t3
    out := by
      show link f.eqn.out.name = .out
      rw [f8]
      decide
    stored := fun u hu => r2 _ (hop _)
    linked := fun x hx op ho => by
      have : ∃ y ∈ [tx "O", tx "W", tx "I"], link y = op := by cases op <;> decide
      obtain ⟨y, hy, he⟩ := this
      obtain ⟨u, hu, hn⟩ := hall y hy
      exact ⟨u, hu, by show link u.name = op; rw [hn, he]⟩
    delivers := fun x hx u hu ho p hp ha => by
      refine le_trans (hlim u hu) ((r1 x (innermost_mem hx) _ ho).1 p hp ?_)
      have := hlout u hu
      by_cases h : u.name = f.eqn.out.name
      · rw [if_pos (this.1 h)]
        rw [if_pos h] at ha
        exact ha
      · rw [if_neg fun hc => h (this.2 hc)]
        rw [if_neg h] at ha
        exact ha
    holds := fun x hx u hu ho => le_trans (hlim u hu) (r1 x (innermost_mem hx) _ ho).2
    user := t4
    order := fun e he _ => t5 e he }

end Verif.Shipped
