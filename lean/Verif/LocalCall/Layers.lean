import Verif.LocalCall.Spec
import Verif.Call.Props
import Verif.Roles.Props

/-! The layers of the files as the stages for locality see them. -/

namespace Verif.LocalCall

open Call (Written NodeSays LayerFits FilesSay SourcesKnown dimsOf LayerOptions nodeName linkOf nodesOf entryOf opName idCode idCode_inj link_inj nodes_built)
open Equation (Text Term parse rDims equation_dims)
open Files (Doc MapR)
open Latency (Operand)
open LayerBuild (LayerD build validate)
open LayerNode (Relation extractPr extractRel)
open Net (Node NodeOk)
open Reuse (LNode Graph)
open Whole (AccD)

variable {A : AccD String} {w : Written}

theorem dims_of (F : LayerFits A w) {t : Term} (ht : t ∈ w.eqn.terms) : rDims (parse w.layer.equation) t.name = .ok (dimsOf t) := by
  obtain ⟨i, hi, rfl⟩ := List.mem_iff_getElem.1 ht
  rw [F.good.eqn]
  refine equation_dims _ F.good.plain i _ (List.getElem?_eq_getElem hi) ?_
  intro j u hj hu heq
  obtain ⟨hjl, rfl⟩ := List.getElem?_eq_some_iff.1 hu
  have hji := F.names.getElem_inj_iff (i := j) (j := i) (hi := by simpa using hjl) (hj := by simpa using hi)
  simp only [List.getElem_map] at hji
  have := hji.1 heq
  omega

theorem constant_iff (d : LayerD) (c : Text) : c ∈ LayerBuild.constants d ↔ Constant d c := by
  unfold LayerBuild.constants Constant
  simp only [List.mem_map, List.mem_filter, decide_eq_true_eq]
  constructor
  · rintro ⟨⟨x, y⟩, ⟨h1, rfl⟩, rfl⟩
    exact h1
  · intro h
    exact ⟨_, ⟨h, rfl⟩, rfl⟩

theorem constants_nodup {d : LayerD} (h : (d.sources.map Prod.fst).Nodup) : (LayerBuild.constants d).Nodup := by
  unfold LayerBuild.constants
  exact h.sublist (List.filter_sublist.map _)

theorem only_one {l : List Text} (hn : l.Nodup) {c : Text} (hc : c ∈ l) (h : ∀ x ∈ l, x = c) : l = [c] := by
  match l, hn, hc, h with
  | [x], _, _, h => rw [h x (by simp)]
  | x :: y :: t, hn, _, h =>
    have h1 := h x (by simp)
    have h2 := h y (by simp)
    rw [h1, h2] at hn
    simp at hn

theorem rels_keys {rels : List (Relation Text)} (hn : (rels.map Relation.dim1).Nodup) : (extractPr rels).prLoop.keys = rels.map Relation.dim1 := by
  rw [(LayerNode.extractPr_spec rels hn).1]
  unfold Dict.keys
  rw [List.map_map]
  rfl

/-- The activation and the weights of a layer with two inputs are told apart. -/
theorem told (F : LayerFits A w) (B : Both A w) (hv : validate w.layer = .ok true) :
    ∃ b act wt, build w.layer = .ok b ∧ Roles.getAct (Roles.view w.layer b) = .ok act ∧ Roles.getWeight (Roles.view w.layer b) = .ok wt ∧ Told w act wt := by
  obtain ⟨b, hb, -, hp, -, hf⟩ := Call.built F.good hv F.pr F.names
  obtain ⟨r1, r2, hr⟩ := List.length_eq_two.1 B.two
  have hterms : w.eqn.terms = [w.eqn.out, r1.term, r2.term] := by
    rw [Equation.Eqn.terms, hr]
    rfl
  have hops : b.operands.map (fun x => x.1) = [w.eqn.out.name, r1.term.name, r2.term.name] := by
    have := Call.forall₂_map_eq (f := fun t : Term => t.name) (g := fun x : Text × LayerNode.Rel Text × ℚ => x.1) (Files.forall2_imp (fun _ _ h => h.1) hf)
    rw [this, hterms]
    rfl
  have hnd := F.names
  rw [hterms] at hnd
  simp only [List.map_cons, List.map_nil, List.nodup_cons, List.mem_cons, List.not_mem_nil, or_false, not_or] at hnd
  obtain ⟨⟨n1, n2⟩, n3, -⟩ := hnd
  have hrd : (Roles.view w.layer b).rDims = [(w.eqn.out.name, dimsOf w.eqn.out), (r1.term.name, dimsOf r1.term), (r2.term.name, dimsOf r2.term)] := by
    have h1 : (Roles.view w.layer b).rDims = (b.operands.map fun x => x.1).map fun x => (x, match rDims (parse w.layer.equation) x with | .ok l => l | .error _ => []) := by
      rw [List.map_map]
      rfl
    rw [h1, hops]
    simp only [List.map_cons, List.map_nil]
    rw [dims_of F (t := w.eqn.out) (by rw [hterms]; simp), dims_of F (t := r1.term) (by rw [hterms]; simp), dims_of F (t := r2.term) (by rw [hterms]; simp)]
  have hk : (Roles.view w.layer b).prKeys = w.rels.map Relation.dim1 := by
    show b.layer.pi.prLoop.keys = _
    rw [hp, rels_keys F.good.names]
  have hc : (Roles.view w.layer b).constants = LayerBuild.constants w.layer := rfl
  have hcn : (LayerBuild.constants w.layer).Nodup := constants_nodup B.once
  obtain ⟨act, wt, h1, h2, T⟩ := Roles.roles_told (Roles.view w.layer b) w.eqn.out.name r1.term.name r2.term.name hops n3 n1 n2 (by rw [hrd]; exact hops.symm) hcn
    (by
      intro c hcc
      rw [hc, constant_iff] at hcc
      obtain ⟨r, hrm, hrn⟩ := B.inputs _ hcc rfl
      rw [hr] at hrm
      have hrn' : r.term.name = c := hrn
      rw [← hrn']
      simp only [List.mem_cons, List.not_mem_nil, or_false] at hrm ⊢
      rcases hrm with rfl | rfl
      · exact .inl rfl
      · exact .inr rfl)
    (by
      intro k ks hkk
      rw [hk] at hkk
      obtain ⟨r, hrm, rfl⟩ : ∃ r ∈ w.rels, r.dim1 = k := by
        have : k ∈ w.rels.map Relation.dim1 := by rw [hkk]; simp
        obtain ⟨r, h, h'⟩ := List.mem_map.1 this
        exact ⟨r, h, h'⟩
      obtain ⟨s1, t, ht, s2⟩ := B.shared r hrm
      rw [hrd]
      constructor
      · rw [hr] at ht
        simp only [List.mem_cons, List.not_mem_nil, or_false] at ht
        rcases ht with rfl | rfl
        · exact ⟨(t.term.name, dimsOf t.term), by simp, s2⟩
        · exact ⟨(t.term.name, dimsOf t.term), by simp, s2⟩
      · intro e he heo
        simp only [List.mem_cons, List.not_mem_nil, or_false] at he
        rcases he with rfl | rfl | rfl
        · exact s1
        · exact absurd heo.symm n1
        · exact absurd heo.symm n2)
  have hnames : w.eqn.rest.map (fun r => r.term.name) = [r1.term.name, r2.term.name] := by rw [hr]; rfl
  refine ⟨b, act, wt, hb, h1, h2, ⟨_, _, hnames, T.both⟩, ?_, ?_, ?_⟩
  · intro c hcc hu
    exact T.const c (only_one hcn ((constant_iff _ _).2 hcc) fun x hx => hu x ((constant_iff _ _).1 hx))
  · intro hno
    have : LayerBuild.constants w.layer = [] := List.eq_nil_iff_forall_not_mem.2 fun c hcc => hno c ((constant_iff _ _).1 hcc)
    exact ⟨_, by rw [hnames, T.second this]⟩
  · intro hall
    rw [hr] at hall
    have hlen : 2 ≤ (Roles.view w.layer b).constants.length := by
      have hsub : [r1.term.name, r2.term.name] ⊆ LayerBuild.constants w.layer := by
        intro x hx
        simp only [List.mem_cons, List.not_mem_nil, or_false] at hx
        rw [constant_iff]
        rcases hx with rfl | rfl
        · exact hall r1 (by simp)
        · exact hall r2 (by simp)
      exact (List.Nodup.subperm (by simp [n3]) hsub).length_le
    constructor
    · intro hnil
      exact ⟨_, by rw [hnames, T.first hlen (by rw [hk, hnil]; rfl)]⟩
    · intro r rs hrs t ht hu
      rw [hr] at ht hu
      refine T.shared hlen r.dim1 (rs.map Relation.dim1) (by rw [hk, hrs]; rfl) _ (by
        simp only [List.mem_cons, List.not_mem_nil, or_false] at ht ⊢
        rcases ht with rfl | rfl
        · exact .inl rfl
        · exact .inr rfl) ?_
      have hout := (B.shared r (by rw [hrs]; simp)).1
      have hto : w.eqn.out.name ≠ t.term.name := by
        simp only [List.mem_cons, List.not_mem_nil, or_false] at ht
        rcases ht with rfl | rfl
        · exact n1
        · exact n2
      rw [hrd]
      intro e he
      simp only [List.mem_cons, List.not_mem_nil, or_false] at he
      rcases he with rfl | rfl | rfl
      · exact ⟨fun h => absurd h hout, fun h => absurd h hto⟩
      · exact hu r1 (by simp)
      · exact hu r2 (by simp)

theorem link_of (F : LayerFits A w) {t : Term} (ht : t ∈ w.eqn.terms) : linkOf w.attr.links t.name = .ok (w.link t.name) := by
  unfold linkOf Links.Links.toMem
  rw [F.link t ht]
  simp only
  rw [Call.opOf_opName]

/-- The two inputs are in the two operands for inputs. -/
theorem told_links (F : LayerFits A w) {a b : Text} (T : Told w a b) : (∃ r ∈ w.eqn.rest, r.term.name = a) ∧ (∃ r ∈ w.eqn.rest, r.term.name = b) ∧
    ((w.link a = .in1 ∧ w.link b = .in2) ∨ (w.link a = .in2 ∧ w.link b = .in1)) := by
  obtain ⟨x, y, h, hab⟩ := T.both
  obtain ⟨r1, r2, hr⟩ : ∃ r1 r2, w.eqn.rest = [r1, r2] := List.length_eq_two.1 (by simpa using congrArg List.length h)
  rw [hr] at h
  simp only [List.map_cons, List.map_nil, List.cons.injEq, and_true] at h
  obtain ⟨rfl, rfl⟩ := h
  have hterms : w.eqn.terms = [w.eqn.out, r1.term, r2.term] := by
    rw [Equation.Eqn.terms, hr]
    rfl
  have hnd := F.names
  rw [hterms] at hnd
  simp only [List.map_cons, List.map_nil, List.nodup_cons, List.mem_cons, List.not_mem_nil, or_false, not_or] at hnd
  obtain ⟨⟨n1, n2⟩, n3, -⟩ := hnd
  have m0 : w.eqn.out ∈ w.eqn.terms := by rw [hterms]; simp
  have m1 : r1.term ∈ w.eqn.terms := by rw [hterms]; simp
  have m2 : r2.term ∈ w.eqn.terms := by rw [hterms]; simp
  have k1 : w.link r1.term.name ≠ .out := fun e => n1 (link_inj F m1 m0 (by rw [e, F.out])).symm
  have k2 : w.link r2.term.name ≠ .out := fun e => n2 (link_inj F m2 m0 (by rw [e, F.out])).symm
  have k3 : w.link r1.term.name ≠ w.link r2.term.name := fun e => n3 (link_inj F m1 m2 e)
  have key : (w.link r1.term.name = .in1 ∧ w.link r2.term.name = .in2) ∨ (w.link r1.term.name = .in2 ∧ w.link r2.term.name = .in1) := by
    cases h1 : w.link r1.term.name <;> cases h2 : w.link r2.term.name <;> simp_all
  rw [hr]
  rcases hab with ⟨rfl, rfl⟩ | ⟨rfl, rfl⟩
  · exact ⟨⟨r1, by simp, rfl⟩, ⟨r2, by simp, rfl⟩, key⟩
  · refine ⟨⟨r2, by simp, rfl⟩, ⟨r1, by simp, rfl⟩, ?_⟩
    rcases key with ⟨q1, q2⟩ | ⟨q1, q2⟩
    · exact .inr ⟨q2, q1⟩
    · exact .inl ⟨q2, q1⟩

/-- What the stages for locality read of a written layer. -/
theorem role_ok (F : LayerFits A w) (B : Both A w) (hv : validate w.layer = .ok true) (ms : List MapR)
    (hc : Links.choose (nodeName w.name w.layer.id) w.operator (ms.map fun m => (m.name, m)) = .ok (w.entry.name, w.entry)) :
    ∃ a b z, roleOf ms (w.name, w.operator, w.layer) = .ok (w.link a, w.link b, z) ∧ Told w a b ∧ (z = true ↔ ∀ c, ¬ Constant w.layer c) := by
  obtain ⟨b, act, wt, h1, h2, h3, T⟩ := told F B hv
  obtain ⟨⟨r, hr, hra⟩, ⟨q, hq, hqb⟩, -⟩ := told_links F T
  have hm : ∀ r ∈ w.eqn.rest, r.term ∈ w.eqn.terms := fun r hr => by
    rw [Equation.Eqn.terms]
    exact List.mem_cons_of_mem _ (List.mem_map_of_mem hr)
  refine ⟨act, wt, (LayerBuild.constants w.layer).isEmpty, ?_, T, ?_⟩
  · unfold roleOf
    simp only
    rw [h1]
    simp only
    rw [hc]
    simp only
    rw [F.attr]
    simp only
    rw [h2]
    simp only
    rw [h3]
    simp only
    rw [← hra, link_of F (hm r hr)]
    simp only
    rw [← hqb, link_of F (hm q hq)]
  · rw [List.isEmpty_iff, List.eq_nil_iff_forall_not_mem]
    simp only [constant_iff]

theorem lnodes_ok {lo : LayerOptions} (adapt : Entry → Node String Text → Node String Text) (ms : List MapR) :
    ∀ (ws : List Written) (ns : List (Node String Text)) (k : Nat), (∀ w ∈ ws, LayerFits A w ∧ Both A w ∧ validate w.layer = .ok true ∧
        Links.choose (nodeName w.name w.layer.id) w.operator (ms.map fun m => (m.name, m)) = .ok (w.entry.name, w.entry)) →
      List.Forall₂ (fun w n => NodeSays lo w n ∧ ∃ rl, NodeOk A n rl w.rels) ws ns →
      ∃ l, lnodesOf adapt ms ((ws.map fun w => (w.name, w.operator, w.layer)).zip ns) k = .ok l ∧ l.length = ws.length ∧
        ∀ (i : Nat) (n : LNode String Text), l[i]? = some n → n.id = k + i ∧ n.dummy = false ∧
          ∃ w m, ws[i]? = some w ∧ NodeSays lo w m ∧ (∃ rl, NodeOk A m rl w.rels) ∧ n.node = adapt (w.name, w.operator, w.layer) m ∧
            (∃ a b, Told w a b ∧ n.act = w.link a ∧ n.weight = w.link b) ∧ (n.adder = true ↔ ∀ c, ¬ Constant w.layer c)
  | [], _, k, _, .nil => ⟨[], rfl, rfl, by simp⟩
  | w :: t, m :: ns, k, H, .cons h1 h2 => by
    obtain ⟨l, e1, e2, e3⟩ := lnodes_ok adapt ms t ns (k + 1) (fun x hx => H x (List.mem_cons_of_mem _ hx)) h2
    obtain ⟨F, B, hv, hc⟩ := H w List.mem_cons_self
    obtain ⟨a, b, z, r1, r2, r3⟩ := role_ok F B hv ms hc
    refine ⟨⟨adapt (w.name, w.operator, w.layer) m, false, k, w.link a, w.link b, z⟩ :: l, ?_, by simp [e2], ?_⟩
    · rw [List.map_cons, List.zip_cons_cons, lnodesOf]
      simp only
      rw [r1]
      simp only
      rw [e1]
    · intro i n hi
      cases i with
      | zero =>
        simp only [List.getElem?_cons_zero, Option.some.injEq] at hi
        subst hi
        exact ⟨rfl, rfl, w, m, rfl, h1.1, h1.2, rfl, ⟨a, b, r2, rfl, rfl⟩, r3⟩
      | succ i =>
        rw [List.getElem?_cons_succ] at hi
        obtain ⟨f1, f2, f3⟩ := e3 i n hi
        exact ⟨by rw [f1]; omega, f2, f3⟩

end Verif.LocalCall
