import Verif.Compare.Orders

/-! C158: more spatial mappings. -/

namespace Verif.Compare

open Latency (Operand)
open LayerNode (Relation)
open Evaluate (Job Result)
open Net (Node Options Reply network env Innermost FileOk NodeOk OptionsOk)
open Pipeline (Cme Opt IsFirst)
open Ports (MemD)
open Whole (AccD Acc)

variable {OA : Type} [DecidableEq OA] {D : Type} [LinearOrder D]

/-! ### Comparing answers -/

/-- What a criterion minimises. -/
def value (op : Opt) {P : Type} (x : Cme P) : ℚ :=
  match op with
  | .energy => x.res.energy
  | .latency => x.res.latency
  | .edp => x.res.latency * x.res.energy

/-- The first answer is no worse than the second one in what the criterion minimises; for the product this is only said about one layer. -/
def NoWorse (opt : String) (nodes : List (Node OA D)) (ans ans' : Reply OA D) : Prop :=
  (opt = "energy" → ans.energy ≤ ans'.energy) ∧ (opt = "latency" → ans.latency ≤ ans'.latency) ∧
    (opt = "EDP" → (nodes.filter fun n => !n.skip).length ≤ 1 → ans.latency * ans.energy ≤ ans'.latency * ans'.energy)

theorem first_value {op : Opt} {P : Type} {l : List (Cme P)} {b : Cme P} (h : IsFirst op.key l b) : b ∈ l ∧ ∀ x ∈ l, value op b ≤ value op x := by
  refine ⟨(first_le h).1, fun x hx => ?_⟩
  have := (first_le h).2 x hx
  cases op <;>
  · rcases Prod.Lex.toLex_le_toLex.1 this with h | h
    · exact le_of_lt h
    · exact le_of_eq h.1

theorem answer_env {E : Pipeline.Env (Node OA D) (SpatialMapping.SM OA D) (Job D) (Job D × Result)} (hE : Pipeline.Single E) (hs : ∀ n, E.skip n = n.skip) {opt : String}
    {nodes : List (Node OA D)} {ans : Reply OA D} (h : Pipeline.api opt false E nodes = .ok ans) : ∃ op, Opt.parse opt = .ok op ∧ ∃ best, List.Forall₂ (BestOf E op)
      (nodes.filter fun n => !n.skip) best ∧ ans.energy = (best.map fun x => x.res.energy).sum ∧ ans.latency = (best.map fun x => x.res.latency).sum := by
  obtain ⟨op, hop, best, b1, b2, b3, b4, -⟩ := Pipeline.api_answer hE opt false nodes h
  refine ⟨op, hop, best.map Prod.snd, ?_, by rw [b3, List.map_map]; rfl, by rw [b4, List.map_map]; rfl⟩
  have : nodes.filter (fun n => !n.skip) = best.map Prod.fst := by
    rw [b1]
    exact List.filter_congr fun n _ => by rw [hs]
  rw [this, List.forall₂_map_left_iff, List.forall₂_map_right_iff]
  exact List.forall₂_same.2 fun x hx => b2 x hx

/-- If every evaluation of the second call has an evaluation of the first call that is no worse, then the answer of the first call is no worse; the layers of the first
call may be changed ones, and the calls may have different stages. -/
theorem answers_compare_env {E E' : Pipeline.Env (Node OA D) (SpatialMapping.SM OA D) (Job D) (Job D × Result)} (hE : Pipeline.Single E) (hs : ∀ n, E.skip n = n.skip)
    (hE' : Pipeline.Single E') (hs' : ∀ n, E'.skip n = n.skip) {opt : String} {nodes : List (Node OA D)}
    {ans ans' : Reply OA D} (g : Node OA D → Node OA D) (hg : ∀ n, (g n).skip = n.skip) (h : Pipeline.api opt false E (nodes.map g) = .ok ans)
    (h' : Pipeline.api opt false E' nodes = .ok ans')
    (H : ∀ op, Opt.parse opt = .ok op → ∀ n ∈ nodes, n.skip = false → ∀ y ∈ Pipeline.cands E' n, ∃ x ∈ Pipeline.cands E (g n), value op x ≤ value op y) :
    NoWorse opt nodes ans ans' := by
  obtain ⟨op, hop, best, b1, b2, b3⟩ := answer_env hE hs h
  obtain ⟨op', hop', best', c1, c2, c3⟩ := answer_env hE' hs' h'
  rw [hop] at hop'
  cases hop'
  have key : ∀ {l : List (Node OA D)} {b b' : List (Cme (Job D × Result))}, (∀ n ∈ l, n ∈ nodes ∧ n.skip = false) →
      List.Forall₂ (fun n x => BestOf E op (g n) x) l b → List.Forall₂ (BestOf E' op) l b' → List.Forall₂ (fun x y => value op x ≤ value op y) b b' := by
    intro l b b' hl hb hb'
    induction hb generalizing b' with
    | nil =>
      cases hb'
      exact .nil
    | cons k1 _ ih =>
      cases hb' with
      | cons m1 m2 =>
        refine .cons ?_ (ih (fun n hn => hl n (List.mem_cons_of_mem _ hn)) m2)
        obtain ⟨hn, hs⟩ := hl _ List.mem_cons_self
        obtain ⟨x, hx, hv⟩ := H op hop _ hn hs _ (first_value m1).1
        exact ((first_value k1).2 x hx).trans hv
  have b0 : (nodes.map g).filter (fun n => !n.skip) = (nodes.filter fun n => !n.skip).map g := by
    rw [List.filter_map]
    congr 1
    exact List.filter_congr fun n _ => by simp [hg]
  rw [b0, List.forall₂_map_left_iff] at b1
  have hall := key (fun n hn => by simpa using List.mem_filter.1 hn) b1 c1
  have hsum : ∀ {b b' : List (Cme (Job D × Result))}, List.Forall₂ (fun x y => value op x ≤ value op y) b b' → (b.map (value op)).sum ≤ (b'.map (value op)).sum := by
    intro b b' h
    induction h with
    | nil => exact le_refl _
    | cons h _ ih => exact add_le_add h ih
  refine ⟨fun e => ?_, fun e => ?_, fun e hl => ?_⟩
  · subst e
    cases hop
    rw [b2, c2]
    exact hsum hall
  · subst e
    cases hop
    rw [b3, c3]
    exact hsum hall
  · subst e
    cases hop
    rw [b2, b3, c2, c3]
    have l1 := b1.length_eq
    have l2 := c1.length_eq
    cases hall with
    | nil => simp
    | cons k1 k2 =>
      rename_i x y t t'
      have h1 : t = [] := by
        rw [List.length_cons] at l1
        exact List.eq_nil_of_length_eq_zero (by omega)
      subst h1
      cases k2
      simpa [value] using k1

/-- If every evaluation of the second call has an evaluation of the first call that is no worse, then the answer of the first call is no worse; the layers of the first
call may be changed ones. -/
theorem answers_compare_map {fact fact' : Nat → List (Nat × Nat)} {a a' : AccD OA} {c c' : Acc OA} {o o' : Options OA D} {opt : String} {nodes : List (Node OA D)} {fuel fuel' : Nat}
    {ans ans' : Reply OA D} (g : Node OA D → Node OA D) (hg : ∀ n, (g n).skip = n.skip) (h : Pipeline.api opt false (env fact a c o fuel) (nodes.map g) = .ok ans)
    (h' : Pipeline.api opt false (env fact' a' c' o' fuel') nodes = .ok ans')
    (H : ∀ op, Opt.parse opt = .ok op → ∀ n ∈ nodes, n.skip = false → ∀ y ∈ Pipeline.cands (env fact' a' c' o' fuel') n,
      ∃ x ∈ Pipeline.cands (env fact a c o fuel) (g n), value op x ≤ value op y) :
    NoWorse opt nodes ans ans' := answers_compare_env (Net.single c fuel) (fun _ => rfl) (Net.single c' fuel') (fun _ => rfl) g hg h h' H

theorem answers_compare {fact fact' : Nat → List (Nat × Nat)} {a a' : AccD OA} {c c' : Acc OA} {o o' : Options OA D} {opt : String} {nodes : List (Node OA D)} {fuel fuel' : Nat}
    {ans ans' : Reply OA D} (h : Pipeline.api opt false (env fact a c o fuel) nodes = .ok ans) (h' : Pipeline.api opt false (env fact' a' c' o' fuel') nodes = .ok ans')
    (H : ∀ op, Opt.parse opt = .ok op → ∀ n ∈ nodes, n.skip = false → ∀ y ∈ Pipeline.cands (env fact' a' c' o' fuel') n, ∃ x ∈ Pipeline.cands (env fact a c o fuel) n, value op x ≤ value op y) :
    NoWorse opt nodes ans ans' := answers_compare_map id (fun _ => rfl) (by rw [List.map_id]; exact h) h' H

/-! ### More mappings -/

/-- Innermost memories that hold an element for every unit they serve. -/
def Roomy (a : AccD OA) (n : Node OA D) : Prop :=
  ∀ m, Innermost a m → ∀ op ∈ m.operands, (n.layer.precision op : Int) * ((m.served.map fun oa => (a.sizes.get? oa).getD 1).prod : ℕ) ≤ m.size

theorem roomy_spatial {a : AccD OA} {n : Node OA D} {rl : Operand → List D} {rels : List (Relation D)} {o : Options OA D} (F : FileOk a) (N : NodeOk a n rl rels)
    (O : OptionsOk o) (R : Roomy a n) :
    ∃ all, all ≠ [] ∧ ∀ nb, 1 ≤ nb → Net.spatialMappings { o with nb := nb } a n = .ok (all.take nb) := by
  obtain ⟨ms, hms, hfed⟩ := Net.memOps_ok n.layer F
  obtain ⟨ok, fit⟩ := Net.inputs_ok F N O hfed
  obtain ⟨all, h1, h2⟩ := SpatialGen.generate_take (Net.inputs o a n ms) ok fit (by
    intro mo hmo
    obtain ⟨m, hm, hin, op, ho, p, hp, ha, rfl⟩ := hfed mo hmo
    have h1 := R m hin op ho
    simp only
    have h2 : ((n.layer.precision op * ((m.served.map fun oa => (a.sizes.get? oa).getD 1).prod) : ℕ) : ℤ) ≤ m.size := by exact_mod_cast h1
    have h3 : (Net.inputs o a n ms).oaSizes = a.sizes := rfl
    rw [h3]
    omega)
  exact ⟨all, h1, fun nb hnb => (Net.spatialMappings_eq (o := { o with nb := nb }) hms hnb).trans (h2 nb hnb)⟩

/-- C158 (partial): if the innermost memories hold an element for every unit they serve, then asking for more spatial mappings never gives a worse answer; a call with
more mappings that has an answer also has one with fewer. Missing: smaller memories, for which both are false (`more_mappings_false`, `more_mappings_crash`). -/
theorem more_mappings_partial {cacti : MemD Operand OA → ℚ × ℚ} {fact : Nat → List (Nat × Nat)} {a : AccD OA} {o : Options OA D} {nodes : List (Node OA D)} (F : FileOk a)
    (O : OptionsOk o) (N : ∀ n ∈ nodes, n.skip = false → Roomy a n ∧ ∃ (rl : Operand → List D) (rels : List (Relation D)), NodeOk a n rl rels) {nb : Nat} (hnb : o.nb ≤ nb)
    {opt : String} {fuel : Nat} {ans : Reply OA D} (h : network cacti fact a { o with nb := nb } opt nodes fuel = .ok ans) :
    ∃ ans', network cacti fact a o opt nodes fuel = .ok ans' ∧ NoWorse opt nodes ans ans' := by
  cases hc : Whole.accelerator cacti a with
  | error e =>
    unfold network at h
    rw [hc] at h
    cases h
  | ok c =>
    rw [network_pipeline hc] at h
    rw [network_pipeline hc]
    have hsp : ∀ n ∈ nodes, n.skip = false → ∃ sms sms', Net.spatialMappings o a n = .ok sms ∧ Net.spatialMappings { o with nb := nb } a n = .ok sms' ∧ sms ≠ [] ∧
        ∀ sm ∈ sms, sm ∈ sms' := by
      intro n hn hs
      obtain ⟨R, rl, rels, K⟩ := N n hn hs
      obtain ⟨all, h1, h2⟩ := roomy_spatial F K O R
      refine ⟨all.take o.nb, all.take nb, h2 o.nb O.nb, h2 nb (O.nb.trans hnb), ?_, fun sm hsm => (List.take_subset_take_left _ hnb) hsm⟩
      have := O.nb
      intro hc
      rcases List.take_eq_nil_iff.1 hc with h | h
      · omega
      · exact h1 h
    obtain ⟨hk, hw⟩ := (Pipeline.api_ok_iff (Net.single c fuel) opt nodes).1 ⟨ans, h⟩
    obtain ⟨ans', h'⟩ := (Pipeline.api_ok_iff (E := env fact a c o fuel) (Net.single c fuel) opt nodes).2 ⟨hk, fun n hn hs => by
      obtain ⟨sms', w1, -, w3⟩ := hw n hn hs
      obtain ⟨sms, sms'', s1, s2, s3, s4⟩ := hsp n hn hs
      rw [show (env fact a c { o with nb := nb } fuel).spatial n = Net.spatialMappings { o with nb := nb } a n from rfl, s2] at w1
      cases w1
      exact ⟨sms, s1, s3, fun sm hsm => w3 sm (s4 sm hsm)⟩⟩
    refine ⟨ans', h', answers_compare h h' fun op _ n hn hs y hy => ⟨y, ?_, le_refl _⟩⟩
    obtain ⟨sms, sms', s1, s2, -, s4⟩ := hsp n hn hs
    unfold Pipeline.cands at hy ⊢
    rw [show (env fact a c o fuel).spatial n = Net.spatialMappings o a n from rfl, s1] at hy
    rw [show (env fact a c { o with nb := nb } fuel).spatial n = Net.spatialMappings { o with nb := nb } a n from rfl, s2]
    simp only [List.mem_flatMap] at hy ⊢
    obtain ⟨sm, hsm, hx⟩ := hy
    exact ⟨sm, s4 sm hsm, hx⟩

end Verif.Compare
