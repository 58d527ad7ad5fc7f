import Verif.Roles.Model
import Verif.Onnx.Props

/-! C132: activations and weights are told apart; C133: the hardware used for diagonal mappings; C134: layers built again from their attributes. -/

namespace Verif.Roles

open Verif.Equation Verif.LayerBuild Verif.LayerNode Verif.Onnx

/-! ### Layers with two inputs -/

/-- `act` is the activation and `w` the weights of a layer with inputs `a` and `b`. -/
structure Told (v : View) (a b act w : Text) : Prop where
  /-- they are the two inputs -/
  both : (act = a ∧ w = b) ∨ (act = b ∧ w = a)
  /-- a single constant is the weights -/
  const : ∀ c, v.constants = [c] → w = c
  /-- if both are constant, an input that alone has the first shared dimension is the activation -/
  shared : 2 ≤ v.constants.length → ∀ k ks, v.prKeys = k :: ks → ∀ x ∈ [a, b], (∀ e ∈ v.rDims, k ∈ e.2 ↔ e.1 = x) → act = x
  /-- if both are constant and there are no shared dimensions, the activation is the first -/
  first : 2 ≤ v.constants.length → v.prKeys = [] → act = a
  /-- if none is constant, it is the second -/
  second : v.constants = [] → act = b

theorem pop_concat (l : List Text) (x : Text) : pop (l ++ [x]) = .ok x := by simp [pop]

/-- C132: in every layer with two inputs, activation and weights are found and are these two inputs, if constants are inputs and the first shared dimension belongs to an input
only. -/
theorem roles_told (v : View) (o a b : Text) (hops : v.operands = [o, a, b]) (hab : a ≠ b) (hoa : o ≠ a) (hob : o ≠ b) (hr : v.rDims.map Prod.fst = v.operands)
    (hn : v.constants.Nodup) (hc : ∀ c ∈ v.constants, c ∈ [a, b]) (hk : ∀ k ks, v.prKeys = k :: ks → (∃ e ∈ v.rDims, k ∈ e.2) ∧ ∀ e ∈ v.rDims, e.1 = o → k ∉ e.2) :
    ∃ act w, getAct v = .ok act ∧ getWeight v = .ok w ∧ Told v a b act w := by
  have hin : v.inputs = [a, b] := by simp [View.inputs, hops]
  match hcs : v.constants, hn, hc with
  | [], _, _ =>
    refine ⟨b, a, by simp [getAct, hcs, hin, nth], by simp [getWeight, hcs, hin, nth], .inr ⟨rfl, rfl⟩, by simp [hcs], by simp [hcs], by simp [hcs], by simp⟩
  | [c], _, hc =>
    have hc' : c = a ∨ c = b := by simpa using hc
    rcases hc' with rfl | rfl
    · refine ⟨b, c, ?_, by simp [getWeight, hcs], .inr ⟨rfl, rfl⟩, by simp [hcs], by simp [hcs], by simp [hcs], by simp [hcs]⟩
      simp [getAct, hcs, hin, pop, Ne.symm hab]
    · refine ⟨a, c, ?_, by simp [getWeight, hcs], .inl ⟨rfl, rfl⟩, by simp [hcs], by simp [hcs], by simp [hcs], by simp [hcs]⟩
      simp [getAct, hcs, hin, pop, hab]
  | c1 :: c2 :: cs, hn, hc =>
    have h12 : c1 ≠ c2 := by
      intro e
      simp [e] at hn
    have h1 : c1 = a ∨ c1 = b := by simpa using hc c1 (by simp)
    have h2 : c2 = a ∨ c2 = b := by simpa using hc c2 (by simp)
    have h0 : cs = [] := by
      cases cs with
      | nil => rfl
      | cons c3 cs =>
        have h3 : c3 = a ∨ c3 = b := by simpa using hc c3 (by simp)
        simp only [List.nodup_cons, List.mem_cons, not_or] at hn
        obtain ⟨⟨-, h13, -⟩, ⟨h23, -⟩, -⟩ := hn
        rcases h1 with rfl | rfl <;> rcases h2 with rfl | rfl <;> rcases h3 with rfl | rfl <;> simp_all
    subst h0
    have hw : ∀ act, getAct v = .ok act → act ∈ [a, b] → ∃ w, getWeight v = .ok w ∧ ((act = a ∧ w = b) ∨ (act = b ∧ w = a)) := by
      intro act hact hm
      simp only [getWeight, hcs, hact]
      have hm' : act = a ∨ act = b := by simpa using hm
      have hba := Ne.symm hab
      rcases h1 with rfl | rfl <;> rcases h2 with rfl | rfl <;> rcases hm' with rfl | rfl <;> simp_all [pop]
    cases hp : v.prKeys with
    | nil =>
      have hact : getAct v = .ok a := by simp [getAct, hcs, hp, hin, nth]
      obtain ⟨w, hw1, hw2⟩ := hw a hact (by simp)
      exact ⟨a, w, hact, hw1, hw2, by simp [hcs], by simp [hp], fun _ _ => rfl, by simp [hcs]⟩
    | cons k ks =>
      obtain ⟨⟨e, he, hke⟩, hout⟩ := hk k ks hp
      rw [hops] at hr
      obtain ⟨eo, ea, eb, hrd, ho', ha', hb'⟩ : ∃ eo ea eb, v.rDims = [eo, ea, eb] ∧ eo.1 = o ∧ ea.1 = a ∧ eb.1 = b := by
        match hrr : v.rDims, hr with
        | [x, y, z], hr =>
          simp only [List.map_cons, List.map_nil, List.cons.injEq, and_true] at hr
          exact ⟨x, y, z, rfl, hr⟩
      have hno : k ∉ eo.2 := hout eo (by simp [hrd]) ho'
      have hact : getAct v = .ok (if k ∈ eb.2 then b else a) := by
        simp only [getAct, hcs, hp, hrd]
        by_cases h2 : k ∈ eb.2
        · by_cases h1 : k ∈ ea.2 <;> simp [hno, h1, h2, pop, hb']
        · have h1 : k ∈ ea.2 := by
            rw [hrd] at he
            simp only [List.mem_cons, List.not_mem_nil, or_false] at he
            rcases he with rfl | rfl | rfl
            · exact absurd hke hno
            · exact hke
            · exact absurd hke h2
          simp [hno, h1, h2, pop, ha']
      obtain ⟨w, hw1, hw2⟩ := hw _ hact (by split_ifs <;> simp)
      refine ⟨_, w, hact, hw1, hw2, by simp [hcs], ?_, by simp [hp], by simp [hcs]⟩
      intro _ k' ks' hk' x hx hxe
      rw [hp] at hk'
      cases hk'
      have qa := hxe ea (by simp [hrd])
      have qb := hxe eb (by simp [hrd])
      rw [ha'] at qa
      rw [hb'] at qb
      simp only [List.mem_cons, List.not_mem_nil, or_false] at hx
      rcases hx with rfl | rfl
      · have : k ∉ eb.2 := fun h => hab (qb.1 h).symm
        rw [if_neg this]
      · rw [if_pos (qb.2 rfl)]

/-- C132: if exactly one of two inputs has shared dimensions, the search for diagonal mappings takes it for the activation and the other for the weights. -/
theorem identify_shared (v : View) (o a b : Text) (ro ra rb : Rel Text) (hab : a ≠ b) (hops : v.operands = [o, a, b]) (hrel : v.rel = [(o, ro), (a, ra), (b, rb)]) (h0 : ro.pr = []) :
    (ra.pr ≠ [] → rb.pr = [] → identify v = (some a, some b)) ∧ (ra.pr = [] → rb.pr ≠ [] → identify v = (some b, some a)) := by
  have hin : v.inputs = [a, b] := by simp [View.inputs, hops]
  constructor
  · intro h1 h2
    have : 0 < ra.pr.length := List.length_pos_iff.2 h1
    simp [identify, hrel, hin, h0, h2, this, Ne.symm hab]
  · intro h1 h2
    have : 0 < rb.pr.length := List.length_pos_iff.2 h2
    simp [identify, hrel, hin, h0, h1, this, hab]

/-! ### Layers read from ONNX models -/

/-- The parts of a built layer. -/
theorem built_parts {d : LayerD} {b : Built} (h : build d = .ok b) :
    ∃ rels ops, mapE mkRel d.relations = .ok rels ∧ operands (parse d.equation) = .ok ops ∧ b.layer.pi = extractPr rels ∧ b.layer.dimSizes = dimSizes d ∧
      List.Forall₂ (fun op (x : Text × Rel Text × ℚ) => x.1 = op ∧ ∃ rl, rDims (parse d.equation) op = .ok rl ∧ extractRel rl (dimSizes d) (extractPr rels) = .ok x.2.1) ops b.operands := by
  unfold build at h
  simp only at h
  cases hr : mapE mkRel d.relations with
  | error e => rw [hr] at h; cases h
  | ok rels =>
    rw [hr] at h
    simp only at h
    cases hp : padding d with
    | error x => rw [hp] at h; cases h
    | ok p =>
      rw [hp] at h
      simp only at h
      cases ho : operands (parse d.equation) with
      | error x => rw [ho] at h; cases h
      | ok ops =>
        rw [ho] at h
        simp only at h
        cases hps : prSizes (prSizesFile d) (dimSizes d) (extractPr rels) p with
        | error x => rw [hps] at h; cases h
        | ok ps =>
          rw [hps] at h
          simp only at h
          cases hi : mapE (operandInfo (parse d.equation) ⟨dimSizes d, extractPr rels, ps⟩ d.precision) ops with
          | error x => rw [hi] at h; cases h
          | ok infos =>
            rw [hi] at h
            cases h
            refine ⟨rels, ops, rfl, rfl, rfl, rfl, ?_⟩
            refine (mapE_forall₂ _ _ _ hi).imp ?_
            intro op x hx
            unfold operandInfo at hx
            cases h1 : rDims (parse d.equation) op with
            | error e => rw [h1] at hx; cases hx
            | ok rl =>
              rw [h1] at hx
              simp only at hx
              cases h2 : extractRel rl (dimSizes d) (extractPr rels) with
              | error e => rw [h2] at hx; cases hx
              | ok rel =>
                rw [h2] at hx
                simp only at hx
                cases h3 : operandSizeElem ⟨dimSizes d, extractPr rels, ps⟩ rel with
                | error e => rw [h3] at hx; cases hx
                | ok n =>
                  rw [h3] at hx
                  simp only at hx
                  cases h4 : d.precision.get? op with
                  | none => rw [h4] at hx; cases hx
                  | some q =>
                    rw [h4] at hx
                    simp only at hx
                    split_ifs at hx
                    cases hx
                    exact ⟨rfl, rl, rfl, h2⟩

/-- The constants of a node with the given computed inputs. -/
theorem constants_of (id : Nat) (preds : List Nat) (hlt : ∀ p ∈ preds, p < id) (src : Dict Text Int) (hs : operandSource id preds = .ok src) (d : LayerD) (hd : d.sources = src)
    (hid : d.id = id) : constants d = (if preds.length = 0 then ["W".toList, "I".toList] else if preds.length = 1 then ["W".toList] else []) := by
  unfold constants
  rw [hd, hid]
  match preds, hlt, hs with
  | [], _, hs =>
    cases hs
    simp
  | [p], hlt, hs =>
    cases hs
    have : p ≠ id := by have := hlt p (by simp); omega
    simp [this]
  | [p, q], hlt, hs =>
    cases hs
    have h1 : p ≠ id := by have := hlt p (by simp); omega
    have h2 : q ≠ id := by have := hlt q (by simp); omega
    simp [h1, h2]
  | _ :: _ :: _ :: _, _, hs => cases hs

private theorem convOps : operands (parse convEquation) = .ok ["O".toList, "W".toList, "I".toList] := by decide +kernel

private theorem convO : rDims (parse convEquation) "O".toList = .ok ["B".toList, "G".toList, "K".toList, "OY".toList, "OX".toList] := by decide +kernel

private theorem convW : rDims (parse convEquation) "W".toList = .ok ["G".toList, "K".toList, "C".toList, "FY".toList, "FX".toList] := by decide +kernel

private theorem convI : rDims (parse convEquation) "I".toList = .ok ["B".toList, "G".toList, "C".toList, "IY".toList, "IX".toList] := by decide +kernel

/-- C132: in every convolution read from a model, `I` is the activation and `W` the weights for every part of the code that asks. -/
theorem conv_roles (c : ConvOp) (hc : c.Valid) (id : Nat) (preds : List Nat) (hp : preds.length ≤ 2) (hlt : ∀ p ∈ preds, p < id) (p : Precisions) :
    ∃ d b, convData id preds p c.kernel c.strides c.dilations c.g c.pads c.ia c.oa = .ok d ∧ build d = .ok b ∧
      getAct (view d b) = .ok "I".toList ∧ getWeight (view d b) = .ok "W".toList ∧ identify (view d b) = (some "I".toList, some "W".toList) := by
  obtain ⟨d, b, rO', rW', hd, -, hb, -⟩ := conv_ok c hc id preds hp p
  refine ⟨d, b, hd, hb, ?_⟩
  obtain ⟨src, hs⟩ := operandSource_ok id preds hp
  have hrec := convData_eq c hc id preds p src hs
  rw [hd] at hrec
  have hde := Except.ok.inj hrec
  have hcs := constants_of id preds hlt src hs d (by rw [hde]; rfl) (by rw [hde]; rfl)
  obtain ⟨rels, ops, h1, h2, h3, -, h5⟩ := built_parts hb
  have heq : d.equation = convEquation := by rw [hde]; rfl
  rw [heq] at h2 h5
  rw [convOps] at h2
  cases h2
  have hrels : rels = convRels c.sh c.sw c.dh c.dw := by
    have hg := conv_good id src p c.batch (c.m / c.g) c.g c.ow c.oh (c.cin / c.g) c.kh c.kw c.sh c.sw c.dh c.dw c.win c.hin c.hb c.wb c.he c.we
      ⟨by unfold ConvOp.batch; split_ifs <;> omega, Nat.div_pos (Nat.le_of_dvd hc.m hc.gout) hc.g, hc.g, outExtent_pos _ _ _ _ _ _, outExtent_pos _ _ _ _ _ _,
        Nat.div_pos (Nat.le_of_dvd hc.cin hc.gin) hc.g, hc.kh, hc.kw⟩ ⟨hc.sh, hc.sw⟩
    have := mapE_of_forall₂ hg.parsed
    rw [← hde, h1] at this
    exact Except.ok.inj this
  subst hrels
  have hnd : ((convRels c.sh c.sw c.dh c.dw).map Relation.dim1).Nodup := by
    show ["IX".toList, "IY".toList].Nodup
    decide
  have hkeys : (view d b).prKeys = ["IX".toList, "IY".toList] := by
    show b.layer.pi.prLoop.keys = _
    rw [h3]
    rfl
  obtain ⟨x0, x1, x2, hops, ⟨n0, r0, e0, q0⟩, ⟨n1, r1, e1, q1⟩, ⟨n2, r2, e2, q2⟩⟩ : ∃ x0 x1 x2, b.operands = [x0, x1, x2] ∧
      (x0.1 = "O".toList ∧ ∃ rl, rDims (parse convEquation) "O".toList = .ok rl ∧ extractRel rl (dimSizes d) (extractPr (convRels c.sh c.sw c.dh c.dw)) = .ok x0.2.1) ∧
      (x1.1 = "W".toList ∧ ∃ rl, rDims (parse convEquation) "W".toList = .ok rl ∧ extractRel rl (dimSizes d) (extractPr (convRels c.sh c.sw c.dh c.dw)) = .ok x1.2.1) ∧
      (x2.1 = "I".toList ∧ ∃ rl, rDims (parse convEquation) "I".toList = .ok rl ∧ extractRel rl (dimSizes d) (extractPr (convRels c.sh c.sw c.dh c.dw)) = .ok x2.2.1) := by
    generalize b.operands = l at h5
    cases h5 with
    | cons a0 t0 =>
      cases t0 with
      | cons a1 t1 =>
        cases t1 with
        | cons a2 t2 =>
          cases t2
          exact ⟨_, _, _, rfl, a0, a1, a2⟩
  rw [convO] at e0
  rw [convW] at e1
  rw [convI] at e2
  cases e0
  cases e1
  cases e2
  have hv : (view d b).operands = ["O".toList, "W".toList, "I".toList] := by
    show b.operands.map (fun x => x.1) = _
    rw [hops]
    simp [n0, n1, n2]
  have hvr : (view d b).rDims = [("O".toList, ["B".toList, "G".toList, "K".toList, "OY".toList, "OX".toList]),
      ("W".toList, ["G".toList, "K".toList, "C".toList, "FY".toList, "FX".toList]), ("I".toList, ["B".toList, "G".toList, "C".toList, "IY".toList, "IX".toList])] := by
    show b.operands.map (fun x => (x.1, match rDims (parse d.equation) x.1 with | .ok l => l | .error _ => [])) = _
    rw [hops, heq]
    simp only [List.map_cons, List.map_nil, n0, n1, n2, convO, convW, convI]
  have hvc : (view d b).constants = constants d := rfl
  have hvrel : (view d b).rel = [("O".toList, x0.2.1), ("W".toList, x1.2.1), ("I".toList, x2.2.1)] := by
    show b.operands.map (fun x => (x.1, x.2.1)) = _
    rw [hops]
    simp [n0, n1, n2]
  obtain ⟨act, w, ha, hw, ht⟩ := roles_told (view d b) "O".toList "W".toList "I".toList hv (by decide) (by decide) (by decide) (by rw [hv, hvr]; rfl)
    (by rw [hvc, hcs]; split_ifs <;> decide) (by rw [hvc, hcs]; split_ifs <;> decide) (by
      intro k ks hk
      rw [hkeys] at hk
      cases hk
      rw [hvr]
      decide)
  have hact : act = "I".toList ∧ w = "W".toList := by
    have hor : act = "I".toList ∨ act = "W".toList := by
      rcases ht.both with ⟨h, -⟩ | ⟨h, -⟩
      · exact .inr h
      · exact .inl h
    have hI : act = "I".toList := by
      match preds, hp, hcs with
      | [], _, hcs =>
        refine ht.shared (by rw [hvc, hcs]; decide) _ _ hkeys "I".toList (by simp) ?_
        rw [hvr]
        decide
      | [q], _, hcs =>
        have := ht.const "W".toList (by rw [hvc, hcs]; rfl)
        rcases ht.both with ⟨h, h'⟩ | ⟨h, h'⟩
        · rw [this] at h'
          exact absurd h' (by decide)
        · exact h
      | [q, r], _, hcs => exact ht.second (by rw [hvc, hcs]; rfl)
    rcases ht.both with ⟨h, h'⟩ | ⟨h, h'⟩
    · rw [hI] at h
      exact absurd h (by decide)
    · exact ⟨hI, h'⟩
  refine ⟨hact.1 ▸ ha, hact.2 ▸ hw, ?_⟩
  have p0 : x0.2.1.pr = [] := by
    rcases extractRel_spec hnd q0 with ⟨⟨r, hr, hm⟩, -⟩ | ⟨-, -, -, -, h⟩
    · have hno : ∀ d1 ∈ (convRels c.sh c.sw c.dh c.dw).map Relation.dim1, d1 ∉ ["B".toList, "G".toList, "K".toList, "OY".toList, "OX".toList] := by
        show ∀ d1 ∈ ["IX".toList, "IY".toList], _
        decide
      exact absurd hm (hno _ (List.mem_map_of_mem hr))
    · exact h
  have p1 : x1.2.1.pr = [] := by
    rcases extractRel_spec hnd q1 with ⟨⟨r, hr, hm⟩, -⟩ | ⟨-, -, -, -, h⟩
    · have hno : ∀ d1 ∈ (convRels c.sh c.sw c.dh c.dw).map Relation.dim1, d1 ∉ ["G".toList, "K".toList, "C".toList, "FY".toList, "FX".toList] := by
        show ∀ d1 ∈ ["IX".toList, "IY".toList], _
        decide
      exact absurd hm (hno _ (List.mem_map_of_mem hr))
    · exact h
  have p2 : x2.2.1.pr ≠ [] := by
    rcases extractRel_spec hnd q2 with ⟨-, -, -, h⟩ | ⟨h, -⟩
    · rw [h]
      exact fun e => by cases e
    · exact absurd (h ⟨"IX".toList, "OX".toList, "FX".toList, c.sh, c.dh⟩ (by simp [convRels])) (by simp)
  exact (identify_shared (view d b) "O".toList "W".toList "I".toList x0.2.1 x1.2.1 x2.2.1 (by decide) hv hvrel p0).2 p1 p2

private theorem gemmOps (b h : Nat) (const : Bool) : operands (parse (gemmEquation b h const)) = .ok ["O".toList, "I".toList, "W".toList] := by
  obtain ⟨b', h', hb', hh', eb, eh⟩ := gemm_names b h
  have ge : gemmEquation b h const = gemmEquation b' h' const := by unfold gemmEquation; rw [bhText_congr eb eh]
  rw [ge]
  have q1 : b' = 0 ∨ b' = 1 := by omega
  have q2 : h' = 0 ∨ h' = 1 := by omega
  rcases q1 with rfl | rfl <;> rcases q2 with rfl | rfl <;> cases const <;> decide +kernel

/-- The description of a product. -/
theorem gemmData_record {id : Nat} {preds : List Nat} {p : Precisions} {i o : List Nat} {d : LayerD} (h : gemmData id preds p i o = .ok d) :
    ∃ src c dd k b hh, operandSource id preds = .ok src ∧ d = gemmRecord id src p (decide (preds.length < 2)) c dd k b hh ∧ fromEnd i 2 = .ok dd ∧ fromEnd i 1 = .ok c ∧ fromEnd o 1 = .ok k ∧
      batchHeads i o = .ok (b, hh) := by
  have step : ∀ {α β : Type} {x : Except PyErr α} {f : α → Except PyErr β} {y : β}, (x >>= f) = .ok y → ∃ a, x = .ok a ∧ f a = .ok y := by
    intro α β x f y hxy
    cases x with
    | error e => cases hxy
    | ok a => exact ⟨a, rfl, hxy⟩
  unfold gemmData at h
  obtain ⟨src, hs, h⟩ := step h
  obtain ⟨i2, h2, h⟩ := step h
  obtain ⟨o2, -, h⟩ := step h
  split_ifs at h with hc
  · obtain ⟨_, h0, _⟩ := step h
    cases h0
  · obtain ⟨c, h3, h⟩ := step h
    obtain ⟨k, h4, h⟩ := step h
    obtain ⟨⟨b, hh⟩, h5, h⟩ := step h
    cases h
    exact ⟨src, c, i2, k, b, hh, hs, rfl, h2, h3, h4, h5⟩

/-- The roles in a product, by the number of computed inputs. -/
theorem gemm_roles_cases (id : Nat) (preds : List Nat) (hlt : ∀ p ∈ preds, p < id) (p : Precisions) (i o : List Nat) (d : LayerD) (b : Built)
    (hd : gemmData id preds p i o = .ok d) (hb : build d = .ok b) :
    (preds.length < 2 → getAct (view d b) = .ok "I".toList ∧ getWeight (view d b) = .ok "W".toList) ∧
    (preds.length = 2 → getAct (view d b) = .ok "W".toList ∧ getWeight (view d b) = .ok "I".toList) := by
  obtain ⟨src, c, dd, k, bb, hh, hs, hde, -⟩ := gemmData_record hd
  have hcs := constants_of id preds hlt src hs d (by rw [hde]; rfl) (by rw [hde]; rfl)
  obtain ⟨rels, ops, h1, h2, h3, -, h5⟩ := built_parts hb
  have hr : rels = [] := by
    rw [hde] at h1
    cases h1
    rfl
  subst hr
  rw [show d.equation = gemmEquation bb hh (decide (preds.length < 2)) by rw [hde]; rfl, gemmOps] at h2
  cases h2
  have hkeys : (view d b).prKeys = [] := by
    show b.layer.pi.prLoop.keys = _
    rw [h3]
    rfl
  have hv : (view d b).operands = ["O".toList, "I".toList, "W".toList] := by
    show b.operands.map (fun x => x.1) = _
    generalize b.operands = l at h5
    cases h5 with
    | cons a0 t0 =>
      cases t0 with
      | cons a1 t1 =>
        cases t1 with
        | cons a2 t2 =>
          cases t2
          simp [a0.1, a1.1, a2.1]
  have hvc : (view d b).constants = constants d := rfl
  have hvr : (view d b).rDims.map Prod.fst = (view d b).operands := by simp [view]
  obtain ⟨act, w, ha, hw, ht⟩ := roles_told (view d b) "O".toList "I".toList "W".toList hv (by decide) (by decide) (by decide) hvr
    (by rw [hvc, hcs]; split_ifs <;> decide) (by rw [hvc, hcs]; split_ifs <;> decide) (by rw [hkeys]; simp)
  have hne : "I".toList ≠ "W".toList := by decide
  constructor
  · intro hlen
    have hI : act = "I".toList := by
      match preds, hlen, hcs with
      | [], _, hcs => exact ht.first (by rw [hvc, hcs]; decide) hkeys
      | [q], _, hcs =>
        have := ht.const "W".toList (by rw [hvc, hcs]; rfl)
        rcases ht.both with ⟨h, h'⟩ | ⟨h, h'⟩
        · exact h
        · rw [this] at h'
          exact absurd h'.symm hne
    rcases ht.both with ⟨h, h'⟩ | ⟨h, h'⟩
    · exact ⟨hI ▸ ha, h' ▸ hw⟩
    · rw [hI] at h
      exact absurd h hne
  · intro hlen
    have hW : act = "W".toList := ht.second (by rw [hvc, hcs, hlen]; rfl)
    rcases ht.both with ⟨h, h'⟩ | ⟨h, h'⟩
    · rw [hW] at h
      exact absurd h.symm hne
    · exact ⟨hW ▸ ha, h' ▸ hw⟩

/-- C132: in every product read from a model with at most one computed input, `I` is the activation and `W` the weights. -/
theorem gemm_roles_partial (id : Nat) (preds : List Nat) (hp : preds.length < 2) (hlt : ∀ p ∈ preds, p < id) (p : Precisions) (i o : List Nat) (d : LayerD) (b : Built)
    (hd : gemmData id preds p i o = .ok d) (hb : build d = .ok b) : getAct (view d b) = .ok "I".toList ∧ getWeight (view d b) = .ok "W".toList :=
  (gemm_roles_cases id preds hlt p i o d b hd hb).1 hp

/-- C132 is false for products of two computed tensors (attention): without constants the second input counts as the activation, and the equation of products names `I` first
(convolutions name `W` first), so that every such layer has `W` as activation and `I` as weights. -/
theorem gemm_roles_false (id : Nat) (preds : List Nat) (hp : preds.length = 2) (hlt : ∀ p ∈ preds, p < id) (p : Precisions) (i o : List Nat) (d : LayerD) (b : Built)
    (hd : gemmData id preds p i o = .ok d) (hb : build d = .ok b) : getAct (view d b) = .ok "W".toList ∧ getWeight (view d b) = .ok "I".toList :=
  (gemm_roles_cases id preds hlt p i o d b hd hb).2 hp

example : ∃ d b, gemmData 5 [3, 4] prec8 [8, 4, 16] [8, 4, 32] = .ok d ∧ build d = .ok b := by
  obtain ⟨d, b, -, -, -, hd, -, hb, -⟩ := gemm_ok_partial [8] (by decide) 4 16 32 (by decide) (by decide) (by decide) 5 [3, 4] (by decide) prec8
  exact ⟨d, b, hd, hb⟩

private theorem gemmO (c : Bool) : rDims (parse (gemmEquation 0 0 c)) "O".toList = .ok ["D".toList, "K".toList] := by cases c <;> decide +kernel

private theorem gemmI (c : Bool) : rDims (parse (gemmEquation 0 0 c)) "I".toList = .ok ["D".toList, "C".toList] := by cases c <;> decide +kernel

private theorem gemmW (c : Bool) : rDims (parse (gemmEquation 0 0 c)) "W".toList = .ok ["C".toList, "K".toList] := by cases c <;> decide +kernel

/-- C132: what the search for diagonal mappings takes for activation and weights of a matrix product of `D × C` and `C × K`. -/
theorem product_identified (id : Nat) (preds : List Nat) (p : Precisions) (D C K : Nat) (d : LayerD) (b : Built)
    (hd : gemmData id preds p [D, C] [D, K] = .ok d) (hb : build d = .ok b) :
    identify (view d b) =
      if D = 1 then (some "I".toList, some "W".toList) else if K = 1 then (some "W".toList, some "I".toList)
      else if C = 1 then (some "W".toList, some "O".toList) else (some "W".toList, none) := by
  obtain ⟨src, c, dd, k, bb, hh, hs, hde, f1, f2, f3, f4⟩ := gemmData_record hd
  have e1 : dd = D := (Except.ok.inj f1).symm
  have e2 : c = C := (Except.ok.inj f2).symm
  have e3 : k = K := (Except.ok.inj f3).symm
  have e4 : bb = 0 ∧ hh = 0 := by
    have := Except.ok.inj f4
    exact ⟨(Prod.mk.inj this).1.symm, (Prod.mk.inj this).2.symm⟩
  obtain ⟨rfl, rfl⟩ := e4
  subst e1 e2 e3
  obtain ⟨rels, ops, h1, h2, h3, -, h5⟩ := built_parts hb
  have hr : rels = [] := by
    rw [hde] at h1
    cases h1
    rfl
  subst hr
  have heq : d.equation = gemmEquation 0 0 (decide (preds.length < 2)) := by rw [hde]; rfl
  rw [heq] at h2 h5
  rw [gemmOps] at h2
  cases h2
  have hsz : dimSizes d = [("C".toList, (c : ℚ)), ("D".toList, (dd : ℚ)), ("K".toList, (k : ℚ))] := by
    have u : ["C".toList, "D".toList, "K".toList].map upper = ["C".toList, "D".toList, "K".toList] := by decide +kernel
    rw [hde]
    simp only [dimSizes, gemmRecord, ne_eq, not_true_eq_false, if_false, List.append_nil]
    rw [u, zipDict_eq _ _ (by simp) (by decide)]
    simp
  rw [hsz] at h5
  generalize hl : b.operands = l at h5
  cases h5 with
  | cons a0 t0 =>
    cases t0 with
    | cons a1 t1 =>
      cases t1 with
      | @cons _ _ _ _ a2 t2 =>
        cases t2
        rename_i x0 x1 x2
        obtain ⟨n0, r0, w0, q0⟩ := a0
        obtain ⟨n1, r1, w1, q1⟩ := a1
        obtain ⟨n2, r2, w2, q2⟩ := a2
        rw [gemmO] at w0
        rw [gemmI] at w1
        rw [gemmW] at w2
        cases w0
        cases w1
        cases w2
        have ir : ∀ (rl : List Text) (x : Text) (rel : Rel Text), extractRel rl [("C".toList, (c : ℚ)), ("D".toList, (dd : ℚ)), ("K".toList, (k : ℚ))] (extractPr []) = .ok rel →
            (∀ y ∈ ["C".toList, "D".toList, "K".toList], y ∉ rl ↔ y = x) → ∀ n : Nat, Dict.get? [("C".toList, (c : ℚ)), ("D".toList, (dd : ℚ)), ("K".toList, (k : ℚ))] x = some (n : ℚ) →
            rel.pr = [] ∧ (rel.ir = [] ↔ n = 1) := by
          intro rl x rel hrel hx n hn
          rcases extractRel_spec (rels := []) (by simp) hrel with ⟨⟨r, hr, -⟩, -⟩ | ⟨-, -, -, h, h'⟩
          · cases hr
          · refine ⟨h', ?_⟩
            rw [List.eq_nil_iff_forall_not_mem]
            simp only [h, not_and, not_not]
            constructor
            · intro hall
              have hm := Dict.mem_of_get? hn
              have hxm : x ∈ ["C".toList, "D".toList, "K".toList] := List.mem_map_of_mem (f := Prod.fst) hm
              have := hall x hxm ((hx x hxm).2 rfl)
              rw [hn] at this
              exact_mod_cast Option.some.inj this
            · rintro rfl y hy hyr
              have : y = x := (hx y hy).1 hyr
              rw [this, hn]
              simp
        obtain ⟨g0, i0⟩ := ir _ "C".toList _ q0 (by decide) c (by simp [Dict.get?_cons])
        obtain ⟨g1, i1⟩ := ir _ "K".toList _ q1 (by decide) k (by simp [Dict.get?_cons])
        obtain ⟨g2, i2⟩ := ir _ "D".toList _ q2 (by decide) dd (by simp [Dict.get?_cons])
        have hin : (view d b).inputs = ["I".toList, "W".toList] := by simp [View.inputs, view, hl, n1, n2]
        have hrel : (view d b).rel = [("O".toList, x0.2.1), ("I".toList, x1.2.1), ("W".toList, x2.2.1)] := by simp [view, hl, n0, n1, n2]
        unfold identify
        rw [hin, hrel]
        by_cases hD : dd = 1 <;> by_cases hK : k = 1 <;> by_cases hC : c = 1 <;> simp [g0, g1, g2, i0, i1, i2, hD, hK, hC]

/-- C132 is false for the search for diagonal mappings: in a product with one output column `I` is taken for the weights, in an outer product the output. -/
theorem identify_false :
    (∃ d b, gemmData 1 [0] prec8 [4, 8] [4, 1] = .ok d ∧ build d = .ok b ∧ identify (view d b) = (some "W".toList, some "I".toList)) ∧
    ∃ d b, gemmData 1 [0] prec8 [4, 1] [4, 8] = .ok d ∧ build d = .ok b ∧ identify (view d b) = (some "W".toList, some "O".toList) := by
  constructor
  · obtain ⟨d, b, -, -, -, hd, -, hb, -⟩ := gemm_ok_partial [] (by decide) 4 8 1 (by decide) (by decide) (by decide) 1 [0] (by decide) prec8
    exact ⟨d, b, hd, hb, product_identified 1 [0] prec8 4 8 1 d b hd hb⟩
  · obtain ⟨d, b, -, -, -, hd, -, hb, -⟩ := gemm_ok_partial [] (by decide) 4 1 8 (by decide) (by decide) (by decide) 1 [0] (by decide) prec8
    exact ⟨d, b, hd, hb, product_identified 1 [0] prec8 4 1 8 d b hd hb⟩

/-! ### The hardware used for diagonal mappings -/

theorem bound_not (inner : List Level) : "act_served_oa_dim" ∉ bound inner := by
  unfold bound
  split_ifs <;> decide +kernel

theorem servedDims_ok (links : Dict Text Text) (act : Text) : ∀ (inner : List Level) (s : List String), (∃ r, servedDims links act inner s = .ok r) ↔ (inner ≠ [] → act ∈ links.keys)
  | [], s => by simp [servedDims]
  | l :: ls, s => by
    rw [servedDims]
    cases h : links.get? act with
    | none =>
      have := (Dict.get?_eq_none_iff links act).1 h
      simp [this]
    | some m =>
      have hm : act ∈ links.keys := List.mem_map_of_mem (f := Prod.fst) (Dict.mem_of_get? h)
      simp only
      rw [servedDims_ok links act ls]
      simp [hm]

/-- C133: whatever the mapping, every evaluation uses the accelerator that was given. -/
theorem evaluated_given {A : Type} (diagonal : Bool) (v : View) (links : Dict Text Text) (inner : List Level) (acc : A) (rest : Except PyErr A) (x : A)
    (h : evaluated diagonal v links inner acc rest = .ok x) : x = acc := by
  unfold evaluated modify at h
  cases diagonal with
  | false =>
    cases h
    rfl
  | true =>
    simp only [if_true] at h
    split at h
    · split at h
      · cases h
      · split at h
        · cases h
        · split at h
          · cases h
          · rw [if_pos (.inl (bound_not inner))] at h
            cases h
            rfl
    · cases h
      rfl

/-- C133: when an evaluation takes place: with diagonal mappings, a layer with one constant must have another input that is linked to a memory operand. -/
theorem evaluated_ok_iff {A : Type} (diagonal : Bool) (v : View) (links : Dict Text Text) (inner : List Level) (acc : A) (rest : Except PyErr A) (hrel : v.rel.map Prod.fst = v.operands) :
    (∃ x, evaluated diagonal v links inner acc rest = .ok x) ↔
      (diagonal = true → ∀ c, v.constants = [c] → c ∈ v.operands ∧ ∃ act more, (v.inputs.filter fun x => decide (x ≠ c)) = act :: more ∧ (inner ≠ [] → act ∈ links.keys)) := by
  unfold evaluated
  cases diagonal with
  | false => simp
  | true =>
    simp only [if_true, true_implies]
    unfold modify
    match hc : v.constants with
    | [] => simp
    | c1 :: c2 :: cs => simp
    | [c] =>
      have hf : (v.rel.find? fun x => decide (x.1 = c)) = none ↔ c ∉ v.operands := by
        rw [← hrel, List.find?_eq_none]
        simp only [decide_eq_true_eq, List.mem_map, not_exists, not_and]
      simp only [List.cons.injEq, and_true, forall_eq']
      cases hi : v.inputs.filter fun x => decide (x ≠ c) with
      | nil => simp
      | cons act more =>
        simp only [List.cons.injEq]
        cases hr : v.rel.find? fun x => decide (x.1 = c) with
        | none => simp [hf.1 hr]
        | some e =>
          have hin : c ∈ v.operands := by
            by_contra hno
            rw [hf.2 hno] at hr
            cases hr
          simp only [hin, true_and]
          have hs := servedDims_ok links act inner []
          have hred : (∃ a m, (act = a ∧ more = m) ∧ (inner ≠ [] → a ∈ links.keys)) ↔ (inner ≠ [] → act ∈ links.keys) :=
            ⟨fun ⟨a, m, ⟨e1, _⟩, h⟩ => e1 ▸ h, fun h => ⟨act, more, ⟨rfl, rfl⟩, h⟩⟩
          rw [hred, ← hs]
          cases hsd : servedDims links act inner [] with
          | error e => simp
          | ok s =>
            simp only
            rw [if_pos (.inl (bound_not inner))]
            simp

/-- A convolution along one axis. -/
def exView : View where
  operands := ["O".toList, "W".toList, "I".toList]
  rDims := [("O".toList, ["OX".toList]), ("W".toList, ["FX".toList]), ("I".toList, ["IX".toList])]
  prKeys := ["IX".toList]
  constants := ["W".toList]
  rel := [("O".toList, ⟨["OX".toList], ["FX".toList], []⟩), ("W".toList, ⟨["FX".toList], ["OX".toList], []⟩), ("I".toList, ⟨[], [], [("IX".toList, ("OX".toList, "FX".toList))]⟩)]

/-- C133 is false of the intention of the code: the innermost input memory serves one dimension along which output columns are unrolled, and is to be enlarged by that
unrolling, but the test whether its dimension is known asks for a name that is bound only afterwards (spatial_mapping_generation.py lines 682-685), so that the memory is never
enlarged and mappings are rejected as too large for it. -/
theorem never_enlarged_false {A : Type} (acc enlarged : A) (h : acc ≠ enlarged) :
    servedDims [("I".toList, "I1".toList)] "I".toList [⟨["I1".toList], ["D1"]⟩] [] = .ok ["D1"] ∧
      evaluated true exView [("I".toList, "I1".toList)] [⟨["I1".toList], ["D1"]⟩] acc (.ok enlarged) ≠ .ok enlarged := by
  refine ⟨by decide +kernel, fun e => ?_⟩
  exact h (evaluated_given _ _ _ _ _ _ _ e).symm

example : evaluated true exView [("I".toList, "I1".toList)] [⟨["I1".toList], ["D1"]⟩] 7 (.ok 8) = .ok 7 := by decide +kernel

example : getAct exView = .ok "I".toList ∧ getWeight exView = .ok "W".toList ∧ identify exView = (some "I".toList, some "W".toList) := by decide +kernel

/-- C133 is false for layers whose only input is constant: with diagonal mappings enabled, `IndexError` before any evaluation. -/
theorem single_input_crash {A : Type} (acc : A) (rest : Except PyErr A) (links : Dict Text Text) (inner : List Level) :
    evaluated true ⟨["O".toList, "W".toList], [], [], ["W".toList], [("O".toList, ⟨[], [], []⟩), ("W".toList, ⟨[], [], []⟩)]⟩ links inner acc rest = .error .indexError := by
  rfl

/-! ### Layers built again -/

/-- A layer is built by creating its attributes and then the layer. -/
theorem build_eq (d : LayerD) : build d = (match createAttr d with
    | .error e => .error e
    | .ok a => match initNode a with
      | .error e => .error e
      | .ok n => .ok n.built) := by
  unfold build createAttr
  cases mapE mkRel d.relations with
  | error e => rfl
  | ok rels =>
    simp only
    cases padding d with
    | error e => rfl
    | ok p =>
      simp only [initNode]
      cases operands (parse d.equation) with
      | error e => rfl
      | ok ops =>
        simp only
        cases prSizes (prSizesFile d) (dimSizes d) (extractPr rels) p with
        | error e => rfl
        | ok ps =>
          simp only
          cases mapE (operandInfo (parse d.equation) ⟨dimSizes d, extractPr rels, ps⟩ d.precision) ops with
          | error e => rfl
          | ok infos => rfl

/-- C134: building a layer again from the attributes taken out of it succeeds and gives the same layer, whether or not the sizes of shared dimensions were given. -/
theorem rebuilt (a : Attr) (n : Node) (h : initNode a = .ok n) : initNode (extract n) = .ok n := by
  unfold initNode at h
  cases ho : operands a.equation with
  | error e => rw [ho] at h; cases h
  | ok ops =>
    rw [ho] at h
    simp only at h
    cases hp : prSizes a.prSizes a.sizes (extractPr a.relations) a.padding with
    | error e => rw [hp] at h; cases h
    | ok ps =>
      rw [hp] at h
      simp only at h
      cases hi : mapE (operandInfo a.equation ⟨a.sizes, extractPr a.relations, ps⟩ a.precision) ops with
      | error e => rw [hi] at h; cases h
      | ok infos =>
        rw [hi] at h
        cases h
        have hps : prSizes (some ps) a.sizes (extractPr a.relations) a.padding = .ok ps := by
          unfold prSizes
          simp only
          split_ifs with h0
          · subst h0
            unfold prSizes at hp
            cases hg : a.prSizes with
            | none =>
              rw [hg] at hp
              exact hp
            | some g =>
              rw [hg] at hp
              simp only at hp
              split_ifs at hp with hg0
              · exact hp
              · cases hp
                exact absurd rfl hg0
          · rfl
        unfold initNode extract
        simp only [ho, hps, hi]

/-- A convolution without given sizes. -/
example : ∃ a n, createAttr conv1 = .ok a ∧ a.prSizes = none ∧ initNode a = .ok n ∧ (extract n).prSizes ≠ none := by
  obtain ⟨b, hb, -⟩ := build_ok_partial conv1 conv1Eqn _ conv1_good (by decide +kernel) (.inr ⟨rfl, rfl⟩)
  rw [build_eq] at hb
  cases ha : createAttr conv1 with
  | error e => rw [ha] at hb; cases hb
  | ok a =>
    rw [ha] at hb
    simp only at hb
    cases hn : initNode a with
    | error e => rw [hn] at hb; cases hb
    | ok n =>
      refine ⟨a, n, rfl, ?_, hn, by simp [extract]⟩
      unfold createAttr at ha
      split at ha
      · cases ha
      · split at ha
        · cases ha
        · cases ha
          rfl

end Verif.Roles
