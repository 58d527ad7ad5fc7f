import Verif.Evaluate.Ease

/-! What changes in an evaluation with other bandwidths or other sizes of memories. -/

namespace Verif.Evaluate

open Cme (Dir FourWay)
open MapInfo
open Decouple (TDim decouple layerEnv pyGet)
open LayerNode (Relation operandSizeElem)
open Latency (Operand Key)
open Transfer (WholeLoops FromNest)
open Window (Duty)

variable {Dim : Type} [DecidableEq Dim]

/-! ### Tables -/

/-- Two patterns that differ at most in the numbers of accesses. -/
def Same (p q : Pattern) : Prop := q = { p with moves := q.moves }

theorem Same.refl (p : Pattern) : Same p p := rfl

/-- Tables that differ at most in numbers of accesses. -/
structure Alike (i i' : OpInfo Dim) : Prop where
  reform : i'.reform = i.reform
  bits : i'.bits = i.bits
  effBits : i'.effBits = i.effBits
  moves : List.Forall₂ Same i.moves i'.moves

private theorem pattern_same {c : Cfg Dim} (b : Nat → Option ℚ) {t : Tables Dim} {lvl : Nat} {p q : Pattern} (h : inputPattern c t lvl = .ok p)
    (h' : inputPattern { c with bw := b } t lvl = .ok q) : Same p q := by
  unfold inputPattern at h h'
  have e1 : precisions { c with bw := b } none = precisions c none := rfl
  have e2 : ∀ prec, lowSide { c with bw := b } t prec false lvl = lowSide c t prec false lvl := fun _ => rfl
  have e3 : ∀ prec, highSide { c with bw := b } t prec false lvl = highSide c t prec false lvl := fun _ => rfl
  have e4 : ∀ x y, instant { c with bw := b } lvl x y = instant c lvl x y := fun _ _ => rfl
  simp only [e1, e2, e3, e4] at h'
  cases m1 : inputCounts c t lvl with
  | error e => rw [m1] at h; cases h
  | ok m =>
    cases m2 : inputCounts { c with bw := b } t lvl with
    | error e => rw [m2] at h'; cases h'
    | ok m' =>
      rw [m1] at h
      rw [m2] at h'
      simp only [bind, Except.bind] at h h'
      cases g1 : precisions c none with
      | error e => rw [g1] at h; cases h
      | ok prec =>
        rw [g1] at h h'
        simp only at h h'
        cases g2 : lowSide c t prec false lvl with
        | error e => rw [g2] at h; cases h
        | ok lo =>
          rw [g2] at h h'
          simp only at h h'
          cases g3 : highSide c t prec false lvl with
          | error e => rw [g3] at h; cases h
          | ok hi =>
            rw [g3] at h h'
            simp only at h h'
            cases g4 : instant c lvl (inWay lo.bw hi.bw) (inWay lo.period hi.period) with
            | error e => rw [g4] at h; cases h
            | ok i =>
              rw [g4] at h h'
              cases h; cases h'
              rfl

private theorem mapM_forall₂ {α β : Type} {R : β → β → Prop} {f g : α → Except PyErr β} (l : List α)
    (hr : ∀ a ∈ l, ∀ x y, f a = .ok x → g a = .ok y → R x y) {xs ys : List β} (hx : l.mapM f = .ok xs) (hy : l.mapM g = .ok ys) :
    List.Forall₂ R xs ys := by
  induction l generalizing xs ys with
  | nil => cases hx; cases hy; exact .nil
  | cons a l ih =>
    rw [List.mapM_cons] at hx hy
    simp only [bind, Except.bind] at hx hy
    cases h1 : f a with
    | error e => rw [h1] at hx; cases hx
    | ok x =>
      cases h2 : g a with
      | error e => rw [h2] at hy; cases hy
      | ok y =>
        rw [h1] at hx
        rw [h2] at hy
        simp only at hx hy
        cases h3 : l.mapM f with
        | error e => rw [h3] at hx; cases hx
        | ok xs' =>
          cases h4 : l.mapM g with
          | error e => rw [h4] at hy; cases hy
          | ok ys' =>
            rw [h3] at hx
            rw [h4] at hy
            cases hx; cases hy
            exact .cons (hr a List.mem_cons_self x y h1 h2) (ih (fun b hb => hr b (List.mem_cons_of_mem _ hb)) h3 h4)

private theorem update_same {p q : Pattern} (h : Same p q) (d : Dir) (v : ℚ) : Same (p.update d v) (q.update d v) := by
  unfold Same at h ⊢
  rw [h]
  rfl

private theorem modify_same {ps qs : List Pattern} (h : List.Forall₂ Same ps qs) (n : Nat) {f : Pattern → Pattern}
    (hf : ∀ p q, Same p q → Same (f p) (f q)) : List.Forall₂ Same (ps.modify n f) (qs.modify n f) := by
  induction h generalizing n with
  | nil => cases n <;> exact .nil
  | cons hpq hr ih =>
    cases n with
    | zero => exact .cons (hf _ _ hpq) hr
    | succ n => exact .cons hpq (ih n)

private theorem disable_same {ps qs ps' qs' : List Pattern} (h : List.Forall₂ Same ps qs) (h1 : disableExternal ps = .ok ps')
    (h2 : disableExternal qs = .ok qs') : List.Forall₂ Same ps' qs' := by
  unfold disableExternal at h1 h2
  split at h1
  · cases h1
  · split at h2
    · cases h2
    · cases h1; cases h2
      rw [h.length_eq]
      exact modify_same h _ (fun p q hpq => update_same (update_same hpq _ _) _ _)

private theorem moves_same {c : Cfg Dim} (b : Nat → Option ℚ) {ps qs : List Pattern} (h : inputMoves c = .ok ps)
    (h' : inputMoves { c with bw := b } = .ok qs) : List.Forall₂ Same ps qs := by
  unfold inputMoves at h h'
  have e1 : tables { c with bw := b } = tables c := rfl
  rw [e1] at h'
  cases ht : tables c with
  | error e => rw [ht] at h; cases h
  | ok t =>
    rw [ht] at h h'
    simp only [bind, Except.bind] at h h'
    cases g : (List.range c.tm.length).mapM (inputPattern c t) with
    | error e => rw [g] at h; cases h
    | ok xs =>
      cases g' : (List.range c.tm.length).mapM (inputPattern { c with bw := b } t) with
      | error e => rw [g'] at h'; cases h'
      | ok ys =>
        rw [g] at h
        rw [g'] at h'
        exact disable_same (mapM_forall₂ _ (fun a _ x y hx hy => pattern_same b hx hy) g g') h h'

/-- Bandwidths only change numbers of accesses. -/
theorem opInfo_alike {c : Cfg Dim} (b : Nat → Option ℚ) {out : Bool} {i i' : OpInfo Dim} (h : opInfo c out = .ok i)
    (h' : opInfo { c with bw := b } out = .ok i') : Alike i i' := by
  unfold opInfo at h h'
  have e1 : tables { c with bw := b } = tables c := rfl
  have e2 : outputMoves { c with bw := b } = outputMoves c := rfl
  have e3 : ∀ x, precisions { c with bw := b } x = precisions c x := fun _ => rfl
  have e4 : ∀ x, effective { c with bw := b } x = effective c x := fun _ => rfl
  have e5 : isR { c with bw := b } = isR c := rfl
  have e6 : isIr { c with bw := b } = isIr c := rfl
  simp only [e1, e2, e3, e4, e5, e6] at h'
  cases g1 : decouple (layerEnv c.L c.rel) c.su with
  | error e => rw [g1] at h; cases h
  | ok rs =>
    rw [g1] at h h'
    simp only [bind, Except.bind] at h h'
    cases g2 : SpatialInternal.serveScope (isR c) rs with
    | error e => rw [g2] at h; cases h
    | ok sc =>
      rw [g2] at h h'
      simp only at h h'
      cases g3 : tables c with
      | error e => rw [g3] at h; cases h
      | ok t =>
        rw [g3] at h h'
        simp only at h h'
        split at h
        · cases h
        · rename_i prec g4
          rw [g4] at h'
          simp only at h'
          split at h
          · cases h
          · rename_i bits g5
            rw [g5] at h'
            simp only at h'
            split at h
            · cases h
            · rename_i ef g6
              rw [g6] at h'
              simp only at h'
              split at h
              · cases h
              · rename_i eff g7
                rw [g7] at h'
                simp only at h'
                cases out with
                | true =>
                  simp only [if_true] at h h'
                  split at h
                  · cases h
                  · rename_i ps g8
                    rw [g8] at h'
                    cases h; cases h'
                    exact ⟨rfl, rfl, rfl, List.forall₂_same.2 fun p _ => Same.refl p⟩
                | false =>
                  simp only [Bool.false_eq_true, if_false] at h h'
                  split at h
                  · cases h
                  · rename_i ps g8
                    split at h'
                    · cases h'
                    · rename_i qs g9
                      cases h; cases h'
                      exact ⟨rfl, rfl, rfl, moves_same b g8 g9⟩

theorem mapping_forall₂ {h h' : Hw} {j : Job Dim} {int : Bool} (hc : ∀ op, ∃ b, cfg h' j int op = { cfg h j int op with bw := b })
    {m m' : Dict Operand (OpInfo Dim)} (h1 : mapping h j int = .ok m) (h2 : mapping h' j int = .ok m') :
    List.Forall₂ (fun e e' : Operand × OpInfo Dim => e.1 = e'.1 ∧ Alike e.2 e'.2) m m' := by
  refine mapM_forall₂ j.ops (fun o _ x y hx hy => ?_) h1 h2
  obtain ⟨b, hb⟩ := hc o
  rw [hb] at hy
  simp only [bind, Except.bind] at hx hy
  cases g1 : opInfo (cfg h j int o) (decide (o = .out)) with
  | error e => rw [g1] at hx; cases hx
  | ok i =>
    cases g2 : opInfo { cfg h j int o with bw := b } (decide (o = .out)) with
    | error e => rw [g2] at hy; cases hy
    | ok i' =>
      rw [g1] at hx
      rw [g2] at hy
      cases hx; cases hy
      exact ⟨rfl, opInfo_alike b g1 g2⟩

/-- Two accelerators between which the operands of a layer see at most a difference in bandwidths. -/
theorem mapping_alike {h h' : Hw} {j : Job Dim} {int : Bool} (hc : ∀ op, ∃ b, cfg h' j int op = { cfg h j int op with bw := b })
    {m m' : Dict Operand (OpInfo Dim)} (h1 : mapping h j int = .ok m) (h2 : mapping h' j int = .ok m') (op : Operand) :
    Option.Rel Alike (m.get? op) (m'.get? op) := by
  have := mapping_forall₂ hc h1 h2
  clear h1 h2
  induction this with
  | nil => exact .none
  | @cons e e' m m' he _ ih =>
    obtain ⟨k, v⟩ := e
    obtain ⟨k', v'⟩ := e'
    obtain ⟨rfl, ha⟩ := he
    rw [Dict.get?_cons, Dict.get?_cons]
    simp only
    split
    · exact .some ha
    · exact ih

theorem pattern_alike {m m' : Dict Operand (OpInfo Dim)} (h : ∀ op, Option.Rel Alike (m.get? op) (m'.get? op)) (op : Operand) (lv : Nat) :
    Option.Rel Same (pattern m op lv) (pattern m' op lv) := by
  unfold pattern
  have := h op
  generalize m.get? op = a at *
  generalize m'.get? op = b at *
  cases this with
  | none => exact .none
  | some ha =>
    simp only [Option.bind_some]
    have := ha.moves
    rename_i x y
    generalize x.moves = ps at *
    generalize y.moves = qs at *
    clear ha
    induction this generalizing lv with
    | nil => exact .none
    | cons hs _ ih =>
      cases lv with
      | zero => exact .some hs
      | succ n => exact ih n

/-! ### Movements of a port -/

theorem duties_easier {h h' : Hw} {j : Job Dim} {loops : List (Dim × ℚ)} (hw : WholeLoops loops) {it it' : Dict Operand (OpInfo Dim)}
    (hp : ∀ op lv, Option.Rel Same (pattern it op lv) (pattern it' op lv)) (hn : ∀ op ∈ j.ops, ∀ lv p, pattern it op lv = some p → FromNest loops p)
    (hbw : ∀ op lv d, Option.Rel (fun w w' => w ≠ 0 ∧ w ≤ w') (h.bw Port.bwMax op lv d) (h'.bw Port.bwMax op lv d))
    {fl fl' : Operand → List Bool} (hfl : ∀ op ∈ j.ops, List.Forall₂ (fun b b' => b = true → b' = true) (fl op) (fl' op)) (ks : List Key)
    {ds es : List (Duty Key)} (h1 : duties h j it fl ks = .ok ds) (h2 : duties h' j it' fl' ks = .ok es) : List.Forall₂ Easier es ds := by
  induction ks generalizing ds es with
  | nil => cases h1; cases h2; exact .nil
  | cons k ks ih =>
    unfold duties at h1 h2
    by_cases ho : k.1 ∈ j.ops
    swap
    · rw [if_neg ho] at h1 h2
      exact ih h1 h2
    rw [if_pos ho] at h1 h2
    have hpk := hp k.1 k.2.1
    have hnk := hn k.1 ho k.2.1
    generalize pattern it k.1 k.2.1 = a at *
    generalize pattern it' k.1 k.2.1 = b at *
    cases hpk with
    | none => cases h1
    | @some p q hs =>
      simp only [bind, Except.bind] at h1 h2
      cases g1 : Transfer.duty k (h.bw Port.bwMax k.1 k.2.1) (fl k.1) k.2.1 p k.2.2 with
      | error e => rw [g1] at h1; cases h1
      | ok d =>
        cases g2 : Transfer.duty k (h'.bw Port.bwMax k.1 k.2.1) (fl' k.1) k.2.1 q k.2.2 with
        | error e => rw [g2] at h2; cases h2
        | ok e =>
          rw [g1] at h1
          rw [g2] at h2
          simp only at h1 h2
          cases g3 : duties h j it fl ks with
          | error e => rw [g3] at h1; cases h1
          | ok ds' =>
            cases g4 : duties h' j it' fl' ks with
            | error e => rw [g4] at h2; cases h2
            | ok es' =>
              rw [g3] at h1
              rw [g4] at h2
              cases h1; cases h2
              refine .cons ?_ (ih g3 g4)
              have hq : q = { p with moves := q.moves } := hs
              have hnest := window_le hw (hnk p rfl) k.2.2
              have hreal : (Transfer.realCycles (h'.bw Port.bwMax k.1 k.2.1) q k.2.2).toNat ≤
                  (Transfer.realCycles (h.bw Port.bwMax k.1 k.2.1) p k.2.2).toNat := by
                unfold Transfer.realCycles
                rw [show q.amount = p.amount by rw [hq], show q.precision = p.precision by rw [hq]]
                have := hbw k.1 k.2.1 k.2.2
                generalize h.bw Port.bwMax k.1 k.2.1 k.2.2 = w at *
                generalize h'.bw Port.bwMax k.1 k.2.1 k.2.2 = w' at *
                cases this with
                | none => exact le_rfl
                | @some w w' hww =>
                  obtain ⟨h0, hle⟩ := hww
                  simp only [if_neg h0, if_neg (show w' ≠ 0 by omega)]
                  have hwq : (0 : ℚ) < w := by exact_mod_cast Nat.pos_of_ne_zero h0
                  have hle' : (w : ℚ) ≤ w' := by exact_mod_cast hle
                  generalize p.amount.get k.2.2 * p.precision.get k.2.2 = x
                  by_cases hx : 0 ≤ x
                  · exact Int.toNat_le_toNat (Int.ceil_le_ceil (div_le_div_of_nonneg_left hx hwq hle'))
                  · have : ⌈x / (w' : ℚ)⌉ ≤ 0 := by
                      rw [Int.ceil_le]
                      have := div_nonpos_of_nonpos_of_nonneg (le_of_lt (not_le.1 hx)) (le_trans hwq.le hle')
                      exact_mod_cast this
                    omega
              have hflk := hfl k.1 ho
              generalize fl k.1 = f at *
              generalize fl' k.1 = f' at *
              unfold Transfer.duty Transfer.allowedTime at g1 g2
              simp only [bind, Except.bind] at g1 g2
              have hget : ∀ i c c', pyGet f i = .ok c → pyGet f' i = .ok c' → (c = true → c' = true) := by
                intro i c c' hc hc'
                have e1 := pyGet_of hc
                have e2 := pyGet_of hc'
                clear g1 g2 hc hc'
                induction hflk generalizing i with
                | nil => cases e1
                | cons hb _ ih =>
                  cases i with
                  | zero => cases e1; cases e2; exact hb
                  | succ i => exact ih i e1 e2
              cases a1 : pyGet f k.2.1 with
              | error e => rw [a1] at g1; cases g1
              | ok cur =>
                cases a2 : pyGet f (k.2.1 + 1) with
                | error e => rw [a1, a2] at g1; cases g1
                | ok nxt =>
                  cases b1 : pyGet f' k.2.1 with
                  | error e => rw [b1] at g2; cases g2
                  | ok cur' =>
                    cases b2 : pyGet f' (k.2.1 + 1) with
                    | error e => rw [b1, b2] at g2; cases g2
                    | ok nxt' =>
                      rw [a1, a2] at g1
                      rw [b1, b2] at g2
                      simp only [pure, Except.pure, Except.ok.injEq] at g1 g2
                      have i1 := hget _ _ _ a1 b1
                      have i2 := hget _ _ _ a2 b2
                      subst g1 g2
                      refine ⟨rfl, ?_, ?_, hreal, ?_⟩
                      · simp only; rw [hq]
                      · simp only; rw [hq]
                      · simp only
                        intro hcount
                        have hwp : p.window.get k.2.2 ≤ p.period.get k.2.2 := by
                          rcases hnest with hz | hz
                          · rw [hz] at hcount; simp at hcount
                          · exact hz
                        rw [show q.period = p.period by rw [hq], show q.window = p.window by rw [hq]]
                        refine Int.toNat_le_toNat (Int.floor_le_floor ?_)
                        have : ∀ x x' : Bool, (x = true → x' = true) →
                            (if x = true then p.period else p.window).get k.2.2 ≤ (if x' = true then p.period else p.window).get k.2.2 := by
                          intro x x' hx
                          cases x <;> cases x'
                          · exact le_rfl
                          · exact hwp
                          · cases hx rfl
                          · exact le_rfl
                        split <;> exact this _ _ (by assumption)

/-- The stall with easier movements on every port. -/
theorem stall_easier {h h' : Hw} {j : Job Dim} {rl : Operand → List Dim} {rels : List (Relation Dim)} {loops array : List (Dim × ℚ)}
    (R : Mapped h j rl rels loops array) (R' : Mapped h' j rl rels loops array) (hports : h'.ports.map Port.served = h.ports.map Port.served)
    {it it' : Dict Operand (OpInfo Dim)} (hg : ∀ op ∈ j.ops, ∃ i, it.get? op = some i ∧ Good h j true op i)
    (hg' : ∀ op ∈ j.ops, ∃ i, it'.get? op = some i ∧ Good h' j true op i)
    (hp : ∀ op lv, Option.Rel Same (pattern it op lv) (pattern it' op lv))
    (hbw : ∀ op lv d, Option.Rel (fun w w' => w ≠ 0 ∧ w ≤ w') (h.bw Port.bwMax op lv d) (h'.bw Port.bwMax op lv d))
    {fl fl' : Operand → List Bool} (hfl : ∀ op ∈ j.ops, List.Forall₂ (fun b b' => b = true → b' = true) (fl op) (fl' op))
    (hlen : ∀ op ∈ j.ops, (fl op).length = (j.tm op).length + 1)
    {st st' : Int} (h1 : stall h j it fl = .ok st) (h2 : stall h' j it' fl' = .ok st') : st' ≤ st := by
  have hlen' : ∀ op ∈ j.ops, (fl' op).length = (j.tm op).length + 1 := fun op ho => by rw [← (hfl op ho).length_eq]; exact hlen op ho
  have hnest : ∀ op ∈ j.ops, ∀ lv p, pattern it op lv = some p → FromNest loops p := by
    intro op ho lv p hpat
    obtain ⟨i, hi, hgi⟩ := hg op ho
    unfold pattern at hpat
    rw [hi, Option.bind_some] at hpat
    exact fromNest R ho hgi hpat
  unfold stall at h1 h2
  simp only [bind, Except.bind] at h1 h2
  cases g1 : h.ports.mapM (fun p => duties h j it fl p.served) with
  | error e => rw [g1] at h1; cases h1
  | ok dss =>
    cases g2 : h'.ports.mapM (fun p => duties h' j it' fl' p.served) with
    | error e => rw [g2] at h2; cases h2
    | ok ess =>
      rw [g1] at h1
      rw [g2] at h2
      simp only at h1 h2
      refine stallComb_easier ?_ h2 h1
      have hin : ∀ p ∈ h.ports, p ∈ h.ports := fun _ h => h
      have hin' : ∀ p ∈ h'.ports, p ∈ h'.ports := fun _ h => h
      revert g1 g2 hports hin hin'
      clear h1 h2
      generalize e1 : h.ports = ps
      generalize e2 : h'.ports = qs
      intro hports g1 g2 hin hin'
      have hin : ∀ p ∈ ps, p ∈ h.ports := by rw [e1]; exact hin
      have hin' : ∀ p ∈ qs, p ∈ h'.ports := by rw [e2]; exact hin'
      clear e1 e2
      induction ps generalizing qs dss ess with
      | nil =>
        cases qs with
        | nil => cases g1; cases g2; exact .nil
        | cons q qs => cases hports
      | cons p ps ih =>
        cases qs with
        | nil => cases hports
        | cons q qs =>
          rw [List.map_cons, List.map_cons, List.cons.injEq] at hports
          rw [List.mapM_cons] at g1 g2
          simp only [bind, Except.bind] at g1 g2
          obtain ⟨ds, d1, d2, d3⟩ := duties_ok R hg hlen p.served (fun k hk => served_in R (hin p List.mem_cons_self) hk)
          obtain ⟨es, e1, e2, e3⟩ := duties_ok R' hg' hlen' q.served (fun k hk => served_in R' (hin' q List.mem_cons_self) hk)
          rw [d1] at g1
          rw [e1] at g2
          simp only at g1 g2
          split at g1
          · cases g1
          · rename_i dss' g3
            split at g2
            · cases g2
            · rename_i ess' g4
              cases g1; cases g2
              refine .cons ?_ (ih dss' ess' qs hports.2 g3 g4 (fun _ h => h) (fun _ h => h) (fun p hp => hin p (List.mem_cons_of_mem _ hp))
                (fun p hp => hin' p (List.mem_cons_of_mem _ hp)))
              intro s s' hs hs'
              rw [hports.1] at e1
              have he := easier_activities (duties_easier R.whole hp hnest hbw hfl p.served d1 e1) j.cyclesPerOp
              exact portStall_easier he
                (Transfer.port_sharing R.whole R.cycles (by rw [e2]; exact (ports_nodup R' (hin' q List.mem_cons_self)).filter _) e3)
                (Transfer.port_sharing R.whole R.cycles (by rw [d2]; exact (ports_nodup R (hin p List.mem_cons_self)).filter _) d3) hs hs'

end Verif.Evaluate
