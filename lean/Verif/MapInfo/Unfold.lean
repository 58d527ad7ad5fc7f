import Verif.MapInfo.Traffic

/-! What the data movement patterns consist of. -/

namespace Verif.MapInfo

open LayerNode Decouple
open SpatialInternal (pyRound pyDiv)
open Energy (trunc)
open Cme (FourWay Dir)

variable {Dim : Type} [DecidableEq Dim]

/-- The outermost pattern with its traffic to the outside removed. -/
def topCut (n lvl : Nat) (p : Pattern) : Pattern := if lvl + 1 = n then (p.update .rdToHigh 0).update .wrByHigh 0 else p

theorem disable_get {ps qs : List Pattern} (h : disableExternal ps = .ok qs) :
    qs.length = ps.length ∧ ps ≠ [] ∧ ∀ (n : Nat) (p : Pattern), ps[n]? = some p → qs[n]? = some (topCut ps.length n p) := by
  unfold disableExternal at h
  by_cases hn : ps = []
  · rw [if_pos hn] at h; cases h
  · rw [if_neg hn] at h
    cases h
    have hpos := List.length_pos_iff.2 hn
    refine ⟨by simp, hn, fun n p hp => ?_⟩
    unfold topCut
    by_cases he : n + 1 = ps.length
    · rw [if_pos he, List.getElem?_modify, hp]; simp [show ps.length - 1 = n by omega]
    · rw [if_neg he, List.getElem?_modify, hp]; simp [show ps.length - 1 ≠ n by omega]

theorem inputMoves_get {c : Cfg Dim} {ps : List Pattern} (h : inputMoves c = .ok ps) : ps.length = c.tm.length ∧
    ∃ t, tables c = .ok t ∧ ∀ lvl, lvl < c.tm.length → ∃ p, inputPattern c t lvl = .ok p ∧ ps[lvl]? = some (topCut c.tm.length lvl p) := by
  unfold inputMoves at h
  cases ht : tables c with
  | error e => rw [ht] at h; cases h
  | ok t =>
    cases hm : (List.range c.tm.length).mapM (inputPattern c t) with
    | error e => simp only [bind, Except.bind, ht, hm] at h; cases h
    | ok qs =>
      simp only [bind, Except.bind, ht, hm] at h
      obtain ⟨l1, g1⟩ := mapM_get hm
      obtain ⟨l2, _, g2⟩ := disable_get h
      have hl : qs.length = c.tm.length := by rw [l1, List.length_range]
      refine ⟨by rw [l2, hl], t, rfl, fun lvl hlvl => ?_⟩
      obtain ⟨p, hp, hq⟩ := g1 lvl lvl (List.getElem?_range hlvl)
      exact ⟨p, hp, by rw [g2 lvl p hq, hl]⟩

theorem outputMoves_get {c : Cfg Dim} {ps : List Pattern} (h : outputMoves c = .ok ps) : ps.length = c.tm.length ∧
    ∃ t s, tables c = .ok t ∧ operandSizeElem c.L c.rel = .ok s ∧
      ∀ lvl, lvl < c.tm.length → ∃ p, outputPattern c t s lvl = .ok p ∧ ps[lvl]? = some (topCut c.tm.length lvl p) := by
  unfold outputMoves at h
  cases ht : tables c with
  | error e => rw [ht] at h; cases h
  | ok t =>
    cases hs : operandSizeElem c.L c.rel with
    | error e => simp only [bind, Except.bind, ht, hs] at h; cases h
    | ok s =>
      cases hm : (List.range c.tm.length).mapM (outputPattern c t s) with
      | error e => simp only [bind, Except.bind, ht, hs, hm] at h; cases h
      | ok qs =>
        simp only [bind, Except.bind, ht, hs, hm] at h
        obtain ⟨l1, g1⟩ := mapM_get hm
        obtain ⟨l2, _, g2⟩ := disable_get h
        have hl : qs.length = c.tm.length := by rw [l1, List.length_range]
        refine ⟨by rw [l2, hl], t, s, rfl, rfl, fun lvl hlvl => ?_⟩
        obtain ⟨p, hp, hq⟩ := g1 lvl lvl (List.getElem?_range hlvl)
        exact ⟨p, hp, by rw [g2 lvl p hq, hl]⟩

theorem inputPattern_unfold {c : Cfg Dim} {t : Tables Dim} {lvl : Nat} {p : Pattern} (h : inputPattern c t lvl = .ok p) :
    ∃ lo hi i, inputCounts c t lvl = .ok p.moves ∧ lowSide c t (List.replicate (c.tm.length + 1) c.precision) false lvl = .ok lo ∧
      highSide c t (List.replicate (c.tm.length + 1) c.precision) false lvl = .ok hi ∧
      instant c lvl (inWay lo.bw hi.bw) (inWay lo.period hi.period) = .ok i ∧ p.precision = inputPrec c ∧
      p.bwAver = inWay lo.bw hi.bw ∧ p.bwInst = i.1 ∧ p.period = inWay lo.period hi.period ∧
      p.periodCount = inWay lo.count hi.count ∧ p.amount = inWay lo.amount hi.amount ∧ p.window = i.2 := by
  unfold inputPattern at h
  cases h1 : inputCounts c t lvl with
  | error e => rw [h1] at h; cases h
  | ok m =>
    cases h2 : lowSide c t (List.replicate (c.tm.length + 1) c.precision) false lvl with
    | error e => simp only [bind, Except.bind, h1, precisions, h2] at h; cases h
    | ok lo =>
      cases h3 : highSide c t (List.replicate (c.tm.length + 1) c.precision) false lvl with
      | error e => simp only [bind, Except.bind, h1, precisions, h2, h3] at h; cases h
      | ok hi =>
        cases h4 : instant c lvl (inWay lo.bw hi.bw) (inWay lo.period hi.period) with
        | error e => simp only [bind, Except.bind, h1, precisions, h2, h3, h4] at h; cases h
        | ok i =>
          simp only [bind, Except.bind, h1, precisions, h2, h3, h4, pure, Except.pure] at h
          cases h
          exact ⟨lo, hi, i, rfl, rfl, rfl, h4, rfl, rfl, rfl, rfl, rfl, rfl, rfl⟩

theorem outputPattern_unfold {c : Cfg Dim} {t : Tables Dim} {s : ℚ} {lvl : Nat} {p : Pattern} (h : outputPattern c t s lvl = .ok p) :
    ∃ prec lo hi pl ph i, outputCounts t s lvl = .ok p.moves ∧ precisions c (some (psumFlags (isIr c) t.ra)) = .ok prec ∧
      lowSide c t prec true lvl = .ok lo ∧ highSide c t prec true lvl = .ok hi ∧ pyGet (psumFlags (isIr c) t.ra) lvl = .ok pl ∧
      pyGet (psumFlags (isIr c) t.ra) (lvl + 1) = .ok ph ∧
      instant c lvl (outWay pl ph lo.bw hi.bw) (outWay pl ph lo.period hi.period) = .ok i ∧ p.precision = outputPrec c p.moves ∧
      p.bwAver = outWay pl ph lo.bw hi.bw ∧ p.bwInst = i.1 ∧ p.period = outWay pl ph lo.period hi.period ∧
      p.periodCount = outWay pl ph lo.count hi.count ∧ p.amount = outWay pl ph (trunc lo.amount) hi.amount ∧ p.window = i.2 := by
  unfold outputPattern at h
  cases h1 : outputCounts t s lvl with
  | error e => rw [h1] at h; cases h
  | ok m =>
    cases h0 : precisions c (some (psumFlags (isIr c) t.ra)) with
    | error e => simp only [bind, Except.bind, h1, h0] at h; cases h
    | ok prec =>
      cases h2 : lowSide c t prec true lvl with
      | error e => simp only [bind, Except.bind, h1, h0, h2] at h; cases h
      | ok lo =>
        cases h3 : highSide c t prec true lvl with
        | error e => simp only [bind, Except.bind, h1, h0, h2, h3] at h; cases h
        | ok hi =>
          cases h5 : pyGet (psumFlags (isIr c) t.ra) lvl with
          | error e => simp only [bind, Except.bind, h1, h0, h2, h3, h5] at h; cases h
          | ok pl =>
            cases h6 : pyGet (psumFlags (isIr c) t.ra) (lvl + 1) with
            | error e => simp only [bind, Except.bind, h1, h0, h2, h3, h5, h6] at h; cases h
            | ok ph =>
              cases h4 : instant c lvl (outWay pl ph lo.bw hi.bw) (outWay pl ph lo.period hi.period) with
              | error e => simp only [bind, Except.bind, h1, h0, h2, h3, h5, h6, h4] at h; cases h
              | ok i =>
                simp only [bind, Except.bind, h1, h0, h2, h3, h5, h6, h4, pure, Except.pure] at h
                cases h
                exact ⟨prec, lo, hi, pl, ph, i, rfl, rfl, h2, h3, rfl, rfl, h4, rfl, rfl, rfl, rfl, rfl, rfl, rfl⟩

theorem lowSide_unfold {c : Cfg Dim} {t : Tables Dim} {prec : List ℚ} {out : Bool} {lvl : Nat} {s : Side}
    (h : lowSide c t prec out lvl = .ok s) : ∃ (pr cy : ℚ) (f d : ℤ), prec[lvl]? = some pr ∧ (cycles c out)[lvl]? = some cy ∧ cy ≠ 0 ∧
      (t.boost ++ [1])[lvl]? = some f ∧ t.unrolled[lvl]? = some d ∧ s.bw = trunc ((d * pr) / cy * f) ∧ s.period = trunc cy ∧
      s.count = ⌊c.totalCycle / cy⌋ ∧ s.amount = d * f := by
  unfold lowSide bwLow at h
  cases h1 : pyGet t.unrolled lvl with
  | error e => simp only [bind, Except.bind, h1] at h; cases h
  | ok d =>
    cases h2 : pyGet prec lvl with
    | error e => simp only [bind, Except.bind, h1, h2] at h; cases h
    | ok pr =>
      cases h3 : pyGet (cycles c out) lvl with
      | error e => simp only [bind, Except.bind, h1, h2, h3] at h; cases h
      | ok cy =>
        by_cases hcy : cy = 0
        · simp only [bind, Except.bind, h1, h2, h3, pyDiv, if_pos hcy] at h; cases h
        · cases h4 : pyGet (t.boost ++ [1]) lvl with
          | error e => simp only [bind, Except.bind, h1, h2, h3, pyDiv, if_neg hcy, h4] at h; cases h
          | ok f =>
            simp only [bind, Except.bind, h1, h2, h3, pyDiv, if_neg hcy, h4, fdiv, pure, Except.pure] at h
            cases h
            exact ⟨pr, cy, f, d, pyGet_of h2, pyGet_of h3, hcy, pyGet_of h4, pyGet_of h1, rfl, rfl, rfl, rfl⟩

theorem highSide_unfold {c : Cfg Dim} {t : Tables Dim} {prec : List ℚ} {out : Bool} {lvl : Nat} {s : Side}
    (h : highSide c t prec out lvl = .ok s) : ∃ (pr cy : ℚ) (d : ℤ), prec[lvl + 1]? = some pr ∧ (cycles c out)[lvl + 1]? = some cy ∧ cy ≠ 0 ∧
      t.unrolled[lvl + 1]? = some d ∧ s.bw = trunc ((d * pr) / cy) ∧ s.period = trunc cy ∧
      s.count = ⌊c.totalCycle / cy⌋ ∧ s.amount = d := by
  unfold highSide bwLow at h
  cases h1 : pyGet t.unrolled (lvl + 1) with
  | error e => simp only [bind, Except.bind, h1] at h; cases h
  | ok d =>
    cases h2 : pyGet prec (lvl + 1) with
    | error e => simp only [bind, Except.bind, h1, h2] at h; cases h
    | ok pr =>
      cases h3 : pyGet (cycles c out) (lvl + 1) with
      | error e => simp only [bind, Except.bind, h1, h2, h3] at h; cases h
      | ok cy =>
        by_cases hcy : cy = 0
        · simp only [bind, Except.bind, h1, h2, h3, pyDiv, if_pos hcy] at h; cases h
        · simp only [bind, Except.bind, h1, h2, h3, pyDiv, if_neg hcy, fdiv, pure, Except.pure] at h
          cases h
          exact ⟨pr, cy, d, pyGet_of h2, pyGet_of h3, hcy, pyGet_of h1, rfl, rfl, rfl, rfl⟩

theorem inputCounts_unfold {c : Cfg Dim} {t : Tables Dim} {lvl : Nat} {m : FourWay} (h : inputCounts c t lvl = .ok m) :
    ∃ (nb : ℚ) (el raw wr : ℤ) (w : ℚ), t.unique[lvl + 1]? = some nb ∧ t.elems[lvl]? = some el ∧ nb ≠ 0 ∧ c.bw lvl = some w ∧
      t.raw[lvl]? = some raw ∧ t.raw2[lvl + 1]? = some wr ∧ m.wrByLow = 0 ∧ m.rdToHigh = 0 ∧ m.wrByHigh = wr ∧
      ((¬ (c.noAccess = true ∧ lvl = 0 ∧ ((⌊el * c.precision / nb⌋ : ℤ) : ℚ) ≤ w) ∧ m.rdToLow = raw) ∨
       ((c.noAccess = true ∧ lvl = 0 ∧ ((⌊el * c.precision / nb⌋ : ℤ) : ℚ) ≤ w) ∧ c.stationary ≠ 0 ∧ m.rdToLow = trunc (raw / c.stationary))) := by
  unfold inputCounts at h
  cases h1 : pyGet t.unique (lvl + 1) with
  | error e => simp only [bind, Except.bind, h1] at h; cases h
  | ok nb =>
    cases h2 : pyGet t.elems lvl with
    | error e => simp only [bind, Except.bind, h1, h2] at h; cases h
    | ok el =>
      by_cases hnb : nb = 0
      · simp only [bind, Except.bind, h1, h2, fdiv, if_pos hnb] at h; cases h
      · cases h3 : c.bw lvl with
        | none => simp only [bind, Except.bind, h1, h2, fdiv, if_neg hnb, h3] at h; cases h
        | some w =>
          cases h4 : pyGet t.raw lvl with
          | error e => simp only [bind, Except.bind, h1, h2, fdiv, if_neg hnb, h3, h4] at h; cases h
          | ok raw =>
            cases h5 : pyGet t.raw2 (lvl + 1) with
            | error e =>
              simp only [bind, Except.bind, h1, h2, fdiv, if_neg hnb, h3, h4, h5] at h
              split_ifs at h
              · unfold pyDiv at h; split_ifs at h <;> cases h
              · cases h
            | ok wr =>
              simp only [bind, Except.bind, h1, h2, fdiv, if_neg hnb, h3, h4, h5, pure, Except.pure] at h
              by_cases hc : c.noAccess = true ∧ lvl = 0 ∧ ((⌊el * c.precision / nb⌋ : ℤ) : ℚ) ≤ w
              · rw [if_pos hc] at h
                unfold pyDiv at h
                by_cases hst : c.stationary = 0
                · rw [if_pos hst] at h; cases h
                · rw [if_neg hst] at h
                  cases h
                  exact ⟨nb, el, raw, wr, w, pyGet_of h1, pyGet_of h2, hnb, rfl, pyGet_of h4, pyGet_of h5, rfl, rfl, rfl, Or.inr ⟨hc, hst, rfl⟩⟩
              · rw [if_neg hc] at h
                cases h
                exact ⟨nb, el, raw, wr, w, pyGet_of h1, pyGet_of h2, hnb, rfl, pyGet_of h4, pyGet_of h5, rfl, rfl, rfl, Or.inl ⟨hc, rfl⟩⟩

theorem outputCounts_unfold {t : Tables Dim} {s : ℚ} {lvl : Nat} {m : FourWay} (h : outputCounts t s lvl = .ok m) :
    ∃ (wl rh : ℤ) (c1 c2 : ℚ), t.raw[lvl]? = some wl ∧ t.raw2[lvl + 1]? = some rh ∧ t.caal[lvl + 1]? = some c1 ∧ t.caal[lvl + 2]? = some c2 ∧
      m.wrByLow = wl ∧ m.rdToHigh = rh ∧ m.rdToLow = trunc (s * (c1 - 1)) ∧ m.wrByHigh = trunc (s * (c2 - 1)) := by
  unfold outputCounts at h
  cases h1 : pyGet t.raw lvl with
  | error e => simp only [bind, Except.bind, h1] at h; cases h
  | ok wl =>
    cases h2 : pyGet t.caal (lvl + 1) with
    | error e => simp only [bind, Except.bind, h1, h2] at h; cases h
    | ok c1 =>
      cases h3 : pyGet t.raw2 (lvl + 1) with
      | error e => simp only [bind, Except.bind, h1, h2, h3] at h; cases h
      | ok rh =>
        cases h4 : pyGet t.caal (lvl + 2) with
        | error e => simp only [bind, Except.bind, h1, h2, h3, h4] at h; cases h
        | ok c2 =>
          simp only [bind, Except.bind, h1, h2, h3, h4, pure, Except.pure] at h
          cases h
          exact ⟨wl, rh, c1, c2, pyGet_of h1, pyGet_of h3, pyGet_of h2, pyGet_of h4, rfl, rfl, rfl, rfl⟩

end Verif.MapInfo
