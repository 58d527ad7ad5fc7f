import Verif.HwOpt.Model
import Verif.Stages.Props
import Mathlib.Data.List.Forall2

/-! Lemmas for the properties of `HardwareOptimizerStage`. -/

namespace Verif.HwOpt

open Verif.Stages

variable {R Dim : Type} [DecidableEq Dim]

/-- The description written for one configuration when starting from `y`. -/
def tune (y : Yaml R) (c : Config) : Except PyErr (Yaml R) :=
  match setL1 y c.l1 with
  | .error e => .error e
  | .ok y => setBandwidths (setArray y c) c

/-- Same description up to the fields the stage overwrites. -/
def Same (y y' : Yaml R) : Prop :=
  y'.rest = y.rest ∧ y'.l1.ports.map Port.name = y.l1.ports.map Port.name ∧ y'.l1.ports.drop 3 = y.l1.ports.drop 3

theorem same_refl (y : Yaml R) : Same y y := ⟨rfl, rfl, rfl⟩

/-- What `setBandwidths` needs: the first three ports carry the expected names. -/
def Named (ps : List Port) : Prop := ∃ p q r t, ps = p :: q :: r :: t ∧ p.name = "rw_port_1" ∧ q.name = "rw_port_2" ∧ r.name = "rw_port_3"

theorem named_iff (ps : List Port) : Named ps ↔ (ps.map Port.name).take 3 = ["rw_port_1", "rw_port_2", "rw_port_3"] := by
  constructor
  · rintro ⟨p, q, r, t, rfl, h1, h2, h3⟩
    simp [h1, h2, h3]
  · intro h
    rcases ps with _ | ⟨p, _ | ⟨q, _ | ⟨r, t⟩⟩⟩ <;> simp at h
    exact ⟨p, q, r, t, rfl, h.1, h.2.1, h.2.2⟩

/-- The tuned description as a formula. -/
def tuned (y : Yaml R) (c : Config) (cost : ℚ) (p q r : Port) (t : List Port) : Yaml R :=
  { l1 := { size := c.l1 * 1024 * 8 * 8 / 10, readCost := cost, writeCost := 6 / 5 * cost,
            ports := { p with bandwidth := c.a * c.b * 8 } :: { q with bandwidth := c.b * c.c * 8 } :: { r with bandwidth := c.a * c.c * 32 } :: t },
    sizes := [c.a, c.b, c.c], rest := y.rest }

theorem tune_ok {y y' : Yaml R} {c : Config} : tune y c = .ok y' ↔
    ∃ cost p q r t, readCosts.get? c.l1 = some cost ∧ y.l1.ports = p :: q :: r :: t ∧ p.name = "rw_port_1" ∧ q.name = "rw_port_2" ∧
      r.name = "rw_port_3" ∧ y' = tuned y c cost p q r t := by
  obtain ⟨⟨sz, rc, wc, ports⟩, sizes, rest⟩ := y
  unfold tune setL1
  cases hc : readCosts.get? c.l1 with
  | none => simp
  | some cost =>
    simp only [setArray, setBandwidths]
    rcases ports with _ | ⟨p, _ | ⟨q, _ | ⟨r, t⟩⟩⟩
    · simp [setPort]
    · by_cases h1 : p.name = "rw_port_1" <;> simp [setPort, h1]
    · by_cases h1 : p.name = "rw_port_1" <;> by_cases h2 : q.name = "rw_port_2" <;> simp [setPort, h1, h2]
    · by_cases h1 : p.name = "rw_port_1" <;> by_cases h2 : q.name = "rw_port_2" <;> by_cases h3 : r.name = "rw_port_3" <;>
        simp [setPort, h1, h2, h3, tuned]
      exact eq_comm

theorem tune_mono {y y' z : Yaml R} {c : Config} (h : Same y y') (ht : tune y' c = .ok z) : tune y c = .ok z := by
  rw [tune_ok] at ht ⊢
  obtain ⟨hr, hn, hd⟩ := h
  obtain ⟨cost, p, q, r, t, h0, hp, h1, h2, h3, rfl⟩ := ht
  rw [hp] at hn hd
  rcases hy : y.l1.ports with _ | ⟨p', _ | ⟨q', _ | ⟨r', t'⟩⟩⟩ <;> rw [hy] at hn hd <;> simp at hn hd
  subst hd
  refine ⟨cost, p', q', r', t, h0, rfl, hn.1 ▸ h1, hn.2.1 ▸ h2, hn.2.2.1 ▸ h3, ?_⟩
  simp [tuned, hr, hn.1, hn.2.1, hn.2.2.1]

theorem same_symm {y y' : Yaml R} (h : Same y y') : Same y' y := ⟨h.1.symm, h.2.1.symm, h.2.2.symm⟩

theorem tune_same {y y' z : Yaml R} {c : Config} (h : Same y y') : tune y' c = .ok z ↔ tune y c = .ok z :=
  ⟨tune_mono h, tune_mono (same_symm h)⟩

theorem same_of_tune {y z : Yaml R} {c : Config} (h : tune y c = .ok z) : Same y z := by
  obtain ⟨cost, p, q, r, t, h0, hp, h1, h2, h3, rfl⟩ := tune_ok.1 h
  exact ⟨rfl, by simp [tuned, hp], by simp [tuned, hp]⟩

theorem same_trans {x y z : Yaml R} (h : Same x y) (h' : Same y z) : Same x z :=
  ⟨h'.1.trans h.1, h'.2.1.trans h.2.1, h'.2.2.trans h.2.2⟩

/-- What one configuration produces. -/
structure Out (R Dim : Type) where
  yaml : Yaml R
  mapping : SM Dim
  results : List Res

/-- Configuration `c` alone, started from the original description. -/
def Eval (sub : Yaml R → SM Dim → Except PyErr (List Res)) (sizes : Dict Dim Nat) (orig : SM Dim) (y : Yaml R) (c : Config) (o : Out R Dim) : Prop :=
  tune y c = .ok o.yaml ∧ newMapping sizes orig c = .ok o.mapping ∧ sub o.yaml o.mapping = .ok o.results

theorem tryConfig_ok {sub : Yaml R → SM Dim → Except PyErr (List Res)} {sizes : Dict Dim Nat} {orig : SM Dim} {i : Nat} {c : Config} {s s' : St R Dim}
    {y : Yaml R} (h : Same y s.yaml) : tryConfig sub sizes orig i c s = .ok s' ↔ ∃ o, Eval sub sizes orig y c o ∧
      s' = { yaml := o.yaml, mapping := o.mapping, files := s.files.set i o.yaml, best := o.results.foldl consider s.best, all := s.all ++ o.results } := by
  have ht : ∀ z, tune s.yaml c = .ok z ↔ tune y c = .ok z := fun z => tune_same h
  unfold tryConfig
  unfold tune at ht
  constructor
  · intro hs
    cases h1 : setL1 s.yaml c.l1 with
    | error e => rw [h1] at hs; cases hs
    | ok y1 =>
      simp only [h1] at hs ht
      cases h2 : setBandwidths (setArray y1 c) c with
      | error e => rw [h2] at hs; cases hs
      | ok y2 =>
        simp only [h2] at hs ht
        cases h3 : newMapping sizes orig c with
        | error e => rw [h3] at hs; cases hs
        | ok m =>
          simp only [h3, Dict.get?_set_self] at hs
          cases h4 : sub y2 m with
          | error e => rw [h4] at hs; cases hs
          | ok rs =>
            simp only [h4, Except.ok.injEq] at hs
            exact ⟨⟨y2, m, rs⟩, ⟨(ht y2).1 rfl, h3, h4⟩, hs.symm⟩
  · rintro ⟨o, ⟨h1, h2, h3⟩, rfl⟩
    have h1' := (ht _).2 h1
    cases h4 : setL1 s.yaml c.l1 with
    | error e => rw [h4] at h1'; cases h1'
    | ok y1 =>
      simp only [h4] at h1'
      simp only [h1', h2, Dict.get?_set_self, h3]

/-- The files written from number `i` on. -/
def writeAll : Nat → List (Out R Dim) → Dict Nat (Yaml R) → Dict Nat (Yaml R)
  | _, [], f => f
  | i, o :: t, f => writeAll (i + 1) t (f.set i o.yaml)

theorem writeAll_get : ∀ (l : List (Out R Dim)) (i : Nat) (f : Dict Nat (Yaml R)) (j : Nat),
    (writeAll i l f).get? j = if j < i then f.get? j else match l[j - i]? with | some o => some o.yaml | none => f.get? j := by
  intro l
  induction l with
  | nil => intro i f j; simp [writeAll]
  | cons o t ih =>
    intro i f j
    rw [writeAll, ih]
    by_cases h1 : j < i
    · rw [if_pos h1, if_pos (by omega), Dict.get?_set, if_neg (show ¬ i = j by omega)]
    · rw [if_neg h1]
      by_cases h2 : j = i
      · subst h2
        rw [if_pos (by omega), Dict.get?_set_self]; simp
      · rw [if_neg (by omega), show j - i = (j - (i + 1)) + 1 by omega]
        simp only [List.getElem?_cons_succ, Dict.get?_set]
        rw [if_neg (show ¬ i = j by omega)]

theorem last_cons {A B : Type} (f : A → B) (o : A) (os : List A) (a : B) :
    (Option.map f (o :: os).getLast?).getD a = (Option.map f os.getLast?).getD (f o) := by
  cases os with
  | nil => rfl
  | cons o' os' => rw [List.getLast?_cons_cons, List.getLast?_eq_some_getLast (by simp)]; rfl

theorem loop_ok {sub : Yaml R → SM Dim → Except PyErr (List Res)} {sizes : Dict Dim Nat} {orig : SM Dim} {y : Yaml R} :
    ∀ (l : List Config) (i : Nat) (s s' : St R Dim), Same y s.yaml → (loop sub sizes orig l i s = .ok s' ↔
      ∃ os, List.Forall₂ (Eval sub sizes orig y) l os ∧
        s' = { yaml := (os.getLast?.map Out.yaml).getD s.yaml, mapping := (os.getLast?.map Out.mapping).getD s.mapping,
               files := writeAll i os s.files, best := (os.flatMap Out.results).foldl consider s.best, all := s.all ++ os.flatMap Out.results }) := by
  intro l
  induction l with
  | nil =>
    intro i s s' h
    simp [loop, writeAll]
    exact eq_comm
  | cons c t ih =>
    intro i s s' h
    rw [loop]
    constructor
    · intro hs
      cases h1 : tryConfig sub sizes orig i c s with
      | error e => rw [h1] at hs; cases hs
      | ok s1 =>
        simp only [h1] at hs
        obtain ⟨o, ho, rfl⟩ := (tryConfig_ok h).1 h1
        obtain ⟨os, hos, rfl⟩ := (ih (i + 1) _ s' (same_of_tune ho.1)).1 hs
        refine ⟨o :: os, List.Forall₂.cons ho hos, ?_⟩
        rw [last_cons, last_cons]
        simp [writeAll]
    · rintro ⟨os, hos, rfl⟩
      cases hos with
      | cons ho hos =>
        rename_i o os
        rw [(tryConfig_ok h).2 ⟨o, ho, rfl⟩]
        simp only
        refine (ih (i + 1) _ _ (same_of_tune ho.1)).2 ⟨os, hos, ?_⟩
        rw [last_cons, last_cons]
        simp [writeAll]

theorem consider_some (l : List Res) : ∀ b seen, IsFirstMin (fun r => toLex (r.latency, r.energy)) seen b →
    ∃ c, l.foldl consider (some b) = some c ∧ IsFirstMin (fun r => toLex (r.latency, r.energy)) (seen ++ l) c := by
  induction l with
  | nil => intro b seen h; exact ⟨b, rfl, by simpa using h⟩
  | cons r t ih =>
    intro b seen h
    have hb : latencyBetter r b = true ↔ toLex (r.latency, r.energy) < toLex (b.latency, b.energy) := by
      rw [Prod.Lex.toLex_lt_toLex]; simp [latencyBetter]
    obtain ⟨pre, post, h1, h2, h3⟩ := h
    rw [List.foldl_cons]
    have key : ∃ b', consider (some b) r = some b' ∧ IsFirstMin (fun r => toLex (r.latency, r.energy)) (seen ++ [r]) b' := by
      unfold consider
      by_cases hc : latencyBetter r b = true
      · refine ⟨r, by simp [hc], seen, [], rfl, fun x hx => ?_, by simp⟩
        have hlt := hb.1 hc
        rw [h1] at hx
        rcases List.mem_append.1 hx with hx | hx
        · exact lt_trans hlt (h2 x hx)
        · rcases List.mem_cons.1 hx with rfl | hx
          · exact hlt
          · exact lt_of_lt_of_le hlt (not_lt.1 (h3 x hx))
      · refine ⟨b, by simp [hc], pre, post ++ [r], by rw [h1]; simp, h2, fun x hx => ?_⟩
        rcases List.mem_append.1 hx with hx | hx
        · exact h3 x hx
        · rw [List.mem_singleton.1 hx]
          exact fun h => hc (hb.2 h)
    obtain ⟨b', e1, e2⟩ := key
    rw [e1]
    obtain ⟨c, c1, c2⟩ := ih b' _ e2
    exact ⟨c, c1, by simpa using c2⟩

theorem consider_none (l : List Res) : (l = [] ∧ l.foldl consider none = none) ∨
    ∃ c, l.foldl consider none = some c ∧ IsFirstMin (fun r => toLex (r.latency, r.energy)) l c := by
  cases l with
  | nil => exact .inl ⟨rfl, rfl⟩
  | cons r t =>
    right
    obtain ⟨c, h1, h2⟩ := consider_some t r [r] ⟨[], [], rfl, by simp, by simp⟩
    exact ⟨c, h1, by simpa using h2⟩

/-- Whether one array dimension can be remapped. -/
def Fits (sizes : Dict Dim Nat) (c : Config) (e : Nat × Dict Dim Nat) (e' : Nat × Dict Dim Nat) : Prop :=
  ∃ s d v t n, sizeAt c e.1 = .ok s ∧ e.2 = (d, v) :: t ∧ sizes.get? d = some n ∧ n % s = 0 ∧ e' = (e.1, [(d, s)])

/-- Writing a list of entries. -/
def setAll (l : List (Nat × Dict Dim Nat)) (m : SM Dim) : SM Dim := l.foldl (fun m e => m.set e.1 e.2) m

theorem remap_ok {sizes : Dict Dim Nat} {c : Config} : ∀ (l : List (Nat × Dict Dim Nat)) (m m' : SM Dim),
    remap sizes c l m = .ok m' ↔ ∃ l', List.Forall₂ (Fits sizes c) l l' ∧ m' = setAll l' m := by
  intro l
  induction l with
  | nil => intro m m'; simp [remap, setAll, eq_comm]
  | cons e t ih =>
    intro m m'
    rw [remap]
    constructor
    · intro h
      cases h1 : sizeAt c e.1 with
      | error x => rw [h1] at h; cases h
      | ok s =>
        simp only [h1] at h
        match h2 : e.2 with
        | [] => rw [h2] at h; cases h
        | (d, v) :: u =>
          simp only [h2] at h
          cases h3 : sizes.get? d with
          | none => rw [h3] at h; cases h
          | some n =>
            simp only [h3] at h
            by_cases h4 : n % s = 0
            · rw [if_pos h4] at h
              obtain ⟨l', hl, rfl⟩ := (ih _ _).1 h
              exact ⟨(e.1, [(d, s)]) :: l', .cons ⟨s, d, v, u, n, h1, h2, h3, h4, rfl⟩ hl, rfl⟩
            · rw [if_neg h4] at h; cases h
    · rintro ⟨l', hl, rfl⟩
      cases hl with
      | cons hf hl =>
        obtain ⟨s, d, v, u, n, h1, h2, h3, h4, rfl⟩ := hf
        simp only [h1, h2, h3, if_pos h4]
        exact (ih _ _).2 ⟨_, hl, rfl⟩

theorem setAll_get : ∀ (l : List (Nat × Dict Dim Nat)) (m : SM Dim) (k : Nat), (l.map Prod.fst).Nodup →
    (setAll l m).get? k = match (l.find? (fun e => e.1 = k)) with | some e => some e.2 | none => m.get? k := by
  intro l
  induction l with
  | nil => intro m k _; rfl
  | cons e t ih =>
    intro m k hn
    rw [List.map_cons, List.nodup_cons] at hn
    rw [setAll, List.foldl_cons]
    change (setAll t (m.set e.1 e.2)).get? k = _
    rw [ih _ _ hn.2, List.find?_cons]
    by_cases hk : e.1 = k
    · subst hk
      have : t.find? (fun x => decide (x.1 = e.1)) = none := by
        rw [List.find?_eq_none]
        intro x hx hc
        exact hn.1 (List.mem_map.2 ⟨x, hx, by simpa using hc⟩)
      simp [this, Dict.get?_set_self]
    · have : (m.set e.1 e.2).get? k = m.get? k := by rw [Dict.get?_set, if_neg hk]
      simp only [hk, decide_false, this]

end Verif.HwOpt
