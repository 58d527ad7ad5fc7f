import Verif.Cacti.Lemmas

/-! Helper lemmas about several processes and about crashes. -/
namespace Verif.Cacti

/-- A record is right for all requests of a list. -/
def TrueFor (sim : Sim) (Q : List Req) (e : Rec) : Prop :=
  ∀ r ∈ Q, ∀ c, r.tech ≠ -1 → Describes e r → costOf e = some c → reported sim r = some c

/-- The files in the directory come from requests of the list. -/
def Gen (sim : Sim) (Q : List Req) (cfg : Option Cfg) (out : Option (List Row)) : Prop :=
  (∀ c, cfg = some c → ∃ q ∈ Q, c = cfgOf q) ∧ ∀ ws, out = some ws → ∀ w ∈ ws, ∃ q ∈ Q, sim (cfgOf q) = some w

/-- The process does not rely on the files in the directory. -/
def Early : Phase → Prop
  | .write | .simulate | .running _ | .collect | .append _ => False
  | _ => True

/-- What holds of a process. -/
def PInv (sim : Sim) (Q : List Req) (p : Proc) : Prop :=
  match p.phase with
  | .running c => ∃ q ∈ Q, c = cfgOf q
  | .append es => ∀ e ∈ es, TrueFor sim Q e.2 ∧ e.2.tech.isSome
  | .done (.ok c) => p.req.tech ≠ -1 → reported sim p.req = some c
  | _ => True

/-- Two requests of the list with the same bytes and the same width are the same request. -/
def Apart (Q : List Req) : Prop := ∀ p ∈ Q, ∀ q ∈ Q, p.size / 8 = q.size / 8 → p.bw = q.bw → p = q

theorem mkRecord_for {sim : Sim} (hs : Faithful sim) {Q : List Req} (hQ : Apart Q) (hrf : ∀ q ∈ Q, q.memType ≠ "rf")
    {q b : Req} (hb : b ∈ Q) (l : String) {w : Row} (hw : sim (cfgOf b) = some w) : TrueFor sim Q (mkRecord q l w).2 := by
  rintro r hr c ht ⟨⟨h1, h2, -⟩, -⟩ hc
  simp only [mkRecord, Option.some.injEq] at h1 h2
  obtain ⟨hs1, hs2⟩ := hs _ _ hw
  simp only [cfgOf] at hs1 hs2
  have : b = r := hQ b hb r hr (by omega) (by omega)
  subst this
  rw [reported_eq sim (hrf b hr), hw]
  simp only [mkRecord, costOf, Option.some.injEq] at hc
  simp [hc]

theorem mkRecords_for {sim : Sim} (hs : Faithful sim) {Q : List Req} (hQ : Apart Q) (hrf : ∀ q ∈ Q, q.memType ≠ "rf")
    {q : Req} {ws : List Row} (hw : ∀ w ∈ ws, ∃ b ∈ Q, sim (cfgOf b) = some w) :
    ∀ e ∈ mkRecords q ws, TrueFor sim Q e.2 ∧ e.2.tech.isSome := by
  have one : ∀ l, ∀ w ∈ ws, TrueFor sim Q (mkRecord q l w).2 ∧ (mkRecord q l w).2.tech.isSome := by
    intro l w h
    obtain ⟨b, hb, hw⟩ := hw w h
    exact ⟨mkRecord_for hs hQ hrf hb l hw, by simp [mkRecord]⟩
  intro e he
  cases ws with
  | nil => simp [mkRecords] at he
  | cons w ws =>
    simp only [mkRecords, List.mem_cons, List.mem_map] at he
    rcases he with rfl | ⟨w', hw', rfl⟩
    · exact one _ w List.mem_cons_self
    · exact one _ w' (List.mem_cons_of_mem _ hw')

theorem lookup_for {sim : Sim} {Q : List Req} {f : File} (hf : ∀ e ∈ f, TrueFor sim Q e.2) {r : Req} (hr : r ∈ Q) {c : Cost}
    (h : lookup (load f) r = .ok c) (ht : r.tech ≠ -1) : reported sim r = some c := by
  obtain ⟨p, hp, hd, hc⟩ := lookup_ok h
  exact hf p (mem_load hp) r hr c ht hd hc

theorem torn_for {sim : Sim} {Q : List Req} {e : Rec} (h : TrueFor sim Q e) (ht : e.tech.isSome) (n : ℕ) :
    TrueFor sim Q (torn n e) := by
  rintro r hr c hte ⟨⟨h1, h2, h3, h4, h5, h6, h7⟩, h8⟩ hc
  simp only [torn] at h1 h2 h3 h4 h5 h6 h7 h8
  by_cases hn : 11 < n
  · refine h r hr c hte ⟨⟨?_, ?_, ?_, ?_, ?_, ?_, ?_⟩, ?_⟩ ?_
    · rwa [if_pos (by omega)] at h1
    · rwa [if_pos (by omega)] at h2
    · rwa [if_pos (by omega)] at h3
    · rwa [if_pos (by omega)] at h4
    · rwa [if_pos (by omega)] at h5
    · rwa [if_pos (by omega)] at h6
    · rwa [if_pos (by omega)] at h7
    · rwa [if_pos (by omega)] at h8
    · simp only [costOf, torn] at hc
      rwa [if_pos (by omega), if_pos (by omega), if_pos (by omega)] at hc
  · rw [if_neg hn] at h7
    simp only [Option.getD_none] at h7
    exact absurd h7.symm hte

/-- The invariant. -/
structure Inv (sim : Sim) (Q : List Req) (s : St) : Prop where
  reqs : s.procs.map Proc.req = Q
  file : ∀ e ∈ s.file, TrueFor sim Q e.2
  dir : (∀ p ∈ s.procs, Early p.phase) ∨ Gen sim Q s.cfg s.out
  procs : ∀ p ∈ s.procs, PInv sim Q p

theorem stepProc_inv {sim : Sim} (hs : Faithful sim) {Q : List Req} (hQ : Apart Q) (hrf : ∀ q ∈ Q, q.memType ≠ "rf")
    {s : St} {p : Proc} (hq : p.req ∈ Q) (hf : ∀ e ∈ s.file, TrueFor sim Q e.2) (hp : PInv sim Q p)
    (hd : Early p.phase ∨ Gen sim Q s.cfg s.out) :
    (stepProc sim s p).2.req = p.req ∧ PInv sim Q (stepProc sim s p).2 ∧
      (∀ e ∈ (stepProc sim s p).1.file, TrueFor sim Q e.2) ∧
      (Gen sim Q (stepProc sim s p).1.cfg (stepProc sim s p).1.out ∨
        (Early (stepProc sim s p).2.phase ∧ (stepProc sim s p).1.cfg = s.cfg ∧ (stepProc sim s p).1.out = s.out)) := by
  obtain ⟨q, ph⟩ := p
  cases ph with
  | start =>
    simp only [stepProc]
    cases itemExists (load s.file) q with
    | error e => exact ⟨rfl, trivial, hf, .inr ⟨trivial, rfl, rfl⟩⟩
    | ok b => cases b <;> exact ⟨rfl, trivial, hf, .inr ⟨trivial, rfl, rfl⟩⟩
  | clear => exact ⟨rfl, trivial, hf, .inl ⟨by simp [stepProc], by simp [stepProc]⟩⟩
  | write =>
    have hg := hd.resolve_left id
    refine ⟨rfl, trivial, hf, .inl ⟨?_, hg.2⟩⟩
    intro c hc
    simp only [stepProc, Option.some.injEq] at hc
    exact ⟨q, hq, hc.symm⟩
  | simulate =>
    have hg := hd.resolve_left id
    cases hc : s.cfg with
    | none =>
      have e : stepProc sim s ⟨q, .simulate⟩ = (s, ⟨q, .collect⟩) := by simp only [stepProc, hc]
      rw [e]; exact ⟨rfl, trivial, hf, .inl hg⟩
    | some c =>
      have e : stepProc sim s ⟨q, .simulate⟩ = (s, ⟨q, .running c⟩) := by simp only [stepProc, hc]
      rw [e]; exact ⟨rfl, hg.1 c hc, hf, .inl hg⟩
  | running c =>
    have hg := hd.resolve_left id
    simp only [stepProc]
    cases hw : sim c with
    | none => exact ⟨rfl, trivial, hf, .inl hg⟩
    | some w =>
      refine ⟨rfl, trivial, hf, .inl ⟨hg.1, ?_⟩⟩
      intro ws hws v hv
      simp only [Option.some.injEq] at hws
      subst hws
      rcases List.mem_append.1 hv with hv | hv
      · cases ho : s.out with
        | none => simp [ho] at hv
        | some os => exact hg.2 os ho v (by simpa [ho] using hv)
      · rw [List.mem_singleton.1 hv]
        obtain ⟨b, hb, rfl⟩ := hp
        exact ⟨b, hb, hw⟩
  | collect =>
    have hg := hd.resolve_left id
    cases ho : s.out with
    | none =>
      have e : stepProc sim s ⟨q, .collect⟩ = (s, ⟨q, .done (.error .child)⟩) := by simp only [stepProc, ho]
      rw [e]; exact ⟨rfl, trivial, hf, .inl hg⟩
    | some ws =>
      have e : stepProc sim s ⟨q, .collect⟩ = (s, ⟨q, .append (mkRecords q ws)⟩) := by simp only [stepProc, ho]
      rw [e]; exact ⟨rfl, mkRecords_for hs hQ hrf (hg.2 ws ho), hf, .inl hg⟩
  | append es =>
    have hg := hd.resolve_left id
    cases es with
    | nil => exact ⟨rfl, trivial, hf, .inl hg⟩
    | cons e es =>
      refine ⟨rfl, fun e' he' => hp e' (List.mem_cons_of_mem _ he'), ?_, .inl hg⟩
      intro e' he'
      simp only [stepProc] at he'
      rcases List.mem_append.1 he' with he' | he'
      · exact hf e' he'
      · rw [List.mem_singleton.1 he']
        exact (hp e List.mem_cons_self).1
  | look =>
    refine ⟨rfl, ?_, hf, .inr ⟨trivial, rfl, rfl⟩⟩
    simp only [stepProc, PInv]
    cases hl : lookup (load s.file) q with
    | error e => trivial
    | ok c => exact fun ht => lookup_for hf hq hl ht
  | done a => exact ⟨rfl, hp, hf, .inr ⟨trivial, rfl, rfl⟩⟩
  | dead => exact ⟨rfl, hp, hf, .inr ⟨trivial, rfl, rfl⟩⟩

theorem mem_set_idx {α : Type} {l : List α} {i : ℕ} {a b : α} (h : b ∈ l.set i a) : b ∈ l ∨ b = a :=
  List.mem_or_eq_of_mem_set h

theorem map_set_same {l : List Proc} {i : ℕ} {p p' : Proc} (h : l[i]? = some p) (hr : p'.req = p.req) :
    (l.set i p').map Proc.req = l.map Proc.req := by
  apply List.ext_getElem?
  intro n
  simp only [List.getElem?_map, List.getElem?_set]
  by_cases hi : i = n
  · subst hi
    have hl : i < l.length := by
      by_contra hn
      rw [List.getElem?_eq_none (by omega)] at h
      cases h
    rw [if_pos rfl, if_pos hl, h]
    simp [hr]
  · simp [hi]

theorem act_inv {sim : Sim} (hs : Faithful sim) {Q : List Req} (hQ : Apart Q) (hrf : ∀ q ∈ Q, q.memType ≠ "rf")
    {s : St} (h : Inv sim Q s) (i : ℕ) : Inv sim Q (act sim i s) := by
  unfold act
  cases hi : s.procs[i]? with
  | none => exact h
  | some p =>
    have hp : p ∈ s.procs := List.mem_of_getElem? hi
    have hq : p.req ∈ Q := h.reqs ▸ List.mem_map_of_mem hp
    obtain ⟨h1, h2, h3, h4⟩ := stepProc_inv hs hQ hrf hq h.file (h.procs p hp) (h.dir.imp (fun e => e p hp) id)
    refine ⟨?_, h3, ?_, ?_⟩
    · simp only
      rw [map_set_same hi h1]
      exact h.reqs
    · simp only
      rcases h4 with h4 | ⟨h4, h5, h6⟩
      · exact .inr h4
      · rw [h5, h6]
        rcases h.dir with hd | hd
        · left
          intro p' hp'
          rcases mem_set_idx hp' with hp' | rfl
          · exact hd p' hp'
          · exact h4
        · exact .inr hd
    · intro p' hp'
      rcases mem_set_idx hp' with hp' | rfl
      · exact h.procs p' hp'
      · exact h2

theorem kill_inv {sim : Sim} {Q : List Req} {s : St} (h : Inv sim Q s) (i : ℕ) (n : Option ℕ) :
    Inv sim Q (kill i n s) := by
  unfold kill
  cases hi : s.procs[i]? with
  | none => exact h
  | some p =>
    have hp : p ∈ s.procs := List.mem_of_getElem? hi
    refine ⟨?_, ?_, ?_, ?_⟩
    · simp only
      rw [map_set_same (p' := { p with phase := .dead }) hi rfl]
      exact h.reqs
    · simp only
      obtain ⟨q, ph⟩ := p
      have hpi := h.procs _ hp
      cases ph with
      | append es =>
        cases es with
        | nil => exact h.file
        | cons e es =>
          cases n with
          | none => exact h.file
          | some n =>
            intro e' he'
            rcases List.mem_append.1 he' with he' | he'
            · exact h.file e' he'
            · rw [List.mem_singleton.1 he']
              obtain ⟨a, b⟩ := hpi e List.mem_cons_self
              exact torn_for a b n
      | _ => exact h.file
    · simp only
      rcases h.dir with hd | hd
      · left
        intro p' hp'
        rcases mem_set_idx hp' with hp' | rfl
        · exact hd p' hp'
        · trivial
      · exact .inr hd
    · intro p' hp'
      rcases mem_set_idx hp' with hp' | rfl
      · exact h.procs p' hp'
      · trivial

theorem reach_inv {sim : Sim} (hs : Faithful sim) {Q : List Req} (hQ : Apart Q) (hrf : ∀ q ∈ Q, q.memType ≠ "rf")
    {s0 s : St} (h0 : Inv sim Q s0) (h : Reach sim s0 s) : Inv sim Q s := by
  induction h with
  | refl => exact h0
  | act i _ ih => exact act_inv hs hQ hrf ih i
  | kill i n _ ih => exact kill_inv ih i n

/-! ### A process that is not disturbed -/

theorem act_at {sim : Sim} {s : St} {i : ℕ} {p : Proc} (h : s.procs[i]? = some p) :
    act sim i s = { (stepProc sim s p).1 with procs := s.procs.set i (stepProc sim s p).2 } := by
  simp [act, h]

theorem set_get {l : List Proc} {i : ℕ} {p : Proc} (h : l[i]? = some p) (p' : Proc) : (l.set i p')[i]? = some p' := by
  have hl : i < l.length := by
    by_contra hn
    rw [List.getElem?_eq_none (by omega)] at h
    cases h
  simp [hl]

theorem act_done {sim : Sim} {s : St} {i : ℕ} {q : Req} {a : Except Err Cost} (h : s.procs[i]? = some ⟨q, .done a⟩) :
    ∀ n, (act sim i)^[n] s = s := by
  have : act sim i s = s := by
    rw [act_at h]
    have hl : i < s.procs.length := by
      by_contra hn
      rw [List.getElem?_eq_none (by omega)] at h
      cases h
    have hs : s.procs.set i ⟨q, .done a⟩ = s.procs := by
      apply List.ext_getElem?
      intro n
      rw [List.getElem?_set]
      by_cases hi : i = n
      · subst hi; rw [if_pos rfl, if_pos hl, h]
      · rw [if_neg hi]
    simp only [stepProc, hs]
  intro n
  induction n with
  | zero => rfl
  | succ n ih => rw [Function.iterate_succ_apply, this, ih]

/-! ### Crashes -/

theorem crashed_cases (sim : Sim) (f : File) (r : Req) (n : Option ℕ) :
    crashed sim f r n = f ∨ ∃ w k, n = some k ∧ itemExists (load f) (meant r) = .ok false ∧ sim (cfgOf (meant r)) = some w ∧
      crashed sim f r n = f ++ [((mkRecord (meant r) (label (meant r)) w).1, torn k (mkRecord (meant r) (label (meant r)) w).2)] := by
  unfold crashed
  rw [normalise_eq]
  cases hi : itemExists (load f) (meant r) with
  | error e => left; rfl
  | ok b =>
    cases b with
    | true => left; rfl
    | false =>
      cases hw : sim (cfgOf (meant r)) with
      | none => left; simp [createItem, hw]
      | some w =>
        cases n with
        | none => left; simp [createItem, hw, mkRecords]
        | some k =>
          right
          exact ⟨w, k, rfl, rfl, rfl, by simp [createItem, hw, mkRecords, label]⟩

theorem crashed_true {sim : Sim} (hs : Faithful sim) {f : File} (hf : ∀ p ∈ f, TrueRec sim p.2) (r : Req) (n : Option ℕ) :
    ∀ p ∈ crashed sim f r n, TrueRec sim p.2 := by
  rcases crashed_cases sim f r n with h | ⟨w, k, -, -, hw, h⟩
  · rw [h]; exact hf
  · rw [h]
    intro p hp
    rcases List.mem_append.1 hp with hp | hp
    · exact hf p hp
    · rw [List.mem_singleton.1 hp]
      exact torn_true (own_true hs hw) k (by simp [mkRecord])

theorem set_last {K V : Type} [DecidableEq K] {d : Dict K V} {k : K} (v w : V) (h : k ∉ d.keys) :
    Dict.set (d ++ [(k, v)]) k w = d ++ [(k, w)] := by
  induction d with
  | nil => simp [Dict.set]
  | cons q t ih =>
    simp only [Dict.keys, List.map_cons, List.mem_cons, not_or] at h
    have hq : ¬ q.1 = k := fun e => h.1 e.symm
    simp only [List.cons_append, Dict.set, if_neg hq]
    rw [ih (by simpa [Dict.keys] using h.2)]

theorem itemExists_append {d : Dict Key Rec} {r : Req} (x : Dict Key Rec) (h : itemExists d r = .ok false) :
    itemExists (d ++ x) r = itemExists x r := by
  induction d with
  | nil => rfl
  | cons p t ih =>
    simp only [itemExists, bind, Except.bind, List.cons_append] at h ⊢
    cases hf : shapeTest p.2 r with
    | error e => simp [hf] at h
    | ok o =>
      cases o with
      | false =>
        simp only [hf, Bool.false_eq_true, if_false] at h ⊢
        exact ih h
      | true => simp [hf, pure, Except.pure] at h

theorem shapeTest_torn {n : ℕ} (hn : n < 10) (e : Rec) (r : Req) : shapeTest (torn n e) r = .error .malformed := by
  have h : (torn n e).sizeBit = none := by simp only [torn]; rw [if_neg (by omega)]
  generalize torn n e = x at h
  obtain ⟨io, ar, ba, rd, wr, er, ew, ty, rw', sz, sb, te⟩ := x
  simp only at h
  subst h
  cases io <;> cases er <;> cases ew <;> cases rw' <;> rfl

theorem shapeTest_noTech (q : Req) (l : String) (w : Row) {n : ℕ} (h1 : 10 ≤ n) (h2 : n < 12) {r : Req} (ht : r.tech ≠ -1) :
    shapeTest (torn n (mkRecord q l w).2) r = .ok false := by
  have h : ¬ (-1 : ℚ) = r.tech := fun e => ht e.symm
  have e1 : ∀ k, k < 10 → k < n := fun k hk => by omega
  simp only [shapeTest, torn, mkRecord, e1, show ¬ 11 < n by omega, need, bind, Except.bind, pure, Except.pure, if_true, if_false,
    Nat.reduceLT, Option.getD_none, h, and_false, decide_false]

end Verif.Cacti
