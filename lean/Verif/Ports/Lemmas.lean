import Verif.Ports.Model
import Mathlib.Data.List.Induction
import Mathlib.Data.List.Nodup

namespace Verif.Ports

variable {Op Dim : Type} [DecidableEq Op] [DecidableEq Dim]

theorem allocStep_error (name : String) (as : List (Op × Dir)) (e : PyErr) : as.foldl (allocStep name) (.error e) = .error e := by
  induction as with
  | nil => rfl
  | cons a as ih => rw [List.foldl_cons]; exact ih

theorem alloc_ok (name : String) (as : List (Op × Dir)) (d : Dict Op (Dict Dir String)) (h : ∀ a ∈ as, a.1 ∈ d.keys) :
    ∃ d', as.foldl (allocStep name) (.ok d) = .ok d' ∧ d'.keys = d.keys ∧
      ∀ op t, d.get? op = some t → ∃ t', d'.get? op = some t' ∧ (t.WF → t'.WF) ∧
        ∀ dir, t'.get? dir = if (op, dir) ∈ as then some name else t.get? dir := by
  induction as generalizing d with
  | nil => exact ⟨d, rfl, rfl, fun op t ht => ⟨t, ht, id, by simp⟩⟩
  | cons a as ih =>
    obtain ⟨x, hx⟩ : ∃ x, d.get? a.1 = some x := by
      cases hg : d.get? a.1 with
      | none => exact absurd (h a (by simp)) ((Dict.get?_eq_none_iff _ _).1 hg)
      | some x => exact ⟨x, rfl⟩
    have hs : allocStep name (.ok d) a = .ok (d.set a.1 (x.set a.2 name)) := by
      unfold allocStep; simp only; rw [hx]
    have hk : (d.set a.1 (x.set a.2 name)).keys = d.keys := by
      rw [Dict.keys_set, if_pos (h a (by simp))]
    obtain ⟨d', h1, h2, h3⟩ := ih (d.set a.1 (x.set a.2 name)) (fun b hb => by rw [hk]; exact h b (by simp [hb]))
    refine ⟨d', by rw [List.foldl_cons, hs]; exact h1, h2.trans hk, ?_⟩
    intro op t ht
    by_cases ho : a.1 = op
    · subst ho
      rw [hx] at ht
      cases ht
      obtain ⟨t', h4, h5, h6⟩ := h3 a.1 (x.set a.2 name) (Dict.get?_set_self _ _ _)
      refine ⟨t', h4, fun hw => h5 (hw.set _ _), ?_⟩
      intro dir
      rw [h6 dir, Dict.get?_set]
      by_cases hm : (a.1, dir) ∈ as
      · simp [hm]
      · rw [if_neg hm]
        by_cases hd : a.2 = dir
        · have : a = (a.1, dir) := by rw [← hd]
          rw [if_pos hd, if_pos (by rw [← this]; simp)]
        · rw [if_neg hd, if_neg]
          simp only [List.mem_cons, not_or]
          exact ⟨fun hc => hd (congrArg Prod.snd hc).symm, hm⟩
    · obtain ⟨t', h4, h5, h6⟩ := h3 op t (by rw [Dict.get?_set_of_ne _ _ ho]; exact ht)
      refine ⟨t', h4, h5, ?_⟩
      intro dir
      rw [h6 dir]
      have : (op, dir) ∈ a :: as ↔ (op, dir) ∈ as := by
        simp only [List.mem_cons, or_iff_right_iff_imp]
        intro hc
        exact absurd (congrArg Prod.fst hc).symm ho
      simp only [this]

theorem alloc_fail (name : String) (as : List (Op × Dir)) (d : Dict Op (Dict Dir String)) (h : ∃ a ∈ as, a.1 ∉ d.keys) :
    as.foldl (allocStep name) (.ok d) = .error .keyError := by
  induction as generalizing d with
  | nil => simp at h
  | cons a as ih =>
    rw [List.foldl_cons]
    cases hg : d.get? a.1 with
    | none =>
      have : allocStep name (.ok d) a = .error .keyError := by unfold allocStep; simp only; rw [hg]
      rw [this, allocStep_error]
    | some x =>
      have hs : allocStep name (.ok d) a = .ok (d.set a.1 (x.set a.2 name)) := by unfold allocStep; simp only; rw [hg]
      have ha : a.1 ∈ d.keys := by
        by_contra hc
        rw [(Dict.get?_eq_none_iff _ _).2 hc] at hg
        cases hg
      rw [hs]
      apply ih
      obtain ⟨b, hb, hb'⟩ := h
      rcases List.mem_cons.1 hb with rfl | hb
      · exact absurd ha hb'
      · exact ⟨b, hb, by rw [Dict.keys_set, if_pos ha]; exact hb'⟩

theorem emptyAlloc_get (operands : List Op) (op : Op) (h : op ∈ operands) : (emptyAlloc operands).get? op = some [] := by
  have key : ∀ (l : List Op) (d : Dict Op (Dict Dir String)), (op ∈ l ∨ d.get? op = some []) → (l.foldl (fun d o => d.set o []) d).get? op = some [] := by
    intro l
    induction l with
    | nil => intro d hd; simpa using hd
    | cons o l ih =>
      intro d hd
      rw [List.foldl_cons]
      apply ih
      by_cases ho : o = op
      · exact .inr (by rw [ho, Dict.get?_set_self])
      · rcases hd with hd | hd
        · rcases List.mem_cons.1 hd with hd | hd
          · exact absurd hd.symm ho
          · exact .inl hd
        · exact .inr (by rw [Dict.get?_set_of_ne _ _ ho]; exact hd)
  exact key operands [] (.inl h)

theorem emptyAlloc_keys (operands : List Op) (op : Op) : op ∈ (emptyAlloc operands).keys ↔ op ∈ operands := by
  have key : ∀ (l : List Op) (d : Dict Op (Dict Dir String)), op ∈ (l.foldl (fun d o => d.set o []) d).keys ↔ op ∈ l ∨ op ∈ d.keys := by
    intro l
    induction l with
    | nil => intro d; simp
    | cons o l ih =>
      intro d
      rw [List.foldl_cons, ih, Dict.keys_set]
      split_ifs with h
      · simp only [List.mem_cons]
        constructor
        · rintro (h | h)
          · exact .inl (.inr h)
          · exact .inr h
        · rintro ((rfl | h) | h')
          · exact .inr h
          · exact .inl h
          · exact .inr h'
      · simp only [List.mem_append, List.mem_cons, List.not_mem_nil, or_false]
        tauto
  rw [emptyAlloc, key]
  simp [Dict.keys]

/-- The port that is declared last for a movement. -/
def lastPort (ports : List (PortD Op)) (op : Op) (dir : Dir) : Option (PortD Op) := (ports.filter fun p => decide ((op, dir) ∈ p.alloc)).getLast?

theorem lastPort_append (ports : List (PortD Op)) (p : PortD Op) (op : Op) (dir : Dir) :
    lastPort (ports ++ [p]) op dir = if (op, dir) ∈ p.alloc then some p else lastPort ports op dir := by
  unfold lastPort
  rw [List.filter_append]
  by_cases h : (op, dir) ∈ p.alloc
  · simp [h]
  · simp [h]

theorem lastPort_mem {ports : List (PortD Op)} {op : Op} {dir : Dir} {p : PortD Op} (h : lastPort ports op dir = some p) :
    p ∈ ports ∧ (op, dir) ∈ p.alloc := by
  have := List.mem_of_getLast? h
  rw [List.mem_filter] at this
  exact ⟨this.1, by simpa using this.2⟩

theorem createAlloc_ok (operands : List Op) (ports : List (PortD Op)) (h : ∀ p ∈ ports, ∀ a ∈ p.alloc, a.1 ∈ operands) :
    ∃ d, createAlloc operands ports = .ok d ∧ (∀ op, op ∈ d.keys ↔ op ∈ operands) ∧
      ∀ op ∈ operands, ∃ t, d.get? op = some t ∧ t.WF ∧ ∀ dir, t.get? dir = (lastPort ports op dir).map PortD.name := by
  induction ports using List.reverseRecOn with
  | nil =>
    refine ⟨_, rfl, emptyAlloc_keys operands, fun op ho => ⟨[], emptyAlloc_get operands op ho, by simp [Dict.WF, Dict.keys], fun dir => rfl⟩⟩
  | append_singleton ports p ih =>
    obtain ⟨d, h1, h2, h3⟩ := ih (fun q hq => h q (by simp [hq]))
    obtain ⟨d', h4, h5, h6⟩ := alloc_ok p.name p.alloc d (fun a ha => (h2 a.1).2 (h p (by simp) a ha))
    refine ⟨d', ?_, fun op => by rw [h5]; exact h2 op, ?_⟩
    · unfold createAlloc at h1 ⊢
      rw [List.foldl_append, h1]
      exact h4
    · intro op ho
      obtain ⟨t, t1, t2, t3⟩ := h3 op ho
      obtain ⟨t', u1, u2, u3⟩ := h6 op t t1
      refine ⟨t', u1, u2 t2, fun dir => ?_⟩
      rw [u3 dir, lastPort_append]
      by_cases hm : (op, dir) ∈ p.alloc
      · simp [hm]
      · simp only [hm, if_false]; exact t3 dir

theorem createAlloc_fail (operands : List Op) (ports : List (PortD Op)) (h : ∃ p ∈ ports, ∃ a ∈ p.alloc, a.1 ∉ operands) :
    createAlloc operands ports = .error .keyError := by
  induction ports using List.reverseRecOn with
  | nil => simp at h
  | append_singleton ports p ih =>
    have hfold : createAlloc operands (ports ++ [p]) = allocPort (createAlloc operands ports) p := by
      unfold createAlloc; rw [List.foldl_append]; rfl
    rw [hfold]
    by_cases hp : ∃ q ∈ ports, ∃ a ∈ q.alloc, a.1 ∉ operands
    · rw [ih hp]; exact allocStep_error _ _ _
    · push Not at hp
      obtain ⟨d, h1, h2, -⟩ := createAlloc_ok operands ports hp
      rw [h1]
      apply alloc_fail
      obtain ⟨q, hq, a, ha, hn⟩ := h
      rcases List.mem_append.1 hq with hq | hq
      · exact absurd (hp q hq a ha) hn
      · simp only [List.mem_singleton] at hq
        subst hq
        exact ⟨a, ha, fun hc => hn ((h2 _).1 hc)⟩

/-! ### Allocation -/

theorem findIdx_name (ports : List (PortD Op)) (hn : (ports.map PortD.name).Nodup) (i : Nat) (p : PortD Op) (h : ports[i]? = some p) :
    (ports.findIdx? fun q => decide (q.name = p.name)) = some i := by
  rw [List.findIdx?_eq_some_iff_getElem]
  have hi : i < ports.length := by
    by_contra hc
    rw [List.getElem?_eq_none (by omega)] at h
    cases h
  have hp : ports[i] = p := by rw [List.getElem?_eq_getElem hi] at h; exact Option.some.inj h
  refine ⟨hi, by simp [hp], ?_⟩
  intro j hj
  simp only [decide_eq_true_eq]
  intro hc
  have h1 : (ports.map PortD.name)[j]'(by simp; omega) = (ports.map PortD.name)[i]'(by simpa using hi) := by
    simp [hc, hp]
  have := (List.Nodup.getElem_inj_iff hn).1 h1
  omega

/-- What processing the entries of one operand does. -/
theorem portLoop_ok (ports : List (PortD Op)) (hn : (ports.map PortD.name).Nodup) (op : Op) (l : Nat) (es : Dict Dir String) (st : LvState Op)
    (hw : es.WF) (hes : ∀ e ∈ es, ∃ p ∈ ports, p.name = e.2) (hfresh : ∀ i t, t ∈ st.served i → t.1 = op → t.2.2 ∉ es.keys)
    (hnd : ∀ i, (st.served i).Nodup) (hused : ∀ i, st.used i = true ↔ st.served i ≠ []) :
    ∃ st', portLoop ports op l st es = .ok st' ∧
      (∀ o d, ∀ n, o = op → es.get? d = some n → ∃ p ∈ ports, p.name = n ∧ st'.bw o d = some (p.bwMin, p.bwMax)) ∧
      (∀ o d, (o = op → es.get? d = none) → st'.bw o d = st.bw o d) ∧
      (∀ (i : Nat) t, t ∈ st'.served i ↔ t ∈ st.served i ∨ (t.1 = op ∧ t.2.1 = l ∧ ∃ p, ports[i]? = some p ∧ es.get? t.2.2 = some p.name)) ∧
      (∀ i, (st'.served i).Nodup) ∧ (∀ i, st'.used i = true ↔ st'.served i ≠ []) := by
  induction es generalizing st with
  | nil => exact ⟨st, rfl, by simp, by simp, by simp, hnd, hused⟩
  | cons e es ih =>
    obtain ⟨d, n⟩ := e
    have hw' : d ∉ Dict.keys es ∧ Dict.WF es := by
      unfold Dict.WF Dict.keys at hw ⊢
      rw [List.map_cons, List.nodup_cons] at hw
      exact hw
    obtain ⟨p, hp, hpn⟩ := hes (d, n) (by simp)
    simp only at hpn
    obtain ⟨i, hi, hpi⟩ := List.getElem_of_mem hp
    have hpi' : ports[i]? = some p := by rw [List.getElem?_eq_getElem hi, hpi]
    have hf : (ports.findIdx? fun q => decide (q.name = n)) = some i := by rw [← hpn]; exact findIdx_name ports hn i p hpi'
    have hstep : portStep ports op l st (d, n) = .ok
      { served := fun j => if j = i then st.served j ++ [(op, l, d)] else st.served j
        used := fun j => if j = i then true else st.used j
        bw := fun o d' => if o = op ∧ d' = d then some (p.bwMin, p.bwMax) else st.bw o d' } := by
      unfold portStep
      simp only
      rw [hf]
      simp only
      rw [hpi']
    obtain ⟨st', h1, h2, h3, h4, h5, h6⟩ := ih
      { served := fun j => if j = i then st.served j ++ [(op, l, d)] else st.served j
        used := fun j => if j = i then true else st.used j
        bw := fun o d' => if o = op ∧ d' = d then some (p.bwMin, p.bwMax) else st.bw o d' }
      hw'.2 (fun e he => hes e (by simp [he]))
      (by
        intro j t ht ho
        simp only at ht
        split_ifs at ht with hj
        · rcases List.mem_append.1 ht with ht | ht
          · exact fun hc => hfresh j t ht ho (List.mem_cons_of_mem _ hc)
          · simp only [List.mem_singleton] at ht
            rw [ht]
            exact hw'.1
        · exact fun hc => hfresh j t ht ho (List.mem_cons_of_mem _ hc))
      (by
        intro j
        simp only
        split_ifs with hj
        · rw [List.nodup_append]
          refine ⟨hnd j, by simp, ?_⟩
          intro a ha b hb
          simp only [List.mem_singleton] at hb
          rw [hb]
          rintro rfl
          exact hfresh j _ ha rfl (by simp [Dict.keys])
        · exact hnd j)
      (by
        intro j
        simp only
        split_ifs with hj
        · simp
        · exact hused j)
    refine ⟨st', by rw [portLoop, hstep]; exact h1, ?_, ?_, ?_, h5, h6⟩
    · intro o d' n' ho hg
      rw [Dict.get?_cons] at hg
      split_ifs at hg with hd
      · simp only at hd hg
        subst hd
        cases hg
        refine ⟨p, hp, hpn, ?_⟩
        rw [h3 o d (fun _ => (Dict.get?_eq_none_iff _ _).2 hw'.1)]
        simp [ho]
      · exact h2 o d' n' ho hg
    · intro o d' hg
      have hg' : o = op → Dict.get? es d' = none ∧ d ≠ d' := by
        intro ho
        have := hg ho
        rw [Dict.get?_cons] at this
        split_ifs at this with hd
        exact ⟨this, hd⟩
      rw [h3 o d' (fun ho => (hg' ho).1)]
      simp only
      rw [if_neg]
      rintro ⟨ho, hd⟩
      exact (hg' ho).2 hd.symm
    · intro j t
      rw [h4 j t]
      simp only
      constructor
      · rintro (h | ⟨ha, hb, q, hq, hq'⟩)
        · split_ifs at h with hj
          · rcases List.mem_append.1 h with h | h
            · exact .inl h
            · simp only [List.mem_singleton] at h
              subst h
              exact .inr ⟨rfl, rfl, p, by rw [hj]; exact hpi', by rw [Dict.get?_cons, if_pos rfl, hpn]⟩
          · exact .inl h
        · refine .inr ⟨ha, hb, q, hq, ?_⟩
          rw [Dict.get?_cons, if_neg]
          · exact hq'
          · intro hd
            simp only at hd
            exact hw'.1 (by rw [hd]; exact List.mem_map.2 ⟨_, Dict.mem_of_get? hq', rfl⟩)
      · rintro (h | ⟨ha, hb, q, hq, hq'⟩)
        · left
          split_ifs with hj
          · exact List.mem_append.2 (.inl h)
          · exact h
        · rw [Dict.get?_cons] at hq'
          split_ifs at hq' with hd
          · simp only at hd
            simp only [Option.some.injEq] at hq'
            left
            have hji : j = i := by
              have e1 := findIdx_name ports hn j q hq
              rw [← hq', hf] at e1
              exact (Option.some.inj e1).symm
            rw [if_pos hji]
            refine List.mem_append.2 (.inr ?_)
            obtain ⟨t1, t2, t3⟩ := t
            simp only at ha hb hd
            simp [ha, hb, hd]
          · exact .inr ⟨ha, hb, q, hq, hq'⟩

theorem allocate_ok (ports : List (PortD Op)) (hn : (ports.map PortD.name).Nodup) (alloc : Dict Op (Dict Dir String)) (r : Dict Op Nat) (st : LvState Op)
    (hr : r.WF) (ha : ∀ op ∈ r.keys, ∃ t, alloc.get? op = some t ∧ t.WF ∧ ∀ dir, t.get? dir = (lastPort ports op dir).map PortD.name)
    (hfresh : ∀ i t, t ∈ st.served i → t.1 ∉ r.keys) (hnd : ∀ i, (st.served i).Nodup) (hused : ∀ i, st.used i = true ↔ st.served i ≠ []) :
    ∃ st', allocatePorts ports alloc st r = .ok st' ∧
      (∀ o d, st'.bw o d = if o ∈ r.keys then (match lastPort ports o d with | some p => some (p.bwMin, p.bwMax) | none => st.bw o d) else st.bw o d) ∧
      (∀ (i : Nat) t, t ∈ st'.served i ↔ t ∈ st.served i ∨ (r.get? t.1 = some t.2.1 ∧ ∃ p, ports[i]? = some p ∧ lastPort ports t.1 t.2.2 = some p)) ∧
      (∀ i, (st'.served i).Nodup) ∧ (∀ i, st'.used i = true ↔ st'.served i ≠ []) := by
  induction r generalizing st with
  | nil => exact ⟨st, rfl, by simp [Dict.keys], by simp, hnd, hused⟩
  | cons e r ih =>
    obtain ⟨op, l⟩ := e
    have hr' : op ∉ Dict.keys r ∧ Dict.WF r := by
      unfold Dict.WF Dict.keys at hr ⊢
      rw [List.map_cons, List.nodup_cons] at hr
      exact hr
    obtain ⟨t, t1, t2, t3⟩ := ha op (by simp [Dict.keys])
    have hnameinj : ∀ p q, p ∈ ports → q ∈ ports → p.name = q.name → p = q := fun p q hp hq h => List.inj_on_of_nodup_map hn hp hq h
    have hlast : ∀ dir (q : PortD Op), q ∈ ports → (t.get? dir = some q.name ↔ lastPort ports op dir = some q) := by
      intro dir q hq
      rw [t3 dir]
      cases hl : lastPort ports op dir with
      | none => simp
      | some p =>
        simp only [Option.map_some, Option.some.injEq]
        exact ⟨fun h => hnameinj p q (lastPort_mem hl).1 hq h, fun h => by rw [h]⟩
    obtain ⟨s1, g1, g2, g3, g4, g5, g6⟩ := portLoop_ok ports hn op l t st t2
      (by
        intro e he
        have := (Dict.mem_iff t2).1 (show (e.1, e.2) ∈ t from he)
        rw [t3] at this
        cases hl : lastPort ports op e.1 with
        | none => rw [hl] at this; cases this
        | some p =>
          rw [hl] at this
          exact ⟨p, (lastPort_mem hl).1, Option.some.inj this⟩)
      (by
        intro i u hu ho
        exact absurd (by rw [ho]; simp [Dict.keys]) (hfresh i u hu))
      hnd hused
    obtain ⟨s2, f1, f2, f3, f4, f5⟩ := ih s1 hr'.2 (fun o ho => ha o (List.mem_cons_of_mem _ ho))
      (by
        intro i u hu
        rcases (g4 i u).1 hu with hu | ⟨hu, -⟩
        · exact fun hc => hfresh i u hu (List.mem_cons_of_mem _ hc)
        · rw [hu]; exact hr'.1)
      g5 g6
    refine ⟨s2, by rw [allocatePorts, t1]; simp only; rw [g1]; exact f1, ?_, ?_, f4, f5⟩
    · intro o d
      rw [f2 o d]
      have hk : o ∈ Dict.keys ((op, l) :: r) ↔ o = op ∨ o ∈ Dict.keys r := by simp [Dict.keys]
      by_cases ho : o = op
      · rw [if_neg (by rw [ho]; exact hr'.1), if_pos (hk.2 (.inl ho))]
        cases hl : lastPort ports o d with
        | none =>
          simp only
          apply g3
          intro ho'
          rw [t3 d, ← ho', hl]; rfl
        | some p =>
          simp only
          obtain ⟨q, q1, q2, q3⟩ := g2 o d p.name ho (by rw [t3 d, ← ho, hl]; rfl)
          rw [q3, hnameinj q p q1 (lastPort_mem hl).1 q2]
      · have h1 : s1.bw o d = st.bw o d := g3 o d (fun h => absurd h ho)
        rw [h1]
        by_cases hm : o ∈ Dict.keys r
        · rw [if_pos hm, if_pos (hk.2 (.inr hm))]
        · rw [if_neg hm, if_neg (fun hc => (hk.1 hc).elim ho hm)]
    · intro i u
      rw [f3 i u, g4 i u, Dict.get?_cons]
      constructor
      · rintro ((h | ⟨h1, h2, p, hp, hp'⟩) | ⟨h1, h2⟩)
        · exact .inl h
        · right
          have hpm : p ∈ ports := List.mem_of_getElem? hp
          exact ⟨by simp [h1, h2], p, hp, by rw [h1]; exact (hlast _ p hpm).1 hp'⟩
        · right
          refine ⟨?_, h2⟩
          rw [if_neg]
          · exact h1
          · intro hc
            simp only at hc
            exact hr'.1 (by rw [hc]; exact List.mem_map.2 ⟨_, Dict.mem_of_get? h1, rfl⟩)
      · rintro (h | ⟨h1, p, hp, hp'⟩)
        · exact .inl (.inl h)
        · split_ifs at h1 with hc
          · simp only at hc h1
            have hpm : p ∈ ports := List.mem_of_getElem? hp
            exact .inl (.inr ⟨hc.symm, (Option.some.inj h1).symm, p, hp, (hlast _ p hpm).2 (by rw [hc]; exact hp')⟩)
          · exact .inr ⟨h1, p, hp, hp'⟩

end Verif.Ports
