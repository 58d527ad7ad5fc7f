import Verif.Cacti.Conc

/-! Properties of the extraction of memory costs with CACTI (C108-C112). The specification (`reported`, `Describes`, `TrueRec`,
`Faithful`, `Kept`, …) stands at the top of `Lemmas`. -/
namespace Verif.Cacti

/-! ### C108: the costs are those of the memory that was asked for -/

/-- C108. For every history of requests, whatever the pool contained at first as long as it was right, every answer is what CACTI
reports for exactly the memory that was asked for, and the pool stays right. -/
theorem answers_true {sim : Sim} (hs : Faithful sim) (rs : List Req) :
    ∀ {f : File}, (∀ p ∈ f, TrueRec sim p.2) →
      (∀ p ∈ (history sim f rs).1, TrueRec sim p.2) ∧
        ∀ (i : ℕ) (r : Req) (c : Cost), rs[i]? = some r → r.tech ≠ -1 → (history sim f rs).2[i]? = some (.ok c) →
          reported sim r = some c := by
  induction rs with
  | nil => intro f hf; exact ⟨hf, by simp⟩
  | cons r rs ih =>
    intro f hf
    obtain ⟨h1, h2⟩ := getItem_true hs hf r
    obtain ⟨h3, h4⟩ := ih h1
    refine ⟨h3, ?_⟩
    intro i r' c hr ht hc
    cases i with
    | zero =>
      simp only [List.getElem?_cons_zero, Option.some.injEq] at hr
      subst hr
      simp only [history, List.getElem?_cons_zero, Option.some.injEq] at hc
      exact h2 c ht hc
    | succ i =>
      simp only [List.getElem?_cons_succ] at hr
      simp only [history, List.getElem?_cons_succ] at hc
      exact h4 i r' c hr ht hc

/-- C108. With an empty pool nothing has to be assumed about the pool. -/
theorem answers_true_empty {sim : Sim} (hs : Faithful sim) (rs : List Req) (i : ℕ) (r : Req) (c : Cost)
    (hr : rs[i]? = some r) (ht : r.tech ≠ -1) (hc : (history sim [] rs).2[i]? = some (.ok c)) : reported sim r = some c :=
  (answers_true hs rs (f := []) (by simp)).2 i r c hr ht hc

/-- C108. A register file gets the costs of an SRAM with 128 times as many bits, with the same effect on the pool. -/
theorem register_file (sim : Sim) (f : File) (r : Req) (h : r.memType = "rf") :
    getItem sim f r = getItem sim f { r with memType := "sram", size := 128 * r.size } := by
  unfold getItem
  rw [normalise_eq, normalise_eq]
  have : meant { r with memType := "sram", size := 128 * r.size } = meant r := by
    simp [meant, h]
  rw [this]

/-- C108. Records without a technology (the older ones of the pool that comes with the program) are never used. -/
theorem old_records_unused (f g : File) (r : Req) (hf : ∀ p ∈ load f, Complete p.2 ∧ p.2.tech = none) (ht : 0 ≤ r.tech) :
    lookup (load f ++ load g) r = lookup (load g) r ∧ itemExists (load f ++ load g) r = itemExists (load g) r := by
  have ht' : (-1 : ℚ) ≠ r.tech := by intro h; rw [← h] at ht; norm_num at ht
  generalize load f = d at hf
  induction d with
  | nil => exact ⟨rfl, rfl⟩
  | cons p t ih =>
    obtain ⟨hc, hn⟩ := hf p List.mem_cons_self
    obtain ⟨ih1, ih2⟩ := ih (fun q hq => hf q (List.mem_cons_of_mem _ hq))
    have hsh : ¬ SameShape p.2 r := by
      rintro ⟨-, -, -, -, -, -, h⟩
      rw [hn] at h
      exact ht' h
    constructor
    · rcases fullTest_complete hc r with ⟨hd, -⟩ | ⟨-, h⟩
      · exact absurd hd.1 hsh
      · simp only [List.cons_append, lookup, h, bind, Except.bind]
        exact ih1
    · obtain ⟨b, hb, hb'⟩ := shapeTest_complete hc r
      have : b = false := by
        cases b with
        | false => rfl
        | true => exact absurd (hb'.1 rfl) hsh
      subst this
      simp only [List.cons_append, itemExists, hb, bind, Except.bind, Bool.false_eq_true, if_false]
      exact ih2

/-! ### C109: when a request succeeds, and that it keeps succeeding -/

/-- C109. In a pool whose records are complete and bear their right names, a request for a whole number of bytes succeeds exactly
when a record describes the memory, or when no record has its size, width, ports, banks and technology, CACTI accepts it, and the
type is SRAM, DRAM or register file. -/
theorem succeeds_iff {sim : Sim} (hs : Faithful sim) {f : File} (hf : ∀ p ∈ f, Kept p) (r : Req)
    (h8 : (meant r).size % 8 = 0) :
    (∃ c, (getItem sim f r).2 = .ok c) ↔
      (∃ p ∈ load f, Describes p.2 (meant r)) ∨
        ((∀ p ∈ load f, ¬ SameShape p.2 (meant r)) ∧ (reported sim r).isSome ∧
          (r.memType = "sram" ∨ r.memType = "dram" ∨ r.memType = "rf")) := by
  have hcomp : ∀ p ∈ load f, Complete p.2 := fun p hp => (hf p (mem_load hp)).1
  obtain ⟨b, hb, hb'⟩ := itemExists_complete hcomp (meant r)
  have hlook := lookup_complete hcomp (meant r)
  have htype : (meant r).memType = label (meant r) ↔ (r.memType = "sram" ∨ r.memType = "dram" ∨ r.memType = "rf") := by
    unfold meant label
    by_cases h : r.memType = "rf"
    · simp [h]
    · by_cases h' : r.memType = "sram"
      · simp [h']
      · simp [h, h']
  have hrep : reported sim r = (sim (cfgOf (meant r))).map fun w => (1000 * w.rd, 1000 * w.wr, w.area) := by
    rw [← reported_meant, reported_eq sim (meant_ne_rf r)]
  unfold getItem
  rw [normalise_eq]
  simp only [hb]
  cases b with
  | true =>
    obtain ⟨p, hp, hsh⟩ := hb'.1 rfl
    simp only
    rw [hlook]
    constructor
    · exact .inl
    · rintro (h | ⟨h, -⟩)
      · exact h
      · exact absurd hsh (h p hp)
  | false =>
    have hno : ∀ p ∈ load f, ¬ SameShape p.2 (meant r) := by
      intro p hp hsh
      simpa using hb'.2 ⟨p, hp, hsh⟩
    have hnd : ¬ ∃ p ∈ load f, Describes p.2 (meant r) := by
      rintro ⟨p, hp, hd⟩
      exact hno p hp hd.1
    cases hw : sim (cfgOf (meant r)) with
    | none =>
      simp only [createItem, hw]
      constructor
      · rintro ⟨c, h⟩; cases h
      · rintro (h | ⟨-, h, -⟩)
        · exact absurd h hnd
        · rw [hrep, hw] at h
          simp at h
    | some w =>
      have hfresh := fresh_name hs hf h8 hb hw (label (meant r))
      have hmk : mkRecords (meant r) [w] = [mkRecord (meant r) (label (meant r)) w] := rfl
      simp only [createItem, hw, hmk]
      rw [load_snoc, set_fresh _ hfresh]
      have hcomp' : ∀ p ∈ load f ++ [mkRecord (meant r) (label (meant r)) w], Complete p.2 := by
        intro p hp
        rcases List.mem_append.1 hp with hp | hp
        · exact hcomp p hp
        · rw [List.mem_singleton.1 hp]
          exact (mkRecord_kept _ _ _).1
      obtain ⟨hs1, hs2⟩ := hs _ _ hw
      simp only [cfgOf] at hs1 hs2
      have hshape : SameShape (mkRecord (meant r) (label (meant r)) w).2 (meant r) := by
        refine ⟨?_, ?_, rfl, rfl, rfl, rfl, rfl⟩
        · simp only [mkRecord, hs1]; congr 1; omega
        · simp only [mkRecord, hs2]
      refine (lookup_complete hcomp' (meant r)).trans ?_
      constructor
      · rintro ⟨p, hp, hd⟩
        rcases List.mem_append.1 hp with hp | hp
        · exact absurd ⟨p, hp, hd⟩ hnd
        · rw [List.mem_singleton.1 hp] at hd
          refine .inr ⟨hno, by rw [hrep, hw]; rfl, htype.1 ?_⟩
          have := hd.2
          simp only [mkRecord, Option.some.injEq] at this
          exact this.symm
      · rintro (h | ⟨-, -, h⟩)
        · exact absurd h hnd
        · refine ⟨_, List.mem_append_right _ List.mem_cons_self, hshape, ?_⟩
          simp only [mkRecord, Option.some.injEq]
          exact (htype.2 h).symm

/-- C109. A request that has been answered once is answered in the same way for ever, whatever (valid) requests come in between, and
without calling CACTI again (`sim'` is arbitrary). -/
theorem answer_stays {sim : Sim} (hs : Faithful sim) {f f1 : File} (hf : ∀ p ∈ f, Kept p) {r : Req} {c : Cost}
    (h : getItem sim f r = (f1, .ok c)) (rs : List Req) (h8 : ∀ q ∈ r :: rs, (meant q).size % 8 = 0) (sim' : Sim) :
    getItem sim' (history sim f1 rs).1 r = ((history sim f1 rs).1, .ok c) := by
  have hk : ∀ p ∈ f1, Kept p := by
    have := getItem_kept sim hf r
    rwa [h] at this
  obtain ⟨x, hx⟩ := history_extends hs rs hk (fun q hq => h8 q (List.mem_cons_of_mem _ hq))
  have key : itemExists (load f1) (meant r) = .ok true ∧ lookup (load f1) (meant r) = .ok c := by
    rcases getItem_cases sim f r with ⟨h1, h2⟩ | ⟨w, hi, hw, h'⟩
    · rw [h] at h1 h2
      simp only at h1
      subst h1
      exact h2 c rfl
    · rw [h] at h'
      simp only [Prod.mk.injEq] at h'
      obtain ⟨h3, h4⟩ := h'
      rw [← h3] at h4
      refine ⟨?_, h4.symm⟩
      obtain ⟨p, hp, hd, -⟩ := lookup_ok h4.symm
      obtain ⟨b, hb, hb'⟩ := itemExists_complete (d := load f1) (fun p hp => (hk p (mem_load hp)).1) (meant r)
      rw [hb, hb'.2 ⟨p, hp, hd.1⟩]
  unfold getItem
  rw [normalise_eq, hx]
  simp only [itemExists_prefix x key.1, lookup_prefix x key.2]

/-- A CACTI whose answers show what it was asked. -/
def demo : Sim := fun c =>
  some ⟨c.sizeByte, c.bw, c.sizeByte, if c.mainMemory then 100 else 1, c.rd + 10 * c.wr⟩

theorem demo_faithful : Faithful demo := by
  intro c w h
  simp only [demo, Option.some.injEq] at h
  subst h
  exact ⟨rfl, rfl⟩

/-- An SRAM, a DRAM and a memory of some other type, all of 1024 bits and 8 bits wide, as an accelerator description asks for. -/
def sram : Req := ⟨"sram", 1024, 8, 1, 1, 0, 1, 22 / 1000⟩
def dram : Req := { sram with memType := "dram" }
def reram : Req := { sram with memType := "reram" }

/-- The answers of a history, with errors told apart from costs. -/
def shown (l : List (Except Err Cost)) : List (Option Cost) :=
  l.map fun a => match a with | .ok c => some c | .error _ => none

/-- Non-trivial case for `answers_true`, `succeeds_iff`, `answer_stays`: a register file of 8 bits is an SRAM of 1024 bits; the second
request is answered from the pool. -/
example : shown (history demo [] [{ sram with memType := "rf", size := 8 }, sram, { sram with bw := 16 }, sram]).2 =
    [some (1000, 11000, 128), some (1000, 11000, 128), some (1000, 11000, 128), some (1000, 11000, 128)] ∧
    (history demo [] [{ sram with memType := "rf", size := 8 }, sram, { sram with bw := 16 }, sram]).1.length = 2 := by
  decide +kernel

/-- C109 is false in general: whether a memory can be costed depends on the requests made before, in this or in an earlier run. After
a DRAM, an SRAM of the same size, width and ports is refused for ever, because the check for a cached record (cacti_parser.py lines
53-61) does not look at the type but the search for the costs (lines 200-209) does. The other way round the DRAM is refused. -/
theorem order_false :
    shown (history demo [] [sram, dram]).2 = [some (1000, 11000, 128), none] ∧
      shown (history demo [] [dram, sram]).2 = [some (100000, 11000, 128), none] ∧
      ∀ sim f r, getItem sim (history demo [] [dram]).1 sram = (f, r) →
        f = (history demo [] [dram]).1 ∧ r = .error .noMatch := by
  refine ⟨by decide +kernel, by decide +kernel, ?_⟩
  intro sim f r h
  have h1 : itemExists (load (history demo [] [dram]).1) (normalise sram) = .ok true := by
    have : (match itemExists (load (history demo [] [dram]).1) (normalise sram) with | .ok b => b | _ => false) = true := by
      decide +kernel
    revert this
    cases itemExists (load (history demo [] [dram]).1) (normalise sram) with
    | error e => intro h; cases h
    | ok b => intro h; exact congrArg _ h
  have h2 : lookup (load (history demo [] [dram]).1) (normalise sram) = .error .noMatch := by
    have : (match lookup (load (history demo [] [dram]).1) (normalise sram) with | .error .noMatch => true | _ => false) = true := by
      decide +kernel
    revert this
    cases lookup (load (history demo [] [dram]).1) (normalise sram) with
    | error e => cases e <;> simp
    | ok b => intro h; cases h
  unfold getItem at h
  simp only [h1, h2, Prod.mk.injEq] at h
  exact ⟨h.1.symm, h.2.symm⟩

/-- C109 is false in general: a request for a memory type that is not known (the description may contain any text) is simulated as main
memory, recorded as `dram` and refused, and from then on the SRAM of that size is refused too. -/
theorem unknown_type_false :
    shown (history demo [] [reram, sram, dram]).2 = [none, none, some (100000, 11000, 128)] ∧
      shown (history demo [] [sram]).2 = [some (1000, 11000, 128)] := by
  decide +kernel

/-- C109 is false in general for sizes that are no whole number of bytes (the check of descriptions excludes them, a direct call does
not): the request is simulated again every time, never answered, and here it replaces the record of the SRAM with 1024 bits by one of
a DRAM, so that the SRAM is refused afterwards. -/
theorem odd_size_false :
    shown (history demo [] [sram, { dram with size := 1025 }, { dram with size := 1025 }, sram]).2 =
        [some (1000, 11000, 128), none, none, none] ∧
      (history demo [] [sram, { dram with size := 1025 }, { dram with size := 1025 }, sram]).1.length = 3 := by
  decide +kernel

/-! ### C110: extractions by several processes -/

/-- C110. Partial: for every number of processes, every schedule and every way in which processes are killed, every answer is what
CACTI reports for the memory of that process, provided that no two of the requests agree in their bytes and width without being the
same. (Without that condition it is false, see `concurrent_false`.) -/
theorem concurrent_partial {sim : Sim} (hs : Faithful sim) (cfg : Option Cfg) (out : Option (List Row)) (f : File)
    (hf : ∀ p ∈ f, TrueRec sim p.2) (reqs : List Req)
    (ha : ∀ p ∈ reqs, ∀ q ∈ reqs, (meant p).size / 8 = (meant q).size / 8 → p.bw = q.bw → meant p = meant q)
    {s : St} (h : Reach sim (initial cfg out f reqs) s) (i : ℕ) (r : Req) (p : Proc) (c : Cost) (hr : reqs[i]? = some r)
    (ht : r.tech ≠ -1) (hp : s.procs[i]? = some p) (hd : p.phase = .done (.ok c)) : reported sim r = some c := by
  have hn : reqs.map normalise = reqs.map meant := List.map_congr_left fun r _ => normalise_eq r
  have bw : ∀ r, (meant r).bw = r.bw := by intro r; unfold meant; split_ifs <;> rfl
  have hQ : Apart (reqs.map meant) := by
    intro p hp q hq h1 h2
    obtain ⟨p', hp', rfl⟩ := List.mem_map.1 hp
    obtain ⟨q', hq', rfl⟩ := List.mem_map.1 hq
    rw [bw, bw] at h2
    exact ha p' hp' q' hq' h1 h2
  have hrf : ∀ q ∈ reqs.map meant, q.memType ≠ "rf" := by
    intro q hq
    obtain ⟨q', -, rfl⟩ := List.mem_map.1 hq
    exact meant_ne_rf q'
  have h0 : Inv sim (reqs.map meant) (initial cfg out f reqs) := by
    refine ⟨?_, ?_, .inl ?_, ?_⟩
    · simp only [initial, List.map_map]
      rw [← hn]
      rfl
    · intro e he r hr c ht hd hc
      exact hf e he r c (hrf r hr) ht hd hc
    · intro p hp
      obtain ⟨q, -, rfl⟩ := List.mem_map.1 hp
      trivial
    · intro p hp
      obtain ⟨q, -, rfl⟩ := List.mem_map.1 hp
      trivial
  have hI := reach_inv hs hQ hrf h0 h
  have hpm : p ∈ s.procs := List.mem_of_getElem? hp
  have hreq : p.req = meant r := by
    have := congrArg (fun l => l[i]?) hI.reqs
    simp only [List.getElem?_map, hp, hr, Option.map_some, Option.some.injEq] at this
    exact this
  have := hI.procs p hpm
  unfold PInv at this
  rw [hd] at this
  simp only at this
  rw [hreq, meant_tech, reported_meant] at this
  exact this ht

/-- The program of one process, read off the code step by step, does what `getItem` says when no other process interferes: nine steps
suffice, from any state of the directory and with any other processes present. -/
theorem undisturbed (sim : Sim) (s : St) (i : ℕ) (r : Req) (h : s.procs[i]? = some ⟨normalise r, .start⟩) :
    ((act sim i)^[9] s).file = (getItem sim s.file r).1 ∧
      ∃ p : Proc, ((act sim i)^[9] s).procs[i]? = some p ∧ p.phase = .done (getItem sim s.file r).2 := by
  have step : ∀ {n : ℕ} {t : St} {p : Proc}, t.procs[i]? = some p →
      (act sim i)^[n + 1] t = (act sim i)^[n] { (stepProc sim t p).1 with procs := t.procs.set i (stepProc sim t p).2 } := by
    intro n t p hp
    rw [Function.iterate_succ_apply, act_at hp]
  unfold getItem
  simp only
  generalize normalise r = q at h ⊢
  cases hi : itemExists (load s.file) q with
  | error e =>
    have e1 : stepProc sim s ⟨q, .start⟩ = (s, ⟨q, .done (.error e)⟩) := by simp only [stepProc, hi]
    rw [step h, e1, act_done (set_get h _)]
    exact ⟨rfl, _, set_get h _, rfl⟩
  | ok b =>
    cases b with
    | true =>
      have e1 : stepProc sim s ⟨q, .start⟩ = (s, ⟨q, .look⟩) := by simp only [stepProc, hi]
      rw [step h, e1, step (set_get h _)]
      simp only [stepProc]
      rw [act_done (set_get (set_get h _) _)]
      exact ⟨rfl, _, set_get (set_get h _) _, rfl⟩
    | false =>
      have e1 : stepProc sim s ⟨q, .start⟩ = (s, ⟨q, .clear⟩) := by simp only [stepProc, hi]
      rw [step h, e1, step (set_get h _)]
      simp only [stepProc]
      rw [step (set_get (set_get h _) _)]
      simp only [stepProc]
      rw [step (set_get (set_get (set_get h _) _) _)]
      simp only [stepProc]
      rw [step (set_get (set_get (set_get (set_get h _) _) _) _)]
      simp only [stepProc]
      cases hw : sim (cfgOf q) with
      | none =>
        simp only [createItem, hw]
        rw [step (set_get (set_get (set_get (set_get (set_get h _) _) _) _) _)]
        simp only [stepProc]
        rw [act_done (set_get (set_get (set_get (set_get (set_get (set_get h _) _) _) _) _) _)]
        exact ⟨rfl, _, set_get (set_get (set_get (set_get (set_get (set_get h _) _) _) _) _) _, rfl⟩
      | some w =>
        simp only [createItem, hw]
        rw [step (set_get (set_get (set_get (set_get (set_get h _) _) _) _) _)]
        simp only [stepProc, Option.getD_none, List.nil_append, mkRecords, List.map_nil]
        rw [step (set_get (set_get (set_get (set_get (set_get (set_get h _) _) _) _) _) _)]
        simp only [stepProc]
        rw [step (set_get (set_get (set_get (set_get (set_get (set_get (set_get h _) _) _) _) _) _) _)]
        simp only [stepProc]
        rw [step (set_get (set_get (set_get (set_get (set_get (set_get (set_get (set_get h _) _) _) _) _) _) _) _)]
        simp only [stepProc]
        exact ⟨rfl, _, set_get (set_get (set_get (set_get (set_get (set_get (set_get (set_get (set_get h _) _) _) _) _) _) _) _) _, rfl⟩

/-- A schedule: the numbers of the processes in the order in which they act. -/
def schedule (sim : Sim) (s : St) (l : List ℕ) : St := l.foldl (fun s i => act sim i s) s

theorem schedule_reach (sim : Sim) (s0 : St) (l : List ℕ) : ∀ s, Reach sim s0 s → Reach sim s0 (schedule sim s l) := by
  induction l with
  | nil => intro s h; exact h
  | cons i l ih => intro s h; exact ih _ (.act i h)

/-- The answer of process `i`. -/
def answer (s : St) (i : ℕ) : Option (Option Cost) :=
  match s.procs[i]? with
  | some ⟨_, .done (.ok c)⟩ => some (some c)
  | some ⟨_, .done (.error _)⟩ => some none
  | _ => none

/-- Non-trivial case for `concurrent_partial`: two different sizes at the same time, interleaved in the middle of everything. Process 0
gets its answer from a record written by process 1; the answer of process 1 is missing (its own row was the second one of the file and is
recorded as `dram`), but not wrong. -/
example :
    let s := schedule demo (initial none none [] [sram, { sram with size := 2048 }])
      [0, 0, 0, 0, 1, 1, 0, 1, 1, 1, 1, 1, 1, 1, 1, 0, 0, 0, 0, 0]
    answer s 0 = some (some (1000, 11000, 128)) ∧ answer s 1 = some none := by
  decide +kernel

/-- C110 is false in general: two runs at the same time share the directory `self_gen`. Here an SRAM and a DRAM of the same size and
width are extracted together, the process of the SRAM simulates the configuration of the DRAM, answers with the costs of the DRAM, and
the wrong record stays in the pool: later requests for the SRAM are answered wrongly for ever. -/
theorem concurrent_false :
    ∃ s, Reach demo (initial none none [] [sram, dram]) s ∧ answer s 0 = some (some (100000, 11000, 128)) ∧
      reported demo sram = some (1000, 11000, 128) ∧ shown (history demo s.file [sram]).2 = [some (100000, 11000, 128)] :=
  ⟨schedule demo (initial none none [] [sram, dram]) [0, 0, 0, 1, 1, 1, 0, 0, 0, 0, 0, 0], schedule_reach _ _ _ _ .refl,
    by decide +kernel, by decide +kernel, by decide +kernel⟩

/-- C110 is false in general: even two runs that ask for the same memory can make each other fail, since each of them empties the
directory. Alone the request is answered. -/
theorem concurrent_fails_false :
    ∃ s, Reach demo (initial none none [] [sram, sram]) s ∧ answer s 0 = some none ∧
      shown (history demo [] [sram]).2 = [some (1000, 11000, 128)] :=
  ⟨schedule demo (initial none none [] [sram, sram]) [0, 0, 0, 0, 0, 1, 1, 0], schedule_reach _ _ _ _ .refl,
    by decide +kernel, by decide +kernel⟩

/-! ### C111: interrupted extractions -/

/-- C111. Whatever requests are interrupted, and after whatever number of lines of the new record, the answers are never wrong. -/
theorem crash_answers {sim : Sim} (hs : Faithful sim) (rs : List (Req × Option (Option ℕ))) :
    ∀ {f : File}, (∀ p ∈ f, TrueRec sim p.2) → ∀ (i : ℕ) (r : Req) (x : Option (Option ℕ)) (c : Cost),
      rs[i]? = some (r, x) → r.tech ≠ -1 → (crashHistory sim f rs).2[i]? = some (some (.ok c)) → reported sim r = some c := by
  induction rs with
  | nil => intro f _ i r x c h; simp at h
  | cons a rs ih =>
    intro f hf i r x c hr ht hc
    obtain ⟨q, y⟩ := a
    cases y with
    | none =>
      obtain ⟨h1, h2⟩ := getItem_true hs hf q
      cases i with
      | zero =>
        simp only [List.getElem?_cons_zero, Option.some.injEq, Prod.mk.injEq] at hr
        obtain ⟨rfl, -⟩ := hr
        simp only [crashHistory, List.getElem?_cons_zero, Option.some.injEq] at hc
        exact h2 c ht hc
      | succ i =>
        simp only [List.getElem?_cons_succ] at hr
        simp only [crashHistory, List.getElem?_cons_succ] at hc
        exact ih h1 i r x c hr ht hc
    | some n =>
      cases i with
      | zero => simp [crashHistory] at hc
      | succ i =>
        simp only [List.getElem?_cons_succ] at hr
        simp only [crashHistory, List.getElem?_cons_succ] at hc
        exact ih (crashed_true hs hf q n) i r x c hr ht hc

/-- C111. A memory that was in the pool before an interruption is still answered in the same way. -/
theorem crash_cached {sim : Sim} (hs : Faithful sim) {f : File} (hf : ∀ p ∈ f, Kept p) {r : Req} (h8 : (meant r).size % 8 = 0)
    (n : Option ℕ) {r' : Req} {c : Cost} (h : getItem sim f r' = (f, .ok c)) :
    getItem sim (crashed sim f r n) r' = (crashed sim f r n, .ok c) := by
  rcases crashed_cases sim f r n with hc | ⟨w, k, -, hi, hw, hc⟩
  · rw [hc]; exact h
  · have key : itemExists (load f) (meant r') = .ok true ∧ lookup (load f) (meant r') = .ok c := by
      rcases getItem_cases sim f r' with ⟨-, h2⟩ | ⟨w', -, -, h'⟩
      · exact h2 c (by rw [h])
      · rw [h] at h'
        have := congrArg (fun x => x.1.length) h'
        simp at this
    have hl : load (crashed sim f r n) = load f ++
        [((mkRecord (meant r) (label (meant r)) w).1, torn k (mkRecord (meant r) (label (meant r)) w).2)] := by
      rw [hc, load_snoc, set_fresh _ (fresh_name hs hf h8 hi hw _)]
    unfold getItem
    rw [normalise_eq, hl]
    simp only [itemExists_prefix _ key.1, lookup_prefix _ key.2]

/-- C111. Partial: if nothing was written, or at least the ten lines up to the size, then the same request made again is answered as if
there had been no interruption. (After fewer lines this is false, see `crash_blocks`.) -/
theorem crash_retry_partial {sim : Sim} (hs : Faithful sim) {f : File} (hf : ∀ p ∈ f, Kept p) {r : Req}
    (h8 : (meant r).size % 8 = 0) (ht : r.tech ≠ -1) (n : Option ℕ) (hn : ∀ k, n = some k → 10 ≤ k) :
    (getItem sim (crashed sim f r n) r).2 = (getItem sim f r).2 := by
  rcases crashed_cases sim f r n with hc | ⟨w, k, hk, hi, hw, hc⟩
  · rw [hc]
  · have hfresh := fresh_name hs hf h8 hi hw (label (meant r))
    have hl : load (crashed sim f r n) = load f ++
        [((mkRecord (meant r) (label (meant r)) w).1, torn k (mkRecord (meant r) (label (meant r)) w).2)] := by
      rw [hc, load_snoc, set_fresh _ hfresh]
    have hr : (getItem sim f r).2 = lookup (load f ++ [mkRecord (meant r) (label (meant r)) w]) (meant r) := by
      rcases getItem_cases sim f r with ⟨h1, h2⟩ | ⟨w', hi', hw', h'⟩
      · exfalso
        have h3 : (getItem sim f r).1 = f ++ mkRecords (meant r) [w] := by
          unfold getItem; rw [normalise_eq]; simp only [hi, createItem, hw]
        rw [h1] at h3
        have := congrArg List.length h3
        simp [mkRecords] at this
      · rw [hw] at hw'
        cases hw'
        rw [h']
        simp only
        rw [load_snoc, set_fresh _ hfresh]
    have h10 := hn k hk
    rw [hr]
    have htm : (meant r).tech ≠ -1 := by rwa [meant_tech]
    by_cases h12 : k < 12
    · have hex : itemExists (load (crashed sim f r n)) (meant r) = .ok false := by
        rw [hl, itemExists_append _ hi]
        simp [itemExists, shapeTest_noTech _ _ w h10 h12 htm, bind, Except.bind]
      have : (getItem sim (crashed sim f r n) r).2 =
          lookup (load (crashed sim f r n ++ mkRecords (meant r) [w])) (meant r) := by
        unfold getItem; rw [normalise_eq]; simp only [hex, createItem, hw]
      rw [this]
      have hmk : mkRecords (meant r) [w] = [mkRecord (meant r) (label (meant r)) w] := rfl
      rw [hmk, load_snoc, hl, set_last _ _ hfresh]
    · have htorn : torn k (mkRecord (meant r) (label (meant r)) w).2 = (mkRecord (meant r) (label (meant r)) w).2 := by
        simp only [torn, show ∀ j, j < 12 → j < k from fun j hj => by omega, Nat.reduceLT, if_true]
      rw [htorn] at hl
      have hshape : SameShape (mkRecord (meant r) (label (meant r)) w).2 (meant r) := by
        obtain ⟨hs1, hs2⟩ := hs _ _ hw
        simp only [cfgOf] at hs1 hs2
        refine ⟨?_, ?_, rfl, rfl, rfl, rfl, rfl⟩
        · simp only [mkRecord, hs1]; congr 1; omega
        · simp only [mkRecord, hs2]
      have hex : itemExists (load (crashed sim f r n)) (meant r) = .ok true := by
        rw [hl, itemExists_append _ hi]
        obtain ⟨b, hb, hb'⟩ := shapeTest_complete (mkRecord_kept (meant r) (label (meant r)) w).1 (meant r)
        have : b = true := hb'.2 hshape
        subst this
        simp [itemExists, hb, bind, Except.bind, pure, Except.pure]
      unfold getItem
      rw [normalise_eq]
      simp only [hex]
      rw [hl]

/-- C111. If the interruption comes after the name of the record but before its size, then every memory whose size, width, ports, banks
and technology are not yet in the pool is refused from then on, whatever it is and however often it is tried. -/
theorem crash_blocks {sim : Sim} (hs : Faithful sim) {f : File} (hf : ∀ p ∈ f, Kept p) {r : Req} (h8 : (meant r).size % 8 = 0)
    {n : ℕ} (hn : n < 10) {w : Row} (hw : sim (cfgOf (meant r)) = some w) (hnew : ∀ p ∈ load f, ¬ SameShape p.2 (meant r))
    (r' : Req) (hnew' : ∀ p ∈ load f, ¬ SameShape p.2 (meant r')) (sim' : Sim) :
    getItem sim' (crashed sim f r (some n)) r' = (crashed sim f r (some n), .error .malformed) := by
  have hcomp : ∀ p ∈ load f, Complete p.2 := fun p hp => (hf p (mem_load hp)).1
  have no : ∀ q, (∀ p ∈ load f, ¬ SameShape p.2 q) → itemExists (load f) q = .ok false := by
    intro q hq
    obtain ⟨b, hb, hb'⟩ := itemExists_complete hcomp q
    cases b with
    | false => exact hb
    | true =>
      obtain ⟨p, hp, h⟩ := hb'.1 rfl
      exact absurd h (hq p hp)
  have hi := no _ hnew
  have hl : load (crashed sim f r (some n)) = load f ++
      [((mkRecord (meant r) (label (meant r)) w).1, torn n (mkRecord (meant r) (label (meant r)) w).2)] := by
    have hc : crashed sim f r (some n) = f ++
        [((mkRecord (meant r) (label (meant r)) w).1, torn n (mkRecord (meant r) (label (meant r)) w).2)] := by
      unfold crashed
      rw [normalise_eq]
      simp only [hi, createItem, hw, mkRecords, List.map_nil, List.nil_append, label]
    rw [hc, load_snoc, set_fresh _ (fresh_name hs hf h8 hi hw _)]
  unfold getItem
  rw [normalise_eq, hl]
  simp [itemExists_append _ (no _ hnew'), itemExists, shapeTest_torn hn, bind, Except.bind]

/-- C111 is false in general: an interruption in the middle of the record of an SRAM makes a DRAM of another size fail for ever. -/
theorem crash_false :
    (crashHistory demo [] [(sram, some (some 5)), ({ dram with size := 4096 }, none)]).2.map (fun a => a.map fun x =>
        match x with | .ok c => some c | .error _ => none) = [none, some none] ∧
      shown (history demo [] [{ dram with size := 4096 }]).2 = [some (100000, 11000, 512)] := by
  decide +kernel

/-- Non-trivial case for `crash_answers`, `crash_cached` and `crash_retry_partial`: interruption after eleven lines, then the same
request again. -/
example : (crashHistory demo [] [({ sram with bw := 16 }, none), (sram, some (some 11)), (sram, none), ({ sram with bw := 16 }, none)]).2.map
    (fun a => a.map fun x => match x with | .ok c => some c | .error _ => none) =
    [some (some (1000, 11000, 128)), none, some (some (1000, 11000, 128)), some (some (1000, 11000, 128))] := by
  decide +kernel

/-! ### C112: what of a memory description reaches CACTI -/

/-- C112. Costs are extracted exactly for memories with a read or a read-write port; the width is the largest bandwidth of the first
read port, or of the first read-write port if there is no read port. -/
theorem request_iff (t : String) (size : ℕ) (ports : List Port) (r : Req) :
    requestOf t size ports = some r ↔
      ∃ (i : ℕ) (p : Port), ports[i]? = some p ∧ r = ⟨t, size, p.bwMax, 1, 1, 0, 1, 22 / 1000⟩ ∧
        ((p.type = .read ∧ ∀ (j : ℕ) (q : Port), j < i → ports[j]? = some q → q.type ≠ .read) ∨
          (p.type = .readWrite ∧ (∀ q ∈ ports, q.type ≠ .read) ∧
            ∀ (j : ℕ) (q : Port), j < i → ports[j]? = some q → q.type ≠ .readWrite)) := by
  have first : ∀ (ty : PortType) (p : Port), ports.find? (fun p => p.type = ty) = some p ↔
      ∃ i : ℕ, ports[i]? = some p ∧ p.type = ty ∧ ∀ (j : ℕ) (q : Port), j < i → ports[j]? = some q → q.type ≠ ty := by
    intro ty
    clear r
    induction ports with
    | nil => simp
    | cons a l ih =>
      intro p
      by_cases ha : a.type = ty
      · rw [List.find?_cons_of_pos (by simpa using ha)]
        constructor
        · intro h
          cases h
          exact ⟨0, rfl, ha, by simp⟩
        · rintro ⟨i, hi, hp, hj⟩
          cases i with
          | zero => simpa using hi
          | succ i => exact absurd ha (hj 0 a (by omega) rfl)
      · rw [List.find?_cons_of_neg (by simpa using ha), ih p]
        constructor
        · rintro ⟨i, hi, hp, hj⟩
          refine ⟨i + 1, by simpa using hi, hp, ?_⟩
          intro j q hlt hq
          cases j with
          | zero => simp only [List.getElem?_cons_zero, Option.some.injEq] at hq; rw [← hq]; exact ha
          | succ j => exact hj j q (by omega) (by simpa using hq)
        · rintro ⟨i, hi, hp, hj⟩
          cases i with
          | zero => simp only [List.getElem?_cons_zero, Option.some.injEq] at hi; rw [hi] at ha; exact absurd hp ha
          | succ i => exact ⟨i, by simpa using hi, hp, fun j q hlt hq => hj (j + 1) q (by omega) (by simpa using hq)⟩
  unfold requestOf readBw
  cases h : ports.find? (fun p => p.type = .read) with
  | some a =>
    obtain ⟨i, hi, hp, hj⟩ := (first .read a).1 h
    simp only [Option.map_some, Option.some.injEq]
    constructor
    · rintro rfl
      exact ⟨i, a, hi, rfl, .inl ⟨hp, hj⟩⟩
    · rintro ⟨i', p', hi', rfl, (⟨hp', hj'⟩ | ⟨-, hno, -⟩)⟩
      · have := (first .read p').2 ⟨i', hi', hp', hj'⟩
        rw [h] at this
        cases this
        rfl
      · exact absurd hp (hno a (List.mem_of_getElem? hi))
  | none =>
    have hno : ∀ q ∈ ports, q.type ≠ .read := by
      intro q hq he
      have := List.find?_eq_none.1 h q hq
      simp [he] at this
    constructor
    · intro hr
      obtain ⟨bw, hbw, rfl⟩ := Option.map_eq_some_iff.1 hr
      obtain ⟨p, hp, rfl⟩ := Option.map_eq_some_iff.1 hbw
      obtain ⟨i, hi, ht, hj⟩ := (first .readWrite p).1 hp
      exact ⟨i, p, hi, rfl, .inr ⟨ht, hno, hj⟩⟩
    · rintro ⟨i, p, hi, rfl, (⟨hp, -⟩ | ⟨hp, -, hj⟩)⟩
      · exact absurd hp (hno p (List.mem_of_getElem? hi))
      · simp only [(first .readWrite p).2 ⟨i, hi, hp, hj⟩, Option.map_some]

/-- C112. No read port and no read-write port: the description is refused. -/
theorem request_refused (t : String) (size : ℕ) (ports : List Port) :
    requestOf t size ports = none ↔ ∀ p ∈ ports, p.type = .write := by
  unfold requestOf readBw
  constructor
  · intro h p hp
    cases hf : ports.find? (fun p => p.type = .read) with
    | some a => simp [hf] at h
    | none =>
      rw [hf] at h
      simp only [Option.map_eq_none_iff] at h
      have h1 := List.find?_eq_none.1 hf p hp
      have h2 := List.find?_eq_none.1 h p hp
      cases ht : p.type <;> simp_all
  · intro h
    have h1 : ports.find? (fun p => p.type = .read) = none := by
      rw [List.find?_eq_none]; intro p hp; simp [h p hp]
    have h2 : ports.find? (fun p => p.type = .readWrite) = none := by
      rw [List.find?_eq_none]; intro p hp; simp [h p hp]
    simp [h1, h2]

/-- C112 is false: the costs do not depend on the ports of the description. A memory with one read-write port and one with a read port
and three write ports, one of them sixteen times as wide, get the same request: one read port, one write port (accelerator_factory.py lines
169-181 does not hand on the numbers of ports). CACTI itself reports different costs for them. -/
theorem ports_ignored_false :
    requestOf "sram" 1024 [⟨.readWrite, 8⟩] = requestOf "sram" 1024 [⟨.write, 128⟩, ⟨.read, 8⟩, ⟨.write, 8⟩, ⟨.write, 8⟩] ∧
      requestOf "sram" 1024 [⟨.readWrite, 8⟩] = some sram ∧
      reported demo { sram with rPort := 0, wPort := 0, rwPort := 1 } ≠ reported demo { sram with rPort := 1, wPort := 3 } := by
  decide +kernel

/-- C112, C110. Accelerator descriptions whose memories are all of one type can be loaded by any number of processes at the same time:
no schedule and no crash makes an extracted cost wrong. -/
theorem descriptions_concurrent {sim : Sim} (hs : Faithful sim) (cfg : Option Cfg) (out : Option (List Row)) (f : File)
    (hf : ∀ p ∈ f, TrueRec sim p.2) (t : String) (mems : List (ℕ × List Port)) (h8 : ∀ m ∈ mems, m.1 % 8 = 0) (reqs : List Req)
    (hreq : mems.map (fun m => requestOf t m.1 m.2) = reqs.map some)
    {s : St} (h : Reach sim (initial cfg out f reqs) s) (i : ℕ) (r : Req) (p : Proc) (c : Cost) (hr : reqs[i]? = some r)
    (hp : s.procs[i]? = some p) (hd : p.phase = .done (.ok c)) : reported sim r = some c := by
  have form : ∀ r ∈ reqs, ∃ n b, n % 8 = 0 ∧ r = ⟨t, n, b, 1, 1, 0, 1, 22 / 1000⟩ := by
    intro r hr
    have : some r ∈ mems.map (fun m => requestOf t m.1 m.2) := by rw [hreq]; exact List.mem_map_of_mem hr
    obtain ⟨m, hm, he⟩ := List.mem_map.1 this
    obtain ⟨b, -, rfl⟩ := Option.map_eq_some_iff.1 he
    exact ⟨m.1, b, h8 m hm, rfl⟩
  refine concurrent_partial hs cfg out f hf reqs ?_ h i r p c hr ?_ hp hd
  · intro p hp q hq h1 h2
    obtain ⟨n, b, hn, rfl⟩ := form p hp
    obtain ⟨m, b', hm, rfl⟩ := form q hq
    simp only at h2
    subst h2
    unfold meant at h1 ⊢
    by_cases ht : t = "rf"
    · simp only [ht, if_true] at h1 ⊢
      have : n = m := by omega
      rw [this]
    · simp only [ht, if_false] at h1 ⊢
      have : n = m := by omega
      rw [this]
  · obtain ⟨n, b, -, rfl⟩ := form r (List.mem_of_getElem? hr)
    norm_num

/-- Non-trivial case for `descriptions_concurrent`. -/
example : [(1024, [⟨.write, 16⟩, ⟨.read, 8⟩]), (2048, [⟨.readWrite, 8⟩])].map (fun m => requestOf "sram" m.1 m.2) =
    [sram, { sram with size := 2048 }].map some := by
  decide +kernel

end Verif.Cacti
