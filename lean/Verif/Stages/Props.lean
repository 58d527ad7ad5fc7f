import Verif.Stages.Model
import Mathlib.Data.Prod.Lex
import Mathlib.Tactic.Linarith

/-! Properties C34 and C36. -/

namespace Verif.Stages

variable {Info : Type}

/-! ### C34 -/

/-- Specification: `c` is the earliest among the results with the smallest key. -/
def IsFirstMin {K : Type} [LT K] (key : Res → K) (l : List Res) (c : Res) : Prop :=
  ∃ pre post, l = pre ++ c :: post ∧ (∀ x ∈ pre, key c < key x) ∧ ∀ x ∈ post, ¬ key x < key c

theorem minLoop_spec {K : Type} [LinearOrder K] (key : Res → K) (better : Res → Res → Bool) (hb : ∀ c b, better c b = true ↔ key c < key b) (keep : Bool) :
    ∀ (subs : List (Res × Info)) (seen : List Res) (b : Res) (others : List (Res × Info)), (∀ s ∈ subs, s.1.single = true) → IsFirstMin key seen b →
      ∃ c, minLoop better keep subs (some b) others = .ok (some c, if keep then others ++ subs else others) ∧ IsFirstMin key (seen ++ subs.map Prod.fst) c := by
  intro subs
  induction subs with
  | nil => intro seen b others _ h; exact ⟨b, by simp [minLoop], by simpa using h⟩
  | cons s t ih =>
    intro seen b others hs hm
    have hm' : IsFirstMin key (seen ++ [s.1]) (if better s.1 b then s.1 else b) := by
      obtain ⟨pre, post, h1, h2, h3⟩ := hm
      by_cases hc : better s.1 b = true
      · rw [if_pos hc]
        have hlt := (hb _ _).1 hc
        refine ⟨seen, [], rfl, fun x hx => ?_, by simp⟩
        rw [h1] at hx
        rcases List.mem_append.1 hx with hx | hx
        · exact lt_trans hlt (h2 x hx)
        · rcases List.mem_cons.1 hx with rfl | hx
          · exact hlt
          · exact lt_of_lt_of_le hlt (not_lt.1 (h3 x hx))
      · rw [if_neg hc]
        refine ⟨pre, post ++ [s.1], by rw [h1]; simp, h2, fun x hx => ?_⟩
        rcases List.mem_append.1 hx with hx | hx
        · exact h3 x hx
        · rw [List.mem_singleton.1 hx]
          exact fun h => hc ((hb _ _).2 h)
    obtain ⟨c, h1, h2⟩ := ih (seen ++ [s.1]) _ (if keep then others ++ [s] else others) (fun x hx => hs x (by simp [hx])) hm'
    refine ⟨c, ?_, by simpa using h2⟩
    unfold minLoop
    rw [if_pos (hs s (by simp))]
    simp only
    rw [h1]
    cases keep <;> simp

theorem minRun_spec {K : Type} [LinearOrder K] (key : Res → K) (better : Res → Res → Bool) (hb : ∀ c b, better c b = true ↔ key c < key b) (keep : Bool)
    (subs : List (Res × Info)) (hs : ∀ s ∈ subs, s.1.single = true) :
    (subs = [] → minRun better keep subs = .error .assertion) ∧
    (subs ≠ [] → ∃ c, minRun better keep subs = .ok [(c, if keep then subs else [])] ∧ IsFirstMin key (subs.map Prod.fst) c) := by
  constructor
  · rintro rfl; rfl
  · intro hne
    cases subs with
    | nil => exact absurd rfl hne
    | cons s t =>
      obtain ⟨c, h1, h2⟩ := minLoop_spec key better hb keep t [s.1] s.1 (if keep then [] ++ [s] else []) (fun x hx => hs x (by simp [hx]))
        ⟨[], [], rfl, by simp, by simp⟩
      refine ⟨c, ?_, by simpa using h2⟩
      unfold minRun minLoop
      rw [if_pos (hs s (by simp))]
      simp only
      rw [h1]
      cases keep <;> simp

/-- The minimal energy stage yields exactly one result: the first with the smallest energy, ties decided by latency; all results are passed
on if asked for; without a result it raises. -/
theorem min_energy (keep : Bool) (subs : List (Res × Info)) (hs : ∀ s ∈ subs, s.1.single = true) :
    (subs = [] → minRun energyBetter keep subs = .error .assertion) ∧
    (subs ≠ [] → ∃ c, minRun energyBetter keep subs = .ok [(c, if keep then subs else [])] ∧ IsFirstMin (fun r => toLex (r.energy, r.latency)) (subs.map Prod.fst) c) := by
  apply minRun_spec _ _ _ keep subs hs
  intro c b
  rw [Prod.Lex.toLex_lt_toLex]
  simp [energyBetter]

/-- The minimal latency stage: smallest latency, ties decided by energy, then the earliest. -/
theorem min_latency (keep : Bool) (subs : List (Res × Info)) (hs : ∀ s ∈ subs, s.1.single = true) :
    (subs = [] → minRun latencyBetter keep subs = .error .assertion) ∧
    (subs ≠ [] → ∃ c, minRun latencyBetter keep subs = .ok [(c, if keep then subs else [])] ∧ IsFirstMin (fun r => toLex (r.latency, r.energy)) (subs.map Prod.fst) c) := by
  apply minRun_spec _ _ _ keep subs hs
  intro c b
  rw [Prod.Lex.toLex_lt_toLex]
  simp [latencyBetter]

/-- The minimal energy-delay-product stage: smallest product, then the earliest. -/
theorem min_edp (keep : Bool) (subs : List (Res × Info)) (hs : ∀ s ∈ subs, s.1.single = true) :
    (subs = [] → minRun edpBetter keep subs = .error .assertion) ∧
    (subs ≠ [] → ∃ c, minRun edpBetter keep subs = .ok [(c, if keep then subs else [])] ∧ IsFirstMin (fun r => r.latency * r.energy) (subs.map Prod.fst) c) := by
  apply minRun_spec _ _ _ keep subs hs
  intro c b
  simp [edpBetter]

/-- Consequence in plain terms: no sub-result has less energy, none has the same energy and less latency. -/
theorem min_energy_best (keep : Bool) (subs : List (Res × Info)) (hs : ∀ s ∈ subs, s.1.single = true) {c : Res} {o : List (Res × Info)}
    (h : minRun energyBetter keep subs = .ok [(c, o)]) : (∃ i, (c, i) ∈ subs) ∧ ∀ s ∈ subs, c.energy ≤ s.1.energy ∧ (s.1.energy = c.energy → c.latency ≤ s.1.latency) := by
  obtain ⟨h1, h2⟩ := min_energy keep subs hs
  have hne : subs ≠ [] := by
    intro hc
    rw [h1 hc] at h; cases h
  obtain ⟨c', h3, pre, post, h4, h5, h6⟩ := h2 hne
  rw [h] at h3
  cases h3
  constructor
  · have : c ∈ subs.map Prod.fst := by rw [h4]; simp
    obtain ⟨s, hs', rfl⟩ := List.mem_map.1 this
    exact ⟨s.2, hs'⟩
  · intro s hs'
    have hk : ¬ toLex (s.1.energy, s.1.latency) < toLex (c.energy, c.latency) := by
      have : s.1 ∈ pre ++ c :: post := by rw [← h4]; exact List.mem_map.2 ⟨s, hs', rfl⟩
      rcases List.mem_append.1 this with h | h
      · exact not_lt.2 (le_of_lt (h5 _ h))
      · rcases List.mem_cons.1 h with h | h
        · rw [h]; exact lt_irrefl _
        · exact h6 _ h
    rw [Prod.Lex.toLex_lt_toLex] at hk
    push Not at hk
    exact ⟨hk.1, fun he => hk.2 he⟩

/-- A cumulative result below a reducing stage is rejected. -/
theorem min_rejects (better : Res → Res → Bool) (keep : Bool) (subs : List (Res × Info)) (h : ∃ s ∈ subs, s.1.single = false) : minRun better keep subs = .error .assertion := by
  have key : ∀ (subs : List (Res × Info)) (best : Option Res) (others : List (Res × Info)), (∃ s ∈ subs, s.1.single = false) → minLoop better keep subs best others = .error .assertion := by
    intro subs
    induction subs with
    | nil => intro _ _ h; simp at h
    | cons s t ih =>
      intro best others h
      unfold minLoop
      by_cases hs : s.1.single = true
      · rw [if_pos hs]
        obtain ⟨x, hx, hx'⟩ := h
        rcases List.mem_cons.1 hx with rfl | hx
        · rw [hs] at hx'; cases hx'
        · exact ih _ _ ⟨x, hx, hx'⟩
      · rw [if_neg hs]
  unfold minRun
  rw [key subs none [] h]

example : minRun energyBetter true [(⟨3, 5, true⟩, 0), (⟨2, 9, true⟩, 1), (⟨2, 7, true⟩, 2), (⟨2, 7, true⟩, 3)] =
    .ok [((⟨2, 7, true⟩ : Res), [(⟨3, 5, true⟩, (0 : Nat)), (⟨2, 9, true⟩, 1), (⟨2, 7, true⟩, 2), (⟨2, 7, true⟩, 3)])] := by decide +kernel

/-! ### C36 -/

variable {R : Type}

/-- Invariant when no job raises: answers yielded, queued and still being computed are all answers; the count is the number yielded. -/
structure Inv (answers : List (List R)) (s : GState R) : Prop where
  all : ∃ js, s.jobs = js.map some ∧ (s.yielded ++ s.queue ++ js).Perm answers
  count : s.count = s.yielded.length
  fin : s.status = .finished → s.count = answers.length

theorem inv_reach (answers : List (List R)) {s : GState R} (h : Reach answers.length (start (answers.map some)) s) : Inv answers s := by
  induction h with
  | init => exact ⟨⟨answers, rfl, by simp [start]⟩, rfl, by simp [start]⟩
  | step _ hst ih =>
    obtain ⟨⟨js, hj, hp⟩, hc, hf⟩ := ih
    cases hst with
    | answer a pre post h =>
      rw [hj] at h
      obtain ⟨pre', r1, e1, e2, e3⟩ := List.map_eq_append_iff.1 h
      obtain ⟨a', post', rfl, ea, e4⟩ := List.map_eq_cons_iff.1 e3
      cases ea
      refine ⟨⟨pre' ++ post', by simp [← e2, ← e4], ?_⟩, hc, hf⟩
      refine List.Perm.trans ?_ hp
      rw [e1]
      simp only [List.append_assoc, List.singleton_append]
      refine List.Perm.append_left _ (List.Perm.append_left _ ?_)
      exact (List.perm_middle).symm
    | fail pre post keep h hk =>
      exfalso
      rw [hj] at h
      have : (none : Option (List R)) ∈ js.map some := by rw [h]; simp
      simp at this
    | get a q hs hc' hq =>
      refine ⟨⟨js, hj, ?_⟩, by simp [hc], ?_⟩
      · simp only
        rw [hq] at hp
        simpa using hp
      · intro h
        simp only at h
        split_ifs at h
    | finish hs hc' =>
      refine ⟨⟨js, hj, hp⟩, hc, fun _ => ?_⟩
      simp only
      have := hp.length_eq
      simp at this
      omega

/-- When there are at least ten jobs (or none) and no job raises, then in every interleaving of worker answers and main loop the stage never
raises, and when it finishes it has yielded the results of every job exactly once, those of one job together and in order. -/
theorem gather_all_partial (answers : List (List R)) (hn : answers = [] ∨ 10 ≤ answers.length) {s : GState R} (h : Reach answers.length (start (answers.map some)) s) :
    s.status ≠ .crashed ∧ (s.status = .finished → s.yielded.Perm answers) := by
  have hi := inv_reach answers h
  constructor
  · clear hi
    induction h with
    | init => simp [start]
    | step hr hst ih =>
      cases hst with
      | answer a pre post h => exact ih
      | fail pre post keep h hk => exact ih
      | get a q hs hc' hq =>
        rcases hn with hn | hn
        · rw [hn] at hc'; simp at hc'
        · simp only
          rw [if_neg (by omega)]
          simp
      | finish hs hc' => simp
  · intro hf
    obtain ⟨⟨js, hj, hp⟩, hc, hfin⟩ := hi
    have hlen := hp.length_eq
    have := hfin hf
    simp only [List.length_append] at hlen
    have hq : s.queue = [] := List.length_eq_zero_iff.1 (by omega)
    have hjs : js = [] := List.length_eq_zero_iff.1 (by omega)
    rw [hq, hjs] at hp
    simpa using hp

/-- No deadlock: as long as the stage is running some step is possible. -/
theorem gather_progress (answers : List (List R)) {s : GState R} (h : Reach answers.length (start (answers.map some)) s) (hs : s.status = .running) :
    ∃ s', Step answers.length s s' := by
  obtain ⟨⟨js, hj, hp⟩, hc, _⟩ := inv_reach answers h
  by_cases hcn : s.count < answers.length
  · cases hq : s.queue with
    | cons a q => exact ⟨_, Step.get s a q hs hcn hq⟩
    | nil =>
      cases js with
      | nil =>
        exfalso
        have := hp.length_eq
        rw [hq] at this
        simp at this
        omega
      | cons a t => exact ⟨_, Step.answer s a [] (t.map some) (by rw [hj]; rfl)⟩
  · exact ⟨_, Step.finish s hs hcn⟩

/-- Every execution is finite: each step lowers this measure. -/
def measure (s : GState R) : Nat := 2 * s.jobs.length + s.queue.length + (if s.status = .running then 1 else 0)

theorem gather_terminates (n : Nat) {s s' : GState R} (h : Step n s s') : measure s' < measure s := by
  cases h with
  | answer a pre post h => simp only [measure, h, List.length_append, List.length_cons, List.length_nil]; omega
  | fail pre post keep h hk =>
    have := hk.length_le
    simp only [measure, h, List.length_append, List.length_cons] at this ⊢
    omega
  | get a q hs hc hq =>
    simp only [measure, hs, hq, List.length_cons]
    split_ifs <;> omega
  | finish hs hc => simp [measure, hs]

/-- With one to nine jobs the stage never finishes: it raises `ZeroDivisionError` in `count % (count_to_get // 10)` right after yielding the
results of the first answer, in every interleaving. -/
theorem gather_small_false (jobs : List (Option (List R))) (h1 : 1 ≤ jobs.length) (h9 : jobs.length ≤ 9) {s : GState R} (h : Reach jobs.length (start jobs) s) :
    s.status ≠ .finished ∧ s.yielded.length ≤ 1 ∧ (s.status = .running → s.yielded = []) := by
  have key : s.status ≠ .finished ∧ s.yielded.length ≤ 1 ∧ (s.status = .running → s.yielded = [] ∧ s.count = 0) := by
    induction h with
    | init => simp [start]
    | step hr hst ih =>
      cases hst with
      | answer a pre post h => exact ih
      | fail pre post keep h hk => exact ih
      | get a q hs hc' hq =>
        have hz : jobs.length / 10 = 0 := by omega
        simp only [hz, if_true]
        refine ⟨by simp, ?_, by simp⟩
        rw [(ih.2.2 hs).1]; simp
      | finish hs hc' =>
        exfalso
        rw [(ih.2.2 hs).2] at hc'
        omega
  exact ⟨key.1, key.2.1, fun hr => (key.2.2 hr).1⟩

/-- If a job raises, the stage never finishes: its answer is never put in the queue, and the main process waits for it. -/
theorem gather_failure_false (jobs : List (Option (List R))) (hf : none ∈ jobs) {s : GState R} (h : Reach jobs.length (start jobs) s) :
    s.status ≠ .finished := by
  have key : s.status ≠ .finished ∧ s.count + s.queue.length + (s.jobs.filter (fun j => j.isSome)).length < jobs.length := by
    induction h with
    | init =>
      refine ⟨by simp [start], ?_⟩
      simp only [start, List.length_nil, zero_add, Nat.add_zero]
      have : (jobs.filter (fun j => j.isSome)).length ≠ jobs.length := by
        intro hc
        have := List.length_filter_eq_length_iff.1 hc none hf
        simp at this
      exact lt_of_le_of_ne (List.length_filter_le _ _) this
    | step hr hst ih =>
      cases hst with
      | answer a pre post h =>
        refine ⟨ih.1, ?_⟩
        have := ih.2
        rw [h] at this
        simp only [List.filter_append, List.length_append, List.filter_cons, Option.isSome_some, if_true, List.length_cons, List.length_nil] at this ⊢
        omega
      | fail pre post keep h hk =>
        refine ⟨ih.1, ?_⟩
        have h2 := ih.2
        rw [h] at h2
        have := (hk.filter (fun j => j.isSome)).length_le
        simp only [List.filter_append, List.length_append, List.filter_cons, Option.isSome_none] at this h2 ⊢
        simp only [Bool.false_eq_true, if_false] at h2
        omega
      | get a q hs hc' hq =>
        have h2 := ih.2
        rw [hq] at h2
        simp only [List.length_cons] at h2 ⊢
        refine ⟨?_, by omega⟩
        split_ifs <;> simp
      | finish hs hc' =>
        exfalso
        have := ih.2
        omega
  exact key.1

/-- Example of an execution: ten jobs, the last one answers first and is yielded first. -/
example : ∃ s : GState Nat, Reach 10 (start ((List.replicate 9 (some [1])) ++ [some [7, 8]])) s ∧ s.yielded = [[7, 8]] ∧ s.status = .running := by
  refine ⟨_, Reach.step (Reach.step Reach.init (Step.answer _ [7, 8] (List.replicate 9 (some [1])) [] rfl)) (Step.get _ [7, 8] [] rfl (by decide) rfl), rfl, rfl⟩

end Verif.Stages
