import Verif.Window.Lemmas
import Mathlib.Algebra.BigOperators.Ring.List

/-! C32 and C33: periodic use of a shared memory port.  Specification: cycle `t` is used by a duty when `t mod period < allowed`; the union over
all cycles of the computation is counted, and the stall is compared with the traffic. -/

namespace Verif.Window

variable {K : Type} [DecidableEq K]

/-- The duties of one port during a computation of `T` cycles: different keys, periods that fit together (each divides or is divided by each other)
and that fill the computation exactly. -/
structure Consistent (T : Nat) (ds : List (Duty K)) : Prop where
  keys : (ds.map Duty.key).Nodup
  pos : ∀ d ∈ ds, 0 < d.period
  total : ∀ d ∈ ds, d.period * d.count = T
  chain : ∀ d ∈ ds, ∀ e ∈ ds, d.period ∣ e.period ∨ e.period ∣ d.period

/-- The number of cycles below `T` in which some duty may use the port. -/
def busyCycles (T : Nat) (ds : List (Duty K)) : Nat := Nat.count (fun t => ∃ d ∈ ds, t % d.period < d.allowed) T

/-- C32: the result is the number of cycles of the whole computation in which at least one duty may use the port. -/
theorem window_union {T : Nat} {ds : List (Duty K)} (hne : ds ≠ []) (h : Consistent T ds) : windowUnion ds = .ok (busyCycles T ds) := by
  unfold windowUnion busyCycles
  cases hc : collect ds [] with
  | inl n =>
    obtain ⟨d, hd, he, rfl⟩ := collect_inl ds [] n hc
    simp only [Except.ok.injEq]
    rw [h.total d hd]
    have : ∀ t, ∃ d ∈ ds, t % d.period < d.allowed := fun t =>
      ⟨d, hd, he ▸ Nat.mod_lt _ (h.pos d hd)⟩
    exact ((Nat.count_iff_forall).2 fun t _ => this t).symm
  | inr table =>
    obtain ⟨hno, htab⟩ := collect_inr ds [] table hc
    have htab := htab h.keys (fun d _ => (by simp [Dict.keys]))
    have hent : table.map Prod.snd = ds := by
      rw [htab, List.nil_append, List.map_map]
      exact List.map_id _
    simp only [hent]
    obtain ⟨hle, b, hb, hbs, hbp⟩ := maxPeriod_spec ds hne h.pos
    have hdvd : ∀ d ∈ ds, d.period ∣ (maxPeriod ds).1 := by
      intro d hd
      rw [← hbp]
      rcases h.chain d hd b hb with h1 | h1
      · exact h1
      · have : d.period ≤ b.period := by rw [hbp]; exact hle d hd
        have := Nat.le_of_dvd (h.pos d hd) h1
        exact (by omega : d.period = b.period) ▸ dvd_rfl
    rw [if_pos, hbs]
    · simp only [Except.ok.injEq]
      have hp : (fun t => (ds.any fun d => d.uses t) = true) = fun t => ∃ d ∈ ds, t % d.period < d.allowed := by
        funext t
        simp [Duty.uses]
      have hcount := count_periodic (fun t => ∃ d ∈ ds, t % d.period < d.allowed) (maxPeriod ds).1 (fun t => by
        constructor
        · rintro ⟨d, hd, hl⟩
          obtain ⟨q, hq⟩ := hdvd d hd
          rw [hq, Nat.add_mul_mod_self_left] at hl
          exact ⟨d, hd, hl⟩
        · rintro ⟨d, hd, hl⟩
          obtain ⟨q, hq⟩ := hdvd d hd
          refine ⟨d, hd, ?_⟩
          rw [hq, Nat.add_mul_mod_self_left]
          exact hl) b.count
      rw [← h.total b hb, hbp, hcount]
      simp only [hp]
    · rw [List.all_eq_true]
      intro d hd
      have := h.pos d hd
      have h2 := Nat.mod_eq_zero_of_dvd (hdvd d hd)
      simp [h2]
      omega

/-- C32: the union is at most the length of the computation. -/
theorem window_union_le {T : Nat} {ds : List (Duty K)} (hne : ds ≠ []) (h : Consistent T ds) :
    ∃ u, windowUnion ds = .ok u ∧ u ≤ T :=
  ⟨_, window_union hne h, Nat.count_le _⟩

/-- C32: the union is at least the total window of every single duty. -/
theorem window_union_ge {T : Nat} {ds : List (Duty K)} (h : Consistent T ds) :
    ∃ u, (ds ≠ [] → windowUnion ds = .ok u) ∧ ∀ d ∈ ds, min d.allowed d.period * d.count ≤ u := by
  refine ⟨busyCycles T ds, fun hne => window_union hne h, fun d hd => ?_⟩
  have hc := count_periodic (fun t => t % d.period < d.allowed) d.period (fun t => by rw [Nat.add_mod_right]) d.count
  rw [count_mod, h.total d hd] at hc
  rw [← hc]
  exact count_mono_pred (fun t ht => ⟨d, hd, ht⟩) T

/-- C32: the union is at most the sum of the windows. -/
theorem window_union_le_sum {T : Nat} {ds : List (Duty K)} (h : Consistent T ds) :
    busyCycles T ds ≤ (ds.map fun d => min d.allowed d.period * d.count).sum := by
  have key : ∀ l : List (Duty K), (∀ d ∈ l, d ∈ ds) → busyCycles T l ≤ (l.map fun d => min d.allowed d.period * d.count).sum := by
    intro l
    induction l with
    | nil => intro _; simp [busyCycles]
    | cons d l ih =>
      intro hl
      have hd := hl d List.mem_cons_self
      have hrest := ih fun e he => hl e (List.mem_cons_of_mem _ he)
      have hc := count_periodic (fun t => t % d.period < d.allowed) d.period (fun t => by rw [Nat.add_mod_right]) d.count
      rw [count_mod, h.total d hd] at hc
      rw [List.map_cons, List.sum_cons, ← hc]
      refine le_trans ?_ (Nat.add_le_add_left hrest _)
      unfold busyCycles
      rw [Nat.count_eq_card_filter_range, Nat.count_eq_card_filter_range, Nat.count_eq_card_filter_range]
      refine (Finset.card_le_card ?_).trans (Finset.card_union_le _ _)
      intro t ht
      rw [Finset.mem_filter] at ht
      rw [Finset.mem_union, Finset.mem_filter, Finset.mem_filter]
      obtain ⟨ht, e, he, hlt⟩ := ht
      rcases List.mem_cons.1 he with rfl | he
      · exact Or.inl ⟨ht, hlt⟩
      · exact Or.inr ⟨ht, e, he, hlt⟩
  exact key ds fun _ h => h

/-- C32: the order of the duties does not matter. -/
theorem window_union_perm {T : Nat} {ds es : List (Duty K)} (h : Consistent T ds) (hp : ds.Perm es) : windowUnion ds = windowUnion es := by
  by_cases hne : ds = []
  · subst hne
    rw [List.nil_perm.1 hp]
  have h' : Consistent T es :=
    { keys := (hp.map _).nodup_iff.1 h.keys
      pos := fun d hd => h.pos d (hp.mem_iff.2 hd)
      total := fun d hd => h.total d (hp.mem_iff.2 hd)
      chain := fun d hd e he => h.chain d (hp.mem_iff.2 hd) e (hp.mem_iff.2 he) }
  rw [window_union hne h, window_union (fun he => hne (by rw [he] at hp; exact List.perm_nil.1 hp)) h']
  unfold busyCycles
  simp only [hp.mem_iff]

/-- C32: periods that are products of the innermost loops of one loop nest, scaled by a whole number of cycles for one operation, always fit
together, so the computation never fails for them. -/
theorem loop_nest_consistent (loops : List Nat) (hl : ∀ x ∈ loops, 0 < x) (c : Nat) (hc : 0 < c) (raw : List (Duty K))
    (hk : (raw.map Duty.key).Nodup)
    (hp : ∀ d ∈ raw, d.count ≠ 0 → ∃ k, d.period = (loops.take k).prod ∧ d.count = (loops.drop k).prod) :
    Consistent (c * loops.prod) (activities (· * c) raw) := by
  have hmem : ∀ d ∈ activities (· * c) raw, ∃ e ∈ raw, e.count ≠ 0 ∧ d.period = e.period * c ∧ d.count = e.count := by
    intro d hd
    obtain ⟨e, he, rfl⟩ := List.mem_map.1 hd
    rw [List.mem_filter] at he
    exact ⟨e, he.1, by simpa using he.2, rfl, rfl⟩
  have hpos : ∀ k, 0 < (loops.take k).prod := by
    intro k
    refine Nat.pos_of_ne_zero fun h0 => ?_
    have := List.prod_eq_zero_iff.1 h0
    exact absurd (hl 0 (List.mem_of_mem_take this)) (by omega)
  refine ⟨?_, ?_, ?_, ?_⟩
  · unfold activities
    rw [List.map_map]
    exact hk.sublist (List.Sublist.map _ List.filter_sublist)
  · intro d hd
    obtain ⟨e, he, h0, hpd, -⟩ := hmem d hd
    obtain ⟨k, hk, -⟩ := hp e he h0
    rw [hpd, hk]
    exact Nat.mul_pos (hpos k) hc
  · intro d hd
    obtain ⟨e, he, h0, hpd, hcd⟩ := hmem d hd
    obtain ⟨k, hk, hk2⟩ := hp e he h0
    rw [hpd, hcd, hk, hk2]
    have := List.prod_take_mul_prod_drop loops k
    rw [← this]; ring
  · intro d hd e he
    obtain ⟨d', hd', h0, hpd, -⟩ := hmem d hd
    obtain ⟨e', he', h1, hpe, -⟩ := hmem e he
    obtain ⟨k, hk, -⟩ := hp d' hd' h0
    obtain ⟨j, hj, -⟩ := hp e' he' h1
    rw [hpd, hpe, hk, hj]
    have key : ∀ a b, a ≤ b → (loops.take a).prod * c ∣ (loops.take b).prod * c := by
      intro a b hab
      refine Nat.mul_dvd_mul_right ?_ c
      have : loops.take a = (loops.take b).take a := by rw [List.take_take, min_eq_left hab]
      rw [this]
      exact ⟨((loops.take b).drop a).prod, (List.prod_take_mul_prod_drop _ _).symm⟩
    rcases Nat.le_total k j with h | h
    · exact Or.inl (key k j h)
    · exact Or.inr (key j k h)

/-- C32 needs periods that fit together: otherwise the evaluation stops with a `ValueError`. -/
theorem window_union_error_false : ∃ ds : List (Duty Nat), (∀ d ∈ ds, 0 < d.period ∧ d.allowed < d.period) ∧ windowUnion ds = .error .valueError :=
  ⟨[⟨0, 1, 1, 2, 3⟩, ⟨1, 1, 1, 3, 2⟩], by decide, by decide⟩

/-- The smallest stall that the traffic of a port makes necessary: the cycles needed for all transfers after the first ones minus the cycles in which
the port may be used. -/
def needed (ds : List (Duty K)) (u : Nat) : Int := (ds.map fun d => (d.real : Int) * ((d.count : Int) - 1)).sum - u

/-- C33: for a port with several duties the stall is not negative, at least the stall of every single duty, and at least what the total traffic
needs. -/
theorem port_stall_bounds {ds : List (Duty K)} (h2 : 2 ≤ ds.length) {u : Nat} (hu : windowUnion ds = .ok u) :
    ∃ s, portStall ds = .ok (some s) ∧ 0 ≤ s ∧ (∀ d ∈ ds, d.stall ≤ s) ∧ needed ds u ≤ s := by
  obtain ⟨a, b, t, rfl⟩ : ∃ a b t, ds = a :: b :: t := by
    match ds, h2 with
    | a :: b :: t, _ => exact ⟨a, b, t, rfl⟩
  generalize hds : a :: b :: t = ds at *
  refine ⟨(sums ds).1 + max 0 ((sums ds).2.1 + (sums ds).2.2 - u), ?_, ?_, ?_, ?_⟩
  · subst hds
    unfold portStall
    rw [hu]
  · rw [sums_spec]
    have := pos_nonneg ds
    simp only
    omega
  · intro d hd
    rw [sums_spec]
    have : max 0 d.stall ≤ (ds.map fun d => max 0 d.stall).sum := by
      refine List.single_le_sum (fun x hx => ?_) _ (List.mem_map.2 ⟨d, hd, rfl⟩)
      obtain ⟨e, -, rfl⟩ := List.mem_map.1 hx
      exact le_max_left _ _
    simp only
    omega
  · rw [sums_spec]
    have h1 := pos_add_neg ds
    have hsum : (ds.map fun d => (d.real : Int) * ((d.count : Int) - 1)).sum = (ds.map fun d => d.stall).sum + (ds.map fun d => d.window).sum := by
      clear hds h1 hu h2
      induction ds with
      | nil => simp
      | cons d ds ih =>
        simp only [List.map_cons, List.sum_cons, ih, Duty.stall, Duty.window]
        ring
    unfold needed
    simp only
    omega

/-- C33: a port with several duties stalls exactly when one of its duties stalls on its own or the total traffic does not fit into the window. -/
theorem port_stall_zero_iff {ds : List (Duty K)} (h2 : 2 ≤ ds.length) {u : Nat} (hu : windowUnion ds = .ok u) :
    portStall ds = .ok (some 0) ↔ (∀ d ∈ ds, d.stall ≤ 0) ∧ needed ds u ≤ 0 := by
  constructor
  · intro h
    obtain ⟨s, hs, -, h3, h4⟩ := port_stall_bounds h2 hu
    rw [hs] at h
    cases h
    exact ⟨h3, h4⟩
  · rintro ⟨hd, hn⟩
    obtain ⟨a, b, t, rfl⟩ : ∃ a b t, ds = a :: b :: t := by
      match ds, h2 with
      | a :: b :: t, _ => exact ⟨a, b, t, rfl⟩
    generalize hds : a :: b :: t = ds at *
    have hp : portStall ds = .ok (some ((sums ds).1 + max 0 ((sums ds).2.1 + (sums ds).2.2 - u))) := by
      subst hds
      unfold portStall
      rw [hu]
    rw [hp, sums_spec]
    have hz : (ds.map fun d => max 0 d.stall).sum = 0 := by
      refine List.sum_eq_zero fun x hx => ?_
      obtain ⟨d, hm, rfl⟩ := List.mem_map.1 hx
      exact max_eq_left (hd d hm)
    have h1 := pos_add_neg ds
    have hsum : (ds.map fun d => (d.real : Int) * ((d.count : Int) - 1)).sum = (ds.map fun d => d.stall).sum + (ds.map fun d => d.window).sum := by
      clear hds h1 hu h2 hp hz hn hd
      induction ds with
      | nil => simp
      | cons d ds ih =>
        simp only [List.map_cons, List.sum_cons, ih, Duty.stall, Duty.window]
        ring
    unfold needed at hn
    simp only [Except.ok.injEq, Option.some.injEq]
    omega

/-- C33: the overall stall is not negative and at least the stall of every port. -/
theorem stall_comb_bounds {ports : List (List (Duty K))} {r : Int} (h : stallComb ports = .ok r) :
    0 ≤ r ∧ ∀ p ∈ ports, ∃ s, portStall p = .ok s ∧ s.getD 0 ≤ r := by
  induction ports generalizing r with
  | nil => cases h; exact ⟨le_rfl, (by simp)⟩
  | cons p ps ih =>
    unfold stallComb at h
    cases h1 : portStall p with
    | error e => rw [h1] at h; cases h
    | ok s =>
      rw [h1] at h
      simp only at h
      cases h2 : stallComb ps with
      | error e => rw [h2] at h; cases h
      | ok q =>
        rw [h2] at h
        simp only [Except.ok.injEq] at h
        subst h
        obtain ⟨h0, hall⟩ := ih h2
        refine ⟨h0.trans (le_max_right _ _), fun x hx => ?_⟩
        rcases List.mem_cons.1 hx with rfl | hx
        · exact ⟨s, h1, le_max_left _ _⟩
        · obtain ⟨s', hs', hle⟩ := hall x hx
          exact ⟨s', hs', hle.trans (le_max_right _ _)⟩

/-- C33: the overall stall is zero or the stall of some port, nothing more. -/
theorem stall_comb_attained {ports : List (List (Duty K))} {r : Int} (h : stallComb ports = .ok r) :
    r = 0 ∨ ∃ p ∈ ports, portStall p = .ok (some r) := by
  induction ports generalizing r with
  | nil => cases h; exact Or.inl rfl
  | cons p ps ih =>
    unfold stallComb at h
    cases h1 : portStall p with
    | error e => rw [h1] at h; cases h
    | ok s =>
      rw [h1] at h
      simp only at h
      cases h2 : stallComb ps with
      | error e => rw [h2] at h; cases h
      | ok q =>
        rw [h2] at h
        simp only [Except.ok.injEq] at h
        rcases le_total (s.getD 0) q with hle | hle
        · rw [max_eq_right hle] at h
          subst h
          rcases ih h2 with h | ⟨p', hp', h⟩
          · exact Or.inl h
          · exact Or.inr ⟨p', List.mem_cons_of_mem _ hp', h⟩
        · rw [max_eq_left hle] at h
          cases s with
          | none => exact Or.inl (by simpa using h.symm)
          | some v =>
            simp only [Option.getD_some] at h
            subst h
            exact Or.inr ⟨p, List.mem_cons_self, h1⟩

/-- Same duties except that some transfers take longer. -/
def Slower (d e : Duty K) : Prop := d.key = e.key ∧ d.allowed = e.allowed ∧ d.period = e.period ∧ d.count = e.count ∧ d.real ≤ e.real

private theorem collect_slower {ds es : List (Duty K)} (h : List.Forall₂ Slower ds es) (t t' : Dict K (Duty K))
    (ht : List.Forall₂ (fun a b => a.1 = b.1 ∧ Slower a.2 b.2) t t') :
    (∃ n, collect ds t = .inl n ∧ collect es t' = .inl n) ∨
      ∃ r r', collect ds t = .inr r ∧ collect es t' = .inr r' ∧ List.Forall₂ (fun a b => a.1 = b.1 ∧ Slower a.2 b.2) r r' := by
  induction h generalizing t t' with
  | nil => exact Or.inr ⟨t, t', rfl, rfl, ht⟩
  | @cons d e ds es hde _ ih =>
    unfold collect
    obtain ⟨hk, ha, hp, hc, hr⟩ := hde
    rw [← ha, ← hp, ← hc, ← hk]
    by_cases hq : d.period = d.allowed
    · simp only [if_pos hq]
      exact Or.inl ⟨_, rfl, rfl⟩
    · simp only [if_neg hq]
      refine ih _ _ ?_
      clear ih
      induction ht with
      | nil => exact .cons ⟨rfl, hk, ha, hp, hc, hr⟩ .nil
      | @cons x y t t' hxy hrest ih =>
        obtain ⟨x1, x2⟩ := x
        obtain ⟨y1, y2⟩ := y
        obtain ⟨h1, h2⟩ := hxy
        simp only at h1 h2
        subst h1
        by_cases hx : x1 = d.key
        · simp only [Dict.set, hx, if_true]
          exact .cons ⟨rfl, hk, ha, hp, hc, hr⟩ hrest
        · simp only [Dict.set, hx, if_false]
          exact .cons ⟨rfl, h2⟩ ih

private theorem union_slower {ds es : List (Duty K)} (h : List.Forall₂ Slower ds es) : windowUnion ds = windowUnion es := by
  unfold windowUnion
  rcases collect_slower h [] [] .nil with ⟨n, h1, h2⟩ | ⟨r, r', h1, h2, hr⟩
  · rw [h1, h2]
  · rw [h1, h2]
    simp only
    have hent : List.Forall₂ Slower (r.map Prod.snd) (r'.map Prod.snd) := by
      rw [List.forall₂_map_left_iff, List.forall₂_map_right_iff]
      exact hr.imp fun _ _ h => h.2
    generalize r.map Prod.snd = l at *
    generalize r'.map Prod.snd = l' at *
    have hany : ∀ t, (l.any fun d => d.uses t) = l'.any fun d => d.uses t := by
      intro t
      induction hent with
      | nil => rfl
      | cons hde _ ih =>
        obtain ⟨_, ha, hp, _, _⟩ := hde
        rw [List.any_cons, List.any_cons, ih]
        simp only [Duty.uses, ha, hp]
    have hall : ∀ m, (l.all fun d => d.period != 0 && m % d.period == 0) = l'.all fun d => d.period != 0 && m % d.period == 0 := by
      intro m
      clear hany
      induction hent with
      | nil => rfl
      | cons hde _ ih =>
        obtain ⟨_, ha, hp, _, _⟩ := hde
        simp only [List.all_cons, ih, hp]
    have hmax : ∀ b b' : Nat × Option (Duty K), b.1 = b'.1 → Option.Rel Slower b.2 b'.2 →
        (l.foldl maxStep b).1 = (l'.foldl maxStep b').1 ∧ Option.Rel Slower (l.foldl maxStep b).2 (l'.foldl maxStep b').2 := by
      clear hany hall
      induction hent with
      | nil => intro b b' h1 h2; exact ⟨h1, h2⟩
      | @cons d e l l' hde _ ih =>
        intro b b' h1 h2
        rw [List.foldl_cons, List.foldl_cons]
        refine ih _ _ ?_ ?_
        · unfold maxStep
          rw [h1, hde.2.2.1]
          split
          · rfl
          · exact h1
        · unfold maxStep
          rw [h1, hde.2.2.1]
          split
          · exact .some hde
          · exact h2
    obtain ⟨hm1, hm2⟩ := hmax (0, none) (0, none) rfl .none
    unfold maxPeriod
    simp only [hm1, hall, hany]
    split
    · generalize (l.foldl maxStep (0, none)).2 = o at *
      generalize (l'.foldl maxStep (0, none)).2 = o' at *
      cases hm2 with
      | none => rfl
      | some hs => simp only [hs.2.2.2.1]
    · rfl

/-- C33: slower transfers never make the stall of a port shorter. -/
theorem port_stall_mono {ds es : List (Duty K)} (h : List.Forall₂ Slower ds es) (hc : ∀ d ∈ ds, 1 ≤ d.count) {s s' : Int}
    (h1 : portStall ds = .ok (some s)) (h2 : portStall es = .ok (some s')) : s ≤ s' := by
  have hone : ∀ d e : Duty K, Slower d e → 1 ≤ d.count → d.stall ≤ e.stall := by
    rintro d e ⟨-, ha, -, hcn, hr⟩ h1
    unfold Duty.stall
    rw [← ha, ← hcn]
    have : (0 : Int) ≤ (d.count : Int) - 1 := by omega
    exact mul_le_mul_of_nonneg_right (by omega) this
  cases h with
  | nil => cases h1
  | @cons d e ds es hde hrest =>
    cases hrest with
    | nil =>
      unfold portStall at h1 h2
      simp only [Except.ok.injEq, Option.some.injEq] at h1 h2
      subst h1 h2
      exact hone d e hde (hc d List.mem_cons_self)
    | @cons d2 e2 ds es hde2 hrest =>
      have hall : List.Forall₂ Slower (d :: d2 :: ds) (e :: e2 :: es) := .cons hde (.cons hde2 hrest)
      have hu := union_slower hall
      unfold portStall at h1 h2
      rw [hu] at h1
      simp only at h1 h2
      cases hw : windowUnion (e :: e2 :: es) with
      | error x => rw [hw] at h1; cases h1
      | ok u =>
        rw [hw] at h1 h2
        simp only [Except.ok.injEq, Option.some.injEq] at h1 h2
        subst h1 h2
        generalize d :: d2 :: ds = l at *
        generalize e :: e2 :: es = l' at *
        rw [sums_spec, sums_spec]
        simp only
        have hcmp : (l.map fun d => max 0 d.stall).sum ≤ (l'.map fun d => max 0 d.stall).sum
            ∧ (l.map fun d => min 0 d.stall).sum ≤ (l'.map fun d => min 0 d.stall).sum
            ∧ (l.map fun d => d.window).sum = (l'.map fun d => d.window).sum := by
          clear hw hu hde hde2 hrest
          induction hall with
          | nil => simp
          | @cons a b l l' hab _ ih =>
            have := ih fun d hd => hc d (List.mem_cons_of_mem _ hd)
            have hs := hone a b hab (hc a List.mem_cons_self)
            have hw : a.window = b.window := by
              unfold Duty.window
              rw [hab.2.1, hab.2.2.2.1]
            simp only [List.map_cons, List.sum_cons]
            refine ⟨?_, ?_, ?_⟩ <;> omega
        omega

def sampleDuties : List (Duty Nat) := [⟨0, 2, 1, 3, 8⟩, ⟨1, 1, 2, 6, 4⟩, ⟨2, 9, 4, 12, 2⟩]

example : Consistent 24 sampleDuties where
  keys := by decide
  pos := by decide
  total := by decide
  chain := by decide

example : windowUnion sampleDuties = .ok 14 := by decide +kernel
example : portStall sampleDuties = .ok (some 12) := by decide +kernel
example : portStall ([⟨0, 3, 1, 3, 8⟩, ⟨1, 1, 2, 6, 4⟩, ⟨2, 9, 4, 12, 2⟩] : List (Duty Nat)) = .ok (some 19) := by decide +kernel
example : stallComb [sampleDuties, [], [⟨5, 1, 2, 3, 4⟩]] = .ok 12 := by decide +kernel

end Verif.Window
