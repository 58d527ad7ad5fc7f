import Verif.Cme.Lemmas

/-! Properties C28, C35 and C47. -/

namespace Verif.Cme

variable {Op : Type} [DecidableEq Op]

/-! ### C47: data movement records -/

/-- Addition and scaling act on each direction separately; a record built from a dictionary returns its values. -/
theorem fourway_add (a b : FourWay) (d : Dir) : (a + b).get d = a.get d + b.get d := by cases d <;> rfl

theorem fourway_scale (a : FourWay) (s : ℚ) (d : Dir) : (a.scale s).get d = a.get d * s := by cases d <;> rfl

theorem fourway_zero (d : Dir) : (0 : FourWay).get d = 0 := by cases d <;> rfl

/-- Writing one direction leaves the others. -/
theorem fourway_set (a : FourWay) (d d' : Dir) (v : ℚ) : (a.set d v).get d' = if d = d' then v else a.get d' := by
  cases d <;> cases d' <;> rfl

/-- A dictionary is accepted exactly when it has all four directions. -/
theorem fourway_ofDict (m : Dict Dir ℚ) :
    (∀ f, FourWay.ofDict m = .ok f → ∀ d, m.get? d = some (f.get d)) ∧ ((∃ f, FourWay.ofDict m = .ok f) ↔ ∀ d : Dir, d ∈ m.keys) := by
  have key : ∀ d : Dir, d ∈ m.keys ↔ ∃ v, m.get? d = some v := fun d => by
    rw [mem_keys_iff, Option.ne_none_iff_exists']
  constructor
  · intro f h d
    unfold FourWay.ofDict at h
    split at h
    · rename_i a b c e h1 h2 h3 h4
      cases h
      cases d <;> assumption
    · cases h
  · constructor
    · rintro ⟨f, h⟩ d
      unfold FourWay.ofDict at h
      split at h
      · rename_i a b c e h1 h2 h3 h4
        rw [key]
        cases d
        · exact ⟨_, h1⟩
        · exact ⟨_, h2⟩
        · exact ⟨_, h3⟩
        · exact ⟨_, h4⟩
      · cases h
    · intro h
      obtain ⟨a, ha⟩ := (key _).1 (h .rdToHigh)
      obtain ⟨b, hb⟩ := (key _).1 (h .wrByHigh)
      obtain ⟨c, hc⟩ := (key _).1 (h .rdToLow)
      obtain ⟨e, he⟩ := (key _).1 (h .wrByLow)
      exact ⟨⟨a, b, c, e⟩, by unfold FourWay.ofDict; rw [ha, hb, hc, he]⟩

/-- The total over the directions is additive and linear. -/
theorem fourway_total (a b : FourWay) (s t : ℚ) :
    ((Dir.all.map ((a.scale s + b.scale t).get)).sum) = s * (Dir.all.map a.get).sum + t * (Dir.all.map b.get).sum := by
  simp only [Dir.all, List.map_cons, List.map_nil, List.sum_cons, List.sum_nil, fourway_add, fourway_scale]
  ring

example : FourWay.ofDict [(.rdToLow, 3), (.wrByLow, 1), (.rdToHigh, 0), (.wrByHigh, 2)] = .ok ⟨0, 2, 3, 1⟩ := by decide +kernel

/-! ### C28: sums and multiples of cost results -/

/-- Every accumulated number of a sum is the sum of the numbers, every table entry is the sum of the entries (entries present in one
result only are kept), the utilizations are those of the summed cycles, and all layers are listed. -/
theorem add_spec {ord : List Op → List Op} (ho : ∀ l, (ord l).Perm l) {a b r : Cme Op} (ha : WFC a) (hb : WFC b) (h : add ord a b = .ok r) :
    WFC r ∧ r.totals = a.totals + b.totals ∧
    (∀ op i, cell r.energy op i = cell a.energy op i + cell b.energy op i) ∧ (∀ op i, cell r.energyDir op i = cell a.energyDir op i + cell b.energyDir op i) ∧
    (∀ op i, cell r.access op i = cell a.access op i + cell b.access op i) ∧ (∀ op, height r.energy op = max (height a.energy op) (height b.energy op)) ∧
    (∀ op, op ∈ r.energy.keys ↔ op ∈ a.energy.keys ∨ op ∈ b.energy.keys) ∧
    r.util = some ⟨r.totals.ideal / r.totals.idealTemporal, r.totals.ideal / r.totals.latency0, r.totals.ideal / r.totals.latency1, r.totals.ideal / r.totals.latency2⟩ ∧
    r.layerIds = a.layerIds ++ b.layerIds ∧ r.cumulative = true := by
  obtain ⟨en, ed, ac, w1, w2, w3, g1, g2, g3, heq⟩ := add_rows ho ha hb
  rw [h] at heq
  cases hu : mkUtil (a.totals + b.totals) with
  | error e => rw [hu] at heq; cases heq
  | ok u =>
    rw [hu] at heq
    simp only at heq
    cases hp : pickAccelerator a b with
    | error e => rw [hp] at heq; cases heq
    | ok acc =>
      rw [hp] at heq
      simp only at heq
      cases heq
      have hcell : ∀ {V : Type} [AddCommMonoid V] {x y z : Dict Op (List V)}, (∀ k, z.get? k = mergeRows (x.get? k) (y.get? k)) → ∀ op i, cell z op i = cell x op i + cell y op i := by
        intro V _ x y z hz op i
        unfold cell
        rw [hz, mergeRows_getD, addLists_get]
      have hkeys : ∀ {V : Type} [Add V] {x y z : Dict Op (List V)}, (∀ k, z.get? k = mergeRows (x.get? k) (y.get? k)) → ∀ op, op ∈ z.keys ↔ op ∈ x.keys ∨ op ∈ y.keys := by
        intro V _ x y z hz op
        rw [mem_keys_iff, hz, mergeRows_ne_none, mem_keys_iff, mem_keys_iff]
      refine ⟨⟨w1, w2, w3, fun op => ?_, fun op => ?_⟩, rfl, hcell g1, hcell g2, hcell g3, fun op => ?_, hkeys g1, ?_, rfl, rfl⟩
      · simp only
        rw [hkeys g1, hkeys g2, ha.dirKeys, hb.dirKeys]
      · simp only
        rw [hkeys g1, hkeys g3, ha.accKeys, hb.accKeys]
      · simp only [height]
        rw [g1, mergeRows_getD, addLists_length]
      · simp only
        unfold mkUtil at hu
        split_ifs at hu
        cases hu
        rfl

/-- Two results with the same numbers: totals, utilizations, table entries, accelerator; the layers may be listed in another order. -/
structure SameCost (a b : Cme Op) : Prop where
  totals : a.totals = b.totals
  energy : SameTable a.energy b.energy
  energyDir : SameTable a.energyDir b.energyDir
  access : SameTable a.access b.access
  util : a.util = b.util
  layers : a.layerIds.Perm b.layerIds

theorem pick_comm (a b : Cme Op) : pickAccelerator a b = pickAccelerator b a := by
  have hpre : ∀ x y : List Char, y <+: x → x <+: y → x = y := by
    intro x y h1 h2
    exact h2.eq_of_length (le_antisymm h2.length_le h1.length_le)
  unfold pickAccelerator
  cases ha : a.accelerator <;> cases hb : b.accelerator <;> cases hc : a.cumulative <;> cases hd : b.cumulative <;> simp
  all_goals
    rename_i x y
    by_cases h1 : y <+: x <;> by_cases h2 : x <+: y
    · rw [if_pos h1, if_pos h2, hpre x y h1 h2]
    · rw [if_pos h1, if_neg h2, if_pos h1]
    · rw [if_neg h1, if_pos h2, if_pos h2]
    · rw [if_neg h1, if_neg h2, if_neg h2, if_neg h1]

/-- Addition is commutative, including success, accelerator and error. -/
theorem add_comm_cost {ord : List Op → List Op} (ho : ∀ l, (ord l).Perm l) {a b : Cme Op} (ha : WFC a) (hb : WFC b) :
    (∀ r, add ord a b = .ok r → ∃ r', add ord b a = .ok r' ∧ SameCost r r' ∧ r.accelerator = r'.accelerator) ∧
    (∀ e, add ord a b = .error e → add ord b a = .error e) := by
  obtain ⟨en, ed, ac, _, _, _, g1, g2, g3, heq⟩ := add_rows ho ha hb
  obtain ⟨en', ed', ac', _, _, _, g1', g2', g3', heq'⟩ := add_rows ho hb ha
  rw [heq, heq', add_comm b.totals, pick_comm b a]
  cases mkUtil (a.totals + b.totals) with
  | error e => exact ⟨fun r h => (by cases h), fun e' h => h⟩
  | ok u =>
    cases pickAccelerator a b with
    | error e => exact ⟨fun r h => (by cases h), fun e' h => h⟩
    | ok acc =>
      refine ⟨fun r h => ?_, fun e' h => by cases h⟩
      cases h
      refine ⟨_, rfl, ⟨rfl, fun k => ?_, fun k => ?_, fun k => ?_, rfl, List.perm_append_comm⟩, rfl⟩
      · simp only; rw [g1, g1', mergeRows_comm]
      · simp only; rw [g2, g2', mergeRows_comm]
      · simp only; rw [g3, g3', mergeRows_comm]

theorem add_table {ord : List Op → List Op} (ho : ∀ l, (ord l).Perm l) {a b r : Cme Op} (ha : WFC a) (hb : WFC b) (h : add ord a b = .ok r) :
    (∀ k, r.energy.get? k = mergeRows (a.energy.get? k) (b.energy.get? k)) ∧ (∀ k, r.energyDir.get? k = mergeRows (a.energyDir.get? k) (b.energyDir.get? k)) ∧
    (∀ k, r.access.get? k = mergeRows (a.access.get? k) (b.access.get? k)) := by
  obtain ⟨en, ed, ac, _, _, _, g1, g2, g3, heq⟩ := add_rows ho ha hb
  rw [h] at heq
  cases hu : mkUtil (a.totals + b.totals) with
  | error e => rw [hu] at heq; cases heq
  | ok u =>
    rw [hu] at heq
    simp only at heq
    cases hp : pickAccelerator a b with
    | error e => rw [hp] at heq; cases heq
    | ok acc =>
      rw [hp] at heq
      cases heq
      exact ⟨g1, g2, g3⟩

/-- Both ways of bracketing a sum of three give the same numbers, whenever both succeed. -/
theorem add_assoc_cost {ord : List Op → List Op} (ho : ∀ l, (ord l).Perm l) {a b c ab bc r r' : Cme Op} (ha : WFC a) (hb : WFC b) (hc : WFC c)
    (h1 : add ord a b = .ok ab) (h2 : add ord ab c = .ok r) (h3 : add ord b c = .ok bc) (h4 : add ord a bc = .ok r') : SameCost r r' := by
  have s1 := add_spec ho ha hb h1
  have s3 := add_spec ho hb hc h3
  have s2 := add_spec ho s1.1 hc h2
  have s4 := add_spec ho ha s3.1 h4
  have t1 := add_table ho ha hb h1
  have t3 := add_table ho hb hc h3
  have t2 := add_table ho s1.1 hc h2
  have t4 := add_table ho ha s3.1 h4
  have htot : r.totals = r'.totals := by rw [s2.2.1, s4.2.1, s1.2.1, s3.2.1, add_assoc]
  refine ⟨htot, fun k => ?_, fun k => ?_, fun k => ?_, ?_, ?_⟩
  · rw [t2.1, t4.1, t1.1, t3.1, mergeRows_assoc]
  · rw [t2.2.1, t4.2.1, t1.2.1, t3.2.1, mergeRows_assoc]
  · rw [t2.2.2, t4.2.2, t1.2.2, t3.2.2, mergeRows_assoc]
  · rw [s2.2.2.2.2.2.2.2.1, s4.2.2.2.2.2.2.2.1, htot]
  · rw [s2.2.2.2.2.2.2.2.2.1, s4.2.2.2.2.2.2.2.2.1, s1.2.2.2.2.2.2.2.2.1, s3.2.2.2.2.2.2.2.2.1, List.append_assoc]

/-- A result with the given accelerator name, for the examples. -/
def sample (id : Nat) (n : List Char) : Cme Nat :=
  { totals := ⟨1, 2, 3, 1, 1, 4, 5, 6, 7, 8⟩, energy := [(id, [1, 1])], energyDir := [(id, [⟨1, 0, 0, 0⟩, ⟨0, 1, 0, 0⟩])], access := [(id, [⟨1, 0, 0, 0⟩, ⟨0, 1, 0, 0⟩])]
    util := none, cumulative := false, layerIds := [id], accelerator := some n }

example : WFC (sample 3 ['a']) := by
  refine ⟨?_, ?_, ?_, fun _ => Iff.rfl, fun _ => Iff.rfl⟩ <;> (unfold Dict.WF Dict.keys; decide)

set_option synthInstance.maxSize 1000 in
set_option synthInstance.maxHeartbeats 200000 in
/-- Whether a sum succeeds depends on the bracketing: accelerators are related when one name is a prefix of the other, which is not
transitive.  `ab + (ac + a)` succeeds, `(ab + ac) + a` raises `ValueError`. -/
theorem add_assoc_success_false :
    (∃ bc r, add id (sample 2 ['a', 'c']) (sample 3 ['a']) = .ok bc ∧ add id (sample 1 ['a', 'b']) bc = .ok r) ∧
    add id (sample 1 ['a', 'b']) (sample 2 ['a', 'c']) = .error .valueError := by
  refine ⟨?_, by decide +kernel⟩
  have h1 : ∃ bc, add id (sample 2 ['a', 'c']) (sample 3 ['a']) = .ok bc ∧ ∃ r, add id (sample 1 ['a', 'b']) bc = .ok r := by
    cases h : add id (sample 2 ['a', 'c']) (sample 3 ['a']) with
    | error e =>
      exfalso
      have hd : (match add id (sample 2 ['a', 'c']) (sample 3 ['a']) with | .error _ => false | .ok _ => true) = true := by decide +kernel
      rw [h] at hd; cases hd
    | ok bc =>
      refine ⟨bc, rfl, ?_⟩
      cases h' : add id (sample 1 ['a', 'b']) bc with
      | error e =>
        exfalso
        have hd : (match add id (sample 2 ['a', 'c']) (sample 3 ['a']) with
          | .error _ => false
          | .ok bc => match add id (sample 1 ['a', 'b']) bc with | .error _ => false | .ok _ => true) = true := by decide +kernel
        rw [h] at hd
        simp only at hd
        rw [h'] at hd; cases hd
      | ok r => exact ⟨r, rfl⟩
  obtain ⟨bc, hbc, r, hr⟩ := h1
  exact ⟨bc, r, hbc, hr⟩

/-- The breakdown adds up in a sum when it adds up in the parts: total energy is MAC plus memory energy, memory energy is the sum of the
breakdown over operands and levels. -/
def Balanced (c : Cme Op) : Prop := c.totals.energyTotal = c.totals.macEnergy + c.totals.memEnergy ∧ c.totals.memEnergy = tableSum c.energy

theorem add_balanced {ord : List Op → List Op} (ho : ∀ l, (ord l).Perm l) {a b r : Cme Op} (ha : WFC a) (hb : WFC b) (h : add ord a b = .ok r)
    (ba : Balanced a) (bb : Balanced b) : Balanced r := by
  have s := add_spec ho ha hb h
  have t := add_table ho ha hb h
  have e1 : r.totals.energyTotal = a.totals.energyTotal + b.totals.energyTotal := by rw [s.2.1]; rfl
  have e2 : r.totals.macEnergy = a.totals.macEnergy + b.totals.macEnergy := by rw [s.2.1]; rfl
  have e3 : r.totals.memEnergy = a.totals.memEnergy + b.totals.memEnergy := by rw [s.2.1]; rfl
  refine ⟨?_, ?_⟩
  · rw [e1, e2, e3, ba.1, bb.1]; ring
  · rw [tableSum_merge ha.energy hb.energy s.1.energy t.1, e3, ba.2, bb.2]

/-! ### C35: the sum stage -/

theorem sumStage_spec {ord : List Op → List Op} (ho : ∀ l, (ord l).Perm l) : ∀ (l : List (Cme Op)) (t r : Cme Op), WFC t → (∀ c ∈ l, WFC c) → sumStage ord l t = .ok r →
    WFC r ∧ r.totals = t.totals + (l.map (fun c => c.totals)).sum ∧
    (∀ op i, cell r.energy op i = cell t.energy op i + (l.map (fun c => cell c.energy op i)).sum) ∧
    (∀ op i, cell r.energyDir op i = cell t.energyDir op i + (l.map (fun c => cell c.energyDir op i)).sum) ∧
    (∀ op i, cell r.access op i = cell t.access op i + (l.map (fun c => cell c.access op i)).sum) ∧
    (∀ op, op ∈ r.energy.keys ↔ op ∈ t.energy.keys ∨ ∃ c ∈ l, op ∈ c.energy.keys) ∧
    r.layerIds = t.layerIds ++ l.flatMap (fun c => c.layerIds) := by
  intro l
  induction l with
  | nil =>
    intro t r ht _ h
    cases h
    simp [ht]
  | cons c rest ih =>
    intro t r ht hl h
    unfold sumStage at h
    split_ifs at h with hc
    cases ha : add ord t c with
    | error e => rw [ha] at h; cases h
    | ok t' =>
      rw [ha] at h
      simp only at h
      have s := add_spec ho ht (hl c (by simp)) ha
      obtain ⟨i1, i2, i3, i4, i5, i6, i7⟩ := ih t' r s.1 (fun c hc => hl c (by simp [hc])) h
      refine ⟨i1, ?_, fun op i => ?_, fun op i => ?_, fun op i => ?_, fun op => ?_, ?_⟩
      · rw [i2, s.2.1, List.map_cons, List.sum_cons, add_assoc]
      · rw [i3, s.2.2.1, List.map_cons, List.sum_cons, add_assoc]
      · rw [i4, s.2.2.2.1, List.map_cons, List.sum_cons, add_assoc]
      · rw [i5, s.2.2.2.2.1, List.map_cons, List.sum_cons, add_assoc]
      · rw [i6, s.2.2.2.2.2.2.1]
        simp only [List.mem_cons, exists_eq_or_imp, or_assoc]
      · rw [i7, s.2.2.2.2.2.2.2.2.1, List.flatMap_cons, List.append_assoc]

theorem empty_wf : WFC (empty Op) := ⟨List.nodup_nil, List.nodup_nil, List.nodup_nil, fun _ => Iff.rfl, fun _ => Iff.rfl⟩

/-- The sum stage yields one result; its totals and table entries are the sums over all sub-results, every layer is listed once in order, and
all sub-results are passed on. -/
theorem sum_stage_totals {Info : Type} {ord : List Op → List Op} (ho : ∀ l, (ord l).Perm l) (subs : List (Cme Op × Info)) (hw : ∀ s ∈ subs, WFC s.1) {r : Cme Op} {all : List (Cme Op × Info)}
    (h : sumRun ord subs = .ok (r, all)) :
    all = subs ∧ r.totals = (subs.map (fun s => s.1.totals)).sum ∧ (∀ op i, cell r.energy op i = (subs.map (fun s => cell s.1.energy op i)).sum) ∧
    (∀ op i, cell r.energyDir op i = (subs.map (fun s => cell s.1.energyDir op i)).sum) ∧ (∀ op i, cell r.access op i = (subs.map (fun s => cell s.1.access op i)).sum) ∧
    (∀ op, op ∈ r.energy.keys ↔ ∃ s ∈ subs, op ∈ s.1.energy.keys) ∧ r.layerIds = subs.flatMap (fun s => s.1.layerIds) := by
  unfold sumRun at h
  cases hs : sumStage ord (subs.map Prod.fst) (empty Op) with
  | error e => rw [hs] at h; cases h
  | ok t =>
    rw [hs] at h
    cases h
    obtain ⟨_, i2, i3, i4, i5, i6, i7⟩ := sumStage_spec ho _ _ _ empty_wf (by
      intro c hc
      obtain ⟨s, hs', rfl⟩ := List.mem_map.1 hc
      exact hw s hs') hs
    refine ⟨rfl, ?_, fun op i => ?_, fun op i => ?_, fun op i => ?_, fun op => ?_, ?_⟩
    · rw [i2, List.map_map]; exact zero_add _
    · rw [i3, List.map_map]; simp [cell, empty, Function.comp_def]
    · rw [i4, List.map_map]; simp [cell, empty, Function.comp_def]
    · rw [i5, List.map_map]; simp [cell, empty, Function.comp_def]
    · rw [i6]; simp [empty, Dict.keys]
    · rw [i7]; simp [empty, List.flatMap_map]

/-- Energy and latency of the sum, spelled out. -/
theorem sum_stage_energy_latency {Info : Type} {ord : List Op → List Op} (ho : ∀ l, (ord l).Perm l) (subs : List (Cme Op × Info)) (hw : ∀ s ∈ subs, WFC s.1) {r : Cme Op} {all : List (Cme Op × Info)}
    (h : sumRun ord subs = .ok (r, all)) :
    r.totals.energyTotal = (subs.map (fun s => s.1.totals.energyTotal)).sum ∧ r.totals.latency2 = (subs.map (fun s => s.1.totals.latency2)).sum := by
  have := (sum_stage_totals ho subs hw h).2.1
  rw [this]
  clear this h hw
  induction subs with
  | nil => exact ⟨rfl, rfl⟩
  | cons s t ih =>
    simp only [List.map_cons, List.sum_cons]
    exact ⟨by rw [← ih.1]; rfl, by rw [← ih.2]; rfl⟩

/-- The order of the sub-results does not change the numbers. -/
theorem sum_stage_order {Info : Type} {ord : List Op → List Op} (ho : ∀ l, (ord l).Perm l) {subs subs' : List (Cme Op × Info)} (hp : subs.Perm subs') (hw : ∀ s ∈ subs, WFC s.1) {r r' : Cme Op}
    {all all' : List (Cme Op × Info)} (h : sumRun ord subs = .ok (r, all)) (h' : sumRun ord subs' = .ok (r', all')) :
    r.totals = r'.totals ∧ (∀ op i, cell r.energy op i = cell r'.energy op i) ∧ (∀ op i, cell r.energyDir op i = cell r'.energyDir op i) ∧
    (∀ op i, cell r.access op i = cell r'.access op i) ∧ (∀ op, op ∈ r.energy.keys ↔ op ∈ r'.energy.keys) ∧ r.layerIds.Perm r'.layerIds := by
  obtain ⟨_, a1, a2, a3, a4, a5, a6⟩ := sum_stage_totals ho subs hw h
  obtain ⟨_, b1, b2, b3, b4, b5, b6⟩ := sum_stage_totals ho subs' (fun s hs => hw s (hp.mem_iff.2 hs)) h'
  refine ⟨?_, fun op i => ?_, fun op i => ?_, fun op i => ?_, fun op => ?_, ?_⟩
  · rw [a1, b1]; exact (hp.map _).sum_eq
  · rw [a2, b2]; exact (hp.map _).sum_eq
  · rw [a3, b3]; exact (hp.map _).sum_eq
  · rw [a4, b4]; exact (hp.map _).sum_eq
  · rw [a5, b5]; exact ⟨fun ⟨s, hs, hk⟩ => ⟨s, hp.mem_iff.1 hs, hk⟩, fun ⟨s, hs, hk⟩ => ⟨s, hp.mem_iff.2 hs, hk⟩⟩
  · rw [a6, b6]; exact hp.flatMap_right _

/-- What the cost model delivers for a layer: a single result with its accelerator and positive cycle counts. -/
structure Evaluated (n : List Char) (c : Cme Op) : Prop where
  wf : WFC c
  single : c.cumulative = false
  acc : c.accelerator = some n
  p1 : 0 < c.totals.idealTemporal
  p2 : 0 < c.totals.latency0
  p3 : 0 < c.totals.latency1
  p4 : 0 < c.totals.latency2

/-- Any number of results of the same accelerator can be summed. -/
theorem sum_stage_ok {Info : Type} {ord : List Op → List Op} (ho : ∀ l, (ord l).Perm l) (n : List Char) (subs : List (Cme Op × Info)) (hw : ∀ s ∈ subs, Evaluated n s.1) :
    ∃ r, sumRun ord subs = .ok (r, subs) := by
  have key : ∀ (l : List (Cme Op)) (t : Cme Op), (∀ c ∈ l, Evaluated n c) → WFC t → t.cumulative = true → (t.accelerator = none ∨ t.accelerator = some n) →
      0 ≤ t.totals.idealTemporal → 0 ≤ t.totals.latency0 → 0 ≤ t.totals.latency1 → 0 ≤ t.totals.latency2 → ∃ r, sumStage ord l t = .ok r := by
    intro l
    induction l with
    | nil => intro t _ _ _ _ _ _ _ _; exact ⟨t, rfl⟩
    | cons c rest ih =>
      intro t hl ht htc hta q1 q2 q3 q4
      have hc := hl c (by simp)
      obtain ⟨en, ed, ac, _, _, _, _, _, _, heq⟩ := add_rows ho ht hc.wf
      have hu : mkUtil (t.totals + c.totals) = .ok ⟨(t.totals + c.totals).ideal / (t.totals + c.totals).idealTemporal, (t.totals + c.totals).ideal / (t.totals + c.totals).latency0,
          (t.totals + c.totals).ideal / (t.totals + c.totals).latency1, (t.totals + c.totals).ideal / (t.totals + c.totals).latency2⟩ := by
        unfold mkUtil
        rw [if_neg]
        have z1 : (t.totals + c.totals).idealTemporal = t.totals.idealTemporal + c.totals.idealTemporal := rfl
        have z2 : (t.totals + c.totals).latency0 = t.totals.latency0 + c.totals.latency0 := rfl
        have z3 : (t.totals + c.totals).latency1 = t.totals.latency1 + c.totals.latency1 := rfl
        have z4 : (t.totals + c.totals).latency2 = t.totals.latency2 + c.totals.latency2 := rfl
        rw [z1, z2, z3, z4]
        have := hc.p1; have := hc.p2; have := hc.p3; have := hc.p4
        rintro (h | h | h | h) <;> linarith
      have hp : pickAccelerator t c = .ok (some n) := by
        unfold pickAccelerator
        rcases hta with hta | hta
        · rw [if_pos ⟨htc, hta⟩, hc.acc]; simp
        · rw [if_neg (by simp [hta]), if_neg (by simp [hc.acc]), hta, hc.acc]
          simp only
          rw [if_pos (List.isPrefixOf_iff_prefix.2 (List.prefix_refl _))]
      rw [hu] at heq
      simp only at heq
      rw [hp] at heq
      simp only at heq
      have s := add_spec ho ht hc.wf heq
      unfold sumStage
      rw [if_neg (by rw [hc.single]; simp), heq]
      refine ih _ (fun c hc => hl c (by simp [hc])) s.1 rfl (Or.inr rfl) ?_ ?_ ?_ ?_
      · exact add_nonneg q1 (le_of_lt hc.p1)
      · exact add_nonneg q2 (le_of_lt hc.p2)
      · exact add_nonneg q3 (le_of_lt hc.p3)
      · exact add_nonneg q4 (le_of_lt hc.p4)
  obtain ⟨r, hr⟩ := key (subs.map Prod.fst) (empty Op) (by
    intro c hc
    obtain ⟨s, hs, rfl⟩ := List.mem_map.1 hc
    exact hw s hs) empty_wf rfl (Or.inl rfl) (le_refl _) (le_refl _) (le_refl _) (le_refl _)
  refine ⟨r, ?_⟩
  unfold sumRun
  rw [hr]

example : Evaluated ['a'] (sample 3 ['a']) := by
  refine ⟨⟨?_, ?_, ?_, fun _ => Iff.rfl, fun _ => Iff.rfl⟩, rfl, rfl, ?_, ?_, ?_, ?_⟩
  · unfold Dict.WF Dict.keys; decide
  · unfold Dict.WF Dict.keys; decide
  · unfold Dict.WF Dict.keys; decide
  all_goals decide +kernel

/-! ### C28: multiples -/

theorem cell_mul (t : Dict Op (List ℚ)) (n : ℚ) (op : Op) (i : Nat) : cell (t.map (fun e => (e.1, e.2.map (· * n)))) op i = cell t op i * n := by
  unfold cell
  induction t with
  | nil => simp
  | cons e t ih =>
    rw [List.map_cons, Dict.get?_cons, Dict.get?_cons]
    by_cases h : e.1 = op
    · simp only [if_pos h, Option.getD_some, List.getElem?_map]
      cases e.2[i]? <;> simp
    · simp only [if_neg h]
      exact ih

theorem cell_scale (t : Dict Op (List FourWay)) (n : ℚ) (op : Op) (i : Nat) : cell (t.map (fun e => (e.1, e.2.map (fun f => f.scale n)))) op i = (cell t op i).scale n := by
  have z : (0 : FourWay).scale n = 0 := FourWay.ext (zero_mul n) (zero_mul n) (zero_mul n) (zero_mul n)
  unfold cell
  induction t with
  | nil => simp [z]
  | cons e t ih =>
    rw [List.map_cons, Dict.get?_cons, Dict.get?_cons]
    by_cases h : e.1 = op
    · simp only [if_pos h, Option.getD_some, List.getElem?_map]
      cases e.2[i]? <;> simp [z]
    · simp only [if_neg h]
      exact ih

theorem sum_replicate_totals (t : Totals) : ∀ n : Nat, ((List.replicate n t).sum) = t.scale n
  | 0 => Totals.ext (by simp [Totals.scale]; rfl) (by simp [Totals.scale]; rfl) (by simp [Totals.scale]; rfl) (by simp [Totals.scale]; rfl) (by simp [Totals.scale]; rfl)
      (by simp [Totals.scale]; rfl) (by simp [Totals.scale]; rfl) (by simp [Totals.scale]; rfl) (by simp [Totals.scale]; rfl) (by simp [Totals.scale]; rfl)
  | n + 1 => by
    rw [List.replicate_succ, List.sum_cons, sum_replicate_totals t n]
    have hx : ∀ x : ℚ, x + x * (n : ℚ) = x * ((n + 1 : ℕ) : ℚ) := fun x => by push_cast; ring
    exact Totals.ext (hx _) (hx _) (hx _) (hx _) (hx _) (hx _) (hx _) (hx _) (hx _) (hx _)

theorem sum_replicate_four (f : FourWay) : ∀ n : Nat, ((List.replicate n f).sum) = f.scale n
  | 0 => FourWay.ext (by simp [FourWay.scale]; rfl) (by simp [FourWay.scale]; rfl) (by simp [FourWay.scale]; rfl) (by simp [FourWay.scale]; rfl)
  | n + 1 => by
    rw [List.replicate_succ, List.sum_cons, sum_replicate_four f n]
    have hx : ∀ x : ℚ, x + x * (n : ℚ) = x * ((n + 1 : ℕ) : ℚ) := fun x => by push_cast; ring
    exact FourWay.ext (hx _) (hx _) (hx _) (hx _)

theorem sum_replicate_rat (x : ℚ) : ∀ n : Nat, ((List.replicate n x).sum) = x * n
  | 0 => by simp
  | n + 1 => by
    rw [List.replicate_succ, List.sum_cons, sum_replicate_rat x n]
    push_cast; ring

/-- Multiplying a result by `n` gives the numbers of adding `n` copies. -/
theorem mul_eq_sum {ord : List Op → List Op} (ho : ∀ l, (ord l).Perm l) {a r m : Cme Op} (ha : WFC a) (n : Nat) (hn : 0 < n)
    (hs : sumStage ord (List.replicate n a) (empty Op) = .ok r) (hm : mul a n = .ok m) :
    m.totals = r.totals ∧ (∀ op i, cell m.energy op i = cell r.energy op i) ∧ (∀ op i, cell m.energyDir op i = cell r.energyDir op i) ∧
    (∀ op i, cell m.access op i = cell r.access op i) ∧ (∀ op, op ∈ m.energy.keys ↔ op ∈ r.energy.keys) := by
  obtain ⟨_, i2, i3, i4, i5, i6, _⟩ := sumStage_spec ho _ _ _ empty_wf (by
    intro c hc
    rw [(List.mem_replicate.1 hc).2]; exact ha) hs
  unfold mul at hm
  simp only at hm
  cases hu : mkUtil (a.totals.scale n) with
  | error e => rw [hu] at hm; cases hm
  | ok u =>
    rw [hu] at hm
    cases hm
    refine ⟨?_, fun op i => ?_, fun op i => ?_, fun op i => ?_, fun op => ?_⟩
    · rw [i2, List.map_replicate, sum_replicate_totals]
      exact (zero_add _).symm
    · rw [i3, List.map_replicate, sum_replicate_rat, cell_mul]
      simp [cell, empty]
    · rw [i4, List.map_replicate, sum_replicate_four, cell_scale]
      simp [cell, empty]
    · rw [i5, List.map_replicate, sum_replicate_four, cell_scale]
      simp [cell, empty]
    · rw [i6]
      simp only [empty, Dict.keys, List.map_nil, List.not_mem_nil, false_or, List.map_map, Function.comp_def]
      constructor
      · intro h
        exact ⟨a, List.mem_replicate.2 ⟨by omega, rfl⟩, h⟩
      · rintro ⟨c, hc, h⟩
        rw [(List.mem_replicate.1 hc).2] at h
        exact h

/-- Multiplying succeeds for every positive number and raises for zero. -/
theorem mul_ok {n : List Char} {a : Cme Op} (ha : Evaluated n a) (k : Nat) : (0 < k → ∃ m, mul a k = .ok m) ∧ mul a (0 : ℕ) = .error .zeroDivision := by
  constructor
  · intro hk
    have hkq : (0 : ℚ) < k := by exact_mod_cast hk
    unfold mul
    simp only
    have hu : ∃ u, mkUtil (a.totals.scale k) = .ok u := by
      unfold mkUtil
      rw [if_neg]
      · exact ⟨_, rfl⟩
      · have z1 : (a.totals.scale k).idealTemporal = a.totals.idealTemporal * k := rfl
        have z2 : (a.totals.scale k).latency0 = a.totals.latency0 * k := rfl
        have z3 : (a.totals.scale k).latency1 = a.totals.latency1 * k := rfl
        have z4 : (a.totals.scale k).latency2 = a.totals.latency2 * k := rfl
        rw [z1, z2, z3, z4]
        rintro (h | h | h | h)
        · exact (mul_pos ha.p1 hkq).ne' h
        · exact (mul_pos ha.p2 hkq).ne' h
        · exact (mul_pos ha.p3 hkq).ne' h
        · exact (mul_pos ha.p4 hkq).ne' h
    obtain ⟨u, hu⟩ := hu
    rw [hu]
    exact ⟨_, rfl⟩
  · unfold mul mkUtil
    simp [Totals.scale]

end Verif.Cme
