import Verif.Evaluate.Upgrade

/-! Accelerators with other bandwidths or sizes. -/

namespace Verif.Evaluate

open Cme (Dir FourWay)
open MapInfo (Cfg Shape)
open LayerNode (Relation)
open Latency (Operand Key)

variable {Dim : Type} [DecidableEq Dim]
variable {h : Hw} {j : Job Dim} {rl : Operand → List Dim} {rels : List (Relation Dim)} {loops array : List (Dim × ℚ)}

theorem shape_bw {c : Cfg Dim} {rl : List Dim} (b : Nat → Option ℚ) (s : Shape c rl rels) : Shape { c with bw := b } rl rels :=
  ⟨s.names, s.pi, s.rel, s.index, s.mix, s.vars, s.wf, s.related, s.dims, s.levels, s.loops⟩

/-! ### Bandwidth -/

theorem widen_ports (f : Port → Nat) (h : Hw) : (h.widen f).ports = h.ports.map fun p => { p with bwMax := f p } := by
  simp [Hw.ports, Hw.widen, Mem.widen, List.flatMap_map, List.map_flatMap]

theorem widen_bw (f : Port → Nat) (g : Port → Nat) (h : Hw) (op : Operand) (lv : Nat) (d : Dir) :
    (h.widen f).bw g op lv d = h.bw (fun p => g { p with bwMax := f p }) op lv d := by
  simp only [Hw.bw, Hw.widen, Mem.widen, Mem.bw, List.getElem?_map, List.find?_map, Function.comp_def]
  cases (h.levels op)[lv]? with
  | none => rfl
  | some m =>
    simp only [Option.map_some, Option.bind_some]
    rw [show (Mem.widen f m).ports = m.ports.map (fun p => { p with bwMax := f p }) from rfl, List.find?_map, Option.map_map]
    rfl

theorem Built.widen {f : Port → Nat} (B : Built h) (hf : ∀ p ∈ h.ports, p.bwMax ≤ f p) : Built (h.widen f) where
  inside op m hm := by
    obtain ⟨m0, h0, rfl⟩ := List.mem_map.1 hm
    exact List.mem_map.2 ⟨m0, B.inside op m0 h0, rfl⟩
  numbered m hm p hp := by
    obtain ⟨m0, h0, rfl⟩ := List.mem_map.1 hm
    simp only [Hw.widen, List.getElem?_map, B.numbered m0 h0 p hp, Option.map_some]
  single m hm := by
    obtain ⟨m0, h0, rfl⟩ := List.mem_map.1 hm
    exact B.single m0 h0
  served m hm p hp k hk := by
    obtain ⟨m0, h0, rfl⟩ := List.mem_map.1 hm
    obtain ⟨p0, hp0, rfl⟩ := List.mem_map.1 hp
    exact B.served m0 h0 p0 hp0 k hk
  once := by
    rw [widen_ports, List.flatMap_map]
    exact B.once
  bw p hp := by
    rw [widen_ports] at hp
    obtain ⟨p0, hp0, rfl⟩ := List.mem_map.1 hp
    have := B.bw p0 hp0
    have := hf p0 hp0
    refine ⟨?_, (B.bw p0 hp0).2⟩
    simp only
    omega
  size m hm := by
    obtain ⟨m0, h0, rfl⟩ := List.mem_map.1 hm
    exact B.size m0 h0
  units := B.units

theorem Mapped.widen {f : Port → Nat} (R : Mapped h j rl rels loops array) (hf : ∀ p ∈ h.ports, p.bwMax ≤ f p) :
    Mapped (h.widen f) j rl rels loops array where
  built := R.built.widen hf
  ops := R.ops
  out := R.out
  inputs := R.inputs
  shape int op ho := shape_bw _ (R.shape int op ho)
  sizes := R.sizes
  whole := R.whole
  tm op ho := by simpa [Hw.widen] using R.tm op ho
  stationary := R.stationary
  total := R.total
  array := R.array
  serves op ho lv m hm d hd := by
    simp only [Hw.widen, List.getElem?_map] at hm
    cases h0 : (h.levels op)[lv]? with
    | none => rw [h0] at hm; cases hm
    | some m0 =>
      rw [h0] at hm
      cases hm
      obtain ⟨p, hp, hk⟩ := R.serves op ho lv m0 h0 d (by simpa [Hw.widen] using hd)
      exact ⟨_, List.mem_map.2 ⟨p, hp, rfl⟩, hk⟩
  cycles := R.cycles

theorem Ready.widen {f : Port → Nat} (R : Ready h j rl rels loops array) (hf : ∀ p ∈ h.ports, p.bwMax ≤ f p) :
    Ready (h.widen f) j rl rels loops array :=
  { R.toMapped.widen hf with
    linked := fun p hp k hk => by
      rw [widen_ports] at hp
      obtain ⟨p0, hp0, rfl⟩ := List.mem_map.1 hp
      exact R.linked p0 hp0 k hk }

theorem widen_groups (f : Port → Nat) : groups (h.widen f) j = groups h j := by
  simp only [groups, Hw.widen, List.filter_map, List.map_map]
  rfl

theorem widen_size (f : Port → Nat) : sizeOf (h.widen f) = sizeOf h := by
  funext p
  simp only [sizeOf, Hw.widen, List.getElem?_map]
  cases (h.levels p.1)[p.2]? <;> rfl

theorem util_alike {h' : Hw} {m m' : Dict Operand (OpInfo Dim)} (hs : sizeOf h' = sizeOf h) (ha : ∀ op, Option.Rel Alike (m.get? op) (m'.get? op)) :
    util h' m' = util h m ∧ effUtil h' m' = effUtil h m := by
  unfold util effUtil
  rw [hs]
  constructor
  · congr 1
    funext p
    have := ha p.1
    generalize m.get? p.1 = a at *
    generalize m'.get? p.1 = b at *
    cases this with
    | none => rfl
    | some hx => simp only [Option.map_some, hx.bits]
  · congr 1
    funext p
    have := ha p.1
    generalize m.get? p.1 = a at *
    generalize m'.get? p.1 = b at *
    cases this with
    | none => rfl
    | some hx => simp only [Option.map_some, hx.effBits]

theorem flags_alike {h' : Hw} {m m' : Dict Operand (OpInfo Dim)} (hs : sizeOf h' = sizeOf h) (hgr : groups h' j = groups h j)
    (ha : ∀ op, Option.Rel Alike (m.get? op) (m'.get? op)) : flags h' j m' = flags h j m := by
  funext op
  unfold flags
  rw [hgr, (util_alike hs ha).2]

theorem widen_bw_le {f : Port → Nat} (B : Built h) (hf : ∀ p ∈ h.ports, p.bwMax ≤ f p) (op : Operand) (lv : Nat) (d : Dir) :
    Option.Rel (fun w w' => w ≠ 0 ∧ w ≤ w') (h.bw Port.bwMax op lv d) ((h.widen f).bw Port.bwMax op lv d) := by
  rw [widen_bw]
  unfold Hw.bw
  cases hm : (h.levels op)[lv]? with
  | none => exact .none
  | some m =>
    simp only [Option.bind_some]
    rcases bw_cases m op d with hn | ⟨p, hp, hs⟩
    · rw [hn, hn]; exact .none
    · rw [hs, hs]
      have hin := mem_ports (B.inside op m (List.mem_of_getElem? hm)) hp
      exact .some ⟨(B.bw p hin).1, hf p hin⟩

/-! ### Sizes -/

theorem resize_ports (f : Mem → Nat) (h : Hw) : (h.resize f).ports = h.ports := by
  simp only [Hw.ports, Hw.resize, List.flatMap_map]
  rfl

theorem resize_bw (f : Mem → Nat) (g : Port → Nat) (h : Hw) (op : Operand) (lv : Nat) (d : Dir) : (h.resize f).bw g op lv d = h.bw g op lv d := by
  simp only [Hw.bw, Hw.resize, List.getElem?_map]
  cases (h.levels op)[lv]? <;> rfl

theorem resize_cfg (f : Mem → Nat) (h : Hw) (j : Job Dim) (int : Bool) (op : Operand) : cfg (h.resize f) j int op = cfg h j int op := by
  unfold cfg
  simp only [resize_bw]

theorem resize_mapping (f : Mem → Nat) (h : Hw) (j : Job Dim) (int : Bool) : mapping (h.resize f) j int = mapping h j int := by
  unfold mapping
  simp only [resize_cfg]

theorem Built.resize {f : Mem → Nat} (B : Built h) (hf : ∀ m ∈ h.mems, m.size ≤ f m) : Built (h.resize f) where
  inside op m hm := by
    obtain ⟨m0, h0, rfl⟩ := List.mem_map.1 hm
    exact List.mem_map.2 ⟨m0, B.inside op m0 h0, rfl⟩
  numbered m hm p hp := by
    obtain ⟨m0, h0, rfl⟩ := List.mem_map.1 hm
    simp only [Hw.resize, List.getElem?_map, B.numbered m0 h0 p hp, Option.map_some]
  single m hm := by
    obtain ⟨m0, h0, rfl⟩ := List.mem_map.1 hm
    exact B.single m0 h0
  served m hm p hp k hk := by
    obtain ⟨m0, h0, rfl⟩ := List.mem_map.1 hm
    exact B.served m0 h0 p hp k hk
  once := by rw [resize_ports]; exact B.once
  bw p hp := B.bw p (by rwa [resize_ports] at hp)
  size m hm := by
    obtain ⟨m0, h0, rfl⟩ := List.mem_map.1 hm
    have := B.size m0 h0
    have := hf m0 h0
    simp only [Mem.resize]
    omega
  units := B.units

theorem Mapped.resize {f : Mem → Nat} (R : Mapped h j rl rels loops array) (hf : ∀ m ∈ h.mems, m.size ≤ f m) :
    Mapped (h.resize f) j rl rels loops array where
  built := R.built.resize hf
  ops := R.ops
  out := R.out
  inputs := R.inputs
  shape int op ho := by rw [resize_cfg]; exact R.shape int op ho
  sizes := R.sizes
  whole := R.whole
  tm op ho := by simpa [Hw.resize] using R.tm op ho
  stationary := R.stationary
  total := R.total
  array := R.array
  serves op ho lv m hm d hd := by
    simp only [Hw.resize, List.getElem?_map] at hm
    cases h0 : (h.levels op)[lv]? with
    | none => rw [h0] at hm; cases hm
    | some m0 =>
      rw [h0] at hm
      cases hm
      exact R.serves op ho lv m0 h0 d (by simpa [Hw.resize] using hd)
  cycles := R.cycles

theorem Ready.resize {f : Mem → Nat} (R : Ready h j rl rels loops array) (hf : ∀ m ∈ h.mems, m.size ≤ f m) :
    Ready (h.resize f) j rl rels loops array :=
  { R.toMapped.resize hf with
    linked := fun p hp k hk => R.linked p (by rwa [resize_ports] at hp) k hk }

theorem resize_groups (f : Mem → Nat) : groups (h.resize f) j = groups h j := by
  simp only [groups, Hw.resize, List.filter_map, List.map_map]
  rfl

theorem resize_opData (f : Mem → Nat) (op : Operand) (i : OpInfo Dim) : opData (h.resize f) op i = opData h op i := by
  simp only [opData, Hw.resize, List.map_map]
  rfl

/-! ### Double buffering -/

section buffer
variable {P : Type} [DecidableEq P] (groups : List (List P)) {ind ind' : P → ℚ}

private theorem shared_members (hin : ∀ g ∈ groups, ∀ p ∈ g, ind' p = ind p) :
    (∀ p, (∃ g ∈ groups, p ∈ g) → Buffer.shared groups ind' p = Buffer.shared groups ind p) ∧
      ∀ (i : P → ℚ) p, (¬ ∃ g ∈ groups, p ∈ g) → Buffer.shared groups i p = i p := by
  have gen : ∀ (gs : List (List P)) (i : P → ℚ) (t : P → ℚ) p, (¬ ∃ g ∈ gs, p ∈ g) →
      (gs.foldl (fun t g => Buffer.assign ((g.map i).sum) g t) t) p = t p := by
    intro gs i
    induction gs with
    | nil => intro t p _; rfl
    | cons g gs ih =>
      intro t p hp
      rw [List.foldl_cons, ih _ p (fun ⟨k, hk, hpk⟩ => hp ⟨k, List.mem_cons_of_mem _ hk, hpk⟩)]
      unfold Buffer.assign
      rw [if_neg (fun hpg => hp ⟨g, List.mem_cons_self, hpg⟩)]
  refine ⟨?_, fun i p hp => gen groups i i p hp⟩
  have : ∀ (gs : List (List P)), (∀ g ∈ gs, g ∈ groups) → ∀ (t t' : P → ℚ) p, t' p = t p →
      (gs.foldl (fun t g => Buffer.assign ((g.map ind').sum) g t) t') p = (gs.foldl (fun t g => Buffer.assign ((g.map ind).sum) g t) t) p := by
    intro gs
    induction gs with
    | nil => intro _ t t' p hp; exact hp
    | cons g gs ih =>
      intro hs t t' p hp
      rw [List.foldl_cons, List.foldl_cons]
      refine ih (fun k hk => hs k (List.mem_cons_of_mem _ hk)) _ _ p ?_
      unfold Buffer.assign
      have : g.map ind' = g.map ind := List.map_congr_left (fun q hq => hin g (hs g List.mem_cons_self) q hq)
      rw [this]
      split
      · rfl
      · exact hp
  rintro p ⟨g, hg, hp⟩
  exact this groups (fun _ h => h) ind ind' p (hin g hg p hp)

/-- More room outside shared memories never turns double buffering off. -/
theorem flags_mono (hin : ∀ g ∈ groups, ∀ p ∈ g, ind' p = ind p) (hout : ∀ p, (¬ ∃ g ∈ groups, p ∈ g) → ind p ≤ 1 / 2 → ind' p ≤ 1 / 2)
    (places : List P) (p : P) (hp : Buffer.flags groups ind places p = true) : Buffer.flags groups ind' places p = true := by
  have key : ∀ (ps : List P) (st st' : (P → ℚ) × (P → Bool)), (∀ p, (∃ g ∈ groups, p ∈ g) → st'.1 p = st.1 p) →
      (∀ p, (¬ ∃ g ∈ groups, p ∈ g) → st.1 p = ind p ∧ st'.1 p = ind' p) → (∀ p, st.2 p = true → st'.2 p = true) →
      ∀ p, (ps.foldl (Buffer.step groups ind) st).2 p = true → (ps.foldl (Buffer.step groups ind') st').2 p = true := by
    intro ps
    induction ps with
    | nil => intro st st' _ _ h; exact h
    | cons q ps ih =>
      intro st st' h1 h2 h3
      rw [List.foldl_cons, List.foldl_cons]
      have upd : ∀ b b' : Bool, (b = true → b' = true) → ∀ p, (if p = q then b else st.2 p) = true → (if p = q then b' else st'.2 p) = true := by
        intro b b' hb p hp
        split
        · rename_i e; rw [if_pos e] at hp; exact hb hp
        · rename_i e; rw [if_neg e] at hp; exact h3 p hp
      by_cases hq : ∃ g ∈ groups, q ∈ g
      · have e1 := h1 q hq
        have e2 : ind' q = ind q := by obtain ⟨g, hg, hqg⟩ := hq; exact hin g hg q hqg
        unfold Buffer.step
        rw [e1, e2]
        split
        · exact ih _ _ h1 h2 (upd _ _ id)
        · split
          · refine ih _ _ ?_ ?_ (upd _ _ id)
            · intro p hp
              simp only
              unfold Buffer.bump
              cases Buffer.groupOf groups q with
              | none => exact h1 p hp
              | some gs => simp only [h1 p hp]
            · intro p hp
              simp only
              unfold Buffer.bump Buffer.groupOf
              cases hg : groups.find? (fun g => decide (q ∈ g)) with
              | none => exact h2 p hp
              | some ps =>
                have hm := List.mem_of_find?_eq_some hg
                simp only [if_neg (fun hpp => hp ⟨ps, hm, hpp⟩)]
                exact h2 p hp
          · exact ih _ _ h1 h2 (upd _ _ id)
      · obtain ⟨e1, e2⟩ := h2 q hq
        have hnone : Buffer.groupOf groups q = none := by
          unfold Buffer.groupOf
          rw [List.find?_eq_none]
          intro g hg
          simp only [decide_eq_true_eq]
          exact fun hqg => hq ⟨g, hg, hqg⟩
        have hstep : ∀ (i : P → ℚ) (s : (P → ℚ) × (P → Bool)), s.1 q = i q →
            Buffer.step groups i s q = (s.1, fun p => if p = q then decide (i q ≤ 1 / 2) else s.2 p) := by
          intro i s hs
          unfold Buffer.step
          rw [hs, hnone]
          by_cases hle : i q ≤ 1 / 2
          · rw [if_pos hle]; simp only [decide_eq_true hle]
          · rw [if_neg hle, if_neg (by intro hc; exact hle (by linarith))]
            simp only [decide_eq_false hle]
        rw [hstep ind st e1, hstep ind' st' e2]
        refine ih _ _ h1 h2 (upd _ _ ?_)
        simp only [decide_eq_true_eq]
        exact hout q hq
  unfold Buffer.flags at hp ⊢
  obtain ⟨s1, s2⟩ := shared_members groups hin
  exact key places (Buffer.shared groups ind, fun _ => false) (Buffer.shared groups ind', fun _ => false) s1 (fun p hp => ⟨s2 ind p hp, s2 ind' p hp⟩)
    (fun _ h => h) p hp

end buffer

theorem resize_flags {f : Mem → Nat} (B : Built h) (hf : ∀ m ∈ h.mems, m.size ≤ f m) (hsh : ∀ m ∈ h.mems, f m ≠ m.size → m.holds.length ≤ 1)
    (m : Dict Operand (OpInfo Dim)) (op : Operand) :
    List.Forall₂ (fun b b' => b = true → b' = true) (flags h j m op) (flags (h.resize f) j m op) := by
  unfold flags
  refine .cons id ?_
  rw [List.forall₂_map_left_iff, List.forall₂_map_right_iff]
  refine List.forall₂_same.2 (fun lv _ => ?_)
  rw [resize_groups]
  have hsize : ∀ p, (sizeOf h p = 0 ∧ sizeOf (h.resize f) p = 0) ∨
      ∃ m, (h.levels p.1)[p.2]? = some m ∧ m ∈ h.mems ∧ sizeOf h p = m.size ∧ sizeOf (h.resize f) p = f m := by
    intro p
    simp only [sizeOf, Hw.resize, List.getElem?_map]
    cases hm : (h.levels p.1)[p.2]? with
    | none => left; exact ⟨rfl, rfl⟩
    | some m => right; exact ⟨m, rfl, B.inside p.1 m (List.mem_of_getElem? hm), rfl, rfl⟩
  refine flags_mono (groups h j) ?_ ?_ (places j) (op, lv)
  · intro g hg p hp
    unfold groups at hg
    obtain ⟨m0, hm0, rfl⟩ := List.mem_map.1 hg
    obtain ⟨h0, h1⟩ := List.mem_filter.1 hm0
    have hp0 := (List.mem_filter.1 hp).1
    have hlv := B.numbered m0 h0 p hp0
    rcases hsize p with ⟨z1, z2⟩ | ⟨m1, hl, -, s1, s2⟩
    · unfold effUtil Buffer.individual; rw [z1, z2]
    · rw [hlv] at hl
      cases hl
      have : f m0 = m0.size := by
        by_contra hne
        have := hsh m0 h0 hne
        simp only [decide_eq_true_eq] at h1
        omega
      unfold effUtil Buffer.individual
      rw [s1, s2, this]
  · intro p _ hle
    rcases hsize p with ⟨z1, z2⟩ | ⟨m1, -, hm1, s1, s2⟩
    · unfold effUtil Buffer.individual at hle ⊢; rwa [z2, ← z1]
    · unfold effUtil Buffer.individual at hle ⊢
      rw [s1] at hle
      rw [s2]
      simp only at hle ⊢
      generalize bitsAt _ p.2 = x at *
      have h0 : (0 : ℚ) < m1.size := by exact_mod_cast Nat.pos_of_ne_zero (B.size m1 hm1)
      have h1 : (m1.size : ℚ) ≤ f m1 := by exact_mod_cast hf m1 hm1
      by_cases hx : 0 ≤ x
      · exact (div_le_div_of_nonneg_left hx h0 h1).trans hle
      · have := div_nonpos_of_nonpos_of_nonneg (le_of_lt (not_le.1 hx)) (h0.le.trans h1)
        linarith

end Verif.Evaluate
