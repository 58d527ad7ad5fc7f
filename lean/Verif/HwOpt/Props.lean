import Verif.HwOpt.Lemmas
import Mathlib.Tactic.FinCases
import Mathlib.Tactic.NormNum
import Mathlib.Data.Rat.Floor

/-! Properties C103 and C104: the hardware optimizer stage. -/

namespace Verif.HwOpt

open Verif.Stages

variable {R Dim : Type} [DecidableEq Dim]

/-! ### Specification -/

/-- `y` is the description `y0` with an `l1` of `c.l1` KiB, of which four fifths (rounded down, in bits) are usable, its costs, an array of
`c.a × c.b × c.c` units, and ports wide enough for one 8 bit element of the first operand for each of the `a·b` rows, of the second for each
of the `b·c`, and one 32 bit output for each of the `a·c`.  Nothing else is different. -/
structure Tuned (y0 : Yaml R) (c : Config) (y : Yaml R) : Prop where
  rest : y.rest = y0.rest
  sizes : y.sizes = [c.a, c.b, c.c]
  size : 5 * y.l1.size ≤ 4 * (c.l1 * 1024 * 8) ∧ 4 * (c.l1 * 1024 * 8) < 5 * (y.l1.size + 1)
  read : (c.l1, y.l1.readCost) ∈ [((32 : Nat), (95 : ℚ)), (64, 104), (128, 118), (256, 132), (512, 147)]
  write : y.l1.writeCost = y.l1.readCost + y.l1.readCost / 5
  names : y.l1.ports.map Port.name = y0.l1.ports.map Port.name
  first : ∃ p, y.l1.ports[0]? = some p ∧ p.name = "rw_port_1" ∧ p.bandwidth = 8 * (c.a * c.b)
  second : ∃ p, y.l1.ports[1]? = some p ∧ p.name = "rw_port_2" ∧ p.bandwidth = 8 * (c.b * c.c)
  third : ∃ p, y.l1.ports[2]? = some p ∧ p.name = "rw_port_3" ∧ p.bandwidth = 32 * (c.a * c.c)
  others : ∀ i, 3 ≤ i → y.l1.ports[i]? = y0.l1.ports[i]?

/-- Size of array dimension `D<k>`, for `k` from 1 to 3. -/
def size (c : Config) : Nat → Nat
  | 1 => c.a
  | 2 => c.b
  | _ => c.c

/-- `m` unrolls, on every array dimension of `orig`, the layer dimension that comes first in `orig`, over the whole array dimension. -/
def Remapped (sizes : Dict Dim Nat) (orig : SM Dim) (c : Config) (m : SM Dim) : Prop :=
  m.keys = orig.keys ∧ ∀ k u, orig.get? k = some u → ∃ d v t n, u = (d, v) :: t ∧ m.get? k = some [(d, size c k)] ∧
    sizes.get? d = some n ∧ size c k ∣ n

/-- The layer is mapped on array dimensions `D1` to `D3`, each with at least one layer dimension. -/
def Mapped (sizes : Dict Dim Nat) (m : SM Dim) : Prop :=
  m.WF ∧ ∀ k u, m.get? k = some u → k ∈ [1, 2, 3] ∧ ∃ d v t n, u = (d, v) :: t ∧ sizes.get? d = some n

/-- The results of all configurations, in the order in which they are tried. -/
def Tried (sub : Yaml R → SM Dim → Except PyErr (List Res)) (y0 : Yaml R) (sizes : Dict Dim Nat) (orig : SM Dim) (c : Config)
    (o : Yaml R × SM Dim × List Res) : Prop :=
  Tuned y0 c o.1 ∧ Remapped sizes orig c o.2.1 ∧ sub o.1 o.2.1 = .ok o.2.2

/-! ### Proofs -/

/-- The configurations that are tried: five sizes of the memory and 8 or 16 units in each direction, each combination once. -/
theorem configs_spec : configs.Nodup ∧ configs.length = 40 ∧
    ∀ c, c ∈ configs ↔ c.l1 ∈ [32, 64, 128, 256, 512] ∧ c.a ∈ [8, 16] ∧ c.b ∈ [8, 16] ∧ c.c ∈ [8, 16] := by
  refine ⟨by decide +kernel, by decide +kernel, fun c => ?_⟩
  obtain ⟨l, a, b, d⟩ := c
  simp only [configs, List.mem_flatMap, List.mem_map, l1Sizes, arraySizes, Config.mk.injEq]
  constructor
  · rintro ⟨l', hl, a', ha, b', hb, c', hc, rfl, rfl, rfl, rfl⟩
    exact ⟨hl, ha, hb, hc⟩
  · rintro ⟨hl, ha, hb, hc⟩
    exact ⟨l, hl, a, ha, b, hb, d, hc, rfl, rfl, rfl, rfl⟩

theorem tuned_of_tune {y0 y : Yaml R} {c : Config} (h : tune y0 c = .ok y) : Tuned y0 c y := by
  obtain ⟨cost, p, q, r, t, h0, hp, h1, h2, h3, rfl⟩ := tune_ok.1 h
  refine ⟨rfl, rfl, ?_, ?_, ?_, ?_, ?_, ?_, ?_, ?_⟩
  · simp only [tuned]; omega
  · exact Dict.mem_of_get? h0
  · simp only [tuned]; ring
  · simp [tuned, hp]
  · exact ⟨_, rfl, h1, by simp only [tuned]; ring⟩
  · exact ⟨_, rfl, h2, by simp only [tuned]; ring⟩
  · exact ⟨_, rfl, h3, by simp only [tuned]; ring⟩
  · intro i hi
    obtain ⟨j, rfl⟩ : ∃ j, i = j + 3 := ⟨i - 3, by omega⟩
    simp [tuned, hp]

theorem sizeAt_small {c : Config} {k : Nat} (h : k ∈ [1, 2, 3]) : sizeAt c k = .ok (size c k) := by
  fin_cases h <;> simp [sizeAt, lead, size]

theorem keys_setAll : ∀ (l : List (Nat × Dict Dim Nat)) (m : SM Dim), (∀ e ∈ l, e.1 ∈ m.keys) → (setAll l m).keys = m.keys := by
  intro l
  induction l with
  | nil => intro m _; rfl
  | cons e t ih =>
    intro m h
    change (setAll t (m.set e.1 e.2)).keys = _
    have hk : (m.set e.1 e.2).keys = m.keys := by
      rw [Dict.keys_set, if_pos (h e (by simp))]
    rw [ih, hk]
    intro x hx
    rw [hk]; exact h x (by simp [hx])

theorem forall₂_find {A B : Type} {P : A → B → Prop} (f : A → Nat) (g : B → Nat) (hfg : ∀ a b, P a b → f a = g b) {l : List A} {l' : List B}
    (h : List.Forall₂ P l l') (hn : (l.map f).Nodup) {a : A} (ha : a ∈ l) : ∃ b, l'.find? (fun b => g b = f a) = some b ∧ P a b := by
  induction h with
  | nil => cases ha
  | cons hab ht ih =>
    rename_i x y t t'
    rw [List.map_cons, List.nodup_cons] at hn
    rw [List.find?_cons]
    rcases List.mem_cons.1 ha with rfl | ha
    · exact ⟨y, by simp [hfg _ _ hab], hab⟩
    · have hne : ¬ g y = f a := by
        rw [← hfg _ _ hab]
        intro hc
        exact hn.1 (List.mem_map.2 ⟨a, ha, hc.symm⟩)
      simpa [hne] using ih hn.2 ha

theorem newMapping_remapped {sizes : Dict Dim Nat} {orig m : SM Dim} {c : Config} (hm : Mapped sizes orig) (h : newMapping sizes orig c = .ok m) :
    Remapped sizes orig c m := by
  obtain ⟨l', hl, rfl⟩ := (remap_ok _ _ _).1 h
  have hkeys : l'.map Prod.fst = orig.map Prod.fst := by
    clear h hm
    induction hl with
    | nil => rfl
    | cons hab _ ih =>
      obtain ⟨s, d, v, t, n, _, _, _, _, rfl⟩ := hab
      simpa using ih
  have hnd : (orig.map Prod.fst).Nodup := hm.1
  constructor
  · apply keys_setAll
    intro e he
    have : e.1 ∈ l'.map Prod.fst := List.mem_map.2 ⟨e, he, rfl⟩
    rw [hkeys] at this
    exact this
  · intro k u hu
    obtain ⟨hk, d, v, t, n, hu', hn⟩ := hm.2 k u hu
    have hmem : (k, u) ∈ orig := Dict.mem_of_get? hu
    obtain ⟨b, hb, s, d', v', t', n', h1, h2, h3, h4, rfl⟩ := forall₂_find Prod.fst Prod.fst
      (by rintro a b ⟨s, d, v, t, n, _, _, _, _, rfl⟩; rfl) hl hnd hmem
    rw [sizeAt_small hk] at h1
    cases h1
    refine ⟨d', v', t', n', h2, ?_, h3, Nat.dvd_of_mod_eq_zero h4⟩
    rw [setAll_get _ _ _ (hkeys ▸ hnd)]
    simp only at hb
    simp [hb]

theorem newMapping_exists {sizes : Dict Dim Nat} {orig : SM Dim} {c : Config} (hm : Mapped sizes orig) :
    (∃ m, newMapping sizes orig c = .ok m) ↔ ∀ k d v t n, orig.get? k = some ((d, v) :: t) → sizes.get? d = some n → size c k ∣ n := by
  constructor
  · rintro ⟨m, h⟩ k d v t n hu hn
    obtain ⟨_, h2⟩ := newMapping_remapped hm h
    obtain ⟨d', v', t', n', e1, _, e3, e4⟩ := h2 k _ hu
    cases e1
    rw [hn] at e3
    cases e3
    exact e4
  · intro h
    suffices hs : ∃ l', List.Forall₂ (Fits sizes c) orig l' by
      obtain ⟨l', hl⟩ := hs
      exact ⟨_, (remap_ok _ _ _).2 ⟨l', hl, rfl⟩⟩
    have hall : ∀ e ∈ orig, ∃ e', Fits sizes c e e' := by
      rintro ⟨k, u⟩ he
      have hu := (Dict.mem_iff hm.1).1 he
      obtain ⟨hk, d, v, t, n, rfl, hn⟩ := hm.2 k u hu
      exact ⟨_, size c k, d, v, t, n, sizeAt_small hk, rfl, hn, Nat.mod_eq_zero_of_dvd (h k d v t n hu hn), rfl⟩
    clear h hm
    generalize hg : (orig : List (Nat × Dict Dim Nat)) = l at hall ⊢
    clear hg
    induction l with
    | nil => exact ⟨[], .nil⟩
    | cons e t ih =>
      obtain ⟨e', he⟩ := hall e (by simp)
      obtain ⟨t', ht⟩ := ih (fun x hx => hall x (by simp [hx]))
      exact ⟨e' :: t', .cons he ht⟩

theorem forall₂_mem {A B : Type} {P : A → B → Prop} {l : List A} {l' : List B} (h : List.Forall₂ P l l') {a : A} (ha : a ∈ l) : ∃ b ∈ l', P a b := by
  induction h with
  | nil => cases ha
  | cons hab _ ih =>
    rcases List.mem_cons.1 ha with rfl | ha
    · exact ⟨_, by simp, hab⟩
    · obtain ⟨b, hb, h⟩ := ih ha
      exact ⟨b, by simp [hb], h⟩

theorem forall₂_mem' {A B : Type} {P : A → B → Prop} {l : List A} {l' : List B} (h : List.Forall₂ P l l') {b : B} (hb : b ∈ l') : ∃ a ∈ l, P a b :=
  forall₂_mem (List.Forall₂.flip (R := fun b a => P a b) h) hb

theorem forall₂_of_forall {A B : Type} {P : A → B → Prop} : ∀ (l : List A), (∀ a ∈ l, ∃ b, P a b) → ∃ l', List.Forall₂ P l l'
  | [], _ => ⟨[], .nil⟩
  | a :: t, h => by
    obtain ⟨b, hb⟩ := h a (by simp)
    obtain ⟨t', ht⟩ := forall₂_of_forall t (fun x hx => h x (by simp [hx]))
    exact ⟨b :: t', .cons hb ht⟩

theorem tune_of_tuned {y0 y : Yaml R} {c : Config} (h : Tuned y0 c y) : tune y0 c = .ok y := by
  obtain ⟨⟨sz, rc, wc, ps⟩, szs, rest⟩ := y
  obtain ⟨t1, t2, t3, t4, t5, t6, t7, t8, t9, t10⟩ := h
  simp only at t1 t2 t3 t4 t5 t6 t7 t8 t9 t10
  obtain ⟨p', hp', np, bp⟩ := t7
  obtain ⟨q', hq', nq, bq⟩ := t8
  obtain ⟨r', hr', nr, br⟩ := t9
  obtain ⟨p, q, r, t, hports, n1, n2, n3⟩ : Named y0.l1.ports := by
    rw [named_iff, ← t6, ← named_iff]
    match ps, hp', hq', hr' with
    | p :: q :: r :: t, hp', hq', hr' =>
      simp at hp' hq' hr'
      exact ⟨p, q, r, t, rfl, hp' ▸ np, hq' ▸ nq, hr' ▸ nr⟩
    | [p, q], hp', hq', hr' => simp at hr'
    | [p], hp', hq', hr' => simp at hq'
  refine tune_ok.2 ⟨rc, p, q, r, t, (Dict.mem_iff (by simp [Dict.WF, readCosts, Dict.keys])).1 t4, hports, n1, n2, n3, ?_⟩
  have hps : ps = ⟨p.name, c.a * c.b * 8⟩ :: ⟨q.name, c.b * c.c * 8⟩ :: ⟨r.name, c.a * c.c * 32⟩ :: t := by
    apply List.ext_getElem?
    intro i
    match i with
    | 0 => rw [hp']; obtain ⟨pn, pb⟩ := p'; simp only at np bp; simp [np, bp, n1, mul_comm]
    | 1 => rw [hq']; obtain ⟨pn, pb⟩ := q'; simp only at nq bq; simp [nq, bq, n2, mul_comm]
    | 2 => rw [hr']; obtain ⟨pn, pb⟩ := r'; simp only at nr br; simp [nr, br, n3, mul_comm]
    | i + 3 => rw [t10 (i + 3) (by omega), hports]; simp
  have hsz : sz = c.l1 * 1024 * 8 * 8 / 10 := by omega
  have hwc : wc = 6 / 5 * rc := by rw [t5]; ring
  simp only [tuned]
  rw [t1, t2, hps, hsz, hwc]

theorem dict_ext {K V : Type} [DecidableEq K] : ∀ (d e : Dict K V), d.WF → e.keys = d.keys → (∀ k ∈ d.keys, e.get? k = d.get? k) → e = d := by
  intro d
  induction d with
  | nil =>
    intro e _ hk _
    exact List.map_eq_nil_iff.1 hk
  | cons x t ih =>
    intro e hw hk hg
    cases e with
    | nil => cases hk
    | cons x' t' =>
      obtain ⟨k, v⟩ := x
      obtain ⟨k', v'⟩ := x'
      simp only [Dict.keys, List.map_cons, List.cons.injEq] at hk
      obtain ⟨rfl, hk⟩ := hk
      have h1 := hg k' (by simp [Dict.keys])
      simp only [Dict.get?_cons, if_pos] at h1
      cases h1
      have hnot : k' ∉ t.map Prod.fst := (List.nodup_cons.1 hw).1
      rw [ih t' (List.nodup_cons.1 hw).2 hk]
      intro k hk'
      have := hg k (by simp [Dict.keys]; exact .inr (by simpa [Dict.keys] using hk'))
      rw [Dict.get?_cons, Dict.get?_cons] at this
      have hne : ¬ k' = k := by rintro rfl; exact hnot hk'
      simpa [hne] using this

theorem newMapping_of_remapped {sizes : Dict Dim Nat} {orig m : SM Dim} {c : Config} (hm : Mapped sizes orig) (h : Remapped sizes orig c m) :
    newMapping sizes orig c = .ok m := by
  obtain ⟨m', hmap⟩ := (newMapping_exists (c := c) hm).2 (fun k d v t n hu hn => by
    obtain ⟨d', v', t', n', e1, _, e3, e4⟩ := h.2 k _ hu
    cases e1
    rw [hn] at e3
    cases e3
    exact e4)
  have hr := newMapping_remapped hm hmap
  have : m = m' := by
    apply dict_ext
    · unfold Dict.WF; rw [hr.1]; exact hm.1
    · rw [h.1, hr.1]
    · intro k hk
      rw [hr.1] at hk
      obtain ⟨e, he, rfl⟩ := List.mem_map.1 hk
      have hu := (Dict.mem_iff hm.1).1 he
      obtain ⟨d1, v1, t1, _, e1, e2, _⟩ := hr.2 _ _ hu
      obtain ⟨d2, v2, t2, _, e3, e4, _⟩ := h.2 _ _ hu
      rw [e1] at e3
      cases e3
      rw [e2, e4]
  rw [this]; exact hmap

theorem loop_run {sub : Yaml R → SM Dim → Except PyErr (List Res)} {y : Yaml R} {l : Layer Dim} {files : Dict Nat (Yaml R)} {b : Res} {s : St R Dim}
    (h : run sub true y [l] files = .ok (b, s)) : l.type = "Gemm" ∧
    loop sub l.sizes l.mapping configs 0 { yaml := y, mapping := l.mapping, files := files, best := none, all := [] } = .ok s ∧ s.best = some b := by
  unfold run at h
  rw [if_pos rfl] at h
  simp only at h
  by_cases ht : l.type = "Gemm"
  · rw [if_pos ht] at h
    refine ⟨ht, ?_⟩
    cases hl : loop sub l.sizes l.mapping configs 0 { yaml := y, mapping := l.mapping, files := files, best := none, all := [] } with
    | error e => rw [hl] at h; cases h
    | ok s' =>
      simp only [hl] at h
      cases hb : s'.best with
      | none => rw [hb] at h; cases h
      | some b' =>
        simp only [hb, Except.ok.injEq, Prod.mk.injEq] at h
        obtain ⟨rfl, rfl⟩ := h
        exact ⟨rfl, hb⟩
  · rw [if_neg ht] at h; cases h

/-- Whatever the other stages do: if the stage yields a result, every one of the 40 configurations was evaluated, each with its own
hardware description (nothing of the previously tried configuration is left in it) and with the layer mapped to its array sizes; the result is
the first among all results of all configurations with the smallest latency, ties decided by energy; and the description of configuration
number `i` can be found in the file with that number. -/
theorem returns_best {sub : Yaml R → SM Dim → Except PyErr (List Res)} {y : Yaml R} {l : Layer Dim} {files : Dict Nat (Yaml R)} {b : Res} {s : St R Dim}
    (hm : Mapped l.sizes l.mapping) (h : run sub true y [l] files = .ok (b, s)) :
    ∃ os : List (Yaml R × SM Dim × List Res), List.Forall₂ (Tried sub y l.sizes l.mapping) configs os ∧
      s.all = os.flatMap (fun o => o.2.2) ∧ IsFirstMin (fun r => toLex (r.latency, r.energy)) (os.flatMap (fun o => o.2.2)) b ∧
      (∀ i : Nat, i < 40 → s.files.get? i = os[i]?.map Prod.fst) ∧ ∀ i : Nat, 40 ≤ i → s.files.get? i = files.get? i := by
  obtain ⟨_, hl, hb⟩ := loop_run h
  obtain ⟨os, hos, rfl⟩ := (loop_ok configs 0 _ s (same_refl y)).1 hl
  have hlen : os.length = 40 := by rw [← hos.length_eq, configs_spec.2.1]
  refine ⟨os.map (fun o => (o.yaml, o.mapping, o.results)), ?_, ?_, ?_, ?_, ?_⟩
  · rw [List.forall₂_map_right_iff]
    exact hos.imp (fun c o ⟨h1, h2, h3⟩ => ⟨tuned_of_tune h1, newMapping_remapped hm h2, h3⟩)
  · simp [List.flatMap_map]
  · rw [List.flatMap_map]
    rcases consider_none (os.flatMap Out.results) with ⟨_, hc⟩ | ⟨c, hc, hmin⟩
    · simp only at hb
      rw [hc] at hb; cases hb
    · simp only at hb
      rw [hc] at hb; cases hb
      exact hmin
  · intro i hi
    simp only
    rw [writeAll_get, if_neg (by omega), Nat.sub_zero]
    have : i < os.length := by omega
    simp [this]
  · intro i hi
    simp only
    rw [writeAll_get, if_neg (by omega), Nat.sub_zero, List.getElem?_eq_none (by omega)]

/-- In plain terms: no configuration has a result with smaller latency, nor one with the same latency and smaller energy. -/
theorem no_better {sub : Yaml R → SM Dim → Except PyErr (List Res)} {y : Yaml R} {l : Layer Dim} {files : Dict Nat (Yaml R)} {b : Res} {s : St R Dim}
    (h : run sub true y [l] files = .ok (b, s)) : b ∈ s.all ∧ ∀ r ∈ s.all, b.latency ≤ r.latency ∧ (r.latency = b.latency → b.energy ≤ r.energy) := by
  obtain ⟨_, hl, hb⟩ := loop_run h
  obtain ⟨os, hos, rfl⟩ := (loop_ok configs 0 _ s (same_refl y)).1 hl
  simp only [List.nil_append] at hb ⊢
  rcases consider_none (os.flatMap Out.results) with ⟨_, hc⟩ | ⟨c, hc, hmin⟩
  · rw [hc] at hb; cases hb
  · rw [hc] at hb; cases hb
    obtain ⟨pre, post, h1, h2, h3⟩ := hmin
    rw [h1]
    refine ⟨by simp, fun r hr => ?_⟩
    have hk : ¬ toLex (r.latency, r.energy) < toLex (b.latency, b.energy) := by
      rcases List.mem_append.1 hr with hr | hr
      · exact not_lt.2 (le_of_lt (h2 r hr))
      · rcases List.mem_cons.1 hr with rfl | hr
        · exact lt_irrefl _
        · exact h3 r hr
    rw [Prod.Lex.toLex_lt_toLex] at hk
    push Not at hk
    exact ⟨hk.1, fun he => hk.2 he⟩

/-- When the stage yields a result: exactly when the ports of `l1` start with the three expected ones, the first layer dimension mapped to
each array dimension has a size divisible by 16, the other stages succeed for each configuration, and at least once with a result. -/
theorem returns_iff {sub : Yaml R → SM Dim → Except PyErr (List Res)} {y : Yaml R} {l : Layer Dim} {files : Dict Nat (Yaml R)}
    (ht : l.type = "Gemm") (hm : Mapped l.sizes l.mapping) : (∃ r, run sub true y [l] files = .ok r) ↔
      (y.l1.ports.map Port.name).take 3 = ["rw_port_1", "rw_port_2", "rw_port_3"] ∧
      (∀ k d v t n, l.mapping.get? k = some ((d, v) :: t) → l.sizes.get? d = some n → 16 ∣ n) ∧
      (∀ c ∈ configs, ∀ y' m', Tuned y c y' → Remapped l.sizes l.mapping c m' → ∃ rs, sub y' m' = .ok rs) ∧
      ∃ c ∈ configs, ∃ y' m' rs, Tuned y c y' ∧ Remapped l.sizes l.mapping c m' ∧ sub y' m' = .ok rs ∧ rs ≠ [] := by
  constructor
  · rintro ⟨⟨b, s⟩, h⟩
    obtain ⟨os, h1, h2, h3, _⟩ := returns_best hm h
    have hex : ∀ c ∈ configs, ∃ o ∈ os, Tried sub y l.sizes l.mapping c o := fun c hc => forall₂_mem h1 hc
    refine ⟨?_, ?_, ?_, ?_⟩
    · obtain ⟨o, _, ho⟩ := hex ⟨512, 16, 16, 16⟩ (by decide +kernel)
      obtain ⟨cost, p, q, r, t, _, hp, e1, e2, e3, _⟩ := tune_ok.1 (tune_of_tuned ho.1)
      exact (named_iff _).1 ⟨p, q, r, t, hp, e1, e2, e3⟩
    · intro k d v t n hu hn
      obtain ⟨o, _, ho⟩ := hex ⟨512, 16, 16, 16⟩ (by decide +kernel)
      obtain ⟨d', v', t', n', e1, _, e3, e4⟩ := ho.2.1.2 k _ hu
      cases e1
      rw [hn] at e3
      cases e3
      have hk := (hm.2 k _ hu).1
      fin_cases hk <;> simpa [size] using e4
    · intro c hc y' m' hy' hm'
      obtain ⟨o, _, ho⟩ := hex c hc
      have e1 := tune_of_tuned hy'
      rw [tune_of_tuned ho.1] at e1
      have e2 := newMapping_of_remapped hm hm'
      rw [newMapping_of_remapped hm ho.2.1] at e2
      cases e1
      cases e2
      exact ⟨_, ho.2.2⟩
    · obtain ⟨pre, post, hb, _⟩ := h3
      have : b ∈ os.flatMap (fun o => o.2.2) := by rw [hb]; simp
      obtain ⟨o, ho, hbo⟩ := List.mem_flatMap.1 this
      obtain ⟨c, hc, hto⟩ := forall₂_mem' h1 ho
      exact ⟨c, hc, o.1, o.2.1, o.2.2, hto.1, hto.2.1, hto.2.2, fun hn => by rw [hn] at hbo; cases hbo⟩
  · rintro ⟨hp, hd, hsub, c, hc, y', m', rs, ty, tm, hrs, hne⟩
    have hall : ∀ c ∈ configs, ∃ o : Out R Dim, Eval sub l.sizes l.mapping y c o := by
      intro c hc
      obtain ⟨hl, ha, hb, hcc⟩ := (configs_spec.2.2 c).1 hc
      obtain ⟨p, q, r, t, hports, n1, n2, n3⟩ := (named_iff _).2 hp
      obtain ⟨cost, hcost⟩ : ∃ cost, readCosts.get? c.l1 = some cost := by
        generalize c.l1 = x at hl
        fin_cases hl <;> exact ⟨_, rfl⟩
      have htune := tune_ok.2 ⟨cost, p, q, r, t, hcost, hports, n1, n2, n3, rfl⟩
      obtain ⟨m, hmap⟩ := (newMapping_exists (c := c) hm).2 (fun k d v t n hu hn => by
        refine Nat.dvd_trans ?_ (hd k d v t n hu hn)
        have h8 : ∀ x ∈ [8, 16], x ∣ 16 := by decide
        have hk := (hm.2 k _ hu).1
        fin_cases hk
        · exact h8 _ ha
        · exact h8 _ hb
        · exact h8 _ hcc)
      obtain ⟨rs, hrs⟩ := hsub c hc _ _ (tuned_of_tune htune) (newMapping_remapped hm hmap)
      exact ⟨⟨_, _, rs⟩, htune, hmap, hrs⟩
    obtain ⟨ps, h1⟩ := forall₂_of_forall configs hall
    unfold run
    rw [if_pos rfl]
    simp only [if_pos ht]
    rw [(loop_ok configs 0 _ _ (same_refl y)).2 ⟨ps, h1, rfl⟩]
    simp only
    rcases consider_none (ps.flatMap Out.results) with ⟨he, _⟩ | ⟨b, he, _⟩
    · exfalso
      obtain ⟨o, ho, e1, e2, e3⟩ := forall₂_mem h1 hc
      rw [tune_of_tuned ty] at e1
      rw [newMapping_of_remapped hm tm] at e2
      cases e1
      cases e2
      rw [hrs] at e3
      cases e3
      rw [List.flatMap_eq_nil_iff] at he
      exact hne (he o ho)
    · rw [he]; exact ⟨_, rfl⟩

/-- Requests that are refused: another accelerator, more or less than one layer, or a layer that is not a matrix product. -/
theorem refused {sub : Yaml R → SM Dim → Except PyErr (List Res)} {path : Bool} {y : Yaml R} {ls : List (Layer Dim)} {files : Dict Nat (Yaml R)}
    (h : path = false ∨ ls.length ≠ 1 ∨ ∃ l ∈ ls, l.type ≠ "Gemm") : run sub path y ls files = .error .assertion := by
  unfold run
  cases path with
  | false => rfl
  | true =>
    rw [if_pos rfl]
    match ls with
    | [] => rfl
    | [l] =>
      rcases h with h | h | ⟨l', hl, h⟩
      · cases h
      · exact absurd rfl h
      · rw [List.mem_singleton.1 hl] at h
        simp only [if_neg h]
    | _ :: _ :: _ => rfl

/-- The size of the memory does not suffer from the rounding of `0.8` to a double: the product with the double nearest to 4/5 (all sizes are
powers of two, so the product is exact) has the same integer part. -/
theorem size_float : ∀ l ∈ [32, 64, 128, 256, 512], ⌊((l * 1024 * 8 : Nat) : ℚ) * (3602879701896397 / 4503599627370496)⌋ = ((l * 1024 * 8 * 8 / 10 : Nat) : Int) := by
  intro l hl
  fin_cases hl <;> norm_num [Int.floor_eq_iff]

/-! ### C104 -/

/-- What is left behind: after a run the layer of the workload carries the mapping of the configuration tried last, `16 × 16 × 16`. -/
theorem mapping_left {sub : Yaml R → SM Dim → Except PyErr (List Res)} {y : Yaml R} {l : Layer Dim} {files : Dict Nat (Yaml R)} {b : Res} {s : St R Dim}
    (hm : Mapped l.sizes l.mapping) (h : run sub true y [l] files = .ok (b, s)) : Remapped l.sizes l.mapping ⟨512, 16, 16, 16⟩ s.mapping := by
  obtain ⟨_, hl, hbest⟩ := loop_run h
  obtain ⟨os, hos, rfl⟩ := (loop_ok configs 0 _ s (same_refl y)).1 hl
  simp only
  obtain ⟨o, ho, hlast⟩ : ∃ o, Eval sub l.sizes l.mapping y ⟨512, 16, 16, 16⟩ o ∧ os.getLast? = some o := by
    have hc : configs.getLast? = some ⟨512, 16, 16, 16⟩ := by decide +kernel
    clear h hl hm hbest
    generalize configs = cs at hos hc
    induction hos with
    | nil => cases hc
    | cons hab ht ih =>
      cases ht with
      | nil =>
        cases hc
        exact ⟨_, hab, rfl⟩
      | cons h1 h2 =>
        rw [List.getLast?_cons_cons] at hc ⊢
        exact ih hc
  rw [hlast]
  exact newMapping_remapped hm ho.2.1

/-- The workload is left as it was only if it was already mapped to `16 × 16 × 16` units. -/
theorem workload_kept_partial {sub : Yaml R → SM Dim → Except PyErr (List Res)} {y : Yaml R} {l : Layer Dim} {files : Dict Nat (Yaml R)} {b : Res}
    {s : St R Dim} (hm : Mapped l.sizes l.mapping) (h : run sub true y [l] files = .ok (b, s)) :
    s.mapping = l.mapping ↔ ∀ k u, l.mapping.get? k = some u → ∃ d, u = [(d, 16)] := by
  have hr := mapping_left hm h
  constructor
  · intro he k u hu
    obtain ⟨d, v, t, n, _, e2, _⟩ := hr.2 k u hu
    rw [he, hu] at e2
    cases e2
    have hk := (hm.2 k _ hu).1
    exact ⟨d, by fin_cases hk <;> rfl⟩
  · intro hall
    apply dict_ext _ _ hm.1 hr.1
    intro k hk
    obtain ⟨e, he, rfl⟩ := List.mem_map.1 hk
    have hu := (Dict.mem_iff hm.1).1 he
    obtain ⟨d, v, t, n, e1, e2, _⟩ := hr.2 _ _ hu
    obtain ⟨d', e3⟩ := hall _ _ hu
    rw [e2, hu, e3]
    rw [e1] at e3
    cases e3
    have hk := (hm.2 _ _ hu).1
    generalize e.1 = x at hk
    fin_cases hk <;> rfl

/-- A layer can only be searched if all its mapped dimensions are divisible by the largest array size: with any other layer the stage never
yields, whatever the other stages do. -/
theorem needs_sixteen {sub : Yaml R → SM Dim → Except PyErr (List Res)} {y : Yaml R} {l : Layer Dim} {files : Dict Nat (Yaml R)}
    (ht : l.type = "Gemm") (hm : Mapped l.sizes l.mapping) {k : Nat} {d : Dim} {v n : Nat} {t : Dict Dim Nat} (hu : l.mapping.get? k = some ((d, v) :: t))
    (hn : l.sizes.get? d = some n) (h16 : ¬ 16 ∣ n) : ∀ r, run sub true y [l] files ≠ .ok r := by
  intro r h
  exact h16 (((returns_iff ht hm).1 ⟨r, h⟩).2.1 k d v t n hu hn)

/-! ### Concrete cases -/

/-- The description in /repo/zigzag/inputs/hardware/gemm_l1_l3.yaml. -/
def yaml0 : Yaml Unit := ⟨⟨943718, 118, 708 / 5, [⟨"rw_port_1", 512⟩, ⟨"rw_port_2", 512⟩, ⟨"rw_port_3", 2048⟩, ⟨"rw_port_4", 512⟩]⟩, [8, 8, 8], ()⟩

/-- A matrix product of size 32 × 64 × 48, mapped as in the mapping that comes with this accelerator. -/
def gemm : Layer Nat := ⟨"Gemm", [(0, 32), (1, 64), (2, 48)], [(1, [(0, 8)]), (2, [(2, 8)]), (3, [(1, 8)])]⟩

/-- Cost model for the examples: latency grows with the array and the memory. -/
def toy (y : Yaml Unit) (m : SM Nat) : Except PyErr (List Res) :=
  .ok [⟨y.l1.size, (y.sizes.sum : ℚ) + (((m.flatMap Prod.snd).map Prod.snd).sum : ℚ), true⟩]

example : Mapped gemm.sizes gemm.mapping := by
  constructor
  · show [1, 2, 3].Nodup; decide
  · intro k u h
    have hmem := Dict.mem_of_get? h
    simp only [gemm, List.mem_cons, Prod.mk.injEq, List.not_mem_nil, or_false] at hmem
    rcases hmem with ⟨rfl, rfl⟩ | ⟨rfl, rfl⟩ | ⟨rfl, rfl⟩
    · exact ⟨by simp, 0, 8, [], 32, rfl, by decide⟩
    · exact ⟨by simp, 2, 8, [], 48, rfl, by decide⟩
    · exact ⟨by simp, 1, 8, [], 64, rfl, by decide⟩

/-- The run succeeds and finds the smallest array with the smallest memory. -/
example : (match run toy true yaml0 [gemm] [] with | .ok r => some r.1 | _ => none) = some ⟨209715, 48, true⟩ := by decide +kernel

/-- After a search the workload carries the mapping of the last configuration that was tried, neither the one the user gave nor the one of the
best result: here the best result belongs to `8 × 8 × 8` units, as the mapping before the run, while the layer is left mapped to
`16 × 16 × 16` units. -/
theorem mapping_left_false : (match run toy true yaml0 [gemm] [] with | .ok r => some (r.1, r.2.mapping) | _ => none) =
    some (⟨209715, 48, true⟩, [(1, [(0, 16)]), (2, [(2, 16)]), (3, [(1, 16)])]) ∧ gemm.mapping = [(1, [(0, 8)]), (2, [(2, 8)]), (3, [(1, 8)])] := by
  decide +kernel

/-- A layer whose sizes are divisible by 8 but not by 16 stops the search with `ValueError`, and the results found until then are lost, although
the arrays of size 8 suit it: `8 × 8 × 8`, the first configuration, is evaluated without problems. -/
theorem needs_sixteen_false :
    (match run toy true yaml0 [{ gemm with sizes := [(0, 40), (1, 64), (2, 48)] }] [] with | .ok _ => none | .error e => some e) = some .valueError ∧
    (match newMapping [(0, 40), (1, 64), (2, 48)] gemm.mapping ⟨32, 8, 8, 8⟩ with | .ok m => some m | .error _ => none) = some gemm.mapping := by
  decide +kernel

/-- If several layer dimensions are unrolled on one array dimension, only the first is kept, and it takes all of the array dimension, also if its
size is smaller than the product that was mapped: here `D1` was 2 × 8, and becomes 8 resp. 16 in the first dimension. -/
theorem mixed_mapping_false : (match newMapping [(0, 32), (1, 64), (2, 48)] [(1, [(0, 2), (1, 8)])] ⟨32, 8, 8, 8⟩ with | .ok m => some m | .error _ => none) =
    some [(1, [(0, 8)])] := by decide +kernel

/-- Only the first digit of the number of an array dimension is looked at: the unrolling of `D12` follows the size of `D1`, and `D4` raises
`IndexError`. -/
theorem dimension_number_false :
    (match newMapping [(0, 32)] [(12, [(0, 8)])] ⟨32, 16, 8, 8⟩ with | .ok m => some m | .error _ => none) = some [(12, [(0, 16)])] ∧
    (match newMapping [(0, 32)] [(4, [(0, 8)])] ⟨32, 16, 8, 8⟩ with | .ok _ => none | .error e => some e) = some .indexError := by decide +kernel

/-- An array dimension without an unrolling stops the search with `RuntimeError`. -/
theorem empty_unrolling_false : (match run toy true yaml0 [{ gemm with mapping := [(1, []), (2, [(2, 8)])] }] [] with | .ok _ => none | .error e => some e) =
    some .runtimeError := by decide +kernel

end Verif.HwOpt
