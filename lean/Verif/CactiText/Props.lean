import Verif.CactiText.Chars
import Mathlib.Data.List.Forall2
import Mathlib.Data.List.Nodup
import Mathlib.Tactic.Linarith

/-! Properties of the configuration for CACTI and of the results that are read back (C128, C129). -/

namespace Verif.CactiText

/-! ### Configuration -/

/-- `v` is what is wanted for the option: the value at the first place of its name, or the default if it is not named. -/
def Wanted (names values : List String) (o : Opt) (v : String) : Prop :=
  (∃ i : ℕ, names[i]? = some o.key ∧ (∀ j < i, names[j]? ≠ some o.key) ∧ values[i]? = some v) ∨ (o.key ∉ names ∧ v = o.dflt)

/-- The reader of CACTI that is meant for an option, with the name of the option. -/
def meant : List (String × String) := [
  ("cache_size", "-size"), ("line_size", "-block"), ("IO_bus_width", "-output/input"), ("associativity", "-associativity"), ("rd_wr_port", "-read-write"),
  ("ex_rd_port", "-exclusive rea"), ("ex_wr_port", "-exclusive write"), ("single_rd_port", "-single ended"), ("bank_count", "-UCA bank"),
  ("technology", "-technology"), ("mem_type", "-cache type")]

theorem idxOf_wanted {names values : List String} {o : Opt} (h : o.key ∈ names) {v : String} (hv : values[names.idxOf o.key]? = some v) : Wanted names values o v := by
  refine Or.inl ⟨names.idxOf o.key, ?_, ?_, hv⟩
  · rw [List.getElem?_eq_getElem (List.idxOf_lt_length_of_mem h), List.getElem_idxOf]
  · intro j hj hc
    obtain ⟨hl, he⟩ := List.getElem?_eq_some_iff.1 hc
    have := List.not_of_lt_findIdx (p := (· == o.key)) hj
    simp [he] at this

theorem wanted_unique {names values : List String} {o : Opt} {v w : String} (h : Wanted names values o v) (h' : Wanted names values o w) : v = w := by
  rcases h with ⟨i, h1, h2, h3⟩ | ⟨h1, rfl⟩ <;> rcases h' with ⟨j, g1, g2, g3⟩ | ⟨g1, rfl⟩
  · have : i = j := by
      rcases lt_trichotomy i j with hl | rfl | hl
      · exact absurd h1 (g2 i hl)
      · rfl
      · exact absurd g1 (h2 j hl)
    subst this
    rw [h3] at g3
    exact Option.some.inj g3
  · exact absurd (List.mem_of_getElem? h1) g1
  · exact absurd (List.mem_of_getElem? g1) h1
  · rfl

/-- C128: a configuration is written exactly when every named option has a value; it has one line per option, with the value that is wanted. -/
theorem single_spec (names values : List String) (opts : List Opt) :
    ((∃ ls, single names values opts = .ok ls) ↔ ∀ o ∈ opts, ∃ v, Wanted names values o v) ∧
    ∀ ls, single names values opts = .ok ls → List.Forall₂ (fun o l => ∃ v, Wanted names values o v ∧ l = line o v) opts ls := by
  induction opts with
  | nil => exact ⟨⟨fun _ => by simp, fun _ => ⟨[], rfl⟩⟩, fun ls h => by cases h; exact .nil⟩
  | cons o os ih =>
    obtain ⟨i1, i2⟩ := ih
    rw [single]
    by_cases hk : o.key ∈ names
    · rw [if_pos hk]
      cases hv : values[names.idxOf o.key]? with
      | none =>
        simp only [reduceCtorEq, exists_false, false_iff, false_implies, implies_true, and_true]
        intro h
        obtain ⟨v, hw⟩ := h o (by simp)
        rcases hw with ⟨i, h1, h2, h3⟩ | ⟨h1, -⟩
        · have hi : names.idxOf o.key = i := by
            have hlt := List.idxOf_lt_length_of_mem hk
            have he : names[names.idxOf o.key]? = some o.key := by rw [List.getElem?_eq_getElem hlt, List.getElem_idxOf]
            rcases lt_trichotomy (names.idxOf o.key) i with hl | e | hl
            · exact absurd he (h2 _ hl)
            · exact e
            · obtain ⟨hl', he'⟩ := List.getElem?_eq_some_iff.1 h1
              have := List.not_of_lt_findIdx (p := (· == o.key)) hl
              simp [he'] at this
          rw [hi, h3] at hv
          cases hv
        · exact h1 hk
      | some v =>
        have hw := idxOf_wanted hk hv
        simp only
        cases hs : single names values os with
        | error e =>
          simp only [reduceCtorEq, exists_false, false_iff, false_implies, implies_true, and_true]
          rw [hs] at i1
          simp only [reduceCtorEq, exists_false, false_iff] at i1
          exact fun h => i1 (fun x hx => h x (by simp [hx]))
        | ok ls =>
          rw [hs] at i1 i2
          simp only [Except.ok.injEq, exists_eq', true_iff] at i1
          refine ⟨⟨fun _ x hx => ?_, fun _ => ⟨_, rfl⟩⟩, ?_⟩
          · rcases List.mem_cons.1 hx with rfl | hx
            · exact ⟨v, hw⟩
            · exact i1 x hx
          · rintro ls' h
            cases h
            exact .cons ⟨v, hw, rfl⟩ (i2 ls rfl)
    · rw [if_neg hk]
      have hw : Wanted names values o o.dflt := Or.inr ⟨hk, rfl⟩
      cases hs : single names values os with
      | error e =>
        simp only [reduceCtorEq, exists_false, false_iff, false_implies, implies_true, and_true]
        rw [hs] at i1
        simp only [reduceCtorEq, exists_false, false_iff] at i1
        exact fun h => i1 (fun x hx => h x (by simp [hx]))
      | ok ls =>
        rw [hs] at i1 i2
        simp only [Except.ok.injEq, exists_eq', true_iff] at i1
        refine ⟨⟨fun _ x hx => ?_, fun _ => ⟨_, rfl⟩⟩, ?_⟩
        · rcases List.mem_cons.1 hx with rfl | hx
          · exact ⟨_, hw⟩
          · exact i1 x hx
        · rintro ls' h
          cases h
          exact .cons ⟨_, hw, rfl⟩ (i2 ls rfl)

/-- Whether a beginning decides about a line that begins with `t`. -/
theorem prefix_decided {k t : List Char} (h : k.isPrefixOf t = true ∨ t.isPrefixOf k = false) (v : List Char) : k.isPrefixOf (t ++ v) = k.isPrefixOf t := by
  by_cases hk : k.isPrefixOf t = true
  · rw [hk, List.isPrefixOf_iff_prefix]
    exact (List.isPrefixOf_iff_prefix.1 hk).trans (List.prefix_append _ _)
  · have ht := h.resolve_left hk
    rw [Bool.not_eq_true] at hk
    rw [hk, Bool.eq_false_iff]
    intro hc
    rw [List.isPrefixOf_iff_prefix] at hc
    rcases List.prefix_or_prefix_of_prefix hc (List.prefix_append t v) with hp | hp
    · rw [← List.isPrefixOf_iff_prefix, hk] at hp
      cases hp
    · rw [← List.isPrefixOf_iff_prefix, ht] at hp
      cases hp

theorem find_congr {α : Type} {p q : α → Bool} : ∀ {l : List α}, (∀ x ∈ l, p x = q x) → l.find? p = l.find? q
  | [], _ => rfl
  | a :: t, h => by
    rw [List.find?_cons, List.find?_cons, h a (by simp), find_congr (fun x hx => h x (by simp [hx]))]

/-- The characters of the readers that are meant. -/
def meantC : List (List Char) := [
  ['-', 's', 'i', 'z', 'e'], ['-', 'b', 'l', 'o', 'c', 'k'], ['-', 'o', 'u', 't', 'p', 'u', 't', '/', 'i', 'n', 'p', 'u', 't'],
  ['-', 'a', 's', 's', 'o', 'c', 'i', 'a', 't', 'i', 'v', 'i', 't', 'y'], ['-', 'r', 'e', 'a', 'd', '-', 'w', 'r', 'i', 't', 'e'],
  ['-', 'e', 'x', 'c', 'l', 'u', 's', 'i', 'v', 'e', ' ', 'r', 'e', 'a'], ['-', 'e', 'x', 'c', 'l', 'u', 's', 'i', 'v', 'e', ' ', 'w', 'r', 'i', 't', 'e'],
  ['-', 's', 'i', 'n', 'g', 'l', 'e', ' ', 'e', 'n', 'd', 'e', 'd'], ['-', 'U', 'C', 'A', ' ', 'b', 'a', 'n', 'k'],
  ['-', 't', 'e', 'c', 'h', 'n', 'o', 'l', 'o', 'g', 'y'], ['-', 'c', 'a', 'c', 'h', 'e', ' ', 't', 'y', 'p', 'e']]

theorem meant_keys : meant.map Prod.fst = options.map Opt.key := rfl

theorem meant_chars : meant.map Prod.snd = meantC.map String.ofList := rfl

theorem readerOf_chars (l : String) : readerOf l = (readersC.find? (fun k => k.isPrefixOf l.toList)).map String.ofList := by
  unfold readerOf
  rw [readers_chars, List.find?_map]
  congr 2
  funext k
  simp [Function.comp]

theorem options_decided : ∀ c ∈ optionsC, ∀ k ∈ readersC, k.isPrefixOf c = true ∨ c.isPrefixOf k = false := by decide +kernel

theorem options_readers : optionsC.map (fun c => readersC.find? (fun k => k.isPrefixOf c)) = meantC.map some := by decide +kernel

theorem map_at {α β γ : Type} {f : α → γ} {g : β → γ} {l : List α} {m : List β} (h : l.map f = m.map g) {i : ℕ} {a : α} (ha : l[i]? = some a) :
    ∃ b, m[i]? = some b ∧ f a = g b := by
  have := congrArg (fun x => x[i]?) h
  simp only [List.getElem?_map, ha, Option.map_some] at this
  obtain ⟨b, hb, e⟩ := Option.map_eq_some_iff.1 this.symm
  exact ⟨b, hb, e.symm⟩

/-- C128: whatever the value, the line of an option goes to the reader that is meant for it. -/
theorem reader_line (o : Opt) (ho : o ∈ options) (v : String) : ∃ k, (o.key, k) ∈ meant ∧ readerOf (line o v) = some k := by
  obtain ⟨i, hi⟩ := List.getElem?_of_mem ho
  obtain ⟨c, hc, ec⟩ := map_at options_chars hi
  obtain ⟨m, hm, em⟩ := map_at meant_keys.symm hi
  obtain ⟨mc, hmc, emc⟩ := map_at meant_chars hm
  obtain ⟨mc', hmc', ef⟩ := map_at options_readers hc
  rw [hmc] at hmc'
  cases hmc'
  refine ⟨m.2, by rw [em]; exact List.mem_of_getElem? hm, ?_⟩
  rw [readerOf_chars, emc, ← Option.map_some, ← ef]
  congr 1
  apply find_congr
  intro k hk
  rw [line, String.toList_append, String.toList_append, List.append_assoc, ec, String.toList_ofList]
  exact prefix_decided (options_decided c (List.mem_of_getElem? hc) k hk) _

theorem meant_inj : ∀ x ∈ meant, ∀ y ∈ meant, (x.1 = y.1 ↔ x.2 = y.2) := by decide +kernel

theorem options_keys : (options.map Opt.key).Nodup ∧ ∀ o ∈ options, ∀ o' ∈ options, o.key = o'.key → o = o' := by decide +kernel

theorem baseline_decided : ∀ c ∈ baselineC, ∀ k ∈ meantC, k.isPrefixOf c = false := by decide +kernel

theorem baseline_other (l : String) (hl : l ∈ baseline) (x : String × String) (hx : x ∈ meant) : readerOf l ≠ some x.2 := by
  obtain ⟨i, hi⟩ := List.getElem?_of_mem hx
  obtain ⟨mc, hmc, e⟩ := map_at meant_chars hi
  rw [baseline_chars] at hl
  obtain ⟨c, hc, rfl⟩ := List.mem_map.1 hl
  rw [readerOf_chars, e, String.toList_ofList]
  intro h
  obtain ⟨k, hk, e'⟩ := Option.map_eq_some_iff.1 h
  have hkm : k = mc := by simpa using congrArg String.toList e'
  subst hkm
  have h1 := List.find?_some hk
  rw [baseline_decided c hc k (List.mem_of_getElem? hmc)] at h1
  cases h1

theorem filter_one {opts : List Opt} {ls : List String} {vals : Opt → String} (hf : List.Forall₂ (fun o l => l = line o (vals o)) opts ls) (ho : ∀ o ∈ opts, o ∈ options)
    (hn : (opts.map Opt.key).Nodup) {o : Opt} (hm : o ∈ opts) {k : String} (hk : (o.key, k) ∈ meant) :
    ls.filter (fun l => decide (readerOf l = some k)) = [line o (vals o)] := by
  induction hf with
  | nil => simp at hm
  | @cons a l as ls hal ht ih =>
    obtain ⟨ka, hka, hra⟩ := reader_line a (ho a (by simp)) (vals a)
    rw [List.map_cons, List.nodup_cons] at hn
    subst hal
    rcases List.mem_cons.1 hm with rfl | hm'
    · have : ka = k := (meant_inj _ hka _ hk).1 rfl
      subst this
      rw [List.filter_cons, if_pos (by simp [hra])]
      have hnil : ls.filter (fun l => decide (readerOf l = some ka)) = [] := by
        rw [List.filter_eq_nil_iff]
        intro l hl
        obtain ⟨b, hb, rfl⟩ : ∃ b ∈ as, l = line b (vals b) := by
          clear ih hn hm ho
          induction ht with
          | nil => simp at hl
          | cons h _ ih =>
            rcases List.mem_cons.1 hl with rfl | hl
            · exact ⟨_, by simp, h⟩
            · obtain ⟨b, hb, e⟩ := ih hl
              exact ⟨b, by simp [hb], e⟩
        obtain ⟨kb, hkb, hrb⟩ := reader_line b (ho b (by simp [hb])) (vals b)
        simp only [hrb, Option.some.injEq, decide_eq_true_eq]
        intro e
        have := (meant_inj _ hkb _ hk).2 e
        exact hn.1 (List.mem_map.2 ⟨b, hb, this⟩)
      rw [hnil]
    · have hne : ka ≠ k := by
        intro e
        have := (meant_inj _ hka _ hk).2 e
        exact hn.1 (List.mem_map.2 ⟨o, hm', this.symm⟩)
      rw [List.filter_cons, if_neg (by simp [hra, hne])]
      exact ih (fun x hx => ho x (by simp [hx])) hn.2 hm'

/-- C128: in the written file the reader meant for an option finds exactly one line, which has the wanted value; everything else of the file is constant. -/
theorem read_back (names values : List String) (ls : List String) (h : single names values options = .ok ls) :
    (∀ o ∈ options, ∃ k v, (o.key, k) ∈ meant ∧ Wanted names values o v ∧ (file ls).filter (fun l => decide (readerOf l = some k)) = [line o v] ∧ lastFor k (file ls) = some (line o v)) ∧
    ∀ k, (∀ x ∈ meant, x.2 ≠ k) → lastFor k (file ls) = lastFor k baseline := by
  obtain ⟨h1, h2⟩ := single_spec names values options
  have hall := h1.1 ⟨ls, h⟩
  have hf := h2 ls h
  choose! vals hvals using hall
  have hf' : List.Forall₂ (fun o l => l = line o (vals o)) options ls := by
    have : ∀ {os : List Opt} {ls : List String}, List.Forall₂ (fun o l => ∃ v, Wanted names values o v ∧ l = line o v) os ls → (∀ o ∈ os, o ∈ options) →
        List.Forall₂ (fun o l => l = line o (vals o)) os ls := by
      intro os ls hf
      induction hf with
      | nil => exact fun _ => .nil
      | cons a _ ih =>
        intro ho
        obtain ⟨v, hw, rfl⟩ := a
        exact .cons (by rw [wanted_unique hw (hvals _ (ho _ (by simp)))]) (ih (fun x hx => ho x (by simp [hx])))
    exact this hf (fun _ h => h)
  constructor
  · intro o ho
    obtain ⟨k, hk, -⟩ := reader_line o ho (vals o)
    have hbase : baseline.filter (fun l => decide (readerOf l = some k)) = [] := by
      rw [List.filter_eq_nil_iff]
      intro l hl
      simpa using baseline_other l hl _ hk
    have hone := filter_one hf' (fun _ h => h) options_keys.1 ho hk
    have hall : (file ls).filter (fun l => decide (readerOf l = some k)) = [line o (vals o)] := by
      rw [file, List.filter_append, hbase, hone, List.nil_append]
    exact ⟨k, vals o, hk, hvals o ho, hall, by rw [lastFor, hall]; rfl⟩
  · intro k hk
    have : ls.filter (fun l => decide (readerOf l = some k)) = [] := by
      rw [List.filter_eq_nil_iff]
      intro l hl
      have : ∃ o ∈ options, ∃ v, l = line o v := by
        have gen : ∀ {os : List Opt} {ls : List String}, List.Forall₂ (fun o l => l = line o (vals o)) os ls → l ∈ ls → ∃ o ∈ os, ∃ v, l = line o v := by
          intro os ls hf
          induction hf with
          | nil => simp
          | cons a _ ih =>
            intro hl
            rcases List.mem_cons.1 hl with rfl | hl
            · exact ⟨_, by simp, _, a⟩
            · obtain ⟨o, ho, e⟩ := ih hl
              exact ⟨o, by simp [ho], e⟩
        exact gen hf' hl
      obtain ⟨o, ho, v, rfl⟩ := this
      obtain ⟨k', hk', hr⟩ := reader_line o ho v
      simp only [hr, Option.some.injEq, decide_eq_true_eq]
      exact hk _ hk'
    rw [lastFor, lastFor, file, List.filter_append, this, List.append_nil]

/-- C128: for every request CACTI is told its size, width, ports, banks and technology, and nothing else of the request; the associativity and the single ended ports are one and zero. -/
theorem asked_spec (a : Ask) : ∃ ls, asked a = .ok ls ∧
    lastFor "-cache type" (file ls) = some (if a.memType = "sram" then "-cache type \"ram\"\n" else "-cache type \"main memory\"\n") ∧ lastFor "-size" (file ls) = some ("-size (bytes) " ++ a.size ++ "\n") ∧
    lastFor "-output/input" (file ls) = some ("-output/input bus width " ++ a.bus ++ "\n") ∧ lastFor "-exclusive rea" (file ls) = some ("-exclusive read port " ++ a.exRd ++ "\n") ∧
    lastFor "-exclusive write" (file ls) = some ("-exclusive write port " ++ a.exWr ++ "\n") ∧ lastFor "-read-write" (file ls) = some ("-read-write port " ++ a.rdWr ++ "\n") ∧
    lastFor "-UCA bank" (file ls) = some ("-UCA bank count " ++ a.bank ++ "\n") ∧ lastFor "-technology" (file ls) = some ("-technology (u) " ++ a.tech ++ "\n") ∧
    lastFor "-associativity" (file ls) = some "-associativity 1\n" ∧ lastFor "-single ended" (file ls) = some "-single ended read ports 0\n" := by
  have hs : ∃ ls, asked a = .ok ls := by
    unfold asked
    rw [(single_spec _ _ _).1]
    intro o ho
    by_cases hk : o.key ∈ askNames
    · have hl : askNames.idxOf o.key < 9 := List.idxOf_lt_length_of_mem hk
      exact ⟨_, idxOf_wanted hk (List.getElem?_eq_getElem (by simpa using hl))⟩
    · exact ⟨_, Or.inr ⟨hk, rfl⟩⟩
  obtain ⟨ls, hls⟩ := hs
  obtain ⟨hr, -⟩ := read_back _ _ ls hls
  have get : ∀ (key k : String), (key, k) ∈ meant → ∀ o ∈ options, o.key = key → ∀ v, Wanted askNames [cactiType a.memType, a.size, a.bus, a.exRd, a.exWr, a.rdWr, a.bank, a.tech, a.bus] o v →
      lastFor k (file ls) = some (line o v) := by
    intro key k hm o ho hkey v hw
    obtain ⟨k', v', hk', hw', -, hl⟩ := hr o ho
    have e := (meant_inj _ hm _ hk').1 hkey.symm
    simp only at e
    rw [e, hl, wanted_unique hw' hw]
  have place : ∀ (i : Nat) (o : Opt) (v : String), askNames[i]? = some o.key → (∀ j < i, askNames[j]? ≠ some o.key) →
      [cactiType a.memType, a.size, a.bus, a.exRd, a.exWr, a.rdWr, a.bank, a.tech, a.bus][i]? = some v →
      Wanted askNames [cactiType a.memType, a.size, a.bus, a.exRd, a.exWr, a.rdWr, a.bank, a.tech, a.bus] o v := fun i o v h1 h2 h3 => Or.inl ⟨i, h1, h2, h3⟩
  refine ⟨ls, hls, ?_, ?_, ?_, ?_, ?_, ?_, ?_, ?_, ?_, ?_⟩
  · rw [get "mem_type" _ (by decide +kernel) options[10] (by decide +kernel) (by decide +kernel) _ (place 0 _ _ (by decide +kernel) (by decide +kernel) rfl), cactiType]
    split <;> rfl
  · exact get "cache_size" _ (by decide +kernel) options[0] (by decide +kernel) (by decide +kernel) _ (place 1 _ _ (by decide +kernel) (by decide +kernel) rfl)
  · exact get "IO_bus_width" _ (by decide +kernel) options[2] (by decide +kernel) (by decide +kernel) _ (place 2 _ _ (by decide +kernel) (by decide +kernel) rfl)
  · exact get "ex_rd_port" _ (by decide +kernel) options[5] (by decide +kernel) (by decide +kernel) _ (place 3 _ _ (by decide +kernel) (by decide +kernel) rfl)
  · exact get "ex_wr_port" _ (by decide +kernel) options[6] (by decide +kernel) (by decide +kernel) _ (place 4 _ _ (by decide +kernel) (by decide +kernel) rfl)
  · exact get "rd_wr_port" _ (by decide +kernel) options[4] (by decide +kernel) (by decide +kernel) _ (place 5 _ _ (by decide +kernel) (by decide +kernel) rfl)
  · exact get "bank_count" _ (by decide +kernel) options[8] (by decide +kernel) (by decide +kernel) _ (place 6 _ _ (by decide +kernel) (by decide +kernel) rfl)
  · exact get "technology" _ (by decide +kernel) options[9] (by decide +kernel) (by decide +kernel) _ (place 7 _ _ (by decide +kernel) (by decide +kernel) rfl)
  · exact get "associativity" _ (by decide +kernel) options[3] (by decide +kernel) (by decide +kernel) "1" (Or.inr (by decide +kernel))
  · exact get "single_rd_port" _ (by decide +kernel) options[7] (by decide +kernel) (by decide +kernel) "0" (Or.inr (by decide +kernel))

/-- C128: names that are no options leave the defaults. -/
theorem single_default (names values : List String) (opts : List Opt) (h : ∀ o ∈ opts, o.key ∉ names) : single names values opts = .ok (byDefault opts) := by
  induction opts with
  | nil => rfl
  | cons o os ih =>
    rw [single, if_neg (h o (by simp)), ih (fun x hx => h x (by simp [hx]))]
    rfl

/-- C128: a name that is no option is silently ignored: asking for the size under the name `size` yields the configuration of the default size. -/
theorem unknown_option_false : single ["size"] ["4096"] options = .ok (byDefault options) ∧ ∀ ls, single ["size"] ["4096"] options = .ok ls →
    lastFor "-size" (file ls) = some "-size (bytes) 64\n" := by
  have h : single ["size"] ["4096"] options = .ok (byDefault options) := single_default _ _ _ (by decide +kernel)
  refine ⟨h, fun ls hls => ?_⟩
  obtain ⟨hr, -⟩ := read_back _ _ ls hls
  obtain ⟨k, v, hk, hw, -, hl⟩ := hr options[0] (by decide +kernel)
  have e := (meant_inj _ (show ("cache_size", "-size") ∈ meant by decide +kernel) _ hk).1 rfl
  simp only at e
  rw [e, hl, wanted_unique hw (Or.inr ⟨by decide +kernel, rfl⟩)]
  rfl

/-- C128: the size of a block, which CACTI takes in bytes, is for every request the number of bits of the bus: the block that is asked for is eight times as wide as the bus. -/
theorem block_in_bits_false (a : Ask) : ∃ ls, asked a = .ok ls ∧ lastFor "-block" (file ls) = some ("-block size (bytes) " ++ a.bus ++ "\n") ∧
    lastFor "-output/input" (file ls) = some ("-output/input bus width " ++ a.bus ++ "\n") := by
  obtain ⟨ls, hls, -, -, hbus, -⟩ := asked_spec a
  refine ⟨ls, hls, ?_, hbus⟩
  obtain ⟨hr, -⟩ := read_back _ _ ls hls
  obtain ⟨k, v, hk, hw, -, hl⟩ := hr options[1] (by decide +kernel)
  have e := (meant_inj _ (show ("line_size", "-block") ∈ meant by decide +kernel) _ hk).1 rfl
  simp only at e
  have hw' : Wanted askNames [cactiType a.memType, a.size, a.bus, a.exRd, a.exWr, a.rdWr, a.bank, a.tech, a.bus] options[1] a.bus :=
    Or.inl ⟨8, by decide +kernel, by decide +kernel, rfl⟩
  rw [e, hl, wanted_unique hw hw']
  rfl

theorem others_nodup (p : Opt → Bool) : ((options.filter p).map Opt.key).Nodup :=
  (List.Sublist.map Opt.key (List.filter_sublist (p := p) (l := options))).nodup options_keys.1

/-- C128: sweeping one option writes one configuration per value of its list, in which the option has that value and all the others their defaults. -/
theorem sweep_one (o : Opt) (ho : o ∈ options) : ∃ cs, sweep options [o.key] = .ok cs ∧
    List.Forall₂ (fun v c => ∀ o' ∈ options, ∃ k, (o'.key, k) ∈ meant ∧ (file c).filter (fun l => decide (readerOf l = some k)) = [line o' (if o' = o then v else o'.dflt)]) o.values cs := by
  have hfind : find options o.key = .ok o := by
    unfold find
    cases hf : options.find? (fun x => decide (x.key = o.key)) with
    | none =>
      have := List.find?_eq_none.1 hf o ho
      simp at this
    | some x =>
      have h1 := List.find?_some hf
      have h2 := List.mem_of_find?_eq_some hf
      rw [options_keys.2 x h2 o ho (by simpa using h1)]
  refine ⟨_, by simp only [sweep, sweepLines, hfind]; rfl, ?_⟩
  rw [List.append_nil, List.map_map, List.forall₂_map_right_iff, List.forall₂_same]
  intro v _ o' ho'
  obtain ⟨k, hk, -⟩ := reader_line o' ho' ""
  refine ⟨k, hk, ?_⟩
  have hbase : baseline.filter (fun l => decide (readerOf l = some k)) = [] := by
    rw [List.filter_eq_nil_iff]
    intro l hl
    simpa using baseline_other l hl _ hk
  rw [file, List.filter_append, hbase, List.nil_append]
  set rest := options.filter (fun x => decide (x.key ∉ [o.key])) with hrest
  have hsub : ∀ x ∈ o :: rest, x ∈ options := by
    intro x hx
    rcases List.mem_cons.1 hx with rfl | hx
    · exact ho
    · exact (List.mem_filter.1 hx).1
  have hne : ∀ x ∈ rest, x ≠ o := by
    rintro x hx rfl
    simpa using (List.mem_filter.1 hx).2
  refine filter_one (opts := o :: rest) (vals := fun x => if x = o then v else x.dflt) ?_ hsub ?_ ?_ hk
  · refine .cons (by simp) ?_
    change List.Forall₂ _ rest (rest.map (fun o => line o o.dflt))
    rw [List.forall₂_map_right_iff, List.forall₂_same]
    intro x hx
    rw [if_neg (hne x hx)]
  · rw [List.map_cons, List.nodup_cons]
    refine ⟨?_, others_nodup _⟩
    intro hm
    obtain ⟨x, hx, e⟩ := List.mem_map.1 hm
    exact hne x hx (options_keys.2 x (hsub x (by simp [hx])) o ho e)
  · by_cases e : o'.key = o.key
    · rw [options_keys.2 o' ho' o ho e]
      simp
    · simp [hrest, ho', e]

theorem no_line {ls : List String} {key k : String} (hk : (key, k) ∈ meant) (h : ∀ l ∈ ls, ∃ o ∈ options, o.key ≠ key ∧ ∃ v, l = line o v) : lastFor k (file ls) = none := by
  have : (file ls).filter (fun l => decide (readerOf l = some k)) = [] := by
    rw [List.filter_eq_nil_iff]
    intro l hl
    rw [decide_eq_true_eq]
    rcases List.mem_append.1 hl with hl | hl
    · exact baseline_other l hl _ hk
    · obtain ⟨o, ho, hne, v, rfl⟩ := h l hl
      obtain ⟨k', hk', hr⟩ := reader_line o ho v
      rw [hr]
      intro e
      exact hne ((meant_inj _ hk' _ hk).2 (Option.some.inj e))
  rw [lastFor, this]
  rfl

theorem find_mem {n : String} {x : Opt} (h : find options n = .ok x) : x ∈ options ∧ x.key = n := by
  unfold find at h
  split at h
  · cases h
  · rename_i hf
    cases h
    exact ⟨List.mem_of_find?_eq_some hf, by simpa using List.find?_some hf⟩

theorem sweepLines_mem : ∀ (ns : List String) (ls : List (List String)), sweepLines options ns = .ok ls → ∀ c ∈ ls, ∃ o ∈ options, o.key ∈ ns ∧ ∃ v ∈ o.values, c = [line o v]
  | [], ls, h => by cases h; simp
  | n :: ns, ls, h => by
    rw [sweepLines] at h
    cases hf : find options n with
    | error e => rw [hf] at h; cases h
    | ok o =>
      rw [hf] at h
      cases hs : sweepLines options ns with
      | error e => rw [hs] at h; cases h
      | ok ls' =>
        rw [hs] at h
        cases h
        intro c hc
        obtain ⟨h1, h2⟩ := find_mem hf
        rcases List.mem_append.1 hc with hc | hc
        · obtain ⟨v, hv, rfl⟩ := List.mem_map.1 hc
          exact ⟨o, h1, by simp [h2], v, hv, rfl⟩
        · obtain ⟨x, hx, hk, r⟩ := sweepLines_mem ns ls' hs c hc
          exact ⟨x, hx, by simp [hk], r⟩

/-- C128: a sweep over two options is no sweep over pairs of values, and not even a sweep over each: every configuration that is written lacks the line of one of the two options altogether. -/
theorem sweep_two_false (n₁ n₂ k₁ k₂ : String) (h₁ : (n₁, k₁) ∈ meant) (h₂ : (n₂, k₂) ∈ meant) (hne : n₁ ≠ n₂) (cs : List (List String)) (h : sweep options [n₁, n₂] = .ok cs) :
    ∀ c ∈ cs, lastFor k₁ (file c) = none ∨ lastFor k₂ (file c) = none := by
  unfold sweep at h
  simp only at h
  cases hs : sweepLines options [n₁, n₂] with
  | error e => rw [hs] at h; cases h
  | ok ls =>
    rw [hs] at h
    cases h
    intro c hc
    obtain ⟨l, hl, rfl⟩ := List.mem_map.1 hc
    obtain ⟨o, ho, hk, v, -, rfl⟩ := sweepLines_mem _ _ hs l hl
    have key : ∀ n, n ∈ [n₁, n₂] → o.key ≠ n → ∀ x ∈ [line o v] ++ (options.filter (fun o => decide (o.key ∉ [n₁, n₂]))).map (fun o => line o o.dflt),
        ∃ o ∈ options, o.key ≠ n ∧ ∃ v, x = line o v := by
      intro n hn hon x hx
      rcases List.mem_append.1 hx with hx | hx
      · rw [List.mem_singleton.1 hx]
        exact ⟨o, ho, hon, v, rfl⟩
      · obtain ⟨y, hy, rfl⟩ := List.mem_map.1 hx
        obtain ⟨hy1, hy2⟩ := List.mem_filter.1 hy
        rw [decide_eq_true_eq] at hy2
        exact ⟨y, hy1, fun e => hy2 (e ▸ hn), _, rfl⟩
    by_cases e : o.key = n₁
    · exact Or.inr (no_line h₂ (key n₂ (by simp) (by rw [e]; exact hne)))
    · exact Or.inl (no_line h₁ (key n₁ (by simp) e))

/-- C128: changing defaults succeeds exactly for known names; afterwards a default is the last value given for it, and nothing else has changed. -/
theorem change_spec (cs : List (String × String)) (opts : List Opt) :
    ((∃ os, changeDefault opts cs = .ok os) ↔ ∀ c ∈ cs, c.1 ∈ opts.map Opt.key) ∧
    ∀ os, changeDefault opts cs = .ok os → os = opts.map (fun o => { o with dflt := (((cs.filter (fun c => decide (c.1 = o.key))).getLast?).map Prod.snd).getD o.dflt }) := by
  induction cs generalizing opts with
  | nil =>
    refine ⟨by simp [changeDefault], fun os h => ?_⟩
    cases h
    simp
  | cons c r ih =>
    obtain ⟨n, v⟩ := c
    rw [changeDefault]
    have hkeys : (opts.map (fun o => if o.key = n then { o with dflt := v } else o)).map Opt.key = opts.map Opt.key := by
      rw [List.map_map]
      apply List.map_congr_left
      intro o _
      simp only [Function.comp]
      split <;> rfl
    unfold find
    cases hf : opts.find? (fun o => decide (o.key = n)) with
    | none =>
      have hn : n ∉ opts.map Opt.key := by
        intro hm
        obtain ⟨x, hx, e⟩ := List.mem_map.1 hm
        simpa [e] using List.find?_eq_none.1 hf x hx
      simp only [reduceCtorEq, exists_false, false_iff, false_implies, implies_true, and_true]
      exact fun h => hn (h (n, v) (by simp))
    | some x =>
      have hn : n ∈ opts.map Opt.key := List.mem_map.2 ⟨x, List.mem_of_find?_eq_some hf, by simpa using List.find?_some hf⟩
      simp only
      obtain ⟨i1, i2⟩ := ih (opts.map (fun o => if o.key = n then { o with dflt := v } else o))
      rw [hkeys] at i1
      refine ⟨?_, ?_⟩
      · rw [i1]
        constructor
        · intro h c hc
          rcases List.mem_cons.1 hc with rfl | hc
          · exact hn
          · exact h c hc
        · exact fun h c hc => h c (by simp [hc])
      · intro os h
        rw [i2 os h, List.map_map]
        apply List.map_congr_left
        intro o _
        simp only [Function.comp]
        by_cases e : o.key = n
        · simp only [e, if_true]
          rw [List.filter_cons, if_pos (by simp)]
          cases hl : r.filter (fun c => decide (c.1 = n)) with
          | nil => simp
          | cons y t =>
            rw [List.getLast?_cons_cons, List.getLast?_eq_some_getLast (by simp)]
            rfl
        · have e' : ¬ n = o.key := fun h => e h.symm
          simp [e, e']

/-! ### The place of the configuration -/

theorem commonPath_prefix : ∀ a b : List String, commonPath a b <+: a
  | [], _ => by simp [commonPath]
  | x :: xs, [] => by simp [commonPath]
  | x :: xs, y :: ys => by
    rw [commonPath]
    split
    · exact (List.prefix_cons_inj x).2 (commonPath_prefix xs ys)
    · exact List.nil_prefix

/-- C128: no place of the configuration is refused, inside the folder of CACTI or not. -/
theorem never_refused (master cfg : List String) : refused master cfg = false := by
  unfold refused
  simp only [Bool.and_eq_false_imp, decide_eq_true_eq, Bool.not_eq_eq_eq_not, Bool.not_false]
  intro _
  obtain ⟨t, ht⟩ := commonPath_prefix master cfg
  generalize commonPath master cfg = c at ht
  subst ht
  apply List.IsPrefix.isInfix
  unfold pathText
  by_cases hc : c = []
  · subst hc
    rw [if_pos rfl, List.nil_append]
    split
    · exact List.prefix_refl _
    · rename_i hne
      obtain ⟨a, as, rfl⟩ := List.exists_cons_of_ne_nil hne
      simp
  · rw [if_neg hc, if_neg (by simp [hc]), List.flatMap_append]
    exact List.prefix_append _ _

/-- C128: the test whether the configuration lies inside the folder of CACTI never fails: a configuration elsewhere is accepted. -/
theorem outside_false : ¬ (["opt", "cacti"] <+: ["tmp", "cache.cfg"]) ∧ refused ["opt", "cacti"] ["tmp", "cache.cfg"] = false :=
  ⟨by decide +kernel, never_refused _ _⟩

/-! ### Results -/

theorem addRow_spec (num : String → Option ℚ) (h : String) : ∀ (hs r : List String) (d : Dict String (List (Option ℚ))), hs.Nodup → hs.length ≤ r.length →
    (h ∉ hs → (addRow num hs r d).get? h = d.get? h) ∧
    ∀ j : ℕ, hs[j]? = some h → (addRow num hs r d).get? h = some (((d.get? h).getD []) ++ [(r[j]?).bind num])
  | [], r, d, _, _ => by simp [addRow]
  | a :: hs, [], d, _, hl => by simp at hl
  | a :: hs, v :: r, d, hn, hl => by
    rw [addRow]
    rw [List.nodup_cons] at hn
    obtain ⟨i1, i2⟩ := addRow_spec num h hs r (d.set a (((d.get? a).getD []) ++ [num v])) hn.2 (by simpa using hl)
    constructor
    · intro hm
      rw [List.mem_cons, not_or] at hm
      rw [i1 hm.2, Dict.get?_set_of_ne _ _ (Ne.symm hm.1)]
    · intro j hj
      cases j with
      | zero =>
        simp only [List.getElem?_cons_zero, Option.some.injEq] at hj
        subst hj
        rw [i1 hn.1, Dict.get?_set_self]
        simp
      | succ j =>
        rw [List.getElem?_cons_succ] at hj
        have hne : a ≠ h := by
          rintro rfl
          exact hn.1 (List.mem_of_getElem? hj)
        rw [i2 j hj, Dict.get?_set_of_ne _ _ hne, List.getElem?_cons_succ]

theorem header_get (hs : List String) (h : String) (d : Dict String (List (Option ℚ))) :
    (hs.foldl (fun d h => d.set h []) d).get? h = if h ∈ hs then some [] else d.get? h := by
  induction hs generalizing d with
  | nil => simp
  | cons a t ih =>
    rw [List.foldl_cons, ih]
    by_cases e : h ∈ t
    · simp [e]
    · by_cases e' : h = a
      · subst e'
        simp [e, Dict.get?_set_self]
      · rw [if_neg e, if_neg (by simp [e, e']), Dict.get?_set_of_ne _ _ (Ne.symm e')]

/-- C129: with different names and no short line, the list kept under a name consists of the fields of the lines below that name, in their order. -/
theorem table_spec (num : String → Option ℚ) (hs : List String) (rows : List (List String)) (hn : hs.Nodup) (hr : ∀ r ∈ rows, hs.length ≤ r.length) (h : String) :
    (h ∉ hs → (table num (hs :: rows)).get? h = none) ∧ ∀ j : ℕ, hs[j]? = some h → (table num (hs :: rows)).get? h = some (rows.map (fun r => (r[j]?).bind num)) := by
  rw [table]
  have gen : ∀ (d : Dict String (List (Option ℚ))), (h ∉ hs → (rows.foldl (fun d r => addRow num hs r d) d).get? h = d.get? h) ∧
      ∀ (l : List (Option ℚ)) (j : ℕ), hs[j]? = some h → d.get? h = some l → (rows.foldl (fun d r => addRow num hs r d) d).get? h = some (l ++ rows.map (fun r => (r[j]?).bind num)) := by
    induction rows with
    | nil => simp
    | cons r t ih =>
      intro d
      obtain ⟨i1, i2⟩ := ih (fun x hx => hr x (by simp [hx])) (addRow num hs r d)
      obtain ⟨a1, a2⟩ := addRow_spec num h hs r d hn (hr r (by simp))
      rw [List.foldl_cons]
      refine ⟨fun hm => by rw [i1 hm, a1 hm], fun l j hj hl => ?_⟩
      rw [i2 _ j hj (a2 j hj), hl]
      simp
  obtain ⟨g1, g2⟩ := gen (header hs)
  constructor
  · intro hm
    rw [g1 hm, header, header_get, if_neg hm]
    rfl
  · intro j hj
    rw [g2 [] j hj (by rw [header, header_get, if_pos (List.mem_of_getElem? hj)])]
    simp

/-- The type that is written for the line with this number. -/
def typeAt (t : String) : ℕ → String
  | 0 => if t = "\"ram\"" then "sram" else "dram"
  | _ + 1 => "dram"

theorem outs_ok (d : Dict String (List (Option ℚ))) : ∀ (n i : ℕ) (t : String) (os : List Out),
    outs d n i t = .ok os ↔ os.length = n ∧ ∀ k o, os[k]? = some o → out d (i + k) (typeAt t k) = .ok o
  | 0, i, t, os => by
    rw [outs]
    constructor
    · intro h
      cases h
      simp
    · rintro ⟨h, -⟩
      rw [List.length_eq_zero_iff.1 h]
  | n + 1, i, t, os => by
    rw [outs]
    have ih := outs_ok d n (i + 1) (if t = "\"ram\"" then "sram" else "dram")
    have htype : ∀ k, typeAt (if t = "\"ram\"" then "sram" else "dram") k = typeAt t (k + 1) := by
      intro k
      cases k with
      | zero =>
        rw [typeAt, typeAt]
        split <;> decide +kernel
      | succ k => rfl
    have hzero : typeAt t 0 = if t = "\"ram\"" then "sram" else "dram" := rfl
    rw [← hzero] at ih htype ⊢
    cases ho : out d i (typeAt t 0) with
    | error e =>
      simp only [reduceCtorEq, false_iff, not_and]
      intro hl h
      cases os with
      | nil => simp at hl
      | cons o os =>
        have := h 0 o rfl
        rw [Nat.add_zero, ho] at this
        cases this
    | ok o =>
      simp only
      cases hs : outs d n (i + 1) (typeAt t 0) with
      | error e =>
        simp only [reduceCtorEq, false_iff, not_and]
        intro hl h
        cases os with
        | nil => simp at hl
        | cons o' os =>
          have := (ih os).2 ⟨by simpa using hl, fun k x hx => by
            have := h (k + 1) x (by simpa using hx)
            rw [htype, show i + 1 + k = i + (k + 1) by omega]
            exact this⟩
          rw [hs] at this
          cases this
      | ok os' =>
        obtain ⟨h1, h2⟩ := (ih os').1 hs
        constructor
        · intro h
          cases h
          refine ⟨by simp [h1], fun k x hx => ?_⟩
          cases k with
          | zero =>
            simp only [List.getElem?_cons_zero, Option.some.injEq] at hx
            subst hx
            exact ho
          | succ k =>
            have := h2 k x (by simpa using hx)
            rw [htype, show i + 1 + k = i + (k + 1) by omega] at this
            exact this
        · rintro ⟨hl, h⟩
          cases os with
          | nil => simp at hl
          | cons o' os =>
            have e0 := h 0 o' rfl
            rw [Nat.add_zero, ho] at e0
            cases e0
            have := (ih os).2 ⟨by simpa using hl, fun k x hx => by
              have := h (k + 1) x (by simpa using hx)
              rw [htype, show i + 1 + k = i + (k + 1) by omega]
              exact this⟩
            rw [hs] at this
            cases this
            rfl

theorem cell_ok {d : Dict String (List (Option ℚ))} {n : String} {i : ℕ} {v : Option ℚ} : cell d n i = .ok v ↔ ∃ l, d.get? n = some l ∧ l[i]? = some v := by
  unfold cell
  split
  · rename_i h
    simp [h]
  · rename_i l h
    split
    · rename_i h'
      simp [h, h']
    · rename_i x h'
      simp [h, h']

theorem int?_ok {x : Option ℚ} {y : ℚ} : int? x = .ok y ↔ ∃ v, x = some v ∧ y = v.num.tdiv v.den := by
  cases x with
  | none => simp [int?]
  | some v => simp [int?, eq_comm]

theorem out_ok {d : Dict String (List (Option ℚ))} {i : ℕ} {t : String} {o : Out} :
    out d i t = .ok o ↔ o.type = t ∧ ∃ s b, cell d " Capacity (bytes)" i = .ok (some s) ∧ cell d " Output width (bits)" i = .ok (some b) ∧ cell d " Area (mm2)" i = .ok o.area ∧
      cell d " Dynamic read energy (nJ)" i = .ok o.read ∧ cell d " Dynamic write energy (nJ)" i = .ok o.write ∧
      o.size = s.num.tdiv s.den ∧ o.bits = (s * 8).num.tdiv (s * 8).den ∧ o.bw = b.num.tdiv b.den := by
  obtain ⟨size, bits, area, rd, wr, bw, type⟩ := o
  unfold out
  simp only [bind, Except.bind, pure, Except.pure]
  cases h1 : cell d " Capacity (bytes)" i with
  | error e => simp
  | ok x1 =>
  cases h2 : cell d " Area (mm2)" i with
  | error e => simp
  | ok x2 =>
  cases h3 : cell d " Dynamic read energy (nJ)" i with
  | error e => simp
  | ok x3 =>
  cases h4 : cell d " Dynamic write energy (nJ)" i with
  | error e => simp
  | ok x4 =>
  cases h5 : cell d " Output width (bits)" i with
  | error e => simp
  | ok x5 =>
  cases x1 with
  | none => simp [int?]
  | some s =>
  cases x5 with
  | none => simp [int?]
  | some b =>
    simp only [int?, Option.map_some, Except.ok.injEq, Out.mk.injEq, Option.some.injEq]
    constructor
    · rintro ⟨a1, a2, a3, a4, a5, a6, a7⟩
      exact ⟨a7.symm, s, b, rfl, rfl, a3, a4, a5, a1.symm, a2.symm, a6.symm⟩
    · rintro ⟨a7, s', b', rfl, rfl, a3, a4, a5, a1, a2, a6⟩
      exact ⟨a1.symm, a2.symm, a3, a4, a5, a6.symm, a7.symm⟩

/-- The number under a name in a line (`none`: there is a text that is no number, or the line ends before). -/
def Under (num : String → Option ℚ) (hs r : List String) (name : String) (v : Option ℚ) : Prop := ∃ j : ℕ, hs[j]? = some name ∧ (r[j]?).bind num = v

theorem cell_table {num : String → Option ℚ} {hs : List String} {rows : List (List String)} (hn : hs.Nodup) (hr : ∀ r ∈ rows, hs.length ≤ r.length) {n : String} {i : ℕ} {v : Option ℚ} :
    cell (table num (hs :: rows)) n i = .ok v ↔ ∃ r, rows[i]? = some r ∧ Under num hs r n v := by
  rw [cell_ok]
  obtain ⟨t1, t2⟩ := table_spec num hs rows hn hr n
  by_cases hm : n ∈ hs
  · obtain ⟨j, hj⟩ := List.getElem?_of_mem hm
    rw [t2 j hj]
    simp only [Option.some.injEq, exists_eq_left', List.getElem?_map, Option.map_eq_some_iff]
    constructor
    · rintro ⟨r, h1, h2⟩
      exact ⟨r, h1, j, hj, h2⟩
    · rintro ⟨r, h1, j', hj', h2⟩
      obtain ⟨l1, e1⟩ := List.getElem?_eq_some_iff.1 hj
      obtain ⟨l2, e2⟩ := List.getElem?_eq_some_iff.1 hj'
      have : j = j' := (List.Nodup.getElem_inj_iff hn).1 (e1.trans e2.symm)
      subst this
      exact ⟨r, h1, h2⟩
  · rw [t1 hm]
    simp only [reduceCtorEq, false_and, exists_false, false_iff, not_exists, not_and]
    rintro r - ⟨j, hj, -⟩
    exact hm (List.mem_of_getElem? hj)

/-- The record `o` is made of the line `r` of the file, which has the number `k`. -/
def Made (num : String → Option ℚ) (memType : String) (hs : List String) (k : ℕ) (r : List String) (o : Out) : Prop :=
  (o.type = if k = 0 ∧ memType = "sram" then "sram" else "dram") ∧ ∃ s b, Under num hs r " Capacity (bytes)" (some s) ∧ Under num hs r " Output width (bits)" (some b) ∧
    Under num hs r " Area (mm2)" o.area ∧ Under num hs r " Dynamic read energy (nJ)" o.read ∧ Under num hs r " Dynamic write energy (nJ)" o.write ∧
    o.size = s.num.tdiv s.den ∧ o.bits = (s * 8).num.tdiv (s * 8).den ∧ o.bw = b.num.tdiv b.den

theorem typeAt_eq (t : String) (k : ℕ) : typeAt (cactiType t) k = if k = 0 ∧ t = "sram" then "sram" else "dram" := by
  cases k with
  | zero =>
    unfold cactiType
    by_cases h : t = "sram"
    · subst h
      decide +kernel
    · rw [if_neg h, if_neg (by simp [h])]
      decide +kernel
  | succ k => simp [typeAt]

/-- C129: with different names and no short line, the records are one per line of the file, in the same order, each made of the fields of its own line. -/
theorem results_spec (num : String → Option ℚ) (memType : String) (hs : List String) (rows : List (List String)) (hn : hs.Nodup) (hr : ∀ r ∈ rows, hs.length ≤ r.length) (os : List Out) :
    results num memType (hs :: rows) = .ok os ↔
      " Capacity (bytes)" ∈ hs ∧ os.length = rows.length ∧ ∀ k r o, rows[k]? = some r → os[k]? = some o → Made num memType hs k r o := by
  unfold results
  obtain ⟨t1, t2⟩ := table_spec num hs rows hn hr " Capacity (bytes)"
  by_cases hm : " Capacity (bytes)" ∈ hs
  · obtain ⟨j, hj⟩ := List.getElem?_of_mem hm
    rw [t2 j hj]
    simp only [List.length_map, outs_ok, Nat.zero_add, hm, true_and]
    refine and_congr_right fun hl => ?_
    have each : ∀ k r o, rows[k]? = some r → (out (table num (hs :: rows)) k (typeAt (cactiType memType) k) = .ok o ↔ Made num memType hs k r o) := by
      intro k r o hk
      rw [out_ok, typeAt_eq, Made]
      simp only [cell_table hn hr, hk, Option.some.injEq, exists_eq_left']
    constructor
    · exact fun h k r o hk ho => (each k r o hk).1 (h k o ho)
    · intro h k o ho
      have hlt : k < rows.length := by
        rw [← hl]
        exact (List.getElem?_eq_some_iff.1 ho).1
      have hk : rows[k]? = some rows[k] := List.getElem?_eq_getElem hlt
      exact (each k _ o hk).2 (h k _ o hk ho)
  · rw [t1 hm]
    simp [hm]

/-- C129: with different names and no short line, reading succeeds exactly when the needed names are there and the capacity and width of every line are numbers. -/
theorem results_ok_iff (num : String → Option ℚ) (memType : String) (hs : List String) (rows : List (List String)) (hn : hs.Nodup) (hr : ∀ r ∈ rows, hs.length ≤ r.length) :
    (∃ os, results num memType (hs :: rows) = .ok os) ↔ " Capacity (bytes)" ∈ hs ∧
      ∀ r ∈ rows, (∃ s, Under num hs r " Capacity (bytes)" (some s)) ∧ (∃ b, Under num hs r " Output width (bits)" (some b)) ∧
        " Area (mm2)" ∈ hs ∧ " Dynamic read energy (nJ)" ∈ hs ∧ " Dynamic write energy (nJ)" ∈ hs := by
  simp only [results_spec num memType hs rows hn hr]
  constructor
  · rintro ⟨os, hc, hl, h⟩
    refine ⟨hc, fun r hrm => ?_⟩
    obtain ⟨k, hk⟩ := List.getElem?_of_mem hrm
    have hlt : k < os.length := by
      rw [hl]
      exact (List.getElem?_eq_some_iff.1 hk).1
    obtain ⟨-, s, b, h1, h2, ⟨j3, h3, -⟩, ⟨j4, h4, -⟩, ⟨j5, h5, -⟩, -⟩ := h k r os[k] hk (List.getElem?_eq_getElem hlt)
    exact ⟨⟨s, h1⟩, ⟨b, h2⟩, List.mem_of_getElem? h3, List.mem_of_getElem? h4, List.mem_of_getElem? h5⟩
  · rintro ⟨hc, h⟩
    have ex : ∀ k : Fin rows.length, ∃ o, Made num memType hs k rows[k] o := by
      intro k
      obtain ⟨⟨s, h1⟩, ⟨b, h2⟩, h3, h4, h5⟩ := h rows[k] (List.getElem_mem _)
      obtain ⟨j3, h3⟩ := List.getElem?_of_mem h3
      obtain ⟨j4, h4⟩ := List.getElem?_of_mem h4
      obtain ⟨j5, h5⟩ := List.getElem?_of_mem h5
      exact ⟨⟨s.num.tdiv s.den, (s * 8).num.tdiv (s * 8).den, _, _, _, b.num.tdiv b.den, _⟩, rfl, s, b, h1, h2, ⟨j3, h3, rfl⟩, ⟨j4, h4, rfl⟩, ⟨j5, h5, rfl⟩, rfl, rfl, rfl⟩
    choose f hf using ex
    refine ⟨List.ofFn f, hc, by simp, fun k r o hk ho => ?_⟩
    obtain ⟨hlt, e⟩ := List.getElem?_eq_some_iff.1 hk
    rw [List.getElem?_ofFn, dif_pos hlt] at ho
    cases ho
    subst e
    exact hf ⟨k, hlt⟩

/-- C129: for a whole number of bytes the size is kept exactly, and the number of bits is eight times as large. -/
theorem whole_sizes {num : String → Option ℚ} {memType : String} {hs r : List String} {k : ℕ} {o : Out} (hn : hs.Nodup) (h : Made num memType hs k r o) (n : ℕ)
    (hc : Under num hs r " Capacity (bytes)" (some (n : ℚ))) : o.size = n ∧ o.bits = 8 * n := by
  obtain ⟨-, s, b, ⟨j, hj, hs'⟩, -, -, -, -, h1, h2, -⟩ := h
  obtain ⟨j', hj', hc'⟩ := hc
  obtain ⟨l1, e1⟩ := List.getElem?_eq_some_iff.1 hj
  obtain ⟨l2, e2⟩ := List.getElem?_eq_some_iff.1 hj'
  have : j = j' := (List.Nodup.getElem_inj_iff hn).1 (e1.trans e2.symm)
  subst this
  rw [hs'] at hc'
  cases hc'
  have e8 : (n : ℚ) * 8 = ((n * 8 : ℕ) : ℚ) := by push_cast; rfl
  rw [e8] at h2
  have whole : ∀ m : ℕ, ((((m : ℚ).num.tdiv (m : ℚ).den : ℤ)) : ℚ) = m := by
    intro m
    simp
  constructor
  · rw [h1, whole]
  · rw [h2, whole, ← e8, mul_comm]

/-- C129: a line with too few fields shifts the later values of the missing columns: the first of two lines lacks its area, the record of the first line is written with the area of the second, and then an error is raised. -/
theorem short_line_false :
    let num : String → Option ℚ := fun t => if t = "8" then some 8 else if t = "64" then some 64 else if t = "1" then some 1 else if t = "3" then some 3 else none
    let hs := [" Capacity (bytes)", " Output width (bits)", " Dynamic read energy (nJ)", " Dynamic write energy (nJ)", " Area (mm2)"]
    let csv := [hs, ["64", "8", "1", "1"], ["8", "8", "1", "1", "3"]]
    out (table num csv) 0 "sram" = .ok ⟨64, 512, some 3, some 1, some 1, 8, "sram"⟩ ∧ results num "sram" csv = .error .indexError := by
  decide +kernel

/-- C129: of several lines for an SRAM only the first is recorded as an SRAM, the others as DRAM. -/
theorem second_type_false :
    let num : String → Option ℚ := fun t => if t = "8" then some 8 else if t = "64" then some 64 else none
    let hs := [" Capacity (bytes)", " Output width (bits)", " Dynamic read energy (nJ)", " Dynamic write energy (nJ)", " Area (mm2)"]
    (results num "sram" [hs, ["64", "8", "8", "8", "8"], ["64", "8", "8", "8", "8"]]).toOption.map (fun os => os.map Out.type) = some ["sram", "dram"] := by
  decide +kernel

/-! ### Cases -/

/-- `single_spec`, `read_back`: two options are asked for. -/
example : ∃ ls, single ["technology", "cache_size"] ["0.022", "524288"] options = .ok ls ∧ ls.length = 11 ∧ "-technology (u) 0.022\n" ∈ ls ∧ "-size (bytes) 524288\n" ∈ ls := by
  refine ⟨_, rfl, rfl, ?_, ?_⟩ <;> decide +kernel

/-- An option without value raises. -/
example : single ["technology", "cache_size"] ["0.022"] options = .error .indexError := rfl

/-- `asked_spec`: a memory of 64 kB. -/
example : asked ⟨"sram", "65536", "128", "1", "1", "0", "1", "0.028"⟩ = .ok ["-size (bytes) 65536\n", "-block size (bytes) 128\n", "-output/input bus width 128\n", "-associativity 1\n",
    "-read-write port 0\n", "-exclusive read port 1\n", "-exclusive write port 1\n", "-single ended read ports 0\n", "-UCA bank count 1\n", "-technology (u) 0.028\n", "-cache type \"ram\"\n"] := by
  decide +kernel

/-- `sweep_two_false`: there are configurations. -/
example : ∃ cs, sweep options ["associativity", "bank_count"] = .ok cs ∧ cs.length = 9 := ⟨_, rfl, rfl⟩

/-- `change_spec`: the last value counts. -/
example : (changeDefault options [("bank_count", "4"), ("bank_count", "8")]).toOption.map (fun os => os.map Opt.dflt) =
    some ["64", "64", "128", "1", "0", "2", "2", "0", "8", "0.09", "\"ram\""] := by decide +kernel

/-- `results_spec`: the record of one line. -/
example : results (fun t => if t = "64" then some 64 else if t = "8" then some 8 else some (1 / 2)) "sram"
    [["Tech", " Capacity (bytes)", " Output width (bits)", " Dynamic read energy (nJ)", " Dynamic write energy (nJ)", " Area (mm2)"], ["28", "64", "8", "x", "8", "y"]] =
    .ok [⟨64, 512, some (1 / 2), some (1 / 2), some 8, 8, "sram"⟩] := by decide +kernel

end Verif.CactiText
