import Verif.Save.Model
import Mathlib.Tactic.Common
import Mathlib.Data.List.Forall2

/-! C97 (every result is in its file) and C98 (crashes never damage finished results). -/

namespace Verif.Save

variable {B R : Type}

theorem after_append (fs : FS B) (a b : List (Ev B R)) : after fs (a ++ b) = after (after fs a) b := by
  simp [after, List.foldl_append]

theorem after_puts (p : Path) : ∀ (t : List B) (fs : FS B) (q : Path),
    (after fs (t.map (Ev.put (R := R) p))).get? q =
      if p = q ∧ t ≠ [] then some (((fs.get? p).getD []) ++ t) else fs.get? q
  | [], fs, q => by simp [after]
  | b :: t, fs, q => by
    have h := after_puts p t (fs.set p (((fs.get? p).getD []) ++ [b])) q
    have e : after fs ((b :: t).map (Ev.put (R := R) p)) = after (fs.set p (((fs.get? p).getD []) ++ [b])) (t.map (Ev.put (R := R) p)) := rfl
    rw [e, h]
    by_cases hp : p = q
    · subst hp
      by_cases ht : t = []
      · subst ht; simp
      · simp [ht]
    · simp [hp, Dict.get?_set]

/-- Opening and writing a file puts exactly the text there and changes no other file. -/
theorem after_save (p : Path) (t : List B) (fs : FS B) (q : Path) :
    (after fs (Ev.trunc p :: t.map (Ev.put (R := R) p))).get? q = if p = q then some t else fs.get? q := by
  have e : after fs (Ev.trunc p :: t.map (Ev.put (R := R) p)) = after (fs.set p []) (t.map (Ev.put (R := R) p)) := rfl
  rw [e, after_puts]
  by_cases hp : p = q
  · subst hp
    by_cases ht : t = []
    · subst ht; simp
    · simp [ht]
  · simp [hp, Dict.get?_set]

theorem yields_append (a b : List (Ev B R)) : yields (a ++ b) = yields a ++ yields b := by
  induction a with
  | nil => rfl
  | cons x t ih => cases x <;> simp [yields, ih]

theorem yields_puts (p : Path) (t : List B) : yields (t.map (Ev.put (R := R) p)) = [] := by
  induction t with
  | nil => rfl
  | cons x t ih => simpa [yields] using ih

theorem raised_append (a b : List (Ev B R)) (h : raised a = none) : raised (a ++ b) = raised b := by
  induction a with
  | nil => rfl
  | cons x t ih => cases x <;> simp_all [raised]

theorem raised_puts (p : Path) (t : List B) : raised (t.map (Ev.put (R := R) p)) = none := by
  induction t with
  | nil => rfl
  | cons x t ih => simpa [raised] using ih

/-- `r` can be written: it has a file and its text is complete. -/
def Fine (folder : Path) (suffix : List Char) (kind : R → Kind) (text : R → List B × Option PyErr) (r : R) : Prop :=
  (∃ p, fileName folder suffix (kind r) = .ok p) ∧ (text r).2 = none

private theorem saveRun_fine {folder : Path} {suffix : List Char} {kind : R → Kind} {text : R → List B × Option PyErr} {r : R} {p : Path}
    (h1 : fileName folder suffix (kind r) = .ok p) (h2 : (text r).2 = none) (rs : List R) :
    saveRun folder suffix kind text (r :: rs) =
      (Ev.trunc p :: (text r).1.map (.put p)) ++ (Ev.out r :: saveRun folder suffix kind text rs) := by
  rw [saveRun, h1]
  simp only [h2]

/-- C97: a save stage hands on every result of its sub-stage unchanged and in order, and afterwards every file holds the text of the last
result that is saved to it; files that no result is saved to are unchanged. -/
theorem saved_last (folder : Path) (suffix : List Char) (kind : R → Kind) (text : R → List B × Option PyErr) :
    ∀ (rs : List R) (fs : FS B), (∀ r ∈ rs, Fine folder suffix kind text r) →
      yields (saveRun folder suffix kind text rs) = rs ∧ raised (saveRun folder suffix kind text rs) = none ∧
      ∀ q, (after fs (saveRun folder suffix kind text rs)).get? q =
        match (rs.filter fun r => decide ((fileName folder suffix (kind r)).toOption = some q)).getLast? with
        | some r => some (text r).1
        | none => fs.get? q
  | [], fs, _ => ⟨rfl, rfl, fun q => rfl⟩
  | r :: rs, fs, h => by
    obtain ⟨⟨p, hp⟩, ht⟩ := h r (by simp)
    rw [saveRun_fine hp ht]
    obtain ⟨h1, h2, h3⟩ := saved_last folder suffix kind text rs (after fs (Ev.trunc p :: (text r).1.map (Ev.put (R := R) p)))
      (fun x hx => h x (by simp [hx]))
    refine ⟨?_, ?_, ?_⟩
    · rw [yields_append]
      change yields ((text r).1.map (Ev.put p)) ++ r :: yields _ = _
      rw [yields_puts, h1]; rfl
    · rw [raised_append _ _ (by change raised ((text r).1.map (Ev.put p)) = none; exact raised_puts _ _)]
      change raised (saveRun folder suffix kind text rs) = none
      exact h2
    · intro q
      rw [after_append]
      refine (h3 q).trans ?_
      rw [after_save]
      rw [List.filter_cons]
      have hd : decide ((fileName folder suffix (kind r)).toOption = some q) = decide (p = q) := by
        rw [hp]; simp [Except.toOption]
      rw [hd]
      by_cases hpq : p = q
      · simp only [hpq, decide_true, if_true]
        rw [List.getLast?_cons]
        cases (rs.filter fun r => decide ((fileName folder suffix (kind r)).toOption = some q)).getLast? with
        | none => rfl
        | some x => rfl
      · simp only [hpq, decide_false, Bool.false_eq_true, if_false]

/-- C97: where a result is saved: the total in `overall`, a layer in a file with its name, in which slashes are underscores. -/
theorem saved_where (folder : Path) (suffix : List Char) (k : Kind) (p : Path) : fileName folder suffix k = .ok p ↔
    (k = .cumulative ∧ p = folder ++ "/overall".toList ++ suffix) ∨
    ∃ name file, k = .layer name ∧ p = folder ++ "/".toList ++ file ++ suffix ∧
      List.Forall₂ (fun a b => (a = '/' → b = '_') ∧ (a ≠ '/' → b = a)) name file := by
  have hm : ∀ name file : List Char, List.Forall₂ (fun a b => (a = '/' → b = '_') ∧ (a ≠ '/' → b = a)) name file ↔ file = noSlash name := by
    intro name
    induction name with
    | nil => intro file; simp [noSlash]
    | cons a t ih =>
      intro file
      rw [List.forall₂_cons_left_iff]
      constructor
      · rintro ⟨b, u, ⟨h1, h2⟩, h3, rfl⟩
        rw [(ih u).1 h3]
        simp only [noSlash, List.map_cons, List.cons.injEq, and_true]
        split
        · exact h1 ‹_›
        · exact h2 ‹_›
      · rintro rfl
        refine ⟨_, _, ⟨fun h => ?_, fun h => ?_⟩, (ih _).2 rfl, rfl⟩
        · exact if_pos h
        · exact if_neg h
  cases k with
  | cumulative => simp [fileName, eq_comm]
  | layer name =>
    simp only [fileName, Except.ok.injEq, reduceCtorEq, false_and, Kind.layer.injEq, false_or]
    constructor
    · rintro rfl
      exact ⟨name, noSlash name, rfl, rfl, (hm _ _).2 rfl⟩
    · rintro ⟨name', file, rfl, rfl, h⟩
      rw [(hm _ _).1 h]
      rfl
  | other => simp [fileName]

example : fileName ['o'] "_simple.json".toList (.layer "a/b".toList) = .ok "o/a_b_simple.json".toList := by decide +kernel

/-- C97: with different files, every result is in its file. -/
theorem saved_all (folder : Path) (suffix : List Char) (kind : R → Kind) (text : R → List B × Option PyErr) (rs : List R) (fs : FS B)
    (h : ∀ r ∈ rs, Fine folder suffix kind text r)
    (hd : (rs.map fun r => (fileName folder suffix (kind r)).toOption).Nodup) (r : R) (hr : r ∈ rs) :
    ∃ p, fileName folder suffix (kind r) = .ok p ∧ (after fs (saveRun folder suffix kind text rs)).get? p = some (text r).1 := by
  obtain ⟨⟨p, hp⟩, _⟩ := h r hr
  refine ⟨p, hp, ?_⟩
  rw [(saved_last folder suffix kind text rs fs h).2.2 p]
  have hf : (rs.filter fun r => decide ((fileName folder suffix (kind r)).toOption = some p)) = [r] := by
    clear h
    induction rs with
    | nil => simp at hr
    | cons x t ih =>
      rw [List.map_cons, List.nodup_cons] at hd
      rcases List.mem_cons.1 hr with rfl | hr
      · rw [List.filter_cons_of_pos (by simp [hp, Except.toOption])]
        rw [List.filter_eq_nil_iff.2]
        intro y hy hc
        apply hd.1
        exact List.mem_map.2 ⟨y, hy, by rw [of_decide_eq_true hc, hp]; rfl⟩
      · rw [List.filter_cons_of_neg, ih hd.2 hr]
        intro hc
        apply hd.1
        rw [of_decide_eq_true hc]
        exact List.mem_map.2 ⟨r, hr, by rw [hp]; rfl⟩
  rw [hf]; rfl

/-- C97: the claim fails for layers whose names differ only in a slash and an underscore (ONNX node names have slashes): `a/b` and
`a_b` are saved to the same file and the first result is lost. -/
theorem saved_all_false : ∃ (rs : List (List Char)) (r : List Char), r ∈ rs ∧ rs.Nodup ∧
    (∀ r ∈ rs, Fine (B := Char) ['o'] "_complete.json".toList Kind.layer (fun r => (r, none)) r) ∧
    ∃ p, fileName ['o'] "_complete.json".toList (.layer r) = .ok p ∧
      (after [] (saveRun ['o'] "_complete.json".toList Kind.layer (fun r => (r, none)) rs)).get? p ≠ some r := by
  refine ⟨["a/b".toList, "a_b".toList], "a/b".toList, by decide, by decide, ?_, _, rfl, by decide +kernel⟩
  intro r _
  exact ⟨⟨_, rfl⟩, rfl⟩

/-- Two layers and the total, in three files. -/
example : (after ([] : FS Char) (saveRun ['o'] "_simple.json".toList (fun r : Nat => if r = 0 then Kind.cumulative else .layer [Char.ofNat (96 + r)])
    (fun r => ([Char.ofNat (48 + r)], none)) [1, 2, 0])) =
    [("o/a_simple.json".toList, ['1']), ("o/b_simple.json".toList, ['2']), ("o/overall_simple.json".toList, ['0'])] := by decide +kernel

/-! ### Crashes -/

/-- C98: wherever the run is stopped (also by an exception of the encoder), the results handed on so far are the first ones, and every
file is as after the complete saving of exactly these results, except possibly the file of the next result, which may hold the
beginning of its text. -/
theorem crash_saved (folder : Path) (suffix : List Char) (kind : R → Kind) (text : R → List B × Option PyErr) :
    ∀ (rs : List R) (fs : FS B) (n : Nat), ∃ done rest, rs = done ++ rest ∧
      yields ((saveRun folder suffix kind text rs).take n) = done ∧ (∀ r ∈ done, Fine folder suffix kind text r) ∧
      ∀ q, (after fs ((saveRun folder suffix kind text rs).take n)).get? q = (after fs (saveRun folder suffix kind text done)).get? q ∨
        ∃ r k, rest.head? = some r ∧ fileName folder suffix (kind r) = .ok q ∧
          (after fs ((saveRun folder suffix kind text rs).take n)).get? q = some ((text r).1.take k)
  | [], fs, n => ⟨[], [], rfl, by simp [saveRun, yields], by simp, fun q => Or.inl (by simp [saveRun])⟩
  | r :: rs, fs, n => by
    cases hp : fileName folder suffix (kind r) with
    | error e =>
      refine ⟨[], r :: rs, rfl, ?_, by simp, fun q => Or.inl ?_⟩
      · rw [saveRun, hp]
        cases n <;> simp [yields]
      · simp only [saveRun, hp]
        cases n <;> simp [saveRun, after, apply]
    | ok p =>
      have hfull : ∃ tail, saveRun folder suffix kind text (r :: rs) = (Ev.trunc p :: (text r).1.map (.put p)) ++ tail ∧
          ((∃ e, tail = [.raise e]) ∨ ((text r).2 = none ∧ tail = .out r :: saveRun folder suffix kind text rs)) := by
        rw [saveRun, hp]
        cases ht : (text r).2 with
        | none => exact ⟨_, rfl, Or.inr ⟨rfl, rfl⟩⟩
        | some e => exact ⟨_, rfl, Or.inl ⟨e, rfl⟩⟩
      obtain ⟨tail, h1, h2⟩ := hfull
      rw [h1, List.take_append]
      simp only [List.length_cons, List.length_map]
      by_cases hn : n ≤ (text r).1.length + 1
      · -- stopped while writing
        have h0 : n - ((text r).1.length + 1) = 0 := by omega
        rw [h0, List.take_zero, List.append_nil]
        refine ⟨[], r :: rs, rfl, ?_, by simp, fun q => ?_⟩
        · cases n with
          | zero => rfl
          | succ n =>
            rw [List.take_succ_cons, ← List.map_take]
            exact yields_puts _ _
        · cases n with
          | zero => exact Or.inl rfl
          | succ n =>
            rw [List.take_succ_cons, ← List.map_take, after_save]
            by_cases hpq : p = q
            · subst hpq
              exact Or.inr ⟨r, n, rfl, hp, by rw [if_pos rfl]⟩
            · rw [if_neg hpq]; exact Or.inl rfl
      · obtain ⟨m, hm⟩ : ∃ m, n - ((text r).1.length + 1) = m + 1 := ⟨n - ((text r).1.length + 1) - 1, by omega⟩
        rw [hm, List.take_of_length_le (by simp; omega)]
        rcases h2 with ⟨e, rfl⟩ | ⟨ht, rfl⟩
        · -- the encoder raised
          refine ⟨[], r :: rs, rfl, ?_, by simp, fun q => ?_⟩
          · rw [yields_append]
            change yields ((text r).1.map (Ev.put p)) ++ _ = _
            rw [yields_puts]; simp [yields]
          · have e1 : after fs ((Ev.trunc p :: (text r).1.map (Ev.put (R := R) p)) ++ [Ev.raise e].take (m + 1)) =
                after fs (Ev.trunc p :: (text r).1.map (Ev.put (R := R) p)) := by
              rw [after_append]; simp [after, apply]
            rw [e1, after_save]
            by_cases hpq : p = q
            · subst hpq
              exact Or.inr ⟨r, (text r).1.length, rfl, hp, by rw [if_pos rfl, List.take_length]⟩
            · rw [if_neg hpq]; exact Or.inl rfl
        · obtain ⟨done, rest, g1, g2, g3, g4⟩ := crash_saved folder suffix kind text rs
            (after fs (Ev.trunc p :: (text r).1.map (Ev.put (R := R) p))) m
          refine ⟨r :: done, rest, by rw [g1]; rfl, ?_, ?_, fun q => ?_⟩
          · rw [yields_append, List.take_succ_cons]
            change yields ((text r).1.map (Ev.put p)) ++ r :: yields _ = _
            rw [yields_puts, g2]; rfl
          · intro x hx
            rcases List.mem_cons.1 hx with rfl | hx
            · exact ⟨⟨p, hp⟩, ht⟩
            · exact g3 x hx
          · have e1 : after fs ((Ev.trunc p :: (text r).1.map (Ev.put (R := R) p)) ++
                (Ev.out r :: saveRun folder suffix kind text rs).take (m + 1)) =
                after (after fs (Ev.trunc p :: (text r).1.map (Ev.put (R := R) p))) ((saveRun folder suffix kind text rs).take m) := by
              rw [after_append, List.take_succ_cons]; rfl
            have e2 : after fs (saveRun folder suffix kind text (r :: done)) =
                after (after fs (Ev.trunc p :: (text r).1.map (Ev.put (R := R) p))) (saveRun folder suffix kind text done) := by
              rw [saveRun_fine hp ht, after_append]; rfl
            rw [e1, e2]
            exact g4 q

/-- C98: results of an earlier run are not safe: a run with the same folder that stops while it saves a layer leaves neither the old nor
the new result. -/
theorem crash_saved_false : ∃ (fs : FS Char) (rs : List (List Char)) (n : Nat) (p : Path), fs.get? p = some "old".toList ∧
    (after fs ((saveRun ['o'] "_complete.json".toList Kind.layer (fun _ => ("new".toList, none)) rs).take n)).get? p = some "ne".toList :=
  ⟨[("o/a_complete.json".toList, "old".toList)], ["a".toList], 3, "o/a_complete.json".toList, by decide +kernel, by decide +kernel⟩

/-- C98: the text file with the loop orders only grows: wherever a run is stopped, the file holds what was there before and then the
beginning of the loop orders of this run, in order.  (So repeated runs with one folder are all in the file.) -/
theorem crash_orders (p : Path) (single : R → Bool) (text : R → List B) : ∀ (rs : List R) (fs : FS B) (n : Nat),
    ∃ k, ((after fs ((orderRun p single text rs).take n)).get? p).getD [] =
      ((fs.get? p).getD []) ++ (((rs.filter single).map text).flatten).take k
  | [], fs, n => ⟨0, by simp [orderRun, after]⟩
  | r :: rs, fs, n => by
    rw [orderRun]
    have puts : ∀ (t : List B) (fs : FS B), ((after fs (t.map (Ev.put (R := R) p))).get? p).getD [] = ((fs.get? p).getD []) ++ t := by
      intro t fs
      rw [after_puts]
      by_cases ht : t = []
      · subst ht; simp
      · simp [ht]
    by_cases hs : single r = true
    · rw [if_pos hs, List.filter_cons_of_pos hs, List.map_cons, List.flatten_cons, List.take_append]
      rw [List.length_map, ← List.map_take]
      by_cases hn : n ≤ (text r).length
      · refine ⟨n, ?_⟩
        have h0 : n - (text r).length = 0 := by omega
        rw [h0, List.take_zero, List.append_nil, puts, List.take_append_of_le_length hn]
      · obtain ⟨m, hm⟩ : ∃ m, n - (text r).length = m + 1 := ⟨n - (text r).length - 1, by omega⟩
        obtain ⟨k, hk⟩ := crash_orders p single text rs (after fs ((text r).map (Ev.put (R := R) p))) m
        refine ⟨(text r).length + k, ?_⟩
        rw [hm, List.take_succ_cons, List.take_of_length_le (by omega : (text r).length ≤ n), after_append]
        change ((after _ ((orderRun p single text rs).take m)).get? p).getD [] = _
        refine hk.trans ?_
        rw [puts, List.take_length_add_append, List.append_assoc]
    · rw [if_neg hs, List.filter_cons_of_neg hs, List.nil_append]
      cases n with
      | zero => exact ⟨0, by simp [after]⟩
      | succ m =>
        obtain ⟨k, hk⟩ := crash_orders p single text rs fs m
        exact ⟨k, hk⟩

/-- ... and after a whole run it holds all of them. -/
theorem orders_all (p : Path) (single : R → Bool) (text : R → List B) : ∀ (rs : List R) (fs : FS B),
    yields (orderRun p single text rs) = rs ∧
    ((after fs (orderRun p single text rs)).get? p).getD [] = ((fs.get? p).getD []) ++ ((rs.filter single).map text).flatten
  | [], fs => ⟨rfl, by simp [orderRun, after]⟩
  | r :: rs, fs => by
    rw [orderRun]
    have puts : ∀ (t : List B) (fs : FS B), ((after fs (t.map (Ev.put (R := R) p))).get? p).getD [] = ((fs.get? p).getD []) ++ t := by
      intro t fs
      rw [after_puts]
      by_cases ht : t = []
      · subst ht; simp
      · simp [ht]
    by_cases hs : single r = true
    · obtain ⟨h1, h2⟩ := orders_all p single text rs (after fs ((text r).map (Ev.put (R := R) p)))
      rw [if_pos hs, List.filter_cons_of_pos hs, List.map_cons, List.flatten_cons, yields_append, yields_puts, after_append]
      refine ⟨by rw [List.nil_append]; exact congrArg (r :: ·) h1, h2.trans ?_⟩
      rw [puts, List.append_assoc]
    · obtain ⟨h1, h2⟩ := orders_all p single text rs fs
      rw [if_neg hs, List.filter_cons_of_neg hs, List.nil_append]
      exact ⟨congrArg (r :: ·) h1, h2⟩

/-! ### Skipping finished runs -/

/-- One run (possibly stopped after `n` events) of a pipeline that skips if the dump exists and saves to the dump folder. -/
def skipStep (folder : Path) (suffix : List Char) (kind : R → Kind) (text : R → List B × Option PyErr) (fs : FS B) (x : List R × Nat) : FS B :=
  after fs ((skipRun folder fs (saveRun folder suffix kind text x.1)).take x.2)

private theorem saveRun_other (folder : Path) (suffix : List Char) (kind : R → Kind) (text : R → List B × Option PyErr) (q : Path)
    (hq : ∀ k p, fileName folder suffix k = .ok p → p ≠ q) (rs : List R) (fs : FS B) (n : Nat) :
    (after fs ((saveRun folder suffix kind text rs).take n)).get? q = fs.get? q := by
  obtain ⟨done, rest, _, _, h3, h4⟩ := crash_saved folder suffix kind text rs fs n
  rcases h4 q with h | ⟨r, _, _, h, _⟩
  · rw [h, (saved_last folder suffix kind text done fs h3).2.2 q]
    have : (done.filter fun r => decide ((fileName folder suffix (kind r)).toOption = some q)) = [] := by
      rw [List.filter_eq_nil_iff]
      intro r hr hc
      obtain ⟨⟨p, hp⟩, _⟩ := h3 r hr
      rw [hp] at hc
      exact hq _ _ hp (by simpa [Except.toOption] using hc)
    rw [this]; rfl
  · exact absurd rfl (hq _ _ h)

/-- C98: skipping never happens for a dump folder: whatever runs (complete or stopped anywhere) went before, the folder is not a file,
so every run evaluates everything again and writes over the earlier results. -/
theorem skip_never_false (folder : Path) (suffix : List Char) (kind : R → Kind) (text : R → List B × Option PyErr) (fs : FS B)
    (h : fs.get? folder = none) (runs : List (List R × Nat)) (rs : List R) :
    skipRun folder (runs.foldl (skipStep folder suffix kind text) fs) (saveRun folder suffix kind text rs) =
      saveRun folder suffix kind text rs := by
  have key : ∀ (runs : List (List R × Nat)) (fs : FS B), fs.get? folder = none →
      (runs.foldl (skipStep folder suffix kind text) fs).get? folder = none := by
    intro runs
    induction runs with
    | nil => intro fs h; exact h
    | cons x t ih =>
      intro fs h
      rw [List.foldl_cons]
      apply ih
      unfold skipStep skipRun
      rw [h]
      simp only [Option.isSome_none, Bool.false_eq_true, if_false]
      rw [saveRun_other, h]
      intro k p hk hc
      cases k with
      | cumulative =>
        unfold fileName at hk
        injection hk with hk
        rw [hc] at hk
        have := congrArg List.length hk
        simp at this
      | layer name =>
        unfold fileName at hk
        injection hk with hk
        rw [hc] at hk
        have := congrArg List.length hk
        simp at this
      | other => cases hk
  unfold skipRun
  rw [key runs fs h]
  simp

/-! ### The list of all results -/

/-- C97: the pickle file holds the results listed in the extra information of the last result handed on; everything is handed on. -/
theorem pickle_last {C : Type} (p : Path) (hp : '/' ∈ p) (all : R → List C) (enc : List C → List B) (rs : List R) (r : R) (fs : FS B) :
    yields (pickleRun p all enc (rs ++ [r])) = rs ++ [r] ∧ raised (pickleRun p all enc (rs ++ [r])) = none ∧
    (after fs (pickleRun p all enc (rs ++ [r]))).get? p = some (enc (all r)) := by
  have hc : p.all (fun c => decide (c ≠ '/')) = false := by
    rw [List.all_eq_false]
    exact ⟨'/', hp, by simp⟩
  have hout : ∀ l : List R, yields (l.map (Ev.out (B := B))) = l ∧ raised (l.map (Ev.out (B := B))) = none ∧
      ∀ fs : FS B, after fs (l.map (Ev.out (B := B))) = fs := by
    intro l
    induction l with
    | nil => exact ⟨rfl, rfl, fun _ => rfl⟩
    | cons x t ih => exact ⟨congrArg (x :: ·) ih.1, ih.2.1, fun fs => ih.2.2 fs⟩
  unfold pickleRun
  rw [hc]
  simp only [Bool.false_eq_true, if_false, List.getLast?_append, List.getLast?_singleton, Option.some_or]
  obtain ⟨h1, h2, h3⟩ := hout (rs ++ [r])
  refine ⟨?_, ?_, ?_⟩
  · rw [yields_append, h1]
    change _ ++ yields ((enc (all r)).map (Ev.put p)) = _
    rw [yields_puts, List.append_nil]
  · rw [raised_append _ _ h2]
    exact raised_puts _ _
  · rw [after_append, h3, after_save, if_pos rfl]

/-- C97: so below a stage that yields once with all results (as the sum stage does) nothing is lost, but of several yielded results only
the list of the last is saved. -/
theorem pickle_all_false : ∃ (rs : List (List Nat)) (x : Nat), (∃ r ∈ rs, x ∈ r) ∧
    ∀ l, (after ([] : FS Nat) (pickleRun "d/f".toList (fun r => r) (fun l => l) rs)).get? "d/f".toList = some l → x ∉ l := by
  refine ⟨[[1], [2]], 1, ⟨[1], by simp, by simp⟩, ?_⟩
  intro l hl
  have : (after ([] : FS Nat) (pickleRun "d/f".toList (fun r => r) (fun l => l) [[1], [2]])).get? "d/f".toList = some [2] := by
    decide +kernel
  rw [this] at hl
  injection hl with hl
  subst hl
  decide

/-- C97: a pickle file without directory in its name makes the run raise at the very end, for all results: nothing is saved and the
results of the whole run are lost. -/
theorem pickle_bare_name_false {C : Type} (p : Path) (hp : '/' ∉ p) (all : R → List C) (enc : List C → List B) (rs : List R) (fs : FS B) :
    raised (pickleRun p all enc rs) = some .runtimeError ∧ after fs (pickleRun p all enc rs) = fs := by
  have hc : p.all (fun c => decide (c ≠ '/')) = true := by
    rw [List.all_eq_true]
    intro c hc
    exact decide_eq_true (fun e => hp (e ▸ hc))
  unfold pickleRun
  rw [hc, if_pos rfl]
  induction rs with
  | nil => exact ⟨rfl, rfl⟩
  | cons x t ih => exact ⟨ih.1, ih.2⟩

/-- C97: without any result an empty file replaces whatever was saved before. -/
theorem pickle_none {C : Type} (p : Path) (hp : '/' ∈ p) (all : R → List C) (enc : List C → List B) (fs : FS B) :
    (after fs (pickleRun p all enc ([] : List R))).get? p = some [] := by
  have hc : p.all (fun c => decide (c ≠ '/')) = false := by
    rw [List.all_eq_false]
    exact ⟨'/', hp, by simp⟩
  unfold pickleRun
  rw [hc]
  simp [after, apply]

/-- A total with two layers. -/
example : (after ([] : FS Nat) (pickleRun "d/f".toList (fun r : Nat × List Nat => r.2) (fun l => l) [(3, [1, 2])])).get? "d/f".toList =
    some [1, 2] := by decide +kernel

end Verif.Save
