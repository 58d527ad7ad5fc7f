import Verif.TemporalMapping.Model
import Mathlib.Algebra.Order.BigOperators.Group.List
import Mathlib.Tactic.Linarith

namespace Verif.TemporalMapping

variable {Op Dim : Type} [DecidableEq Op] [DecidableEq Dim]

abbrev irp (ir : Dim → Bool) : TLoop Dim → Bool := fun l => ir l.1

theorem mem_takeWhile_imp {α : Type} {p : α → Bool} {l : List α} {a : α} (h : a ∈ l.takeWhile p) : p a = true := by
  induction l with
  | nil => simp at h
  | cons x l ih =>
    by_cases hx : p x = true
    · rw [List.takeWhile_cons_of_pos hx] at h
      rcases List.mem_cons.1 h with rfl | h
      · exact hx
      · exact ih h
    · rw [List.takeWhile_cons_of_neg hx] at h; simp at h

theorem modify_append (st : Levels Dim) (k : Nat) (a b : List (TLoop Dim)) :
    (st.modify k (fun x => x ++ a)).modify k (fun x => x ++ b) = st.modify k (fun x => x ++ (a ++ b)) := by
  rw [List.modify_modify_eq]
  congr 1
  funext x
  simp

theorem scan_spec (ir : Dim → Bool) (level : Nat) : ∀ (loops : List (TLoop Dim)) (st : Levels Dim) (mac : ℚ),
    scan ir level loops loops st mac =
      (let st1 := st.modify (level - 1) (fun x => x ++ loops.takeWhile (irp ir))
       (if loops.dropWhile (irp ir) = [] then st1 else st1.modify level (fun x => x ++ loops.dropWhile (irp ir)),
        if level = 0 then mac * ((loops.takeWhile (irp ir)).map Prod.snd).prod else mac))
  | [], st, mac => by
    have : (fun x : List (TLoop Dim) => x ++ []) = id := by funext x; simp
    simp only [scan, List.takeWhile_nil, List.dropWhile_nil, this, List.modify_id, if_true]
    simp
  | l :: ls, st, mac => by
    unfold scan
    by_cases h : ir l.1 = true
    · rw [if_pos h, List.erase_cons_head]
      have ht : (l :: ls).takeWhile (irp ir) = l :: ls.takeWhile (irp ir) := List.takeWhile_cons_of_pos h
      have hd : (l :: ls).dropWhile (irp ir) = ls.dropWhile (irp ir) := List.dropWhile_cons_of_pos h
      rw [ht, hd]
      by_cases hl : level = 0
      · subst hl
        rw [if_pos rfl, scan_spec ir 0 ls]
        simp only [Nat.zero_sub, if_true]
        rw [modify_append]
        simp [mul_assoc]
      · rw [if_neg hl, scan_spec ir level ls]
        simp only [if_neg hl]
        rw [modify_append]
        simp
    · rw [if_neg h]
      have ht : (l :: ls).takeWhile (irp ir) = [] := List.takeWhile_cons_of_neg h
      have hd : (l :: ls).dropWhile (irp ir) = l :: ls := List.dropWhile_cons_of_neg h
      rw [ht, hd]
      have : (fun x : List (TLoop Dim) => x ++ []) = id := by funext x; simp
      simp only [this, List.modify_id]
      simp

/-- Closed form of a pass above the first level: every level keeps what follows its irrelevant prefix and receives the
irrelevant prefix of the next level. -/
def shift (ir : Dim → Bool) : Levels Dim → Levels Dim
  | [] => []
  | [x] => [x.dropWhile (irp ir)]
  | x :: y :: rest => (x.dropWhile (irp ir) ++ y.takeWhile (irp ir)) :: shift ir (y :: rest)

def passSpec (ir : Dim → Bool) : Levels Dim → Levels Dim
  | [] => []
  | [x] => [x]
  | x :: y :: rest => (x ++ y.takeWhile (irp ir)) :: shift ir (y :: rest)

theorem modify_append_right {α : Type} (a b : List α) (k : Nat) (f : α → α) : (a ++ b).modify (a.length + k) f = a ++ b.modify k f := by
  induction a with
  | nil => simp
  | cons x a ih => simp only [List.cons_append, List.length_cons]; rw [show a.length + 1 + k = (a.length + k) + 1 by omega, List.modify_succ_cons, ih]

theorem levelLoop_spec (ir : Dim → Bool) : ∀ (rest : Levels Dim) (done : Levels Dim) (cur : List (TLoop Dim)) (mac : ℚ),
    levelLoop ir rest (done.length + 1) (done ++ cur :: List.replicate rest.length []) mac =
      (done ++ (match rest with | [] => [cur] | y :: ys => (cur ++ y.takeWhile (irp ir)) :: shift ir (y :: ys)), mac)
  | [], done, cur, mac => by simp [levelLoop]
  | y :: ys, done, cur, mac => by
    have key : levelLoop ir (y :: ys) (done.length + 1) (done ++ cur :: List.replicate (y :: ys).length []) mac =
        levelLoop ir ys ((done ++ [cur ++ y.takeWhile (irp ir)]).length + 1)
          ((done ++ [cur ++ y.takeWhile (irp ir)]) ++ y.dropWhile (irp ir) :: List.replicate ys.length []) mac := by
      rw [levelLoop.eq_def]
      simp only
      by_cases hy : y = []
      · subst hy
        rw [if_pos rfl]
        simp [List.replicate_succ, List.set_append_right]
      · rw [if_neg hy, scan_spec]
        simp only [Nat.add_sub_cancel]
        have e1 : (done ++ cur :: List.replicate (y :: ys).length []).modify done.length (fun x => x ++ y.takeWhile (irp ir)) =
            done ++ (cur ++ y.takeWhile (irp ir)) :: List.replicate (y :: ys).length [] := by
          have := modify_append_right done (cur :: List.replicate (y :: ys).length ([] : List (TLoop Dim))) 0 (fun x => x ++ y.takeWhile (irp ir))
          rw [Nat.add_zero] at this
          rw [this]; rfl
        rw [e1]
        simp only [List.length_cons, List.replicate_succ, Nat.add_eq_zero_iff, Nat.one_ne_zero, and_false, if_false, List.length_append,
          List.length_nil, Nat.zero_add, List.append_assoc, List.cons_append, List.nil_append]
        congr 1
        by_cases hd : y.dropWhile (irp ir) = []
        · rw [if_pos hd, hd]
        · rw [if_neg hd, modify_append_right]
          simp
    rw [key, levelLoop_spec ir ys]
    cases ys with
    | nil => simp [shift]
    | cons z zs => simp [shift]

theorem pass_spec (ir : Dim → Bool) (prev : Levels Dim) :
    pass ir prev = (passSpec ir prev, (((prev.headD []).takeWhile (irp ir)).map Prod.snd).prod) := by
  unfold pass
  cases prev with
  | nil => simp [levelLoop, passSpec]
  | cons x rest =>
    have key : levelLoop ir (x :: rest) 0 (List.replicate (x :: rest).length []) 1 =
        levelLoop ir rest (([] : Levels Dim).length + 1) (([] : Levels Dim) ++ x :: List.replicate rest.length [])
          ((x.takeWhile (irp ir)).map Prod.snd).prod := by
      rw [levelLoop.eq_def]
      simp only
      by_cases hx : x = []
      · subst hx
        rw [if_pos rfl]
        simp [List.replicate_succ]
      · rw [if_neg hx, scan_spec]
        simp only [List.length_cons, List.replicate_succ, Nat.zero_sub, if_true, one_mul, List.modify_zero_cons, List.nil_append, List.length_nil]
        congr 1
        by_cases hd : x.dropWhile (irp ir) = []
        · rw [if_pos hd]
          have := List.takeWhile_append_dropWhile (p := irp ir) (l := x)
          rw [hd, List.append_nil] at this
          rw [this]
        · rw [if_neg hd]
          simp
    rw [key, levelLoop_spec]
    cases rest with
    | nil => simp [passSpec]
    | cons y ys => simp [passSpec]

theorem length_shift (ir : Dim → Bool) : ∀ m : Levels Dim, (shift ir m).length = m.length
  | [] => rfl
  | [_] => rfl
  | _ :: y :: rest => by simp only [shift, List.length_cons]; rw [length_shift ir (y :: rest)]; simp

theorem length_passSpec (ir : Dim → Bool) (m : Levels Dim) : (passSpec ir m).length = m.length := by
  match m with
  | [] => rfl
  | [_] => rfl
  | _ :: y :: rest => simp only [passSpec, List.length_cons]; rw [length_shift]; simp

/-- Boundaries of the levels after a shift. -/
theorem take_shift (ir : Dim → Bool) : ∀ (m : Levels Dim) (k : Nat),
    ((m.headD []).takeWhile (irp ir)) ++ ((shift ir m).take (k + 1)).flatten = (m.take (k + 1)).flatten ++
      ((m.getD (k + 1) []).takeWhile (irp ir))
  | [], k => by simp [shift]
  | [x], k => by
    have h := List.takeWhile_append_dropWhile (p := irp ir) (l := x)
    simp [shift, h]
  | x :: y :: rest, 0 => by
    have h := List.takeWhile_append_dropWhile (p := irp ir) (l := x)
    simp only [shift, List.take_succ_cons, List.take_zero, List.flatten_cons, List.flatten_nil, List.append_nil, List.headD_cons]
    rw [List.getD_cons_succ, List.getD_cons_zero, ← List.append_assoc, h]
  | x :: y :: rest, k + 1 => by
    have ih := take_shift ir (y :: rest) k
    have h := List.takeWhile_append_dropWhile (p := irp ir) (l := x)
    simp only [shift]
    rw [List.take_succ_cons, List.flatten_cons, List.headD_cons, ← List.append_assoc, ← List.append_assoc, h, List.append_assoc]
    rw [List.headD_cons] at ih
    rw [ih, List.take_succ_cons (i := k + 1) (a := x), List.flatten_cons, List.getD_cons_succ (n := k + 1), List.append_assoc]

theorem take_passSpec (ir : Dim → Bool) (m : Levels Dim) (k : Nat) :
    ((passSpec ir m).take (k + 1)).flatten = (m.take (k + 1)).flatten ++ ((m.getD (k + 1) []).takeWhile (irp ir)) := by
  match m, k with
  | [], k => simp [passSpec]
  | [x], k => simp [passSpec]
  | x :: y :: rest, 0 => simp [passSpec]
  | x :: y :: rest, k + 1 =>
    have ih := take_shift ir (y :: rest) k
    simp only [passSpec]
    rw [List.take_succ_cons, List.flatten_cons]
    rw [List.headD_cons] at ih
    rw [List.append_assoc, ih, List.take_succ_cons (i := k + 1) (a := x), List.flatten_cons, List.getD_cons_succ (n := k + 1), List.append_assoc]

theorem flatten_passSpec (ir : Dim → Bool) (m : Levels Dim) : (passSpec ir m).flatten = m.flatten := by
  cases m with
  | nil => rfl
  | cons x m =>
    have h := take_passSpec ir (x :: m) m.length
    rw [List.take_of_length_le (by rw [length_passSpec]; simp), List.take_of_length_le (by simp)] at h
    rw [h]
    simp

/-- Position of the upper boundary of level `k`. -/
def bound (m : Levels Dim) (k : Nat) : Nat := ((m.take (k + 1)).flatten).length

theorem drop_bound (m : Levels Dim) (k : Nat) : m.flatten.drop (bound m k) = (m.drop (k + 1)).flatten := by
  have : m.flatten = (m.take (k + 1)).flatten ++ (m.drop (k + 1)).flatten := by
    rw [← List.flatten_append, List.take_append_drop]
  unfold bound
  rw [this, List.drop_left]

/-- Where the boundary of level `k` has to end: behind the run of irrelevant loops that starts at it. -/
def target (ir : Dim → Bool) (m : Levels Dim) (k : Nat) : Nat :=
  bound m k + ((m.flatten.drop (bound m k)).takeWhile (irp ir)).length

theorem target_passSpec (ir : Dim → Bool) (m : Levels Dim) (k : Nat) : target ir (passSpec ir m) k = target ir m k := by
  have hb : bound (passSpec ir m) k = bound m k + ((m.getD (k + 1) []).takeWhile (irp ir)).length := by
    unfold bound; rw [take_passSpec, List.length_append]
  unfold target
  rw [flatten_passSpec, hb, ← List.drop_drop, drop_bound, Nat.add_assoc]
  congr 1
  cases hd : m.drop (k + 1) with
  | nil =>
    have : m.getD (k + 1) [] = [] := by
      rw [List.getD_eq_getElem?_getD, List.getElem?_eq_none (by rw [List.drop_eq_nil_iff] at hd; omega)]; rfl
    rw [this]; simp
  | cons y ys =>
    have hy : m.getD (k + 1) [] = y := by
      rw [List.getD_eq_getElem?_getD]
      have : (m.drop (k + 1))[0]? = some y := by rw [hd]; rfl
      rw [List.getElem?_drop, Nat.add_zero] at this
      rw [this]; rfl
    rw [hy, List.flatten_cons]
    have h := List.takeWhile_append_dropWhile (p := irp ir) (l := y)
    have e1 : (y ++ ys.flatten).drop (y.takeWhile (irp ir)).length = y.dropWhile (irp ir) ++ ys.flatten := by
      conv_lhs => rw [← h]
      rw [List.append_assoc]
      rw [show (List.takeWhile (irp ir) (List.takeWhile (irp ir) y ++ List.dropWhile (irp ir) y)) = List.takeWhile (irp ir) y by rw [h]]
      rw [List.drop_left]
    rw [e1]
    have e2 : (y ++ ys.flatten).takeWhile (irp ir) = y.takeWhile (irp ir) ++ (y.dropWhile (irp ir) ++ ys.flatten).takeWhile (irp ir) := by
      rw [← List.takeWhile_append_of_pos (l₁ := y.takeWhile (irp ir)) (fun a ha => mem_takeWhile_imp ha), ← List.append_assoc, h]
    rw [e2, List.length_append]

/-- No level above the first starts with an irrelevant loop. -/
def Settled (ir : Dim → Bool) (m : Levels Dim) : Prop := ∀ k, ((m.getD (k + 1) []).takeWhile (irp ir)) = []

theorem ext_of_bounds {a b : Levels Dim} (hl : a.length = b.length) (h : ∀ k, (a.take (k + 1)).flatten = (b.take (k + 1)).flatten) :
    a = b := by
  induction a generalizing b with
  | nil => exact (List.eq_nil_of_length_eq_zero hl.symm).symm
  | cons x a ih =>
    cases b with
    | nil => simp at hl
    | cons y b =>
      have h0 : x = y := by simpa using h 0
      subst h0
      congr 1
      apply ih (by simpa using hl)
      intro k
      have := h (k + 1)
      rw [List.take_succ_cons, List.flatten_cons, List.take_succ_cons, List.flatten_cons] at this
      exact List.append_cancel_left this

theorem passSpec_eq_iff (ir : Dim → Bool) (m : Levels Dim) : passSpec ir m = m ↔ Settled ir m := by
  constructor
  · intro h k
    have := take_passSpec ir m k
    rw [h] at this
    simpa using this
  · intro h
    apply ext_of_bounds (length_passSpec ir m)
    intro k
    rw [take_passSpec, h k, List.append_nil]

theorem settled_run (ir : Dim → Bool) : ∀ (m : Levels Dim), Settled ir m → ∀ k, (m.flatten.drop (bound m k)).takeWhile (irp ir) = [] := by
  intro m h k
  rw [drop_bound]
  have : ∀ (n : Nat) (t : Levels Dim), t = m.drop n → 1 ≤ n → t.flatten.takeWhile (irp ir) = [] := by
    intro n t
    induction t generalizing n with
    | nil => intro _ _; rfl
    | cons y ys ih =>
      intro ht hn
      have hy : m.getD n [] = y := by
        rw [List.getD_eq_getElem?_getD]
        have : (m.drop n)[0]? = some y := by rw [← ht]; rfl
        rw [List.getElem?_drop, Nat.add_zero] at this
        rw [this]; rfl
      have hk := h (n - 1)
      rw [Nat.sub_add_cancel hn, hy] at hk
      cases y with
      | nil =>
        rw [List.flatten_cons, List.nil_append]
        refine ih (n + 1) ?_ (by omega)
        rw [← List.drop_drop, ← ht]; rfl
      | cons l ls =>
        rw [List.flatten_cons, List.cons_append]
        by_cases hl : irp ir l = true
        · rw [List.takeWhile_cons_of_pos hl] at hk; cases hk
        · rw [List.takeWhile_cons_of_neg hl]
  exact this (k + 1) _ rfl (by omega)

/-- Termination measure: loops weighted with the height they are at. -/
def slack (m : Levels Dim) : Nat := ((List.range m.length).map (fun k => m.flatten.length - bound m k)).sum

theorem bound_le (m : Levels Dim) (k : Nat) : bound m k ≤ m.flatten.length := by
  have : m.flatten = (m.take (k + 1)).flatten ++ (m.drop (k + 1)).flatten := by
    rw [← List.flatten_append, List.take_append_drop]
  unfold bound
  rw [this, List.length_append]; omega

theorem bound_passSpec (ir : Dim → Bool) (m : Levels Dim) (k : Nat) :
    bound (passSpec ir m) k = bound m k + ((m.getD (k + 1) []).takeWhile (irp ir)).length := by
  unfold bound; rw [take_passSpec, List.length_append]

theorem slack_lt (ir : Dim → Bool) (m : Levels Dim) (h : passSpec ir m ≠ m) : slack (passSpec ir m) < slack m := by
  have hns : ¬ Settled ir m := fun hs => h ((passSpec_eq_iff ir m).2 hs)
  unfold Settled at hns
  push Not at hns
  obtain ⟨k, hk⟩ := hns
  have hlt : k < m.length := by
    by_contra hc
    apply hk
    rw [List.getD_eq_getElem?_getD, List.getElem?_eq_none (by omega)]; rfl
  unfold slack
  rw [length_passSpec, flatten_passSpec]
  apply List.sum_lt_sum
  · intro i _
    rw [bound_passSpec]; omega
  · refine ⟨k, List.mem_range.2 hlt, ?_⟩
    have h1 := bound_le (passSpec ir m) k
    rw [flatten_passSpec, bound_passSpec] at h1
    rw [bound_passSpec]
    have := List.length_pos_iff.2 hk
    omega

theorem slack_le (ir : Dim → Bool) (m : Levels Dim) : slack (passSpec ir m) ≤ slack m := by
  by_cases h : passSpec ir m = m
  · rw [h]
  · exact (slack_lt ir m h).le

theorem mergeLoop_spec (ir : Op → Dim → Bool) : ∀ (n : Nat) (ms : Dict Op (Levels Dim)), (ms.map (fun p => slack p.2)).sum ≤ n →
    ∃ out : Dict Op (Levels Dim × ℚ), (∀ fuel, n + 1 ≤ fuel → mergeLoop ir fuel ms = some out) ∧
      List.Forall₂ (fun p q => q.1 = p.1 ∧ Settled (ir p.1) q.2.1 ∧ q.2.1.length = p.2.length ∧ q.2.1.flatten = p.2.flatten ∧
        (∀ k, target (ir p.1) q.2.1 k = target (ir p.1) p.2 k) ∧
        q.2.2 = (((q.2.1.headD []).takeWhile (irp (ir p.1))).map Prod.snd).prod) ms out := by
  intro n
  induction n using Nat.strong_induction_on with
  | _ n ih =>
    intro ms hms
    have estm : (ms.map (fun p => (p.1, pass (ir p.1) p.2))).map (fun p : Op × (Levels Dim × ℚ) => (p.1, p.2.1)) =
        ms.map (fun p => (p.1, passSpec (ir p.1) p.2)) := by
      rw [List.map_map]
      apply List.map_congr_left
      intro p _
      simp [pass_spec]
    by_cases hfix : ms.map (fun p => (p.1, passSpec (ir p.1) p.2)) = ms
    · have hall : ∀ p ∈ ms, passSpec (ir p.1) p.2 = p.2 := by
        intro p hp
        obtain ⟨i, hi, rfl⟩ := List.getElem_of_mem hp
        have hi' : i < (ms.map (fun p => (p.1, passSpec (ir p.1) p.2))).length := by simpa using hi
        have : (ms.map (fun p => (p.1, passSpec (ir p.1) p.2)))[i]'hi' = ms[i] := by simp only [hfix]
        rw [List.getElem_map] at this
        exact congrArg Prod.snd this
      refine ⟨ms.map (fun p => (p.1, pass (ir p.1) p.2)), ?_, ?_⟩
      · intro fuel hf
        obtain ⟨f, rfl⟩ : ∃ f, fuel = f + 1 := ⟨fuel - 1, by omega⟩
        unfold mergeLoop
        simp only
        rw [estm, if_neg (not_not.2 hfix)]
      · rw [List.forall₂_map_right_iff, List.forall₂_same]
        intro p hp
        have h := hall p hp
        rw [pass_spec, h]
        exact ⟨rfl, (passSpec_eq_iff _ _).1 h, rfl, rfl, fun _ => rfl, rfl⟩
    · have hlt : ((ms.map (fun p => (p.1, passSpec (ir p.1) p.2))).map (fun p : Op × Levels Dim => slack p.2)).sum < (ms.map (fun p => slack p.2)).sum := by
        rw [List.map_map]
        have hex : ∃ p ∈ ms, passSpec (ir p.1) p.2 ≠ p.2 := by
          by_contra hc
          push Not at hc
          apply hfix
          conv_rhs => rw [← List.map_id ms]
          apply List.map_congr_left
          intro p hp
          rw [hc p hp]; rfl
        obtain ⟨p, hp, hne⟩ := hex
        apply List.sum_lt_sum
        · intro q _; exact slack_le _ _
        · exact ⟨p, hp, slack_lt _ _ hne⟩
      obtain ⟨out, h1, h2⟩ := ih (n - 1) (by omega) (ms.map (fun p => (p.1, passSpec (ir p.1) p.2))) (by omega)
      refine ⟨out, ?_, ?_⟩
      · intro fuel hf
        obtain ⟨f, rfl⟩ : ∃ f, fuel = f + 1 := ⟨fuel - 1, by omega⟩
        unfold mergeLoop
        simp only
        rw [estm, if_pos hfix]
        exact h1 f (by omega)
      · rw [List.forall₂_map_left_iff] at h2
        refine h2.imp ?_
        rintro p q ⟨a1, a2, a3, a4, a5, a6⟩
        exact ⟨a1, a2, by rw [a3, length_passSpec], by rw [a4, flatten_passSpec], fun k => by rw [a5, target_passSpec], a6⟩

end Verif.TemporalMapping
