import Verif.Multiperm.Model
import Verif.Multiperm.CoolLex

/-! Helper lemmas: the pointer program of `Model.lean` performs the prefix shifts of `CoolLex.lean`. -/

namespace Verif.Multiperm

variable {α : Type} [LinearOrder α]

/-- `o` points to a linked list with the nodes `ids`. -/
def IsList (next : Nat → Option Nat) : Option Nat → List Nat → Prop
  | o, [] => o = none
  | o, a :: t => o = some a ∧ IsList next (next a) t

theorem IsList.visit {next : Nat → Option Nat} (val : Nat → α) : ∀ {ids : List Nat} {o : Option Nat} {fuel : Nat},
    IsList next o ids → ids.length ≤ fuel → visit val next fuel o = ids.map val
  | [], o, fuel, h, _ => by
    have : o = none := h
    subst this
    cases fuel <;> simp [Multiperm.visit]
  | a :: t, o, fuel, h, hf => by
    obtain ⟨rfl, h2⟩ := h
    cases fuel with
    | zero => simp at hf
    | succ fuel =>
      simp only [Multiperm.visit, List.map_cons]
      rw [IsList.visit val h2 (by simpa using hf)]

theorem IsList.congr {next next' : Nat → Option Nat} : ∀ {ids : List Nat} {o : Option Nat},
    IsList next o ids → (∀ a ∈ ids, next a = next' a) → IsList next' o ids
  | [], _, h, _ => h
  | a :: t, _, h, hc => ⟨h.1, by
      rw [← hc a (by simp)]
      exact IsList.congr h.2 (fun b hb => hc b (by simp [hb]))⟩

theorem IsList.next_eq {next : Nat → Option Nat} : ∀ {B : List Nat} {o : Option Nat} {s : Nat} {C : List Nat},
    IsList next o (B ++ s :: C) → IsList next (next s) C
  | [], _, _, _, h => h.2
  | _ :: B, _, _, _, h => IsList.next_eq (B := B) h.2

theorem IsList.head {next : Nat → Option Nat} {o : Option Nat} {a : Nat} {t : List Nat} (h : IsList next o (a :: t)) :
    o = some a := h.1

theorem IsList.remove {next : Nat → Option Nat} {s t : Nat} : ∀ {B C : List Nat} {o : Option Nat},
    IsList next o (B ++ s :: t :: C) → (B ++ s :: t :: C).Nodup →
    IsList (Function.update next s (next t)) o (B ++ s :: C)
  | [], C, o, h, hn => by
    refine ⟨h.1, ?_⟩
    rw [Function.update_self]
    have h2 := h.2.2
    refine h2.congr ?_
    intro a ha
    have : a ≠ s := by
      rintro rfl
      simp at hn
      exact hn.1.2 ha
    rw [Function.update_of_ne this]
  | b :: B, C, o, h, hn => by
    refine ⟨h.1, ?_⟩
    have hb : b ≠ s := by
      rintro rfl
      simp at hn
    rw [Function.update_of_ne hb]
    exact IsList.remove h.2 (List.nodup_cons.1 hn).2

theorem IsList.shift {next : Nat → Option Nat} {s t h : Nat} {B C : List Nat}
    (hl : IsList next (some h) (B ++ s :: t :: C)) (hn : (B ++ s :: t :: C).Nodup) :
    IsList (Function.update (Function.update next s (next t)) t (some h)) (some t) (t :: (B ++ s :: C)) := by
  refine ⟨rfl, ?_⟩
  rw [Function.update_self]
  refine (hl.remove hn).congr ?_
  intro a ha
  have : a ≠ t := by
    rintro rfl
    rw [List.nodup_append] at hn
    rcases List.mem_append.1 ha with h | h
    · exact hn.2.2 a h a (by simp) rfl
    · have := hn.2.1
      simp at this h
      rcases h with h | h
      · exact this.1.1 h.symm
      · exact this.2.1 h
  rw [Function.update_of_ne this]

theorem nodup_shift {B C : List Nat} {s t : Nat} (hn : (B ++ s :: t :: C).Nodup) : (t :: (B ++ s :: C)).Nodup := by
  have hp : (B ++ s :: t :: C).Perm (t :: (B ++ s :: C)) := by
    have : B ++ s :: t :: C = (B ++ [s]) ++ t :: C := by simp
    rw [this]
    refine List.perm_middle.trans ?_
    simp
  exact hp.nodup_iff.1 hn

/-- State of the program while it is inside the enumeration. -/
structure Inv (val : Nat → α) (s : St) (A : List Nat) (i j : Nat) (S : List Nat) : Prop where
  hi : s.i = i
  hj : s.j = some j
  hl : IsList s.next (some s.h) (A ++ i :: j :: S)
  hn : (A ++ i :: j :: S).Nodup
  hd : Dec ((A ++ [i]).map val)
  hlt : val i < val j

theorem Inv.split_unique {A A' : List α} {i i' j j' : α} {S S' : List α} (h : A ++ i :: j :: S = A' ++ i' :: j' :: S')
    (hd : Dec (A ++ [i])) (hd' : Dec (A' ++ [i'])) (hlt : i < j) (hlt' : i' < j') :
    A = A' ∧ i = i' ∧ j = j' ∧ S = S' := by
  have key : ∀ {A A' : List α} {i i' j j' : α} {S S' : List α}, A ++ i :: j :: S = A' ++ i' :: j' :: S' →
      Dec (A' ++ [i']) → i < j → ¬ A.length < A'.length := by
    intro A A' i i' j j' S S' h hd' hlt hl
    have e1 : (A ++ [i, j]) <+: (A ++ i :: j :: S) := ⟨S, by simp⟩
    have e2 : (A' ++ [i']) <+: (A ++ i :: j :: S) := ⟨j' :: S', by simp [h]⟩
    have e3 := List.prefix_of_prefix_length_le e1 e2 (by simp; omega)
    have hd2 : Dec (A ++ [i, j]) := List.Pairwise.sublist e3.sublist hd'
    have hd3 : Dec [i, j] := (dec_append.1 hd2).2.1
    have : j ≤ i := by simpa [Dec] using hd3
    exact absurd hlt (not_lt.2 this)
  have hlen : A.length = A'.length := by
    have h1 := key h hd' hlt
    have h2 := key h.symm hd hlt'
    omega
  have := List.append_inj h hlen
  obtain ⟨h1, h2⟩ := this
  simp at h2
  exact ⟨h1, h2.1, h2.2.1, h2.2.2⟩

theorem R_det {l a b : List α} (ha : R l a) (hb : R l b) : a = b := by
  obtain ⟨A, i, j, S, rfl, hd, hlt, h⟩ := ha
  obtain ⟨A', i', j', S', hl, hd', hlt', h'⟩ := hb
  obtain ⟨rfl, rfl, rfl, rfl⟩ := Inv.split_unique hl hd hd' hlt hlt'
  rcases h with ⟨r, T, rfl, hr, rfl⟩ | ⟨hr, rfl⟩
  · rcases h' with ⟨r', T', h1, _, rfl⟩ | ⟨hr', rfl⟩
    · cases h1; rfl
    · exact absurd (hr' r (by simp)) (not_lt.2 hr)
  · rcases h' with ⟨r', T', rfl, hr', rfl⟩ | ⟨hr', rfl⟩
    · exact absurd (hr r' (by simp)) (not_lt.2 hr')
    · rfl

theorem not_dec_of_split {A : List α} {i j : α} {S : List α} (hlt : i < j) (hd : Dec (A ++ i :: j :: S)) : False := by
  have := (dec_append.1 hd).2.1
  exact absurd ((List.pairwise_cons.1 this).1 j (by simp)) (not_le.2 hlt)

/-- One pass through the loop. -/
theorem step_spec {val : Nat → α} {s : St} {A : List Nat} {i j : Nat} {S : List Nat} (inv : Inv val s A i j S) :
    (S = [] ∧ val s.h ≤ val j ∧ step val s = Step.stop) ∨
    (¬ (S = [] ∧ val s.h ≤ val j) ∧ ∃ s' A' i' j' S', step val s = Step.next s' ∧ Inv val s' A' i' j' S' ∧
      R ((A ++ i :: j :: S).map val) ((A' ++ i' :: j' :: S').map val) ∧
      (A' ++ i' :: j' :: S').length = (A ++ i :: j :: S).length) := by
  obtain ⟨rfl, hj, hl, hn, hd, hlt⟩ := inv
  have hnj : IsList s.next (s.next j) S := by
    have : A ++ s.i :: j :: S = (A ++ [s.i]) ++ j :: S := by simp
    rw [this] at hl
    exact hl.next_eq
  have hni : s.next s.i = some j := (hl.next_eq).head
  -- the head
  obtain ⟨tl, htl⟩ : ∃ tl, A ++ [s.i] = s.h :: tl := by
    cases A with
    | nil => exact ⟨[], by have := hl.head; simp at this; simp [this]⟩
    | cons a A => exact ⟨A ++ [s.i], by have := hl.head; simp at this; simp [this]⟩
  have hge : ∀ a ∈ A ++ [s.i], val a ≤ val s.h := by
    intro a ha
    rw [htl] at hd ha
    rcases List.mem_cons.1 ha with h | h
    · rw [h]
    · exact (List.pairwise_cons.1 hd).1 (val a) (List.mem_map.2 ⟨a, h, rfl⟩)
  -- what happens for a chosen `t`
  have afterT : ∀ (B : List Nat) (sn t : Nat) (C : List Nat), A ++ s.i :: j :: S = B ++ sn :: t :: C →
      (∀ jn, s.next j = some jn → (if val jn ≤ val s.i then j else s.i) = sn) → (s.next j = none → sn = s.i) →
      ((s.next j).isSome ∨ val j < val s.h) → 
      step val s = Step.next { next := Function.update (Function.update s.next sn (s.next t)) t (some s.h), h := t, i := (if val t < val s.h then t else s.i), j := (Function.update (Function.update s.next sn (s.next t)) t (some s.h)) (if val t < val s.h then t else s.i) } ∧ 
      IsList (Function.update (Function.update s.next sn (s.next t)) t (some s.h)) (some t) (t :: (B ++ sn :: C)) ∧
      (t :: (B ++ sn :: C)).Nodup := by
    intro B sn t C hsplit h1 h2 hcond
    have hnt : s.next sn = some t := by
      rw [hsplit] at hl
      exact (hl.next_eq).head
    refine ⟨?_, ?_, ?_⟩
    · unfold step
      rw [hj]
      simp only
      rw [if_pos hcond]
      have hsn : pickS val s j = sn := by
        unfold pickS
        cases hh : s.next j with
        | none => exact (h2 hh).symm
        | some jn => exact h1 jn hh
      rw [hsn, hnt]
    · rw [hsplit] at hl hn
      exact hl.shift hn
    · rw [hsplit] at hn
      exact nodup_shift hn
  -- result when the moved node becomes the new `i`
  have resultLt : ∀ (B : List Nat) (sn t : Nat) (C : List Nat) (nx : Nat → Option Nat) (U : List Nat),
      IsList nx (some t) (t :: (B ++ sn :: C)) → (t :: (B ++ sn :: C)).Nodup → nx t = some s.h → B ++ sn :: C = s.h :: U →
      val t < val s.h → Inv val { next := nx, h := t, i := t, j := nx t } [] t s.h U := by
    intro B sn t C nx U h1 h2 h3 h4 h5
    refine ⟨rfl, h3, ?_, ?_, ?_, h5⟩
    · rw [h4] at h1; exact h1
    · rw [h4] at h2; exact h2
    · simp [Dec]
  have hhead : ∀ T, ∃ U, A ++ s.i :: T = s.h :: U := by
    intro T
    refine ⟨tl ++ T, ?_⟩
    have : A ++ s.i :: T = (A ++ [s.i]) ++ T := by simp
    rw [this, htl]; simp
  by_cases hstop : S = [] ∧ val s.h ≤ val j
  · left
    refine ⟨hstop.1, hstop.2, ?_⟩
    have : s.next j = none := by
      have := hnj; rw [hstop.1] at this; exact this
    unfold step
    rw [hj]
    simp only
    rw [if_neg]
    rintro (h | h)
    · rw [this] at h; simp at h
    · exact absurd h (not_lt.2 hstop.2)
  · right
    refine ⟨hstop, ?_⟩
    by_cases hcase : ∃ r S', S = r :: S' ∧ val r ≤ val s.i
    · obtain ⟨r, S', rfl, hr⟩ := hcase
      have hnr : s.next j = some r := hnj.head
      obtain ⟨hs, hl2, hn2⟩ := afterT (A ++ [s.i]) j r S' (by simp)
        (by intro jn h; rw [hnr] at h; cases h; rw [if_pos hr]) (by intro h; rw [hnr] at h; simp at h)
        (Or.inl (by rw [hnr]; rfl))
      have hRel : R ((A ++ s.i :: j :: r :: S').map val) ((r :: (A ++ s.i :: j :: S')).map val) := by
        refine ⟨A.map val, val s.i, val j, (r :: S').map val, by simp, by simpa using hd, hlt, Or.inl ?_⟩
        exact ⟨val r, S'.map val, by simp, hr, by simp⟩
      by_cases hrh : val r < val s.h
      · obtain ⟨U, hU⟩ := hhead (j :: S')
        have hinv := resultLt (A ++ [s.i]) j r S' _ U hl2 hn2 (by rw [Function.update_self]) (by simpa using hU) hrh
        refine ⟨_, [], r, s.h, U, ?_, hinv, ?_, ?_⟩
        · rw [hs]; simp only [if_pos hrh]
        · have : ([] ++ r :: s.h :: U) = r :: (A ++ s.i :: j :: S') := by rw [hU]; simp
          rw [this]; exact hRel
        · have := congrArg List.length hU
          simp at this ⊢; omega
      · refine ⟨_, r :: A, s.i, j, S', hs, ?_, ?_, ?_⟩
        · refine ⟨by simp [if_neg hrh], ?_, by simpa using hl2, by simpa using hn2, ?_, hlt⟩
          · simp only [if_neg hrh]
            have h0 : (r :: (A ++ [s.i] ++ j :: S')) = (r :: A) ++ s.i :: j :: S' := by simp
            rw [h0] at hl2
            exact (hl2.next_eq).head
          · have : (r :: A ++ [s.i]).map val = val r :: (A ++ [s.i]).map val := by simp
            rw [this]
            refine List.pairwise_cons.2 ⟨?_, hd⟩
            intro b hb
            obtain ⟨a, ha, rfl⟩ := List.mem_map.1 hb
            exact le_trans (hge a ha) (not_lt.1 hrh)
        · simpa using hRel
        · simp; omega
    · have hR : ∀ r ∈ S.head?, val s.i < val r := by
        intro r hr
        cases S with
        | nil => simp at hr
        | cons r' S' =>
          simp at hr; subst hr
          by_contra hc
          exact hcase ⟨r', S', rfl, not_lt.1 hc⟩
      have hcond : (s.next j).isSome ∨ val j < val s.h := by
        cases S with
        | nil => right; by_contra hc; exact hstop ⟨rfl, not_lt.1 hc⟩
        | cons r S' => left; rw [hnj.head]; rfl
      obtain ⟨hs, hl2, hn2⟩ := afterT A s.i j S rfl
        (by
          intro jn h
          rw [if_neg]
          have : jn ∈ S.head? := by
            cases S with
            | nil => have : s.next j = none := hnj; rw [this] at h; simp at h
            | cons r S' => rw [hnj.head] at h; cases h; simp
          exact not_le.2 (hR jn this))
        (fun _ => rfl) hcond
      have hRel : R ((A ++ s.i :: j :: S).map val) ((j :: (A ++ s.i :: S)).map val) := by
        refine ⟨A.map val, val s.i, val j, S.map val, by simp, by simpa using hd, hlt, Or.inr ⟨?_, by simp⟩⟩
        intro r hr
        cases S with
        | nil => simp at hr
        | cons r' S' => simp at hr; subst hr; exact hR r' (by simp)
      by_cases hjh : val j < val s.h
      · obtain ⟨U, hU⟩ := hhead S
        have hinv := resultLt A s.i j S _ U hl2 hn2 (by rw [Function.update_self]) hU hjh
        refine ⟨_, [], j, s.h, U, ?_, hinv, ?_, ?_⟩
        · rw [hs]; simp only [if_pos hjh]
        · have : ([] ++ j :: s.h :: U) = j :: (A ++ s.i :: S) := by rw [hU]; simp
          rw [this]; exact hRel
        · have := congrArg List.length hU
          simp at this ⊢; omega
      · cases S with
        | nil => exact absurd ⟨rfl, not_lt.1 hjh⟩ hstop
        | cons r S' =>
          refine ⟨_, j :: A, s.i, r, S', hs, ?_, ?_, ?_⟩
          · refine ⟨by simp [if_neg hjh], ?_, by simpa using hl2, by simpa using hn2, ?_, hR r (by simp)⟩
            · simp only [if_neg hjh]
              have h0 : (j :: (A ++ s.i :: r :: S')) = (j :: A) ++ s.i :: r :: S' := by simp
              rw [h0] at hl2
              exact (hl2.next_eq).head
            · have : (j :: A ++ [s.i]).map val = val j :: (A ++ [s.i]).map val := by simp
              rw [this]
              refine List.pairwise_cons.2 ⟨?_, hd⟩
              intro b hb
              obtain ⟨a, ha, rfl⟩ := List.mem_map.1 hb
              exact le_trans (hge a ha) (not_lt.1 hjh)
          · simpa using hRel
          · simp; omega

theorem dec_perm_eq {a b : List α} (ha : Dec a) (hb : Dec b) (h : a.Perm b) : a = b := by
  refine List.Perm.eq_of_pairwise ?_ ha hb h
  intro x y _ _ h1 h2
  exact le_antisymm h2 h1

/-- Following a path of shifts to the sorted list. -/
theorem loop_path {val : Nat → α} {m : List α} (hm : Dec m) : ∀ (L : List (List α)) (v : List α) (s : St) (A : List Nat)
    (i j : Nat) (S : List Nat) (fuel : Nat), (v :: L ++ [m]).IsChain R → m ∉ v :: L → (∀ w ∈ v :: L, w.Perm m) →
    Inv val s A i j S → (A ++ i :: j :: S).map val = v → L.length < fuel →
    loop val m.length fuel s = some L := by
  intro L
  induction L with
  | nil =>
    intro v s A i j S fuel hch hnm hp inv hv hf
    obtain ⟨fuel, rfl⟩ : ∃ f, fuel = f + 1 := ⟨fuel - 1, by simp at hf; omega⟩
    rcases step_spec inv with ⟨_, _, hs⟩ | ⟨_, s', A', i', j', S', hs, inv', hr, _⟩
    · simp [loop, hs]
    · exfalso
      rw [hv] at hr
      have hr2 : R v m := by simpa using hch
      have := R_det hr hr2
      rw [← this] at hm
      have hlt := inv'.hlt
      refine not_dec_of_split (A := A'.map val) (S := S'.map val) hlt ?_
      simpa using hm
  | cons w L ih =>
    intro v s A i j S fuel hch hnm hp inv hv hf
    obtain ⟨fuel, rfl⟩ : ∃ f, fuel = f + 1 := ⟨fuel - 1, by simp at hf; omega⟩
    have hch' : R v w ∧ (w :: L ++ [m]).IsChain R := by simpa using hch
    rcases step_spec inv with ⟨hS, hge, hs⟩ | ⟨_, s', A', i', j', S', hs, inv', hr, hlen⟩
    · exfalso
      -- the shift would produce the sorted list
      subst hS
      have hr : R v (val j :: (A ++ [i]).map val) := by
        refine ⟨A.map val, val i, val j, [], by simpa using hv.symm, by simpa using inv.hd, inv.hlt, Or.inr ⟨by simp, ?_⟩⟩
        simp
      have hw := R_det hch'.1 hr
      have hdw : Dec w := by
        rw [hw]
        refine List.pairwise_cons.2 ⟨?_, inv.hd⟩
        intro b hb
        obtain ⟨a, ha, rfl⟩ := List.mem_map.1 hb
        have hle : val a ≤ val s.h := by
          have hd := inv.hd
          have hl := inv.hl
          cases A with
          | nil => 
            have := hl.head; simp at this ha; rw [ha, this]
          | cons b A =>
            have h1 := hl.head
            simp at h1
            rw [h1]
            rcases List.mem_cons.1 ha with h | h
            · rw [h]
            · exact (List.pairwise_cons.1 hd).1 (val a) (List.mem_map.2 ⟨a, h, rfl⟩)
        exact le_trans hle hge
      exact hnm (by rw [dec_perm_eq hm hdw (hp w (by simp)).symm]; simp)
    · rw [hv] at hr
      have hw := R_det hr hch'.1
      have hrec := ih w s' A' i' j' S' fuel hch'.2 (fun h => hnm (by simp at h ⊢; tauto))
        (fun x hx => hp x (by simp at hx ⊢; tauto)) inv' hw (by simpa using hf)
      have hvis : visit val s'.next (m.length + 1) (some s'.h) = w := by
        rw [inv'.hl.visit val, hw]
        have h1 := (hp v (by simp)).length_eq
        rw [← hv] at h1
        simp only [List.length_map] at h1
        omega
      simp [loop, hs, hrec, hvis]

end Verif.Multiperm
