import Mathlib.Data.List.Chain
import Mathlib.Data.List.Perm.Basic
import Mathlib.Data.List.Sort
import Mathlib.Order.Basic
import Mathlib.Order.Defs.LinearOrder
import Mathlib.Tactic.Tauto
import Mathlib.Tactic.SplitIfs

/-!
Combinatorics behind `/repo/zigzag/opt/loma/multipermute.py` (helper lemmas, no model of code here):
cool-lex prefix shifts visit every arrangement of a multiset.
-/

namespace Verif.Multiperm

variable {α : Type} [LinearOrder α]

/-- Non-increasing list. -/
def Dec (l : List α) : Prop := l.Pairwise (fun a b => b ≤ a)

/-- One prefix shift: `A ++ [i]` is the longest non-increasing prefix, `j` the element after it. -/
def R (l l' : List α) : Prop :=
  ∃ A i j S, l = A ++ i :: j :: S ∧ Dec (A ++ [i]) ∧ i < j ∧
    ((∃ r S', S = r :: S' ∧ r ≤ i ∧ l' = r :: (A ++ i :: j :: S')) ∨
     ((∀ r ∈ S.head?, i < r) ∧ l' = j :: (A ++ i :: S)))

/-- `L` is a sequence of prefix shifts from `s` to `t`. -/
def Path (s : List α) (L : List (List α)) (t : List α) : Prop :=
  L.head? = some s ∧ L.getLast? = some t ∧ L.IsChain R

theorem Path.single (s : List α) : Path s [s] s := ⟨rfl, rfl, by simp⟩

theorem Path.trans {s t t' u : List α} {L L' : List (List α)} (h : Path s L t) (hr : R t t') (h' : Path t' L' u) :
    Path s (L ++ L') u := by
  obtain ⟨h1, h2, h3⟩ := h
  obtain ⟨g1, g2, g3⟩ := h'
  refine ⟨?_, ?_, ?_⟩
  · cases L with
    | nil => simp at h1
    | cons a L => simpa using h1
  · cases L' with
    | nil => simp at g1
    | cons a L' => rw [List.getLast?_append]; simp [g2]
  · rw [List.isChain_append]
    refine ⟨h3, g3, ?_⟩
    intro x hx y hy
    rw [h2] at hx; rw [g1] at hy
    cases hx; cases hy; exact hr

/-- Position of an arrangement `y` relative to the sorted arrangement `m`: `y` ends in `x :: S`, `m` in `c :: S` with
`c < x`. -/
def InG (m : List α) (x : α) (S y : List α) : Prop :=
  (∃ u, y = u ++ x :: S) ∧ ∃ P c, m = P ++ c :: S ∧ c < x

theorem InG.unique {m y : List α} {x x' : α} {S S' : List α} (h : InG m x S y) (h' : InG m x' S' y) :
    x = x' ∧ S = S' := by
  obtain ⟨⟨u, hu⟩, P, c, hP, hc⟩ := h
  obtain ⟨⟨u', hu'⟩, P', c', hP', hc'⟩ := h'
  have key : ∀ (x x' c c' : α) (S S' u u' P P' : List α), y = u ++ x :: S → y = u' ++ x' :: S' → m = P ++ c :: S →
      m = P' ++ c' :: S' → c < x → S.length < S'.length → False := by
    intro x x' c c' S S' u u' P P' hu hu' hP hP' hc hlt
    -- both `c :: S` and `x :: S` are suffixes of `S'`
    have h1 : (x :: S) <:+ S' := by
      have e1 : (x :: S) <:+ y := ⟨u, hu.symm⟩
      have e2 : S' <:+ y := ⟨u' ++ [x'], by simp [hu']⟩
      exact List.suffix_of_suffix_length_le e1 e2 (by simp; omega)
    have h2 : (c :: S) <:+ S' := by
      have e1 : (c :: S) <:+ m := ⟨P, hP.symm⟩
      have e2 : S' <:+ m := ⟨P' ++ [c'], by simp [hP']⟩
      exact List.suffix_of_suffix_length_le e1 e2 (by simp; omega)
    have h3 : (x :: S) <:+ (c :: S) := List.suffix_of_suffix_length_le h1 h2 (by simp)
    have h4 := h3.eq_of_length (by simp)
    have h5 : x = c := (List.cons.inj h4).1
    exact absurd hc (by rw [h5]; exact lt_irrefl _)
  rcases lt_trichotomy S.length S'.length with h | h | h
  · exact absurd (key x x' c c' S S' u u' P P' hu hu' hP hP' hc h) id
  · have hs : (x :: S) = (x' :: S') := by
      have e1 : (x :: S) <:+ y := ⟨u, hu.symm⟩
      have e2 : (x' :: S') <:+ y := ⟨u', hu'.symm⟩
      exact (List.suffix_of_suffix_length_le e1 e2 (by simp [h])).eq_of_length (by simp [h])
    exact ⟨(List.cons.inj hs).1, (List.cons.inj hs).2⟩
  · exact absurd (key x' x c' c S' S u' u P' P hu' hu hP' hP hc' h) id

theorem InG.ne_self {m : List α} {x : α} {S : List α} (h : InG m x S m) : False := by
  obtain ⟨⟨u, hu⟩, P, c, hP, hc⟩ := h
  have e1 : (x :: S) <:+ m := ⟨u, hu.symm⟩
  have e2 : (c :: S) <:+ m := ⟨P, hP.symm⟩
  have := (List.suffix_of_suffix_length_le e1 e2 (by simp)).eq_of_length (by simp)
  have h5 : x = c := (List.cons.inj this).1
  exact absurd hc (by rw [h5]; exact lt_irrefl _)

/-- Last position where two different lists of the same length differ. -/
theorem last_diff : ∀ (n : Nat) (y m : List α), y.length = n → m.length = n → y ≠ m →
    ∃ u x S P c, y = u ++ x :: S ∧ m = P ++ c :: S ∧ x ≠ c := by
  intro n
  induction n with
  | zero =>
    intro y m hy hm hne
    rw [List.length_eq_zero_iff] at hy hm
    exact absurd (hy.trans hm.symm) hne
  | succ n ih =>
    intro y m hy hm hne
    have hy0 : y ≠ [] := by rintro rfl; simp at hy
    have hm0 : m ≠ [] := by rintro rfl; simp at hm
    obtain ⟨y', a, rfl⟩ := List.eq_nil_or_concat y |>.resolve_left hy0
    obtain ⟨m', b, rfl⟩ := List.eq_nil_or_concat m |>.resolve_left hm0
    by_cases hab : a = b
    · subst hab
      obtain ⟨u, x, S, P, c, h1, h2, h3⟩ := ih y' m' (by simpa using hy) (by simpa using hm)
        (by rintro rfl; exact hne rfl)
      exact ⟨u, x, S ++ [a], P, c, by simp [h1], by simp [h2], h3⟩
    · exact ⟨y', a, [], m', b, by simp, by simp, hab⟩

/-- Every arrangement of a sorted list is the sorted list or has a scut. -/
theorem exists_inG {m y : List α} (hm : Dec m) (hy : y.Perm m) : y = m ∨ ∃ x S, InG m x S y := by
  by_cases h : y = m
  · left; exact h
  · right
    obtain ⟨u, x, S, P, c, h1, h2, h3⟩ := last_diff m.length y m hy.length_eq rfl h
    refine ⟨x, S, ⟨u, h1⟩, P, c, h2, ?_⟩
    have hp : (u ++ [x]).Perm (P ++ [c]) := by
      have : (u ++ [x] ++ S).Perm (P ++ [c] ++ S) := by simpa [h1, h2] using hy
      exact (List.perm_append_right_iff S).1 this
    have hx : x ∈ P ++ [c] := hp.mem_iff.1 (by simp)
    have hle : c ≤ x := by
      rcases List.mem_append.1 hx with hx | hx
      · rw [h2] at hm
        exact (List.pairwise_append.1 hm).2.2 x hx c (by simp)
      · simp at hx; exact le_of_eq hx.symm
    exact lt_of_le_of_ne hle (Ne.symm h3)

/-- Last element to the front. -/
def rotR (m : List α) : List α :=
  match m.getLast? with
  | none => []
  | some a => a :: m.dropLast

theorem rotR_concat (W : List α) (a : α) : rotR (W ++ [a]) = a :: W := by simp [rotR]

/-- The suffix `β` does not interfere with shifts inside `m`. -/
def OkSuffix (m β : List α) : Prop := ∀ b ∈ β.head?, ∀ a ∈ m.getLast?, a < b

/-- The shifts starting at `rotR m` visit all arrangements of `m`, whatever (non interfering) suffix follows. -/
def Seg (m : List α) : Prop :=
  ∃ V : List (List α), V.Nodup ∧ (∀ y, y ∈ V ↔ y.Perm m) ∧
    ∀ β, OkSuffix m β → Path (rotR m ++ β) (V.map (· ++ β)) (m ++ β)

theorem dec_append {a b : List α} : Dec (a ++ b) ↔ Dec a ∧ Dec b ∧ ∀ x ∈ a, ∀ y ∈ b, y ≤ x := List.pairwise_append

/-- Inner loop: all arrangements ending in `x :: Z'` with `Z'` a suffix of `Z2`. -/
theorem inner (W : List α) (e x : α) (hx : e < x) :
    ∀ (Z2 Z1 : List α), Dec (W ++ e :: (Z1 ++ Z2)) → 
    (∀ Z', Z'.length ≤ (Z1 ++ Z2).length → (∃ T, Z1 ++ Z2 = Z' ++ T) → Seg (W ++ e :: Z')) →
    ∃ V : List (List α), V.Nodup ∧
      (∀ y, y ∈ V ↔ ∃ T S u, Z2 = T ++ S ∧ u.Perm (W ++ e :: (Z1 ++ T)) ∧ y = u ++ x :: S) ∧
      ∀ β, Path (rotR (W ++ e :: Z1) ++ x :: (Z2 ++ β)) (V.map (· ++ β)) ((W ++ e :: (Z1 ++ Z2)) ++ x :: β) := by
  intro Z2
  induction Z2 with
  | nil =>
    intro Z1 hd hseg
    obtain ⟨V, hV1, hV2, hV3⟩ := hseg Z1 (by simp) ⟨[], by simp⟩
    refine ⟨V.map (· ++ [x]), hV1.map (fun a b h => by simpa using h), ?_, ?_⟩
    · intro y
      simp only [List.mem_map, hV2]
      constructor
      · rintro ⟨u, hu, rfl⟩
        exact ⟨[], [], u, rfl, by simpa using hu, rfl⟩
      · rintro ⟨T, S, u, hT, hu, rfl⟩
        have hT' := List.append_eq_nil_iff.1 hT.symm
        obtain ⟨rfl, rfl⟩ := hT'
        exact ⟨u, by simpa using hu, rfl⟩
    · intro β
      have := hV3 (x :: β) (by
        intro b hb a ha
        simp at hb; subst hb
        have : a ≤ e := by
          have ha' : a ∈ W ++ e :: Z1 := List.mem_of_getLast? ha
          have ha2 : a ∈ e :: Z1 := by
            have : (W ++ e :: Z1).getLast? = (e :: Z1).getLast? := by
              rw [List.getLast?_append]; simp [List.getLast?_cons]
            rw [this] at ha
            exact List.mem_of_getLast? ha
          rcases List.mem_cons.1 ha2 with h | h
          · exact le_of_eq h
          · have h2 : Dec (e :: (Z1 ++ [])) := (dec_append.1 hd).2.1
            exact (List.pairwise_cons.1 h2).1 a (by simpa using h)
        exact lt_of_le_of_lt this hx)
      simpa [List.map_map, Function.comp_def] using this
  | cons z Z2 ih =>
    intro Z1 hd hseg
    obtain ⟨V, hV1, hV2, hV3⟩ := hseg Z1 (by simp) ⟨z :: Z2, rfl⟩
    obtain ⟨V', hW1, hW2, hW3⟩ := ih (Z1 ++ [z]) (by simpa using hd) (by simpa using hseg)
    have hdZ : Dec (e :: (Z1 ++ z :: Z2)) := (dec_append.1 hd).2.1
    have hlast : ∀ a, a ∈ (W ++ e :: Z1).getLast? → a ≤ e ∧ z ≤ a := by
      intro a ha
      have ha2 : a ∈ e :: Z1 := by
        have : (W ++ e :: Z1).getLast? = (e :: Z1).getLast? := by
          rw [List.getLast?_append]; simp [List.getLast?_cons]
        rw [this] at ha
        exact List.mem_of_getLast? ha
      have hdZ' : Dec ((e :: Z1) ++ z :: Z2) := by simpa using hdZ
      refine ⟨?_, (dec_append.1 hdZ').2.2 a ha2 z (by simp)⟩
      rcases List.mem_cons.1 ha2 with h | h
      · exact le_of_eq h
      · exact (List.pairwise_cons.1 hdZ).1 a (by simp [h])
    refine ⟨V.map (· ++ x :: z :: Z2) ++ V', ?_, ?_, ?_⟩
    · rw [List.nodup_append]
      refine ⟨hV1.map (fun a b h => by simpa using h), hW1, ?_⟩
      rintro y hy y' hy' rfl
      obtain ⟨u, hu, rfl⟩ := List.mem_map.1 hy
      obtain ⟨T, S, u', hT, hu', he⟩ := (hW2 _).1 hy'
      -- the element before `S` is `x` in one reading and at most `e` in the other
      have hin1 : InG (W ++ x :: e :: (Z1 ++ z :: Z2)) x (z :: Z2) (u ++ x :: z :: Z2) := by
        refine ⟨⟨u, rfl⟩, ?_⟩
        obtain ⟨P, c, hPc⟩ := List.eq_nil_or_concat (e :: Z1) |>.resolve_left (by simp)
        refine ⟨W ++ x :: P, c, ?_, ?_⟩
        · have : e :: (Z1 ++ z :: Z2) = (e :: Z1) ++ z :: Z2 := rfl
          rw [this, hPc]; simp
        · have hc : c ∈ e :: Z1 := by rw [hPc]; simp
          rcases List.mem_cons.1 hc with h | h
          · rw [h]; exact hx
          · exact lt_of_le_of_lt ((List.pairwise_cons.1 hdZ).1 c (by simp [h])) hx
      have hin2 : InG (W ++ x :: e :: (Z1 ++ z :: Z2)) x S (u ++ x :: z :: Z2) := by
        refine ⟨⟨u', he⟩, ?_⟩
        obtain ⟨P, c, hPc⟩ := List.eq_nil_or_concat (e :: (Z1 ++ z :: T)) |>.resolve_left (by simp)
        refine ⟨W ++ x :: P, c, ?_, ?_⟩
        · have : e :: (Z1 ++ z :: Z2) = (e :: (Z1 ++ z :: T)) ++ S := by simp [hT]
          rw [this, hPc]; simp
        · have hc : c ∈ e :: (Z1 ++ z :: T) := by rw [hPc]; simp
          rcases List.mem_cons.1 hc with h | h
          · rw [h]; exact hx
          · refine lt_of_le_of_lt ((List.pairwise_cons.1 hdZ).1 c ?_) hx
            rw [hT]; simp at h ⊢; tauto
      have := (InG.unique hin1 hin2).2
      have hl := congrArg List.length this
      have hl2 := congrArg List.length hT
      simp at hl hl2; omega
    · intro y
      rw [List.mem_append, hW2]
      constructor
      · rintro (h | ⟨T, S, u, h1, h2, h3⟩)
        · obtain ⟨u, hu, rfl⟩ := List.mem_map.1 h
          exact ⟨[], z :: Z2, u, rfl, by simpa using (hV2 u).1 hu, rfl⟩
        · exact ⟨z :: T, S, u, by simp [h1], by simpa using h2, h3⟩
      · rintro ⟨T, S, u, h1, h2, h3⟩
        cases T with
        | nil =>
          left
          simp at h1; subst h1
          exact List.mem_map.2 ⟨u, (hV2 u).2 (by simpa using h2), h3.symm⟩
        | cons z' T =>
          right
          simp at h1
          obtain ⟨rfl, h1⟩ := h1
          exact ⟨T, S, u, h1, by simpa using h2, h3⟩
    · intro β
      rw [List.map_append]
      have p1 := hV3 (x :: z :: (Z2 ++ β)) (by
        intro b hb a ha
        simp at hb; subst hb
        exact lt_of_le_of_lt (hlast a ha).1 hx)
      have p2 := hW3 β
      have hstep : R ((W ++ e :: Z1) ++ x :: z :: (Z2 ++ β)) (rotR (W ++ e :: (Z1 ++ [z])) ++ x :: (Z2 ++ β)) := by
        obtain ⟨A, i, hA⟩ := List.eq_nil_or_concat (W ++ e :: Z1) |>.resolve_left (by simp)
        have hi : i ∈ (W ++ e :: Z1).getLast? := by rw [hA]; simp
        refine ⟨A, i, x, z :: (Z2 ++ β), by rw [hA]; simp, ?_, lt_of_le_of_lt (hlast i hi).1 hx, Or.inl ?_⟩
        · rw [List.concat_eq_append] at hA
          rw [← hA]
          have : W ++ e :: (Z1 ++ z :: Z2) = (W ++ e :: Z1) ++ z :: Z2 := by simp
          rw [this] at hd
          exact (dec_append.1 hd).1
        · refine ⟨z, Z2 ++ β, rfl, (hlast i hi).2, ?_⟩
          have : W ++ e :: (Z1 ++ [z]) = (W ++ e :: Z1) ++ [z] := by simp
          rw [this, rotR_concat, hA]; simp
      have := p1.trans hstep (by simpa using p2)
      simpa [List.map_map, Function.comp_def] using this

/-- Outer loop: all arrangements whose scut starts with a value larger than `e`. -/
theorem outer (m : List α) (hm : Dec m) (ih : ∀ m' : List α, m'.length < m.length → m' ≠ [] → Dec m' → Seg m') :
    ∀ (n : Nat) (G : List α) (e : α) (Z : List α), G.length ≤ n → m = G ++ e :: Z → (∀ g ∈ G, e < g) →
    ∃ V : List (List α), V.Nodup ∧ (∀ y, y ∈ V ↔ y.Perm m ∧ (y = m ∨ ∃ x S, e < x ∧ InG m x S y)) ∧
      ∀ β, OkSuffix m β → Path (e :: (G ++ Z) ++ β) (V.map (· ++ β)) (m ++ β) := by
  intro n
  induction n with
  | zero =>
    intro G e Z hG hmG hgt
    have : G = [] := List.length_eq_zero_iff.1 (by omega)
    subst this
    refine ⟨[m], by simp, ?_, ?_⟩
    · intro y
      simp only [List.mem_singleton]
      constructor
      · rintro rfl; exact ⟨List.Perm.refl _, Or.inl rfl⟩
      · rintro ⟨hp, h | ⟨x, S, hx, ⟨u, hu⟩, _⟩⟩
        · exact h
        · have hxm : x ∈ m := hp.mem_iff.1 (by rw [hu]; simp)
          rw [hmG] at hxm hm
          rcases List.mem_cons.1 (by simpa using hxm) with h | h
          · exact absurd hx (by rw [h]; exact lt_irrefl _)
          · exact absurd ((List.pairwise_cons.1 hm).1 x h) (not_le.2 hx)
    · intro β _
      subst hmG
      exact Path.single _
  | succ n ihn =>
    intro G e Z hG hmG hgt
    rcases List.eq_nil_or_concat G with rfl | ⟨W, x, rfl⟩
    · exact ihn [] e Z (by simp) hmG hgt
    rw [List.concat_eq_append] at *
    have hx : e < x := hgt x (by simp)
    have hmG' : m = W ++ x :: e :: Z := by simp [hmG]
    have hWx : ∀ w ∈ W, x ≤ w := by
      intro w hw
      rw [hmG'] at hm
      exact (dec_append.1 hm).2.2 w hw x (by simp)
    have hdWe : Dec (W ++ e :: Z) := by
      rw [hmG'] at hm
      exact hm.sublist (List.Sublist.append_left (List.sublist_cons_self _ _) W)
    have hlen : m.length = W.length + Z.length + 2 := by rw [hmG']; simp; omega
    obtain ⟨V1, hV1, hV2, hV3⟩ := inner W e x hx Z [] (by simpa using hdWe) (by
      intro Z' hZ' ⟨T, hT⟩
      refine ih _ (by simp at hZ' ⊢; omega) (by simp) ?_
      refine hdWe.sublist ?_
      simp at hT
      rw [hT]
      exact List.Sublist.append_left ((List.sublist_append_left Z' T).cons_cons e) W)
    -- decomposition with respect to `x`
    have hsplit : ∃ G' C, W = G' ++ C ∧ (∀ g ∈ G', x < g) ∧ (∀ c ∈ C, c = x) := by
      have hdW : Dec W := by rw [hmG'] at hm; exact (dec_append.1 hm).1
      clear hV3 hV2 hV1 ih ihn hgt hmG hmG' hdWe hlen hG V1 hm
      induction W with
      | nil => exact ⟨[], [], by simp⟩
      | cons w W ihW =>
        obtain ⟨G', C, h1, h2, h3⟩ := ihW (fun y hy => hWx y (by simp [hy])) (List.pairwise_cons.1 hdW).2
        by_cases hw : x < w
        · exact ⟨w :: G', C, by simp [h1], by
            intro g hg; rcases List.mem_cons.1 hg with rfl | hg
            · exact hw
            · exact h2 g hg, h3⟩
        · have hwx : w = x := le_antisymm (not_lt.1 hw) (hWx w (by simp))
          refine ⟨[], w :: W, rfl, by simp, ?_⟩
          intro c hc
          rcases List.mem_cons.1 hc with rfl | hc
          · exact hwx
          · refine le_antisymm ?_ (hWx c (by simp [hc]))
            rw [← hwx]; exact (List.pairwise_cons.1 hdW).1 c hc
    obtain ⟨G', C, hW, hG'1, hC⟩ := hsplit
    have hCx : C ++ [x] = x :: C := by
      have h1 : C = List.replicate C.length x := List.eq_replicate_iff.2 ⟨rfl, hC⟩
      rw [h1, ← List.replicate_succ', List.replicate_succ]
    have hmG'' : m = G' ++ x :: (C ++ e :: Z) := by
      rw [hmG', hW]
      have : G' ++ C ++ x :: e :: Z = G' ++ ((C ++ [x]) ++ e :: Z) := by simp
      rw [this, hCx]; simp
    obtain ⟨V2, hU1, hU2, hU3⟩ := ihn G' x (C ++ e :: Z)
      (by have := congrArg List.length hW; simp at this hG; omega) hmG'' hG'1
    have hmemV1 : ∀ y, y ∈ V1 ↔ y.Perm m ∧ ∃ S, InG m x S y := by
      intro y
      rw [hV2]
      constructor
      · rintro ⟨T, S, u, h1, h2, h3⟩
        refine ⟨?_, S, ⟨u, h3⟩, ?_⟩
        · rw [h3, hmG', h1]
          have hA : (u ++ x :: S).Perm ((W ++ e :: T) ++ x :: S) := by
            refine List.Perm.append_right _ (by simpa using h2)
          refine hA.trans ?_
          have hB : (W ++ x :: e :: (T ++ S)) = W ++ x :: ((e :: T) ++ S) := by simp
          rw [hB, List.append_assoc]
          refine List.Perm.append_left W ?_
          exact List.perm_middle
        · obtain ⟨P, c, hPc⟩ := List.eq_nil_or_concat (e :: T) |>.resolve_left (by simp)
          refine ⟨W ++ x :: P, c, ?_, ?_⟩
          · rw [hmG', h1]
            have : e :: (T ++ S) = (e :: T) ++ S := rfl
            rw [this, hPc]; simp
          · have hc : c ∈ e :: T := by rw [hPc]; simp
            rcases List.mem_cons.1 hc with h | h
            · rw [h]; exact hx
            · have hdZ : Dec (e :: Z) := (dec_append.1 hdWe).2.1
              exact lt_of_le_of_lt ((List.pairwise_cons.1 hdZ).1 c (by rw [h1]; simp [h])) hx
      · rintro ⟨hp, S, ⟨u, hu⟩, P, c, hP, hc⟩
        -- `P` contains `W ++ [x]`
        have hpre : ∃ P', P = W ++ x :: P' := by
          have e1 : (W ++ [x]) <+: m := ⟨e :: Z, by simp [hmG']⟩
          have e2 : P <+: m := ⟨c :: S, hP.symm⟩
          rcases Nat.lt_or_ge P.length (W ++ [x]).length with h | h
          · exfalso
            have e3 : (P ++ [c]) <+: m := ⟨S, by simp [hP]⟩
            have e4 : (P ++ [c]) <+: (W ++ [x]) := List.prefix_of_prefix_length_le e3 e1 (by simp at h ⊢; omega)
            have : c ∈ W ++ [x] := e4.subset (by simp)
            rcases List.mem_append.1 this with h | h
            · exact absurd (hWx c h) (not_le.2 hc)
            · simp at h; exact absurd hc (by rw [h]; exact lt_irrefl _)
          · obtain ⟨P', hP'⟩ := List.prefix_of_prefix_length_le e1 e2 h
            exact ⟨P', by rw [← hP']; simp⟩
        obtain ⟨P', hP'⟩ := hpre
        have hez : e :: Z = P' ++ c :: S := by
          have : W ++ x :: (e :: Z) = W ++ x :: (P' ++ c :: S) := by
            rw [← hmG', hP, hP']; simp
          simpa using this
        obtain ⟨T, hT⟩ : ∃ T, P' ++ [c] = e :: T := by
          cases P' with
          | nil => simp at hez; exact ⟨[], by simp [hez.1]⟩
          | cons p P' => simp at hez; exact ⟨P' ++ [c], by simp [hez.1]⟩
        have hZ : Z = T ++ S := by
          have : e :: Z = (P' ++ [c]) ++ S := by simp [hez]
          rw [hT] at this; simpa using this
        refine ⟨T, S, u, hZ, ?_, hu⟩
        rw [hu, hmG', hZ] at hp
        have hB : (W ++ x :: e :: (T ++ S)).Perm ((W ++ e :: T) ++ x :: S) := by
          have : (W ++ x :: e :: (T ++ S)) = W ++ x :: ((e :: T) ++ S) := by simp
          rw [this, List.append_assoc]
          exact List.Perm.append_left W (List.perm_middle).symm
        have := hp.trans hB
        simpa using (List.perm_append_right_iff (x :: S)).1 this
    refine ⟨V1 ++ V2, ?_, ?_, ?_⟩
    · rw [List.nodup_append]
      refine ⟨hV1, hU1, ?_⟩
      rintro y hy y' hy' rfl
      obtain ⟨_, S, hin⟩ := (hmemV1 y).1 hy
      obtain ⟨_, h | ⟨x', S', hx', hin'⟩⟩ := (hU2 y).1 hy'
      · subst h; exact InG.ne_self hin
      · have := (InG.unique hin hin').1
        exact absurd hx' (by rw [this]; exact lt_irrefl _)
    · intro y
      rw [List.mem_append, hmemV1, hU2]
      constructor
      · rintro (⟨hp, S, hin⟩ | ⟨hp, h | ⟨x', S, hx', hin⟩⟩)
        · exact ⟨hp, Or.inr ⟨x, S, hx, hin⟩⟩
        · exact ⟨hp, Or.inl h⟩
        · exact ⟨hp, Or.inr ⟨x', S, lt_trans hx hx', hin⟩⟩
      · rintro ⟨hp, h | ⟨x', S, hx', hin⟩⟩
        · exact Or.inr ⟨hp, Or.inl h⟩
        · by_cases hxx : x' = x
          · subst hxx; exact Or.inl ⟨hp, S, hin⟩
          · right
            refine ⟨hp, Or.inr ⟨x', S, ?_, hin⟩⟩
            obtain ⟨⟨u, hu⟩, _⟩ := hin
            have hxm : x' ∈ m := hp.mem_iff.1 (by rw [hu]; simp)
            rw [hmG'] at hxm
            have hle : x ≤ x' := by
              rcases List.mem_append.1 hxm with h | h
              · exact hWx _ h
              · rcases List.mem_cons.1 h with h | h
                · exact le_of_eq h.symm
                · exfalso
                  have hdZ : Dec (e :: Z) := (dec_append.1 hdWe).2.1
                  rcases List.mem_cons.1 h with h | h
                  · rw [h] at hx'; exact lt_irrefl _ hx'
                  · exact absurd ((List.pairwise_cons.1 hdZ).1 _ h) (not_le.2 hx')
            exact lt_of_le_of_ne hle (Ne.symm hxx)
    · intro β hβ
      rw [List.map_append]
      have p1 := hV3 β
      have p2 := hU3 β hβ
      have hstep : R ((W ++ e :: Z) ++ x :: β) (x :: (G' ++ (C ++ e :: Z)) ++ β) := by
        obtain ⟨A, i, hA⟩ := List.eq_nil_or_concat (W ++ e :: Z) |>.resolve_left (by simp)
        rw [List.concat_eq_append] at hA
        have hi2 : i ∈ e :: Z := by
          have h1 : (W ++ e :: Z).getLast? = some i := by rw [hA]; simp
          have h2 : (W ++ e :: Z).getLast? = (e :: Z).getLast? := by
            rw [List.getLast?_append]; simp [List.getLast?_cons]
          rw [h2] at h1
          exact List.mem_of_getLast? h1
        have hie : i ≤ e := by
          rcases List.mem_cons.1 hi2 with h | h
          · exact le_of_eq h
          · exact (List.pairwise_cons.1 (dec_append.1 hdWe).2.1).1 i h
        have him : i ∈ m.getLast? := by
          have h1 : (W ++ e :: Z).getLast? = some i := by rw [hA]; simp
          have h2 : (W ++ e :: Z).getLast? = (e :: Z).getLast? := by
            rw [List.getLast?_append]; simp [List.getLast?_cons]
          have h3 : m.getLast? = (e :: Z).getLast? := by
            rw [hmG', List.getLast?_append, List.getLast?_cons_cons]; simp [List.getLast?_cons]
          rw [h3, ← h2, h1]; simp
        refine ⟨A, i, x, β, by rw [hA]; simp, ?_, lt_of_le_of_lt hie hx, Or.inr ⟨?_, ?_⟩⟩
        · rw [← hA]; exact hdWe
        · intro r hr; exact hβ r hr i him
        · have : A ++ i :: β = (A ++ [i]) ++ β := by simp
          rw [this, ← hA, hW]; simp
      have hstart : (e :: (W ++ [x] ++ Z) ++ β) = rotR (W ++ [e]) ++ x :: (Z ++ β) := by
        rw [rotR_concat]; simp
      rw [hstart]
      exact (by simpa using p1 : Path _ _ _).trans hstep p2

/-- Main combinatorial statement. -/
theorem seg : ∀ (n : Nat) (m : List α), m.length ≤ n → m ≠ [] → Dec m → Seg m := by
  intro n
  induction n with
  | zero => intro m h h0; exact absurd (List.length_eq_zero_iff.1 (by omega)) h0
  | succ n ihn =>
    intro m hl h0 hd
    -- split off the elements larger than the minimum
    have hsplit : ∃ G e Z, m = G ++ e :: Z ∧ (∀ g ∈ G, e < g) ∧ (∀ z ∈ Z, z = e) := by
      clear hl
      induction m with
      | nil => exact absurd rfl h0
      | cons a t iht =>
        by_cases ht : t = []
        · subst ht; exact ⟨[], a, [], by simp⟩
        · obtain ⟨G, e, Z, h1, h2, h3⟩ := iht ht (List.pairwise_cons.1 hd).2
          have hea : e ≤ a := (List.pairwise_cons.1 hd).1 e (by rw [h1]; simp)
          by_cases hae : e < a
          · exact ⟨a :: G, e, Z, by simp [h1], by
              intro g hg; rcases List.mem_cons.1 hg with rfl | hg
              · exact hae
              · exact h2 g hg, h3⟩
          · have hae' : a = e := le_antisymm (not_lt.1 hae) hea
            subst hae'
            have hG : G = [] := by
              by_contra hG
              obtain ⟨g, hg⟩ := List.exists_mem_of_ne_nil G hG
              have h4 := h2 g hg
              have h5 := (List.pairwise_cons.1 hd).1 g (by rw [h1]; simp [hg])
              exact absurd h5 (not_le.2 h4)
            subst hG
            refine ⟨[], a, a :: Z, by simp [h1], by simp, ?_⟩
            intro z hz
            rcases List.mem_cons.1 hz with h | h
            · exact h
            · exact h3 z h
    obtain ⟨G, e, Z, h1, h2, h3⟩ := hsplit
    obtain ⟨V, hV1, hV2, hV3⟩ := outer m hd (fun m' hm' h0' hd' => ihn m' (by omega) h0' hd') G.length G e Z le_rfl h1 h2
    have heZ : e :: Z = Z ++ [e] := by
      have h4 : Z = List.replicate Z.length e := List.eq_replicate_iff.2 ⟨rfl, h3⟩
      rw [h4, ← List.replicate_succ', ← List.replicate_succ]
    refine ⟨V, hV1, ?_, ?_⟩
    · intro y
      rw [hV2]
      constructor
      · exact fun h => h.1
      · intro hp
        refine ⟨hp, ?_⟩
        rcases exists_inG hd hp with h | ⟨x, S, hin⟩
        · exact Or.inl h
        · right
          refine ⟨x, S, ?_, hin⟩
          obtain ⟨_, P, c, hP, hc⟩ := hin
          have hcm : c ∈ m := by rw [hP]; simp
          have hce : e ≤ c := by
            rw [h1] at hcm
            rcases List.mem_append.1 hcm with h | h
            · exact le_of_lt (h2 c h)
            · rcases List.mem_cons.1 h with h | h
              · exact le_of_eq h.symm
              · exact le_of_eq (h3 c h).symm
          exact lt_of_le_of_lt hce hc
    · intro β hβ
      have hrot : rotR m = e :: (G ++ Z) := by
        rw [h1, heZ, ← List.append_assoc, rotR_concat]
      rw [hrot]
      exact hV3 β hβ

end Verif.Multiperm
