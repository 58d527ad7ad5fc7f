import Verif.Hints.Lemmas

/-! Properties of spatial mapping hints (C116) and of layers that are evaluated several times (C117). -/

namespace Verif.Hints

open Verif.SpatialMapping Verif.SpatialGen

variable {OA Dim : Type} [DecidableEq OA] [DecidableEq Dim]

/-! ### specification -/

/-- Dimension `d` is to be tried along an array dimension for which the user gave the hints `user`: the hints count if one of them is a
dimension of the layer, otherwise every dimension of the layer is tried. -/
inductive Wanted (dims : List Dim) : Option (List Dim) → Dim → Prop
  | hinted {l : List Dim} {d : Dim} : (∃ x ∈ l, x ∈ dims) → d ∈ l → Wanted dims (some l) d
  | useless {l : List Dim} {d : Dim} : (∀ x ∈ l, x ∉ dims) → d ∈ dims → Wanted dims (some l) d
  | missing {d : Dim} : d ∈ dims → Wanted dims none d

/-- Number of mappings launched by an evaluation. -/
def launched (r : Except PyErr (List (SM OA Dim))) : Nat :=
  match r with
  | .error _ => 0
  | .ok ys => ys.length

/-- Number of mappings launched by a sequence of evaluations of one layer. -/
def launches (ord : List Dim → List Dim) (sizes : Dict Dim Nat) : List (Acc OA Dim × Nat) → LayerSt OA Dim → Nat
  | [], _ => 0
  | x :: t, st => launched (evaluate ord sizes x.1 x.2 st).1 + launches ord sizes t (evaluate ord sizes x.1 x.2 st).2

/-! ### C116 -/

/-- C116: the hints created from a mapping file are those of the file: every array dimension once, its layer dimensions once. -/
theorem created_hints {Str : Type} (ord : List Dim → List Dim) (ho : ∀ l, (ord l).Perm l) (name : Str → Dim) (data : Dict OA (List Str)) (hw : data.WF) :
    (create ord name (some data) : Hint OA Dim).WF ∧
    (∀ oa, (create ord name (some data) : Hint OA Dim).get? oa = none ↔ data.get? oa = none) ∧
    ∀ oa l, (create ord name (some data) : Hint OA Dim).get? oa = some l →
      l.Nodup ∧ ∃ s, data.get? oa = some s ∧ ∀ d, d ∈ l ↔ ∃ x ∈ s, name x = d := by
  have hget : ∀ oa, (create ord name (some data) : Hint OA Dim).get? oa = (data.get? oa).map (fun s => ord ((s.map name).dedup)) := by
    intro oa
    show Dict.get? (data.map (fun e => (e.1, ord ((e.2.map name).dedup)))) oa = _
    clear hw
    induction data with
    | nil => rfl
    | cons e t ih =>
      rw [List.map_cons, Dict.get?_cons, Dict.get?_cons]
      by_cases h : e.1 = oa
      · simp [h]
      · simp only [h, if_false]
        exact ih
  refine ⟨?_, ?_, ?_⟩
  · show (Dict.keys (data.map (fun e => (e.1, ord ((e.2.map name).dedup))))).Nodup
    unfold Dict.keys
    rw [List.map_map]
    exact hw
  · intro oa
    rw [hget]
    simp
  · intro oa l h
    rw [hget] at h
    cases hd : data.get? oa with
    | none => rw [hd] at h; cases h
    | some s =>
      rw [hd] at h
      cases h
      refine ⟨(ho _).nodup_iff.2 (List.nodup_dedup _), s, rfl, fun d => ?_⟩
      rw [(ho _).mem_iff, List.mem_dedup, List.mem_map]

/-- C116: on whatever accelerators the layer was used before, every array dimension of the present accelerator has hints, and they are
exactly the ones that are wanted. -/
theorem hints_effective (ord : List Dim → List Dim) (ho : ∀ l, (ord l).Perm l) (dims : List Dim) (user : Hint OA Dim) (hw : user.WF)
    (hist : List (List OA)) (oas : List OA) (oa : OA) (hoa : oa ∈ oas) :
    ∃ l, (construct ord dims oas (constructAll ord dims hist user)).get? oa = some l ∧ (∀ d, d ∈ l ↔ Wanted dims (user.get? oa) d) ∧
      ((∀ l', user.get? oa = some l' → l'.Nodup) → l.Nodup) := by
  rw [construct_history ord dims hist user hw oas oa hoa, get?_construct _ _ _ _ hw, if_pos hoa]
  cases hu : user.get? oa with
  | none =>
    refine ⟨_, rfl, fun d => ?_, fun _ => (ho _).nodup_iff.2 (List.nodup_dedup _)⟩
    rw [(ho _).mem_iff, List.mem_dedup]
    constructor
    · exact Wanted.missing
    · rintro ⟨h⟩
      assumption
  | some l =>
    rw [Option.filter_some]
    by_cases hl : l.any (fun d => decide (d ∈ dims)) = true
    · rw [if_pos hl]
      have hex : ∃ x ∈ l, x ∈ dims := by
        obtain ⟨x, h1, h2⟩ := List.any_eq_true.1 hl
        exact ⟨x, h1, by simpa using h2⟩
      refine ⟨l, rfl, fun d => ⟨Wanted.hinted hex, ?_⟩, fun h => h l rfl⟩
      rintro (⟨-, h⟩ | ⟨h, -⟩ | -)
      · exact h
      · obtain ⟨x, h1, h2⟩ := hex
        exact absurd h2 (h x h1)
    · rw [if_neg hl]
      have hno : ∀ x ∈ l, x ∉ dims := fun x h1 h2 => hl (List.any_eq_true.2 ⟨x, h1, by simpa using h2⟩)
      refine ⟨_, rfl, fun d => ?_, fun _ => (ho _).nodup_iff.2 (List.nodup_dedup _)⟩
      rw [(ho _).mem_iff, List.mem_dedup]
      refine ⟨Wanted.useless hno, ?_⟩
      rintro (⟨⟨x, h1, h2⟩, -⟩ | ⟨-, h⟩ | -)
      · exact absurd h2 (hno x h1)
      · exact h

/-- C116: every array dimension has a hint that is a dimension of the layer, so the generator always has something to try. -/
theorem hints_usable (ord : List Dim → List Dim) (ho : ∀ l, (ord l).Perm l) (dims : List Dim) (hd : dims ≠ []) (user : Hint OA Dim) (hw : user.WF)
    (hist : List (List OA)) (oas : List OA) (oa : OA) (hoa : oa ∈ oas) :
    ∃ l, (construct ord dims oas (constructAll ord dims hist user)).get? oa = some l ∧ ∃ d ∈ l, d ∈ dims := by
  obtain ⟨l, h1, h2, -⟩ := hints_effective ord ho dims user hw hist oas oa hoa
  refine ⟨l, h1, ?_⟩
  obtain ⟨d, hd⟩ := List.exists_mem_of_ne_nil _ hd
  cases hu : user.get? oa with
  | none => exact ⟨d, (h2 d).2 (by rw [hu]; exact .missing hd), hd⟩
  | some u =>
    by_cases hex : ∃ x ∈ u, x ∈ dims
    · obtain ⟨x, h3, h4⟩ := hex
      exact ⟨x, (h2 x).2 (by rw [hu]; exact .hinted ⟨x, h3, h4⟩ h3), h4⟩
    · exact ⟨d, (h2 d).2 (by rw [hu]; exact .useless (fun x h3 h4 => hex ⟨x, h3, h4⟩) hd), hd⟩

/-- C116: the generated choices for an array dimension unroll only wanted dimensions, and each wanted dimension of the layer is tried with
every divisor of its maximal unrolling. -/
theorem hints_tried (ord : List Dim → List Dim) (ho : ∀ l, (ord l).Perm l) (user : Hint OA Dim) (hw : user.WF) (hist : List (List OA)) (oas : List OA)
    (oa : OA) (hoa : oa ∈ oas) (mix : Bool) (mx : Dict Dim Nat) (s : Nat) (l : List Dim)
    (hl : (construct ord mx.keys oas (constructAll ord mx.keys hist user)).get? oa = some l) :
    (∀ x, OaChoice mix l mx s x → ∀ e ∈ x, Wanted mx.keys (user.get? oa) e.1 ∧ e.1 ∈ mx.keys) ∧
    ∀ d n f, Wanted mx.keys (user.get? oa) d → mx.get? d = some n → 0 < n → 0 < f → f ∣ n → [(d, (f : ℚ))] ∈ singleOa mix l mx s := by
  obtain ⟨l', h1, h2, -⟩ := hints_effective ord ho mx.keys user hw hist oas oa hoa
  rw [hl] at h1
  cases h1
  constructor
  · intro x hx e he
    refine ⟨(h2 _).1 ?_, ((oaChoice_iff _ _ _ _ _).1 hx).2 e he⟩
    rcases hx with ⟨d, hd, n, f, -, -, -, -, rfl⟩ | ⟨-, -, hsub, -⟩
    · rw [List.mem_singleton.1 he]
      exact hd
    · exact hsub.subset (List.mem_map.2 ⟨e, he, rfl⟩)
  · intro d n f hd hn h0 hf hdv
    exact (mem_singleOa _ _ _ _ _).2 (Or.inl ⟨d, (h2 d).2 hd, n, f, hn, h0, hf, hdv, rfl⟩)

/-- Non-trivial case: hints for a matrix product with a foreign dimension, useless hints, and a second accelerator. -/
example : construct id ["K", "C"] ["D1", "D2", "D3"] (constructAll id ["K", "C"] [["D1"], ["D2", "D4"]] [("D1", ["C", "FX"]), ("D2", ["OX"])]) =
    [("D1", ["C", "FX"]), ("D2", ["K", "C"]), ("D4", ["K", "C"]), ("D3", ["K", "C"])] := by decide +kernel

/-! ### C117 -/

theorem evaluate_hints (ord : List Dim → List Dim) (sizes : Dict Dim Nat) (a : Acc OA Dim) (k : Nat) (st : LayerSt OA Dim) :
    (evaluate ord sizes a k st).2.hints = construct ord sizes.keys a.oaSizes.keys st.hints := by
  unfold evaluate
  simp only
  split
  · rfl
  · rfl
  · split <;> rfl

theorem evaluate_result (ord : List Dim → List Dim) (sizes : Dict Dim Nat) (a : Acc OA Dim) (k : Nat) (st : LayerSt OA Dim) :
    (evaluate ord sizes a k st).1 = (generateChecked sizes a { st with hints := construct ord sizes.keys a.oaSizes.keys st.hints }).bind
      (fun ys => if ys.isEmpty then .error .assertion else .ok (ys.take k)) := by
  unfold evaluate
  simp only
  cases generateChecked sizes a { st with hints := construct ord sizes.keys a.oaSizes.keys st.hints } with
  | error e => rfl
  | ok ys =>
    cases ys with
    | nil => rfl
    | cons y t =>
      cases hl : (List.take k (y :: t)).getLast? with
      | none =>
        rw [List.getLast?_eq_none_iff] at hl
        simp [Except.bind, hl]
      | some z => simp [Except.bind, hl]

/-- A run that launches nothing leaves the mapping of the layer alone. -/
theorem evaluate_nothing (ord : List Dim → List Dim) (sizes : Dict Dim Nat) (a : Acc OA Dim) (k : Nat) (st : LayerSt OA Dim)
    (h : launched (evaluate ord sizes a k st).1 = 0) :
    (evaluate ord sizes a k st).2 = { st with hints := construct ord sizes.keys a.oaSizes.keys st.hints } := by
  unfold evaluate at h ⊢
  simp only at h ⊢
  split
  · rfl
  · rfl
  · rename_i ys _ hys
    rw [hys] at h
    simp only at h
    split
    · rfl
    · rename_i y hy
      rw [hy] at h
      simp only [launched, List.length_eq_zero_iff] at h
      rw [h] at hy
      cases hy

/-- A run that launches a mapping marks the mapping of the layer as initialized. -/
theorem evaluate_something (ord : List Dim → List Dim) (sizes : Dict Dim Nat) (a : Acc OA Dim) (k : Nat) (st : LayerSt OA Dim)
    (h : 0 < launched (evaluate ord sizes a k st).1) : (evaluate ord sizes a k st).2.initialized = true := by
  unfold evaluate at h ⊢
  simp only at h ⊢
  split
  · rename_i e he
    rw [he] at h
    exact absurd h (lt_irrefl 0)
  · rename_i he
    rw [he] at h
    exact absurd h (lt_irrefl 0)
  · rename_i ys _ hys
    rw [hys] at h
    simp only at h
    split
    · rename_i hy
      rw [hy] at h
      exact absurd h (lt_irrefl 0)
    · rfl

theorem evaluate_init (ord : List Dim → List Dim) (sizes : Dict Dim Nat) (a : Acc OA Dim) (k : Nat) (st : LayerSt OA Dim)
    (h : st.initialized = true) : ∃ e, (evaluate ord sizes a k st).1 = .error e ∧ (evaluate ord sizes a k st).2.initialized = true ∧
      ((∃ mx, getMaxUnrolling a.mems a.oaSizes sizes = .ok mx) → e = .assertion) := by
  unfold evaluate generateChecked
  simp only
  cases hm : getMaxUnrolling a.mems a.oaSizes sizes with
  | error e =>
    refine ⟨e, rfl, h, ?_⟩
    rintro ⟨mx, hc⟩
    cases hc
  | ok mx =>
    simp only [h, if_true]
    exact ⟨_, rfl, trivial, fun _ => rfl⟩

/-- C117: as long as no mapping has been launched for the layer (all runs failed before), a further run behaves as on a newly parsed layer,
on whatever accelerators and at whatever point the earlier ones failed. -/
theorem evaluate_after_failures_partial (ord : List Dim → List Dim) (sizes : Dict Dim Nat) (m : SM OA Dim) (h : Hint OA Dim) (hw : h.WF)
    (hist : List (Acc OA Dim × Nat)) (hno : launches ord sizes hist (fresh m h) = 0) (a : Acc OA Dim) (k : Nat) :
    (evaluate ord sizes a k (evaluateAll ord sizes hist (fresh m h))).1 = (evaluate ord sizes a k (fresh m h)).1 := by
  have key : evaluateAll ord sizes hist (fresh m h) = fresh m (constructAll ord sizes.keys (hist.map (fun x => x.1.oaSizes.keys)) h) := by
    clear hw
    unfold evaluateAll
    induction hist generalizing h with
    | nil => rfl
    | cons x t ih =>
      rw [launches, Nat.add_eq_zero_iff] at hno
      have he := evaluate_nothing ord sizes x.1 x.2 (fresh m h) hno.1
      rw [List.foldl_cons, he]
      have hno2 := hno.2
      rw [he] at hno2
      exact ih _ hno2
  rw [key]
  have hg : generateChecked sizes a { fresh m (constructAll ord sizes.keys (hist.map (fun x => x.1.oaSizes.keys)) h) with
        hints := construct ord sizes.keys a.oaSizes.keys (constructAll ord sizes.keys (hist.map (fun x => x.1.oaSizes.keys)) h) } =
      generateChecked sizes a { fresh m h with hints := construct ord sizes.keys a.oaSizes.keys h } := by
    unfold generateChecked
    cases getMaxUnrolling a.mems a.oaSizes sizes with
    | error e => rfl
    | ok mx =>
      simp only [fresh]
      exact generate_congr (inputsOf sizes a ⟨m, false, construct ord sizes.keys a.oaSizes.keys h⟩) _
        (fun oa hoa => construct_history ord sizes.keys _ h hw a.oaSizes.keys oa hoa)
  rw [evaluate_result, evaluate_result]
  simp only [fresh] at hg ⊢
  rw [hg]

/-- C117 is false: once a mapping has been launched for a layer, every further run on that layer object fails, on every accelerator and
with every option; with an `AssertionError` ("OA Dimensions were already initialized") whenever the accelerator suits the layer. -/
theorem evaluate_again_crash (ord : List Dim → List Dim) (sizes : Dict Dim Nat) (st : LayerSt OA Dim) (hist : List (Acc OA Dim × Nat))
    (hsome : 0 < launches ord sizes hist st) (a : Acc OA Dim) (k : Nat) :
    ∃ e, (evaluate ord sizes a k (evaluateAll ord sizes hist st)).1 = .error e ∧
      ((∃ mx, getMaxUnrolling a.mems a.oaSizes sizes = .ok mx) → e = .assertion) := by
  have stay : ∀ (hist : List (Acc OA Dim × Nat)) (st : LayerSt OA Dim), st.initialized = true → (evaluateAll ord sizes hist st).initialized = true := by
    intro hist
    induction hist with
    | nil => exact fun _ h => h
    | cons x t ih =>
      intro st h
      obtain ⟨_, -, h', -⟩ := evaluate_init ord sizes x.1 x.2 st h
      exact ih _ h'
  have hinit : (evaluateAll ord sizes hist st).initialized = true := by
    induction hist generalizing st with
    | nil => exact absurd hsome (lt_irrefl 0)
    | cons x t ih =>
      by_cases h0 : 0 < launched (evaluate ord sizes x.1 x.2 st).1
      · exact stay t _ (evaluate_something ord sizes x.1 x.2 st h0)
      · refine ih (evaluate ord sizes x.1 x.2 st).2 ?_
        rw [launches] at hsome
        omega
  obtain ⟨e, h1, -, h2⟩ := evaluate_init ord sizes a k _ hinit
  exact ⟨e, h1, h2⟩

/-- Accelerator of the witness. -/
def smallAcc : Acc String String :=
  { mems := [⟨1024, 512, 1, [], ["D1"]⟩], oaSizes := [("D1", 4)], mix := false, nbMappings := 1, order := plainOrder, capOrder := id }

set_option synthInstance.maxSize 1000 in
set_option synthInstance.maxHeartbeats 200000 in
/-- C117 is false: the first run finds the mapping, the second run on the same layer fails. -/
theorem evaluate_again_false :
    (evaluate id [("K", 8), ("C", 2)] smallAcc 1 (fresh [] [("D1", ["K", "FX"])])).1 = .ok [[("D1", [("K", 4)])]] ∧
    launches id [("K", 8), ("C", 2)] [(smallAcc, 1)] (fresh [] [("D1", ["K", "FX"])]) = 1 ∧
    (evaluate id [("K", 8), ("C", 2)] smallAcc 1 (evaluateAll id [("K", 8), ("C", 2)] [(smallAcc, 1)] (fresh [] [("D1", ["K", "FX"])]))).1 =
      .error .assertion := by
  decide +kernel

/-- An accelerator without the memory operands is no obstacle for a later run: it launches nothing. -/
example : launches id [("K", 8), ("C", 2)] [(smallAcc, 0), ({ smallAcc with mems := [⟨1024, 0, 8, [], ["D2"]⟩] }, 1)]
    (fresh [] [("D1", ["K", "FX"])]) = 0 := by decide +kernel

end Verif.Hints
