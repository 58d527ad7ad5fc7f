import Verif.ImcFiles.Spec
import Verif.ImcCall.Props
import Verif.LocalCall.Props

/-! C170: a whole call for an in-memory-computing array on the contents of the three files. -/

namespace Verif.ImcFiles

open Call (Written NodeSays LayerFits FilesSay SourcesKnown LayerOptions)
open Equation (Text)
open Evaluate (Separate)
open Files (Doc AccR)
open ImcCall (Chip ChipOk Straight Made total multiply)
open Latency (Operand)
open LocalCall (Entry AccFits Both NetSays)
open Net (Node NodeOk FileOk OptionsOk Known)
open Reuse (LNode Graph Fits plan reduced)
open Whole (AccD)

variable {cacti : String → String → Int → Int → Except PyErr (ℚ × ℚ × ℚ)} {adcArea : Nat → ℚ} {eqn : List Char → Bool} {rel : List Char → Option LayerBuild.RelD}
variable {fact : Nat → List (Nat × Nat)} {lo : LayerOptions} {o : Net.Options String Text} {da dw dm : Doc} {A : AccD String} {K : Chip String} {ws : List Written}

/-! ### The array -/

theorem natOf_cast (n : ℕ) : natOf (n : ℚ) = some n := by simp [natOf]

theorem sorted_dims {sizes : Dict String Nat} {x y : String × Nat} {rest : List (String × Nat)} (hp : sizes.Perm (x :: y :: rest)) (hw : sizes.WF) (h1 : x.1 < y.1)
    (h2 : ∀ e ∈ rest, y.1 < e.1) : ∃ l, sizes.keys.insertionSort (· ≤ ·) = x.1 :: y.1 :: l ∧ l.Perm (rest.map Prod.fst) := by
  have hperm : (sizes.keys.insertionSort (· ≤ ·)).Perm (x.1 :: y.1 :: (rest.map Prod.fst).insertionSort (· ≤ ·)) := by
    refine (List.perm_insertionSort _ _).trans ((hp.map Prod.fst).trans ?_)
    exact List.Perm.cons _ (List.Perm.cons _ (List.perm_insertionSort _ _).symm)
  refine ⟨_, hperm.eq_of_pairwise' (List.pairwise_insertionSort _ _) ?_, List.perm_insertionSort _ _⟩
  have hm : ∀ z ∈ (rest.map Prod.fst).insertionSort (· ≤ ·), y.1 < z := by
    intro z hz
    obtain ⟨e, he, rfl⟩ := List.mem_map.1 ((List.perm_insertionSort _ _).mem_iff.1 hz)
    exact h2 e he
  refine List.pairwise_cons.2 ⟨fun z hz => ?_, List.pairwise_cons.2 ⟨fun z hz => (hm z hz).le, List.pairwise_insertionSort _ _⟩⟩
  rcases List.mem_cons.1 hz with rfl | hz
  · exact h1.le
  · exact (h1.trans (hm z hz)).le

/-- The array that is made of a file is the one that it describes. -/
theorem chip_written {a : AccR} {sizes : Dict String Nat} (hw : sizes.WF) (h : ArraySays adcArea a sizes K) : chipOf adcArea a sizes = .ok K := by
  obtain ⟨m, area, c1, c2, c3, c4, c5⟩ := h.cells
  obtain ⟨rest, d1, d2, d3, d4⟩ := h.dims
  obtain ⟨l, s1, s2⟩ := sorted_dims d1 hw d2 d3
  have hget : ∀ e ∈ (K.wlDim, K.arr.wl) :: (K.blDim, K.arr.bl) :: rest, sizes.get? e.1 = some e.2 := fun e he => Dict.get?_of_mem hw (d1.mem_iff.2 he)
  have hwl := hget _ List.mem_cons_self
  have hbl := hget _ (List.mem_cons_of_mem _ List.mem_cons_self)
  have hbanks : (l.map fun d => (sizes.get? d).getD 0).prod = K.arr.banks := by
    rw [d4, (s2.map _).prod_eq, List.map_map]
    congr 1
    refine List.map_congr_left fun e he => ?_
    simp only [Function.comp_apply]
    rw [hget e (List.mem_cons_of_mem _ (List.mem_cons_of_mem _ he))]
    rfl
  have hres : (if a.arr.type = some "analog" then a.arr.adc.bind natOf else some 0) = some K.arr.adcRes := by
    by_cases ht : a.arr.type = some "analog"
    · rw [if_pos ht, h.analog (h.kind.2 ht)]
      exact natOf_cast _
    · rw [if_neg ht, h.digital (by rw [← Bool.not_eq_true, h.kind]; exact ht)]
  have hadc : adcOf adcArea Imc.tech28 K.arr.adcRes K.arr.bl = K.arr.adc := by
    unfold adcOf
    rcases Nat.eq_zero_or_pos K.arr.adcRes with hz | hz
    · rw [h.none hz, if_pos hz, if_pos hz, if_pos hz]
    · rw [if_neg hz.ne', if_neg hz.ne', if_neg hz.ne']
      refine Prod.ext (h.area hz).symm (Prod.ext ?_ ?_)
      · rw [h.delay hz]
        norm_num
      · rw [h.energy hz]
        simp only [Imc.tech28]
        norm_num
  have hkind : decide (a.arr.type = some "analog") = K.arr.aimc := by
    rw [Bool.eq_iff_iff, decide_eq_true_eq, h.kind]
  unfold chipOf
  rw [c1]
  simp only
  rw [c2, h.precision, h.serial, hres]
  simp only [Bool.false_eq_true, if_false, Option.bind_some, natOf_cast]
  rw [if_neg (by rw [c3]; omega), s1]
  simp only
  rw [c4]
  simp only
  rw [hwl, hbl]
  simp only [Option.getD_some, Int.toNat_natCast]
  rw [hbanks, hadc, hkind, ← c5, ← h.tech, c3, Int.toNat_natCast]

theorem adc_nonneg {a : AccR} {sizes : Dict String Nat} (h : ArraySays adcArea a sizes K) (hr : ∀ r, 0 ≤ adcArea r) : 0 ≤ K.arr.adc.1 ∧ 0 ≤ K.arr.adc.2.1 ∧ 0 ≤ K.arr.adc.2.2 := by
  rcases Nat.eq_zero_or_pos K.arr.adcRes with hz | hz
  · rw [h.none hz]
    exact ⟨le_refl _, le_refl _, le_refl _⟩
  · rw [h.area hz, h.delay hz, h.energy hz]
    refine ⟨?_, by positivity, by positivity⟩
    split
    · exact le_refl _
    · exact hr _

theorem pow_of {n : ℕ} (h : ∃ a b : ℕ, (n : ℚ) = 2 ^ a / 2 ^ b) : ∃ k, n = 2 ^ k := by
  obtain ⟨a, b, h⟩ := h
  have h1 : n * 2 ^ b = 2 ^ a := by
    have : (n : ℚ) * 2 ^ b = 2 ^ a := by rw [h]; field_simp
    exact_mod_cast this
  obtain ⟨k, -, hk⟩ := (Nat.dvd_prime_pow Nat.prime_two).1 (Dvd.intro _ h1)
  exact ⟨k, hk⟩

/-- The precisions of an accepted file are powers of two, and inputs are not longer than activations. -/
theorem precisions {a : AccR} {sizes : Dict String Nat} (h : ArraySays adcArea a sizes K) (hc : Files.checkAcc a = .ok true) (hi : a.arr.imc = true) :
    (∃ k, K.arr.bs = 2 ^ k) ∧ (∃ k, K.arr.act = 2 ^ k) ∧ (∃ k, K.arr.wp = 2 ^ k) ∧ K.arr.bs ≤ K.arr.act := by
  have hv : Files.checkImc a.arr = .ok true := by
    unfold Files.checkAcc at hc
    rw [hi] at hc
    simp only [if_true] at hc
    split at hc
    · cases hc
    · rename_i b hb
      split at hc
      · cases hc
      · rw [hb]
        simp only [Except.ok.injEq, Bool.and_eq_true] at hc
        rw [hc.1.1.2]
  unfold Files.checkImc at hv
  rw [h.precision, h.serial] at hv
  obtain ⟨bs, ip, e1, e2, h1, h2, -⟩ := Ports.imc_check_sound _ hv
  simp only [Option.some.injEq] at e1 e2
  subst e1 e2
  simp only [Int.cast_natCast] at h1 h2
  exact ⟨pow_of (h2 _ (by simp)), pow_of (h2 _ (by simp)), pow_of (h2 _ (by simp)), by exact_mod_cast h1⟩

theorem total_pos {l : List (String × ℚ)} (h : ∀ x ∈ l, 0 ≤ x.2) {x : String × ℚ} (hx : x ∈ l) (hp : 0 < x.2) : 0 < total l := by
  unfold total
  refine lt_of_lt_of_le hp (List.single_le_sum ?_ _ (List.mem_map.2 ⟨x, hx, rfl⟩))
  intro y hy
  obtain ⟨z, hz, rfl⟩ := List.mem_map.1 hy
  exact h z hz

/-- C170: the array of an accepted file can be made if it is analog or has a power of two of rows; its area, clock period and peak performances are positive. -/
theorem array_made {a : AccR} {sizes : Dict String Nat} (h : ArraySays adcArea a sizes K) (hc : Files.checkAcc a = .ok true) (hi : a.arr.imc = true) (H : Sensible adcArea K)
    (hwl : 1 ≤ K.arr.wl) (hb : 1 ≤ K.arr.banks) (hd : K.arr.aimc = true ∨ ∃ k, K.arr.bl = 2 ^ k) :
    ∃ area clock p, Imc.getArea K.arr = .ok area ∧ Imc.getTclk K.arr = .ok clock ∧ peak K.arr (total area) (total clock) = .ok p ∧
      0 < total area ∧ 0 < total clock ∧ 0 < p.1 ∧ 0 < p.2.1 ∧ 0 < p.2.2 := by
  obtain ⟨⟨kb, hkb⟩, ⟨ka, hka⟩, ⟨kw, hkw⟩, hle⟩ := precisions h hc hi
  obtain ⟨n1, n2, n3⟩ := adc_nonneg h H.adc
  have ht : K.arr.tech.NonNeg := by rw [h.tech]; exact Imc.tech28_nonneg
  have hbs : 1 ≤ K.arr.bs := by rw [hkb]; exact Nat.one_le_two_pow
  have hwp : 1 ≤ K.arr.wp := by rw [hkw]; exact Nat.one_le_two_pow
  have hrows := H.rows
  have hmul : (0 : ℚ) < (Imc.nMults K.arr : ℚ) := by
    have : 0 < Imc.nMults K.arr := by
      unfold Imc.nMults
      split <;> positivity
    exact_mod_cast this
  have hok : ∃ r, Imc.getArea K.arr = .ok r := by
    rw [Imc.area_ok_iff]
    refine ⟨fun hf => ?_, ?_⟩
    · rcases hd with hd | hd
      · rw [hf] at hd
        cases hd
      · exact hd
    · unfold Imc.pvIn
      split
      · exact ⟨kw, hkw⟩
      · exact ⟨kb, hkb⟩
  obtain ⟨clock, hclk, hcn⟩ := Imc.clock_nonneg_partial K.arr ht n2 hok H.rows hwp hle
  obtain ⟨area, harea⟩ := hok
  have han := Imc.area_nonneg K.arr ht H.cells n1 area harea
  have e1 : ("mults", K.arr.tech.nd2Area * (Imc.nMults K.arr : ℚ)) ∈ area := by
    have harea' := harea
    unfold Imc.getArea at harea'
    simp only at harea'
    split at harea'
    · cases harea'
    · split at harea'
      · cases harea'
      · cases harea'
        simp
  have e2 : ("mults", K.arr.tech.nd2Dly) ∈ clock := by
    have hclk' := hclk
    unfold Imc.getTclk at hclk'
    simp only at hclk'
    split at hclk'
    · cases hclk'
    · split at hclk'
      · cases hclk'
        simp
      · split at hclk'
        · cases hclk'
          simp
        · cases hclk'
  have p1 : 0 < total area := total_pos han e1 (mul_pos (by rw [h.tech]; norm_num [Imc.tech28]) hmul)
  have p2 : 0 < total clock := total_pos hcn e2 (by rw [h.tech]; norm_num [Imc.tech28])
  have hvdd : 0 ≤ K.arr.tech.vdd := by rw [h.tech]; norm_num [Imc.tech28]
  have p3 : 0 < total (Imc.peakEnergy K.arr) := by
    refine total_pos (x := ("mults", Imc.multE K.arr.tech * Imc.nMults K.arr)) ?_ (by simp [Imc.peakEnergy]) (mul_pos (by rw [h.tech]; norm_num [Imc.tech28, Imc.multE]) hmul)
    have hw0 : ∀ n : ℕ, (0 : ℚ) ≤ (n : ℚ) := fun n => Nat.cast_nonneg n
    have hadd : 0 ≤ Imc.adderE K.arr.tech := by
      unfold Imc.adderE
      have := ht.nd2Cap; have := ht.xor2Cap
      positivity
    have hreg : 0 ≤ Imc.regE K.arr.tech := by
      unfold Imc.regE
      have := ht.dffCap
      positivity
    have hmulE : 0 ≤ Imc.multE K.arr.tech := by
      unfold Imc.multE
      have := ht.nd2Cap
      positivity
    have hdac : 0 ≤ Imc.dacE K.arr := by
      unfold Imc.dacE
      split <;> positivity
    have hblc := ht.blCap
    have hpv := Imc.pvAdders_nonneg (Imc.pvIn K.arr) (Imc.pvPrec K.arr) (by unfold Imc.pvIn; split <;> assumption)
    intro x hx
    simp only [Imc.peakEnergy, List.mem_cons, List.not_mem_nil, or_false] at hx
    rcases hx with rfl | rfl | rfl | rfl | rfl | rfl | rfl | rfl <;> simp only
    · exact le_refl _
    · split <;> positivity
    · split <;> positivity
    · positivity
    · split <;> positivity
    · split
      · exact le_refl _
      · rename_i hf
        have htree : (0 : ℚ) ≤ (Imc.treeAdders K.arr.bl K.arr.wp (Nat.log 2 K.arr.bl) : ℚ) := by
          refine Imc.treeAdders_nonneg _ _ ?_
          obtain ⟨k, hk⟩ := hd.resolve_left hf
          unfold Imc.pow2
          rw [decide_eq_true_eq, hk, Nat.log_pow (by norm_num)]
        positivity
    · positivity
    · split <;> positivity
  have hmac : (0 : ℚ) < (K.arr.wl * K.arr.bl : ℚ) / (K.arr.act / K.arr.bs) * K.arr.banks := by
    have : 1 ≤ K.arr.act := hbs.trans hle
    positivity
  have hpk : peak K.arr (total area) (total clock) = .ok ((K.arr.wl * K.arr.bl : ℚ) / (K.arr.act / K.arr.bs) * K.arr.banks * 2 / total clock / 1000,
      (K.arr.wl * K.arr.bl : ℚ) / (K.arr.act / K.arr.bs) * K.arr.banks * 2 / total (Imc.peakEnergy K.arr),
      (K.arr.wl * K.arr.bl : ℚ) / (K.arr.act / K.arr.bs) * K.arr.banks * 2 / total clock / 1000 / total area) := by
    unfold peak
    rw [if_neg (by omega)]
    simp only
    rw [if_neg (by simp only [p1.ne', p2.ne', p3.ne', or_self, not_false_eq_true])]
  refine ⟨area, clock, _, harea, hclk, hpk, p1, p2, ?_⟩
  exact ⟨by positivity, by positivity, by positivity⟩

theorem array_sizes (hA : ImcSays cacti adcArea da A K) (F : FileOk A) : 1 ≤ K.arr.wl ∧ 1 ≤ K.arr.banks := by
  obtain ⟨a, -, -, -, -, -, hK⟩ := hA.read
  obtain ⟨rest, d1, -, -, d4⟩ := hK.dims
  have hpos := F.acc.units
  refine ⟨hpos _ (d1.mem_iff.2 List.mem_cons_self), ?_⟩
  rw [d4]
  refine Nat.one_le_iff_ne_zero.2 fun h0 => ?_
  obtain ⟨e, he, h0⟩ := List.mem_map.1 (List.prod_eq_zero_iff.1 h0)
  have := hpos e (d1.mem_iff.2 (List.mem_cons_of_mem _ (List.mem_cons_of_mem _ he)))
  omega

/-- C170: an accelerator file that describes an accelerator with an in-memory-computing array yields both if the array is analog or has a power of two of rows; otherwise it
is refused. -/
theorem imc_file (hA : ImcSays cacti adcArea da A K) (F : FileOk A) (H : Sensible adcArea K) :
    ((K.arr.aimc = true ∨ ∃ k, K.arr.bl = 2 ^ k) → accelerator cacti adcArea da = .ok (A, K)) ∧
    (¬ (K.arr.aimc = true ∨ ∃ k, K.arr.bl = 2 ^ k) → accelerator cacti adcArea da = .error .assertion) := by
  obtain ⟨a, hr, hc, himc, hsz, hms, hK⟩ := hA.read
  obtain ⟨a', hr', hok⟩ := Files.acc_reads da hA.accepted
  rw [hr] at hr'
  cases hr'
  have hlen := Files.check_lengths hc
  have hdim := Files.dimSizes_total hok.2.1 hlen
  have hnd : ((a.arr.dims.zip a.arr.sizes).map Prod.fst).Nodup := by
    rw [← hsz, List.map_map]
    exact F.acc.dims
  have hnat : natSizes (a.arr.dims.zip a.arr.sizes) = A.sizes := by
    unfold natSizes
    rw [← hsz, List.map_map]
    conv_rhs => rw [← List.map_id A.sizes]
    exact List.map_congr_left fun e _ => by simp
  rw [Files.foldl_written _ hnd] at hdim
  have hwl := array_sizes hA F
  have hwf : A.sizes.WF := F.acc.dims
  constructor
  · intro hd
    obtain ⟨area, clock, p, h1, h2, h3, -⟩ := array_made hK hc himc H hwl.1 hwl.2 hd
    have hcon : construct adcArea a A.sizes = .ok K := by
      unfold construct
      rw [chip_written hwf hK]
      simp only
      rw [h1]
      simp only
      rw [h2]
      simp only
      rw [h3]
    have hctor : constructor adcArea a = .ok () := by
      unfold constructor
      rw [hdim]
      simp only
      rw [hnat, hcon]
    have hex : ∃ acc, Files.parseAcc cacti (constructor adcArea) da = .ok acc := by
      rw [Files.built_iff_partial]
      refine ⟨hA.accepted, a, hr, hc, fun hi => absurd (himc.symm.trans hi) (by decide), fun _ => hctor, fun e he => ?_⟩
      obtain ⟨m, hm, hs⟩ := Call.forall₂_index hms he
      have hmo := F.acc.mems m hm
      constructor
      · intro ha
        obtain ⟨p, c, h1, h2, -⟩ := hs.extracted ha
        exact ⟨p, h1, c, h2⟩
      · intro p hp s hsp
        obtain ⟨q, hq, hpq⟩ := Call.forall₂_index hs.ports hp
        rw [hpq.alloc] at hsp
        obtain ⟨x, hx, rfl⟩ := List.mem_map.1 hsp
        refine ⟨Call.opName x.1, ?_, Files.dirName x.2, ?_, rfl⟩
        · rw [hs.operands]
          exact List.mem_map.2 ⟨x.1, hmo.only q hq x hx, rfl⟩
        · cases x.2 <;> decide +kernel
    obtain ⟨acc, hacc⟩ := hex
    unfold accelerator
    rw [hacc]
    simp only
    rw [hr]
    simp only
    rw [if_neg (by rw [himc]; decide)]
    obtain ⟨-, a', hr', -, hb⟩ := (Files.parseAcc_iff cacti _ da acc).1 hacc
    rw [hr] at hr'
    cases hr'
    obtain ⟨fl, hfl⟩ := Files.flows_total hok
    unfold Files.buildAcc Files.unitOf at hb
    rw [himc, hfl, hdim] at hb
    simp only [if_true] at hb
    rw [hctor] at hb
    simp only at hb
    split at hb
    · cases hb
    · rename_i hh ls hbm
      cases hb
      obtain ⟨hlv, -, -⟩ := Files.buildMems_levels cacti _ _ _ _ hok.1 hbm
      simp only
      rw [hnat, hcon]
      simp only
      rw [Call.mems_parsed hms hlv]
      simp only
      rw [← hA.energy]
  · intro hd
    have harea : Imc.getArea K.arr = .error .assertion := by
      have hf : K.arr.aimc = false := by
        rw [← Bool.not_eq_true]
        exact fun h => hd (.inl h)
      unfold Imc.getArea
      simp only
      rw [if_pos]
      refine ⟨hf, ?_⟩
      rw [← Bool.not_eq_true]
      intro h
      unfold Imc.pow2 at h
      exact hd (.inr ⟨_, of_decide_eq_true h⟩)
    unfold accelerator Files.parseAcc
    rw [if_pos hA.accepted, hr]
    simp only
    rw [hc]
    simp only
    unfold Files.buildAcc Files.unitOf
    rw [himc, hdim]
    simp only [if_true]
    unfold constructor construct
    rw [hdim]
    simp only
    rw [hnat, chip_written hwf hK]
    simp only
    rw [harea]

theorem chip_ok (hA : ImcSays cacti adcArea da A K) (F : FileOk A) (H : Sensible adcArea K) : ChipOk K A := by
  obtain ⟨a, hr, hc, himc, hsz, hms, hK⟩ := hA.read
  obtain ⟨⟨kb, hkb⟩, -⟩ := precisions hK hc himc
  obtain ⟨rest, d1, d2, -⟩ := hK.dims
  refine ⟨d2.ne, Dict.get?_of_mem F.acc.dims (d1.mem_iff.2 List.mem_cons_self), Dict.get?_of_mem F.acc.dims (d1.mem_iff.2 (List.mem_cons_of_mem _ List.mem_cons_self)), ?_,
    by rw [hK.tech]; exact Imc.tech28_nonneg, by rw [hK.tech]; norm_num [Imc.tech28], (adc_nonneg hK H.adc).2.2⟩
  rw [hkb]
  exact Nat.one_le_two_pow

/-! ### The layers -/

theorem layer_ok {w : Written} (F : LayerFits A w) (B : Both A w) {m : Node String Text} {rl : Operand → List Text} (S : NodeSays lo w m) (hn : NodeOk A m rl w.rels)
    (hc : 0 < K.arr.act / K.arr.bs) {n : LNode String Text} {y : Entry} (h : n.node = adapt K y m) : Reuse.LayerOk A n rl w.rels := by
  obtain ⟨h1, h2, h3⟩ := LocalCall.layer_ok F B S hn (n := { n with node := m }) rfl
  obtain ⟨l, st, li, de, ho, us, wh, kn, hi, od⟩ := h1
  have hl : Whole.LayerOk (adapt K y m).layer rl w.rels :=
    ⟨l.ops, l.out, l.inputs, l.names, l.pi, l.wf, l.some, l.whole, l.related, l.sizes, l.rel, l.index, l.mix, l.vars, l.dims, hc⟩
  refine ⟨?_, ?_, ?_⟩
  · rw [h]
    exact ⟨hl, st, li, de, ho, us, wh, kn, hi, od⟩
  · rw [h]
    exact h2
  · rw [h]
    exact h3

theorem serial_pos (hA : ImcSays cacti adcArea da A K) : (K.arr.act : ℚ) / K.arr.bs = ((K.arr.act / K.arr.bs : ℕ) : ℚ) ∧ 0 < K.arr.act / K.arr.bs := by
  obtain ⟨a, hr, hc, himc, hsz, hms, hK⟩ := hA.read
  obtain ⟨⟨kb, hkb⟩, ⟨ka, hka⟩, -, hle⟩ := precisions hK hc himc
  have hpos : 0 < K.arr.bs := by rw [hkb]; positivity
  have hdvd : K.arr.bs ∣ K.arr.act := by
    rw [hkb, hka]
    refine pow_dvd_pow 2 ?_
    rw [hkb, hka] at hle
    exact (Nat.pow_le_pow_iff_right (by norm_num)).1 hle
  refine ⟨?_, Nat.div_pos hle hpos⟩
  rw [div_eq_iff (by exact_mod_cast hpos.ne')]
  exact_mod_cast (Nat.div_mul_cancel hdvd).symm

/-! ### The call -/

theorem call_eq (hacc : accelerator cacti adcArea da = .ok (A, K)) (F : FileOk A) {p : LocalCall.Parsed} {g : Graph String Text} {nodes : List (LNode String Text)}
    (hw : LocalCall.workload eqn rel lo dw dm = .ok p) (hp : LocalCall.prepare (adapt K) p = .ok (g, nodes)) (opt : String) (hk : Known opt) (fuel : Nat) :
    call cacti adcArea eqn rel fact lo o opt da dw dm fuel = ImcCall.network (fun _ => (0, 0)) fact K A o opt g nodes fuel := by
  have : ∃ x, Pipeline.Opt.parse opt = .ok x := by
    rcases hk with rfl | rfl | rfl <;> exact ⟨_, rfl⟩
  obtain ⟨x, hx⟩ := this
  obtain ⟨c, hc, -⟩ := Whole.accelerator_ok (cacti := fun _ => (0, 0)) F.acc
  unfold call
  rw [hx]
  simp only
  rw [hw]
  simp only
  rw [hacc]
  simp only
  rw [hc]
  simp only
  rw [hp]

theorem call_known {opt : String} {fuel : Nat} {ans : ImcCall.Reply String Text} (h : call cacti adcArea eqn rel fact lo o opt da dw dm fuel = .ok ans) : Known opt := by
  unfold Known
  by_contra hk
  push Not at hk
  unfold call Pipeline.Opt.parse at h
  rw [if_neg hk.1, if_neg hk.2.1, if_neg hk.2.2] at h
  cases h

theorem call_accelerator {opt : String} {fuel : Nat} {ans : ImcCall.Reply String Text} (h : call cacti adcArea eqn rel fact lo o opt da dw dm fuel = .ok ans) :
    ∃ x, accelerator cacti adcArea da = .ok x := by
  unfold call at h
  split at h
  · cases h
  · split at h
    · cases h
    · split at h
      · cases h
      · exact ⟨_, by assumption⟩

theorem call_empty (A : AccD String) (S : FilesSay eqn rel dw dm []) {opt : String} {fuel : Nat} {ans : ImcCall.Reply String Text}
    (h : call cacti adcArea eqn rel fact lo o opt da dw dm fuel = .ok ans) : False := by
  obtain ⟨ms, ns, g, order, h1, -, h3, -⟩ := LocalCall.parsed_ok (A := A) S (by intro j w hw; simp at hw) (by simp) (by simp) lo
  cases h3
  unfold call at h
  split at h
  · cases h
  · rw [h1] at h
    simp only at h
    split at h
    · cases h
    · split at h
      · cases h
      · simp only [LocalCall.prepare, List.map_nil, List.zip_nil_left, LocalCall.lnodesOf, List.nodup_nil, not_true_eq_false, if_false] at h
        cases h

theorem known_array (hA : ImcSays cacti adcArea da A K) (F : FileOk A) (H : Sensible adcArea K) {x : AccD String × Chip String}
    (h : accelerator cacti adcArea da = .ok x) : (K.arr.aimc = true ∨ ∃ k, K.arr.bl = 2 ^ k) ∧ accelerator cacti adcArea da = .ok (A, K) := by
  by_cases hd : K.arr.aimc = true ∨ ∃ k, K.arr.bl = 2 ^ k
  · exact ⟨hd, (imc_file hA F H).1 hd⟩
  · rw [(imc_file hA F H).2 hd] at h
    cases h

/-- What the stages get, for an array that can be made. -/
theorem prepared (hA : ImcSays cacti adcArea da A K) (S : FilesSay eqn rel dw dm ws) (Q : SourcesKnown ws)
    (L : ∀ w ∈ ws, LayerFits A w) (B : ∀ w ∈ ws, Both A w) (hid : (ws.map fun w => w.layer.id).Nodup) (hne : ws ≠ []) (lo : LayerOptions) :
    ∃ p g nodes, LocalCall.workload eqn rel lo dw dm = .ok p ∧ LocalCall.prepare (adapt K) p = .ok (g, nodes) ∧ NetSays lo (adapt K) ws g nodes ∧
      (∀ n ∈ nodes, ∃ rl rels, Reuse.LayerOk A n rl rels) ∧ (∀ n ∈ nodes, ∃ w ∈ ws, ws[n.id]? = some w ∧ (n.node.skip = false ↔ Counted w) ∧
        n.node.layer.cyclesPerOp = K.arr.act / K.arr.bs ∧ Whole.operations n.node.layer = w.operations) ∧
      ((nodes.filter fun n => !n.node.skip).map fun n => Whole.operations n.node.layer).sum = counted ws := by
  obtain ⟨p, g, nodes, h1, h2, N, h3⟩ := LocalCall.prepared (A := A) S Q L B hid hne lo (adapt K)
  have hw : ∀ n ∈ nodes, ∃ w ∈ ws, ws[n.id]? = some w ∧ (n.node.skip = false ↔ Counted w) ∧
      n.node.layer.cyclesPerOp = K.arr.act / K.arr.bs ∧ Whole.operations n.node.layer = w.operations := by
    intro n hn
    obtain ⟨w, hw, m, rl, k1, k2, k3, k4⟩ := h3 n hn
    refine ⟨w, hw, k4, ?_, by rw [k3]; rfl, ?_⟩
    · rw [k3]
      unfold adapt Counted
      simp only [decide_eq_false_iff_not, not_or]
    · rw [k3]
      have := Call.node_operations (L w hw) k1
      exact this
  refine ⟨p, g, nodes, h1, h2, N, ?_, hw, ?_⟩
  · intro n hn
    obtain ⟨w, hw, m, rl, k1, k2, k3, -⟩ := h3 n hn
    exact ⟨rl, w.rels, layer_ok (L w hw) (B w hw) k1 k2 (serial_pos hA).2 k3⟩
  · have hif : ∀ {α : Type} (l : List α) (q : α → Bool) (f : α → ℕ), ((l.filter q).map f).sum = (l.map fun x => if q x then f x else 0).sum := by
      intro α l q f
      induction l with
      | nil => rfl
      | cons x t ih =>
        rw [List.map_cons, List.sum_cons, ← ih]
        by_cases hq : q x = true
        · rw [List.filter_cons_of_pos hq, if_pos hq, List.map_cons, List.sum_cons]
        · rw [List.filter_cons_of_neg hq, if_neg hq, Nat.zero_add]
    have e1 : (nodes.map fun n => if (!n.node.skip) = true then Whole.operations n.node.layer else 0) =
        (nodes.map LNode.id).map fun i => ((ws[i]?).map fun w => if decide (Counted w) = true then w.operations else 0).getD 0 := by
      rw [List.map_map]
      refine List.map_congr_left fun n hn => ?_
      obtain ⟨w, -, k1, k2, -, k3⟩ := hw n hn
      simp only [Function.comp_apply]
      rw [k1, k3]
      by_cases hs : n.node.skip = false
      · rw [if_pos (by rw [hs]; rfl)]
        simp [k2.1 hs]
      · rw [if_neg (by simpa using hs)]
        have : ¬ Counted w := fun h => hs (k2.2 h)
        simp [this]
    unfold counted
    rw [hif, hif, e1, (N.all.map _).sum_eq]
    congr 1
    refine List.ext_getElem? fun i => ?_
    rw [List.getElem?_map, List.getElem?_map]
    by_cases hi : i < ws.length
    · rw [List.getElem?_range hi]
      simp [List.getElem?_eq_getElem hi]
    · rw [List.getElem?_eq_none (by simpa using hi), List.getElem?_eq_none (by omega)]
      rfl

theorem sum_cast (l : List (LNode String Text)) (c : ℚ) :
    (l.map fun n => c * ((Whole.operations n.node.layer : ℕ) : ℚ)).sum = c * (((l.map fun n => Whole.operations n.node.layer).sum : ℕ) : ℚ) := by
  induction l with
  | nil => simp
  | cons x t ih =>
    simp only [List.map_cons, List.sum_cons, ih]
    push_cast
    ring

/-- C170: bounds for an answer from the files alone: a layer is neither `Pooling` nor `Add`; the units of the array times the reported latency are at least the operations
of all such layers times activation bits over bits that enter at once, if no two movements of a port happen exactly once; if no written cost is negative the energy is at
least that of the multiplications of bits; the clock period is that of the array, and the area at least its area and at most that with all memories. -/
theorem imc_file_bounds (hA : ImcSays cacti adcArea da A K) (F : FileOk A) (H : Sensible adcArea K) (X : AccFits A) (S : FilesSay eqn rel dw dm ws) (Q : SourcesKnown ws)
    (L : ∀ w ∈ ws, LayerFits A w) (B : ∀ w ∈ ws, Both A w) (hid : (ws.map fun w => w.layer.id).Nodup) (O : OptionsOk o) (hf : Lpf.FactContract fact) (lo : LayerOptions) :
    ∃ N, ∀ fuel, N ≤ fuel → ∀ opt ans, call cacti adcArea eqn rel fact lo o opt da dw dm fuel = .ok ans →
      (∃ w ∈ ws, Counted w) ∧
      ((∀ g nodes s, NetSays lo (adapt K) ws g nodes → plan A g nodes = .ok s → ∀ n ∈ nodes, ∀ e, Made (fun _ => (0, 0)) fact K A s o fuel n e → Separate e.built.hw e.job) →
        (counted ws : ℚ) * ((K.arr.act : ℚ) / K.arr.bs) ≤ ((A.sizes.map Prod.snd).prod : ℕ) * ans.latency) ∧
      ((∀ m ∈ A.mems, 0 ≤ m.rCost.getD 0 ∧ 0 ≤ m.wCost.getD 0) → multiply K.arr * (counted ws : ℚ) ≤ ans.energy) ∧
      ∃ area clock f, Imc.getArea K.arr = .ok area ∧ Imc.getTclk K.arr = .ok clock ∧ ans.first = some f ∧ f.clock = total clock ∧
        ((∀ m ∈ A.mems, 0 ≤ m.area.getD 0) → total area ≤ f.area ∧ f.area ≤ total area + (A.mems.map fun m => m.area.getD 0).sum) := by
  by_cases hne : ws = []
  · subst hne
    exact ⟨0, fun fuel _ opt ans hans => (call_empty A S hans).elim⟩
  obtain ⟨p, g, nodes, h1, h2, N, hn, hw, hsum⟩ := prepared (K := K) hA S Q L B hid hne lo
  have U := LocalCall.fits X L B N
  obtain ⟨M, hM⟩ := ImcCall.imc_bounds (cacti := fun _ => (0, 0)) F X.stacked O hf U (fun n h _ => hn n h) (chip_ok hA F H)
  refine ⟨M, fun fuel hfu opt ans hans => ?_⟩
  obtain ⟨x, hx⟩ := call_accelerator hans
  rw [call_eq (known_array hA F H hx).2 F h1 h2 opt (call_known hans) fuel] at hans
  obtain ⟨k1, k2⟩ := hM fuel hfu opt ans hans
  obtain ⟨area, clock, s, q1, q2, -, best, q3, -, -, -, b, t, f, q4, q5, q6, -⟩ := ImcCall.imc_answer hans
  refine ⟨?_, ?_, ?_, area, clock, f, q1, q2, q5, q6, ?_⟩
  · have : b.1 ∈ nodes.filter (fun n => !n.node.skip) := by
      rw [← q3, q4]
      exact List.mem_map.2 ⟨b, List.mem_cons_self, rfl⟩
    obtain ⟨m1, m2⟩ := List.mem_filter.1 this
    obtain ⟨w, w1, -, w2, -⟩ := hw _ m1
    exact ⟨w, w1, w2.1 (by simpa using m2)⟩
  · intro hs
    have := k1 fun s hps n hnn e => hs g nodes s N hps n hnn e
    have hmap : ((nodes.filter fun n => !n.node.skip).map fun n => ((Whole.operations n.node.layer : ℕ) * n.node.layer.cyclesPerOp : ℚ)) =
        (nodes.filter fun n => !n.node.skip).map fun n => ((K.arr.act / K.arr.bs : ℕ) : ℚ) * ((Whole.operations n.node.layer : ℕ) : ℚ) :=
      List.map_congr_left fun n hn => by
        obtain ⟨w, -, -, -, w2, -⟩ := hw _ (List.mem_filter.1 hn).1
        rw [w2, mul_comm]
    rw [hmap, sum_cast, hsum] at this
    rw [(serial_pos hA).1, mul_comm]
    exact this
  · intro hp
    have hauto : ∀ m ∈ A.mems, m.auto = false := by
      obtain ⟨a, -, -, -, -, hms, -⟩ := hA.read
      intro m hm
      obtain ⟨e, -, h⟩ := Files.forall2_right hms m hm
      exact h.auto
    have := k2 fun m hm => by
      unfold Whole.prices
      rw [hauto m hm]
      exact hp m hm
    rw [sum_cast, hsum] at this
    exact this
  · intro hpos
    obtain ⟨area', f', r1, r2, r3, r4⟩ := ImcCall.imc_area hans hpos
    rw [q1] at r1
    rw [q5] at r2
    cases r1
    cases r2
    exact ⟨r3, r4⟩

/-- C170, partial: a call with a digital array that does not have a power of two of rows is refused; otherwise the search for the memories of data is made on the layers and
edges of the files, and if it raises an exception the call raises it; if not, and no dimension that the weights do not depend on is unrolled along the wordlines, the call has
an answer exactly if a layer is neither `Pooling` nor `Add` and the runs of all generated spatial mappings of such layers end without exception.
Missing: the outcome with such a dimension along the wordlines. -/
theorem imc_file_outcome_partial (hA : ImcSays cacti adcArea da A K) (F : FileOk A) (H : Sensible adcArea K) (X : AccFits A) (S : FilesSay eqn rel dw dm ws)
    (Q : SourcesKnown ws) (L : ∀ w ∈ ws, LayerFits A w) (B : ∀ w ∈ ws, Both A w) (hid : (ws.map fun w => w.layer.id).Nodup) (hne : ws ≠ []) (O : OptionsOk o)
    (hf : Lpf.FactContract fact) (lo : LayerOptions) :
    (¬ (K.arr.aimc = true ∨ ∃ k, K.arr.bl = 2 ^ k) → ∀ fuel opt, Known opt → call cacti adcArea eqn rel fact lo o opt da dw dm fuel = .error .assertion) ∧
    ((K.arr.aimc = true ∨ ∃ k, K.arr.bl = 2 ^ k) → ∃ g nodes, NetSays lo (adapt K) ws g nodes ∧ (∀ n ∈ nodes, ∃ rl rels, Reuse.LayerOk A n rl rels) ∧
      (∀ e, plan A g nodes = .error e → ∀ fuel opt, Known opt → call cacti adcArea eqn rel fact lo o opt da dw dm fuel = .error e) ∧
      ∀ s, plan A g nodes = .ok s →
        (∀ n ∈ nodes, n.node.skip = false → ∀ b, reduced (fun _ => (0, 0)) A s n = .ok b → ∀ sms, Net.spatialMappings o b n.node = .ok sms → ∀ sm ∈ sms, Straight K n sm) →
        ∃ N, ∀ fuel, N ≤ fuel → ∀ opt, Known opt →
          ((∃ ans, call cacti adcArea eqn rel fact lo o opt da dw dm fuel = .ok ans) ↔ (∃ w ∈ ws, Counted w) ∧
            ∀ n ∈ nodes, n.node.skip = false → ∀ b, reduced (fun _ => (0, 0)) A s n = .ok b → ∀ sms, Net.spatialMappings o b n.node = .ok sms → ∀ sm ∈ sms,
              ∃ evals, Whole.run (fun _ => (0, 0)) fact b n.node.layer sm o.limit fuel = some (evals, none))) := by
  obtain ⟨p, g, nodes, h1, h2, N, hn, hw, hsum⟩ := prepared (K := K) hA S Q L B hid hne lo
  have U := LocalCall.fits X L B N
  constructor
  · intro hd fuel opt hk
    have : ∃ x, Pipeline.Opt.parse opt = .ok x := by
      rcases hk with rfl | rfl | rfl <;> exact ⟨_, rfl⟩
    obtain ⟨x, hx⟩ := this
    unfold call
    rw [hx]
    simp only
    rw [h1]
    simp only
    rw [(imc_file hA F H).2 hd]
  · intro hd
    have hacc := (imc_file hA F H).1 hd
    obtain ⟨area, clock, p', a1, a2, -⟩ : ∃ area clock p, Imc.getArea K.arr = .ok area ∧ Imc.getTclk K.arr = .ok clock ∧ p = () := by
      obtain ⟨a, hr, hc, himc, hsz, hms, hK⟩ := hA.read
      have hwl : 1 ≤ K.arr.wl ∧ 1 ≤ K.arr.banks := array_sizes hA F
      obtain ⟨area, clock, -, a1, a2, -⟩ := array_made hK hc himc H hwl.1 hwl.2 hd
      exact ⟨area, clock, (), a1, a2, rfl⟩
    refine ⟨g, nodes, N, hn, fun e he fuel opt hk => ?_, fun s hs hst => ?_⟩
    · rw [call_eq hacc F h1 h2 opt hk fuel]
      obtain ⟨c, hc, -⟩ := Whole.accelerator_ok (cacti := fun _ => (0, 0)) F.acc
      unfold ImcCall.network
      rw [a1]
      simp only
      rw [a2]
      simp only
      rw [hc]
      simp only
      rw [he]
    · obtain ⟨M1, hM1⟩ := ImcCall.imc_outcome (cacti := fun _ => (0, 0)) F X.stacked O hf U (fun n h _ => hn n h) (chip_ok hA F H)
        (fun s' hs' => by rw [hs] at hs'; cases hs'; exact hst)
      obtain ⟨M2, hM2⟩ := Reuse.call_outcome (cacti := fun _ => (0, 0)) F X.stacked O hf U (fun n h _ => hn n h) hs
      refine ⟨max M1 M2, fun fuel hfu opt hk => ?_⟩
      rw [call_eq hacc F h1 h2 opt hk fuel, hM1 fuel ((le_max_left _ _).trans hfu) opt, hM2 fuel ((le_max_right _ _).trans hfu) opt hk]
      constructor
      · rintro ⟨-, -, h, n, hnn, hsk⟩
        obtain ⟨w, w1, -, w2, -⟩ := hw n hnn
        exact ⟨⟨w, w1, w2.1 hsk⟩, h⟩
      · rintro ⟨⟨w, w1, w2⟩, h⟩
        refine ⟨⟨_, a1⟩, ⟨_, a2⟩, h, ?_⟩
        obtain ⟨i, hi, rfl⟩ := List.getElem_of_mem w1
        have : i ∈ nodes.map LNode.id := N.all.mem_iff.2 (List.mem_range.2 hi)
        obtain ⟨n, hnn, rfl⟩ := List.mem_map.1 this
        obtain ⟨w', -, k1, k2, -⟩ := hw n hnn
        rw [List.getElem?_eq_getElem hi] at k1
        cases k1
        exact ⟨n, hnn, k2.2 w2⟩

end Verif.ImcFiles
