import Verif.Onnx.GemmLemmas

/-! C53: convolutions; C85: matrix products; C86: sources and precisions of parsed nodes. -/

namespace Verif.Onnx

open Verif.Equation Verif.LayerBuild Verif.LayerNode

/-! ### Convolutions -/

/-- Loop sizes of a convolution. -/
private def convSize (b k g ox oy c fx fy : Nat) (x : Text) : Int :=
  if x = "B".toList then b else if x = "K".toList then k else if x = "G".toList then g else if x = "OX".toList then ox else if x = "OY".toList then oy else
    if x = "C".toList then c else if x = "FX".toList then fx else fy

private theorem convSize_spec (b k g ox oy c fx fy : Nat) :
    ∀ x ∈ (["B".toList, "K".toList, "G".toList, "OX".toList, "OY".toList, "C".toList, "FX".toList, "FY".toList].map upper).zip [(b : Int), k, g, ox, oy, c, fx, fy],
      convSize b k g ox oy c fx fy x.1 = x.2 := by
  intro x hx
  have hu : ["B".toList, "K".toList, "G".toList, "OX".toList, "OY".toList, "C".toList, "FX".toList, "FY".toList].map upper =
      ["B".toList, "K".toList, "G".toList, "OX".toList, "OY".toList, "C".toList, "FX".toList, "FY".toList] := by decide +kernel
  rw [hu] at hx
  simp only [List.zip_cons_cons, List.zip_nil_right, List.mem_cons, List.not_mem_nil, or_false] at hx
  rcases hx with rfl | rfl | rfl | rfl | rfl | rfl | rfl | rfl <;> simp [convSize]

private theorem convSize_vals (b k g ox oy c fx fy : Nat) :
    convSize b k g ox oy c fx fy (upper "b".toList) = b ∧ convSize b k g ox oy c fx fy (upper "k".toList) = k ∧ convSize b k g ox oy c fx fy (upper "g".toList) = g ∧
    convSize b k g ox oy c fx fy (upper "ox".toList) = ox ∧ convSize b k g ox oy c fx fy (upper "oy".toList) = oy ∧ convSize b k g ox oy c fx fy (upper "c".toList) = c ∧
    convSize b k g ox oy c fx fy (upper "fx".toList) = fx ∧ convSize b k g ox oy c fx fy (upper "fy".toList) = fy := by
  have u1 : upper "b".toList = "B".toList := by decide +kernel
  have u2 : upper "k".toList = "K".toList := by decide +kernel
  have u3 : upper "g".toList = "G".toList := by decide +kernel
  have u4 : upper "ox".toList = "OX".toList := by decide +kernel
  have u5 : upper "oy".toList = "OY".toList := by decide +kernel
  have u6 : upper "c".toList = "C".toList := by decide +kernel
  have u7 : upper "fx".toList = "FX".toList := by decide +kernel
  have u8 : upper "fy".toList = "FY".toList := by decide +kernel
  rw [u1, u2, u3, u4, u5, u6, u7, u8]
  simp [convSize]

private theorem gin_mul {m g : Nat} (h : g ∣ m) : ((m / g : Nat) : ℚ) * (g : ℚ) = (m : ℚ) := by rw [← Nat.cast_mul, Nat.div_mul_cancel h]

/-- C53, partial: every valid convolution with at most two produced inputs is accepted and built; the layer has the operations, output elements and weights of the
convolution, whether or not its axes have the same attributes. -/
theorem conv_ok (c : ConvOp) (hc : c.Valid) (id : Nat) (preds : List Nat) (hp : preds.length ≤ 2) (p : Precisions) :
    ∃ d b rO rW, convData id preds p c.kernel c.strides c.dilations c.g c.pads c.ia c.oa = .ok d ∧ validate d = .ok true ∧ build d = .ok b ∧
      b.macs = (c.macs : ℚ) ∧
      b.operands[0]? = some ("O".toList, rO, ((c.batch * c.m * c.oh * c.ow : Nat) : ℚ)) ∧
      b.operands[1]? = some ("W".toList, rW, ((c.m * (c.cin / c.g) * c.kh * c.kw : Nat) : ℚ)) := by
  obtain ⟨src, hs⟩ := operandSource_ok id preds hp
  have hbp : 0 < c.batch := by unfold ConvOp.batch; split_ifs <;> omega
  have hmg : 0 < c.m / c.g := Nat.div_pos (Nat.le_of_dvd hc.m hc.gout) hc.g
  have hcg : 0 < c.cin / c.g := Nat.div_pos (Nat.le_of_dvd hc.cin hc.gin) hc.g
  have hg := conv_good id src p c.batch (c.m / c.g) c.g c.ow c.oh (c.cin / c.g) c.kh c.kw c.sh c.sw c.dh c.dw c.win c.hin c.hb c.wb c.he c.we
    ⟨hbp, hmg, hc.g, outExtent_pos _ _ _ _ _ _, outExtent_pos _ _ _ _ _ _, hcg, hc.kh, hc.kw⟩ ⟨hc.sh, hc.sw⟩
  obtain ⟨b, hb, -, -, hm⟩ := build_ok_partial _ _ _ hg rfl (.inl (conv_given id src p c.batch (c.m / c.g) c.g c.ow c.oh (c.cin / c.g) c.kh c.kw c.sh c.sw c.dh c.dw c.win c.hin
    c.hb c.wb c.he c.we ⟨hc.win, hc.hin⟩))
  have hel := operand_elements _ _ _ hg b hb (convSize c.batch (c.m / c.g) c.g c.ow c.oh (c.cin / c.g) c.kh c.kw) (convSize_spec _ _ _ _ _ _ _ _)
  obtain ⟨rO, hO⟩ := hel 0 _ rfl (by simp) (by
    intro x hx h0
    have key : ∀ x ∈ convEqn.out.dims, upper x ∈ ["B".toList, "K".toList, "G".toList, "OX".toList, "OY".toList, "C".toList, "FX".toList, "FY".toList].map upper ∧
        upper x ≠ "IX".toList ∧ upper x ≠ "IY".toList := by decide +kernel
    obtain ⟨h1, h2, h3⟩ := key x hx
    refine ⟨h1, ?_⟩
    intro r hr
    simp only [convRels, List.mem_cons, List.not_mem_nil, or_false] at hr
    rcases hr with rfl | rfl
    · exact h2
    · exact h3)
  obtain ⟨rW, hW⟩ := hel 1 _ rfl (by
    intro j u hj hu
    have : j = 0 := by omega
    subst this
    cases hu
    decide) (by
    intro x hx h0
    have key : ∀ x ∈ ["g".toList, "k".toList, "c".toList, "fy".toList, "fx".toList],
        upper x ∈ ["B".toList, "K".toList, "G".toList, "OX".toList, "OY".toList, "C".toList, "FX".toList, "FY".toList].map upper ∧
        upper x ≠ "IX".toList ∧ upper x ≠ "IY".toList := by decide +kernel
    obtain ⟨h1, h2, h3⟩ := key x hx
    refine ⟨h1, ?_⟩
    intro r hr
    simp only [convRels, List.mem_cons, List.not_mem_nil, or_false] at hr
    rcases hr with rfl | rfl
    · exact h2
    · exact h3)
  refine ⟨_, b, rO, rW, convData_eq c hc id preds p src hs, rfl, hb, ?_, ?_, ?_⟩
  · rw [hm]
    unfold ConvOp.macs
    simp only [convRecord, List.map_cons, List.map_nil, List.prod_cons, List.prod_nil, Int.cast_natCast]
    simp only [Nat.cast_mul]
    rw [← gin_mul hc.gout]
    ring
  · rw [hO]
    obtain ⟨e1, e2, e3, e4, e5, -⟩ := convSize_vals c.batch (c.m / c.g) c.g c.ow c.oh (c.cin / c.g) c.kh c.kw
    have hd : (convEqn.out.dims.filter fun x => decide (x ≠ [])) = ["b".toList, "g".toList, "k".toList, "oy".toList, "ox".toList] := by decide +kernel
    refine congrArg some (congrArg (Prod.mk _) (congrArg (Prod.mk _) ?_))
    show (List.map _ (convEqn.out.dims.filter fun x => decide (x ≠ []))).prod = _
    rw [hd]
    simp only [List.map_cons, List.map_nil, List.prod_cons, List.prod_nil, e1, e2, e3, e4, e5, Int.cast_natCast, Nat.cast_mul]
    rw [← gin_mul hc.gout]
    ring
  · rw [hW]
    obtain ⟨-, e2, e3, -, -, e6, e7, e8⟩ := convSize_vals c.batch (c.m / c.g) c.g c.ow c.oh (c.cin / c.g) c.kh c.kw
    have hd : (["g".toList, "k".toList, "c".toList, "fy".toList, "fx".toList].filter fun x => decide (x ≠ [])) = ["g".toList, "k".toList, "c".toList, "fy".toList, "fx".toList] := by
      decide +kernel
    refine congrArg some (congrArg (Prod.mk _) (congrArg (Prod.mk _) ?_))
    show (List.map _ (["g".toList, "k".toList, "c".toList, "fy".toList, "fx".toList].filter fun x => decide (x ≠ []))).prod = _
    rw [hd]
    simp only [List.map_cons, List.map_nil, List.prod_cons, List.prod_nil, e2, e3, e6, e7, e8, Int.cast_natCast, Nat.cast_mul]
    rw [← gin_mul hc.gout]
    ring

/-- The layer of a convolution. -/
def convLayer (c : ConvOp) (id : Nat) (src : Dict Text Int) (p : Precisions) : LayerD :=
  convRecord id src p c.batch (c.m / c.g) c.g c.ow c.oh (c.cin / c.g) c.kh c.kw c.sh c.sw c.dh c.dw c.win c.hin c.hb c.wb c.he c.we

/-- C53: the input of the layer has the batch and channels of the tensor; along the axes it never has more elements than the tensor, and the extents are computed from the
height attributes for the width and the other way round. -/
theorem conv_input (c : ConvOp) (hc : c.Valid) (id : Nat) (src : Dict Text Int) (p : Precisions) (b : Built) (hb : build (convLayer c id src p) = .ok b) :
    ∃ rel X Y, b.operands[2]? = some ("I".toList, rel, ((c.batch * c.cin * X * Y : Nat) : ℚ)) ∧
      touched c.win c.wb c.ow c.kh c.sh c.dh ≤ X ∧ X ≤ c.win ∧ touched c.hin c.hb c.oh c.kw c.sw c.dw ≤ Y ∧ Y ≤ c.hin := by
  have hbp : 0 < c.batch := by unfold ConvOp.batch; split_ifs <;> omega
  have hmg : 0 < c.m / c.g := Nat.div_pos (Nat.le_of_dvd hc.m hc.gout) hc.g
  have hcg : 0 < c.cin / c.g := Nat.div_pos (Nat.le_of_dvd hc.cin hc.gin) hc.g
  have hg := conv_good id src p c.batch (c.m / c.g) c.g c.ow c.oh (c.cin / c.g) c.kh c.kw c.sh c.sw c.dh c.dw c.win c.hin c.hb c.wb c.he c.we
    ⟨hbp, hmg, hc.g, outExtent_pos _ _ _ _ _ _, outExtent_pos _ _ _ _ _ _, hcg, hc.kh, hc.kw⟩ ⟨hc.sh, hc.sw⟩
  obtain ⟨rel, f, hI, hf⟩ := related_elements _ _ _ hg b hb (convSize c.batch (c.m / c.g) c.g c.ow c.oh (c.cin / c.g) c.kh c.kw) (convSize_spec _ _ _ _ _ _ _ _)
    ["IX".toList, "IY".toList] [(c.win : Int), c.hin] rfl rfl rfl (by decide +kernel) (fun x => if x = "IX".toList then c.win else c.hin) (by
      intro x hx
      have hu : ["IX".toList, "IY".toList].map upper = ["IX".toList, "IY".toList] := by decide +kernel
      rw [hu] at hx
      simp only [List.zip_cons_cons, List.zip_nil_right, List.mem_cons, List.not_mem_nil, or_false] at hx
      rcases hx with rfl | rfl <;> simp) (by
      intro r hr
      simp only [convRels, List.mem_cons, List.not_mem_nil, or_false] at hr
      rcases hr with rfl | rfl <;> simp only [convRecord] <;> decide +kernel) 2
    ⟨"I".toList, ["b".toList, "g".toList, "c".toList, "iy".toList, "ix".toList]⟩ rfl (by
      intro j u hj hu
      have : j = 0 ∨ j = 1 := by omega
      rcases this with rfl | rfl <;> cases hu <;> decide) ⟨"ix".toList, by decide, by decide, _, List.mem_cons_self, show upper "ix".toList = "IX".toList by decide +kernel⟩
  obtain ⟨v, hv, hfx⟩ := hf ⟨"IX".toList, "OX".toList, "FX".toList, c.sh, c.dh⟩ (by simp [convRels])
  obtain ⟨w, hw, hfy⟩ := hf ⟨"IY".toList, "OY".toList, "FY".toList, c.sw, c.dw⟩ (by simp [convRels])
  have e1 : convSize c.batch (c.m / c.g) c.g c.ow c.oh (c.cin / c.g) c.kh c.kw "OX".toList = c.ow := by simp [convSize]
  have e2 : convSize c.batch (c.m / c.g) c.g c.ow c.oh (c.cin / c.g) c.kh c.kw "FX".toList = c.kh := by simp [convSize]
  have e3 : convSize c.batch (c.m / c.g) c.g c.ow c.oh (c.cin / c.g) c.kh c.kw "OY".toList = c.oh := by simp [convSize]
  have e4 : convSize c.batch (c.m / c.g) c.g c.ow c.oh (c.cin / c.g) c.kh c.kw "FY".toList = c.kw := by simp [convSize]
  simp only [e1, e2] at hv
  simp only [e3, e4] at hw
  obtain ⟨v', hv', hdv, -⟩ := pr_size_exact_iff c.sh c.ow c.dh c.kh (.inl (by have := hc.sh; omega))
  obtain ⟨w', hw', hdw, -⟩ := pr_size_exact_iff c.sw c.oh c.dw c.kw (.inl (by have := hc.sw; omega))
  rw [hv] at hv'
  cases hv'
  rw [hw] at hw'
  cases hw'
  simp only [if_true] at hfx
  have hne : ("IY".toList : Text) ≠ "IX".toList := by decide
  simp only [hne, if_false] at hfy
  have t1 := touched_le_size c.win c.wb c.ow c.kh c.sh c.dh
  have t2 := touched_le_distinct c.win c.wb c.ow c.kh c.sh c.dh
  have t3 := touched_le_size c.hin c.hb c.oh c.kw c.sw c.dw
  have t4 := touched_le_distinct c.hin c.hb c.oh c.kw c.sw c.dw
  refine ⟨rel, (min (c.win : Int) v).toNat, (min (c.hin : Int) w).toNat, ?_, by omega, by omega, by omega, by omega⟩
  rw [hI]
  refine congrArg some (congrArg (Prod.mk _) (congrArg (Prod.mk _) ?_))
  have hflat : ((convRels c.sh c.sw c.dh c.dw).flatMap fun r => [r.dim1, r.dim2, r.dim3]) = ["IX".toList, "OX".toList, "FX".toList, "IY".toList, "OY".toList, "FY".toList] := rfl
  rw [hflat]
  have hd : ((["b".toList, "g".toList, "c".toList, "iy".toList, "ix".toList].filter fun x => decide (x ≠ [])).map upper).filter
      (fun x => decide (x ∉ ["IX".toList, "OX".toList, "FX".toList, "IY".toList, "OY".toList, "FY".toList])) = ["B".toList, "G".toList, "C".toList] := by decide +kernel
  simp only
  rw [hd]
  have m1 : convSize c.batch (c.m / c.g) c.g c.ow c.oh (c.cin / c.g) c.kh c.kw "B".toList = c.batch := by simp [convSize]
  have m2 : convSize c.batch (c.m / c.g) c.g c.ow c.oh (c.cin / c.g) c.kh c.kw "G".toList = c.g := by simp [convSize]
  have m3 : convSize c.batch (c.m / c.g) c.g c.ow c.oh (c.cin / c.g) c.kh c.kw "C".toList = (c.cin / c.g : Nat) := by simp [convSize]
  have x1 : (((min (c.win : Int) v).toNat : Nat) : ℚ) = ((min (c.win : Int) v : Int) : ℚ) := by
    have : (((min (c.win : Int) v).toNat : Nat) : Int) = min (c.win : Int) v := Int.toNat_of_nonneg (by omega)
    rw [← this]; norm_cast
  have x2 : (((min (c.hin : Int) w).toNat : Nat) : ℚ) = ((min (c.hin : Int) w : Int) : ℚ) := by
    have : (((min (c.hin : Int) w).toNat : Nat) : Int) = min (c.hin : Int) w := Int.toNat_of_nonneg (by omega)
    rw [← this]; norm_cast
  simp only [convRels, List.map_cons, List.map_nil, List.prod_cons, List.prod_nil, m1, m2, m3, hfx, hfy, Int.cast_natCast, Nat.cast_mul, x1, x2]
  rw [← gin_mul hc.gin]
  ring

/-- Every output and kernel coordinate of a valid convolution reads within the padded input. -/
theorem outExtent_bound (size before after k s d x f : Nat) (hk : 0 < k) (hs : 0 < s) (hfit : d * (k - 1) + 1 ≤ size + before + after)
    (hx : x < outExtent size before after k s d) (hf : f < k) : s * x + d * f < size + before + after := by
  unfold outExtent at hx
  have h1 : x ≤ (size + before + after - (d * (k - 1) + 1)) / s := by omega
  have h2 : s * x ≤ size + before + after - (d * (k - 1) + 1) := by
    calc s * x ≤ s * ((size + before + after - (d * (k - 1) + 1)) / s) := Nat.mul_le_mul_left s h1
      _ ≤ _ := Nat.mul_div_le _ _
  have h3 : d * f ≤ d * (k - 1) := Nat.mul_le_mul_left d (by omega)
  omega

/-- What it means that the layer has the geometry of the convolution along both axes: its `IX` axis is the width of the tensor and its `IY` axis the height, with the extents of
the kernel, the steps, the paddings and the sizes of these axes. -/
structure Describes (d : LayerD) (b : Built) (c : ConvOp) : Prop where
  stepX : Dict.get? b.layer.pi.scaling "IX".toList = some (c.sw, c.dw)
  stepY : Dict.get? b.layer.pi.scaling "IY".toList = some (c.sh, c.dh)
  kernelX : Dict.get? b.layer.dimSizes "FX".toList = some (c.kw : ℚ)
  kernelY : Dict.get? b.layer.dimSizes "FY".toList = some (c.kh : ℚ)
  outX : Dict.get? b.layer.dimSizes "OX".toList = some (c.ow : ℚ)
  outY : Dict.get? b.layer.dimSizes "OY".toList = some (c.oh : ℚ)
  sizeX : Dict.get? b.layer.prSizes "IX".toList = some (c.win : ℚ)
  sizeY : Dict.get? b.layer.prSizes "IY".toList = some (c.hin : ℚ)
  pad : ∃ p, padding d = .ok p ∧ Dict.get? p "IX".toList = some ((c.wb : Int), (c.we : Int)) ∧ Dict.get? p "IY".toList = some ((c.hb : Int), (c.he : Int))

/-- C53: the layer of a valid convolution has its geometry exactly when both axes have the same attributes. -/
theorem conv_axes_iff (c : ConvOp) (hc : c.Valid) (id : Nat) (src : Dict Text Int) (p : Precisions) (b : Built) (hb : build (convLayer c id src p) = .ok b) :
    Describes (convLayer c id src p) b c ↔ c.Symmetric := by
  have hbp : 0 < c.batch := by unfold ConvOp.batch; split_ifs <;> omega
  have hmg : 0 < c.m / c.g := Nat.div_pos (Nat.le_of_dvd hc.m hc.gout) hc.g
  have hcg : 0 < c.cin / c.g := Nat.div_pos (Nat.le_of_dvd hc.cin hc.gin) hc.g
  have hg := conv_good id src p c.batch (c.m / c.g) c.g c.ow c.oh (c.cin / c.g) c.kh c.kw c.sh c.sw c.dh c.dw c.win c.hin c.hb c.wb c.he c.we
    ⟨hbp, hmg, hc.g, outExtent_pos _ _ _ _ _ _, outExtent_pos _ _ _ _ _ _, hcg, hc.kh, hc.kw⟩ ⟨hc.sh, hc.sw⟩
  obtain ⟨q, ps, hq, hps, hl⟩ := build_layer hg.parsed hb
  have hd : ∀ y ∈ ["B".toList, "K".toList, "G".toList, "OX".toList, "OY".toList, "C".toList, "FX".toList, "FY".toList].map upper,
      Dict.get? b.layer.dimSizes y = some (convSize c.batch (c.m / c.g) c.g c.ow c.oh (c.cin / c.g) c.kh c.kw y : ℚ) := by
    intro y hy
    rw [hl]
    exact sizes_int hg _ (convSize_spec _ _ _ _ _ _ _ _) y hy
  have e1 : convSize c.batch (c.m / c.g) c.g c.ow c.oh (c.cin / c.g) c.kh c.kw "OX".toList = c.ow := by simp [convSize]
  have e2 : convSize c.batch (c.m / c.g) c.g c.ow c.oh (c.cin / c.g) c.kh c.kw "FX".toList = c.kh := by simp [convSize]
  have e3 : convSize c.batch (c.m / c.g) c.g c.ow c.oh (c.cin / c.g) c.kh c.kw "OY".toList = c.oh := by simp [convSize]
  have e4 : convSize c.batch (c.m / c.g) c.g c.ow c.oh (c.cin / c.g) c.kh c.kw "FY".toList = c.kw := by simp [convSize]
  have f1 := hd "OX".toList (by decide +kernel)
  have f2 := hd "FX".toList (by decide +kernel)
  have f3 := hd "OY".toList (by decide +kernel)
  have f4 := hd "FY".toList (by decide +kernel)
  rw [e1] at f1
  rw [e2] at f2
  rw [e3] at f3
  rw [e4] at f4
  simp only [Int.cast_natCast] at f1 f2 f3 f4
  have s1 : Dict.get? b.layer.pi.scaling "IX".toList = some (c.sh, c.dh) := by
    rw [hl]
    exact (prGet _ hg.names ⟨"IX".toList, "OX".toList, "FX".toList, c.sh, c.dh⟩ (by simp [convRels])).2
  have s2 : Dict.get? b.layer.pi.scaling "IY".toList = some (c.sw, c.dw) := by
    rw [hl]
    exact (prGet _ hg.names ⟨"IY".toList, "OY".toList, "FY".toList, c.sw, c.dw⟩ (by simp [convRels])).2
  have hu : ["IX".toList, "IY".toList].map upper = ["IX".toList, "IY".toList] := by decide +kernel
  have hps' : ps = [("IX".toList, (c.win : ℚ)), ("IY".toList, (c.hin : ℚ))] := by
    have hz : prSizesFile (convLayer c id src p) = some [("IX".toList, (c.win : ℚ)), ("IY".toList, (c.hin : ℚ))] := by
      show some (zipDict (["IX".toList, "IY".toList].map upper) ([(c.win : Int), c.hin].map fun n : Int => (n : ℚ))) = _
      rw [hu, zipDict_eq ["IX".toList, "IY".toList] _ (by rfl) (by decide)]
      simp
    change prSizes (prSizesFile (convLayer c id src p)) _ _ _ = _ at hps
    rw [hz] at hps
    unfold prSizes at hps
    simp only [reduceCtorEq, if_false] at hps
    cases hps
    rfl
  have hpad : padding (convLayer c id src p) = .ok [("IX".toList, ((c.hb : Int), (c.he : Int))), ("IY".toList, ((c.wb : Int), (c.we : Int)))] := by
    show (if 2 ≤ 2 then Except.ok (zipDict (["IX".toList, "IY".toList].map upper) [((c.hb : Int), (c.he : Int)), ((c.wb : Int), (c.we : Int))]) else Except.error PyErr.indexError) = _
    rw [if_pos (le_refl _), hu, zipDict_eq ["IX".toList, "IY".toList] _ (by rfl) (by decide)]
    rfl
  have z1 : Dict.get? b.layer.prSizes "IX".toList = some (c.win : ℚ) := by rw [hl, hps']; simp [Dict.get?_cons]
  have z2 : Dict.get? b.layer.prSizes "IY".toList = some (c.hin : ℚ) := by rw [hl, hps']; simp [Dict.get?_cons]
  have g1 : Dict.get? [("IX".toList, ((c.hb : Int), (c.he : Int))), ("IY".toList, ((c.wb : Int), (c.we : Int)))] "IX".toList = some ((c.hb : Int), (c.he : Int)) := by
    simp [Dict.get?_cons]
  have g2 : Dict.get? [("IX".toList, ((c.hb : Int), (c.he : Int))), ("IY".toList, ((c.wb : Int), (c.we : Int)))] "IY".toList = some ((c.wb : Int), (c.we : Int)) := by
    simp [Dict.get?_cons]
  constructor
  · rintro ⟨h1, h2, h3, h4, h5, h6, h7, h8, q', hq', h9, h10⟩
    rw [s1] at h1
    rw [f2] at h3
    rw [hpad] at hq'
    cases hq'
    rw [g1] at h9
    simp only [Option.some.injEq, Prod.mk.injEq, Nat.cast_inj] at h1 h3 h9
    exact ⟨h3, h1.1, h1.2, h9.1, h9.2⟩
  · rintro ⟨h1, h2, h3, h4, h5⟩
    refine ⟨by rw [s1, h2, h3], by rw [s2, h2, h3], by rw [f2, h1], by rw [f4, h1], f1, f3, z1, z2, _, hpad, by rw [g1, h4, h5], by rw [g2, h4, h5]⟩

/-- C53, partial: for convolutions with the same attributes along both axes the input of the layer has at least the elements that are read and at most those of the tensor.
Missing: convolutions with different attributes (`conv_axis_false`). -/
theorem conv_input_partial (c : ConvOp) (hc : c.Valid) (hs : c.Symmetric) (id : Nat) (src : Dict Text Int) (p : Precisions) (b : Built)
    (hb : build (convLayer c id src p) = .ok b) :
    ∃ rel X Y, b.operands[2]? = some ("I".toList, rel, ((c.batch * c.cin * X * Y : Nat) : ℚ)) ∧
      touched c.win c.wb c.ow c.kw c.sw c.dw ≤ X ∧ X ≤ c.win ∧ touched c.hin c.hb c.oh c.kh c.sh c.dh ≤ Y ∧ Y ≤ c.hin := by
  obtain ⟨h1, h2, h3, h4, h5⟩ := hs
  have := conv_input c hc id src p b hb
  rw [h1, h2, h3] at this
  rw [h1, h2, h3]
  exact this

/-! A convolution with a kernel of height 1 and width 3 over an input of height 4 and width 6. -/

/-- The convolution. -/
def wide : ConvOp := ⟨1, 1, 4, 6, 1, 1, 1, 3, 1, 1, 1, 1, 0, 0, 0, 0⟩

theorem wide_valid : wide.Valid := by constructor <;> decide

/-- Default precisions. -/
def prec8 : Precisions := ⟨8, 8, 16⟩

/-- The number of elements of the third operand. -/
def elems (x : Except PyErr Built) : Option ℚ :=
  match x with
  | .ok b => (b.operands[2]?).map fun e => e.2.2
  | .error _ => none

/-- C53 is false: all 24 elements of the input are read, but the layer has 16; in its iterations it reads rows 0 to 5 of the 4 rows. -/
theorem conv_axis_false : wide.Valid ∧ touched wide.win wide.wb wide.ow wide.kw wide.sw wide.dw * touched wide.hin wide.hb wide.oh wide.kh wide.sh wide.dh = 24 ∧
    elems (build (convLayer wide 0 [] prec8)) = some 16 ∧
    ∃ x < wide.oh, ∃ f < wide.kw, wide.hin + wide.hb + wide.he ≤ wide.sw * x + wide.dw * f :=
  ⟨wide_valid, by decide, by decide +kernel, 3, by decide, 2, by decide, by decide⟩

/-- Strided, dilated, grouped and padded with the same attributes along both axes. -/
def square : ConvOp := ⟨0, 6, 9, 11, 4, 2, 3, 3, 2, 2, 2, 2, 1, 2, 1, 2⟩

example : square.Valid ∧ square.Symmetric ∧ square.oh = 4 ∧ square.ow = 5 ∧ square.macs = 4 * 4 * 5 * 3 * 9 :=
  ⟨by constructor <;> decide, by unfold ConvOp.Symmetric; decide, by decide, by decide, by decide⟩

/-- C53: the numbers of the convolution are those of the attributes of the node, with the defaults of the standard. -/
theorem conv_attributes (n : Node) (preds : List Nat) (m : OModel) (kernel : List Nat) (strides dilations pads : Option (List Nat)) (group : Option Nat)
    (hk : n.attrs.find? (fun t => t.1 == "kernel_shape") = some ("kernel_shape", .ints kernel))
    (hs : n.attrs.find? (fun t => t.1 == "strides") = strides.map fun l => ("strides", .ints l))
    (hd : n.attrs.find? (fun t => t.1 == "dilations") = dilations.map fun l => ("dilations", .ints l))
    (hg : n.attrs.find? (fun t => t.1 == "group") = group.map fun l => ("group", .int l))
    (hp : n.attrs.find? (fun t => t.1 == "pads") = pads.map fun l => ("pads", .ints l))
    (ia oa : List Nat) (hio : ioShapes n m = .ok (ia, oa)) (p : Precisions) (hpr : precisions n.attrs = .ok p) :
    conv n preds m = convData n.id preds p kernel (strides.getD [1, 1]) (dilations.getD [1, 1]) (group.getD 1) (pads.getD [0, 0, 0, 0]) ia oa := by
  have bind_ok : ∀ {α β : Type} (x : α) (f : α → Except PyErr β), ((Except.ok x : Except PyErr α) >>= f) = f x := fun _ _ => rfl
  have e1 : asInts (getAttr "kernel_shape" n.attrs none) = .ok kernel := by unfold getAttr; rw [hk]; rfl
  have e2 : asInts (getAttr "strides" n.attrs (some (.ints [1, 1]))) = .ok (strides.getD [1, 1]) := by unfold getAttr; rw [hs]; cases strides <;> rfl
  have e3 : asInts (getAttr "dilations" n.attrs (some (.ints [1, 1]))) = .ok (dilations.getD [1, 1]) := by unfold getAttr; rw [hd]; cases dilations <;> rfl
  have e4 : asInt (getAttr "group" n.attrs (some (.int 1))) = .ok (group.getD 1) := by unfold getAttr; rw [hg]; cases group <;> rfl
  have e5 : asInts (getAttr "pads" n.attrs (some (.ints [0, 0, 0, 0]))) = .ok (pads.getD [0, 0, 0, 0]) := by unfold getAttr; rw [hp]; cases pads <;> rfl
  unfold conv
  rw [e1, bind_ok, e2, bind_ok, e3, bind_ok, e4, bind_ok, e5, bind_ok, hio, bind_ok]
  simp only
  rw [hpr, bind_ok]

/-- A model with one convolution. -/
def oneConv (x y : List Nat) : OModel := ⟨[("x", x)], [("y", y)], [], [("w", [])]⟩

/-- Its node with given attributes. -/
def convNode (attrs : List (String × AttrVal)) : Node := ⟨0, ["x", "w"], ["y"], attrs⟩

example : conv (convNode [("kernel_shape", .ints [3, 3]), ("pads", .ints [1, 1, 1, 1])]) [] (oneConv [1, 3, 8, 8] [1, 16, 8, 8]) =
    convData 0 [] ⟨8, 8, 16⟩ [3, 3] [1, 1] [1, 1] 1 [1, 1, 1, 1] [1, 3, 8, 8] [1, 16, 8, 8] :=
  conv_attributes _ _ _ [3, 3] none none (some [1, 1, 1, 1]) none rfl rfl rfl rfl rfl _ _ rfl _ rfl

/-- C53 is false for convolutions without the optional `kernel_shape` and for convolutions along one axis: parsing raises. -/
theorem conv_raises_false : conv (convNode []) [] (oneConv [1, 3, 8, 8] [1, 16, 8, 8]) = .error .valueError ∧
    conv (convNode [("kernel_shape", .ints [3])]) [] (oneConv [1, 3, 8] [1, 16, 6]) = .error .indexError := ⟨rfl, rfl⟩

/-- C53 is false for automatic padding, which is ignored: the layer of a convolution that keeps the size 8 of its input has no padding, and reads beyond the input. -/
theorem conv_auto_pad_false : ∃ d p, conv (convNode [("auto_pad", .other), ("kernel_shape", .ints [3, 3])]) [] (oneConv [1, 3, 8, 8] [1, 16, 8, 8]) = .ok d ∧
    padding d = .ok p ∧ Dict.get? p "IX".toList = some ((0 : Int), (0 : Int)) ∧ d.prSizes = some [8, 8] ∧ d.loopSizes = [1, 16, 1, 8, 8, 3, 3, 3] ∧ 8 ≤ 1 * (8 - 1) + 1 * (3 - 1) :=
  ⟨_, _, rfl, rfl, by decide, rfl, rfl, by decide⟩

/-! ### Matrix products -/

/-- Sizes of the loops of a matrix product. -/
private def gemmSize (c d k b h : Nat) (x : Text) : Int :=
  if x = "C".toList then c else if x = "D".toList then d else if x = "K".toList then k else if x = "B".toList then b else h

private theorem gemmSize_spec (id : Nat) (src : Dict Text Int) (p : Precisions) (const : Bool) (c d k b h : Nat) :
    ∀ x ∈ ((gemmRecord id src p const c d k b h).loopDims.map upper).zip (gemmRecord id src p const c d k b h).loopSizes, gemmSize c d k b h x.1 = x.2 := by
  have u1 : upper "C".toList = "C".toList := by decide +kernel
  have u2 : upper "D".toList = "D".toList := by decide +kernel
  have u3 : upper "K".toList = "K".toList := by decide +kernel
  have u4 : upper "B".toList = "B".toList := by decide +kernel
  have u5 : upper "H".toList = "H".toList := by decide +kernel
  intro x hx
  by_cases hb : b = 0 <;> by_cases hh : h = 0 <;>
    simp only [gemmRecord, hb, hh, ne_eq, not_true_eq_false, not_false_eq_true, if_true, if_false, List.append_nil, List.nil_append, List.cons_append, List.map_cons, List.map_nil,
      u1, u2, u3, u4, u5, List.zip_cons_cons, List.zip_nil_right, List.mem_cons, List.not_mem_nil, or_false] at hx
  · rcases hx with rfl | rfl | rfl <;> simp [gemmSize]
  · rcases hx with rfl | rfl | rfl | rfl <;> simp [gemmSize]
  · rcases hx with rfl | rfl | rfl | rfl <;> simp [gemmSize]
  · rcases hx with rfl | rfl | rfl | rfl | rfl <;> simp [gemmSize]

private theorem gemmSize_vals (c d k b h : Nat) : gemmSize c d k b h (upper "c".toList) = c ∧ gemmSize c d k b h (upper "d".toList) = d ∧
    gemmSize c d k b h (upper "k".toList) = k ∧ gemmSize c d k b h (upper "b".toList) = b ∧ gemmSize c d k b h (upper "h".toList) = h := by
  have u1 : upper "c".toList = "C".toList := by decide +kernel
  have u2 : upper "d".toList = "D".toList := by decide +kernel
  have u3 : upper "k".toList = "K".toList := by decide +kernel
  have u4 : upper "b".toList = "B".toList := by decide +kernel
  have u5 : upper "h".toList = "H".toList := by decide +kernel
  rw [u1, u2, u3, u4, u5]
  simp [gemmSize]

/-- Product of the sizes of the batch dimensions. -/
private theorem bh_prod (c d k b h : Nat) (tail : List Text) (htail : ∀ x ∈ tail, x ≠ []) :
    (((bhDims b h ++ tail).filter fun x => decide (x ≠ [])).map fun x => (gemmSize c d k b h (upper x) : ℚ)).prod =
      ((known b * known h : Nat) : ℚ) * (tail.map fun x => (gemmSize c d k b h (upper x) : ℚ)).prod := by
  obtain ⟨-, -, -, e4, e5⟩ := gemmSize_vals c d k b h
  have ht : (tail.filter fun x => decide (x ≠ [])) = tail := List.filter_eq_self.2 (fun x hx => by simpa using htail x hx)
  have hbh : ((bhDims b h).filter fun x => decide (x ≠ [])) = bhDims b h := by
    apply List.filter_eq_self.2
    intro x hx
    unfold bhDims at hx
    rw [List.mem_append] at hx
    rcases hx with hx | hx <;> split_ifs at hx <;> simp at hx <;> subst hx <;> decide
  rw [List.filter_append, hbh, ht, List.map_append, List.prod_append]
  congr 1
  unfold bhDims known
  by_cases hb : b = 0 <;> by_cases hh : h = 0 <;> simp [hb, hh] <;> simp_all

/-- Elements and operations of the layer of a matrix product. -/
private theorem gemm_record (id : Nat) (src : Dict Text Int) (p : Precisions) (const : Bool) (c d k b h : Nat) (hc : 0 < c) (hd : 0 < d) (hk : 0 < k) :
    ∃ bu rO rI rW, validate (gemmRecord id src p const c d k b h) = .ok true ∧ build (gemmRecord id src p const c d k b h) = .ok bu ∧
      bu.macs = ((known b * known h * d * c * k : Nat) : ℚ) ∧
      bu.operands = [("O".toList, rO, ((known b * known h * d * k : Nat) : ℚ)), ("I".toList, rI, ((known b * known h * d * c : Nat) : ℚ)),
        ("W".toList, rW, (((if const then 1 else known b * known h) * c * k : Nat) : ℚ))] := by
  have hg := gemm_good id src p const c d k b h hc hd hk
  obtain ⟨bu, hb, hn, -, hm⟩ := build_ok_partial _ _ _ hg rfl (.inr ⟨rfl, rfl⟩)
  obtain ⟨e1, e2, e3, e4, e5⟩ := gemmSize_vals c d k b h
  have hel := operand_elements _ _ _ hg bu hb (gemmSize c d k b h) (gemmSize_spec id src p const c d k b h)
  have hin : ∀ t ∈ (gemmEqn b h const).terms, ∀ x ∈ t.dims, x ≠ [] → upper x ∈ (gemmRecord id src p const c d k b h).loopDims.map upper ∧ ∀ r ∈ ([] : List (Relation Text)), upper x ≠ r.dim1 := by
    intro t ht x hx h0
    rcases hg.eqDims t ht x hx h0 with h | ⟨r, hr, -⟩
    · exact ⟨h, by simp⟩
    · cases hr
  obtain ⟨rO, hO⟩ := hel 0 _ rfl (by simp) (hin _ (by simp [Eqn.terms]))
  obtain ⟨rI, hI⟩ := hel 1 ⟨"I".toList, bhDims b h ++ ["d".toList, "c".toList]⟩ rfl (by
    intro j u hj hu
    have : j = 0 := by omega
    subst this
    cases hu
    simp [gemmEqn]) (hin _ (by simp [Eqn.terms, gemmEqn]))
  obtain ⟨rW, hW⟩ := hel 2 ⟨"W".toList, (if const then [] else bhDims b h) ++ ["c".toList, "k".toList]⟩ rfl (by
    intro j u hj hu
    have : j = 0 ∨ j = 1 := by omega
    rcases this with rfl | rfl <;> cases hu <;> simp [gemmEqn]) (hin _ (by simp [Eqn.terms, gemmEqn]))
  have hlen : bu.operands.length = 3 := by
    have := congrArg List.length hn
    simpa [Eqn.terms, gemmEqn] using this
  obtain ⟨x0, x1, x2, hops⟩ : ∃ x0 x1 x2, bu.operands = [x0, x1, x2] := by
    match hl : bu.operands, hlen with
    | [a, b', c'], _ => exact ⟨a, b', c', rfl⟩
  rw [hops] at hO hI hW
  simp only [List.getElem?_cons_zero, List.getElem?_cons_succ, Option.some.injEq] at hO hI hW
  refine ⟨bu, rO, rI, rW, rfl, hb, ?_, ?_⟩
  · rw [hm]
    simp only [gemmRecord]
    unfold known
    by_cases hb0 : b = 0 <;> by_cases hh0 : h = 0 <;> simp [hb0, hh0] <;> ring
  · rw [hops, hO, hI, hW]
    have o1 : (((gemmEqn b h const).out.dims.filter fun x => decide (x ≠ [])).map fun x => (gemmSize c d k b h (upper x) : ℚ)).prod = ((known b * known h * d * k : Nat) : ℚ) := by
      show (((bhDims b h ++ ["d".toList, "k".toList]).filter fun x => decide (x ≠ [])).map fun x => (gemmSize c d k b h (upper x) : ℚ)).prod = _
      rw [bh_prod c d k b h _ (by decide)]
      simp only [List.map_cons, List.map_nil, List.prod_cons, List.prod_nil, e2, e3, Int.cast_natCast, Nat.cast_mul]
      ring
    have o2 : (((bhDims b h ++ ["d".toList, "c".toList]).filter fun x => decide (x ≠ [])).map fun x => (gemmSize c d k b h (upper x) : ℚ)).prod = ((known b * known h * d * c : Nat) : ℚ) := by
      rw [bh_prod c d k b h _ (by decide)]
      simp only [List.map_cons, List.map_nil, List.prod_cons, List.prod_nil, e1, e2, Int.cast_natCast, Nat.cast_mul]
      ring
    have o3 : ((((if const then [] else bhDims b h) ++ ["c".toList, "k".toList]).filter fun x => decide (x ≠ [])).map fun x => (gemmSize c d k b h (upper x) : ℚ)).prod =
        (((if const then 1 else known b * known h) * c * k : Nat) : ℚ) := by
      cases const
      · simp only [Bool.false_eq_true, if_false]
        rw [bh_prod c d k b h _ (by decide)]
        simp only [List.map_cons, List.map_nil, List.prod_cons, List.prod_nil, e1, e3, Int.cast_natCast, Nat.cast_mul]
        ring
      · have hf : (([] ++ ["c".toList, "k".toList]).filter fun x : Text => decide (x ≠ [])) = ["c".toList, "k".toList] := by decide
        simp only [if_true]
        rw [hf]
        simp only [List.map_cons, List.map_nil, List.prod_cons, List.prod_nil, e1, e3, Int.cast_natCast, Nat.cast_mul]
        simp
    rw [o1, o2, o3]
    rfl

/-- C85, partial: a product of tensors `[.., D, C]` and `[.., C, K]` with up to two batch dimensions, unknown ones counting as 1, is accepted and built; the layer has the operations,
outputs and inputs of the product.  The weights have the batch dimensions exactly when they are produced by another node. Missing: weights with other batch dimensions
(`gemm_weights_false`), unknown sizes in two-dimensional products (`gemm_dynamic_false`), unknown input shapes (`unknown_input_false`). -/
theorem gemm_ok_partial (lead : List Nat) (hl : lead.length ≤ 2) (D C K : Nat) (hD : 0 < D) (hC : 0 < C) (hK : 0 < K) (id : Nat) (preds : List Nat) (hp : preds.length ≤ 2) (p : Precisions) :
    ∃ d b rO rI rW, gemmData id preds p (lead ++ [D, C]) (lead ++ [D, K]) = .ok d ∧ validate d = .ok true ∧ build d = .ok b ∧
      b.macs = (((lead.map known).prod * D * C * K : Nat) : ℚ) ∧
      b.operands = [("O".toList, rO, (((lead.map known).prod * D * K : Nat) : ℚ)), ("I".toList, rI, (((lead.map known).prod * D * C : Nat) : ℚ)),
        ("W".toList, rW, (((if preds.length < 2 then 1 else (lead.map known).prod) * C * K : Nat) : ℚ))] := by
  obtain ⟨src, hs⟩ := operandSource_ok id preds hp
  have bind_ok : ∀ {α β : Type} (x : α) (f : α → Except PyErr β), ((Except.ok x : Except PyErr α) >>= f) = f x := fun _ _ => rfl
  obtain ⟨b, h, hbh, hkn⟩ : ∃ b h, batchHeads (lead ++ [D, C]) (lead ++ [D, K]) = .ok (b, h) ∧ known b * known h = (lead.map known).prod := by
    match lead, hl with
    | [], _ => exact ⟨0, 0, rfl, rfl⟩
    | [i0], _ =>
      refine ⟨if i0 = 0 then 1 else i0, 0, ?_, ?_⟩
      · simp [batchHeads, at!, bind, Except.bind, pure, Except.pure]
      · simp only [List.map_cons, List.map_nil, List.prod_cons, List.prod_nil]
        unfold known
        split_ifs <;> simp_all
    | [i0, i1], _ =>
      refine ⟨if i0 = 0 then 1 else i0, i1, ?_, ?_⟩
      · simp [batchHeads, at!, bind, Except.bind, pure, Except.pure]
      · simp only [List.map_cons, List.map_nil, List.prod_cons, List.prod_nil]
        unfold known
        split_ifs <;> simp_all
  have f1 : fromEnd (lead ++ [D, C]) 2 = .ok D := by simp [fromEnd, at!]
  have f2 : fromEnd (lead ++ [D, K]) 2 = .ok D := by simp [fromEnd, at!]
  have f3 : fromEnd (lead ++ [D, C]) 1 = .ok C := by simp [fromEnd, at!]
  have f4 : fromEnd (lead ++ [D, K]) 1 = .ok K := by simp [fromEnd, at!]
  have hdata : gemmData id preds p (lead ++ [D, C]) (lead ++ [D, K]) = .ok (gemmRecord id src p (decide (preds.length < 2)) C D K b h) := by
    unfold gemmData
    rw [hs, bind_ok, f1, bind_ok, f2, bind_ok, if_neg (by simp), f3, bind_ok, f4, bind_ok, hbh, bind_ok]
    rfl
  obtain ⟨bu, rO, rI, rW, hv, hb, hm, ho⟩ := gemm_record id src p (decide (preds.length < 2)) C D K b h hC hD hK
  refine ⟨_, bu, rO, rI, rW, hdata, hv, hb, ?_, ?_⟩
  · rw [hm, hkn]
  · rw [ho, hkn]
    simp only [decide_eq_true_eq]

example : ∃ d b rO rI rW, gemmData 7 [3, 5] prec8 [0, 12, 64, 32] [0, 12, 64, 16] = .ok d ∧ validate d = .ok true ∧ build d = .ok b ∧ b.macs = ((12 * 64 * 32 * 16 : Nat) : ℚ) ∧
    b.operands = [("O".toList, rO, ((12 * 64 * 16 : Nat) : ℚ)), ("I".toList, rI, ((12 * 64 * 32 : Nat) : ℚ)), ("W".toList, rW, ((12 * 32 * 16 : Nat) : ℚ))] :=
  gemm_ok_partial [0, 12] (by decide) 64 32 16 (by decide) (by decide) (by decide) 7 [3, 5] (by decide) prec8

/-- The precisions a layer should have: those of the activations for inputs and final outputs, of the intermediate results for partial sums. -/
def RightPrecision (d : LayerD) (p : Precisions) (weights : Nat) : Prop :=
  d.precision.get? "I".toList = some (p.act : Int) ∧ d.precision.get? "O_final".toList = some (p.act : Int) ∧
    d.precision.get? "O".toList = some (p.inter : Int) ∧ d.precision.get? "W".toList = some (weights : Int)

/-- C85: the second operand of a product has the precision of weights, or that of activations if it is produced by another node; the other operands have the
precisions of activations and intermediate results. -/
theorem gemm_precision (id : Nat) (preds : List Nat) (p : Precisions) (input output : List Nat) (d : LayerD)
    (h : gemmData id preds p input output = .ok d) : RightPrecision d p (if preds.length < 2 then p.weight else p.act) := by
  unfold gemmData at h
  have step : ∀ {α β : Type} {x : Except PyErr α} {f : α → Except PyErr β} {y : β}, (x >>= f) = .ok y → ∃ a, x = .ok a ∧ f a = .ok y := by
    intro α β x f y hxy
    cases x with
    | error e => cases hxy
    | ok a => exact ⟨a, rfl, hxy⟩
  obtain ⟨src, -, h⟩ := step h
  obtain ⟨i2, -, h⟩ := step h
  obtain ⟨o2, -, h⟩ := step h
  split_ifs at h with hc
  · obtain ⟨_, h0, _⟩ := step h
    cases h0
  · obtain ⟨c, -, h⟩ := step h
    obtain ⟨k, -, h⟩ := step h
    obtain ⟨bh, -, h⟩ := step h
    cases h
    by_cases hp : preds.length < 2
    · simp only [hp, if_true]
      exact ⟨rfl, rfl, rfl, by simp [gemmRecord, precisionDict, Dict.get?, hp]⟩
    · simp only [hp, if_false]
      exact ⟨rfl, rfl, rfl, by simp [gemmRecord, precisionDict, Dict.get?, hp]⟩

example : (gemmData 7 [3, 5] ⟨4, 2, 16⟩ [8, 16] [8, 32]).toOption.map (fun d => d.precision.get? "W".toList) = some (some 4) := by decide +kernel
example : (gemmData 7 [3] ⟨4, 2, 16⟩ [8, 16] [8, 32]).toOption.map (fun d => d.precision.get? "W".toList) = some (some 2) := by decide +kernel

/-- C53: the operands of a convolution have the precisions of activations, weights and intermediate results. -/
theorem conv_precision (id : Nat) (preds : List Nat) (p : Precisions) (kernel strides dilations : List Nat) (group : Nat) (pads ia oa : List Nat) (d : LayerD)
    (h : convData id preds p kernel strides dilations group pads ia oa = .ok d) : RightPrecision d p p.weight := by
  unfold convData at h
  have step : ∀ {α β : Type} {x : Except PyErr α} {f : α → Except PyErr β} {y : β}, (x >>= f) = .ok y → ∃ a, x = .ok a ∧ f a = .ok y := by
    intro α β x f y hxy
    cases x with
    | error e => cases hxy
    | ok a => exact ⟨a, rfl, hxy⟩
  obtain ⟨_, -, h⟩ := step h
  obtain ⟨ia0, -, h⟩ := step h
  obtain ⟨oa0, -, h⟩ := step h
  by_cases hc : ia0 ≠ oa0
  · rw [if_pos hc] at h
    obtain ⟨_, h0, _⟩ := step h
    cases h0
  · rw [if_neg hc] at h
    repeat (obtain ⟨_, -, h⟩ := step h)
    cases h
    exact ⟨rfl, rfl, rfl, rfl⟩

/-- C85: a transposed first input is used in its transposed form. -/
theorem gemm_transposed (n : Node) (preds : List Nat) (m : OModel) (C D K t : Nat) (ht : t ≠ 0) (ha : getAttr "transA" n.attrs (some (.int 0)) = .ok (.int t))
    (hio : ioShapes n m = .ok ([C, D], [D, K])) (p : Precisions) (hp : precisions n.attrs = .ok p) : gemm n preds m = gemmData n.id preds p [D, C] [D, K] := by
  have bind_ok : ∀ {α β : Type} (x : α) (f : α → Except PyErr β), ((Except.ok x : Except PyErr α) >>= f) = f x := fun _ _ => rfl
  have h1 : transposed n [C, D] = .ok [D, C] := by
    unfold transposed
    rw [ha]
    simp [asInt, at!, bind, Except.bind, pure, Except.pure, ht]
  unfold gemm
  rw [hio, bind_ok]
  simp only
  rw [if_neg (by simp), h1, bind_ok]
  have h2 : knownInput n m [D, C] [D, K] = .ok [D, C] := by simp [knownInput]
  rw [h2, bind_ok, hp, bind_ok]

/-- C85: without transposition and with known shapes the shapes are used as they are. -/
theorem gemm_plain (n : Node) (preds : List Nat) (m : OModel) (si so : List Nat) (ha : getAttr "transA" n.attrs (some (.int 0)) = .ok (.int 0))
    (hio : ioShapes n m = .ok (si, so)) (hl : si.length = so.length) (h0 : si ≠ []) (p : Precisions) (hp : precisions n.attrs = .ok p) :
    gemm n preds m = gemmData n.id preds p si so := by
  have bind_ok : ∀ {α β : Type} (x : α) (f : α → Except PyErr β), ((Except.ok x : Except PyErr α) >>= f) = f x := fun _ _ => rfl
  have h1 : transposed n si = .ok si := by
    unfold transposed
    rw [ha]
    simp [asInt, bind, Except.bind, pure, Except.pure]
  unfold gemm
  rw [hio, bind_ok]
  simp only
  rw [if_neg (by simp [hl]), h1, bind_ok]
  have h2 : knownInput n m si so = .ok si := by simp [knownInput, h0]
  rw [h2, bind_ok, hp, bind_ok]

/-- C85 is false for nodes whose input shape is unknown: the way to infer it from the weights is never taken with success. -/
theorem unknown_input_false (n : Node) (preds : List Nat) (m : OModel) (so : List Nat) (hio : ioShapes n m = .ok ([], so)) : ∃ e, gemm n preds m = .error e := by
  have bind_ok : ∀ {α β : Type} (x : α) (f : α → Except PyErr β), ((Except.ok x : Except PyErr α) >>= f) = f x := fun _ _ => rfl
  have bind_err : ∀ {α β : Type} (e : PyErr) (f : α → Except PyErr β), ((Except.error e : Except PyErr α) >>= f) = .error e := fun _ _ => rfl
  unfold gemm
  rw [hio, bind_ok]
  simp only
  by_cases hl : ([] : List Nat).length ≠ so.length
  · rw [if_pos hl]
    exact ⟨.assertion, rfl⟩
  · rw [if_neg hl]
    have hso : so = [] := by
      have : so.length = 0 := by simpa using (Decidable.not_not.1 hl).symm
      exact List.length_eq_zero_iff.1 this
    subst hso
    cases ht : transposed n [] with
    | error e => exact ⟨e, rfl⟩
    | ok l =>
      have hl0 : l = [] := by
        unfold transposed at ht
        cases ha : asInt (getAttr "transA" n.attrs (some (.int 0))) with
        | error e => rw [ha, bind_err] at ht; cases ht
        | ok t =>
          rw [ha, bind_ok] at ht
          by_cases h0 : t = 0
          · rw [if_pos h0] at ht
            cases ht
            rfl
          · rw [if_neg h0] at ht
            simp [bind, Except.bind, throw, throwThe, MonadExceptOf.throw] at ht
      subst hl0
      rw [bind_ok]
      have hk : ∃ e, knownInput n m [] [] = .error e := by
        unfold knownInput
        rw [if_pos rfl]
        unfold inferInput
        cases hw : name! n.input 1 with
        | error e => exact ⟨e, rfl⟩
        | ok w =>
          rw [bind_ok]
          cases hf : m.inits.find? fun t => t.1 == w with
          | none => exact ⟨.valueError, rfl⟩
          | some t =>
            simp only [pure_bind]
            by_cases h2 : t.2.length ≠ 2
            · rw [if_pos h2]; exact ⟨.assertion, rfl⟩
            · rw [if_neg h2]
              cases ha : asInt (getAttr "transB" n.attrs (some (.int 0))) with
              | error e => exact ⟨e, rfl⟩
              | ok tb =>
                simp only [bind_ok]
                cases hd : at! t.2 (if tb ≠ 0 then 1 else 0) with
                | error e => exact ⟨e, rfl⟩
                | ok d0 => exact ⟨.assertion, rfl⟩
      obtain ⟨e, he⟩ := hk
      rw [he]
      exact ⟨e, rfl⟩

/-- C85 is false for weights whose batch dimensions differ from what the number of produced inputs suggests: with constant weights `[8, 16, 32]` the layer has `16 · 32` weights
instead of `8 · 16 · 32`, with produced weights `[16, 32]` it has `8 · 16 · 32` instead of `16 · 32`. -/
theorem gemm_weights_false :
    (∃ d, gemmData 1 [0] prec8 [8, 4, 16] [8, 4, 32] = .ok d ∧ elems (build d) = some (16 * 32)) ∧
    (∃ d, gemmData 1 [0, 0] prec8 [8, 4, 16] [8, 4, 32] = .ok d ∧ elems (build d) = some (8 * 16 * 32)) :=
  ⟨⟨_, rfl, by decide +kernel⟩, ⟨_, rfl, by decide +kernel⟩⟩

/-- C85 is false for two-dimensional products with an unknown first size: the layer cannot be built, while an unknown batch size counts as 1 elsewhere. -/
theorem gemm_dynamic_false : ∃ d, gemmData 1 [0] prec8 [0, 16] [0, 32] = .ok d ∧ validate d = .ok true ∧ build d = .error .zeroDivision :=
  ⟨_, rfl, rfl, errOf_eq _ _ (by decide +kernel)⟩

/-! ### Sources and precisions -/

/-- C86, partial: if a tensor is produced by at most one node, later inputs are constants and weights are produced only if the activations are, the input and the weights of
the layer have the producers of the first two inputs as sources; operands without producer are marked with the id of the layer itself. Missing: other nodes (`source_swapped_false`,
`source_raises_false`). -/
theorem sources_partial (id : Nat) (x w : String) (rest : List String) (prod : String → Option Nat) (hrest : ∀ t ∈ rest, prod t = none)
    (hxw : prod w ≠ none → prod x ≠ none) : ∃ src, operandSource id ((x :: w :: rest).filterMap prod) = .ok src ∧
      src.get? ['I'] = some (((prod x).getD id : Nat) : Int) ∧ src.get? ['W'] = some (((prod w).getD id : Nat) : Int) := by
  have hr : rest.filterMap prod = [] := by
    rw [List.filterMap_eq_nil_iff]
    exact hrest
  cases hx : prod x with
  | none =>
    have hw : prod w = none := by
      by_contra hc
      exact hxw hc hx
    rw [List.filterMap_cons, hx, List.filterMap_cons, hw, hr]
    exact ⟨_, rfl, rfl, rfl⟩
  | some p =>
    cases hw : prod w with
    | none =>
      rw [List.filterMap_cons, hx, List.filterMap_cons, hw, hr]
      exact ⟨_, rfl, rfl, rfl⟩
    | some q =>
      rw [List.filterMap_cons, hx, List.filterMap_cons, hw, hr]
      exact ⟨_, rfl, rfl, rfl⟩

example : ∃ src, operandSource 4 (["x", "w", "bias"].filterMap fun t => if t = "x" then some 2 else none) = .ok src ∧ src.get? ['I'] = some 2 ∧ src.get? ['W'] = some 4 := by
  exact sources_partial 4 "x" "w" ["bias"] _ (by decide) (by decide)

/-- C86 is false if only the weights are produced: their producer becomes the source of the input, and the weights count as constant. -/
theorem source_swapped_false : ∃ src, operandSource 4 (["x", "w"].filterMap fun t => if t = "w" then some 2 else none) = .ok src ∧ src.get? ['I'] = some 2 ∧ src.get? ['W'] = some 4 :=
  ⟨_, rfl, by decide, by decide⟩

/-- C86 is false if a third input is produced as well: parsing raises. -/
theorem source_raises_false : operandSource 4 (["x", "w", "bias"].filterMap fun t => if t = "x" then some 1 else if t = "w" then some 2 else some 3) = .error .valueError := by rfl

/-- C86: precisions are those of the custom attributes, by default 8 bits for activations and weights and twice the activations for intermediate outputs. -/
theorem precisions_spec (attrs : List (String × AttrVal)) (a w o : Option Nat)
    (ha : attrs.find? (fun t => t.1 == "act_size") = a.map fun n => ("act_size", .int n))
    (hw : attrs.find? (fun t => t.1 == "weight_size") = w.map fun n => ("weight_size", .int n))
    (ho : attrs.find? (fun t => t.1 == "output_size") = o.map fun n => ("output_size", .int n)) :
    precisions attrs = .ok ⟨a.getD 8, w.getD 8, o.getD (2 * a.getD 8)⟩ := by
  unfold precisions precisionAttr getAttr
  rw [ha, hw, ho]
  cases a <;> cases w <;> cases o <;> rfl

example : precisions [("group", .int 1), ("act_size", .int 4)] = .ok ⟨4, 8, 8⟩ := precisions_spec _ (some 4) none none rfl rfl rfl

/-- C86: the first description of a tensor with the name is used, inputs before outputs before inner tensors before constants. -/
theorem shape_first (m : OModel) (t : String) (s : List Nat) (h : shape m t = .ok s) : ∃ l r, m.inputs ++ m.outputs ++ m.hidden ++ m.inits = l ++ (t, s) :: r ∧ ∀ e ∈ l, e.1 ≠ t := by
  unfold shape at h
  cases hf : (m.inputs ++ m.outputs ++ m.hidden ++ m.inits).find? fun e => e.1 == t with
  | none => rw [hf] at h; cases h
  | some e =>
    rw [hf] at h
    cases h
    rw [List.find?_eq_some_iff_append] at hf
    obtain ⟨h1, l, r, h2, h3⟩ := hf
    have he : e.1 = t := by simpa using h1
    refine ⟨l, r, ?_, ?_⟩
    · rw [h2, ← he]
    · intro x hx hc
      have := h3 x hx
      simp [hc] at this

end Verif.Onnx
