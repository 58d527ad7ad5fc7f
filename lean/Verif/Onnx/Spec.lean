import Mathlib.Data.Finset.Card
import Mathlib.Data.Finset.Range

/-! The convolution operator of the ONNX standard: tensors are ordered batch, channel, height, width; attribute lists have the height first; `pads` is
`[height begin, width begin, height end, width end]`. -/

namespace Verif.Onnx

/-- A two-dimensional convolution. -/
structure ConvOp where
  n : Nat
  cin : Nat
  hin : Nat
  win : Nat
  m : Nat
  g : Nat
  kh : Nat
  kw : Nat
  sh : Nat
  sw : Nat
  dh : Nat
  dw : Nat
  hb : Nat
  he : Nat
  wb : Nat
  we : Nat

/-- Extent of the output along one axis. -/
def outExtent (size before after k s d : Nat) : Nat := (size + before + after - (d * (k - 1) + 1)) / s + 1

def ConvOp.oh (c : ConvOp) : Nat := outExtent c.hin c.hb c.he c.kh c.sh c.dh
def ConvOp.ow (c : ConvOp) : Nat := outExtent c.win c.wb c.we c.kw c.sw c.dw

def ConvOp.kernel (c : ConvOp) : List Nat := [c.kh, c.kw]
def ConvOp.strides (c : ConvOp) : List Nat := [c.sh, c.sw]
def ConvOp.dilations (c : ConvOp) : List Nat := [c.dh, c.dw]
def ConvOp.pads (c : ConvOp) : List Nat := [c.hb, c.wb, c.he, c.we]
def ConvOp.ia (c : ConvOp) : List Nat := [c.n, c.cin, c.hin, c.win]
def ConvOp.oa (c : ConvOp) : List Nat := [c.n, c.m, c.oh, c.ow]

/-- The batch size; an unknown batch size, written 0, counts as 1. -/
def ConvOp.batch (c : ConvOp) : Nat := if c.n = 0 then 1 else c.n

/-- What the standard requires. -/
structure ConvOp.Valid (c : ConvOp) : Prop where
  cin : 0 < c.cin
  hin : 0 < c.hin
  win : 0 < c.win
  m : 0 < c.m
  g : 0 < c.g
  kh : 0 < c.kh
  kw : 0 < c.kw
  sh : 0 < c.sh
  sw : 0 < c.sw
  dh : 0 < c.dh
  dw : 0 < c.dw
  gin : c.g ∣ c.cin
  gout : c.g ∣ c.m
  fitH : c.dh * (c.kh - 1) + 1 ≤ c.hin + c.hb + c.he
  fitW : c.dw * (c.kw - 1) + 1 ≤ c.win + c.wb + c.we

/-- Number of multiplications. -/
def ConvOp.macs (c : ConvOp) : Nat := c.batch * c.m * c.oh * c.ow * (c.cin / c.g) * c.kh * c.kw

/-- Both axes have the same attributes. -/
def ConvOp.Symmetric (c : ConvOp) : Prop := c.kh = c.kw ∧ c.sh = c.sw ∧ c.dh = c.dw ∧ c.hb = c.wb ∧ c.he = c.we

/-- Number of coordinates of the unpadded input along one axis that some output coordinate `x` and kernel coordinate `f` reads. -/
def touched (size before o k s d : Nat) : Nat :=
  ((Finset.range size).filter fun i => ∃ x ∈ Finset.range o, ∃ f ∈ Finset.range k, s * x + d * f = before + i).card

end Verif.Onnx
