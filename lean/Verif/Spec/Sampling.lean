import Mathlib.Algebra.Order.Floor.Ring
import Verif.Spec.WindowOps

/-!
# Operators that sample between elements: DeformConv and GridSample
-/

namespace OnnxIR

variable {α : Type} [Inhabited α]

/-- An element of a plane of a tensor with shape `[_, _, h, w]`; zero outside. -/
def plane [Zero α] (x : Tensor α) (h w n c : Nat) (i j : Int) : α :=
  if 0 ≤ i ∧ i < h ∧ 0 ≤ j ∧ j < w then x.get [n, c, i.toNat, j.toNat] else 0

/-- The four neighbours of a position, weighted by their distance. -/
def corners [Field α] [LinearOrder α] [FloorRing α] (p : Int → Int → α) (y x : α) : α :=
  (1 - Int.fract y) * (1 - Int.fract x) * p ⌊y⌋ ⌊x⌋ + (1 - Int.fract y) * Int.fract x * p ⌊y⌋ (⌊x⌋ + 1) +
    Int.fract y * (1 - Int.fract x) * p (⌊y⌋ + 1) ⌊x⌋ + Int.fract y * Int.fract x * p (⌊y⌋ + 1) (⌊x⌋ + 1)

namespace Onnx

/-- ONNX DeformConv with two axes, `groups` groups of `cg` input and `mg` output channels and `og` groups of `co` channels that share offsets. The
cell `(k, l)` of the window at `(o, p)` is moved by its own offset, first down, then right, and weighted by the mask. -/
structure DeformConvT [Field α] [LinearOrder α] [FloorRing α] (a0 a1 : Axis) (groups co n cg mg o0 o1 : Nat)
    (x w offset : Tensor α) (b mask : Option (Tensor α)) (y : Tensor α) : Prop where
  sizes : a0.Positions o0 ∧ a1.Positions o1
  shape : y.shape = [n, groups * mg, o0, o1]
  value : ∀ i g j o p, i < n → g < groups → j < mg → o < o0 → p < o1 → y.get [i, g * mg + j, o, p] =
    ((List.range cg).map fun c => ((List.range a0.kernel).map fun k => ((List.range a1.kernel).map fun l =>
      let cell := (g * cg + c) / co * (a0.kernel * a1.kernel) + (k * a1.kernel + l)
      let down : α := ((o * a0.stride + k * a0.dilation : Nat) : α) - (a0.before : α) + offset.get [i, 2 * cell, o, p]
      let right : α := ((p * a1.stride + l * a1.dilation : Nat) : α) - (a1.before : α) + offset.get [i, 2 * cell + 1, o, p]
      mask.elim 1 (fun m => m.get [i, cell, o, p]) * corners (plane x a0.input a1.input i (g * cg + c)) down right *
        w.get [g * mg + j, c, k, l]).sum).sum).sum +
    b.elim 0 (fun b => b.get [g * mg + j])

/-- How GridSample interpolates, and what it reads outside the input. -/
inductive SampleMode
  | linear
  | nearest
  | cubic
deriving DecidableEq

inductive SamplePadding
  | zeros
  | border
  | reflection
deriving DecidableEq

/-- The names of the modes: version 16 of the operator calls them after two dimensions, version 20 does not. -/
def SampleMode.text (opset : Nat) : SampleMode → String
  | .linear => if opset < 20 then "bilinear" else "linear"
  | .nearest => "nearest"
  | .cubic => if opset < 20 then "bicubic" else "cubic"

def SamplePadding.text : SamplePadding → String
  | .zeros => "zeros"
  | .border => "border"
  | .reflection => "reflection"

end Onnx

namespace Burn

/-- The interpolation inside deformable convolution. -/
def deformSample [Field α] [LinearOrder α] [FloorRing α] (p : Int → Int → α) (h w : Nat) (y x : α) : α :=
  if y ≤ -1 ∨ (h : α) ≤ y ∨ x ≤ -1 ∨ (w : α) ≤ x then 0 else corners p y x

/-- `DeformConv2d`, whose parameters are loaded into shapes it was made for: a matrix of the samples, one column for every output position and one
row for every channel and cell of the window, is multiplied by the weights of each group. Nothing is assumed about padding that differs at the two
ends. -/
def deformConvModule [Field α] [LinearOrder α] [FloorRing α] (cin cout : Nat) (kernel stride dilation : List Nat) (amounts : List (Nat × Nat))
    (groups og : Nat) (x offset : Tensor α) (mask : Option (Tensor α)) (w : Tensor α) (b : Option (Tensor α)) : Option (Tensor α) :=
  match x.shape, kernel, slides (amounts.map (·.1)) stride dilation with
  | [n, c, h, wd], [k0, k1], [s0, s1] =>
    if groups = 0 ∨ og = 0 ∨ c ≠ cin ∨ cin % groups ≠ 0 ∨ cout % groups ≠ 0 ∨ cin % og ≠ 0 ∨ w.shape ≠ [cout, cin / groups, k0, k1] ∨
      (∃ t, b = some t ∧ t.shape ≠ [cout]) ∨ ¬ amounts.all (fun p => p.1 = p.2) then none else
    match s0.length h k0, s1.length wd k1 with
    | some o0, some o1 =>
      if offset.shape ≠ [n, og * (2 * (k0 * k1)), o0, o1] ∨ (∃ t, mask = some t ∧ t.shape ≠ [n, og * (k0 * k1), o0, o1]) then none else
      let column (i c k o p : Nat) : α :=
        let cell := c / (cin / og) * (k0 * k1) + k
        let y : α := (o : α) * s0.stride + (k / k1 : Nat) * s0.dilation - s0.pad + offset.get [i, 2 * cell, o, p]
        let z : α := (p : α) * s1.stride + (k % k1 : Nat) * s1.dilation - s1.pad + offset.get [i, 2 * cell + 1, o, p]
        mask.elim 1 (fun m => m.get [i, cell, o, p]) * deformSample (plane x h wd i c) h wd y z
      some (Tensor.ofFn [n, cout, o0, o1] fun
        | [i, j, o, p] =>
          ((List.range (cin / groups * (k0 * k1))).map fun r =>
            column i (j / (cout / groups) * (cin / groups) + r / (k0 * k1)) (r % (k0 * k1)) o p *
              w.get [j, r / (k0 * k1), r % (k0 * k1) / k1, r % (k0 * k1) % k1]).sum + b.elim 0 (fun b => b.get [j])
        | _ => 0)
    | _, _ => none
  | _, _, _ => none

/-- `InterpolateMode` and `GridSamplePaddingMode`. -/
inductive InterpolateMode2
  | bilinear
  | nearest
  | bicubic
deriving DecidableEq

inductive GridPadding
  | zeros
  | border
  | reflection
deriving DecidableEq

/-- The names Burn's options have among the operator's modes. -/
def InterpolateMode2.meaning : InterpolateMode2 → Onnx.SampleMode
  | .bilinear => .linear
  | .nearest => .nearest
  | .bicubic => .cubic

def GridPadding.meaning : GridPadding → Onnx.SamplePadding
  | .zeros => .zeros
  | .border => .border
  | .reflection => .reflection

/-- `Tensor::grid_sample_2d` for a given sampler `f`: it exists for tensors with four axes only. -/
def gridSample2d (f : Onnx.SampleMode → Onnx.SamplePadding → Bool → Tensor α → Tensor α → Tensor α) (mode : InterpolateMode2) (padding : GridPadding)
    (alignCorners : Bool) (rank : Nat) (x grid : Tensor α) : Option (Tensor α) :=
  if rank = 4 then some (f mode.meaning padding.meaning alignCorners x grid) else none

end Burn

end OnnxIR
