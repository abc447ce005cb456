import Verif.Spec.Tensor
import Verif.Spec.Window
import Mathlib.Order.BoundedOrder.Basic
import Mathlib.Order.Lattice
import Mathlib.Algebra.Field.Defs
import Mathlib.Algebra.BigOperators.Group.List.Basic

/-!
# Values of convolution and pooling

The ONNX operators, independent of the code, and what Burn's modules compute (trusted). Both are for any number of spatial axes.
-/

namespace OnnxIR

/-! ### ONNX -/

namespace Onnx

/-- Cell number `k` of window number `o`, counted in the input; none if it lies in the padding. -/
def Axis.cell (a : Axis) (o k : Nat) : Option Nat :=
  let c : Int := o * a.stride + k * a.dilation - a.before
  if 0 ≤ c ∧ c < a.input then some c.toNat else none

/-- The same for all axes; none if it lies in the padding of any. -/
def cells : List Axis → List Nat → List Nat → Option (List Nat)
  | a :: as, o :: os, k :: ks =>
    match a.cell o k, cells as os ks with
    | some i, some is => some (i :: is)
    | _, _ => none
  | _, _, _ => some []

/-- An element of the channel `c` of the batch element `n`, or what the padding consists of. -/
def padded {α : Type} [Inhabited α] (fill : α) (x : Tensor α) (n c : Nat) : Option (List Nat) → α
  | some i => x.get (n :: c :: i)
  | none => fill

/-- The axes of an operator with the given amounts of padding, input sizes, window sizes, strides and dilations. -/
def windowAxes : List (Nat × Nat) → List Nat → List Nat → List Nat → List Nat → List Axis
  | p :: ps, x :: xs, k :: ks, s :: ss, d :: ds => ⟨x, p.1, p.2, k, s, d⟩ :: windowAxes ps xs ks ss ds
  | _, _, _, _, _ => []

/-- ONNX Conv for `groups` groups of `cg` input and `mg` output channels: the sum, over the input channels of the group and the cells of the window,
of input times weight, and the bias. The padding consists of zeros. -/
structure ConvT {α : Type} [Inhabited α] [AddCommMonoid α] [Mul α] (as : List Axis) (groups n cg mg : Nat) (outs : List Nat)
    (x w : Tensor α) (b : Option (Tensor α)) (y : Tensor α) : Prop where
  sizes : List.Forall₂ Axis.Positions as outs
  shape : y.shape = n :: groups * mg :: outs
  value : ∀ i g j o, i < n → g < groups → j < mg → InRange outs o → y.get (i :: (g * mg + j) :: o) =
    ((List.range cg).map fun c => ((indices (as.map (·.kernel))).map fun k =>
      padded 0 x i (g * cg + c) (cells as o k) * w.get ((g * mg + j) :: c :: k)).sum).sum +
    b.elim 0 (fun b => b.get [g * mg + j])

/-- ONNX MaxPool: the greatest element of the window that does not lie in the padding, if there is any. -/
structure MaxPoolT {α : Type} [Inhabited α] [LE α] (as : List Axis) (n c : Nat) (outs : List Nat) (x y : Tensor α) : Prop where
  sizes : List.Forall₂ Axis.Positions as outs
  shape : y.shape = n :: c :: outs
  upper : ∀ i j o k r, i < n → j < c → InRange outs o → InRange (as.map (·.kernel)) k → cells as o k = some r →
    x.get (i :: j :: r) ≤ y.get (i :: j :: o)
  attained : ∀ i j o, i < n → j < c → InRange outs o → (∃ k r, InRange (as.map (·.kernel)) k ∧ cells as o k = some r) →
    ∃ k r, InRange (as.map (·.kernel)) k ∧ cells as o k = some r ∧ y.get (i :: j :: o) = x.get (i :: j :: r)

/-- ONNX AveragePool: the sum of the elements of the window that do not lie in the padding, divided by their number, or by the size of the window
if the padding is to be counted. -/
structure AveragePoolT {α : Type} [Inhabited α] [Field α] (as : List Axis) (countPadding : Bool) (n c : Nat) (outs : List Nat)
    (x y : Tensor α) : Prop where
  sizes : List.Forall₂ Axis.Positions as outs
  shape : y.shape = n :: c :: outs
  value : ∀ i j o, i < n → j < c → InRange outs o →
    let inside := (indices (as.map (·.kernel))).filterMap (cells as o)
    y.get (i :: j :: o) = (inside.map fun r => x.get (i :: j :: r)).sum /
      ((if countPadding then prodShape (as.map (·.kernel)) else inside.length : Nat) : α)

/-- ONNX GlobalAveragePool: the average of all elements of a channel. -/
structure GlobalAveragePoolT {α : Type} [Inhabited α] [Field α] (x y : Tensor α) : Prop where
  value : ∃ n c xs, x.shape = n :: c :: xs ∧ y.shape = n :: c :: xs.map (fun _ => 1) ∧ ∀ i j, i < n → j < c →
    y.get (i :: j :: xs.map (fun _ => 0)) = ((indices xs).map fun r => x.get (i :: j :: r)).sum / (prodShape xs : α)

/-- One axis of ConvTranspose. -/
structure TAxis where
  input : Nat
  pad : Nat × Nat
  kernel : Nat
  stride : Nat
  dilation : Nat
  outPad : Nat

/-- Element number `i` of the input, times the weight number `k`, is added to the output number `o`. -/
def TAxis.Adds (a : TAxis) (i k o : Nat) : Prop := i * a.stride + k * a.dilation = o + a.pad.1

instance (a : TAxis) (i k o : Nat) : Decidable (a.Adds i k o) := inferInstanceAs (Decidable (_ = _))

def addsAll : List TAxis → List Nat → List Nat → List Nat → Bool
  | a :: as, i :: is, k :: ks, o :: os => decide (a.Adds i k o) && addsAll as is ks os
  | _, _, _, _ => true

/-- ONNX ConvTranspose for `groups` groups of `cg` input and `mg` output channels. -/
structure ConvTransposeT {α : Type} [Inhabited α] [AddCommMonoid α] [Mul α] (as : List TAxis) (groups n cg mg : Nat) (outs : List Nat)
    (x w : Tensor α) (b : Option (Tensor α)) (y : Tensor α) : Prop where
  sizes : List.Forall₂ (fun (a : TAxis) (l : Nat) => transposedLength a.input a.pad.1 a.pad.2 a.kernel a.stride a.dilation a.outPad = (l : Int)) as outs
  shape : y.shape = n :: groups * mg :: outs
  value : ∀ i g j o, i < n → g < groups → j < mg → InRange outs o → y.get (i :: (g * mg + j) :: o) =
    ((List.range cg).map fun c => ((indices (as.map (·.input))).map fun r => ((indices (as.map (·.kernel))).map fun k =>
      if addsAll as r k o then x.get (i :: (g * cg + c) :: r) * w.get ((g * cg + c) :: j :: k) else 0).sum).sum).sum +
    b.elim 0 (fun b => b.get [g * mg + j])

end Onnx

/-! ### Burn -/

namespace Burn

/-- How a window moves along one axis that is padded by the same amount on both sides. -/
structure Slide where
  pad : Nat
  stride : Nat
  dilation : Nat

/-- The options of all axes. -/
def slides : List Nat → List Nat → List Nat → List Slide
  | p :: ps, s :: ss, d :: ds => ⟨p, s, d⟩ :: slides ps ss ds
  | _, _, _ => []

/-- The number of windows, `(size + 2 * padding - dilation * (kernel - 1) - 1) / stride + 1`; none where this underflows or divides by zero. -/
def Slide.length (s : Slide) (x k : Nat) : Option Nat :=
  if s.stride = 0 ∨ k = 0 ∨ x + 2 * s.pad < s.dilation * (k - 1) + 1 then none
  else some ((x + 2 * s.pad - s.dilation * (k - 1) - 1) / s.stride + 1)

def lengths : List Slide → List Nat → List Nat → Option (List Nat)
  | s :: ss, x :: xs, k :: ks =>
    match s.length x k, lengths ss xs ks with
    | some l, some ls => some (l :: ls)
    | _, _ => none
  | [], [], [] => some []
  | _, _, _ => none

/-- The place a window's cell has in the input; none outside. -/
def place : List Slide → List Nat → List Nat → List Nat → Option (List Nat)
  | s :: ss, x :: xs, o :: os, k :: ks =>
    if o * s.stride + k * s.dilation < s.pad ∨ x ≤ o * s.stride + k * s.dilation - s.pad then none
    else (place ss xs os ks).map ((o * s.stride + k * s.dilation - s.pad) :: ·)
  | _, _, _, _ => some []

variable {α : Type} [Inhabited α]

def element (fill : α) (x : Tensor α) (n c : Nat) : Option (List Nat) → α
  | some i => x.get (n :: c :: i)
  | none => fill

/-- Where an index of the padded input comes from. -/
def unpad : List (Nat × Nat) → List Nat → List Nat → Option (List Nat)
  | p :: ps, x :: xs, i :: is =>
    if i < p.1 ∨ x ≤ i - p.1 then none else (unpad ps xs is).map ((i - p.1) :: ·)
  | _, _, _ => some []

/-- `Tensor::pad` with a constant, for all axes but the first two. -/
def padSpatial (fill : α) (amounts : List (Nat × Nat)) (x : Tensor α) : Tensor α :=
  match x.shape with
  | n :: c :: xs => Tensor.ofFn (n :: c :: List.zipWith (fun (p : Nat × Nat) x => p.1 + x + p.2) amounts xs) fun i =>
    match i with
    | i :: j :: r => element fill x i j (unpad amounts xs r)
    | _ => fill
  | _ => x

/-- What a module does about padding: the same amount on both sides is left to the operation; otherwise the input is padded first. -/
def prepare (fill : α) (amounts : List (Nat × Nat)) (x : Tensor α) : List Nat × Tensor α :=
  if amounts.all (fun p => p.1 = p.2) then (amounts.map (·.1), x) else (amounts.map fun _ => 0, padSpatial fill amounts x)

/-- The convolution operation; none where its arguments are not accepted. -/
def conv [AddCommMonoid α] [Mul α] (ss : List Slide) (groups : Nat) (x w : Tensor α) (b : Option (Tensor α)) : Option (Tensor α) :=
  match x.shape, w.shape with
  | n :: c :: xs, m :: cg :: ks =>
    if groups = 0 ∨ c ≠ groups * cg ∨ m % groups ≠ 0 then none else
    (lengths ss xs ks).map fun outs => Tensor.ofFn (n :: m :: outs) fun i =>
      match i with
      | i :: j :: o =>
        ((List.range cg).map fun c => ((indices ks).map fun k =>
          element 0 x i (j / (m / groups) * cg + c) (place ss xs o k) * w.get (j :: c :: k)).sum).sum +
        b.elim 0 (fun b => b.get [j])
      | _ => 0
  | _, _ => none

/-- `Conv1d`, `Conv2d` and `Conv3d`: a module for `cin` and `cout` channels, whose parameters are then loaded, which needs the shapes it was made
with. -/
def convModule [AddCommMonoid α] [Mul α] (cin cout : Nat) (kernel stride dilation : List Nat) (amounts : List (Nat × Nat)) (groups : Nat)
    (x w : Tensor α) (b : Option (Tensor α)) : Option (Tensor α) :=
  if groups = 0 ∨ cin % groups ≠ 0 ∨ w.shape ≠ cout :: cin / groups :: kernel ∨ (∃ t, b = some t ∧ t.shape ≠ [cout]) then none else
  let p := prepare 0 amounts x
  conv (slides p.1 stride dilation) groups p.2 w b

/-- `MaxPool1d` and `MaxPool2d` without `ceil_mode`; `⊥` is minus infinity. -/
def maxPoolModule [LinearOrder α] [OrderBot α] (kernel stride dilation : List Nat) (amounts : List (Nat × Nat)) (x : Tensor α) :
    Option (Tensor α) :=
  let p := prepare ⊥ amounts x
  match p.2.shape with
  | n :: c :: xs => (lengths (slides p.1 stride dilation) xs kernel).map fun outs => Tensor.ofFn (n :: c :: outs) fun i =>
    match i with
    | i :: j :: o => ((indices kernel).map fun k => element ⊥ p.2 i j (place (slides p.1 stride dilation) xs o k)).foldl max ⊥
    | _ => ⊥
  | _ => none

/-- `AvgPool1d` and `AvgPool2d` without `ceil_mode`. Nothing is assumed about amounts that differ while the padding is not to be counted. -/
def avgPoolModule [Field α] (kernel stride : List Nat) (amounts : List (Nat × Nat)) (countPadding : Bool) (x : Tensor α) : Option (Tensor α) :=
  if !countPadding && !amounts.all (fun p => p.1 = p.2) then none else
  let p := prepare 0 amounts x
  let ss := slides p.1 stride (kernel.map fun _ => 1)
  match p.2.shape with
  | n :: c :: xs => (lengths ss xs kernel).map fun outs => Tensor.ofFn (n :: c :: outs) fun i =>
    match i with
    | i :: j :: o =>
      ((indices kernel).map fun k => element 0 p.2 i j (place ss xs o k)).sum /
        ((if countPadding then prodShape kernel else (indices kernel).countP fun k => (place ss xs o k).isSome : Nat) : α)
    | _ => 0
  | _ => none

/-- One axis of an adaptive pooling: output number `o` of `out` covers the input from `o * x / out` (rounded down) to `(o + 1) * x / out` (rounded
up). -/
def adaptiveRange (x out o : Nat) : List Nat :=
  (List.range x).filter fun i => o * x / out ≤ i ∧ i < ((o + 1) * x + out - 1) / out

def adaptiveCells : List Nat → List Nat → List Nat → List (List Nat)
  | x :: xs, out :: outs, o :: os => (adaptiveRange x out o).flatMap fun i => (adaptiveCells xs outs os).map (i :: ·)
  | _, _, _ => [[]]

/-- `AdaptiveAvgPool1d` and `AdaptiveAvgPool2d`. -/
def adaptiveAvgPool [Field α] (outs : List Nat) (x : Tensor α) : Option (Tensor α) :=
  match x.shape with
  | n :: c :: xs => if xs.length ≠ outs.length then none else some <| Tensor.ofFn (n :: c :: outs) fun i =>
    match i with
    | i :: j :: o =>
      let r := adaptiveCells xs outs o
      (r.map fun r => x.get (i :: j :: r)).sum / (r.length : α)
    | _ => 0
  | _ => none

/-- One axis of a transposed convolution. -/
structure TSlide where
  pad : Nat
  stride : Nat
  dilation : Nat
  outPad : Nat

def tslides : List Nat → List Nat → List Nat → List Nat → List TSlide
  | p :: ps, s :: ss, d :: ds, q :: qs => ⟨p, s, d, q⟩ :: tslides ps ss ds qs
  | _, _, _, _ => []

/-- The length of the output, `(size - 1) * stride + dilation * (kernel - 1) + padding_out - 2 * padding + 1`; none where this underflows, and for
stride zero. -/
def TSlide.length (s : TSlide) (x k : Nat) : Option Nat :=
  if s.stride = 0 ∨ k = 0 ∨ x = 0 ∨ (x - 1) * s.stride + s.dilation * (k - 1) + s.outPad + 1 < 2 * s.pad then none
  else some ((x - 1) * s.stride + s.dilation * (k - 1) + s.outPad + 1 - 2 * s.pad)

def tlengths : List TSlide → List Nat → List Nat → Option (List Nat)
  | s :: ss, x :: xs, k :: ks =>
    match s.length x k, tlengths ss xs ks with
    | some l, some ls => some (l :: ls)
    | _, _ => none
  | [], [], [] => some []
  | _, _, _ => none

/-- The input that the cell `k` of the weight brings to the output `o`, if any. -/
def source : List TSlide → List Nat → List Nat → List Nat → Option (List Nat)
  | s :: ss, x :: xs, o :: os, k :: ks =>
    let t : Int := o + s.pad - k * s.dilation
    if t < 0 ∨ t % s.stride ≠ 0 ∨ x ≤ (t / s.stride).toNat then none
    else (source ss xs os ks).map ((t / s.stride).toNat :: ·)
  | _, _, _, _ => some []

/-- `ConvTranspose1d`, `ConvTranspose2d` and `ConvTranspose3d`: every input element adds a multiple of the weight to the output. -/
def convTransposeModule [AddCommMonoid α] [Mul α] (cin cout : Nat) (kernel : List Nat) (ss : List TSlide) (groups : Nat)
    (x w : Tensor α) (b : Option (Tensor α)) : Option (Tensor α) :=
  if groups = 0 ∨ cout % groups ≠ 0 ∨ cin % groups ≠ 0 ∨ w.shape ≠ cin :: cout / groups :: kernel ∨ (∃ t, b = some t ∧ t.shape ≠ [cout]) then none
  else match x.shape with
  | n :: c :: xs =>
    if c ≠ cin then none else
    (tlengths ss xs kernel).map fun outs => Tensor.ofFn (n :: cout :: outs) fun i =>
      match i with
      | i :: j :: o =>
        ((List.range (cin / groups)).map fun c => ((indices kernel).map fun k =>
          match source ss xs o k with
          | some r => x.get (i :: (j / (cout / groups) * (cin / groups) + c) :: r) *
              w.get ((j / (cout / groups) * (cin / groups) + c) :: j % (cout / groups) :: k)
          | none => 0).sum).sum +
        b.elim 0 (fun b => b.get [j])
      | _ => 0
  | _ => none

end Burn

end OnnxIR
