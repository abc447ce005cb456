import Verif.Spec.Tensor
import Mathlib.Data.Rat.Floor

/-!
# Resize: ONNX's value, and what is taken from Burn

Elements and scales are exact rationals. Nearest and linear modes only; of the coordinate modes, not `tf_crop_and_resize` and
`half_pixel_symmetric`.
-/

namespace OnnxIR

/-- The attribute `mode`. -/
inductive ResizeMode | nearest | linear | cubic
deriving DecidableEq

/-- The attribute `coordinate_transformation_mode`. -/
inductive CoordMode | halfPixel | pytorchHalfPixel | alignCorners | asymmetric
deriving DecidableEq

/-- The attribute `nearest_mode`. -/
inductive NearestMode | roundPreferFloor | roundPreferCeil | floor | ceil
deriving DecidableEq

namespace Onnx

/-- The coordinate in the input of the coordinate `o` of the output, along one axis: `s` is the scale, `d` the length of the input and `e`
that of the output. -/
def coord (c : CoordMode) (s : ℚ) (d e o : Nat) : ℚ :=
  match c with
  | .halfPixel => (o + 1 / 2) / s - 1 / 2
  | .pytorchHalfPixel => if 1 < e then (o + 1 / 2) / s - 1 / 2 else 0
  | .alignCorners => if e = 1 then 0 else o * (d - 1) / (e - 1)
  | .asymmetric => o / s

/-- The nearest integer. -/
def nearestInt (n : NearestMode) (x : ℚ) : Int :=
  match n with
  | .roundPreferFloor => ⌈x - 1 / 2⌉
  | .roundPreferCeil => ⌊x + 1 / 2⌋
  | .floor => ⌊x⌋
  | .ceil => ⌈x⌉

/-- Coordinates outside the input stand for those at its border. -/
def border (d : Nat) (k : Int) : Nat := min k.toNat (d - 1)

/-- The element of the input that an element of the output copies. -/
def nearestIdx (c : CoordMode) (n : NearestMode) : List ℚ → List Nat → List Nat → List Nat → List Nat
  | s :: ss, d :: ds, e :: es, o :: os => border d (nearestInt n (coord c s d e o)) :: nearestIdx c n ss ds es os
  | _, _, _, _ => []

/-- Resize in mode `nearest`, with a scale and an output length for every axis. -/
def resizeNearest (c : CoordMode) (n : NearestMode) (ss : List ℚ) (es : List Nat) (x : Tensor ℚ) : Tensor ℚ :=
  Tensor.ofFn es fun o => x.get (nearestIdx c n ss x.shape es o)

/-- Linear interpolation along every axis in turn; `v` is the value at the coordinates still to be given. -/
def lerp (c : CoordMode) : List ℚ → List Nat → List Nat → List Nat → (List Nat → ℚ) → ℚ
  | s :: ss, d :: ds, e :: es, o :: os, v =>
    let x := coord c s d e o
    let t := x - ⌊x⌋
    (1 - t) * lerp c ss ds es os (fun i => v (border d ⌊x⌋ :: i)) + t * lerp c ss ds es os (fun i => v (border d (⌊x⌋ + 1) :: i))
  | _, _, _, _, v => v []

/-- Resize in mode `linear`. -/
def resizeLinear (c : CoordMode) (ss : List ℚ) (es : List Nat) (x : Tensor ℚ) : Tensor ℚ :=
  Tensor.ofFn es fun o => lerp c ss x.shape es o x.get

/-- The output lengths for given scales. -/
def resizeDims (ss : List ℚ) (ds : List Nat) : List Nat := List.zipWith (fun s (d : Nat) => ⌊d * s⌋.toNat) ss ds

/-- The scales for given output lengths. -/
def resizeScales (es ds : List Nat) : List ℚ := List.zipWith (fun (e d : Nat) => (e : ℚ) / d) es ds

end Onnx

namespace Burn

/-- `burn::tensor::module::interpolate` on tensors of rank 4: mode, `align_corners`, height and width of the result. What it computes is not
fixed here: theorems about its results say what they suppose. -/
abbrev Interp := ResizeMode → Bool → Nat → Nat → Tensor ℚ → Option (Tensor ℚ)

/-- Without `align_corners`, nearest neighbours are those of the coordinate `o · d / e`, rounded down. -/
def Interp.NearestFloor (f : Interp) : Prop :=
  ∀ (x : Tensor ℚ) (n c h w oh ow : Nat), x.shape = [n, c, h, w] → 0 < oh → 0 < ow →
    f .nearest false oh ow x = some (Tensor.ofFn [n, c, oh, ow] fun i => x.get [i.getD 0 0, i.getD 1 0, i.getD 2 0 * h / oh, i.getD 3 0 * w / ow])

/-- The coordinates of linear interpolation: the corners of input and output are aligned, or else the borders of their outer pixels. -/
def lerpCoord (align : Bool) (d e o : Nat) : ℚ :=
  if align then (if e = 1 then 0 else o * (d - 1) / (e - 1)) else max 0 ((o + 1 / 2) * d / e - 1 / 2)

/-- Interpolation between two neighbours on a line of length `d`. -/
def lerp1 (x : ℚ) (d : Nat) (v : Nat → ℚ) : ℚ :=
  let a := min ⌊x⌋.toNat (d - 1)
  let b := min (a + 1) (d - 1)
  v a * (1 - (x - ⌊x⌋)) + v b * (x - ⌊x⌋)

/-- Linear interpolation along the last two axes. -/
def Interp.Bilinear (f : Interp) : Prop :=
  ∀ (align : Bool) (x : Tensor ℚ) (n c h w oh ow : Nat), x.shape = [n, c, h, w] → 0 < oh → 0 < ow →
    f .linear align oh ow x = some (Tensor.ofFn [n, c, oh, ow] fun i =>
      lerp1 (lerpCoord align h oh (i.getD 2 0)) h fun a => lerp1 (lerpCoord align w ow (i.getD 3 0)) w fun b => x.get [i.getD 0 0, i.getD 1 0, a, b])

end Burn

end OnnxIR
