import Verif.Spec.AxisOps
import Verif.Spec.Reduce
import Verif.Spec.Recurrent
import Verif.Model.Cast

/-!
# Col2Im: configuration and generated code

crates/onnx-ir/src/node/col2im.rs and crates/burn-onnx/src/burn/node/col2im.rs. Negative entries, which become huge numbers, are left out.
-/

namespace OnnxIR

/-- `Col2ImConfig` (onnx-ir col2im.rs:43-56). -/
structure Col2ImConfig where
  image : List Nat
  block : List Nat
  dilations : List Nat
  pads : List Nat
  strides : List Nat

/-- `extract_config` (onnx-ir col2im.rs:160-247); the image and block shapes must be constants. -/
def col2imConfig (image block : Option (List Nat)) (dilations pads strides : Option (List Nat)) : Option Col2ImConfig :=
  image.bind fun im => block.map fun bl =>
    ⟨im, bl, dilations.getD (List.replicate im.length 1), pads.getD (List.replicate (im.length * 2) 0), strides.getD (List.replicate im.length 1)⟩

namespace Gen

/-- `Tensor::<B, 1, Int>::arange(0..size).mul_scalar(f).reshape([1, …, size, …, 1])` (burn-onnx col2im.rs:81-107). -/
def colTerm (r i size f : Nat) : Option (Tensor Int) :=
  Burn.reshape (Tensor.ofFn [size] fun j => ((j.getD 0 0 : Nat) : Int) * (f : Nat)) ((List.replicate r 1).set i size)

/-- The loop over the dimensions from the last to the first (col2im.rs:73-108), for one of the two lists of terms. -/
def colTerms (padded sizes factors : List Nat) : List (Option (Tensor Int)) :=
  let r := padded.length
  ((List.range r).reverse.foldl
    (fun (s : Nat × List (Option (Tensor Int))) i => (s.1 * padded.getD i 0, s.2 ++ [colTerm r i (sizes.getD i 0) (factors.getD i 0 * s.1)])) (1, [])).2

/-- The sum of the terms (col2im.rs:110-132). -/
def colSum : List (Option (Tensor Int)) → Option (Tensor Int)
  | [] => none
  | t :: ts => ts.foldl (fun s u => s.bind fun s => u.bind fun u => Burn.zip (· + ·) s u) t

/-- The indices (col2im.rs:134-138). -/
def colIndices (padded block dilations counts strides : List Nat) : Option (Tensor Int) :=
  (colSum (colTerms padded block dilations)).bind fun b => (Burn.reshape b [prodShape block, 1]).bind fun b =>
    (colSum (colTerms padded counts strides)).bind fun w => (Burn.reshape w [1, prodShape counts]).bind fun w =>
      (Burn.zip (· + ·) b w).bind fun s => Burn.reshape s [prodShape s.shape]

/-- The number of windows (col2im.rs:28-42): differences below zero and divisions by zero panic when the code is generated. -/
def colCount (img before after block dil stride : Nat) : Option Nat :=
  if block = 0 ∨ img + before + after < dil * (block - 1) + 1 ∨ stride = 0 then none
  else some ((img + before + after - (dil * (block - 1) + 1)) / stride + 1)

/-- The numbers of windows; short lists panic. -/
def colCounts (c : Col2ImConfig) : Option (List Nat) :=
  (List.range c.image.length).mapM fun i =>
    c.image[i]?.bind fun im => c.pads[i]?.bind fun pb => c.pads[c.image.length + i]?.bind fun pe => c.block[i]?.bind fun b => c.dilations[i]?.bind fun d =>
      c.strides[i]?.bind fun s => colCount im pb pe b d s

variable {α : Type} [Inhabited α] [AddCommMonoid α]

/-- The checks of `infer_types` (onnx-ir col2im.rs:84-158) and the forward code (burn-onnx col2im.rs:12-223). The canvas is a tensor of floats, so
other inputs do not compile; without spatial dimensions generating code panics. -/
def col2im (dt : DType) (c : Col2ImConfig) (x : Tensor α) : Option (Tensor α) :=
  let r := c.image.length
  if dt.kind ≠ .float ∨ r = 0 ∨ 2 < r then none else
  match x.shape with
  | [n, cols, _] =>
    (colCounts c).bind fun counts =>
      let bp := prodShape c.block
      let total := bp * prodShape counts
      let padded := (List.range r).map fun i => c.image.getD i 0 + c.pads.getD i 0 + c.pads.getD (r + i) 0
      let ch := cols / bp
      (Burn.reshape x [n, ch, total]).bind fun flat =>
        (colIndices padded c.block c.dilations counts c.strides).bind fun ix => (Burn.reshape ix [1, 1, prodShape ix.shape]).bind fun ix =>
          (Burn.expand ix [n, ch, total]).bind fun ix =>
            (Burn.scatterAdd (Tensor.ofFn [n, ch, prodShape padded] fun _ => 0) 2 ix flat).bind fun canvas =>
              (Burn.reshape canvas (n :: ch :: padded)).bind fun canvas =>
                if c.pads.any (· ≠ 0) then
                  Burn.sliceBox canvas ((0, n) :: (0, ch) :: (List.range r).map fun i => (c.pads.getD i 0, c.pads.getD i 0 + c.image.getD i 0))
                else some canvas
  | _ => none

/-- Configuration and code. -/
def genCol2Im (dt : DType) (image block dilations pads strides : Option (List Nat)) (x : Tensor α) : Option (Tensor α) :=
  (col2imConfig image block dilations pads strides).bind fun c => col2im dt c x

end Gen

end OnnxIR
